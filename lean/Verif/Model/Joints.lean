import Mathlib.Data.Nat.Basic
import Mathlib.Data.List.Basic
set_option linter.unusedSectionVars false
/-!
# Model of the functions on the tree of joints
(`tools.cc`, `tools.hh`, `LockFromRoot` of `projection.cc`, `AddLimbPrivate` of `rbprm-fullbody.cc`, `DisableUnNecessaryCollisions` of `time-constraint-helper.inl`, `GetEffector` of `rbprm-limb.cc`)

A collision validation (or the validations of a problem) is the list of its pairs (joint, obstacle); pairs of bodies of the robot are not modelled. As hpp-core does,
`removeObstacleFromJoint` throws if there is no such pair (in particular for a joint without geometry).
-/
namespace Rbprm
namespace Joints
variable {N K O : Type _} [DecidableEq N] [DecidableEq O]

/-- `pinocchio::Joint`: name, `rankInConfiguration`, `configSize`, children [hpp-pinocchio, used in tools.cc:111-156] -/
inductive Joint (N : Type _) where
  | mk (name : N) (rank size : ℕ) (children : List (Joint N))

/-- `name()` [hpp-pinocchio, used in tools.cc:111-156] -/
def Joint.name : Joint N → N
  | .mk n _ _ _ => n
/-- `rankInConfiguration()` [hpp-pinocchio, used in tools.cc:111-156] -/
def Joint.rank : Joint N → ℕ
  | .mk _ r _ _ => r
/-- `configSize()` [hpp-pinocchio, used in tools.cc:111-156] -/
def Joint.size : Joint N → ℕ
  | .mk _ _ s _ => s
/-- `childJoint(i)` [hpp-pinocchio, used in tools.cc:111-156] -/
def Joint.children : Joint N → List (Joint N)
  | .mk _ _ _ cs => cs

/-- `core::LockedJoint`: the joint, where its coordinates are, and their values [hpp-core, created in tools.cc:111-125] -/
structure Lock (N K : Type _) where
  joint : N
  rank : ℕ
  value : List K
deriving DecidableEq

/-- `segment(rankInConfiguration, configSize)` [tools.cc:111-125] -/
def segment (q : List K) (rank size : ℕ) : List K := (q.drop rank).take size

mutual
/-- tools.cc:125-158 `LockJointRec`, projection.cc:233-250 `LockFromRootRec`: the locked joints added to the projector; `stop`: the test at the beginning -/
def lockRec (stop : N → Bool) (q : List K) : Joint N → List (Lock N K)
  | .mk n r s cs => if stop n then [] else ⟨n, r, segment q r s⟩ :: lockList stop q cs
/-- the loop on the children [tools.cc:127-156] -/
def lockList (stop : N → Bool) (q : List K) : List (Joint N) → List (Lock N K)
  | [] => []
  | c :: cs => lockRec stop q c ++ lockList stop q cs
end

/-- tools.cc:125-138 `LockJointRec` (one chain spared): `current` is the current configuration of the device -/
def lockJointRec (spared : N) (current : List K) (joint : Joint N) : List (Lock N K) := lockRec (fun n => n == spared) current joint

/-- tools.cc:140-158 `LockJointRec` (several chains spared) -/
def lockJointsRec (spared : List N) (current : List K) (joint : Joint N) : List (Lock N K) := lockRec (fun n => spared.contains n) current joint

/-- projection.cc:252-260 `LockFromRoot`: `limbs` are the joints of the limbs of the robot (218-231 `getJointsFromLimbs`, `not_a_limb`) -/
def lockFromRoot (limbs : List N) (target : List K) (root : Joint N) : List (Lock N K) := lockRec (fun n => limbs.any (fun l => n == l)) target root

/-! ### collision pairs -/

/-- the effector of a limb: name of the frame, name of the joint it is attached to [rbprm-limb.cc:66-75] -/
structure Effector (N : Type _) where
  frame : N
  joint : N

/-- tools.hh:150-157: the joints at which `addLimbCollisionRec` stops when collisions of the effector are disabled -/
def stops (eff : Effector N) (disable : Bool) : Joint N → Bool
  | .mk n _ _ cs => disable && (n == eff.frame || n == eff.joint || cs.isEmpty)

mutual
/-- tools.hh:143-164 `addLimbCollisionRec`: the pairs added -/
def addLimbCollision (eff : Effector N) (disable : Bool) (objects : List O) : Joint N → List (N × O)
  | .mk n r s cs => if stops eff disable (.mk n r s cs) then [] else objects.map (fun o => (n, o)) ++ addLimbCollisions eff disable objects cs
/-- the loop on the children [tools.hh:143-164] -/
def addLimbCollisions (eff : Effector N) (disable : Bool) (objects : List O) : List (Joint N) → List (N × O)
  | [] => []
  | c :: cs => addLimbCollision eff disable objects c ++ addLimbCollisions eff disable objects cs
end

/-- a limb [rbprm-limb.hh:51-161] -/
structure Limb (N : Type _) where
  joint : Joint N
  effector : Effector N
  disable : Bool

/-- rbprm-fullbody.cc:62-83: pairs of the validation of the limb and of that of the body; `first`: the robot has no limb of the same kind yet -/
def addLimb (root : Joint N) (objects : List O) (first : Bool) (body : List (N × O)) (l : Limb N) : List (N × O) × List (N × O) :=
  (addLimbCollision l.effector l.disable objects l.joint, if first then body ++ addLimbCollision l.effector l.disable objects root else body)

/-- the validation of the body after limbs with contacts were added to a robot without limbs [rbprm-fullbody.cc:62-123] -/
def bodyPairs (root : Joint N) (objects : List O) : List (Limb N) → List (N × O)
  | [] => []
  | l :: ls => (ls.foldl (fun b l' => (addLimb root objects false b l').2) (addLimb root objects true [] l).2)

/-- `removeObstacleFromJoint`; `none`: throws [hpp-core, called in tools.hh:104-212] -/
def removePair (pairs : List (N × O)) (n : N) (o : O) : Option (List (N × O)) := if (n, o) ∈ pairs then some (pairs.filter fun p => p ≠ (n, o)) else none

mutual
/-- tools.hh:104-139 `RemoveEffectorCollision`, `RemoveEffectorCollisionRec` for an obstacle -/
def removeEffector (o : O) : Joint N → List (N × O) → List (N × O)
  | .mk n _ _ cs, pairs =>
    match removePair pairs n o with
    | none => pairs
    | some pairs' => removeEffectors o cs pairs'
/-- the loop on the children [tools.hh:104-139] -/
def removeEffectors (o : O) : List (Joint N) → List (N × O) → List (N × O)
  | [], pairs => pairs
  | c :: cs, pairs => removeEffectors o cs (removeEffector o c pairs)
end

/-- tools.hh:117-124 `RemoveEffectorCollision` for all obstacles -/
def removeEffectorAll (objects : List O) (j : Joint N) (pairs : List (N × O)) : List (N × O) := objects.foldl (fun p o => removeEffector o j p) pairs

/-- tools.hh:199-206: the loop on the obstacles; the second component is false when an exception was caught -/
def removeObjects (n : N) : List O → List (N × O) → List (N × O) × Bool
  | [], pairs => (pairs, true)
  | o :: os, pairs =>
    match removePair pairs n o with
    | none => (pairs, false)
    | some pairs' => removeObjects n os pairs'

mutual
/-- tools.hh:191-212 `RemoveNonLimbCollisionRec` (several chains kept) -/
def removeNonLimb (keepers : List N) (objects : List O) : Joint N → List (N × O) → List (N × O)
  | .mk n _ _ cs, pairs =>
    if keepers.contains n then pairs
    else
      match removeObjects n objects pairs with
      | (pairs', false) => pairs'
      | (pairs', true) => removeNonLimbs keepers objects cs pairs'
/-- the loop on the children [tools.hh:191-212] -/
def removeNonLimbs (keepers : List N) (objects : List O) : List (Joint N) → List (N × O) → List (N × O)
  | [], pairs => pairs
  | c :: cs, pairs => removeNonLimbs keepers objects cs (removeNonLimb keepers objects c pairs)
end

mutual
/-- `getJointByName`; `none`: throws [hpp-pinocchio, called in time-constraint-helper.inl:105-123] -/
def findJoint (n : N) : Joint N → Option (Joint N)
  | .mk m r s cs => if m = n then some (.mk m r s cs) else findJoints n cs
/-- the loop on the children [hpp-pinocchio, called in time-constraint-helper.inl:105-123] -/
def findJoints (n : N) : List (Joint N) → Option (Joint N)
  | [] => none
  | c :: cs => match findJoint n c with
    | some j => some j
    | none => findJoints n cs
end

/-- time-constraint-helper.inl:105-125 `DisableUnNecessaryCollisions`, loop; `none`: `getJointByName` throws -/
def removeMoving (root : Joint N) (objects : List O) : List (Limb N) → List (N × O) → Option (List (N × O))
  | [], pairs => some pairs
  | l :: ls, pairs =>
    if l.disable then
      match findJoint l.effector.frame root with
      | none => none
      | some j => removeMoving root objects ls (removeEffectorAll objects j pairs)
    else removeMoving root objects ls pairs

/-- time-constraint-helper.inl:105-145 `DisableUnNecessaryCollisions`, called if limbs move: `moving` are the limbs that move between the two states -/
def disableCollisions (root : Joint N) (objects : List O) (moving : List (Limb N)) (pairs : List (N × O)) : Option (List (N × O)) :=
  if moving.isEmpty then some pairs
  else (removeMoving root objects moving pairs).map (removeNonLimb (moving.map fun l => l.joint.name) objects root)

/-- rbprm-limb.cc:65-74 `GetEffector` without a name: the last joint of the chain of first children -/
def lastJoint : Joint N → N
  | .mk n _ _ [] => n
  | .mk _ _ _ (c :: _) => lastJoint c

end Joints
end Rbprm
