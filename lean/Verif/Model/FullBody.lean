import Verif.Base.AMap
import Mathlib.Data.Nat.Basic
set_option linter.unusedSectionVars false
/-!
# Model of the registries of `rbprm-fullbody.cc`, of `HeuristicFactory::AddHeuristic` and `AnalysisFactory::AddAnalysis`

Names (`std::string`) are an ordered type `N`, limbs an arbitrary type `L`, collision objects `C`, trajectories `T`,
heuristic functions `F`.  An operation that throws leaves the object as it was up to the throw: it returns `.threw` and the object.
The contents of the collision validations are the lists of objects they were given; `filterCollisionPairs` and
`RelativeMotion` (l.107-110) are not modelled.
-/
namespace Rbprm
namespace Registry

/-- how a call ended: returned (with a flag, `true` for `void` functions) or threw [rbprm-fullbody.cc:57-308] -/
inductive Outcome where
  | returned (b : Bool)
  | threw
deriving DecidableEq, Repr

/-- rbprm-fullbody.hh:180-215 the registries of `RbPrmFullBody`.  `bodyObstacles` is what `collisionValidation_` was
given. -/
structure FullBody (N L C F T : Type _) where
  limbs : AMap N L
  nonContactingLimbs : AMap N L
  limbCollisionValidations : AMap N (List C)
  limbGroups : AMap N (List N)
  bodyObstacles : List C
  heuristics : AMap N F
  effectorsTrajectories : AMap Nat (AMap N (List T))

variable {N L C F T : Type _} [LinearOrder N]

/-- rbprm-fullbody.cc:353-365 constructor; `heuristics` are those of the factory. -/
def FullBody.create (heuristics : AMap N F) : FullBody N L C F T := ⟨[], [], [], [], [], heuristics, []⟩

/-- heuristic.cc:342-347 `AddHeuristic` (and analysis.cc:391-396 `AddAnalysis`) on a factory. -/
def addNamed (m : AMap N F) (name : N) (f : F) : Bool × AMap N F :=
  match AMap.find? m name with
  | some _ => (false, m)
  | none => (true, AMap.insertNew m name f)

/-- rbprm-fullbody.cc:57-60 `AddHeuristic`. -/
def addHeuristic (fb : FullBody N L C F T) (name : N) (f : F) : Bool × FullBody N L C F T :=
  let r := addNamed fb.heuristics name f
  (r.1, { fb with heuristics := r.2 })

/-- rbprm-fullbody.cc:62-123 `AddLimbPrivate`. -/
def addLimbPrivate (fb : FullBody N L C F T) (limb : L) (id name : N) (collisionObjects : List C)
    (nonContactingLimb : Bool) : FullBody N L C F T :=
  let limbs := if nonContactingLimb then fb.nonContactingLimbs else fb.limbs
  { fb with
    bodyObstacles := if limbs.isEmpty then fb.bodyObstacles ++ collisionObjects else fb.bodyObstacles
    nonContactingLimbs :=
      if nonContactingLimb then AMap.insertNew fb.nonContactingLimbs id limb else fb.nonContactingLimbs
    limbs := if nonContactingLimb then fb.limbs else AMap.insertNew fb.limbs id limb
    limbCollisionValidations := AMap.insertNew fb.limbCollisionValidations id collisionObjects
    limbGroups := match AMap.find? fb.limbGroups name with
      | some group => AMap.set fb.limbGroups name (group ++ [id])
      | none => AMap.insertNew fb.limbGroups name [id] }

/-- rbprm-fullbody.cc:125-140 `checkLimbData`: `none` is an exception. -/
def checkLimbData (id : N) (limbs : AMap N L) (heuristics : AMap N F) (heuristicName : N) : Option F :=
  match AMap.find? limbs id with
  | some _ => none
  | none => AMap.find? heuristics heuristicName

/-- rbprm-fullbody.cc:142-160 `AddLimb`; `create` is `getJointByName` and `RbPrmLimb::create` with the heuristic found
(`none`: an exception). -/
def addLimb (fb : FullBody N L C F T) (id name heuristicName : N) (create : F → Option L)
    (collisionObjects : List C) : Outcome × FullBody N L C F T :=
  match checkLimbData id fb.limbs fb.heuristics heuristicName with
  | none => (.threw, fb)
  | some h =>
    match create h with
    | none => (.threw, fb)
    | some limb => (.returned true, addLimbPrivate fb limb id name collisionObjects false)

/-- rbprm-fullbody.cc:162-174 `AddNonContactingLimb`; `static` is the name "static". -/
def addNonContactingLimb (fb : FullBody N L C F T) (static id name : N) (create : F → Option L)
    (collisionObjects : List C) : Outcome × FullBody N L C F T :=
  match checkLimbData id fb.nonContactingLimbs fb.heuristics static with
  | none => (.threw, fb)
  | some h =>
    match create h with
    | none => (.threw, fb)
    | some limb => (.returned true, addLimbPrivate fb limb id name collisionObjects true)

/-- rbprm-fullbody.cc:176-192 `AddLimb` from a database file: `load` is the name of the limb's joint and the limb
read, `none`
if the file cannot be opened. -/
def addLimbDatabase (fb : FullBody N L C F T) (id heuristicName : N) (load : Option (N × (F → L)))
    (collisionObjects : List C) : Outcome × FullBody N L C F T :=
  match checkLimbData id fb.limbs fb.heuristics heuristicName with
  | none => (.threw, fb)
  | some h =>
    match load with
    | none => (.threw, fb)
    | some (name, limb) => (.returned true, addLimbPrivate fb (limb h) id name collisionObjects false)

/-- rbprm-fullbody.cc:194-211 `GetLimb`: `none` is an exception. -/
def getLimb (fb : FullBody N L C F T) (name : N) (onlyWithContact : Bool) : Option L :=
  match AMap.find? fb.limbs name with
  | some l => some l
  | none => if onlyWithContact then none else AMap.find? fb.nonContactingLimbs name

/-- rbprm-fullbody.cc:292-308 `toggleNonContactingLimb`. -/
def toggleNonContactingLimb (fb : FullBody N L C F T) (name : N) : Outcome × FullBody N L C F T :=
  match AMap.find? fb.limbs name with
  | some l => (.returned true, { fb with
      nonContactingLimbs := AMap.insertNew fb.nonContactingLimbs name l, limbs := AMap.erase fb.limbs name })
  | none =>
    match AMap.find? fb.nonContactingLimbs name with
    | some l => (.returned true, { fb with
        limbs := AMap.insertNew fb.limbs name l, nonContactingLimbs := AMap.erase fb.nonContactingLimbs name })
    | none => (.returned false, fb)

/-- `std::map::insert`, with its flag [standard library; rbprm-fullbody.cc:57-60, 213-232] -/
def insertFlag {I V : Type _} [LinearOrder I] (m : AMap I V) (k : I) (v : V) : Bool × AMap I V :=
  (!AMap.has m k, AMap.insertNew m k v)

/-- rbprm-fullbody.cc:213-232 `addEffectorTrajectory` (several trajectories). -/
def addEffectorTrajectories (fb : FullBody N L C F T) (pathId : Nat) (effectorName : N) (trajectories : List T) :
    Bool × FullBody N L C F T :=
  match AMap.find? fb.effectorsTrajectories pathId with
  | none =>
    let map := AMap.insertNew ([] : AMap N (List T)) effectorName trajectories
    let r := insertFlag fb.effectorsTrajectories pathId map
    (r.1, { fb with effectorsTrajectories := r.2 })
  | some map =>
    let r := insertFlag map effectorName trajectories
    (r.1, { fb with effectorsTrajectories := AMap.set fb.effectorsTrajectories pathId r.2 })

/-- rbprm-fullbody.cc:234-269 `addEffectorTrajectory` (one trajectory). -/
def addEffectorTrajectory (fb : FullBody N L C F T) (pathId : Nat) (effectorName : N) (trajectory : T) :
    Bool × FullBody N L C F T :=
  match AMap.find? fb.effectorsTrajectories pathId with
  | none =>
    let map := AMap.insertNew ([] : AMap N (List T)) effectorName [trajectory]
    let r := insertFlag fb.effectorsTrajectories pathId map
    (r.1, { fb with effectorsTrajectories := r.2 })
  | some map =>
    match AMap.find? map effectorName with
    | none =>
      let r := insertFlag map effectorName [trajectory]
      (r.1, { fb with effectorsTrajectories := AMap.set fb.effectorsTrajectories pathId r.2 })
    | some l =>
      let maps := AMap.set fb.effectorsTrajectories pathId (AMap.set map effectorName (l ++ [trajectory]))
      (true, { fb with effectorsTrajectories := maps })

/-- rbprm-fullbody.cc:271-278 `getEffectorsTrajectories`: `none` is the return value false. -/
def getEffectorsTrajectories (fb : FullBody N L C F T) (pathId : Nat) : Option (AMap N (List T)) :=
  AMap.find? fb.effectorsTrajectories pathId

/-- rbprm-fullbody.cc:280-290 `getEffectorTrajectory`: `none` is the return value false. -/
def getEffectorTrajectory (fb : FullBody N L C F T) (pathId : Nat) (effectorName : N) : Option (List T) :=
  match AMap.find? fb.effectorsTrajectories pathId with
  | none => none
  | some map => AMap.find? map effectorName

/-- the calls on a full body [rbprm-fullbody.cc:57-308] -/
inductive Op (N L C F T : Type _) where
  | addLimb (id name heuristicName : N) (create : F → Option L) (objects : List C)
  | addLimbDatabase (id heuristicName : N) (load : Option (N × (F → L))) (objects : List C)
  | addNonContactingLimb (id name : N) (create : F → Option L) (objects : List C)
  | toggle (name : N)
  | addHeuristic (name : N) (f : F)
  | addTrajectories (pathId : Nat) (effector : N) (l : List T)
  | addTrajectory (pathId : Nat) (effector : N) (t : T)

/-- one call (the functions above) [rbprm-fullbody.cc:57-308] -/
def step (static : N) (fb : FullBody N L C F T) : Op N L C F T → Outcome × FullBody N L C F T
  | .addLimb id name h create objs => addLimb fb id name h create objs
  | .addLimbDatabase id h load objs => addLimbDatabase fb id h load objs
  | .addNonContactingLimb id name create objs => addNonContactingLimb fb static id name create objs
  | .toggle name => toggleNonContactingLimb fb name
  | .addHeuristic name f => (.returned (addHeuristic fb name f).1, (addHeuristic fb name f).2)
  | .addTrajectories p e l => (.returned (addEffectorTrajectories fb p e l).1, (addEffectorTrajectories fb p e l).2)
  | .addTrajectory p e t => (.returned (addEffectorTrajectory fb p e t).1, (addEffectorTrajectory fb p e t).2)

/-- a history of calls: the outcomes and the final object [rbprm-fullbody.cc:57-308] -/
def run (static : N) : FullBody N L C F T → List (Op N L C F T) → List Outcome × FullBody N L C F T
  | fb, [] => ([], fb)
  | fb, op :: ops =>
    let r := step static fb op
    let rs := run static r.2 ops
    (r.1 :: rs.1, rs.2)

end Registry
end Rbprm
