import Verif.Model.State
import Verif.Model.Interp
import Verif.Model.Joints
import Verif.Model.Triangle
import Mathlib.Analysis.SpecialFunctions.Pow.NNReal
set_option linter.unusedSectionVars false
/-!
# Model of `projection.cc`, at the level of the constraints given to the projector; `GetRotationMatrix` of `tools.cc`

Numbers are reals. A constraint is the equation it stands for; the projector is an oracle that gets the list of constraints and a configuration and returns an answer and a
configuration, with the contract `Robot.Exact` of the specification: when it answers true the constraints hold exactly (in the code: up to the error threshold).
-/
namespace Rbprm
namespace Proj
variable {N : Type _} [LinearOrder N]
open Joints (Joint)

/-- `v.norm()` [Eigen, used in projection.cc:458-489] -/
noncomputable def norm (v : Vec3 ℝ) : ℝ := Real.sqrt (Vec3.normSq v)

/-- `v.normalized()`, `v.normalize()`: Eigen leaves the null vector as it is [Eigen, used in projection.cc:602-649] -/
noncomputable def normalized (v : Vec3 ℝ) : Vec3 ℝ := if 0 < Vec3.normSq v then Vec3.smul (1 / norm v) v else v

/-- a quaternion [Eigen, used in tools.cc:30-35] -/
structure Quat where
  w : ℝ
  x : ℝ
  y : ℝ
  z : ℝ

/-- Eigen `QuaternionBase::toRotationMatrix` [used in tools.cc:30-35] -/
def Quat.toMatrix (q : Quat) : Mat3 ℝ :=
  let tx := 2 * q.x
  let ty := 2 * q.y
  let tz := 2 * q.z
  ⟨⟨1 - (ty * q.y + tz * q.z), ty * q.x - tz * q.w, tz * q.x + ty * q.w⟩,
   ⟨ty * q.x + tz * q.w, 1 - (tx * q.x + tz * q.z), tz * q.y - tx * q.w⟩,
   ⟨tz * q.x - ty * q.w, tz * q.y + tx * q.w, 1 - (tx * q.x + ty * q.y)⟩⟩

/-- Eigen `QuaternionBase::setFromTwoVectors`; `axis`: the last column of the matrix V of the singular value decomposition of the matrix whose rows are the two unit vectors, used when they are opposite (the code takes
this branch below `-1 + 1e-12`) [used in tools.cc:30-35] -/
noncomputable def fromTwoVectors (axis : Vec3 ℝ → Vec3 ℝ → Vec3 ℝ) (a b : Vec3 ℝ) : Quat :=
  let v0 := normalized a
  let v1 := normalized b
  let c := Vec3.dot v1 v0
  if c ≤ -1 then
    let c := max c (-1)
    let axis := axis v0 v1
    let w2 := (1 + c) * (1 / 2)
    let s := Real.sqrt (1 - w2)
    ⟨Real.sqrt w2, axis.x * s, axis.y * s, axis.z * s⟩
  else
    let axis := Vec3.cross v0 v1
    let s := Real.sqrt ((1 + c) * 2)
    let invs := 1 / s
    ⟨s * (1 / 2), axis.x * invs, axis.y * invs, axis.z * invs⟩

/-- tools.cc:30-35 `GetRotationMatrix` -/
noncomputable def rotationBetween (axis : Vec3 ℝ → Vec3 ℝ → Vec3 ℝ) (a b : Vec3 ℝ) : Mat3 ℝ := (fromTwoVectors axis a b).toMatrix

/-- a limb [rbprm-limb.hh:51-161] -/
structure Limb (N : Type _) where
  contact : Interp.CLimb ℝ
  offset : Vec3 ℝ
  normal : Vec3 ℝ
  joint : N

/-- a constraint given to the projector [projection.cc:47-202, 352-416] -/
inductive Constraint (N : Type _) where
  /-- constraints of a contact (projection.cc:47-99, interpolation-constraints.cc:27-63) -/
  | contact (c : Interp.Constraint N (List ℝ) ℝ)
  /-- projection.cc:101-113: a point of the root frame is at the target -/
  | root (offset target : Vec3 ℝ)
  /-- projection.cc:122-137 -/
  | com (target : Vec3 ℝ)
  /-- a locked joint -/
  | lock (l : Joints.Lock N ℝ) (size : ℕ)
  /-- projection.cc:373-383: position of the frame of the effector -/
  | effectorPosition (limb : N) (target : Vec3 ℝ)
  /-- projection.cc:384-396: orientation of the frame of the effector; if the rotation about z is free the frame has the z axis of the target (the logarithm of the relative rotation has
  the coordinates x and y equal to 0) -/
  | effectorOrientation (limb : N) (target : Mat3 ℝ) (zFree : Bool)
  /-- projection.cc:139-199: optional (`lastIsOptional`), does not affect the answer of the projector -/
  | posture

/-- what the functions read of the robot [projection.cc:204-776] -/
structure Robot (N Smp : Type _) where
  kin : Interp.Kin N (List ℝ) ℝ
  rootPos : List ℝ → Vec3 ℝ
  rootRot : List ℝ → Mat3 ℝ
  limbs : AMap N (Limb N)
  root : Joint N
  /-- `proj->apply` -/
  apply : List (Constraint N) → List ℝ → Bool × List ℝ
  /-- `GetCollisionValidation()->validate` -/
  valid : List ℝ → Bool
  /-- `GetLimbCollisionValidation().at(limb)->validate` -/
  limbValid : N → List ℝ → Bool
  samples : N → List Smp
  load : Smp → List ℝ → List ℝ
  /-- `usePosturalTaskContactCreation()` -/
  postural : Bool
  /-- the axis of the rotation between opposite vectors, see `fromTwoVectors` -/
  axis : Vec3 ℝ → Vec3 ℝ → Vec3 ℝ
  /-- not initialised `robustness` of a default constructed State -/
  junk : ℝ

variable {Smp : Type _}

/-- rotation of the effector frame of a limb [projection.cc:47-102, 458-489] -/
noncomputable def Robot.frameRot (rob : Robot N Smp) (name : N) (l : Limb N) (q : List ℝ) : Mat3 ℝ := Interp.frameRot rob.kin name l.contact q

/-- a constraint is satisfied by a configuration [hpp-constraints; projection.cc:47-202, 352-416] -/
def Constraint.holds (rob : Robot N Smp) (q : List ℝ) : Constraint N → Prop
  | .contact c => c.holds rob.kin 0 q
  | .root o t => rob.rootPos q + (rob.rootRot q).mulVec o - t = 0
  | .com t => rob.kin.com q = t
  | .lock l size => Joints.segment q l.rank size = l.value
  | .effectorPosition n t => rob.kin.pos n q - t = 0
  | .effectorOrientation n t zFree =>
    match rob.limbs.find? n with
    | none => True
    | some l => if zFree then (rob.frameRot n l q).mulVec ⟨0, 0, 1⟩ = t.mulVec ⟨0, 0, 1⟩ else rob.frameRot n l q = t
  | .posture => True

/-- reports.hh: the report of a projection, without the status [reports.hh:38-49] -/
structure Report (N : Type _) where
  success : Bool
  result : State N ℝ

/-- `res.result_ = currentState; res.result_.configuration_ = configuration` of a default constructed report: `operator=` (`State.assign`) does not copy `robustness` [projection.cc:204-219] -/
def Robot.resultOf (rob : Robot N Smp) (current : State N ℝ) (q : List ℝ) : State N ℝ := { (State.init rob.junk).assign current false with configuration := q }

/-- the contact types of the limbs [projection.cc:47-102] -/
def Robot.contactLimbs (rob : Robot N Smp) : AMap N (Interp.CLimb ℝ) := rob.limbs.map fun e => (e.1, e.2.contact)

/-- projection.cc:47-99 `CreateContactConstraints`; `none`: `at` throws -/
noncomputable def Robot.contactConstraints (rob : Robot N Smp) (s : State N ℝ) : Option (List (Constraint N)) :=
  (Interp.addContactConstraints rob.contactLimbs s (State.fixedContacts s s)).map (List.map Constraint.contact)

/-- the joints with their sizes, for the locks [tools.cc:111-125] -/
def lockConstraints (locks : List (Joints.Lock N ℝ)) : List (Constraint N) := locks.map fun l => .lock l l.value.length

/-- end of projection.cc:201-214, 262-299, 685-706: apply the projector to the configuration of the state, whatever its answer return the state with the configuration it left -/
def Robot.projectWith (rob : Robot N Smp) (cs : Option (List (Constraint N))) (extra : List (Constraint N)) (current : State N ℝ) : Option (Report N) :=
  cs.map fun cs =>
    let r := rob.apply (cs ++ extra) current.configuration
    ⟨r.1, rob.resultOf current r.2⟩

/-- projection.cc:201-217 `projectToRootPosition` -/
noncomputable def Robot.toRootPosition (rob : Robot N Smp) (target : Vec3 ℝ) (current : State N ℝ) : Option (Report N) :=
  rob.projectWith (rob.contactConstraints current) [.root 0 target] current

/-- projection.cc:262-300 `projectToRootConfiguration`; `head` is `conf.head<3>()` -/
noncomputable def Robot.toRootConfiguration (rob : Robot N Smp) (conf : List ℝ) (head : Vec3 ℝ) (current : State N ℝ) (offset : Vec3 ℝ) : Option (Report N) :=
  if offset = 0 then
    rob.projectWith (rob.contactConstraints current) (lockConstraints (Joints.lockFromRoot (rob.limbs.map fun e => e.2.joint) conf rob.root)) current
  else rob.projectWith (rob.contactConstraints current) [.root offset head] current

/-- projection.cc:685-706 `projectToComPosition` -/
noncomputable def Robot.toComPosition (rob : Robot N Smp) (target : Vec3 ℝ) (current : State N ℝ) : Option (Report N) :=
  rob.projectWith (rob.contactConstraints current) [.com target] current

/-- projection.cc:322-333: samples are loaded one after the other in the same configuration -/
def Robot.firstFree (rob : Robot N Smp) (limb : N) : List Smp → List ℝ → Option (List ℝ)
  | [], _ => none
  | smp :: rest, q =>
    let q' := rob.load smp q
    if rob.limbValid limb q' then some q' else rob.firstFree limb rest q'

/-- projection.cc:302-335 `setCollisionFree` -/
def Robot.setCollisionFree (rob : Robot N Smp) (limb : N) (current : State N ℝ) : Report N :=
  if rob.limbValid limb current.configuration then ⟨true, rob.resultOf current current.configuration⟩
  else
    match rob.firstFree limb (rob.samples limb) current.configuration with
    | some q => ⟨true, rob.resultOf current q⟩
    | none => ⟨false, rob.resultOf current current.configuration⟩

/-- projection.cc:737-749: the loop on the free limbs; the report of `setCollisionFree` is only tested -/
def Robot.freeLimbsOk (rob : Robot N Smp) (limbs : List N) (state : State N ℝ) : Bool := limbs.all fun l => (rob.setCollisionFree l state).success

/-- projection.cc:714-772 `projectToColFreeComPosition` -/
noncomputable def Robot.toColFreeCom (rob : Robot N Smp) (target : Vec3 ℝ) (current : State N ℝ) : Option (Report N) :=
  (rob.contactConstraints current).map fun cs =>
    let proj := cs ++ [.com target, .posture]
    let r := rob.apply proj current.configuration
    let res := rob.resultOf current r.2
    if r.1 && rob.freeLimbsOk (current.freeEffectors (rob.limbs.map (·.1))) res then
      let r' := rob.apply proj r.2
      ⟨r'.1 && rob.valid r'.2, { res with configuration := r'.2 }⟩
    else ⟨false, res⟩

/-- projection.cc:34 `epsilon` -/
noncomputable def epsilon : ℝ := 10 / 10000

/-- projection.cc:458-489 `computeProjectionMatrix`: rotation and translation of the effector frame; `0` stands for no imposed rotation -/
noncomputable def Robot.placement (rob : Robot N Smp) (name : N) (limb : Limb N) (q : List ℝ) (normal position : Vec3 ℝ) (rotation : Mat3 ℝ) : Mat3 ℝ × Vec3 ℝ :=
  let eff := rob.frameRot name limb q
  let z := eff.mulVec limb.normal
  let rot := if rotation = ⟨0, 0, 0⟩ then Stability.mulMat (rotationBetween rob.axis z normal) eff else rotation
  (rot, (position - rot.mulVec limb.offset) + Vec3.smul epsilon normal)

/-- projection.cc:352-456 `projectEffector`; also returns the configuration argument, which is modified; `check` is the given validation -/
noncomputable def Robot.projectEffector (rob : Robot N Smp) (proj : List (Constraint N)) (check : List ℝ → Bool) (limbId : N) (limb : Limb N) (q : List ℝ) (rotation : Mat3 ℝ) (position normal : Vec3 ℝ)
    (current : State N ℝ) : Report N × List ℝ :=
  let cs := proj ++ [.effectorPosition limbId position] ++ (if limb.contact.sixDof then [.effectorOrientation limbId rotation rob.postural] else []) ++
    (if rob.postural then [.posture] else [])
  let r := rob.apply cs q
  if r.1 && check r.2 then
    (⟨true, (State.init rob.junk).assign (current.addContact limbId (rob.kin.pos limbId r.2) normal (rob.frameRot limbId limb r.2) r.2) false⟩, r.2)
  else (⟨false, (State.init rob.junk).assign current false⟩, r.2)

/-- projection.cc:491-504 `projectToObstacle` -/
noncomputable def Robot.toObstacle (rob : Robot N Smp) (proj : List (Constraint N)) (check : List ℝ → Bool) (limbId : N) (limb : Limb N) (q : List ℝ) (current : State N ℝ)
    (normal position : Vec3 ℝ) (rotation : Mat3 ℝ) : Report N × List ℝ :=
  let m := rob.placement limbId limb q normal position rotation
  rob.projectEffector proj check limbId limb q m.1 m.2 normal current

/-- a triangle of an obstacle with a sample of the limb (`OctreeReport`): vertices, normal, position of the effector in the world for the sample [sample-db.hh:38-54, projection.cc:602-649] -/
structure Target where
  v1 : Vec3 ℝ
  v2 : Vec3 ℝ
  v3 : Vec3 ℝ
  normal : Vec3 ℝ
  effector : Vec3 ℝ

/-- projection.cc:602-649 `projectSampleToObstacle`: `device` is the current configuration of the device when it is called, `q` the configuration with the sample loaded -/
noncomputable def Robot.sampleToObstacle (rob : Robot N Smp) (device : List ℝ) (check : List ℝ → Bool) (limbId : N) (limb : Limb N) (t : Target) (q : List ℝ) (current : State N ℝ) :
    Report N × List ℝ :=
  rob.toObstacle (lockConstraints (Joints.lockJointRec limb.joint device rob.root)) check limbId limb q current (normalized t.normal)
    (Triangle.closestPointInTriangle t.effector t.v1 t.v2 t.v3) ⟨0, 0, 0⟩

/-- projection.cc:661-683 `projectStateToObstacle`; `none`: `at` throws -/
noncomputable def Robot.stateToObstacle (rob : Robot N Smp) (device : List ℝ) (check : List ℝ → Bool) (limbId : N) (limb : Limb N) (current : State N ℝ) (normal position : Vec3 ℝ)
    (lockOthers : Bool) (rotation : Mat3 ℝ) : Option (Report N) :=
  let state := (current.removeContact limbId).1
  (rob.contactConstraints state).map fun cs =>
    (rob.toObstacle (cs ++ (if lockOthers then lockConstraints (Joints.lockJointRec limb.joint device rob.root) else [])) check limbId limb current.configuration state normal position
      rotation).1

end Proj
end Rbprm
