import Verif.Model.State
import Verif.Model.SampleDB
import Verif.Model.Stability
import Verif.Model.Paths
import Mathlib.Algebra.Order.Field.Basic
set_option linter.unusedSectionVars false
/-!
# Model of the interpolation between two states
(`time-constraint-shooter.cc`, `limb-rrt-shooter.cc`, `com-rrt-shooter.cc`, `interpolation-constraints.{hh,cc}`, `time-constraint-utils.hh`, `limb-rrt.cc`, `com-rrt.cc`,
`SetEffectorRRTConstraints` of `effector-rrt.cc`, `ConcatenateAndResizePath` of `time-constraint-helper.inl`)

The kinematics of the robot are functions of the configuration; a constraint of the projector is the equation it stands for, solved exactly.
-/
namespace Rbprm
namespace Interp
open Sampling
variable {N K : Type _} [LinearOrder N] [Field K] [LinearOrder K]

/-- a path as the interpolation uses it: time range and value [com-rrt.cc:36-164, limb-rrt.cc:26-61] -/
structure RefPath (C K : Type _) where
  first : K
  last : K
  eval : K → C

/-! ### random configurations -/

/-- limb-rrt-shooter.cc:27-52 `GetVaryingLimb`, com-rrt-shooter.cc:28-45 `GetFreeLimbs`; a limb is the list of its samples, in the order of the database -/
def freeLimbs {L : Type _} (limbs : AMap N L) (frm dest : State N K) : AMap N L :=
  limbs.filter fun e => !((State.fixedContacts dest frm).contains e.1)

/-- what a draw gives [time-constraint-shooter.cc:59-101] -/
inductive Shot (K : Type _) where
  | ok (q : List K)
  | throws
  /-- an assertion (disabled in release builds) fails -/
  | undefined

/-- time-constraint-shooter.cc:80-95: the loop on the free limbs; `rnd` are the successive values of `rand()` -/
def loadLimbs : List (N × List (Sample K)) → (ℕ → ℕ) → List K → Shot K
  | [], _, q => .ok q
  | (_, samples) :: ls, rnd, q =>
    if samples.length ≤ 1 then .throws
    else
      match samples[rnd 0 % (samples.length - 1)]? with
      | none => .undefined
      | some s =>
        match load s q with
        | none => .undefined
        | some q' => loadLimbs ls (fun i => rnd (i + 1)) q'

/-- time-constraint-shooter.cc:57-97 `impl_shoot`; `u = rand() / RAND_MAX`; the configuration has `configSize = pathDofRank + 1` coordinates, the last of which is the extra degree of
freedom; the constraints are then updated for `u` (see `Constraint.holds`) -/
def shoot (path : RefPath (List K) K) (pathDofRank : ℕ) (free : AMap N (List (Sample K))) (u : K) (rnd : ℕ → ℕ) : Shot K :=
  let q := path.eval ((path.last - path.first) * u + path.first)
  if q.length ≠ pathDofRank then .undefined
  else loadLimbs free rnd (q ++ [u])

/-- time-constraint-utils.hh:50-58 `TimeConfigFromDevice`: `current` is the current configuration of the device with the extra degree of freedom; `none`: the assertion of `head` fails -/
def timeConfig (current : List K) (state : State N K) (time : K) : Option (List K) :=
  if state.configuration.length ≤ current.length ∧ current ≠ [] then
    some ((state.configuration ++ current.drop state.configuration.length).dropLast ++ [time])
  else none

/-! ### constraints -/

/-- what the constraints read of the robot in a configuration: position of the frame of a limb or joint, rotation of its parent joint, centre of mass [interpolation-constraints.hh:74-323] -/
structure Kin (N C K : Type _) where
  pos : N → C → Vec3 K
  jointRot : N → C → Mat3 K
  com : C → Vec3 K

/-- a limb: its contact type and the rotation of its effector frame in the parent joint [interpolation-constraints.cc:27-63] -/
structure CLimb (K : Type _) where
  sixDof : Bool
  placement : Mat3 K

/-- rotation of the effector frame of a limb [interpolation-constraints.cc:27-63] -/
def frameRot {C : Type _} (kin : Kin N C K) (name : N) (l : CLimb K) (q : C) : Mat3 K := Stability.mulMat (kin.jointRot name q) l.placement

/-- a constraint of the projector: the equation it stands for [interpolation-constraints.hh:74-323, interpolation-constraints.cc:27-63] -/
inductive Constraint (N C K : Type _) where
  /-- `Position::create`, with a frame in the world: the position in this frame (of which the rotation is the identity) is 0 -/
  | position (limb : N) (target : Vec3 K)
  /-- `Orientation::create`: the rotation of the joint is the reference -/
  | orientation (limb : N) (rotation : Mat3 K)
  /-- centre of mass with the right hand side of a reference path -/
  | com (ref : RefPath (Vec3 K) K)
  /-- `Position::create` with frame `initTarget` in the world, with the right hand side of a reference path -/
  | effector (frame : N) (initTarget : Vec3 K) (ref : RefPath (Vec3 K) K)
  /-- orientation of a joint with the right hand side of the orientation along a whole-body reference path -/
  | jointOrientation (joint : N) (ref : RefPath C K)

/-- interpolation-constraints.hh:97-112, 306-318: the right hand side for the extra degree of freedom `u` is the reference at `a + u (b - a)` -/
def rhs {V : Type _} (ref : RefPath V K) (u : K) : V := ref.eval ((ref.last - ref.first) * u + ref.first)

/-- the constraint is satisfied by configuration `q` when its right hand side is that of `u` (time-constraint-utils.hh:60-67 `UpdateConstraints`) -/
def Constraint.holds {C : Type _} (kin : Kin N C K) (u : K) (q : C) : Constraint N C K → Prop
  | .position n t => kin.pos n q - t = 0
  | .orientation n r => kin.jointRot n q = r
  | .com ref => kin.com q = rhs ref u
  | .effector n t ref => kin.pos n q - t = rhs ref u
  | .jointOrientation n ref => kin.jointRot n q = kin.jointRot n (rhs ref u)

/-- interpolation-constraints.cc:33-62: one contact; `none`: `at` throws -/
def contactConstraint {C : Type _} (limbs : AMap N (CLimb K)) (state : State N K) (name : N) : Option (List (Constraint N C K)) :=
  match limbs.find? name, state.contactPositions.find? name with
  | some l, some p =>
    if l.sixDof then
      match state.contactRotation.find? name with
      | some r => some [.position name p, .orientation name (Stability.mulMat r l.placement.transpose)]
      | none => none
    else some [.position name p]
  | _, _ => none

/-- interpolation-constraints.cc:27-63 `addContactConstraints` -/
def addContactConstraints {C : Type _} (limbs : AMap N (CLimb K)) (state : State N K) : List N → Option (List (Constraint N C K))
  | [] => some []
  | n :: ns =>
    match contactConstraint limbs state n, addContactConstraints limbs state ns with
    | some l, some l' => some (l ++ l')
    | _, _ => none

/-- interpolation-constraints.hh:390-396 `CreateContactConstraints` -/
def contactConstraints {C : Type _} (limbs : AMap N (CLimb K)) (frm dest : State N K) : Option (List (Constraint N C K)) :=
  addContactConstraints limbs frm (State.fixedContacts dest frm)

/-- limb-rrt.cc:26-29 `SetLimbRRTConstraints` -/
def limbRRTConstraints {C : Type _} (limbs : AMap N (CLimb K)) (frm dest : State N K) : Option (List (Constraint N C K)) :=
  contactConstraints limbs frm dest

/-- com-rrt.cc:36-49 `SetComRRTConstraints`; the constraint on the centre of mass is commented out -/
def comRRTConstraints {C : Type _} (limbs : AMap N (CLimb K)) (_comPath : RefPath (Vec3 K) K) (frm dest : State N K) : Option (List (Constraint N C K)) :=
  contactConstraints limbs frm dest

/-- effector-rrt.cc:978-1012 `SetEffectorRRTConstraints`: `garbage` is the value of the default argument `fcl::Vec3f()` of `CreateEffectorConstraint`, which is not initialised; the
orientation constraint of the effector is disabled (`&& false`), the locked joints are not used -/
def effectorRRTConstraints {C : Type _} (limbs : AMap N (CLimb K)) (garbage : Vec3 K) (refCom refEff : RefPath (Vec3 K) K) (refFullbody : Option (RefPath C K)) (effector : N)
    (constrainedJoints _lockedJoints : List N) (frm dest : State N K) : Option (List (Constraint N C K)) :=
  match contactConstraints limbs frm dest with
  | none => none
  | some l => some (l ++ [.com refCom, .effector effector garbage refEff] ++
      match refFullbody with
      | none => []
      | some ref => constrainedJoints.map fun j => .jointOrientation j ref)

/-- com-rrt.cc:166-216 `projectOnCom`: `project` is the projector: the projected configuration (with the extra degree of freedom) and its answer, whose constraints are the contacts of the
state, and the centre of mass at `target`; `n` is the size of a configuration of the robot, of which the last `extra` are extra degrees of freedom; `last` is the value of the
coordinate that is not initialised -/
def projectOnCom (project : List K → List K × Bool) (n extra : ℕ) (last : K) (model : State N K) : List K × Bool :=
  let res := project (model.configuration ++ [last])
  let res' := res.1.take (n - extra) ++ model.configuration.drop (n - extra) ++ res.1.drop n
  (res'.dropLast, res.2)

/-! ### sizes of the interpolated path -/

/-- what the sizes of a path are: of its configurations and of its derivatives [effector-rrt.cc:788-922] -/
structure Sizes where
  output : ℕ
  derivative : ℕ
deriving DecidableEq

/-- time-constraint-helper.hh:68-69: the device of the planner has one extra degree of freedom more than that of the robot, so its paths have these sizes -/
def plannedSizes (robot : Sizes) : Sizes := ⟨robot.output + 1, robot.derivative + 1⟩

/-- `core::SubchainPath::create` with intervals `[0, n)` and `[0, m)` [hpp-core, called in com-rrt.cc:61-149, effector-rrt.cc:801] -/
def subchain (n m : ℕ) : Sizes := ⟨n, m⟩

/-- time-constraint-helper.inl:257-267: sizes of the returned path vector and of each of its elements; `rows` are the sizes of the path of the planner -/
def resizedSizes (robot rows : Sizes) : Sizes × Sizes := (⟨rows.output - 1, rows.derivative - 1⟩, subchain (rows.output - 1) (robot.derivative - 1))

end Interp
end Rbprm
