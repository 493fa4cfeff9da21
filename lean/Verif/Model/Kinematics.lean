import Verif.Model.Stability
set_option linter.unusedSectionVars false
/-!
# Kinematic constraints of the centre of mass (`src/contact_generation/kinematics_constraints.cc`)

A matrix `N` with three columns and a vector (or matrix) with as many rows are the list of the pairs of rows.  `double` is an ordered field `K`.
-/
namespace Rbprm
namespace Reach
open Stability
variable {N K : Type _} [LinearOrder N] [Field K] [LinearOrder K] [IsStrictOrderedRing K]

/-- the pair `(A, b)`: rows of `A` and entries of `b` (`std::pair<MatrixX3, VectorX>`) [kinematics_constraints.cc:119-207] -/
abbrev Ineq (K : Type _) := List (Vec3 K × K)

/-- the pair `(N, V)`: rows of `N` and rows of `V` (`kinematicConstraints_` of a limb) [kinematics_constraints.cc:58-117] -/
abbrev Faces (K : Type _) := List (Vec3 K × Vec3 K)

/-- `Transform3f`: rotation and translation [hpp-pinocchio, used in kinematics_constraints.cc:209-228] -/
structure Transform (K : Type _) where
  rot : Mat3 K
  trans : Vec3 K

/-- `transform.transform(v)` [fcl, used in kinematics_constraints.cc:209-228] -/
def Transform.apply (M : Transform K) (v : Vec3 K) : Vec3 K := M.rot.mulVec v + M.trans

/-- what is read of the robot: the limbs, with their kinematic constraints, and the placement of their effectors in a configuration [kinematics_constraints.cc:119-260] -/
structure KinEnv (N K : Type _) where
  limbs : AMap N (Faces K)
  effector : N → List K → Transform K

/-- kinematics_constraints.cc:19–33 `triangleNormal`; `normalize` is `normalized()` -/
def triangleNormal (normalize : Vec3 K → Vec3 K) (t : Vec3 K × Vec3 K × Vec3 K) : Vec3 K :=
  normalize (Vec3.cross (t.2.1 - t.1) (t.2.2 - t.1))

/-- kinematics_constraints.cc:35–52 `triangleNormalTransform` -/
def triangleNormalTransform (normalize : Vec3 K → Vec3 K) (t : Vec3 K × Vec3 K × Vec3 K) (M : Transform K) : Vec3 K :=
  let t0 := M.apply t.1
  let t1 := M.apply t.2.1
  let t2 := M.apply t.2.2
  normalize (Vec3.cross (t1 - t0) (t2 - t0))

/-- kinematics_constraints.cc:58–112 `loadConstraintsFromObj`, for a mesh that could be loaded; `triangles` are the three vertices of each face, in order.
(If the file is not found or cannot be loaded, lines 66–83, the result is empty.) -/
def loadConstraints (normalize : Vec3 K → Vec3 K) (triangles : List (Vec3 K × Vec3 K × Vec3 K)) (minDistance : K) : Faces K :=
  let faces := triangles.map fun t => (triangleNormal normalize t, t.1)
  if minDistance > 0 then faces ++ [(⟨0, 0, -1⟩, ⟨0, 0, minDistance⟩)] else faces

/-- kinematics_constraints.cc:210–230 `getInequalitiesAtTransform` -/
def inequalitiesAt (NV : Faces K) (M : Transform K) : Ineq K :=
  NV.map fun r =>
    let n := M.rot.mulVec r.1
    let v := M.apply r.2
    (n, Vec3.dot v n)

/-- kinematics_constraints.cc:117–145 `computeAllKinematicsConstraints` -/
def allConstraints (env : KinEnv N K) (configuration : List K) : Ineq K :=
  env.limbs.flatMap fun l => if l.2.length > 0 then inequalitiesAt l.2 (env.effector l.1 configuration) else []

/-- kinematics_constraints.cc:174–184: the loop over `contacts_`; `none`: `GetLimb` throws (already in the first loop) -/
def contactLoop (env : KinEnv N K) (configuration : List K) : AMap N Bool → Option (Ineq K)
  | [] => some []
  | (name, c) :: l =>
    if c then
      match env.limbs.find? name, contactLoop env configuration l with
      | some faces, some rest => some (inequalitiesAt faces (env.effector name configuration) ++ rest)
      | _, _ => none
    else contactLoop env configuration l

/-- kinematics_constraints.cc:147–188 `computeKinematicsConstraintsForState` -/
def constraintsForState (env : KinEnv N K) (state : State N K) : Option (Ineq K) :=
  contactLoop env state.configuration state.contacts

/-- kinematics_constraints.cc:190–208 `computeKinematicsConstraintsForLimb` -/
def constraintsForLimb (env : KinEnv N K) (state : State N K) (limbName : N) : Option (Ineq K) :=
  match state.contacts.find? limbName with
  | none => some []
  | some false => some []
  | some true =>
    match env.limbs.find? limbName with
    | none => none
    | some faces => some (inequalitiesAt faces (env.effector limbName state.configuration))

/-- kinematics_constraints.cc:239–253 `verifyKinematicConstraints(Ab, point)` -/
def verify : Ineq K → Vec3 K → Bool
  | [], _ => true
  | (a, b) :: l, point => if Vec3.dot a point > b then false else verify l point

/-- kinematics_constraints.cc:232–237 `verifyKinematicConstraints(NV, transform, point)` -/
def verifyAt (NV : Faces K) (M : Transform K) (point : Vec3 K) : Bool := verify (inequalitiesAt NV M) point

/-- kinematics_constraints.cc:255–259 `verifyKinematicConstraints(fullbody, state, point)`; `none`: an exception -/
def verifyState (env : KinEnv N K) (state : State N K) (point : Vec3 K) : Option Bool :=
  (constraintsForState env state).map fun Ab => verify Ab point

end Reach
end Rbprm
