import Verif.Model.State
import Mathlib.Algebra.Order.Field.Basic
set_option linter.unusedSectionVars false
/-!
# Static equilibrium (`src/stability/stability.cc`)

`double` is an ordered field `K`.  What the code gets from the robot model and from the centroidal-dynamics library is an oracle (`StabEnv`, `Solver`).
-/
namespace Rbprm
namespace Stability
variable {N K : Type _} [LinearOrder N] [Field K] [LinearOrder K] [IsStrictOrderedRing K]

/-- `centroidal_dynamics::EquilibriumAlgorithm`: the code distinguishes PP from the others [stability.cc:141-235] -/
inductive Alg | PP | DLP | other
deriving DecidableEq, Repr

/-- `centroidal_dynamics::LP_status` [stability.cc:267-352] -/
inductive LPStatus | optimal | infeasible | unbounded | maxIter | error
deriving DecidableEq, Repr

/-- the fields of `RbPrmLimb` that are read; `point`: `contactType_ == _3_DOF` [stability.cc:45-125, rbprm-limb.hh:51-161] -/
structure SLimb (K : Type _) where
  point : Bool
  grasps : Bool
  x : K
  y : K
  normal : Vec3 K
  offset : Vec3 K

/-- what is given to `Equilibrium::setNewContacts` [stability.cc:141-235] -/
structure Problem (K : Type _) where
  positions : List (Vec3 K)
  normals : List (Vec3 K)
  friction : K
  alg : Alg
deriving DecidableEq, Repr

/-- the library: `setNewContacts`, `checkRobustEquilibrium` and `computeEquilibriumRobustness` (the acceleration is absent in the static case) [stability.cc:237-352] -/
structure Solver (K : Type _) where
  setNewContacts : Problem K → Bool
  check : Problem K → Vec3 K → Option (Vec3 K) → LPStatus × Bool
  robustness : Problem K → Vec3 K → Option (Vec3 K) → LPStatus × K

/-- the robot [stability.cc:141-352] -/
structure StabEnv (N K : Type _) where
  limbs : AMap N (SLimb K)
  friction : K
  staticStability : Bool
  /-- `device_->extraConfigSpace().dimension()` -/
  extraDim : ℕ
  /-- rotation of the effector of a limb in a configuration -/
  effectorRotation : N → List K → Mat3 K
  centerOfMass : List K → Vec3 K
  /-- `tools::GetRotationMatrix` -/
  rotationBetween : Vec3 K → Vec3 K → Mat3 K
  /-- `normalize()` -/
  normalize : Vec3 K → Vec3 K
  /-- `std::numeric_limits<double>::max()` -/
  maxDouble : K

/-- matrix product [Eigen, used in stability.cc:45-113] -/
def mulMat (A B : Mat3 K) : Mat3 K :=
  let T := B.transpose
  ⟨⟨A.r0.dot T.r0, A.r0.dot T.r1, A.r0.dot T.r2⟩, ⟨A.r1.dot T.r0, A.r1.dot T.r1, A.r1.dot T.r2⟩, ⟨A.r2.dot T.r0, A.r2.dot T.r1, A.r2.dot T.r2⟩⟩

/-- stability.cc:45–95 `computeRectangleContact`, for a limb that is not `_3_DOF` (lines 81–94; the other branch is never reached: for `_3_DOF` limbs
`computePointContact` is called).  `none`: `at` throws.  The inverse of the rotation matrix (line 84) is its transpose. -/
def rectangleContact (env : StabEnv N K) (state : State N K) (name : N) (limb : SLimb K) (lx ly : K) : Option (List (Vec3 K)) :=
  let lx := if lx = 0 then limb.x else lx
  let ly := if ly = 0 then limb.y else ly
  match state.contactPositions.find? name, state.contactRotation.find? name with
  | some position, some rot =>
    let rotationLocal := (env.rotationBetween ⟨0, 0, 1⟩ limb.normal).transpose
    some ([⟨lx, ly, 0⟩, ⟨lx, -ly, 0⟩, ⟨-lx, -ly, 0⟩, ⟨-lx, ly, 0⟩].map fun p =>
      rot.mulVec (rotationLocal.mulVec p + limb.offset) + position)
  | _, _ => none

/-- stability.cc:97–113 `computePointContact` -/
def pointContact (env : StabEnv N K) (state : State N K) (name : N) (limb : SLimb K) : Option (Vec3 K) :=
  match state.contactPositions.find? name, state.contactNormals.find? name with
  | some position, some normal =>
    let eff := env.effectorRotation name state.configuration
    let align := env.rotationBetween (eff.mulVec limb.normal) normal
    some (position + (mulMat align eff).mulVec limb.offset)
  | _, _ => none

/-- stability.cc:120–125 `numContactPoints(limb)` -/
def numContactPoints (limb : SLimb K) : ℕ := if limb.point then 1 else 4

/-- stability.cc:175–197 and 201–221: the rows of one contact in the two matrices.  Normals are normalised for the contacts that are not grasps only
(line 180; there is no such call after 206), and the given foot size is used for them only (185–186, 209–210). -/
def contactRows (env : StabEnv N K) (state : State N K) (feetX feetY : K) (name : N) : Option (List (Vec3 K) × List (Vec3 K)) :=
  match env.limbs.find? name, state.contactNormals.find? name with
  | some limb, some n =>
    let normal := if limb.grasps then n else env.normalize n
    let inc := numContactPoints limb
    let rows :=
      if inc > 1 then (if limb.grasps then rectangleContact env state name limb 0 0 else rectangleContact env state name limb feetX feetY)
      else (pointContact env state name limb).map fun p => [p]
    rows.map fun r => (r, List.replicate inc normal)
  | _, _ => none

/-- the rows of several contacts, one after the other [stability.cc:141-235] -/
def allRows (env : StabEnv N K) (state : State N K) (feetX feetY : K) : List N → Option (List (Vec3 K) × List (Vec3 K))
  | [] => some ([], [])
  | n :: l =>
    match contactRows env state feetX feetY n, allRows env state feetX feetY l with
    | some r, some r' => some (r.1 ++ r'.1, r.2 ++ r'.2)
    | _, _ => none

/-- does the limb of that name grasp (line 155); an unknown limb throws [stability.cc:155] -/
def grasping (env : StabEnv N K) (name : N) : Bool := match env.limbs.find? name with
  | some l => l.grasps
  | none => false

/-- stability.cc:141–235 `setupLibrary`: the centre of mass and the problem that was given to the library; `none`: an exception. -/
def setupLibrary (env : StabEnv N K) (sv : Solver K) (state : State N K) (alg : Alg) (feetX feetY : K) : Option (Vec3 K × Problem K) :=
  let names := state.contactPositions.keys
  if names.all (fun n => env.limbs.has n) then
    let contacts := names.filter (fun n => !grasping env n)
    let grasps := names.filter (fun n => grasping env n)
    match allRows env state feetX feetY contacts, allRows env state feetX feetY grasps with
    | some r, some g =>
      let alg := if grasps ≠ [] then Alg.PP else alg
      let pb : Problem K := ⟨r.1 ++ g.1, r.2 ++ g.2, env.friction, alg⟩
      if sv.setNewContacts pb then some (env.centerOfMass state.configuration, pb) else none
    | _, _ => none
  else none

/-- `isZero()` of Eigen, with its default precision [Eigen, used in stability.cc:267-352] -/
def isZeroVec (v : Vec3 K) : Bool := decide (|v.x| ≤ 1 / 10 ^ 12 ∧ |v.y| ≤ 1 / 10 ^ 12 ∧ |v.z| ≤ 1 / 10 ^ 12)

/-- stability.cc:275–287: the acceleration that is used; the segment of three values that starts at the third extra degree of freedom -/
def usedAcc (env : StabEnv N K) (state : State N K) (acc : Vec3 K) : Vec3 K :=
  if env.extraDim ≥ 6 ∧ acc = 0 then
    let i := state.configuration.length - env.extraDim + 3
    ⟨state.configuration.getD i 0, state.configuration.getD (i + 1) 0, state.configuration.getD (i + 2) 0⟩
  else acc

/-- stability.cc:267–349 `IsStable`; `none`: an exception -/
def isStable (env : StabEnv N K) (sv : Solver K) (state : State N K) (acc com : Vec3 K) (algorithm : Alg) : Option K :=
  let acc := usedAcc env state acc
  match setupLibrary env sv state algorithm 0 0 with
  | none => none
  | some (comComputed, pb) =>
    let com' := if isZeroVec com then comComputed else com
    let accArg := if env.staticStability then none else some acc
    let (status, res) :=
      if pb.alg = Alg.PP then
        let r := sv.check pb com' accArg
        (r.1, if r.2 then env.maxDouble else -1)
      else sv.robustness pb com' accArg
    if status ≠ .optimal then
      if status = .infeasible ∨ status = .unbounded then some (-(11 / 10)) else some (-env.maxDouble)
    else some res

end Stability
end Rbprm
