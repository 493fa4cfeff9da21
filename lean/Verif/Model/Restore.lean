import Verif.Model.Device
import Verif.Model.Stability
set_option linter.unusedSectionVars false
/-!
# What calls leave behind in the robot (`algorithm.cc`, `stability.cc`, `analysis.cc`), and `ComputeCentroidalCone`

A device is its current configuration and the configuration its transforms were computed for (`Model/Device`), with its computation flag. What the called functions do to the device is a parameter
(`Work`): any function of the device. A saved configuration is a copy (`Configuration_t save`) or a view (`ConfigurationIn_t save`, an `Eigen::Ref`): a view of the vector returned by
`currentConfiguration ()` shows the current configuration of the device at the time it is read. hpp-pinocchio, which declares the types, is not in /repo; theorems are stated for both kinds.
-/
namespace Rbprm
namespace Restore
open Dev

/-- a device with its computation flag [stability.cc:141-352] -/
structure Robot where
  device : Device
  flag : ℕ

/-- `currentConfiguration (q)` [stability.cc:141-352] -/
def Robot.set (r : Robot) (q : List ℝ) : Robot := { r with device := r.device.set q }

/-- `computeForwardKinematics ()` [stability.cc:141-352] -/
def Robot.forward (r : Robot) : Robot := { r with device := r.device.forward }

/-- a saved configuration [stability.cc:237-352] -/
inductive Saved where
  | copy (q : List ℝ)
  | view

/-- how the variable `save` is declared [stability.cc:237-352] -/
inductive Kind where
  | byValue
  | byRef

/-- `save = device->currentConfiguration ()` [stability.cc:237-352] -/
def save (k : Kind) (r : Robot) : Saved :=
  match k with
  | .byValue => .copy r.device.current
  | .byRef => .view

/-- the value of the variable `save` [stability.cc:237-352] -/
def Saved.read (s : Saved) (r : Robot) : List ℝ :=
  match s with
  | .copy q => q
  | .view => r.device.current

/-- what a called function does to the device [stability.cc:237-352] -/
abbrev Work := Robot → Robot

/-- algorithm.cc:194-233 `ComputeContacts` without previous state; `limbs`: what the calls of `ComputeStableContact` do, in order; `k`: declaration of line 207 (`ConfigurationIn_t`) -/
def computeContactsInitial (k : Kind) (q : List ℝ) (limbs : List Work) (r : Robot) : Robot :=
  let s := save k r
  let r := (r.set q).forward
  let r := limbs.foldl (fun r w => w r) r
  r.set (s.read r)

/-- algorithm.cc:235-275 `ComputeContacts` with a previous state; `oneStep`: what `oneStep` does, `none` if it throws; the device that is left, and whether the call returned. The flag is
`newflag` during the call (l.246-251). -/
def computeContactsPrevious (k : Kind) (newflag : ℕ) (q : List ℝ) (oneStep : Robot → Robot × Bool) (r : Robot) : Robot × Bool :=
  let s := save k r
  let flag := r.flag
  let r := (({ r with flag := newflag }).set q).forward
  let r := oneStep r
  if r.2 then
    let r := r.1.set (s.read r.1)
    ({ r with flag := flag }, true)
  else r

/-- stability.cc:141-235 `setupLibrary`, as called by `IsStable` and `ComputeCentroidalCone`; nothing between lines 163 and 223 changes the device. Exceptions of `at` (before or after line 162) are
not modelled here, see `Model/Stability`. -/
def setupLibrary (k : Kind) (stateConfiguration : List ℝ) (r : Robot) : Robot :=
  let s := save k r
  let r := (r.set stateConfiguration).forward
  r.set (s.read r)

/-- analysis.cc:132-153 `GenerateFullBodyDB`: the loop over the configurations that are shot (l.141-150); the collision validation may move the device (`validate`) -/
def generateFullBodyDB (shot : List (List ℝ)) (validate : List ℝ → Work) (r : Robot) : Robot :=
  let s := save .byValue r
  let r := shot.foldl (fun r q => validate q (r.set q).forward) r
  (r.set (s.read r)).forward

/-- analysis.cc:159-184 `selfCollisionProbability`; `shot`: the configurations shot if the data base is generated, `configs`: the data base with the sample loaded -/
def selfCollisionProbability (shot configs : List (List ℝ)) (validate : List ℝ → Work) (r : Robot) : Robot :=
  let s := save .byValue r
  let r := if shot.isEmpty then r else generateFullBodyDB shot validate r
  let r := configs.foldl (fun r q => validate q (r.set q).forward) r
  (r.set (s.read r)).forward

/-! ### the cone of a state -/

section
variable {N K : Type _} [LinearOrder N] [Field K] [LinearOrder K] [IsStrictOrderedRing K]

/-- inequalities `H w ≤ h` on a wrench [stability.cc:237-265] -/
structure Cone (K : Type _) where
  H : List (List K)
  h : List K

/-- the wrenches that satisfy the inequalities [stability.cc:237-265] -/
def Cone.Accepts (c : Cone K) (w : List K) : Prop := ∀ r ∈ c.H.zip c.h, (List.zipWith (· * ·) r.1 w).sum ≤ r.2

/-- stability.cc:237-265 `ComputeCentroidalCone`; `polytope`: `getPolytopeInequalities` of the library, `none` if its status is not optimal; outer `none`: an exception. The argument `friction` is
overwritten (l.147), and the cone of a failed computation is made of zeros (l.260-261). -/
def computeCentroidalCone (env : Stability.StabEnv N K) (sv : Stability.Solver K) (polytope : Stability.Problem K → Option (Cone K)) (state : State N K) (_friction : K) : Option (Cone K) :=
  match Stability.setupLibrary env sv state .PP 0 0 with
  | none => none
  | some (_, pb) =>
    match polytope pb with
    | none => some ⟨List.replicate 6 (List.replicate 6 0), List.replicate 6 0⟩
    | some c => some c

end

end Restore
end Rbprm
