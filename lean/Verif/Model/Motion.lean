import Verif.Model.Heuristic
import Verif.Model.Projection
import Verif.Model.State
set_option linter.unusedSectionVars false
/-!
# What contact generation and the heuristics are told about the motion of the robot
(`rbprm-path-interpolation.cc`, `algorithm.cc`, `contact_generation.cc`)

`double` is `ℝ`; a configuration is a list; `none` is an access outside of a configuration (an assertion of Eigen, undefined in release builds).
-/
namespace Rbprm
namespace Motion
open Heur
variable {N : Type _}

/-- three consecutive entries of a configuration (`segment<3>`, `head<3>`, or three accesses) [Eigen, used in rbprm-path-interpolation.cc:262-275] -/
def segment (q : List ℝ) (i : ℕ) : Option (Vec3 ℝ) :=
  match q[i]?, q[i + 1]?, q[i + 2]? with
  | some x, some y, some z => some ⟨x, y, z⟩
  | _, _, _ => none

/-- rbprm-path-interpolation.cc:239-241: where the acceleration is supposed to start -/
def accIndex (configSize extraDim : ℕ) : ℕ := configSize - extraDim + 3

/-- rbprm-path-interpolation.cc:270-274: the direction, from the motion `dir`; `nonZero` is never set -/
noncomputable def directionOf (dir : Vec3 ℝ) : Vec3 ℝ :=
  let nonZero := false
  let direction := normalize dir
  if !nonZero then ⟨0, 0, 1⟩ else direction

/-- what `Interpolate` gives to `ComputeContacts` (the variable `dir` is local to it) [rbprm-path-interpolation.cc:262-282] -/
structure Given where
  dir : Vec3 ℝ
  direction : Vec3 ℝ
  acceleration : Vec3 ℝ

/-- rbprm-path-interpolation.cc:265-274; `acc`: the acceleration of the iteration before, zero in the first one (l.256) -/
noncomputable def given (configSize extraDim : ℕ) (acc : Vec3 ℝ) (configuration previous : List ℝ) : Option Given :=
  if accIndex configSize extraDim < configuration.length then
    match segment configuration (accIndex configSize extraDim), segment configuration (accIndex configSize extraDim - 3) with
    | some a, some dir => some ⟨dir, directionOf dir, a⟩
    | _, _ => none
  else
    match segment configuration 0, segment previous 0 with
    | some p, some p' => some ⟨p - p', directionOf (p - p'), acc⟩
    | _, _ => none

/-- rbprm-path-interpolation.cc:256-274: what is given in each iteration, for the configurations and the states before them -/
noncomputable def givenAll (configSize extraDim : ℕ) : Vec3 ℝ → List (List ℝ × List ℝ) → Option (List Given)
  | _, [] => some []
  | acc, (configuration, previous) :: rest =>
    match given configSize extraDim acc configuration previous with
    | none => none
    | some g =>
      match givenAll configSize extraDim g.acceleration rest with
      | none => none
      | some gs => some (g :: gs)

/-- contact_generation.cc:822-828 (algorithm.cc:168-175, contact_generation.cc:883-893): the placement of the root -/
def rootOf (q : List ℝ) : Option Tf :=
  match segment q 0, q[3]?, q[4]?, q[5]?, q[6]? with
  | some t, some x, some y, some z, some w => some ⟨Proj.Quat.toMatrix ⟨w, x, y, z⟩, t⟩
  | _, _, _, _, _ => none

/-- contact_generation.cc:808-828 and 711-713 (the same in algorithm.cc:155-175 and contact_generation.cc:870-893): the parameters of the heuristics for a limb and a state; `com`: the centre of mass in a configuration; the configuration has at least six entries (seven for the root) -/
def paramsOf (com : List ℝ → Vec3 ℝ) (acceleration : Vec3 ℝ) (comPath : Option (ℝ → Tf)) (currentPathId : ℝ) (offset : Vec3 ℝ) (limb : N) (s : State N ℝ) : Option (Params N) :=
  match segment s.configuration (s.configuration.length - 6), rootOf s.configuration with
  | some v, some root =>
    some { contactPositions := s.contactPositions, comPosition := com s.configuration, comSpeed := v, comAcceleration := acceleration, sampleLimbName := limb,
           tfWorldRoot := root, comPath := comPath, currentPathId := currentPathId, limbReferenceOffset := offset }
  | _, _ => none

end Motion
end Rbprm
