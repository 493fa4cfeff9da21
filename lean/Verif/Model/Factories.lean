import Verif.Model.Heuristic
import Verif.Model.Analysis
import Verif.Model.FullBody
import Mathlib.Data.String.Basic
set_option linter.unusedSectionVars false
/-!
# The built-in evaluation functions (`HeuristicFactory`, `AnalysisFactory`)

A heuristic is called with a sample, a direction, a normal and parameters; the random number that it may draw is given as an argument.  A result `none` is that of `dynamicHeuristic`.
-/
namespace Rbprm
namespace Factory
open Heur Analysis

/-- heuristic.hh:38–42 `heuristic`: random number, sample, direction, normal, parameters -/
abbrev HeuristicFn := ℝ → Sample → Vec3 ℝ → Vec3 ℝ → Params String → Option ℝ

/-- the functions of heuristic.cc in the form of a `heuristic`; `fixedStep1Heuristic`, …, `fixedStep04Heuristic` are heuristic.cc:278–297 -/
noncomputable def fixedStepFn (tStep : ℝ) : HeuristicFn := fun _ s _ _ p => some (fixedStep tStep s p)

/-- insertion of a list of pairs into a map, in order (`std::map::insert`) [heuristic.cc:315-338, analysis.cc:343-387] -/
def insertAll {F : Type _} (m : AMap String F) : List (String × F) → AMap String F
  | [] => m
  | (n, f) :: l => insertAll (m.insertNew n f) l

/-- heuristic.cc:324–337: the pairs that are inserted, in order; `eps`, `big` and `fuel` are those of `dynamicHeuristic` -/
noncomputable def heuristicTable (eps big : ℝ) (fuel : ℕ) : List (String × HeuristicFn) :=
    [("static", fun _ s _ _ _ => some (staticHeuristic s)),
     ("EFORT", fun _ s d n _ => some (efort s d n)),
     ("EFORT_Normal", fun _ s d n _ => some (efortNormal s d n)),
     ("manipulability", fun r s _ n _ => some (manipulabilityHeuristic r s n)),
     ("random", fun r _ _ _ _ => some (randomHeuristic r)),
     ("forward", fun r s d n _ => some (forwardHeuristic r s d n)),
     ("dynamicWalk", fun r s d n p => some (dynamicWalk r s (some d) n p)),
     ("backward", fun r s d n _ => some (backwardHeuristic r s d n)),
     ("jointlimits", fun _ s _ _ _ => some (distanceToLimitHeuristic s)),
     ("dynamic", fun _ s _ _ p => dynamicHeuristic eps big fuel s p),
     ("fixedStep1", fixedStepFn 1),
     ("fixedStep08", fixedStepFn (8 / 10)),
     ("fixedStep06", fixedStepFn (6 / 10)),
     ("fixedStep04", fixedStepFn (4 / 10))]

/-- heuristic.cc:315–338 `HeuristicFactory()`.  The seed of the random numbers is not modelled. -/
noncomputable def heuristics (eps big : ℝ) (fuel : ℕ) : AMap String HeuristicFn := insertAll [] (heuristicTable eps big fuel)

/-- what an analysis computes (analysis.cc:57–117, 160–236, 288–339), with its mode -/
inductive Eval
  | manipulability (m : JMode) | isotropy (m : JMode) | minSing (m : JMode) | maxSing (m : JMode)
  | selfCollisionProbability | distanceToLimits | referenceConfiguration
deriving DecidableEq, Repr

/-- `JacobianMode(i)` (analysis.cc:33–37) -/
def mode : ℕ → JMode
  | 0 => .all
  | 1 => .rotation
  | _ => .translation

/-- analysis.cc:345–386: the pairs that are inserted, in order -/
def analysisTable : List (String × Eval) :=
    [("manipulability", .manipulability (mode 0)), ("isotropy", .isotropy (mode 0)), ("minimumSingularValue", .minSing (mode 0)), ("maximumSingularValue", .maxSing (mode 0)),
     ("manipulabilityRot", .manipulability (mode 1)), ("isotropyRot", .isotropy (mode 1)), ("minimumSingularValueRot", .minSing (mode 1)), ("maximumSingularValueRot", .maxSing (mode 1)),
     ("manipulabilityTr", .manipulability (mode 2)), ("isotropyTr", .isotropy (mode 2)), ("minimumSingularValueTr", .minSing (mode 2)), ("maximumSingularValueTr", .maxSing (mode 2)),
     ("selfCollisionProbability", .selfCollisionProbability), ("jointLimitsDistance", .distanceToLimits), ("ReferenceConfiguration", .referenceConfiguration)]

/-- analysis.cc:343–387 `AnalysisFactory(device)` -/
def analyses : AMap String Eval := insertAll [] analysisTable

/-- the jacobian based analyses of a sample (analysis.cc:57–117) -/
noncomputable def Eval.value (big : ℝ) (sv : {r n : ℕ} → Matrix (Fin r) (Fin n) ℝ → List ℝ) {n : ℕ} (J : Jac n) (prod : Matrix (Fin 6) (Fin 6) ℝ) : Eval → Option ℝ
  | .manipulability m => some (Analysis.manipulability J prod m)
  | .isotropy m => Analysis.isotropy big (singularValues sv J m)
  | .minSing m => some (Analysis.minSing big (singularValues sv J m))
  | .maxSing m => some (Analysis.maxSing big (singularValues sv J m))
  | _ => none

end Factory
end Rbprm
