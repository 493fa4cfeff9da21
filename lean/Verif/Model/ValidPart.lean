import Verif.Model.Paths
set_option linter.unusedSectionVars false
/-!
# The valid part that `TimeConstraintPathValidation` gives (`src/interpolation/time-constraint-path-validation.cc`)

`Model/Paths` has the answer of the validation; here is what it writes to its reference arguments.
-/
namespace Rbprm
namespace Paths
variable {K R Rep : Type _} [Field K] [LinearOrder K]

/-- what `validate` gives: its answer, the valid part, the report (`none`: the pointer of the caller is not changed) [time-constraint-path-validation.cc:40-71] -/
structure Verdict (R K Rep : Type _) where
  valid : Bool
  part : Extracted R K
  report : Option Rep

/-- time-constraint-path-validation.cc:40-71 `validate`; `discretized`: `core::pathValidation::Discretized::validate` -/
def validatePart (interp : R → R → K → R) (dist : Conf R K → Conf R K → K) (discretized : TPath R K → Bool → Verdict R K Rep) (p : TPath R K) (reverse : Bool) : Verdict R K Rep :=
  if p.init.dof > p.fin.dof then ⟨false, p.extract interp 0 0, none⟩
  else if jumps dist ⟨p.init, p.fin, p.len, fun t => (p.eval interp t).1⟩ (dist p.fin p.init) p.init [1, 2, 3, 4, 5, 6, 7, 8, 9] then ⟨false, p.extract interp 0 0, none⟩
  else discretized p reverse

end Paths
end Rbprm
