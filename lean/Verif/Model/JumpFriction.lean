import Verif.Model.Parabola
import Verif.Model.JumpCone
set_option linter.unusedSectionVars false
/-!
# Model of the friction constraints of a jump (steering-method-parabola.cc)

`compute_3D_path` (`Parabola.steer`) does not test the cones any more: the test of l.116-173 is commented out, the intervals are -2π to 2π (l.180-183) and `third_constraint` returns at l.477.
-/
namespace Rbprm
namespace Parabola

/-- steering-method-parabola.cc:46: the friction `mu_` that the constructor sets -/
noncomputable def defaultFriction : ℝ := 1 / 2

/-- steering-method-parabola.cc:464-504 `third_constraint`: whether it fails, `alpha_imp_sup`, `alpha_imp_inf` (unset if it fails: `none`); what follows the return of l.477 is dead -/
noncomputable def thirdConstraint (fail : Bool) (X Y impMin impMax : ℝ) : Bool × Option (ℝ × ℝ) :=
  if fail then (true, none)
  else (false, some (impMax, impMin))

end Parabola
end Rbprm
