import Verif.Model.Parabola
set_option linter.unusedSectionVars false
/-!
# Model of `SteeringMethodParabola::compute_random_3D_path`

As in `Model/Parabola`: over the reals, without NaN.  The members `alpha_1_minus_` and `alpha_1_plus_`, which the compiled
code reads here and sets nowhere else (steering-method-parabola.hh:187-188; neither constructor sets them), are an argument.
-/
namespace Rbprm
namespace Parabola
open Real
variable {R : Type _}

/-- what a call of `compute_random_3D_path` leaves: the member `alpha_1_minus_`, the two outputs, the path (`none`: null) [steering-method-parabola.cc:349-439] -/
structure RandomJump (R : Type _) where
  alphaMinus : ℝ
  alpha : ℝ
  v : ℝ
  path : Option (Path R)

open Classical in
/-- steering-method-parabola.cc:349-439 `compute_random_3D_path`; `r1`, `r2`: the two values `rand() / RAND_MAX`; `mem0`, `memImp`:
the contents of the members `V0_` and `Vimp_` of the path, which the constructor of parabola-path.cc:35-53 allocates and does not set -/
noncomputable def randomJump (env : SteerEnv R) (alphaMinus alphaPlus r1 r2 : ℝ) (mem0 memImp : Vec3 ℝ) (q1 q2 : Conf R) : RandomJump R :=
  let d := q2.pos - q1.pos
  let theta := Complex.arg ⟨d.x, d.y⟩
  let x0 := along theta q1.pos
  let ximp := along theta q2.pos
  let minus := if alphaMinus < 0 then 0 else alphaMinus
  let interval := (alphaPlus - minus) / 2
  let alpha := r1 * interval + minus
  let v := r2 * env.V0max
  let t : ℝ := 3
  let xf := v * cos alpha * t + x0
  let qnew : Conf R := { q2 with pos := ⟨xf * cos theta, xf * sin theta, v * sin alpha * t - 1 / 2 * env.g * t * t + q1.pos.z⟩ }
  let D := qnew.pos - q1.pos
  let co := coefficients env.g alpha theta (D.x * cos theta + D.y * sin theta) D.z x0 q1.pos.z
  let pp : Path R := ⟨q1, qnew, computeLength theta q1 qnew, co.1, mem0, memImp⟩
  ⟨minus, alpha, v, if env.valid pp = false ∨ maxHeightRespected env.zmax co.1 x0 ximp = false then none else some pp⟩

end Parabola
end Rbprm
