import Verif.Base.Vec3
import Mathlib.Analysis.SpecialFunctions.Complex.Arg
import Mathlib.Analysis.SpecialFunctions.Trigonometric.Arctan
set_option linter.unusedSectionVars false
/-!
# Model of the friction cone seen by a jump (`SteeringMethodParabola::fiveth_constraint`)

`double` is `ℝ`.  The extra degrees of freedom of the configuration are represented by the normal alone.
-/
namespace Rbprm
namespace JumpCone
open Real

/-- steering-method-parabola.cc:513-517: `denomK` -/
noncomputable def denom (mu : ℝ) (n : Vec3 ℝ) : ℝ := n.x * n.x + n.y * n.y - n.z * n.z * mu * mu

open Classical in
/-- steering-method-parabola.cc:519-525: the angle `psi` between the vertical and the normal in the plane, and `nonVerticalCone` -/
noncomputable def nonVertical (mu : ℝ) (n : Vec3 ℝ) (theta : ℝ) : Bool :=
  let phi := arctan mu
  let psi := π / 2 - Complex.arg ⟨n.x * cos theta + n.y * sin theta, n.z⟩
  decide ((psi < -phi ∧ psi ≥ -π / 2) ∨ (psi > phi ∧ psi < π - phi) ∨ (psi > π + phi ∧ psi ≤ 3 * π / 2))

open Classical in
/-- steering-method-parabola.cc:526-527: `epsilon` -/
noncomputable def epsilon (mu : ℝ) (n : Vec3 ℝ) (theta : ℝ) : ℝ :=
  if nonVertical mu n theta = false ∧ denom mu n < 0 then -1 else 1

open Classical in
/-- steering-method-parabola.cc:529-563: the cone is tangent to the vertical; `none`: false -/
noncomputable def tangentCase (mu : ℝ) (n : Vec3 ℝ) (theta : ℝ) : Option ℝ :=
  if theta ≠ π / 2 ∧ theta ≠ -π / 2 then
    let t := tan theta
    if n.x + n.y * t ≠ 0 then
      let numH := mu * mu * (n.x * n.x + n.y * n.y * t * t) - n.x * n.x * t * t - n.y * n.y
        + 2 * n.x * n.y * t * (1 + mu * mu) - n.z * n.z * (1 + t * t)
      let H := -numH / (2 * (1 + mu * mu) * |n.z| * |n.x + n.y * t|)
      some (1 / 2 * arccos (H / sqrt (1 + t * t + H * H)))
    else some (π / 4)
  else if n.y ≠ 0 then
    let L := -(n.y * n.y * (1 + mu * mu) - 1) / (2 * (1 + mu * mu) * |n.y| * |n.z|)
    some (1 / 2 * arccos (L / sqrt (1 + L * L)))
  else none

/-- steering-method-parabola.cc:568-571: `discr`, when the tangent of the heading is defined -/
noncomputable def discr (mu : ℝ) (n : Vec3 ℝ) (t : ℝ) : ℝ :=
  (n.x * n.x + n.z * n.z) * mu * mu - n.y * n.y - n.x * n.x * t * t + (n.y * n.y + n.z * n.z) * mu * mu * t * t
    + 2 * (1 + mu * mu) * n.x * n.y * t

open Classical in
/-- steering-method-parabola.cc:506-684 `fiveth_constraint`: the half angle `delta`; `none`: false.  The assertions
(l.546, 559, 647, 681) are not a part of the model; the values of l.590-628 are only displayed. -/
noncomputable def fifthConstraint (mu : ℝ) (n : Vec3 ℝ) (theta : ℝ) : Option ℝ :=
  if denom mu n > -(1 / 1000000) ∧ denom mu n < 1 / 1000000 then tangentCase mu n theta
  else if theta ≠ π / 2 ∧ theta ≠ -π / 2 then
    let t := tan theta
    let d := discr mu n t
    if d < 0 then none
    else if d < 5 / 100 then none
    else
      let K1 := (sqrt d + n.x * n.z + n.x * n.z * mu * mu + n.y * n.z * t + n.y * n.z * mu * mu * t) / denom mu n
      let K2 := (-sqrt d + n.x * n.z + n.x * n.z * mu * mu + n.y * n.z * t + n.y * n.z * mu * mu * t) / denom mu n
      some (1 / 2 * arccos (epsilon mu n theta * (1 + t * t + K1 * K2) / sqrt ((1 + t * t + K1 * K1) * (1 + t * t + K2 * K2))))
  else
    let d := -n.x * n.x + (n.y * n.y + n.z * n.z) * (mu * mu)
    if d < 0 then none
    else if d < 5 / 100 then none
    else
      let G1 := ((1 + mu * mu) * n.y * n.z + sqrt d) / denom mu n
      let G2 := ((1 + mu * mu) * n.y * n.z - sqrt d) / denom mu n
      some (1 / 2 * arccos (epsilon mu n theta * (1 + G1 * G2) / sqrt ((1 + G1 * G1) * (1 + G2 * G2))))

end JumpCone
end Rbprm
