import Verif.Base.Vec3
import Mathlib.Analysis.SpecialFunctions.Trigonometric.Inverse
import Mathlib.Analysis.InnerProductSpace.Basic
set_option linter.unusedSectionVars false
/-!
# Model of `tools.cc`: rotation matrices, interpolation and distance of quaternions

Numbers are reals. A quaternion is a vector of an inner product space `V` (in the code: four coordinates in a configuration vector; nothing depends on their number).
-/
namespace Rbprm
namespace Tools

/-! ### rotation matrices; `r` is the content of the matrix, which is not initialised -/

/-- tools.cc:37-46 `GetZRotMatrix` -/
noncomputable def zRot (r : Mat3 ℝ) (theta : ℝ) : Mat3 ℝ :=
  let c := Real.cos theta
  let s := Real.sin theta
  ⟨⟨c, -s, r.r0.z⟩, ⟨s, c, r.r1.z⟩, ⟨r.r2.x, r.r2.y, 1⟩⟩

/-- tools.cc:48-57 `GetYRotMatrix` -/
noncomputable def yRot (r : Mat3 ℝ) (theta : ℝ) : Mat3 ℝ :=
  let c := Real.cos theta
  let s := Real.sin theta
  ⟨⟨c, r.r0.y, s⟩, ⟨r.r1.x, 1, r.r1.z⟩, ⟨-s, r.r2.y, c⟩⟩

/-- tools.cc:59-68 `GetXRotMatrix`; the sine is written in (2, 0) -/
noncomputable def xRot (r : Mat3 ℝ) (theta : ℝ) : Mat3 ℝ :=
  let c := Real.cos theta
  let s := Real.sin theta
  ⟨⟨1, r.r0.y, r.r0.z⟩, ⟨r.r1.x, c, -s⟩, ⟨s, r.r2.y, c⟩⟩

/-! ### quaternions -/

section
variable {V : Type _} [NormedAddCommGroup V] [InnerProductSpace ℝ V]

open Classical in
/-- tools.cc:70-84 `angleBetweenQuaternions`: the angle and `cosIsNegative` -/
noncomputable def angleBetween (q1 q2 : V) : ℝ × Bool :=
  if q1 = q2 then (0, false)
  else
    let innerprod := inner ℝ q1 q2
    let innerprod := if innerprod < -1 then -1 else innerprod
    let innerprod := if 1 < innerprod then 1 else innerprod
    (Real.arccos innerprod, decide (innerprod < 0))

/-- tools.cc:86-102 `interpolate` -/
noncomputable def interpolate (q1 q2 : V) (u : ℝ) : V :=
  let a := angleBetween q1 q2
  let invertor : ℝ := if a.2 then -1 else 1
  let theta := if a.2 then Real.pi - a.1 else a.1
  if 1 / 10000 < |theta| then
    let sinthetaInv := 1 / Real.sin theta
    (Real.sin ((1 - u) * theta) * sinthetaInv) • q1 + (invertor * (Real.sin (u * theta) * sinthetaInv)) • q2
  else (1 - u) • q1 + (invertor * u) • q2

/-- tools.cc:104-109 `distance` -/
noncomputable def distance (q1 q2 : V) : ℝ :=
  let a := angleBetween q1 q2
  2 * (if a.2 then Real.pi - a.1 else a.1)

end

end Tools
end Rbprm
