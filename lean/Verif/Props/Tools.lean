import Verif.Model.Tools
import Verif.Model.Stability
import Verif.Props.Projection
import Mathlib.Geometry.Euclidean.Angle.Unoriented.TriangleInequality
import Mathlib.Tactic.LinearCombination
import Mathlib.Tactic.FieldSimp
import Mathlib.Tactic.Positivity
import Mathlib.Analysis.SpecialFunctions.Trigonometric.Bounds
set_option linter.unusedSectionVars false
set_option linter.unusedSimpArgs false
/-!
# C135, C136: rotation matrices and quaternions of `tools.cc`
-/
namespace Rbprm
namespace Tools
open Real

/-! ### C135 -/

/-- the rotation by the angle `theta` about the unit axis `k`: `v ↦ cos θ v + sin θ k × v + (1 - cos θ) (k · v) k` (Rodrigues) -/
def RotationAbout (k : Vec3 ℝ) (theta : ℝ) (M : Mat3 ℝ) : Prop :=
  ∀ v, M.mulVec v = Vec3.smul (cos theta) v + Vec3.smul (sin theta) (Vec3.cross k v) + Vec3.smul ((1 - cos theta) * Vec3.dot k v) k

theorem rotationAbout_iff (k : Vec3 ℝ) (theta : ℝ) (M : Mat3 ℝ) : RotationAbout k theta M ↔
    M.mulVec ⟨1, 0, 0⟩ = Vec3.smul (cos theta) ⟨1, 0, 0⟩ + Vec3.smul (sin theta) (Vec3.cross k ⟨1, 0, 0⟩) + Vec3.smul ((1 - cos theta) * Vec3.dot k ⟨1, 0, 0⟩) k ∧
    M.mulVec ⟨0, 1, 0⟩ = Vec3.smul (cos theta) ⟨0, 1, 0⟩ + Vec3.smul (sin theta) (Vec3.cross k ⟨0, 1, 0⟩) + Vec3.smul ((1 - cos theta) * Vec3.dot k ⟨0, 1, 0⟩) k ∧
    M.mulVec ⟨0, 0, 1⟩ = Vec3.smul (cos theta) ⟨0, 0, 1⟩ + Vec3.smul (sin theta) (Vec3.cross k ⟨0, 0, 1⟩) + Vec3.smul ((1 - cos theta) * Vec3.dot k ⟨0, 0, 1⟩) k := by
  constructor
  · intro h
    exact ⟨h _, h _, h _⟩
  · rintro ⟨h1, h2, h3⟩ v
    have hv : M.mulVec v = Vec3.smul v.x (M.mulVec ⟨1, 0, 0⟩) + Vec3.smul v.y (M.mulVec ⟨0, 1, 0⟩) + Vec3.smul v.z (M.mulVec ⟨0, 0, 1⟩) := by
      ext <;> simp [Mat3.mulVec, Vec3.dot, Vec3.smul] <;> ring
    rw [hv, h1, h2, h3]
    ext <;> simp [Vec3.cross, Vec3.dot, Vec3.smul] <;> ring

/-- C135: about z: a rotation exactly if the memory happened to contain zeros -/
theorem C135_z (r : Mat3 ℝ) (theta : ℝ) : RotationAbout ⟨0, 0, 1⟩ theta (zRot r theta) ↔ r.r0.z = 0 ∧ r.r1.z = 0 ∧ r.r2.x = 0 ∧ r.r2.y = 0 := by
  rw [rotationAbout_iff]
  simp only [Vec3.ext_iff, zRot, Mat3.mulVec, Vec3.dot, Vec3.cross, Vec3.smul, Vec3.add_x, Vec3.add_y, Vec3.add_z, mul_zero, mul_one, add_zero, zero_add, zero_mul, sub_zero, zero_sub, sub_self,
    one_mul, mul_neg, neg_zero]
  constructor
  · rintro ⟨⟨_, _, h1⟩, ⟨_, _, h2⟩, h3, h4, _⟩
    exact ⟨h3, h4, h1, h2⟩
  · rintro ⟨h1, h2, h3, h4⟩
    exact ⟨⟨trivial, trivial, h3⟩, ⟨trivial, trivial, h4⟩, h1, h2, by ring⟩

/-- C135: about y, the same -/
theorem C135_y (r : Mat3 ℝ) (theta : ℝ) : RotationAbout ⟨0, 1, 0⟩ theta (yRot r theta) ↔ r.r0.y = 0 ∧ r.r1.x = 0 ∧ r.r1.z = 0 ∧ r.r2.y = 0 := by
  rw [rotationAbout_iff]
  simp only [Vec3.ext_iff, yRot, Mat3.mulVec, Vec3.dot, Vec3.cross, Vec3.smul, Vec3.add_x, Vec3.add_y, Vec3.add_z, mul_zero, mul_one, add_zero, zero_add, zero_mul, sub_zero, zero_sub, sub_self,
    one_mul, mul_neg, neg_zero]
  constructor
  · rintro ⟨⟨_, h2, _⟩, ⟨h1, _, h4⟩, _, h3, _⟩
    exact ⟨h1, h2, h3, h4⟩
  · rintro ⟨h1, h2, h3, h4⟩
    exact ⟨⟨trivial, h2, trivial⟩, ⟨h1, by ring, h4⟩, trivial, h3, trivial⟩

/-- C135, violated: about x, the result is the rotation for multiples of π only, whatever the memory contained -/
theorem C135_x_violated (r : Mat3 ℝ) (theta : ℝ) (h : sin theta ≠ 0) : ¬ RotationAbout ⟨1, 0, 0⟩ theta (xRot r theta) := by
  rw [rotationAbout_iff]
  simp only [Vec3.ext_iff, xRot, Mat3.mulVec, Vec3.dot, Vec3.cross, Vec3.smul, Vec3.add_x, Vec3.add_y, Vec3.add_z, mul_zero, mul_one, add_zero, zero_add, zero_mul, sub_zero, zero_sub, sub_self,
    one_mul, mul_neg, neg_zero]
  rintro ⟨⟨_, _, h1⟩, _⟩
  exact h h1

/-- C135: about x, in memory with zeros: the last coordinate takes the first instead of the second one, everything else is the rotation -/
theorem C135_x_exact (theta : ℝ) (v : Vec3 ℝ) : (xRot ⟨0, 0, 0⟩ theta).mulVec v =
    (Vec3.smul (cos theta) v + Vec3.smul (sin theta) (Vec3.cross ⟨1, 0, 0⟩ v) + Vec3.smul ((1 - cos theta) * v.x) ⟨1, 0, 0⟩) + ⟨0, 0, sin theta * (v.x - v.y)⟩ := by
  ext <;> simp [xRot, Mat3.mulVec, Vec3.dot, Vec3.cross, Vec3.smul] <;> ring

/-- C135, violated: in memory with zeros it is not even orthogonal -/
theorem C135_x_orthogonal_violated (theta : ℝ) (h : sin theta ≠ 0) : ¬ Interp.Orthogonal (xRot ⟨0, 0, 0⟩ theta) := by
  rintro ⟨h1, _⟩
  have := congrArg (fun M => M.r0.z) h1
  simp [Stability.mulMat, Mat3.transpose, xRot, Vec3.dot, Mat3.one] at this
  exact h this

/-- C135, violated: no memory content makes all of them independent of it: a not initialised entry is returned -/
theorem C135_uninitialised_violated (theta : ℝ) : ∃ r r', zRot r theta ≠ zRot r' theta := by
  refine ⟨⟨0, 0, 0⟩, ⟨⟨0, 0, 1⟩, 0, 0⟩, fun h => ?_⟩
  have := congrArg (fun M => M.r0.z) h
  simp [zRot] at this

/-! ### C136 -/

section
variable {V : Type _} [NormedAddCommGroup V] [InnerProductSpace ℝ V]

/-- the angle between the lines of two vectors -/
noncomputable def lineAngle (p q : V) : ℝ := min (InnerProductGeometry.angle p q) (π - InnerProductGeometry.angle p q)

theorem inner_bounds {p q : V} (hp : ‖p‖ = 1) (hq : ‖q‖ = 1) : -1 ≤ inner ℝ p q ∧ inner ℝ p q ≤ 1 := by
  have := abs_real_inner_le_norm p q
  rw [hp, hq, mul_one] at this
  exact abs_le.1 this

theorem angle_unit {p q : V} (hp : ‖p‖ = 1) (hq : ‖q‖ = 1) : InnerProductGeometry.angle p q = arccos (inner ℝ p q) := by
  unfold InnerProductGeometry.angle
  rw [hp, hq]
  simp

theorem angleBetween_unit {p q : V} (hp : ‖p‖ = 1) (hq : ‖q‖ = 1) :
    (angleBetween p q).1 = InnerProductGeometry.angle p q ∧ ((angleBetween p q).2 = true ↔ inner ℝ p q < 0) := by
  obtain ⟨h1, h2⟩ := inner_bounds hp hq
  unfold angleBetween
  by_cases h : p = q
  · subst h
    rw [if_pos rfl]
    have : inner ℝ p p = 1 := by rw [real_inner_self_eq_norm_sq, hp]; norm_num
    refine ⟨?_, ?_⟩
    · rw [angle_unit hp hq, this, arccos_one]
    · rw [this]
      norm_num
  · rw [if_neg h]
    simp only
    rw [if_neg (not_lt.2 h1), if_neg (not_lt.2 h2)]
    exact ⟨(angle_unit hp hq).symm, by simp⟩

/-- the angle used by the functions -/
noncomputable def theta (p q : V) : ℝ := if (angleBetween p q).2 then π - (angleBetween p q).1 else (angleBetween p q).1

theorem theta_eq {p q : V} (hp : ‖p‖ = 1) (hq : ‖q‖ = 1) : theta p q = lineAngle p q := by
  obtain ⟨h1, h2⟩ := angleBetween_unit hp hq
  unfold theta lineAngle
  rw [h1]
  have ha := angle_unit hp hq
  by_cases h : inner ℝ p q < 0
  · rw [if_pos (h2.2 h), min_eq_right]
    have := arccos_le_pi_div_two.not.2 (not_le.2 h)
    rw [ha]
    linarith
  · rw [if_neg (fun hh => h (h2.1 hh)), min_eq_left]
    have := arccos_le_pi_div_two.2 (not_lt.1 h)
    rw [ha]
    linarith

theorem distance_eq {p q : V} (hp : ‖p‖ = 1) (hq : ‖q‖ = 1) : distance p q = 2 * lineAngle p q := by
  rw [← theta_eq hp hq]
  rfl

/-- C136: the distance is between 0 and π -/
theorem C136_range {p q : V} (hp : ‖p‖ = 1) (hq : ‖q‖ = 1) : 0 ≤ distance p q ∧ distance p q ≤ π := by
  rw [distance_eq hp hq]
  unfold lineAngle
  have h1 := InnerProductGeometry.angle_nonneg p q
  have h2 := InnerProductGeometry.angle_le_pi p q
  rcases le_total (InnerProductGeometry.angle p q) (π - InnerProductGeometry.angle p q) with h | h
  · rw [min_eq_left h]
    constructor <;> linarith
  · rw [min_eq_right h]
    constructor <;> linarith

/-- C136: it is symmetric -/
theorem C136_symmetric {p q : V} (hp : ‖p‖ = 1) (hq : ‖q‖ = 1) : distance p q = distance q p := by
  rw [distance_eq hp hq, distance_eq hq hp]
  unfold lineAngle
  rw [InnerProductGeometry.angle_comm]

/-- C136: opposite quaternions, which are the same rotation, have the same distances -/
theorem C136_sign {p q : V} (hp : ‖p‖ = 1) (hq : ‖q‖ = 1) : distance p (-q) = distance p q := by
  rw [distance_eq hp (by rwa [norm_neg]), distance_eq hp hq]
  unfold lineAngle
  rw [InnerProductGeometry.angle_neg_right, min_comm]
  congr 2
  ring

/-- C136: the distance is 0 exactly for the same rotation -/
theorem C136_zero {p q : V} (hp : ‖p‖ = 1) (hq : ‖q‖ = 1) : distance p q = 0 ↔ q = p ∨ q = -p := by
  rw [distance_eq hp hq]
  unfold lineAngle
  have hb := inner_bounds hp hq
  have h1 := InnerProductGeometry.angle_nonneg p q
  have h2 := InnerProductGeometry.angle_le_pi p q
  constructor
  · intro h
    rcases min_choice (InnerProductGeometry.angle p q) (π - InnerProductGeometry.angle p q) with hm | hm
    · rw [hm, angle_unit hp hq] at h
      have h0 : arccos (inner ℝ p q) = 0 := by linarith
      rw [arccos_eq_zero] at h0
      exact Or.inl ((inner_eq_one_iff_of_norm_eq_one (𝕜 := ℝ) hp hq).1 (le_antisymm hb.2 h0)).symm
    · rw [hm, angle_unit hp hq] at h
      have h0 : arccos (inner ℝ p q) = π := by linarith
      rw [arccos_eq_pi] at h0
      have := (inner_eq_neg_one_iff_of_norm_eq_one hp hq).1 (le_antisymm h0 hb.1)
      exact Or.inr (by rw [this, neg_neg])
  · rintro (rfl | rfl)
    · rw [angle_unit hp hp, real_inner_self_eq_norm_sq, hp]
      norm_num
      exact pi_pos.le
    · rw [angle_unit hp hq, inner_neg_right, real_inner_self_eq_norm_sq, hp]
      norm_num
      exact pi_pos.le

/-- C136: triangle inequality -/
theorem C136_triangle {p q r : V} (hp : ‖p‖ = 1) (hq : ‖q‖ = 1) (hr : ‖r‖ = 1) : distance p r ≤ distance p q + distance q r := by
  have key : ∀ a b c : V, ‖a‖ = 1 → ‖b‖ = 1 → ‖c‖ = 1 → lineAngle a c ≤ InnerProductGeometry.angle a b + InnerProductGeometry.angle b c := by
    intro a b c _ _ _
    exact le_trans (min_le_left _ _) (InnerProductGeometry.angle_le_angle_add_angle a b c)
  have hn : ∀ a : V, ‖a‖ = 1 → ‖-a‖ = 1 := fun a h => by rwa [norm_neg]
  have hsgn : ∀ a b : V, lineAngle a (-b) = lineAngle a b := by
    intro a b
    unfold lineAngle
    rw [InnerProductGeometry.angle_neg_right, min_comm]
    congr 1
    ring
  have hval : ∀ a b : V, lineAngle a b = InnerProductGeometry.angle a b ∨ lineAngle a b = InnerProductGeometry.angle a (-b) := by
    intro a b
    unfold lineAngle
    rw [InnerProductGeometry.angle_neg_right]
    exact min_choice _ _
  rw [distance_eq hp hr, distance_eq hp hq, distance_eq hq hr]
  rcases hval p q with h1 | h1 <;> rcases hval q r with h2 | h2
  · rw [h1, h2]
    linarith [key p q r hp hq hr]
  · rw [h1, h2, ← hsgn p r]
    linarith [key p q (-r) hp hq (hn r hr)]
  · rw [h1, h2, ← hsgn p r]
    have := key p (-q) (-r) hp (hn q hq) (hn r hr)
    rw [InnerProductGeometry.angle_neg_neg] at this
    linarith
  · rw [h1, h2]
    have := key p (-q) r hp (hn q hq) hr
    rw [InnerProductGeometry.angle_neg_left, ← InnerProductGeometry.angle_neg_right] at this
    linarith

/-- C136: the interpolation starts at the first quaternion and ends at the second one, or at its opposite if it is nearer -/
theorem C136_ends {p q : V} (hp : ‖p‖ = 1) (hq : ‖q‖ = 1) : interpolate p q 0 = p ∧ interpolate p q 1 = if inner ℝ p q < 0 then -q else q := by
  obtain ⟨_, h2⟩ := angleBetween_unit hp hq
  have hth := theta_eq hp hq
  have hinv : (if (angleBetween p q).2 then (-1 : ℝ) else 1) • q = if inner ℝ p q < 0 then -q else q := by
    by_cases h : inner ℝ p q < 0
    · rw [if_pos (h2.2 h), if_pos h]
      simp
    · rw [if_neg (fun hh => h (h2.1 hh)), if_neg h]
      simp
  unfold interpolate
  simp only
  change (if 1 / 10000 < |theta p q| then (sin ((1 - 0) * theta p q) * (1 / sin (theta p q))) • p + (_ * (sin (0 * theta p q) * (1 / sin (theta p q)))) • q else _) = p ∧
    (if 1 / 10000 < |theta p q| then (sin ((1 - 1) * theta p q) * (1 / sin (theta p q))) • p + (_ * (sin (1 * theta p q) * (1 / sin (theta p q)))) • q else _) = _
  by_cases hc : 1 / 10000 < |theta p q|
  · rw [if_pos hc, if_pos hc]
    have hne : sin (theta p q) ≠ 0 := by
      have hr := C136_range hp hq
      rw [distance_eq hp hq, ← hth] at hr
      rw [abs_of_nonneg (by linarith)] at hc
      have := sin_pos_of_pos_of_lt_pi (x := theta p q) (by linarith) (by linarith [pi_pos])
      exact this.ne'
    constructor
    · simp [hne]
    · rw [← hinv]
      simp [hne]
  · rw [if_neg hc, if_neg hc]
    constructor
    · simp
    · rw [← hinv]
      simp

/-- the second end of the interpolation, which is a unit quaternion at an angle of at most a right angle from the first -/
noncomputable def target (p q : V) : V := if inner ℝ p q < 0 then -q else q

theorem interpolate_eq {p q : V} (hp : ‖p‖ = 1) (hq : ‖q‖ = 1) (u : ℝ) : interpolate p q u =
    if 1 / 10000 < lineAngle p q then (sin ((1 - u) * lineAngle p q) / sin (lineAngle p q)) • p + (sin (u * lineAngle p q) / sin (lineAngle p q)) • target p q
    else (1 - u) • p + u • target p q := by
  obtain ⟨_, h2⟩ := angleBetween_unit hp hq
  have hr := C136_range hp hq
  rw [distance_eq hp hq] at hr
  have hinv : ∀ k : ℝ, ((if (angleBetween p q).2 then (-1 : ℝ) else 1) * k) • q = k • target p q := by
    intro k
    unfold target
    by_cases h : inner ℝ p q < 0
    · rw [if_pos (h2.2 h), if_pos h]
      simp
    · rw [if_neg (fun hh => h (h2.1 hh)), if_neg h]
      simp
  unfold interpolate
  simp only
  change (if 1 / 10000 < |theta p q| then (sin ((1 - u) * theta p q) * (1 / sin (theta p q))) • p + (_ * (sin (u * theta p q) * (1 / sin (theta p q)))) • q else _) = _
  rw [hinv, hinv, theta_eq hp hq, abs_of_nonneg (by linarith)]
  simp only [mul_one_div]

theorem target_norm {p q : V} (hq : ‖q‖ = 1) : ‖target p q‖ = 1 := by
  unfold target
  split_ifs
  · rwa [norm_neg]
  · exact hq

theorem target_inner {p q : V} (hp : ‖p‖ = 1) (hq : ‖q‖ = 1) : inner ℝ p (target p q) = cos (lineAngle p q) := by
  obtain ⟨h1, h2⟩ := inner_bounds hp hq
  unfold target lineAngle
  rw [angle_unit hp hq]
  by_cases h : inner ℝ p q < 0
  · rw [if_pos h, inner_neg_right, min_eq_right, cos_pi_sub, cos_arccos h1 h2]
    have := arccos_le_pi_div_two.not.2 (not_le.2 h)
    linarith
  · rw [if_neg h, min_eq_left, cos_arccos h1 h2]
    have := arccos_le_pi_div_two.2 (not_lt.1 h)
    linarith

theorem norm_sq_comb {p t : V} (hp : ‖p‖ = 1) (ht : ‖t‖ = 1) (a b : ℝ) : ‖a • p + b • t‖ ^ 2 = a ^ 2 + b ^ 2 + 2 * a * b * inner ℝ p t := by
  rw [norm_add_sq_real, norm_smul, norm_smul, hp, ht, inner_smul_left, inner_smul_right]
  simp only [norm_eq_abs, mul_one, sq_abs, conj_trivial]
  ring

/-- C136: the interpolated quaternions are unit quaternions, if the ends are farther than 10⁻⁴ -/
theorem C136_unit_partial {p q : V} (hp : ‖p‖ = 1) (hq : ‖q‖ = 1) (hfar : 1 / 10000 < distance p q / 2) (u : ℝ) : ‖interpolate p q u‖ = 1 := by
  have hr := C136_range hp hq
  rw [distance_eq hp hq] at hr hfar
  have hfar : 1 / 10000 < lineAngle p q := by linarith
  rw [interpolate_eq hp hq, if_pos hfar]
  have hs : sin (lineAngle p q) ≠ 0 := (sin_pos_of_pos_of_lt_pi (by linarith) (by linarith [pi_pos])).ne'
  have h := norm_sq_comb hp (target_norm (p := p) hq) (sin ((1 - u) * lineAngle p q) / sin (lineAngle p q)) (sin (u * lineAngle p q) / sin (lineAngle p q))
  rw [target_inner hp hq] at h
  have h1 : ‖(sin ((1 - u) * lineAngle p q) / sin (lineAngle p q)) • p + (sin (u * lineAngle p q) / sin (lineAngle p q)) • target p q‖ ^ 2 = 1 := by
    rw [h]
    have e : (1 - u) * lineAngle p q = lineAngle p q - u * lineAngle p q := by ring
    rw [e, sin_sub]
    have c1 := sin_sq_add_cos_sq (lineAngle p q)
    have c2 := sin_sq_add_cos_sq (u * lineAngle p q)
    generalize u * lineAngle p q = β at *
    generalize lineAngle p q = α at *
    field_simp
    linear_combination (sin α ^ 2) * c2 - (sin β ^ 2) * c1
  have h0 := norm_nonneg ((sin ((1 - u) * lineAngle p q) / sin (lineAngle p q)) • p + (sin (u * lineAngle p q) / sin (lineAngle p q)) • target p q)
  nlinarith

/-- C136: the interpolation goes at constant speed along the shortest rotation -/
theorem C136_speed_partial {p q : V} (hp : ‖p‖ = 1) (hq : ‖q‖ = 1) (hfar : 1 / 10000 < distance p q / 2) (u : ℝ) (hu0 : 0 ≤ u) (hu1 : u ≤ 1) :
    distance p (interpolate p q u) = u * distance p q ∧ distance (interpolate p q u) q = (1 - u) * distance p q := by
  have hn := C136_unit_partial hp hq hfar u
  have hr := C136_range hp hq
  rw [distance_eq hp hq] at hr hfar
  have hfar' : 1 / 10000 < lineAngle p q := by linarith
  have hs : sin (lineAngle p q) ≠ 0 := (sin_pos_of_pos_of_lt_pi (by linarith) (by linarith [pi_pos])).ne'
  have hti := target_inner hp hq
  have htn := target_norm (p := p) hq
  have hline : ∀ a b : V, ‖a‖ = 1 → ‖b‖ = 1 → ∀ t, 0 ≤ t → t ≤ π / 2 → inner ℝ a b = cos t → lineAngle a b = t := by
    intro a b ha hb t h0 h1 hi
    unfold lineAngle
    rw [angle_unit ha hb, hi, arccos_cos h0 (by linarith [pi_pos]), min_eq_left (by linarith)]
  have hmul0 : 0 ≤ u * lineAngle p q := mul_nonneg hu0 (by linarith)
  have hmul1 : u * lineAngle p q ≤ lineAngle p q := by nlinarith
  have e : (1 - u) * lineAngle p q = lineAngle p q - u * lineAngle p q := by ring
  have hpp : inner ℝ p p = 1 := by rw [real_inner_self_eq_norm_sq, hp]; norm_num
  have htt : inner ℝ (target p q) (target p q) = 1 := by rw [real_inner_self_eq_norm_sq, htn]; norm_num
  have c1 := sin_sq_add_cos_sq (lineAngle p q)
  constructor
  · rw [distance_eq hp hn, distance_eq hp hq, hline p _ hp hn (u * lineAngle p q) hmul0 (by linarith)]
    · ring
    · rw [interpolate_eq hp hq, if_pos hfar', inner_add_right, inner_smul_right, inner_smul_right, hpp, hti, e, sin_sub]
      generalize u * lineAngle p q = β at *
      generalize lineAngle p q = α at *
      field_simp
      ring
  · have htq : distance (interpolate p q u) q = distance (interpolate p q u) (target p q) := by
      unfold target
      split_ifs
      · rw [C136_sign hn hq]
      · rfl
    rw [htq, distance_eq hn htn, distance_eq hp hq, hline _ _ hn htn ((1 - u) * lineAngle p q) (by rw [e]; linarith) (by rw [e]; linarith)]
    · ring
    · rw [interpolate_eq hp hq, if_pos hfar', inner_add_left, inner_smul_left, inner_smul_left, htt, hti, e, sin_sub, cos_sub]
      simp only [conj_trivial]
      generalize u * lineAngle p q = β at *
      generalize lineAngle p q = α at *
      field_simp
      linear_combination (-sin β) * c1

/-- C136: for near ends, the norm is between `1 - 2.5 · 10⁻⁹` and 1 -/
theorem C136_near_partial {p q : V} (hp : ‖p‖ = 1) (hq : ‖q‖ = 1) (hnear : distance p q / 2 ≤ 1 / 10000) (u : ℝ) (hu0 : 0 ≤ u) (hu1 : u ≤ 1) :
    1 - 1 / 400000000 ≤ ‖interpolate p q u‖ ∧ ‖interpolate p q u‖ ≤ 1 := by
  have hr := C136_range hp hq
  rw [distance_eq hp hq] at hr hnear
  have hnear' : lineAngle p q ≤ 1 / 10000 := by linarith
  have h := norm_sq_comb hp (target_norm (p := p) hq) (1 - u) u
  rw [target_inner hp hq] at h
  rw [interpolate_eq hp hq, if_neg (not_lt.2 hnear')]
  have hc1 := one_sub_sq_div_two_le_cos (x := lineAngle p q)
  have hc2 := cos_le_one (lineAngle p q)
  have h0 := norm_nonneg ((1 - u) • p + u • target p q)
  have hu : 0 ≤ u * (1 - u) := mul_nonneg hu0 (by linarith)
  have hu' : u * (1 - u) ≤ 1 / 4 := by nlinarith [mul_self_nonneg (2 * u - 1)]
  have hl : lineAngle p q ^ 2 ≤ 1 / 100000000 := by nlinarith
  have hd : 1 - cos (lineAngle p q) ≤ 1 / 200000000 := by linarith
  have hd0 : 0 ≤ 1 - cos (lineAngle p q) := by linarith
  have hup : u * (1 - u) * (1 - cos (lineAngle p q)) ≤ 1 / 4 * (1 / 200000000) := mul_le_mul hu' hd hd0 (by norm_num)
  have hlo : 0 ≤ u * (1 - u) * (1 - cos (lineAngle p q)) := mul_nonneg hu hd0
  have hsq : ‖(1 - u) • p + u • target p q‖ ^ 2 = 1 - 2 * (u * (1 - u) * (1 - cos (lineAngle p q))) := by rw [h]; ring
  constructor
  · by_contra hlt
    push Not at hlt
    nlinarith
  · nlinarith

/-- C136, violated: for near but different ends the interpolated quaternions are not unit quaternions -/
theorem C136_unit_violated {p q : V} (hp : ‖p‖ = 1) (hq : ‖q‖ = 1) (h0 : distance p q ≠ 0) (hnear : distance p q / 2 ≤ 1 / 10000) (u : ℝ) (hu0 : 0 < u) (hu1 : u < 1) :
    ‖interpolate p q u‖ < 1 := by
  have hr := C136_range hp hq
  rw [distance_eq hp hq] at hr hnear h0
  have hnear' : lineAngle p q ≤ 1 / 10000 := by linarith
  have hpos : 0 < lineAngle p q := lt_of_le_of_ne (by linarith) (fun h => h0 (by rw [← h]; ring))
  have h := norm_sq_comb hp (target_norm (p := p) hq) (1 - u) u
  rw [target_inner hp hq] at h
  rw [interpolate_eq hp hq, if_neg (not_lt.2 hnear')]
  have hc : cos (lineAngle p q) < 1 := by
    have := cos_lt_cos_of_nonneg_of_le_pi le_rfl (y := lineAngle p q) (by linarith [two_le_pi]) hpos
    rwa [cos_zero] at this
  have hlo : 0 < u * (1 - u) * (1 - cos (lineAngle p q)) := mul_pos (mul_pos hu0 (by linarith)) (by linarith)
  have hsq : ‖(1 - u) • p + u • target p q‖ ^ 2 = 1 - 2 * (u * (1 - u) * (1 - cos (lineAngle p q))) := by rw [h]; ring
  have hn := norm_nonneg ((1 - u) • p + u • target p q)
  nlinarith

/-- C136: the hypotheses are met by quaternions at any angle up to a right angle -/
theorem C136_example {a b : V} (ha : ‖a‖ = 1) (hb : ‖b‖ = 1) (hab : inner ℝ a b = 0) (t : ℝ) (h0 : 0 ≤ t) (h1 : t ≤ π / 2) :
    ‖cos t • a + sin t • b‖ = 1 ∧ distance a (cos t • a + sin t • b) = 2 * t := by
  have hn : ‖cos t • a + sin t • b‖ = 1 := by
    have := norm_sq_comb ha hb (cos t) (sin t)
    rw [hab, mul_zero, add_zero] at this
    have c := sin_sq_add_cos_sq t
    have hn := norm_nonneg (cos t • a + sin t • b)
    nlinarith
  refine ⟨hn, ?_⟩
  rw [distance_eq ha hn]
  unfold lineAngle
  have : inner ℝ a (cos t • a + sin t • b) = cos t := by
    rw [inner_add_right, inner_smul_right, inner_smul_right, hab, real_inner_self_eq_norm_sq, ha]
    ring
  rw [angle_unit ha hn, this, arccos_cos h0 (by linarith [pi_pos]), min_eq_left (by linarith)]

end

end Tools
end Rbprm
