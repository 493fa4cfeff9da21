import Verif.Props.Shooter
import Mathlib.Analysis.SpecialFunctions.Trigonometric.Basic
/-!
# Properties C43 (normals) and C81 (which rotation is written)
-/
set_option linter.unusedSectionVars false
namespace Rbprm
namespace Shoot

/-- **C43 (normals)** The normal stored with a triangle: a unit vector, orthogonal to both edges, on the side from which the vertices
turn counter-clockwise; a flat triangle keeps the null vector. -/
theorem C43_normal {K : Type _} [Field K] [LinearOrder K] [IsStrictOrderedRing K] (sqrt : K → K)
    (hs : ∀ x, 0 ≤ x → 0 ≤ sqrt x ∧ sqrt x * sqrt x = x) (tri : Tri K) :
    let n := normalize sqrt (Vec3.cross (tri.p2 - tri.p1) (tri.p3 - tri.p1))
    Vec3.dot n (tri.p2 - tri.p1) = 0 ∧ Vec3.dot n (tri.p3 - tri.p1) = 0 ∧
    (Vec3.cross (tri.p2 - tri.p1) (tri.p3 - tri.p1) ≠ 0 →
      Vec3.normSq n = 1 ∧ 0 < Vec3.dot n (Vec3.cross (tri.p2 - tri.p1) (tri.p3 - tri.p1))) ∧
    (Vec3.cross (tri.p2 - tri.p1) (tri.p3 - tri.p1) = 0 → n = 0) := by
  intro n
  have hn : n = normalize sqrt (Vec3.cross (tri.p2 - tri.p1) (tri.p3 - tri.p1)) := rfl
  clear_value n
  have o1 : Vec3.dot (Vec3.cross (tri.p2 - tri.p1) (tri.p3 - tri.p1)) (tri.p2 - tri.p1) = 0 := by
    simp only [Vec3.dot, Vec3.cross]; ring
  have o2 : Vec3.dot (Vec3.cross (tri.p2 - tri.p1) (tri.p3 - tri.p1)) (tri.p3 - tri.p1) = 0 := by
    simp only [Vec3.dot, Vec3.cross]; ring
  have smul_dot : ∀ (c : K) (a b : Vec3 K), Vec3.dot (Vec3.smul c a) b = c * Vec3.dot a b := by
    intro c a b; simp only [Vec3.dot, Vec3.smul]; ring
  generalize Vec3.cross (tri.p2 - tri.p1) (tri.p3 - tri.p1) = v at *
  have hv : Vec3.normSq v = v.x * v.x + v.y * v.y + v.z * v.z := by simp [Vec3.normSq, Vec3.dot]
  have hpos : v ≠ 0 → 0 < Vec3.normSq v := by
    intro h
    rw [hv]
    by_contra hc
    rw [not_lt] at hc
    have hx := mul_self_nonneg v.x
    have hy := mul_self_nonneg v.y
    have hz := mul_self_nonneg v.z
    apply h
    have e1 : v.x = 0 := mul_self_eq_zero.1 (by linarith)
    have e2 : v.y = 0 := mul_self_eq_zero.1 (by linarith)
    have e3 : v.z = 0 := mul_self_eq_zero.1 (by linarith)
    cases v
    simp only at e1 e2 e3
    subst e1 e2 e3
    rfl
  unfold normalize at hn
  refine ⟨?_, ?_, fun hne => ?_, fun h0 => ?_⟩
  · rw [hn]; split_ifs
    · rw [smul_dot, o1, mul_zero]
    · exact o1
  · rw [hn]; split_ifs
    · rw [smul_dot, o2, mul_zero]
    · exact o2
  · have hp := hpos hne
    rw [if_pos hp] at hn
    obtain ⟨h1, h2⟩ := hs _ hp.le
    have hne' : sqrt (Vec3.normSq v) ≠ 0 := by
      intro h0
      rw [h0, mul_zero] at h2
      exact hp.ne h2
    have hpos' : 0 < sqrt (Vec3.normSq v) := lt_of_le_of_ne h1 (Ne.symm hne')
    constructor
    · have : Vec3.normSq n = (1 / sqrt (Vec3.normSq v)) * (1 / sqrt (Vec3.normSq v)) * Vec3.normSq v := by
        rw [hn]; simp only [Vec3.normSq, Vec3.dot, Vec3.smul]; ring
      rw [this]
      generalize sqrt (Vec3.normSq v) = s at *
      rw [← h2]
      field_simp
    · rw [hn, smul_dot]
      have : Vec3.dot v v = Vec3.normSq v := rfl
      rw [this]
      exact mul_pos (one_div_pos.2 hpos') hp
  · rw [hn, h0]
    simp [Vec3.normSq, Vec3.dot]

/-- the hypothesis on the square root holds of the real one; the normal of a horizontal triangle is vertical -/
example : ∀ x : ℝ, 0 ≤ x → 0 ≤ Real.sqrt x ∧ Real.sqrt x * Real.sqrt x = x :=
  fun x hx => ⟨Real.sqrt_nonneg x, Real.mul_self_sqrt hx⟩
example : Vec3.cross ((⟨1, 0, 0⟩ : Vec3 ℝ) - ⟨0, 0, 0⟩) (⟨0, 1, 0⟩ - ⟨0, 0, 0⟩) ≠ 0 := by
  intro h
  have := congrArg Vec3.z h
  simp [Vec3.cross] at this

/-! ## Which rotation is sampled -/

/-- how a unit quaternion rotates a vector: `v + 2 w (u × v) + 2 u × (u × v)`, where `u` is its vector part -/
def Quat.act {K : Type _} [CommRing K] (q : Quat K) (v : Vec3 K) : Vec3 K :=
  v + Vec3.smul (2 * q.w) (Vec3.cross ⟨q.x, q.y, q.z⟩ v) +
    Vec3.smul 2 (Vec3.cross ⟨q.x, q.y, q.z⟩ (Vec3.cross ⟨q.x, q.y, q.z⟩ v))

/-- rotation of angle `a` about the vertical axis -/
noncomputable def yaw (a : ℝ) (v : Vec3 ℝ) : Vec3 ℝ :=
  ⟨Real.cos a * v.x - Real.sin a * v.y, Real.sin a * v.x + Real.cos a * v.y, v.z⟩
/-- rotation of angle `a` about the second axis -/
noncomputable def pitch (a : ℝ) (v : Vec3 ℝ) : Vec3 ℝ :=
  ⟨Real.cos a * v.x + Real.sin a * v.z, v.y, -Real.sin a * v.x + Real.cos a * v.z⟩
/-- rotation of angle `a` about the first axis -/
noncomputable def roll (a : ℝ) (v : Vec3 ℝ) : Vec3 ℝ :=
  ⟨v.x, Real.cos a * v.y - Real.sin a * v.z, Real.sin a * v.y + Real.cos a * v.z⟩

/-- the product `q v q̄` of Hamilton -/
def Quat.conjugate {K : Type _} [CommRing K] (q : Quat K) (v : Vec3 K) : Vec3 K :=
  Vec3.smul (q.w * q.w - q.x * q.x - q.y * q.y - q.z * q.z) v + Vec3.smul (2 * q.w) (Vec3.cross ⟨q.x, q.y, q.z⟩ v) +
    Vec3.smul (2 * (q.x * v.x + q.y * v.y + q.z * v.z)) ⟨q.x, q.y, q.z⟩

theorem act_conjugate {K : Type _} [Field K] [LinearOrder K] (q : Quat K) (h : q.x * q.x + q.y * q.y + q.z * q.z + q.w * q.w = 1)
    (v : Vec3 K) : q.act v = q.conjugate v := by
  apply Vec3.ext
  · simp only [Quat.act, Quat.conjugate, Vec3.cross, Vec3.add_x, Vec3.smul_x]
    linear_combination -v.x * h
  · simp only [Quat.act, Quat.conjugate, Vec3.cross, Vec3.add_y, Vec3.smul_y]
    linear_combination -v.y * h
  · simp only [Quat.act, Quat.conjugate, Vec3.cross, Vec3.add_z, Vec3.smul_z]
    linear_combination -v.z * h

theorem conjugate_mul {K : Type _} [Field K] [LinearOrder K] (a b : Quat K) (v : Vec3 K) :
    (a.mul b).conjugate v = a.conjugate (b.conjugate v) := by
  apply Vec3.ext <;>
  simp only [Quat.conjugate, Quat.mul, Vec3.cross, Vec3.add_x, Vec3.add_y, Vec3.add_z, Vec3.smul_x, Vec3.smul_y,
    Vec3.smul_z] <;> ring

theorem mul_unit {K : Type _} [Field K] [LinearOrder K] (a b : Quat K)
    (ha : a.x * a.x + a.y * a.y + a.z * a.z + a.w * a.w = 1) (hb : b.x * b.x + b.y * b.y + b.z * b.z + b.w * b.w = 1) :
    (a.mul b).x * (a.mul b).x + (a.mul b).y * (a.mul b).y + (a.mul b).z * (a.mul b).z + (a.mul b).w * (a.mul b).w = 1 := by
  have : (a.x * a.x + a.y * a.y + a.z * a.z + a.w * a.w) * (b.x * b.x + b.y * b.y + b.z * b.z + b.w * b.w) = 1 := by
    rw [ha, hb, one_mul]
  simp only [Quat.mul]
  linear_combination this

theorem act_mul {K : Type _} [Field K] [LinearOrder K] (a b : Quat K)
    (ha : a.x * a.x + a.y * a.y + a.z * a.z + a.w * a.w = 1) (hb : b.x * b.x + b.y * b.y + b.z * b.z + b.w * b.w = 1)
    (v : Vec3 K) : (a.mul b).act v = a.act (b.act v) := by
  rw [act_conjugate _ (mul_unit a b ha hb), act_conjugate _ ha, act_conjugate _ hb, conjugate_mul]

theorem half (a : ℝ) : Real.cos a = 2 * (Real.cos (a / 2) * Real.cos (a / 2)) - 1 ∧
    Real.sin a = 2 * (Real.sin (a / 2) * Real.cos (a / 2)) ∧
    Real.sin (a / 2) * Real.sin (a / 2) = 1 - Real.cos (a / 2) * Real.cos (a / 2) := by
  refine ⟨?_, ?_, ?_⟩
  · have := Real.cos_two_mul (a / 2)
    rw [mul_div_cancel₀ a two_ne_zero] at this
    rw [this]; ring
  · have := Real.sin_two_mul (a / 2)
    rw [mul_div_cancel₀ a two_ne_zero] at this
    rw [this]; ring
  · have := Real.cos_sq_add_sin_sq (a / 2)
    linear_combination this

/-- **C81 (which rotation)** The root rotation that is written is the composition of the three sampled angles: first the third
angle about the first axis, then the second about the second axis, then the first about the vertical axis. -/
theorem C81_euler (rot v : Vec3 ℝ) :
    (eulerQuat Real.cos Real.sin rot).act v = yaw rot.x (pitch rot.y (roll rot.z v)) := by
  have unit : ∀ (a : ℝ) (u : Vec3 ℝ), u.x * u.x + u.y * u.y + u.z * u.z = 1 →
      let q := angleAxis Real.cos Real.sin a u
      q.x * q.x + q.y * q.y + q.z * q.z + q.w * q.w = 1 := by
    intro a u hu
    have := Real.cos_sq_add_sin_sq (a / 2)
    simp only [angleAxis]
    linear_combination this + Real.sin (a / 2) * Real.sin (a / 2) * hu
  have uz := unit rot.x ⟨0, 0, 1⟩ (by norm_num)
  have uy := unit rot.y ⟨0, 1, 0⟩ (by norm_num)
  have ux := unit rot.z ⟨1, 0, 0⟩ (by norm_num)
  unfold eulerQuat
  rw [act_mul _ _ (mul_unit _ _ uz uy) ux, act_mul _ _ uz uy]
  have hz : ∀ a v, (angleAxis Real.cos Real.sin a ⟨0, 0, 1⟩).act v = yaw a v := by
    intro a v
    obtain ⟨h1, h2, h3⟩ := half a
    apply Vec3.ext <;>
    simp only [Quat.act, angleAxis, yaw, Vec3.cross, Vec3.add_x, Vec3.add_y, Vec3.add_z, Vec3.smul_x, Vec3.smul_y, Vec3.smul_z, h1, h2]
    · linear_combination -2 * v.x * h3
    · linear_combination -2 * v.y * h3
    · ring
  have hy : ∀ a v, (angleAxis Real.cos Real.sin a ⟨0, 1, 0⟩).act v = pitch a v := by
    intro a v
    obtain ⟨h1, h2, h3⟩ := half a
    apply Vec3.ext <;>
    simp only [Quat.act, angleAxis, pitch, Vec3.cross, Vec3.add_x, Vec3.add_y, Vec3.add_z, Vec3.smul_x, Vec3.smul_y, Vec3.smul_z, h1, h2]
    · linear_combination -2 * v.x * h3
    · ring
    · linear_combination -2 * v.z * h3
  have hx : ∀ a v, (angleAxis Real.cos Real.sin a ⟨1, 0, 0⟩).act v = roll a v := by
    intro a v
    obtain ⟨h1, h2, h3⟩ := half a
    apply Vec3.ext <;>
    simp only [Quat.act, angleAxis, roll, Vec3.cross, Vec3.add_x, Vec3.add_y, Vec3.add_z, Vec3.smul_x, Vec3.smul_y, Vec3.smul_z, h1, h2]
    · ring
    · linear_combination -2 * v.y * h3
    · linear_combination -2 * v.z * h3
  rw [hz, hy, hx]

end Shoot
end Rbprm
