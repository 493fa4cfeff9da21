import Verif.Model.JumpFriction
import Verif.Props.Parabola
import Verif.Props.JumpCone
set_option linter.unusedSectionVars false
/-! # C195: jumps and the friction cones of their contacts -/
namespace Rbprm
namespace JumpCone
open Real

/-- the normal in the vertical plane of heading `theta`: (its component along the heading, its height), as a complex number -/
noncomputable def inPlane (n : Vec3 ℝ) (theta : ℝ) : ℂ := ⟨n.x * cos theta + n.y * sin theta, n.z⟩

theorem inPlane_spec (n : Vec3 ℝ) (theta : ℝ) :
    n.x * cos theta + n.y * sin theta = ‖inPlane n theta‖ * cos (inPlane n theta).arg ∧ n.z = ‖inPlane n theta‖ * sin (inPlane n theta).arg :=
  ⟨(Complex.norm_mul_cos_arg (inPlane n theta)).symm, (Complex.norm_mul_sin_arg (inPlane n theta)).symm⟩

/-- the cosine of the half angle of the cone -/
noncomputable def coneCos (mu : ℝ) : ℝ := 1 / sqrt (1 + mu * mu)

theorem one_add_pos (mu : ℝ) : (0 : ℝ) < 1 + mu * mu := by nlinarith [mul_self_nonneg mu]

theorem coneCos_pos (mu : ℝ) : 0 < coneCos mu := div_pos one_pos (sqrt_pos.2 (one_add_pos mu))

theorem coneCos_sq (mu : ℝ) : (1 + mu * mu) * coneCos mu ^ 2 = 1 := by
  have h := one_add_pos mu
  unfold coneCos
  rw [div_pow, sq_sqrt h.le, one_pow, mul_one_div, div_self h.ne']

/-- a force of the plane is in the cone iff its component along the normal is large enough -/
theorem inCone_iff_le {mu : ℝ} {n : Vec3 ℝ} (hn : n.normSq = 1) (theta s z r : ℝ) (hr : 0 ≤ r) (hsz : s ^ 2 + z ^ 2 = r ^ 2) :
    InCone mu n ⟨s * cos theta, s * sin theta, z⟩ ↔ r * coneCos mu ≤ s * (n.x * cos theta + n.y * sin theta) + z * n.z := by
  rw [inCone_iff hn, hsz]
  have hk := coneCos_pos mu
  have hk2 := coneCos_sq mu
  set d := s * (n.x * cos theta + n.y * sin theta) + z * n.z
  have hm := one_add_pos mu
  have e : (1 + mu * mu) * (r * coneCos mu) ^ 2 = r ^ 2 := by linear_combination r ^ 2 * hk2
  have h0 : 0 ≤ r * coneCos mu := mul_nonneg hr hk.le
  constructor
  · rintro ⟨h1, h2⟩
    rw [← e] at h2
    exact (pow_le_pow_iff_left₀ h0 h1 two_ne_zero).1 (le_of_mul_le_mul_left h2 hm)
  · intro h
    refine ⟨h0.trans h, ?_⟩
    rw [← e]
    exact mul_le_mul_of_nonneg_left (pow_le_pow_left₀ h0 h 2) hm.le

/-- the same with the angles of the force and of the normal in the plane -/
theorem inCone_iff_cos {mu : ℝ} {n : Vec3 ℝ} (hn : n.normSq = 1) (theta a r : ℝ) (hr : 0 < r) :
    InCone mu n ⟨r * cos a * cos theta, r * cos a * sin theta, r * sin a⟩ ↔ coneCos mu ≤ ‖inPlane n theta‖ * cos (a - (inPlane n theta).arg) := by
  rw [inCone_iff_le hn theta (r * cos a) (r * sin a) r hr.le (by linear_combination r ^ 2 * sin_sq_add_cos_sq a)]
  obtain ⟨e1, e2⟩ := inPlane_spec n theta
  have e : r * cos a * (n.x * cos theta + n.y * sin theta) + r * sin a * n.z = r * (‖inPlane n theta‖ * cos (a - (inPlane n theta).arg)) := by
    rw [cos_sub]
    linear_combination r * cos a * e1 + r * sin a * e2
  rw [e]
  exact mul_le_mul_iff_right₀ hr

/-- a nonnegative combination of two unit vectors of the cone which is a unit vector on the boundary: no proper combination, unless they are the same -/
theorem combo {a b c k n1 n2 : ℝ} (ha : 0 ≤ a) (hb : 0 ≤ b) (hk : 0 < k) (hc : c ≤ 1) (h1 : k ≤ n1) (h2 : k ≤ n2) (hn : a * n1 + b * n2 = k) (hu : a ^ 2 + b ^ 2 + 2 * a * b * c = 1) :
    a + b = 1 ∧ a * b * (1 - c) = 0 := by
  have hab : a + b ≤ 1 := by
    have : (a + b) * k ≤ 1 * k := by nlinarith [mul_le_mul_of_nonneg_left h1 ha, mul_le_mul_of_nonneg_left h2 hb]
    exact le_of_mul_le_mul_right this hk
  have h3 : 0 ≤ a * b * (1 - c) := mul_nonneg (mul_nonneg ha hb) (by linarith)
  have h4 : (a + b) ^ 2 = 1 + 2 * (a * b * (1 - c)) := by linear_combination hu
  have h5 : (a + b) ^ 2 ≤ 1 := by nlinarith
  have h6 : a * b * (1 - c) = 0 := by linarith
  refine ⟨?_, h6⟩
  rw [h6] at h4
  nlinarith

theorem unit_eq_of_dot {s z s' z' : ℝ} (h : s ^ 2 + z ^ 2 = 1) (h' : s' ^ 2 + z' ^ 2 = 1) (hd : 1 ≤ s * s' + z * z') : s = s' ∧ z = z' := by
  have q : (s - s') ^ 2 + (z - z') ^ 2 = 2 - 2 * (s * s' + z * z') := by linear_combination h + h'
  have q1 := sq_nonneg (s - s')
  have q2 := sq_nonneg (z - z')
  have r1 : (s - s') ^ 2 = 0 := by linarith
  have r2 : (z - z') ^ 2 = 0 := by linarith
  exact ⟨sub_eq_zero.1 (pow_eq_zero_iff two_ne_zero |>.1 r1), sub_eq_zero.1 (pow_eq_zero_iff two_ne_zero |>.1 r2)⟩

theorem cos_eq_one_of_double {D : ℝ} (h : cos (2 * D) = 1) (h0 : 0 ≤ cos D) : cos D = 1 := by
  have h3 := cos_sq D
  rw [h] at h3
  nlinarith

/-- **the half aperture of a section** determines how far the normal is from the plane: the section is the set of the directions at most `delta` away from the normal in the plane. -/
theorem section_half {mu : ℝ} {n : Vec3 ℝ} (hn : n.normSq = 1) {theta delta : ℝ} (h : Section mu n theta delta) :
    0 < ‖inPlane n theta‖ ∧ ‖inPlane n theta‖ * cos delta = coneCos mu := by
  obtain ⟨hd0, hd1, r1, r2, u1, u2, hdot, hall⟩ := h
  have hk := coneCos_pos mu
  obtain ⟨e1, e2⟩ := inPlane_spec n theta
  have hcs := sin_sq_add_cos_sq theta
  generalize hm : ‖inPlane n theta‖ = m at *
  generalize hbeta : (inPlane n theta).arg = beta at *
  generalize hkk : coneCos mu = k at *
  have hcb := sin_sq_add_cos_sq beta
  obtain ⟨⟨s1, z1, rfl⟩, c1⟩ := (hall r1).2 ⟨1, 0, by norm_num, le_rfl, by ext <;> simp⟩
  obtain ⟨⟨s2, z2, rfl⟩, c2⟩ := (hall r2).2 ⟨0, 1, le_rfl, by norm_num, by ext <;> simp⟩
  have w1 : s1 ^ 2 + z1 ^ 2 = 1 := by
    simp only [Vec3.normSq, Vec3.dot] at u1
    linear_combination u1 - s1 ^ 2 * hcs
  have w2 : s2 ^ 2 + z2 ^ 2 = 1 := by
    simp only [Vec3.normSq, Vec3.dot] at u2
    linear_combination u2 - s2 ^ 2 * hcs
  have hdot' : s1 * s2 + z1 * z2 = cos (2 * delta) := by
    simp only [Vec3.dot] at hdot
    linear_combination hdot - s1 * s2 * hcs
  have g1 : k ≤ m * (s1 * cos beta + z1 * sin beta) := by
    have := (inCone_iff_le hn theta s1 z1 1 zero_le_one (by rw [w1]; norm_num)).1 c1
    rw [hkk, one_mul, e1, e2] at this
    linarith
  have g2 : k ≤ m * (s2 * cos beta + z2 * sin beta) := by
    have := (inCone_iff_le hn theta s2 z2 1 zero_le_one (by rw [w2]; norm_num)).1 c2
    rw [hkk, one_mul, e1, e2] at this
    linarith
  have hm0 : 0 ≤ m := by rw [← hm]; exact norm_nonneg _
  have cs1 : s1 * cos beta + z1 * sin beta ≤ 1 := by nlinarith [sq_nonneg (s1 - cos beta), sq_nonneg (z1 - sin beta)]
  have hkm : k ≤ m := g1.trans (mul_le_of_le_one_right hm0 cs1)
  have hmp : 0 < m := hk.trans_le hkm
  refine ⟨hmp, ?_⟩
  -- the two boundary directions
  have hq1 : k / m ≤ 1 := (div_le_one hmp).2 hkm
  have hq0 : 0 < k / m := div_pos hk hmp
  obtain ⟨D, hD⟩ : ∃ D, D = arccos (k / m) := ⟨_, rfl⟩
  have hcD : cos D = k / m := by rw [hD]; exact cos_arccos (by linarith) hq1
  have hmD : m * cos D = k := by rw [hcD]; field_simp
  have hD0 : 0 ≤ D := by rw [hD]; exact arccos_nonneg _
  have hD1 : D ≤ π / 2 := by rw [hD]; exact arccos_le_pi_div_two.2 hq0.le
  have edge : ∀ D', cos D' = cos D → ∃ a b, a + b = 1 ∧ a * b * (1 - cos (2 * delta)) = 0 ∧ cos (beta + D') = a * s1 + b * s2 ∧ sin (beta + D') = a * z1 + b * z2 := by
    intro D' hD'
    have hin : InCone mu n ⟨1 * cos (beta + D') * cos theta, 1 * cos (beta + D') * sin theta, 1 * sin (beta + D')⟩ := by
      rw [inCone_iff_cos hn theta (beta + D') 1 one_pos, hm, hbeta, hkk, show beta + D' - beta = D' by ring, hD', hmD]
    obtain ⟨a, b, ha, hb, hp⟩ := (hall _).1 ⟨⟨1 * cos (beta + D'), 1 * sin (beta + D'), rfl⟩, hin⟩
    have px : cos (beta + D') * cos theta = (a * s1 + b * s2) * cos theta := by
      have := congrArg Vec3.x hp
      simp only [Vec3.add_x, Vec3.smul_x] at this
      linear_combination this
    have py : cos (beta + D') * sin theta = (a * s1 + b * s2) * sin theta := by
      have := congrArg Vec3.y hp
      simp only [Vec3.add_y, Vec3.smul_y] at this
      linear_combination this
    have pz : sin (beta + D') = a * z1 + b * z2 := by
      have := congrArg Vec3.z hp
      simp only [Vec3.add_z, Vec3.smul_z] at this
      linear_combination this
    have px' : cos (beta + D') = a * s1 + b * s2 := by
      linear_combination cos theta * px + sin theta * py - (cos (beta + D') - (a * s1 + b * s2)) * hcs
    have hu := sin_sq_add_cos_sq (beta + D')
    have hnk : m * (cos (beta + D') * cos beta + sin (beta + D') * sin beta) = k := by
      rw [← cos_sub, show beta + D' - beta = D' by ring, hD', hmD]
    rw [px', pz] at hu hnk
    obtain ⟨x, y⟩ := combo (c := cos (2 * delta)) ha hb hk (cos_le_one _) g1 g2 (by linear_combination hnk)
      (by linear_combination hu - a ^ 2 * w1 - b ^ 2 * w2 - 2 * a * b * hdot')
    exact ⟨a, b, x, y, px', pz⟩
  obtain ⟨a, b, hab, hab0, x1, y1⟩ := edge D rfl
  obtain ⟨a', b', hab', hab0', x2, y2⟩ := edge (-D) (cos_neg D)
  have h2D : cos (2 * D) = cos (beta + D) * cos (beta + -D) + sin (beta + D) * sin (beta + -D) := by
    rw [← cos_sub]
    congr 1
    ring
  have key : cos (2 * D) = cos (2 * delta) := by
    by_cases hc : cos (2 * delta) = 1
    · rw [hc] at hdot' ⊢
      obtain ⟨f1, f2⟩ := unit_eq_of_dot w1 w2 hdot'.ge
      rw [h2D, x1, y1, x2, y2, f1, f2]
      linear_combination (a + b) * (a' + b') * w2 + (a' + b') * hab + hab'
    · have hc' : 1 - cos (2 * delta) ≠ 0 := sub_ne_zero.2 (Ne.symm hc)
      have ab : a * b = 0 := (mul_eq_zero.1 hab0).resolve_right hc'
      have ab' : a' * b' = 0 := (mul_eq_zero.1 hab0').resolve_right hc'
      -- if both boundary directions are the same, the section is one ray
      have same : cos (2 * D) = 1 → cos (2 * delta) = 1 := by
        intro h1
        have hcos : cos D = 1 := cos_eq_one_of_double h1 (by rw [hcD]; exact hq0.le)
        rw [hcos, mul_one] at hmD
        have t1 : 1 ≤ s1 * cos beta + z1 * sin beta := by
          rw [← hmD] at g1
          exact le_of_mul_le_mul_left (by linarith) hmp
        have t2 : 1 ≤ s2 * cos beta + z2 * sin beta := by
          rw [← hmD] at g2
          exact le_of_mul_le_mul_left (by linarith) hmp
        obtain ⟨v1, v2⟩ := unit_eq_of_dot w1 (by linarith) t1
        obtain ⟨v3, v4⟩ := unit_eq_of_dot w2 (by linarith) t2
        rw [← hdot', v1, v2, v3, v4]
        linarith
      rw [x1, y1, x2, y2] at h2D
      rcases mul_eq_zero.1 ab with rfl | rfl <;> rcases mul_eq_zero.1 ab' with rfl | rfl
      · exact absurd (same (by rw [h2D]; obtain rfl : b = 1 := by linarith
                               obtain rfl : b' = 1 := by linarith
                               linarith)) hc
      · obtain rfl : b = 1 := by linarith
        obtain rfl : a' = 1 := by linarith
        rw [h2D, ← hdot']; ring
      · obtain rfl : a = 1 := by linarith
        obtain rfl : b' = 1 := by linarith
        rw [h2D, ← hdot']; ring
      · exact absurd (same (by rw [h2D]; obtain rfl : a = 1 := by linarith
                               obtain rfl : a' = 1 := by linarith
                               linarith)) hc
  have hDd : 2 * D = 2 * delta := injOn_cos ⟨by linarith, by linarith⟩ ⟨hd0, hd1⟩ key
  rw [show delta = D by linarith, hmD]

end JumpCone
end Rbprm
namespace Rbprm
namespace Parabola
open Real JumpCone
variable {R : Type _}

/-- the velocities and the coefficients of the jump that the steering method returns -/
theorem steer_vel (env : SteerEnv R) (hg : 0 < env.g) (q1 q2 : Conf R) (hne : ¬ (q1.pos.x = q2.pos.x ∧ q1.pos.y = q2.pos.y)) (tp : Timed R) (h : steer env q1 q2 = some tp) :
    ∃ X v : ℝ, 0 < X ∧ 0 < v ∧ 0 < cos tp.para.co.alpha ∧ -π < tp.para.co.theta ∧ tp.para.co.theta ≤ π ∧
      q2.pos.x - q1.pos.x = X * cos tp.para.co.theta ∧ q2.pos.y - q1.pos.y = X * sin tp.para.co.theta ∧
      v ^ 2 * (2 * (X * tan tp.para.co.alpha - (q2.pos.z - q1.pos.z))) = env.g * X * X ∧
      tp.init.vel = ⟨v * cos tp.para.co.theta, v * sin tp.para.co.theta, v * tan tp.para.co.alpha⟩ ∧
      tp.fin.vel = ⟨v * cos tp.para.co.theta, v * sin tp.para.co.theta, -env.g * X / v + v * tan tp.para.co.alpha⟩ := by
  unfold steer at h
  simp only at h
  obtain ⟨d1, d2, d3⟩ := arg_dir (q2.pos - q1.pos).x (q2.pos - q1.pos).y
  have hX : 0 < ‖(⟨(q2.pos - q1.pos).x, (q2.pos - q1.pos).y⟩ : ℂ)‖ := by
    apply dir_pos
    rintro ⟨e1, e2⟩
    apply hne
    simp only [Vec3.sub_x, Vec3.sub_y] at e1 e2
    constructor <;> linarith
  rw [d1] at h
  have hθ1 := Complex.neg_pi_lt_arg ⟨(q2.pos - q1.pos).x, (q2.pos - q1.pos).y⟩
  have hθ2 := Complex.arg_le_pi ⟨(q2.pos - q1.pos).x, (q2.pos - q1.pos).y⟩
  generalize hθ : Complex.arg ⟨(q2.pos - q1.pos).x, (q2.pos - q1.pos).y⟩ = θ at *
  generalize hN : ‖(⟨(q2.pos - q1.pos).x, (q2.pos - q1.pos).y⟩ : ℂ)‖ = X at *
  split at h
  · cases h
  · rename_i inf sup hb
    obtain ⟨hle, hs, hi, hall⟩ := bounds_spec hg hX hb
    split at h
    · cases h
    · split at h
      · cases h
      · rename_i p hp
        rw [Option.some.injEq] at h
        obtain ⟨alpha, ha1, ha2, rfl, hv, hh⟩ := search_spec hle _ _ ⟨_, by linarith, by linarith, rfl⟩ hp
        obtain ⟨hD, hq1, hq2⟩ := hall alpha ha1 ha2
        have hc : 0 < cos alpha := cos_pos_of_mem_Ioo ⟨lt_of_lt_of_le hi ha1, lt_of_le_of_lt ha2 hs⟩
        obtain ⟨v, hv0, hv1, hco, hn⟩ := coefficients_spec (theta := θ) (x0 := along θ q1.pos) (z0 := q1.pos.z) hg hX hc hD
        have hat : (attempt env q1 q2 alpha).1 = ⟨q1, q2, computeLength θ q1 q2, (coefficients env.g alpha θ X (q2.pos - q1.pos).z (along θ q1.pos) q1.pos.z).1,
            (coefficients env.g alpha θ X (q2.pos - q1.pos).z (along θ q1.pos) q1.pos.z).2.1, (coefficients env.g alpha θ X (q2.pos - q1.pos).z (along θ q1.pos) q1.pos.z).2.2⟩ := by
          unfold attempt
          simp only [hθ, d1]
        rw [hat] at h
        simp only [hco] at h
        subst h
        exact ⟨X, v, hX, hv0, hc, hθ1, hθ2, d2.symm, d3.symm, hv1, rfl, rfl⟩

/-- what the user is promised: the impulse of the take-off and that of the landing are in the friction cones of the contacts (unit normals `n1`, `n2`) -/
def WithinCones (mu : ℝ) (n1 n2 : Vec3 ℝ) (takeOff landing : Vec3 ℝ) : Prop := InCone mu n1 takeOff ∧ InCone mu n2 (-landing)

theorem vel_polar {alpha theta v : ℝ} (hc : cos alpha ≠ 0) :
    (⟨v * cos theta, v * sin theta, v * tan alpha⟩ : Vec3 ℝ) = ⟨v / cos alpha * cos alpha * cos theta, v / cos alpha * cos alpha * sin theta, v / cos alpha * sin alpha⟩ := by
  rw [tan_eq_sin_div_cos]
  ext <;> simp only <;> field_simp

/-- **C195 (partial, how to check a jump)**.  The steering method does not test the cones, but what it offers allows to: where `fiveth_constraint` gives a half aperture `delta` for the contact, the take-off of the jump is in the friction
cone exactly if its angle is at most `delta` away from that of the normal in the plane of the jump. -/
theorem C195_takeoff_partial (env : SteerEnv R) (hg : 0 < env.g) (q1 q2 : Conf R) (hne : ¬ (q1.pos.x = q2.pos.x ∧ q1.pos.y = q2.pos.y)) (tp : Timed R) (h : steer env q1 q2 = some tp)
    (mu : ℝ) (hmu : 0 < mu) (n : Vec3 ℝ) (hn : n.normSq = 1) (hb : 1 / 1000000 ≤ |n.x ^ 2 + n.y ^ 2 - (mu * n.z) ^ 2| ∨ n.x ^ 2 + n.y ^ 2 = (mu * n.z) ^ 2)
    (ht : n.x ^ 2 + n.y ^ 2 ≠ (mu * n.z) ^ 2 ∨ n.x * cos tp.para.co.theta + n.y * sin tp.para.co.theta ≠ 0)
    (delta : ℝ) (hd : fifthConstraint mu n tp.para.co.theta = some delta) :
    InCone mu n tp.init.vel ↔ cos delta ≤ cos (tp.para.co.alpha - Complex.arg ⟨n.x * cos tp.para.co.theta + n.y * sin tp.para.co.theta, n.z⟩) := by
  obtain ⟨X, v, hX, hv, hc, t1, t2, -, -, -, e1, -⟩ := steer_vel env hg q1 q2 hne tp h
  obtain ⟨hs, -, -⟩ := C192_partial mu hmu n hn _ t1 t2 hb ht delta hd
  obtain ⟨hm, hk⟩ := section_half hn hs
  rw [e1, vel_polar hc.ne', inCone_iff_cos hn _ _ _ (div_pos hv hc), ← hk]
  exact mul_le_mul_iff_right₀ hm

/-- **C195 (partial, how to check a landing)**.  The landing is in the friction cone exactly if the opposite of the direction of arrival, which the take-off angle determines, is at most `delta` away from the normal in the plane of the jump. -/
theorem C195_landing_partial (env : SteerEnv R) (hg : 0 < env.g) (q1 q2 : Conf R) (hne : ¬ (q1.pos.x = q2.pos.x ∧ q1.pos.y = q2.pos.y)) (tp : Timed R) (h : steer env q1 q2 = some tp)
    (mu : ℝ) (hmu : 0 < mu) (n : Vec3 ℝ) (hn : n.normSq = 1) (hb : 1 / 1000000 ≤ |n.x ^ 2 + n.y ^ 2 - (mu * n.z) ^ 2| ∨ n.x ^ 2 + n.y ^ 2 = (mu * n.z) ^ 2)
    (ht : n.x ^ 2 + n.y ^ 2 ≠ (mu * n.z) ^ 2 ∨ n.x * cos tp.para.co.theta + n.y * sin tp.para.co.theta ≠ 0)
    (delta : ℝ) (hd : fifthConstraint mu n tp.para.co.theta = some delta) :
    ∃ X, 0 < X ∧ X ^ 2 = (q2.pos.x - q1.pos.x) ^ 2 + (q2.pos.y - q1.pos.y) ^ 2 ∧
      (InCone mu n (-tp.fin.vel) ↔
        cos delta ≤ cos (arctan (2 * (q2.pos.z - q1.pos.z) / X - tan tp.para.co.alpha) + π - Complex.arg ⟨n.x * cos tp.para.co.theta + n.y * sin tp.para.co.theta, n.z⟩)) := by
  obtain ⟨X, v, hX, hv, hc, t1, t2, ex, ey, hvv, -, e2⟩ := steer_vel env hg q1 q2 hne tp h
  obtain ⟨hs, -, -⟩ := C192_partial mu hmu n hn _ t1 t2 hb ht delta hd
  obtain ⟨hm, hk⟩ := section_half hn hs
  refine ⟨X, hX, by rw [ex, ey]; linear_combination -X ^ 2 * sin_sq_add_cos_sq tp.para.co.theta, ?_⟩
  set s := 2 * (q2.pos.z - q1.pos.z) / X - tan tp.para.co.alpha with hsd
  have hz : -env.g * X / v + v * tan tp.para.co.alpha = v * s := by
    rw [hsd]
    field_simp
    linear_combination hvv
  have hcp := cos_arctan_pos s
  have hsin : sin (arctan s) = s * cos (arctan s) := by
    rw [← tan_mul_cos hcp.ne', tan_arctan]
  have e3 : -tp.fin.vel = ⟨v / cos (arctan s) * cos (arctan s + π) * cos tp.para.co.theta, v / cos (arctan s) * cos (arctan s + π) * sin tp.para.co.theta, v / cos (arctan s) * sin (arctan s + π)⟩ := by
    rw [e2, hz, cos_add_pi, sin_add_pi, hsin]
    ext <;> simp only [Vec3.neg_x, Vec3.neg_y, Vec3.neg_z] <;> field_simp
  rw [e3, inCone_iff_cos hn _ _ _ (div_pos hv hcp), ← hk]
  exact mul_le_mul_iff_right₀ hm

/-- the smaller root is at most 1 where the product of the roots is 1 -/
theorem roots_le {X A B : ℝ} (hX : 0 < X) (hA : 0 < A) {r : ℝ × ℝ} (h : roots X A B A = some r) : r.2 ≤ π / 4 := by
  unfold roots at h
  simp only at h
  split_ifs at h with hd
  · rw [Option.some.injEq] at h
    subst h
    push Not at hd
    rw [← arctan_one]
    apply arctan_strictMono.monotone
    rw [div_le_one hA]
    have hs := sqrt_nonneg (B * B - 4 * A * A)
    have hs2 := mul_self_sqrt hd
    by_contra hlt
    push Not at hlt
    have h1 : sqrt (B * B - 4 * A * A) < -B - 2 * A := by linarith
    have h2 := mul_self_lt_mul_self hs h1
    rw [hs2] at h2
    nlinarith

/-- on flat ground the first angle tried is below π/3 -/
theorem bounds_flat {env : SteerEnv R} (hg : 0 < env.g) {X inf sup : ℝ} (hX : 0 < X) (h : bounds env X 0 = some (inf, sup)) : inf + 1 / 10 * (sup - inf) < π / 3 := by
  have hpi := two_le_pi
  obtain ⟨-, hs, -, -⟩ := bounds_spec hg hX h
  unfold bounds at h
  split at h
  · rename_i lim imp h1 h2
    simp only at h
    split at h
    · cases h
    · simp only [Option.some.injEq, Prod.mk.injEq] at h
      have hA : 0 < env.g * X * X := by positivity
      have b1 : lim.2 ≤ π / 4 := by
        unfold secondConstraint at h1
        rw [show env.g * X * X + 2 * 0 * env.V0max * env.V0max = env.g * X * X by ring] at h1
        exact roots_le hX hA h1
      have b2 : imp.2 ≤ π / 4 := by
        unfold sixthConstraint at h2
        rw [show env.g * X * X + 2 * 0 * env.Vimpmax * env.Vimpmax + 4 * env.g * 0 * 0 = env.g * X * X by ring] at h2
        exact roots_le hX hA h2
      have b3 : inf ≤ π / 4 := by
        rw [← h.1]
        simp only [zero_div, arctan_zero]
        refine max_le (max_le (by linarith) (max_le b1 b2)) (max_le (by linarith) (by linarith))
      linarith
  · cases h

/-- the floor, and a force in its plane -/
theorem not_inCone_up {v c s z : ℝ} (hcs : s ^ 2 + c ^ 2 = 1) (h : z < 2 * v) (hz : 0 ≤ z) : ¬ InCone defaultFriction ⟨0, 0, 1⟩ ⟨v * c, v * s, z⟩ := by
  rintro ⟨-, h2⟩
  simp only [Vec3.normSq, Vec3.dot, Vec3.sub_x, Vec3.sub_y, Vec3.sub_z, Vec3.smul_x, Vec3.smul_y, Vec3.smul_z, defaultFriction] at h2
  have e : (v * c) * (v * c) + (v * s) * (v * s) = v ^ 2 := by linear_combination v ^ 2 * hcs
  nlinarith

/-- **C195 is violated** by every jump on flat ground that is found at once: with the friction that the steering method has, and whatever the bounds of the speeds, neither the take-off nor the landing is in the friction cone of the floor. -/
theorem C195_violated (env : SteerEnv R) (hg : 0 < env.g) (hv : ∀ p, env.valid p = true) (q1 q2 : Conf R) (hne : ¬ (q1.pos.x = q2.pos.x ∧ q1.pos.y = q2.pos.y)) (hflat : q2.pos.z = q1.pos.z) :
    ∃ z, ∀ zmax, z ≤ zmax → ∀ tp, steer { env with zmax := zmax } q1 q2 = some tp →
      ¬ InCone defaultFriction ⟨0, 0, 1⟩ tp.init.vel ∧ ¬ InCone defaultFriction ⟨0, 0, 1⟩ (-tp.fin.vel) := by
  obtain ⟨d1, d2, d3⟩ := arg_dir (q2.pos - q1.pos).x (q2.pos - q1.pos).y
  have hX : 0 < ‖(⟨(q2.pos - q1.pos).x, (q2.pos - q1.pos).y⟩ : ℂ)‖ := by
    apply dir_pos
    rintro ⟨e1, e2⟩
    apply hne
    simp only [Vec3.sub_x, Vec3.sub_y] at e1 e2
    constructor <;> linarith
  have hz0 : (q2.pos - q1.pos).z = 0 := by simp [hflat]
  cases hb : bounds env ‖(⟨(q2.pos - q1.pos).x, (q2.pos - q1.pos).y⟩ : ℂ)‖ 0 with
  | none =>
    refine ⟨0, fun zmax _ tp h => ?_⟩
    have hb' : bounds { env with zmax := zmax } ‖(⟨(q2.pos - q1.pos).x, (q2.pos - q1.pos).y⟩ : ℂ)‖ 0 = none := hb
    unfold steer at h
    simp only [d1, hz0, hb'] at h
    cases h
  | some b =>
    obtain ⟨inf, sup⟩ := b
    obtain ⟨z2, hz2⟩ := respected_of_high (attempt env q1 q2 (inf + 1 / 10 * (sup - inf))).1.co
    refine ⟨z2, fun zmax hz tp h => ?_⟩
    have a2 : (attempt { env with zmax := zmax } q1 q2 (inf + 1 / 10 * (sup - inf))).2 = true := hz2 zmax hz _ _
    obtain ⟨X, v, hX', hv0, hc, -, -, -, -, hvv, e1, e2⟩ := steer_vel { env with zmax := zmax } hg q1 q2 hne tp h
    have halpha : tp.para.co.alpha = inf + 1 / 10 * (sup - inf) := by
      have hb' : bounds { env with zmax := zmax } ‖(⟨(q2.pos - q1.pos).x, (q2.pos - q1.pos).y⟩ : ℂ)‖ 0 = some (inf, sup) := hb
      have hse : search { env with zmax := zmax } q1 q2 inf sup (attempt { env with zmax := zmax } q1 q2 (inf + 1 / 10 * (sup - inf))) 6 0 =
          some (attempt { env with zmax := zmax } q1 q2 (inf + 1 / 10 * (sup - inf))).1 := by
        unfold search
        rw [if_pos ⟨hv _, a2⟩]
      unfold steer at h
      simp only [d1, hz0, hb', hse] at h
      split_ifs at h
      rw [Option.some.injEq] at h
      rw [← h]
      rfl
    have hlt := bounds_flat hg hX hb
    rw [← halpha] at hlt
    obtain ⟨-, hs, hi, hall⟩ := bounds_spec hg hX hb
    have hpos : 0 < v * tan tp.para.co.alpha := by
      rw [hflat, sub_self, sub_zero] at hvv
      have hgx : 0 < env.g * X * X := by positivity
      have : 0 < v ^ 2 * (2 * (X * tan tp.para.co.alpha)) := by rw [hvv]; exact hgx
      have h3 : 0 < X * tan tp.para.co.alpha := by
        by_contra hn
        push Not at hn
        nlinarith [sq_nonneg v]
      exact mul_pos hv0 (pos_of_mul_pos_right h3 hX'.le)
    have hgt : tan tp.para.co.alpha < 2 := by
      have hpi := two_le_pi
      have h1 : tan tp.para.co.alpha < tan (π / 3) := by
        apply tan_lt_tan_of_lt_of_lt_pi_div_two _ (by linarith) hlt
        rw [halpha]
        linarith [show inf ≤ sup from (bounds_spec hg hX hb).1]
      rw [tan_pi_div_three] at h1
      have h3 : sqrt 3 < 2 := by
        rw [sqrt_lt' (by norm_num)]
        norm_num
      linarith
    have hzlt : v * tan tp.para.co.alpha < 2 * v := by nlinarith
    have hland : -env.g * X / v + v * tan tp.para.co.alpha = -(v * tan tp.para.co.alpha) := by
      rw [hflat, sub_self, sub_zero] at hvv
      have hvv' : v ^ 2 * (2 * tan tp.para.co.alpha) = env.g * X := mul_right_cancel₀ hX'.ne' (by linear_combination hvv)
      field_simp
      linear_combination hvv'
    constructor
    · rw [e1]
      exact not_inCone_up (sin_sq_add_cos_sq _) hzlt hpos.le
    · have : -tp.fin.vel = ⟨v * -cos tp.para.co.theta, v * -sin tp.para.co.theta, v * tan tp.para.co.alpha⟩ := by
        rw [e2]
        simp only [hland]
        ext <;> simp
      rw [this]
      exact not_inCone_up (by linear_combination sin_sq_add_cos_sq tp.para.co.theta) hzlt hpos.le

/-- the direction of arrival of a jump of horizontal distance `X` and height `Y` that takes off at the angle `alpha` (the slope of the parabola through both points) -/
noncomputable def arrival (X Y alpha : ℝ) : ℝ := arctan (2 * Y / X - tan alpha)

/-- **C195 is violated** by `third_constraint`, which should bound the take-off angle such that the direction of arrival is in the given interval: on flat ground, for each interval of descending directions, none of the angles it allows
gives a direction of arrival in the interval. -/
theorem C195_third_violated (X a b : ℝ) (ha : -(π / 2) < a) (hb : b < 0) :
    ∃ sup inf, thirdConstraint false X 0 a b = (false, some (sup, inf)) ∧ ∀ alpha, inf ≤ alpha → alpha ≤ sup → ¬ (a ≤ arrival X 0 alpha ∧ arrival X 0 alpha ≤ b) := by
  refine ⟨b, a, rfl, fun alpha h1 h2 ⟨h3, h4⟩ => ?_⟩
  have : arrival X 0 alpha = -alpha := by
    unfold arrival
    rw [mul_zero, zero_div, zero_sub, arctan_neg, arctan_tan (by linarith) (by linarith [pi_pos])]
  rw [this] at h4
  linarith

/-- there is such a jump -/
theorem C195_example : ∃ zmax tp, steer (⟨1, 2, 2, zmax, fun _ => true⟩ : SteerEnv Unit) ⟨⟨0, 0, 0⟩, (), ⟨0, 0, 0⟩, ⟨0, 0, 0⟩⟩ ⟨⟨1, 0, 0⟩, (), ⟨0, 0, 0⟩, ⟨0, 0, 0⟩⟩ = some tp ∧
    ¬ WithinCones defaultFriction ⟨0, 0, 1⟩ ⟨0, 0, 1⟩ tp.init.vel tp.fin.vel := by
  obtain ⟨z, hz⟩ := flat_returned
  obtain ⟨z', hz'⟩ := C195_violated (⟨1, 2, 2, 0, fun _ => true⟩ : SteerEnv Unit) one_pos (fun _ => rfl) ⟨⟨0, 0, 0⟩, (), ⟨0, 0, 0⟩, ⟨0, 0, 0⟩⟩ ⟨⟨1, 0, 0⟩, (), ⟨0, 0, 0⟩, ⟨0, 0, 0⟩⟩ (by simp) rfl
  obtain ⟨tp, h⟩ := Option.isSome_iff_exists.1 (hz (max z z') (le_max_left _ _))
  exact ⟨_, tp, h, fun hw => (hz' _ (le_max_right _ _) tp h).1 hw.1⟩

/-- jumps along the first axis from a floor with friction 1: those at 45 degrees or more -/
theorem C195_floor (env : SteerEnv R) (hg : 0 < env.g) (q1 q2 : Conf R) (hne : ¬ (q1.pos.x = q2.pos.x ∧ q1.pos.y = q2.pos.y)) (tp : Timed R) (h : steer env q1 q2 = some tp) (hθ : tp.para.co.theta = 0) :
    InCone 1 ⟨0, 0, 1⟩ tp.init.vel ↔ cos (π / 4) ≤ sin tp.para.co.alpha := by
  rw [C195_takeoff_partial env hg q1 q2 hne tp h 1 one_pos ⟨0, 0, 1⟩ (by simp [Vec3.normSq, Vec3.dot]) (Or.inl (by norm_num)) (Or.inl (by norm_num)) (π / 4) (by rw [hθ]; exact C192_example.1), hθ]
  have : (⟨0 * cos 0 + 0 * sin 0, 1⟩ : ℂ) = Complex.I := by
    apply Complex.ext <;> simp
  rw [this, Complex.arg_I, cos_sub_pi_div_two]

end Parabola
end Rbprm
