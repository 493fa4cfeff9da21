import Verif.Model.Parabola
import Mathlib.Tactic.FieldSimp
import Mathlib.Tactic.LinearCombination
import Mathlib.Tactic.Positivity
set_option linter.unusedSectionVars false
set_option linter.unusedSimpArgs false
/-!
# C62, C117, C118: jumps
-/
namespace Rbprm
namespace Parabola
open Real
variable {R : Type _}

/-! ### specification -/

/-- position at time `t` of a free fall from `p` with velocity `v` -/
noncomputable def fall (g : ℝ) (p v : Vec3 ℝ) (t : ℝ) : Vec3 ℝ := p + Vec3.smul t v + Vec3.smul (1 / 2 * t ^ 2) ⟨0, 0, -g⟩
/-- velocity at time `t` -/
def fallVel (g : ℝ) (v : Vec3 ℝ) (t : ℝ) : Vec3 ℝ := v + Vec3.smul t ⟨0, 0, -g⟩

/-! ### the horizontal direction -/

theorem arg_dir (dx dy : ℝ) : dx * cos (Complex.arg ⟨dx, dy⟩) + dy * sin (Complex.arg ⟨dx, dy⟩) = ‖(⟨dx, dy⟩ : ℂ)‖ ∧
    ‖(⟨dx, dy⟩ : ℂ)‖ * cos (Complex.arg ⟨dx, dy⟩) = dx ∧ ‖(⟨dx, dy⟩ : ℂ)‖ * sin (Complex.arg ⟨dx, dy⟩) = dy := by
  have h1 := Complex.norm_mul_cos_arg ⟨dx, dy⟩
  have h2 := Complex.norm_mul_sin_arg ⟨dx, dy⟩
  simp only at h1 h2
  refine ⟨?_, h1, h2⟩
  have := sin_sq_add_cos_sq (Complex.arg ⟨dx, dy⟩)
  calc dx * cos (Complex.arg ⟨dx, dy⟩) + dy * sin (Complex.arg ⟨dx, dy⟩)
      = (‖(⟨dx, dy⟩ : ℂ)‖ * cos (Complex.arg ⟨dx, dy⟩)) * cos (Complex.arg ⟨dx, dy⟩) + (‖(⟨dx, dy⟩ : ℂ)‖ * sin (Complex.arg ⟨dx, dy⟩)) * sin (Complex.arg ⟨dx, dy⟩) := by rw [h1, h2]
    _ = ‖(⟨dx, dy⟩ : ℂ)‖ := by linear_combination ‖(⟨dx, dy⟩ : ℂ)‖ * this

theorem dir_pos {dx dy : ℝ} (h : ¬ (dx = 0 ∧ dy = 0)) : 0 < ‖(⟨dx, dy⟩ : ℂ)‖ := by
  rw [norm_pos_iff]
  intro e
  rw [Complex.ext_iff] at e
  exact h e

/-! ### angles -/

theorem roots_spec {X A B C : ℝ} (hX : 0 < X) (hA : 0 < A) {r : ℝ × ℝ} (h : roots X A B C = some r) :
    r.1 < π / 2 ∧ -(π / 2) < r.2 ∧ ∀ alpha, r.2 ≤ alpha → alpha ≤ r.1 → A * tan alpha ^ 2 + B * tan alpha + C ≤ 0 := by
  unfold roots at h
  simp only at h
  split at h
  · cases h
  · rename_i hd
    push Not at hd
    rw [Option.some.injEq] at h
    subst h
    refine ⟨arctan_lt_pi_div_two _, neg_pi_div_two_lt_arctan _, ?_⟩
    intro alpha h1 h2
    simp only at h1 h2
    have ha1 : -(π / 2) < alpha := lt_of_lt_of_le (neg_pi_div_two_lt_arctan _) h1
    have ha2 : alpha < π / 2 := lt_of_le_of_lt h2 (arctan_lt_pi_div_two _)
    rw [← arctan_tan ha1 ha2] at h1 h2
    have h1' := arctan_strictMono.le_iff_le.1 h1
    have h2' := arctan_strictMono.le_iff_le.1 h2
    rw [div_le_iff₀ hA] at h1'
    rw [le_div_iff₀ hA] at h2'
    have hs := sq_sqrt hd
    nlinarith [mul_nonneg (sub_nonneg.2 h1') (sub_nonneg.2 h2')]

theorem above_line {X Z alpha : ℝ} (hX : 0 < X) (h : arctan (Z / X) + 1 / 1000 ≤ alpha) (h2 : alpha < π / 2) : 0 < X * tan alpha - Z := by
  have ha1 : -(π / 2) < alpha := by
    have := neg_pi_div_two_lt_arctan (Z / X)
    linarith
  have : arctan (Z / X) < arctan (tan alpha) := by rw [arctan_tan ha1 h2]; linarith
  have := arctan_strictMono.lt_iff_lt.1 this
  rw [div_lt_iff₀ hX] at this
  linarith

/-! ### coefficients -/

/-- the data of a jump with positive horizontal distance `X`, above the straight line -/
theorem xdot_spec {g alpha X Z : ℝ} (hg : 0 < g) (hX : 0 < X) (hD : 0 < X * tan alpha - Z) :
    0 < sqrt (g * X * X / (2 * (X * tan alpha - Z))) ∧
    sqrt (g * X * X / (2 * (X * tan alpha - Z))) ^ 2 * (2 * (X * tan alpha - Z)) = g * X * X := by
  have h : 0 < g * X * X / (2 * (X * tan alpha - Z)) := by positivity
  refine ⟨sqrt_pos.2 h, ?_⟩
  rw [sq_sqrt h.le, div_mul_cancel₀]
  positivity

theorem tan_sq_cos {alpha : ℝ} (hc : 0 < cos alpha) : sqrt (1 + tan alpha * tan alpha) * cos alpha = 1 := by
  have h : 1 + tan alpha * tan alpha = (1 / cos alpha) ^ 2 := by
    rw [tan_eq_sin_div_cos]
    have := sin_sq_add_cos_sq alpha
    field_simp
    linarith
  rw [h, sqrt_sq (by positivity)]
  field_simp

theorem normSq_mk (x y z : ℝ) : (⟨x, y, z⟩ : Vec3 ℝ).normSq = x * x + y * y + z * z := rfl

theorem norm_le {v : Vec3 ℝ} {V : ℝ} (hV : 0 ≤ V) (h : v.normSq ≤ V ^ 2) : norm v ≤ V := by
  unfold norm
  rw [sqrt_le_iff]
  exact ⟨hV, h⟩

/-- everything about `computeCoefficients` -/
theorem coefficients_spec {g alpha theta X Z x0 z0 : ℝ} (hg : 0 < g) (hX : 0 < X) (hc : 0 < cos alpha) (hD : 0 < X * tan alpha - Z) :
    ∃ v, 0 < v ∧ v ^ 2 * (2 * (X * tan alpha - Z)) = g * X * X ∧
      coefficients g alpha theta X Z x0 z0 = (⟨-(1 / 2) * g * (1 / (v * v)), tan alpha + g * x0 * (1 / (v * v)), z0 - tan alpha * x0 - 1 / 2 * g * x0 * x0 * (1 / (v * v)), theta, alpha, v, x0⟩,
        ⟨v * cos theta, v * sin theta, v * tan alpha⟩, ⟨v * cos theta, v * sin theta, -g * X / v + v * tan alpha⟩) ∧
      norm ⟨v * cos theta, v * sin theta, v * tan alpha⟩ * cos alpha = v := by
  obtain ⟨h1, h2⟩ := xdot_spec hg hX hD
  refine ⟨_, h1, h2, ?_, ?_⟩
  · unfold coefficients
    have : sqrt (1 + tan alpha * tan alpha) * sqrt (g * X * X / (2 * (X * tan alpha - Z))) * sin alpha
        = sqrt (g * X * X / (2 * (X * tan alpha - Z))) * tan alpha := by
      have h := tan_sq_cos hc
      have hs : sin alpha = tan alpha * cos alpha := (tan_mul_cos hc.ne').symm
      rw [hs]
      linear_combination sqrt (g * X * X / (2 * (X * tan alpha - Z))) * tan alpha * h
    simp only [this]
  · generalize sqrt (g * X * X / (2 * (X * tan alpha - Z))) = v at h1
    have h := tan_sq_cos hc
    have e : norm ⟨v * cos theta, v * sin theta, v * tan alpha⟩ = v * sqrt (1 + tan alpha * tan alpha) := by
      unfold norm
      rw [normSq_mk]
      have : v * cos theta * (v * cos theta) + v * sin theta * (v * sin theta) + v * tan alpha * (v * tan alpha) = v ^ 2 * (1 + tan alpha * tan alpha) := by
        linear_combination v ^ 2 * sin_sq_add_cos_sq theta
      rw [this, sqrt_mul (sq_nonneg v), sqrt_sq h1.le]
    rw [e]
    linear_combination v * h

theorem height_spec {g t x0 z0 v x : ℝ} (hv : 0 < v) :
    Coefs.height ⟨-(1 / 2) * g * (1 / (v * v)), t + g * x0 * (1 / (v * v)), z0 - t * x0 - 1 / 2 * g * x0 * x0 * (1 / (v * v)), a, b, v, x0⟩ (x0 + x) =
      z0 + t * x - 1 / 2 * g * (x / v) ^ 2 := by
  unfold Coefs.height
  simp only
  field_simp
  ring

/-! ### the search -/

theorem dichotomy_mem {inf sup : ℝ} (h : inf ≤ sup) (n : ℕ) : inf ≤ dichotomy inf sup n ∧ dichotomy inf sup n ≤ sup := by
  unfold dichotomy
  simp only
  split <;> constructor <;> linarith

theorem search_spec {env : SteerEnv R} {q1 q2 : Conf R} {inf sup : ℝ} (h : inf ≤ sup) (k n : ℕ) {p : Path R × Bool}
    (hp : ∃ alpha, inf ≤ alpha ∧ alpha ≤ sup ∧ p = attempt env q1 q2 alpha) {r : Path R} (hr : search env q1 q2 inf sup p k n = some r) :
    ∃ alpha, inf ≤ alpha ∧ alpha ≤ sup ∧ r = (attempt env q1 q2 alpha).1 ∧ env.valid r = true ∧ (attempt env q1 q2 alpha).2 = true := by
  induction k generalizing n p with
  | zero =>
    unfold search at hr
    split at hr
    · rename_i hv
      rw [Option.some.injEq] at hr
      subst hr
      obtain ⟨alpha, h1, h2, rfl⟩ := hp
      exact ⟨alpha, h1, h2, rfl, hv.1, hv.2⟩
    · cases hr
  | succ k ih =>
    unfold search at hr
    split at hr
    · rename_i hv
      rw [Option.some.injEq] at hr
      subst hr
      obtain ⟨alpha, h1, h2, rfl⟩ := hp
      exact ⟨alpha, h1, h2, rfl, hv.1, hv.2⟩
    · exact ih (n + 1) ⟨_, (dichotomy_mem h n).1, (dichotomy_mem h n).2, rfl⟩ hr

theorem bounds_spec {env : SteerEnv R} {X Z inf sup : ℝ} (hg : 0 < env.g) (hX : 0 < X) (h : bounds env X Z = some (inf, sup)) :
    inf ≤ sup ∧ sup < π / 2 ∧ -(π / 2) < inf ∧ ∀ alpha, inf ≤ alpha → alpha ≤ sup →
      0 < X * tan alpha - Z ∧ env.g * X * X * tan alpha ^ 2 + -2 * X * env.V0max * env.V0max * tan alpha + (env.g * X * X + 2 * Z * env.V0max * env.V0max) ≤ 0 ∧
      env.g * X * X * tan alpha ^ 2 + (-2 * X * env.Vimpmax * env.Vimpmax - 4 * X * Z * env.g) * tan alpha + (env.g * X * X + 2 * Z * env.Vimpmax * env.Vimpmax + 4 * env.g * Z * Z) ≤ 0 := by
  unfold bounds at h
  split at h
  · rename_i lim imp h1 h2
    simp only at h
    split at h
    · cases h
    · rename_i hle
      push Not at hle
      simp only [Option.some.injEq, Prod.mk.injEq] at h
      obtain ⟨rfl, rfl⟩ := h
      have hA : 0 < env.g * X * X := by positivity
      obtain ⟨a1, a2, a3⟩ := roots_spec hX hA h1
      obtain ⟨b1, b2, b3⟩ := roots_spec hX hA h2
      have e1 : lim.2 ≤ max (max (-2 * π) (max lim.2 imp.2)) (max (-2 * π) (arctan (Z / X) + 1 / 1000)) := by simp
      have e2 : imp.2 ≤ max (max (-2 * π) (max lim.2 imp.2)) (max (-2 * π) (arctan (Z / X) + 1 / 1000)) := by simp
      have e3 : arctan (Z / X) + 1 / 1000 ≤ max (max (-2 * π) (max lim.2 imp.2)) (max (-2 * π) (arctan (Z / X) + 1 / 1000)) :=
        le_trans (le_max_right _ _) (le_max_right _ _)
      have f1 : min (2 * π) (min (min lim.1 imp.1) (π / 2)) ≤ lim.1 :=
        le_trans (min_le_right _ _) (le_trans (min_le_left _ _) (min_le_left _ _))
      have f2 : min (2 * π) (min (min lim.1 imp.1) (π / 2)) ≤ imp.1 :=
        le_trans (min_le_right _ _) (le_trans (min_le_left _ _) (min_le_right _ _))
      refine ⟨hle, lt_of_le_of_lt f1 a1, lt_of_lt_of_le a2 e1, ?_⟩
      intro alpha k1 k2
      refine ⟨above_line hX (e3.trans k1) (lt_of_le_of_lt (k2.trans f1) a1), ?_, ?_⟩
      · exact a3 alpha (e1.trans k1) (k2.trans f1)
      · exact b3 alpha (e2.trans k1) (k2.trans f2)
  · cases h

theorem height_bound {zmax : ℝ} {co : Coefs} {x0 x1 x : ℝ} (ha : co.a < 0) (h : maxHeightRespected zmax co x0 x1 = true) (h0 : x0 ≤ x) (h1 : x ≤ x1) :
    co.height x ≤ max zmax (max (co.height x0) (co.height x1)) := by
  have hxm : co.a * (-(1 / 2) * co.b / co.a) = -(1 / 2) * co.b := mul_div_cancel₀ _ ha.ne
  unfold maxHeightRespected at h
  simp only [Bool.not_eq_true', decide_eq_false_iff_not, not_and, not_lt, gt_iff_lt] at h
  generalize -(1 / 2) * co.b / co.a = xm at hxm h
  have hb : co.b = -2 * co.a * xm := by linarith
  have key : ∀ y, co.height y - co.height x = co.a * ((y - xm) ^ 2 - (x - xm) ^ 2) := by
    intro y
    unfold Coefs.height
    rw [hb]; ring
  rcases lt_or_ge xm x0 with hm | hm
  · refine le_max_of_le_right (le_max_of_le_left ?_)
    have := key x0
    nlinarith [mul_nonneg (sub_nonneg.2 h0) (by linarith : 0 ≤ (x - xm) + (x0 - xm)), mul_nonneg_of_nonpos_of_nonpos ha.le (by nlinarith : (x0 - xm) ^ 2 - (x - xm) ^ 2 ≤ 0)]
  · rcases lt_or_ge x1 xm with hm1 | hm1
    · refine le_max_of_le_right (le_max_of_le_right ?_)
      have := key x1
      nlinarith [mul_nonneg_of_nonpos_of_nonpos ha.le (by nlinarith : (x1 - xm) ^ 2 - (x - xm) ^ 2 ≤ 0)]
    · refine le_max_of_le_left (le_trans ?_ (h hm hm1))
      have := key xm
      nlinarith [mul_nonneg_of_nonpos_of_nonpos ha.le (by nlinarith [sq_nonneg (x - xm)] : (xm - xm) ^ 2 - (x - xm) ^ 2 ≤ 0)]

/-! ### C117: the steering method -/

/-- C117: for configurations at different horizontal positions, a path returned by the steering method is a jump in free fall: from the first position with the stored initial velocity
it reaches the second position at the time `len` with the stored final velocity; both speeds are within their bounds; all the way its height is at most the bound of the root joint
or the heights of the ends; the parabola of the coefficients is its trace, and it was found valid. -/
theorem C117_jump (env : SteerEnv R) (hg : 0 < env.g) (hV0 : 0 ≤ env.V0max) (hVi : 0 ≤ env.Vimpmax) (q1 q2 : Conf R) (hne : ¬ (q1.pos.x = q2.pos.x ∧ q1.pos.y = q2.pos.y)) (tp : Timed R)
    (h : steer env q1 q2 = some tp) :
    0 < tp.len ∧ fall env.g q1.pos tp.init.vel tp.len = q2.pos ∧ fallVel env.g tp.init.vel tp.len = tp.fin.vel ∧
    norm tp.init.vel ≤ env.V0max ∧ norm tp.fin.vel ≤ env.Vimpmax ∧
    (∀ t, 0 ≤ t → t ≤ tp.len → (fall env.g q1.pos tp.init.vel t).z ≤ max env.zmax (max q1.pos.z q2.pos.z)) ∧
    (∀ t, tp.para.co.height (along tp.para.co.theta (fall env.g q1.pos tp.init.vel t)) = (fall env.g q1.pos tp.init.vel t).z) ∧
    tp.init.pos = q1.pos ∧ tp.fin.pos = q2.pos ∧ tp.init.rest = q1.rest ∧ tp.fin.rest = q2.rest ∧ tp.init.acc.z = -env.g ∧ 
    tp.para.init = q1 ∧ tp.para.fin = q2 ∧ tp.para.V0 = tp.init.vel ∧ tp.para.Vimp = tp.fin.vel ∧ env.valid tp.para = true := by
  unfold steer at h
  simp only at h
  obtain ⟨d1, d2, d3⟩ := arg_dir (q2.pos - q1.pos).x (q2.pos - q1.pos).y
  have hX : 0 < ‖(⟨(q2.pos - q1.pos).x, (q2.pos - q1.pos).y⟩ : ℂ)‖ := by
    apply dir_pos
    rintro ⟨e1, e2⟩
    apply hne
    simp only [Vec3.sub_x, Vec3.sub_y] at e1 e2
    constructor <;> linarith
  have hlen : computeLength (Complex.arg ⟨(q2.pos - q1.pos).x, (q2.pos - q1.pos).y⟩) q1 q2 = ‖(⟨(q2.pos - q1.pos).x, (q2.pos - q1.pos).y⟩ : ℂ)‖ := d1
  rw [d1] at h
  generalize hθ : Complex.arg ⟨(q2.pos - q1.pos).x, (q2.pos - q1.pos).y⟩ = θ at *
  generalize hN : ‖(⟨(q2.pos - q1.pos).x, (q2.pos - q1.pos).y⟩ : ℂ)‖ = X at *
  split at h
  · cases h
  · rename_i inf sup hb
    obtain ⟨hle, hs, hi, hall⟩ := bounds_spec hg hX hb
    split at h
    · cases h
    · split at h
      · cases h
      · rename_i p hp
        rw [Option.some.injEq] at h
        obtain ⟨alpha, ha1, ha2, rfl, hv, hh⟩ := search_spec hle _ _ ⟨_, by linarith, by linarith, rfl⟩ hp
        obtain ⟨hD, hq1, hq2⟩ := hall alpha ha1 ha2
        have hc : 0 < cos alpha := cos_pos_of_mem_Ioo ⟨lt_of_lt_of_le hi ha1, lt_of_le_of_lt ha2 hs⟩
        obtain ⟨v, hv0, hv1, hco, hn⟩ := coefficients_spec (theta := θ) (x0 := along θ q1.pos) (z0 := q1.pos.z) hg hX hc hD
        have hat : attempt env q1 q2 alpha = (⟨q1, q2, X, (coefficients env.g alpha θ X (q2.pos - q1.pos).z (along θ q1.pos) q1.pos.z).1,
            (coefficients env.g alpha θ X (q2.pos - q1.pos).z (along θ q1.pos) q1.pos.z).2.1, (coefficients env.g alpha θ X (q2.pos - q1.pos).z (along θ q1.pos) q1.pos.z).2.2⟩,
            maxHeightRespected env.zmax (coefficients env.g alpha θ X (q2.pos - q1.pos).z (along θ q1.pos) q1.pos.z).1 (along θ q1.pos) (along θ q2.pos)) := by
          unfold attempt
          simp only [hθ, d1, hlen]
        rw [hat] at h hv hh
        simp only [hco] at h hv hh
        subst h
        have hT : computeLength θ q1 q2 / (norm ⟨v * cos θ, v * sin θ, v * tan alpha⟩ * cos alpha) = X / v := by rw [hlen, hn]
        have hlen2 : (Timed.create (R := R) ⟨q1.pos, q1.rest, ⟨v * cos θ, v * sin θ, v * tan alpha⟩, ⟨q1.acc.x, q1.acc.y, -env.g⟩⟩ ⟨q2.pos, q2.rest, ⟨v * cos θ, v * sin θ, -env.g * X / v + v * tan alpha⟩, q2.acc⟩
            ⟨q1, q2, X, ⟨-(1 / 2) * env.g * (1 / (v * v)), tan alpha + env.g * along θ q1.pos * (1 / (v * v)), q1.pos.z - tan alpha * along θ q1.pos - 1 / 2 * env.g * along θ q1.pos * along θ q1.pos * (1 / (v * v)), θ, alpha, v, along θ q1.pos⟩,
            ⟨v * cos θ, v * sin θ, v * tan alpha⟩, ⟨v * cos θ, v * sin θ, -env.g * X / v + v * tan alpha⟩⟩).len = X / v := hT
        have hz : q2.pos.z - q1.pos.z = X * tan alpha - 1 / 2 * env.g * (X / v) ^ 2 := by
          have : (q2.pos - q1.pos).z = q2.pos.z - q1.pos.z := rfl
          rw [this] at hv1
          field_simp
          linear_combination (-1 : ℝ) * hv1
        have hx : q2.pos.x = q1.pos.x + X * cos θ := by rw [d2]; simp
        have hy : q2.pos.y = q1.pos.y + X * sin θ := by rw [d3]; simp
        have hal : ∀ t, along θ (fall env.g q1.pos ⟨v * cos θ, v * sin θ, v * tan alpha⟩ t) = along θ q1.pos + t * v := by
          intro t
          unfold along fall
          simp only [Vec3.add_x, Vec3.add_y, Vec3.smul_x, Vec3.smul_y]
          linear_combination t * v * sin_sq_add_cos_sq θ
        have hal2 : along θ q2.pos = along θ q1.pos + X := by
          unfold along
          rw [hx, hy]
          linear_combination X * sin_sq_add_cos_sq θ
        have hfz : ∀ t, (fall env.g q1.pos ⟨v * cos θ, v * sin θ, v * tan alpha⟩ t).z = q1.pos.z + tan alpha * (t * v) - 1 / 2 * env.g * (t * v / v) ^ 2 := by
          intro t
          unfold fall
          simp only [Vec3.add_z, Vec3.smul_z]
          rw [mul_div_cancel_right₀ _ hv0.ne']
          ring
        have htrace : ∀ t, Coefs.height ⟨-(1 / 2) * env.g * (1 / (v * v)), tan alpha + env.g * along θ q1.pos * (1 / (v * v)), q1.pos.z - tan alpha * along θ q1.pos - 1 / 2 * env.g * along θ q1.pos * along θ q1.pos * (1 / (v * v)), θ, alpha, v, along θ q1.pos⟩
            (along θ (fall env.g q1.pos ⟨v * cos θ, v * sin θ, v * tan alpha⟩ t)) = (fall env.g q1.pos ⟨v * cos θ, v * sin θ, v * tan alpha⟩ t).z := by
          intro t
          rw [hal, height_spec hv0, hfz]
        have hend : fall env.g q1.pos ⟨v * cos θ, v * sin θ, v * tan alpha⟩ (X / v) = q2.pos := by
          ext
          · unfold fall
            simp only [Vec3.add_x, Vec3.smul_x]
            rw [hx]; field_simp; ring
          · unfold fall
            simp only [Vec3.add_y, Vec3.smul_y]
            rw [hy]; field_simp; ring
          · rw [hfz, div_mul_cancel₀ _ hv0.ne']
            linarith
        have hvel : fallVel env.g ⟨v * cos θ, v * sin θ, v * tan alpha⟩ (X / v) = ⟨v * cos θ, v * sin θ, -env.g * X / v + v * tan alpha⟩ := by
          unfold fallVel
          ext
          · simp
          · simp
          · simp only [Vec3.add_z, Vec3.smul_z]; ring
        refine ⟨by rw [hlen2]; positivity, by rw [hlen2]; exact hend, by rw [hlen2]; exact hvel, ?_, ?_, ?_, htrace, rfl, rfl, rfl, rfl, rfl, rfl, rfl, rfl, rfl, hv⟩
        · apply norm_le hV0
          show (⟨v * cos θ, v * sin θ, v * tan alpha⟩ : Vec3 ℝ).normSq ≤ env.V0max ^ 2
          rw [normSq_mk]
          have e : v * cos θ * (v * cos θ) + v * sin θ * (v * sin θ) + v * tan alpha * (v * tan alpha) = v ^ 2 * (1 + tan alpha ^ 2) := by
            linear_combination v ^ 2 * sin_sq_add_cos_sq θ
          rw [e]
          have h2D : 0 < 2 * (X * tan alpha - (q2.pos - q1.pos).z) := by linarith
          refine le_of_mul_le_mul_right ?_ h2D
          have : v ^ 2 * (1 + tan alpha ^ 2) * (2 * (X * tan alpha - (q2.pos - q1.pos).z)) = env.g * X * X * (1 + tan alpha ^ 2) := by
            linear_combination (1 + tan alpha ^ 2) * hv1
          rw [this]
          linarith
        · apply norm_le hVi
          show (⟨v * cos θ, v * sin θ, -env.g * X / v + v * tan alpha⟩ : Vec3 ℝ).normSq ≤ env.Vimpmax ^ 2
          rw [normSq_mk]
          have e1 : X * (-env.g * X / v + v * tan alpha) = v * (2 * (q2.pos - q1.pos).z - X * tan alpha) := by
            field_simp
            linear_combination hv1
          have e : X ^ 2 * (v * cos θ * (v * cos θ) + v * sin θ * (v * sin θ) + (-env.g * X / v + v * tan alpha) * (-env.g * X / v + v * tan alpha))
              = v ^ 2 * (X ^ 2 + (2 * (q2.pos - q1.pos).z - X * tan alpha) ^ 2) := by
            linear_combination X ^ 2 * v ^ 2 * sin_sq_add_cos_sq θ + (X * (-env.g * X / v + v * tan alpha) + v * (2 * (q2.pos - q1.pos).z - X * tan alpha)) * e1
          have h2D : 0 < 2 * (X * tan alpha - (q2.pos - q1.pos).z) := by linarith
          have hX2 : 0 < X ^ 2 := by positivity
          refine le_of_mul_le_mul_left ?_ (mul_pos hX2 h2D)
          have : X ^ 2 * (2 * (X * tan alpha - (q2.pos - q1.pos).z)) * (v * cos θ * (v * cos θ) + v * sin θ * (v * sin θ) + (-env.g * X / v + v * tan alpha) * (-env.g * X / v + v * tan alpha))
              = env.g * X * X * (X ^ 2 + (2 * (q2.pos - q1.pos).z - X * tan alpha) ^ 2) := by
            linear_combination (2 * (X * tan alpha - (q2.pos - q1.pos).z)) * e + (X ^ 2 + (2 * (q2.pos - q1.pos).z - X * tan alpha) ^ 2) * hv1
          rw [this]
          have := mul_le_mul_of_nonneg_left hq2 hX2.le
          linarith
        · intro t ht0 ht1
          rw [hlen2, le_div_iff₀ hv0] at ht1
          have hneg : -(1 / 2) * env.g * (1 / (v * v)) < 0 := by
            have : 0 < env.g * (1 / (v * v)) := by positivity
            linarith
          have hb' := height_bound (x := along θ q1.pos + t * v) hneg hh (by nlinarith [mul_nonneg ht0 hv0.le]) (by rw [hal2]; linarith)
          rw [← hal, htrace] at hb'
          have k0 := htrace 0
          have k1 := htrace (X / v)
          rw [hal] at k0 k1
          rw [hend, div_mul_cancel₀ _ hv0.ne', ← hal2] at k1
          have f0 : fall env.g q1.pos ⟨v * cos θ, v * sin θ, v * tan alpha⟩ 0 = q1.pos := by
            unfold fall; ext <;> simp
          rw [f0, zero_mul, add_zero] at k0
          rw [k0, k1] at hb'
          exact hb'

theorem roots_complete {X A B C : ℝ} (hX : 0 < X) (hA : 0 < A) {alpha : ℝ} (h1 : -(π / 2) < alpha) (h2 : alpha < π / 2) (hq : A * tan alpha ^ 2 + B * tan alpha + C ≤ 0) :
    ∃ r, roots X A B C = some r ∧ r.2 ≤ alpha ∧ alpha ≤ r.1 := by
  have hd : 0 ≤ B * B - 4 * A * C := by nlinarith [sq_nonneg (2 * A * tan alpha + B)]
  unfold roots
  simp only
  rw [if_neg (not_lt.2 hd), if_pos hX]
  have hs : (2 * A * tan alpha + B) ^ 2 ≤ B * B - 4 * A * C := by nlinarith
  have hab := abs_le_sqrt hs
  rw [abs_le] at hab
  refine ⟨_, rfl, ?_, ?_⟩
  · simp only
    rw [← arctan_tan h1 h2]
    apply arctan_strictMono.monotone
    rw [div_le_iff₀ hA]
    linarith [hab.1]
  · simp only
    rw [← arctan_tan h1 h2]
    apply arctan_strictMono.monotone
    rw [le_div_iff₀ hA]
    linarith [hab.2]

/-- C117: the interval of angles misses no possible jump: every take-off angle at least 0.001 above the direction of the target whose take-off and landing speeds (of the parabola to
the target) are within the bounds lies in it. -/
theorem C117_complete (env : SteerEnv R) (hg : 0 < env.g) (X Z x0 z0 theta alpha : ℝ) (hX : 0 < X) (h1 : arctan (Z / X) + 1 / 1000 ≤ alpha) (h2 : alpha < π / 2)
    (hv0 : norm (coefficients env.g alpha theta X Z x0 z0).2.1 ≤ env.V0max) (hv1 : norm (coefficients env.g alpha theta X Z x0 z0).2.2 ≤ env.Vimpmax) :
    ∃ inf sup, bounds env X Z = some (inf, sup) ∧ inf ≤ alpha ∧ alpha ≤ sup := by
  have ha1 : -(π / 2) < alpha := by
    have := neg_pi_div_two_lt_arctan (Z / X)
    linarith
  have hc : 0 < cos alpha := cos_pos_of_mem_Ioo ⟨ha1, h2⟩
  have hD := above_line hX h1 h2
  obtain ⟨v, hv, hvv, hco, -⟩ := coefficients_spec (theta := theta) (x0 := x0) (z0 := z0) hg hX hc hD
  rw [hco] at hv0 hv1
  simp only at hv0 hv1
  have sq_of : ∀ (w : Vec3 ℝ) (V : ℝ), norm w ≤ V → w.normSq ≤ V ^ 2 := by
    intro w V hw
    unfold norm at hw
    exact (sqrt_le_iff.1 hw).2
  have k0 := sq_of _ _ hv0
  have k1 := sq_of _ _ hv1
  rw [normSq_mk] at k0 k1
  have h2D : 0 < 2 * (X * tan alpha - Z) := by linarith
  have q0 : env.g * X * X * tan alpha ^ 2 + -2 * X * env.V0max * env.V0max * tan alpha + (env.g * X * X + 2 * Z * env.V0max * env.V0max) ≤ 0 := by
    have e : v * cos theta * (v * cos theta) + v * sin theta * (v * sin theta) + v * tan alpha * (v * tan alpha) = v ^ 2 * (1 + tan alpha ^ 2) := by
      linear_combination v ^ 2 * sin_sq_add_cos_sq theta
    rw [e] at k0
    have := mul_le_mul_of_nonneg_right k0 h2D.le
    have e2 : v ^ 2 * (1 + tan alpha ^ 2) * (2 * (X * tan alpha - Z)) = env.g * X * X * (1 + tan alpha ^ 2) := by
      linear_combination (1 + tan alpha ^ 2) * hvv
    rw [e2] at this
    linarith
  have q1 : env.g * X * X * tan alpha ^ 2 + (-2 * X * env.Vimpmax * env.Vimpmax - 4 * X * Z * env.g) * tan alpha + (env.g * X * X + 2 * Z * env.Vimpmax * env.Vimpmax + 4 * env.g * Z * Z) ≤ 0 := by
    have e1 : X * (-env.g * X / v + v * tan alpha) = v * (2 * Z - X * tan alpha) := by
      field_simp
      linear_combination hvv
    have e : X ^ 2 * (v * cos theta * (v * cos theta) + v * sin theta * (v * sin theta) + (-env.g * X / v + v * tan alpha) * (-env.g * X / v + v * tan alpha))
        = v ^ 2 * (X ^ 2 + (2 * Z - X * tan alpha) ^ 2) := by
      linear_combination X ^ 2 * v ^ 2 * sin_sq_add_cos_sq theta + (X * (-env.g * X / v + v * tan alpha) + v * (2 * Z - X * tan alpha)) * e1
    have hX2 : 0 < X ^ 2 := by positivity
    have := mul_le_mul_of_nonneg_left k1 (mul_pos hX2 h2D).le
    have e2 : X ^ 2 * (2 * (X * tan alpha - Z)) * (v * cos theta * (v * cos theta) + v * sin theta * (v * sin theta) + (-env.g * X / v + v * tan alpha) * (-env.g * X / v + v * tan alpha))
        = env.g * X * X * (X ^ 2 + (2 * Z - X * tan alpha) ^ 2) := by
      linear_combination (2 * (X * tan alpha - Z)) * e + (X ^ 2 + (2 * Z - X * tan alpha) ^ 2) * hvv
    rw [e2] at this
    refine le_of_mul_le_mul_left ?_ hX2
    linarith
  have hA : 0 < env.g * X * X := by positivity
  obtain ⟨lim, l1, l2, l3⟩ := roots_complete hX hA ha1 h2 q0
  obtain ⟨imp, i1, i2, i3⟩ := roots_complete hX hA ha1 h2 q1
  have hinf : max (max (-2 * π) (max lim.2 imp.2)) (max (-2 * π) (arctan (Z / X) + 1 / 1000)) ≤ alpha := by
    have : -2 * π ≤ alpha := by have := pi_pos; linarith
    exact max_le (max_le this (max_le l2 i2)) (max_le this h1)
  have hsup : alpha ≤ min (2 * π) (min (min lim.1 imp.1) (π / 2)) := by
    have : alpha ≤ 2 * π := by have := pi_pos; linarith
    simp [l3, i3, h2.le, this]
  refine ⟨_, _, ?_, hinf, hsup⟩
  unfold bounds secondConstraint sixthConstraint
  rw [l1, i1]
  simp only
  rw [if_neg (not_lt.2 (hinf.trans hsup))]

theorem respected_of_high (co : Coefs) : ∃ z, ∀ zmax, z ≤ zmax → ∀ x0 x1, maxHeightRespected zmax co x0 x1 = true := by
  refine ⟨co.height (-(1 / 2) * co.b / co.a), fun zmax h x0 x1 => ?_⟩
  unfold maxHeightRespected
  simp only [Bool.not_eq_true', decide_eq_false_iff_not]
  rintro ⟨-, -, h3⟩
  exact absurd h (not_le.2 h3)

/-- C117: where some take-off angle keeps both speeds within the bounds, the ceiling is high enough and the validation accepts every path, a jump is returned. -/
theorem C117_returned (env : SteerEnv R) (hv : ∀ p, env.valid p = true) (q1 q2 : Conf R) (hg : 0 < env.g) (hne : ¬ (q1.pos.x = q2.pos.x ∧ q1.pos.y = q2.pos.y)) (alpha : ℝ)
    (h1 : arctan ((q2.pos.z - q1.pos.z) / sqrt ((q2.pos.x - q1.pos.x) ^ 2 + (q2.pos.y - q1.pos.y) ^ 2)) + 1 / 1000 ≤ alpha) (h2 : alpha < π / 2)
    (hv0 : ∀ theta, norm (coefficients env.g alpha theta (sqrt ((q2.pos.x - q1.pos.x) ^ 2 + (q2.pos.y - q1.pos.y) ^ 2)) (q2.pos.z - q1.pos.z) (along theta q1.pos) q1.pos.z).2.1 ≤ env.V0max)
    (hv1 : ∀ theta, norm (coefficients env.g alpha theta (sqrt ((q2.pos.x - q1.pos.x) ^ 2 + (q2.pos.y - q1.pos.y) ^ 2)) (q2.pos.z - q1.pos.z) (along theta q1.pos) q1.pos.z).2.2 ≤ env.Vimpmax) :
    ∃ z, ∀ zmax, z ≤ zmax → (steer { env with zmax := zmax } q1 q2).isSome = true := by
  obtain ⟨d1, d2, d3⟩ := arg_dir (q2.pos - q1.pos).x (q2.pos - q1.pos).y
  have hX : 0 < ‖(⟨(q2.pos - q1.pos).x, (q2.pos - q1.pos).y⟩ : ℂ)‖ := by
    apply dir_pos
    rintro ⟨e1, e2⟩
    apply hne
    simp only [Vec3.sub_x, Vec3.sub_y] at e1 e2
    constructor <;> linarith
  have hN : ‖(⟨(q2.pos - q1.pos).x, (q2.pos - q1.pos).y⟩ : ℂ)‖ = sqrt ((q2.pos.x - q1.pos.x) ^ 2 + (q2.pos.y - q1.pos.y) ^ 2) := by
    rw [Complex.norm_def, Complex.normSq_apply]
    congr 1
    simp only [Vec3.sub_x, Vec3.sub_y]
    ring
  rw [← hN] at h1 hv0 hv1
  obtain ⟨inf, sup, hb, -, -⟩ := C117_complete env hg _ (q2.pos - q1.pos).z _ _ 0 alpha hX h1 h2 (hv0 0) (hv1 0)
  obtain ⟨z1, hz1⟩ := respected_of_high (attempt env q1 q2 inf).1.co
  obtain ⟨z2, hz2⟩ := respected_of_high (attempt env q1 q2 (inf + 1 / 10 * (sup - inf))).1.co
  refine ⟨max z1 z2, fun zmax hz => ?_⟩
  unfold steer
  simp only [d1]
  have hb' : bounds { env with zmax := zmax } ‖(⟨(q2.pos - q1.pos).x, (q2.pos - q1.pos).y⟩ : ℂ)‖ (q2.pos - q1.pos).z = some (inf, sup) := hb
  rw [hb']
  simp only
  have a1 : (attempt { env with zmax := zmax } q1 q2 inf).2 = true := hz1 zmax (le_trans (le_max_left _ _) hz) _ _
  have a2 : (attempt { env with zmax := zmax } q1 q2 (inf + 1 / 10 * (sup - inf))).2 = true := hz2 zmax (le_trans (le_max_right _ _) hz) _ _
  rw [a1, if_neg (by simp)]
  have : search { env with zmax := zmax } q1 q2 inf sup (attempt { env with zmax := zmax } q1 q2 (inf + 1 / 10 * (sup - inf))) 6 0 =
      some (attempt { env with zmax := zmax } q1 q2 (inf + 1 / 10 * (sup - inf))).1 := by
    unfold search
    rw [if_pos ⟨hv _, a2⟩]
  rw [this]
  rfl

/-- non-vacuity: with gravity 1, speeds up to 2 and a high ceiling, there is a jump of length 1 on flat ground -/
theorem flat_returned : ∃ z, ∀ zmax, z ≤ zmax →
    (steer (⟨1, 2, 2, zmax, fun _ => true⟩ : SteerEnv Unit) ⟨⟨0, 0, 0⟩, (), ⟨0, 0, 0⟩, ⟨0, 0, 0⟩⟩ ⟨⟨1, 0, 0⟩, (), ⟨0, 0, 0⟩, ⟨0, 0, 0⟩⟩).isSome = true := by
  have hp := two_le_pi
  have hc : 0 < cos (π / 4) := cos_pos_of_mem_Ioo ⟨by linarith, by linarith⟩
  have ht : tan (π / 4) = 1 := tan_pi_div_four
  have hs : sqrt (((1 : ℝ) - 0) ^ 2 + ((0 : ℝ) - 0) ^ 2) = 1 := by norm_num
  have key : ∀ theta, ∃ v : ℝ, 0 < v ∧ v * v * 2 = 1 ∧ (coefficients 1 (π / 4) theta 1 (0 - 0) (along theta ⟨0, 0, 0⟩) 0).2 =
      (⟨v * cos theta, v * sin theta, v⟩, ⟨v * cos theta, v * sin theta, -v⟩) := by
    intro theta
    obtain ⟨v, hv, hvv, hco, -⟩ := coefficients_spec (g := 1) (alpha := π / 4) (theta := theta) (X := 1) (Z := 0 - 0) (x0 := along theta ⟨0, 0, 0⟩) (z0 := 0) one_pos one_pos hc (by rw [ht]; norm_num)
    rw [ht] at hvv
    refine ⟨v, hv, by linarith, ?_⟩
    rw [hco]
    refine Prod.ext ?_ ?_
    · simp only [ht]; ext <;> simp
    · simp only [ht]
      ext <;> simp
      field_simp
      linarith
  have hn : ∀ theta v z : ℝ, v * v * 2 = 1 → z * z = v * v → norm ⟨v * cos theta, v * sin theta, z⟩ ≤ 2 := by
    intro theta v z hv hz
    apply norm_le (by norm_num)
    rw [normSq_mk]
    have : v * cos theta * (v * cos theta) + v * sin theta * (v * sin theta) = v * v := by linear_combination v * v * sin_sq_add_cos_sq theta
    rw [this, hz]; linarith
  obtain ⟨z, hz⟩ := C117_returned (⟨1, 2, 2, 0, fun _ => true⟩ : SteerEnv Unit) (fun _ => rfl) ⟨⟨0, 0, 0⟩, (), ⟨0, 0, 0⟩, ⟨0, 0, 0⟩⟩ ⟨⟨1, 0, 0⟩, (), ⟨0, 0, 0⟩, ⟨0, 0, 0⟩⟩ one_pos
    (by simp) (π / 4) (by simp; linarith) (by linarith)
    (by
      intro theta
      show norm (coefficients 1 (π / 4) theta (sqrt (((1 : ℝ) - 0) ^ 2 + ((0 : ℝ) - 0) ^ 2)) (0 - 0) (along theta ⟨0, 0, 0⟩) 0).2.1 ≤ 2
      rw [hs]
      obtain ⟨v, hv, hvv, hco⟩ := key theta
      rw [hco]
      exact hn _ _ _ hvv rfl)
    (by
      intro theta
      show norm (coefficients 1 (π / 4) theta (sqrt (((1 : ℝ) - 0) ^ 2 + ((0 : ℝ) - 0) ^ 2)) (0 - 0) (along theta ⟨0, 0, 0⟩) 0).2.2 ≤ 2
      rw [hs]
      obtain ⟨v, hv, hvv, hco⟩ := key theta
      rw [hco]
      exact hn _ _ _ hvv (by ring))
  exact ⟨z, hz⟩

example : ∃ zmax, ∃ tp, steer (⟨1, 2, 2, zmax, fun _ => true⟩ : SteerEnv Unit) ⟨⟨0, 0, 0⟩, (), ⟨0, 0, 0⟩, ⟨0, 0, 0⟩⟩ ⟨⟨1, 0, 0⟩, (), ⟨0, 0, 0⟩, ⟨0, 0, 0⟩⟩ = some tp := by
  obtain ⟨z, hz⟩ := flat_returned
  exact ⟨z, Option.isSome_iff_exists.1 (hz z (le_refl _))⟩

/-! ### C62: evaluation -/

variable (joints : R → R → ℝ → R)

/-- C62: at 0 the path is at its initial configuration; at its length it is at the final one, if this has another first coordinate. -/
theorem C62_ends (p : Path R) (hx : p.init.pos.x ≠ p.fin.pos.x) (hl : p.len ≠ 0) : p.eval joints 0 = p.init ∧ p.eval joints p.len = p.fin := by
  constructor
  · unfold Path.eval; rw [if_pos (Or.inl rfl)]
  · unfold Path.eval
    rw [if_neg (by rintro (h | h); exacts [hl h, hx h]), if_pos (le_refl _)]

theorem eval_inside (p : Path R) (hx : p.init.pos.x ≠ p.fin.pos.x) (t : ℝ) (h0 : t ≠ 0) (h1 : t < p.len) :
    p.eval joints t = ⟨lerp (t / p.len) p.init.pos p.fin.pos, joints p.init.rest p.fin.rest (t / p.len), ⟨0, 0, 0⟩, ⟨0, 0, 0⟩⟩ := by
  unfold Path.eval
  rw [if_neg (by rintro (h | h); exacts [h0 h, hx h]), if_neg (not_le.2 h1)]
  rfl

/-- at every parameter of its range the position is on the segment between the ends -/
theorem eval_pos (p : Path R) (hx : p.init.pos.x ≠ p.fin.pos.x) (t : ℝ) (hl : 0 < p.len) (h1 : t ≤ p.len) :
    (p.eval joints t).pos = lerp (t / p.len) p.init.pos p.fin.pos := by
  rcases eq_or_ne t 0 with rfl | h0
  · unfold Path.eval
    rw [if_pos (Or.inl rfl)]
    unfold lerp
    ext <;> simp
  · rcases lt_or_eq_of_le h1 with h | h
    · rw [eval_inside joints p hx t h0 h]
    · rw [h, (C62_ends joints p hx hl.ne').2, div_self hl.ne']
      unfold lerp
      ext <;> simp

/-- C62 (part): inside its range the path is horizontally at the position given by the coefficients, and its joints are interpolated. -/
theorem C62_partial (p : Path R) (hx : p.init.pos.x ≠ p.fin.pos.x) (h2 : p.fin.pos.x = p.init.pos.x + p.len * cos p.co.theta) (h3 : p.fin.pos.y = p.init.pos.y + p.len * sin p.co.theta)
    (t : ℝ) (h0 : 0 < t) (h1 : t < p.len) :
    (p.eval joints t).pos.x = (p.onParabola (t / p.len)).x ∧ (p.eval joints t).pos.y = (p.onParabola (t / p.len)).y ∧
    (p.eval joints t).rest = joints p.init.rest p.fin.rest (t / p.len) := by
  rw [eval_inside joints p hx t h0.ne' h1]
  refine ⟨?_, ?_, rfl⟩
  · simp only [lerp, Path.onParabola, Vec3.add_x, Vec3.smul_x, h2]; ring
  · simp only [lerp, Path.onParabola, Vec3.add_y, Vec3.smul_y, h3]; ring

/-- the facts about the path of a returned jump -/
theorem steer_para (env : SteerEnv R) (hg : 0 < env.g) (q1 q2 : Conf R) (hne : ¬ (q1.pos.x = q2.pos.x ∧ q1.pos.y = q2.pos.y)) (tp : Timed R)
    (h : steer env q1 q2 = some tp) :
    ∃ v, 0 < v ∧ 0 < tp.para.len ∧ tp.range = tp.para.len ∧ tp.len = tp.para.len / v ∧ tp.para.co.a = -(1 / 2) * env.g * (1 / (v * v)) ∧ tp.para.co.xdot = v ∧
      tp.init.vel = ⟨v * cos tp.para.co.theta, v * sin tp.para.co.theta, v * tan tp.para.co.alpha⟩ ∧ norm tp.para.V0 * cos tp.para.co.alpha = v ∧
      q2.pos.x = q1.pos.x + tp.para.len * cos tp.para.co.theta ∧ q2.pos.y = q1.pos.y + tp.para.len * sin tp.para.co.theta ∧ tp.para.co.x0 = along tp.para.co.theta q1.pos ∧
      0 < cos tp.para.co.alpha := by
  unfold steer at h
  simp only at h
  obtain ⟨d1, d2, d3⟩ := arg_dir (q2.pos - q1.pos).x (q2.pos - q1.pos).y
  have hX : 0 < ‖(⟨(q2.pos - q1.pos).x, (q2.pos - q1.pos).y⟩ : ℂ)‖ := by
    apply dir_pos
    rintro ⟨e1, e2⟩
    apply hne
    simp only [Vec3.sub_x, Vec3.sub_y] at e1 e2
    constructor <;> linarith
  have hlen : computeLength (Complex.arg ⟨(q2.pos - q1.pos).x, (q2.pos - q1.pos).y⟩) q1 q2 = ‖(⟨(q2.pos - q1.pos).x, (q2.pos - q1.pos).y⟩ : ℂ)‖ := d1
  rw [d1] at h
  generalize hθ : Complex.arg ⟨(q2.pos - q1.pos).x, (q2.pos - q1.pos).y⟩ = θ at *
  generalize hN : ‖(⟨(q2.pos - q1.pos).x, (q2.pos - q1.pos).y⟩ : ℂ)‖ = X at *
  split at h
  · cases h
  · rename_i inf sup hb
    obtain ⟨hle, hs, hi, hall⟩ := bounds_spec hg hX hb
    split at h
    · cases h
    · split at h
      · cases h
      · rename_i p hp
        rw [Option.some.injEq] at h
        obtain ⟨alpha, ha1, ha2, rfl, hv, hh⟩ := search_spec hle _ _ ⟨_, by linarith, by linarith, rfl⟩ hp
        obtain ⟨hD, -, -⟩ := hall alpha ha1 ha2
        have hc : 0 < cos alpha := cos_pos_of_mem_Ioo ⟨lt_of_lt_of_le hi ha1, lt_of_le_of_lt ha2 hs⟩
        obtain ⟨v, hv0, hv1, hco, hn⟩ := coefficients_spec (theta := θ) (x0 := along θ q1.pos) (z0 := q1.pos.z) hg hX hc hD
        have hat : attempt env q1 q2 alpha = (⟨q1, q2, X, (coefficients env.g alpha θ X (q2.pos - q1.pos).z (along θ q1.pos) q1.pos.z).1,
            (coefficients env.g alpha θ X (q2.pos - q1.pos).z (along θ q1.pos) q1.pos.z).2.1, (coefficients env.g alpha θ X (q2.pos - q1.pos).z (along θ q1.pos) q1.pos.z).2.2⟩,
            maxHeightRespected env.zmax (coefficients env.g alpha θ X (q2.pos - q1.pos).z (along θ q1.pos) q1.pos.z).1 (along θ q1.pos) (along θ q2.pos)) := by
          unfold attempt
          simp only [hθ, d1, hlen]
        rw [hat] at h
        simp only [hco] at h
        subst h
        refine ⟨v, hv0, hX, rfl, ?_, rfl, rfl, rfl, hn, ?_, ?_, rfl, hc⟩
        · show computeLength θ q1 q2 / (norm ⟨v * cos θ, v * sin θ, v * tan alpha⟩ * cos alpha) = X / v
          rw [hlen, hn]
        · show q2.pos.x = q1.pos.x + X * cos θ
          rw [d2]; simp
        · show q2.pos.y = q1.pos.y + X * sin θ
          rw [d3]; simp

/-- **C62 is violated** by every jump that moves along the first axis: everywhere inside its range the path is strictly below its parabola (the interpolation overwrites the height: it goes straight). -/
theorem C62_violated (env : SteerEnv R) (hg : 0 < env.g) (hV0 : 0 ≤ env.V0max) (hVi : 0 ≤ env.Vimpmax) (q1 q2 : Conf R) (hx : q1.pos.x ≠ q2.pos.x) (tp : Timed R)
    (h : steer env q1 q2 = some tp) (t : ℝ) (h0 : 0 < t) (h1 : t < tp.para.len) :
    (tp.para.eval joints t).pos.z < tp.para.co.height (along tp.para.co.theta (tp.para.eval joints t).pos) := by
  have hne : ¬ (q1.pos.x = q2.pos.x ∧ q1.pos.y = q2.pos.y) := fun e => hx e.1
  obtain ⟨v, hv, hl, -, hlen, ha, -, hvel, hn, ex, ey, e0, -⟩ := steer_para env hg q1 q2 hne tp h
  obtain ⟨-, hend, -, -, -, -, htr, -, -, -, -, -, hi, hf, -⟩ := C117_jump env hg hV0 hVi q1 q2 hne tp h
  rw [← hi, ← hf] at hx
  rw [eval_pos joints _ hx t hl h1.le]
  have hal : along tp.para.co.theta (lerp (t / tp.para.len) tp.para.init.pos tp.para.fin.pos) = along tp.para.co.theta q1.pos + t := by
    unfold along lerp
    simp only [Vec3.add_x, Vec3.add_y, Vec3.smul_x, Vec3.smul_y, hi, hf, ex, ey]
    field_simp
    linear_combination t * tp.para.len * sin_sq_add_cos_sq tp.para.co.theta
  have hk : ∀ s, along tp.para.co.theta (fall env.g q1.pos tp.init.vel s) = along tp.para.co.theta q1.pos + s * v := by
    intro s
    unfold along fall
    simp only [hvel, Vec3.add_x, Vec3.add_y, Vec3.smul_x, Vec3.smul_y]
    linear_combination s * v * sin_sq_add_cos_sq tp.para.co.theta
  have ht := htr (t / v)
  rw [hk, div_mul_cancel₀ _ hv.ne'] at ht
  rw [hal, ht, hi, hf]
  have hz2 : q2.pos.z = (fall env.g q1.pos tp.init.vel tp.len).z := by rw [hend]
  rw [hlen] at hz2
  simp only [lerp, fall, Vec3.add_z, Vec3.smul_z] at hz2 ⊢
  rw [hz2]
  have key : q1.pos.z + t / v * tp.init.vel.z + 1 / 2 * (t / v) ^ 2 * -env.g -
      (t / tp.para.len * (q1.pos.z + tp.para.len / v * tp.init.vel.z + 1 / 2 * (tp.para.len / v) ^ 2 * -env.g) + (1 - t / tp.para.len) * q1.pos.z) =
      1 / 2 * env.g * (t / v) * ((tp.para.len - t) / v) := by
    field_simp
    ring
  have : 0 < 1 / 2 * env.g * (t / v) * ((tp.para.len - t) / v) := by
    have : 0 < tp.para.len - t := by linarith
    positivity
  linarith

/-- **C62 is violated** for paths that do not move along the first axis: they never leave the initial configuration. -/
theorem C62_axis_violated (p : Path R) (hx : p.init.pos.x = p.fin.pos.x) (t : ℝ) : p.eval joints t = p.init := by
  unfold Path.eval
  rw [if_pos (Or.inr hx)]

/-- C62: an extracted part and the reversed path go through the positions of the path at the corresponding parameters. -/
theorem C62_extract (p : Path R) (hx : p.init.pos.x ≠ p.fin.pos.x) (h2 : p.fin.pos.x = p.init.pos.x + p.len * cos p.co.theta) (h3 : p.fin.pos.y = p.init.pos.y + p.len * sin p.co.theta)
    (hl : 0 < p.len) (a b : ℝ) (hab : a < b) (hb : b ≤ p.len) :
    (p.extract joints a b).len = b - a ∧
    (∀ s, s ≤ b - a → ((p.extract joints a b).eval joints s).pos = (p.eval joints (a + s)).pos) ∧
    (p.reverse joints).len = p.len ∧ ∀ s, 0 ≤ s → s ≤ p.len → ((p.reverse joints).eval joints s).pos = (p.eval joints (p.len - s)).pos := by
  have hpa := eval_pos joints p hx a hl (hab.le.trans hb)
  have hpb := eval_pos joints p hx b hl hb
  have hlen : (p.extract joints a b).len = b - a := by
    show computeLength p.co.theta (p.eval joints a) (p.eval joints b) = b - a
    unfold computeLength
    rw [hpa, hpb]
    simp only [lerp, Vec3.add_x, Vec3.add_y, Vec3.smul_x, Vec3.smul_y, h2, h3]
    field_simp
    linear_combination (b - a) * p.len * sin_sq_add_cos_sq p.co.theta
  have hba : 0 < b - a := by linarith
  refine ⟨hlen, ?_, rfl, ?_⟩
  · intro s hs
    have hx' : (p.extract joints a b).init.pos.x ≠ (p.extract joints a b).fin.pos.x := by
      show (p.eval joints a).pos.x ≠ (p.eval joints b).pos.x
      rw [hpa, hpb]
      simp only [lerp, Vec3.add_x, Vec3.smul_x]
      intro e
      have e' : (b - a) / p.len * (p.fin.pos.x - p.init.pos.x) = 0 := by
        rw [sub_div]; linarith
      rcases mul_eq_zero.1 e' with h | h
      · exact absurd h (by positivity)
      · exact hx (by linarith)
    rw [eval_pos joints _ hx' s (by rw [hlen]; exact hba) (by rw [hlen]; exact hs), eval_pos joints p hx (a + s) hl (by linarith), hlen]
    show lerp (s / (b - a)) (p.eval joints a).pos (p.eval joints b).pos = _
    rw [hpa, hpb]
    ext <;> simp only [lerp, Vec3.add_x, Vec3.add_y, Vec3.add_z, Vec3.smul_x, Vec3.smul_y, Vec3.smul_z] <;> field_simp <;> ring
  · intro s h0 hs
    have e := C62_ends joints p hx hl.ne'
    have hr : p.reverse joints = ⟨p.fin, p.init, p.len, p.co, p.Vimp, p.V0⟩ := by unfold Path.reverse; rw [e.1, e.2]
    rw [hr, eval_pos joints (⟨p.fin, p.init, p.len, p.co, p.Vimp, p.V0⟩ : Path R) (fun e => hx e.symm) s hl hs, eval_pos joints p hx _ hl (by linarith)]
    ext <;> simp only [lerp, Vec3.add_x, Vec3.add_y, Vec3.add_z, Vec3.smul_x, Vec3.smul_y, Vec3.smul_z] <;> field_simp <;> ring

/-! ### C118: the timed jump -/

/-- C118 (part): a returned jump that moves along the first axis starts and ends (at its length) at its end configurations; in between, with the usual gravity, its horizontal position, its
velocity and its acceleration are those of the free fall. -/
theorem C118_partial (env : SteerEnv R) (hg : env.g = 981 / 100) (hV0 : 0 ≤ env.V0max) (hVi : 0 ≤ env.Vimpmax) (q1 q2 : Conf R) (hx : q1.pos.x ≠ q2.pos.x) (tp : Timed R)
    (h : steer env q1 q2 = some tp) :
    tp.eval joints 0 = tp.init ∧ tp.eval joints tp.len = tp.fin ∧
    ∀ t, 0 < t → t < tp.len → (tp.eval joints t).pos.x = (fall env.g q1.pos tp.init.vel t).x ∧ (tp.eval joints t).pos.y = (fall env.g q1.pos tp.init.vel t).y ∧
      (tp.eval joints t).vel = fallVel env.g tp.init.vel t ∧ (tp.eval joints t).acc = ⟨0, 0, -env.g⟩ := by
  have hg0 : 0 < env.g := by rw [hg]; norm_num
  have hne : ¬ (q1.pos.x = q2.pos.x ∧ q1.pos.y = q2.pos.y) := fun e => hx e.1
  obtain ⟨v, hv, hl, -, hlen, ha, hxd, hvel, hn, ex, ey, e0, hc⟩ := steer_para env hg0 q1 q2 hne tp h
  obtain ⟨hlp, hend, -, -, -, -, htr, p1, p2, -, -, -, hi, hf, -⟩ := C117_jump env hg0 hV0 hVi q1 q2 hne tp h
  have hx' : tp.init.pos.x ≠ tp.fin.pos.x := by rw [p1, p2]; exact hx
  refine ⟨?_, ?_, ?_⟩
  · unfold Timed.eval; rw [if_pos (Or.inl rfl)]
  · unfold Timed.eval
    rw [if_neg (by rintro (h | h); exacts [hlp.ne' h, hx' h]), if_pos (le_refl _)]
  · intro t h0 h1
    have hu : t * norm tp.para.V0 * cos tp.para.co.alpha = t * v := by rw [mul_assoc, hn]
    have he : tp.eval joints t = { tp.para.eval joints (t * v) with vel := tp.para.velocity joints (t * v), acc := ⟨0, 0, -(981 / 100)⟩ } := by
      unfold Timed.eval
      rw [if_neg (by rintro (h | h); exacts [h0.ne' h, hx' h]), if_neg (not_le.2 h1), hu]
    have htv : t * v < tp.para.len := by rw [hlen, lt_div_iff₀ hv] at h1; exact h1
    have hxp : tp.para.init.pos.x ≠ tp.para.fin.pos.x := by rw [hi, hf]; exact hx
    have hpos := eval_pos joints tp.para hxp (t * v) hl htv.le
    have hX : (tp.para.eval joints (t * v)).pos.x = q1.pos.x + t * v * cos tp.para.co.theta := by
      rw [hpos]
      simp only [lerp, Vec3.add_x, Vec3.smul_x, hi, hf, ex]
      field_simp
      ring
    have hY : (tp.para.eval joints (t * v)).pos.y = q1.pos.y + t * v * sin tp.para.co.theta := by
      rw [hpos]
      simp only [lerp, Vec3.add_y, Vec3.smul_y, hi, hf, ey]
      field_simp
      ring
    rw [he]
    refine ⟨?_, ?_, ?_, by rw [hg]⟩
    · rw [hX]; simp only [fall, hvel, Vec3.add_x, Vec3.smul_x]; ring
    · rw [hY]; simp only [fall, hvel, Vec3.add_y, Vec3.smul_y]; ring
    · show tp.para.velocity joints (t * v) = _
      unfold Path.velocity fallVel
      rw [hvel, hxd, e0]
      ext
      · simp
      · simp
      · simp only [Vec3.add_z, Vec3.smul_z, hg]
        have : along tp.para.co.theta (tp.para.eval joints (t * v)).pos - along tp.para.co.theta q1.pos = t * v := by
          unfold along
          rw [hX, hY]
          linear_combination t * v * sin_sq_add_cos_sq tp.para.co.theta
        rw [this]
        field_simp
        ring

/-- **C118 is violated**: the time range of the jump is its horizontal distance, not its length (duration): both agree only at a horizontal speed of 1. -/
theorem C118_range_violated (env : SteerEnv R) (hg : 0 < env.g) (q1 q2 : Conf R) (hne : ¬ (q1.pos.x = q2.pos.x ∧ q1.pos.y = q2.pos.y)) (tp : Timed R)
    (h : steer env q1 q2 = some tp) : tp.range = tp.len ↔ tp.init.vel.x ^ 2 + tp.init.vel.y ^ 2 = 1 := by
  obtain ⟨v, hv, hl, hr, hlen, ha, hxd, hvel, -⟩ := steer_para env hg q1 q2 hne tp h
  rw [hr, hlen, hvel]
  simp only
  have e : (v * cos tp.para.co.theta) ^ 2 + (v * sin tp.para.co.theta) ^ 2 = v ^ 2 := by
    linear_combination v ^ 2 * sin_sq_add_cos_sq tp.para.co.theta
  rw [e, eq_div_iff hv.ne']
  constructor
  · intro k
    have : v = 1 := by
      have : tp.para.len * v = tp.para.len * 1 := by linarith
      exact mul_left_cancel₀ hl.ne' this
    rw [this]; norm_num
  · intro k
    have : v = 1 := by nlinarith
    rw [this, mul_one]

/-- **C118 is violated**: inside its range the jump is strictly below the free fall. -/
theorem C118_height_violated (env : SteerEnv R) (hg : 0 < env.g) (hV0 : 0 ≤ env.V0max) (hVi : 0 ≤ env.Vimpmax) (q1 q2 : Conf R) (hx : q1.pos.x ≠ q2.pos.x) (tp : Timed R)
    (h : steer env q1 q2 = some tp) (t : ℝ) (h0 : 0 < t) (h1 : t < tp.len) : (tp.eval joints t).pos.z < (fall env.g q1.pos tp.init.vel t).z := by
  have hne : ¬ (q1.pos.x = q2.pos.x ∧ q1.pos.y = q2.pos.y) := fun e => hx e.1
  obtain ⟨v, hv, hl, -, hlen, ha, hxd, hvel, hn, ex, ey, e0, hc⟩ := steer_para env hg q1 q2 hne tp h
  obtain ⟨hlp, hend, -, -, -, -, htr, p1, p2, -, -, -, hi, hf, -⟩ := C117_jump env hg hV0 hVi q1 q2 hne tp h
  have hx' : tp.init.pos.x ≠ tp.fin.pos.x := by rw [p1, p2]; exact hx
  have hu : t * norm tp.para.V0 * cos tp.para.co.alpha = t * v := by rw [mul_assoc, hn]
  have he : (tp.eval joints t).pos = (tp.para.eval joints (t * v)).pos := by
    unfold Timed.eval
    rw [if_neg (by rintro (h | h); exacts [h0.ne' h, hx' h]), if_neg (not_le.2 h1), hu]
  have htv : t * v < tp.para.len := by rw [hlen, lt_div_iff₀ hv] at h1; exact h1
  have := C62_violated joints env hg hV0 hVi q1 q2 hx tp h (t * v) (by positivity) htv
  rw [he]
  refine lt_of_lt_of_eq this ?_
  have hxp : tp.para.init.pos.x ≠ tp.para.fin.pos.x := by rw [hi, hf]; exact hx
  rw [eval_pos joints tp.para hxp (t * v) hl htv.le, ← htr t]
  congr 1
  unfold along lerp fall
  simp only [hvel, Vec3.add_x, Vec3.add_y, Vec3.smul_x, Vec3.smul_y, hi, hf, ex, ey]
  field_simp
  ring

/-- **C118 is violated**: the length of a reversed jump is negative, so that it jumps to its end at every positive time. -/
theorem C118_reverse_violated (env : SteerEnv R) (hg : 0 < env.g) (hV0 : 0 ≤ env.V0max) (hVi : 0 ≤ env.Vimpmax) (q1 q2 : Conf R) (hx : q1.pos.x ≠ q2.pos.x) (tp : Timed R)
    (h : steer env q1 q2 = some tp) : (tp.reverse joints).len < 0 ∧ ∀ t, 0 < t → (tp.reverse joints).eval joints t = tp.init := by
  have hne : ¬ (q1.pos.x = q2.pos.x ∧ q1.pos.y = q2.pos.y) := fun e => hx e.1
  obtain ⟨v, hv, hl, -, hlen, ha, hxd, hvel, hn, ex, ey, e0, hc⟩ := steer_para env hg q1 q2 hne tp h
  obtain ⟨hlp, hend, hfv, -, -, -, htr, p1, p2, -, -, -, hi, hf, hv0, hv1, -⟩ := C117_jump env hg hV0 hVi q1 q2 hne tp h
  have hxp : tp.para.init.pos.x ≠ tp.para.fin.pos.x := by rw [hi, hf]; exact hx
  have hneg : (tp.reverse joints).len < 0 := by
    show computeLength tp.para.co.theta (tp.para.eval joints tp.para.len) (tp.para.eval joints 0) / (norm tp.para.Vimp * cos tp.para.co.alpha) < 0
    rw [(C62_ends joints tp.para hxp hl.ne').1, (C62_ends joints tp.para hxp hl.ne').2, hi, hf]
    have e : computeLength tp.para.co.theta q2 q1 = -tp.para.len := by
      unfold computeLength
      rw [ex, ey]
      linear_combination (-tp.para.len) * sin_sq_add_cos_sq tp.para.co.theta
    rw [e]
    apply div_neg_of_neg_of_pos (by linarith)
    refine mul_pos ?_ hc
    unfold norm
    rw [sqrt_pos, hv1, ← hfv, hvel]
    unfold fallVel
    rw [Vec3.normSq, Vec3.dot]
    simp only [Vec3.add_x, Vec3.add_y, Vec3.smul_x, Vec3.smul_y, mul_zero, add_zero]
    have e2 : v * cos tp.para.co.theta * (v * cos tp.para.co.theta) + v * sin tp.para.co.theta * (v * sin tp.para.co.theta) = v ^ 2 := by
      linear_combination v ^ 2 * sin_sq_add_cos_sq tp.para.co.theta
    rw [e2]
    exact add_pos_of_pos_of_nonneg (by positivity) (mul_self_nonneg _)
  refine ⟨hneg, fun t ht => ?_⟩
  unfold Timed.eval
  have hx' : (tp.reverse joints).init.pos.x ≠ (tp.reverse joints).fin.pos.x := by
    show tp.fin.pos.x ≠ tp.init.pos.x
    rw [p1, p2]; exact fun e => hx e.symm
  rw [if_neg (by rintro (h | h); exacts [ht.ne' h, hx' h]), if_pos (by linarith)]
  rfl

end Parabola
end Rbprm
