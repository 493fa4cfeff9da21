import Verif.Model.RandomJump
import Verif.Props.Parabola
import Mathlib.Tactic.NormNum
set_option linter.unusedSectionVars false
/-! # C193: random jumps -/
namespace Rbprm
namespace Parabola
open Real
variable {R : Type _} {joints : R → R → ℝ → R}

/-! ## Specification -/

/-- the velocity of norm `v`, of elevation `alpha`, in the horizontal direction from `p1` to `p2` -/
noncomputable def launch (v alpha : ℝ) (p1 p2 : Vec3 ℝ) : Vec3 ℝ :=
  let theta := Complex.arg ⟨p2.x - p1.x, p2.y - p1.y⟩
  ⟨v * cos alpha * cos theta, v * cos alpha * sin theta, v * sin alpha⟩

/-- the origin is on the line of the horizontal plane through the two positions -/
def OriginInLine (p1 p2 : Vec3 ℝ) : Prop := p1.x * p2.y - p1.y * p2.x = 0

theorem norm_launch {v alpha : ℝ} (hv : 0 ≤ v) (p1 p2 : Vec3 ℝ) : norm (launch v alpha p1 p2) = v := by
  unfold norm launch
  rw [normSq_mk]
  generalize Complex.arg ⟨p2.x - p1.x, p2.y - p1.y⟩ = theta
  have : v * cos alpha * cos theta * (v * cos alpha * cos theta) + v * cos alpha * sin theta * (v * cos alpha * sin theta)
      + v * sin alpha * (v * sin alpha) = v ^ 2 := by
    linear_combination (v * cos alpha) ^ 2 * sin_sq_add_cos_sq theta + v ^ 2 * sin_sq_add_cos_sq alpha
  rw [this, sqrt_sq hv]

/-! ## The numbers of a random jump -/

/-- **C193 (partial), the draw.**  The angle is in the lower half of the interval kept by the steering method, where a
negative lower end is replaced by 0 for good, and the speed is at most the bound. -/
theorem C193_draw (env : SteerEnv R) (hV : 0 ≤ env.V0max) (minus plus r1 r2 : ℝ) (h1 : 0 ≤ r1) (h1' : r1 ≤ 1) (h2 : 0 ≤ r2) (h2' : r2 ≤ 1)
    (m0 mi : Vec3 ℝ) (q1 q2 : Conf R) (hle : max minus 0 ≤ plus) :
    (randomJump env minus plus r1 r2 m0 mi q1 q2).alphaMinus = max minus 0 ∧
    max minus 0 ≤ (randomJump env minus plus r1 r2 m0 mi q1 q2).alpha ∧
    (randomJump env minus plus r1 r2 m0 mi q1 q2).alpha ≤ (max minus 0 + plus) / 2 ∧
    0 ≤ (randomJump env minus plus r1 r2 m0 mi q1 q2).v ∧ (randomJump env minus plus r1 r2 m0 mi q1 q2).v ≤ env.V0max := by
  have hm : (if minus < 0 then 0 else minus) = max minus 0 := by
    split_ifs with h
    · rw [max_eq_right h.le]
    · rw [max_eq_left (not_lt.1 h)]
  unfold randomJump
  simp only [hm]
  refine ⟨trivial, ?_, ?_, mul_nonneg h2 hV, mul_le_of_le_one_left hV h2'⟩
  · have : 0 ≤ r1 * ((plus - max minus 0) / 2) := mul_nonneg h1 (by linarith)
    linarith
  · have : r1 * ((plus - max minus 0) / 2) ≤ (plus - max minus 0) / 2 := mul_le_of_le_one_left (by linarith) h1'
    linarith

/-- **C193 (partial), the jump.**  With a positive speed and an angle below the vertical: the path returned starts in `q1`,
was found valid, leaves with the speed and the angle that are returned in the direction of `q2`, its parabola is the trace of the
free fall with that velocity, it is followed for three seconds, and, when the origin is in line with the two positions, it ends
where that free fall is after three seconds. -/
theorem C193_partial (env : SteerEnv R) (hg : 0 < env.g) (minus plus r1 r2 : ℝ) (m0 mi : Vec3 ℝ) (q1 q2 : Conf R)
    (hne : ¬ (q1.pos.x = q2.pos.x ∧ q1.pos.y = q2.pos.y))
    (hv : 0 < (randomJump env minus plus r1 r2 m0 mi q1 q2).v) (hc : 0 < cos (randomJump env minus plus r1 r2 m0 mi q1 q2).alpha)
    (p : Path R) (h : (randomJump env minus plus r1 r2 m0 mi q1 q2).path = some p) :
    p.init = q1 ∧ env.valid p = true ∧
    p.velocity joints 0 = launch (randomJump env minus plus r1 r2 m0 mi q1 q2).v (randomJump env minus plus r1 r2 m0 mi q1 q2).alpha q1.pos q2.pos ∧
    norm (p.velocity joints 0) = (randomJump env minus plus r1 r2 m0 mi q1 q2).v ∧
    (∀ t, p.co.height (along p.co.theta (fall env.g q1.pos (p.velocity joints 0) t)) = (fall env.g q1.pos (p.velocity joints 0) t).z) ∧
    p.len = 3 * ((randomJump env minus plus r1 r2 m0 mi q1 q2).v * cos (randomJump env minus plus r1 r2 m0 mi q1 q2).alpha) ∧
    p.fin.rest = q2.rest ∧ p.fin.pos.z = (fall env.g q1.pos (p.velocity joints 0) 3).z ∧
    (p.fin.pos = fall env.g q1.pos (p.velocity joints 0) 3 ↔ OriginInLine q1.pos q2.pos) := by
  obtain ⟨alpha, hal⟩ : ∃ a, a = (randomJump env minus plus r1 r2 m0 mi q1 q2).alpha := ⟨_, rfl⟩
  obtain ⟨v, hvd⟩ : ∃ a, a = (randomJump env minus plus r1 r2 m0 mi q1 q2).v := ⟨_, rfl⟩
  rw [← hvd] at hv
  rw [← hal] at hc
  rw [← hvd, ← hal]
  unfold randomJump at h hal hvd
  simp only at h hal hvd
  rw [← hal, ← hvd] at h
  obtain ⟨d1, d2, d3⟩ := arg_dir (q2.pos - q1.pos).x (q2.pos - q1.pos).y
  have hN : 0 < ‖(⟨(q2.pos - q1.pos).x, (q2.pos - q1.pos).y⟩ : ℂ)‖ := by
    apply dir_pos
    rintro ⟨e1, e2⟩
    apply hne
    simp only [Vec3.sub_x, Vec3.sub_y] at e1 e2
    constructor <;> linarith
  have hla : launch v alpha q1.pos q2.pos = ⟨v * cos alpha * cos (Complex.arg ⟨(q2.pos - q1.pos).x, (q2.pos - q1.pos).y⟩),
      v * cos alpha * sin (Complex.arg ⟨(q2.pos - q1.pos).x, (q2.pos - q1.pos).y⟩), v * sin alpha⟩ := rfl
  have hnl : norm (launch v alpha q1.pos q2.pos) = v := norm_launch hv.le _ _
  generalize hθ : Complex.arg ⟨(q2.pos - q1.pos).x, (q2.pos - q1.pos).y⟩ = θ at *
  generalize hNN : ‖(⟨(q2.pos - q1.pos).x, (q2.pos - q1.pos).y⟩ : ℂ)‖ = N at *
  have hcs := sin_sq_add_cos_sq θ
  -- the horizontal displacement
  have hX : ((v * cos alpha * 3 + along θ q1.pos) * cos θ - q1.pos.x) * cos θ + ((v * cos alpha * 3 + along θ q1.pos) * sin θ - q1.pos.y) * sin θ
      = 3 * (v * cos alpha) := by
    unfold along
    linear_combination (v * cos alpha * 3 + (cos θ * q1.pos.x + sin θ * q1.pos.y)) * hcs
  have hZ : v * sin alpha * 3 - 1 / 2 * env.g * 3 * 3 + q1.pos.z - q1.pos.z = 3 * (v * sin alpha) - 9 / 2 * env.g := by ring
  simp only [Vec3.sub_x, Vec3.sub_y, Vec3.sub_z, hX, hZ, computeLength] at h
  have htc : tan alpha * cos alpha = sin alpha := tan_mul_cos hc.ne'
  have hD : 3 * (v * cos alpha) * tan alpha - (3 * (v * sin alpha) - 9 / 2 * env.g) = 9 / 2 * env.g := by
    linear_combination 3 * v * htc
  have hXp : 0 < 3 * (v * cos alpha) := by positivity
  obtain ⟨w, hw, hw2, hco, -⟩ := coefficients_spec (theta := θ) (x0 := along θ q1.pos) (z0 := q1.pos.z) hg hXp hc (by rw [hD]; positivity)
  rw [hD] at hw2
  have hwv : w = v * cos alpha := by
    have h3 : w ^ 2 = (v * cos alpha) ^ 2 := by
      have : 9 * env.g * (w ^ 2 - (v * cos alpha) ^ 2) = 0 := by linear_combination hw2
      have := (mul_eq_zero.1 this).resolve_left (by positivity)
      linarith
    exact (pow_left_inj₀ hw.le (by positivity) two_ne_zero).1 h3
  subst hwv
  rw [hco] at h
  split_ifs at h with hval
  push Not at hval
  simp only [Option.some.injEq] at h
  have hvel : p.velocity joints 0 = launch v alpha q1.pos q2.pos := by
    rw [hla, ← h]
    unfold Path.velocity Path.eval
    simp only [true_or, if_true, sub_self, mul_zero, zero_mul, zero_add]
    ext <;> simp only []
    linear_combination v * htc
  have hfz : ∀ t, (fall env.g q1.pos (launch v alpha q1.pos q2.pos) t).z = q1.pos.z + t * (v * sin alpha) - 1 / 2 * env.g * t ^ 2 := by
    intro t
    rw [hla]
    simp only [fall, Vec3.add_z, Vec3.smul_z]
    ring
  have hfx : ∀ t, (fall env.g q1.pos (launch v alpha q1.pos q2.pos) t).x = q1.pos.x + t * (v * cos alpha * cos θ) := by
    intro t; rw [hla]; simp only [fall, Vec3.add_x, Vec3.smul_x]; ring
  have hfy : ∀ t, (fall env.g q1.pos (launch v alpha q1.pos q2.pos) t).y = q1.pos.y + t * (v * cos alpha * sin θ) := by
    intro t; rw [hla]; simp only [fall, Vec3.add_y, Vec3.smul_y]; ring
  rw [hvel]
  have hfin : p.fin.pos = ⟨(v * cos alpha * 3 + along θ q1.pos) * cos θ, (v * cos alpha * 3 + along θ q1.pos) * sin θ,
      v * sin alpha * 3 - 1 / 2 * env.g * 3 * 3 + q1.pos.z⟩ := by rw [← h]
  refine ⟨by rw [← h], ?_, rfl, hnl, ?_, by rw [← h], by rw [← h], ?_, ?_⟩
  · rw [← h]
    cases hb : env.valid _ with
    | true => rfl
    | false => exact absurd hb hval.1
  · intro t
    have hal' : along p.co.theta (fall env.g q1.pos (launch v alpha q1.pos q2.pos) t) = along θ q1.pos + t * (v * cos alpha) := by
      rw [← h]
      simp only [along, hfx, hfy]
      linear_combination t * (v * cos alpha) * hcs
    rw [hal', hfz, ← h]
    simp only []
    rw [height_spec hw]
    rw [mul_div_assoc, div_self hw.ne']
    linear_combination t * v * htc
  · rw [hfin, hfz]; ring
  · rw [hfin]
    have hx : q2.pos.x = q1.pos.x + N * cos θ := by rw [d2]; simp
    have hy : q2.pos.y = q1.pos.y + N * sin θ := by rw [d3]; simp
    have hor : OriginInLine q1.pos q2.pos ↔ q1.pos.x * sin θ - q1.pos.y * cos θ = 0 := by
      unfold OriginInLine
      rw [hx, hy]
      constructor
      · intro hh
        have : N * (q1.pos.x * sin θ - q1.pos.y * cos θ) = 0 := by linear_combination hh
        exact (mul_eq_zero.1 this).resolve_left hN.ne'
      · intro hh; linear_combination N * hh
    rw [hor]
    constructor
    · intro hh
      have e1 := congrArg Vec3.x hh
      have e2 := congrArg Vec3.y hh
      rw [hfx] at e1
      rw [hfy] at e2
      simp only [along] at e1 e2
      linear_combination (-sin θ) * e1 + cos θ * e2
    · intro hh
      ext
      · rw [hfx]; simp only [along]; linear_combination (-sin θ) * hh + q1.pos.x * hcs
      · rw [hfy]; simp only [along]; linear_combination cos θ * hh + q1.pos.y * hcs
      · rw [hfz]; ring

/-! ## Violations -/

/-- **C193 is violated** by the members that hold the interval of the angle: nothing sets them, and every angle can result. -/
theorem C193_angle_violated (a : ℝ) (ha : 0 ≤ a) : ∃ minus plus : ℝ, ∀ (env : SteerEnv R) (r1 r2 : ℝ) (m0 mi : Vec3 ℝ) (q1 q2 : Conf R),
    (randomJump env minus plus r1 r2 m0 mi q1 q2).alpha = a := by
  refine ⟨a, a, fun env r1 r2 m0 mi q1 q2 => ?_⟩
  unfold randomJump
  simp [not_lt.2 ha]

/-- **C193 is violated** by the velocities stored in the path: they are what the memory contained. -/
theorem C193_velocity_violated (env : SteerEnv R) (minus plus r1 r2 : ℝ) (m0 mi : Vec3 ℝ) (q1 q2 : Conf R) (p : Path R)
    (h : (randomJump env minus plus r1 r2 m0 mi q1 q2).path = some p) : p.V0 = m0 ∧ p.Vimp = mi := by
  unfold randomJump at h
  simp only at h
  split_ifs at h <;>
  · simp only [Option.some.injEq] at h
    rw [← h]
    exact ⟨rfl, rfl⟩

/-- a horizontal world: gravity 981 / 100, speeds up to 10, height up to `zmax`, nothing collides -/
noncomputable def flat (zmax : ℝ) : SteerEnv Unit := ⟨981 / 100, 10, 10, zmax, fun _ => true⟩

/-- the configuration at a position -/
def at' (p : Vec3 ℝ) : Conf Unit := ⟨p, (), 0, 0⟩

/-- the jumps of the horizontal world at half a right angle and full speed -/
theorem flat_jump (zmax d y : ℝ) (hd : 0 < d) (hm : d < 5) : ∃ p,
    (randomJump (flat zmax) (π / 4) (π / 4) 0 1 0 0 (at' ⟨0, y, 0⟩) (at' ⟨d, y, 0⟩)).path = some p ∧
    (randomJump (flat zmax) (π / 4) (π / 4) 0 1 0 0 (at' ⟨0, y, 0⟩) (at' ⟨d, y, 0⟩)).v = 10 ∧
    (randomJump (flat zmax) (π / 4) (π / 4) 0 1 0 0 (at' ⟨0, y, 0⟩) (at' ⟨d, y, 0⟩)).alpha = π / 4 := by
  have hp := pi_pos
  have ha : ¬ (π / 4 < 0) := by linarith
  have harg : Complex.arg ⟨d, 0⟩ = 0 := by
    have : (⟨d, 0⟩ : ℂ) = ((d : ℝ) : ℂ) := rfl
    rw [this]; exact Complex.arg_ofReal_of_nonneg hd.le
  unfold randomJump
  simp only [at', Vec3.sub_x, Vec3.sub_y, sub_zero, sub_self, harg, ha, if_false, zero_mul, zero_div, zero_add, flat, one_mul]
  rw [if_neg]
  · exact ⟨_, rfl, trivial, trivial⟩
  · rintro (h | h)
    · simp at h
    · unfold maxHeightRespected coefficients at h
      simp only [Bool.not_eq_false', decide_eq_true_eq, cos_zero, sin_zero, mul_one, mul_zero, add_zero, zero_mul, along, one_mul,
        Vec3.sub_x, Vec3.sub_y, Vec3.sub_z, sub_zero, tan_pi_div_four] at h
      have h2 := h.2.1
      rw [cos_pi_div_four, sin_pi_div_four] at h2
      have hs : sqrt 2 ^ 2 = 2 := sq_sqrt (by norm_num)
      have e1 : 2 * (10 * (sqrt 2 / 2) * 3 - (10 * (sqrt 2 / 2) * 3 - 1 / 2 * (981 / 100) * 3 * 3)) = 9 * (981 / 100) := by ring
      have e2 : 981 / 100 * (10 * (sqrt 2 / 2) * 3) * (10 * (sqrt 2 / 2) * 3) = 9 * (981 / 100) * 50 := by linear_combination 981 / 100 * 225 * hs
      rw [e1, e2, mul_div_cancel_left₀ _ (by norm_num : (9 * (981 / 100) : ℝ) ≠ 0), mul_self_sqrt (by norm_num)] at h2
      norm_num at h2
      linarith

/-- **C193 is violated** by the height: it is checked up to the target only, which the jump overshoots.  Aimed at a point 1 away,
a jump is returned that goes up to more than 2 where at most 1 is allowed. -/
theorem C193_height_violated : ∃ p, (randomJump (flat 1) (π / 4) (π / 4) 0 1 0 0 (at' 0) (at' ⟨1, 0, 0⟩)).path = some p ∧
    2 < (fall (flat 1).g p.init.pos (p.velocity (fun _ _ _ => ()) 0) (1/2)).z ∧ p.init.pos.z = 0 ∧ p.fin.pos.z < 0 := by
  obtain ⟨p, h1, h2, h3⟩ := flat_jump 1 1 0 one_pos (by norm_num)
  refine ⟨p, h1, ?_⟩
  obtain ⟨k1, -, k3, -, -, -, -, k8, -⟩ := C193_partial (joints := fun _ _ _ => ()) (flat 1) (by norm_num [flat]) (π / 4) (π / 4) 0 1 0 0 (at' ⟨0, 0, 0⟩) (at' ⟨1, 0, 0⟩)
    (by simp [at']) (by rw [h2]; norm_num) (by rw [h3, cos_pi_div_four]; positivity) p h1
  rw [h2, h3] at k3
  have hs : sqrt 2 ^ 2 = 2 := sq_sqrt (by norm_num)
  have hsp : 0 < sqrt 2 := by positivity
  have b1 : sqrt 2 < 3 / 2 := by nlinarith
  have b2 : 14 / 10 < sqrt 2 := by nlinarith
  rw [k8, k3, k1]
  simp only [fall, launch, at', flat, Vec3.add_z, Vec3.smul_z, sin_pi_div_four]
  refine ⟨?_, trivial, ?_⟩ <;> linarith

/-- **C193 is violated** by the end of the path: beside the line through the origin, the jump ends beside its own parabola. -/
theorem C193_end_violated : ∃ p, (randomJump (flat 9) (π / 4) (π / 4) 0 1 0 0 (at' ⟨0, 1, 0⟩) (at' ⟨1, 1, 0⟩)).path = some p ∧
    p.init.pos.y = 1 ∧ p.fin.pos.y = 0 ∧ (p.velocity (fun _ _ _ => ()) 0).y = 0 := by
  obtain ⟨p, h1, h2, h3⟩ := flat_jump 9 1 1 one_pos (by norm_num)
  refine ⟨p, h1, ?_⟩
  have harg : Complex.arg ⟨1 - 0, 1 - 1⟩ = 0 := by
    have : (⟨1 - 0, 1 - 1⟩ : ℂ) = ((1 : ℝ) : ℂ) := by norm_num; rfl
    rw [this]; exact Complex.arg_ofReal_of_nonneg zero_le_one
  obtain ⟨k1, -, k3, -⟩ := C193_partial (joints := fun _ _ _ => ()) (flat 9) (by norm_num [flat]) (π / 4) (π / 4) 0 1 0 0 (at' ⟨0, 1, 0⟩) (at' ⟨1, 1, 0⟩)
    (by simp [at']) (by rw [h2]; norm_num) (by rw [h3, cos_pi_div_four]; positivity) p h1
  refine ⟨by rw [k1]; rfl, ?_, ?_⟩
  · unfold randomJump at h1
    simp only [at', Vec3.sub_x, Vec3.sub_y, harg] at h1
    split_ifs at h1 <;>
    · simp only [Option.some.injEq] at h1
      rw [← h1]
      simp
  · rw [k3]
    simp only [launch, at', harg, sin_zero, mul_zero]

/-- the hypotheses of `C193_partial` and `C193_draw` are met, with the origin in line -/
example : ∃ p, (randomJump (flat 9) (π / 4) (π / 4) 0 1 0 0 (at' ⟨0, 0, 0⟩) (at' ⟨1, 0, 0⟩)).path = some p ∧
    p.fin.pos = fall (flat 9).g 0 (p.velocity (fun _ _ _ => ()) 0) 3 := by
  obtain ⟨p, h1, h2, h3⟩ := flat_jump 9 1 0 one_pos (by norm_num)
  refine ⟨p, h1, ?_⟩
  exact (C193_partial (joints := fun _ _ _ => ()) (flat 9) (by norm_num [flat]) (π / 4) (π / 4) 0 1 0 0 (at' ⟨0, 0, 0⟩) (at' ⟨1, 0, 0⟩)
    (by simp [at']) (by rw [h2]; norm_num) (by rw [h3, cos_pi_div_four]; positivity) p h1).2.2.2.2.2.2.2.2.2 (by simp [OriginInLine, at'])

end Parabola
end Rbprm
