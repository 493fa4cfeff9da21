import Verif.Model.JumpCone
import Mathlib.Tactic.Linarith
import Mathlib.Tactic.Ring
import Mathlib.Tactic.FieldSimp
import Mathlib.Tactic.NormNum
set_option linter.unusedSectionVars false
/-! # C192: the friction cone in the vertical plane of a jump -/
namespace Rbprm
namespace JumpCone
open Real

/-! ## Specification -/

/-- a force `p` is in the friction cone of the normal `n` (of length 1): it pushes, and its tangential part is at most `mu` times its normal part -/
def InCone (mu : ℝ) (n p : Vec3 ℝ) : Prop :=
  0 ≤ n.dot p ∧ (p - Vec3.smul (n.dot p) n).normSq ≤ (mu * n.dot p) ^ 2

/-- `p` is in the vertical plane of heading `theta` -/
def InPlane (theta : ℝ) (p : Vec3 ℝ) : Prop := ∃ s z, p = ⟨s * cos theta, s * sin theta, z⟩

/-- the forces of the plane that are in the cone are those between two directions, and the angle between them is `2 * delta` -/
def Section (mu : ℝ) (n : Vec3 ℝ) (theta delta : ℝ) : Prop :=
  0 ≤ 2 * delta ∧ 2 * delta ≤ π ∧ ∃ r1 r2 : Vec3 ℝ, r1.normSq = 1 ∧ r2.normSq = 1 ∧ r1.dot r2 = cos (2 * delta) ∧
    ∀ p, (InPlane theta p ∧ InCone mu n p) ↔ ∃ a b : ℝ, 0 ≤ a ∧ 0 ≤ b ∧ p = Vec3.smul a r1 + Vec3.smul b r2

/-! ## The section, from two lines on the boundary -/

theorem inCone_iff {mu : ℝ} {n : Vec3 ℝ} (hn : n.normSq = 1) (theta s z : ℝ) :
    InCone mu n ⟨s * cos theta, s * sin theta, z⟩ ↔ 0 ≤ s * (n.x * cos theta + n.y * sin theta) + z * n.z ∧
      s ^ 2 + z ^ 2 ≤ (1 + mu * mu) * (s * (n.x * cos theta + n.y * sin theta) + z * n.z) ^ 2 := by
  have hcs := cos_sq_add_sin_sq theta
  have e : n.dot ⟨s * cos theta, s * sin theta, z⟩ = s * (n.x * cos theta + n.y * sin theta) + z * n.z := by
    simp only [Vec3.dot]; ring
  unfold InCone
  rw [e]
  set d := s * (n.x * cos theta + n.y * sin theta) + z * n.z with hd
  have e2 : ((⟨s * cos theta, s * sin theta, z⟩ : Vec3 ℝ) - Vec3.smul d n).normSq = s ^ 2 + z ^ 2 - d ^ 2 := by
    have h1 : ((⟨s * cos theta, s * sin theta, z⟩ : Vec3 ℝ) - Vec3.smul d n).normSq =
        s ^ 2 * (cos theta ^ 2 + sin theta ^ 2) + z ^ 2 - 2 * d * (s * (n.x * cos theta + n.y * sin theta) + z * n.z) + d ^ 2 * n.normSq := by
      simp only [Vec3.normSq, Vec3.dot, Vec3.sub_x, Vec3.sub_y, Vec3.sub_z, Vec3.smul_x, Vec3.smul_y, Vec3.smul_z]; ring
    rw [h1, ← hd, hcs, hn]; ring
  rw [e2]
  constructor
  · rintro ⟨h1, h2⟩; exact ⟨h1, by nlinarith⟩
  · rintro ⟨h1, h2⟩; exact ⟨h1, by nlinarith⟩

theorem both_nonneg {al be : ℝ} (hsum : 0 ≤ al + be) (hab : 0 ≤ al * be) : 0 ≤ al ∧ 0 ≤ be := by
  rcases mul_nonneg_iff.1 hab with h | h
  · exact h
  · exact ⟨by linarith [h.1, h.2], by linarith [h.1, h.2]⟩

/-- two unit rays of the plane on the boundary of the cone, not parallel: the section, and its aperture -/
theorem section_core {mu : ℝ} {n : Vec3 ℝ} (hn : n.normSq = 1) (hmu : 0 < mu) {theta a1 b1 a2 b2 c q : ℝ}
    (hc : c = n.x * cos theta + n.y * sin theta)
    (u1 : a1 ^ 2 + b1 ^ 2 = 1) (u2 : a2 ^ 2 + b2 ^ 2 = 1) (p1 : 0 < a1 * c + b1 * n.z) (p2 : 0 < a2 * c + b2 * n.z)
    (m1 : (1 + mu * mu) * (a1 * c + b1 * n.z) ^ 2 = 1) (m2 : (1 + mu * mu) * (a2 * c + b2 * n.z) ^ 2 = 1)
    (hdet : a1 * b2 - a2 * b1 ≠ 0) (hq' : q = a1 * a2 + b1 * b2) :
    Section mu n theta (1 / 2 * arccos q) ∧ 0 < 1 / 2 * arccos q ∧ 1 / 2 * arccos q ≤ arctan mu := by
  have hcs := cos_sq_add_sin_sq theta
  have hm : (0 : ℝ) < 1 + mu * mu := by positivity
  have heq : a1 * c + b1 * n.z = a2 * c + b2 * n.z := by
    have : (a1 * c + b1 * n.z) ^ 2 = (a2 * c + b2 * n.z) ^ 2 := mul_left_cancel₀ hm.ne' (m1.trans m2.symm)
    exact (pow_left_inj₀ p1.le p2.le two_ne_zero).1 this
  have hlag : (a1 * a2 + b1 * b2) ^ 2 + (a1 * b2 - a2 * b1) ^ 2 = 1 := by
    have : (a1 * a2 + b1 * b2) ^ 2 + (a1 * b2 - a2 * b1) ^ 2 = (a1 ^ 2 + b1 ^ 2) * (a2 ^ 2 + b2 ^ 2) := by ring
    rw [this, u1, u2, one_mul]
  have hdet2 : 0 < (a1 * b2 - a2 * b1) ^ 2 := by positivity
  have habs : |q| < 1 := by
    rw [← sq_lt_one_iff_abs_lt_one, hq']; linarith
  have hqlt : q < 1 := (abs_lt.1 habs).2
  have hqgt : -1 < q := (abs_lt.1 habs).1
  have hcos : cos (2 * (1 / 2 * arccos q)) = q := by
    rw [show 2 * (1 / 2 * arccos q) = arccos q by ring]
    exact cos_arccos hqgt.le hqlt.le
  refine ⟨⟨by have := arccos_nonneg q; linarith, by have := arccos_le_pi q; linarith,
    ⟨a1 * cos theta, a1 * sin theta, b1⟩, ⟨a2 * cos theta, a2 * sin theta, b2⟩, ?_, ?_, ?_, ?_⟩, ?_, ?_⟩
  · simp only [Vec3.normSq, Vec3.dot]; linear_combination a1 ^ 2 * hcs + u1
  · simp only [Vec3.normSq, Vec3.dot]; linear_combination a2 ^ 2 * hcs + u2
  · rw [hcos, hq']; simp only [Vec3.dot]; linear_combination a1 * a2 * hcs
  · intro p
    constructor
    · rintro ⟨⟨s, z, rfl⟩, hp⟩
      rw [inCone_iff hn, ← hc] at hp
      set D := a1 * b2 - a2 * b1 with hD
      obtain ⟨al, hal⟩ : ∃ al, al = (s * b2 - a2 * z) / D := ⟨_, rfl⟩
      obtain ⟨be, hbe⟩ : ∃ be, be = (a1 * z - s * b1) / D := ⟨_, rfl⟩
      have hs' : s = al * a1 + be * a2 := by rw [hal, hbe]; field_simp; rw [hD]; ring
      have hz' : z = al * b1 + be * b2 := by rw [hal, hbe]; field_simp; rw [hD]; ring
      set w := a1 * c + b1 * n.z with hw
      have hlin : s * c + z * n.z = (al + be) * w := by
        rw [hs', hz']; linear_combination (-be) * heq
      have hsum : 0 ≤ al + be := by
        by_contra h
        have := mul_neg_of_neg_of_pos (not_le.1 h) p1
        rw [hlin] at hp; linarith [hp.1]
      have hprod : 0 ≤ al * be * (1 - q) := by
        have h3 := hp.2
        rw [hlin, mul_pow] at h3
        have h4 : (1 + mu * mu) * ((al + be) ^ 2 * w ^ 2) = (al + be) ^ 2 := by linear_combination (al + be) ^ 2 * m1
        rw [h4] at h3
        have h5 : s ^ 2 + z ^ 2 = al ^ 2 + be ^ 2 + 2 * al * be * q := by
          rw [hs', hz', hq']; linear_combination al ^ 2 * u1 + be ^ 2 * u2
        rw [h5] at h3
        have h6 : (al + be) ^ 2 - (al ^ 2 + be ^ 2 + 2 * al * be * q) = 2 * (al * be * (1 - q)) := by ring
        linarith
      have hab : 0 ≤ al * be := by
        by_contra h
        have := mul_neg_of_neg_of_pos (not_le.1 h) (sub_pos.2 hqlt)
        linarith
      refine ⟨al, be, ?_, ?_, ?_⟩
      · exact (both_nonneg hsum hab).1
      · exact (both_nonneg hsum hab).2
      · rw [hs', hz']; ext <;> simp only [Vec3.add_x, Vec3.add_y, Vec3.add_z, Vec3.smul_x, Vec3.smul_y, Vec3.smul_z] <;> ring
    · rintro ⟨al, be, hal, hbe, rfl⟩
      have e : (Vec3.smul al ⟨a1 * cos theta, a1 * sin theta, b1⟩ + Vec3.smul be ⟨a2 * cos theta, a2 * sin theta, b2⟩ : Vec3 ℝ) =
          ⟨(al * a1 + be * a2) * cos theta, (al * a1 + be * a2) * sin theta, al * b1 + be * b2⟩ := by
        ext <;> simp only [Vec3.add_x, Vec3.add_y, Vec3.add_z, Vec3.smul_x, Vec3.smul_y, Vec3.smul_z] <;> ring
      rw [e]
      refine ⟨⟨_, _, rfl⟩, ?_⟩
      rw [inCone_iff hn, ← hc]
      set w := a1 * c + b1 * n.z with hw
      have hlin : (al * a1 + be * a2) * c + (al * b1 + be * b2) * n.z = (al + be) * w := by
        linear_combination (-be) * heq
      rw [hlin]
      refine ⟨by positivity, ?_⟩
      have h4 : (1 + mu * mu) * ((al + be) * w) ^ 2 = (al + be) ^ 2 := by linear_combination (al + be) ^ 2 * m1
      have h5 : (al * a1 + be * a2) ^ 2 + (al * b1 + be * b2) ^ 2 = al ^ 2 + be ^ 2 + 2 * al * be * q := by
        rw [hq']; linear_combination al ^ 2 * u1 + be ^ 2 * u2
      rw [h4, h5]
      have h6 : (al + be) ^ 2 - (al ^ 2 + be ^ 2 + 2 * al * be * q) = 2 * (al * be * (1 - q)) := by ring
      have h7 : 0 ≤ al * be * (1 - q) := mul_nonneg (mul_nonneg hal hbe) (sub_nonneg.2 hqlt.le)
      linarith
  · have := arccos_pos.2 hqlt; linarith
  · have hphi : 2 * arctan mu ≤ π := by have := arctan_lt_pi_div_two mu; linarith
    have hphi0 : 0 ≤ 2 * arctan mu := by have := arctan_pos.2 hmu; linarith
    have hc2 : cos (2 * arctan mu) = 2 / (1 + mu * mu) - 1 := by
      rw [cos_two_mul, cos_sq_arctan]; field_simp
    have hge : cos (2 * arctan mu) ≤ q := by
      rw [hc2, div_sub_one hm.ne', div_le_iff₀ hm]
      -- `w ^ 2 * (|r1 + r2|^2) ...`
      have hw2 : (2 * (a1 * c + b1 * n.z)) ^ 2 ≤ (c ^ 2 + n.z ^ 2) * ((a1 + a2) ^ 2 + (b1 + b2) ^ 2) := by
        have : 2 * (a1 * c + b1 * n.z) = (a1 + a2) * c + (b1 + b2) * n.z := by linear_combination heq
        rw [this]
        have h9 : (c ^ 2 + n.z ^ 2) * ((a1 + a2) ^ 2 + (b1 + b2) ^ 2) - ((a1 + a2) * c + (b1 + b2) * n.z) ^ 2 =
          ((a1 + a2) * n.z - (b1 + b2) * c) ^ 2 := by ring
        linarith [sq_nonneg ((a1 + a2) * n.z - (b1 + b2) * c)]
      have hcw : c ^ 2 + n.z ^ 2 ≤ 1 := by
        have : n.x ^ 2 + n.y ^ 2 + n.z ^ 2 = 1 := by rw [← hn]; simp only [Vec3.normSq, Vec3.dot]; ring
        have h3 : c ^ 2 + (n.x * sin theta - n.y * cos theta) ^ 2 = n.x ^ 2 + n.y ^ 2 := by
          rw [hc]; linear_combination (n.x ^ 2 + n.y ^ 2) * hcs
        linarith [sq_nonneg (n.x * sin theta - n.y * cos theta)]
      have h6 : (a1 + a2) ^ 2 + (b1 + b2) ^ 2 = 2 + 2 * q := by rw [hq']; linear_combination u1 + u2
      rw [h6] at hw2
      have h7 : (2 * (a1 * c + b1 * n.z)) ^ 2 ≤ 2 + 2 * q := by
        have : 0 ≤ 2 + 2 * q := by linarith
        exact hw2.trans (mul_le_of_le_one_left this hcw)
      have h8 : (1 + mu * mu) * (2 * (a1 * c + b1 * n.z)) ^ 2 = 4 := by linear_combination 4 * m1
      have h9 := mul_le_mul_of_nonneg_left h7 hm.le
      rw [h8] at h9
      linarith
    have := arccos_le_arccos hge
    rw [arccos_cos hphi0 hphi] at this
    linarith

/-- two lines of the plane on the boundary of the cone, not parallel: the section, and its aperture -/
theorem section_of {mu : ℝ} {n : Vec3 ℝ} (hn : n.normSq = 1) {theta s1 z1 s2 z2 eps : ℝ} (he : eps = 1 ∨ eps = -1)
    (h1 : (1 + mu * mu) * (s1 * (n.x * cos theta + n.y * sin theta) + z1 * n.z) ^ 2 = s1 ^ 2 + z1 ^ 2)
    (h2 : (1 + mu * mu) * (s2 * (n.x * cos theta + n.y * sin theta) + z2 * n.z) ^ 2 = s2 ^ 2 + z2 ^ 2)
    (hd : s1 * z2 - s2 * z1 ≠ 0)
    (hs : 0 < eps * ((s1 * (n.x * cos theta + n.y * sin theta) + z1 * n.z) * (s2 * (n.x * cos theta + n.y * sin theta) + z2 * n.z)))
    {q : ℝ} (hq : q = eps * (s1 * s2 + z1 * z2) / sqrt ((s1 ^ 2 + z1 ^ 2) * (s2 ^ 2 + z2 ^ 2))) (hmu : 0 < mu) :
    Section mu n theta (1 / 2 * arccos q) ∧ 0 < 1 / 2 * arccos q ∧ 1 / 2 * arccos q ≤ arctan mu := by
  set c := n.x * cos theta + n.y * sin theta with hc
  have hcs := cos_sq_add_sin_sq theta
  have hm : (0 : ℝ) < 1 + mu * mu := by positivity
  -- unit rays in the positive nappe
  have ray : ∀ s z : ℝ, (1 + mu * mu) * (s * c + z * n.z) ^ 2 = s ^ 2 + z ^ 2 → s * c + z * n.z ≠ 0 →
      ∃ k : ℝ, k ≠ 0 ∧ (k * s) ^ 2 + (k * z) ^ 2 = 1 ∧ 0 < (k * s) * c + (k * z) * n.z ∧
        k = (if 0 < s * c + z * n.z then 1 else -1) / sqrt (s ^ 2 + z ^ 2) := by
    intro s z h hne
    have hpos : 0 < s ^ 2 + z ^ 2 := by rw [← h]; positivity
    have hsq := sqrt_pos.2 hpos
    have hss := sq_sqrt hpos.le
    refine ⟨_, ?_, ?_, ?_, rfl⟩
    · split_ifs <;> simp [hsq.ne']
    · have : ((if 0 < s * c + z * n.z then (1 : ℝ) else -1) / sqrt (s ^ 2 + z ^ 2)) ^ 2 = 1 / (s ^ 2 + z ^ 2) := by
        rw [div_pow, hss]; split_ifs <;> norm_num
      rw [mul_pow, mul_pow, this]
      field_simp
    · split_ifs with hp
      · have : 1 / sqrt (s ^ 2 + z ^ 2) * s * c + 1 / sqrt (s ^ 2 + z ^ 2) * z * n.z = (s * c + z * n.z) / sqrt (s ^ 2 + z ^ 2) := by ring
        rw [this]; positivity
      · have hneg : 0 < -(s * c + z * n.z) := by rcases lt_or_gt_of_ne hne with h | h <;> [linarith; exact absurd h hp]
        have : -1 / sqrt (s ^ 2 + z ^ 2) * s * c + -1 / sqrt (s ^ 2 + z ^ 2) * z * n.z = -(s * c + z * n.z) / sqrt (s ^ 2 + z ^ 2) := by ring
        rw [this]; positivity
  have hn1 : s1 * c + z1 * n.z ≠ 0 := by intro h; rw [h] at hs; simp at hs
  have hn2 : s2 * c + z2 * n.z ≠ 0 := by intro h; rw [h] at hs; simp at hs
  obtain ⟨k1, k1n, u1, p1, e1⟩ := ray s1 z1 h1 hn1
  obtain ⟨k2, k2n, u2, p2, e2⟩ := ray s2 z2 h2 hn2
  have hpos1 : 0 < s1 ^ 2 + z1 ^ 2 := by rw [← h1]; positivity
  have hpos2 : 0 < s2 ^ 2 + z2 ^ 2 := by rw [← h2]; positivity
  have hq' : q = (k1 * s1) * (k2 * s2) + (k1 * z1) * (k2 * z2) := by
    have hk : k1 * k2 = eps / sqrt ((s1 ^ 2 + z1 ^ 2) * (s2 ^ 2 + z2 ^ 2)) := by
      rw [e1, e2, sqrt_mul hpos1.le, div_mul_div_comm]
      congr 1
      rcases he with rfl | rfl
      · rw [one_mul] at hs
        rcases pos_and_pos_or_neg_and_neg_of_mul_pos hs with ⟨a, b⟩ | ⟨a, b⟩
        · simp [a, b]
        · rw [if_neg (not_lt.2 a.le), if_neg (not_lt.2 b.le)]; norm_num
      · have hs' : (s1 * c + z1 * n.z) * (s2 * c + z2 * n.z) < 0 := by linarith
        rcases mul_neg_iff.1 hs' with ⟨a, b⟩ | ⟨a, b⟩
        · rw [if_pos a, if_neg (not_lt.2 b.le)]; norm_num
        · rw [if_neg (not_lt.2 a.le), if_pos b]; norm_num
    rw [hq, mul_div_right_comm, ← hk]; ring
  refine section_core hn hmu hc u1 u2 p1 p2 ?_ ?_ ?_ hq'
  · linear_combination k1 ^ 2 * h1 + u1
  · linear_combination k2 ^ 2 * h2 + u2
  · have : k1 * s1 * (k2 * z2) - k2 * s2 * (k1 * z1) = k1 * k2 * (s1 * z2 - s2 * z1) := by ring
    rw [this]; exact mul_ne_zero (mul_ne_zero k1n k2n) hd

/-! ## The two cases of the code -/

/-- a point of the boundary, from the solution of the quadratic equation -/
theorem boundary {m a W D e d z : ℝ} (hD : D ≠ 0) (hW : m * W ^ 2 = 1 - D) (hd : d = m * a ^ 2 - D * e)
    (hz : (D * z - m * a * W) ^ 2 = d) : m * (a + z * W) ^ 2 = e + z ^ 2 := by
  have : D * (m * (a + z * W) ^ 2 - (e + z ^ 2)) = 0 := by
    linear_combination (D * z ^ 2 + m * a ^ 2) * hW - hd - hz
  have := (mul_eq_zero.1 this).resolve_left hD
  linarith

theorem general_case {mu : ℝ} (hmu : 0 < mu) {n : Vec3 ℝ} (hn : n.normSq = 1) {theta s c a e d D eps K1 K2 q : ℝ}
    (hc : c = n.x * cos theta + n.y * sin theta) (hs : s ≠ 0) (ha : a = s * c) (he : e = s ^ 2)
    (hD : D ≠ 0) (hW : (1 + mu * mu) * n.z ^ 2 = 1 - D) (hd : d = (1 + mu * mu) * a ^ 2 - D * e) (hdp : 0 < d)
    (heps : eps = if D < 0 then -1 else 1)
    (hK1 : K1 = ((1 + mu * mu) * a * n.z + sqrt d) / D) (hK2 : K2 = ((1 + mu * mu) * a * n.z - sqrt d) / D)
    (hq : q = eps * (e + K1 * K2) / sqrt ((e + K1 ^ 2) * (e + K2 ^ 2))) :
    Section mu n theta (1 / 2 * arccos q) ∧ 0 < 1 / 2 * arccos q ∧ 1 / 2 * arccos q ≤ arctan mu := by
  have hr := sq_sqrt hdp.le
  have hrp := sqrt_pos.2 hdp
  have k1 : D * K1 = (1 + mu * mu) * a * n.z + sqrt d := by rw [hK1]; field_simp
  have k2 : D * K2 = (1 + mu * mu) * a * n.z - sqrt d := by rw [hK2]; field_simp
  have b1 := boundary (z := K1) hD hW hd (by rw [k1, add_sub_cancel_left]; exact hr)
  have b2 := boundary (z := K2) hD hW hd (by rw [k2, sub_sub_cancel_left, neg_sq]; exact hr)
  have hep : 0 < e := by rw [he]; positivity
  have hprod : D * ((a + K1 * n.z) * (a + K2 * n.z)) = a ^ 2 + n.z ^ 2 * e := by
    have : D * (D * ((a + K1 * n.z) * (a + K2 * n.z))) = D * (a ^ 2 + n.z ^ 2 * e) := by
      have h3 : D * (D * ((a + K1 * n.z) * (a + K2 * n.z))) = (D * a + (D * K1) * n.z) * (D * a + (D * K2) * n.z) := by ring
      rw [h3, k1, k2]
      linear_combination (-(n.z ^ 2)) * hr - n.z ^ 2 * hd + (a ^ 2 * (D + (1 + mu * mu) * n.z ^ 2) + a ^ 2 - a ^ 2) * hW
    exact mul_left_cancel₀ hD this
  have hpos : 0 < a ^ 2 + n.z ^ 2 * e := by
    by_contra h
    have hz : n.z ^ 2 * e = 0 := le_antisymm (by nlinarith [sq_nonneg a, not_lt.1 h]) (by positivity)
    have ha0 : a ^ 2 = 0 := le_antisymm (by nlinarith [sq_nonneg (n.z), not_lt.1 h]) (by positivity)
    have hz0 : n.z ^ 2 = 0 := (mul_eq_zero.1 hz).resolve_right hep.ne'
    rw [hz0] at hW
    have : D = 1 := by linarith
    rw [ha0, this] at hd
    linarith
  refine section_of (eps := eps) (s1 := s) (s2 := s) (z1 := K1) (z2 := K2) hn ?_ ?_ ?_ ?_ ?_ ?_ hmu
  · rw [heps]; split_ifs <;> simp
  · rw [← hc, ← ha, ← he]; exact b1
  · rw [← hc, ← ha, ← he]; exact b2
  · intro h
    have h4 : D * (s * K2 - s * K1) = -2 * s * sqrt d := by
      have : D * (s * K2 - s * K1) = s * (D * K2) - s * (D * K1) := by ring
      rw [this, k1, k2]; ring
    rw [h, mul_zero] at h4
    exact mul_ne_zero (mul_ne_zero (by norm_num) hs) hrp.ne' h4.symm
  · rw [← hc, ← ha]
    have h5 : 0 < D * ((a + K1 * n.z) * (a + K2 * n.z)) := by rw [hprod]; exact hpos
    rw [heps]
    split_ifs with hneg
    · have := neg_of_mul_pos_right h5 hneg.le; linarith
    · have := pos_of_mul_pos_right h5 (not_lt.1 hneg); linarith
  · rw [hq, ← he]
    have : s * s = e := by rw [he]; ring
    rw [this]

theorem tangent_case {mu : ℝ} (hmu : 0 < mu) {n : Vec3 ℝ} (hn : n.normSq = 1) {theta s c a e H q : ℝ}
    (hc : c = n.x * cos theta + n.y * sin theta) (hs : s ≠ 0) (ha : a = s * c) (ha0 : a ≠ 0) (he : e = s ^ 2)
    (hW : (1 + mu * mu) * n.z ^ 2 = 1)
    (hH : H = -((1 + mu * mu) * a ^ 2 - e) / (2 * (1 + mu * mu) * |n.z| * |a|)) (hq : q = H / sqrt (e + H ^ 2)) :
    Section mu n theta (1 / 2 * arccos q) ∧ 0 < 1 / 2 * arccos q ∧ 1 / 2 * arccos q ≤ arctan mu := by
  have hm : (0 : ℝ) < 1 + mu * mu := by positivity
  have hep : 0 < e := by rw [he]; positivity
  have hz0 : n.z ≠ 0 := by intro h; rw [h] at hW; norm_num at hW
  obtain ⟨z, hz⟩ : ∃ z, z = -((1 + mu * mu) * a ^ 2 - e) / (2 * (1 + mu * mu) * a * n.z) := ⟨_, rfl⟩
  have hzz : 2 * (1 + mu * mu) * a * n.z * z = e - (1 + mu * mu) * a ^ 2 := by rw [hz]; field_simp; ring
  obtain ⟨eps, hee⟩ : ∃ eps : ℝ, eps = if 0 < n.z * a then 1 else -1 := ⟨_, rfl⟩
  have hpm : eps = 1 ∨ eps = -1 := by rw [hee]; split_ifs <;> simp
  have heps2 : eps * eps = 1 := by rcases hpm with h | h <;> rw [h] <;> norm_num
  have habs : |n.z| * |a| = eps * (n.z * a) := by
    rw [← abs_mul, hee]
    split_ifs with h
    · rw [abs_of_pos h]; ring
    · rw [abs_of_nonpos (not_lt.1 h)]; ring
  have hepos : 0 < eps * (n.z * a) := by rw [← habs]; positivity
  have hHz : H = eps * z := by
    rw [hH, hz, mul_assoc (2 * (1 + mu * mu)), habs]
    have : eps ≠ 0 := by rcases hpm with h | h <;> rw [h] <;> norm_num
    field_simp
    linear_combination ((1 + mu * mu) * a ^ 2 - e) * heps2
  have hH2 : H ^ 2 = z ^ 2 := by rw [hHz]; linear_combination z ^ 2 * heps2
  refine section_of (eps := eps) (s1 := 0) (s2 := s) (z1 := 1) (z2 := z) hn hpm ?_ ?_ ?_ ?_ ?_ hmu
  · linear_combination hW
  · rw [← hc, ← ha, ← he]; linear_combination hzz + z ^ 2 * hW
  · intro h; apply hs; linarith
  · rw [← hc, ← ha]
    have h1 : 2 * (1 + mu * mu) * (a * (a + z * n.z)) = (1 + mu * mu) * a ^ 2 + e := by linear_combination hzz
    have h2 : 0 < a * (a + z * n.z) := by
      have : 0 < 2 * (1 + mu * mu) * (a * (a + z * n.z)) := by rw [h1]; positivity
      exact pos_of_mul_pos_right this (by positivity)
    have h3 : 0 < (eps * (n.z * a)) * (a * (a + z * n.z)) := mul_pos hepos h2
    have h4 : (eps * (n.z * a)) * (a * (a + z * n.z)) = a ^ 2 * (eps * ((0 * c + 1 * n.z) * (a + z * n.z))) := by ring
    rw [h4] at h3
    exact pos_of_mul_pos_right h3 (by positivity)
  · rw [hq, hH2, hHz, ← he]; congr 1 <;> [ring; congr 1 <;> ring]

/-! ## The orientation of the cone -/

/-- a cone that contains the vertical is vertical in every plane -/
theorem vertical {mu : ℝ} (hmu : 0 < mu) {n : Vec3 ℝ} (theta : ℝ) (hD : denom mu n < 0) : nonVertical mu n theta = false := by
  obtain ⟨c, hc⟩ : ∃ c, c = n.x * cos theta + n.y * sin theta := ⟨_, rfl⟩
  have hcs := cos_sq_add_sin_sq theta
  have hc2 : c ^ 2 ≤ n.x ^ 2 + n.y ^ 2 := by
    have h3 : c ^ 2 + (n.x * sin theta - n.y * cos theta) ^ 2 = n.x ^ 2 + n.y ^ 2 := by
      rw [hc]; linear_combination (n.x ^ 2 + n.y ^ 2) * hcs
    linarith [sq_nonneg (n.x * sin theta - n.y * cos theta)]
  have hlt : c ^ 2 < (mu * n.z) ^ 2 := by unfold denom at hD; nlinarith
  have habs : |c| < mu * |n.z| := by
    have := sq_lt_sq.1 hlt
    rwa [abs_mul, abs_of_pos hmu] at this
  have hne : (⟨c, n.z⟩ : ℂ) ≠ 0 := by
    intro h
    have h1 : n.z = 0 := congrArg Complex.im h
    rw [h1] at habs
    have := abs_nonneg c
    simp at habs; linarith
  have hrho := norm_pos_iff.2 hne
  have hcos := Complex.cos_arg hne
  have hsin := Complex.sin_arg (⟨c, n.z⟩ : ℂ)
  simp only at hcos hsin
  -- the angle to the vertical
  have key : ∀ x : ℝ, arctan mu < x → x < π - arctan mu → ∀ y z : ℝ, sin x = y → |cos x| = z → mu * z < y := by
    rintro x h1 h2 y z rfl rfl
    have hp := arctan_pos.2 hmu
    have hcp := cos_arctan_pos mu
    have hts : sin (arctan mu) = mu * cos (arctan mu) := by
      rw [← tan_mul_cos hcp.ne', tan_arctan]
    have s1 : 0 < sin (x - arctan mu) := sin_pos_of_pos_of_lt_pi (by linarith) (by linarith)
    have s2 : 0 < sin (x + arctan mu) := sin_pos_of_pos_of_lt_pi (by linarith) (by linarith)
    rw [sin_sub, hts] at s1
    rw [sin_add, hts] at s2
    have t1 : 0 < cos (arctan mu) * (sin x - mu * cos x) := by linarith
    have t2 : 0 < cos (arctan mu) * (sin x + mu * cos x) := by linarith
    have t1 := pos_of_mul_pos_right t1 hcp.le
    have t2 := pos_of_mul_pos_right t2 hcp.le
    rcases abs_cases (cos x) with h | h <;> rw [h.1] <;> linarith
  have hpp := arctan_lt_pi_div_two mu
  have hp := arctan_pos.2 hmu
  unfold nonVertical
  simp only [← hc, decide_eq_false_iff_not]
  set b := Complex.arg (⟨c, n.z⟩ : ℂ) with hb
  have e1 : |cos b| < mu * |sin b| := by
    rw [hcos, hsin, abs_div, abs_div, abs_of_pos hrho, ← mul_div_assoc]
    exact div_lt_div_of_pos_right habs hrho
  have spi : sin (π / 2 - b) = cos b := sin_pi_div_two_sub b
  have cpi : cos (π / 2 - b) = sin b := cos_pi_div_two_sub b
  have le := le_abs_self (cos b)
  have nle := neg_abs_le (cos b)
  rintro (⟨h1, h2⟩ | ⟨h1, h2⟩ | ⟨h1, h2⟩)
  · have := key (-(π / 2 - b)) (by linarith) (by linarith) (-cos b) |sin b| (by rw [sin_neg, spi]) (by rw [cos_neg, cpi])
    linarith
  · have := key (π / 2 - b) h1 h2 (cos b) |sin b| spi (by rw [cpi])
    linarith
  · have := key (π / 2 - b - π) (by linarith) (by linarith) (-cos b) |sin b| (by rw [sin_sub_pi, spi]) (by rw [cos_sub_pi, cpi, abs_neg])
    linarith

theorem epsilon_eq {mu : ℝ} (hmu : 0 < mu) {n : Vec3 ℝ} (theta : ℝ) : epsilon mu n theta = if denom mu n < 0 then -1 else 1 := by
  unfold epsilon
  by_cases h : denom mu n < 0
  · rw [if_pos ⟨vertical hmu theta h, h⟩, if_pos h]
  · rw [if_neg (fun k => h k.2), if_neg h]

/-! ## The theorems -/

theorem unit_eq {mu : ℝ} {n : Vec3 ℝ} (hn : n.normSq = 1) : (1 + mu * mu) * n.z ^ 2 = 1 - denom mu n := by
  simp only [Vec3.normSq, Vec3.dot] at hn
  unfold denom
  linear_combination hn

theorem heading {theta : ℝ} (h1 : -π < theta) (h2 : theta ≤ π) (h : ¬ (theta ≠ π / 2 ∧ theta ≠ -π / 2)) :
    cos theta = 0 ∧ sin theta ^ 2 = 1 := by
  have : theta = π / 2 ∨ theta = -π / 2 := by by_contra k; push Not at k; exact h k
  rcases this with rfl | rfl
  · simp
  · rw [neg_div]; simp

theorem cos_heading {theta : ℝ} (h1 : -π < theta) (h2 : theta ≤ π) (h : theta ≠ π / 2 ∧ theta ≠ -π / 2) : cos theta ≠ 0 := by
  intro hc
  rw [cos_eq_zero_iff] at hc
  obtain ⟨k, hk⟩ := hc
  have hp := pi_pos
  have h3 : (-2 : ℝ) < k := by
    by_contra hh
    have := mul_le_mul_of_nonneg_right (not_lt.1 hh) hp.le
    rw [hk] at h1; linarith
  have h4 : (k : ℝ) < 1 := by
    by_contra hh
    have := mul_le_mul_of_nonneg_right (not_lt.1 hh) hp.le
    rw [hk] at h2; linarith
  have h3 : (-2 : ℤ) < k := by exact_mod_cast h3
  have h4 : k < (1 : ℤ) := by exact_mod_cast h4
  have : k = -1 ∨ k = 0 := by omega
  rcases this with rfl | rfl
  · apply h.2; rw [hk]; push_cast; ring
  · apply h.1; rw [hk]; push_cast; ring

theorem tan_facts {theta : ℝ} {n : Vec3 ℝ} (hc : cos theta ≠ 0) :
    1 + tan theta * tan theta = (1 / cos theta) ^ 2 ∧
    n.x + n.y * tan theta = 1 / cos theta * (n.x * cos theta + n.y * sin theta) := by
  have hcs := cos_sq_add_sin_sq theta
  rw [tan_eq_sin_div_cos]
  constructor
  · field_simp; linarith
  · field_simp

theorem discr_eq {mu t : ℝ} {n : Vec3 ℝ} (hn : n.normSq = 1) :
    discr mu n t = (1 + mu * mu) * (n.x + n.y * t) ^ 2 - denom mu n * (1 + t * t) := by
  unfold discr denom
  ring

/-- **C192 (partial).**  For every unit normal, friction and heading: when the answer is positive, the forces of the cone
in the vertical plane of the jump are those between two directions, and the angle between these is twice the value
returned, which is positive and at most that of the cone (the assertions of the code hold).  Missing: the normals for which
the vertical is within 1e-6 of the boundary of the cone but not on it (the code then computes as if it were on it), and the
vertical planes tangent to the cone (`C192_violated`). -/
theorem C192_partial (mu : ℝ) (hmu : 0 < mu) (n : Vec3 ℝ) (hn : n.normSq = 1) (theta : ℝ) (h1 : -π < theta) (h2 : theta ≤ π)
    (hb : 1 / 1000000 ≤ |n.x ^ 2 + n.y ^ 2 - (mu * n.z) ^ 2| ∨ n.x ^ 2 + n.y ^ 2 = (mu * n.z) ^ 2)
    (ht : n.x ^ 2 + n.y ^ 2 ≠ (mu * n.z) ^ 2 ∨ n.x * cos theta + n.y * sin theta ≠ 0)
    (delta : ℝ) (h : fifthConstraint mu n theta = some delta) :
    Section mu n theta delta ∧ 0 < delta ∧ delta ≤ arctan mu := by
  have hDe : n.x ^ 2 + n.y ^ 2 - (mu * n.z) ^ 2 = denom mu n := by unfold denom; ring
  have hW := unit_eq (mu := mu) hn
  unfold fifthConstraint at h
  dsimp only at h
  split_ifs at h with hz htan hd0 hd5 hd0 hd5
  · -- tangent to the vertical
    have hD0 : denom mu n = 0 := by
      rcases hb with hb | hb
      · rw [hDe] at hb
        have := abs_lt.2 hz
        linarith
      · rw [← hDe]; linarith
    rw [hD0, sub_zero] at hW
    have hc0 : n.x * cos theta + n.y * sin theta ≠ 0 := by
      rcases ht with ht | ht
      · exact absurd (by linarith) ht
      · exact ht
    unfold tangentCase at h
    dsimp only at h
    split_ifs at h with htan ha0 hv
    · have hcos := cos_heading h1 h2 htan
      obtain ⟨f1, f2⟩ := tan_facts (n := n) hcos
      simp only [Option.some.injEq] at h
      rw [← h]
      refine tangent_case hmu hn (s := 1 / cos theta) (a := n.x + n.y * tan theta) (e := 1 + tan theta * tan theta) rfl
        (by positivity) f2 ha0 f1 hW rfl ?_
      have : mu * mu * (n.x * n.x + n.y * n.y * tan theta * tan theta) - n.x * n.x * tan theta * tan theta - n.y * n.y
          + 2 * n.x * n.y * tan theta * (1 + mu * mu) - n.z * n.z * (1 + tan theta * tan theta) =
          (1 + mu * mu) * (n.x + n.y * tan theta) ^ 2 - (1 + tan theta * tan theta) := by
        simp only [Vec3.normSq, Vec3.dot] at hn
        linear_combination (-(1 + tan theta * tan theta)) * hn
      rw [this]
      ring_nf
    · exfalso
      have hcos := cos_heading h1 h2 htan
      rw [(tan_facts (n := n) hcos).2] at ha0
      push Not at ha0
      exact (mul_ne_zero (by positivity) hc0) ha0
    · obtain ⟨hcos, hsin⟩ := heading h1 h2 htan
      simp only [Option.some.injEq] at h
      rw [← h]
      refine tangent_case hmu hn (s := sin theta) (a := n.y) (e := 1) (c := n.x * cos theta + n.y * sin theta) rfl
        (by intro hh; rw [hh] at hsin; norm_num at hsin) ?_ hv hsin.symm hW rfl ?_
      · rw [hcos]; linear_combination (-n.y) * hsin
      · ring_nf
  · have hcos := cos_heading h1 h2 htan
    obtain ⟨f1, f2⟩ := tan_facts (n := n) hcos
    have hD0 : denom mu n ≠ 0 := by intro h0; rw [h0] at hz; norm_num at hz
    simp only [Option.some.injEq] at h
    rw [← h]
    refine general_case hmu hn (s := 1 / cos theta) (a := n.x + n.y * tan theta) (e := 1 + tan theta * tan theta) rfl
      (by positivity) f2 f1 hD0 hW (discr_eq hn) (lt_of_lt_of_le (by norm_num) (not_lt.1 hd5)) (epsilon_eq hmu theta) rfl rfl ?_
    ring_nf
  · obtain ⟨hcos, hsin⟩ := heading h1 h2 htan
    have hD0 : denom mu n ≠ 0 := by intro h0; rw [h0] at hz; norm_num at hz
    simp only [Option.some.injEq] at h
    rw [← h]
    refine general_case hmu hn (s := sin theta) (a := n.y) (e := 1) (c := n.x * cos theta + n.y * sin theta)
      (d := -n.x * n.x + (n.y * n.y + n.z * n.z) * (mu * mu)) rfl
      (by intro hh; rw [hh] at hsin; norm_num at hsin) ?_ hsin.symm hD0 hW ?_
      (lt_of_lt_of_le (by norm_num) (not_lt.1 hd5)) (epsilon_eq hmu theta) rfl rfl ?_
    · rw [hcos]; linear_combination (-n.y) * hsin
    · unfold denom; ring
    · ring_nf

/-- what decides of the answer: positive when the plane cuts the cone along two lines -/
noncomputable def margin (mu : ℝ) (n : Vec3 ℝ) (theta : ℝ) : ℝ :=
  (1 + mu ^ 2) * (n.x * cos theta + n.y * sin theta) ^ 2 - (n.x ^ 2 + n.y ^ 2 - (mu * n.z) ^ 2)

open Classical in
/-- **C192, when.**  Out of the tolerance, the answer is positive exactly when the margin is 5e-2 or more, multiplied by the
square of the cosine of the heading unless the heading is along the second axis. -/
theorem C192_when (mu : ℝ) (hmu : 0 < mu) (n : Vec3 ℝ) (hn : n.normSq = 1) (theta : ℝ) (h1 : -π < theta) (h2 : theta ≤ π)
    (hb : 1 / 1000000 ≤ |n.x ^ 2 + n.y ^ 2 - (mu * n.z) ^ 2|) :
    (fifthConstraint mu n theta).isSome = true ↔
      5 / 100 * (if theta = π / 2 ∨ theta = -π / 2 then 1 else cos theta ^ 2) ≤ margin mu n theta := by
  have hDe : n.x ^ 2 + n.y ^ 2 - (mu * n.z) ^ 2 = denom mu n := by unfold denom; ring
  have hz : ¬ (denom mu n > -(1 / 1000000) ∧ denom mu n < 1 / 1000000) := by
    intro hz; rw [hDe] at hb; have := abs_lt.2 hz; linarith
  unfold fifthConstraint
  dsimp only
  rw [if_neg hz]
  by_cases htan : theta ≠ π / 2 ∧ theta ≠ -π / 2
  · have hf : ¬ (theta = π / 2 ∨ theta = -π / 2) := by tauto
    rw [if_pos htan, if_neg hf]
    have hcos := cos_heading h1 h2 htan
    obtain ⟨f1, f2⟩ := tan_facts (n := n) hcos
    have hm : discr mu n (tan theta) = margin mu n theta / cos theta ^ 2 := by
      rw [discr_eq hn, f1, f2, margin, hDe]; field_simp
    have hp : 0 < cos theta ^ 2 := by positivity
    rw [hm]
    have e : 5 / 100 * cos theta ^ 2 ≤ margin mu n theta ↔ 5 / 100 ≤ margin mu n theta / cos theta ^ 2 := (le_div_iff₀ hp).symm
    rw [e]
    split_ifs with a b
    · simp; linarith
    · simp; linarith
    · simp; linarith
  · have hf : theta = π / 2 ∨ theta = -π / 2 := by tauto
    rw [if_neg htan, if_pos hf]
    obtain ⟨hcos, hsin⟩ := heading h1 h2 htan
    have hm : -n.x * n.x + (n.y * n.y + n.z * n.z) * (mu * mu) = margin mu n theta := by
      unfold margin; rw [hcos]
      linear_combination (-(1 + mu ^ 2) * n.y ^ 2) * hsin
    rw [hm]
    split_ifs with a b
    · simp; linarith
    · simp; linarith
    · simp; linarith

/-- **C192, when refused.**  A refusal out of the tolerance means that no force of the plane is in the cone (but 0), or
that the margin is small. -/
theorem C192_refused (mu : ℝ) (hmu : 0 < mu) (n : Vec3 ℝ) (hn : n.normSq = 1) (theta : ℝ) (h1 : -π < theta) (h2 : theta ≤ π)
    (hb : 1 / 1000000 ≤ |n.x ^ 2 + n.y ^ 2 - (mu * n.z) ^ 2|) (h : fifthConstraint mu n theta = none) :
    (∀ p, InPlane theta p → InCone mu n p → p = 0) ∨ (0 ≤ margin mu n theta ∧ margin mu n theta < 5 / 100) := by
  classical
  have hw := (C192_when mu hmu n hn theta h1 h2 hb).not
  rw [h] at hw
  simp only [Option.isSome_none, Bool.false_eq_true, not_false_eq_true, true_iff, not_le] at hw
  have hlt : margin mu n theta < 5 / 100 := by
    refine lt_of_lt_of_le hw ?_
    split_ifs
    · norm_num
    · nlinarith [cos_sq_le_one theta]
  rcases le_or_gt 0 (margin mu n theta) with h0 | h0
  · exact Or.inr ⟨h0, hlt⟩
  · refine Or.inl ?_
    rintro p ⟨s, z, rfl⟩ hp
    rw [inCone_iff hn] at hp
    obtain ⟨c, hc⟩ : ∃ c, c = n.x * cos theta + n.y * sin theta := ⟨_, rfl⟩
    have hDe : n.x ^ 2 + n.y ^ 2 - (mu * n.z) ^ 2 = denom mu n := by unfold denom; ring
    have hW := unit_eq (mu := mu) hn
    rw [margin, ← hc, hDe] at h0
    rw [← hc] at hp
    set D := denom mu n with hD
    have hDp : 0 < D := by nlinarith [mul_nonneg (by positivity : (0:ℝ) ≤ 1 + mu ^ 2) (sq_nonneg c)]
    have key : D * ((1 + mu * mu) * (s * c + z * n.z) ^ 2 - (s ^ 2 + z ^ 2)) =
        ((1 + mu ^ 2) * c ^ 2 - D) * s ^ 2 - (D * z - (1 + mu * mu) * (c * s) * n.z) ^ 2 := by
      linear_combination (D * z ^ 2 + (1 + mu * mu) * (c * s) ^ 2) * hW
    have hge : 0 ≤ D * ((1 + mu * mu) * (s * c + z * n.z) ^ 2 - (s ^ 2 + z ^ 2)) := mul_nonneg hDp.le (by linarith [hp.2])
    rw [key] at hge
    have hs0 : s = 0 := by
      by_contra hs
      have : ((1 + mu ^ 2) * c ^ 2 - D) * s ^ 2 < 0 := mul_neg_of_neg_of_pos h0 (by positivity)
      linarith [sq_nonneg (D * z - (1 + mu * mu) * (c * s) * n.z)]
    subst hs0
    have hz0 : z = 0 := by
      by_contra hz
      have : 0 < (D * z) ^ 2 := by positivity
      have e : (0 : ℝ) ≤ -(D * z) ^ 2 := by
        have : ((1 + mu ^ 2) * c ^ 2 - D) * 0 ^ 2 - (D * z - (1 + mu * mu) * (c * 0) * n.z) ^ 2 = -(D * z) ^ 2 := by ring
        rw [← this]; exact hge
      linarith
    subst hz0
    simp only [zero_mul]
    rfl

/-! ## Concrete cases -/

/-- the cone of a horizontal floor with friction 1: half a right angle -/
theorem C192_example : fifthConstraint 1 ⟨0, 0, 1⟩ 0 = some (π / 4) ∧ Section 1 ⟨0, 0, 1⟩ 0 (π / 4) := by
  have hn : (⟨0, 0, 1⟩ : Vec3 ℝ).normSq = 1 := by simp [Vec3.normSq, Vec3.dot]
  have hp := pi_pos
  have h : fifthConstraint 1 ⟨0, 0, 1⟩ 0 = some (π / 4) := by
    have hd : denom 1 ⟨0, 0, 1⟩ = -1 := by unfold denom; norm_num
    unfold fifthConstraint
    dsimp only
    rw [hd, if_neg (by norm_num), if_pos ⟨by linarith, by linarith⟩, epsilon_eq one_pos, hd]
    have : discr 1 ⟨0, 0, 1⟩ (tan 0) = 1 := by unfold discr; norm_num
    rw [this, if_neg (by norm_num), if_neg (by norm_num)]
    norm_num [arccos_zero]
    ring
  exact ⟨h, (C192_partial 1 one_pos _ hn 0 (by linarith) hp.le (Or.inl (by norm_num)) (Or.inl (by norm_num)) _ h).1⟩

/-- **C192 is violated** by a plane tangent to the cone: the forces of the plane in the cone are those along the vertical,
and the value returned is a quarter of a half-turn, more than the half angle of the whole cone. -/
theorem C192_violated : fifthConstraint (3/4) ⟨0, 3/5, 4/5⟩ 0 = some (π / 4) ∧ arctan (3/4) < π / 4 ∧
    (∀ p, InPlane 0 p ∧ InCone (3/4) ⟨0, 3/5, 4/5⟩ p ↔ ∃ z, 0 ≤ z ∧ p = ⟨0, 0, z⟩) ∧
    ¬ Section (3/4) ⟨0, 3/5, 4/5⟩ 0 (π / 4) := by
  have hn : (⟨0, 3/5, 4/5⟩ : Vec3 ℝ).normSq = 1 := by simp [Vec3.normSq, Vec3.dot]; norm_num
  have hset : ∀ p, InPlane 0 p ∧ InCone (3/4) ⟨0, 3/5, 4/5⟩ p ↔ ∃ z, 0 ≤ z ∧ p = ⟨0, 0, z⟩ := by
    intro p
    constructor
    · rintro ⟨⟨s, z, rfl⟩, hp⟩
      rw [inCone_iff hn] at hp
      simp only [cos_zero, sin_zero, mul_zero, mul_one, zero_add] at hp ⊢
      have hs : s = 0 := by
        have : s ^ 2 ≤ 0 := by nlinarith [hp.2]
        exact pow_eq_zero_iff two_ne_zero |>.1 (le_antisymm this (sq_nonneg s))
      subst hs
      exact ⟨z, by linarith [hp.1], rfl⟩
    · rintro ⟨z, hz, rfl⟩
      refine ⟨⟨0, z, by simp⟩, ?_⟩
      have := (inCone_iff (mu := 3/4) hn 0 0 z).2 ⟨by simp; positivity, by simp; nlinarith⟩
      simpa using this
  refine ⟨?_, ?_, hset, ?_⟩
  · have hp := pi_pos
    unfold fifthConstraint denom tangentCase
    dsimp only
    rw [if_pos (by norm_num), if_pos ⟨by linarith, by linarith⟩, if_neg (by simp)]
  · rw [← arctan_one]; exact arctan_strictMono (by norm_num)
  · rintro ⟨-, -, r1, r2, u1, u2, hd, hall⟩
    have e1 := (hset r1).1 ((hall r1).2 ⟨1, 0, by norm_num, by norm_num, by ext <;> simp⟩)
    have e2 := (hset r2).1 ((hall r2).2 ⟨0, 1, by norm_num, by norm_num, by ext <;> simp⟩)
    obtain ⟨z1, hz1, rfl⟩ := e1
    obtain ⟨z2, hz2, rfl⟩ := e2
    rw [show 2 * (π / 4) = π / 2 by ring, cos_pi_div_two] at hd
    simp only [Vec3.normSq, Vec3.dot] at u1 u2 hd
    have a1 : z1 = 0 ∨ z2 = 0 := by simpa using hd
    rcases a1 with rfl | rfl
    · norm_num at u1
    · norm_num at u2

/-- **C192 is violated** by the threshold on the size of the section: turn a cone and the heading around the vertical, and the
answer changes.  The section is refused in the first frame although it has a non-empty interior. -/
theorem C192_frame_violated : fifthConstraint (9/20) ⟨0, 5/13, 12/13⟩ 0 = none ∧
    (fifthConstraint (9/20) ⟨-(4/13), 3/13, 12/13⟩ (arctan (4/3))).isSome = true ∧
    (∀ s z, |s| ≤ 1 / 10 * z → InCone (9/20) ⟨0, 5/13, 12/13⟩ ⟨s, 0, z⟩) ∧
    (∀ p : Vec3 ℝ, InCone (9/20) ⟨0, 5/13, 12/13⟩ p ↔ InCone (9/20) ⟨-(4/13), 3/13, 12/13⟩
      ⟨3/5 * p.x - 4/5 * p.y, 4/5 * p.x + 3/5 * p.y, p.z⟩) := by
  have hn : (⟨0, 5/13, 12/13⟩ : Vec3 ℝ).normSq = 1 := by simp [Vec3.normSq, Vec3.dot]; norm_num
  have hn' : (⟨-(4/13), 3/13, 12/13⟩ : Vec3 ℝ).normSq = 1 := by simp [Vec3.normSq, Vec3.dot]; norm_num
  have hp := pi_pos
  refine ⟨?_, ?_, ?_, ?_⟩
  · rw [← Option.not_isSome_iff_eq_none, C192_when _ (by norm_num) _ hn 0 (by linarith) hp.le (by norm_num [abs_of_neg])]
    rw [if_neg (by rintro (h | h) <;> linarith)]
    simp [margin]; norm_num
  · have b1 := arctan_lt_pi_div_two (4/3)
    have b2 := neg_pi_div_two_lt_arctan (4/3)
    rw [C192_when _ (by norm_num) _ hn' _ (by linarith) (by linarith) (by norm_num [abs_of_neg])]
    rw [if_neg (by rintro (h | h) <;> linarith)]
    have hs : sqrt (1 + (4/3) ^ 2 : ℝ) = 5/3 := by
      rw [show (1 + (4/3) ^ 2 : ℝ) = (5/3) ^ 2 by norm_num]; exact sqrt_sq (by norm_num)
    rw [margin, cos_arctan, sin_arctan, hs]
    norm_num
  · intro s z h
    have hz : 0 ≤ z := by have := abs_nonneg s; linarith
    have := (inCone_iff (mu := 9/20) hn 0 s z).2 ⟨by simp; positivity, by
      have : s ^ 2 ≤ (1 / 10 * z) ^ 2 := sq_le_sq' (by linarith [neg_abs_le s]) (by linarith [le_abs_self s])
      simp; nlinarith⟩
    simpa using this
  · intro p
    unfold InCone
    have e1 : (⟨-(4/13), 3/13, 12/13⟩ : Vec3 ℝ).dot ⟨3/5 * p.x - 4/5 * p.y, 4/5 * p.x + 3/5 * p.y, p.z⟩ = (⟨0, 5/13, 12/13⟩ : Vec3 ℝ).dot p := by
      simp only [Vec3.dot]; ring
    rw [e1]
    have e2 : ∀ d : ℝ, ((⟨3/5 * p.x - 4/5 * p.y, 4/5 * p.x + 3/5 * p.y, p.z⟩ : Vec3 ℝ) - Vec3.smul d ⟨-(4/13), 3/13, 12/13⟩).normSq =
        (p - Vec3.smul d ⟨0, 5/13, 12/13⟩).normSq := by
      intro d
      simp only [Vec3.normSq, Vec3.dot, Vec3.sub_x, Vec3.sub_y, Vec3.sub_z, Vec3.smul_x, Vec3.smul_y, Vec3.smul_z]; ring
    rw [e2]

end JumpCone
end Rbprm
