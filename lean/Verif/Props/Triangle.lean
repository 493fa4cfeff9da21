import Verif.Model.Triangle
import Mathlib.Tactic.Linarith
import Mathlib.Tactic.LinearCombination
import Mathlib.Tactic.Positivity
import Mathlib.Tactic.SplitIfs
import Mathlib.Tactic.NormNum
import Mathlib.Tactic.FieldSimp
set_option linter.unusedSectionVars false
/-! # C47: closest point of a triangle; C84: point in triangle -/
namespace Rbprm
namespace Triangle
variable {K : Type _} [Field K] [LinearOrder K] [IsStrictOrderedRing K]

/-! ## Specification -/

/-- `p` is a convex combination of the vertices -/
def InTriangle (t0 t1 t2 p : Vec3 K) : Prop :=
  ∃ u v w : K, 0 ≤ u ∧ 0 ≤ v ∧ 0 ≤ w ∧ u + v + w = 1 ∧ p = Vec3.smul u t0 + Vec3.smul v t1 + Vec3.smul w t2

/-- the triangle has a non-zero area -/
def NonDegenerate (t0 t1 t2 : Vec3 K) : Prop := Vec3.cross (t1 - t0) (t2 - t0) ≠ 0

/-- the region of the plane, beyond the corner `t1` and on the outer side of `t0 t1`, where the code computes the wrong coordinate -/
def BadRegion (source t0 t1 t2 : Vec3 K) : Prop :=
  let a := Vec3.dot (t1 - t0) (t1 - t0)
  let b := Vec3.dot (t1 - t0) (t2 - t0)
  let c := Vec3.dot (t2 - t0) (t2 - t0)
  let d := Vec3.dot (t1 - t0) (t0 - source)
  let e := Vec3.dot (t2 - t0) (t0 - source)
  a * c - b * b ≤ (b * e - c * d) + (b * d - a * e) ∧ b * d - a * e < 0 ∧ 0 ≤ b * e - c * d ∧ a + d ≤ b + e

/-! ## Coordinates -/

theorem clamp_mem (x : K) : 0 ≤ clamp x 0 1 ∧ clamp x 0 1 ≤ 1 :=
  ⟨le_min (le_max_right _ _) zero_le_one, min_le_right _ _⟩

theorem clamp_cases (x : K) : (x ≤ 0 ∧ clamp x 0 1 = 0) ∨ (0 < x ∧ x < 1 ∧ clamp x 0 1 = x) ∨ (1 ≤ x ∧ clamp x 0 1 = 1) := by
  unfold clamp
  rcases le_or_gt x 0 with h | h
  · left; exact ⟨h, by rw [max_eq_right h, min_eq_left zero_le_one]⟩
  · right
    rcases lt_or_ge x 1 with h' | h'
    · left; exact ⟨h, h', by rw [max_eq_left h.le, min_eq_left h'.le]⟩
    · right; exact ⟨h', by rw [max_eq_left h.le, min_eq_right h']⟩

theorem coords_in (a b c d e : K) :
    0 ≤ (closestCoords a b c d e).1 ∧ 0 ≤ (closestCoords a b c d e).2 ∧ (closestCoords a b c d e).1 + (closestCoords a b c d e).2 ≤ 1 := by
  unfold closestCoords
  have hc := clamp_mem (K := K)
  simp only
  split_ifs with h1 h2 h3 h4 h5
  · have := hc (-d / a); exact ⟨this.1, le_rfl, by simpa using this.2⟩
  · have := hc (-e / c); exact ⟨le_rfl, this.1, by simpa using this.2⟩
  · have := hc (-e / c); exact ⟨le_rfl, this.1, by simpa using this.2⟩
  · have := hc (-d / a); exact ⟨this.1, le_rfl, by simpa using this.2⟩
  · rw [not_lt] at h2 h5
    have hdet : 0 < a * c - b * b := by linarith
    refine ⟨mul_nonneg h2 (by positivity), mul_nonneg h5 (by positivity), ?_⟩
    rw [← add_mul, mul_one_div, div_le_one hdet]; exact h1.le
  · have := hc ((c + e - (b + d)) / (a - 2 * b + c)); exact ⟨this.1, by linarith, by simp⟩
  · have := hc (-e / c); exact ⟨le_rfl, this.1, by simpa using this.2⟩
  · have := hc ((c + e - b - d) / (a - 2 * b + c)); exact ⟨this.1, by linarith, by simp⟩
  · have := hc (-e / c); exact ⟨this.1, le_rfl, by simpa using this.2⟩
  · have := hc ((c + e - b - d) / (a - 2 * b + c)); exact ⟨this.1, by linarith, by simp⟩

/-- first order optimality over the triangle of coordinates -/
def Opt (a b c d e : K) (st : K × K) : Prop :=
  0 ≤ -((a * st.1 + b * st.2 + d) * st.1 + (b * st.1 + c * st.2 + e) * st.2) ∧
  0 ≤ (a * st.1 + b * st.2 + d) - ((a * st.1 + b * st.2 + d) * st.1 + (b * st.1 + c * st.2 + e) * st.2) ∧
  0 ≤ (b * st.1 + c * st.2 + e) - ((a * st.1 + b * st.2 + d) * st.1 + (b * st.1 + c * st.2 + e) * st.2)

/-- edge `t0 t1` -/
theorem opt_edge0 {a b c d e : K} (ha : 0 < a) (hT : b * d - a * e ≤ 0) (h0 : 0 ≤ d → 0 ≤ e) (h1 : a + d ≤ 0 → a + d ≤ b + e) :
    Opt a b c d e (clamp (-d / a) 0 1, 0) := by
  unfold Opt
  simp only
  rcases clamp_cases (-d / a) with ⟨h, hc⟩ | ⟨h, h', hc⟩ | ⟨h, hc⟩ <;> rw [hc]
  · have hd : 0 ≤ d := by
      rw [div_le_iff₀ ha] at h; linarith
    have := h0 hd
    refine ⟨?_, ?_, ?_⟩ <;> linarith
  · have hs : a * (-d / a) + b * 0 + d = 0 := by field_simp; ring
    rw [hs]
    have : b * (-d / a) + c * 0 + e = (a * e - b * d) / a := by field_simp; ring
    have h2 : 0 ≤ (a * e - b * d) / a := div_nonneg (by linarith) ha.le
    rw [this]
    refine ⟨?_, ?_, ?_⟩ <;> linarith
  · have hd : a + d ≤ 0 := by
      rw [le_div_iff₀ ha] at h; linarith
    have := h1 hd
    refine ⟨?_, ?_, ?_⟩ <;> linarith

theorem Opt.swap {a b c d e s t : K} (h : Opt c b a e d (t, s)) : Opt a b c d e (s, t) := by
  obtain ⟨h1, h2, h3⟩ := h
  simp only at h1 h2 h3
  unfold Opt
  simp only
  refine ⟨?_, ?_, ?_⟩ <;> linarith

/-- edge `t0 t2` -/
theorem opt_edge1 {a b c d e : K} (hc : 0 < c) (hS : b * e - c * d ≤ 0) (h0 : 0 ≤ e → 0 ≤ d) (h1 : c + e ≤ 0 → c + e ≤ b + d) :
    Opt a b c d e (0, clamp (-e / c) 0 1) :=
  Opt.swap (opt_edge0 hc hS h0 h1)

/-- edge `t1 t2` -/
theorem opt_edge2 {a b c d e : K} (hD : 0 < a - 2 * b + c) (hST : a * c - b * b ≤ (b * e - c * d) + (b * d - a * e))
    (h0 : c + e ≤ b + d → c + e ≤ 0) (h1 : a + d ≤ b + e → a + d ≤ 0) :
    Opt a b c d e (clamp ((c + e - b - d) / (a - 2 * b + c)) 0 1, 1 - clamp ((c + e - b - d) / (a - 2 * b + c)) 0 1) := by
  unfold Opt
  simp only
  rcases clamp_cases ((c + e - b - d) / (a - 2 * b + c)) with ⟨h, hc⟩ | ⟨h, h', hc⟩ | ⟨h, hc⟩ <;> rw [hc]
  · rw [div_le_iff₀ hD] at h
    have := h0 (by linarith)
    refine ⟨?_, ?_, ?_⟩ <;> linarith
  · set s := (c + e - b - d) / (a - 2 * b + c) with hs
    have hs' : s * (a - 2 * b + c) = c + e - b - d := div_mul_cancel₀ _ (ne_of_gt hD)
    have heq : a * s + b * (1 - s) + d = b * s + c * (1 - s) + e := by linarith
    rw [← heq]
    have hle : a * s + b * (1 - s) + d ≤ 0 := by
      have : (a * s + b * (1 - s) + d) * (a - 2 * b + c) = (a * c - b * b) - ((b * e - c * d) + (b * d - a * e)) := by
        have : (a * s + b * (1 - s) + d) * (a - 2 * b + c) = (a - b) * (s * (a - 2 * b + c)) + (b + d) * (a - 2 * b + c) := by ring
        rw [this, hs']; ring
      by_contra hn
      have := mul_pos (not_le.1 hn) hD
      linarith
    refine ⟨?_, ?_, ?_⟩ <;> nlinarith
  · rw [le_div_iff₀ hD] at h
    have := h1 (by linarith)
    refine ⟨?_, ?_, ?_⟩ <;> linarith

/-- the inequality all cases come down to -/
theorem no_pair {a b c x y : K} (ha : 0 < a) (hdet : 0 < a * c - b * b) (hx : 0 < x) (h1 : a * x ≤ b * y) (h2 : c * y ≤ b * x) (hy : 0 ≤ y) :
    False := by
  have e1 : a * x * c ≤ b * y * c := mul_le_mul_of_nonneg_right h1 (by nlinarith)
  have hb : 0 ≤ b := by
    by_contra hb
    have := mul_nonneg (neg_nonneg.2 (not_le.1 hb).le) hy
    have := mul_pos ha hx
    linarith
  have e2 : b * (c * y) ≤ b * (b * x) := mul_le_mul_of_nonneg_left h2 hb
  have := mul_pos hdet hx
  linarith

theorem no_pair1 {a b c x y : K} (ha : 0 < a) (hdet : 0 < a * c - b * b) (hx : 0 ≤ x) (hxy : x < y) (h1 : a * y ≤ b * x)
    (h2 : x * (c - b) < y * (b - a)) : False := by
  have e1 : a * x < b * x := lt_of_lt_of_le (mul_lt_mul_of_pos_left hxy ha) h1
  have hx' : 0 < x := lt_of_le_of_ne hx (fun h => by rw [← h] at e1; simp at e1)
  have hab : a < b := lt_of_mul_lt_mul_right e1 hx
  have e2 : a * y * (b - a) ≤ b * x * (b - a) := mul_le_mul_of_nonneg_right h1 (by linarith)
  have e3 : a * (x * (c - b)) < a * (y * (b - a)) := mul_lt_mul_of_pos_left h2 ha
  have := mul_pos hdet hx'
  linarith

theorem no_pair2 {a b c x y : K} (hc : 0 < c) (hdet : 0 < a * c - b * b) (hy : 0 < y) (hyx : y ≤ x) (h1 : c * x ≤ b * y)
    (h2 : (a - b) * y ≤ (b - c) * x) : False := by
  have hcb : c ≤ b := by
    have : c * y ≤ b * y := (mul_le_mul_of_nonneg_left hyx hc.le).trans h1
    exact le_of_mul_le_mul_right this hy
  have e1 : c * x * (b - c) ≤ b * y * (b - c) := mul_le_mul_of_nonneg_right h1 (by linarith)
  have e2 : c * ((a - b) * y) ≤ c * ((b - c) * x) := mul_le_mul_of_nonneg_left h2 hc.le
  have := mul_pos hdet hy
  linarith

theorem coords_opt {a b c d e : K} (ha : 0 < a) (hc : 0 < c) (hdet : 0 < a * c - b * b) (hD : 0 < a - 2 * b + c)
    (hgood : ¬ (a * c - b * b ≤ (b * e - c * d) + (b * d - a * e) ∧ b * d - a * e < 0 ∧ 0 ≤ b * e - c * d ∧ a + d ≤ b + e)) :
    Opt a b c d e (closestCoords a b c d e) := by
  have hdet' : 0 < c * a - b * b := by linarith
  have hdn : 0 < a * c - -b * -b := by linarith
  -- the corner `t1` seen from the edge `t0 t1`
  have k0 : (b * e - c * d) + (b * d - a * e) < a * c - b * b → b * d - a * e < 0 → a + d ≤ 0 → a + d ≤ b + e := by
    intro h1 h2 h3
    by_contra hn
    exact no_pair1 (x := -(a + d)) (y := -(b + e)) ha hdet (by linarith) (by linarith) (by linarith) (by linarith)
  -- the corner `t2` seen from the edge `t0 t2`
  have k1 : (b * e - c * d) + (b * d - a * e) < a * c - b * b → b * e - c * d < 0 → c + e ≤ 0 → c + e ≤ b + d := by
    intro h1 h2 h3
    by_contra hn
    exact no_pair1 (x := -(c + e)) (y := -(b + d)) hc hdet' (by linarith) (by linarith) (by linarith) (by linarith)
  -- the two ends of the edge `t1 t2`
  have k2 : a * c - b * b ≤ (b * e - c * d) + (b * d - a * e) → 0 ≤ b * e - c * d → c + e ≤ b + d → c + e ≤ 0 := by
    intro h1 h2 h3
    by_contra hn
    exact no_pair2 (x := b + d) (y := c + e) hc hdet (by linarith) h3 (by linarith) (by linarith)
  have k3 : a * c - b * b ≤ (b * e - c * d) + (b * d - a * e) → 0 ≤ b * d - a * e → a + d ≤ b + e → a + d ≤ 0 := by
    intro h1 h2 h3
    by_contra hn
    exact no_pair2 (x := b + e) (y := a + d) ha hdet' (by linarith) h3 (by linarith) (by linarith)
  unfold closestCoords
  simp only
  split_ifs with h1 h2 h3 h4 h5 h6 h7 h8 h9
  · exact opt_edge0 ha h3.le (fun h => absurd h (not_le.2 h4)) (k0 h1 h3)
  · rw [not_lt] at h4
    exact opt_edge1 hc h2.le (fun _ => h4) (k1 h1 h2)
  · rw [not_lt] at h3
    refine opt_edge1 hc h2.le (fun h => ?_) (k1 h1 h2)
    by_contra hn
    rw [not_le] at hn
    have he : 0 < e := lt_of_le_of_ne h (fun h0 => by
      subst h0
      have := mul_pos hc (neg_pos.2 hn)
      linarith)
    exact no_pair (b := -b) (x := e) (y := -d) ha hdn he (by linarith) (by linarith) (by linarith)
  · rw [not_lt] at h2
    refine opt_edge0 ha h5.le (fun h => ?_) (k0 h1 h5)
    by_contra hn
    rw [not_le] at hn
    exact no_pair (b := -b) (x := -e) (y := d) ha hdn (by linarith) (by linarith) (by linarith) (by linarith)
  · unfold Opt
    simp only
    have hne : a * c - b * b ≠ 0 := ne_of_gt hdet
    have hk : (1 / (a * c - b * b)) * (a * c - b * b) = 1 := one_div_mul_cancel hne
    have e1 : a * ((b * e - c * d) * (1 / (a * c - b * b))) + b * ((b * d - a * e) * (1 / (a * c - b * b))) + d = 0 := by
      linear_combination (-d) * hk
    have e2 : b * ((b * e - c * d) * (1 / (a * c - b * b))) + c * ((b * d - a * e) * (1 / (a * c - b * b))) + e = 0 := by
      linear_combination (-e) * hk
    rw [e1, e2]
    refine ⟨?_, ?_, ?_⟩ <;> simp
  · rw [not_lt] at h1
    have := opt_edge2 (d := d) (e := e) hD h1 (fun h => absurd h (not_le.2 h7)) (k3 h1 (by linarith))
    rw [show c + e - (b + d) = c + e - b - d by ring]
    exact this
  · rw [not_lt] at h1 h7
    refine opt_edge1 hc h6.le (fun h => ?_) (fun _ => h7)
    by_contra hn
    rw [not_le] at hn
    have e1 : 0 ≤ b * e := mul_nonneg (by linarith) h
    have e2 := mul_pos hc (neg_pos.2 hn)
    linarith
  · rw [not_lt] at h1 h6
    exact opt_edge2 hD h1 (k2 h1 h6) (fun h => absurd h (not_le.2 h9))
  · exfalso
    rw [not_lt] at h1 h6 h9
    exact hgood ⟨h1, h8, h6, h9⟩
  · rw [not_lt] at h1 h6 h8
    exact opt_edge2 hD h1 (k2 h1 h6) (k3 h1 h8)

/-! ## C47 -/

theorem point_combo (t0 t1 t2 : Vec3 K) (s t : K) :
    t0 + Vec3.smul s (t1 - t0) + Vec3.smul t (t2 - t0) = Vec3.smul (1 - s - t) t0 + Vec3.smul s t1 + Vec3.smul t t2 := by
  ext <;> simp <;> ring

/-- **C47** (inside).  The returned point is in the triangle, whatever the triangle and the source. -/
theorem C47_inside (source t0 t1 t2 : Vec3 K) : InTriangle t0 t1 t2 (closestPointInTriangle source t0 t1 t2) := by
  unfold closestPointInTriangle
  simp only
  rw [point_combo]
  obtain ⟨h1, h2, h3⟩ := coords_in (Vec3.dot (t1 - t0) (t1 - t0)) (Vec3.dot (t1 - t0) (t2 - t0)) (Vec3.dot (t2 - t0) (t2 - t0))
    (Vec3.dot (t1 - t0) (t0 - source)) (Vec3.dot (t2 - t0) (t0 - source))
  exact ⟨_, _, _, by linarith, h1, h2, by ring, rfl⟩

theorem lagrange (u v : Vec3 K) :
    Vec3.dot u u * Vec3.dot v v - Vec3.dot u v * Vec3.dot u v = Vec3.normSq (Vec3.cross u v) := by
  simp only [Vec3.normSq, Vec3.dot, Vec3.cross]; ring

theorem normSq_nonneg (u : Vec3 K) : 0 ≤ Vec3.normSq u := by
  simp only [Vec3.normSq, Vec3.dot]
  nlinarith [mul_self_nonneg u.x, mul_self_nonneg u.y, mul_self_nonneg u.z]

theorem normSq_pos {u : Vec3 K} (h : u ≠ 0) : 0 < Vec3.normSq u := by
  refine lt_of_le_of_ne (normSq_nonneg u) fun h0 => h ?_
  simp only [Vec3.normSq, Vec3.dot] at h0
  have h1 := mul_self_nonneg u.x
  have h2 := mul_self_nonneg u.y
  have h3 := mul_self_nonneg u.z
  have hx : u.x = 0 := mul_self_eq_zero.1 (by linarith)
  have hy : u.y = 0 := mul_self_eq_zero.1 (by linarith)
  have hz : u.z = 0 := mul_self_eq_zero.1 (by linarith)
  ext <;> simp [hx, hy, hz]

/-- **C47** (closest).  Outside the region `BadRegion` no point of the triangle is closer to the source than the returned point.
Missing for the full property: the sources of `BadRegion`, for which it is false (`C47_violated`). -/
theorem C47_closest_partial (source t0 t1 t2 : Vec3 K) (hnd : NonDegenerate t0 t1 t2) (hgood : ¬ BadRegion source t0 t1 t2)
    (p : Vec3 K) (hp : InTriangle t0 t1 t2 p) :
    Vec3.distSq (closestPointInTriangle source t0 t1 t2) source ≤ Vec3.distSq p source := by
  obtain ⟨u, v, w, hu, hv, hw, hsum, rfl⟩ := hp
  unfold closestPointInTriangle
  simp only
  set e0 := t1 - t0 with he0
  set e1 := t2 - t0 with he1
  set v0 := t0 - source with hv0
  have hdet : 0 < Vec3.dot e0 e0 * Vec3.dot e1 e1 - Vec3.dot e0 e1 * Vec3.dot e0 e1 := by
    rw [lagrange]; exact normSq_pos hnd
  have ha : 0 < Vec3.dot e0 e0 := normSq_pos (u := e0) (by
    intro h; apply hnd; change Vec3.cross e0 e1 = 0; rw [h]; ext <;> simp [Vec3.cross])
  have hc : 0 < Vec3.dot e1 e1 := normSq_pos (u := e1) (by
    intro h; apply hnd; change Vec3.cross e0 e1 = 0; rw [h]; ext <;> simp [Vec3.cross])
  have hD : 0 < Vec3.dot e0 e0 - 2 * Vec3.dot e0 e1 + Vec3.dot e1 e1 := by
    have : Vec3.dot e0 e0 - 2 * Vec3.dot e0 e1 + Vec3.dot e1 e1 = Vec3.normSq (e0 - e1) := by
      simp only [Vec3.normSq, Vec3.dot, Vec3.sub_x, Vec3.sub_y, Vec3.sub_z]; ring
    rw [this]
    apply normSq_pos
    intro h
    apply hnd
    change Vec3.cross e0 e1 = 0
    have : e0 = e1 := by
      have hx := congrArg Vec3.x h
      have hy := congrArg Vec3.y h
      have hz := congrArg Vec3.z h
      simp only [Vec3.sub_x, Vec3.sub_y, Vec3.sub_z, Vec3.zero_x, Vec3.zero_y, Vec3.zero_z] at hx hy hz
      ext <;> linarith
    rw [this]; ext <;> simp [Vec3.cross] <;> ring
  obtain ⟨o1, o2, o3⟩ := coords_opt (d := Vec3.dot e0 v0) (e := Vec3.dot e1 v0) ha hc hdet hD hgood
  generalize closestCoords (Vec3.dot e0 e0) (Vec3.dot e0 e1) (Vec3.dot e1 e1) (Vec3.dot e0 v0) (Vec3.dot e1 v0) = st at o1 o2 o3 ⊢
  have hpt : Vec3.smul u t0 + Vec3.smul v t1 + Vec3.smul w t2 = t0 + Vec3.smul v e0 + Vec3.smul w e1 := by
    rw [he0, he1, point_combo, ← hsum]
    congr 3; ring
  rw [hpt]
  have key : Vec3.distSq (t0 + Vec3.smul v e0 + Vec3.smul w e1) source - Vec3.distSq (t0 + Vec3.smul st.1 e0 + Vec3.smul st.2 e1) source =
      2 * (u * -((Vec3.dot e0 e0 * st.1 + Vec3.dot e0 e1 * st.2 + Vec3.dot e0 v0) * st.1 + (Vec3.dot e0 e1 * st.1 + Vec3.dot e1 e1 * st.2 + Vec3.dot e1 v0) * st.2)
        + v * ((Vec3.dot e0 e0 * st.1 + Vec3.dot e0 e1 * st.2 + Vec3.dot e0 v0) - ((Vec3.dot e0 e0 * st.1 + Vec3.dot e0 e1 * st.2 + Vec3.dot e0 v0) * st.1 + (Vec3.dot e0 e1 * st.1 + Vec3.dot e1 e1 * st.2 + Vec3.dot e1 v0) * st.2))
        + w * ((Vec3.dot e0 e1 * st.1 + Vec3.dot e1 e1 * st.2 + Vec3.dot e1 v0) - ((Vec3.dot e0 e0 * st.1 + Vec3.dot e0 e1 * st.2 + Vec3.dot e0 v0) * st.1 + (Vec3.dot e0 e1 * st.1 + Vec3.dot e1 e1 * st.2 + Vec3.dot e1 v0) * st.2)))
      + Vec3.normSq (Vec3.smul (v - st.1) e0 + Vec3.smul (w - st.2) e1) := by
    have : u = 1 - v - w := by linarith
    rw [this, hv0]
    simp only [Vec3.distSq, Vec3.normSq, Vec3.dot, Vec3.sub_x, Vec3.sub_y, Vec3.sub_z, Vec3.add_x, Vec3.add_y, Vec3.add_z, Vec3.smul_x,
      Vec3.smul_y, Vec3.smul_z]
    ring
  have h4 := normSq_nonneg (Vec3.smul (v - st.1) e0 + Vec3.smul (w - st.2) e1)
  have g1 := mul_nonneg hu o1
  have g2 := mul_nonneg hv o2
  have g3 := mul_nonneg hw o3
  linarith

/-- a right triangle -/
def dT0 : Vec3 ℚ := ⟨0, 0, 0⟩
def dT1 : Vec3 ℚ := ⟨1, 0, 0⟩
def dT2 : Vec3 ℚ := ⟨0, 1, 0⟩

/-- C47 applies to sources above the triangle and to sources outside it -/
example : NonDegenerate dT0 dT1 dT2 ∧ ¬ BadRegion ⟨2, 2, 1⟩ dT0 dT1 dT2 ∧
    closestPointInTriangle ⟨2, 2, 1⟩ dT0 dT1 dT2 = ⟨1/2, 1/2, 0⟩ ∧ closestPointInTriangle ⟨1/4, 1/4, 1⟩ dT0 dT1 dT2 = ⟨1/4, 1/4, 0⟩ :=
  ⟨by unfold NonDegenerate; decide +kernel, by unfold BadRegion; decide +kernel, by decide +kernel, by decide +kernel⟩

/-- **C47 is violated** (projection.cc:587 clamps `-e/c` where the coordinate along the first edge is `-d/a`): for the source `(2, -1, 0)` the code
returns the corner `(0, 0, 0)` at squared distance 5, although the corner `(1, 0, 0)` is at squared distance 2. -/
theorem C47_violated : NonDegenerate dT0 dT1 dT2 ∧ closestPointInTriangle ⟨2, -1, 0⟩ dT0 dT1 dT2 = dT0 ∧
    ∃ p, InTriangle dT0 dT1 dT2 p ∧
      Vec3.distSq p ⟨2, -1, 0⟩ < Vec3.distSq (closestPointInTriangle ⟨2, -1, 0⟩ dT0 dT1 dT2) ⟨2, -1, 0⟩ :=
  ⟨by unfold NonDegenerate; decide +kernel, by decide +kernel, dT1, ⟨0, 1, 0, by norm_num, by norm_num, by norm_num, by norm_num, by decide +kernel⟩,
    by decide +kernel⟩

/-! ## C84: point in triangle -/

/-- **C84** (`PointInTriangle`).  For a point of the plane of a triangle with non-zero area the answer is "yes" exactly for the points of the triangle. -/
theorem C84_pointInTriangle (a b c p : Vec3 K) (hnd : NonDegenerate a b c)
    (hplane : Vec3.dot (Vec3.cross (b - a) (c - a)) (p - a) = 0) :
    pointInTriangle p a b c = true ↔ InTriangle a b c p := by
  set n := Vec3.cross (b - a) (c - a) with hn
  have hpos : 0 < Vec3.normSq n := normSq_pos hnd
  set V := Vec3.dot (Vec3.cross (p - a) (c - a)) n with hV
  set W := Vec3.dot (Vec3.cross (b - a) (p - a)) n with hW
  have s1 : Vec3.dot (Vec3.cross (c - b) (p - b)) (Vec3.cross (c - b) (a - b)) = Vec3.normSq n - V - W := by
    rw [hV, hW, hn]
    simp only [Vec3.normSq, Vec3.dot, Vec3.cross, Vec3.sub_x, Vec3.sub_y, Vec3.sub_z]; ring
  have s2 : Vec3.dot (Vec3.cross (c - a) (p - a)) (Vec3.cross (c - a) (b - a)) = V := by
    rw [hV, hn]
    simp only [Vec3.dot, Vec3.cross, Vec3.sub_x, Vec3.sub_y, Vec3.sub_z]; ring
  have s3 : Vec3.dot (Vec3.cross (b - a) (p - a)) (Vec3.cross (b - a) (c - a)) = W := rfl
  have hiff : pointInTriangle p a b c = true ↔ (0 ≤ Vec3.normSq n - V - W ∧ 0 ≤ V) ∧ 0 ≤ W := by
    unfold pointInTriangle sameSide
    rw [s1, s2, s3]
    simp
  rw [hiff]
  constructor
  · rintro ⟨⟨h1, h2⟩, h3⟩
    refine ⟨(Vec3.normSq n - V - W) / Vec3.normSq n, V / Vec3.normSq n, W / Vec3.normSq n, by positivity, by positivity, by positivity, ?_, ?_⟩
    · rw [← add_div, ← add_div, div_eq_one_iff_eq hpos.ne']; ring
    · have ex : Vec3.normSq n * (p.x - a.x) = V * (b.x - a.x) + W * (c.x - a.x) + Vec3.dot n (p - a) * n.x := by
        rw [hV, hW, hn]
        simp only [Vec3.normSq, Vec3.dot, Vec3.cross, Vec3.sub_x, Vec3.sub_y, Vec3.sub_z]; ring
      have ey : Vec3.normSq n * (p.y - a.y) = V * (b.y - a.y) + W * (c.y - a.y) + Vec3.dot n (p - a) * n.y := by
        rw [hV, hW, hn]
        simp only [Vec3.normSq, Vec3.dot, Vec3.cross, Vec3.sub_x, Vec3.sub_y, Vec3.sub_z]; ring
      have ez : Vec3.normSq n * (p.z - a.z) = V * (b.z - a.z) + W * (c.z - a.z) + Vec3.dot n (p - a) * n.z := by
        rw [hV, hW, hn]
        simp only [Vec3.normSq, Vec3.dot, Vec3.cross, Vec3.sub_x, Vec3.sub_y, Vec3.sub_z]; ring
      rw [hplane] at ex ey ez
      have hne := hpos.ne'
      ext
      · simp only [Vec3.add_x, Vec3.smul_x]; field_simp; linarith
      · simp only [Vec3.add_y, Vec3.smul_y]; field_simp; linarith
      · simp only [Vec3.add_z, Vec3.smul_z]; field_simp; linarith
  · rintro ⟨u, v, w, h1, h2, h3, hs, hp⟩
    have hpa : p - a = Vec3.smul v (b - a) + Vec3.smul w (c - a) := by
      have : u = 1 - v - w := by linarith
      rw [hp, this]; ext <;> simp <;> ring
    have eV : V = v * Vec3.normSq n := by
      rw [hV, hpa, hn]
      simp only [Vec3.normSq, Vec3.dot, Vec3.cross, Vec3.sub_x, Vec3.sub_y, Vec3.sub_z, Vec3.add_x, Vec3.add_y, Vec3.add_z, Vec3.smul_x,
        Vec3.smul_y, Vec3.smul_z]
      ring
    have eW : W = w * Vec3.normSq n := by
      rw [hW, hpa, hn]
      simp only [Vec3.normSq, Vec3.dot, Vec3.cross, Vec3.sub_x, Vec3.sub_y, Vec3.sub_z, Vec3.add_x, Vec3.add_y, Vec3.add_z, Vec3.smul_x,
        Vec3.smul_y, Vec3.smul_z]
      ring
    refine ⟨⟨?_, by rw [eV]; positivity⟩, by rw [eW]; positivity⟩
    have : Vec3.normSq n - V - W = u * Vec3.normSq n := by rw [eV, eW]; linear_combination (-Vec3.normSq n) * hs
    rw [this]; positivity

/-- C84 is not vacuous: a point of the plane inside, one outside -/
example : pointInTriangle ⟨1/4, 1/4, 0⟩ dT0 dT1 dT2 = true ∧ pointInTriangle ⟨1, 1, 0⟩ dT0 dT1 dT2 = false ∧
    Vec3.dot (Vec3.cross (dT1 - dT0) (dT2 - dT0)) ((⟨1/4, 1/4, 0⟩ : Vec3 ℚ) - dT0) = 0 :=
  ⟨by decide +kernel, by decide +kernel, by decide +kernel⟩

end Triangle
end Rbprm
