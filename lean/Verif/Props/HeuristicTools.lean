import Verif.Props.HeuristicHull
import Mathlib.Data.List.Rotate
import Mathlib.Data.Nat.Basic
set_option linter.unusedSectionVars false
/-!
# Tools of the heuristics (C105–C107, C109)
-/
namespace Rbprm
namespace Heur

/-! ### C105: copies of the parameters -/

/-- C105 (part): a copy, or the target of an assignment, has the contacts, the centre of mass with its speed and acceleration, the limb and the transform of the source. -/
theorem C105_partial {N T P : Type _} (this z : HeuristicParam N T P) (junk : ℝ × Vec3 ℝ) :
    ((z.copy junk).contactPositions = z.contactPositions ∧ (z.copy junk).comPosition = z.comPosition ∧ (z.copy junk).comSpeed = z.comSpeed ∧
      (z.copy junk).comAcceleration = z.comAcceleration ∧ (z.copy junk).sampleLimbName = z.sampleLimbName ∧ (z.copy junk).tfWorldRoot = z.tfWorldRoot) ∧
    ((this.assign z).contactPositions = z.contactPositions ∧ (this.assign z).comPosition = z.comPosition ∧ (this.assign z).comSpeed = z.comSpeed ∧
      (this.assign z).comAcceleration = z.comAcceleration ∧ (this.assign z).sampleLimbName = z.sampleLimbName ∧ (this.assign z).tfWorldRoot = z.tfWorldRoot) :=
  ⟨⟨rfl, rfl, rfl, rfl, rfl, rfl⟩, ⟨rfl, rfl, rfl, rfl, rfl, rfl⟩⟩

/-- **C105 is violated**: a copy of parameters with a path of the centre of mass has no path, and an assignment keeps the path, the position on it and the offset of the target. -/
theorem C105_violated {N T P : Type _} (this z : HeuristicParam N T P) (junk : ℝ × Vec3 ℝ) (hz : z.comPath ≠ none) :
    (z.copy junk).comPath ≠ z.comPath ∧ (this.assign z).comPath = this.comPath ∧ (this.assign z).currentPathId = this.currentPathId ∧
      (this.assign z).limbReferenceOffset = this.limbReferenceOffset :=
  ⟨fun h => hz h.symm, rfl, rfl, rfl⟩

/-- non-vacuity -/
example : (⟨[], 0, 0, 0, 1, (), some 7, 0, 0⟩ : HeuristicParam ℕ Unit ℕ).comPath ≠ none := by simp

/-! ### C106: contacts on the ground -/

theorem foldl_lowest {N : Type _} (l : List (N × Vec3 ℝ)) (m : ℝ) :
    (∀ c ∈ l, l.foldl (fun m c => if c.2.z < m then c.2.z else m) m ≤ c.2.z) ∧ l.foldl (fun m c => if c.2.z < m then c.2.z else m) m ≤ m ∧
      (l.foldl (fun m c => if c.2.z < m then c.2.z else m) m = m ∨ ∃ c ∈ l, l.foldl (fun m c => if c.2.z < m then c.2.z else m) m = c.2.z) := by
  induction l generalizing m with
  | nil => simp
  | cons a l ih =>
    obtain ⟨h1, h2, h3⟩ := ih (if a.2.z < m then a.2.z else m)
    simp only [List.foldl_cons]
    have ha : (if a.2.z < m then a.2.z else m) ≤ a.2.z := by split_ifs with h; exacts [le_rfl, not_lt.1 h]
    have hm : (if a.2.z < m then a.2.z else m) ≤ m := by split_ifs with h; exacts [h.le, le_rfl]
    refine ⟨fun x hx => ?_, h2.trans hm, ?_⟩
    · rcases List.mem_cons.1 hx with rfl | hx
      · exact h2.trans ha
      · exact h1 x hx
    · rcases h3 with h3 | ⟨c, hc, h3⟩
      · by_cases h : a.2.z < m
        · right; exact ⟨a, by simp, by rw [h3, if_pos h]⟩
        · left; rw [h3, if_neg h]
      · right; exact ⟨c, by simp [hc], h3⟩

theorem find?_eraseAll {N V : Type _} [LinearOrder N] (out : List N) (m : AMap N V) (n : N) :
    (out.foldl (fun m n => AMap.erase m n) m).find? n = if n ∈ out then none else m.find? n := by
  induction out generalizing m with
  | nil => simp
  | cons a out ih =>
    simp only [List.foldl_cons]
    rw [ih, AMap.find?_erase]
    by_cases h : n = a
    · simp [h]
    · by_cases h' : n ∈ out <;> simp [h, h']

theorem WF_eraseAll {N V : Type _} [LinearOrder N] (out : List N) (m : AMap N V) (h : m.WF) : (out.foldl (fun m n => AMap.erase m n) m).WF := by
  induction out generalizing m with
  | nil => exact h
  | cons a out ih => exact ih _ (AMap.WF_erase h a)

/-- C106: of a non-empty set of contacts exactly those remain whose height exceeds the lowest one by at most the threshold, unchanged; the lowest contact always remains. -/
theorem C106_ground {N : Type _} [LinearOrder N] (contacts : AMap N (Vec3 ℝ)) (hwf : contacts.WF) (hne : contacts ≠ []) (thr : ℝ) :
    ∃ res low n0 p0, removeNonGround contacts thr = some res ∧ res.WF ∧
      contacts.find? n0 = some p0 ∧ p0.z = low ∧ (∀ n p, contacts.find? n = some p → low ≤ p.z) ∧
      res.find? n0 = some p0 ∧
      ∀ n p, res.find? n = some p ↔ contacts.find? n = some p ∧ p.z - low ≤ |thr| := by
  cases contacts with
  | nil => exact absurd rfl hne
  | cons e rest =>
    obtain ⟨h1, h2, h3⟩ := foldl_lowest (e :: rest) e.2.z
    set low := (e :: rest).foldl (fun m c => if c.2.z < m then c.2.z else m) e.2.z with hlow
    have hmin : ∃ c ∈ e :: rest, low = c.2.z := by
      rcases h3 with h | h
      · exact ⟨e, by simp, h⟩
      · exact h
    obtain ⟨c0, hc0, hl0⟩ := hmin
    have hfind : ∀ n p, AMap.find? (e :: rest) n = some p → low ≤ p.z := fun n p h => h1 (n, p) (AMap.find?_some_mem h)
    have hiff : ∀ n p, AMap.find? ((((e :: rest).filter fun c => decide (|c.2.z - low| > |thr|)).map Prod.fst).foldl (fun m n => AMap.erase m n) (e :: rest)) n = some p ↔
        AMap.find? (e :: rest) n = some p ∧ p.z - low ≤ |thr| := by
      intro n p
      rw [find?_eraseAll]
      by_cases hin : n ∈ ((e :: rest).filter fun c => decide (|c.2.z - low| > |thr|)).map Prod.fst
      · rw [if_pos hin]
        refine ⟨by simp, ?_⟩
        rintro ⟨hf, hle⟩
        obtain ⟨⟨n', p'⟩, hm, rfl⟩ := List.mem_map.1 hin
        rw [List.mem_filter] at hm
        have := AMap.mem_find? hwf hm.1
        rw [hf] at this
        cases this
        have hgt := hm.2
        simp only [gt_iff_lt, decide_eq_true_eq] at hgt
        rw [abs_of_nonneg (show 0 ≤ p.z - low by linarith [hfind _ _ hf])] at hgt
        linarith
      · rw [if_neg hin]
        refine ⟨fun hf => ⟨hf, ?_⟩, fun h => h.1⟩
        by_contra hcon
        refine hin (List.mem_map.2 ⟨(n, p), List.mem_filter.2 ⟨AMap.find?_some_mem hf, ?_⟩, rfl⟩)
        simp only [gt_iff_lt, decide_eq_true_eq]
        rw [abs_of_nonneg (show 0 ≤ p.z - low by linarith [hfind _ _ hf])]
        linarith
    have hf0 := AMap.mem_find? hwf (k := c0.1) (v := c0.2) hc0
    refine ⟨_, low, c0.1, c0.2, rfl, WF_eraseAll _ _ hwf, hf0, hl0.symm, hfind, ?_, hiff⟩
    exact (hiff _ _).2 ⟨hf0, by rw [hl0]; simp⟩

example : AMap.WF ([(1, ⟨0, 0, 0⟩), (2, ⟨0, 0, 1⟩)] : AMap ℕ (Vec3 ℝ)) := by unfold AMap.WF; decide

/-- without contacts `removeNonGroundContacts` reads the end of the map -/
theorem C106_empty {N : Type _} [LinearOrder N] (thr : ℝ) : removeNonGround ([] : AMap N (Vec3 ℝ)) thr = none := rfl

/-! ### C107: projections -/

/-- the point is on the plane -/
def OnPlane (pl : Plane) (p : Vec3 ℝ) : Prop := pl.a * p.x + pl.b * p.y + pl.c * p.z + pl.d = 0

/-- C107: the orthogonal projection is on the plane, and no point of the plane is nearer to the point. -/
theorem C107_projection (p : Vec3 ℝ) (pl : Plane) (h : pl.a ≠ 0 ∨ pl.b ≠ 0 ∨ pl.c ≠ 0) :
    OnPlane pl (orthogonalProjection p pl) ∧ ∀ q, OnPlane pl q → Vec3.distSq p (orthogonalProjection p pl) ≤ Vec3.distSq p q := by
  have hn : 0 < pl.a ^ 2 + pl.b ^ 2 + pl.c ^ 2 := by
    rcases h with h | h | h
    · have := pow_pos (abs_pos.2 h) 2; rw [sq_abs] at this; positivity
    · have := pow_pos (abs_pos.2 h) 2; rw [sq_abs] at this; positivity
    · have := pow_pos (abs_pos.2 h) 2; rw [sq_abs] at this; positivity
  set n := pl.a ^ 2 + pl.b ^ 2 + pl.c ^ 2 with hnn
  set v := pl.a * p.x + pl.b * p.y + pl.c * p.z + pl.d with hv
  have hk : (v / n) * n = v := div_mul_cancel₀ _ hn.ne'
  have hon : OnPlane pl (orthogonalProjection p pl) := by
    unfold OnPlane orthogonalProjection
    simp only
    rw [← hv, ← hnn]
    linear_combination (-1 : ℝ) * hk + hv + (-(v / n)) * hnn - hv + (v / n) * hnn - (v / n) * hnn + (v / n) * hnn
  refine ⟨hon, fun q hq => ?_⟩
  unfold OnPlane at hq
  simp only [Vec3.distSq, Vec3.normSq, Vec3.dot, Vec3.sub_x, Vec3.sub_y, Vec3.sub_z, orthogonalProjection]
  rw [← hv, ← hnn]
  generalize hkk : v / n = k at *
  have e1 : (p.x - (p.x - k * pl.a)) * (p.x - (p.x - k * pl.a)) + (p.y - (p.y - k * pl.b)) * (p.y - (p.y - k * pl.b)) + (p.z - (p.z - k * pl.c)) * (p.z - (p.z - k * pl.c)) = k * k * n := by rw [hnn]; ring
  rw [e1]
  have e2 : pl.a * (p.x - q.x) + pl.b * (p.y - q.y) + pl.c * (p.z - q.z) = v := by rw [hv]; linear_combination (-1:ℝ) * hq
  have cs : v * v ≤ n * ((p.x - q.x) * (p.x - q.x) + (p.y - q.y) * (p.y - q.y) + (p.z - q.z) * (p.z - q.z)) := by
    rw [← e2, hnn]
    nlinarith [sq_nonneg (pl.a * (p.y - q.y) - pl.b * (p.x - q.x)), sq_nonneg (pl.a * (p.z - q.z) - pl.c * (p.x - q.x)), sq_nonneg (pl.b * (p.z - q.z) - pl.c * (p.y - q.y))]
  have : n * (k * k * n) ≤ n * ((p.x - q.x) * (p.x - q.x) + (p.y - q.y) * (p.y - q.y) + (p.z - q.z) * (p.z - q.z)) := by
    have e3 : n * (k * k * n) = v * v := by rw [← hk]; ring
    rw [e3]; exact cs
  exact le_of_mul_le_mul_left this hn

/-- C107: the support polygon of the contacts consists of their horizontal coordinates, in the order of the contacts. -/
theorem C107_support {N : Type _} (contacts : AMap N (Vec3 ℝ)) : supportPolygon contacts = contacts.map fun e => (e.2.x, e.2.y) := by
  unfold supportPolygon
  refine List.map_congr_left fun e _ => ?_
  simp [orthogonalProjection]

/-- C107: `transform` is the rotation followed by the translation; with an orthogonal matrix it keeps distances. -/
theorem C107_transform (p q tr : Vec3 ℝ) (ro : Mat3 ℝ) :
    transform p tr ro = ro.mulVec p + tr ∧
    ((∀ v : Vec3 ℝ, (ro.mulVec v).normSq = v.normSq) → Vec3.distSq (transform p tr ro) (transform q tr ro) = Vec3.distSq p q) := by
  constructor
  · ext <;> simp [transform, Mat3.mulVec, Vec3.dot] <;> ring
  · intro h
    have e : transform p tr ro - transform q tr ro = ro.mulVec (p - q) := by
      ext <;> simp [transform, Mat3.mulVec, Vec3.dot] <;> ring
    unfold Vec3.distSq
    rw [e, h]

example : ∀ v : Vec3 ℝ, ((⟨⟨0, -1, 0⟩, ⟨1, 0, 0⟩, ⟨0, 0, 1⟩⟩ : Mat3 ℝ).mulVec v).normSq = v.normSq := by
  intro v; simp [Mat3.mulVec, Vec3.normSq, Vec3.dot]; ring

/-! ### C109: weighted centroid -/

theorem mean_singleton (p : V2) : mean [p] = p := by simp [mean]

theorem sum_mem {C : Set V2} (hC : Convex ℝ C) (l : List V2) (hne : l ≠ []) (hl : ∀ p ∈ l, p ∈ C) : mean l ∈ C := by
  have key : ∀ l : List V2, (∀ p ∈ l, p ∈ C) → l ≠ [] → ((l.map Prod.fst).sum / (l.length : ℝ), (l.map Prod.snd).sum / (l.length : ℝ)) ∈ C := by
    intro l
    induction l with
    | nil => intro _ h; exact absurd rfl h
    | cons a l ih =>
      intro hl _
      by_cases h0 : l = []
      · subst h0; simpa using hl a (by simp)
      · have h1 := ih (fun p hp => hl p (by simp [hp])) h0
        have hlen : (0 : ℝ) < l.length := by exact_mod_cast List.length_pos_of_ne_nil h0
        have h2 := hC (hl a (by simp)) h1 (a := 1 / ((l.length : ℝ) + 1)) (b := (l.length : ℝ) / ((l.length : ℝ) + 1)) (by positivity) (by positivity) (by field_simp; ring)
        convert h2 using 1
        ext
        · simp only [List.map_cons, List.sum_cons, List.length_cons, Nat.cast_add, Nat.cast_one, Prod.fst_add, Prod.smul_fst, smul_eq_mul]
          field_simp
        · simp only [List.map_cons, List.sum_cons, List.length_cons, Nat.cast_add, Nat.cast_one, Prod.snd_add, Prod.smul_snd, smul_eq_mul]
          field_simp
  exact key l hl hne

/-- the closed polygon has an edge from `p` to `q` -/
def PolyEdge (poly : List V2) (p q : V2) : Prop := (∃ pre post, poly = pre ++ p :: q :: post) ∨ (poly.getLast? = some p ∧ poly.head? = some q)

/-- `m` is the length of the longest edge -/
def LongestEdge (poly : List V2) (m : ℝ) : Prop := (∃ p q, PolyEdge poly p q ∧ dist2 p q = m) ∧ ∀ p q, PolyEdge poly p q → dist2 p q ≤ m

theorem mem_zip_tail {a : V2} {l : List V2} {p q : V2} : (p, q) ∈ (a :: l).zip l ↔ ∃ pre post, a :: l = pre ++ p :: q :: post := by
  induction l generalizing a with
  | nil =>
    simp only [List.zip_nil_right, List.not_mem_nil, false_iff]
    rintro ⟨pre, post, h⟩
    have := congrArg List.length h
    simp at this
    omega
  | cons b l ih =>
    simp only [List.zip_cons_cons, List.mem_cons, Prod.mk.injEq]
    rw [ih]
    constructor
    · rintro (⟨rfl, rfl⟩ | ⟨pre, post, h⟩)
      · exact ⟨[], l, rfl⟩
      · exact ⟨a :: pre, post, by rw [h]; rfl⟩
    · rintro ⟨pre, post, h⟩
      cases pre with
      | nil => simp only [List.nil_append, List.cons.injEq] at h; left; exact ⟨h.1.symm, h.2.1.symm⟩
      | cons x pre => simp only [List.cons_append, List.cons.injEq] at h; right; exact ⟨pre, post, h.2⟩

theorem foldl_edges (es : List (V2 × V2)) (m : ℝ) :
    (∀ e ∈ es, dist2 e.1 e.2 ≤ es.foldl (fun m e => if dist2 e.1 e.2 > m then dist2 e.1 e.2 else m) m) ∧
    m ≤ es.foldl (fun m e => if dist2 e.1 e.2 > m then dist2 e.1 e.2 else m) m ∧
    (es.foldl (fun m e => if dist2 e.1 e.2 > m then dist2 e.1 e.2 else m) m = m ∨ ∃ e ∈ es, es.foldl (fun m e => if dist2 e.1 e.2 > m then dist2 e.1 e.2 else m) m = dist2 e.1 e.2) := by
  induction es generalizing m with
  | nil => simp
  | cons a es ih =>
    obtain ⟨h1, h2, h3⟩ := ih (if dist2 a.1 a.2 > m then dist2 a.1 a.2 else m)
    simp only [List.foldl_cons]
    have ha : dist2 a.1 a.2 ≤ (if dist2 a.1 a.2 > m then dist2 a.1 a.2 else m) := by split_ifs with h; exacts [le_rfl, not_lt.1 h]
    have hm : m ≤ (if dist2 a.1 a.2 > m then dist2 a.1 a.2 else m) := by split_ifs with h; exacts [le_of_lt h, le_rfl]
    refine ⟨fun x hx => ?_, hm.trans h2, ?_⟩
    · rcases List.mem_cons.1 hx with rfl | hx
      · exact ha.trans h2
      · exact h1 x hx
    · rcases h3 with h3 | ⟨c, hc, h3⟩
      · by_cases h : dist2 a.1 a.2 > m
        · right; exact ⟨a, by simp, by rw [h3, if_pos h]⟩
        · left; rw [h3, if_neg h]
      · right; exact ⟨c, by simp [hc], h3⟩

theorem getLast?_cons_getLastD (a : V2) (l : List V2) : (a :: l).getLast? = some (l.getLastD a) := by
  induction l generalizing a with
  | nil => rfl
  | cons b l ih => rw [List.getLast?_cons_cons, ih b, List.getLastD_cons]

theorem maxEdge_spec (a : V2) (l : List V2) : LongestEdge (a :: l) (maxEdge a l) := by
  obtain ⟨h1, h2, h3⟩ := foldl_edges ((a :: l).zip l) (dist2 (l.getLastD a) a)
  have hwrap : PolyEdge (a :: l) (l.getLastD a) a := Or.inr ⟨getLast?_cons_getLastD a l, rfl⟩
  constructor
  · rcases h3 with h | ⟨⟨p, q⟩, he, h⟩
    · exact ⟨_, _, hwrap, h.symm⟩
    · exact ⟨p, q, Or.inl (mem_zip_tail.1 he), h.symm⟩
  · rintro p q (h | ⟨hp, hq⟩)
    · exact h1 (p, q) (mem_zip_tail.2 h)
    · rw [getLast?_cons_getLastD] at hp
      simp only [List.head?_cons, Option.some.injEq] at hp hq
      subst hp; subst hq
      exact h2

theorem dist2_eq_zero {p q : V2} : dist2 p q = 0 ↔ p = q := by
  unfold dist2
  rw [Real.sqrt_eq_zero (by positivity)]
  constructor
  · intro h
    have h1 : p.1 - q.1 = 0 := by nlinarith [sq_nonneg (p.1 - q.1), sq_nonneg (p.2 - q.2)]
    have h2 : p.2 - q.2 = 0 := by nlinarith [sq_nonneg (p.1 - q.1), sq_nonneg (p.2 - q.2)]
    exact Prod.ext (by linarith) (by linarith)
  · rintro rfl; simp

theorem dist2_nonneg (p q : V2) : 0 ≤ dist2 p q := Real.sqrt_nonneg _

/-- if all edges have length 0 the polygon is one point -/
theorem all_equal {a : V2} {l : List V2} (h : ∀ p q, PolyEdge (a :: l) p q → dist2 p q = 0) : ∀ p ∈ l, p = a := by
  have key : ∀ (l : List V2) (a : V2), (∀ pre p q post, a :: l = pre ++ p :: q :: post → p = q) → ∀ p ∈ l, p = a := by
    intro l
    induction l with
    | nil => intro a _ p hp; simp at hp
    | cons b l ih =>
      intro a h p hp
      have hab : a = b := h [] a b l rfl
      subst hab
      rcases List.mem_cons.1 hp with rfl | hp
      · rfl
      · exact ih a (fun pre p q post he => h (a :: pre) p q post (by rw [he]; rfl)) p hp
  exact key l a fun pre p q post he => dist2_eq_zero.1 (h p q (Or.inl ⟨pre, post, he⟩))

theorem shiftLoop_stop (thr : ℝ) (fuel : ℕ) (a : V2) (l : List V2) (h : ¬ dist2 (l.getLastD a) a ≤ thr) : shiftLoop thr (fuel + 1) a l = some (a, l) := by
  cases l <;> rw [shiftLoop, if_neg h]

theorem shiftLoop_step (thr : ℝ) (fuel : ℕ) (a b : V2) (l : List V2) (h : dist2 ((b :: l).getLastD a) a ≤ thr) :
    shiftLoop thr (fuel + 1) a (b :: l) = shiftLoop thr fuel b (l ++ [a]) := by
  rw [shiftLoop, if_pos h]

theorem shiftLoop_edge (thr : ℝ) (pre : List V2) (p q : V2) (post : List V2) (h : dist2 p q > thr) (fuel : ℕ) (hf : pre.length + 2 ≤ fuel) (a : V2) (l : List V2)
    (he : a :: l = pre ++ p :: q :: post) : ∃ b m, shiftLoop thr fuel a l = some (b, m) ∧ (b :: m) ~r (a :: l) ∧ dist2 (m.getLastD b) b > thr := by
  induction pre generalizing a l fuel post with
  | nil =>
    simp only [List.nil_append, List.cons.injEq] at he
    obtain ⟨rfl, rfl⟩ := he
    obtain ⟨fuel, rfl⟩ : ∃ f, fuel = f + 2 := ⟨fuel - 2, by simp at hf; omega⟩
    by_cases hc : dist2 ((q :: post).getLastD a) a ≤ thr
    · refine ⟨q, post ++ [a], ?_, ?_, ?_⟩
      · rw [shiftLoop_step _ _ _ _ _ hc]
        refine shiftLoop_stop _ _ _ _ ?_
        rw [List.getLastD_concat]
        exact not_le.2 h
      · exact (List.isRotated_concat a (q :: post)).symm.symm
      · rw [List.getLastD_concat]; exact h
    · refine ⟨a, q :: post, shiftLoop_stop _ _ _ _ hc, List.IsRotated.refl _, not_le.1 hc⟩
  | cons x pre ih =>
    simp only [List.cons_append, List.cons.injEq] at he
    obtain ⟨rfl, rfl⟩ := he
    obtain ⟨fuel, rfl⟩ : ∃ f, fuel = f + 1 := ⟨fuel - 1, by simp at hf; omega⟩
    by_cases hc : dist2 ((pre ++ p :: q :: post).getLastD a) a ≤ thr
    · have hne : ∃ c cs, pre ++ p :: q :: post = c :: cs := by cases pre <;> simp
      obtain ⟨c, cs, hcs⟩ := hne
      obtain ⟨b, m, h1, h2, h3⟩ := ih (post ++ [a]) fuel (by simp at hf ⊢; omega) c (cs ++ [a]) (by rw [← List.cons_append, ← hcs]; simp)
      refine ⟨b, m, ?_, ?_, h3⟩
      · rw [hcs] at hc ⊢
        rw [shiftLoop_step _ _ _ _ _ hc]
        exact h1
      · refine h2.trans ?_
        rw [← List.cons_append, ← hcs]
        exact List.isRotated_concat a _
    · refine ⟨a, pre ++ p :: q :: post, shiftLoop_stop _ _ _ _ hc, List.IsRotated.refl _, not_le.1 hc⟩

/-- the polygon is cut in groups: within a group neighbours are near, between two groups they are not -/
structure Grouping (thr : ℝ) (rotated : List V2) (groups : List (List V2)) : Prop where
  flatten : groups.flatten = rotated
  nonempty : ∀ g ∈ groups, g ≠ []
  near : ∀ g ∈ groups, List.IsChain (fun p q => dist2 p q ≤ thr) g
  far : List.IsChain (fun g h => ∃ p q, g.getLast? = some p ∧ h.head? = some q ∧ dist2 p q > thr) groups

/-- the invariant of the grouping loop: `next` is the point that follows the processed ones -/
structure GInv (thr : ℝ) (done : List V2) (next : V2) (groups : List (List V2)) (st : Group) : Prop where
  flatten : groups.flatten ++ st.localSubset = done
  final : st.final = groups.map mean
  ongoing : st.ongoing = false ↔ st.localSubset = []
  nonempty : ∀ g ∈ groups, g ≠ []
  near : ∀ g ∈ groups, List.IsChain (fun p q => dist2 p q ≤ thr) g
  nearLocal : List.IsChain (fun p q => dist2 p q ≤ thr) (st.localSubset ++ (if st.localSubset = [] then [] else [next]))
  far : List.IsChain (fun g h => ∃ p q, g.getLast? = some p ∧ h.head? = some q ∧ dist2 p q > thr) groups
  farNext : ∀ g, groups.getLast? = some g → ∃ p q, g.getLast? = some p ∧ (st.localSubset ++ [next]).head? = some q ∧ dist2 p q > thr

theorem groupStep_inv {thr : ℝ} {done : List V2} {p q : V2} {groups : List (List V2)} {st : Group} (h : GInv thr done p groups st) :
    ∃ groups', GInv thr (done ++ [p]) q groups' (groupStep thr st p q) ∧ (dist2 p q > thr → (groupStep thr st p q).localSubset = []) := by
  obtain ⟨h1, h2, h3, h4, h5, h6, h7, h8⟩ := h
  have hchain : List.IsChain (fun p q => dist2 p q ≤ thr) (st.localSubset ++ [p]) := by
    by_cases hl : st.localSubset = []
    · rw [hl]; simp
    · rw [if_neg hl] at h6; exact h6
  unfold groupStep
  by_cases hd : dist2 p q > thr
  · rw [if_pos hd]
    have main : ∀ st' : Group, st'.localSubset = [] → st'.ongoing = false → st'.final = st.final ++ [mean (st.localSubset ++ [p])] →
        GInv thr (done ++ [p]) q (groups ++ [st.localSubset ++ [p]]) st' := by
      intro st' e1 e2 e3
      refine ⟨?_, by rw [e3, h2]; simp, by rw [e1, e2]; simp, ?_, ?_, by rw [e1]; simp, ?_, ?_⟩
      · rw [e1, ← h1]; simp
      · intro g hg
        rcases List.mem_append.1 hg with hg | hg
        · exact h4 g hg
        · simp only [List.mem_singleton] at hg; subst hg; simp
      · intro g hg
        rcases List.mem_append.1 hg with hg | hg
        · exact h5 g hg
        · simp only [List.mem_singleton] at hg; subst hg; exact hchain
      · rw [List.isChain_append]
        refine ⟨h7, by simp, ?_⟩
        intro g hg g' hg'
        simp only [List.head?_cons, Option.mem_def, Option.some.injEq] at hg'
        subst hg'
        exact h8 g hg
      · intro g hg
        simp only [List.getLast?_append, List.getLast?_singleton, Option.some_or, Option.some.injEq] at hg
        subst hg
        exact ⟨p, q, by simp, by rw [e1]; simp, hd⟩
    by_cases ho : st.ongoing = false
    · rw [if_pos ho]
      have hl := h3.1 ho
      refine ⟨groups ++ [st.localSubset ++ [p]], main _ hl ho ?_, fun _ => hl⟩
      rw [hl, List.nil_append, mean_singleton]
    · rw [if_neg ho]
      exact ⟨groups ++ [st.localSubset ++ [p]], main _ rfl rfl rfl, fun _ => rfl⟩
  · rw [if_neg hd]
    refine ⟨groups, ⟨by simp [← h1], h2, by simp, h4, h5, ?_, h7, ?_⟩, fun h => absurd h hd⟩
    · rw [if_neg (by simp)]
      rw [List.isChain_append]
      refine ⟨hchain, by simp, ?_⟩
      intro x hx y hy
      simp only [List.getLast?_append, List.getLast?_singleton, Option.some_or, Option.mem_def, Option.some.injEq] at hx
      simp only [List.head?_cons, Option.mem_def, Option.some.injEq] at hy
      subst hx; subst hy
      exact not_lt.1 hd
    · intro g hg
      obtain ⟨x, y, hx, hy, hxy⟩ := h8 g hg
      refine ⟨x, y, hx, ?_, hxy⟩
      dsimp only
      rw [List.head?_append, hy]
      rfl

theorem group_all {thr : ℝ} (b : V2) (m : List V2) (hlast : dist2 (m.getLastD b) b > thr) :
    ∃ groups, Grouping thr (b :: m) groups ∧ groups ≠ [] ∧
      (((b :: m).zip (m ++ [b])).foldl (fun st e => groupStep thr st e.1 e.2) ⟨[], [], false⟩).final = groups.map mean := by
  have key : ∀ (l : List V2) (p : V2) (done : List V2) (groups : List (List V2)) (st : Group), GInv thr done p groups st → dist2 (l.getLastD p) b > thr →
      ∃ groups', GInv thr (done ++ p :: l) b groups' (((p :: l).zip (l ++ [b])).foldl (fun st e => groupStep thr st e.1 e.2) st) ∧
        (((p :: l).zip (l ++ [b])).foldl (fun st e => groupStep thr st e.1 e.2) st).localSubset = [] := by
    intro l
    induction l with
    | nil =>
      intro p done groups st h hd
      obtain ⟨g', h1, h2⟩ := groupStep_inv (q := b) h
      exact ⟨g', h1, h2 hd⟩
    | cons q l ih =>
      intro p done groups st h hd
      obtain ⟨g', h1, h2⟩ := groupStep_inv (q := q) h
      obtain ⟨g'', i1, i2⟩ := ih q (done ++ [p]) g' _ h1 (by rw [List.getLastD_cons] at hd; exact hd)
      refine ⟨g'', ?_, ?_⟩
      · simpa using i1
      · simpa using i2
  have h0 : GInv thr [] b [] ⟨[], [], false⟩ := ⟨rfl, rfl, by simp, by simp, by simp, by simp, by simp, by simp⟩
  obtain ⟨groups, h1, h2⟩ := key m b [] [] _ h0 hlast
  have hfl := h1.flatten
  rw [h2] at hfl
  simp only [List.append_nil, List.nil_append] at hfl
  refine ⟨groups, ⟨hfl, h1.nonempty, h1.near, h1.far⟩, ?_, h1.final⟩
  rintro rfl
  simp at hfl

/-- C109: for a polygon with at least three vertices that are not all the same point the computation ends (after at most as many rotations as there are vertices, plus one); its result is the mean of the means of the groups of vertices, where the polygon is cut, from some vertex on, exactly at the edges longer than a tenth of the longest edge; and it lies in the convex hull of the vertices. -/
theorem C109_centroid (polygon : List V2) (h3 : 3 ≤ polygon.length) (hne : ∃ p ∈ polygon, ∃ q ∈ polygon, p ≠ q) (fuel : ℕ) (hf : polygon.length + 1 ≤ fuel) :
    ∃ c longest rotated groups, weightedCentroid fuel polygon = some (some c) ∧ LongestEdge polygon longest ∧ rotated ~r polygon ∧
      Grouping (longest / 10) rotated groups ∧ (∃ p q, rotated.getLast? = some p ∧ rotated.head? = some q ∧ dist2 p q > longest / 10) ∧
      c = mean (groups.map mean) ∧ c ∈ convexHull ℝ {p | p ∈ polygon} := by
  match polygon, h3, hne, hf with
  | a :: b :: c :: l, _, hne, hf =>
    have hlong := maxEdge_spec a (b :: c :: l)
    set L := maxEdge a (b :: c :: l) with hL
    have hpos : 0 < L := by
      obtain ⟨⟨p, q, hpq, hd⟩, hmax⟩ := hlong
      rcases eq_or_lt_of_le (hd ▸ dist2_nonneg p q) with h | h
      · exfalso
        have hz : ∀ p q, PolyEdge (a :: b :: c :: l) p q → dist2 p q = 0 := fun p q hpq => le_antisymm ((hmax p q hpq).trans h.ge) (dist2_nonneg _ _)
        have hall := all_equal hz
        obtain ⟨x, hx, y, hy, hxy⟩ := hne
        have hx' : x = a := by rcases List.mem_cons.1 hx with h | h; exacts [h, hall x h]
        have hy' : y = a := by rcases List.mem_cons.1 hy with h | h; exacts [h, hall y h]
        exact hxy (hx'.trans hy'.symm)
      · exact h
    have hthr : L / 10 < L := by linarith
    have hshift : ∃ b' m, shiftLoop (L / 10) fuel a (b :: c :: l) = some (b', m) ∧ (b' :: m) ~r (a :: b :: c :: l) ∧ dist2 (m.getLastD b') b' > L / 10 := by
      obtain ⟨p, q, hpq, hd⟩ := hlong.1
      rcases hpq with ⟨pre, post, he⟩ | ⟨hp, hq⟩
      · refine shiftLoop_edge (L / 10) pre p q post (by rw [hd]; exact hthr) fuel ?_ a _ he
        have := congrArg List.length he
        simp at this hf
        omega
      · rw [getLast?_cons_getLastD] at hp
        simp only [List.head?_cons, Option.some.injEq] at hp hq
        subst hq
        obtain ⟨fuel, rfl⟩ : ∃ f, fuel = f + 1 := ⟨fuel - 1, by simp at hf; omega⟩
        refine ⟨a, b :: c :: l, ?_, List.IsRotated.refl _, ?_⟩
        · rw [shiftLoop, if_neg]
          rw [hp, hd]; exact not_le.2 hthr
        · rw [hp, hd]; exact hthr
    obtain ⟨b', m, s1, s2, s3⟩ := hshift
    obtain ⟨groups, g1, g2, g3⟩ := group_all b' m s3
    have hval : weightedCentroid fuel (a :: b :: c :: l) = some (some (mean (groups.map mean))) := by
      simp only [weightedCentroid]
      rw [← hL, s1]
      dsimp only
      rw [g3]
    refine ⟨_, L, b' :: m, groups, hval, hlong, s2, g1, ⟨_, _, getLast?_cons_getLastD b' m, rfl, s3⟩, rfl, ?_⟩
    refine sum_mem (convex_convexHull ℝ _) _ (by simpa using g2) ?_
    intro p hp
    obtain ⟨g, hg, rfl⟩ := List.mem_map.1 hp
    refine sum_mem (convex_convexHull ℝ _) _ (g1.nonempty g hg) ?_
    intro x hx
    refine subset_convexHull ℝ _ ?_
    have : x ∈ b' :: m := by rw [← g1.flatten]; exact List.mem_flatten.2 ⟨g, hg, hx⟩
    exact s2.mem_iff.1 this

/-- C109: one vertex is its own centroid, two vertices have their middle, and without vertex an exception is thrown. -/
theorem C109_small (fuel : ℕ) (p q : V2) : weightedCentroid fuel [] = none ∧ weightedCentroid fuel [p] = some (some p) ∧
    weightedCentroid fuel [p, q] = some (some (mean [p, q])) := by
  refine ⟨rfl, rfl, ?_⟩
  simp only [weightedCentroid, mean]
  norm_num

/-- the hypothesis of C109 is necessary: for three equal vertices the shifting loop never ends -/
theorem C109_equal_loops (fuel : ℕ) (p : V2) : weightedCentroid fuel [p, p, p] = some none := by
  have hz : dist2 p p = 0 := dist2_eq_zero.2 rfl
  have hm : maxEdge p [p, p] = 0 := by simp [maxEdge, hz]
  have hs : ∀ fuel, shiftLoop 0 fuel p [p, p] = none := by
    intro fuel
    induction fuel with
    | zero => rfl
    | succ n ih =>
      rw [shiftLoop, if_pos (by simp [hz])]
      exact ih
  simp only [weightedCentroid, hm, zero_div, hs]

/-- non-vacuity: a right triangle -/
example : ∃ p ∈ [((0 : ℝ), (0 : ℝ)), (1, 0), (0, 1)], ∃ q ∈ [((0 : ℝ), (0 : ℝ)), (1, 0), (0, 1)], p ≠ q :=
  ⟨(0, 0), by simp, (1, 0), by simp, by simp⟩

/-- the hull never gives the centroid a polygon on which it does not end: for every non-empty tidy set the centroid of its hull is a point of the convex hull of the set -/
theorem C109_of_hull {eps : ℝ} {set : List V2} (ht : Tidy eps set) (hne : set ≠ []) (fuel : ℕ) (hf : (convexHull2 eps set).length + 1 ≤ fuel) :
    ∃ c, weightedCentroid fuel (convexHull2 eps set) = some (some c) ∧ c ∈ convexHull ℝ {p | p ∈ set} := by
  obtain ⟨h1, h2, h3⟩ := C108_hull ht
  rw [← h3]
  have hne' : convexHull2 eps set ≠ [] := by
    intro h
    obtain ⟨p, hp⟩ := List.exists_mem_of_ne_nil set hne
    have : p ∈ convexHull ℝ {p | p ∈ convexHull2 eps set} := by rw [h3]; exact subset_convexHull ℝ _ hp
    rw [h] at this
    simp at this
  generalize convexHull2 eps set = H at *
  match H, hne' with
  | [p], _ => exact ⟨p, rfl, subset_convexHull ℝ _ (by simp)⟩
  | [p, q], _ =>
    refine ⟨mean [p, q], (C109_small fuel p q).2.2, ?_⟩
    exact sum_mem (convex_convexHull ℝ _) _ (by simp) fun x hx => subset_convexHull ℝ _ hx
  | p :: q :: r :: l, _ =>
    have hpq : p ≠ q := (List.pairwise_cons.1 h2).1 q (by simp)
    obtain ⟨c, _, _, _, hc, _, _, _, _, _, hin⟩ := C109_centroid (p :: q :: r :: l) (by simp) ⟨p, by simp, q, by simp, hpq⟩ fuel hf
    exact ⟨c, hc, hin⟩

/-- non-vacuity of `Tidy`: the corners of a square and its centre, with the tolerance of the code -/
example : Tidy (1 / 1000000000) [((0 : ℝ), (0 : ℝ)), (4, 0), (0, 4), (4, 4), (2, 2)] := by
  refine ⟨by norm_num, by norm_num, ?_, ?_⟩
  · intro p hp q hq h
    simp only [List.mem_cons, List.not_mem_nil, or_false] at hp hq
    rcases hp with rfl | rfl | rfl | rfl | rfl <;> rcases hq with rfl | rfl | rfl | rfl | rfl <;> first | rfl | (exfalso; revert h; norm_num [Near, abs_of_pos, abs_of_neg])
  · intro p hp q hq d hd h
    simp only [List.mem_cons, List.not_mem_nil, or_false] at hp hq
    rcases hd with rfl | rfl <;> rcases hp with rfl | rfl | rfl | rfl | rfl <;> rcases hq with rfl | rfl | rfl | rfl | rfl <;> first | rfl | (exfalso; revert h; norm_num [Near, abs_of_pos, abs_of_neg])

end Heur
end Rbprm
