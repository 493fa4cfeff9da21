import Verif.Props.Hull
set_option linter.unusedSectionVars false
/-! # C83 (aligned corners): gift wrapping when some of the points are on one line

The corners of rectangles with parallel sides are often on one line (two feet side by side), so that general position is too much to ask.  The hull is exact as
soon as the first three points of the list are not on one line. -/
namespace Rbprm
namespace Support
variable {K : Type _} [Field K] [LinearOrder K] [IsStrictOrderedRing K]

/-! ## Specification -/

/-- the list starts with three points that are not on one line -/
def GoodStart (p0 p1 p2 : Vec3 K) : Prop := ¬ OnLine p0 p1 p2

/-! ## One round -/

/-- seen from above, `q` is on the segment from `a` to `b`, at neither end -/
def StrictlyBetween (a b q : Vec3 K) : Prop :=
  ∃ t : K, 0 < t ∧ t < 1 ∧ q.x = a.x + t * (b.x - a.x) ∧ q.y = a.y + t * (b.y - a.y)

/-- `v` is the first point of the list at its horizontal position -/
def First (pts : List (Vec3 K)) (v : Vec3 K) : Prop := pts.find? (fun q => decide (q.x = v.x ∧ q.y = v.y)) = some v

theorem First.eq {pts : List (Vec3 K)} {a b : Vec3 K} (ha : First pts a) (hb : First pts b) (hx : a.x = b.x) (hy : a.y = b.y) : a = b := by
  unfold First at ha hb
  rw [hx, hy, hb] at ha
  exact (Option.some.inj ha).symm

theorem First.mem {pts : List (Vec3 K)} {a : Vec3 K} (ha : First pts a) : a ∈ pts := List.mem_of_find?_eq_some ha

theorem first_append (l1 l2 : List (Vec3 K)) (v : Vec3 K) (h : ∀ q ∈ l1, ¬ (q.x = v.x ∧ q.y = v.y)) : First (l1 ++ v :: l2) v := by
  unfold First
  rw [List.find?_append, List.find?_eq_none.2 (fun q hq => by simpa using h q hq)]
  simp

/-- all points are right of the line through `p` in the direction `(dx, dy)`, or on it -/
structure Bordered (pts : List (Vec3 K)) (p : Vec3 K) (dx dy : K) : Prop where
  ne : dx ≠ 0 ∨ dy ≠ 0
  right : ∀ q ∈ pts, dx * (q.y - p.y) - dy * (q.x - p.x) ≤ 0

theorem normSq_pos {dx dy : K} (h : dx ≠ 0 ∨ dy ≠ 0) : 0 < dx * dx + dy * dy := by
  have e1 := mul_self_nonneg dx
  have e2 := mul_self_nonneg dy
  rcases h with h | h
  · have := mul_self_pos.2 h; linarith
  · have := mul_self_pos.2 h; linarith

/-- right of the line, or ahead on it -/
def Ahead (p : Vec3 K) (dx dy : K) (e : Vec3 K) : Prop :=
  dx * (e.y - p.y) - dy * (e.x - p.x) < 0 ∨ (dx * (e.y - p.y) - dy * (e.x - p.x) = 0 ∧ 0 < dx * (e.x - p.x) + dy * (e.y - p.y))

/-- the sign of `isLeft` in the frame of the line -/
theorem isLeft_frame (p e q : Vec3 K) (dx dy : K) : (dx * dx + dy * dy) * isLeft p e q =
    (dx * (e.x - p.x) + dy * (e.y - p.y)) * (dx * (q.y - p.y) - dy * (q.x - p.x)) -
      (dx * (e.y - p.y) - dy * (e.x - p.x)) * (dx * (q.x - p.x) + dy * (q.y - p.y)) := by
  unfold isLeft; ring

theorem isLeft_self (p e : Vec3 K) : isLeft p e p = 0 := by unfold isLeft; ring
theorem isLeft_end (p e : Vec3 K) : isLeft p e e = 0 := by unfold isLeft; ring

theorem ahead_ne {p e : Vec3 K} {dx dy : K} (h : Ahead p dx dy e) : e ≠ p := by
  rintro rfl
  rcases h with h | ⟨-, h⟩
  · simp at h
  · simp at h

theorem wrapFrom_ahead (pts : List (Vec3 K)) (p : Vec3 K) (dx dy : K) (hb : Bordered pts p dx dy) (e : Vec3 K) (l done : List (Vec3 K))
    (hpts : pts = done ++ l) (he : First pts e) (ha : Ahead p dx dy e) (hinv : ∀ q ∈ done, isLeft p e q ≤ 0) :
    First pts (wrapFrom p e l) ∧ Ahead p dx dy (wrapFrom p e l) ∧ ∀ q ∈ pts, isLeft p (wrapFrom p e l) q ≤ 0 := by
  induction l generalizing e done with
  | nil =>
    rw [wrapFrom]
    rw [List.append_nil] at hpts
    exact ⟨he, ha, fun q hq => hinv q (hpts ▸ hq)⟩
  | cons c l ih =>
    rw [wrapFrom]
    have hmem : pts = (done ++ [c]) ++ l := by rw [hpts]; simp
    have hcp : c ∈ pts := by rw [hpts]; simp
    by_cases hc : e = p ∨ isLeft p e c > 0
    · rw [if_pos hc]
      have hc : 0 < isLeft p e c := hc.resolve_left (ahead_ne ha)
      have hN := normSq_pos hb.ne
      have hrc := hb.right c hcp
      -- `e` is off the line: nothing is left of a point ahead on the line
      have hae : dx * (e.y - p.y) - dy * (e.x - p.x) < 0 := by
        rcases ha with h | ⟨h, h'⟩
        · exact h
        · exfalso
          have f := isLeft_frame p e c dx dy
          rw [h] at f
          have := mul_pos hN hc
          have := mul_nonpos_of_nonneg_of_nonpos h'.le hrc
          linarith
      have hac : Ahead p dx dy c := by
        rcases lt_or_eq_of_le hrc with h | h
        · exact Or.inl h
        · refine Or.inr ⟨h, ?_⟩
          have f := isLeft_frame p e c dx dy
          rw [h] at f
          have h1 := mul_pos hN hc
          by_contra hn
          have := mul_nonneg_of_nonpos_of_nonpos hae.le (not_lt.1 hn)
          linarith
      have hfc : First pts c := by
        rw [hpts]
        apply first_append
        rintro q hq ⟨h1, h2⟩
        have h3 := hinv q hq
        unfold isLeft at h3 hc
        rw [h1, h2] at h3
        linarith
      apply ih c (done ++ [c]) hmem hfc hac
      intro q hq
      rcases List.mem_append.1 hq with hq | hq
      · have hq1 := hinv q hq
        have hrq := hb.right q (by rw [hpts]; simp [hq])
        have id : (dx * (e.y - p.y) - dy * (e.x - p.x)) * isLeft p c q =
            (dx * (c.y - p.y) - dy * (c.x - p.x)) * isLeft p e q - (dx * (q.y - p.y) - dy * (q.x - p.x)) * isLeft p e c := by
          unfold isLeft; ring
        by_contra hn
        have e1 := mul_neg_of_neg_of_pos hae (not_le.1 hn)
        have e2 := mul_nonneg_of_nonpos_of_nonpos hrc hq1
        have e3 := mul_nonpos_of_nonpos_of_nonneg hrq hc.le
        linarith
      · simp at hq; subst hq; rw [isLeft_end]
    · rw [if_neg hc]
      rw [not_or, not_lt] at hc
      apply ih e (done ++ [c]) hmem he ha
      intro q hq
      rcases List.mem_append.1 hq with hq | hq
      · exact hinv q hq
      · simp at hq; subst hq; exact hc.2

/-- a point off `p` that is not ahead is behind on the line -/
theorem behind_of_not_ahead {pts : List (Vec3 K)} {p c : Vec3 K} {dx dy : K} (hb : Bordered pts p dx dy) (hc : c ∈ pts)
    (hne : ¬ (c.x = p.x ∧ c.y = p.y)) (h : ¬ Ahead p dx dy c) :
    dx * (c.y - p.y) - dy * (c.x - p.x) = 0 ∧ dx * (c.x - p.x) + dy * (c.y - p.y) < 0 := by
  unfold Ahead at h
  rw [not_or, not_lt, not_and, not_lt] at h
  have h0 := le_antisymm (hb.right c hc) h.1
  refine ⟨h0, lt_of_le_of_ne (h.2 h0) fun h1 => hne ⟨?_, ?_⟩⟩
  · have hN := normSq_pos hb.ne
    have : (dx * dx + dy * dy) * (c.x - p.x) = 0 := by linear_combination dx * h1 - dy * h0
    exact sub_eq_zero.1 ((mul_eq_zero.1 this).resolve_left hN.ne')
  · have hN := normSq_pos hb.ne
    have : (dx * dx + dy * dy) * (c.y - p.y) = 0 := by linear_combination dy * h1 + dx * h0
    exact sub_eq_zero.1 ((mul_eq_zero.1 this).resolve_left hN.ne')

theorem between_of_line {dx dy : K} {p p0 p1 : Vec3 K} (hN : 0 < dx * dx + dy * dy)
    (a0 : dx * (p0.y - p.y) - dy * (p0.x - p.x) = 0) (a1 : dx * (p1.y - p.y) - dy * (p1.x - p.x) = 0)
    (b0 : dx * (p0.x - p.x) + dy * (p0.y - p.y) < 0) (b1 : 0 < dx * (p1.x - p.x) + dy * (p1.y - p.y)) : StrictlyBetween p0 p1 p := by
  have hx : (dx * dx + dy * dy) * ((dx * (p1.x - p.x) + dy * (p1.y - p.y)) * (p0.x - p.x) -
      (dx * (p0.x - p.x) + dy * (p0.y - p.y)) * (p1.x - p.x)) = 0 := by
    linear_combination (dx * (p0.x - p.x) + dy * (p0.y - p.y)) * dy * a1 - (dx * (p1.x - p.x) + dy * (p1.y - p.y)) * dy * a0
  have hy : (dx * dx + dy * dy) * ((dx * (p1.x - p.x) + dy * (p1.y - p.y)) * (p0.y - p.y) -
      (dx * (p0.x - p.x) + dy * (p0.y - p.y)) * (p1.y - p.y)) = 0 := by
    linear_combination -(dx * (p0.x - p.x) + dy * (p0.y - p.y)) * dx * a1 + (dx * (p1.x - p.x) + dy * (p1.y - p.y)) * dx * a0
  have hx := (mul_eq_zero.1 hx).resolve_left hN.ne'
  have hy := (mul_eq_zero.1 hy).resolve_left hN.ne'
  generalize dx * (p0.x - p.x) + dy * (p0.y - p.y) = A at *
  generalize dx * (p1.x - p.x) + dy * (p1.y - p.y) = B at *
  have hBA : 0 < B - A := by linarith
  have ht : -A / (B - A) * (B - A) = -A := div_mul_cancel₀ _ hBA.ne'
  refine ⟨-A / (B - A), div_pos (by linarith) hBA, by rw [div_lt_one hBA]; linarith, ?_, ?_⟩
  · have : (B - A) * (p.x - (p0.x + -A / (B - A) * (p1.x - p0.x))) = 0 := by linear_combination -hx - (p1.x - p0.x) * ht
    exact sub_eq_zero.1 ((mul_eq_zero.1 this).resolve_left hBA.ne')
  · have : (B - A) * (p.y - (p0.y + -A / (B - A) * (p1.y - p0.y))) = 0 := by linear_combination -hy - (p1.y - p0.y) * ht
    exact sub_eq_zero.1 ((mul_eq_zero.1 this).resolve_left hBA.ne')

/-- one round from a point of the border: all points are right of the new edge or on it -/
theorem wrap_border {p0 p1 p2 : Vec3 K} {rest : List (Vec3 K)} (hg : GoodStart p0 p1 p2) {p : Vec3 K} {dx dy : K}
    (hb : Bordered (p0 :: p1 :: p2 :: rest) p dx dy) (hp : First (p0 :: p1 :: p2 :: rest) p)
    (hnb : ¬ StrictlyBetween p0 p1 p) :
    First (p0 :: p1 :: p2 :: rest) (wrap p0 (p1 :: p2 :: rest) p) ∧ Ahead p dx dy (wrap p0 (p1 :: p2 :: rest) p) ∧
      ∀ q ∈ p0 :: p1 :: p2 :: rest, isLeft p (wrap p0 (p1 :: p2 :: rest) p) q ≤ 0 := by
  have hN := normSq_pos hb.ne
  have m0 : p0 ∈ p0 :: p1 :: p2 :: rest := by simp
  have m1 : p1 ∈ p0 :: p1 :: p2 :: rest := by simp
  have m2 : p2 ∈ p0 :: p1 :: p2 :: rest := by simp
  have f0 : First (p0 :: p1 :: p2 :: rest) p0 := first_append [] _ _ (by simp)
  have h01 : ¬ (p0.x = p1.x ∧ p0.y = p1.y) := by
    rintro ⟨h1, h2⟩
    exact hg (by unfold OnLine; rw [h1, h2]; ring)
  have h02 : ¬ (p0.x = p2.x ∧ p0.y = p2.y) := by
    rintro ⟨h1, h2⟩
    exact hg (by unfold OnLine; rw [h1, h2]; ring)
  have h12 : ¬ (p1.x = p2.x ∧ p1.y = p2.y) := by
    rintro ⟨h1, h2⟩
    exact hg (by unfold OnLine; rw [h1, h2]; ring)
  have f1 : First (p0 :: p1 :: p2 :: rest) p1 := first_append [p0] _ _ (by simpa using h01)
  have f2 : First (p0 :: p1 :: p2 :: rest) p2 := first_append [p0, p1] _ _ (by
    intro q hq
    simp only [List.mem_cons, List.not_mem_nil, or_false] at hq
    rcases hq with rfl | rfl
    · exact h02
    · exact h12)
  have hturn : isLeft p0 p1 p2 ≠ 0 := fun h => hg ((onLine_iff _ _ _).2 h)
  -- a point behind on the line is left by any point off the line
  have replace : ∀ e c, dx * (e.y - p.y) - dy * (e.x - p.x) = 0 → dx * (e.x - p.x) + dy * (e.y - p.y) < 0 →
      dx * (c.y - p.y) - dy * (c.x - p.x) < 0 → 0 < isLeft p e c := by
    intro e c h1 h2 h3
    have f := isLeft_frame p e c dx dy
    rw [h1] at f
    by_contra hn
    have := mul_nonpos_of_nonneg_of_nonpos hN.le (not_lt.1 hn)
    have := mul_pos_of_neg_of_neg h2 h3
    linarith
  -- seen from `p`, a point behind on the line or at `p` is not left of a point off the line
  have keep : ∀ e c, dx * (e.y - p.y) - dy * (e.x - p.x) < 0 → dx * (c.y - p.y) - dy * (c.x - p.x) = 0 →
      dx * (c.x - p.x) + dy * (c.y - p.y) ≤ 0 → isLeft p e c ≤ 0 := by
    intro e c h1 h2 h3
    have f := isLeft_frame p e c dx dy
    rw [h2] at f
    by_contra hn
    have := mul_pos hN (not_le.1 hn)
    have := mul_nonneg_of_nonpos_of_nonpos h1.le h3
    linarith
  -- if the first two points are on the line, the third is off it
  have third : dx * (p0.y - p.y) - dy * (p0.x - p.x) = 0 → dx * (p1.y - p.y) - dy * (p1.x - p.x) = 0 →
      dx * (p2.y - p.y) - dy * (p2.x - p.x) < 0 := by
    intro h0 h1
    refine lt_of_le_of_ne (hb.right p2 m2) fun h2 => hturn ?_
    have : (dx * dx + dy * dy) * isLeft p0 p1 p2 = 0 := by
      unfold isLeft
      linear_combination (dx * (p1.x - p0.x) + dy * (p1.y - p0.y)) * (h2 - h0) - (dx * (p2.x - p0.x) + dy * (p2.y - p0.y)) * (h1 - h0)
    exact (mul_eq_zero.1 this).resolve_left hN.ne'
  unfold wrap
  by_cases h0p : p0 = p
  · subst h0p
    rw [wrapFrom, if_pos (Or.inl rfl)]
    by_cases ha1 : Ahead p0 dx dy p1
    · apply wrapFrom_ahead _ p0 dx dy hb p1 (p2 :: rest) [p0, p1] rfl f1 ha1
      intro q hq
      simp only [List.mem_cons, List.not_mem_nil, or_false] at hq
      rcases hq with rfl | rfl
      · rw [isLeft_self]
      · rw [isLeft_end]
    · obtain ⟨b1, b2⟩ := behind_of_not_ahead hb m1 (fun h => h01 ⟨h.1.symm, h.2.symm⟩) ha1
      have o2 := third (by ring) b1
      rw [wrapFrom, if_pos (Or.inr (replace p1 p2 b1 b2 o2))]
      apply wrapFrom_ahead _ p0 dx dy hb p2 rest [p0, p1, p2] rfl f2 (Or.inl o2)
      intro q hq
      simp only [List.mem_cons, List.not_mem_nil, or_false] at hq
      rcases hq with rfl | rfl | rfl
      · rw [isLeft_self]
      · exact keep _ _ o2 b1 b2.le
      · rw [isLeft_end]
  · by_cases ha0 : Ahead p dx dy p0
    · apply wrapFrom_ahead _ p dx dy hb p0 (p1 :: p2 :: rest) [p0] rfl f0 ha0
      intro q hq
      simp only [List.mem_cons, List.not_mem_nil, or_false] at hq
      subst hq
      rw [isLeft_end]
    · obtain ⟨b1, b2⟩ := behind_of_not_ahead hb m0 (fun h => h0p (f0.eq hp h.1 h.2)) ha0
      rcases lt_or_eq_of_le (hb.right p1 m1) with h1 | h1
      · rw [wrapFrom, if_pos (Or.inr (replace p0 p1 b1 b2 h1))]
        apply wrapFrom_ahead _ p dx dy hb p1 (p2 :: rest) [p0, p1] rfl f1 (Or.inl h1)
        intro q hq
        simp only [List.mem_cons, List.not_mem_nil, or_false] at hq
        rcases hq with rfl | rfl
        · exact keep _ _ h1 b1 b2.le
        · rw [isLeft_end]
      · have o2 := third b1 h1
        have hle : dx * (p1.x - p.x) + dy * (p1.y - p.y) ≤ 0 := by
          by_contra hn
          rw [not_le] at hn
          -- `p` would be strictly between the first two points
          apply hnb
          exact between_of_line hN b1 h1 b2 hn
        rw [wrapFrom, if_neg (by
          rw [not_or, not_lt]
          refine ⟨h0p, ?_⟩
          have f := isLeft_frame p p0 p1 dx dy
          rw [b1, h1] at f
          simp at f
          rcases f with f | f
          · exact absurd f hN.ne'
          · exact f.le)]
        rw [wrapFrom, if_pos (Or.inr (replace p0 p2 b1 b2 o2))]
        apply wrapFrom_ahead _ p dx dy hb p2 rest [p0, p1, p2] rfl f2 (Or.inl o2)
        intro q hq
        simp only [List.mem_cons, List.not_mem_nil, or_false] at hq
        rcases hq with rfl | rfl | rfl
        · exact keep _ _ o2 b1 b2.le
        · exact keep _ _ o2 h1 hle
        · rw [isLeft_end]

/-! ## The walk comes back to its first point -/

/-- `LeftMost` gives the first of the points with the smallest abscissa -/
theorem leftMostFrom_first (i : Vec3 K) (l : List (Vec3 K)) :
    ∃ l1 l2, i :: l = l1 ++ leftMostFrom i l :: l2 ∧ ∀ q ∈ l1, (leftMostFrom i l).x < q.x := by
  induction l generalizing i with
  | nil => exact ⟨[], [], by simp [leftMostFrom], by simp⟩
  | cons p l ih =>
    rw [leftMostFrom]
    by_cases h : p.x < i.x
    · rw [if_pos h]
      obtain ⟨l1, l2, h1, h2⟩ := ih p
      refine ⟨i :: l1, l2, by rw [h1]; rfl, fun q hq => ?_⟩
      rcases List.mem_cons.1 hq with rfl | hq
      · exact ((leftMostFrom_spec p l).2 p (by simp)).trans_lt h
      · exact h2 q hq
    · rw [if_neg h]
      obtain ⟨l1, l2, h1, h2⟩ := ih i
      cases l1 with
      | nil =>
        simp only [List.nil_append, List.cons.injEq] at h1
        exact ⟨[], p :: l2, by rw [← h1.1, ← h1.2]; rfl, by simp⟩
      | cons c l1 =>
        simp only [List.cons_append, List.cons.injEq] at h1
        obtain ⟨rfl, h1⟩ := h1
        refine ⟨i :: p :: l1, l2, congrArg (fun t => i :: p :: t) h1, fun q hq => ?_⟩
        have hi := h2 i (by simp)
        simp only [List.mem_cons] at hq
        rcases hq with rfl | rfl | hq
        · exact hi
        · exact hi.trans_le (not_lt.1 h)
        · exact h2 q (by simp [hq])

theorem wrapFrom_keep (v s : Vec3 K) (l : List (Vec3 K)) (hne : s ≠ v) (hx : s.x = v.x) (hy : v.y < s.y) (hl : ∀ q ∈ l, v.x ≤ q.x) :
    wrapFrom v s l = s := by
  induction l with
  | nil => rfl
  | cons c l ih =>
    rw [wrapFrom, if_neg]
    · exact ih fun q hq => hl q (by simp [hq])
    · rw [not_or, not_lt]
      refine ⟨hne, ?_⟩
      have hc := hl c (by simp)
      have := mul_nonneg (sub_nonneg.2 hc) (sub_pos.2 hy).le
      unfold isLeft
      rw [hx]
      linarith

theorem wrapFrom_reach (v s e : Vec3 K) (l1 l2 : List (Vec3 K)) (hne : s ≠ v) (hx : s.x = v.x) (hy : v.y < s.y) (he : v.x < e.x)
    (h1 : ∀ q ∈ l1, v.x < q.x) (h2 : ∀ q ∈ l2, v.x ≤ q.x) : wrapFrom v e (l1 ++ s :: l2) = s := by
  induction l1 generalizing e with
  | nil =>
    rw [List.nil_append, wrapFrom, if_pos]
    · exact wrapFrom_keep v s l2 hne hx hy h2
    · right
      have := mul_pos (sub_pos.2 he) (sub_pos.2 hy)
      unfold isLeft
      rw [hx]
      linarith
  | cons c l1 ih =>
    rw [List.cons_append, wrapFrom]
    apply ih
    · split_ifs
      · exact h1 c (by simp)
      · exact he
    · exact fun q hq => h1 q (by simp [hq])

/-- from the lowest of the points with the smallest abscissa the walk goes to the point it started from -/
theorem wrap_lowest (p0 : Vec3 K) (ps : List (Vec3 K)) (v : Vec3 K) (hx : (leftMost p0 ps).x = v.x) (hne : leftMost p0 ps ≠ v)
    (hy : v.y < (leftMost p0 ps).y) : wrap p0 ps v = leftMost p0 ps := by
  obtain ⟨l1, l2, h1, h2⟩ := leftMostFrom_first p0 ps
  have hmin := (leftMostFrom_spec p0 ps).2
  change p0 :: ps = l1 ++ leftMost p0 ps :: l2 at h1
  change ∀ q ∈ l1, (leftMost p0 ps).x < q.x at h2
  change ∀ q ∈ p0 :: ps, (leftMost p0 ps).x ≤ q.x at hmin
  have hl2 : ∀ q ∈ l2, v.x ≤ q.x := by
    intro q hq
    rw [← hx]
    apply hmin
    rw [h1]; simp [hq]
  generalize leftMost p0 ps = s at *
  cases l1 with
  | nil =>
    simp only [List.nil_append, List.cons.injEq] at h1
    unfold wrap
    rw [h1.1, h1.2]
    exact wrapFrom_keep v s l2 hne hx hy hl2
  | cons c l1 =>
    simp only [List.cons_append, List.cons.injEq] at h1
    unfold wrap
    rw [h1.1, h1.2]
    apply wrapFrom_reach v s c l1 l2 hne hx hy _ _ hl2
    · rw [← hx]; exact h2 c (by simp)
    · intro q hq; rw [← hx]; exact h2 q (by simp [hq])

/-- a point of the input from which all points are on one side of a line, not strictly between the first two points -/
def OnBorder (p0 p1 : Vec3 K) (ps : List (Vec3 K)) (p : Vec3 K) : Prop :=
  First (p0 :: p1 :: ps) p ∧ ¬ StrictlyBetween p0 p1 p ∧ ∃ dx dy, Bordered (p0 :: p1 :: ps) p dx dy

theorem leftMost_border (p0 p1 p2 : Vec3 K) (rest : List (Vec3 K)) (hg : GoodStart p0 p1 p2) :
    OnBorder p0 p1 (p2 :: rest) (leftMost p0 (p1 :: p2 :: rest)) := by
  obtain ⟨h1, h2⟩ := leftMostFrom_spec p0 (p1 :: p2 :: rest)
  obtain ⟨l1, l2, h3, h4⟩ := leftMostFrom_first p0 (p1 :: p2 :: rest)
  have hfst : First (p0 :: p1 :: p2 :: rest) (leftMostFrom p0 (p1 :: p2 :: rest)) := by
    conv => arg 1; rw [h3]
    exact first_append _ _ _ fun q hq h => (h4 q hq).ne' h.1
  unfold leftMost
  generalize leftMostFrom p0 (p1 :: p2 :: rest) = s at *
  refine ⟨hfst, ?_, 0, 1, Or.inr one_ne_zero, fun q hq => ?_⟩
  · rintro ⟨t, t0, t1, hx, hy⟩
    have x0 := h2 p0 (by simp)
    have x1 := h2 p1 (by simp)
    have e0 : p0.x = s.x := by
      refine le_antisymm ?_ x0
      by_contra hn
      have a1 := mul_pos (sub_pos.2 t1) (sub_pos.2 (not_le.1 hn))
      have a2 := mul_nonneg t0.le (sub_nonneg.2 x1)
      linarith
    cases l1 with
    | nil =>
      simp only [List.nil_append, List.cons.injEq] at h3
      obtain ⟨rfl, -⟩ := h3
      apply hg
      have ex : p1.x = p0.x := by
        have : t * (p1.x - p0.x) = 0 := by linarith
        exact sub_eq_zero.1 ((mul_eq_zero.1 this).resolve_left t0.ne')
      have ey : p1.y = p0.y := by
        have : t * (p1.y - p0.y) = 0 := by linarith
        exact sub_eq_zero.1 ((mul_eq_zero.1 this).resolve_left t0.ne')
      unfold OnLine
      rw [ex, ey]; ring
    | cons c l1 =>
      simp only [List.cons_append, List.cons.injEq] at h3
      have := h4 c (by simp)
      rw [← h3.1] at this
      linarith
  · have := h2 q hq
    linarith

/-- a direction that is not zero, and a second one with cross product zero -/
theorem parallel {dx dy cx cy : K} (h : dx ≠ 0 ∨ dy ≠ 0) (hc : dx * cy - cx * dy = 0) : ∃ l, cx = l * dx ∧ cy = l * dy := by
  have hN := normSq_pos h
  have hl : (dx * cx + dy * cy) / (dx * dx + dy * dy) * (dx * dx + dy * dy) = dx * cx + dy * cy := div_mul_cancel₀ _ hN.ne'
  refine ⟨(dx * cx + dy * cy) / (dx * dx + dy * dy), ?_, ?_⟩
  · have : (dx * dx + dy * dy) * (cx - (dx * cx + dy * cy) / (dx * dx + dy * dy) * dx) = 0 := by linear_combination -dy * hc - dx * hl
    exact sub_eq_zero.1 ((mul_eq_zero.1 this).resolve_left hN.ne')
  · have : (dx * dx + dy * dy) * (cy - (dx * cx + dy * cy) / (dx * dx + dy * dy) * dy) = 0 := by linear_combination dx * hc - dy * hl
    exact sub_eq_zero.1 ((mul_eq_zero.1 this).resolve_left hN.ne')

theorem wrapFrom_stay (v e : Vec3 K) (l : List (Vec3 K)) (hne : e ≠ v) (hl : ∀ q ∈ l, isLeft v e q ≤ 0) : wrapFrom v e l = e := by
  induction l with
  | nil => rfl
  | cons c l ih =>
    rw [wrapFrom, if_neg]
    · exact ih fun q hq => hl q (by simp [hq])
    · rw [not_or, not_lt]
      exact ⟨hne, hl c (by simp)⟩

/-- the walk never stops strictly between the first two points: one of them is found first -/
theorem wrap_notBetween {p0 p1 v : Vec3 K} {ps : List (Vec3 K)} (h01 : ¬ (p1.x = p0.x ∧ p1.y = p0.y)) (hnb : ¬ StrictlyBetween p0 p1 v)
    (hne : (wrap p0 (p1 :: ps) v).x - v.x ≠ 0 ∨ (wrap p0 (p1 :: ps) v).y - v.y ≠ 0)
    (hr : ∀ q ∈ p0 :: p1 :: ps, isLeft v (wrap p0 (p1 :: ps) v) q ≤ 0) : ¬ StrictlyBetween p0 p1 (wrap p0 (p1 :: ps) v) := by
  rintro ⟨t, t0, t1, hx, hy⟩
  have hw : wrap p0 (p1 :: ps) v = wrapFrom v p0 (p1 :: ps) := rfl
  generalize wrap p0 (p1 :: ps) v = e at *
  have r0 := hr p0 (by simp)
  have r1 := hr p1 (by simp)
  have id : (1 - t) * isLeft v e p0 + t * isLeft v e p1 = 0 := by
    unfold isLeft
    linear_combination (e.y - v.y) * hx - (e.x - v.x) * hy
  have z0 : isLeft v e p0 = 0 := by
    refine le_antisymm r0 ?_
    by_contra hn
    have := mul_neg_of_pos_of_neg (sub_pos.2 t1) (not_le.1 hn)
    have := mul_nonpos_of_nonneg_of_nonpos t0.le r1
    linarith
  have z1 : isLeft v e p1 = 0 := by
    rw [z0] at id
    simpa [t0.ne'] using id
  obtain ⟨l, lx, ly⟩ := parallel hne (by unfold isLeft at z0; exact z0 : (e.x - v.x) * (p0.y - v.y) - (p0.x - v.x) * (e.y - v.y) = 0)
  obtain ⟨m, mx, my⟩ := parallel hne (by unfold isLeft at z1; exact z1 : (e.x - v.x) * (p1.y - v.y) - (p1.x - v.x) * (e.y - v.y) = 0)
  have hlm : (1 - t) * l + t * m = 1 := by
    have ex : ((1 - t) * l + t * m - 1) * (e.x - v.x) = 0 := by linear_combination -hx - (1 - t) * lx - t * mx
    have ey : ((1 - t) * l + t * m - 1) * (e.y - v.y) = 0 := by linear_combination -hy - (1 - t) * ly - t * my
    rcases hne with h | h
    · exact sub_eq_zero.1 ((mul_eq_zero.1 ex).resolve_right h)
    · exact sub_eq_zero.1 ((mul_eq_zero.1 ey).resolve_right h)
  have sp0 : ∀ q, isLeft v p0 q = l * isLeft v e q := by
    intro q; unfold isLeft; rw [lx, ly]; ring
  have sp1 : ∀ q, isLeft v p1 q = m * isLeft v e q := by
    intro q; unfold isLeft; rw [mx, my]; ring
  by_cases h0 : p0 = v
  · subst h0
    have hl0 : l = 0 := by
      rcases hne with h | h
      · exact (mul_eq_zero.1 (by linarith : l * (e.x - p0.x) = 0)).resolve_right h
      · exact (mul_eq_zero.1 (by linarith : l * (e.y - p0.y) = 0)).resolve_right h
    have hm : 0 < m := by
      rw [hl0] at hlm
      by_contra hn
      have := mul_nonpos_of_nonneg_of_nonpos t0.le (not_lt.1 hn)
      linarith
    have hp1 : p1 ≠ p0 := by
      rintro rfl
      rcases hne with h | h
      · exact (mul_ne_zero hm.ne' h) (by linarith)
      · exact (mul_ne_zero hm.ne' h) (by linarith)
    rw [wrapFrom, if_pos (Or.inl rfl), wrapFrom_stay p0 p1 ps hp1 (fun q hq => by
      rw [sp1]; exact mul_nonpos_of_nonneg_of_nonpos hm.le (hr q (by simp [hq])))] at hw
    subst hw
    rcases hne with h | h
    · exact (mul_ne_zero (sub_pos.2 t1).ne' h) (by linarith)
    · exact (mul_ne_zero (sub_pos.2 t1).ne' h) (by linarith)
  · have hl : 0 ≤ l := by
      by_contra hn
      rw [not_le] at hn
      have hm : 0 < m := by
        by_contra hm
        have := mul_nonpos_of_nonneg_of_nonpos t0.le (not_lt.1 hm)
        have := mul_neg_of_pos_of_neg (sub_pos.2 t1) hn
        linarith
      apply hnb
      have hd : 0 < m - l := by linarith
      have ht : -l / (m - l) * (m - l) = -l := div_mul_cancel₀ _ hd.ne'
      refine ⟨-l / (m - l), div_pos (by linarith) hd, by rw [div_lt_one hd]; linarith, ?_, ?_⟩
      · linear_combination (-1 : K) * lx - (-l / (m - l)) * (mx - lx) - (e.x - v.x) * ht
      · linear_combination (-1 : K) * ly - (-l / (m - l)) * (my - ly) - (e.y - v.y) * ht
    rw [wrapFrom_stay v p0 (p1 :: ps) h0 (fun q hq => by
      rw [sp0]; exact mul_nonpos_of_nonneg_of_nonpos hl (hr q (List.mem_cons_of_mem _ hq)))] at hw
    subst hw
    have hx' : t * (p1.x - e.x) = 0 := by linarith
    have hy' : t * (p1.y - e.y) = 0 := by linarith
    exact h01 ⟨sub_eq_zero.1 ((mul_eq_zero.1 hx').resolve_left t0.ne'), sub_eq_zero.1 ((mul_eq_zero.1 hy').resolve_left t0.ne')⟩

section
variable {p0 p1 p2 : Vec3 K} {rest : List (Vec3 K)}

theorem ne_xy {pts : List (Vec3 K)} {a b : Vec3 K} (ha : First pts a) (hb : First pts b) (h : a ≠ b) :
    b.x - a.x ≠ 0 ∨ b.y - a.y ≠ 0 := by
  by_contra hn
  rw [not_or, not_not, not_not, sub_eq_zero, sub_eq_zero] at hn
  exact h (ha.eq hb hn.1.symm hn.2.symm)

/-- a round from the border leads to the border -/
theorem border_step (hg : GoodStart p0 p1 p2) {p : Vec3 K} (h : OnBorder p0 p1 (p2 :: rest) p) :
    OnBorder p0 p1 (p2 :: rest) (wrap p0 (p1 :: p2 :: rest) p) ∧ wrap p0 (p1 :: p2 :: rest) p ≠ p ∧
      ∀ q ∈ p0 :: p1 :: p2 :: rest, isLeft p (wrap p0 (p1 :: p2 :: rest) p) q ≤ 0 := by
  obtain ⟨hp, hnb, dx, dy, hb⟩ := h
  obtain ⟨h1, h2, h3⟩ := wrap_border hg hb hp hnb
  have h2 := ahead_ne h2
  have hnb' := wrap_notBetween (fun h => hg (by unfold OnLine; rw [h.1, h.2]; ring)) hnb (ne_xy hp h1 h2.symm) h3
  generalize wrap p0 (p1 :: p2 :: rest) p = e at *
  refine ⟨⟨h1, hnb', e.x - p.x, e.y - p.y, ne_xy hp h1 h2.symm, fun q hq => ?_⟩, h2, h3⟩
  have := h3 q hq
  unfold isLeft at this
  linarith

/-- the points reached after `n` rounds -/
def walk (p0 : Vec3 K) (ps : List (Vec3 K)) (n : ℕ) : Vec3 K := (wrap p0 ps)^[n] (leftMost p0 ps)

theorem walk_succ (p0 : Vec3 K) (ps : List (Vec3 K)) (n : ℕ) : walk p0 ps (n + 1) = wrap p0 ps (walk p0 ps n) := by
  unfold walk; rw [Function.iterate_succ_apply']

theorem walk_border (hg : GoodStart p0 p1 p2) (n : ℕ) : OnBorder p0 p1 (p2 :: rest) (walk p0 (p1 :: p2 :: rest) n) := by
  induction n with
  | zero => exact leftMost_border _ _ _ _ hg
  | succ n ih => rw [walk_succ]; exact (border_step hg ih).1

theorem walk_edge (hg : GoodStart p0 p1 p2) (n : ℕ) : walk p0 (p1 :: p2 :: rest) (n + 1) ≠ walk p0 (p1 :: p2 :: rest) n ∧
    ∀ q ∈ p0 :: p1 :: p2 :: rest, isLeft (walk p0 (p1 :: p2 :: rest) n) (walk p0 (p1 :: p2 :: rest) (n + 1)) q ≤ 0 := by
  rw [walk_succ]
  exact (border_step hg (walk_border hg n)).2

/-- not all points of the input are on one vertical line -/
theorem not_vertical (hg : GoodStart p0 p1 p2) (c : K) (h : ∀ q ∈ p0 :: p1 :: p2 :: rest, q.x = c) : False := by
  apply hg
  unfold OnLine
  rw [h p0 (by simp), h p1 (by simp), h p2 (by simp)]
  ring

theorem walk_repeats (hg : GoodStart p0 p1 p2) : ∃ i d, 0 < d ∧ ∀ n, i ≤ n →
    walk p0 (p1 :: p2 :: rest) (n + d) = walk p0 (p1 :: p2 :: rest) n := by
  classical
  set pts := p0 :: p1 :: p2 :: rest with hpts
  have hcard : pts.toFinset.card < (Finset.range (pts.length + 1)).card := by
    rw [Finset.card_range]
    exact Nat.lt_succ_of_le (List.toFinset_card_le _)
  obtain ⟨i, -, j, -, hij, heq⟩ := Finset.exists_ne_map_eq_of_card_lt_of_maps_to (t := pts.toFinset) hcard
    (f := fun n => walk p0 (p1 :: p2 :: rest) n) (by
      intro n _
      simp only [List.coe_toFinset, Set.mem_ofPred_eq]
      exact (walk_border hg n).1.mem)
  have key : ∀ i j : ℕ, i < j → walk p0 (p1 :: p2 :: rest) i = walk p0 (p1 :: p2 :: rest) j →
      ∃ i d, 0 < d ∧ ∀ n, i ≤ n → walk p0 (p1 :: p2 :: rest) (n + d) = walk p0 (p1 :: p2 :: rest) n := by
    intro i j hij heq
    refine ⟨i, j - i, by omega, fun n hn => ?_⟩
    have h1 : walk p0 (p1 :: p2 :: rest) (n + (j - i)) = (wrap p0 (p1 :: p2 :: rest))^[n - i] (walk p0 (p1 :: p2 :: rest) j) := by
      unfold walk; rw [← Function.iterate_add_apply, show n - i + j = n + (j - i) by omega]
    have h2 : walk p0 (p1 :: p2 :: rest) n = (wrap p0 (p1 :: p2 :: rest))^[n - i] (walk p0 (p1 :: p2 :: rest) i) := by
      unfold walk; rw [← Function.iterate_add_apply, show n - i + i = n by omega]
    rw [h1, h2, heq]
  rcases Nat.lt_or_gt_of_ne hij with h | h
  · exact key i j h heq
  · exact key j i h heq.symm

end

/-- a sequence that repeats itself has a smallest value, and it is reached infinitely often -/
theorem periodic_min (f : ℕ → K) (i d : ℕ) (hd : 0 < d) (h : ∀ n, i ≤ n → f (n + d) = f n) :
    ∃ m, (∀ n, i ≤ n → m ≤ f n) ∧ ∀ n, ∃ k, n < k ∧ i ≤ k ∧ f k = m := by
  obtain ⟨k, hk, hmin⟩ := Finset.exists_min_image (Finset.Ico i (i + d)) f ⟨i, by simp [hd]⟩
  rw [Finset.mem_Ico] at hk
  have rep : ∀ t n, i ≤ n → f (n + t * d) = f n := by
    intro t
    induction t with
    | zero => intro n _; simp
    | succ t ih =>
      intro n hn
      rw [show n + (t + 1) * d = (n + t * d) + d by ring, h _ (by omega), ih n hn]
  refine ⟨f k, fun n hn => ?_, fun n => ?_⟩
  · have : n = (i + (n - i) % d) + ((n - i) / d) * d := by
      have := Nat.mod_add_div (n - i) d
      rw [mul_comm] at this; omega
    rw [this, rep _ _ (by omega)]
    apply hmin
    rw [Finset.mem_Ico]
    have := Nat.mod_lt (n - i) hd
    omega
  · refine ⟨k + (n + 1) * d, ?_, by omega, rep _ _ hk.1⟩
    have : n + 1 ≤ (n + 1) * d := Nat.le_mul_of_pos_right _ hd
    omega

/-- the points of a corner with the smallest abscissa of the walk have the smallest abscissa of all -/
theorem corner_min {u v w q : Vec3 K} (hu : v.x < u.x) (hw : v.x ≤ w.x) (hne : w.x - v.x ≠ 0 ∨ w.y - v.y ≠ 0)
    (h1 : isLeft u v q ≤ 0) (h2 : isLeft v w q ≤ 0) (h3 : isLeft v w u ≤ 0) :
    (isLeft u v w ≠ 0 → v.x ≤ q.x ∧ (q.x = v.x → v.y ≤ q.y)) ∧ (isLeft u v w = 0 → isLeft u v q = 0) := by
  unfold isLeft at *
  have hα : 0 < u.x - v.x := sub_pos.2 hu
  have hγ : 0 ≤ w.x - v.x := sub_nonneg.2 hw
  -- lower end
  have hlow : q.x = v.x → v.y ≤ q.y := by
    intro hq
    by_contra hn
    have := mul_pos hα (sub_pos.2 (not_le.1 hn))
    rw [hq] at h1
    linarith
  constructor
  · intro h4
    have h3 : (w.x - v.x) * (u.y - v.y) - (u.x - v.x) * (w.y - v.y) < 0 := lt_of_le_of_ne h3 fun h => h4 (by linarith)
    refine ⟨?_, hlow⟩
    by_contra hn
    have hq : 0 < v.x - q.x := sub_pos.2 (not_le.1 hn)
    have e1 := mul_nonpos_of_nonneg_of_nonpos hγ h1
    have e2 := mul_nonpos_of_nonneg_of_nonpos hα.le h2
    have e3 := mul_neg_of_pos_of_neg hq h3
    linarith
  · intro h4
    have h3 : (w.x - v.x) * (u.y - v.y) - (u.x - v.x) * (w.y - v.y) = 0 := by linarith
    have hγ' : 0 < w.x - v.x := by
      refine lt_of_le_of_ne hγ fun h => ?_
      rw [← h] at h3
      have : (u.x - v.x) * (w.y - v.y) = 0 := by linarith
      rcases mul_eq_zero.1 this with h' | h'
      · exact hα.ne' h'
      · rcases hne with h'' | h''
        · exact h'' h.symm
        · exact h'' h'
    refine le_antisymm h1 ?_
    by_contra hn
    have e1 := mul_neg_of_pos_of_neg hγ' (not_le.1 hn)
    have e2 := mul_nonpos_of_nonneg_of_nonpos hα.le h2
    have e3 : (v.x - q.x) * ((w.x - v.x) * (u.y - v.y) - (u.x - v.x) * (w.y - v.y)) = 0 := by rw [h3, mul_zero]
    linarith

section
variable {p0 p1 p2 : Vec3 K} {rest : List (Vec3 K)}

/-- the walk comes back to its first point -/
theorem walk_returns (hg : GoodStart p0 p1 p2) : ∃ n, 0 < n ∧ walk p0 (p1 :: p2 :: rest) n = leftMost p0 (p1 :: p2 :: rest) := by
  obtain ⟨i, d, hd, hper⟩ := walk_repeats (rest := rest) hg
  have hedge := walk_edge (rest := rest) hg
  have hmem := fun n => (walk_border (rest := rest) hg n).1
  obtain ⟨m, hm1, hm2⟩ := periodic_min (fun n => (walk p0 (p1 :: p2 :: rest) n).x) i d hd (fun n hn => by simp only [hper n hn])
  -- not all points of the cycle have the same abscissa
  have hn0 : ∃ n0, i ≤ n0 ∧ m < (walk p0 (p1 :: p2 :: rest) n0).x := by
    by_contra hn
    push Not at hn
    have hx : ∀ n, i ≤ n → (walk p0 (p1 :: p2 :: rest) n).x = m := fun n h => le_antisymm (hn n h) (hm1 n h)
    obtain ⟨m', hy1, hy2⟩ := periodic_min (fun n => (walk p0 (p1 :: p2 :: rest) n).y) i d hd (fun n hn => by simp only [hper n hn])
    obtain ⟨k, hk1, hk2, hk3⟩ := hy2 (i + 1)
    obtain ⟨k, rfl⟩ : ∃ j, k = j + 1 := ⟨k - 1, by omega⟩
    have ya := hy1 k (by omega)
    have yc := hy1 (k + 1 + 1) (by omega)
    have na := (hedge k).1
    have nb := (hedge (k + 1)).1
    have ya' : (walk p0 (p1 :: p2 :: rest) (k + 1)).y < (walk p0 (p1 :: p2 :: rest) k).y := by
      rw [hk3]
      refine lt_of_le_of_ne ya fun h => na ((hmem _).eq (hmem _) ?_ ?_)
      · rw [hx _ (by omega), hx _ (by omega)]
      · rw [hk3, h]
    have yc' : (walk p0 (p1 :: p2 :: rest) (k + 1)).y < (walk p0 (p1 :: p2 :: rest) (k + 1 + 1)).y := by
      rw [hk3]
      refine lt_of_le_of_ne yc fun h => nb ((hmem _).eq (hmem _) ?_ ?_)
      · rw [hx _ (by omega), hx _ (by omega)]
      · rw [hk3, h]
    apply not_vertical hg m
    intro q hq
    have e1 := (hedge k).2 q hq
    have e2 := (hedge (k + 1)).2 q hq
    unfold isLeft at e1 e2
    rw [hx k (by omega), hx (k + 1) (by omega)] at e1
    rw [hx (k + 1) (by omega), hx (k + 1 + 1) (by omega)] at e2
    apply le_antisymm
    · by_contra hn
      have := mul_pos (sub_pos.2 (not_le.1 hn)) (sub_pos.2 ya')
      linarith
    · by_contra hn
      have := mul_pos (sub_pos.2 (not_le.1 hn)) (sub_pos.2 yc')
      linarith
  obtain ⟨n0, hi, hn0⟩ := hn0
  -- the first time after `n0` the smallest abscissa is reached
  classical
  have hex : ∃ k, n0 < k ∧ (walk p0 (p1 :: p2 :: rest) k).x = m := by
    obtain ⟨k, h1, -, h3⟩ := hm2 n0
    exact ⟨k, h1, h3⟩
  obtain ⟨hk1, hk2⟩ := Nat.find_spec hex
  have hk3 : ∀ j, n0 < j → j < Nat.find hex → (walk p0 (p1 :: p2 :: rest) j).x ≠ m := fun j h1 h2 h3 => Nat.find_min hex h2 ⟨h1, h3⟩
  generalize Nat.find hex = k at hk1 hk2 hk3
  obtain ⟨k, rfl⟩ : ∃ j, k = j + 1 := ⟨k - 1, by omega⟩
  have hu : m < (walk p0 (p1 :: p2 :: rest) k).x := by
    rcases Nat.lt_or_ge n0 k with h | h
    · exact lt_of_le_of_ne (hm1 k (by omega)) (Ne.symm (hk3 k h (by omega)))
    · rw [show k = n0 by omega]; exact hn0
  have hw := hm1 (k + 1 + 1) (by omega)
  have h1 := (hedge k).2
  have h2 := (hedge (k + 1)).2
  have hne := ne_xy (hmem (k + 1)) (hmem (k + 1 + 1)) (hedge (k + 1)).1.symm
  have hc := fun q hq => corner_min (q := q) (by rw [hk2]; exact hu) (by rw [hk2]; exact hw) hne (h1 q hq) (h2 q hq) (h2 _ (hmem k).mem)
  -- not all points are on one line
  have hall : ∀ q ∈ p0 :: p1 :: p2 :: rest, (walk p0 (p1 :: p2 :: rest) (k + 1)).x ≤ q.x ∧
      (q.x = (walk p0 (p1 :: p2 :: rest) (k + 1)).x → (walk p0 (p1 :: p2 :: rest) (k + 1)).y ≤ q.y) := by
    intro q hq
    by_cases hcol : isLeft (walk p0 (p1 :: p2 :: rest) k) (walk p0 (p1 :: p2 :: rest) (k + 1)) (walk p0 (p1 :: p2 :: rest) (k + 1 + 1)) = 0
    · exfalso
      have hl := fun q hq => (hc q hq).2 hcol
      apply hg
      rw [onLine_iff]
      have a0 := hl p0 (by simp)
      have a1 := hl p1 (by simp)
      have a2 := hl p2 (by simp)
      have hne' := (sub_neg.2 (hk2.trans_lt hu)).ne
      generalize walk p0 (p1 :: p2 :: rest) k = u at *
      generalize walk p0 (p1 :: p2 :: rest) (k + 1) = v at *
      unfold isLeft at *
      have : (v.x - u.x) * ((p1.x - p0.x) * (p2.y - p0.y) - (p2.x - p0.x) * (p1.y - p0.y)) = 0 := by
        linear_combination (p1.x - p0.x) * (a2 - a0) - (p2.x - p0.x) * (a1 - a0)
      exact (mul_eq_zero.1 this).resolve_left hne'
    · exact (hc q hq).1 hcol
  have hs := leftMostFrom_spec p0 (p1 :: p2 :: rest)
  change leftMost p0 (p1 :: p2 :: rest) ∈ _ ∧ ∀ q ∈ _, (leftMost p0 (p1 :: p2 :: rest)).x ≤ _ at hs
  by_cases hsv : leftMost p0 (p1 :: p2 :: rest) = walk p0 (p1 :: p2 :: rest) (k + 1)
  · exact ⟨k + 1, by omega, hsv.symm⟩
  · refine ⟨k + 1 + 1, by omega, ?_⟩
    have hx := le_antisymm (hs.2 _ (hmem (k + 1)).mem) (hall _ hs.1).1
    rw [walk_succ]
    refine wrap_lowest p0 _ _ hx hsv (lt_of_le_of_ne ((hall _ hs.1).2 hx) fun h => hsv ((hmem 0).eq (hmem _) hx h.symm))

/-- the walk comes back to its first point within as many rounds as there are points -/
theorem walk_first_return (hg : GoodStart p0 p1 p2) : ∃ n, 0 < n ∧ n ≤ (p0 :: p1 :: p2 :: rest).length ∧
    walk p0 (p1 :: p2 :: rest) n = leftMost p0 (p1 :: p2 :: rest) := by
  classical
  have hex := walk_returns (rest := rest) hg
  obtain ⟨h1, h2⟩ := Nat.find_spec hex
  have h3 : ∀ m, 0 < m → m < Nat.find hex → walk p0 (p1 :: p2 :: rest) m ≠ leftMost p0 (p1 :: p2 :: rest) :=
    fun m a b c => Nat.find_min hex b ⟨a, c⟩
  generalize Nat.find hex = n at h1 h2 h3
  refine ⟨n, h1, ?_, h2⟩
  have key : ∀ i j : ℕ, i < j → j < n → walk p0 (p1 :: p2 :: rest) i ≠ walk p0 (p1 :: p2 :: rest) j := by
    intro i j hij hj heq
    apply h3 (i + (n - j)) (by omega) (by omega)
    have e1 : walk p0 (p1 :: p2 :: rest) (i + (n - j)) = (wrap p0 (p1 :: p2 :: rest))^[n - j] (walk p0 (p1 :: p2 :: rest) i) := by
      unfold walk; rw [← Function.iterate_add_apply, show n - j + i = i + (n - j) by omega]
    have e2 : walk p0 (p1 :: p2 :: rest) n = (wrap p0 (p1 :: p2 :: rest))^[n - j] (walk p0 (p1 :: p2 :: rest) j) := by
      unfold walk; rw [← Function.iterate_add_apply, show n - j + j = n by omega]
    rw [e1, heq, ← e2, h2]
  have hinj : Set.InjOn (walk p0 (p1 :: p2 :: rest)) (Finset.range n) := by
    intro i hi j hj heq
    simp only [Finset.coe_range, Set.mem_Iio] at hi hj
    rcases Nat.lt_trichotomy i j with h | h | h
    · exact absurd heq (key i j h hj)
    · exact h
    · exact absurd heq.symm (key j i h hi)
  have hc := Finset.card_le_card_of_injOn (s := Finset.range n) (t := (p0 :: p1 :: p2 :: rest).toFinset) (walk p0 (p1 :: p2 :: rest))
    (fun m _ => by simpa using (walk_border hg m).1.mem) hinj
  rw [Finset.card_range] at hc
  exact hc.trans (List.toFinset_card_le _)

end

/-! ## The hull -/

/-- **C83** (gift wrapping, aligned points).  If the first three points are not on one line, `ConvexHull` ends after at most as many rounds as there are points.
Its result is a closed polygon of at least three corners, all input points, with no input point left of an edge. -/
theorem C83_aligned_hull (fuel : ℕ) (p0 p1 p2 : Vec3 K) (rest : List (Vec3 K)) (hg : GoodStart p0 p1 p2)
    (hf : (p0 :: p1 :: p2 :: rest).length ≤ fuel) :
    ∃ out, convexHull fuel p0 (p1 :: p2 :: rest) = some out ∧ Closed out ∧ 4 ≤ out.length ∧ (∀ v ∈ out, v ∈ p0 :: p1 :: p2 :: rest) ∧
      ∀ a b, Edge out a b → (a.x ≠ b.x ∨ a.y ≠ b.y) ∧ ∀ q ∈ p0 :: p1 :: p2 :: rest, ¬ StrictlyLeft a b q := by
  obtain ⟨d, h1, h2, h3⟩ := walk_first_return (rest := rest) hg
  have hs := hullLoop_some p0 (p1 :: p2 :: rest) fuel [] (leftMost p0 (p1 :: p2 :: rest)) (leftMost p0 (p1 :: p2 :: rest)) (by simp) (d - 1) (by omega)
    (by rw [show d - 1 + 1 = d by omega]; exact h3)
  obtain ⟨out, hout⟩ := Option.isSome_iff_exists.1 hs
  refine ⟨out, hout, ?_⟩
  obtain ⟨a1, a2, a3, a4, a5⟩ := hullLoop_spec p0 (p1 :: p2 :: rest) (fun a b => a ≠ b ∧ ∀ q ∈ p0 :: p1 :: p2 :: rest, isLeft a b q ≤ 0)
    (OnBorder p0 p1 (p2 :: rest)) (fun p hp => by
      obtain ⟨g1, g2, g3⟩ := border_step hg hp
      exact ⟨⟨g2.symm, g3⟩, g1⟩) fuel [] _ out hout (fun c d h => absurd h (edge_singleton _ _ _)) (by
      intro v hv
      simp at hv; subst hv
      exact leftMost_border _ _ _ _ hg)
  have hlen : 4 ≤ out.length := by
    by_contra hlt
    have hl : out.length = 2 ∨ out.length = 3 := by simp at a5; omega
    rcases hl with hl | hl
    · match out, hl with
      | [u, v], _ =>
        have huv : u = v := by simpa [Closed] using a3
        exact (a1 u v ⟨0, by simp, by simp⟩).1 huv
    · match out, hl with
      | [u, v, w], _ =>
        have huv : u = w := by simpa [Closed] using a3
        subst huv
        obtain ⟨n1, e1⟩ := a1 u v ⟨0, by simp, by simp⟩
        obtain ⟨n2, e2⟩ := a1 v u ⟨1, by simp, by simp⟩
        have hz : ∀ q ∈ p0 :: p1 :: p2 :: rest, isLeft u v q = 0 := by
          intro q hq
          refine le_antisymm (e1 q hq) ?_
          have := e2 q hq
          unfold isLeft at this ⊢
          linarith
        have hne := ne_xy (a2 u (by simp)).1 (a2 v (by simp)).1 n1
        have z0 := hz p0 (by simp)
        have z1 := hz p1 (by simp)
        have z2 := hz p2 (by simp)
        apply hg
        rw [onLine_iff]
        unfold isLeft at *
        rcases hne with h | h
        · have : (v.x - u.x) * ((p1.x - p0.x) * (p2.y - p0.y) - (p2.x - p0.x) * (p1.y - p0.y)) = 0 := by
            linear_combination (p1.x - p0.x) * (z2 - z0) - (p2.x - p0.x) * (z1 - z0)
          exact (mul_eq_zero.1 this).resolve_left h
        · have : (v.y - u.y) * ((p1.x - p0.x) * (p2.y - p0.y) - (p2.x - p0.x) * (p1.y - p0.y)) = 0 := by
            linear_combination (p1.y - p0.y) * (z2 - z0) - (p2.y - p0.y) * (z1 - z0)
          exact (mul_eq_zero.1 this).resolve_left h
  refine ⟨a3, hlen, fun v hv => (a2 v hv).1.mem, fun a b hab => ⟨?_, fun q hq => ?_⟩⟩
  · rcases ne_xy (a2 a (edge_mem hab).1).1 (a2 b (edge_mem hab).2).1 (a1 a b hab).1 with h | h
    · exact Or.inl fun h' => h (by rw [h', sub_self])
    · exact Or.inr fun h' => h (by rw [h', sub_self])
  rw [left_iff, not_lt]
  exact (a1 a b hab).2 q hq

/-- the polygon of a hull against the convex hull of the points -/
theorem inPolygon_aligned (p0 p1 p2 : Vec3 ℝ) (rest out : List (Vec3 ℝ)) (h2 : Closed out) (h3 : 4 ≤ out.length)
    (h4 : ∀ v ∈ out, v ∈ p0 :: p1 :: p2 :: rest)
    (h5 : ∀ a b, Edge out a b → (a.x ≠ b.x ∨ a.y ≠ b.y) ∧ ∀ q ∈ p0 :: p1 :: p2 :: rest, ¬ StrictlyLeft a b q) (S : Set (ℝ × ℝ))
    (hS : ∀ q, q ∈ S ↔ ∃ v ∈ p0 :: p1 :: p2 :: rest, v.x = q.1 ∧ v.y = q.2) (P : Vec3 ℝ) :
    ((P.x, P.y) ∈ interior (_root_.convexHull ℝ S) → inPolygon out P = true) ∧ ((P.x, P.y) ∉ _root_.convexHull ℝ S → inPolygon out P = false) := by
  constructor
  · intro hin
    apply C46_inside_cw out P h2 (by omega)
    intro a b hab
    rw [right_iff]
    apply right_of_interior (p0 :: p1 :: p2 :: rest) P a b _ hS hin
    · exact (h5 a b hab).1
    · intro q hq
      have := (h5 a b hab).2 q hq
      rwa [left_iff, not_lt] at this
  · intro hout
    apply C46_separated out P h2 (by omega)
    obtain ⟨α, β, h⟩ := separated_of_not_mem (p0 :: p1 :: p2 :: rest) P _ hS hout
    exact ⟨α, β, fun v hv => h v (h4 v hv)⟩

/-- **C83** (support polygon).  If the rectangle of the first contact is not flat, `Contains` is true
for every point of the interior of the convex hull of the corners of all contacts and false for every point outside it; corners may be aligned, shared
or one above the other. -/
theorem C83_feet (f : Foot ℝ) (feet : List (Foot ℝ)) (hx : f.xs ≠ 0) (hy : f.ys ≠ 0) (P : Vec3 ℝ) (fuel : ℕ)
    (hf : 4 * (f :: feet).length ≤ fuel) :
    ((P.x, P.y) ∈ interior (_root_.convexHull ℝ (footprint (f :: feet))) → contains fuel (f :: feet) P = some true) ∧
      ((P.x, P.y) ∉ _root_.convexHull ℝ (footprint (f :: feet)) → contains fuel (f :: feet) P = some false) := by
  have hlen : (allCorners (f :: feet)).length = 4 * (f :: feet).length := by
    unfold allCorners
    rw [List.length_flatMap]
    simp [corners]; omega
  have hS := mem_footprint (f :: feet)
  obtain ⟨p0, p1, p2, rest, hc, hg⟩ : ∃ p0 p1 p2 rest, allCorners (f :: feet) = p0 :: p1 :: p2 :: rest ∧ GoodStart p0 p1 p2 := by
    refine ⟨_, _, _, _, rfl, ?_⟩
    unfold GoodStart OnLine
    simp only [Vec3.add_x, Vec3.add_y]
    intro h
    have : f.xs * f.ys = 0 := by linarith
    rcases mul_eq_zero.1 this with h | h
    · exact hx h
    · exact hy h
  unfold contains
  rw [hc] at hlen hS ⊢
  obtain ⟨out, h1, h2, h3, h4, h5⟩ := C83_aligned_hull fuel p0 p1 p2 rest hg (by omega)
  simp only [h1, Option.map_some, Option.some.injEq]
  exact inPolygon_aligned p0 p1 p2 rest out h2 h3 h4 h5 _ hS P

/-! ## Point contacts -/

/-- three point contacts on one line -/
def alignedPoints : List (Foot ℚ) := [⟨⟨1, 0, 0⟩, 0, 0⟩, ⟨⟨2, 0, 0⟩, 0, 0⟩, ⟨⟨0, 0, 0⟩, 0, 0⟩]

/-- three point contacts on one line and a fourth one off it -/
def fourPoints : List (Foot ℚ) := [⟨⟨0, 0, 0⟩, 0, 0⟩, ⟨⟨0, 1, 0⟩, 0, 0⟩, ⟨⟨0, 2, 0⟩, 0, 0⟩, ⟨⟨2, 0, 0⟩, 0, 0⟩]

/-- **C83 is violated by point contacts**: for three of them on one line `Contains` never returns, whatever the point; for four of them, three of which are on
one line, it is false for a point strictly inside the triangle they span, a combination of three of the contacts with positive weights 1/4, 5/8 and 1/8. -/
theorem C83_points_violated : (∀ fuel P, contains fuel alignedPoints P = none) ∧ contains 16 fourPoints ⟨1/4, 5/4, 0⟩ = some false ∧
    ((1/4 : ℚ), (5/4 : ℚ)) = (1/4 * 0 + 5/8 * 0 + 1/8 * 2, 1/4 * 0 + 5/8 * 2 + 1/8 * 0) := by
  refine ⟨fun fuel P => ?_, by decide +kernel, by decide +kernel⟩
  have hc : allCorners alignedPoints = (⟨1, 0, 0⟩ : Vec3 ℚ) :: [⟨1, 0, 0⟩, ⟨1, 0, 0⟩, ⟨1, 0, 0⟩, ⟨2, 0, 0⟩, ⟨2, 0, 0⟩, ⟨2, 0, 0⟩, ⟨2, 0, 0⟩, ⟨0, 0, 0⟩, ⟨0, 0, 0⟩, ⟨0, 0, 0⟩,
      ⟨0, 0, 0⟩] := by decide +kernel
  unfold contains
  simp only [hc]
  rw [Option.map_eq_none_iff]
  generalize hps : [(⟨1, 0, 0⟩ : Vec3 ℚ), ⟨1, 0, 0⟩, ⟨1, 0, 0⟩, ⟨2, 0, 0⟩, ⟨2, 0, 0⟩, ⟨2, 0, 0⟩, ⟨2, 0, 0⟩, ⟨0, 0, 0⟩, ⟨0, 0, 0⟩, ⟨0, 0, 0⟩, ⟨0, 0, 0⟩] = ps
  have w0 : wrap ⟨1, 0, 0⟩ ps ⟨0, 0, 0⟩ = ⟨1, 0, 0⟩ := by subst hps; decide +kernel
  have w1 : wrap ⟨1, 0, 0⟩ ps ⟨1, 0, 0⟩ = ⟨2, 0, 0⟩ := by subst hps; decide +kernel
  have w2 : wrap ⟨1, 0, 0⟩ ps ⟨2, 0, 0⟩ = ⟨1, 0, 0⟩ := by subst hps; decide +kernel
  have e : leftMost ⟨1, 0, 0⟩ ps = ⟨0, 0, 0⟩ := by subst hps; decide +kernel
  cases fuel with
  | zero => rfl
  | succ fuel =>
    unfold convexHull
    rw [e, hullLoop]
    simp only [w0]
    rw [if_pos (by decide +kernel)]
    exact (hullLoop_stuck _ ps ⟨1, 0, 0⟩ ⟨2, 0, 0⟩ w1 w2 ⟨0, 0, 0⟩ (by decide +kernel) (by decide +kernel) fuel _ (by simp)).1

/-! ## Witnesses -/

/-- two feet side by side: eight corners on two lines -/
def sideBySide : List (Foot ℚ) := [⟨⟨0, 0, 0⟩, 1, 1⟩, ⟨⟨4, 0, 0⟩, 1, 1⟩]

/-- four corners are on one line, and the polygon of the support is the rectangle around both feet -/
example : contains 8 sideBySide ⟨2, 0, 0⟩ = some true ∧ contains 8 sideBySide ⟨2, 2, 0⟩ = some false ∧
    convexHull 8 ⟨1, 1, 0⟩ ((allCorners sideBySide).tail) = some [⟨-1, 1, 0⟩, ⟨1, 1, 0⟩, ⟨5, 1, 0⟩, ⟨5, -1, 0⟩, ⟨-1, -1, 0⟩, ⟨-1, 1, 0⟩] := by
  decide +kernel

example : contains 8 [⟨⟨0, 0, 0⟩, 1, 1⟩, ⟨⟨4, 0, 0⟩, 1, 1⟩] (⟨7, 0, 0⟩ : Vec3 ℝ) = some false := by
  refine (C83_feet _ _ one_ne_zero one_ne_zero _ 8 (by simp)).2 ?_
  intro h
  have hsub : _root_.convexHull ℝ (footprint [⟨⟨0, 0, 0⟩, 1, 1⟩, ⟨⟨4, 0, 0⟩, 1, 1⟩]) ⊆ {q : ℝ × ℝ | q.1 ≤ 5} := by
    apply convexHull_min
    · rintro q ⟨g, hg, h1, -⟩
      simp only [List.mem_cons, List.not_mem_nil, or_false] at hg
      rw [Set.mem_ofPred_eq]
      rcases hg with rfl | rfl <;> rcases h1 with h1 | h1 <;> rw [h1] <;> norm_num
    · exact convex_halfSpace_le (LinearMap.isLinear (LinearMap.fst ℝ ℝ ℝ)) 5
  have := hsub h
  rw [Set.mem_ofPred_eq] at this
  norm_num at this

end Support
end Rbprm
