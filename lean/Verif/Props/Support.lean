import Verif.Model.Support
import Mathlib.Tactic.Linarith
import Mathlib.Tactic.LinearCombination
import Mathlib.Tactic.Positivity
import Mathlib.Tactic.SplitIfs
import Mathlib.Tactic.NormNum
set_option linter.unusedSectionVars false
/-! # C46: support polygon -/
namespace Rbprm
namespace Support
variable {K : Type _} [Field K] [LinearOrder K] [IsStrictOrderedRing K]

/-! ## Specification -/

/-- `a` and `b` are consecutive vertices of the polygon -/
def Edge (l : List (Vec3 K)) (a b : Vec3 K) : Prop := ∃ i : ℕ, l[i]? = some a ∧ l[i + 1]? = some b
/-- the polygon comes back to its first vertex -/
def Closed (l : List (Vec3 K)) : Prop := l.head? = l.getLast?
/-- seen from above, `P` is strictly left of the line from `a` to `b` -/
def StrictlyLeft (a b P : Vec3 K) : Prop := 0 < (b.x - a.x) * (P.y - a.y) - (b.y - a.y) * (P.x - a.x)
/-- seen from above, `P` is strictly right of the line from `a` to `b` -/
def StrictlyRight (a b P : Vec3 K) : Prop := (b.x - a.x) * (P.y - a.y) - (b.y - a.y) * (P.x - a.x) < 0
/-- the polygon turns left only: no vertex is strictly right of an edge -/
def ConvexCCW (l : List (Vec3 K)) : Prop := ∀ a b, Edge l a b → ∀ v ∈ l, ¬ StrictlyRight a b v
/-- the polygon turns right only -/
def ConvexCW (l : List (Vec3 K)) : Prop := ∀ a b, Edge l a b → ∀ v ∈ l, ¬ StrictlyLeft a b v
/-- a vertical plane separates strictly the points of the list from `P` -/
def Separated (l : List (Vec3 K)) (P : Vec3 K) : Prop := ∃ α β : K, ∀ v ∈ l, 0 < α * (v.x - P.x) + β * (v.y - P.y)

/-! ## Elementary facts -/

theorem left_iff (a b P : Vec3 K) : StrictlyLeft a b P ↔ 0 < isLeft a b P := by
  unfold StrictlyLeft isLeft
  rw [mul_comm (b.y - a.y)]
theorem right_iff (a b P : Vec3 K) : StrictlyRight a b P ↔ isLeft a b P < 0 := by
  unfold StrictlyRight isLeft
  rw [mul_comm (b.y - a.y)]

theorem edge_cons (a b : Vec3 K) (l : List (Vec3 K)) (c d : Vec3 K) :
    Edge (a :: b :: l) c d ↔ (c = a ∧ d = b) ∨ Edge (b :: l) c d := by
  constructor
  · rintro ⟨i, h1, h2⟩
    cases i with
    | zero => left; simp at h1 h2; exact ⟨h1.symm, h2.symm⟩
    | succ i => right; exact ⟨i, by simpa using h1, by simpa using h2⟩
  · rintro (⟨rfl, rfl⟩ | ⟨i, h1, h2⟩)
    · exact ⟨0, by simp, by simp⟩
    · exact ⟨i + 1, by simpa using h1, by simpa using h2⟩

theorem edge_singleton (a c d : Vec3 K) : ¬ Edge [a] c d := by
  rintro ⟨i, -, h⟩
  simp at h

theorem isLeft_swap (a b P : Vec3 K) : isLeft b a P = - isLeft a b P := by unfold isLeft; ring
theorem isLeft_rot (a b c : Vec3 K) : isLeft b c a = isLeft a b c := by unfold isLeft; ring
theorem isLeft_flip (a b c : Vec3 K) : isLeft a c b = - isLeft a b c := by unfold isLeft; ring

/-- the identity behind everything: with `u, v, w` taken relatively to `P`, `cross(u,w) f(v) = cross(u,v) f(w) + cross(v,w) f(u)` -/
theorem cross_id (α β : K) (P a b c : Vec3 K) :
    isLeft a c P * (α * (b.x - P.x) + β * (b.y - P.y)) =
      isLeft a b P * (α * (c.x - P.x) + β * (c.y - P.y)) + isLeft b c P * (α * (a.x - P.x) + β * (a.y - P.y)) := by
  unfold isLeft; ring

/-! ## Winding number -/

/-- 1 for a vertex strictly above the horizontal line through `P` -/
def up (v P : Vec3 K) : ℤ := if v.y > P.y then 1 else 0

theorem winding_of_step (P : Vec3 K) (l : List (Vec3 K)) (a : Vec3 K) (g : Vec3 K → ℤ)
    (h : ∀ c d, Edge (a :: l) c d → windStep c d P = g d - g c) :
    winding (a :: l) P = g ((a :: l).getLast (by simp)) - g a := by
  induction l generalizing a with
  | nil => simp [winding]
  | cons b l ih =>
    rw [winding, ih b (fun c d hcd => h c d ((edge_cons a b l c d).2 (Or.inr hcd))),
      h a b ((edge_cons a b l a b).2 (Or.inl ⟨rfl, rfl⟩))]
    simp

theorem edge_mem {l : List (Vec3 K)} {a b : Vec3 K} (h : Edge l a b) : a ∈ l ∧ b ∈ l := by
  obtain ⟨i, h1, h2⟩ := h
  exact ⟨List.mem_of_getElem? h1, List.mem_of_getElem? h2⟩

theorem winding_separated (l : List (Vec3 K)) (P : Vec3 K) (hc : Closed l) (hs : Separated l P) : winding l P = 0 := by
  cases l with
  | nil => rfl
  | cons a l =>
    obtain ⟨α, β, hf⟩ := hs
    have hlast : (a :: l).getLast (by simp) = a := by
      have := hc
      unfold Closed at this
      rw [List.getLast?_eq_getLast_of_ne_nil (by simp)] at this
      simpa using this.symm
    have key : ∀ c d, Edge (a :: l) c d →
        (α * (c.x - P.x) + β * (c.y - P.y)) * (d.y - P.y) - (α * (d.x - P.x) + β * (d.y - P.y)) * (c.y - P.y) =
          α * isLeft c d P := by
      intro c d _; unfold isLeft; ring
    rcases lt_trichotomy α 0 with hα | hα | hα
    · rw [winding_of_step P l a (fun _ => 0)]
      · simp
      · intro c d hcd
        have h1 := hf c (edge_mem hcd).1
        have h2 := hf d (edge_mem hcd).2
        have h3 := key c d hcd
        simp only [sub_self]
        unfold windStep
        split_ifs with g1 g2 g3 g4 g5
        · exfalso
          have : 0 ≤ (α * (d.x - P.x) + β * (d.y - P.y)) * (P.y - c.y) := mul_nonneg h2.le (by linarith)
          have : 0 < (α * (c.x - P.x) + β * (c.y - P.y)) * (d.y - P.y) := mul_pos h1 (by linarith)
          nlinarith
        · rfl
        · rfl
        · exfalso
          have : 0 ≤ (α * (c.x - P.x) + β * (c.y - P.y)) * (P.y - d.y) := mul_nonneg h1.le (by linarith)
          have : 0 < (α * (d.x - P.x) + β * (d.y - P.y)) * (c.y - P.y) := mul_pos h2 (by linarith)
          nlinarith
        · rfl
        · rfl
    · subst hα
      rw [winding_of_step P l a (fun _ => 0)]
      · simp
      · intro c d hcd
        have h1 := hf c (edge_mem hcd).1
        have h2 := hf d (edge_mem hcd).2
        simp only [zero_mul, zero_add] at h1 h2
        simp only [sub_self]
        unfold windStep
        split_ifs with g1 g2 g3 g4 g5
        · exfalso; rcases le_total 0 β with hb | hb <;> nlinarith
        · rfl
        · rfl
        · exfalso; rcases le_total 0 β with hb | hb <;> nlinarith
        · rfl
        · rfl
    · rw [winding_of_step P l a (fun v => up v P)]
      · simp only [hlast, sub_self]
      · intro c d hcd
        have h1 := hf c (edge_mem hcd).1
        have h2 := hf d (edge_mem hcd).2
        have h3 := key c d hcd
        unfold windStep up
        rcases le_or_gt c.y P.y with g1 | g1 <;> rcases le_or_gt d.y P.y with g2 | g2
        · simp [g1, not_lt.2 g1, not_lt.2 g2]
        · have : 0 < isLeft c d P := by
            have e1 : 0 ≤ (α * (d.x - P.x) + β * (d.y - P.y)) * (P.y - c.y) := mul_nonneg h2.le (by linarith)
            have e2 : 0 < (α * (c.x - P.x) + β * (c.y - P.y)) * (d.y - P.y) := mul_pos h1 (by linarith)
            by_contra hn
            nlinarith
          simp [g1, g2, this, not_lt.2 g1]
        · have : isLeft c d P < 0 := by
            have e1 : 0 ≤ (α * (c.x - P.x) + β * (c.y - P.y)) * (P.y - d.y) := mul_nonneg h1.le (by linarith)
            have e2 : 0 < (α * (d.x - P.x) + β * (d.y - P.y)) * (c.y - P.y) := mul_pos h2 (by linarith)
            by_contra hn
            nlinarith
          simp [g1, g2, this, not_lt.2 g2, not_le.2 g1]
        · simp [g1, g2, not_le.2 g1, not_le.2 g2]

/-- along a chain in an open half plane seen from `P`, turning left is transitive -/
theorem chain_left (α β : K) (P : Vec3 K) (a b : Vec3 K) (l : List (Vec3 K))
    (hf : ∀ v ∈ a :: b :: l, 0 < α * (v.x - P.x) + β * (v.y - P.y))
    (he : ∀ c d, Edge (a :: b :: l) c d → 0 < isLeft c d P) :
    0 < isLeft a ((b :: l).getLast (by simp)) P := by
  induction l generalizing b with
  | nil => simpa using he a b ((edge_cons _ _ _ _ _).2 (Or.inl ⟨rfl, rfl⟩))
  | cons c l ih =>
    have hab : 0 < isLeft a b P := he a b ((edge_cons _ _ _ _ _).2 (Or.inl ⟨rfl, rfl⟩))
    have hbc : 0 < isLeft b c P :=
      he b c ((edge_cons _ _ _ _ _).2 (Or.inr ((edge_cons _ _ _ _ _).2 (Or.inl ⟨rfl, rfl⟩))))
    have hfa := hf a (by simp)
    have hfb := hf b (by simp)
    have hfc := hf c (by simp)
    have hac : 0 < isLeft a c P := by
      have := cross_id α β P a b c
      have e1 := mul_pos hab hfc
      have e2 := mul_pos hbc hfa
      by_contra hn
      nlinarith
    have := ih c (fun v hv => hf v (by
        rcases List.mem_cons.1 hv with rfl | hv
        · simp
        · exact List.mem_cons_of_mem _ (List.mem_cons_of_mem _ hv)))
      (fun u v huv => by
        rcases (edge_cons _ _ _ _ _).1 huv with ⟨rfl, rfl⟩ | huv
        · exact hac
        · exact he u v ((edge_cons _ _ _ _ _).2 (Or.inr ((edge_cons _ _ _ _ _).2 (Or.inr huv)))))
    simpa using this

/-- a chain that turns left around `P` and stays below or at the height of `P` is strictly below it, except at its ends -/
theorem chain_below (P : Vec3 K) (a b : Vec3 K) (l : List (Vec3 K))
    (hy : ∀ v ∈ a :: b :: l, v.y ≤ P.y) (he : ∀ c d, Edge (a :: b :: l) c d → 0 < isLeft c d P) :
    ∀ v ∈ (b :: l).dropLast, v.y < P.y := by
  induction l generalizing a b with
  | nil => simp
  | cons c l ih =>
    intro v hv
    simp only [List.dropLast_cons_cons, List.mem_cons] at hv
    rcases hv with rfl | hv
    · have hab : 0 < isLeft a v P := he a v ((edge_cons _ _ _ _ _).2 (Or.inl ⟨rfl, rfl⟩))
      have hbc : 0 < isLeft v c P :=
        he v c ((edge_cons _ _ _ _ _).2 (Or.inr ((edge_cons _ _ _ _ _).2 (Or.inl ⟨rfl, rfl⟩))))
      have hya := hy a (by simp)
      have hyv := hy v (by simp)
      have hyc := hy c (by simp)
      rcases lt_or_eq_of_le hyv with h | h
      · exact h
      · exfalso
        have := cross_id 0 1 P a v c
        simp only [zero_mul, zero_add, one_mul, h, sub_self, mul_zero] at this
        have e1 : isLeft a v P * (c.y - P.y) ≤ 0 := mul_nonpos_of_nonneg_of_nonpos hab.le (by linarith)
        have e2 : isLeft v c P * (a.y - P.y) ≤ 0 := mul_nonpos_of_nonneg_of_nonpos hbc.le (by linarith)
        have e3 : isLeft v c P * (a.y - P.y) = 0 := by linarith
        rcases mul_eq_zero.1 e3 with e | e
        · linarith
        · have ha : isLeft a v P = 0 := by
            unfold isLeft
            have : a.y = P.y := by linarith
            rw [h, this]; ring
          linarith
    · exact ih b c (fun w hw => hy w (List.mem_cons_of_mem _ hw))
        (fun u w huw => he u w ((edge_cons _ _ _ _ _).2 (Or.inr huw))) v hv

theorem windStep_left {a b P : Vec3 K} (h : 0 < isLeft a b P) : windStep a b P = if a.y ≤ P.y ∧ P.y < b.y then 1 else 0 := by
  unfold windStep
  rcases le_or_gt a.y P.y with h1 | h1 <;> rcases le_or_gt b.y P.y with h2 | h2
  · simp [h1, not_lt.2 h2]
  · simp [h1, h2, h]
  · simp [not_le.2 h1, not_lt.2 h.le]
  · simp [not_le.2 h1, not_le.2 h2]

theorem winding_left_nonneg (P : Vec3 K) (a : Vec3 K) (l : List (Vec3 K))
    (he : ∀ c d, Edge (a :: l) c d → 0 < isLeft c d P) : 0 ≤ winding (a :: l) P := by
  induction l generalizing a with
  | nil => simp [winding]
  | cons b l ih =>
    have h1 := windStep_left (he a b ((edge_cons _ _ _ _ _).2 (Or.inl ⟨rfl, rfl⟩)))
    have h2 := ih b (fun u w huw => he u w ((edge_cons _ _ _ _ _).2 (Or.inr huw)))
    rw [winding, h1]
    split_ifs <;> omega

/-- without an upward crossing, a chain that starts below stays below -/
theorem stays_below (P : Vec3 K) (a : Vec3 K) (l : List (Vec3 K)) (he : ∀ c d, Edge (a :: l) c d → 0 < isLeft c d P)
    (h0 : winding (a :: l) P = 0) (ha : a.y ≤ P.y) : ∀ v ∈ a :: l, v.y ≤ P.y := by
  induction l generalizing a with
  | nil => simpa using ha
  | cons b l ih =>
    have h1 := windStep_left (he a b ((edge_cons _ _ _ _ _).2 (Or.inl ⟨rfl, rfl⟩)))
    have h2 := winding_left_nonneg P b l (fun u w huw => he u w ((edge_cons _ _ _ _ _).2 (Or.inr huw)))
    rw [winding, h1] at h0
    have hb : b.y ≤ P.y := by
      by_contra hn
      rw [if_pos ⟨ha, not_le.1 hn⟩] at h0
      omega
    have h3 : winding (b :: l) P = 0 := by split_ifs at h0 <;> omega
    intro v hv
    rcases List.mem_cons.1 hv with rfl | hv
    · exact ha
    · exact ih b (fun u w huw => he u w ((edge_cons _ _ _ _ _).2 (Or.inr huw))) h3 hb v hv

/-- without an upward crossing, a chain that ends above is above everywhere -/
theorem stays_above (P : Vec3 K) (a : Vec3 K) (l : List (Vec3 K)) (he : ∀ c d, Edge (a :: l) c d → 0 < isLeft c d P)
    (h0 : winding (a :: l) P = 0) (hl : P.y < ((a :: l).getLast (by simp)).y) : ∀ v ∈ a :: l, P.y < v.y := by
  induction l generalizing a with
  | nil => simpa using hl
  | cons b l ih =>
    have h1 := windStep_left (he a b ((edge_cons _ _ _ _ _).2 (Or.inl ⟨rfl, rfl⟩)))
    have h2 := winding_left_nonneg P b l (fun u w huw => he u w ((edge_cons _ _ _ _ _).2 (Or.inr huw)))
    have h0' := h0
    rw [winding, h1] at h0
    have h3 : winding (b :: l) P = 0 := by split_ifs at h0 <;> omega
    have h4 := ih b (fun u w huw => he u w ((edge_cons _ _ _ _ _).2 (Or.inr huw))) h3 (by simpa using hl)
    intro v hv
    rcases List.mem_cons.1 hv with rfl | hv
    · by_contra hn
      rw [if_pos ⟨not_lt.1 hn, h4 b (by simp)⟩] at h0
      omega
    · exact h4 v hv

theorem edge_concat {l : List (Vec3 K)} {x c d : Vec3 K} (h : Edge (l ++ [x]) c d) :
    Edge l c d ∨ (l.getLast? = some c ∧ d = x) := by
  obtain ⟨i, h1, h2⟩ := h
  rcases lt_trichotomy (i + 1) l.length with hi | hi | hi
  · left
    exact ⟨i, by rwa [List.getElem?_append_left (by omega)] at h1, by rwa [List.getElem?_append_left hi] at h2⟩
  · right
    rw [List.getElem?_append_left (by omega)] at h1
    rw [List.getElem?_append_right (by omega)] at h2
    refine ⟨?_, ?_⟩
    · rw [List.getLast?_eq_getElem?, ← h1]; congr 1; omega
    · simp [hi] at h2; exact h2.symm
  · exfalso
    rw [List.getElem?_append_right (by omega), List.getElem?_eq_none (by simp; omega)] at h2
    simp at h2

/-- **C46** (winding number).  A closed polygon with at least one edge that keeps `P` strictly on its left turns around `P`. -/
theorem winding_inside (l : List (Vec3 K)) (P : Vec3 K) (hc : Closed l) (hn : 2 ≤ l.length)
    (he : ∀ c d, Edge l c d → 0 < isLeft c d P) : 0 < winding l P := by
  match l, hn with
  | a :: b :: l, _ =>
    have hlast : (a :: b :: l).getLast (by simp) = a := by
      have := hc
      unfold Closed at this
      rw [List.getLast?_eq_getLast_of_ne_nil (by simp)] at this
      simpa using this.symm
    have hlast' : (b :: l).getLast (by simp) = a := by simpa using hlast
    by_contra hneg
    have h0 : winding (a :: b :: l) P = 0 := le_antisymm (not_lt.1 hneg) (winding_left_nonneg P a (b :: l) he)
    rcases le_or_gt a.y P.y with ha | ha
    · have hy := stays_below P a (b :: l) he h0 ha
      -- close the polygon once more to see its first vertex from both sides
      have he' : ∀ c d, Edge (a :: b :: (l ++ [b])) c d → 0 < isLeft c d P := by
        intro c d hcd
        have : Edge ((a :: b :: l) ++ [b]) c d := by simpa using hcd
        rcases edge_concat this with h | ⟨h, rfl⟩
        · exact he c d h
        · rw [List.getLast?_eq_getLast_of_ne_nil (by simp), hlast] at h
          cases h
          exact he _ _ ((edge_cons _ _ _ _ _).2 (Or.inl ⟨rfl, rfl⟩))
      have hy' : ∀ v ∈ a :: b :: (l ++ [b]), v.y ≤ P.y := by
        intro v hv
        simp only [List.mem_cons, List.mem_append, List.not_mem_nil, or_false] at hv
        rcases hv with rfl | rfl | hv | rfl
        · exact ha
        · exact hy _ (by simp)
        · exact hy _ (by simp [hv])
        · exact hy _ (by simp)
      have hlt := chain_below P a b (l ++ [b]) hy' he'
      have hlt' : ∀ v ∈ a :: b :: l, v.y < P.y := by
        have hd : (b :: (l ++ [b])).dropLast = b :: l := by
          rw [← List.cons_append, List.dropLast_concat]
        rw [hd] at hlt
        intro v hv
        rcases List.mem_cons.1 hv with rfl | hv
        · exact hlt _ (by rw [← hlast']; exact List.getLast_mem _)
        · exact hlt v hv
      have := chain_left 0 (-1) P a b l (fun v hv => by have := hlt' v hv; linarith) he
      rw [hlast'] at this
      have e : isLeft a a P = 0 := by unfold isLeft; ring
      linarith
    · have hy := stays_above P a (b :: l) he h0 (by rw [hlast]; exact ha)
      have := chain_left 0 1 P a b l (fun v hv => by have := hy v hv; linarith) he
      rw [hlast'] at this
      have e : isLeft a a P = 0 := by unfold isLeft; ring
      linarith

theorem windStep_swap (a b P : Vec3 K) : windStep b a P = - windStep a b P := by
  unfold windStep
  rw [isLeft_swap a b P]
  rcases le_or_gt a.y P.y with h1 | h1 <;> rcases le_or_gt b.y P.y with h2 | h2
  · simp [h1, h2, not_lt.2 h1, not_lt.2 h2]
  · simp only [h1, h2, if_true, gt_iff_lt, if_neg (not_le.2 h2), Left.neg_neg_iff]
    split_ifs <;> rfl
  · simp only [h1, h2, if_true, gt_iff_lt, if_neg (not_le.2 h1), Left.neg_pos_iff]
    split_ifs <;> rfl
  · simp [not_le.2 h1, not_le.2 h2]

theorem winding_concat (P : Vec3 K) (l : List (Vec3 K)) (a b : Vec3 K) :
    winding (l ++ [a, b]) P = winding (l ++ [a]) P + windStep a b P := by
  induction l with
  | nil => simp [winding]
  | cons c l ih =>
    cases l with
    | nil => simp [winding]
    | cons d l =>
      have e1 : (c :: d :: l) ++ [a, b] = c :: d :: (l ++ [a, b]) := by simp
      have e2 : (c :: d :: l) ++ [a] = c :: d :: (l ++ [a]) := by simp
      have e3 : d :: (l ++ [a, b]) = (d :: l) ++ [a, b] := by simp
      have e4 : d :: (l ++ [a]) = (d :: l) ++ [a] := by simp
      rw [e1, e2, winding, winding, e3, e4, ih]
      ring

theorem winding_reverse (P : Vec3 K) (l : List (Vec3 K)) : winding l.reverse P = - winding l P := by
  induction l with
  | nil => simp [winding]
  | cons a l ih =>
    cases l with
    | nil => simp [winding]
    | cons b l =>
      have e1 : (a :: b :: l).reverse = l.reverse ++ [b, a] := by simp
      have e2 : (b :: l).reverse = l.reverse ++ [b] := by simp
      rw [e2] at ih
      rw [e1, winding_concat, ih, winding, windStep_swap]
      ring

theorem edge_reverse {l : List (Vec3 K)} {c d : Vec3 K} (h : Edge l.reverse c d) : Edge l d c := by
  obtain ⟨i, h1, h2⟩ := h
  have hi : i + 1 < l.length := by
    have := (List.getElem?_eq_some_iff.1 h2).1
    simpa using this
  rw [List.getElem?_reverse (by omega)] at h1
  rw [List.getElem?_reverse hi] at h2
  exact ⟨l.length - 1 - (i + 1), h2, by rw [← h1]; congr 1; omega⟩

theorem inPolygon_iff (l : List (Vec3 K)) (P : Vec3 K) (h : 3 ≤ l.length) : inPolygon l P = true ↔ winding l P ≠ 0 := by
  match l, h with
  | a :: b :: c :: l, _ => simp [inPolygon]

/-- **C46** (inside).  `InPolygon` is true for every point strictly inside a polygon traversed counter-clockwise. -/
theorem C46_inside_ccw (l : List (Vec3 K)) (P : Vec3 K) (hc : Closed l) (hn : 3 ≤ l.length)
    (he : ∀ a b, Edge l a b → StrictlyLeft a b P) : inPolygon l P = true := by
  rw [inPolygon_iff l P hn]
  have := winding_inside l P hc (by omega) (fun c d h => (left_iff c d P).1 (he c d h))
  omega

/-- **C46** (inside, clockwise polygon).  The same with the other orientation, which is the one `ConvexHull` produces. -/
theorem C46_inside_cw (l : List (Vec3 K)) (P : Vec3 K) (hc : Closed l) (hn : 3 ≤ l.length)
    (he : ∀ a b, Edge l a b → StrictlyRight a b P) : inPolygon l P = true := by
  rw [inPolygon_iff l P hn]
  have := winding_inside l.reverse P (by unfold Closed at *; simp [hc]) (by simp; omega)
    (fun c d h => by
      have := (right_iff d c P).1 (he d c (edge_reverse h))
      rw [isLeft_swap d c P]; linarith)
  rw [winding_reverse] at this
  omega

/-- **C46** (outside).  `InPolygon` is false for every point that a line separates strictly from the vertices. -/
theorem C46_separated (l : List (Vec3 K)) (P : Vec3 K) (hc : Closed l) (hn : 3 ≤ l.length) (hs : Separated l P) :
    inPolygon l P = false := by
  rw [← Bool.not_eq_true, inPolygon_iff l P hn]
  simpa using winding_separated l P hc hs

/-- **C46** (outside, convex polygon).  `InPolygon` is false for every point strictly on the outer side of an edge of a convex
polygon, whatever its orientation. -/
theorem C46_outside (l : List (Vec3 K)) (P : Vec3 K) (hc : Closed l) (hn : 3 ≤ l.length)
    (ho : (ConvexCCW l ∧ ∃ a b, Edge l a b ∧ StrictlyRight a b P) ∨ (ConvexCW l ∧ ∃ a b, Edge l a b ∧ StrictlyLeft a b P)) :
    inPolygon l P = false := by
  apply C46_separated l P hc hn
  rcases ho with ⟨hcv, a, b, hab, hP⟩ | ⟨hcv, a, b, hab, hP⟩
  · refine ⟨-(b.y - a.y), b.x - a.x, fun v hv => ?_⟩
    have h1 := hcv a b hab v hv
    unfold StrictlyRight at h1 hP
    rw [not_lt] at h1
    linarith
  · refine ⟨b.y - a.y, -(b.x - a.x), fun v hv => ?_⟩
    have h1 := hcv a b hab v hv
    unfold StrictlyLeft at h1 hP
    rw [not_lt] at h1
    linarith

/-- a triangle, counter-clockwise, and points inside and outside -/
def demoTriangle : List (Vec3 ℚ) := [⟨0, 0, 0⟩, ⟨4, 0, 0⟩, ⟨0, 4, 0⟩, ⟨0, 0, 0⟩]

/-- C46 applies to an ordinary triangle, in both directions -/
example : Closed demoTriangle ∧ 3 ≤ demoTriangle.length ∧ inPolygon demoTriangle ⟨1, 1, 0⟩ = true ∧
    inPolygon demoTriangle ⟨3, 3, 0⟩ = false ∧ inPolygon demoTriangle.reverse ⟨1, 1, 0⟩ = true :=
  ⟨by simp [Closed, demoTriangle], by decide, by decide +kernel, by decide +kernel, by decide +kernel⟩

theorem demoTriangle_edges (a b : Vec3 ℚ) (h : Edge demoTriangle a b) : (a, b) ∈ [(⟨0, 0, 0⟩, ⟨4, 0, 0⟩), (⟨4, 0, 0⟩, ⟨0, 4, 0⟩), ((⟨0, 4, 0⟩, ⟨0, 0, 0⟩) : Vec3 ℚ × Vec3 ℚ)] := by
  unfold demoTriangle at h
  rw [edge_cons, edge_cons, edge_cons] at h
  rcases h with ⟨rfl, rfl⟩ | ⟨rfl, rfl⟩ | ⟨rfl, rfl⟩ | h
  · simp
  · simp
  · simp
  · exact absurd h (edge_singleton _ _ _)

example : inPolygon demoTriangle ⟨1, 1, 0⟩ = true :=
  C46_inside_ccw _ _ (by simp [Closed, demoTriangle]) (by decide) (fun a b h => by
    have := demoTriangle_edges a b h
    simp only [List.mem_cons, Prod.mk.injEq, List.not_mem_nil, or_false] at this
    rcases this with ⟨rfl, rfl⟩ | ⟨rfl, rfl⟩ | ⟨rfl, rfl⟩ <;> unfold StrictlyLeft <;> norm_num)

example : inPolygon demoTriangle ⟨3, 3, 0⟩ = false :=
  C46_outside _ _ (by simp [Closed, demoTriangle]) (by decide) (Or.inl ⟨fun a b h v hv => by
    have := demoTriangle_edges a b h
    simp only [List.mem_cons, Prod.mk.injEq, List.not_mem_nil, or_false, demoTriangle] at this hv
    rcases this with ⟨rfl, rfl⟩ | ⟨rfl, rfl⟩ | ⟨rfl, rfl⟩ <;> rcases hv with rfl | rfl | rfl | rfl <;> unfold StrictlyRight <;> norm_num,
    ⟨4, 0, 0⟩, ⟨0, 4, 0⟩, ⟨1, by simp [demoTriangle]⟩, by unfold StrictlyRight; norm_num⟩)

end Support
end Rbprm
