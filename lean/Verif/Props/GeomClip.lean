import Verif.Props.Geom
import Verif.Props.GeomHull
import Mathlib.Analysis.Convex.Join
set_option linter.unusedSectionVars false
/-! # C50: clipping a convex polygon loses nothing -/
namespace Rbprm
namespace Geom
open Support (Edge StrictlyLeft StrictlyRight Closed edge_cons edge_singleton edge_mem)
variable {K : Type _} [Field K] [LinearOrder K] [IsStrictOrderedRing K]

/-! ## Specification -/

/-- an edge of the polygon, from a vertex to the next one or from the last vertex to the first one -/
def Side (poly : List (Vec3 K)) (a b : Vec3 K) : Prop := Edge poly a b ∨ (poly.getLast? = some a ∧ poly.head? = some b)
/-- a convex polygon, traversed clockwise (no vertex is left of a side) or counter-clockwise (no vertex is right of a side) -/
def ConvexPolygon (poly : List (Vec3 K)) : Prop :=
  (∀ a b, Side poly a b → ∀ v ∈ poly, ¬ StrictlyLeft a b v) ∨ (∀ a b, Side poly a b → ∀ v ∈ poly, ¬ StrictlyRight a b v)
/-- the points of the plane that are in a (clockwise) clipping polygon -/
def region (clip : List (Vec3 K)) : Set (K × K) := {q | InsideCW clip ⟨q.1, q.2, 0⟩}

/-! ## one clipping edge -/

/-- the value of `isLeft` at a point of the plane -/
def side (a b : Vec3 K) (q : K × K) : K := (b.x - a.x) * (q.2 - a.y) - (q.1 - a.x) * (b.y - a.y)

theorem side_eq (a b v : Vec3 K) : side a b (v.x, v.y) = isLeft a b v := rfl

/-- all vertices are on the side `σ` of all sides -/
def Turns (σ : K) (poly : List (Vec3 K)) : Prop := ∀ a b, Side poly a b → ∀ v ∈ poly, σ * isLeft a b v ≤ 0

/-- the edges of the polygon, seen from the vertex before its first one -/
theorem side_iff {s : Vec3 K} {l : List (Vec3 K)} (hs : l.getLast? = some s) (a b : Vec3 K) : Side l a b ↔ Edge (s :: l) a b := by
  cases l with
  | nil => simp at hs
  | cons e l =>
    rw [edge_cons, Side, hs]
    simp only [Option.some.injEq, List.head?_cons]
    constructor
    · rintro (h | ⟨rfl, rfl⟩)
      · exact Or.inr h
      · exact Or.inl ⟨rfl, rfl⟩
    · rintro (⟨rfl, rfl⟩ | h)
      · exact Or.inr ⟨rfl, rfl⟩
      · exact Or.inl h

theorem hull_side {a b : Vec3 K} {l : List (Vec3 K)} {σ : K} (h : ∀ v ∈ l, σ * isLeft a b v ≤ 0) {q : K × K} (hq : q ∈ _root_.convexHull K (xySet l)) : σ * side a b q ≤ 0 := by
  have hc : Convex K {q : K × K | σ * side a b q ≤ 0} := by
    intro x hx y hy α β h0 h1 hs
    have hx' : σ * side a b x ≤ 0 := hx
    have hy' : σ * side a b y ≤ 0 := hy
    show σ * side a b (α • x + β • y) ≤ 0
    have e : σ * side a b (α • x + β • y) = α * (σ * side a b x) + β * (σ * side a b y) := by
      have hα : α = 1 - β := by linarith
      simp only [side, Prod.fst_add, Prod.snd_add, Prod.smul_fst, Prod.smul_snd, smul_eq_mul, hα]
      ring
    rw [e]
    have e1 := mul_nonneg h0 (neg_nonneg.2 hx')
    have e2 := mul_nonneg h1 (neg_nonneg.2 hy')
    linarith
  have hsub : xySet l ⊆ {q : K × K | σ * side a b q ≤ 0} := by
    rintro _ ⟨v, hv, rfl⟩
    exact h v hv
  exact convexHull_min hsub hc hq

/-- where the edge `s e` crosses the line `a b` -/
theorem cross_pos (a b s e : Vec3 K) (x : Vec3 K) (τ : K) (hx : x.x = (1 - τ) * s.x + τ * e.x) (hy : x.y = (1 - τ) * s.y + τ * e.y) (c : K × K) (θ : K)
    (hc1 : c.1 = x.x + θ * (b.x - a.x)) (hc2 : c.2 = x.y + θ * (b.y - a.y)) :
    side s e c = θ * (isLeft a b s - isLeft a b e) := by
  simp only [side, isLeft, hc1, hc2, hx, hy]
  ring

/-- two points of the line `a b` -/
theorem on_line (a b : Vec3 K) (hab : ∃ p : K × K, side a b p ≠ 0) (p c : K × K) (hp : side a b p = 0) (hc : side a b c = 0) : ∃ θ : K, c.1 = p.1 + θ * (b.x - a.x) ∧ c.2 = p.2 + θ * (b.y - a.y) := by
  obtain ⟨w, hw⟩ := hab
  simp only [side] at *
  by_cases hx : b.x - a.x = 0
  · have hy : b.y - a.y ≠ 0 := by
      intro hy
      apply hw
      rw [hx, hy]
      ring
    refine ⟨(c.2 - p.2) / (b.y - a.y), ?_, ?_⟩
    · rw [hx, zero_mul] at hp hc
      have h1 : p.1 - a.x = 0 := by
        have : (p.1 - a.x) * (b.y - a.y) = 0 := by linarith
        exact (mul_eq_zero.1 this).resolve_right hy
      have h2 : c.1 - a.x = 0 := by
        have : (c.1 - a.x) * (b.y - a.y) = 0 := by linarith
        exact (mul_eq_zero.1 this).resolve_right hy
      rw [hx]; linarith
    · rw [div_mul_cancel₀ _ hy]; ring
  · refine ⟨(c.1 - p.1) / (b.x - a.x), ?_, ?_⟩
    · rw [div_mul_cancel₀ _ hx]; ring
    · have h : (b.x - a.x) * (c.2 - p.2) = (c.1 - p.1) * (b.y - a.y) := by linear_combination hc - hp
      have : c.2 - p.2 = (c.1 - p.1) / (b.x - a.x) * (b.y - a.y) := by
        rw [div_mul_eq_mul_div, eq_div_iff hx]
        linarith
      linarith

/-- the edge `s e` leaves the half-plane on the right of `a b` at `x` -/
def Leaving (sect : Vec3 K → Vec3 K → Vec3 K → Vec3 K → Vec3 K) (a b : Vec3 K) (E : Vec3 K → Vec3 K → Prop) (x : Vec3 K) : Prop :=
  ∃ s e, E s e ∧ isLeft a b s ≤ 0 ∧ 0 < isLeft a b e ∧ x = sect s e a b
/-- the edge `s e` enters the half-plane on the right of `a b` at `x` -/
def Entering (sect : Vec3 K → Vec3 K → Vec3 K → Vec3 K → Vec3 K) (a b : Vec3 K) (E : Vec3 K → Vec3 K → Prop) (x : Vec3 K) : Prop :=
  ∃ s e, E s e ∧ 0 < isLeft a b s ∧ isLeft a b e ≤ 0 ∧ x = sect s e a b

variable (sect : Vec3 K → Vec3 K → Vec3 K → Vec3 K → Vec3 K) (full : Bool) (hg : GoodSect sect full)
include hg

/-- a point of the polygon on the line `a b` is ahead of the points where the polygon leaves -/
theorem ahead {σ : K} {a b : Vec3 K} {l : List (Vec3 K)} (ht : Turns σ l) {x : Vec3 K} (hx : Leaving sect a b (Side l) x) {c : K × K} (hc : side a b c = 0)
    (hl : c ∈ _root_.convexHull K (xySet l)) : ∃ θ : K, 0 ≤ σ * θ ∧ c.1 = x.x + θ * (b.x - a.x) ∧ c.2 = x.y + θ * (b.y - a.y) := by
  obtain ⟨s, e, he, h1, h2, rfl⟩ := hx
  obtain ⟨τ, t1, t2, tx, ty, -, t6⟩ := hg s e a b (Or.inr ⟨h1, h2⟩)
  obtain ⟨θ, k1, k2⟩ := on_line a b ⟨(e.x, e.y), by rw [side_eq]; exact h2.ne'⟩ _ c ((side_eq a b _).trans t6) hc
  refine ⟨θ, ?_, k1, k2⟩
  have := hull_side (ht s e he) hl
  rw [cross_pos a b s e _ τ tx ty c θ k1 k2] at this
  by_contra hn
  push Not at hn
  have hd : isLeft a b s - isLeft a b e < 0 := by linarith
  have := mul_pos_of_neg_of_neg hn hd
  linarith

/-- and before the points where it enters -/
theorem before {σ : K} {a b : Vec3 K} {l : List (Vec3 K)} (ht : Turns σ l) {x : Vec3 K} (hx : Entering sect a b (Side l) x) {c : K × K} (hc : side a b c = 0)
    (hl : c ∈ _root_.convexHull K (xySet l)) : ∃ θ : K, σ * θ ≤ 0 ∧ c.1 = x.x + θ * (b.x - a.x) ∧ c.2 = x.y + θ * (b.y - a.y) := by
  obtain ⟨s, e, he, h1, h2, rfl⟩ := hx
  obtain ⟨τ, t1, t2, tx, ty, -, t6⟩ := hg s e a b (Or.inl ⟨h1, h2⟩)
  obtain ⟨θ, k1, k2⟩ := on_line a b ⟨(s.x, s.y), by rw [side_eq]; exact h1.ne'⟩ _ c ((side_eq a b _).trans t6) hc
  refine ⟨θ, ?_, k1, k2⟩
  have := hull_side (ht s e he) hl
  rw [cross_pos a b s e _ τ tx ty c θ k1 k2] at this
  by_contra hn
  push Not at hn
  have hd : 0 < isLeft a b s - isLeft a b e := by linarith
  have := mul_pos hn hd
  linarith

/-- it is between them -/
theorem between {σ : K} (hσ : σ ≠ 0) {a b : Vec3 K} {l : List (Vec3 K)} (ht : Turns σ l) {x y : Vec3 K} (hx : Leaving sect a b (Side l) x) (hy : Entering sect a b (Side l) y) {c : K × K}
    (hc : side a b c = 0) (hl : c ∈ _root_.convexHull K (xySet l)) : ∃ t : K, 0 ≤ t ∧ t ≤ 1 ∧ c = (1 - t) • (x.x, x.y) + t • (y.x, y.y) := by
  obtain ⟨θ, h1, h2, h3⟩ := ahead sect full hg ht hx hc hl
  obtain ⟨η, k1, k2, k3⟩ := before sect full hg ht hy hc hl
  by_cases hD : θ - η = 0
  · have h0 : σ * θ = 0 := by
      have : θ = η := by linarith
      rw [← this] at k1
      linarith
    have hθ : θ = 0 := (mul_eq_zero.1 h0).resolve_left hσ
    refine ⟨0, le_refl _, zero_le_one, ?_⟩
    rw [hθ] at h2 h3
    ext
    · simp; linarith
    · simp; linarith
  · have hDs : 0 < σ * (θ - η) := by
      rcases lt_or_eq_of_le (show 0 ≤ σ * (θ - η) by rw [mul_sub]; linarith) with h | h
      · exact h
      · exact absurd ((mul_eq_zero.1 h.symm).resolve_left hσ) hD
    have et : θ / (θ - η) = σ * θ / (σ * (θ - η)) := by rw [mul_div_mul_left _ _ hσ]
    have ht' : θ / (θ - η) * (θ - η) = θ := div_mul_cancel₀ _ hD
    refine ⟨θ / (θ - η), ?_, ?_, ?_⟩
    · rw [et]; exact div_nonneg h1 hDs.le
    · rw [et, div_le_one hDs, mul_sub]; linarith
    · generalize θ / (θ - η) = t at *
      have e1 : y.x - x.x = (θ - η) * (b.x - a.x) := by linear_combination h2 - k2
      have e2 : y.y - x.y = (θ - η) * (b.y - a.y) := by linear_combination h3 - k3
      ext
      · simp only [Prod.fst_add, Prod.smul_fst, smul_eq_mul]
        linear_combination h2 - t * e1 - (b.x - a.x) * ht'
      · simp only [Prod.snd_add, Prod.smul_snd, smul_eq_mul]
        linear_combination h3 - t * e2 - (b.y - a.y) * ht'

omit hg in
/-- the vertices on the right are kept -/
theorem clipEdge_keeps (a b s : Vec3 K) (l : List (Vec3 K)) (v : Vec3 K) (hv : v ∈ l) (h : isLeft a b v ≤ 0) : v ∈ clipEdge sect a b s l := by
  induction l generalizing s with
  | nil => simp at hv
  | cons e l ih =>
    rw [clipEdge]
    rcases List.mem_cons.1 hv with rfl | hv
    · rw [if_pos h]
      split_ifs <;> simp
    · have := ih e hv
      split_ifs
      · exact List.mem_cons_of_mem _ (List.mem_cons_of_mem _ this)
      · exact List.mem_cons_of_mem _ this
      · exact List.mem_cons_of_mem _ this
      · exact this

omit hg in
/-- the crossings of the edges with the line `a b` are added -/
theorem clipEdge_crossing (a b s : Vec3 K) (l : List (Vec3 K)) (u w : Vec3 K) (he : Edge (s :: l) u w)
    (h : (isLeft a b u > 0 ∧ isLeft a b w ≤ 0) ∨ (isLeft a b u ≤ 0 ∧ isLeft a b w > 0)) : sect u w a b ∈ clipEdge sect a b s l := by
  induction l generalizing s with
  | nil => exact absurd he (edge_singleton _ _ _)
  | cons e l ih =>
    rw [clipEdge]
    rcases (edge_cons _ _ _ _ _).1 he with ⟨rfl, rfl⟩ | he
    · rcases h with h | h
      · rw [if_pos h.2, if_pos h.1]; simp
      · rw [if_neg (not_le.2 h.2), if_pos h.1]; simp
    · have := ih e he
      split_ifs
      · exact List.mem_cons_of_mem _ (List.mem_cons_of_mem _ this)
      · exact List.mem_cons_of_mem _ this
      · exact List.mem_cons_of_mem _ this
      · exact this

omit hg in
/-- somewhere a property of the first point is lost -/
theorem change (P : Vec3 K → Prop) (s : Vec3 K) (l : List (Vec3 K)) (hs : P s) (v : Vec3 K) (hv : v ∈ l) (hn : ¬ P v) : ∃ u w, Edge (s :: l) u w ∧ P u ∧ ¬ P w := by
  induction l generalizing s with
  | nil => simp at hv
  | cons e l ih =>
    by_cases he : P e
    · have hvl : v ∈ l := by
        rcases List.mem_cons.1 hv with rfl | h
        · exact absurd he hn
        · exact h
      obtain ⟨u, w, h1, h2, h3⟩ := ih e he hvl
      exact ⟨u, w, (edge_cons _ _ _ _ _).2 (Or.inr h1), h2, h3⟩
    · exact ⟨s, e, (edge_cons _ _ _ _ _).2 (Or.inl ⟨rfl, rfl⟩), hs, he⟩

omit hg in
theorem edge_append (m : List (Vec3 K)) (l : List (Vec3 K)) (u w : Vec3 K) (h : Edge l u w) : Edge (m ++ l) u w := by
  obtain ⟨i, h1, h2⟩ := h
  refine ⟨m.length + i, ?_, ?_⟩
  · rw [List.getElem?_append_right (by omega)]; simpa using h1
  · rw [List.getElem?_append_right (by omega)]
    have : m.length + i + 1 - m.length = i + 1 := by omega
    rw [this]; exact h2

omit hg in
/-- around the polygon a property that some vertices have and others have not is lost and found again -/
theorem changes (P : Vec3 K → Prop) (s : Vec3 K) (l : List (Vec3 K)) (hlast : l.getLast? = some s) (hs : P s) (v : Vec3 K) (hv : v ∈ l) (hn : ¬ P v) :
    (∃ u w, Edge (s :: l) u w ∧ P u ∧ ¬ P w) ∧ ∃ u w, Edge (s :: l) u w ∧ ¬ P u ∧ P w := by
  refine ⟨change P s l hs v hv hn, ?_⟩
  obtain ⟨l1, l2, rfl⟩ := List.append_of_mem hv
  have hs2 : s ∈ l2 := by
    cases l2 with
    | nil =>
      rw [List.getLast?_append] at hlast
      simp at hlast
      rw [hlast] at hn
      exact absurd hs hn
    | cons e l2 =>
      rw [List.getLast?_append_cons, List.getLast?_cons_cons] at hlast
      exact List.mem_of_getLast? hlast
  obtain ⟨u, w, h1, h2, h3⟩ := change (fun x => ¬ P x) v l2 hn s hs2 (by simpa using hs)
  refine ⟨u, w, ?_, h2, by simpa using h3⟩
  exact edge_append (s :: l1) (v :: l2) u w h1

/-- one clipping edge loses nothing of a convex polygon -/
theorem clipEdge_complete {σ : K} (hσ : σ ≠ 0) (a b s : Vec3 K) (l : List (Vec3 K)) (hlast : l.getLast? = some s) (ht : Turns σ l) (q : K × K)
    (hq : q ∈ _root_.convexHull K (xySet l)) (hin : side a b q ≤ 0) : q ∈ _root_.convexHull K (xySet (clipEdge sect a b s l)) := by
  set A : Set (K × K) := {p | ∃ v ∈ l, 0 < isLeft a b v ∧ p = (v.x, v.y)} with hA
  set B : Set (K × K) := {p | ∃ v ∈ l, isLeft a b v ≤ 0 ∧ p = (v.x, v.y)} with hB
  have hAB : xySet l = A ∪ B := by
    ext p
    constructor
    · rintro ⟨v, hv, rfl⟩
      by_cases h : 0 < isLeft a b v
      · exact Or.inl ⟨v, hv, h, rfl⟩
      · exact Or.inr ⟨v, hv, not_lt.1 h, rfl⟩
    · rintro (⟨v, hv, -, rfl⟩ | ⟨v, hv, -, rfl⟩) <;> exact ⟨v, hv, rfl⟩
  have hBO : _root_.convexHull K B ⊆ _root_.convexHull K (xySet (clipEdge sect a b s l)) := by
    apply convexHull_mono
    rintro _ ⟨v, hv, h, rfl⟩
    exact ⟨v, clipEdge_keeps sect a b s l v hv h, rfl⟩
  have hApos : ∀ p ∈ _root_.convexHull K A, 0 < side a b p := by
    intro p hp
    have hc : Convex K {q : K × K | 0 < side a b q} := by
      intro x hx y hy α β h0 h1 hs
      have hx' : 0 < side a b x := hx
      have hy' : 0 < side a b y := hy
      show 0 < side a b (α • x + β • y)
      have e : side a b (α • x + β • y) = α * side a b x + β * side a b y := by
        have hα : α = 1 - β := by linarith
        simp only [side, Prod.fst_add, Prod.snd_add, Prod.smul_fst, Prod.smul_snd, smul_eq_mul, hα]
        ring
      rw [e]
      rcases lt_or_eq_of_le h0 with h | h
      · exact add_pos_of_pos_of_nonneg (mul_pos h hx') (mul_nonneg h1 hy'.le)
      · rw [← h, zero_mul, zero_add]
        exact mul_pos (by linarith) hy'
    have hsub : A ⊆ {q : K × K | 0 < side a b q} := by
      rintro _ ⟨v, -, h, rfl⟩
      exact h
    exact convexHull_min hsub hc hp
  rw [hAB] at hq
  by_cases hAe : A.Nonempty
  · by_cases hBe : B.Nonempty
    · rw [convexHull_union hAe hBe, mem_convexJoin] at hq
      obtain ⟨α, hα, β, hβ, u, v, hu, hv, huv, rfl⟩ := hq
      have hαp := hApos α hα
      have hlin : ∀ t : K, side a b ((1 - t) • α + t • β) = (1 - t) * side a b α + t * side a b β := by
        intro t
        simp only [side, Prod.fst_add, Prod.snd_add, Prod.smul_fst, Prod.smul_snd, smul_eq_mul]
        ring
      have hu1 : u = 1 - v := by linarith
      rw [hu1] at hin hu ⊢
      rw [hlin] at hin
      -- the point of the segment on the line
      have hβn : side a b β ≤ 0 := by
        have hc := hull_side (a := a) (b := b) (σ := 1) (l := l.filter fun v => isLeft a b v ≤ 0) (q := β) (by
          intro v hv
          have := (List.mem_filter.1 hv).2
          simpa using this) (by
            refine convexHull_mono ?_ hβ
            rintro _ ⟨v, hv, h, rfl⟩
            exact ⟨v, List.mem_filter.2 ⟨hv, by simpa using h⟩, rfl⟩)
        simpa using hc
      obtain ⟨r1, r2, r3, r4⟩ := tau_range (l := side a b α) (r := side a b β) (Or.inl ⟨hαp, hβn⟩)
      set t := side a b α / (side a b α - side a b β) with htdef
      have hcl : side a b ((1 - t) • α + t • β) = 0 := by rw [hlin]; exact r4
      have hch : (1 - t) • α + t • β ∈ _root_.convexHull K (xySet l) := by
        apply combo_mem _ _ _ _ _ _ r1 r2
        · rw [hAB]; exact convexHull_mono Set.subset_union_left hα
        · rw [hAB]; exact convexHull_mono Set.subset_union_right hβ
      have hcross : (∃ u w, Edge (s :: l) u w ∧ isLeft a b u ≤ 0 ∧ 0 < isLeft a b w) ∧ ∃ u w, Edge (s :: l) u w ∧ 0 < isLeft a b u ∧ isLeft a b w ≤ 0 := by
        obtain ⟨_, vA, hvA, hvA', -⟩ := hAe
        obtain ⟨_, vB, hvB, hvB', -⟩ := hBe
        by_cases hs : isLeft a b s ≤ 0
        · have := changes (fun v => isLeft a b v ≤ 0) s l hlast hs vA hvA (not_le.2 hvA')
          simpa only [not_le] using this
        · have := changes (fun v => 0 < isLeft a b v) s l hlast (not_le.1 hs) vB hvB (not_lt.2 hvB')
          simp only [not_lt] at this
          exact ⟨this.2, this.1⟩
      obtain ⟨⟨u1, w1, e1, i1, j1⟩, ⟨u2, w2, e2, i2, j2⟩⟩ := hcross
      obtain ⟨t', k1, k2, k3⟩ := between sect full hg hσ ht ⟨u1, w1, (side_iff hlast _ _).2 e1, i1, j1, rfl⟩ ⟨u2, w2, (side_iff hlast _ _).2 e2, i2, j2, rfl⟩ hcl hch
      have hcO : (1 - t) • α + t • β ∈ _root_.convexHull K (xySet (clipEdge sect a b s l)) := by
        rw [k3]
        apply combo_mem _ _ _ _ _ _ k1 k2
        · exact subset_convexHull K _ ⟨_, clipEdge_crossing sect a b s l u1 w1 e1 (Or.inr ⟨i1, j1⟩), rfl⟩
        · exact subset_convexHull K _ ⟨_, clipEdge_crossing sect a b s l u2 w2 e2 (Or.inl ⟨i2, j2⟩), rfl⟩
      -- the point is between it and `β`
      have htv : t ≤ v := by
        rw [htdef, div_le_iff₀ (by linarith)]
        linarith
      have hβO := hBO hβ
      by_cases ht1 : t = 1
      · have : v = 1 := le_antisymm (by linarith) (by linarith)
        rw [this]
        simpa using hβO
      · have h1t : 0 < 1 - t := by
          rcases lt_or_eq_of_le r2 with h | h
          · linarith
          · exact absurd h ht1
        have hw : (v - t) / (1 - t) * (1 - t) = v - t := div_mul_cancel₀ _ h1t.ne'
        have := combo_mem _ _ _ ((v - t) / (1 - t)) hcO hβO (div_nonneg (by linarith) h1t.le) (by rw [div_le_one h1t]; linarith)
        have e : (1 - (v - t) / (1 - t)) • ((1 - t) • α + t • β) + ((v - t) / (1 - t)) • β = (1 - v) • α + v • β := by
          generalize (v - t) / (1 - t) = w at *
          ext
          · simp only [Prod.fst_add, Prod.smul_fst, smul_eq_mul]
            linear_combination (α.1 * (-1) + β.1) * hw
          · simp only [Prod.snd_add, Prod.smul_snd, smul_eq_mul]
            linear_combination (α.2 * (-1) + β.2) * hw
        rw [e] at this
        exact this
    · rw [Set.not_nonempty_iff_eq_empty] at hBe
      rw [hBe, Set.union_empty] at hq
      exact absurd (hApos q hq) (not_lt.2 hin)
  · rw [Set.not_nonempty_iff_eq_empty] at hAe
    rw [hAe, Set.empty_union] at hq
    exact hBO hq

/-! ## the clipped polygon is convex -/

/-- what was written last when the vertex `s` has been treated: the vertex, or where the polygon left -/
def Last (a b : Vec3 K) (E : Vec3 K → Vec3 K → Prop) (s p : Vec3 K) : Prop := (isLeft a b s ≤ 0 ∧ p = s) ∨ (0 < isLeft a b s ∧ Leaving sect a b E p)

/-- the edges of the clipped polygon: parts of edges, and parts of the line `a b` from where the polygon leaves to where it enters -/
def NewEdge (a b : Vec3 K) (E : Vec3 K → Vec3 K → Prop) (p p' : Vec3 K) : Prop :=
  (∃ s e τ τ', E s e ∧ τ ≤ τ' ∧ p.x = (1 - τ) * s.x + τ * e.x ∧ p.y = (1 - τ) * s.y + τ * e.y ∧ p'.x = (1 - τ') * s.x + τ' * e.x ∧ p'.y = (1 - τ') * s.y + τ' * e.y) ∨
  (Leaving sect a b E p ∧ Entering sect a b E p')

theorem clipEdge_edges (a b : Vec3 K) (E : Vec3 K → Vec3 K → Prop) (s prev : Vec3 K) (l : List (Vec3 K)) (hE : ∀ u w, Edge (s :: l) u w → E u w) (hp : Last sect a b E s prev) :
    ∀ u w, Edge (prev :: clipEdge sect a b s l) u w → NewEdge sect a b E u w := by
  induction l generalizing s prev with
  | nil => exact fun u w h => absurd h (edge_singleton _ _ _)
  | cons e l ih =>
    have hse : E s e := hE s e ((edge_cons _ _ _ _ _).2 (Or.inl ⟨rfl, rfl⟩))
    have hE' : ∀ u w, Edge (e :: l) u w → E u w := fun u w h => hE u w ((edge_cons _ _ _ _ _).2 (Or.inr h))
    intro u w h
    rw [clipEdge] at h
    split_ifs at h with h1 h2 h3
    · -- enters
      obtain ⟨τ, t1, t2, tx, ty, -, -⟩ := hg s e a b (Or.inl ⟨h2, h1⟩)
      rcases (edge_cons _ _ _ _ _).1 h with ⟨rfl, rfl⟩ | h
      · rcases hp with hp | hp
        · exact absurd hp.1 (not_le.2 h2)
        · exact Or.inr ⟨hp.2, s, e, hse, h2, h1, rfl⟩
      · rcases (edge_cons _ _ _ _ _).1 h with ⟨rfl, rfl⟩ | h
        · exact Or.inl ⟨s, w, τ, 1, hse, t2, tx, ty, by ring, by ring⟩
        · exact ih e e hE' (Or.inl ⟨h1, rfl⟩) u w h
    · -- stays inside
      rcases (edge_cons _ _ _ _ _).1 h with ⟨rfl, rfl⟩ | h
      · rcases hp with hp | hp
        · rw [hp.2]
          exact Or.inl ⟨s, w, 0, 1, hse, zero_le_one, by ring, by ring, by ring, by ring⟩
        · exact absurd hp.1 h2
      · exact ih e e hE' (Or.inl ⟨h1, rfl⟩) u w h
    · -- leaves
      have h1' := not_le.1 h1
      obtain ⟨τ, t1, t2, tx, ty, -, -⟩ := hg s e a b (Or.inr ⟨h3, h1'⟩)
      have hlv : Leaving sect a b E (sect s e a b) := ⟨s, e, hse, h3, h1', rfl⟩
      rcases (edge_cons _ _ _ _ _).1 h with ⟨rfl, rfl⟩ | h
      · rcases hp with hp | hp
        · rw [hp.2]
          exact Or.inl ⟨s, e, 0, τ, hse, t1, by ring, by ring, tx, ty⟩
        · exact absurd h3 (not_le.2 hp.1)
      · exact ih e _ hE' (Or.inr ⟨h1', hlv⟩) u w h
    · -- stays outside
      rcases hp with hp | hp
      · exact absurd hp.1 h3
      · exact ih e prev hE' (Or.inr ⟨not_le.1 h1, hp.2⟩) u w h

omit hg in
theorem clipEdge_nil_iff (a b s : Vec3 K) (l : List (Vec3 K)) (hs : 0 < isLeft a b s) (h : clipEdge sect a b s l = []) : ∀ v ∈ l, 0 < isLeft a b v := by
  intro v hv
  by_contra hn
  have := clipEdge_keeps sect a b s l v hv (not_lt.1 hn)
  rw [h] at this
  simp at this

omit hg in
theorem clipEdge_last (a b : Vec3 K) (E : Vec3 K → Vec3 K → Prop) (s : Vec3 K) (l : List (Vec3 K)) (hE : ∀ u w, Edge (s :: l) u w → E u w) (last p : Vec3 K) (hl : l.getLast? = some last)
    (hp : (clipEdge sect a b s l).getLast? = some p) : Last sect a b E last p := by
  induction l generalizing s with
  | nil => simp at hl
  | cons e l ih =>
    have hse : E s e := hE s e ((edge_cons _ _ _ _ _).2 (Or.inl ⟨rfl, rfl⟩))
    have hE' : ∀ u w, Edge (e :: l) u w → E u w := fun u w h => hE u w ((edge_cons _ _ _ _ _).2 (Or.inr h))
    have hin : isLeft a b e ≤ 0 → (e :: clipEdge sect a b e l).getLast? = some p → Last sect a b E last p := by
      intro h1 h
      cases l with
      | nil =>
        simp [clipEdge] at h hl
        subst h; subst hl
        exact Or.inl ⟨h1, rfl⟩
      | cons e' l =>
        rw [List.getLast?_cons_cons] at hl
        cases hc : clipEdge sect a b e (e' :: l) with
        | nil =>
          exfalso
          rw [clipEdge] at hc
          split_ifs at hc
        | cons x xs =>
          rw [hc, List.getLast?_cons_cons, ← hc] at h
          exact ih e hE' hl h
    rw [clipEdge] at hp
    split_ifs at hp with h1 h2 h3
    · rw [List.getLast?_cons_cons] at hp
      exact hin h1 hp
    · exact hin h1 hp
    · have h1' := not_le.1 h1
      cases hc : clipEdge sect a b e l with
      | nil =>
        rw [hc] at hp
        simp at hp
        have hall := clipEdge_nil_iff sect a b e l h1' hc
        refine Or.inr ⟨?_, s, e, hse, h3, h1', hp.symm⟩
        have hm := List.mem_of_getLast? hl
        rcases List.mem_cons.1 hm with rfl | hm
        · exact h1'
        · exact hall last hm
      | cons x xs =>
        rw [hc, List.getLast?_cons_cons, ← hc] at hp
        cases l with
        | nil => simp [clipEdge] at hc
        | cons e' l =>
          rw [List.getLast?_cons_cons] at hl
          exact ih e hE' hl hp
    · cases l with
      | nil => simp [clipEdge] at hp
      | cons e' l =>
        rw [List.getLast?_cons_cons] at hl
        exact ih e hE' hl hp

/-- the clipped polygon turns in the same direction -/
theorem clipEdge_turns {σ : K} (a b s : Vec3 K) (l : List (Vec3 K)) (hlast : l.getLast? = some s) (ht : Turns σ l) : Turns σ (clipEdge sect a b s l) := by
  intro u w huw v hv
  cases hO : (clipEdge sect a b s l).getLast? with
  | none =>
    rw [List.getLast?_eq_none_iff] at hO
    rw [hO] at hv
    simp at hv
  | some p =>
    have hE : ∀ u w, Edge (s :: l) u w → Side l u w := fun u w h => (side_iff hlast u w).2 h
    have hp := clipEdge_last sect a b (Side l) s l hE s p hlast hO
    have hnew := clipEdge_edges sect full hg a b (Side l) s p l hE hp u w ((side_iff hO u w).1 huw)
    have hQ : ∀ v ∈ clipEdge sect a b s l, (v.x, v.y) ∈ _root_.convexHull K (xySet l) ∧ isLeft a b v ≤ 0 := by
      apply clipEdge_spec sect full hg (fun v => (v.x, v.y) ∈ _root_.convexHull K (xySet l))
      · intro s e p τ hs he h0 h1 hx hy _
        have := combo_mem (xySet l) _ _ τ hs he h0 h1
        simpa [hx, hy] using this
      · exact subset_convexHull K _ ⟨s, List.mem_of_getLast? hlast, rfl⟩
      · exact fun v hv => subset_convexHull K _ ⟨v, hv, rfl⟩
    obtain ⟨hvh, hvs⟩ := hQ v hv
    rcases hnew with ⟨c, d, τ, τ', hcd, hτ, e1, e2, e3, e4⟩ | ⟨hx, hy⟩
    · have h := hull_side (ht c d hcd) hvh
      rw [side_eq] at h
      have e : isLeft u w v = (τ' - τ) * isLeft c d v := by
        simp only [isLeft, e1, e2, e3, e4]
        ring
      rw [e]
      have := mul_nonneg (sub_nonneg.2 hτ) (neg_nonneg.2 h)
      linarith
    · have hwm : w ∈ clipEdge sect a b s l := by
        obtain ⟨c, d, hcd, h1, h2, rfl⟩ := hy
        exact clipEdge_crossing sect a b s l c d ((side_iff hlast _ _).1 hcd) (Or.inl ⟨h1, h2⟩)
      have hw0 : isLeft a b w = 0 := by
        obtain ⟨c, d, hcd, h1, h2, rfl⟩ := hy
        obtain ⟨_, _, _, _, _, _, h⟩ := hg c d a b (Or.inl ⟨h1, h2⟩)
        exact h
      have hu0 : isLeft a b u = 0 := by
        obtain ⟨c, d, hcd, h1, h2, rfl⟩ := hx
        obtain ⟨_, _, _, _, _, _, h⟩ := hg c d a b (Or.inr ⟨h1, h2⟩)
        exact h
      obtain ⟨θ, hθ, k1, k2⟩ := ahead sect full hg ht hx ((side_eq a b w).trans hw0) (hQ w hwm).1
      simp only at k1 k2
      have e : isLeft u w v = θ * isLeft a b v := by
        have : isLeft u w v = θ * (isLeft a b v - isLeft a b u) := by
          simp only [isLeft, k1, k2]
          ring
        rw [this, hu0, sub_zero]
      rw [e, ← mul_assoc]
      have := mul_nonneg hθ (neg_nonneg.2 hvs)
      linarith

/-- all clipping edges -/
theorem clipLoop_complete {σ : K} (hσ : σ ≠ 0) (clip l : List (Vec3 K)) (ht : Turns σ l) (q : K × K) (hq : q ∈ _root_.convexHull K (xySet l)) (hin : q ∈ region clip) :
    ∃ out, clipLoop sect clip l = some out ∧ q ∈ _root_.convexHull K (xySet out) := by
  induction clip generalizing l with
  | nil => exact ⟨l, rfl, hq⟩
  | cons a clip ih =>
    cases clip with
    | nil => exact ⟨l, rfl, hq⟩
    | cons b clip =>
      cases hlast : l.getLast? with
      | none =>
        rw [List.getLast?_eq_none_iff] at hlast
        rw [hlast] at hq
        have : xySet ([] : List (Vec3 K)) = ∅ := by
          ext p
          simp [xySet]
        rw [this, convexHull_empty] at hq
        exact absurd hq (Set.notMem_empty _)
      | some s =>
        have h1 : side a b q ≤ 0 := by
          have := hin a b ((edge_cons _ _ _ _ _).2 (Or.inl ⟨rfl, rfl⟩))
          rw [not_left_iff] at this
          exact this
        obtain ⟨out, h2, h3⟩ := ih (clipEdge sect a b s l) (clipEdge_turns sect full hg a b s l hlast ht) (clipEdge_complete sect full hg hσ a b s l hlast ht q hq h1)
          (fun c d hcd => hin c d ((edge_cons _ _ _ _ _).2 (Or.inr hcd)))
        refine ⟨out, ?_, h3⟩
        rw [clipLoop, hlast]
        exact h2

omit hg in
theorem region_convex (clip : List (Vec3 K)) : Convex K (region clip) := by
  intro x hx y hy α β h0 h1 hs c d hcd
  have hx' := hx c d hcd
  have hy' := hy c d hcd
  rw [not_left_iff] at *
  have e : isLeft c d ⟨(α • x + β • y).1, (α • x + β • y).2, 0⟩ = α * isLeft c d ⟨x.1, x.2, 0⟩ + β * isLeft c d ⟨y.1, y.2, 0⟩ := by
    have hα : α = 1 - β := by linarith
    simp only [isLeft, Prod.fst_add, Prod.snd_add, Prod.smul_fst, Prod.smul_snd, smul_eq_mul, hα]
    ring
  rw [e]
  have e1 := mul_nonneg h0 (neg_nonneg.2 hx')
  have e2 := mul_nonneg h1 (neg_nonneg.2 hy')
  linarith

omit hg in
theorem turns_of_convex {poly : List (Vec3 K)} (h : ConvexPolygon poly) : ∃ σ : K, σ ≠ 0 ∧ Turns σ poly := by
  rcases h with h | h
  · refine ⟨1, one_ne_zero, fun a b hab v hv => ?_⟩
    have := h a b hab v hv
    rw [not_left_iff] at this
    linarith
  · refine ⟨-1, by simp, fun a b hab v hv => ?_⟩
    have := h a b hab v hv
    unfold StrictlyRight at this
    unfold isLeft
    linarith

omit hg

/-- **C50** (two dimensions), exactly.  A convex polygon that meets the clipping polygon is clipped to a polygon that covers exactly the points that are in both; in particular the clipping is
defined.  (The clipping polygon may be any list of points: its region is what is right of all its edges.) -/
theorem C50_exact_partial (junk : K) (sub clip : List (Vec3 K)) (hc : clip ≠ []) (hs : ConvexPolygon sub) (hmeet : (_root_.convexHull K (xySet sub) ∩ region clip).Nonempty) :
    ∃ out, compute2DIntersection junk sub clip = some out ∧ _root_.convexHull K (xySet out) = _root_.convexHull K (xySet sub) ∩ region clip := by
  obtain ⟨σ, hσ, ht⟩ := turns_of_convex hs
  obtain ⟨q, hq, hr⟩ := hmeet
  obtain ⟨out, h1, -⟩ := clipLoop_complete (lineSect junk) false (lineSect_good junk) hσ clip sub ht q hq hr
  have h2 : compute2DIntersection junk sub clip = some out := by
    unfold compute2DIntersection
    rw [if_neg hc, h1]
  refine ⟨out, h2, Set.Subset.antisymm (Set.subset_inter ?_ ?_) ?_⟩
  · apply convexHull_min _ (convex_convexHull K _)
    rintro _ ⟨v, hv, rfl⟩
    exact (C50_clip2D junk sub clip out h2 v hv).2
  · apply convexHull_min _ (region_convex clip)
    rintro _ ⟨v, hv, rfl⟩
    exact (C50_clip2D junk sub clip out h2 v hv).1
  · rintro p ⟨hp, hpr⟩
    obtain ⟨out', h3, h4⟩ := clipLoop_complete (lineSect junk) false (lineSect_good junk) hσ clip sub ht p hp hpr
    rw [h1] at h3
    cases h3
    exact h4

/-- C50: if the clipping of a convex polygon is not defined, it does not meet the clipping polygon; if the result is empty as well. -/
theorem C50_undefined (junk : K) (sub clip : List (Vec3 K)) (hc : clip ≠ []) (hs : ConvexPolygon sub)
    (h : compute2DIntersection junk sub clip = none ∨ compute2DIntersection junk sub clip = some []) : _root_.convexHull K (xySet sub) ∩ region clip = ∅ := by
  by_contra hne
  obtain ⟨out, h1, h2⟩ := C50_exact_partial junk sub clip hc hs (Set.nonempty_iff_ne_empty.2 hne)
  rw [h1] at h
  rcases h with h | h
  · cases h
  · cases h
    apply hne
    rw [← h2]
    have : xySet ([] : List (Vec3 K)) = ∅ := by
      ext p
      simp [xySet]
    rw [this, convexHull_empty]

/-- C50 (three dimensions): seen from above the polygon that is returned covers exactly the points that are in both, if its corners before the last step (the crossings and the kept vertices)
have no three on one line of the border.  Missing: three aligned corners on the border, for which the construction of the hull is not right (C86). -/
theorem C50_exact3D_partial (fuel : ℕ) (sub clip mid : List (Vec3 ℝ)) (hc : clip ≠ []) (hs : ConvexPolygon sub) (hmid : clipLoop lineSect3D clip sub = some mid)
    (gp : Support.GeneralBorder mid) (hf : mid.length ≤ fuel) :
    ∃ out, compute3DIntersection fuel sub clip = some out ∧ region out = _root_.convexHull ℝ (xySet sub) ∩ region clip := by
  obtain ⟨σ, hσ, ht⟩ := turns_of_convex hs
  obtain ⟨out, h1, h2, h3, h4, h5⟩ := C86_hull_partial fuel mid gp hf
  refine ⟨out, ?_, ?_⟩
  · unfold compute3DIntersection
    rw [if_neg hc, hmid]
    exact h1
  · have hmem := clipLoop_spec lineSect3D true lineSect3D_good (fun v => (v.x, v.y) ∈ _root_.convexHull ℝ (xySet sub)) (by
      intro s e p τ hs he h0 h1 hx hy _
      have := combo_mem (xySet sub) _ _ τ hs he h0 h1
      simpa [hx, hy] using this) clip sub mid (fun v hv => subset_convexHull ℝ _ ⟨v, hv, rfl⟩) hmid
    have hhull : _root_.convexHull ℝ (xySet mid) = _root_.convexHull ℝ (xySet sub) ∩ region clip := by
      apply Set.Subset.antisymm (Set.subset_inter ?_ ?_)
      · rintro p ⟨hp, hpr⟩
        obtain ⟨out', k1, k2⟩ := clipLoop_complete lineSect3D true lineSect3D_good hσ clip sub ht p hp hpr
        rw [hmid] at k1
        cases k1
        exact k2
      · apply convexHull_min _ (convex_convexHull ℝ _)
        rintro _ ⟨v, hv, rfl⟩
        exact (hmem v hv).1
      · apply convexHull_min _ (region_convex clip)
        rintro _ ⟨v, hv, rfl⟩
        exact (hmem v hv).2
    rw [← hhull]
    ext q
    obtain ⟨r, k1, k2⟩ := C86_contains_partial fuel mid gp hf ⟨q.1, q.2, 0⟩ 0
    rw [← k2]
    unfold contains at k1
    rw [h1] at k1
    simp only [Option.map_some, Option.some.injEq] at k1
    rw [← k1, containsHull_iff out _ 0 h3]
    rfl

/-- a case of `C50_exact_partial`: a triangle and a square that overlap -/
example : ConvexPolygon demoSub ∧ ((2 : ℚ), (3 / 2 : ℚ)) ∈ region demoClip ∧ ((2 : ℚ), (3 / 2 : ℚ)) ∈ _root_.convexHull ℚ (xySet demoSub) := by
  refine ⟨Or.inl ?_, ?_, ?_⟩
  · intro a b hab v hv
    rw [side_iff (s := ⟨1, 1, 0⟩) rfl] at hab
    simp only [demoSub] at hab hv
    have hv' : v = ⟨1, 1, 0⟩ ∨ v = ⟨1, 3, 2⟩ ∨ v = ⟨3, 1, 0⟩ := by
      simp only [List.mem_cons, List.not_mem_nil, or_false] at hv
      tauto
    rw [edge_cons, edge_cons, edge_cons, edge_cons] at hab
    rcases hab with ⟨rfl, rfl⟩ | ⟨rfl, rfl⟩ | ⟨rfl, rfl⟩ | ⟨rfl, rfl⟩ | hab
    · rcases hv' with rfl | rfl | rfl <;> norm_num [StrictlyLeft]
    · rcases hv' with rfl | rfl | rfl <;> norm_num [StrictlyLeft]
    · rcases hv' with rfl | rfl | rfl <;> norm_num [StrictlyLeft]
    · rcases hv' with rfl | rfl | rfl <;> norm_num [StrictlyLeft]
    · exact absurd hab (edge_singleton _ _ _)
  · intro a b hab
    simp only [demoClip] at hab
    rw [edge_cons, edge_cons, edge_cons, edge_cons] at hab
    rcases hab with ⟨rfl, rfl⟩ | ⟨rfl, rfl⟩ | ⟨rfl, rfl⟩ | ⟨rfl, rfl⟩ | hab
    · norm_num [StrictlyLeft]
    · norm_num [StrictlyLeft]
    · norm_num [StrictlyLeft]
    · norm_num [StrictlyLeft]
    · exact absurd hab (edge_singleton _ _ _)
  · have h1 : ((1 : ℚ), (1 : ℚ)) ∈ _root_.convexHull ℚ (xySet demoSub) := subset_convexHull ℚ _ ⟨⟨1, 1, 0⟩, by simp [demoSub], rfl⟩
    have h2 : ((1 : ℚ), (3 : ℚ)) ∈ _root_.convexHull ℚ (xySet demoSub) := subset_convexHull ℚ _ ⟨⟨1, 3, 2⟩, by simp [demoSub], rfl⟩
    have h3 : ((3 : ℚ), (1 : ℚ)) ∈ _root_.convexHull ℚ (xySet demoSub) := subset_convexHull ℚ _ ⟨⟨3, 1, 0⟩, by simp [demoSub], rfl⟩
    have h4 := combo_mem _ _ _ (1 / 2 : ℚ) h1 h2 (by norm_num) (by norm_num)
    have h5 := combo_mem _ _ _ (1 / 2 : ℚ) h4 h3 (by norm_num) (by norm_num)
    have e : (1 - (1 / 2 : ℚ)) • ((1 - (1 / 2 : ℚ)) • ((1 : ℚ), (1 : ℚ)) + (1 / 2 : ℚ) • ((1 : ℚ), (3 : ℚ))) + (1 / 2 : ℚ) • ((3 : ℚ), (1 : ℚ)) = (2, 3 / 2) := by
      ext <;> simp <;> norm_num
    rwa [e] at h5

end Geom
end Rbprm
