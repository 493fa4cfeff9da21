import Verif.Props.Geom
import Verif.Props.Hull
set_option linter.unusedSectionVars false
/-! # C85, C86: `geom::convexHull` and `geom::contains` -/
namespace Rbprm
namespace Geom
open Support (Edge StrictlyLeft StrictlyRight Closed edge_cons edge_singleton edge_mem GeneralBorder OnLine GoodEdge Supported Separated edge_concat)
variable {K : Type _} [Field K] [LinearOrder K] [IsStrictOrderedRing K]

theorem leftMostFrom_eq (i : Vec3 K) (l : List (Vec3 K)) : leftMostFrom i l = Support.leftMostFrom i l := by
  induction l generalizing i with
  | nil => rfl
  | cons p l ih => rw [leftMostFrom, Support.leftMostFrom, ih]

/-! ## Termination -/

/-- a point the inner loop may select -/
def Allowed (res : List (Vec3 K)) (c : Vec3 K) : Prop := c ∉ res ∨ res.head? = some c

theorem wrapFrom_cases (res : List (Vec3 K)) (p e : Vec3 K) (l : List (Vec3 K)) :
    wrapFrom res p e l = e ∨ (Allowed res (wrapFrom res p e l) ∧ wrapFrom res p e l ∈ l) := by
  induction l generalizing e with
  | nil => left; rfl
  | cons c l ih =>
    rw [wrapFrom]
    split_ifs with h1 h2
    · rcases ih c with h | h
      · right; rw [h]; exact ⟨h2, by simp⟩
      · right; exact ⟨h.1, List.mem_cons_of_mem _ h.2⟩
    · rcases ih e with h | h
      · left; exact h
      · right; exact ⟨h.1, List.mem_cons_of_mem _ h.2⟩
    · rcases ih e with h | h
      · left; exact h
      · right; exact ⟨h.1, List.mem_cons_of_mem _ h.2⟩

theorem wrapFrom_mem (res : List (Vec3 K)) (p e : Vec3 K) (l : List (Vec3 K)) : wrapFrom res p e l ∈ e :: l := by
  rcases wrapFrom_cases res p e l with h | h
  · rw [h]; simp
  · exact List.mem_cons_of_mem _ h.2

theorem wrapFrom_ne (res : List (Vec3 K)) (p e : Vec3 K) (l : List (Vec3 K)) (he : e ≠ p) : wrapFrom res p e l ≠ p := by
  induction l generalizing e with
  | nil => exact he
  | cons c l ih =>
    rw [wrapFrom]
    split_ifs with h1 h2
    · apply ih
      rintro rfl
      rcases h1 with h1 | h1
      · exact he h1
      · unfold isLeft at h1
        have : (e.x - c.x) * (c.y - c.y) - (c.x - c.x) * (e.y - c.y) = 0 := by ring
        linarith
    · exact ih e he
    · exact ih e he

/-- starting from the current point itself, the inner loop finds an allowed point as soon as there is another one -/
theorem wrapFrom_self (res : List (Vec3 K)) (p : Vec3 K) (l : List (Vec3 K)) (c : Vec3 K) (hc : c ∈ l) (hcp : c ≠ p) (ha : Allowed res c) :
    wrapFrom res p p l ≠ p ∧ Allowed res (wrapFrom res p p l) := by
  induction l with
  | nil => simp at hc
  | cons d l ih =>
    rw [wrapFrom]
    rw [if_pos (Or.inl rfl)]
    by_cases hd : d = p
    · subst hd
      have hcl : c ∈ l := by
        rcases List.mem_cons.1 hc with h | h
        · exact absurd h hcp
        · exact h
      split_ifs
      · exact ih hcl
      · exact ih hcl
    · split_ifs with h
      · refine ⟨wrapFrom_ne _ _ _ _ hd, ?_⟩
        rcases wrapFrom_cases res p d l with h' | h'
        · rw [h']; exact h
        · exact h'.1
      · have hcl : c ∈ l := by
          rcases List.mem_cons.1 hc with h' | h'
          · subst h'; exact absurd ha h
          · exact h'
        exact ih hcl

theorem hullLoop_terminates (p0 : Vec3 K) (ps : List (Vec3 K)) (first : Vec3 K) (hf : first ∈ p0 :: ps) (fuel : ℕ) (res : List (Vec3 K)) (p : Vec3 K)
    (hp : p ∈ p0 :: ps) (hfirst : (res ++ [p]).head? = some first) (hpf : res ≠ [] → p ≠ first) (hpres : p ∈ res → p = p0)
    (hfuel : 2 * (((p0 :: ps).toFinset \ (res ++ [p]).toFinset).card) + (if p ∈ res then 0 else 1) < fuel) :
    (hullLoop p0 ps fuel res p).isSome = true := by
  induction fuel generalizing res p with
  | zero => omega
  | succ fuel ih =>
    rw [hullLoop]
    split_ifs with hc
    swap
    · rfl
    rw [hfirst] at hc
    set last := wrapFrom res p p0 ps with hlast
    have hlf : last ≠ first := fun h => hc (by rw [h])
    have hmem : last ∈ p0 :: ps := wrapFrom_mem res p p0 ps
    have hhead : (res ++ [p] ++ [last]).head? = some first := by
      rw [← hfirst]; cases res <;> simp
    -- the new point is not the current one
    have hlp : last ≠ p := by
      by_cases hres : res = []
      · subst hres
        simp only [List.nil_append, List.head?_cons, Option.some.injEq] at hfirst
        rw [hfirst]; exact hlf
      · by_cases hp0 : p0 = p
        · have hfne := hpf hres
          have hfps : first ∈ ps := by
            rcases List.mem_cons.1 hf with h | h
            · exact absurd (hp0.symm.trans h.symm) hfne
            · exact h
          have hal : Allowed res first := by
            right
            rw [← hfirst]
            cases res with
            | nil => exact absurd rfl hres
            | cons a l => simp
          have := wrapFrom_self res p ps first hfps (Ne.symm hfne) hal
          rw [hlast, hp0]; exact this.1
        · exact wrapFrom_ne res p p0 ps hp0
    -- it is new, or it is `p0`
    have hnew : last ∉ res ∨ (last = p0 ∧ p ∉ res) := by
      by_cases hpr : p ∈ res
      · left
        have hres : res ≠ [] := by rintro rfl; simp at hpr
        have hp0 := hpres hpr
        have hfne := hpf hres
        have hfps : first ∈ ps := by
          rcases List.mem_cons.1 hf with h | h
          · exact absurd (hp0.trans h.symm) hfne
          · exact h
        have hhd : res.head? = some first := by
          rw [← hfirst]
          cases res with
          | nil => exact absurd rfl hres
          | cons a l => simp
        have := (wrapFrom_self res p ps first hfps (Ne.symm hfne) (Or.inr hhd)).2
        rw [hlast, ← hp0]
        rcases this with h | h
        · exact h
        · exfalso
          apply hlf
          rw [hlast, ← hp0]
          rw [hhd] at h
          exact (Option.some.inj h).symm
      · by_cases hlr : last ∈ res
        · right
          refine ⟨?_, hpr⟩
          rcases wrapFrom_cases res p p0 ps with h | h
          · exact h
          · exfalso
            rcases h.1 with h' | h'
            · exact h' hlr
            · apply hlf
              have : res.head? = some first := by
                rw [← hfirst]
                cases res with
                | nil => simp at hlr
                | cons a l => simp
              rw [this] at h'
              exact (Option.some.inj h').symm
        · exact Or.inl hlr
    apply ih (res ++ [p]) last hmem hhead (fun _ => hlf)
    · intro h
      rcases hnew with h' | h'
      · exfalso
        rcases List.mem_append.1 h with h | h
        · exact h' h
        · simp at h; exact hlp h
      · exact h'.1
    · by_cases hin : last ∈ res ++ [p]
      · rw [if_pos hin]
        have hpr : p ∉ res := by
          rcases hnew with h' | h'
          · exfalso
            rcases List.mem_append.1 hin with h | h
            · exact h' h
            · simp at h; exact hlp h
          · exact h'.2
        rw [if_neg hpr] at hfuel
        have hsub : ((p0 :: ps).toFinset \ (res ++ [p] ++ [last]).toFinset).card ≤ ((p0 :: ps).toFinset \ (res ++ [p]).toFinset).card := by
          apply Finset.card_le_card
          apply Finset.sdiff_subset_sdiff (Finset.Subset.refl _)
          intro x hx
          simp only [List.mem_toFinset, List.mem_append] at hx ⊢
          exact Or.inl hx
        omega
      · rw [if_neg hin]
        have hlt : ((p0 :: ps).toFinset \ (res ++ [p] ++ [last]).toFinset).card < ((p0 :: ps).toFinset \ (res ++ [p]).toFinset).card := by
          apply Finset.card_lt_card
          refine ⟨?_, fun h => ?_⟩
          · apply Finset.sdiff_subset_sdiff (Finset.Subset.refl _)
            intro x hx
            simp only [List.mem_toFinset, List.mem_append] at hx ⊢
            exact Or.inl hx
          · have h1 : last ∈ (p0 :: ps).toFinset \ (res ++ [p]).toFinset := by
              rw [Finset.mem_sdiff, List.mem_toFinset, List.mem_toFinset]
              exact ⟨hmem, hin⟩
            have h2 := h h1
            rw [Finset.mem_sdiff, List.mem_toFinset, List.mem_toFinset] at h2
            exact h2.2 (by simp)
        split_ifs at hfuel <;> omega

theorem hullLoop_closed (p0 : Vec3 K) (ps : List (Vec3 K)) (fuel : ℕ) (res : List (Vec3 K)) (p : Vec3 K) (out : List (Vec3 K))
    (h : hullLoop p0 ps fuel res p = some out) : Closed out ∧ out.head? = (res ++ [p]).head? ∧ res.length + 2 ≤ out.length := by
  induction fuel generalizing res p with
  | zero => simp [hullLoop] at h
  | succ fuel ih =>
    rw [hullLoop] at h
    split_ifs at h with hc
    · obtain ⟨h1, h2, h3⟩ := ih _ _ h
      refine ⟨h1, ?_, by simp at h3; omega⟩
      rw [h2]; cases res <;> simp
    · have hc := not_not.1 hc
      cases h
      refine ⟨?_, ?_, by simp⟩
      · unfold Closed
        rw [List.getLast?_concat, ← hc]
        cases res <;> simp
      · cases res <;> simp

/-- **C85**.  `geom::convexHull` ends on every input, after at most twice as many rounds as there are points (plus two); its result is empty for the empty input and
otherwise is closed, made of input points and starts at a point that no input point is left of. -/
theorem C85_hull (fuel : ℕ) (points : List (Vec3 K)) (hf : 2 * points.length + 2 ≤ fuel) :
    ∃ out, convexHull fuel points = some out ∧ (∀ v ∈ out, v ∈ points) ∧ Closed out ∧
      (points = [] → out = []) ∧ (points ≠ [] → 2 ≤ out.length ∧ ∃ v, out.head? = some v ∧ ∀ q ∈ points, v.x ≤ q.x) := by
  cases points with
  | nil => exact ⟨[], rfl, by simp, rfl, fun _ => rfl, fun h => absurd rfl h⟩
  | cons p0 ps =>
    obtain ⟨hm, hx⟩ := Support.leftMostFrom_spec p0 ps
    rw [← leftMostFrom_eq] at hm hx
    have hs := hullLoop_terminates p0 ps (leftMostFrom p0 ps) hm fuel [] (leftMostFrom p0 ps) hm (by simp) (fun h => absurd rfl h) (by simp) (by
      have : ((p0 :: ps).toFinset \ ([] ++ [leftMostFrom p0 ps]).toFinset).card ≤ (p0 :: ps).length :=
        (Finset.card_le_card Finset.sdiff_subset).trans (List.toFinset_card_le _)
      split_ifs <;> omega)
    obtain ⟨out, hout⟩ := Option.isSome_iff_exists.1 hs
    obtain ⟨h1, h2, h3⟩ := hullLoop_closed p0 ps fuel [] _ out hout
    refine ⟨out, hout, hullLoop_mem p0 ps fuel [] _ out hout (by simpa using hm), h1, by simp, fun _ => ⟨by simpa using h3, _, h2, hx⟩⟩

/-! ## General position -/

theorem wrapFrom_good (pts res : List (Vec3 K)) (p g : Vec3 K) (hg : GoodEdge pts p g) (hal : Allowed res g) (e : Vec3 K) (l : List (Vec3 K))
    (he : e ∈ pts) (hl : ∀ v ∈ l, v ∈ pts) (hin : g ∈ e :: l) : wrapFrom res p e l = g := by
  induction l generalizing e with
  | nil => simp at hin; rw [wrapFrom, hin]
  | cons c l ih =>
    rw [wrapFrom]
    by_cases hcg : c = g
    · subst hcg
      by_cases hec : e = c
      · subst hec
        have : (if e = p ∨ isLeft p e e > 0 then if e ∉ res ∨ res.head? = some e then wrapFrom res p e l else wrapFrom res p e l
            else wrapFrom res p e l) = wrapFrom res p e l := by split_ifs <;> rfl
        rw [this]
        exact ih e he (fun v hv => hl v (List.mem_cons_of_mem _ hv)) (by simp)
      · have hcond : e = p ∨ isLeft p e c > 0 := by
          by_cases hep : e = p
          · exact Or.inl hep
          · right
            have h1 := hg.right e he hep hec
            rw [← isLeft_eq] at h1
            have : isLeft p e c = - isLeft p c e := by unfold isLeft; ring
            linarith
        rw [if_pos hcond, if_pos (show c ∉ res ∨ res.head? = some c from hal)]
        exact ih c hg.he (fun v hv => hl v (List.mem_cons_of_mem _ hv)) (by simp)
    · by_cases heg : e = g
      · subst heg
        have hcond : ¬ (e = p ∨ isLeft p e c > 0) := by
          rintro (h | h)
          · exact hg.ne h
          · by_cases hcp : c = p
            · subst hcp
              unfold isLeft at h
              have : (e.x - c.x) * (c.y - c.y) - (c.x - c.x) * (e.y - c.y) = 0 := by ring
              linarith
            · have := hg.right c (hl c (by simp)) hcp hcg
              rw [← isLeft_eq] at this
              linarith
        rw [if_neg hcond]
        exact ih e he (fun v hv => hl v (List.mem_cons_of_mem _ hv)) (by simp)
      · have hgl : g ∈ l := by
          rcases List.mem_cons.1 hin with h | h
          · exact absurd h.symm heg
          rcases List.mem_cons.1 h with h | h
          · exact absurd h.symm hcg
          · exact h
        split_ifs
        · exact ih c (hl c (by simp)) (fun v hv => hl v (List.mem_cons_of_mem _ hv)) (by simp [hgl])
        · exact ih e he (fun v hv => hl v (List.mem_cons_of_mem _ hv)) (by simp [hgl])
        · exact ih e he (fun v hv => hl v (List.mem_cons_of_mem _ hv)) (by simp [hgl])

/-- in general position both hulls are the same -/
theorem hullLoop_eq (p0 : Vec3 K) (ps : List (Vec3 K)) (gp : GeneralBorder (p0 :: ps)) (fuel : ℕ) (res : List (Vec3 K)) (p : Vec3 K)
    (hp : p ∈ p0 :: ps) (hs : Supported (p0 :: ps) p) (he : ∀ c d, Edge (res ++ [p]) c d → GoodEdge (p0 :: ps) c d) (hn : (res ++ [p]).Nodup) :
    hullLoop p0 ps fuel res p = Support.hullLoop p0 ps fuel res p := by
  induction fuel generalizing res p with
  | zero => rfl
  | succ fuel ih =>
    obtain ⟨g1, g2⟩ := Support.wrap_good p0 ps gp p hp hs
    have hal : Allowed res (Support.wrap p0 ps p) := by
      by_cases hin : Support.wrap p0 ps p ∈ res
      · right
        obtain ⟨j, hj, hje⟩ := List.mem_iff_getElem.1 hin
        cases j with
        | zero => rw [List.head?_eq_getElem?, List.getElem?_eq_getElem hj, hje]
        | succ j =>
          exfalso
          have hedge : Edge (res ++ [p]) (res[j]'(by omega)) (Support.wrap p0 ps p) := by
            refine ⟨j, ?_, ?_⟩
            · rw [List.getElem?_append_left (by omega), List.getElem?_eq_getElem]
            · rw [List.getElem?_append_left hj, List.getElem?_eq_getElem hj, hje]
          have := Support.good_inj (he _ _ hedge) g1
          rw [List.nodup_append] at hn
          exact hn.2.2 _ (List.getElem_mem (by omega : j < res.length)) p (by simp) this
      · exact Or.inl hin
    have hw : wrapFrom res p p0 ps = Support.wrap p0 ps p :=
      wrapFrom_good (p0 :: ps) res p _ g1 hal p0 ps (by simp) (fun v hv => List.mem_cons_of_mem _ hv) g1.he
    rw [hullLoop, Support.hullLoop, hw]
    split_ifs with hc
    · have hlast : Support.wrap p0 ps p ∉ res ++ [p] := by
        intro h
        rcases List.mem_append.1 h with h | h
        · rcases hal with h' | h'
          · exact h' h
          · apply hc
            rw [← h']
            cases res with
            | nil => simp at h
            | cons a l => simp
        · simp at h; exact g1.ne h
      apply ih (res ++ [p]) _ g1.he g2
      · intro c d h
        rcases edge_concat h with h2 | ⟨h2, h3⟩
        · exact he c d h2
        · rw [List.getLast?_concat, Option.some.injEq] at h2
          subst h2; subst h3; exact g1
      · rw [List.nodup_append]
        refine ⟨hn, by simp, ?_⟩
        intro a ha b hb hab
        simp at hb
        subst hb; subst hab
        exact hlast ha
    · rfl

/-- **C86** (hull).  If no three points are on one line of the border, every input point is right of every edge of `geom::convexHull`, or at one of its ends. -/
theorem C86_hull_partial (fuel : ℕ) (points : List (Vec3 K)) (gp : GeneralBorder points) (hf : points.length ≤ fuel) :
    ∃ out, convexHull fuel points = some out ∧ Closed out ∧ 3 ≤ out.length ∧ (∀ v ∈ out, v ∈ points) ∧
      ∀ a b, Edge out a b → a ≠ b ∧ ∀ q ∈ points, q ≠ a → q ≠ b → StrictlyRight a b q := by
  cases points with
  | nil => obtain ⟨a, ha, -⟩ := gp.three; simp at ha
  | cons p0 ps =>
    obtain ⟨out, h1, h2⟩ := Support.C83_hull_partial fuel p0 ps gp hf
    refine ⟨out, ?_, h2⟩
    rw [← h1, convexHull, Support.convexHull, Support.leftMost, leftMostFrom_eq]
    exact hullLoop_eq p0 ps gp fuel [] _ (Support.leftMostFrom_spec p0 ps).1 (Support.leftMost_supported p0 ps gp)
      (fun c d h => absurd h (edge_singleton _ _ _)) (by simp)

theorem rightOfEdges_iff (l : List (Vec3 K)) (p : Vec3 K) : rightOfEdges l p = true ↔ InsideCW l p := by
  induction l with
  | nil => simp only [rightOfEdges, true_iff]; intro a b h; obtain ⟨i, h, -⟩ := h; simp at h
  | cons a l ih =>
    cases l with
    | nil => simp only [rightOfEdges, true_iff]; exact fun c d h => absurd h (edge_singleton _ _ _)
    | cons b l =>
      rw [rightOfEdges]
      have h1 : InsideCW (a :: b :: l) p ↔ isLeft a b p ≤ 0 ∧ InsideCW (b :: l) p := by
        constructor
        · intro h
          refine ⟨(not_left_iff _ _ _).1 (h a b ((edge_cons _ _ _ _ _).2 (Or.inl ⟨rfl, rfl⟩))), fun c d hcd => h c d ((edge_cons _ _ _ _ _).2 (Or.inr hcd))⟩
        · rintro ⟨h, h'⟩ c d hcd
          rcases (edge_cons _ _ _ _ _).1 hcd with ⟨rfl, rfl⟩ | hcd
          · exact (not_left_iff _ _ _).2 h
          · exact h' c d hcd
      rw [h1, ← ih]
      split_ifs with hc
      · simp [not_le.2 hc]
      · simp [not_lt.1 hc]

theorem containsHull_iff (l : List (Vec3 K)) (p : Vec3 K) (eps : K) (h : 3 ≤ l.length) : containsHull l p eps = true ↔ InsideCW l p := by
  match l, h with
  | a :: b :: c :: l, _ => unfold containsHull; exact rightOfEdges_iff _ _

/-- along a chain in an open half plane seen from `P`, not turning left is transitive -/
theorem chain_right (α β : K) (P : Vec3 K) (a b : Vec3 K) (l : List (Vec3 K))
    (hf : ∀ v ∈ a :: b :: l, 0 < α * (v.x - P.x) + β * (v.y - P.y))
    (he : ∀ c d, Edge (a :: b :: l) c d → Support.isLeft c d P ≤ 0) :
    Support.isLeft a ((b :: l).getLast (by simp)) P ≤ 0 := by
  induction l generalizing b with
  | nil => simpa using he a b ((edge_cons _ _ _ _ _).2 (Or.inl ⟨rfl, rfl⟩))
  | cons c l ih =>
    have hab := he a b ((edge_cons _ _ _ _ _).2 (Or.inl ⟨rfl, rfl⟩))
    have hbc := he b c ((edge_cons _ _ _ _ _).2 (Or.inr ((edge_cons _ _ _ _ _).2 (Or.inl ⟨rfl, rfl⟩))))
    have hfa := hf a (by simp)
    have hfb := hf b (by simp)
    have hfc := hf c (by simp)
    have hac : Support.isLeft a c P ≤ 0 := by
      have := Support.cross_id α β P a b c
      have e1 := mul_nonneg (neg_nonneg.2 hab) hfc.le
      have e2 := mul_nonneg (neg_nonneg.2 hbc) hfa.le
      by_contra hn
      have := mul_pos (not_le.1 hn) hfb
      linarith
    have := ih c (fun v hv => hf v (by
        rcases List.mem_cons.1 hv with rfl | hv
        · simp
        · exact List.mem_cons_of_mem _ (List.mem_cons_of_mem _ hv)))
      (fun u v huv => by
        rcases (edge_cons _ _ _ _ _).1 huv with ⟨rfl, rfl⟩ | huv
        · exact hac
        · exact he u v ((edge_cons _ _ _ _ _).2 (Or.inr ((edge_cons _ _ _ _ _).2 (Or.inr huv)))))
    simpa using this

/-- **C86** (membership).  If no three points are on one line of the border, `geom::contains` answers "yes" exactly for the points of the convex hull of the given points, seen from above.
Missing for the full property: three points on one line of the border, and fewer than three points, for which it is false (`C86_violated`,
`C86_aligned_violated`). -/
theorem C86_contains_partial (fuel : ℕ) (points : List (Vec3 ℝ)) (gp : GeneralBorder points) (hf : points.length ≤ fuel) (P : Vec3 ℝ) (eps : ℝ) :
    ∃ r, contains fuel points P eps = some r ∧ (r = true ↔ (P.x, P.y) ∈ _root_.convexHull ℝ (xySet points)) := by
  obtain ⟨out, h1, h2, h3, h4, h5⟩ := C86_hull_partial fuel points gp hf
  refine ⟨containsHull out P eps, by rw [contains, h1]; rfl, ?_⟩
  rw [containsHull_iff out P eps h3]
  have hS : ∀ q, q ∈ xySet points ↔ ∃ v ∈ points, v.x = q.1 ∧ v.y = q.2 := by
    intro q
    simp only [xySet, Set.mem_ofPred_eq]
    constructor
    · rintro ⟨v, hv, rfl⟩; exact ⟨v, hv, rfl, rfl⟩
    · rintro ⟨v, hv, hx, hy⟩; exact ⟨v, hv, by ext <;> simp [hx, hy]⟩
  constructor
  · intro hin
    by_contra hout
    obtain ⟨α, β, hsep⟩ := Support.separated_of_not_mem points P _ hS hout
    have hE : ∀ c d, Edge out c d → Support.isLeft c d P ≤ 0 := fun c d h => by
      have := (not_left_iff c d P).1 (hin c d h); rwa [isLeft_eq] at this
    match out, h3 with
    | a :: b :: c :: l, _ =>
      have hfp : ∀ v ∈ a :: b :: c :: l, 0 < α * (v.x - P.x) + β * (v.y - P.y) := fun v hv => hsep v (h4 v hv)
      have e1 : Edge (a :: b :: c :: l) a b := (edge_cons _ _ _ _ _).2 (Or.inl ⟨rfl, rfl⟩)
      have e2 : Edge (a :: b :: c :: l) b c := (edge_cons _ _ _ _ _).2 (Or.inr ((edge_cons _ _ _ _ _).2 (Or.inl ⟨rfl, rfl⟩)))
      have hab := (h5 a b e1).1
      have hbc := (h5 b c e2).1
      have ha := h4 a (by simp)
      have hb := h4 b (by simp)
      have hc := h4 c (by simp)
      have hac : a ≠ c := by
        rintro rfl
        obtain ⟨u, hu, v, hv, w, hw, n1, n2, n3⟩ := gp.three
        have key : ∀ q ∈ points, q ≠ a → q ≠ b → False := by
          intro q hq hqa hqb
          have r1 := (Support.right_iff _ _ _).1 ((h5 a b e1).2 q hq hqa hqb)
          have r2 := (Support.right_iff _ _ _).1 ((h5 b a e2).2 q hq hqb hqa)
          rw [Support.isLeft_swap a b q] at r2
          linarith
        by_cases ua : u = a
        · subst ua
          by_cases vb : v = b
          · subst vb; exact key w hw (Ne.symm n3) (Ne.symm n2)
          · exact key v hv (Ne.symm n1) vb
        · by_cases ub : u = b
          · subst ub
            by_cases va : v = a
            · subst va; exact key w hw (Ne.symm n2) (Ne.symm n3)
            · exact key v hv va (Ne.symm n1)
          · exact key u hu ua ub
      have hlast : (c :: l).getLast (by simp) = a := by
        have := h2
        unfold Closed at this
        rw [List.getLast?_eq_getLast_of_ne_nil (by simp)] at this
        simpa using this.symm
      have hba : Support.isLeft b a P ≤ 0 := by
        have := chain_right α β P b c l (fun v hv => hfp v (List.mem_cons_of_mem _ hv)) (fun u v h => hE u v ((edge_cons _ _ _ _ _).2 (Or.inr h)))
        rwa [hlast] at this
      have hca : Support.isLeft c a P ≤ 0 := by
        cases l with
        | nil => simp at hlast; exact absurd hlast.symm hac
        | cons d l =>
          have := chain_right α β P c d l (fun v hv => hfp v (List.mem_cons_of_mem _ (List.mem_cons_of_mem _ hv)))
            (fun u v h => hE u v ((edge_cons _ _ _ _ _).2 (Or.inr ((edge_cons _ _ _ _ _).2 (Or.inr h)))))
          have hl2 : (d :: l).getLast (by simp) = a := by simpa using hlast
          rwa [hl2] at this
      have hac' : Support.isLeft a c P ≤ 0 := by
        have := chain_right α β P a b [c] (fun v hv => hfp v (by simp at hv ⊢; tauto)) (fun u v h => by
          rcases (edge_cons _ _ _ _ _).1 h with ⟨rfl, rfl⟩ | h
          · exact hE _ _ e1
          rcases (edge_cons _ _ _ _ _).1 h with ⟨rfl, rfl⟩ | h
          · exact hE _ _ e2
          · exact absurd h (edge_singleton _ _ _))
        simpa using this
      have hab' := hE a b e1
      rw [Support.isLeft_swap a b P] at hba
      rw [Support.isLeft_swap a c P] at hca
      have z1 : Support.isLeft a b P = 0 := by linarith
      have z2 : Support.isLeft a c P = 0 := by linarith
      have z3 : Support.isLeft b c P = 0 := by
        have id := Support.cross_id α β P b a c
        rw [Support.isLeft_swap a b P, z1, z2] at id
        simp only [neg_zero, zero_mul, add_zero] at id
        rcases mul_eq_zero.1 id with h | h
        · exact h
        · have := hfp a (by simp); linarith
      have hcr := (Support.right_iff _ _ _).1 ((h5 a b e1).2 c hc hac.symm hbc.symm)
      have : Support.isLeft a b c = Support.isLeft a b P + Support.isLeft b c P - Support.isLeft a c P := by
        unfold Support.isLeft; ring
      rw [this, z1, z2, z3] at hcr
      simp at hcr
  · intro hin a b hab
    rw [not_left_iff]
    have hsub : _root_.convexHull ℝ (xySet points) ⊆
        {q : ℝ × ℝ | (((b.x - a.x) • LinearMap.snd ℝ ℝ ℝ) - (b.y - a.y) • LinearMap.fst ℝ ℝ ℝ) q ≤ (b.x - a.x) * a.y - (b.y - a.y) * a.x} := by
      apply convexHull_min _ (convex_halfSpace_le (LinearMap.isLinear _) _)
      intro q hq
      obtain ⟨v, hv, hx, hy⟩ := (hS q).1 hq
      have hle : isLeft a b v ≤ 0 := by
        by_cases hva : v = a
        · subst hva; unfold isLeft; linarith
        by_cases hvb : v = b
        · subst hvb; unfold isLeft; linarith
        · have := (Support.right_iff _ _ _).1 ((h5 a b hab).2 v hv hva hvb)
          rw [isLeft_eq]; exact this.le
      unfold isLeft at hle
      simp only [Set.mem_ofPred_eq, LinearMap.sub_apply, LinearMap.smul_apply, LinearMap.snd_apply, LinearMap.fst_apply, smul_eq_mul, ← hx, ← hy]
      linarith
    have := hsub hin
    simp only [Set.mem_ofPred_eq, LinearMap.sub_apply, LinearMap.smul_apply, LinearMap.snd_apply, LinearMap.fst_apply, smul_eq_mul] at this
    unfold isLeft
    linarith

/-- **C86 is violated for degenerate sets**: a single point "contains" every point of the plane (algorithms.cc:166–169 compares the two ends of the hull, not the point),
and two points contain the whole line through them. -/
theorem C86_violated :
    (∀ p q : Vec3 ℚ, ∀ eps, 0 < eps → ∀ fuel, contains (fuel + 1) [p] q eps = some true) ∧
      contains 6 [(⟨0, 0, 0⟩ : Vec3 ℚ), ⟨1, 0, 0⟩] ⟨100, 0, 0⟩ (1 / 100000) = some true := by
  refine ⟨fun p q eps he fuel => ?_, by decide +kernel⟩
  have h : convexHull (fuel + 1) [p] = some [p, p] := by
    rw [convexHull, hullLoop]
    simp [leftMostFrom, wrapFrom]
  rw [contains, h]
  simp only [Option.map_some, containsHull, sub_self, mul_zero, add_zero]
  simp [he]

/-- **C86 is violated by aligned points**: the corner `(1, 0)` is the last of three points on a side; when the walk is at the second of them every earlier candidate
has been used already, so that the corner is skipped: the hull ends without it, and a point of the true hull is reported outside. -/
theorem C86_aligned_violated :
    convexHull 8 [(⟨4, 0, 0⟩ : Vec3 ℚ), ⟨1, 3, 0⟩, ⟨4, 3, 0⟩, ⟨3, 0, 0⟩, ⟨1, 0, 0⟩, ⟨0, 1, 0⟩] =
        some [⟨0, 1, 0⟩, ⟨1, 3, 0⟩, ⟨4, 3, 0⟩, ⟨4, 0, 0⟩, ⟨3, 0, 0⟩, ⟨0, 1, 0⟩] ∧
      contains 8 [(⟨4, 0, 0⟩ : Vec3 ℚ), ⟨1, 3, 0⟩, ⟨4, 3, 0⟩, ⟨3, 0, 0⟩, ⟨1, 0, 0⟩, ⟨0, 1, 0⟩] ⟨1, 0, 0⟩ (1 / 100000) = some false ∧
      ¬ Support.OnLine (⟨4, 0, 0⟩ : Vec3 ℚ) ⟨1, 3, 0⟩ ⟨4, 3, 0⟩ := by
  refine ⟨by decide +kernel, by decide +kernel, ?_⟩
  unfold Support.OnLine
  decide +kernel

/-- **C86 (degenerate hulls)** The answer on a hull given by its vertices: no vertex contains nothing; one vertex contains the points
closer than `epsilon`; with two entries (a hull of one point, which ends with its first vertex) the answer does not depend on the point,
it says whether the two entries are closer than `epsilon`. -/
theorem C86_degenerate (h h' p : Vec3 ℝ) (eps : ℝ) (he : 0 < eps) :
    containsHull [] p eps = false ∧
    (containsHull [h] p eps = true ↔ Real.sqrt ((p.x - h.x) ^ 2 + (p.y - h.y) ^ 2) < eps) ∧
    (containsHull [h, h'] p eps = true ↔ Real.sqrt ((h'.x - h.x) ^ 2 + (h'.y - h.y) ^ 2) < eps) := by
  refine ⟨rfl, ?_, ?_⟩
  · rw [Real.sqrt_lt' he]
    simp only [containsHull, decide_eq_true_eq, pow_two]
  · rw [Real.sqrt_lt' he]
    simp only [containsHull, decide_eq_true_eq, pow_two]

/-- C86 applies to a triangle -/
example : GeneralBorder [(⟨0, 0, 0⟩ : Vec3 ℝ), ⟨4, 0, 1⟩, ⟨0, 4, 2⟩] := by
  refine ⟨⟨⟨0, 0, 0⟩, by simp, ⟨4, 0, 1⟩, by simp, ⟨0, 4, 2⟩, by simp, ?_, ?_, ?_⟩, ?_⟩
  · simp [Vec3.ext_iff]
  · simp [Vec3.ext_iff]
  · simp [Vec3.ext_iff]
  · intro a ha b hb c hc
    simp only [List.mem_cons, List.not_mem_nil, or_false] at ha hb hc
    unfold OnLine
    rcases ha with rfl | rfl | rfl <;> rcases hb with rfl | rfl | rfl <;> rcases hc with rfl | rfl | rfl <;>
    first
    | (intro h; exact absurd rfl h)
    | (intro _ h; exact absurd rfl h)
    | (intro _ _ h; exact absurd rfl h)
    | (intro _ _ _; norm_num)

example : contains 6 [(⟨0, 0, 0⟩ : Vec3 ℚ), ⟨4, 0, 1⟩, ⟨0, 4, 2⟩] ⟨1, 1, 7⟩ (1/100000) = some true ∧
    contains 6 [(⟨0, 0, 0⟩ : Vec3 ℚ), ⟨4, 0, 1⟩, ⟨0, 4, 2⟩] ⟨3, 3, 7⟩ (1/100000) = some false := ⟨by decide +kernel, by decide +kernel⟩

end Geom
end Rbprm
