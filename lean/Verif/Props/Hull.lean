import Verif.Props.Support
import Mathlib.Data.Finset.Card
import Mathlib.Logic.Function.Iterate
import Mathlib.Analysis.LocallyConvex.Separation
import Mathlib.Analysis.Convex.Topology
set_option linter.unusedSectionVars false
/-! # C46 (hull), C83: gift wrapping and `Contains` -/
namespace Rbprm
namespace Support
variable {K : Type _} [Field K] [LinearOrder K] [IsStrictOrderedRing K]

/-! ## Specification -/

/-- three points are on one line, seen from above -/
def OnLine (a b c : Vec3 K) : Prop := (b.x - a.x) * (c.y - a.y) = (b.y - a.y) * (c.x - a.x)

/-- no three different points of the list are on one line, and there are three different ones -/
structure GeneralPosition (pts : List (Vec3 K)) : Prop where
  three : ∃ a ∈ pts, ∃ b ∈ pts, ∃ c ∈ pts, a ≠ b ∧ b ≠ c ∧ a ≠ c
  off : ∀ a ∈ pts, ∀ b ∈ pts, ∀ c ∈ pts, a ≠ b → b ≠ c → a ≠ c → ¬ OnLine a b c

/-- there are three different points, and a line through three different points is not on the border: it has points on both sides -/
structure GeneralBorder (pts : List (Vec3 K)) : Prop where
  three : ∃ a ∈ pts, ∃ b ∈ pts, ∃ c ∈ pts, a ≠ b ∧ b ≠ c ∧ a ≠ c
  off : ∀ a ∈ pts, ∀ b ∈ pts, ∀ c ∈ pts, a ≠ b → b ≠ c → a ≠ c → OnLine a b c →
    (∃ p ∈ pts, StrictlyLeft a b p) ∧ ∃ p ∈ pts, StrictlyRight a b p

theorem GeneralPosition.border {pts : List (Vec3 K)} (gp : GeneralPosition pts) : GeneralBorder pts :=
  ⟨gp.three, fun a ha b hb c hc h1 h2 h3 h => absurd h (gp.off a ha b hb c hc h1 h2 h3)⟩

/-- the corners of the rectangles of a support, as a set of points of the plane -/
def footprint (feet : List (Foot ℝ)) : Set (ℝ × ℝ) :=
  {q | ∃ f ∈ feet, (q.1 = f.pos.x + f.xs ∨ q.1 = f.pos.x - f.xs) ∧ (q.2 = f.pos.y + f.ys ∨ q.2 = f.pos.y - f.ys)}

/-! ## Hull: unconditional facts -/

theorem leftMostFrom_spec (i : Vec3 K) (l : List (Vec3 K)) :
    leftMostFrom i l ∈ i :: l ∧ ∀ q ∈ i :: l, (leftMostFrom i l).x ≤ q.x := by
  induction l generalizing i with
  | nil => simp [leftMostFrom]
  | cons p l ih =>
    rw [leftMostFrom]
    obtain ⟨h1, h2⟩ := ih (if p.x < i.x then p else i)
    split_ifs at h1 h2 ⊢ with h
    · refine ⟨List.mem_cons_of_mem _ h1, fun q hq => ?_⟩
      rcases List.mem_cons.1 hq with rfl | hq
      · exact (h2 p (by simp)).trans h.le
      · exact h2 q hq
    · refine ⟨?_, fun q hq => ?_⟩
      · rcases List.mem_cons.1 h1 with h1 | h1
        · rw [h1]; simp
        · exact List.mem_cons_of_mem _ (List.mem_cons_of_mem _ h1)
      · rcases List.mem_cons.1 hq with rfl | hq
        · exact h2 q (by simp)
        rcases List.mem_cons.1 hq with rfl | hq
        · exact (h2 i (by simp)).trans (not_lt.1 h)
        · exact h2 q (List.mem_cons_of_mem _ hq)

theorem wrapFrom_mem (pi e : Vec3 K) (l : List (Vec3 K)) : wrapFrom pi e l ∈ e :: l := by
  induction l generalizing e with
  | nil => simp [wrapFrom]
  | cons p l ih =>
    rw [wrapFrom]
    have := ih (if e = pi ∨ isLeft pi e p > 0 then p else e)
    split_ifs at this ⊢
    · exact List.mem_cons_of_mem _ this
    · rcases List.mem_cons.1 this with h | h
      · rw [h]; simp
      · exact List.mem_cons_of_mem _ (List.mem_cons_of_mem _ h)

/-- what the loop keeps: a predicate on the edges that have been followed and on the points that have been reached -/
theorem hullLoop_spec (p0 : Vec3 K) (ps : List (Vec3 K)) (E : Vec3 K → Vec3 K → Prop) (S : Vec3 K → Prop)
    (hstep : ∀ p, S p → E p (wrap p0 ps p) ∧ S (wrap p0 ps p)) (fuel : ℕ) (res : List (Vec3 K)) (pi : Vec3 K)
    (out : List (Vec3 K)) (hout : hullLoop p0 ps fuel res pi = some out)
    (hres : ∀ c d, Edge (res ++ [pi]) c d → E c d) (hS : ∀ v ∈ res ++ [pi], S v) :
    (∀ c d, Edge out c d → E c d) ∧ (∀ v ∈ out, S v) ∧ Closed out ∧ out.head? = (res ++ [pi]).head? ∧ res.length + 2 ≤ out.length := by
  induction fuel generalizing res pi with
  | zero => simp [hullLoop] at hout
  | succ fuel ih =>
    rw [hullLoop] at hout
    have hp := hstep pi (hS pi (by simp))
    have he : ∀ c d, Edge (res ++ [pi] ++ [wrap p0 ps pi]) c d → E c d := by
      intro c d h
      rcases edge_concat h with h | ⟨h', rfl⟩
      · exact hres c d h
      · rw [List.getLast?_concat, Option.some.injEq] at h'
        subst h'; exact hp.1
    have hs : ∀ v ∈ res ++ [pi] ++ [wrap p0 ps pi], S v := by
      intro v hv
      rcases List.mem_append.1 hv with hv | hv
      · exact hS v hv
      · simp at hv; subst hv; exact hp.2
    split_ifs at hout with h
    · obtain ⟨a1, a2, a3, a4, a5⟩ := ih _ _ hout he hs
      refine ⟨a1, a2, a3, ?_, ?_⟩
      · rw [a4]; cases res <;> simp
      · simp at a5; omega
    · have h := not_not.1 h
      cases hout
      refine ⟨he, hs, ?_, ?_, by simp⟩
      · unfold Closed
        rw [List.getLast?_concat, ← h]
        cases res <;> simp
      · cases res <;> simp

/-- **C46** (hull).  Whenever `ConvexHull` returns, its result is made of input points, is closed, has at least two entries and starts at a point that no
input point is left of. -/
theorem C46_hull (fuel : ℕ) (p0 : Vec3 K) (ps : List (Vec3 K)) (out : List (Vec3 K)) (h : convexHull fuel p0 ps = some out) :
    (∀ v ∈ out, v ∈ p0 :: ps) ∧ Closed out ∧ 2 ≤ out.length ∧ ∃ v, out.head? = some v ∧ ∀ q ∈ p0 :: ps, v.x ≤ q.x := by
  obtain ⟨hm, hx⟩ := leftMostFrom_spec p0 ps
  obtain ⟨-, h2, h3, h4, h5⟩ := hullLoop_spec p0 ps (fun _ _ => True) (· ∈ p0 :: ps)
    (fun p _ => ⟨trivial, wrapFrom_mem p p0 ps⟩) fuel [] _ out h (fun _ _ _ => trivial) (by simpa [leftMost] using hm)
  exact ⟨h2, h3, by simpa using h5, _, by rw [h4]; rfl, hx⟩

/-! ## Gift wrapping in general position -/

/-- seen from `p`, all other points are on one side of a line through `p` -/
def Supported (pts : List (Vec3 K)) (p : Vec3 K) : Prop :=
  ∃ α β : K, ∀ q ∈ pts, q ≠ p → 0 < α * (q.x - p.x) + β * (q.y - p.y)

theorem onLine_iff (a b c : Vec3 K) : OnLine a b c ↔ isLeft a b c = 0 := by
  unfold OnLine isLeft
  rw [sub_eq_zero, mul_comm (b.y - a.y)]

theorem wrapFrom_spec (pts : List (Vec3 K)) (pi : Vec3 K) (hs : Supported pts pi) (e : Vec3 K) (l done : List (Vec3 K))
    (hpts : ∀ q, q ∈ pts ↔ q ∈ done ∨ q ∈ l) (he : e ∈ done)
    (hinv : ∀ q ∈ done, q ≠ pi → e ≠ pi ∧ isLeft pi e q ≤ 0) :
    ∀ q ∈ pts, q ≠ pi → wrapFrom pi e l ≠ pi ∧ isLeft pi (wrapFrom pi e l) q ≤ 0 := by
  induction l generalizing e done with
  | nil =>
    intro q hq hne
    rw [wrapFrom]
    rcases (hpts q).1 hq with h | h
    · exact hinv q h hne
    · simp at h
  | cons p l ih =>
    rw [wrapFrom]
    obtain ⟨α, β, hf⟩ := hs
    have hmem : ∀ q, q ∈ pts ↔ q ∈ p :: done ∨ q ∈ l := by
      intro q; rw [hpts q]; simp only [List.mem_cons]; tauto
    have hpp : p ∈ pts := (hmem p).2 (Or.inl (by simp))
    by_cases hc : e = pi ∨ isLeft pi e p > 0
    · rw [if_pos hc]
      apply ih p (p :: done) hmem (by simp)
      intro q hq hne
      rcases List.mem_cons.1 hq with rfl | hq
      · exact ⟨hne, by unfold isLeft; linarith⟩
      · obtain ⟨h1, h2⟩ := hinv q hq hne
        rcases hc with hc | hc
        · exact absurd hc h1
        · have hpne : p ≠ pi := by
            rintro rfl
            have : isLeft p e p = 0 := by unfold isLeft; ring
            linarith
          refine ⟨hpne, ?_⟩
          have fq := hf q ((hpts q).2 (Or.inl hq)) hne
          have fe := hf e ((hpts e).2 (Or.inl he)) h1
          have fp := hf p hpp hpne
          have id : isLeft pi p q * (α * (e.x - pi.x) + β * (e.y - pi.y)) =
              isLeft pi e q * (α * (p.x - pi.x) + β * (p.y - pi.y)) - isLeft pi e p * (α * (q.x - pi.x) + β * (q.y - pi.y)) := by
            unfold isLeft; ring
          by_contra hn
          have e1 := mul_pos (not_le.1 hn) fe
          have e2 := mul_nonneg (neg_nonneg.2 h2) fp.le
          have e3 := mul_pos hc fq
          linarith
    · rw [if_neg hc]
      rw [not_or, not_lt] at hc
      apply ih e (p :: done) hmem (by simp [he])
      intro q hq hne
      rcases List.mem_cons.1 hq with rfl | hq
      · exact ⟨hc.1, hc.2⟩
      · exact hinv q hq hne

/-- one round of gift wrapping from a point that has all others on one side: all points are right of the new edge or on it -/
theorem wrap_spec (p0 : Vec3 K) (ps : List (Vec3 K)) (pi : Vec3 K) (hs : Supported (p0 :: ps) pi) :
    ∀ q ∈ p0 :: ps, q ≠ pi → wrap p0 ps pi ≠ pi ∧ isLeft pi (wrap p0 ps pi) q ≤ 0 := by
  apply wrapFrom_spec (p0 :: ps) pi hs p0 ps [p0]
  · intro q; simp
  · simp
  · intro q hq hne
    simp at hq; subst hq
    exact ⟨hne, by unfold isLeft; linarith⟩

/-- a closed half plane can be tilted: finitely many points inside or on a half line of its border are strictly inside the tilted one -/
theorem tilt {ι : Type _} (l : List ι) (f g : ι → K) (h : ∀ q ∈ l, 0 < f q ∨ (f q = 0 ∧ 0 < g q)) :
    ∃ ε : K, 0 < ε ∧ ∀ δ, 0 < δ → δ ≤ ε → ∀ q ∈ l, 0 < f q + δ * g q := by
  induction l with
  | nil => exact ⟨1, one_pos, by simp⟩
  | cons a l ih =>
    obtain ⟨ε, hε, hl⟩ := ih (fun q hq => h q (List.mem_cons_of_mem _ hq))
    rcases h a (by simp) with ha | ⟨ha, ha'⟩
    · refine ⟨min ε (f a / (2 * (|g a| + 1))), lt_min hε (by positivity), fun δ h1 h2 q hq => ?_⟩
      rcases List.mem_cons.1 hq with rfl | hq
      · have h3 : δ ≤ f q / (2 * (|g q| + 1)) := h2.trans (min_le_right _ _)
        rw [le_div_iff₀ (by positivity)] at h3
        have h4 : -|g q| ≤ g q := neg_abs_le _
        have h5 : δ * -|g q| ≤ δ * g q := mul_le_mul_of_nonneg_left h4 h1.le
        have h6 : 0 ≤ δ * |g q| := by positivity
        linarith
      · exact hl δ h1 (h2.trans (min_le_left _ _)) q hq
    · refine ⟨ε, hε, fun δ h1 h2 q hq => ?_⟩
      rcases List.mem_cons.1 hq with rfl | hq
      · rw [ha, zero_add]; positivity
      · exact hl δ h1 h2 q hq

theorem supported_of_tilt (pts : List (Vec3 K)) (p : Vec3 K) (α β γ δ : K)
    (h : ∀ q ∈ pts, q ≠ p → 0 < α * (q.x - p.x) + β * (q.y - p.y) ∨
      (α * (q.x - p.x) + β * (q.y - p.y) = 0 ∧ 0 < γ * (q.x - p.x) + δ * (q.y - p.y))) : Supported pts p := by
  classical
  obtain ⟨ε, hε, hl⟩ := tilt (pts.filter (fun q => decide (q ≠ p))) (fun q => α * (q.x - p.x) + β * (q.y - p.y))
    (fun q => γ * (q.x - p.x) + δ * (q.y - p.y)) (by
      intro q hq
      rw [List.mem_filter] at hq
      exact h q hq.1 (by simpa using hq.2))
  refine ⟨α + ε * γ, β + ε * δ, fun q hq hne => ?_⟩
  have := hl ε hε le_rfl q (by rw [List.mem_filter]; exact ⟨hq, by simpa using hne⟩)
  linarith

/-- in general position, two different points have different horizontal positions -/
theorem GeneralBorder.ne_xy {pts : List (Vec3 K)} (gp : GeneralBorder pts) {a b : Vec3 K} (ha : a ∈ pts) (hb : b ∈ pts)
    (hab : a ≠ b) (hx : a.x = b.x) (hy : a.y = b.y) : False := by
  obtain ⟨u, hu, v, hv, w, hw, h1, h2, h3⟩ := gp.three
  have key : ∀ c ∈ pts, c ≠ a → c ≠ b → False := by
    intro c hc hca hcb
    obtain ⟨⟨p, -, h⟩, -⟩ := gp.off a ha b hb c hc hab (Ne.symm hcb) (Ne.symm hca) (by
      unfold OnLine
      rw [hx, hy]; ring)
    unfold StrictlyLeft at h
    rw [hx, hy] at h
    linarith
  by_cases ua : u = a
  · subst ua
    by_cases vb : v = b
    · subst vb; exact key w hw (Ne.symm h3) (Ne.symm h2)
    · exact key v hv (Ne.symm h1) vb
  · by_cases ub : u = b
    · subst ub
      by_cases va : v = a
      · subst va; exact key w hw (Ne.symm h2) (Ne.symm h3)
      · exact key v hv va (Ne.symm h1)
    · exact key u hu ua ub

theorem leftMost_supported (p0 : Vec3 K) (ps : List (Vec3 K)) (gp : GeneralBorder (p0 :: ps)) :
    Supported (p0 :: ps) (leftMost p0 ps) := by
  obtain ⟨hm, hx⟩ := leftMostFrom_spec p0 ps
  change leftMost p0 ps ∈ _ at hm
  change ∀ q ∈ _, (leftMost p0 ps).x ≤ _ at hx
  generalize leftMost p0 ps = p at hm hx
  by_cases hex : ∃ r ∈ p0 :: ps, r ≠ p ∧ r.x = p.x
  · obtain ⟨r, hr, hrp, hrx⟩ := hex
    have hry : r.y ≠ p.y := fun h => gp.ne_xy hr hm hrp hrx h
    have only : ∀ q ∈ p0 :: ps, q ≠ p → q.x = p.x → q = r := by
      intro q hq hqp hqx
      by_contra hqr
      obtain ⟨⟨l, hl, h1⟩, ⟨l', hl', h2⟩⟩ := gp.off p hm r hr q hq (Ne.symm hrp) (Ne.symm hqr) (Ne.symm hqp) (by
        unfold OnLine; rw [hrx, hqx]; ring)
      unfold StrictlyLeft at h1
      unfold StrictlyRight at h2
      rw [hrx] at h1 h2
      have x1 := sub_nonneg.2 (hx l hl)
      have x2 := sub_nonneg.2 (hx l' hl')
      rcases le_total r.y p.y with h | h
      · have := mul_nonneg (sub_nonneg.2 h) x2; linarith
      · have := mul_nonneg (sub_nonneg.2 h) x1; linarith
    apply supported_of_tilt _ _ 1 0 0 (r.y - p.y)
    intro q hq hqp
    rcases lt_or_eq_of_le (hx q hq) with h | h
    · left; linarith
    · right
      have := only q hq hqp h.symm
      subst this
      refine ⟨by rw [h]; ring, ?_⟩
      have : 0 < (q.y - p.y) * (q.y - p.y) := mul_self_pos.2 (sub_ne_zero.2 hry)
      linarith
  · refine ⟨1, 0, fun q hq hqp => ?_⟩
    have h1 := hx q hq
    have h2 : q.x ≠ p.x := fun h => hex ⟨q, hq, hqp, h⟩
    have h3 : p.x < q.x := lt_of_le_of_ne h1 (Ne.symm h2)
    linarith

/-- what a round achieves in general position -/
structure GoodEdge (pts : List (Vec3 K)) (p e : Vec3 K) : Prop where
  hp : p ∈ pts
  he : e ∈ pts
  ne : e ≠ p
  right : ∀ q ∈ pts, q ≠ p → q ≠ e → isLeft p e q < 0

theorem wrap_good (p0 : Vec3 K) (ps : List (Vec3 K)) (gp : GeneralBorder (p0 :: ps)) (p : Vec3 K) (hp : p ∈ p0 :: ps)
    (hs : Supported (p0 :: ps) p) : GoodEdge (p0 :: ps) p (wrap p0 ps p) ∧ Supported (p0 :: ps) (wrap p0 ps p) := by
  have hw := wrap_spec p0 ps p hs
  have he : wrap p0 ps p ∈ p0 :: ps := wrapFrom_mem p p0 ps
  have hne : wrap p0 ps p ≠ p := by
    obtain ⟨u, hu, v, hv, -, -, h1, -, -⟩ := gp.three
    by_cases hup : u = p
    · exact (hw v hv (fun h => h1 (hup.trans h.symm))).1
    · exact (hw u hu hup).1
  generalize wrap p0 ps p = e at hw he hne
  have hr : ∀ q ∈ p0 :: ps, q ≠ p → q ≠ e → isLeft p e q < 0 := by
    intro q hq h1 h2
    refine lt_of_le_of_ne (hw q hq h1).2 fun h => ?_
    obtain ⟨⟨l, hl, h3⟩, -⟩ := gp.off p hp e he q hq (Ne.symm hne) (Ne.symm h2) (Ne.symm h1) ((onLine_iff _ _ _).2 h)
    rw [left_iff] at h3
    by_cases hlp : l = p
    · subst hlp
      have : isLeft l e l = 0 := by unfold isLeft; ring
      linarith
    · have := (hw l hl hlp).2; linarith
  refine ⟨⟨hp, he, hne, hr⟩, ?_⟩
  apply supported_of_tilt _ _ (e.y - p.y) (-(e.x - p.x)) (-(e.x - p.x)) (-(e.y - p.y))
  intro q hq hqe
  by_cases hqp : q = p
  · subst hqp
    right
    refine ⟨by ring, ?_⟩
    have : e.x ≠ q.x ∨ e.y ≠ q.y := by
      by_contra hcon
      rw [not_or, not_not, not_not] at hcon
      exact gp.ne_xy he hq hne hcon.1 hcon.2
    have e1 := mul_self_nonneg (e.x - q.x)
    have e2 := mul_self_nonneg (e.y - q.y)
    rcases this with h | h
    · have := mul_self_pos.2 (sub_ne_zero.2 h); linarith
    · have := mul_self_pos.2 (sub_ne_zero.2 h); linarith
  · left
    have := hr q hq hqp hqe
    unfold isLeft at this
    linarith

/-- two rounds that reach the same point started at the same point -/
theorem good_inj {pts : List (Vec3 K)} {p q e : Vec3 K} (h1 : GoodEdge pts p e) (h2 : GoodEdge pts q e) : p = q := by
  by_contra hpq
  have a := h1.right q h2.hp (Ne.symm hpq) (Ne.symm h2.ne)
  have b := h2.right p h1.hp hpq (Ne.symm h1.ne)
  have : isLeft q e p = - isLeft p e q := by unfold isLeft; ring
  linarith

theorem iter_good (p0 : Vec3 K) (ps : List (Vec3 K)) (gp : GeneralBorder (p0 :: ps)) (n : ℕ) :
    (wrap p0 ps)^[n] (leftMost p0 ps) ∈ p0 :: ps ∧ Supported (p0 :: ps) ((wrap p0 ps)^[n] (leftMost p0 ps)) := by
  induction n with
  | zero => exact ⟨(leftMostFrom_spec p0 ps).1, leftMost_supported p0 ps gp⟩
  | succ n ih =>
    rw [Function.iterate_succ_apply']
    obtain ⟨h1, h2⟩ := wrap_good p0 ps gp _ ih.1 ih.2
    exact ⟨h1.he, h2⟩

theorem iter_back (p0 : Vec3 K) (ps : List (Vec3 K)) (gp : GeneralBorder (p0 :: ps)) (i d : ℕ)
    (h : (wrap p0 ps)^[i] (leftMost p0 ps) = (wrap p0 ps)^[i + d] (leftMost p0 ps)) :
    (wrap p0 ps)^[d] (leftMost p0 ps) = leftMost p0 ps := by
  induction i with
  | zero => simpa using h.symm
  | succ i ih =>
    apply ih
    rw [show i + 1 + d = (i + d) + 1 by omega, Function.iterate_succ_apply', Function.iterate_succ_apply'] at h
    obtain ⟨a1, a2⟩ := iter_good p0 ps gp i
    obtain ⟨b1, b2⟩ := iter_good p0 ps gp (i + d)
    have ga := (wrap_good p0 ps gp _ a1 a2).1
    have gb := (wrap_good p0 ps gp _ b1 b2).1
    rw [← h] at gb
    exact good_inj ga gb

theorem iter_returns (p0 : Vec3 K) (ps : List (Vec3 K)) (gp : GeneralBorder (p0 :: ps)) :
    ∃ d, 1 ≤ d ∧ d ≤ (p0 :: ps).length ∧ (wrap p0 ps)^[d] (leftMost p0 ps) = leftMost p0 ps := by
  classical
  have hcard : (p0 :: ps).toFinset.card < (Finset.range ((p0 :: ps).length + 1)).card := by
    rw [Finset.card_range]
    exact Nat.lt_succ_of_le (List.toFinset_card_le _)
  obtain ⟨i, hi, j, hj, hij, heq⟩ := Finset.exists_ne_map_eq_of_card_lt_of_maps_to (t := (p0 :: ps).toFinset) hcard
    (f := fun n => (wrap p0 ps)^[n] (leftMost p0 ps)) (by
      intro n _
      simp only [List.coe_toFinset, Set.mem_ofPred_eq]
      exact (iter_good p0 ps gp n).1)
  rw [Finset.mem_range] at hi hj
  rcases Nat.lt_or_gt_of_ne hij with h | h
  · exact ⟨j - i, by omega, by omega, iter_back p0 ps gp i (j - i) (by rw [show i + (j - i) = j by omega]; exact heq)⟩
  · exact ⟨i - j, by omega, by omega, iter_back p0 ps gp j (i - j) (by rw [show j + (i - j) = i by omega]; exact heq.symm)⟩

theorem hullLoop_some (p0 : Vec3 K) (ps : List (Vec3 K)) (fuel : ℕ) (res : List (Vec3 K)) (pi first : Vec3 K)
    (hf : (res ++ [pi]).head? = some first) (d : ℕ) (hd : d < fuel) (h : (wrap p0 ps)^[d + 1] pi = first) :
    (hullLoop p0 ps fuel res pi).isSome = true := by
  induction fuel generalizing res pi d with
  | zero => omega
  | succ fuel ih =>
    rw [hullLoop]
    split_ifs with hc
    · cases d with
      | zero => exfalso; apply hc; rw [hf, ← h]; rfl
      | succ d =>
        refine ih (res ++ [pi]) _ ?_ d (by omega) ?_
        · rw [← hf]; cases res <;> simp
        · rw [Function.iterate_succ_apply] at h
          exact h
    · rfl

/-- **C83** (gift wrapping).  If no three points are on one line of the border, `ConvexHull` ends after at most as many rounds as there are points, and its result is a closed polygon of
input points with all input points right of every edge, or at its ends.
Missing for the full property: three points on one line of the border, for which it can be false (`C83_violated`; see `C83_aligned_hull`). -/
theorem C83_hull_partial (fuel : ℕ) (p0 : Vec3 K) (ps : List (Vec3 K)) (gp : GeneralBorder (p0 :: ps)) (hf : (p0 :: ps).length ≤ fuel) :
    ∃ out, convexHull fuel p0 ps = some out ∧ Closed out ∧ 3 ≤ out.length ∧ (∀ v ∈ out, v ∈ p0 :: ps) ∧
      ∀ a b, Edge out a b → a ≠ b ∧ ∀ q ∈ p0 :: ps, q ≠ a → q ≠ b → StrictlyRight a b q := by
  obtain ⟨d, h1, h2, h3⟩ := iter_returns p0 ps gp
  have hs := hullLoop_some p0 ps fuel [] (leftMost p0 ps) (leftMost p0 ps) (by simp) (d - 1) (by omega)
    (by rw [show d - 1 + 1 = d by omega]; exact h3)
  obtain ⟨out, hout⟩ := Option.isSome_iff_exists.1 hs
  refine ⟨out, hout, ?_⟩
  obtain ⟨a1, a2, a3, a4, a5⟩ := hullLoop_spec p0 ps (GoodEdge (p0 :: ps)) (fun v => v ∈ p0 :: ps ∧ Supported (p0 :: ps) v)
    (fun p hp => by
      obtain ⟨g1, g2⟩ := wrap_good p0 ps gp p hp.1 hp.2
      exact ⟨g1, g1.he, g2⟩) fuel [] _ out hout (fun c d h => absurd h (edge_singleton _ _ _)) (by
      intro v hv
      simp at hv; subst hv
      exact ⟨(leftMostFrom_spec p0 ps).1, leftMost_supported p0 ps gp⟩)
  have hlen : 3 ≤ out.length := by
    by_contra hlt
    have hl2 : out.length = 2 := by simp at a5; omega
    match out, hl2 with
    | [u, v], _ =>
      have huv : u = v := by simpa [Closed] using a3
      exact (a1 u v ⟨0, by simp, by simp⟩).ne huv.symm
  refine ⟨a3, hlen, fun v hv => (a2 v hv).1, fun a b hab => ⟨(a1 a b hab).ne.symm, fun q hq h h' => ?_⟩⟩
  rw [right_iff]
  exact (a1 a b hab).right q hq h h'

/-! ## `Contains` against the convex hull of the corners -/

theorem mem_footprint (feet : List (Foot ℝ)) (q : ℝ × ℝ) :
    q ∈ footprint feet ↔ ∃ v ∈ allCorners feet, v.x = q.1 ∧ v.y = q.2 := by
  simp only [footprint, Set.mem_ofPred_eq, allCorners, List.mem_flatMap, corners, List.mem_cons, List.not_mem_nil, or_false]
  constructor
  · rintro ⟨f, hf, h1, h2⟩
    rcases h1 with h1 | h1 <;> rcases h2 with h2 | h2
    · exact ⟨_, ⟨f, hf, Or.inl rfl⟩, by simp [h1], by simp [h2]⟩
    · exact ⟨_, ⟨f, hf, Or.inr (Or.inr (Or.inr rfl))⟩, by simp [h1], by simp [h2]; ring⟩
    · exact ⟨_, ⟨f, hf, Or.inr (Or.inl rfl)⟩, by simp [h1]; ring, by simp [h2]⟩
    · exact ⟨_, ⟨f, hf, Or.inr (Or.inr (Or.inl rfl))⟩, by simp [h1]; ring, by simp [h2]; ring⟩
  · rintro ⟨v, ⟨f, hf, hv⟩, h1, h2⟩
    refine ⟨f, hf, ?_⟩
    rw [← h1, ← h2]
    rcases hv with rfl | rfl | rfl | rfl <;> simp [sub_eq_add_neg]

/-- a point outside the convex hull of finitely many points is separated from them by a line -/
theorem separated_of_not_mem (pts : List (Vec3 ℝ)) (P : Vec3 ℝ) (S : Set (ℝ × ℝ)) (hS : ∀ q, q ∈ S ↔ ∃ v ∈ pts, v.x = q.1 ∧ v.y = q.2)
    (h : (P.x, P.y) ∉ _root_.convexHull ℝ S) : Separated pts P := by
  have hfin : S.Finite := by
    have : S ⊆ (fun v : Vec3 ℝ => (v.x, v.y)) '' {v | v ∈ pts} := by
      intro q hq
      obtain ⟨v, hv, h1, h2⟩ := (hS q).1 hq
      exact ⟨v, hv, by ext <;> simp [h1, h2]⟩
    exact (Set.Finite.image _ (List.finite_toSet pts)).subset this
  obtain ⟨f, u, h1, h2⟩ := geometric_hahn_banach_point_closed (convex_convexHull ℝ S) (hfin.isClosed_convexHull ℝ) h
  refine ⟨f (1, 0), f (0, 1), fun v hv => ?_⟩
  have e : ∀ x y : ℝ, f (x, y) = x * f (1, 0) + y * f (0, 1) := by
    intro x y
    have : ((x, y) : ℝ × ℝ) = x • (1, 0) + y • (0, 1) := by ext <;> simp
    rw [this, map_add, map_smul, map_smul]; simp
  have h3 := h2 (v.x, v.y) (subset_convexHull ℝ S ((hS _).2 ⟨v, hv, rfl, rfl⟩))
  rw [e] at h1 h3
  linarith

/-- a point of the interior of the convex hull is strictly right of every line that has all points on its right -/
theorem right_of_interior (pts : List (Vec3 ℝ)) (P a b : Vec3 ℝ) (S : Set (ℝ × ℝ)) (hS : ∀ q, q ∈ S ↔ ∃ v ∈ pts, v.x = q.1 ∧ v.y = q.2)
    (h : (P.x, P.y) ∈ interior (_root_.convexHull ℝ S)) (hab : a.x ≠ b.x ∨ a.y ≠ b.y) (hr : ∀ q ∈ pts, isLeft a b q ≤ 0) :
    isLeft a b P < 0 := by
  let H : Set (ℝ × ℝ) := {q | (b.x - a.x) * q.2 - (b.y - a.y) * q.1 ≤ (b.x - a.x) * a.y - (b.y - a.y) * a.x}
  have mem_H : ∀ q : ℝ × ℝ, q ∈ H ↔ (b.x - a.x) * q.2 - (b.y - a.y) * q.1 ≤ (b.x - a.x) * a.y - (b.y - a.y) * a.x := by
    intro q; simp only [H, Set.mem_ofPred_eq]
  have hH : Convex ℝ H := by
    have : H = {q | (((b.x - a.x) • LinearMap.snd ℝ ℝ ℝ) - (b.y - a.y) • LinearMap.fst ℝ ℝ ℝ) q ≤ (b.x - a.x) * a.y - (b.y - a.y) * a.x} := by
      ext q; simp [H]
    rw [this]
    exact convex_halfSpace_le (LinearMap.isLinear _) _
  have hsub : _root_.convexHull ℝ S ⊆ H := by
    apply convexHull_min _ hH
    intro q hq
    obtain ⟨v, hv, h1, h2⟩ := (hS q).1 hq
    have := hr v hv
    unfold isLeft at this
    rw [mem_H, ← h1, ← h2]
    linarith
  have hle : isLeft a b P ≤ 0 := by
    have := hsub (interior_subset h)
    rw [mem_H] at this
    unfold isLeft
    simp only at this
    linarith
  refine lt_of_le_of_ne hle fun h0 => ?_
  obtain ⟨ε, hε, hball⟩ := Metric.mem_nhds_iff.1 (mem_interior_iff_mem_nhds.1 h)
  -- a small move to the left of the line stays inside
  have hpos : 0 < (b.x - a.x) * (b.x - a.x) + (b.y - a.y) * (b.y - a.y) := by
    have e1 := mul_self_nonneg (b.x - a.x)
    have e2 := mul_self_nonneg (b.y - a.y)
    rcases hab with h | h
    · have := mul_self_pos.2 (sub_ne_zero.2 h.symm); linarith
    · have := mul_self_pos.2 (sub_ne_zero.2 h.symm); linarith
  set M := |b.x - a.x| + |b.y - a.y| + 1 with hM
  have hMp : 0 < M := by positivity
  set δ := ε / (2 * M) with hδ
  have hδp : 0 < δ := by positivity
  have hδM : δ * M < ε := by
    rw [hδ, div_mul_eq_mul_div, div_lt_iff₀ (by positivity)]
    nlinarith
  have hin : (P.x - δ * (b.y - a.y), P.y + δ * (b.x - a.x)) ∈ Metric.ball (P.x, P.y) ε := by
    rw [Metric.mem_ball, Prod.dist_eq, Real.dist_eq, Real.dist_eq, max_lt_iff]
    constructor
    · have : |P.x - δ * (b.y - a.y) - P.x| = δ * |b.y - a.y| := by
        rw [show P.x - δ * (b.y - a.y) - P.x = -(δ * (b.y - a.y)) by ring, abs_neg, abs_mul, abs_of_pos hδp]
      simp only [this]
      have : δ * |b.y - a.y| ≤ δ * M := mul_le_mul_of_nonneg_left (by rw [hM]; have := abs_nonneg (b.x - a.x); linarith) hδp.le
      linarith
    · have : |P.y + δ * (b.x - a.x) - P.y| = δ * |b.x - a.x| := by
        rw [show P.y + δ * (b.x - a.x) - P.y = δ * (b.x - a.x) by ring, abs_mul, abs_of_pos hδp]
      simp only [this]
      have : δ * |b.x - a.x| ≤ δ * M := mul_le_mul_of_nonneg_left (by rw [hM]; have := abs_nonneg (b.y - a.y); linarith) hδp.le
      linarith
  have := hsub (hball hin)
  rw [mem_H] at this
  simp only at this
  unfold isLeft at h0
  have h4 := mul_pos hδp hpos
  linarith

/-- **C83** (support polygon).  For contacts no three corners of which are on one line of the border, `Contains` is true for every point of the interior of the convex hull of
the corners of all contacts and false for every point outside it.
Missing for the full property: supports with three aligned corners on the border (see `C83_feet`). -/
theorem C83_contains_partial (feet : List (Foot ℝ)) (gp : GeneralBorder (allCorners feet)) (P : Vec3 ℝ) (fuel : ℕ)
    (hf : 4 * feet.length ≤ fuel) :
    ((P.x, P.y) ∈ interior (_root_.convexHull ℝ (footprint feet)) → contains fuel feet P = some true) ∧
      ((P.x, P.y) ∉ _root_.convexHull ℝ (footprint feet) → contains fuel feet P = some false) := by
  have hlen : (allCorners feet).length = 4 * feet.length := by
    unfold allCorners
    rw [List.length_flatMap]
    simp [corners, mul_comm]
  have hS := mem_footprint feet
  unfold contains
  cases hc : allCorners feet with
  | nil =>
    obtain ⟨a, ha, -⟩ := gp.three
    rw [hc] at ha; simp at ha
  | cons p0 ps =>
    rw [hc] at gp hlen hS
    obtain ⟨out, h1, h2, h3, h4, h5⟩ := C83_hull_partial fuel p0 ps gp (by omega)
    simp only [h1, Option.map_some, Option.some.injEq]
    constructor
    · intro hin
      apply C46_inside_cw out P h2 h3
      intro a b hab
      rw [right_iff]
      apply right_of_interior (p0 :: ps) P a b _ hS hin
      · by_contra hcon
        rw [not_or, not_not, not_not] at hcon
        exact gp.ne_xy (h4 a (edge_mem hab).1) (h4 b (edge_mem hab).2) (h5 a b hab).1 hcon.1 hcon.2
      · intro q hq
        by_cases hqa : q = a
        · subst hqa; unfold isLeft; linarith
        by_cases hqb : q = b
        · subst hqb; unfold isLeft; linarith
        · exact ((right_iff _ _ _).1 ((h5 a b hab).2 q hq hqa hqb)).le
    · intro hout
      apply C46_separated out P h2 h3
      obtain ⟨α, β, h⟩ := separated_of_not_mem (p0 :: ps) P _ hS hout
      exact ⟨α, β, fun v hv => h v (h4 v hv)⟩

/-! ## Aligned points -/

/-- three aligned points -/
def alignedHead : Vec3 ℚ := ⟨1, 0, 0⟩
def alignedTail : List (Vec3 ℚ) := [⟨2, 0, 0⟩, ⟨0, 0, 0⟩]

theorem hullLoop_stuck (p0 : Vec3 K) (ps : List (Vec3 K)) (a b : Vec3 K) (hab : wrap p0 ps a = b) (hba : wrap p0 ps b = a)
    (first : Vec3 K) (h1 : a ≠ first) (h2 : b ≠ first) (fuel : ℕ) (res : List (Vec3 K)) (hr : res.head? = some first) :
    hullLoop p0 ps fuel res a = none ∧ hullLoop p0 ps fuel res b = none := by
  induction fuel generalizing res with
  | zero => simp [hullLoop]
  | succ fuel ih =>
    have hr' : ∀ v, (res ++ [v]).head? = some first := by
      intro v; cases res with
      | nil => simp at hr
      | cons c l => simpa using hr
    constructor
    · rw [hullLoop]
      simp only [hab, hr']
      rw [if_pos (by simpa using fun h => h2 h.symm)]
      exact (ih _ (hr' a)).2
    · rw [hullLoop]
      simp only [hba, hr']
      rw [if_pos (by simpa using fun h => h1 h.symm)]
      exact (ih _ (hr' b)).1

/-- **C83 is violated by aligned points**: with three aligned points the loop never ends; with three aligned points on a side, one of them may be left out of the
polygon, so that points of the true hull are reported outside. -/
theorem C83_violated :
    (∀ fuel, convexHull fuel alignedHead alignedTail = none) ∧
      (convexHull 4 (⟨0, 0, 0⟩ : Vec3 ℚ) [⟨0, 1, 0⟩, ⟨0, 2, 0⟩, ⟨2, 0, 0⟩] = some [⟨0, 0, 0⟩, ⟨0, 1, 0⟩, ⟨2, 0, 0⟩, ⟨0, 0, 0⟩]) ∧
      inPolygon [(⟨0, 0, 0⟩ : Vec3 ℚ), ⟨0, 1, 0⟩, ⟨2, 0, 0⟩, ⟨0, 0, 0⟩] ⟨1/4, 5/4, 0⟩ = false := by
  refine ⟨fun fuel => ?_, by decide +kernel, by decide +kernel⟩
  cases fuel with
  | zero => rfl
  | succ fuel =>
    have e : leftMost alignedHead alignedTail = ⟨0, 0, 0⟩ := by decide +kernel
    unfold convexHull
    rw [e, hullLoop]
    have e2 : wrap alignedHead alignedTail ⟨0, 0, 0⟩ = ⟨1, 0, 0⟩ := by decide +kernel
    simp only [e2]
    rw [if_pos (by decide +kernel)]
    exact (hullLoop_stuck alignedHead alignedTail ⟨1, 0, 0⟩ ⟨2, 0, 0⟩ (by decide +kernel) (by decide +kernel) ⟨0, 0, 0⟩
      (by decide +kernel) (by decide +kernel) fuel _ (by simp)).1

/-- two feet in general position -/
def demoFeet : List (Foot ℝ) := [⟨⟨0, 0, 0⟩, 2, 1⟩, ⟨⟨1, 5, 0⟩, 2, 1⟩]

example : GeneralPosition (allCorners demoFeet) := by
  have h : allCorners demoFeet = [⟨2, 1, 0⟩, ⟨-2, 1, 0⟩, ⟨-2, -1, 0⟩, ⟨2, -1, 0⟩, ⟨3, 6, 0⟩, ⟨-1, 6, 0⟩, ⟨-1, 4, 0⟩, ⟨3, 4, 0⟩] := by
    simp only [allCorners, demoFeet, corners, List.flatMap_cons, List.flatMap_nil, List.cons_append, List.nil_append, List.append_nil,
      List.cons.injEq, and_true, Vec3.ext_iff, Vec3.add_x, Vec3.add_y, Vec3.add_z]
    norm_num
  rw [h]
  refine ⟨⟨⟨2, 1, 0⟩, by simp, ⟨-2, 1, 0⟩, by simp, ⟨-2, -1, 0⟩, by simp, ?_, ?_, ?_⟩, ?_⟩
  · simp [Vec3.ext_iff]; norm_num
  · simp [Vec3.ext_iff]; norm_num
  · simp [Vec3.ext_iff]; norm_num
  · intro a ha b hb c hc
    simp only [List.mem_cons, List.not_mem_nil, or_false] at ha hb hc
    unfold OnLine
    rcases ha with rfl | rfl | rfl | rfl | rfl | rfl | rfl | rfl <;>
    rcases hb with rfl | rfl | rfl | rfl | rfl | rfl | rfl | rfl <;>
    first
    | (intro h; exact absurd rfl h)
    | (rcases hc with rfl | rfl | rfl | rfl | rfl | rfl | rfl | rfl <;>
       first
       | (intro _ h; exact absurd rfl h)
       | (intro _ _ h; exact absurd rfl h)
       | (intro _ _ _; norm_num))

/-- a square and its centre: three points on each diagonal, none of them on the border -/
example : GeneralBorder [(⟨0, 0, 0⟩ : Vec3 ℚ), ⟨2, 0, 0⟩, ⟨1, 1, 0⟩, ⟨2, 2, 0⟩, ⟨0, 2, 0⟩] := by
  constructor
  · decide +kernel
  · unfold OnLine StrictlyLeft StrictlyRight
    decide +kernel

end Support
end Rbprm
