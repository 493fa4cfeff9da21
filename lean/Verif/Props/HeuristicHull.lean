import Verif.Model.HeuristicTools
import Mathlib.Analysis.LocallyConvex.Separation
import Mathlib.Analysis.Convex.Topology
import Mathlib.Tactic.Linarith
import Mathlib.Tactic.FieldSimp
import Mathlib.Tactic.Positivity
import Mathlib.Tactic.SplitIfs
import Mathlib.Tactic.NormNum
set_option linter.unusedSectionVars false
/-!
# The planar convex hull of the heuristics (C108)
-/
namespace Rbprm
namespace Heur

/-! ### specification -/

/-- no two coordinates of the points are nearer to each other than the tolerance of the comparison without being equal: different points are told apart, and so are the points at distance one on the same height -/
structure Tidy (eps : ℝ) (set : List V2) : Prop where
  eps_pos : 0 < eps
  eps_lt : eps < 1
  equal : ∀ p ∈ set, ∀ q ∈ set, Near eps p q → p = q
  unit : ∀ p ∈ set, ∀ q ∈ set, ∀ d : ℝ, (d = 1 ∨ d = -1) → Near eps (p.1 + d, p.2) q → q.2 = p.2

/-! ### sorting -/

theorem splitMin_none {l : List V2} (h : splitMin l = none) : l = [] := by
  cases l with
  | nil => rfl
  | cons a l =>
    simp only [splitMin] at h
    cases h' : splitMin l with
    | none => rw [h'] at h; cases h
    | some mr => rw [h'] at h; dsimp only at h; split_ifs at h

theorem splitMin_some {l : List V2} {m : V2} {rest : List V2} (h : splitMin l = some (m, rest)) : List.Perm l (m :: rest) ∧ ∀ p ∈ l, m.1 ≤ p.1 := by
  induction l generalizing m rest with
  | nil => simp [splitMin] at h
  | cons a l ih =>
    simp only [splitMin] at h
    cases h' : splitMin l with
    | none =>
      rw [h'] at h
      have := splitMin_none h'
      subst this
      simp only [Option.some.injEq, Prod.mk.injEq] at h
      obtain ⟨rfl, rfl⟩ := h
      exact ⟨List.Perm.refl _, by simp⟩
    | some mr =>
      obtain ⟨m', rest'⟩ := mr
      rw [h'] at h
      dsimp only at h
      obtain ⟨h1, h2⟩ := ih h'
      split_ifs at h with hc
      · simp only [Option.some.injEq, Prod.mk.injEq] at h
        obtain ⟨rfl, rfl⟩ := h
        refine ⟨(h1.cons a).trans (List.Perm.swap _ _ _), fun p hp => ?_⟩
        rcases List.mem_cons.1 hp with rfl | hp
        · exact hc.le
        · exact h2 p hp
      · simp only [Option.some.injEq, Prod.mk.injEq] at h
        obtain ⟨rfl, rfl⟩ := h
        refine ⟨List.Perm.refl _, fun p hp => ?_⟩
        rcases List.mem_cons.1 hp with rfl | hp
        · exact le_rfl
        · exact (not_lt.1 hc).trans (h2 p hp)

theorem sortByX_spec (n : ℕ) (l : List V2) (hn : l.length = n) : List.Perm (sortByX n l) l ∧ (sortByX n l).Pairwise fun p q => p.1 ≤ q.1 := by
  induction n generalizing l with
  | zero => have := List.length_eq_zero_iff.1 hn; subst this; simp [sortByX]
  | succ n ih =>
    simp only [sortByX]
    cases h : splitMin l with
    | none => have := splitMin_none h; subst this; simp at hn
    | some mr =>
      obtain ⟨m, rest⟩ := mr
      obtain ⟨h1, h2⟩ := splitMin_some h
      have hl : rest.length = n := by have := h1.length_eq; simp only [List.length_cons] at this; omega
      obtain ⟨i1, i2⟩ := ih rest hl
      dsimp only
      refine ⟨(i1.cons m).trans h1.symm, List.pairwise_cons.2 ⟨fun p hp => ?_, i2⟩⟩
      exact h2 p (h1.mem_iff.2 (by simp [i1.mem_iff.1 hp]))

/-! ### angles -/

theorem angle_spec {eps : ℝ} (he : eps < 1) {d : ℝ} (hd : d = 1 ∨ d = -1) {p c : V2} (hu : Near eps (p.1 + d, p.2) c → c.2 = p.2) :
    (computeAngle eps p (p.1 + d, p.2) c = none → c = p) ∧
    (∀ θ, computeAngle eps p (p.1 + d, p.2) c = some θ →
      0 ≤ θ ∧ θ ≤ Real.pi ∧ 0 < Real.sqrt ((c.1 - p.1) ^ 2 + (c.2 - p.2) ^ 2) ∧ Real.cos θ = d * (c.1 - p.1) / Real.sqrt ((c.1 - p.1) ^ 2 + (c.2 - p.2) ^ 2)) := by
  have hdd : d * d = 1 := by rcases hd with rfl | rfl <;> norm_num
  unfold computeAngle
  by_cases hn : Near eps (p.1 + d, p.2) c
  · rw [if_pos hn]
    refine ⟨by simp, fun θ h => ?_⟩
    simp only [Option.some.injEq] at h
    subst h
    have hy := hu hn
    have hx := abs_lt.1 hn.1
    dsimp only at hx
    have hpos : 0 < d * (c.1 - p.1) := by
      rcases hd with rfl | rfl
      · linarith
      · linarith
    have hs : Real.sqrt ((c.1 - p.1) ^ 2 + (c.2 - p.2) ^ 2) = d * (c.1 - p.1) := by
      rw [hy, show (c.1 - p.1) ^ 2 + (p.2 - p.2) ^ 2 = (d * (c.1 - p.1)) ^ 2 by
        rw [mul_pow, pow_two d, hdd]; ring]
      exact Real.sqrt_sq hpos.le
    rw [hs]
    refine ⟨le_rfl, Real.pi_pos.le, hpos, ?_⟩
    rw [Real.cos_zero, div_self hpos.ne']
  · rw [if_neg hn]
    have h1 : Real.sqrt ((p.1 + d - p.1) ^ 2 + (p.2 - p.2) ^ 2) = 1 := by
      rw [show (p.1 + d - p.1) ^ 2 + (p.2 - p.2) ^ 2 = 1 by ring_nf; rw [pow_two, hdd]]
      exact Real.sqrt_one
    have hsp : (p.1 + d - p.1) * (c.1 - p.1) + (p.2 - p.2) * (c.2 - p.2) = d * (c.1 - p.1) := by ring
    dsimp only
    rw [h1, hsp, one_mul]
    set n := Real.sqrt ((c.1 - p.1) ^ 2 + (c.2 - p.2) ^ 2) with hnn
    have hn0 : 0 ≤ n := Real.sqrt_nonneg _
    have hsq : n * n = (c.1 - p.1) ^ 2 + (c.2 - p.2) ^ 2 := Real.mul_self_sqrt (by positivity)
    by_cases hz : n = 0
    · rw [if_pos hz]
      refine ⟨fun _ => ?_, by simp⟩
      rw [hz] at hsq
      have h3 : c.1 - p.1 = 0 := by nlinarith [sq_nonneg (c.1 - p.1), sq_nonneg (c.2 - p.2)]
      have h4 : c.2 - p.2 = 0 := by nlinarith [sq_nonneg (c.1 - p.1), sq_nonneg (c.2 - p.2)]
      exact Prod.ext (by linarith) (by linarith)
    · rw [if_neg hz]
      refine ⟨by simp, fun θ h => ?_⟩
      simp only [Option.some.injEq] at h
      subst h
      have hpos : 0 < n := lt_of_le_of_ne hn0 (Ne.symm hz)
      refine ⟨Real.arccos_nonneg _, Real.arccos_le_pi _, hpos, ?_⟩
      have hX : (d * (c.1 - p.1)) ^ 2 ≤ n ^ 2 := by
        rw [mul_pow, pow_two d, hdd, pow_two n, hsq]; nlinarith [sq_nonneg (c.2 - p.2)]
      have habs := abs_le_of_sq_le_sq' hX hn0
      apply Real.cos_arccos
      · rw [le_div_iff₀ hpos]; linarith [habs.1]
      · rw [div_le_one hpos]; exact habs.2

/-- comparing two angles in the same quadrant is comparing two slopes -/
theorem slope_of_angle {x1 y1 x2 y2 n1 n2 θ1 θ2 : ℝ} (hx1 : 0 ≤ x1) (hx2 : 0 ≤ x2) (hy2 : 0 ≤ y2)
    (hn1 : 0 < n1) (hn2 : 0 < n2) (hs1 : n1 * n1 = x1 ^ 2 + y1 ^ 2) (hs2 : n2 * n2 = x2 ^ 2 + y2 ^ 2)
    (h1 : 0 ≤ θ1) (h2 : θ2 ≤ Real.pi) (hc1 : Real.cos θ1 = x1 / n1) (hc2 : Real.cos θ2 = x2 / n2) (hlt : θ1 < θ2) : x2 * y1 < x1 * y2 := by
  have hcos := Real.cos_lt_cos_of_nonneg_of_le_pi h1 h2 hlt
  rw [hc1, hc2, div_lt_div_iff₀ hn2 hn1] at hcos
  have hsq : (x2 * n1) ^ 2 < (x1 * n2) ^ 2 := by
    apply pow_lt_pow_left₀ hcos (by positivity) (by norm_num)
  have : (x2 * y1) ^ 2 < (x1 * y2) ^ 2 := by
    have e1 : (x2 * n1) ^ 2 = x2 ^ 2 * (x1 ^ 2 + y1 ^ 2) := by rw [← hs1]; ring
    have e2 : (x1 * n2) ^ 2 = x1 ^ 2 * (x2 ^ 2 + y2 ^ 2) := by rw [← hs2]; ring
    rw [e1, e2] at hsq
    nlinarith
  exact lt_of_pow_lt_pow_left₀ 2 (by positivity) this

/-- a point under the segment between two others is not extreme in the directions of the quadrant -/
theorem not_extreme {a b x1 y1 x2 y2 : ℝ} (hb : 0 ≤ b) (hx1 : 0 ≤ x1) (hx : x1 ≤ x2) (hy : y1 ≤ y2) (hc : x2 * y1 ≤ x1 * y2) :
    -a * x1 + b * y1 ≤ 0 ∨ -a * x1 + b * y1 ≤ -a * x2 + b * y2 := by
  rcases eq_or_lt_of_le (hx1.trans hx) with h | h
  · right
    have : x1 = 0 := le_antisymm (h ▸ hx) hx1
    rw [this, ← h]
    nlinarith
  · by_cases hs : -a * x2 + b * y2 ≤ 0
    · left
      have : x2 * (-a * x1 + b * y1) ≤ x1 * (-a * x2 + b * y2) := by nlinarith
      have h0 : x1 * (-a * x2 + b * y2) ≤ 0 := mul_nonpos_of_nonneg_of_nonpos hx1 hs
      by_contra hcon
      push Not at hcon
      nlinarith
    · right
      push Not at hs
      have h1 : x2 * (-a * x1 + b * y1) ≤ x1 * (-a * x2 + b * y2) := by nlinarith
      have h2 : x1 * (-a * x2 + b * y2) ≤ x2 * (-a * x2 + b * y2) := by nlinarith
      have := h1.trans h2
      exact le_of_mul_le_mul_left this h

/-! ### one scan -/

/-- signs of a scan -/
structure Signs (hi dir : ℝ) : Prop where
  hi : hi = 1 ∨ hi = -1
  dir : dir = 1 ∨ dir = -1

/-- a direction of the quadrant of the scan -/
def fn (hi dir a b : ℝ) (p : V2) : ℝ := -a * (dir * p.1) + b * (hi * p.2)

/-- consecutive points of a chain go in the directions of the scan (the head is the last point) -/
def Step (hi dir : ℝ) (q r : V2) : Prop := dir * r.1 ≤ dir * q.1 ∧ hi * r.2 ≤ hi * q.2

theorem chain_step {hi dir : ℝ} {q : V2} {l : List V2} (h : List.IsChain (Step hi dir) (q :: l)) : ∀ r ∈ q :: l, Step hi dir q r := by
  induction l generalizing q with
  | nil => intro r hr; simp only [List.mem_singleton] at hr; subst hr; exact ⟨le_rfl, le_rfl⟩
  | cons r l ih =>
    intro s hs
    rw [List.isChain_cons_cons] at h
    rcases List.mem_cons.1 hs with rfl | hs
    · exact ⟨le_rfl, le_rfl⟩
    · have := ih h.2 s hs
      exact ⟨this.1.trans h.1.1, this.2.trans h.1.2⟩

/-- the first pop: the back `q`, its predecessor `r` and the current point `c` -/
theorem first_pop_ok {eps hi dir : ℝ} (hs : Signs hi dir) (he : eps < 1) {r q c : V2} (hrq : Step hi dir q r) (hqc : Step hi dir c q)
    (hu1 : Near eps (r.1 + dir, r.2) q → q.2 = r.2) (hu2 : Near eps (q.1 + dir, q.2) c → c.2 = q.2)
    (hlt : ¬ LeN (computeAngle eps q (q.1 + dir, q.2) c) (computeAngle eps r (r.1 + dir, r.2) q)) {a b : ℝ} (hb : 0 ≤ b) :
    fn hi dir a b q ≤ fn hi dir a b r ∨ fn hi dir a b q ≤ fn hi dir a b c := by
  cases h2 : computeAngle eps q (q.1 + dir, q.2) c with
  | none => right; rw [(angle_spec he hs.dir hu2).1 h2]
  | some θ2 =>
    cases h1 : computeAngle eps r (r.1 + dir, r.2) q with
    | none => left; rw [(angle_spec he hs.dir hu1).1 h1]
    | some θ1 =>
      have hlt : θ1 < θ2 := by
        by_contra hc
        exact hlt ⟨θ2, θ1, h2, h1, not_lt.1 hc⟩
      obtain ⟨t1, t2, n1, c1⟩ := (angle_spec he hs.dir hu1).2 θ1 h1
      obtain ⟨s1, s2, n2, c2⟩ := (angle_spec he hs.dir hu2).2 θ2 h2
      have hhi : hi ^ 2 = 1 := by rcases hs.hi with h | h <;> rw [h] <;> norm_num
      have hdir : dir ^ 2 = 1 := by rcases hs.dir with h | h <;> rw [h] <;> norm_num
      have hx1 : 0 ≤ dir * (q.1 - r.1) := by have := hrq.1; linarith [mul_sub dir q.1 r.1]
      have hy1 : 0 ≤ hi * (q.2 - r.2) := by have := hrq.2; linarith [mul_sub hi q.2 r.2]
      have hx2 : 0 ≤ dir * (c.1 - q.1) := by have := hqc.1; linarith [mul_sub dir c.1 q.1]
      have hy2 : 0 ≤ hi * (c.2 - q.2) := by have := hqc.2; linarith [mul_sub hi c.2 q.2]
      have sq : ∀ x y : ℝ, x ^ 2 + y ^ 2 = (dir * x) ^ 2 + (hi * y) ^ 2 := by intro x y; rw [mul_pow, mul_pow, hhi, hdir]; ring
      have key := slope_of_angle (x1 := dir * (q.1 - r.1)) (y1 := hi * (q.2 - r.2)) (x2 := dir * (c.1 - q.1)) (y2 := hi * (c.2 - q.2))
        hx1 hx2 hy2 n1 n2
        (by rw [Real.mul_self_sqrt (by positivity), sq]) (by rw [Real.mul_self_sqrt (by positivity), sq]) t1 s2 c1 c2 hlt
      have hcx : dir * (c.1 - r.1) = dir * (q.1 - r.1) + dir * (c.1 - q.1) := by ring
      have hcy : hi * (c.2 - r.2) = hi * (q.2 - r.2) + hi * (c.2 - q.2) := by ring
      rcases not_extreme (x1 := dir * (q.1 - r.1)) (y1 := hi * (q.2 - r.2)) (x2 := dir * (c.1 - r.1)) (y2 := hi * (c.2 - r.2)) (a := a) hb hx1 (by linarith) (by linarith)
        (by rw [hcx, hcy]; nlinarith) with h | h
      · left; unfold fn; nlinarith
      · right; unfold fn; nlinarith

/-- every point is dominated by a point of the chain in every direction of the quadrant -/
def Dom (hi dir : ℝ) (pts chain : List V2) : Prop := ∀ a b, 0 ≤ a → 0 ≤ b → ∀ p ∈ pts, ∃ q ∈ chain, fn hi dir a b p ≤ fn hi dir a b q

theorem Dom.trans {hi dir : ℝ} {l m n : List V2} (h1 : Dom hi dir l m) (h2 : Dom hi dir m n) : Dom hi dir l n := by
  intro a b ha hb p hp
  obtain ⟨q, hq, h⟩ := h1 a b ha hb p hp
  obtain ⟨r, hr, h'⟩ := h2 a b ha hb q hq
  exact ⟨r, hr, h.trans h'⟩

theorem Dom.of_subset {hi dir : ℝ} {l m : List V2} (h : ∀ p ∈ l, p ∈ m) : Dom hi dir l m := fun _ _ _ _ p hp => ⟨p, h p hp, le_rfl⟩

/-- the points are told apart in the sense of the scan -/
def UnitOk (eps dir : ℝ) (l : List V2) : Prop := ∀ p ∈ l, ∀ q ∈ l, Near eps (p.1 + dir, p.2) q → q.2 = p.2

theorem scanLoop_spec {eps hi dir : ℝ} (hs : Signs hi dir) (he : eps < 1) (cur : V2) (s : List V2) (opening : Option ℝ) (hne : s ≠ [])
    (hu : UnitOk eps dir (cur :: s)) (hch : List.IsChain (Step hi dir) (cur :: s))
    (hop : ∀ t, s.head? = some t → opening = computeAngle eps t (t.1 + dir, t.2) cur) :
    let r := scanLoop eps dir cur s opening
    (∃ t rest, r.1 = t :: rest ∧ r.2 = computeAngle eps t (t.1 + dir, t.2) cur) ∧ (∀ p ∈ r.1, p ∈ s) ∧ r.1.getLast? = s.getLast? ∧
      List.IsChain (Step hi dir) (cur :: r.1) ∧ Dom hi dir (cur :: s) (cur :: r.1) := by
  fun_induction scanLoop eps dir cur s opening with
  | case1 => exact absurd rfl hne
  | case2 b opening =>
    refine ⟨⟨b, [], rfl, hop b rfl⟩, by simp, rfl, hch, Dom.of_subset (by simp)⟩
  | case3 b base rest opening angle hlt ih =>
    have hch' := hch
    rw [List.isChain_cons_cons, List.isChain_cons_cons] at hch
    obtain ⟨hc1, hc2, hc3⟩ := hch
    have hstep : Step hi dir cur base := ⟨hc2.1.trans hc1.1, hc2.2.trans hc1.2⟩
    have hopening := hop b rfl
    have ih := ih (by simp) (fun p hp q hq => hu p (by rcases List.mem_cons.1 hp with h | h <;> simp_all) q (by rcases List.mem_cons.1 hq with h | h <;> simp_all))
      (List.isChain_cons_cons.2 ⟨hstep, hc3⟩) (by intro t ht; simp only [List.head?_cons, Option.some.injEq] at ht; rw [ht])
    obtain ⟨i1, i2, i3, i4, i5⟩ := ih
    refine ⟨i1, fun p hp => List.mem_cons_of_mem _ (i2 p hp), by rw [i3]; simp, i4, ?_⟩
    refine Dom.trans ?_ i5
    intro a b' ha hb p hp
    rcases List.mem_cons.1 hp with rfl | hp
    · exact ⟨p, by simp, le_rfl⟩
    rcases List.mem_cons.1 hp with rfl | hp
    · -- the popped point
      have hlt' : ¬ LeN opening angle := by
        obtain ⟨x, y, h1, h2, h3⟩ := hlt
        rintro ⟨x', y', g1, g2, g3⟩
        rw [h2] at g1; rw [h1] at g2
        cases g1; cases g2
        linarith
      rw [hopening] at hlt'
      rcases first_pop_ok hs he hc2 hc1 (hu base (by simp) p (by simp)) (hu p (by simp) cur (by simp)) hlt' (a := a) hb with h | h
      · exact ⟨base, by simp, h⟩
      · exact ⟨cur, by simp, h⟩
    · exact ⟨p, List.mem_cons_of_mem _ hp, le_rfl⟩
  | case4 b base rest opening angle hlt =>
    exact ⟨⟨b, base :: rest, rfl, hop b rfl⟩, by simp, rfl, hch, Dom.of_subset (by simp)⟩

/-- what holds after some points were scanned -/
structure Inv (eps hi dir : ℝ) (base : V2) (pts : List V2) (st : List V2 × Option ℝ) : Prop where
  sub : ∀ p ∈ st.1, p ∈ pts
  last : st.1.getLast? = some base
  chain : List.IsChain (Step hi dir) st.1
  angle : ∀ q r rest, st.1 = q :: r :: rest → st.2 = computeAngle eps r (r.1 + dir, r.2) q
  dom : Dom hi dir pts st.1

theorem dom_append {hi dir : ℝ} {pts chain : List V2} {c : V2} (h : Dom hi dir pts chain) (hc : ∀ a b, 0 ≤ a → 0 ≤ b → ∃ q ∈ chain, fn hi dir a b c ≤ fn hi dir a b q) :
    Dom hi dir (pts ++ [c]) chain := by
  intro a b ha hb p hp
  rcases List.mem_append.1 hp with hp | hp
  · exact h a b ha hb p hp
  · simp only [List.mem_singleton] at hp; subst hp; exact hc a b ha hb

theorem fn_le {hi dir a b : ℝ} (ha : 0 ≤ a) (hb : 0 ≤ b) {p q : V2} (h1 : dir * q.1 ≤ dir * p.1) (h2 : hi * p.2 ≤ hi * q.2) : fn hi dir a b p ≤ fn hi dir a b q := by
  unfold fn; nlinarith

theorem scan_inv {eps hi dir : ℝ} (hs : Signs hi dir) (he : eps < 1) {base : V2} {pts : List V2} {st : List V2 × Option ℝ} {cur : V2}
    (h : Inv eps hi dir base pts st) (hu : UnitOk eps dir (pts ++ [cur])) (hx : ∀ p ∈ pts, dir * p.1 ≤ dir * cur.1) (hy : hi * base.2 ≤ hi * cur.2) :
    Inv eps hi dir base (pts ++ [cur]) (scan eps hi dir base st cur) := by
  obtain ⟨stk, ang⟩ := st
  obtain ⟨h1, h2, h3, h4, h5⟩ := h
  dsimp only at h1 h2 h3 h4 h5
  match stk, h1, h2, h3, h4, h5 with
  | [], _, h2, _, _, _ => simp at h2
  | [b], h1, h2, h3, h4, h5 =>
    simp only [List.getLast?_singleton, Option.some.injEq] at h2
    subst h2
    have hb : b ∈ pts := h1 b (by simp)
    refine ⟨?_, by simp [scan], ?_, ?_, ?_⟩
    · intro p hp
      simp only [scan, List.mem_cons, List.not_mem_nil, or_false] at hp
      rcases hp with rfl | rfl
      · simp
      · simp [hb]
    · simp only [scan]
      exact List.isChain_cons_cons.2 ⟨⟨hx b hb, hy⟩, h3⟩
    · intro q r rest hq
      simp only [scan, List.cons.injEq] at hq
      obtain ⟨rfl, rfl, _⟩ := hq
      simp [scan]
    · refine dom_append (h5.trans (Dom.of_subset (by simp [scan]))) fun a b' ha hb => ⟨cur, by simp [scan], le_rfl⟩
  | b :: b' :: rest, h1, h2, h3, h4, h5 =>
    have hang := h4 b b' rest rfl
    have hb : b ∈ pts := h1 b (by simp)
    have hb' : b' ∈ pts := h1 b' (by simp)
    by_cases hc : hi * cur.2 ≥ hi * b.2
    · have hstep : Step hi dir cur b := ⟨hx b hb, hc⟩
      by_cases hle : LeN (computeAngle eps b (b.1 + dir, b.2) cur) ang
      · have e : scan eps hi dir base (b :: b' :: rest, ang) cur = (cur :: b :: b' :: rest, computeAngle eps b (b.1 + dir, b.2) cur) := by
          simp only [scan]; rw [if_pos hc, if_pos hle]
        rw [e]
        refine ⟨?_, by simpa using h2, List.isChain_cons_cons.2 ⟨hstep, h3⟩, ?_, ?_⟩
        · intro p hp
          rcases List.mem_cons.1 hp with rfl | hp
          · simp
          · exact List.mem_append_left _ (h1 p hp)
        · intro q r rest' hq
          simp only [List.cons.injEq] at hq
          obtain ⟨rfl, rfl, _⟩ := hq
          rfl
        · exact dom_append (h5.trans (Dom.of_subset (fun p hp => List.mem_cons_of_mem _ hp))) fun a b' ha hb => ⟨cur, by simp, le_rfl⟩
      · have e : scan eps hi dir base (b :: b' :: rest, ang) cur =
            (cur :: (scanLoop eps dir cur (b' :: rest) (computeAngle eps b' (b'.1 + dir, b'.2) cur)).1, (scanLoop eps dir cur (b' :: rest) (computeAngle eps b' (b'.1 + dir, b'.2) cur)).2) := by
          simp only [scan]; rw [if_pos hc, if_neg hle]
        rw [e]
        have hch2 := List.isChain_cons_cons.1 h3
        have hstep' : Step hi dir cur b' := ⟨hch2.1.1.trans hstep.1, hch2.1.2.trans hstep.2⟩
        have hmem : ∀ p ∈ cur :: b' :: rest, p ∈ pts ++ [cur] := by
          intro p hp
          rcases List.mem_cons.1 hp with rfl | hp
          · simp
          · exact List.mem_append_left _ (h1 p (List.mem_cons_of_mem _ hp))
        obtain ⟨⟨t, rest', i1, i1'⟩, i2, i3, i4, i5⟩ := scanLoop_spec hs he cur (b' :: rest) (computeAngle eps b' (b'.1 + dir, b'.2) cur) (by simp)
          (fun p hp q hq => hu p (hmem p hp) q (hmem q hq)) (List.isChain_cons_cons.2 ⟨hstep', hch2.2⟩)
          (by intro t ht; simp only [List.head?_cons, Option.some.injEq] at ht; rw [ht])
        refine ⟨?_, ?_, i4, ?_, ?_⟩
        · intro p hp
          rcases List.mem_cons.1 hp with rfl | hp
          · simp
          · exact List.mem_append_left _ (h1 p (List.mem_cons_of_mem _ (i2 p hp)))
        · dsimp only
          rw [i1] at i3 ⊢
          rw [List.getLast?_cons_cons, i3]
          rw [List.getLast?_cons_cons] at h2
          exact h2
        · intro q r rest'' hq
          dsimp only at hq ⊢
          rw [i1] at hq
          simp only [List.cons.injEq] at hq
          obtain ⟨rfl, rfl, _⟩ := hq
          exact i1'
        · refine dom_append (Dom.trans (h5.trans ?_) i5) fun a b' ha hb => ⟨cur, by simp, le_rfl⟩
          intro a b'' ha hb2 p hp
          rcases List.mem_cons.1 hp with rfl | hp
          · rw [hang] at hle
            rcases first_pop_ok hs he hch2.1 hstep (hu b' (List.mem_append_left _ hb') p (List.mem_append_left _ hb)) (hu p (List.mem_append_left _ hb) cur (by simp)) hle (a := a) hb2 with h | h
            · exact ⟨b', by simp, h⟩
            · exact ⟨cur, by simp, h⟩
          · exact ⟨p, List.mem_cons_of_mem _ hp, le_rfl⟩
    · have e : scan eps hi dir base (b :: b' :: rest, ang) cur = (b :: b' :: rest, ang) := by
        simp only [scan]; rw [if_neg hc]
      rw [e]
      refine ⟨fun p hp => List.mem_append_left _ (h1 p hp), h2, h3, h4, ?_⟩
      exact dom_append h5 fun a b'' ha hb2 => ⟨b, by simp, fn_le ha hb2 (hx b hb) (le_of_lt (not_le.1 hc))⟩

/-- a scan of all points: the chain consists of points of the set, and dominates all of them in the directions of its quadrant -/
theorem scanAll_spec {eps dir : ℝ} (above : Bool) (hdir : dir = 1 ∨ dir = -1) (he : eps < 1) (base : V2) (points : List V2)
    (hu : UnitOk eps dir (base :: points)) (hsort : List.Pairwise (fun p q : V2 => dir * p.1 ≤ dir * q.1) (base :: points)) :
    (∀ p ∈ scanAll eps dir above base points, p ∈ base :: points) ∧
    Dom (if above then 1 else -1) dir (base :: points) (scanAll eps dir above base points) := by
  have hs : Signs (if above then (1 : ℝ) else -1) dir := ⟨by cases above <;> simp, hdir⟩
  have key : ∀ (todo pts : List V2) (st : List V2 × Option ℝ), Inv eps (if above then 1 else -1) dir base pts st → base ∈ pts →
      UnitOk eps dir (pts ++ todo) → List.Pairwise (fun p q : V2 => dir * p.1 ≤ dir * q.1) (pts ++ todo) →
      Inv eps (if above then 1 else -1) dir base (pts ++ todo)
        (todo.foldl (fun st p => if (decide (p.2 ≥ base.2)) = above then scan eps (if above then 1 else -1) dir base st p else st) st) ∧ True := by
    intro todo
    induction todo with
    | nil => intro pts st h _ _ _; simpa using h
    | cons c todo ih =>
      intro pts st h hbase hu hp
      have hx : ∀ p ∈ pts, dir * p.1 ≤ dir * c.1 := fun p hp' => (List.pairwise_append.1 hp).2.2 p hp' c (by simp)
      have hassoc : pts ++ c :: todo = (pts ++ [c]) ++ todo := by simp
      have hu' : UnitOk eps dir (pts ++ [c]) := fun p hp' q hq' => hu p (by rw [hassoc]; exact List.mem_append_left _ hp') q (by rw [hassoc]; exact List.mem_append_left _ hq')
      rw [List.foldl_cons, hassoc]
      rw [hassoc] at hu hp
      refine ih (pts ++ [c]) _ ?_ (by simp [hbase]) hu hp
      by_cases hd : decide (c.2 ≥ base.2) = above
      · rw [if_pos hd]
        refine scan_inv hs he h hu' hx ?_
        cases above with
        | true => simp only [decide_eq_true_eq] at hd; simpa using hd
        | false => simp only [decide_eq_false_iff_not, not_le] at hd; simp; exact hd.le
      · rw [if_neg hd]
        refine ⟨fun p hp' => List.mem_append_left _ (h.sub p hp'), h.last, h.chain, h.angle, ?_⟩
        refine dom_append h.dom fun a b ha hb => ⟨base, List.mem_of_getLast? h.last, fn_le ha hb (hx base hbase) ?_⟩
        cases above with
        | true => simp only [decide_eq_true_eq, not_le] at hd; simp; exact hd.le
        | false => simp only [Bool.not_eq_false, decide_eq_true_eq] at hd; simpa using hd
  have h0 : Inv eps (if above then 1 else -1) dir base [base] ([base], none) :=
    ⟨fun p hp => hp, rfl, by simp, fun q r rest h => by simp at h, Dom.of_subset (fun p hp => hp)⟩
  have := (key points [base] ([base], none) h0 (by simp) (by simpa using hu) (by simpa using hsort)).1
  rw [List.singleton_append] at this
  exact ⟨fun p hp => this.sub p hp, this.dom⟩

/-! ### the whole hull -/

open Classical in
theorem dedup_spec (eps : ℝ) (l : List V2) (hr : 0 < eps) :
    (∀ p ∈ dedup eps l, p ∈ l) ∧ ∀ p ∈ l, ∃ q ∈ dedup eps l, Near eps q p := by
  have self : ∀ p : V2, Near eps p p := fun p => ⟨by simpa using hr, by simpa using hr⟩
  have key : ∀ (l res : List V2), (∀ p ∈ l.foldl (fun res p => if ∃ q ∈ res, Near eps q p then res else res ++ [p]) res, p ∈ res ∨ p ∈ l) ∧
      (∀ p ∈ res, p ∈ l.foldl (fun res p => if ∃ q ∈ res, Near eps q p then res else res ++ [p]) res) ∧
      ∀ p ∈ l, ∃ q ∈ l.foldl (fun res p => if ∃ q ∈ res, Near eps q p then res else res ++ [p]) res, Near eps q p := by
    intro l
    induction l with
    | nil => intro res; simp
    | cons a l ih =>
      intro res
      simp only [List.foldl_cons]
      by_cases h : ∃ q ∈ res, Near eps q a
      · rw [if_pos h]
        obtain ⟨i1, i2, i3⟩ := ih res
        refine ⟨fun p hp => ?_, i2, fun p hp => ?_⟩
        · rcases i1 p hp with h | h
          · exact Or.inl h
          · exact Or.inr (List.mem_cons_of_mem _ h)
        · rcases List.mem_cons.1 hp with rfl | hp
          · obtain ⟨q, hq, hn⟩ := h; exact ⟨q, i2 q hq, hn⟩
          · exact i3 p hp
      · rw [if_neg h]
        obtain ⟨i1, i2, i3⟩ := ih (res ++ [a])
        refine ⟨fun p hp => ?_, fun p hp => i2 p (List.mem_append_left _ hp), fun p hp => ?_⟩
        · rcases i1 p hp with h | h
          · rcases List.mem_append.1 h with h | h
            · exact Or.inl h
            · simp only [List.mem_singleton] at h; right; simp [h]
          · exact Or.inr (List.mem_cons_of_mem _ h)
        · rcases List.mem_cons.1 hp with rfl | hp
          · exact ⟨p, i2 p (by simp), self p⟩
          · exact i3 p hp
  obtain ⟨k1, _, k3⟩ := key l []
  exact ⟨fun p hp => (k1 p hp).resolve_left (by simp), k3⟩

open Classical in
theorem dedup_distinct (eps : ℝ) (l : List V2) : (dedup eps l).Pairwise fun p q => ¬ Near eps p q := by
  have key : ∀ (l res : List V2), res.Pairwise (fun p q => ¬ Near eps p q) →
      (l.foldl (fun res p => if ∃ q ∈ res, Near eps q p then res else res ++ [p]) res).Pairwise fun p q => ¬ Near eps p q := by
    intro l
    induction l with
    | nil => intro res h; exact h
    | cons a l ih =>
      intro res h
      simp only [List.foldl_cons]
      by_cases hc : ∃ q ∈ res, Near eps q a
      · rw [if_pos hc]; exact ih res h
      · rw [if_neg hc]
        refine ih _ (List.pairwise_append.2 ⟨h, by simp, fun p hp q hq => ?_⟩)
        simp only [List.mem_singleton] at hq; subst hq
        exact fun hn => hc ⟨p, hp, hn⟩
  exact key l [] List.Pairwise.nil

/-- what the hull is made of -/
theorem hull_spec {eps : ℝ} {set : List V2} (ht : Tidy eps set) :
    (∀ p ∈ convexHull2 eps set, p ∈ set) ∧
    ∀ u v : ℝ, ∀ p ∈ set, ∃ q ∈ convexHull2 eps set, u * p.1 + v * p.2 ≤ u * q.1 + v * q.2 := by
  obtain ⟨hperm, hsorted⟩ := sortByX_spec set.length set rfl
  unfold convexHull2
  cases hsort : sortByX set.length set with
  | nil =>
    rw [hsort] at hperm
    have : set = [] := hperm.symm.eq_nil
    subst this
    simp
  | cons base rest =>
    rw [hsort] at hperm hsorted
    dsimp only
    have hmem : ∀ p, p ∈ base :: rest ↔ p ∈ set := fun p => hperm.mem_iff
    have hUnit : ∀ d : ℝ, (d = 1 ∨ d = -1) → ∀ l : List V2, (∀ p ∈ l, p ∈ set) → UnitOk eps d l :=
      fun d hd l hl p hp q hq => ht.unit p (hl p hp) q (hl q hq) d hd
    -- the list from the right
    cases hrev : (base :: rest).reverse with
    | nil => simp at hrev
    | cons baseR restR =>
      simp only [List.headD_cons, List.tail_cons]
      have hmemR : ∀ p, p ∈ baseR :: restR ↔ p ∈ set := fun p => by rw [← hrev, List.mem_reverse]; exact hmem p
      have hR : List.Pairwise (fun p q : V2 => (-1 : ℝ) * p.1 ≤ (-1 : ℝ) * q.1) (baseR :: restR) := by
        rw [← hrev, List.pairwise_reverse]
        exact hsorted.imp (fun h => by linarith)
      have hL : List.Pairwise (fun p q : V2 => (1 : ℝ) * p.1 ≤ (1 : ℝ) * q.1) (base :: rest) := hsorted.imp (fun h => by linarith)
      obtain ⟨a1, a2⟩ := scanAll_spec true (Or.inl rfl) ht.eps_lt base rest (hUnit 1 (Or.inl rfl) _ fun p hp => (hmem p).1 hp) hL
      obtain ⟨b1, b2⟩ := scanAll_spec false (Or.inl rfl) ht.eps_lt base rest (hUnit 1 (Or.inl rfl) _ fun p hp => (hmem p).1 hp) hL
      obtain ⟨c1, c2⟩ := scanAll_spec true (Or.inr rfl) ht.eps_lt baseR restR (hUnit (-1) (Or.inr rfl) _ fun p hp => (hmemR p).1 hp) hR
      obtain ⟨d1, d2⟩ := scanAll_spec false (Or.inr rfl) ht.eps_lt baseR restR (hUnit (-1) (Or.inr rfl) _ fun p hp => (hmemR p).1 hp) hR
      set merged := (scanAll eps 1 true base rest).reverse ++ scanAll eps (-1) true baseR restR ++ (scanAll eps (-1) false baseR restR).reverse ++ scanAll eps 1 false base rest with hm
      have hsub : ∀ p ∈ merged, p ∈ set := by
        intro p hp
        simp only [hm, List.mem_append, List.mem_reverse] at hp
        rcases hp with ((hp | hp) | hp) | hp
        · exact (hmem p).1 (a1 p hp)
        · exact (hmemR p).1 (c1 p hp)
        · exact (hmemR p).1 (d1 p hp)
        · exact (hmem p).1 (b1 p hp)
      obtain ⟨e1, e2⟩ := dedup_spec eps merged ht.eps_pos
      refine ⟨fun p hp => hsub p (e1 p hp), fun u v p hp => ?_⟩
      have hdom : ∃ q ∈ merged, u * p.1 + v * p.2 ≤ u * q.1 + v * q.2 := by
        rcases le_total u 0 with hu | hu <;> rcases le_total v 0 with hv | hv
        · obtain ⟨q, hq, h⟩ := b2 (-u) (-v) (by linarith) (by linarith) p ((hmem p).2 hp)
          refine ⟨q, by simp [hm, hq], ?_⟩
          simp only [fn, Bool.false_eq_true, if_false] at h; linarith
        · obtain ⟨q, hq, h⟩ := a2 (-u) v (by linarith) hv p ((hmem p).2 hp)
          refine ⟨q, by simp [hm, hq], ?_⟩
          simp only [fn, if_true] at h; linarith
        · obtain ⟨q, hq, h⟩ := d2 u (-v) hu (by linarith) p ((hmemR p).2 hp)
          refine ⟨q, by simp [hm, hq], ?_⟩
          simp only [fn, Bool.false_eq_true, if_false] at h; linarith
        · obtain ⟨q, hq, h⟩ := c2 u v hu hv p ((hmemR p).2 hp)
          refine ⟨q, by simp [hm, hq], ?_⟩
          simp only [fn, if_true] at h; linarith
      obtain ⟨q, hq, h⟩ := hdom
      obtain ⟨r, hr, hn⟩ := e2 q hq
      have : r = q := ht.equal r (hsub r (e1 r hr)) q (hsub q hq) hn
      exact ⟨r, hr, this ▸ h⟩

/-- C108: for every set of points that the tolerance tells apart, the vertices returned are points of the set, no two of them are the same, and the convex hull of the vertices is the convex hull of the set. -/
theorem C108_hull {eps : ℝ} {set : List V2} (ht : Tidy eps set) :
    (∀ p ∈ convexHull2 eps set, p ∈ set) ∧ (convexHull2 eps set).Pairwise (· ≠ ·) ∧
    convexHull ℝ {p | p ∈ convexHull2 eps set} = convexHull ℝ {p | p ∈ set} := by
  obtain ⟨h1, h2⟩ := hull_spec ht
  refine ⟨h1, ?_, Set.Subset.antisymm (convexHull_mono fun p hp => h1 p hp) ?_⟩
  · have : ∀ l, (dedup eps l).Pairwise (· ≠ ·) := fun l => (dedup_distinct eps l).imp (fun {p q} h hpq => h (by subst hpq; exact ⟨by simpa using ht.eps_pos, by simpa using ht.eps_pos⟩))
    unfold convexHull2
    cases sortByX set.length set with
    | nil => exact List.Pairwise.nil
    | cons base rest => exact this _
  · refine convexHull_min ?_ (convex_convexHull ℝ _)
    intro p hp
    by_contra hnot
    have hfin : Set.Finite {p : V2 | p ∈ convexHull2 eps set} := (convexHull2 eps set).finite_toSet
    obtain ⟨f, s, hs1, hs2⟩ := geometric_hahn_banach_closed_point (convex_convexHull ℝ _) (Set.Finite.isClosed_convexHull ℝ hfin) hnot
    have hf : ∀ q : V2, f q = f (1, 0) * q.1 + f (0, 1) * q.2 := by
      intro q
      have e : q = q.1 • ((1, 0) : V2) + q.2 • ((0, 1) : V2) := by ext <;> simp
      conv_lhs => rw [e]
      rw [map_add, map_smul, map_smul]; simp only [smul_eq_mul]; ring
    obtain ⟨q, hq, hle⟩ := h2 (f (1, 0)) (f (0, 1)) p hp
    have := hs1 q (subset_convexHull ℝ _ hq)
    rw [← hf, ← hf] at hle
    linarith

end Heur
end Rbprm
