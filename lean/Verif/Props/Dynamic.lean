import Verif.Model.Dynamic
import Mathlib.Algebra.Order.Field.Rat
import Mathlib.Tactic.Linarith
import Mathlib.Tactic.NormNum
import Mathlib.Tactic.Ring
import Mathlib.Tactic.SplitIfs
import Mathlib.Data.List.MinMax
set_option linter.unusedSectionVars false
/-!
# Kinodynamic steering and dynamic validation (C55, C57, C116)
-/
namespace Rbprm
namespace Dynamic
variable {K A C N : Type _} [Field K] [LinearOrder K] [IsStrictOrderedRing K]

/-! ### specification of the steering method -/

/-- the times at which the acceleration of some axis changes -/
def switches (p : KPath K A) : List K := p.axes.flatMap fun d => [d.1, d.1 + d.2.1, d.1 + d.2.1 + d.2.2]

/-- path and time range of what is returned -/
def Steered.range : Steered K A → Option (KPath K A × K × K)
  | .null => none
  | .whole p => some (p, 0, p.len)
  | .part p a b => some (p, a, b)

/-- durations are not negative -/
def Timed (p : KPath K A) : Prop := ∀ d ∈ p.axes, 0 ≤ d.1 ∧ 0 ≤ d.2.1 ∧ 0 ≤ d.2.2

/-- the acceleration only changes at the switching times -/
def PiecewiseConstant (p : KPath K A) : Prop :=
  ∀ u v, 0 < u → 0 < v → u < p.len → v < p.len → u ∉ switches p → v ∉ switches p → (∀ w ∈ switches p, w < u ↔ w < v) → p.acc u = p.acc v

/-- different times among the switching times and the ends are more than `eps` apart -/
def Separated (p : KPath K A) : Prop := ∀ s ∈ 0 :: p.len :: switches p, ∀ s' ∈ 0 :: p.len :: switches p, s < s' → s + eps < s'

/-- C55: the accelerations are checked one tenth of a millisecond after (backwards: before) the switching times. -/
theorem C55_margin : (10000 : K) * eps = 1 := by unfold eps; norm_num

/-! ### lemmas -/

theorem eps_pos : (0 : K) < eps := by unfold eps; norm_num

theorem forwardTimes_covers {d : K × K × K} (h1 : 0 ≤ d.1) (h2 : 0 ≤ d.2.1) (h3 : 0 ≤ d.2.2) {s : K}
    (hs : s ∈ [d.1, d.1 + d.2.1, d.1 + d.2.1 + d.2.2]) : s = 0 ∨ s + eps ∈ forwardTimes d := by
  obtain ⟨a, b, c⟩ := d
  simp only at h1 h2 h3
  simp only [List.mem_cons, List.not_mem_nil, or_false] at hs
  unfold forwardTimes
  dsimp only
  rcases eq_or_lt_of_le h1 with ha | ha <;> rcases eq_or_lt_of_le h2 with hb | hb <;> rcases eq_or_lt_of_le h3 with hc | hc <;>
    (first | subst ha | skip) <;> (first | subst hb | skip) <;> (first | subst hc | skip) <;>
    rcases hs with rfl | rfl | rfl <;> simp_all [add_comm, add_left_comm, add_assoc]

theorem forwardTimes_sound {d : K × K × K} (h1 : 0 ≤ d.1) (h2 : 0 ≤ d.2.1) (h3 : 0 ≤ d.2.2) {t : K}
    (ht : t ∈ forwardTimes d) : ∃ s ∈ [d.1, d.1 + d.2.1, d.1 + d.2.1 + d.2.2], t = s + eps := by
  obtain ⟨a, b, c⟩ := d
  simp only at h1 h2 h3
  unfold forwardTimes at ht
  dsimp only at ht
  simp only [List.mem_append] at ht
  rcases ht with (ht | ht) | ht
  · split_ifs at ht with h
    · simp only [List.mem_singleton] at ht; exact ⟨a, by simp, ht⟩
    · simp at ht
  · split_ifs at ht with h h'
    · simp only [List.mem_singleton] at ht; exact ⟨a + b, by simp, by rw [ht]; ring⟩
    · simp only [List.mem_singleton] at ht
      have : a = 0 := le_antisymm (not_lt.1 h') h1
      exact ⟨a + b, by simp, by rw [ht, this]; ring⟩
    · simp at ht
  · split_ifs at ht with h h' h'' h''
    · simp only [List.mem_singleton] at ht; exact ⟨a + b + c, by simp, by rw [ht]; ring⟩
    · simp only [List.mem_singleton] at ht
      have : a = 0 := le_antisymm (not_lt.1 h'') h1
      exact ⟨a + b + c, by simp, by rw [ht, this]; ring⟩
    · simp only [List.mem_singleton] at ht
      have : b = 0 := le_antisymm (not_lt.1 h') h2
      exact ⟨a + b + c, by simp, by rw [ht, this]; ring⟩
    · simp only [List.mem_singleton] at ht
      have h4 : b = 0 := le_antisymm (not_lt.1 h') h2
      have h5 : a = 0 := le_antisymm (not_lt.1 h'') h1
      exact ⟨a + b + c, by simp, by rw [ht, h4, h5]; ring⟩
    · simp at ht

theorem backwardTimes_covers {d : K × K × K} (h1 : 0 ≤ d.1) (h2 : 0 ≤ d.2.1) (h3 : 0 ≤ d.2.2) {s : K}
    (hs : s ∈ [d.1, d.1 + d.2.1, d.1 + d.2.1 + d.2.2]) : s = 0 ∨ s - eps ∈ backwardTimes d := by
  obtain ⟨a, b, c⟩ := d
  simp only at h1 h2 h3
  simp only [List.mem_cons, List.not_mem_nil, or_false] at hs
  unfold backwardTimes
  dsimp only
  have e1 : ∀ x y : K, x + y - eps = x - eps + y := fun x y => by ring
  have e2 : ∀ x : K, x - eps = -eps + x := fun x => by ring
  have e3 : ∀ x y : K, x + y - eps = -eps + x + y := fun x y => by ring
  rcases eq_or_lt_of_le h1 with ha | ha <;> rcases eq_or_lt_of_le h2 with hb | hb <;> rcases eq_or_lt_of_le h3 with hc | hc <;>
    (first | subst ha | skip) <;> (first | subst hb | skip) <;> (first | subst hc | skip) <;>
    rcases hs with rfl | rfl | rfl <;> simp_all [sub_eq_add_neg, add_comm, add_left_comm, add_assoc]

theorem backwardTimes_sound {d : K × K × K} (h1 : 0 ≤ d.1) (h2 : 0 ≤ d.2.1) (h3 : 0 ≤ d.2.2) {t : K}
    (ht : t ∈ backwardTimes d) : ∃ s ∈ [d.1, d.1 + d.2.1, d.1 + d.2.1 + d.2.2], t = s - eps := by
  obtain ⟨a, b, c⟩ := d
  simp only at h1 h2 h3
  unfold backwardTimes at ht
  dsimp only at ht
  simp only [List.mem_append] at ht
  rcases ht with (ht | ht) | ht
  · split_ifs at ht with h
    · simp only [List.mem_singleton] at ht; exact ⟨a, by simp, ht⟩
    · simp at ht
  · split_ifs at ht with h h'
    · simp only [List.mem_singleton] at ht; exact ⟨a + b, by simp, by rw [ht]; ring⟩
    · simp only [List.mem_singleton] at ht
      have : a = 0 := le_antisymm (not_lt.1 h') h1
      exact ⟨a + b, by simp, by rw [ht, this]; ring⟩
    · simp at ht
  · split_ifs at ht with h h' h'' h''
    · simp only [List.mem_singleton] at ht; exact ⟨a + b + c, by simp, by rw [ht]; ring⟩
    · simp only [List.mem_singleton] at ht
      have : a = 0 := le_antisymm (not_lt.1 h'') h1
      exact ⟨a + b + c, by simp, by rw [ht, this]; ring⟩
    · simp only [List.mem_singleton] at ht
      have : b = 0 := le_antisymm (not_lt.1 h') h2
      exact ⟨a + b + c, by simp, by rw [ht, this]; ring⟩
    · simp only [List.mem_singleton] at ht
      have h4 : b = 0 := le_antisymm (not_lt.1 h') h2
      have h5 : a = 0 := le_antisymm (not_lt.1 h'') h1
      exact ⟨a + b + c, by simp, by rw [ht, h4, h5]; ring⟩
    · simp at ht

/-- the least bad element below `L` -/
theorem foldMin (bad : K → Prop) [DecidablePred bad] (l : List K) (L : K) :
    let m := l.foldl (fun m t => if bad t ∧ t < m then t else m) L
    m ≤ L ∧ (m = L ∨ m ∈ l ∧ bad m) ∧ ∀ t ∈ l, bad t → t < L → m ≤ t := by
  induction l generalizing L with
  | nil => simp
  | cons x l ih =>
    simp only [List.foldl_cons]
    by_cases hx : bad x ∧ x < L
    · rw [if_pos hx]
      obtain ⟨h1, h2, h3⟩ := ih x
      refine ⟨h1.trans hx.2.le, Or.inr ?_, ?_⟩
      · rcases h2 with h2 | h2
        · rw [h2]; exact ⟨by simp, hx.1⟩
        · exact ⟨List.mem_cons_of_mem _ h2.1, h2.2⟩
      · intro t ht hb hl
        rcases List.mem_cons.1 ht with rfl | ht
        · exact h1
        · rcases lt_or_ge t x with h | h
          · exact h3 t ht hb h
          · exact h1.trans h
    · rw [if_neg hx]
      obtain ⟨h1, h2, h3⟩ := ih L
      refine ⟨h1, ?_, ?_⟩
      · rcases h2 with h2 | h2
        · exact Or.inl h2
        · exact Or.inr ⟨List.mem_cons_of_mem _ h2.1, h2.2⟩
      · intro t ht hb hl
        rcases List.mem_cons.1 ht with rfl | ht
        · exact absurd ⟨hb, hl⟩ hx
        · exact h3 t ht hb hl

theorem foldMax (bad : K → Prop) [DecidablePred bad] (l : List K) (L : K) :
    let m := l.foldl (fun m t => if bad t ∧ t > m then t else m) L
    L ≤ m ∧ (m = L ∨ m ∈ l ∧ bad m) ∧ ∀ t ∈ l, bad t → L < t → t ≤ m := by
  induction l generalizing L with
  | nil => simp
  | cons x l ih =>
    simp only [List.foldl_cons]
    by_cases hx : bad x ∧ x > L
    · rw [if_pos hx]
      obtain ⟨h1, h2, h3⟩ := ih x
      refine ⟨le_trans hx.2.le h1, Or.inr ?_, ?_⟩
      · rcases h2 with h2 | h2
        · rw [h2]; exact ⟨by simp, hx.1⟩
        · exact ⟨List.mem_cons_of_mem _ h2.1, h2.2⟩
      · intro t ht hb hl
        rcases List.mem_cons.1 ht with rfl | ht
        · exact h1
        · rcases lt_or_ge x t with h | h
          · exact h3 t ht hb h
          · exact h.trans h1
    · rw [if_neg hx]
      obtain ⟨h1, h2, h3⟩ := ih L
      refine ⟨h1, ?_, ?_⟩
      · rcases h2 with h2 | h2
        · exact Or.inl h2
        · exact Or.inr ⟨List.mem_cons_of_mem _ h2.1, h2.2⟩
      · intro t ht hb hl
        rcases List.mem_cons.1 ht with rfl | ht
        · exact absurd ⟨hb, hl⟩ hx
        · exact h3 t ht hb hl

/-- what the forward checks guarantee on a path kept until `b`: it is the whole path, or it ends at a switching time after which the acceleration is not admissible; after each earlier switching time it is admissible -/
structure CutForward (env : SteerEnv K A C N) (node : N) (p : KPath K A) (b : K) : Prop where
  stop : b = p.len ∨ (b ∈ 0 :: switches p ∧ b + eps < p.len ∧ env.admissible node (p.acc (b + eps)) = false)
  before : ∀ s ∈ 0 :: switches p, s < b → s + eps < p.len → env.admissible node (p.acc (s + eps)) = true

/-- the same backwards, on a path kept from `a` -/
structure CutBackward (env : SteerEnv K A C N) (node : N) (p : KPath K A) (a : K) : Prop where
  stop : a = 0 ∨ (a ∈ switches p ∧ 0 < a - eps ∧ env.admissible node (p.acc (a - eps)) = false)
  after : ∀ s ∈ p.len :: switches p, a < s → 0 < s - eps → env.admissible node (p.acc (s - eps)) = true

theorem cutForward_spec (env : SteerEnv K A C N) (node : N) (p p' : KPath K A) (a b : K) (ht : Timed p) (h : (cutForward env node p).range = some (p', a, b)) :
    p' = p ∧ a = 0 ∧ CutForward env node p b := by
  unfold cutForward at h
  by_cases h0 : env.admissible node (p.acc eps) = false
  · rw [if_pos h0] at h; cases h
  · rw [if_neg h0] at h
    simp only [Bool.not_eq_false] at h0
    dsimp only at h
    obtain ⟨hm1, hm2, hm3⟩ := foldMin (fun t => env.admissible node (p.acc t) = false) (p.axes.flatMap forwardTimes) p.len
    set maxT := (p.axes.flatMap forwardTimes).foldl (fun maxT t => if env.admissible node (p.acc t) = false ∧ t < maxT then t else maxT) p.len with hmaxT
    have covers : ∀ s ∈ switches p, s = 0 ∨ s + eps ∈ p.axes.flatMap forwardTimes := by
      intro s hs
      obtain ⟨d, hd, hs⟩ := List.mem_flatMap.1 hs
      obtain ⟨t1, t2, t3⟩ := ht d hd
      rcases forwardTimes_covers t1 t2 t3 hs with h | h
      · exact Or.inl h
      · exact Or.inr (List.mem_flatMap.2 ⟨d, hd, h⟩)
    have before : ∀ s ∈ 0 :: switches p, s + eps < maxT → env.admissible node (p.acc (s + eps)) = true := by
      intro s hs hlt
      rcases List.mem_cons.1 hs with rfl | hs
      · rw [zero_add]; exact h0
      · rcases covers s hs with rfl | hc
        · rw [zero_add]; exact h0
        · by_contra hb
          rw [Bool.not_eq_true] at hb
          exact absurd (hm3 _ hc hb (lt_of_lt_of_le hlt hm1)) (not_le.2 hlt)
    by_cases hlt : maxT < p.len
    · rw [if_pos hlt] at h
      simp only [Steered.range, Option.some.injEq, Prod.mk.injEq] at h
      obtain ⟨rfl, rfl, rfl⟩ := h
      refine ⟨rfl, rfl, ⟨Or.inr ?_, fun s hs hb _ => before s hs (by linarith)⟩⟩
      rcases hm2 with e | ⟨hm, hbad⟩
      · exact absurd e (ne_of_lt hlt)
      · obtain ⟨d, hd, hm⟩ := List.mem_flatMap.1 hm
        obtain ⟨t1, t2, t3⟩ := ht d hd
        obtain ⟨s, hs, e⟩ := forwardTimes_sound t1 t2 t3 hm
        have e' : 0 + (maxT - eps) = s := by rw [e]; ring
        rw [e', ← e]
        exact ⟨List.mem_cons_of_mem _ (List.mem_flatMap.2 ⟨d, hd, hs⟩), hlt, hbad⟩
    · rw [if_neg hlt] at h
      simp only [Steered.range, Option.some.injEq, Prod.mk.injEq] at h
      obtain ⟨rfl, rfl, rfl⟩ := h
      have e : maxT = p.len := le_antisymm hm1 (not_lt.1 hlt)
      exact ⟨rfl, rfl, ⟨Or.inl rfl, fun s hs _ hl => before s hs (by rw [e]; exact hl)⟩⟩

theorem cutBackward_spec (env : SteerEnv K A C N) (node : N) (p p' : KPath K A) (a b : K) (ht : Timed p) (h : (cutBackward env node p).range = some (p', a, b)) :
    p' = p ∧ b = p.len ∧ CutBackward env node p a := by
  unfold cutBackward at h
  by_cases h0 : env.admissible node (p.acc (p.len - eps)) = false
  · rw [if_pos h0] at h; cases h
  · rw [if_neg h0] at h
    simp only [Bool.not_eq_false] at h0
    dsimp only at h
    obtain ⟨hm1, hm2, hm3⟩ := foldMax (fun t => env.admissible node (p.acc t) = false) (p.axes.flatMap backwardTimes) 0
    set minT := (p.axes.flatMap backwardTimes).foldl (fun minT t => if env.admissible node (p.acc t) = false ∧ t > minT then t else minT) 0 with hminT
    have covers : ∀ s ∈ switches p, s = 0 ∨ s - eps ∈ p.axes.flatMap backwardTimes := by
      intro s hs
      obtain ⟨d, hd, hs⟩ := List.mem_flatMap.1 hs
      obtain ⟨t1, t2, t3⟩ := ht d hd
      rcases backwardTimes_covers t1 t2 t3 hs with h | h
      · exact Or.inl h
      · exact Or.inr (List.mem_flatMap.2 ⟨d, hd, h⟩)
    have after : ∀ s ∈ p.len :: switches p, minT < s - eps → 0 < s - eps → env.admissible node (p.acc (s - eps)) = true := by
      intro s hs hlt hpos
      rcases List.mem_cons.1 hs with rfl | hs
      · exact h0
      · rcases covers s hs with rfl | hc
        · have := eps_pos (K := K); exfalso; linarith
        · by_contra hb
          rw [Bool.not_eq_true] at hb
          exact absurd (hm3 _ hc hb hpos) (not_le.2 hlt)
    by_cases hlt : minT > 0
    · rw [if_pos hlt] at h
      simp only [Steered.range, Option.some.injEq, Prod.mk.injEq] at h
      obtain ⟨rfl, rfl, rfl⟩ := h
      refine ⟨rfl, rfl, ⟨Or.inr ?_, fun s hs hb hp => after s hs (by linarith) hp⟩⟩
      rcases hm2 with e | ⟨hm, hbad⟩
      · exact absurd e (ne_of_gt hlt)
      · obtain ⟨d, hd, hm⟩ := List.mem_flatMap.1 hm
        obtain ⟨t1, t2, t3⟩ := ht d hd
        obtain ⟨s, hs, e⟩ := backwardTimes_sound t1 t2 t3 hm
        have e' : minT + eps = s := by rw [e]; ring
        rw [e', ← e]
        exact ⟨List.mem_flatMap.2 ⟨d, hd, hs⟩, hlt, hbad⟩
    · rw [if_neg hlt] at h
      simp only [Steered.range, Option.some.injEq, Prod.mk.injEq] at h
      obtain ⟨rfl, rfl, rfl⟩ := h
      have e : minT = 0 := le_antisymm (not_lt.1 hlt) hm1
      exact ⟨rfl, rfl, ⟨Or.inl rfl, fun s hs _ hl => after s hs (by rw [e]; exact hl) hl⟩⟩

theorem steer_checked (env : SteerEnv K A C N) (node : N) (q : C) (reverse : Bool) (hb : (setBounds env node q reverse).upToDate = false)
    (p : KPath K A) (a b : K) (h : (steer env node q reverse).range = some (p, a, b)) :
    ∃ p0, (if reverse then env.kino (setBounds env node q reverse).aMax q (env.config node) else env.kino (setBounds env node q reverse).aMax (env.config node) q) = some p0 ∧
      p0.len ≤ 50 ∧ (if reverse then cutBackward env node p0 else cutForward env node p0).range = some (p, a, b) := by
  unfold steer at h
  dsimp only at h
  by_cases h1 : |(setBounds env node q reverse).aMax.x| + |(setBounds env node q reverse).aMax.y| ≤ 0
  · rw [if_pos h1] at h; cases h
  · rw [if_neg h1, hb] at h
    rw [if_neg (by simp)] at h
    cases hk : (if reverse then env.kino (setBounds env node q reverse).aMax q (env.config node) else env.kino (setBounds env node q reverse).aMax (env.config node) q) with
    | none => rw [hk] at h; cases h
    | some p0 =>
      rw [hk] at h
      simp only at h
      by_cases hl : p0.len > 50
      · rw [if_pos hl] at h; cases h
      · rw [if_neg hl] at h
        exact ⟨p0, rfl, not_lt.1 hl, h⟩

/-- C55 (part): when the bounds were recomputed, the path returned by a forward extension is the beginning of the path to the target computed with these bounds, which is not longer than 50; it ends at the first switching time after which the acceleration is not admissible. -/
theorem C55_forward_partial (env : SteerEnv K A C N) (node : N) (q : C) (hb : (setBounds env node q false).upToDate = false)
    (p : KPath K A) (a b : K) (ht : Timed p) (h : (steer env node q false).range = some (p, a, b)) :
    env.kino (setBounds env node q false).aMax (env.config node) q = some p ∧ p.len ≤ 50 ∧ a = 0 ∧ CutForward env node p b := by
  obtain ⟨p0, h1, h2, h3⟩ := steer_checked env node q false hb p a b h
  simp only [Bool.false_eq_true, if_false] at h1 h3
  have e : p = p0 := by
    unfold cutForward at h3
    split_ifs at h3
    · cases h3
    · dsimp only at h3
      split_ifs at h3 <;> simp only [Steered.range, Option.some.injEq, Prod.mk.injEq] at h3 <;> exact h3.1.symm
  subst e
  obtain ⟨-, h4, h5⟩ := cutForward_spec env node p p a b ht h3
  exact ⟨h1, h2, h4, h5⟩

/-- C55 (part): the same backwards: the path ends at the node and begins at the last switching time before which the acceleration is not admissible. -/
theorem C55_backward_partial (env : SteerEnv K A C N) (node : N) (q : C) (hb : (setBounds env node q true).upToDate = false)
    (p : KPath K A) (a b : K) (ht : Timed p) (h : (steer env node q true).range = some (p, a, b)) :
    env.kino (setBounds env node q true).aMax q (env.config node) = some p ∧ p.len ≤ 50 ∧ b = p.len ∧ CutBackward env node p a := by
  obtain ⟨p0, h1, h2, h3⟩ := steer_checked env node q true hb p a b h
  simp only [if_true] at h1 h3
  have e : p = p0 := by
    unfold cutBackward at h3
    split_ifs at h3
    · cases h3
    · dsimp only at h3
      split_ifs at h3 <;> simp only [Steered.range, Option.some.injEq, Prod.mk.injEq] at h3 <;> exact h3.1.symm
  subst e
  obtain ⟨-, h4, h5⟩ := cutBackward_spec env node p p a b ht h3
  exact ⟨h1, h2, h4, h5⟩

/-- C55 (part): if the acceleration only changes at the switching times and these are more than 0.0001 apart, the acceleration is admissible at every time (except the switching times) of the path kept by the forward checks. -/
theorem C55_all_times_partial (env : SteerEnv K A C N) (node : N) (p : KPath K A) (hc : PiecewiseConstant p) (hs : Separated p) (b : K) (hb : b ≤ p.len)
    (h : CutForward env node p b) (hT : Timed p) (t : K) (h0 : 0 < t) (h1 : t < b) (hn : t ∉ switches p) : env.admissible node (p.acc t) = true := by
  obtain ⟨s, hmem, hst, hmax⟩ : ∃ s ∈ 0 :: switches p, s < t ∧ ∀ w ∈ switches p, w < t → w ≤ s := by
    have key : ∀ l : List K, ∃ s ∈ 0 :: l, s < t ∧ ∀ w ∈ l, w < t → w ≤ s := by
      intro l
      induction l with
      | nil => exact ⟨0, by simp, h0, by simp⟩
      | cons x l ih =>
        obtain ⟨s, m1, m2, m3⟩ := ih
        by_cases hx : x < t ∧ s < x
        · refine ⟨x, by simp, hx.1, fun w hw hwt => ?_⟩
          rcases List.mem_cons.1 hw with rfl | hw
          · exact le_rfl
          · exact (m3 w hw hwt).trans hx.2.le
        · refine ⟨s, by simp only [List.mem_cons] at m1 ⊢; tauto, m2, fun w hw hwt => ?_⟩
          rcases List.mem_cons.1 hw with rfl | hw
          · exact not_lt.1 fun h => hx ⟨hwt, h⟩
          · exact m3 w hw hwt
    exact key (switches p)
  have hs0 : 0 ≤ s := by
    rcases List.mem_cons.1 hmem with rfl | hmem
    · exact le_rfl
    · obtain ⟨d, hd, hs⟩ := List.mem_flatMap.1 hmem
      obtain ⟨t1, t2, t3⟩ := hT d hd
      simp only [List.mem_cons, List.not_mem_nil, or_false] at hs
      rcases hs with rfl | rfl | rfl
      · exact t1
      · linarith
      · linarith
  have hmem' : s ∈ 0 :: p.len :: switches p := by simp only [List.mem_cons] at hmem ⊢; tauto
  have hslen : s + eps < p.len := hs s hmem' p.len (by simp) (by linarith)
  have e : p.acc t = p.acc (s + eps) := by
    refine hc t (s + eps) h0 (by have := eps_pos (K := K); linarith) (by linarith) hslen hn ?_ ?_
    · intro hmem2
      have := hs s hmem' (s + eps) (by simp [hmem2]) (by have := eps_pos (K := K); linarith)
      exact lt_irrefl _ this
    · intro w hw
      constructor
      · intro hwt
        have := hmax w hw hwt
        have := eps_pos (K := K)
        linarith
      · intro hwe
        by_contra hnt
        have : s + eps < w := hs s hmem' w (by simp [hw]) (by linarith [not_lt.1 hnt])
        linarith
  rw [e]
  exact h.before s hmem (by linarith) hslen

/-- C55 (part): the same for the path kept by the backward checks. -/
theorem C55_all_times_backward_partial (env : SteerEnv K A C N) (node : N) (p : KPath K A) (hc : PiecewiseConstant p) (hs : Separated p) (a : K) (ha : 0 ≤ a)
    (h : CutBackward env node p a) (t : K) (h0 : a < t) (h1 : t < p.len) (hin : ∀ s ∈ switches p, s ≤ p.len) (hn : t ∉ switches p) : env.admissible node (p.acc t) = true := by
  obtain ⟨s, hmem, hst, hmin⟩ : ∃ s ∈ p.len :: switches p, t < s ∧ ∀ w ∈ switches p, t < w → s ≤ w := by
    have key : ∀ l : List K, ∃ s ∈ p.len :: l, t < s ∧ ∀ w ∈ l, t < w → s ≤ w := by
      intro l
      induction l with
      | nil => exact ⟨p.len, by simp, h1, by simp⟩
      | cons x l ih =>
        obtain ⟨s, m1, m2, m3⟩ := ih
        by_cases hx : t < x ∧ x < s
        · refine ⟨x, by simp, hx.1, fun w hw hwt => ?_⟩
          rcases List.mem_cons.1 hw with rfl | hw
          · exact le_rfl
          · exact hx.2.le.trans (m3 w hw hwt)
        · refine ⟨s, by simp only [List.mem_cons] at m1 ⊢; tauto, m2, fun w hw hwt => ?_⟩
          rcases List.mem_cons.1 hw with rfl | hw
          · exact not_lt.1 fun h => hx ⟨hwt, h⟩
          · exact m3 w hw hwt
    exact key (switches p)
  have hslen : s ≤ p.len := by
    rcases List.mem_cons.1 hmem with rfl | hmem
    · exact le_rfl
    · exact hin s hmem
  have hmem' : s ∈ 0 :: p.len :: switches p := by simp only [List.mem_cons] at hmem ⊢; tauto
  have hs0 : 0 + eps < s := hs 0 (by simp) s hmem' (by linarith)
  rw [zero_add] at hs0
  have hpos := eps_pos (K := K)
  have e : p.acc t = p.acc (s - eps) := by
    refine hc t (s - eps) (by linarith) (by linarith) h1 (by linarith) hn ?_ ?_
    · intro hmem2
      have := hs (s - eps) (by simp [hmem2]) s hmem' (by linarith)
      linarith
    · intro w hw
      constructor
      · intro hwt
        have := hs w (by simp [hw]) s hmem' (by linarith)
        linarith
      · intro hwe
        by_contra hnt
        rcases eq_or_lt_of_le (not_lt.1 hnt) with e | hlt
        · exact hn (e ▸ hw)
        · have := hmin w hw hlt
          linarith
  rw [e]
  exact h.after s hmem (by linarith) (by linarith)

/-! ### instance -/

/-- a path of length 4 along x: acceleration 1 until 1, -1 until 3, then 0 -/
def demoPath : KPath ℚ ℚ := ⟨4, [(1, 2, 0), (0, 0, 0), (0, 0, 0)], fun t => if t < 1 then 1 else if t < 3 then -1 else 0⟩

/-- accelerations are admissible if they are not negative (`strict`), or all -/
def demoSteer (fixed : ℚ) : SteerEnv ℚ ℚ ℚ ℚ := ⟨id, fun _ _ _ => some demoPath, fun _ => ⟨1, 0, 0⟩, fun _ _ => 2, fun _ a => decide (0 ≤ a), fixed, 0⟩

/-- non-vacuity: the bounds are recomputed, the path is cut at time 1 -/
example : (setBounds (demoSteer 5) 0 1 false).upToDate = false ∧ Timed demoPath ∧ Separated demoPath ∧
    (steer (demoSteer 5) 0 1 false).range.map (fun r => (r.2.1, r.2.2)) = some (0, 1) := by
  refine ⟨by decide +kernel, by unfold Timed; decide +kernel, by unfold Separated; decide +kernel, by decide +kernel⟩

/-- the instance is piecewise constant -/
example : PiecewiseConstant demoPath := by
  intro u v hu hv _ _ hus hvs hw
  have hsw : switches demoPath = [1, 3, 3, 0, 0, 0, 0, 0, 0] := by decide +kernel
  rw [hsw] at hus hvs hw
  have h1 := hw 1 (by simp)
  have h3 := hw 3 (by simp)
  simp only [List.mem_cons, not_or] at hus hvs
  simp only [demoPath]
  rcases lt_trichotomy u 1 with hu1 | hu1 | hu1
  · have : ¬ 1 < v := fun h => absurd (h1.2 h) (by linarith)
    have hv1 : v < 1 := lt_of_le_of_ne (not_lt.1 this) hvs.1
    rw [if_pos hu1, if_pos hv1]
  · exact absurd hu1 hus.1
  · have hv1 := h1.1 hu1
    rw [if_neg (show ¬ u < 1 by linarith), if_neg (show ¬ v < 1 by linarith)]
    by_cases hu3 : 3 < u
    · rw [if_neg (show ¬ u < 3 by linarith), if_neg (show ¬ v < 3 by linarith [h3.1 hu3])]
    · have hv3 : ¬ 3 < v := fun h => hu3 (h3.2 h)
      rw [if_pos (lt_of_le_of_ne (not_lt.1 hu3) hus.2.1), if_pos (lt_of_le_of_ne (not_lt.1 hv3) hvs.2.1)]

/-- **C55 is violated** when the largest admissible acceleration in the direction exceeds the fixed bound: the path is returned without any check, although its acceleration from 1 to 3 is not admissible. -/
theorem C55_violated : (steer (demoSteer 1) 0 1 false).range.map (fun r => (r.2.1, r.2.2)) = some (0, 4) ∧ (demoSteer 1).admissible 0 (demoPath.acc 2) = false := by
  decide +kernel

/-- **C55 is violated** for a phase not longer than 0.0001: its acceleration is never checked. -/
theorem C55_short_violated :
    let p : KPath ℚ ℚ := ⟨4, [(1, 1 / 20000, 0)], fun t => if t < 1 then 1 else if t < 1 + 1 / 20000 then -1 else 0⟩
    (cutForward (demoSteer 5) 0 p).range.map (fun r => (r.2.1, r.2.2)) = some (0, 4) ∧ (demoSteer 5).admissible 0 (p.acc 1) = false := by
  decide +kernel

/-! ### C116: bounds -/

/-- C116 (part): if the largest admissible acceleration `alpha` in the direction is not above the fixed bound and at least the margin, the bounds along x and y are the components of `alpha - 0.01` times the direction, hence not above those of the largest acceleration; along z the bound is at least the fixed one. -/
theorem C116_partial (env : SteerEnv K A C N) (node : N) (target : C) (reverse : Bool) (alpha : K) (d : Vec3 K)
    (hd : (computeDirection env (env.config node) target reverse).2 = d) (hn : (1 / 2 ^ 52) ^ 2 < d.normSq) (ha : env.maxAcceleration node d = alpha) (hle : alpha ≤ env.aMaxFixed) (hm : 1 / 100 ≤ alpha) :
    let b := setBounds env node target reverse
    b.upToDate = false ∧ b.aMax.x = (alpha - 1 / 100) * |d.x| ∧ b.aMax.y = (alpha - 1 / 100) * |d.y| ∧ b.aMax.x ≤ alpha * |d.x| ∧ b.aMax.y ≤ alpha * |d.y| ∧
      b.aMax.z = max ((alpha - 1 / 100) * |d.z|) env.aMaxFixedZ := by
  have hnn : 0 ≤ alpha - 1 / 100 := by linarith
  have e : setBounds env node target reverse = ⟨(computeDirection env (env.config node) target reverse).1,
      if (alpha - 1 / 100) * |d.z| < env.aMaxFixedZ then ⟨(alpha - 1 / 100) * |d.x|, (alpha - 1 / 100) * |d.y|, env.aMaxFixedZ⟩ else ⟨(alpha - 1 / 100) * |d.x|, (alpha - 1 / 100) * |d.y|, (alpha - 1 / 100) * |d.z|⟩, false⟩ := by
    unfold setBounds
    dsimp only
    rw [hd, if_neg (not_le.2 hn), ha, if_pos hle]
    simp only [abs_mul, abs_of_nonneg hnn]
  rw [e]
  dsimp only
  have hx : (alpha - 1 / 100) * |d.x| ≤ alpha * |d.x| := mul_le_mul_of_nonneg_right (by linarith) (abs_nonneg _)
  have hy : (alpha - 1 / 100) * |d.y| ≤ alpha * |d.y| := mul_le_mul_of_nonneg_right (by linarith) (abs_nonneg _)
  split_ifs with h
  · exact ⟨rfl, rfl, rfl, hx, hy, (max_eq_right h.le).symm⟩
  · exact ⟨rfl, rfl, rfl, hx, hy, (max_eq_left (not_lt.1 h)).symm⟩

/-- non-vacuity of C116_partial -/
example : (computeDirection (demoSteer 5) ((demoSteer 5).config 0) 1 false).2 = ⟨1, 0, 0⟩ ∧ (demoSteer 5).maxAcceleration 0 ⟨1, 0, 0⟩ = 2 := ⟨rfl, rfl⟩

/-- **C116 is violated** if the largest admissible acceleration is below half of the margin: the bound is the absolute value of a negative number, above the admissible acceleration. -/
theorem C116_violated (env : SteerEnv K A C N) (node : N) (target : C) (reverse : Bool) (alpha : K) (d : Vec3 K)
    (hd : (computeDirection env (env.config node) target reverse).2 = d) (hn : (1 / 2 ^ 52) ^ 2 < d.normSq) (ha : env.maxAcceleration node d = alpha) (hle : alpha ≤ env.aMaxFixed) (hm : alpha < 1 / 200)
    (hx : d.x ≠ 0) : (setBounds env node target reverse).upToDate = false ∧ alpha * |d.x| < (setBounds env node target reverse).aMax.x := by
  have hnn : alpha - 1 / 100 < 0 := by linarith
  have e : (setBounds env node target reverse).upToDate = false ∧ (setBounds env node target reverse).aMax.x = |(alpha - 1 / 100) * d.x| := by
    unfold setBounds
    dsimp only
    rw [hd, if_neg (not_le.2 hn), ha, if_pos hle]
    dsimp only
    split_ifs <;> exact ⟨rfl, rfl⟩
  refine ⟨e.1, ?_⟩
  rw [e.2, abs_mul, abs_of_neg hnn]
  have := abs_pos.2 hx
  nlinarith

/-- C116: where the direction comes from, and what happens without one.  The path is asked from hpp-core with the fixed bounds, from the configuration of the node to the target, or the other way
round when `reverse` is set.  Without such a path, or if it has no direction, the fixed bounds are kept and no path is returned; if the largest admissible acceleration in its direction is above the
fixed bound, the path itself is kept with the fixed bounds. -/
theorem C116_direction (env : SteerEnv K A C N) (node : N) (target : C) (reverse : Bool) :
    let fixed : Vec3 K := ⟨env.aMaxFixed, env.aMaxFixed, env.aMaxFixedZ⟩
    let first := if reverse then target else env.config node
    let last := if reverse then env.config node else target
    (env.kino fixed first last = none → setBounds env node target reverse = ⟨none, fixed, true⟩ ∧ steer env node target reverse = .null) ∧
    (∀ p, env.kino fixed first last = some p → (env.direction p).normSq ≤ (1 / 2 ^ 52) ^ 2 → setBounds env node target reverse = ⟨none, fixed, true⟩ ∧ steer env node target reverse = .null) ∧
    (∀ p, env.kino fixed first last = some p → (1 / 2 ^ 52) ^ 2 < (env.direction p).normSq → env.aMaxFixed < env.maxAcceleration node (env.direction p) →
      setBounds env node target reverse = ⟨some p, fixed, true⟩ ∧ (0 < env.aMaxFixed → steer env node target reverse = .whole p)) ∧
    (∀ p, env.kino fixed first last = some p → (computeDirection env (env.config node) target reverse).2 = env.direction p) := by
  dsimp only
  have hk : (computeDirection env (env.config node) target reverse).1 = env.kino ⟨env.aMaxFixed, env.aMaxFixed, env.aMaxFixedZ⟩ (if reverse then target else env.config node) (if reverse then env.config node else target) := by
    cases reverse <;> rfl
  have hd : (computeDirection env (env.config node) target reverse).2 = match (computeDirection env (env.config node) target reverse).1 with
    | some p => env.direction p
    | none => ⟨0, 0, 0⟩ := rfl
  have hsmall : (setBounds env node target reverse = ⟨none, ⟨env.aMaxFixed, env.aMaxFixed, env.aMaxFixedZ⟩, true⟩) → steer env node target reverse = .null := by
    intro h
    unfold steer
    rw [h]
    simp only [if_true, ite_self]
  refine ⟨fun h => ?_, fun p h hn => ?_, fun p h hn ha => ?_, fun p h => ?_⟩
  · rw [h] at hk
    have e : setBounds env node target reverse = ⟨none, ⟨env.aMaxFixed, env.aMaxFixed, env.aMaxFixedZ⟩, true⟩ := by
      unfold setBounds
      dsimp only
      rw [hd, hk]
      rw [if_pos (by simp [Vec3.normSq, Vec3.dot])]
    exact ⟨e, hsmall e⟩
  · rw [h] at hk
    have e : setBounds env node target reverse = ⟨none, ⟨env.aMaxFixed, env.aMaxFixed, env.aMaxFixedZ⟩, true⟩ := by
      unfold setBounds
      dsimp only
      rw [hd, hk]
      rw [if_pos hn]
    exact ⟨e, hsmall e⟩
  · rw [h] at hk
    have e : setBounds env node target reverse = ⟨some p, ⟨env.aMaxFixed, env.aMaxFixed, env.aMaxFixedZ⟩, true⟩ := by
      unfold setBounds
      dsimp only
      rw [hd, hk]
      dsimp only
      rw [if_neg (not_le.2 hn), if_neg (not_le.2 ha)]
      simp
    refine ⟨e, fun hp => ?_⟩
    unfold steer
    rw [e]
    dsimp only
    rw [if_neg (by rw [abs_of_pos hp]; linarith)]
    rfl
  · rw [hd, hk, h]

/-- non-vacuity of C116_direction: the third case -/
example : (demoSteer 1).kino ⟨(demoSteer 1).aMaxFixed, (demoSteer 1).aMaxFixed, (demoSteer 1).aMaxFixedZ⟩ ((demoSteer 1).config 0) 1 = some demoPath ∧
    (1 / 2 ^ 52) ^ 2 < ((demoSteer 1).direction demoPath).normSq ∧ (demoSteer 1).aMaxFixed < (demoSteer 1).maxAcceleration 0 ((demoSteer 1).direction demoPath) := by
  refine ⟨rfl, by decide +kernel, by decide +kernel⟩

/-! ### C57: dynamic validation -/
section validation
variable {Rom Obj M : Type _} [LinearOrder Rom] [DecidableEq Obj] [DecidableEq A]

/-- a history of calls that were all accepted, as in the validation of a path, which stops at the first rejection: the state afterwards -/
def accepts (env : DynEnv C A (Report Rom Obj) M) : DynState A (Report Rom Obj) M → List (C × Report Rom Obj) → Option (DynState A (Report Rom Obj) M)
  | st, [] => some st
  | st, (q, r) :: l =>
    match validate env st q (some r) with
    | some (true, st') => accepts env st' l
    | _ => none

/-- as many ROMs in contact, the common ones with the same objects -/
def Same (r r' : Report Rom Obj) : Prop := r.length = r'.length ∧ ∀ rom o o', r.find? rom = some o → r'.find? rom = some o' → o = o'

theorem sameContacts_iff (r r' : Report Rom Obj) (h : sameContacts r r' = true) : ∀ rom o o', r.find? rom = some o → r'.find? rom = some o' → o = o' := by
  intro rom o o' h1 h2
  unfold sameContacts at h
  rw [List.all_eq_true] at h
  have := h (rom, o') (AMap.find?_some_mem h2)
  simp only [h1, decide_eq_true_eq] at this
  exact this

/-- what is known after accepted calls -/
def DynInv (env : DynEnv C A (Report Rom Obj) M) (r0 : Report Rom Obj) (calls : List (C × Report Rom Obj)) (st : DynState A (Report Rom Obj) M) : Prop :=
  (st.lastReport = some r0 ∧ st.initContacts = true ∧ ∀ c ∈ calls, Same r0 c.2) ∨
  (st.initContacts = false ∧ ∃ c ∈ calls, st.lastReport = some c.2 ∧ st.matrices = some (env.fill c.2 c.1) ∧ ∃ a, st.lastAcc = some a ∧ env.admissible (env.fill c.2 c.1) a = true)

theorem validate_inv {env : DynEnv C A (Report Rom Obj) M} {r0 : Report Rom Obj} {calls : List (C × Report Rom Obj)} {st st' : DynState A (Report Rom Obj) M}
    (inv : DynInv env r0 calls st) {q : C} {r : Report Rom Obj} (h : validate env st q (some r) = some (true, st')) :
    DynInv env r0 (calls ++ [(q, r)]) st' ∧
    ((Same r0 r ∧ ∀ c ∈ calls, Same r0 c.2) ∨ ∃ c ∈ calls ++ [(q, r)], (c = (q, r) ∨ Same c.2 r) ∧ env.admissible (env.fill c.2 c.1) (env.acceleration q) = true) := by
  have hlast : ∃ last, st.lastReport = some last := by
    rcases inv with ⟨h, -⟩ | ⟨-, c, -, h, -⟩
    · exact ⟨_, h⟩
    · exact ⟨_, h⟩
  obtain ⟨last, hlast⟩ := hlast
  unfold validate at h
  rw [hlast] at h
  simp only at h
  by_cases h1 : last.length ≠ r.length
  · rw [if_pos h1] at h; simp at h
  · rw [if_neg h1] at h
    push Not at h1
    by_cases h2 : sameContacts last r = true ∧ st.initContacts = true
    · rw [if_pos h2] at h
      simp only [Option.some.injEq, Prod.mk.injEq, true_and] at h
      subst h
      rcases inv with ⟨hl, hi, hall⟩ | ⟨hi, -⟩
      · rw [hlast, Option.some.injEq] at hl
        subst hl
        have hs : Same last r := ⟨h1, sameContacts_iff _ _ h2.1⟩
        refine ⟨Or.inl ⟨hlast, hi, fun c hc => ?_⟩, Or.inl ⟨hs, hall⟩⟩
        rcases List.mem_append.1 hc with hc | hc
        · exact hall c hc
        · simp at hc; subst hc; exact hs
      · rw [hi] at h2; simp at h2
    · rw [if_neg h2] at h
      by_cases h3 : sameContacts last r = true
      · rw [if_pos h3] at h
        have hi : st.initContacts = false := by
          cases hi : st.initContacts with
          | false => rfl
          | true => exact absurd ⟨h3, hi⟩ h2
        rcases inv with ⟨-, hi', -⟩ | ⟨-, c, hc, hl, hm, a, ha, hadm⟩
        · rw [hi] at hi'; cases hi'
        · rw [hlast, Option.some.injEq] at hl
          subst hl
          have hs : Same c.2 r := ⟨h1, sameContacts_iff _ _ h3⟩
          rw [ha, hm] at h
          simp only at h
          by_cases h4 : env.acceleration q = a
          · rw [if_pos h4] at h
            simp only [Option.some.injEq, Prod.mk.injEq, true_and] at h
            subst h
            exact ⟨Or.inr ⟨hi, c, by simp [hc], hlast, hm, a, ha, hadm⟩, Or.inr ⟨c, by simp [hc], Or.inr hs, by rw [h4]; exact hadm⟩⟩
          · rw [if_neg h4] at h
            simp only [Option.some.injEq, Prod.mk.injEq] at h
            obtain ⟨hv, rfl⟩ := h
            exact ⟨Or.inr ⟨hi, c, by simp [hc], rfl, rfl, _, rfl, hv⟩, Or.inr ⟨c, by simp [hc], Or.inr hs, hv⟩⟩
      · rw [if_neg h3] at h
        simp only [Option.some.injEq, Prod.mk.injEq] at h
        obtain ⟨hv, rfl⟩ := h
        exact ⟨Or.inr ⟨rfl, (q, r), by simp, rfl, rfl, _, rfl, hv⟩, Or.inr ⟨(q, r), by simp, Or.inl rfl, hv⟩⟩

theorem accepts_inv {env : DynEnv C A (Report Rom Obj) M} {r0 : Report Rom Obj} (calls : List (C × Report Rom Obj)) {pre : List (C × Report Rom Obj)} {st st' : DynState A (Report Rom Obj) M}
    (inv : DynInv env r0 pre st) (h : accepts env st calls = some st') : DynInv env r0 (pre ++ calls) st' := by
  induction calls generalizing pre st with
  | nil => simp only [accepts, Option.some.injEq] at h; subst h; simpa using inv
  | cons c calls ih =>
    obtain ⟨q, r⟩ := c
    unfold accepts at h
    split at h
    · rename_i st1 hv
      have := ih (validate_inv inv hv).1 h
      simpa using this
    · cases h

theorem find?_of_same {r r' : Report Rom Obj} (hk : ∀ rom, r.find? rom ≠ none ↔ r'.find? rom ≠ none) (h : Same r r') (rom : Rom) : r.find? rom = r'.find? rom := by
  cases h1 : r.find? rom with
  | none =>
    by_contra h2
    exact absurd h1 ((hk rom).2 (fun e => h2 e.symm))
  | some o =>
    cases h2 : r'.find? rom with
    | none => exact absurd h2 ((hk rom).1 (by rw [h1]; simp))
    | some o' => rw [h.2 rom o o' h1 h2]

/-- C57 (part): in every history of accepted calls after setInitialReport, if reports with as many ROMs in contact have the same ROMs in contact, then the contacts of an accepted call are the initial ones, and were so since the beginning, or its acceleration is admissible for the matrices of a configuration of the history with the same contacts. -/
theorem C57_partial (env : DynEnv C A (Report Rom Obj) M) (st st' : DynState A (Report Rom Obj) M) (r0 : Report Rom Obj) (calls : List (C × Report Rom Obj)) (q : C) (r : Report Rom Obj)
    (hk : ∀ x ∈ r0 :: r :: calls.map Prod.snd, ∀ y ∈ r0 :: r :: calls.map Prod.snd, x.length = y.length → ∀ rom, x.find? rom ≠ none ↔ y.find? rom ≠ none)
    (h : accepts env (setInitialReport st (some r0)) calls = some st') (st'' : DynState A (Report Rom Obj) M) (hv : validate env st' q (some r) = some (true, st'')) :
    ((∀ rom, r0.find? rom = r.find? rom) ∧ ∀ c ∈ calls, ∀ rom, r0.find? rom = c.2.find? rom) ∨
    ∃ c ∈ calls ++ [(q, r)], (∀ rom, c.2.find? rom = r.find? rom) ∧ env.admissible (env.fill c.2 c.1) (env.acceleration q) = true := by
  have inv0 : DynInv env r0 [] (setInitialReport st (some r0)) := Or.inl ⟨rfl, rfl, by simp⟩
  have inv := accepts_inv calls inv0 h
  rw [List.nil_append] at inv
  have memc : ∀ c ∈ calls, c.2 ∈ r0 :: r :: calls.map Prod.snd := fun c hc => by
    simp only [List.mem_cons, List.mem_map]; exact Or.inr (Or.inr ⟨c, hc, rfl⟩)
  rcases (validate_inv inv hv).2 with ⟨hs, hall⟩ | ⟨c, hc, hs, hadm⟩
  · left
    exact ⟨find?_of_same (hk r0 (by simp) r (by simp) hs.1) hs, fun c hc => find?_of_same (hk r0 (by simp) c.2 (memc c hc) (hall c hc).1) (hall c hc)⟩
  · right
    refine ⟨c, hc, ?_, hadm⟩
    rcases hs with rfl | hs
    · exact fun _ => rfl
    · rcases List.mem_append.1 hc with hc' | hc'
      · exact find?_of_same (hk c.2 (memc c hc') r (by simp) hs.1) hs
      · simp at hc'; subst hc'; exact fun _ => rfl

/-- C57: a call with another number of ROMs in contact than in the last report is rejected, and leaves the state unchanged. -/
theorem C57_number (env : DynEnv C A (Report Rom Obj) M) (st : DynState A (Report Rom Obj) M) (last r : Report Rom Obj) (hl : st.lastReport = some last) (q : C) (h : last.length ≠ r.length) :
    validate env st q (some r) = some (false, st) := by
  unfold validate; rw [hl]; simp only; rw [if_pos h]

end validation

/-- an instance: a configuration is a position and an acceleration; with the contact object `o` and from the position `p` accelerations up to `o + p` are admissible -/
def demoDynamic : DynEnv (ℤ × ℤ) ℤ (Report ℕ ℤ) ℤ := ⟨fun q => q.2, fun r q => (r.map Prod.snd).sum + q.1, fun m a => decide (a ≤ m)⟩

/-- the state of a new object -/
def newState : DynState ℤ (Report ℕ ℤ) ℤ := ⟨none, false, none, none⟩

/-- non-vacuity: the contact of ROM 0 changes from object 5 to object 3, then the acceleration changes -/
example : ((accepts demoDynamic (setInitialReport newState (some [(0, 5)])) [((0, 9), [(0, 5)]), ((0, 2), [(0, 3)]), ((0, 1), [(0, 3)])]).map fun st => (st.lastReport, st.lastAcc)) = some (some [(0, 3)], some 1) ∧
    ((validate demoDynamic ⟨some [(0, 3)], false, some 1, some 3⟩ (0, 4) (some [(0, 3)])).map Prod.fst) = some false := by decide

/-- **C57 is violated**: an acceleration that was rejected is accepted at the next call. -/
theorem C57_cache_violated : ∃ st1, validate demoDynamic (setInitialReport newState (some [(0, 5)])) (0, 9) (some [(0, 3)]) = some (false, st1) ∧
    (validate demoDynamic st1 (0, 9) (some [(0, 3)])).map Prod.fst = some true ∧ demoDynamic.admissible (demoDynamic.fill [(0, 3)] (0, 9)) 9 = false := by
  exact ⟨⟨some [(0, 3)], false, some 9, some 3⟩, rfl, by decide, by decide⟩

/-- **C57 is violated** if another ROM is in contact: only common ROMs are compared. -/
theorem C57_names_violated : (validate demoDynamic (setInitialReport newState (some [(0, 5)])) (0, 9) (some [(1, 3)])).map Prod.fst = some true ∧
    demoDynamic.admissible (demoDynamic.fill [(1, 3)] (0, 9)) 9 = false := by decide

/-- **C57 is violated** when the robot moves with the same contacts: the matrices of the position where the contacts began are used. -/
theorem C57_position_violated : ((accepts demoDynamic (setInitialReport newState (some [(0, 5)])) [((0, 1), [(0, 3)]), ((-2, 3), [(0, 3)])]).isSome) = true ∧
    demoDynamic.admissible (demoDynamic.fill [(0, 3)] (-2, 3)) 3 = false := by decide

/-- **C57 is violated** before setInitialReport: a null pointer is dereferenced. -/
theorem C57_null_violated (q : ℤ × ℤ) (r : Report ℕ ℤ) : validate demoDynamic newState q (some r) = none := rfl

end Dynamic
end Rbprm
