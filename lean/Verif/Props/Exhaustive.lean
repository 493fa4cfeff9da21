import Verif.Props.Filter
set_option linter.unusedSectionVars false
/-! # C189: deep filtering leaves nothing to simplify -/
namespace Rbprm
namespace Interp
open State Contact
variable {N K : Type _} [LinearOrder N] [CommRing K] [LinearOrder K]

/-! ## Specification -/

/-- the second of the frames `a b c d` could be replaced and the third dropped: one limb, the same, moves from `a`
to `b` and from `c` to `d`, something else happens from `b` to `c`, the two placements are less than 20 cm apart, and
`b` with that limb where `d` has it is a free state from which `d` is reachable -/
def Replaceable (sv : Solvers N K) (a b c d : Frame N K) : Prop :=
  ∃ limb n p q mid s, b.2.contactCreations a.2 = [limb] ∧ b.2.contactBreaks a.2 = [limb] ∧
    d.2.contactCreations c.2 = [limb] ∧ d.2.contactBreaks c.2 = [limb] ∧
    c.2.contactBreaks b.2 ≠ [limb] ∧ c.2.contactCreations b.2 ≠ [limb] ∧
    d.2.contactNormals.find? limb = some n ∧ d.2.contactPositions.find? limb = some p ∧
    b.2.contactPositions.find? limb = some q ∧
    25 * Vec3.distSq (q + sv.limbOffset limb) (p + sv.limbOffset limb) < 1 ∧
    sv.projectState limb { b.2 with configuration := d.2.configuration } n (p + sv.limbOffset limb) = (true, mid) ∧
    sv.projectRoot b.2.configuration mid = (true, s) ∧ sv.fullValid s.configuration = true ∧ sv.reach s d.2 = true

/-- the second of the frames `a b c d` could be skipped: the same limbs move from `a` to `b` and from `c` to `d`,
one contact is created from `b` to `c`, the first of those limbs moves by less than 10 cm from `a` to `b`, and `c`
with that limb where `a` has it is a free state reachable from `a` and from which `d` is reachable -/
def Skippable (sv : Solvers N K) (a b c d : Frame N K) : Prop :=
  ∃ limb more n p n1 q mid s, b.2.contactCreations a.2 = limb :: more ∧ b.2.contactBreaks a.2 = limb :: more ∧
    d.2.contactCreations c.2 = limb :: more ∧ d.2.contactBreaks c.2 = limb :: more ∧
    (c.2.contactCreations b.2).length = 1 ∧
    c.2.contactBreaks b.2 ≠ limb :: more ∧ c.2.contactCreations b.2 ≠ limb :: more ∧
    a.2.contactNormals.find? limb = some n ∧ a.2.contactPositions.find? limb = some p ∧
    b.2.contactPositions.find? limb = some q ∧ b.2.contactNormals.find? limb = some n1 ∧
    100 * Vec3.distSq (q + sv.limbOffset limb - Vec3.smul sv.centi n1)
      (p + sv.limbOffset limb - Vec3.smul sv.centi n) < 1 ∧
    sv.projectState limb { c.2 with configuration := a.2.configuration } n
      (p + sv.limbOffset limb - Vec3.smul sv.centi n) = (true, mid) ∧
    sv.projectRoot c.2.configuration mid = (true, s) ∧ sv.fullValid s.configuration = true ∧
    sv.reach a.2 s = true ∧ sv.reach s d.2 = true

/-- nothing in the plan `r` can be simplified -/
structure Tidy (sv : Solvers N K) (r : List (Frame N K)) : Prop where
  /-- no frame makes the move its successor makes, the successor being directly reachable -/
  moves : ∀ a b c, [a, b, c] <:+: r → sv.reach a.2 c.2 = true →
    b.2.contactBreaks a.2 = c.2.contactBreaks a.2 → b.2.contactCreations a.2 ≠ c.2.contactCreations b.2
  /-- no frame only breaks what its successor only creates, the successor being directly reachable -/
  breaks : ∀ a b c, [a, b, c] <:+: r → sv.reach a.2 c.2 = true → b.2.contactCreations a.2 = [] →
    c.2.contactBreaks b.2 = [] → c.2.contactCreations b.2 ≠ b.2.contactBreaks a.2
  /-- every inner frame differs from the one before in configuration and in contacts -/
  differ : ∀ a b c, [a, b, c] <:+: r → sv.epsilonSq < distSqList b.2.configuration a.2.configuration ∧
    (b.2.contactBreaks a.2 ≠ [] ∨ b.2.contactCreations a.2 ≠ [])
  replace : ∀ a b c d, Window r a b c d → ¬ Replaceable sv a b c d
  skip : ∀ a b c d, Window r a b c d → ¬ Skippable sv a b c d

/-! ## The dropping filters -/

theorem dropRec_length (D : Frame N K → Frame N K → Frame N K → Bool) (prev : Frame N K) (l : List (Frame N K)) :
    (dropRec D prev l).length ≤ l.length - 1 := by
  fun_induction dropRec D prev l with
  | case1 => simp
  | case2 prev cur nxt hc x t ih => simp at ih ⊢; omega
  | case3 prev cur nxt rest hc ih => simp at ih ⊢; omega
  | case4 => simp

/-- a window of three at the front or further on -/
theorem window3 {a b c p q r : Frame N K} {l : List (Frame N K)} (h : [a, b, c] <:+: p :: q :: r :: l) :
    (a = p ∧ b = q ∧ c = r) ∨ [a, b, c] <:+: q :: r :: l := by
  rcases List.infix_cons_iff.1 h with h | h
  · left; simpa using h
  · exact Or.inr h

theorem window3_short {a b c p q : Frame N K} (h : [a, b, c] <:+: [p, q]) : False := by
  have := h.length_le; simp at this

theorem dropRec_full (D : Frame N K → Frame N K → Frame N K → Bool) (prev : Frame N K) (l : List (Frame N K))
    (hl : l.length ≤ (dropRec D prev l).length + 1) :
    ∀ a b c, [a, b, c] <:+: prev :: l → D a b c = false := by
  fun_induction dropRec D prev l with
  | case1 => simp at hl
  | case2 prev cur nxt hc x t ih =>
    have := dropRec_length D nxt (x :: t)
    simp at this hl; omega
  | case3 prev cur nxt rest hc ih =>
    intro a b c h
    rcases window3 h with ⟨rfl, rfl, rfl⟩ | h
    · simpa using hc
    · exact ih (by simpa using hl) a b c h
  | case4 l x hx =>
    intro a b c h
    match l, hx with
    | [], _ => have := h.length_le; simp at this
    | [y], _ => exact (window3_short h).elim
    | y :: z :: t, hx => exact absurd rfl (hx y z t)

theorem obsoleteRec_full (sv : Solvers N K) (prev : Frame N K) (l : List (Frame N K))
    (hl : l.length ≤ (obsoleteRec sv prev l).length + 1) :
    ∀ a b c, [a, b, c] <:+: prev :: l → sv.epsilonSq < distSqList b.2.configuration a.2.configuration ∧
      (b.2.contactBreaks a.2 ≠ [] ∨ b.2.contactCreations a.2 ≠ []) := by
  fun_induction obsoleteRec sv prev l with
  | case1 prev cur nxt rest hc ih =>
    intro a b c h
    rcases window3 h with ⟨rfl, rfl, rfl⟩ | h
    · simpa [Bool.and_eq_true, List.isEmpty_iff, ← imp_iff_not_or] using hc
    · exact ih (by simpa using hl) a b c h
  | case2 prev cur nxt rest hc ih =>
    have := (obsoleteRec_sublist sv cur (nxt :: rest)).length_le
    simp at this hl; omega
  | case3 l x hx =>
    intro a b c h
    match l, hx with
    | [], _ => have := h.length_le; simp at this
    | [y], _ => exact (window3_short h).elim
    | y :: z :: t, hx => exact absurd rfl (hx y z t)

theorem short_window {a b c : Frame N K} {l : List (Frame N K)} (hl : l.length ≤ 2) : ¬ [a, b, c] <:+: l := by
  intro h; have := h.length_le; simp at this; omega

theorem repositioning_full (sv : Solvers N K) (l : List (Frame N K))
    (h : l.length ≤ (filterRepositioning sv l).length) :
    filterRepositioning sv l = l ∧ ∀ a b c, [a, b, c] <:+: l → RepeatsMove sv a b c = false := by
  refine ⟨(dropping_filters sv l).1.1.eq_of_length_le h, ?_⟩
  match l, h with
  | [], _ => exact fun a b c h => absurd h (short_window (by simp))
  | [_], _ => exact fun a b c h => absurd h (short_window (by simp))
  | [_, _], _ => exact fun a b c h => absurd h (short_window (by simp))
  | x :: y :: z :: t, h =>
    simp only [filterRepositioning, filterRepRec_eq, List.length_append, List.length_cons] at h
    exact dropRec_full _ x (y :: z :: t) (by simp at h ⊢; omega)

theorem breakCreate_full (sv : Solvers N K) (l : List (Frame N K))
    (h : l.length ≤ (filterBreakCreate sv l).length) :
    filterBreakCreate sv l = l ∧ ∀ a b c, [a, b, c] <:+: l → BreaksThenCreates sv a b c = false := by
  refine ⟨(dropping_filters sv l).2.1.1.eq_of_length_le h, ?_⟩
  match l, h with
  | [], _ => exact fun a b c h => absurd h (short_window (by simp))
  | [_], _ => exact fun a b c h => absurd h (short_window (by simp))
  | [_, _], _ => exact fun a b c h => absurd h (short_window (by simp))
  | x :: y :: z :: t, h =>
    simp only [filterBreakCreate, filterBreakRec_eq, List.length_append, List.length_cons] at h
    exact dropRec_full _ x (y :: z :: t) (by simp at h ⊢; omega)

theorem obsolete_full (sv : Solvers N K) (l : List (Frame N K)) (h : l.length ≤ (filterObsolete sv l).length) :
    filterObsolete sv l = l ∧ ∀ a b c, [a, b, c] <:+: l →
      sv.epsilonSq < distSqList b.2.configuration a.2.configuration ∧
      (b.2.contactBreaks a.2 ≠ [] ∨ b.2.contactCreations a.2 ≠ []) := by
  refine ⟨(dropping_filters sv l).2.2.1.eq_of_length_le h, ?_⟩
  match l, h with
  | [], _ => exact fun a b c h => absurd h (short_window (by simp))
  | [_], _ => exact fun a b c h => absurd h (short_window (by simp))
  | [_, _], _ => exact fun a b c h => absurd h (short_window (by simp))
  | x :: y :: z :: t, h =>
    simp only [filterObsolete, List.length_append, List.length_cons] at h
    exact obsoleteRec_full _ x (y :: z :: t) (by simp at h ⊢; omega)

/-! ## The replacing filters -/

theorem window4 {a b c d p q r s : Frame N K} {l : List (Frame N K)} (h : Window (p :: q :: r :: s :: l) a b c d) :
    (a = p ∧ b = q ∧ c = r ∧ d = s) ∨ Window (q :: r :: s :: l) a b c d := by
  rcases List.infix_cons_iff.1 h with h | h
  · left; simpa using h
  · exact Or.inr h

theorem replaceable_run {sv : Solvers N K} {a b c d : Frame N K} (h : Replaceable sv a b c d) :
    (decide ((d.2.contactCreations c.2).length = 1) && sameMove a.2 b.2 c.2 d.2) = true ∧
    ∃ s, replaceOf sv b.2 c.2 d.2 = some (some s) := by
  obtain ⟨limb, n, p, q, mid, s, h1, h2, h3, h4, h5, h6, e1, e2, e3, hd, p1, p2, hv, hr⟩ := h
  constructor
  · rw [Bool.and_eq_true, decide_eq_true_eq, sameMove_iff]
    exact ⟨by rw [h3]; rfl, by rw [h2, h4], by rw [h1, h2], by rw [h2, h3], by rw [h2]; exact h5.symm,
      by rw [h1]; exact h6.symm⟩
  · refine ⟨s, ?_⟩
    unfold replaceOf rebuild
    simp [h3, e1, e2, e3, p1, p2, hv, hr, hd]

theorem skippable_run {sv : Solvers N K} {a b c d : Frame N K} (h : Skippable sv a b c d) :
    (decide ((c.2.contactCreations b.2).length = 1) && sameMove a.2 b.2 c.2 d.2) = true ∧
    ∃ s, skipOf sv a.2 b.2 c.2 d.2 = some (some s) := by
  obtain ⟨limb, more, n, p, n1, q, mid, s, h1, h2, h3, h4, h5, h6, h7, e1, e2, e3, e4, hd, p1, p2, hv, hr, hr'⟩ := h
  constructor
  · rw [Bool.and_eq_true, decide_eq_true_eq, sameMove_iff]
    exact ⟨h5, by rw [h2, h4], by rw [h1, h2], by rw [h2, h3], by rw [h2]; exact h6.symm,
      by rw [h1]; exact h7.symm⟩
  · refine ⟨s, ?_⟩
    unfold skipOf rebuild
    simp [h1, e1, e2, e3, e4, p1, p2, hv, hr, hr', hd]

theorem tryReplace_full (sv : Solvers N K) (l out : List (Frame N K)) (h : tryReplaceRec sv l = some out)
    (hl : l.length ≤ out.length) : out = l ∧ ∀ a b c d, Window l a b c d → ¬ Replaceable sv a b c d := by
  fun_induction tryReplaceRec sv l generalizing out with
  | case1 => cases h
  | case2 a b c d rest hc s hs ih =>
    rw [Option.map_eq_some_iff] at h
    obtain ⟨r, hr, rfl⟩ := h
    have := (tryReplace_filtered sv _ r hr).length_le
    simp at this hl; omega
  | case3 a b c d rest hc hs ih =>
    rw [Option.map_eq_some_iff] at h
    obtain ⟨r, hr, rfl⟩ := h
    obtain ⟨i1, i2⟩ := ih r hr (by simpa using hl)
    refine ⟨by rw [i1], fun a' b' c' d' hw hR => ?_⟩
    rcases window4 hw with ⟨rfl, rfl, rfl, rfl⟩ | hw
    · obtain ⟨_, s, e⟩ := replaceable_run hR
      rw [e] at hs; cases hs
    · exact i2 _ _ _ _ hw hR
  | case4 a b c d rest hc ih =>
    rw [Option.map_eq_some_iff] at h
    obtain ⟨r, hr, rfl⟩ := h
    obtain ⟨i1, i2⟩ := ih r hr (by simpa using hl)
    refine ⟨by rw [i1], fun a' b' c' d' hw hR => ?_⟩
    rcases window4 hw with ⟨rfl, rfl, rfl, rfl⟩ | hw
    · exact hc (replaceable_run hR).1
    · exact i2 _ _ _ _ hw hR
  | case5 l hx =>
    cases h
    refine ⟨rfl, fun a b c d hw => ?_⟩
    have := List.IsInfix.length_le hw
    match l, hx with
    | [], _ | [_], _ | [_, _], _ | [_, _, _], _ => simp at this
    | p :: q :: r :: s :: t, hx => exact absurd rfl (hx p q r s t)

theorem trySkip_full (sv : Solvers N K) (l out : List (Frame N K)) (h : trySkipRec sv l = some out)
    (hl : l.length ≤ out.length) : out = l ∧ ∀ a b c d, Window l a b c d → ¬ Skippable sv a b c d := by
  fun_induction trySkipRec sv l generalizing out with
  | case1 => cases h
  | case2 a b c d rest hc s hs ih =>
    rw [Option.map_eq_some_iff] at h
    obtain ⟨r, hr, rfl⟩ := h
    have := (trySkip_filtered sv _ r hr).length_le
    simp at this hl; omega
  | case3 a b c d rest hc hs ih =>
    rw [Option.map_eq_some_iff] at h
    obtain ⟨r, hr, rfl⟩ := h
    obtain ⟨i1, i2⟩ := ih r hr (by simpa using hl)
    refine ⟨by rw [i1], fun a' b' c' d' hw hR => ?_⟩
    rcases window4 hw with ⟨rfl, rfl, rfl, rfl⟩ | hw
    · obtain ⟨_, s, e⟩ := skippable_run hR
      rw [e] at hs; cases hs
    · exact i2 _ _ _ _ hw hR
  | case4 a b c d rest hc ih =>
    rw [Option.map_eq_some_iff] at h
    obtain ⟨r, hr, rfl⟩ := h
    obtain ⟨i1, i2⟩ := ih r hr (by simpa using hl)
    refine ⟨by rw [i1], fun a' b' c' d' hw hR => ?_⟩
    rcases window4 hw with ⟨rfl, rfl, rfl, rfl⟩ | hw
    · exact hc (skippable_run hR).1
    · exact i2 _ _ _ _ hw hR
  | case5 l hx =>
    cases h
    refine ⟨rfl, fun a b c d hw => ?_⟩
    have := List.IsInfix.length_le hw
    match l, hx with
    | [], _ | [_], _ | [_, _], _ | [_, _, _], _ => simp at this
    | p :: q :: r :: s :: t, hx => exact absurd rfl (hx p q r s t)

/-! ## One pass, and the loop -/

/-- a pass that does not shorten the plan changes nothing, and there was nothing to simplify -/
theorem pass_full (sv : Solvers N K) (l out : List (Frame N K)) (h : filterStatesRec sv l = some out)
    (hl : l.length ≤ out.length) : out = l ∧ Tidy sv l := by
  unfold filterStatesRec at h
  split at h
  · cases h
  · rename_i m hm
    have l1 := (dropping_filters sv l).1.1.length_le
    have l2 := (dropping_filters sv (filterRepositioning sv l)).2.1.1.length_le
    have l3 := (dropping_filters sv (filterBreakCreate sv (filterRepositioning sv l))).2.2.1.length_le
    have l4 := (tryReplace_filtered sv _ m hm).length_le
    have l5 := (trySkip_filtered sv m out h).length_le
    obtain ⟨e1, w1⟩ := repositioning_full sv l (by omega)
    rw [e1] at l2 l3 l4 hm
    obtain ⟨e2, w2⟩ := breakCreate_full sv l (by omega)
    rw [e2] at l3 l4 hm
    obtain ⟨e3, w3⟩ := obsolete_full sv l (by omega)
    rw [e3] at l4 hm
    obtain ⟨e4, w4⟩ := tryReplace_full sv l m hm (by omega)
    subst e4
    obtain ⟨e5, w5⟩ := trySkip_full sv m out h (by omega)
    refine ⟨e5, ⟨?_, ?_, w3, w4, w5⟩⟩
    · intro a b c hw hr h1 h2
      have := w1 a b c hw
      simp [RepeatsMove, hr, h1, h2] at this
    · intro a b c hw hr h1 h2 h3
      have := w2 a b c hw
      simp [BreaksThenCreates, hr, h1, h2] at this
      exact this h3

/-- **C189** Deep filtering is exhaustive: in the plan it returns no frame makes the move of a directly
reachable successor, none only breaks what a directly reachable successor creates again, every inner frame differs
from the one before, and no frame can be replaced or skipped. -/
theorem C189_exhausted (sv : Solvers N K) (fuel : Nat) (l r : List (Frame N K)) (h3 : 3 ≤ l.length)
    (h : filterStates sv fuel true l = .done r) : Tidy sv r := by
  obtain ⟨mid, h1, h2⟩ := (C27_filter_partial sv fuel true l r h).2.2 rfl (by omega)
  obtain ⟨e, t⟩ := pass_full sv mid r h1 (by omega)
  rw [e]; exact t

/-- **C189 (idempotence)** filtering a deeply filtered plan, with any number of passes allowed, returns it. -/
theorem C189_idempotent (sv : Solvers N K) (fuel fuel' : Nat) (l r : List (Frame N K))
    (h : filterStates sv fuel true l = .done r) :
    filterStates sv (fuel' + 1) true r = .done r ∧ filterStates sv fuel' false r = .done r := by
  by_cases h3 : 3 ≤ l.length
  · obtain ⟨mid, h1, h2⟩ := (C27_filter_partial sv fuel true l r h).2.2 rfl (by omega)
    obtain ⟨e, t⟩ := pass_full sv mid r h1 (by omega)
    subst e
    unfold filterStates
    by_cases hl : r.length ≤ 2
    · simp [hl]
    · refine ⟨?_, ?_⟩
      · simp only [if_neg hl, deepLoop, h1, if_true]
      · simp only [if_neg hl, Bool.false_eq_true, if_false]
        have l1 := (dropping_filters sv r).1.1.length_le
        congr 1
        refine (obsolete_full sv r ?_).1
        match r, t, hl with
        | [], _, hl | [_], _, hl | [_, _], _, hl => simp at hl
        | x :: y :: z :: w, t, _ =>
          have key : ∀ (prev : Frame N K) (l : List (Frame N K)), (∀ a b c, [a, b, c] <:+: prev :: l →
              sv.epsilonSq < distSqList b.2.configuration a.2.configuration ∧
              (b.2.contactBreaks a.2 ≠ [] ∨ b.2.contactCreations a.2 ≠ [])) →
              l.length ≤ (obsoleteRec sv prev l).length + 1 := by
            intro prev l
            fun_induction obsoleteRec sv prev l with
            | case1 prev cur nxt rest hc ih =>
              intro hw
              have := ih (fun a b c h => hw a b c (h.trans (List.suffix_cons prev _).isInfix))
              simpa using this
            | case2 prev cur nxt rest hc ih =>
              intro hw
              obtain ⟨h1, h2⟩ := hw prev cur nxt ⟨[], rest, rfl⟩
              exfalso
              apply hc
              rw [Bool.and_eq_true, decide_eq_true_eq]
              refine ⟨h1, ?_⟩
              rcases h2 with h2 | h2 <;> simp [h2]
            | case3 l x hx =>
              intro _
              match l, hx with
              | [], _ => simp
              | [_], _ => simp
              | y :: z :: t, hx => exact absurd rfl (hx y z t)
          have := key x (y :: z :: w) t.differ
          simp only [filterObsolete, List.length_append, List.length_cons] at this ⊢
          simp at this ⊢; omega
  · have hl : l.length ≤ 2 := by omega
    unfold filterStates at h ⊢
    rw [if_pos hl] at h
    cases h
    simp [hl]

/-- the shallow mode is not idempotent: it compares a frame with the preceding input frame, even if that one is
dropped -/
theorem C189_shallow_not_idempotent : ∃ l r r' : List (Frame ℕ ℤ), filterStates demoSv 5 false l = .done r ∧
    filterStates demoSv 5 false r = .done r' ∧ r.map Prod.fst = [0, 2, 3] ∧ r'.map Prod.fst = [0, 3] := by
  refine ⟨[(0, mk [0] [(1, 0)]), (1, mk [0] [(1, 1)]), (2, mk [1] [(1, 0)]), (3, mk [3] [(1, 6)])], _, _, rfl, rfl, ?_, ?_⟩ <;> decide

/-- a plan of four frames of which deep filtering, in two passes, keeps three -/
theorem C189_example : ∃ r, filterStates demoSv 10 true replPlan = .done r ∧ r.length = 3 ∧ Tidy demoSv r := by
  refine ⟨_, rfl, by decide, C189_exhausted demoSv 10 replPlan _ (by decide) rfl⟩

end Interp
end Rbprm
