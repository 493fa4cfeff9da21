import Verif.Model.State
import Mathlib.Data.List.Perm.Basic
import Mathlib.Data.List.Nodup
/-! Helper lemmas about the State model. -/
set_option linter.unusedSectionVars false
namespace Rbprm
namespace State
variable {N K : Type _} [LinearOrder N]

theorem requeueWithout_eq (l : List N) (n : N) : requeueWithout l n = l.filter (· ≠ n) := by
  induction l with
  | nil => rfl
  | cons a l ih =>
    by_cases h : n = a
    · subst h; simp [requeueWithout, ih]
    · simp [requeueWithout, h, ih, Ne.symm h]

section
variable [CommRing K] [LinearOrder K]

theorem mem_creationsLoop (prev : State N K) (m : AMap N (Vec3 K)) (out : List N) (n : N) :
    n ∈ creationsLoop prev m out ↔ n ∈ out ∨ ∃ p, (n, p) ∈ m ∧ isNewContact prev n p = true := by
  induction m generalizing out with
  | nil => simp [creationsLoop]
  | cons hd m ih =>
    obtain ⟨a, q⟩ := hd
    unfold creationsLoop
    split_ifs with h
    · rw [ih]
      simp only [Bool.and_eq_true, Bool.not_eq_true', List.contains_eq_mem, decide_eq_false_iff_not] at h
      simp only [List.mem_append, List.mem_cons, List.not_mem_nil, or_false, Prod.mk.injEq]
      constructor
      · rintro ((h' | rfl) | ⟨p, hp, hn⟩)
        · exact Or.inl h'
        · exact Or.inr ⟨q, Or.inl ⟨rfl, rfl⟩, h.1⟩
        · exact Or.inr ⟨p, Or.inr hp, hn⟩
      · rintro (h' | ⟨p, ⟨rfl, rfl⟩ | hp, hn⟩)
        · exact Or.inl (Or.inl h')
        · exact Or.inl (Or.inr rfl)
        · exact Or.inr ⟨p, hp, hn⟩
    · rw [ih]
      simp only [Bool.and_eq_true, Bool.not_eq_true', List.contains_eq_mem, decide_eq_false_iff_not,
        not_and, not_not] at h
      simp only [List.mem_cons, Prod.mk.injEq]
      constructor
      · rintro (h' | ⟨p, hp, hn⟩)
        · exact Or.inl h'
        · exact Or.inr ⟨p, Or.inr hp, hn⟩
      · rintro (h' | ⟨p, ⟨rfl, rfl⟩ | hp, hn⟩)
        · exact Or.inl h'
        · exact Or.inl (h hn)
        · exact Or.inr ⟨p, hp, hn⟩

theorem nodup_creationsLoop (prev : State N K) (m : AMap N (Vec3 K)) (out : List N)
    (h : out.Nodup) : (creationsLoop prev m out).Nodup := by
  induction m generalizing out with
  | nil => simpa [creationsLoop] using h
  | cons hd m ih =>
    obtain ⟨a, q⟩ := hd
    unfold creationsLoop
    split_ifs with hc
    · apply ih
      simp only [Bool.and_eq_true, Bool.not_eq_true', List.contains_eq_mem,
        decide_eq_false_iff_not] at hc
      rw [List.nodup_append]
      refine ⟨h, by simp, ?_⟩
      intro x hx y hy
      simp only [List.mem_singleton] at hy
      subst hy
      exact fun e => hc.2 (e ▸ hx)
    · exact ih out h

theorem isNewContact_iff (prev : State N K) (n : N) (q : Vec3 K) :
    isNewContact prev n q = true ↔
      ∀ p, prev.contactPositions.find? n = some p → 1 < 10000 * Vec3.distSq p q := by
  unfold isNewContact movedBy
  cases h : prev.contactPositions.find? n with
  | none => simp
  | some p => simp

theorem mem_contactCreationsInto {s prev : State N K} (h : s.contactPositions.WF) (out : List N) (n : N) :
    n ∈ contactCreationsInto s prev out ↔
      n ∈ out ∨ ∃ q, s.contactPositions.find? n = some q ∧
        ∀ p, prev.contactPositions.find? n = some p → 1 < 10000 * Vec3.distSq p q := by
  unfold contactCreationsInto
  rw [mem_creationsLoop]
  constructor
  · rintro (h' | ⟨p, hp, hn⟩)
    · exact Or.inl h'
    · exact Or.inr ⟨p, AMap.mem_find? h hp, (isNewContact_iff _ _ _).1 hn⟩
  · rintro (h' | ⟨p, hp, hn⟩)
    · exact Or.inl h'
    · exact Or.inr ⟨p, AMap.find?_some_mem hp, (isNewContact_iff _ _ _).2 hn⟩

theorem mem_contactCreations {s prev : State N K} (h : s.contactPositions.WF) (n : N) :
    n ∈ contactCreations s prev ↔
      ∃ q, s.contactPositions.find? n = some q ∧
        ∀ p, prev.contactPositions.find? n = some p → 1 < 10000 * Vec3.distSq p q := by
  unfold contactCreations
  rw [mem_contactCreationsInto h]; simp

theorem mem_contactVariations {s prev : State N K} (_h : s.contactPositions.WF)
    (hp : prev.contactPositions.WF) (n : N) :
    n ∈ contactVariations s prev ↔ n ∈ contactCreations s prev ∨ n ∈ contactBreaks s prev := by
  unfold contactVariations contactBreaksInto contactBreaks contactCreations contactBreaksInto
  rw [mem_contactCreationsInto hp, mem_contactCreationsInto hp]
  simp

theorem mem_freeEffectors (s : State N K) (l : List N) (e : N) :
    e ∈ freeEffectors s l ↔ e ∈ l ∧ s.contacts.find? e ≠ some true := by
  unfold freeEffectors
  simp only [List.mem_filter]
  refine and_congr_right fun _ => ?_
  cases h : s.contacts.find? e with
  | none => simp
  | some b => cases b <;> simp

theorem freeEffectors_sublist (s : State N K) (l : List N) : List.Sublist (freeEffectors s l) l :=
  List.filter_sublist

end

theorem printNames_ok (m : AMap N (Vec3 K)) : printNames m.length m = .ok m.keys := by
  induction m with
  | nil => rfl
  | cons p m ih => obtain ⟨a, b⟩ := p; simp [printNames, ih]

theorem printLoop_ok (ps : AMap N (Vec3 K)) (rs : AMap N (Mat3 K)) (m : AMap N (Vec3 K))
    (h1 : ∀ n ∈ m.keys, n ∈ ps.keys) (h2 : ∀ n ∈ m.keys, n ∈ rs.keys) :
    printLoop ps rs m.length m = .ok m.keys := by
  induction m with
  | nil => rfl
  | cons p m ih =>
    obtain ⟨a, b⟩ := p
    obtain ⟨v, hv⟩ := Option.isSome_iff_exists.1 (AMap.find?_isSome.2 (h1 a (by simp)))
    obtain ⟨w, hw⟩ := Option.isSome_iff_exists.1 (AMap.find?_isSome.2 (h2 a (by simp)))
    have := ih (fun n hn => h1 n (by simp [hn])) (fun n hn => h2 n (by simp [hn]))
    simp [printLoop, hv, hw, this]

theorem printNames_ub (m : AMap N (Vec3 K)) (c : Nat) (h : m.length < c) :
    printNames c m = .undefinedBehaviour := by
  induction m generalizing c with
  | nil => cases c with
    | zero => simp at h
    | succ c => rfl
  | cons p m ih =>
    obtain ⟨a, b⟩ := p
    cases c with
    | zero => simp at h
    | succ c => simp only [List.length_cons, Nat.add_lt_add_iff_right] at h; simp [printNames, ih c h]

end State
end Rbprm
