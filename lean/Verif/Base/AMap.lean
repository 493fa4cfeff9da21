import Mathlib.Order.Defs.LinearOrder
import Mathlib.Order.Basic
import Mathlib.Tactic.Tauto
set_option linter.unusedSectionVars false
/-!
# `std::map` as a sorted association list

Used for every `std::map<K,V>` of hpp-rbprm.  Iterating the list is iterating the map in key
order, as `begin()..end()` does.
-/
namespace Rbprm

/-- `std::map<N,V>`; the list is in strictly increasing key order (see `AMap.WF`). [standard library, as used in rbprm-state.hh:121-124 and rbprm-fullbody.hh:188-193] -/
abbrev AMap (N V : Type _) := List (N × V)

namespace AMap
variable {N V W : Type _}

/-- the keys in iteration order [standard library, as used in rbprm-state.hh:121-124 and rbprm-fullbody.hh:188-193] -/
def keys (m : AMap N V) : List N := m.map Prod.fst

/-- representation invariant: keys strictly increasing [standard library, as used in rbprm-state.hh:121-124 and rbprm-fullbody.hh:188-193] -/
def WF [LT N] (m : AMap N V) : Prop := (keys m).Pairwise (· < ·)

variable [LinearOrder N]

/-- `m.find(k)` / `m.at(k)`: `none` is `m.end()` (resp. a thrown `std::out_of_range`). [standard library; e.g. rbprm-state.cc:50-71] -/
def find? : AMap N V → N → Option V
  | [], _ => none
  | (k', v) :: m, k => if k' = k then some v else find? m k

/-- `m.erase(k)` [standard library; e.g. rbprm-state.cc:50-71] -/
def erase (m : AMap N V) (k : N) : AMap N V := m.filter (fun p => p.1 ≠ k)

/-- `m.find(k) != m.end()` [standard library; e.g. rbprm-state.hh:146] -/
def has (m : AMap N V) (k : N) : Bool := (find? m k).isSome

/-- `m[k] = v` (insert or overwrite) [standard library; e.g. contact_generation.cc:649-671] -/
def set : AMap N V → N → V → AMap N V
  | [], k, v => [(k, v)]
  | (k', v') :: m, k, v =>
    if k < k' then (k, v) :: (k', v') :: m
    else if k = k' then (k, v) :: m
    else (k', v') :: set m k v

/-- `m.insert(std::make_pair(k,v))`: does nothing when the key is present [standard library; e.g. rbprm-fullbody.cc:62-123] -/
def insertNew (m : AMap N V) (k : N) (v : V) : AMap N V :=
  if has m k then m else set m k v

/-! ### basic facts -/

@[simp] theorem keys_nil : keys ([] : AMap N V) = [] := rfl
@[simp] theorem keys_cons (p : N × V) (m : AMap N V) : keys (p :: m) = p.1 :: keys m := rfl
@[simp] theorem find?_nil (k : N) : find? ([] : AMap N V) k = none := rfl
theorem find?_cons (k' : N) (v : V) (m : AMap N V) (k : N) :
    find? ((k', v) :: m) k = if k' = k then some v else find? m k := rfl

theorem WF_nil : WF ([] : AMap N V) := List.Pairwise.nil

theorem WF_cons {p : N × V} {m : AMap N V} :
    WF (p :: m) ↔ (∀ k ∈ keys m, p.1 < k) ∧ WF m := List.pairwise_cons

theorem WF.tail {p : N × V} {m : AMap N V} (h : WF (p :: m)) : WF m := (WF_cons.1 h).2

theorem WF.nodup {m : AMap N V} (h : WF m) : (keys m).Nodup :=
  h.imp (fun h => ne_of_lt h)

theorem find?_isSome {m : AMap N V} {k : N} : (find? m k).isSome ↔ k ∈ keys m := by
  induction m with
  | nil => simp
  | cons p m ih =>
    obtain ⟨k', v⟩ := p
    simp only [find?_cons, keys_cons, List.mem_cons]
    by_cases h : k' = k
    · simp [h]
    · simp [h, ih, Ne.symm h]

theorem has_iff {m : AMap N V} {k : N} : has m k = true ↔ k ∈ keys m := by
  simp [has, find?_isSome]

theorem find?_eq_none {m : AMap N V} {k : N} : find? m k = none ↔ k ∉ keys m := by
  rw [← find?_isSome]; cases find? m k <;> simp

theorem find?_some_mem {m : AMap N V} {k : N} {v : V} (h : find? m k = some v) :
    (k, v) ∈ m := by
  induction m with
  | nil => simp at h
  | cons p m ih =>
    obtain ⟨k', v'⟩ := p
    rw [find?_cons] at h
    by_cases hk : k' = k
    · simp [hk] at h; simp [hk, h]
    · simp [hk] at h; simp [ih h]

theorem mem_find? {m : AMap N V} (h : WF m) {k : N} {v : V} (hm : (k, v) ∈ m) :
    find? m k = some v := by
  induction m with
  | nil => simp at hm
  | cons p m ih =>
    obtain ⟨k', v'⟩ := p
    rw [find?_cons]
    rcases List.mem_cons.1 hm with he | he
    · cases he; simp
    · have hk : k ∈ keys m := List.mem_map.2 ⟨(k, v), he, rfl⟩
      have : k' < k := (WF_cons.1 h).1 k hk
      simp [ne_of_lt this, ih h.tail he]

theorem mem_keys_of_mem {m : AMap N V} {k : N} {v : V} (hm : (k, v) ∈ m) : k ∈ keys m :=
  List.mem_map.2 ⟨(k, v), hm, rfl⟩

theorem exists_of_mem_keys {m : AMap N V} {k : N} (h : k ∈ keys m) : ∃ v, (k, v) ∈ m := by
  obtain ⟨⟨k', v⟩, hm, rfl⟩ := List.mem_map.1 h
  exact ⟨v, hm⟩

/-! ### erase -/

theorem keys_erase (m : AMap N V) (k : N) : keys (erase m k) = (keys m).filter (· ≠ k) := by
  simp [keys, erase, List.filter_map, Function.comp_def]

theorem WF_erase {m : AMap N V} (h : WF m) (k : N) : WF (erase m k) := by
  unfold WF; rw [keys_erase]; exact h.filter _

theorem find?_erase (m : AMap N V) (k j : N) :
    find? (erase m k) j = if j = k then none else find? m j := by
  induction m with
  | nil => simp [erase]
  | cons p m ih =>
    obtain ⟨k', v⟩ := p
    by_cases h : k' = k
    · have : erase ((k', v) :: m) k = erase m k := by simp [erase, h]
      rw [this, ih, find?_cons]
      by_cases hj : j = k
      · simp [hj]
      · simp [hj, h, Ne.symm hj]
    · have : erase ((k', v) :: m) k = (k', v) :: erase m k := by simp [erase, h]
      rw [this, find?_cons, find?_cons, ih]
      by_cases hj : k' = j
      · subst hj; simp [h]
      · simp [hj]

theorem erase_of_not_mem {m : AMap N V} {k : N} (h : k ∉ keys m) : erase m k = m := by
  refine List.filter_eq_self.2 ?_
  rintro ⟨k', v⟩ hm
  have : k' ≠ k := fun e => h (e ▸ mem_keys_of_mem hm)
  simpa using this

/-! ### set -/

theorem mem_keys_set {m : AMap N V} {k j : N} {v : V} :
    j ∈ keys (set m k v) ↔ j = k ∨ j ∈ keys m := by
  induction m with
  | nil => simp [set]
  | cons p m ih =>
    obtain ⟨k', v'⟩ := p
    unfold set
    split_ifs with h1 h2
    · simp
    · subst h2; simp
    · simp only [keys_cons, List.mem_cons, ih]; tauto

theorem WF_set {m : AMap N V} (h : WF m) (k : N) (v : V) : WF (set m k v) := by
  induction m with
  | nil => simp [set, WF, keys]
  | cons p m ih =>
    obtain ⟨k', v'⟩ := p
    unfold set
    have hc := WF_cons.1 h
    split_ifs with h1 h2
    · refine WF_cons.2 ⟨?_, h⟩
      intro j hj
      rcases List.mem_cons.1 hj with e | e
      · exact e ▸ h1
      · exact lt_trans h1 (hc.1 j e)
    · subst h2; exact WF_cons.2 ⟨hc.1, hc.2⟩
    · refine WF_cons.2 ⟨?_, ih hc.2⟩
      intro j hj
      rcases mem_keys_set.1 hj with e | e
      · subst e; exact lt_of_le_of_ne (not_lt.1 h1) (Ne.symm h2)
      · exact hc.1 j e

theorem find?_set (m : AMap N V) (k : N) (v : V) (j : N) :
    find? (set m k v) j = if j = k then some v else find? m j := by
  induction m with
  | nil => simp [set, find?_cons, eq_comm]
  | cons p m ih =>
    obtain ⟨k', v'⟩ := p
    unfold set
    split_ifs with h1 h2 h3 h4 h5
    · subst h2; simp [find?_cons]
    · simp [find?_cons, Ne.symm h2]
    · subst h3; subst h4; simp [find?_cons]
    · subst h3; simp [find?_cons, Ne.symm h4]
    · subst h5; simp [find?_cons, ih, Ne.symm h3]
    · simp [find?_cons, ih, h5]

/-- on a new key `set` adds exactly one entry -/
theorem length_set_of_not_mem {m : AMap N V} {k : N} (v : V) (h : k ∉ keys m) :
    (set m k v).length = m.length + 1 := by
  induction m with
  | nil => simp [set]
  | cons p m ih =>
    obtain ⟨k', v'⟩ := p
    simp only [keys_cons, List.mem_cons, not_or] at h
    unfold set
    split_ifs with h1 h2
    · simp
    · exact absurd h2 h.1
    · simp [ih h.2]

/-- on an existing key `set` keeps the key sequence -/
theorem keys_set_of_mem {m : AMap N V} (hw : WF m) {k : N} (v : V) (h : k ∈ keys m) :
    keys (set m k v) = keys m := by
  induction m with
  | nil => simp at h
  | cons p m ih =>
    obtain ⟨k', v'⟩ := p
    have hc := WF_cons.1 hw
    unfold set
    split_ifs with h1 h2
    · rcases List.mem_cons.1 h with e | e
      · exact absurd h1 (by simp only [e, lt_irrefl, not_false_iff])
      · exact absurd (lt_trans h1 (hc.1 k e)) (lt_irrefl _)
    · simp [h2]
    · rcases List.mem_cons.1 h with e | e
      · exact absurd e h2
      · simp [ih hc.2 e]

theorem find?_insertNew (m : AMap N V) (k : N) (v : V) (j : N) :
    find? (insertNew m k v) j = if j = k then some ((find? m k).getD v) else find? m j := by
  unfold insertNew
  by_cases h : has m k = true
  · rw [if_pos h]
    have := find?_isSome.2 (has_iff.1 h)
    split_ifs with e
    · subst e; cases hf : find? m j with
      | some w => rfl
      | none => rw [hf] at this; simp at this
    · rfl
  · rw [if_neg h, find?_set]
    have hn : find? m k = none := find?_eq_none.2 (fun hc => h (has_iff.2 hc))
    rw [hn]; rfl

theorem WF_insertNew {m : AMap N V} (h : WF m) (k : N) (v : V) : WF (insertNew m k v) := by
  unfold insertNew; split_ifs
  · exact h
  · exact WF_set h k v

theorem ext_find? {m m' : AMap N V} (h : WF m) (h' : WF m') (e : ∀ k, find? m k = find? m' k) : m = m' := by
  induction m generalizing m' with
  | nil =>
    cases m' with
    | nil => rfl
    | cons p m' => have := e p.1; rw [find?_cons] at this; simp at this
  | cons p m ih =>
    cases m' with
    | nil => have := e p.1; rw [find?_cons] at this; simp at this
    | cons q m' =>
      have hp := WF_cons.1 h
      have hq := WF_cons.1 h'
      have hk : p.1 = q.1 := by
        rcases lt_trichotomy p.1 q.1 with hl | hl | hl
        · exfalso
          have := e p.1
          have h1 : find? (p :: m) p.1 = some p.2 := by rw [find?_cons]; simp
          have h2 : find? (q :: m') p.1 = none := find?_eq_none.2 (by
            intro hc; rcases List.mem_cons.1 hc with hc | hc
            · exact absurd hl (by rw [hc]; exact lt_irrefl _)
            · exact lt_irrefl _ (lt_trans hl (hq.1 _ hc)))
          rw [h1, h2] at this; simp at this
        · exact hl
        · exfalso
          have := e q.1
          have h1 : find? (q :: m') q.1 = some q.2 := by rw [find?_cons]; simp
          have h2 : find? (p :: m) q.1 = none := find?_eq_none.2 (by
            intro hc; rcases List.mem_cons.1 hc with hc | hc
            · exact absurd hl (by rw [hc]; exact lt_irrefl _)
            · exact lt_irrefl _ (lt_trans hl (hp.1 _ hc)))
          rw [h1, h2] at this; simp at this
      have hv : p.2 = q.2 := by
        have := e p.1; rw [find?_cons, find?_cons, ← hk] at this; simpa using this
      have ht : m = m' := by
        refine ih hp.2 hq.2 (fun k => ?_)
        by_cases hkk : k = p.1
        · have h1 : find? m k = none := find?_eq_none.2 (by
            intro hc; have := hp.1 _ hc; rw [hkk] at this; exact lt_irrefl _ this)
          have h2 : find? m' k = none := find?_eq_none.2 (by
            intro hc; have := hq.1 _ hc; rw [hkk, hk] at this; exact lt_irrefl _ this)
          rw [h1, h2]
        · have := e k
          rw [find?_cons, find?_cons, ← hk] at this
          simpa [Ne.symm hkk, hkk] using this
      rw [ht, show p = q from Prod.ext hk hv]

end AMap
end Rbprm
