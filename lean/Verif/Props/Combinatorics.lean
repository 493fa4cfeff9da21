import Verif.Lemmas.Combinatorics
/-!
# Properties C11–C14: enumeration of contact candidates
-/
set_option linter.unusedSectionVars false
namespace Rbprm
namespace Contact
open State
variable {N K : Type _} [LinearOrder N]

/-! ## C11 -/

/-- Specification: `c` is `s` after breaking exactly the contacts missing from `c`'s contact order. -/
structure BrokenTo (s c : State N K) : Prop where
  order : c.contactOrder.Sublist s.contactOrder
  contacts : ∀ n, c.contacts.find? n = if n ∈ c.contactOrder then s.contacts.find? n else none
  normals : ∀ n, c.contactNormals.find? n =
    if n ∈ c.contactOrder then s.contactNormals.find? n else none
  positions : ∀ n, c.contactPositions.find? n =
    if n ∈ c.contactOrder then s.contactPositions.find? n else none
  rotations : ∀ n, c.contactRotation.find? n =
    if n ∈ c.contactOrder then s.contactRotation.find? n else none
  counter : c.nbContacts = c.contactOrder.length
  configuration : c.configuration = s.configuration
  unbroken : c.contactOrder = s.contactOrder → c = s
  broken : c.contactOrder ≠ s.contactOrder → c.stable = false

theorem find?_filter_mem {V : Type _} (m : AMap N V) (k : List N) (n : N) :
    AMap.find? (m.filter (fun p => decide (p.1 ∈ k))) n = if n ∈ k then AMap.find? m n else none := by
  induction m with
  | nil => simp
  | cons p m ih =>
    obtain ⟨a, v⟩ := p
    by_cases h : a ∈ k
    · rw [List.filter_cons_of_pos (by simpa using h), AMap.find?_cons, AMap.find?_cons, ih]
      by_cases e : a = n
      · subst e; simp [h]
      · simp [e]
    · rw [List.filter_cons_of_neg (by simpa using h), ih, AMap.find?_cons]
      by_cases e : a = n
      · subst e; simp [h]
      · simp [e]

theorem brokenTo_keepOnly (s : State N K) (h : Consistent s) {k : List N} (hk : k.Sublist s.contactOrder) :
    BrokenTo s (keepOnly s k) where
  order := hk
  contacts := find?_filter_mem _ _
  normals := find?_filter_mem _ _
  positions := find?_filter_mem _ _
  rotations := find?_filter_mem _ _
  counter := rfl
  configuration := rfl
  unbroken := by intro e; change k = _ at e; subst e; exact keepOnly_order s h
  broken := by intro e; exact if_neg e

/-- **C11** For a consistent state with other than one contact, `maintain_contacts_combinatorial`
returns exactly the states obtained by breaking at most `maxBroken` contacts, each once, ordered by
number of broken contacts, the unbroken state first. -/
theorem C11_maintain_combinatorial (s : State N K) (h : Consistent s) (h1 : s.nbContacts ≠ 1)
    (maxBroken : Nat) :
    let cands := maintainContactsCombinatorial s maxBroken
    (∀ c ∈ cands, BrokenTo s c ∧ s.contactOrder.length ≤ c.contactOrder.length + maxBroken) ∧
    (∀ kept : List N, kept.Sublist s.contactOrder → s.contactOrder.length ≤ kept.length + maxBroken →
      ∃ c ∈ cands, c.contactOrder = kept) ∧
    (cands.map State.contactOrder).Nodup ∧
    cands.Pairwise (fun c c' => c'.contactOrder.length ≤ c.contactOrder.length) ∧
    cands.head? = some s := by
  intro cands
  have hlv0 : ∀ d, lvl (List.replicate (maxBroken + 1) ([] : List (State N K))) d = [] := by
    intro d
    unfold lvl
    rw [List.getD_eq_getElem?_getD, List.getElem?_replicate]
    split_ifs <;> rfl
  have v := visit s maxBroken h maxBroken 0 s.contactOrder
    (List.replicate (maxBroken + 1) []) (by omega) (by omega) (List.Sublist.refl _) (by omega)
    ⟨by simp, by intro d x hx; rw [hlv0] at hx; simp at hx, by intro d; rw [hlv0]; simp⟩
    (by intro d _ _ x hx; rw [hlv0] at hx; simp at hx)
  rw [keepOnly_order s h] at v
  set res := maintainCombRec maxBroken maxBroken s 0 (List.replicate (maxBroken + 1) []) with hres
  have hc : cands = res.flatten := by
    simp only [cands, maintainContactsCombinatorial, if_neg h1, flattenDepth, hres]
  have hget : ∀ d (hd : d < res.length), lvl res d = res[d] := by
    intro d hd; unfold lvl; rw [List.getD_eq_getElem?_getD, List.getElem?_eq_getElem hd]; rfl
  have hmem : ∀ c, c ∈ cands ↔ ∃ d, d ≤ maxBroken ∧ c ∈ lvl res d := by
    intro c
    rw [hc, List.mem_flatten]
    constructor
    · rintro ⟨l, hl, hcl⟩
      obtain ⟨d, hd, rfl⟩ := List.mem_iff_getElem.1 hl
      refine ⟨d, ?_, by rw [hget d hd]; exact hcl⟩
      have := v.inv.len; omega
    · rintro ⟨d, hd, hcl⟩
      have hd' : d < res.length := by rw [v.inv.len]; omega
      exact ⟨res[d], List.getElem_mem hd', by rw [← hget d hd']; exact hcl⟩
  have hfind : ∀ (d : Nat) (kept : List N), kept.Sublist s.contactOrder → d ≤ maxBroken →
      kept.length + d = s.contactOrder.length → kept ∈ (lvl res d).map State.contactOrder := by
    intro d
    induction d with
    | zero =>
      intro kept hk _ hl
      have : kept = s.contactOrder := hk.eq_of_length (by omega)
      rw [this]; exact v.here
    | succ d ih =>
      intro kept hk hd hl
      obtain ⟨a, k', hk', hl', ha, he⟩ := exists_parent hk h.order_nodup (by omega)
      have := ih k' hk' (by omega) (by omega)
      obtain ⟨x, hx, hxo⟩ := List.mem_map.1 this
      have h2 := v.closed d (Nat.zero_le _) (by omega) x hx a (by rw [hxo]; exact ha)
      rw [hxo, ← he] at h2
      exact h2
  refine ⟨?_, ?_, ?_, ?_, ?_⟩
  · intro c hcm
    obtain ⟨d, hd, hcl⟩ := (hmem c).1 hcm
    obtain ⟨g1, g2, g3⟩ := v.inv.good d c hcl
    refine ⟨?_, by omega⟩
    rw [g3]; exact brokenTo_keepOnly s h g1
  · intro kept hk hl
    have hle := hk.length_le
    have := hfind (s.contactOrder.length - kept.length) kept hk (by omega) (by omega)
    obtain ⟨c, hcl, he⟩ := List.mem_map.1 this
    exact ⟨c, (hmem c).2 ⟨_, by omega, hcl⟩, he⟩
  · rw [hc, List.map_flatten, List.nodup_flatten]
    refine ⟨?_, ?_⟩
    · intro l hl
      obtain ⟨l', hl', rfl⟩ := List.mem_map.1 hl
      obtain ⟨d, hd, rfl⟩ := List.mem_iff_getElem.1 hl'
      rw [← hget d hd]; exact v.inv.nodup d
    · rw [List.pairwise_map, List.pairwise_iff_getElem]
      intro i j hi hj hij x hx hy
      rw [← hget i hi] at hx; rw [← hget j hj] at hy
      obtain ⟨a, ha, rfl⟩ := List.mem_map.1 hx
      obtain ⟨b, hb, he⟩ := List.mem_map.1 hy
      have g1 := (v.inv.good i a ha).2.1
      have g2 := (v.inv.good j b hb).2.1
      rw [he] at g2; omega
  · rw [hc, List.pairwise_flatten]
    refine ⟨?_, ?_⟩
    · intro l hl
      obtain ⟨d, hd, rfl⟩ := List.mem_iff_getElem.1 hl
      rw [← hget d hd]
      refine List.pairwise_of_forall_mem_list ?_
      intro a ha b hb
      have g1 := (v.inv.good d a ha).2.1
      have g2 := (v.inv.good d b hb).2.1
      omega
    · rw [List.pairwise_iff_getElem]
      intro i j hi hj hij a ha b hb
      rw [← hget i hi] at ha; rw [← hget j hj] at hb
      have g1 := (v.inv.good i a ha).2.1
      have g2 := (v.inv.good j b hb).2.1
      omega
  · have hl0 : ∀ x ∈ lvl res 0, x = s := by
      intro x hx
      obtain ⟨g1, g2, g3⟩ := v.inv.good 0 x hx
      have : x.contactOrder = s.contactOrder := g1.eq_of_length (by omega)
      rw [g3, this, keepOnly_order s h]
    obtain ⟨x, hx, _⟩ := List.mem_map.1 v.here
    have hpos : 0 < res.length := by rw [v.inv.len]; omega
    rw [hc]
    cases hr : res with
    | nil => rw [hr] at hpos; simp at hpos
    | cons l0 rest =>
      have h0 : lvl res 0 = l0 := by rw [hr]; rfl
      rw [h0] at hl0 hx
      cases l0 with
      | nil => simp at hx
      | cons y l0 => simpa using hl0 y (by simp)

example : Consistent demo ∧ demo.nbContacts ≠ 1 ∧
    (maintainContactsCombinatorial demo 1).map State.contactOrder = [[2, 1], [1], [2]] ∧
    (maintainContactsCombinatorial demo 5).map State.contactOrder = [[2, 1], [1], [2], []] :=
  ⟨demo_consistent, by decide, by decide, by decide⟩

/-- The excluded case: with exactly one contact nothing is ever broken. -/
theorem C11_single_contact (s : State N K) (h1 : s.nbContacts = 1) (maxBroken : Nat) :
    maintainContactsCombinatorial s maxBroken = [s] := by
  unfold maintainContactsCombinatorial flattenDepth
  rw [if_pos h1]
  simp [List.replicate_succ]

/-! ## C12 -/

/-- **C12** With distinct free effectors, `gen_contacts_combinatorial` enumerates every
duplicate-free sequence of at most `maxCreated` of them exactly once, each paired with the previous
state. -/
theorem C12_enumeration (free : List N) (hf : free.Nodup) (previous : State N K) (maxCreated : Nat)
    (maximise : Bool) :
    let cands := genContactsCombinatorial free previous maxCreated maximise
    (∀ c ∈ cands, c.1 = previous) ∧
    (∀ l : List N, l ∈ cands.map Prod.snd ↔ l.Nodup ∧ (∀ x ∈ l, x ∈ free) ∧ l.length ≤ maxCreated) ∧
    (cands.map Prod.snd).Nodup := by
  have hsnd : (genContactsCombinatorial free previous maxCreated maximise).map Prod.snd =
      stringCombinatorial free maxCreated maximise := by
    simp [genContactsCombinatorial, Function.comp_def]
  refine ⟨?_, ?_, ?_⟩
  · intro c hc
    obtain ⟨l, _, rfl⟩ := List.mem_map.1 hc
    rfl
  · intro l
    rw [hsnd]
    have hperm : (stringCombinatorial free maxCreated maximise).Perm
        (stringCombRec free maxCreated [[]]) := by
      unfold stringCombinatorial
      cases maximise with
      | false => exact List.Perm.refl _
      | true =>
        simp only [if_true]
        conv_rhs => rw [← List.take_append_drop 1 (stringCombRec free maxCreated [[]])]
        exact List.perm_append_comm
    rw [hperm.mem_iff, mem_stringCombRec]
    constructor
    · rintro ⟨x, hx, ext, rfl, hl, hm, hn⟩
      simp only [List.mem_singleton] at hx
      subst hx
      exact ⟨by simpa using hn, fun c hc => (hm c (by simpa using hc)).1, by simpa using hl⟩
    · rintro ⟨hn, hm, hl⟩
      exact ⟨[], by simp, l, by simp, hl, fun c hc => ⟨hm c hc, by simp⟩, hn⟩
  · rw [hsnd]
    have hnd := nodup_stringCombRec hf maxCreated [[]] 0 (by simp) (by simp)
    unfold stringCombinatorial
    cases maximise with
    | false => exact hnd
    | true =>
      simp only [if_true]
      rw [← List.take_append_drop 1 (stringCombRec free maxCreated [[]])] at hnd
      exact (List.perm_append_comm.nodup_iff).1 hnd

/-- **C12** "create nothing" is first, or last when maximising contacts. -/
theorem C12_position (free : List N) (previous : State N K) (maxCreated : Nat) :
    (genContactsCombinatorial free previous maxCreated false).head? = some (previous, []) ∧
    (genContactsCombinatorial free previous maxCreated true).getLast? = some (previous, []) := by
  obtain ⟨tl, h⟩ := stringCombRec_head free maxCreated
  constructor
  · simp [genContactsCombinatorial, stringCombinatorial, h]
  · simp [genContactsCombinatorial, stringCombinatorial, h]

example : [1, 2].Nodup ∧ (genContactsCombinatorial [1, 2] demo 2 true).map Prod.snd =
    [[1], [2], [1, 2], [2, 1], []] := by decide

/-! ## C13 -/

theorem sortLimbsUsed_spec (free order acc : List N) :
    ∃ u, sortLimbsUsed free order acc = acc ++ u ∧ u.Sublist order ∧ u.Nodup ∧
      ∀ x, x ∈ u ↔ x ∈ order ∧ x ∈ free ∧ x ∉ acc := by
  induction order generalizing acc with
  | nil => exact ⟨[], by simp [sortLimbsUsed]⟩
  | cons l order ih =>
    unfold sortLimbsUsed
    by_cases hf : l ∈ free
    · simp only [List.contains_eq_mem, hf, decide_true, if_true]
      obtain ⟨u, h1, h2, h3, h4⟩ := ih (insertIfNew acc l).1
      by_cases ha : l ∈ acc
      · have e : (insertIfNew acc l).1 = acc := by simp [insertIfNew, ha]
        rw [e] at h1 h4 ⊢
        refine ⟨u, h1, h2.trans (List.sublist_cons_self _ _), h3, fun x => ?_⟩
        rw [h4]
        simp only [List.mem_cons]
        constructor
        · rintro ⟨a, b, c⟩; exact ⟨Or.inr a, b, c⟩
        · rintro ⟨rfl | a, b, c⟩
          · exact absurd ha c
          · exact ⟨a, b, c⟩
      · have e : (insertIfNew acc l).1 = acc ++ [l] := by simp [insertIfNew, ha]
        rw [e] at h1 h4 ⊢
        have hlu : l ∉ u := fun hm => ((h4 l).1 hm).2.2 (by simp)
        refine ⟨l :: u, by rw [h1]; simp, h2.cons_cons _, List.nodup_cons.2 ⟨hlu, h3⟩, fun x => ?_⟩
        simp only [List.mem_cons, h4, List.mem_append, List.not_mem_nil, or_false, not_or]
        constructor
        · rintro (rfl | ⟨a, b, c⟩)
          · exact ⟨Or.inl rfl, hf, ha⟩
          · exact ⟨Or.inr a, b, c.1⟩
        · rintro ⟨rfl | a, b, c⟩
          · exact Or.inl rfl
          · by_cases e : x = l
            · exact Or.inl e
            · exact Or.inr ⟨a, b, c, e⟩
    · simp only [List.contains_eq_mem, hf, decide_false, Bool.false_eq_true, if_false]
      obtain ⟨u, h1, h2, h3, h4⟩ := ih acc
      refine ⟨u, h1, h2.trans (List.sublist_cons_self _ _), h3, fun x => ?_⟩
      rw [h4]
      simp only [List.mem_cons]
      constructor
      · rintro ⟨a, b, c⟩; exact ⟨Or.inr a, b, c⟩
      · rintro ⟨rfl | a, b, c⟩
        · exact absurd b hf
        · exact ⟨a, b, c⟩

/-- **C13** `sortLimbs` permutes the free limbs: first those absent from the contact order, in their
given order, then the others in contact-creation order. -/
theorem C13_sortLimbs (s : State N K) (free : List N) (hf : free.Nodup) :
    ∃ used, sortLimbs s free = free.filter (fun l => decide (l ∉ s.contactOrder)) ++ used ∧
      used.Sublist s.contactOrder ∧ (∀ x, x ∈ used ↔ x ∈ free ∧ x ∈ s.contactOrder) ∧
      (sortLimbs s free).Perm free ∧
      (s.contactOrder.Nodup → used = s.contactOrder.filter (fun l => decide (l ∈ free))) := by
  obtain ⟨u, h1, h2, h3, h4⟩ := sortLimbsUsed_spec free s.contactOrder []
  simp only [List.nil_append] at h1
  simp only [List.not_mem_nil, not_false_eq_true, and_true] at h4
  have e : sortLimbs s free = free.filter (fun l => decide (l ∉ s.contactOrder)) ++ u := by
    unfold sortLimbs
    simp only [h1]
    congr 1
    refine List.filter_congr fun x hx => ?_
    have := h4 x
    by_cases ho : x ∈ s.contactOrder <;> simp [this, ho, hx]
  refine ⟨u, e, h2, fun x => by rw [h4]; tauto, ?_, ?_⟩
  · rw [e, List.perm_ext_iff_of_nodup ?_ hf]
    · intro x
      simp only [List.mem_append, List.mem_filter, decide_eq_true_eq, h4]
      tauto
    · rw [List.nodup_append]
      refine ⟨hf.filter _, h3, ?_⟩
      intro a ha b hb hab
      subst hab
      simp only [List.mem_filter, decide_eq_true_eq] at ha
      exact ha.2 ((h4 a).1 hb).1
  · intro ho
    rw [← filter_mem_of_sublist h2 ho]
    refine List.filter_congr fun x hx => ?_
    simp [h4, hx]

example : sortLimbs demo [1, 5, 2] = [5, 2, 1] := by decide

/-! ## C14 -/

/-- **C14 is violated** when a limb name is a substring of another filter's key that comes first in
key order: limb "leg" gets the filter registered for "aleg". -/
theorem C14_substring_violated :
    getAffObjectsForLimb (T := ℕ) (O := ℕ) ['l','e','g'] [(0, [10]), (1, [11])]
      [(['a','l','e','g'], [0]), (['l','e','g'], [1])] = .objects [10] := by decide

/-- **C14 is violated**: a filter naming an affordance type that does not exist dereferences `end()`. -/
theorem C14_missing_type_violated :
    getAffObjectsForLimb (T := ℕ) (O := ℕ) ['l','e','g'] [(0, [10])] [(['l','e','g'], [1])] =
      .undefinedBehaviour := by decide

theorem affOfTypes_spec {T O : Type _} [DecidableEq T] (affs : List (T × List O)) (tys : List T)
    (h : ∀ t ∈ tys, (affs.lookup t).isSome) :
    affOfTypes affs tys = some (tys.flatMap (fun t => (affs.lookup t).getD [])) := by
  induction tys with
  | nil => rfl
  | cons t tys ih =>
    obtain ⟨objs, ho⟩ := Option.isSome_iff_exists.1 (h t (by simp))
    simp [affOfTypes, ho, ih (fun t ht => h t (List.mem_cons_of_mem _ ht))]

theorem affOfTypes_none {T O : Type _} [DecidableEq T] (affs : List (T × List O)) (tys : List T)
    (t : T) (ht : t ∈ tys) (h : affs.lookup t = none) : affOfTypes affs tys = none := by
  induction tys with
  | nil => simp at ht
  | cons a tys ih =>
    rcases List.mem_cons.1 ht with e | e
    · subst e; simp [affOfTypes, h]
    · unfold affOfTypes
      cases affs.lookup a with
      | none => rfl
      | some objs => simp [ih e]

theorem findFilter_own {F : Type _} (limb : List Char) (fs : List (List Char × F)) (tys : F)
    (hown : (limb, tys) ∈ fs) (huniq : ∀ p ∈ fs, limb <:+: p.1 → p = (limb, tys)) :
    findFilter limb fs = some tys := by
  induction fs with
  | nil => simp at hown
  | cons p fs ih =>
    obtain ⟨k, t⟩ := p
    unfold findFilter containsSub
    by_cases h : limb <:+: k
    · have := huniq (k, t) (by simp) h
      simp only [h, decide_true, if_true]
      rw [Prod.mk.injEq] at this; rw [this.2]
    · simp only [h, decide_false, Bool.false_eq_true, if_false]
      refine ih ?_ (fun p hp => huniq p (List.mem_cons_of_mem _ hp))
      rcases List.mem_cons.1 hown with e | e
      · rw [Prod.mk.injEq] at e
        exact absurd (e.1 ▸ List.infix_rfl) h
      · exact e

theorem findFilter_none {F : Type _} (limb : List Char) (fs : List (List Char × F))
    (h : ∀ p ∈ fs, ¬ limb <:+: p.1) : findFilter limb fs = none := by
  induction fs with
  | nil => rfl
  | cons p fs ih =>
    obtain ⟨k, t⟩ := p
    unfold findFilter containsSub
    simp only [h (k, t) (by simp), decide_false, Bool.false_eq_true, if_false]
    exact ih (fun p hp => h p (List.mem_cons_of_mem _ hp))

/-- **C14** (partial): if the only filter key that contains the limb's name is the limb's own, and every
type of that filter exists, the result is exactly the objects of these types; without any
key containing the name, all objects; an empty result always throws; the result is never an empty list.
Missing: keys that merely contain the name (`C14_substring_violated`) and missing types
(`C14_missing_type_violated`, in general the last conjunct). -/
theorem C14_affordances_partial {T O : Type _} [DecidableEq T] (limb : List Char)
    (affs : List (T × List O)) (fs : List (List Char × List T)) :
    (∀ tys, (limb, tys) ∈ fs → (∀ p ∈ fs, limb <:+: p.1 → p = (limb, tys)) →
      (∀ t ∈ tys, (affs.lookup t).isSome) →
      getAffObjectsForLimb limb affs fs =
        match tys.flatMap (fun t => (affs.lookup t).getD []) with
        | [] => .throws
        | l => .objects l) ∧
    ((∀ p ∈ fs, ¬ limb <:+: p.1) →
      getAffObjectsForLimb limb affs fs =
        match affs.flatMap Prod.snd with
        | [] => .throws
        | l => .objects l) ∧
    (∀ l, getAffObjectsForLimb limb affs fs = .objects l → l ≠ []) ∧
    (∀ tys, (limb, tys) ∈ fs → (∀ p ∈ fs, limb <:+: p.1 → p = (limb, tys)) →
      (∃ t ∈ tys, affs.lookup t = none) →
      getAffObjectsForLimb limb affs fs = .undefinedBehaviour) := by
  refine ⟨?_, ?_, ?_, ?_⟩
  · intro tys h1 h2 h3
    unfold getAffObjectsForLimb
    rw [findFilter_own limb fs tys h1 h2]
    simp only [affOfTypes_spec affs tys h3]
    cases tys.flatMap (fun t => (affs.lookup t).getD []) <;> rfl
  · intro h
    unfold getAffObjectsForLimb
    rw [findFilter_none limb fs h]
    cases affs.flatMap Prod.snd <;> rfl
  · intro l h
    unfold getAffObjectsForLimb at h
    simp only at h
    split at h <;> simp at h
    subst h
    assumption
  · rintro tys h1 h2 ⟨t, ht, hl⟩
    unfold getAffObjectsForLimb
    rw [findFilter_own limb fs tys h1 h2]
    simp only [affOfTypes_none affs tys t ht hl]

example : getAffObjectsForLimb (T := ℕ) (O := ℕ) ['a'] [(0, [10]), (1, [11, 12])]
      [(['a'], [1, 0]), (['b'], [0])] = .objects [11, 12, 10] := by decide

end Contact
end Rbprm
