import Verif.Props.Algorithm
import Mathlib.Data.List.Sublists
import Mathlib.Data.Nat.Choose.Basic
import Mathlib.Data.Nat.Choose.Sum
import Mathlib.Data.Nat.Factorial.Basic
import Mathlib.Algebra.BigOperators.Group.Finset.Basic
import Mathlib.Algebra.BigOperators.Group.List.Basic
/-!
# Property C184: how large the search of one step is

A user relies on the two bounds given to contact generation (contacts that may break, contacts that may be created) to bound its time.
-/
set_option linter.unusedSectionVars false
namespace Rbprm
namespace Contact
open State
variable {N K Smp : Type _} [LinearOrder N]

/-- how many sets of at most `m` out of `n` contacts there are -/
def subsetsUpTo (n m : ℕ) : ℕ := ((List.range (m + 1)).map fun k => n.choose k).sum

/-- how many sequences of at most `m` distinct limbs out of `n` there are -/
def sequencesUpTo (n m : ℕ) : ℕ := ((List.range (m + 1)).map fun k => n.descFactorial k).sum

theorem length_of_same {α : Type _} {l l' : List α} (h : l.Nodup) (h' : l'.Nodup) (e : ∀ a, a ∈ l ↔ a ∈ l') : l.length = l'.length :=
  ((List.perm_ext_iff_of_nodup h h').2 e).length_eq

/-- **C184 (maintained)**.  The number of states that maintaining contacts tries is the number of sets of at most `maxBroken` contacts (for a single contact the state itself). -/
theorem C184_maintained (s : State N K) (h : Consistent s) (maxBroken : ℕ) :
    (maintainContactsCombinatorial s maxBroken).length = if s.contacts.length = 1 then 1 else subsetsUpTo s.contacts.length maxBroken := by
  split_ifs with h1
  · rw [C11_single_contact s (h.counter.trans h1)]
    rfl
  obtain ⟨c1, c2, c3, _, _⟩ := C11_maintain_combinatorial s h (fun e => h1 (h.counter.symm.trans e)) maxBroken
  have hn : s.contactOrder.length = s.contacts.length := by
    rw [h.orderPerm.length_eq]
    simp [AMap.keys]
  have hnd : s.contactOrder.Nodup := h.orderPerm.nodup_iff.2 (h.toMapsOk.contacts.nodup)
  set o := s.contactOrder
  let l' : List (List N) := (List.range (maxBroken + 1)).flatMap fun k => if k ≤ o.length then List.sublistsLen (o.length - k) o else []
  have hl' : l'.length = subsetsUpTo s.contacts.length maxBroken := by
    show (List.flatMap _ _).length = _
    rw [List.length_flatMap]
    unfold subsetsUpTo
    congr 1
    refine List.map_congr_left fun k _ => ?_
    split_ifs with hk
    · rw [List.length_sublistsLen, Nat.choose_symm hk, hn]
    · rw [← hn, Nat.choose_eq_zero_of_lt (by omega)]
      rfl
  have hmem : ∀ a, a ∈ l' ↔ a.Sublist o ∧ o.length ≤ a.length + maxBroken := by
    intro a
    simp only [l', List.mem_flatMap, List.mem_range]
    constructor
    · rintro ⟨k, hk, ha⟩
      split_ifs at ha with hko
      · obtain ⟨i1, i2⟩ := List.mem_sublistsLen.1 ha
        exact ⟨i1, by omega⟩
      · cases ha
    · rintro ⟨i1, i2⟩
      have := i1.length_le
      refine ⟨o.length - a.length, by omega, ?_⟩
      rw [if_pos (by omega)]
      exact List.mem_sublistsLen.2 ⟨i1, by omega⟩
  have hnod : l'.Nodup := by
    refine List.nodup_flatMap.2 ⟨fun k _ => ?_, ?_⟩
    · split_ifs
      · exact List.nodup_sublistsLen _ hnd
      · exact List.nodup_nil
    · refine List.Pairwise.imp ?_ List.nodup_range
      intro i j hij a ha hb
      dsimp only [Function.onFun] at ha hb
      split_ifs at ha hb with hi hj
      · have e1 := (List.mem_sublistsLen.1 ha).2
        have e2 := (List.mem_sublistsLen.1 hb).2
        omega
      all_goals first | cases ha | cases hb
  rw [← hl', ← List.length_map (f := State.contactOrder)]
  refine length_of_same c3 hnod fun a => ?_
  rw [hmem]
  constructor
  · intro ha
    obtain ⟨c, hc, rfl⟩ := List.mem_map.1 ha
    exact ⟨(c1 c hc).1.order, (c1 c hc).2⟩
  · rintro ⟨i1, i2⟩
    obtain ⟨c, hc, e⟩ := c2 a i1 i2
    exact List.mem_map.2 ⟨c, hc, e⟩

/-- the sequences of `k` distinct elements of `l` -/
def sequences : ℕ → List N → List (List N)
  | 0, _ => [[]]
  | k + 1, l => l.flatMap fun x => (sequences k (l.erase x)).map (x :: ·)

theorem length_sequences (k : ℕ) (l : List N) (h : l.Nodup) : (sequences k l).length = l.length.descFactorial k := by
  induction k generalizing l with
  | zero => simp [sequences]
  | succ k ih =>
    unfold sequences
    rw [List.length_flatMap]
    have : l.map (fun x => ((sequences k (l.erase x)).map (x :: ·)).length) = l.map (fun _ => (l.length - 1).descFactorial k) := by
      refine List.map_congr_left fun x hx => ?_
      rw [List.length_map, ih _ (h.erase x), List.length_erase_of_mem hx]
    rw [this, List.map_const', List.sum_replicate, Nat.nsmul_eq_mul]
    cases l with
    | nil => simp
    | cons a l =>
      rw [List.length_cons, Nat.succ_descFactorial_succ]
      rfl

theorem mem_sequences (k : ℕ) (l : List N) (h : l.Nodup) (a : List N) : a ∈ sequences k l ↔ a.Nodup ∧ (∀ x ∈ a, x ∈ l) ∧ a.length = k := by
  induction k generalizing l a with
  | zero =>
    simp only [sequences, List.mem_singleton, List.length_eq_zero_iff]
    exact ⟨fun e => by subst e; simp, fun e => e.2.2⟩
  | succ k ih =>
    simp only [sequences, List.mem_flatMap, List.mem_map]
    constructor
    · rintro ⟨x, hx, b, hb, rfl⟩
      obtain ⟨b1, b2, b3⟩ := (ih _ (h.erase x) b).1 hb
      refine ⟨List.nodup_cons.2 ⟨fun hm => ?_, b1⟩, ?_, by simp [b3]⟩
      · exact ((h.mem_erase_iff).1 (b2 x hm)).1 rfl
      · intro y hy
        rcases List.mem_cons.1 hy with rfl | hy
        · exact hx
        · exact List.mem_of_mem_erase (b2 y hy)
    · rintro ⟨a1, a2, a3⟩
      cases a with
      | nil => simp at a3
      | cons x b =>
        rw [List.nodup_cons] at a1
        refine ⟨x, a2 x (by simp), b, (ih _ (h.erase x) b).2 ⟨a1.2, fun y hy => ?_, by simpa using a3⟩, rfl⟩
        exact (h.mem_erase_iff).2 ⟨fun e => a1.1 (e ▸ hy), a2 y (List.mem_cons_of_mem _ hy)⟩

theorem nodup_sequences (k : ℕ) (l : List N) (h : l.Nodup) : (sequences k l).Nodup := by
  induction k generalizing l with
  | zero => simp [sequences]
  | succ k ih =>
    unfold sequences
    refine List.nodup_flatMap.2 ⟨fun x _ => (ih _ (h.erase x)).map (fun a b e => (List.cons.inj e).2), ?_⟩
    refine List.Pairwise.imp ?_ h
    intro x y hxy a ha hb
    obtain ⟨_, _, rfl⟩ := List.mem_map.1 ha
    obtain ⟨_, _, e⟩ := List.mem_map.1 hb
    exact hxy (List.cons.inj e).1.symm

/-- **C184 (created)**.  The number of candidates for the creation of contacts is the number of sequences of at most `maxCreated` of the free effectors. -/
theorem C184_created (free : List N) (hf : free.Nodup) (previous : State N K) (maxCreated : ℕ) (maximise : Bool) :
    (genContactsCombinatorial free previous maxCreated maximise).length = sequencesUpTo free.length maxCreated := by
  obtain ⟨_, c2, c3⟩ := C12_enumeration free hf previous maxCreated maximise
  let l' : List (List N) := (List.range (maxCreated + 1)).flatMap fun k => sequences k free
  have hl' : l'.length = sequencesUpTo free.length maxCreated := by
    show (List.flatMap _ _).length = _
    rw [List.length_flatMap]
    unfold sequencesUpTo
    congr 1
    exact List.map_congr_left fun k _ => length_sequences k free hf
  rw [← hl', ← List.length_map (f := Prod.snd)]
  refine length_of_same c3 ?_ fun a => ?_
  · refine List.nodup_flatMap.2 ⟨fun k _ => nodup_sequences k free hf, ?_⟩
    refine List.Pairwise.imp ?_ List.nodup_range
    intro i j hij a ha hb
    exact hij (((mem_sequences i free hf a).1 ha).2.2.symm.trans ((mem_sequences j free hf a).1 hb).2.2)
  · rw [c2]
    simp only [l', List.mem_flatMap, List.mem_range]
    constructor
    · rintro ⟨a1, a2, a3⟩
      exact ⟨a.length, by omega, (mem_sequences _ free hf a).2 ⟨a1, a2, rfl⟩⟩
    · rintro ⟨k, hk, ha⟩
      obtain ⟨a1, a2, a3⟩ := (mem_sequences k free hf a).1 ha
      exact ⟨a1, a2, by omega⟩

theorem oneStepLoop_rounds [CommRing K] [LinearOrder K] (env : Env N K Smp) (hl : env.limbs.Nodup) (postural : Bool) (fuel : ℕ) (h : Helper N K) (h0 : 0 < fuel) (hf : (startCandidates h).length ≤ fuel) :
    ∃ r, ∀ fuel' ≥ fuel, oneStepLoop env postural fuel' h = some r := by
  induction fuel generalizing h with
  | zero => omega
  | succ fuel ih =>
    obtain ⟨_, hq⟩ := genFromMaintain_queue env hl postural h
    obtain ⟨_, _, hlt⟩ := maintainContacts_queue env h
    set r := genFromMaintain env postural h with hr
    by_cases hc : (!r.1.success && !r.2.candidates.isEmpty) = true
    · have hc' : r.1.success = false ∧ r.2.candidates ≠ [] := by
        simpa only [Bool.and_eq_true, Bool.not_eq_true', List.isEmpty_eq_false_iff] using hc
      have hst : startCandidates r.2 = r.2.candidates := by
        unfold startCandidates; rw [if_neg (fun hx => hc'.2 hx.1)]
      have hne : startCandidates h ≠ [] := by
        intro he
        have := (maintainContacts_queue env h).2.1
        rw [he, List.suffix_nil] at this
        exact hc'.2 (by rw [hq, this])
      have hlt' := hlt hne
      rw [← hq] at hlt'
      have hpos : 0 < r.2.candidates.length := List.length_pos_iff.2 hc'.2
      obtain ⟨x, hx⟩ := ih r.2 (by omega) (by rw [hst]; omega)
      refine ⟨x, fun fuel' hge => ?_⟩
      obtain ⟨f, rfl⟩ : ∃ f, fuel' = f + 1 := ⟨fuel' - 1, by omega⟩
      simp only [oneStepLoop]
      rw [← hr, if_pos hc]
      exact hx f (by omega)
    · refine ⟨r, fun fuel' hge => ?_⟩
      obtain ⟨f, rfl⟩ : ∃ f, fuel' = f + 1 := ⟨fuel' - 1, by omega⟩
      simp only [oneStepLoop]
      rw [← hr, if_neg hc]

theorem subsetsUpTo_pos (n m : ℕ) : 0 < subsetsUpTo n m := by
  unfold subsetsUpTo
  rw [List.range_succ_eq_map]
  simp

/-- **C184 (rounds)**.  From a consistent state a step makes at most as many rounds, each with the contacts that remain after breaking one set of contacts, as there are sets of contacts that may break. -/
theorem C184_rounds [CommRing K] [LinearOrder K] (env : Env N K Smp) (hl : env.limbs.Nodup) (postural : Bool) (h : Helper N K) (hs : Consistent h.workingState) (hc : h.candidates = []) (fuel : ℕ)
    (hf : subsetsUpTo h.workingState.contacts.length h.maxContactBreaks ≤ fuel) : ∃ r, oneStep env postural fuel h = some r := by
  have hpos := subsetsUpTo_pos h.workingState.contacts.length h.maxContactBreaks
  have hlen : (startCandidates h).length ≤ subsetsUpTo h.workingState.contacts.length h.maxContactBreaks := by
    unfold startCandidates
    split_ifs
    · rw [C184_maintained _ hs]
      split_ifs with h1
      · exact hpos
      · exact le_refl _
    · rw [hc]
      exact Nat.zero_le _
  obtain ⟨r, hr⟩ := oneStepLoop_rounds env hl postural fuel h (by omega) (by omega)
  exact ⟨_, by rw [oneStep, hr fuel (le_refl _)]; rfl⟩

/-- **C184 (round)**.  In each round at most as many candidates are tried as there are sequences of at most the allowed number of limbs, and in each of them at most the allowed number of contacts. -/
theorem C184_round [CommRing K] [LinearOrder K] (env : Env N K Smp) (hl : env.limbs.Nodup) (h : Helper N K) :
    (genCandidates env h).length = sequencesUpTo (h.workingState.freeEffectors env.limbs).length h.maxContactCreations ∧
    (h.workingState.freeEffectors env.limbs).length ≤ env.limbs.length ∧ ∀ c ∈ genCandidates env h, c.2.length ≤ h.maxContactCreations := by
  have hfree : (h.workingState.freeEffectors env.limbs).Nodup := nodup_freeEffectors _ hl
  refine ⟨C184_created _ hfree _ _ _, (freeEffectors_sublist _ _).length_le, fun c hc => ?_⟩
  exact (((C12_enumeration _ hfree h.workingState h.maxContactCreations h.maximiseContacts).2.1 c.2).1 (List.mem_map_of_mem hc)).2.2

/-- **C184 (ComputeContacts)**.  With at most one contact that breaks and one that is created, as `ComputeContacts` does, a step from a state with `n` contacts makes at most `n + 1` rounds, and in each at most one attempt for each free limb and one without new contact. -/
theorem C184_compute [CommRing K] [LinearOrder K] (env : Env N K Smp) (hl : env.limbs.Nodup) (postural : Bool) (previous : State N K) (hs : Consistent previous) (configuration : List K) (thr : K) (ed : ℕ) (tr qs : Bool) :
    (∃ r, computeContacts env postural (previous.contacts.length + 1) previous configuration thr ed tr qs = some r) ∧
    ∀ h : Helper N K, h.maxContactCreations = 1 → (genCandidates env h).length = (h.workingState.freeEffectors env.limbs).length + 1 := by
  constructor
  · have hw : Consistent (computeHelper previous configuration thr tr qs).workingState := Consistent.of_flags hs _ _
    obtain ⟨r, hr⟩ := C184_rounds env hl postural (computeHelper previous configuration thr tr qs) hw rfl (previous.contacts.length + 1) (by
      show subsetsUpTo previous.contacts.length 1 ≤ _
      simp [subsetsUpTo, List.range_succ]
      omega)
    unfold computeContacts
    rw [hr]
    exact ⟨_, rfl⟩
  · intro h h1
    rw [(C184_round env hl h).1, h1]
    simp [sequencesUpTo, List.range_succ]
    omega

/-- with four limbs, three of them in contact, `ComputeContacts` makes at most four rounds with two candidates each; a planner that allows two breaks and two creations at most seven rounds -/
example : subsetsUpTo 3 1 = 4 ∧ sequencesUpTo 1 1 = 2 ∧ subsetsUpTo 3 2 = 7 ∧ sequencesUpTo 4 2 = 17 := by decide

/-- the consistent state with two contacts of the other properties: four sets of contacts may break, and two free limbs give five sequences -/
example : Consistent demo ∧ (maintainContactsCombinatorial demo 2).length = 4 ∧ (genContactsCombinatorial [1, 2] demo 2 true).length = 5 := ⟨demo_consistent, by decide, by decide⟩

end Contact
end Rbprm
