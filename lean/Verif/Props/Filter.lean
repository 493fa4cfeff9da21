import Verif.Model.Interpolation
import Verif.Props.State
import Mathlib.Tactic.SplitIfs
import Mathlib.Tactic.Tauto
import Mathlib.Data.List.Chain
set_option linter.unusedSectionVars false
/-! # C27, C68: filtering of contact plans -/
namespace Rbprm
namespace Interp
open State Contact
variable {N K : Type _} [LinearOrder N] [CommRing K] [LinearOrder K]

/-! ## Specification -/

/-- `s` was produced by the documented intermediate generator: some state was projected on a contact, then on a
root configuration, both projections succeeded and the result is free of collision. -/
def Rebuilt (sv : Solvers N K) (s : State N K) : Prop :=
  ∃ limb base normal position root mid, sv.projectState limb base normal position = (true, mid) ∧
    sv.projectRoot root mid = (true, s) ∧ sv.fullValid s.configuration = true

/-- `out` is a filtered version of the plan `l` -/
structure Filtered (sv : Solvers N K) (l out : List (Frame N K)) : Prop where
  /-- dates are kept in order, none is invented; in particular `out` is not longer -/
  times : (out.map Prod.fst).Sublist (l.map Prod.fst)
  head : out.head? = l.head?
  last : out.getLast? = l.getLast?
  /-- every frame is an input frame or holds a state of the intermediate generator -/
  origin : ∀ f ∈ out, f ∈ l ∨ Rebuilt sv f.2

theorem Filtered.refl' (sv : Solvers N K) (l : List (Frame N K)) : Filtered sv l l :=
  ⟨List.Sublist.refl _, rfl, rfl, fun _ h => Or.inl h⟩

theorem Filtered.trans {sv : Solvers N K} {a b c : List (Frame N K)} (h : Filtered sv a b) (h' : Filtered sv b c) :
    Filtered sv a c :=
  ⟨h'.times.trans h.times, h'.head.trans h.head, h'.last.trans h.last, fun f hf => by
    rcases h'.origin f hf with h1 | h1
    · exact h.origin f h1
    · exact Or.inr h1⟩

theorem Filtered.length_le {sv : Solvers N K} {a b : List (Frame N K)} (h : Filtered sv a b) :
    b.length ≤ a.length := by
  have := h.times.length_le; simpa using this

/-! ## The three filters that only drop frames -/

theorem filterRepRec_sublist (sv : Solvers N K) (prev : Frame N K) (l : List (Frame N K)) :
    (filterRepRec sv prev l).Sublist l.dropLast := by
  fun_induction filterRepRec sv prev l with
  | case1 => simp
  | case2 prev cur nxt _ h t ih =>
    rw [List.dropLast_cons_cons, List.dropLast_cons_cons]
    exact (ih.cons_cons _).cons _
  | case3 prev cur nxt rest _ ih =>
    rw [List.dropLast_cons_cons]
    exact ih.cons_cons _
  | case4 => simp

theorem filterBreakRec_sublist (sv : Solvers N K) (prev : Frame N K) (l : List (Frame N K)) :
    (filterBreakRec sv prev l).Sublist l.dropLast := by
  fun_induction filterBreakRec sv prev l with
  | case1 => simp
  | case2 prev cur nxt _ h t ih =>
    rw [List.dropLast_cons_cons, List.dropLast_cons_cons]
    exact (ih.cons_cons _).cons _
  | case3 prev cur nxt rest _ ih =>
    rw [List.dropLast_cons_cons]
    exact ih.cons_cons _
  | case4 => simp

theorem obsoleteRec_sublist (sv : Solvers N K) (prev : Frame N K) (l : List (Frame N K)) :
    (obsoleteRec sv prev l).Sublist l.dropLast := by
  fun_induction obsoleteRec sv prev l with
  | case1 prev cur nxt rest _ ih =>
    rw [List.dropLast_cons_cons]
    exact ih.cons_cons _
  | case2 prev cur nxt rest _ ih =>
    rw [List.dropLast_cons_cons]
    exact ih.cons _
  | case3 => simp

/-- wrapping an inner selection between the first and the last frame -/
theorem wrap_filtered (a b : Frame N K) (rest inner : List (Frame N K))
    (h : inner.Sublist (b :: rest).dropLast) :
    (a :: inner ++ [(b :: rest).getLastD a]).Sublist (a :: b :: rest) ∧
    (a :: inner ++ [(b :: rest).getLastD a]).head? = (a :: b :: rest).head? ∧
    (a :: inner ++ [(b :: rest).getLastD a]).getLast? = (a :: b :: rest).getLast? := by
  have hl : (b :: rest).dropLast ++ [(b :: rest).getLastD a] = b :: rest := by
    rw [List.getLastD_eq_getLast?, List.getLast?_eq_getLast_of_ne_nil (by simp), Option.getD_some]
    exact List.dropLast_append_getLast (by simp)
  refine ⟨?_, rfl, ?_⟩
  · have : (a :: (b :: rest)) = a :: ((b :: rest).dropLast ++ [(b :: rest).getLastD a]) := by rw [hl]
    rw [this]
    exact (h.append (List.Sublist.refl _)).cons_cons a
  · rw [List.getLast?_concat, List.getLast?_cons_cons, List.getLastD_eq_getLast?,
      List.getLast?_eq_getLast_of_ne_nil (by simp)]
    rfl

/-- the three dropping filters return a sub-sequence with the same ends -/
theorem dropping_filters (sv : Solvers N K) (l : List (Frame N K)) :
    ((filterRepositioning sv l).Sublist l ∧ (filterRepositioning sv l).head? = l.head? ∧
      (filterRepositioning sv l).getLast? = l.getLast?) ∧
    ((filterBreakCreate sv l).Sublist l ∧ (filterBreakCreate sv l).head? = l.head? ∧
      (filterBreakCreate sv l).getLast? = l.getLast?) ∧
    ((filterObsolete sv l).Sublist l ∧ (filterObsolete sv l).head? = l.head? ∧
      (filterObsolete sv l).getLast? = l.getLast?) := by
  match l with
  | [] => exact ⟨⟨List.Sublist.refl _, rfl, rfl⟩, ⟨List.Sublist.refl _, rfl, rfl⟩, List.Sublist.refl _, rfl, rfl⟩
  | [a] => exact ⟨⟨List.Sublist.refl _, rfl, rfl⟩, ⟨List.Sublist.refl _, rfl, rfl⟩, List.Sublist.refl _, rfl, rfl⟩
  | [a, b] => exact ⟨⟨List.Sublist.refl _, rfl, rfl⟩, ⟨List.Sublist.refl _, rfl, rfl⟩, List.Sublist.refl _, rfl, rfl⟩
  | a :: b :: c :: rest =>
    exact ⟨wrap_filtered a b (c :: rest) _ (filterRepRec_sublist sv a _),
      wrap_filtered a b (c :: rest) _ (filterBreakRec_sublist sv a _),
      wrap_filtered a b (c :: rest) _ (obsoleteRec_sublist sv a _)⟩

theorem Filtered.of_sublist {sv : Solvers N K} {l out : List (Frame N K)}
    (h : out.Sublist l ∧ out.head? = l.head? ∧ out.getLast? = l.getLast?) : Filtered sv l out :=
  ⟨h.1.map _, h.2.1, h.2.2, fun _ hf => Or.inl (h.1.subset hf)⟩

/-! ### Which frames are dropped -/

/-- the common shape of `filterRepRec` and `filterBreakRec` -/
def dropRec (D : Frame N K → Frame N K → Frame N K → Bool) : Frame N K → List (Frame N K) → List (Frame N K)
  | prev, cur :: nxt :: rest =>
    if D prev cur nxt then
      match rest with
      | [] => []
      | _ :: _ => nxt :: dropRec D nxt rest
    else cur :: dropRec D cur (nxt :: rest)
  | _, _ => []

/-- the middle frame repeats the move of its successor, and the successor can be reached directly -/
def RepeatsMove (sv : Solvers N K) (prev cur nxt : Frame N K) : Bool :=
  decide (cur.2.contactBreaks prev.2 = nxt.2.contactBreaks prev.2) &&
  decide (cur.2.contactCreations prev.2 = nxt.2.contactCreations cur.2) && sv.reach prev.2 nxt.2

/-- the middle frame only breaks contacts, which its successor only creates again, and the successor can be
reached directly -/
def BreaksThenCreates (sv : Solvers N K) (prev cur nxt : Frame N K) : Bool :=
  (cur.2.contactCreations prev.2).isEmpty && (nxt.2.contactBreaks cur.2).isEmpty &&
  decide (nxt.2.contactCreations cur.2 = cur.2.contactBreaks prev.2) && sv.reach prev.2 nxt.2

theorem filterRepRec_eq (sv : Solvers N K) (prev : Frame N K) (l : List (Frame N K)) :
    filterRepRec sv prev l = dropRec (RepeatsMove sv) prev l := by
  fun_induction filterRepRec sv prev l with
  | case1 prev cur nxt hc => simp [dropRec, RepeatsMove] at hc ⊢; simp [hc]
  | case2 prev cur nxt hc x t ih =>
    rw [dropRec, if_pos (by simpa [RepeatsMove] using hc), ih]
  | case3 prev cur nxt rest hc ih =>
    rw [dropRec.eq_def]
    simp only
    rw [if_neg (by simpa only [RepeatsMove] using hc), ih]
  | case4 l x hl => rw [dropRec]; exact hl

theorem filterBreakRec_eq (sv : Solvers N K) (prev : Frame N K) (l : List (Frame N K)) :
    filterBreakRec sv prev l = dropRec (BreaksThenCreates sv) prev l := by
  fun_induction filterBreakRec sv prev l with
  | case1 prev cur nxt hc => simp [dropRec, BreaksThenCreates] at hc ⊢; simp [hc]
  | case2 prev cur nxt hc x t ih =>
    rw [dropRec, if_pos (by simpa [BreaksThenCreates] using hc), ih]
  | case3 prev cur nxt rest hc ih =>
    rw [dropRec.eq_def]
    simp only
    rw [if_neg (by simpa only [BreaksThenCreates] using hc), ih]
  | case4 l x hl => rw [dropRec]; exact hl

/-- the frames of `l` whose position (counted from `start`) is kept -/
def select (keep : Nat → Bool) : Nat → List (Frame N K) → List (Frame N K)
  | _, [] => []
  | i, f :: l => if keep i then f :: select keep (i + 1) l else select keep (i + 1) l

theorem select_congr {k k' : Nat → Bool} {i j : Nat} (h : ∀ n, k (i + n) = k' (j + n)) (l : List (Frame N K)) :
    select k i l = select k' j l := by
  induction l generalizing i j with
  | nil => rfl
  | cons f l ih =>
    simp only [select]
    have h0 := h 0; simp only [Nat.add_zero] at h0
    rw [h0, ih (i := i + 1) (j := j + 1)
      (fun n => by have := h (n + 1); rwa [show i + 1 + n = i + (n + 1) by omega, show j + 1 + n = j + (n + 1) by omega])]

/-- `keep` drops exactly the inner positions whose predecessor is kept and for which `D` holds -/
def GreedyDrop (D : Frame N K → Frame N K → Frame N K → Bool) (l : List (Frame N K)) (keep : Nat → Bool) : Prop :=
  keep 0 = true ∧ ∀ i p c n, l[i]? = some p → l[i + 1]? = some c → l[i + 2]? = some n →
    keep (i + 1) = !(keep i && D p c n)

theorem dropRec_greedy (D : Frame N K → Frame N K → Frame N K → Bool) (prev : Frame N K) (l : List (Frame N K)) :
    ∃ keep, GreedyDrop D (prev :: l) keep ∧ dropRec D prev l = select keep 1 l.dropLast := by
  fun_induction dropRec D prev l with
  | case1 prev cur nxt hc =>
    refine ⟨fun i => i != 1, ⟨rfl, ?_⟩, rfl⟩
    intro i p c n h1 h2 h3
    match i with
    | 0 => simp at h1 h2 h3; subst h1 h2 h3; simp [hc]
    | i + 1 => simp at h3
  | case2 prev cur nxt hc x t ih =>
    obtain ⟨k, ⟨k0, hk⟩, e⟩ := ih
    refine ⟨fun i => match i with | 0 => true | 1 => false | i + 2 => k i, ⟨rfl, ?_⟩, ?_⟩
    · intro i p c n h1 h2 h3
      match i with
      | 0 => simp at h1 h2 h3; subst h1 h2 h3; simp [hc]
      | 1 => simp [k0]
      | i + 2 => exact hk i p c n (by simpa using h1) (by simpa using h2) (by simpa using h3)
    · rw [List.dropLast_cons_cons, List.dropLast_cons_cons]
      simp only [select, Bool.false_eq_true, if_false, k0, if_true]
      rw [e]
      congr 1
      exact select_congr (i := 1) (j := 3) (fun n => by
        show k (1 + n) = _
        rw [show 3 + n = (1 + n) + 2 by omega]) _
  | case3 prev cur nxt rest hc ih =>
    obtain ⟨k, ⟨k0, hk⟩, e⟩ := ih
    refine ⟨fun i => match i with | 0 => true | i + 1 => k i, ⟨rfl, ?_⟩, ?_⟩
    · intro i p c n h1 h2 h3
      match i with
      | 0 => simp at h1 h2 h3; subst h1 h2 h3; simp [k0, hc]
      | i + 1 => exact hk i p c n (by simpa using h1) (by simpa using h2) (by simpa using h3)
    · rw [List.dropLast_cons_cons]
      simp only [select, k0, if_true]
      rw [e]
      congr 1
      exact select_congr (i := 1) (j := 2) (fun n => by
        show k (1 + n) = _
        rw [show 2 + n = (1 + n) + 1 by omega]) _
  | case4 l x hl =>
    refine ⟨fun _ => true, ⟨rfl, ?_⟩, ?_⟩
    · intro i p c n h1 h2 h3
      match l, hl with
      | [], _ => simp at h2
      | [a], _ => simp at h3
      | a :: b :: r, hl => exact absurd rfl (hl a b r)
    · match l, hl with
      | [], _ => rfl
      | [a], _ => rfl
      | a :: b :: r, hl => exact absurd rfl (hl a b r)

/-- **C27 (what is dropped)** For a plan of at least three frames, the repositioning and break/create filters
drop exactly, from left to right, the inner frames whose predecessor is kept and that repeat the move of their
successor (resp. only break what the successor creates again), provided the successor is directly reachable; and
the obsolescence filter drops exactly the inner frames that do not differ, both in configuration and in contacts,
from the frame preceding them. -/
theorem C27_dropped (sv : Solvers N K) (l : List (Frame N K)) (h3 : 3 ≤ l.length) :
    (∃ keep, GreedyDrop (RepeatsMove sv) l keep ∧
      filterRepositioning sv l = select keep 0 l.dropLast ++ l.getLast?.toList) ∧
    (∃ keep, GreedyDrop (BreaksThenCreates sv) l keep ∧
      filterBreakCreate sv l = select keep 0 l.dropLast ++ l.getLast?.toList) ∧
    (∃ keep, keep 0 = true ∧ (∀ i p c, l[i]? = some p → l[i + 1]? = some c →
        (keep (i + 1) = true ↔ sv.epsilonSq < distSqList c.2.configuration p.2.configuration ∧
          (c.2.contactBreaks p.2 ≠ [] ∨ c.2.contactCreations p.2 ≠ []))) ∧
      filterObsolete sv l = select keep 0 l.dropLast ++ l.getLast?.toList) := by
  match l, h3 with
  | a :: b :: c :: rest, _ =>
    have hlast : (a :: b :: c :: rest).getLast?.toList = [(b :: c :: rest).getLastD a] := by
      rw [List.getLast?_cons_cons, List.getLastD_eq_getLast?, List.getLast?_eq_getLast_of_ne_nil (by simp)]
      rfl
    refine ⟨?_, ?_, ?_⟩
    · obtain ⟨k, h1, h2⟩ := dropRec_greedy (RepeatsMove sv) a (b :: c :: rest)
      refine ⟨k, h1, ?_⟩
      rw [hlast, List.dropLast_cons_cons, select, h1.1, if_pos rfl, ← h2, ← filterRepRec_eq]
      rfl
    · obtain ⟨k, h1, h2⟩ := dropRec_greedy (BreaksThenCreates sv) a (b :: c :: rest)
      refine ⟨k, h1, ?_⟩
      rw [hlast, List.dropLast_cons_cons, select, h1.1, if_pos rfl, ← h2, ← filterBreakRec_eq]
      rfl
    · have key : ∀ (prev : Frame N K) (l : List (Frame N K)), ∃ keep : Nat → Bool, keep 0 = true ∧
          (∀ i p c, (prev :: l)[i]? = some p → (prev :: l)[i + 1]? = some c →
          (keep (i + 1) = true ↔ sv.epsilonSq < distSqList c.2.configuration p.2.configuration ∧
            (c.2.contactBreaks p.2 ≠ [] ∨ c.2.contactCreations p.2 ≠ []))) ∧
          obsoleteRec sv prev l = select keep 1 l.dropLast := by
        intro prev l
        induction l generalizing prev with
        | nil => exact ⟨fun _ => true, rfl, by intro i p c _ h; simp at h, rfl⟩
        | cons cur l ih =>
          obtain ⟨k, k0, hk, e⟩ := ih cur
          let b : Bool := decide (sv.epsilonSq < distSqList cur.2.configuration prev.2.configuration) &&
            !((cur.2.contactBreaks prev.2).isEmpty && (cur.2.contactCreations prev.2).isEmpty)
          refine ⟨fun i => match i with | 0 => true | 1 => b | i + 2 => k (i + 1), rfl, ?_, ?_⟩
          · intro i p c h1 h2
            match i with
            | 0 =>
              simp at h1 h2; subst h1 h2
              simp only [b, Bool.and_eq_true, decide_eq_true_eq, Bool.not_eq_true', Bool.and_eq_false_iff,
                List.isEmpty_eq_false_iff]
            | i + 1 => exact hk i p c (by simpa using h1) (by simpa using h2)
          · cases l with
            | nil => rfl
            | cons nxt rest =>
              rw [List.dropLast_cons_cons]
              have hs : ∀ m : List (Frame N K), select (fun i => match i with
                  | 0 => true | 1 => b | i + 2 => k (i + 1)) 2 m = select k 1 m := fun m =>
                select_congr (i := 2) (j := 1) (fun n => by
                  rw [show 2 + n = n + 2 by omega, show 1 + n = n + 1 by omega]) m
              unfold obsoleteRec
              simp only [select]
              rw [hs, e]
      obtain ⟨k, k0, hk, e⟩ := key a (b :: c :: rest)
      refine ⟨k, k0, hk, ?_⟩
      rw [hlast, List.dropLast_cons_cons, select, k0, if_pos rfl, ← e]
      rfl

/-! ## The two replacing filters -/

theorem rebuild_rebuilt {sv : Solvers N K} {limb : N} {s s' : State N K} {n p : Vec3 K} {rc : List K}
    (h : rebuild sv limb s n p rc = some s') : Rebuilt sv s' := by
  unfold rebuild at h
  simp only at h
  split_ifs at h with h1 h2
  rw [Bool.and_eq_true] at h2
  cases h
  exact ⟨limb, s, n, p, rc, (sv.projectState limb s n p).2, Prod.ext h1 rfl, Prod.ext h2.1 rfl, h2.2⟩

theorem replaceOf_spec {sv : Solvers N K} {c1 c2 c3 s : State N K} (h : replaceOf sv c1 c2 c3 = some (some s)) :
    Rebuilt sv s ∧ sv.reach s c3 = true := by
  unfold replaceOf at h
  split at h
  · cases h
  · split at h
    · simp only at h
      split at h
      · rename_i s' hs
        simp only [Option.some.injEq] at h
        split_ifs at h with hc
        cases h
        rw [Bool.and_eq_true] at hc
        exact ⟨rebuild_rebuilt hs, hc.2⟩
      · cases h
    · cases h

theorem skipOf_spec {sv : Solvers N K} {c0 c1 c2 c3 s : State N K} (h : skipOf sv c0 c1 c2 c3 = some (some s)) :
    Rebuilt sv s ∧ sv.reach c0 s = true ∧ sv.reach s c3 = true := by
  unfold skipOf at h
  split at h
  · cases h
  · split at h
    · simp only at h
      split at h
      · rename_i s' hs
        simp only [Option.some.injEq] at h
        split_ifs at h with hc
        cases h
        rw [Bool.and_eq_true, Bool.and_eq_true] at hc
        exact ⟨rebuild_rebuilt hs, hc.1.2, hc.2⟩
      · cases h
    · cases h

theorem Filtered.cons {sv : Solvers N K} {l out : List (Frame N K)} (a b : Frame N K)
    (h : Filtered sv (b :: l) out) : Filtered sv (a :: b :: l) (a :: out) := by
  refine ⟨h.times.cons_cons _, rfl, ?_, ?_⟩
  · have hl := h.last
    have hh := h.head
    cases out with
    | nil => simp at hh
    | cons o out => rw [List.getLast?_cons_cons, List.getLast?_cons_cons, hl]
  · intro f hf
    rcases List.mem_cons.1 hf with rfl | hf
    · exact Or.inl (by simp)
    · rcases h.origin f hf with h1 | h1
      · exact Or.inl (List.mem_cons_of_mem _ h1)
      · exact Or.inr h1

theorem tryReplace_filtered (sv : Solvers N K) (l out : List (Frame N K)) (h : tryReplaceRec sv l = some out) :
    Filtered sv l out := by
  fun_induction tryReplaceRec sv l generalizing out with
  | case1 => cases h
  | case2 a b c d rest hc s hs ih =>
    rw [Option.map_eq_some_iff] at h
    obtain ⟨r, hr, rfl⟩ := h
    have i := ih r hr
    have hne : r ≠ [] := by
      intro e; have := i.head; rw [e] at this; simp at this
    refine ⟨?_, rfl, ?_, ?_⟩
    · exact ((i.times.cons _).cons_cons _).cons_cons _
    · obtain ⟨o, r', rfl⟩ := List.exists_cons_of_ne_nil hne
      simp only [List.getLast?_cons_cons]
      rw [i.last]
    · intro f hf
      simp only [List.mem_cons] at hf
      rcases hf with rfl | rfl | hf
      · exact Or.inl (by simp)
      · exact Or.inr (replaceOf_spec hs).1
      · rcases i.origin f hf with h1 | h1
        · exact Or.inl (by simp only [List.mem_cons] at h1 ⊢; tauto)
        · exact Or.inr h1
  | case3 a b c d rest hc hs ih =>
    rw [Option.map_eq_some_iff] at h
    obtain ⟨r, hr, rfl⟩ := h
    exact (ih r hr).cons a b
  | case4 a b c d rest hc ih =>
    rw [Option.map_eq_some_iff] at h
    obtain ⟨r, hr, rfl⟩ := h
    exact (ih r hr).cons a b
  | case5 l _ => cases h; exact Filtered.refl' sv _

theorem trySkip_filtered (sv : Solvers N K) (l out : List (Frame N K)) (h : trySkipRec sv l = some out) :
    Filtered sv l out := by
  fun_induction trySkipRec sv l generalizing out with
  | case1 => cases h
  | case2 a b c d rest hc s hs ih =>
    rw [Option.map_eq_some_iff] at h
    obtain ⟨r, hr, rfl⟩ := h
    have i := ih r hr
    have hne : r ≠ [] := by
      intro e; have := i.head; rw [e] at this; simp at this
    refine ⟨?_, rfl, ?_, ?_⟩
    · exact ((i.times.cons_cons _).cons _).cons_cons _
    · obtain ⟨o, r', rfl⟩ := List.exists_cons_of_ne_nil hne
      simp only [List.getLast?_cons_cons]
      rw [i.last]
    · intro f hf
      simp only [List.mem_cons] at hf
      rcases hf with rfl | rfl | hf
      · exact Or.inl (by simp)
      · exact Or.inr (skipOf_spec hs).1
      · rcases i.origin f hf with h1 | h1
        · exact Or.inl (by simp only [List.mem_cons] at h1 ⊢; tauto)
        · exact Or.inr h1
  | case3 a b c d rest hc hs ih =>
    rw [Option.map_eq_some_iff] at h
    obtain ⟨r, hr, rfl⟩ := h
    exact (ih r hr).cons a b
  | case4 a b c d rest hc ih =>
    rw [Option.map_eq_some_iff] at h
    obtain ⟨r, hr, rfl⟩ := h
    exact (ih r hr).cons a b
  | case5 l _ => cases h; exact Filtered.refl' sv _

theorem filterStatesRec_filtered (sv : Solvers N K) (l out : List (Frame N K))
    (h : filterStatesRec sv l = some out) : Filtered sv l out := by
  unfold filterStatesRec at h
  split at h
  · cases h
  · rename_i l' hl'
    have d := dropping_filters sv l
    refine ((Filtered.of_sublist d.1).trans ?_).trans (trySkip_filtered sv l' out h)
    refine (Filtered.of_sublist (dropping_filters sv (filterRepositioning sv l)).2.1).trans ?_
    exact (Filtered.of_sublist (dropping_filters sv _).2.2).trans (tryReplace_filtered sv _ _ hl')

theorem deepLoop_filtered (sv : Solvers N K) (fuel : Nat) (l out : List (Frame N K))
    (h : deepLoop sv fuel l = .done out) : Filtered sv l out ∧ ∃ mid, filterStatesRec sv mid = some out ∧
      mid.length = out.length := by
  induction fuel generalizing l with
  | zero => cases h
  | succ fuel ih =>
    unfold deepLoop at h
    split at h
    · cases h
    · rename_i r hr
      split_ifs at h with hl
      · cases h; exact ⟨filterStatesRec_filtered sv l _ hr, l, hr, hl.symm⟩
      · obtain ⟨h1, h2⟩ := ih r h
        exact ⟨(filterStatesRec_filtered sv l r hr).trans h1, h2⟩

/-! ### What a replacement is -/

/-- four consecutive frames of a plan -/
def Window (l : List (Frame N K)) (a b c d : Frame N K) : Prop := [a, b, c, d] <:+: l

theorem Window.cons {l : List (Frame N K)} {a b c d : Frame N K} (h : Window l a b c d) (x : Frame N K) :
    Window (x :: l) a b c d := h.trans (List.suffix_cons x l).isInfix

theorem sameMove_iff (c0 c1 c2 c3 : State N K) : sameMove c0 c1 c2 c3 = true ↔
    c1.contactBreaks c0 = c3.contactBreaks c2 ∧ c1.contactBreaks c0 = c1.contactCreations c0 ∧
    c1.contactBreaks c0 = c3.contactCreations c2 ∧ c1.contactBreaks c0 ≠ c2.contactBreaks c1 ∧
    c1.contactCreations c0 ≠ c2.contactCreations c1 := by
  simp [sameMove, and_assoc]

/-- **C27 (replacement)** A frame of the output of `tryReplaceStates` is an input frame, or it stands for the second
of four consecutive input frames `a b c d` where `a → b` and `c → d` both move exactly one limb, the same one, and
`b → c` does something else; its state is `b` with that limb placed where `d` has it (less than 20 cm
away from where `b` has it), re-rooted at `b`, free of collision, and `d` is reachable from it. -/
theorem C27_replaced (sv : Solvers N K) (l out : List (Frame N K)) (h : tryReplaceRec sv l = some out) :
    ∀ f ∈ out, f ∈ l ∨ ∃ a b c d limb, Window l a b c d ∧ f.1 = b.1 ∧
      b.2.contactCreations a.2 = [limb] ∧ b.2.contactBreaks a.2 = [limb] ∧
      d.2.contactCreations c.2 = [limb] ∧ d.2.contactBreaks c.2 = [limb] ∧
      c.2.contactBreaks b.2 ≠ [limb] ∧ c.2.contactCreations b.2 ≠ [limb] ∧
      (∃ n p q mid, d.2.contactNormals.find? limb = some n ∧ d.2.contactPositions.find? limb = some p ∧
        b.2.contactPositions.find? limb = some q ∧
        25 * Vec3.distSq (q + sv.limbOffset limb) (p + sv.limbOffset limb) < 1 ∧
        sv.projectState limb { b.2 with configuration := d.2.configuration } n (p + sv.limbOffset limb) =
          (true, mid) ∧
        sv.projectRoot b.2.configuration mid = (true, f.2)) ∧
      sv.fullValid f.2.configuration = true ∧ sv.reach f.2 d.2 = true := by
  fun_induction tryReplaceRec sv l generalizing out with
  | case1 => cases h
  | case2 a b c d rest hc s hs ih =>
    rw [Option.map_eq_some_iff] at h
    obtain ⟨r, hr, rfl⟩ := h
    intro f hf
    simp only [List.mem_cons] at hf
    rcases hf with rfl | rfl | hf
    · exact Or.inl (by simp)
    · right
      rw [Bool.and_eq_true, decide_eq_true_eq, sameMove_iff] at hc
      obtain ⟨h1, m1, m2, m3, m4, m5⟩ := hc
      obtain ⟨limb, hlimb⟩ := List.length_eq_one_iff.1 h1
      rw [hlimb] at m3
      rw [m3] at m1 m2 m4
      rw [← m2] at m5
      refine ⟨a, b, c, d, limb, ⟨[], rest, rfl⟩, rfl, m2.symm, m3, hlimb, m1.symm, m4.symm, m5.symm, ?_⟩
      unfold replaceOf at hs
      rw [hlimb] at hs
      simp only at hs
      split at hs
      · rename_i n p q e1 e2 e3
        split at hs
        · rename_i s' hs'
          simp only [Option.some.injEq] at hs
          split_ifs at hs with hcc
          cases hs
          rw [Bool.and_eq_true, decide_eq_true_eq] at hcc
          unfold rebuild at hs'
          simp only at hs'
          split_ifs at hs' with h1 h2
          rw [Bool.and_eq_true] at h2
          cases hs'
          exact ⟨⟨n, p, q, _, e1, e2, e3, hcc.1, Prod.ext h1 rfl, Prod.ext h2.1 rfl⟩, h2.2, hcc.2⟩
        · cases hs
      · cases hs
    · rcases ih r hr f hf with h1 | ⟨a', b', c', d', limb, hw, rest'⟩
      · exact Or.inl (by simp only [List.mem_cons] at h1 ⊢; tauto)
      · exact Or.inr ⟨a', b', c', d', limb, ((hw.cons c).cons b).cons a, rest'⟩
  | case3 a b c d rest hc hs ih =>
    rw [Option.map_eq_some_iff] at h
    obtain ⟨r, hr, rfl⟩ := h
    intro f hf
    rcases List.mem_cons.1 hf with rfl | hf
    · exact Or.inl (by simp)
    · rcases ih r hr f hf with h1 | ⟨a', b', c', d', limb, hw, rest'⟩
      · exact Or.inl (List.mem_cons_of_mem _ h1)
      · exact Or.inr ⟨a', b', c', d', limb, hw.cons a, rest'⟩
  | case4 a b c d rest hc ih =>
    rw [Option.map_eq_some_iff] at h
    obtain ⟨r, hr, rfl⟩ := h
    intro f hf
    rcases List.mem_cons.1 hf with rfl | hf
    · exact Or.inl (by simp)
    · rcases ih r hr f hf with h1 | ⟨a', b', c', d', limb, hw, rest'⟩
      · exact Or.inl (List.mem_cons_of_mem _ h1)
      · exact Or.inr ⟨a', b', c', d', limb, hw.cons a, rest'⟩
  | case5 l _ => cases h; exact fun f hf => Or.inl hf

/-- **C27 (skipping)** A frame of the output of `trySkipStates` is an input frame, or it stands for the third of four
consecutive input frames `a b c d` such that `a → b` and `c → d` break and create the same limbs and `b → c` creates
exactly one contact; its state is `c` with the first of those limbs placed where `a` has it (less than 10 cm
from where `b` has it), re-rooted at `c`, free of collision, reachable from `a`, and `d` is reachable from it. -/
theorem C27_skipped (sv : Solvers N K) (l out : List (Frame N K)) (h : trySkipRec sv l = some out) :
    ∀ f ∈ out, f ∈ l ∨ ∃ a b c d limb more, Window l a b c d ∧ f.1 = c.1 ∧
      b.2.contactCreations a.2 = limb :: more ∧ b.2.contactBreaks a.2 = limb :: more ∧
      d.2.contactCreations c.2 = limb :: more ∧ d.2.contactBreaks c.2 = limb :: more ∧
      (c.2.contactCreations b.2).length = 1 ∧
      c.2.contactBreaks b.2 ≠ limb :: more ∧ c.2.contactCreations b.2 ≠ limb :: more ∧
      (∃ n p n1 q mid, a.2.contactNormals.find? limb = some n ∧ a.2.contactPositions.find? limb = some p ∧
        b.2.contactPositions.find? limb = some q ∧ b.2.contactNormals.find? limb = some n1 ∧
        100 * Vec3.distSq (q + sv.limbOffset limb - Vec3.smul sv.centi n1)
          (p + sv.limbOffset limb - Vec3.smul sv.centi n) < 1 ∧
        sv.projectState limb { c.2 with configuration := a.2.configuration } n
          (p + sv.limbOffset limb - Vec3.smul sv.centi n) = (true, mid) ∧
        sv.projectRoot c.2.configuration mid = (true, f.2)) ∧
      sv.fullValid f.2.configuration = true ∧ sv.reach a.2 f.2 = true ∧ sv.reach f.2 d.2 = true := by
  fun_induction trySkipRec sv l generalizing out with
  | case1 => cases h
  | case2 a b c d rest hc s hs ih =>
    rw [Option.map_eq_some_iff] at h
    obtain ⟨r, hr, rfl⟩ := h
    intro f hf
    simp only [List.mem_cons] at hf
    rcases hf with rfl | rfl | hf
    · exact Or.inl (by simp)
    · right
      rw [Bool.and_eq_true, decide_eq_true_eq, sameMove_iff] at hc
      obtain ⟨h1, m1, m2, m3, m4, m5⟩ := hc
      unfold skipOf at hs
      split at hs
      · cases hs
      · rename_i limb more hl
        rw [hl] at m2 m5
        rw [m2] at m1 m3 m4
        refine ⟨a, b, c, d, limb, more, ⟨[], rest, rfl⟩, rfl, hl, m2, m3.symm, m1.symm, h1, m4.symm, m5.symm, ?_⟩
        split at hs
        · rename_i n p q n1 e1 e2 e3 e4
          simp only at hs
          split at hs
          · rename_i s' hs'
            simp only [Option.some.injEq] at hs
            split_ifs at hs with hcc
            cases hs
            rw [Bool.and_eq_true, Bool.and_eq_true, decide_eq_true_eq] at hcc
            unfold rebuild at hs'
            simp only at hs'
            split_ifs at hs' with h1 h2
            rw [Bool.and_eq_true] at h2
            cases hs'
            exact ⟨⟨n, p, n1, q, _, e1, e2, e3, e4, hcc.1.1, Prod.ext h1 rfl, Prod.ext h2.1 rfl⟩, h2.2,
              hcc.1.2, hcc.2⟩
          · cases hs
        · cases hs
    · rcases ih r hr f hf with h1 | ⟨a', b', c', d', limb, m', hw, rest'⟩
      · exact Or.inl (by simp only [List.mem_cons] at h1 ⊢; tauto)
      · exact Or.inr ⟨a', b', c', d', limb, m', ((hw.cons c).cons b).cons a, rest'⟩
  | case3 a b c d rest hc hs ih =>
    rw [Option.map_eq_some_iff] at h
    obtain ⟨r, hr, rfl⟩ := h
    intro f hf
    rcases List.mem_cons.1 hf with rfl | hf
    · exact Or.inl (by simp)
    · rcases ih r hr f hf with h1 | ⟨a', b', c', d', limb, m', hw, rest'⟩
      · exact Or.inl (List.mem_cons_of_mem _ h1)
      · exact Or.inr ⟨a', b', c', d', limb, m', hw.cons a, rest'⟩
  | case4 a b c d rest hc ih =>
    rw [Option.map_eq_some_iff] at h
    obtain ⟨r, hr, rfl⟩ := h
    intro f hf
    rcases List.mem_cons.1 hf with rfl | hf
    · exact Or.inl (by simp)
    · rcases ih r hr f hf with h1 | ⟨a', b', c', d', limb, m', hw, rest'⟩
      · exact Or.inl (List.mem_cons_of_mem _ h1)
      · exact Or.inr ⟨a', b', c', d', limb, m', hw.cons a, rest'⟩
  | case5 l _ => cases h; exact fun f hf => Or.inl hf

/-- every position comes with a normal -/
def HasNormals (s : State N K) : Prop := MapsOk s ∧ ∀ n ∈ s.contactPositions.keys, n ∈ s.contactNormals.keys

theorem creation_touches {c p : State N K} (hc : MapsOk c) {limb : N} {more : List N}
    (h : c.contactCreations p = limb :: more) : ∃ v, c.contactPositions.find? limb = some v := by
  have := (C05_creations (prev := p) hc limb).1 (by rw [h]; simp)
  rcases this with h1 | ⟨_, q, _, h2, _⟩
  · exact h1.1
  · exact ⟨q, h2⟩

/-- **C27 (no exception)** On plans whose states store a normal for every position, `tryReplaceStates` never throws,
and `trySkipStates` throws only if two consecutive frames have the same contacts. -/
theorem C27_no_throw (sv : Solvers N K) (l : List (Frame N K)) (hn : ∀ f ∈ l, HasNormals f.2) :
    tryReplaceRec sv l ≠ none ∧
    (trySkipRec sv l = none → ∃ a b, [a, b] <:+: l ∧ b.2.contactCreations a.2 = [] ∧
      b.2.contactBreaks a.2 = []) := by
  constructor
  · fun_induction tryReplaceRec sv l with
    | case1 a b c d rest hc hs =>
      intro _
      rw [Bool.and_eq_true, decide_eq_true_eq, sameMove_iff] at hc
      obtain ⟨h1, m1, m2, m3, m4, m5⟩ := hc
      obtain ⟨limb, hlimb⟩ := List.length_eq_one_iff.1 h1
      have hd := hn d (by simp)
      have hb := hn b (by simp)
      obtain ⟨v, hv⟩ := creation_touches hd.1 hlimb
      have hbl : b.2.contactCreations a.2 = [limb] := by rw [← m2, m3, hlimb]
      obtain ⟨q, hq⟩ := creation_touches hb.1 hbl
      obtain ⟨n, hnn⟩ := Option.isSome_iff_exists.1 (AMap.find?_isSome.2
        (hd.2 limb (AMap.find?_isSome.1 (by rw [hv]; rfl))))
      unfold replaceOf at hs
      rw [hlimb] at hs
      simp only [hv, hq, hnn] at hs
      split at hs <;> cases hs
    | case2 a b c d rest hc s hs ih =>
      have := ih (fun f hf => hn f (by simp only [List.mem_cons] at hf ⊢; tauto))
      simpa using this
    | case3 a b c d rest hc hs ih =>
      have := ih (fun f hf => hn f (by simp only [List.mem_cons] at hf ⊢; tauto))
      simpa using this
    | case4 a b c d rest hc ih =>
      have := ih (fun f hf => hn f (by simp only [List.mem_cons] at hf ⊢; tauto))
      simpa using this
    | case5 l _ => simp
  · intro h
    fun_induction trySkipRec sv l with
    | case1 a b c d rest hc hs =>
      rw [Bool.and_eq_true, decide_eq_true_eq, sameMove_iff] at hc
      obtain ⟨h1, m1, m2, m3, m4, m5⟩ := hc
      have ha := hn a (by simp)
      have hb := hn b (by simp)
      cases hl : b.2.contactCreations a.2 with
      | nil => exact ⟨a, b, ⟨[], c :: d :: rest, rfl⟩, hl, by rw [m2, hl]⟩
      | cons limb more =>
        exfalso
        obtain ⟨q, hq⟩ := creation_touches hb.1 hl
        have hbr : a.2.contactCreations b.2 = limb :: more := by
          have : b.2.contactBreaks a.2 = a.2.contactCreations b.2 := rfl
          rw [← this, m2, hl]
        obtain ⟨p, hp⟩ := creation_touches ha.1 hbr
        obtain ⟨n, hnn⟩ := Option.isSome_iff_exists.1 (AMap.find?_isSome.2
          (ha.2 limb (AMap.find?_isSome.1 (by rw [hp]; rfl))))
        obtain ⟨n1, hn1⟩ := Option.isSome_iff_exists.1 (AMap.find?_isSome.2
          (hb.2 limb (AMap.find?_isSome.1 (by rw [hq]; rfl))))
        unfold skipOf at hs
        rw [hl] at hs
        simp only [hp, hq, hnn, hn1] at hs
        split at hs <;> cases hs
    | case2 a b c d rest hc s hs ih =>
      obtain ⟨x, y, hxy, r⟩ := ih (fun f hf => hn f (by simp only [List.mem_cons] at hf ⊢; tauto))
        (by simpa using h)
      exact ⟨x, y, hxy.trans ⟨[a, b, c], [], by simp⟩, r⟩
    | case3 a b c d rest hc hs ih =>
      obtain ⟨x, y, hxy, r⟩ := ih (fun f hf => hn f (by simp only [List.mem_cons] at hf ⊢; tauto))
        (by simpa using h)
      exact ⟨x, y, hxy.trans (List.suffix_cons a _).isInfix, r⟩
    | case4 a b c d rest hc ih =>
      obtain ⟨x, y, hxy, r⟩ := ih (fun f hf => hn f (by simp only [List.mem_cons] at hf ⊢; tauto))
        (by simpa using h)
      exact ⟨x, y, hxy.trans (List.suffix_cons a _).isInfix, r⟩
    | case5 l _ => cases h

/-- **C27** (partial: the deep mode may throw, see `C27_skip_violated`) Filtering keeps both ends, never invents
or reorders a date (hence never lengthens the plan), and every frame is an input frame or holds a state of the
intermediate generator; shallow filtering returns a sub-sequence of the input and deep filtering stops at a plan
that one more pass does not shorten. -/
theorem C27_filter_partial (sv : Solvers N K) (fuel : Nat) (deep : Bool) (l out : List (Frame N K))
    (h : filterStates sv fuel deep l = .done out) :
    Filtered sv l out ∧ (deep = false → out.Sublist l) ∧
    (deep = true → 2 < l.length → ∃ mid, filterStatesRec sv mid = some out ∧ mid.length = out.length) := by
  unfold filterStates at h
  split_ifs at h with h1 h2
  · cases h; exact ⟨Filtered.refl' sv l, fun _ => List.Sublist.refl _, fun _ hl => by omega⟩
  · have := deepLoop_filtered sv fuel l out h
    exact ⟨this.1, (fun e => by rw [h2] at e; cases e), fun _ _ => this.2⟩
  · cases h
    have d := (dropping_filters sv l).2.2
    exact ⟨Filtered.of_sublist d, fun _ => d.1, fun e => absurd e h2⟩

/-- **C27 (termination)** filtering needs at most one pass per frame, plus one. -/
theorem C27_terminates (sv : Solvers N K) (fuel : Nat) (deep : Bool) (l : List (Frame N K))
    (hf : l.length < fuel) : filterStates sv fuel deep l ≠ .noFuel := by
  unfold filterStates
  split_ifs
  · simp
  · clear * - hf
    induction fuel generalizing l with
    | zero => omega
    | succ fuel ih =>
      unfold deepLoop
      split
      · simp
      · rename_i r hr
        split_ifs with hl
        · simp
        · have := (filterStatesRec_filtered sv l r hr).length_le
          exact ih r (by omega)
  · simp

/-! ## C68 -/

/-- consecutive states of the plan pass the reachability test -/
def Connected (sv : Solvers N K) (l : List (Frame N K)) : Prop :=
  l.IsChain (fun f g => sv.reach f.2 g.2 = true)

theorem filterRepRec_connected (sv : Solvers N K) (prev : Frame N K) (l : List (Frame N K)) (hne : l ≠ [])
    (h : Connected sv (prev :: l)) : Connected sv (prev :: filterRepRec sv prev l ++ [l.getLastD prev]) := by
  unfold Connected at *
  fun_induction filterRepRec sv prev l with
  | case1 prev cur nxt hc =>
    simp only [Bool.and_eq_true] at hc
    simp [List.getLastD, hc.2]
  | case2 prev cur nxt hc x t ih =>
    simp only [Bool.and_eq_true] at hc
    have := ih (by simp) h.tail.tail
    simp only [List.cons_append, List.getLastD_cons] at this ⊢
    exact List.isChain_cons_cons.2 ⟨hc.2, this⟩
  | case3 prev cur nxt rest _ ih =>
    have := ih (by simp) h.tail
    simp only [List.cons_append, List.getLastD_cons] at this ⊢
    exact List.isChain_cons_cons.2 ⟨(List.isChain_cons_cons.1 h).1, this⟩
  | case4 l x hl =>
    match l with
    | [] => exact absurd rfl hne
    | [y] => simpa [List.getLastD] using h
    | y :: z :: r => exact absurd rfl (hl y z r)

theorem filterBreakRec_connected (sv : Solvers N K) (prev : Frame N K) (l : List (Frame N K)) (hne : l ≠ [])
    (h : Connected sv (prev :: l)) : Connected sv (prev :: filterBreakRec sv prev l ++ [l.getLastD prev]) := by
  unfold Connected at *
  fun_induction filterBreakRec sv prev l with
  | case1 prev cur nxt hc =>
    simp only [Bool.and_eq_true] at hc
    simp [List.getLastD, hc.2]
  | case2 prev cur nxt hc x t ih =>
    simp only [Bool.and_eq_true] at hc
    have := ih (by simp) h.tail.tail
    simp only [List.cons_append, List.getLastD_cons] at this ⊢
    exact List.isChain_cons_cons.2 ⟨hc.2, this⟩
  | case3 prev cur nxt rest _ ih =>
    have := ih (by simp) h.tail
    simp only [List.cons_append, List.getLastD_cons] at this ⊢
    exact List.isChain_cons_cons.2 ⟨(List.isChain_cons_cons.1 h).1, this⟩
  | case4 l x hl =>
    match l with
    | [] => exact absurd rfl hne
    | [y] => simpa [List.getLastD] using h
    | y :: z :: r => exact absurd rfl (hl y z r)

theorem trySkip_connected (sv : Solvers N K) (l out : List (Frame N K)) (h : trySkipRec sv l = some out)
    (hc : Connected sv l) : Connected sv out := by
  unfold Connected at *
  fun_induction trySkipRec sv l generalizing out with
  | case1 => cases h
  | case2 a b c d rest _ s hs ih =>
    rw [Option.map_eq_some_iff] at h
    obtain ⟨r, hr, rfl⟩ := h
    have i := ih r hr hc.tail.tail.tail
    have hd := (trySkip_filtered sv _ r hr).head
    obtain ⟨_, s1, s2⟩ := skipOf_spec hs
    cases r with
    | nil => simp at hd
    | cons x r =>
      simp only [List.head?_cons, Option.some.injEq] at hd
      subst hd
      exact List.isChain_cons_cons.2 ⟨s1, List.isChain_cons_cons.2 ⟨s2, i⟩⟩
  | case3 a b c d rest _ hs ih =>
    rw [Option.map_eq_some_iff] at h
    obtain ⟨r, hr, rfl⟩ := h
    have i := ih r hr hc.tail
    have hd := (trySkip_filtered sv _ r hr).head
    cases r with
    | nil => simp at hd
    | cons x r =>
      simp only [List.head?_cons, Option.some.injEq] at hd
      subst hd
      exact List.isChain_cons_cons.2 ⟨(List.isChain_cons_cons.1 hc).1, i⟩
  | case4 a b c d rest _ ih =>
    rw [Option.map_eq_some_iff] at h
    obtain ⟨r, hr, rfl⟩ := h
    have i := ih r hr hc.tail
    have hd := (trySkip_filtered sv _ r hr).head
    cases r with
    | nil => simp at hd
    | cons x r =>
      simp only [List.head?_cons, Option.some.injEq] at hd
      subst hd
      exact List.isChain_cons_cons.2 ⟨(List.isChain_cons_cons.1 hc).1, i⟩
  | case5 l _ => cases h; exact hc

/-- **C68** (partial: not `FilterObsolete` and `tryReplaceStates`, see `C68_replace_violated`) dropping
repositionings and break-and-create pairs, and skipping states, keep consecutive states reachable. -/
theorem C68_connected_partial (sv : Solvers N K) (l : List (Frame N K)) (h : Connected sv l) :
    Connected sv (filterRepositioning sv l) ∧ Connected sv (filterBreakCreate sv l) ∧
    (∀ out, trySkipRec sv l = some out → Connected sv out) := by
  refine ⟨?_, ?_, fun out ho => trySkip_connected sv l out ho h⟩
  · match l with
    | [] => exact h
    | [a] => exact h
    | [a, b] => exact h
    | a :: b :: c :: rest => exact filterRepRec_connected sv a (b :: c :: rest) (by simp) h
  · match l with
    | [] => exact h
    | [a] => exact h
    | [a, b] => exact h
    | a :: b :: c :: rest => exact filterBreakRec_connected sv a (b :: c :: rest) (by simp) h

/-! ## Concrete cases -/

/-- a state with contacts at integer abscissae -/
def mk (cfg : List ℤ) (cs : List (ℕ × ℤ)) : State ℕ ℤ :=
  cs.foldl (fun s p => s.addContact p.1 ⟨p.2, 0, 0⟩ ⟨0, 0, 1⟩ Mat3.one cfg)
    { (State.init 0 : State ℕ ℤ) with configuration := cfg }

/-- every projection succeeds; the replacement has configuration `[9]` -/
def demoSv : Solvers ℕ ℤ where
  reach := fun _ t => !decide (t.configuration = [9])
  projectState := fun limb s n p => (true, (s.removeContact limb).1.addContact limb p n Mat3.one [9])
  projectRoot := fun _ s => (true, { s with configuration := [9] })
  fullValid := fun _ => true
  limbOffset := fun _ => 0
  projectEffector := fun _ _ _ r p _ => some ([8], p, r)
  epsilonSq := 0
  centi := 0
  extraDim := 0

/-- **C27 is violated**: deep filtering of this plan reads the first element of an empty vector (the second
frame keeps the configuration of the first and is dropped, leaving two consecutive frames with the same
contacts). -/
theorem C27_skip_violated :
    filterStates { demoSv with reach := fun _ _ => false } 10 true
      [(0, mk [0] [(1, 0), (2, 0)]), (1, mk [0] [(1, 0)]), (2, mk [1] [(1, 0), (2, 0)]),
       (3, mk [2] [(1, 5), (2, 0)]), (4, mk [3] [(1, 5), (2, 0)])] = .throws := by decide

/-- a plan in which the second frame is replaced and the third dropped -/
def replPlan : List (Frame ℕ ℤ) :=
  [(0, mk [0] [(1, 0), (2, 0)]), (1, mk [1] [(1, 1), (2, 0)]), (2, mk [2] [(1, 7), (2, 3)]),
   (3, mk [3] [(1, 1), (2, 3)])]

instance (sv : Solvers ℕ ℤ) (l : List (Frame ℕ ℤ)) : Decidable (Connected sv l) :=
  inferInstanceAs (Decidable (l.IsChain _))

/-- **C68 is violated** by `tryReplaceStates`: it checks that the next state is reachable from the replacement,
not that the replacement is reachable from the preceding state. -/
theorem C68_replace_violated : Connected demoSv replPlan ∧
    ∃ out, tryReplaceRec demoSv replPlan = some out ∧ ¬ Connected demoSv out := by
  refine ⟨by decide, _, rfl, by decide⟩

/-- repositioning dropped, break-and-create dropped, and a replacement in deep mode -/
example : (filterRepositioning { demoSv with reach := fun _ _ => true }
    [(0, mk [0] [(1, 0)]), (1, mk [1] [(1, 4)]), (2, mk [2] [(1, 5)]), (3, mk [3] [(1, 6)])]).map Prod.fst = [0, 2, 3] ∧
  (filterBreakCreate { demoSv with reach := fun _ _ => true }
    [(0, mk [0] [(1, 0), (2, 0)]), (1, mk [1] [(1, 0)]), (2, mk [2] [(1, 0), (2, 3)]),
     (3, mk [3] [(1, 6), (2, 3)])]).map Prod.fst = [0, 2, 3] := by decide
example : (match filterStates demoSv 10 true replPlan with
    | .done l => l.map (fun f => (f.1, f.2.configuration)) | _ => []) = [(0, [0]), (1, [9]), (3, [3])] := by decide
example : ∀ f ∈ replPlan, HasNormals f.2 := by
  intro f hf
  simp only [replPlan, List.mem_cons, List.not_mem_nil, or_false] at hf
  rcases hf with rfl | rfl | rfl | rfl <;>
  exact ⟨⟨by unfold AMap.WF; decide, by unfold AMap.WF; decide, by unfold AMap.WF; decide,
    by unfold AMap.WF; decide⟩, by decide⟩
/-- `mk` with the normal of contact 1 turned to the x axis -/
def turned (s : State ℕ ℤ) : State ℕ ℤ := { s with contactNormals := s.contactNormals.set 1 ⟨1, 0, 0⟩ }
example : (trySkipRec { demoSv with reach := fun _ _ => true, centi := 1 }
    [(0, mk [0] [(1, 0), (2, 0)]), (1, turned (mk [1] [(1, 1), (2, 0)])), (2, mk [2] [(1, 1), (2, 3)]),
     (3, mk [3] [(1, 2), (2, 3)])]).map (·.map Prod.fst) = some [0, 1, 2, 3] := by decide
example : (trySkipRec { demoSv with reach := fun _ _ => true, centi := 1 }
    [(0, turned (mk [0] [(1, 1), (2, 0)])), (1, { mk [1] [(1, 0), (2, 0)] with contactNormals :=
       [(1, ⟨0, 0, 0⟩)] }), (2, mk [2] [(1, 0), (2, 3)]),
     (3, mk [3] [(1, 2), (2, 3)])]).map (·.map Prod.fst) = some [0, 2, 3] := by decide

end Interp
end Rbprm
