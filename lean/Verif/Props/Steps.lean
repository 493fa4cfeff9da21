import Verif.Props.Plan
import Mathlib.Tactic.Tauto
/-!
# Property C166: one contact change from a state of a plan to the next one
-/
set_option linter.unusedSectionVars false
namespace Rbprm
namespace Interp
open State Contact
variable {N K : Type _} [LinearOrder N] [CommRing K] [LinearOrder K]

/-- the contact of that limb is released from `a` to `b`, or moves by more than a centimetre -/
def Released (a b : State N K) (n : N) : Prop := (Touches a n ∧ ¬ Touches b n) ∨ Moved a b n

/-- the limb gets a contact from `a` to `b`, or its contact moves by more than a centimetre -/
def Gained (a b : State N K) (n : N) : Prop := (Touches b n ∧ ¬ Touches a n) ∨ Moved a b n

/-- at most one contact is released and at most one is placed -/
def OneChange (a b : State N K) : Prop :=
  (∀ n m, Released a b n → Released a b m → n = m) ∧ (∀ n m, Gained a b n → Gained a b m → n = m)

theorem same_position [IsStrictOrderedRing K] {a b : State N K} {n : N} (h : b.contactPositions.find? n = a.contactPositions.find? n) :
    ¬ Released a b n ∧ ¬ Gained a b n := by
  have hm : ¬ Moved a b n := by
    rintro ⟨p, q, h1, h2, h3⟩
    unfold TouchesAt at h1 h2
    rw [h, h1] at h2
    cases h2
    exact not_farApart_self p h3
  have ht : Touches a n ↔ Touches b n := by unfold Touches TouchesAt; rw [h]
  constructor
  · rintro (⟨h1, h2⟩ | h1)
    · exact h2 (ht.1 h1)
    · exact hm h1
  · rintro (⟨h1, h2⟩ | h1)
    · exact h2 (ht.2 h1)
    · exact hm h1

theorem eq_of_short {l : List N} (h : l.length ≤ 1) {n m : N} (hn : n ∈ l) (hm : m ∈ l) : n = m := by
  match l, h with
  | [a], _ => rw [List.mem_singleton] at hn hm; rw [hn, hm]

/-- **C166 (one step)** From a state with complete contact data, `ComputeContacts` without repositioning in place releases at most one contact and places at most one. -/
theorem C166_step {Smp : Type _} [IsStrictOrderedRing K] (env : Env N K Smp) (hl : env.limbs.Nodup) (postural : Bool) (fuel : Nat) (previous : State N K) (hp : Sound previous)
    (configuration : List K) (thr : K) (extraDim : Nat) (tr qs : Bool) (rep : ContactReport N K)
    (hr : computeContacts env postural fuel previous configuration thr extraDim tr qs = some rep) (hnr : rep.repositionedInPlace = false) :
    OneChange previous rep.result := by
  unfold computeContacts at hr
  rw [Option.map_eq_some_iff] at hr
  obtain ⟨r0, hr0, hr⟩ := hr
  have hws : Sound (computeHelper previous configuration thr tr qs).workingState := hp.same_maps rfl rfl rfl rfl
  obtain ⟨_, _, _, c4, _⟩ := C21_report env hl postural fuel _ r0 hr0 hp.toMapsOk
    hws.toMapsOk (by intro c hc; simp [computeHelper, Helper.create] at hc)
  have hnr0 : r0.repositionedInPlace = false := by rw [← hr] at hnr; split_ifs at hnr <;> exact hnr
  have hpos : rep.result.contactPositions = r0.result.contactPositions := by rw [← hr]; split_ifs <;> rfl
  obtain ⟨hs, h', f1, f2⟩ := c4 hnr0
  have hs' : (genFromMaintain env postural h').1.success = true := by rw [← f2]; exact hs
  obtain ⟨c, hc, cfg, b, l, hx, hfree, hshort⟩ := genFromMaintain_result env hl postural h' hs'
  have hmax : l.length ≤ 1 := by
    have e : h'.maxContactCreations = 1 := congrArg Helper.maxContactCreations (f1.setup hl)
    rw [e] at hshort
    exact hshort le_rfl
  obtain ⟨removed, hr1, hr2⟩ := f1.candidates_all hl (fun c => LostAtMost 1 previous c)
    (by have := startCandidates_lost (computeHelper previous configuration thr tr qs) rfl
        exact this) c hc
  have hold := f1.candidates_all hl (fun c => ∀ n, c.contactPositions.find? n = none ∨ c.contactPositions.find? n = previous.contactPositions.find? n)
    (startCandidates_all _ (fun s n hsn m => by
        unfold State.removeContact
        split_ifs
        · rw [AMap.find?_erase]
          split_ifs
          · exact Or.inl rfl
          · exact hsn m
        · exact hsn m) _ (fun n => Or.inr rfl) (by intro c hc; simp [computeHelper, Helper.create] at hc)) c hc
  rw [← f2] at hx
  have hrel : ∀ n, Released previous rep.result n → n ∈ removed := by
    intro n hn
    by_contra hnm
    obtain ⟨e1, e2⟩ := hr2 n hnm
    have hprev : Touches previous n := by
      rcases hn with h | ⟨p, q, h, _⟩
      · exact h.1
      · exact ⟨p, h⟩
    have hkey : previous.contacts.find? n = some true := by
      obtain ⟨p, hpp⟩ := hprev
      have : n ∈ previous.contacts.keys := by
        rw [← hp.positionsKeys, ← AMap.find?_isSome, hpp]; rfl
      obtain ⟨v, hv⟩ := Option.isSome_iff_exists.1 (AMap.find?_isSome.2 this)
      rw [hv, hp.active n v hv]
    have hnl : n ∉ l := fun hl => (hfree n hl).2 (by rw [e1, hkey])
    have hres : rep.result.contactPositions.find? n = previous.contactPositions.find? n := by
      rw [hpos]; exact (hx.same n hnl).2.1.trans e2
    exact (same_position hres).1 hn
  have hpl : ∀ n, Gained previous rep.result n → n ∈ l := by
    intro n hn
    by_contra hnl
    have hres : rep.result.contactPositions.find? n = c.contactPositions.find? n := by
      rw [hpos]; exact (hx.same n hnl).2.1
    rcases hold n with h | h
    · rw [h] at hres
      rcases hn with ⟨⟨p, h1⟩, _⟩ | ⟨p, q, _, h1, _⟩
      · unfold TouchesAt at h1; rw [hres] at h1; cases h1
      · unfold TouchesAt at h1; rw [hres] at h1; cases h1
    · rw [h] at hres
      exact (same_position hres).2 hn
  exact ⟨fun n m h1 h2 => eq_of_short hr1 (hrel n h1) (hrel m h2), fun n m h1 h2 => eq_of_short hmax (hpl n h1) (hpl m h2)⟩

/-- at every place `i` of the list, but those of `ex`, the relation holds between the state and the next one -/
def Everywhere (R : State N K → State N K → Prop) (ex : List Nat) (l : List (Frame N K)) : Prop :=
  ∀ i, i ∉ ex → ∀ a b, l[i]? = some a → l[i + 1]? = some b → R a.2 b.2

theorem Everywhere.snoc {R : State N K → State N K → Prop} {ex : List Nat} {l : List (Frame N K)} (h : Everywhere R ex l) {x y : Frame N K} (hx : l.getLast? = some x)
    (hR : l.length - 1 ∈ ex ∨ R x.2 y.2) : Everywhere R ex (l ++ [y]) := by
  intro i hi a b ha hb
  have hl : 0 < l.length := by
    cases l with
    | nil => cases hx
    | cons => simp
  by_cases h1 : i + 1 < l.length
  · rw [List.getElem?_append_left (by omega)] at ha
    rw [List.getElem?_append_left h1] at hb
    exact h i hi a b ha hb
  · have h2 : i + 1 = l.length := by
      have := (List.getElem?_eq_some_iff.1 hb).1
      simp only [List.length_append, List.length_singleton] at this
      omega
    rw [List.getElem?_append_left (by omega)] at ha
    have h3 : i = l.length - 1 := by omega
    rw [List.getLast?_eq_getElem?, ← h3, ha] at hx
    cases hx
    rw [h2, List.getElem?_append_right le_rfl] at hb
    simp only [Nat.sub_self, List.getElem?_cons_zero, Option.some.injEq] at hb
    subst hb
    rcases hR with hR | hR
    · exact absurd (h3 ▸ hR) hi
    · exact hR

theorem Everywhere.mono {R : State N K → State N K → Prop} {ex ex' : List Nat} {l : List (Frame N K)} (h : Everywhere R ex l) (hs : ex ⊆ ex') : Everywhere R ex' l :=
  fun i hi => h i fun hx => hi (hs hx)

/-- the states of the loop -/
theorem Grown.oneChange {Smp : Type _} [IsStrictOrderedRing K] {env : Env N K Smp} (hl : env.limbs.Nodup) {thr : K} {extraDim : Nat} {tr qs postural : Bool} {compute : Compute N K}
    (hc : IsComputeContacts env postural thr extraDim tr qs compute) {sv : Solvers N K} {configs : List (List K)} {ts init : K} {start : State N K}
    {states : List (Frame N K)} {reps : List (ContactReport N K)} (h : Grown sv compute configs ts init start states reps) (hs : ∀ f ∈ states, Sound f.2) :
    ∃ ex : List Nat, ex.length = reps.countP (fun r => r.repositionedInPlace) ∧ Everywhere OneChange ex states ∧
      ∀ i ∈ ex, ∃ a b rep, states[i]? = some a ∧ states[i + 1]? = some b ∧ Produces sv compute configs ts init a rep b ∧ rep.repositionedInPlace = true := by
  induction h with
  | start =>
    refine ⟨[], rfl, fun i _ a b _ hb => ?_, fun i hi => by cases hi⟩
    simp at hb
  | @push states reps prev rep f h1 h2 h3 ih =>
    obtain ⟨ex, e1, e2, e3⟩ := ih fun f hf => hs f (List.mem_append_left _ hf)
    have hprev : Sound prev.2 := hs prev (List.mem_append_left _ (List.mem_of_getLast? h2))
    have e4 : ∀ i ∈ ex, ∃ a b rep, (states ++ [f])[i]? = some a ∧ (states ++ [f])[i + 1]? = some b ∧ Produces sv compute configs ts init a rep b ∧ rep.repositionedInPlace = true := by
      intro i hi
      obtain ⟨a, b, r, k1, k2, k3⟩ := e3 i hi
      have := (List.getElem?_eq_some_iff.1 k2).1
      exact ⟨a, b, r, by rw [List.getElem?_append_left (by omega)]; exact k1, by rw [List.getElem?_append_left this]; exact k2, k3⟩
    have hlen : 0 < states.length := by
      cases states with
      | nil => cases h2
      | cons => simp
    have h3' := h3
    obtain ⟨i, c, body, v, _, _, _, hrep, hf, _, _⟩ := h3'
    rw [List.countP_append, List.countP_singleton]
    cases hre : rep.repositionedInPlace with
    | true =>
      refine ⟨(states.length - 1) :: ex, by simp [e1], (e2.mono (List.subset_cons_self _ _)).snoc h2 (Or.inl List.mem_cons_self), fun j hj => ?_⟩
      rcases List.mem_cons.1 hj with rfl | hj
      · refine ⟨prev, f, rep, ?_, ?_, h3, hre⟩
        · rw [List.getElem?_append_left (by omega), ← List.getLast?_eq_getElem?]; exact h2
        · rw [List.getElem?_append_right (by omega), show states.length - 1 + 1 - states.length = 0 by omega]; rfl
      · exact e4 j hj
    | false =>
      refine ⟨ex, by simp [e1], e2.snoc h2 (Or.inr ?_), e4⟩
      obtain ⟨fuel, hfu⟩ := hc prev.2 (loadPrevious sv.extraDim body c) v hprev
      rw [← hrep] at hfu
      rw [hf]
      exact C166_step env hl postural fuel prev.2 hprev _ thr extraDim tr qs rep hfu hre

theorem OnlyChanges.oneChange [IsStrictOrderedRing K] {limb : N} {s s' : State N K} (h : OnlyChanges limb s s') : OneChange s s' := by
  have h1 : ∀ n, Released s s' n → n = limb := fun n hn => by
    by_contra hne
    exact (same_position (h n hne).2.1).1 hn
  have h2 : ∀ n, Gained s s' n → n = limb := fun n hn => by
    by_contra hne
    exact (same_position (h n hne).2.1).2 hn
  exact ⟨fun n m a b => (h1 n a).trans (h1 m b).symm, fun n m a b => (h2 n a).trans (h2 m b).symm⟩

theorem GoalMoves.oneChange [IsStrictOrderedRing K] {sv : Solvers N K} {goal : State N K} {time : K} {s : State N K} {moved : List N} {added : List (Frame N K)}
    (h : GoalMoves sv goal time s moved added) {ex : List Nat} {l : List (Frame N K)} {last : Frame N K} (hl : l.getLast? = some last) (he : last.2 = s)
    (hE : Everywhere OneChange ex l) : Everywhere OneChange ex (l ++ added) ∧ (l ++ added).getLast? = some (added.getLastD last) := by
  induction h generalizing l last with
  | nil s => rw [List.append_nil]; exact ⟨hE, hl⟩
  | @cons s s' limb limbs fs h1 h2 ih =>
    have h3 : Everywhere OneChange ex (l ++ [(time, s')]) := hE.snoc hl (Or.inr (he ▸ h1.only.1.oneChange))
    have := ih (l := l ++ [(time, s')]) (last := (time, s')) (by simp) rfl h3
    rw [List.append_assoc] at this
    refine ⟨this.1, ?_⟩
    rw [show l ++ (time, s') :: fs = l ++ ([(time, s')] ++ fs) from rfl, this.2]
    cases fs <;> rfl

theorem GoalMoves.sound {sv : Solvers N K} {goal : State N K} {time : K} {s : State N K} {moved : List N}
    {fs : List (Frame N K)} (h : GoalMoves sv goal time s moved fs) (hs : Sound s) : ∀ f ∈ fs, Sound f.2 := by
  induction h with
  | nil s => simp
  | @cons s s' limb limbs fs h1 h2 ih =>
    have h3 : Sound s' := by
      obtain ⟨p, n, r, cfg, p', r', _, _, _, _, rfl⟩ := h1
      exact ((hs.removeContact limb).extends (Extends.one _ limb p' n r' cfg s.stable)).same_maps rfl rfl rfl rfl
    intro f hf
    rcases List.mem_cons.1 hf with rfl | hf
    · exact h3
    · exact ih h3 f hf

/-- the last change to the goal -/
theorem oneChange_of_variations {a goal : State N K} (ha : a.MapsOk) (hg : goal.MapsOk) {limb : N} (h : a.contactVariations goal = [limb]) : OneChange a goal := by
  have key : ∀ n, Released a goal n ∨ Gained a goal n → n = limb := by
    intro n hn
    have : n ∈ a.contactVariations goal := by
      rw [(C05_classification ha hg n).2, C05_creations ha, C05_breaks hg, moved_comm]
      unfold Released Gained at hn
      tauto
    rw [h] at this
    exact List.mem_singleton.1 this
  exact ⟨fun n m x y => (key n (Or.inl x)).trans (key m (Or.inl y)).symm, fun n m x y => (key n (Or.inr x)).trans (key m (Or.inr y)).symm⟩

/-- two consecutive states can be told apart: their configurations differ, and a contact is released or placed -/
def Apart (sv : Solvers N K) (a b : State N K) : Prop :=
  sv.epsilonSq < distSqList b.configuration a.configuration ∧ ∃ n, Released a b n ∨ Gained a b n

theorem obsoleteRec_all (sv : Solvers N K) (prev : Frame N K) (l : List (Frame N K)) (hm : ∀ f ∈ prev :: l, f.2.MapsOk) (h : Everywhere (Apart sv) [] (prev :: l)) :
    obsoleteRec sv prev l = l.dropLast := by
  fun_induction obsoleteRec sv prev l with
  | case1 prev cur nxt rest hk ih =>
    rw [ih (fun f hf => hm f (List.mem_cons_of_mem _ hf)) (fun i _ a b ha hb => h (i + 1) (by simp) a b ha hb)]
    rfl
  | case2 prev cur nxt rest hk ih =>
    exfalso
    apply hk
    obtain ⟨h1, n, h2⟩ := h 0 (by simp) prev cur rfl rfl
    rw [Bool.and_eq_true]
    refine ⟨decide_eq_true h1, ?_⟩
    have hp := hm prev (by simp)
    have hcur := hm cur (by simp)
    rw [Bool.not_eq_true', Bool.and_eq_false_iff, List.isEmpty_eq_false_iff, List.isEmpty_eq_false_iff]
    rcases h2 with h2 | h2
    · exact Or.inl (List.ne_nil_of_mem ((C05_breaks hp n).2 h2))
    · exact Or.inr (List.ne_nil_of_mem ((C05_creations hcur n).2 h2))
  | case3 l prev hl =>
    match l, hl with
    | [], _ => rfl
    | [a], _ => rfl
    | a :: b :: r, hl => exact absurd rfl (hl a b r)

theorem filterStates_all (sv : Solvers N K) (fuel : Nat) (l out : List (Frame N K)) (hm : ∀ f ∈ l, f.2.MapsOk) (h : Everywhere (Apart sv) [] l)
    (hf : filterStates sv fuel false l = .done out) : out = l := by
  unfold filterStates at hf
  by_cases h2 : l.length ≤ 2
  · rw [if_pos h2] at hf; cases hf; rfl
  · rw [if_neg h2] at hf
    simp only [Bool.false_eq_true, if_false] at hf
    cases hf
    match l, h2, hm, h with
    | [], h2, _, _ => simp at h2
    | [_], h2, _, _ => simp at h2
    | [_, _], h2, _, _ => simp at h2
    | a :: b :: c :: rest, _, hm, h =>
      show a :: obsoleteRec sv a (b :: c :: rest) ++ [(b :: c :: rest).getLastD a] = _
      rw [obsoleteRec_all sv a _ hm h, List.getLastD_eq_getLast?, List.getLast?_eq_getLast_of_ne_nil (by simp), Option.getD_some, List.cons_append,
        List.dropLast_append_getLast (by simp)]

/-- **C166** (partial: without deep filtering; not at a repositioning in place, and when the filter does not drop states, see the violations).  A returned plan comes from a list of states in which at most one
contact is released and at most one is placed from each state to the next one, but at no more than twenty places where contact generation failed and repositioned the robot; the plan is that list, if its consecutive
states can be told apart, and a part of it otherwise. -/
theorem C166_plan_partial {Smp : Type _} [IsStrictOrderedRing K] (env : Env N K Smp) (hl : env.limbs.Nodup)
    (thr : K) (extraDim : Nat) (tr qs : Bool) (compute : Compute N K) (postural : Bool)
    (hc : IsComputeContacts env postural thr extraDim tr qs compute)
    (sv : Solvers N K) (configs : List (List K)) (hne : configs ≠ [])
    (ts init : K) (hts : 0 ≤ ts) (start goal : State N K) (hs : Sound start) (hgoal : Sound goal)
    (pathEnd : Option K) (p : Bool) (fuel : Nat) (plan : List (Frame N K))
    (h : interpolate sv compute postural start goal pathEnd configs ts init false fuel = (.done plan, p)) :
    ∃ (whole : List (Frame N K)) (ex : List Nat), plan.Sublist whole ∧ ex.length ≤ 20 ∧
      (∀ i, i ∉ ex → ∀ a b, whole[i]? = some a → whole[i + 1]? = some b → OneChange a.2 b.2) ∧
      (∀ i ∈ ex, ∃ a b rep, whole[i]? = some a ∧ whole[i + 1]? = some b ∧ Produces sv compute configs ts init a rep b ∧ rep.repositionedInPlace = true) ∧
      ((∀ i a b, whole[i]? = some a → whole[i + 1]? = some b → Apart sv a.2 b.2) → plan = whole) := by
  have hloop : ∀ b w, mainLoop sv compute configs ts fuel (Loop.start start init) = some (b, w) →
      (∀ f ∈ w.states, Sound f.2) ∧ w.states.getLast? = some w.front ∧ ∃ ex : List Nat, ex.length ≤ 20 ∧ Everywhere OneChange ex w.states ∧
      ∀ i ∈ ex, ∃ a b rep, w.states[i]? = some a ∧ w.states[i + 1]? = some b ∧ Produces sv compute configs ts init a rep b ∧ rep.repositionedInPlace = true := by
    intro b w hm
    obtain ⟨reps, hg, _, _, h20, hlast, hgood⟩ := C24_loop sv compute configs ts init hts hne start Sound hs (computeContacts_good hl hc).1 (computeContacts_good hl hc).2 fuel b w hm
    obtain ⟨ex, e1, e2, e3⟩ := hg.oneChange hl hc hgood
    exact ⟨hgood, hlast, ex, by omega, e2, e3⟩
  have hend : ∀ (whole : List (Frame N K)) (ex : List Nat), (∀ f ∈ whole, Sound f.2) → ex.length ≤ 20 → Everywhere OneChange ex whole →
      (∀ i ∈ ex, ∃ a b rep, whole[i]? = some a ∧ whole[i + 1]? = some b ∧ Produces sv compute configs ts init a rep b ∧ rep.repositionedInPlace = true) →
      filterStates sv fuel false whole = .done plan →
      ∃ (whole : List (Frame N K)) (ex : List Nat), plan.Sublist whole ∧ ex.length ≤ 20 ∧
      (∀ i, i ∉ ex → ∀ a b, whole[i]? = some a → whole[i + 1]? = some b → OneChange a.2 b.2) ∧
      (∀ i ∈ ex, ∃ a b rep, whole[i]? = some a ∧ whole[i + 1]? = some b ∧ Produces sv compute configs ts init a rep b ∧ rep.repositionedInPlace = true) ∧
      ((∀ i a b, whole[i]? = some a → whole[i + 1]? = some b → Apart sv a.2 b.2) → plan = whole) := by
    intro whole ex w1 w2 w3 w4 w5
    exact ⟨whole, ex, (C27_filter_partial sv fuel false whole plan w5).2.1 rfl, w2, w3, w4,
      fun ha => filterStates_all sv fuel whole plan (fun f hf => (w1 f hf).toMapsOk) (fun i _ => ha i) w5⟩
  unfold interpolate at h
  split at h
  · cases h
  · rename_i w hm
    obtain ⟨k1, _, ex, k2, k3, k4⟩ := hloop _ w hm
    exact hend w.states ex k1 k2 k3 k4 (Prod.mk.inj h).1
  · rename_i w hm
    obtain ⟨k1, klast, ex, k2, k3, k4⟩ := hloop _ w hm
    split_ifs at h
    · split at h
      · cases h
      · rename_i l p' hadd
        obtain ⟨_, moved, added, tail, rfl, hmv, _, _, htail⟩ := C28_goal_partial sv postural goal pathEnd _ _ l p' hadd
        obtain ⟨m1, m2⟩ := hmv.oneChange klast rfl k3
        have hsound : ∀ f ∈ w.states ++ added, Sound f.2 := by
          intro f hf
          rcases List.mem_append.1 hf with hf | hf
          · exact k1 f hf
          · exact hmv.sound (k1 w.front (by simp [Loop.states])) f hf
        refine hend _ ex (fun f hf => ?_) k2 ?_ (fun i hi => ?_) (Prod.mk.inj h).1
        · rcases List.mem_append.1 hf with hf | hf
          · exact hsound f hf
          · rcases htail with ⟨_, rfl⟩ | ⟨_, rfl⟩
            · rw [List.mem_singleton] at hf
              subst hf
              exact hgoal
            · cases hf
        · rcases htail with ⟨⟨limb, hv⟩, rfl⟩ | ⟨_, rfl⟩
          · refine m1.snoc m2 (Or.inr ?_)
            exact oneChange_of_variations (hsound _ (List.mem_of_getLast? m2)).toMapsOk hgoal.toMapsOk hv
          · rw [List.append_nil]; exact m1
        · obtain ⟨a, b, r, j1, j2, j3⟩ := k4 i hi
          have := (List.getElem?_eq_some_iff.1 j2).1
          refine ⟨a, b, r, ?_, ?_, j3⟩
          · rw [List.append_assoc, List.getElem?_append_left (by omega)]; exact j1
          · rw [List.append_assoc, List.getElem?_append_left this]; exact j2
    · have := (Prod.mk.inj h).1
      cases this
      exact ⟨w.states, ex, List.Sublist.refl _, k2, k3, k4, fun _ => rfl⟩

/-- the hypotheses of `C166_step` are met: the library places limb 3 while limbs 1 and 2 keep their contacts -/
example : demoEnv.limbs.Nodup ∧ Sound (State.demo : State ℕ ℤ) ∧
    ((computeContacts demoEnv false 10 State.demo [1, 1] 3 0 true true).map fun r => (r.repositionedInPlace, r.result.contactPositions)) =
      some (false, [(1, ⟨0, 0, 0⟩), (2, ⟨3, 4, 0⟩), (3, ⟨3, 4, 0⟩)]) :=
  ⟨by decide, State.demo_consistent.sound, by decide⟩

/-- a goal with four contacts -/
def allPlaced : State ℕ ℤ :=
  (State.demo.addContact 3 ⟨3, 4, 0⟩ ⟨0, 0, 1⟩ Mat3.one [4]).addContact 4 ⟨4, 4, 0⟩ ⟨0, 0, 1⟩ Mat3.one [4]

/-- the hypotheses of `C166_plan_partial` are met: limb 3 is placed from the first state to the second one, limb 4 from the second to the third -/
example : groupedEnv.limbs.Nodup ∧ (∃ compute, IsComputeContacts groupedEnv false 3 0 false true compute) ∧ Sound (State.demo : State ℕ ℤ) ∧ Sound allPlaced ∧
    (match interpolate demoSv groupedCompute false State.demo allPlaced none [[0, 0], [1, 1], [2, 2]] 1 0 false 100 with
      | (.done plan, _) => plan.map fun (f : Frame ℕ ℤ) => f.2.contactPositions.keys
      | _ => []) = [[1, 2], [1, 2, 3], [1, 2, 3, 4]] :=
  ⟨by decide, isComputeContacts_exists _ (by decide) _ _ _ _ _, State.demo_consistent.sound,
    ((((State.demo_consistent.sound (N := ℕ) (K := ℤ)).extends (Extends.one _ 3 _ _ _ [4] true)).same_maps rfl rfl rfl rfl :
      Sound (State.demo.addContact 3 ⟨3, 4, 0⟩ ⟨0, 0, 1⟩ Mat3.one [4])).extends (Extends.one _ 4 _ _ _ [4] true)).same_maps rfl rfl rfl rfl, by decide⟩

/-- **C166 is violated** at a repositioning: the library's contact generation fails, and the next state of the plan has released both contacts. -/
theorem C166_reposition_violated : ∃ a b : Frame ℕ ℤ,
    (interpolate demoSv hopeless false State.demo State.demo none [[0], [1], [2]] 1 0 false 100).1 = .done [a, b] ∧ ¬ OneChange a.2 b.2 := by
  refine ⟨(0, State.demo), (0, (hopeless State.demo [1] 0).result), by decide, fun h => ?_⟩
  have h1 : Released State.demo (hopeless State.demo [1] 0).result 1 := Or.inl ⟨⟨⟨0, 0, 0⟩, by unfold TouchesAt; decide⟩, fun ⟨p, hp⟩ => by
    have : (hopeless State.demo [1] 0).result.contactPositions.find? 1 = none := by decide
    unfold TouchesAt at hp
    rw [this] at hp
    cases hp⟩
  have h2 : Released State.demo (hopeless State.demo [1] 0).result 2 := Or.inl ⟨⟨⟨3, 4, 0⟩, by unfold TouchesAt; decide⟩, fun ⟨p, hp⟩ => by
    have : (hopeless State.demo [1] 0).result.contactPositions.find? 2 = none := by decide
    unfold TouchesAt at hp
    rw [this] at hp
    cases hp⟩
  exact absurd (h.1 1 2 h1 h2) (by decide)

/-- **C166 is violated** by the filter: limb 4 was placed without changing the configuration, the state is dropped, and from the second state of the plan to the third one limb 4 is placed and limb 2 moved. -/
theorem C166_filter_violated : ∃ a b c d : Frame ℕ ℤ,
    (interpolate demoSv groupedCompute false State.demo (mk [1, 1] [(1, 0), (2, 0), (3, 0), (4, 0)]) (some 4) [[0, 0], [1, 1], [2, 2]] 1 0 false 100).1 = .done [a, b, c, d] ∧
      ¬ OneChange b.2 c.2 := by
  have hex : ∃ a b c d : Frame ℕ ℤ,
    (interpolate demoSv groupedCompute false State.demo (mk [1, 1] [(1, 0), (2, 0), (3, 0), (4, 0)]) (some 4) [[0, 0], [1, 1], [2, 2]] 1 0 false 100).1 = .done [a, b, c, d] ∧
      (b.2.contactPositions.find? 2 = some ⟨3, 4, 0⟩ ∧ b.2.contactPositions.find? 4 = none) ∧
      c.2.contactPositions.find? 2 = some ⟨0, 0, 0⟩ ∧ c.2.contactPositions.find? 4 = some ⟨4, 4, 0⟩ := by
    have key : (match (interpolate demoSv groupedCompute false State.demo (mk [1, 1] [(1, 0), (2, 0), (3, 0), (4, 0)]) (some 4) [[0, 0], [1, 1], [2, 2]] 1 0 false 100).1 with
      | .done [_, b, c, _] => decide (b.2.contactPositions.find? 2 = some ⟨3, 4, 0⟩ ∧ b.2.contactPositions.find? 4 = none ∧
          c.2.contactPositions.find? 2 = some ⟨0, 0, 0⟩ ∧ c.2.contactPositions.find? 4 = some ⟨4, 4, 0⟩)
      | _ => false) = true := by decide
    revert key
    generalize (interpolate demoSv groupedCompute false State.demo (mk [1, 1] [(1, 0), (2, 0), (3, 0), (4, 0)]) (some 4) [[0, 0], [1, 1], [2, 2]] 1 0 false 100).1 = o
    intro key
    split at key
    · rename_i a b c d
      have := of_decide_eq_true key
      exact ⟨a, b, c, d, rfl, ⟨this.1, this.2.1⟩, this.2.2⟩
    · cases key
  obtain ⟨a, b, c, d, h, ⟨h1, h2⟩, h3, h4⟩ := hex
  refine ⟨a, b, c, d, h, fun ho => ?_⟩
  have g2 : Gained b.2 c.2 2 := Or.inr ⟨_, _, h1, h3, by unfold FarApart; decide⟩
  have g4 : Gained b.2 c.2 4 := Or.inl ⟨⟨_, h4⟩, fun ⟨p, hp⟩ => by unfold TouchesAt at hp; rw [h2] at hp; cases hp⟩
  exact absurd (ho.2 2 4 g2 g4) (by decide)

/-! ## Deep filtering: the passes that merge two steps -/

theorem everywhere_cons {R : State N K → State N K → Prop} {a b : Frame N K} {l : List (Frame N K)} :
    Everywhere R [] (a :: b :: l) ↔ R a.2 b.2 ∧ Everywhere R [] (b :: l) := by
  constructor
  · exact fun h => ⟨h 0 (by simp) a b rfl rfl, fun i _ x y hx hy => h (i + 1) (by simp) x y hx hy⟩
  · rintro ⟨h1, h2⟩ (_ | i) hi x y hx hy
    · cases hx; cases hy; exact h1
    · exact h2 i (by simp) x y hx hy

theorem everywhere_one {R : State N K → State N K → Prop} (a : Frame N K) : Everywhere R [] [a] := by
  intro i _ x y _ hy
  simp at hy

/-- `FilterRepositioning` merges two steps: their changes are those of one step -/
theorem OneChange.repositioning {a b c : State N K} (ha : a.MapsOk) (hb : b.MapsOk) (hc : c.MapsOk) (h1 : OneChange a b) (e1 : b.contactBreaks a = c.contactBreaks a)
    (e2 : b.contactCreations a = c.contactCreations b) : OneChange a c := by
  have hrel : ∀ n, Released a c n → Released a b n := fun n h => (C05_breaks ha n).1 (e1 ▸ (C05_breaks ha n).2 h)
  have hcr : ∀ n, Gained b c n → Gained a b n := fun n h => (C05_creations hb n).1 (e2 ▸ (C05_creations hc n).2 h)
  have hgain : ∀ n, Gained a c n → Gained a b n := by
    intro n h
    rcases h with ⟨h, h'⟩ | h
    · by_cases hn : Touches b n
      · exact Or.inl ⟨hn, h'⟩
      · exact hcr n (Or.inl ⟨h, hn⟩)
    · rcases hrel n (Or.inr h) with ⟨_, h'⟩ | h'
      · obtain ⟨p, q, _, hq, _⟩ := h
        exact hcr n (Or.inl ⟨⟨q, hq⟩, h'⟩)
      · exact Or.inr h'
  exact ⟨fun n m x y => h1.1 n m (hrel n x) (hrel m y), fun n m x y => h1.2 n m (hgain n x) (hgain m y)⟩

/-- a contact that is neither released nor placed keeps its position -/
def Steady (a b : State N K) : Prop := ∀ n, ¬ Released a b n → ¬ Gained a b n → b.contactPositions.find? n = a.contactPositions.find? n

/-- `FilterBreakCreate` merges a step that releases and one that places: their changes are those of one step -/
theorem OneChange.breakCreate [IsStrictOrderedRing K] {a b c : State N K} (ha : a.MapsOk) (hb : b.MapsOk) (hc : c.MapsOk) (h1 : OneChange a b) (s1 : Steady a b) (s2 : Steady b c)
    (e1 : b.contactCreations a = []) (e2 : c.contactBreaks b = []) (e3 : c.contactCreations b = b.contactBreaks a) : OneChange a c := by
  have g1 : ∀ n, ¬ Gained a b n := fun n h => by have := (C05_creations hb n).2 h; rw [e1] at this; cases this
  have r2 : ∀ n, ¬ Released b c n := fun n h => by have := (C05_breaks hb n).2 h; rw [e2] at this; cases this
  have hcr : ∀ n, Gained b c n → Released a b n := fun n h => (C05_breaks ha n).1 (e3 ▸ (C05_creations hc n).2 h)
  have key : ∀ n, ¬ Released a b n → c.contactPositions.find? n = a.contactPositions.find? n := fun n h =>
    (s2 n (r2 n) fun hg => h (hcr n hg)).trans (s1 n h (g1 n))
  have hall : ∀ n, Released a c n ∨ Gained a c n → Released a b n := fun n h => by
    by_contra hn
    have := same_position (key n hn)
    tauto
  exact ⟨fun n m x y => h1.1 n m (hall n (Or.inl x)) (hall m (Or.inl y)), fun n m x y => h1.1 n m (hall n (Or.inr x)) (hall m (Or.inr y))⟩

/-- **C166 (deep filtering, repositionings)** If at most one contact is released and at most one placed between consecutive states, this is still so after `FilterRepositioning`. -/
theorem C166_repositioning (sv : Solvers N K) (l : List (Frame N K)) (hm : ∀ f ∈ l, f.2.MapsOk)
    (h : ∀ i a b, l[i]? = some a → l[i + 1]? = some b → OneChange a.2 b.2) :
    ∀ i a b, (filterRepositioning sv l)[i]? = some a → (filterRepositioning sv l)[i + 1]? = some b → OneChange a.2 b.2 := by
  have key : ∀ (prev : Frame N K) (l : List (Frame N K)), l ≠ [] → (∀ f ∈ prev :: l, f.2.MapsOk) → Everywhere OneChange [] (prev :: l) →
      Everywhere OneChange [] (prev :: (filterRepRec sv prev l ++ [l.getLastD prev])) := by
    intro prev l
    fun_induction filterRepRec sv prev l with
    | case1 prev cur nxt hk =>
      intro _ hm h
      rw [everywhere_cons] at h
      simp only [Bool.and_eq_true, decide_eq_true_eq] at hk
      exact everywhere_cons.2 ⟨h.1.repositioning (hm prev (by simp)) (hm cur (by simp)) (hm nxt (by simp)) hk.1.1 hk.1.2, everywhere_one _⟩
    | case2 prev cur nxt hk x xs ih =>
      intro _ hm h
      rw [everywhere_cons] at h
      simp only [Bool.and_eq_true, decide_eq_true_eq] at hk
      have := ih (by simp) (fun f hf => hm f (List.mem_cons_of_mem _ (List.mem_cons_of_mem _ hf))) (everywhere_cons.1 h.2).2
      refine everywhere_cons.2 ⟨h.1.repositioning (hm prev (by simp)) (hm cur (by simp)) (hm nxt (by simp)) hk.1.1 hk.1.2, ?_⟩
      exact this
    | case3 prev cur nxt rest hk ih =>
      intro _ hm h
      rw [everywhere_cons] at h
      have := ih (by simp) (fun f hf => hm f (List.mem_cons_of_mem _ hf)) h.2
      exact everywhere_cons.2 ⟨h.1, this⟩
    | case4 l prev hl =>
      intro hne hm h
      match l, hl, hne, h with
      | [a], _, _, h => exact h
      | a :: b :: r, hl, _, _ => exact absurd rfl (hl a b r)
  match l, hm, h with
  | [], _, h => exact h
  | [_], _, h => exact h
  | [_, _], _, h => exact h
  | a :: b :: c :: rest, hm, h => exact fun i => key a (b :: c :: rest) (by simp) hm (fun i _ => h i) i (by simp)

/-- **C166 (deep filtering, breaks and creations)** If moreover untouched contacts keep their positions, this is also so after `FilterBreakCreate`. -/
theorem C166_breakCreate [IsStrictOrderedRing K] (sv : Solvers N K) (l : List (Frame N K)) (hm : ∀ f ∈ l, f.2.MapsOk)
    (h : ∀ i a b, l[i]? = some a → l[i + 1]? = some b → OneChange a.2 b.2 ∧ Steady a.2 b.2) :
    ∀ i a b, (filterBreakCreate sv l)[i]? = some a → (filterBreakCreate sv l)[i + 1]? = some b → OneChange a.2 b.2 := by
  have key : ∀ (prev : Frame N K) (l : List (Frame N K)), l ≠ [] → (∀ f ∈ prev :: l, f.2.MapsOk) → Everywhere (fun a b => OneChange a b ∧ Steady a b) [] (prev :: l) →
      Everywhere OneChange [] (prev :: (filterBreakRec sv prev l ++ [l.getLastD prev])) := by
    intro prev l
    fun_induction filterBreakRec sv prev l with
    | case1 prev cur nxt hk =>
      intro _ hm h
      rw [everywhere_cons, everywhere_cons] at h
      simp only [Bool.and_eq_true, decide_eq_true_eq, List.isEmpty_iff] at hk
      exact everywhere_cons.2 ⟨h.1.1.breakCreate (hm prev (by simp)) (hm cur (by simp)) (hm nxt (by simp)) h.1.2 h.2.1.2 hk.1.1.1 hk.1.1.2 hk.1.2, everywhere_one _⟩
    | case2 prev cur nxt hk x xs ih =>
      intro _ hm h
      rw [everywhere_cons, everywhere_cons] at h
      simp only [Bool.and_eq_true, decide_eq_true_eq, List.isEmpty_iff] at hk
      have := ih (by simp) (fun f hf => hm f (List.mem_cons_of_mem _ (List.mem_cons_of_mem _ hf))) h.2.2
      refine everywhere_cons.2 ⟨h.1.1.breakCreate (hm prev (by simp)) (hm cur (by simp)) (hm nxt (by simp)) h.1.2 h.2.1.2 hk.1.1.1 hk.1.1.2 hk.1.2, ?_⟩
      exact this
    | case3 prev cur nxt rest hk ih =>
      intro _ hm h
      rw [everywhere_cons] at h
      have := ih (by simp) (fun f hf => hm f (List.mem_cons_of_mem _ hf)) h.2
      exact everywhere_cons.2 ⟨h.1.1, this⟩
    | case4 l prev hl =>
      intro hne hm h
      match l, hl, hne, h with
      | [a], _, _, h => exact fun i hi x y hx hy => (h i hi x y hx hy).1
      | a :: b :: r, hl, _, _ => exact absurd rfl (hl a b r)
  match l, hm, h with
  | [], _, h => exact fun i a b ha hb => (h i a b ha hb).1
  | [_], _, h => exact fun i a b ha hb => (h i a b ha hb).1
  | [_, _], _, h => exact fun i a b ha hb => (h i a b ha hb).1
  | a :: b :: c :: rest, hm, h => exact fun i => key a (b :: c :: rest) (by simp) hm (fun i _ => h i) i (by simp)

/-- limb 1 steps to 5 and then to 9, or is lifted and placed: the filters merge both into one step -/
example : ((filterRepositioning demoSv [(0, mk [0] [(1, 0), (2, 0)]), (1, mk [1] [(1, 5), (2, 0)]), (2, mk [2] [(1, 9), (2, 0)])]).map Prod.fst : List ℤ) = [0, 2] ∧
    ((filterBreakCreate demoSv [(0, mk [0] [(1, 0), (2, 0)]), (1, mk [1] [(2, 0)]), (2, mk [2] [(1, 9), (2, 0)])]).map Prod.fst : List ℤ) = [0, 2] := by decide

end Interp
end Rbprm
