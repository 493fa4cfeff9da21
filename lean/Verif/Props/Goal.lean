import Verif.Props.Interpolation
import Mathlib.Data.List.Perm.Subperm
/-!
# Property C28 (reaching the goal state), and C24, C26, C69 for whole plans
-/
set_option linter.unusedSectionVars false
namespace Rbprm
namespace Interp
open State Contact
variable {N K : Type _} [LinearOrder N] [CommRing K] [LinearOrder K]

/-- `s'` is `s` with the contact of `limb` released and put where `goal` has it: the target is the goal's position,
normal and rotation; the projection is done without postural task. -/
def MovesLimb (sv : Solvers N K) (goal s : State N K) (limb : N) (s' : State N K) : Prop :=
  ∃ p n r cfg p' r', goal.contactPositions.find? limb = some p ∧ goal.contactNormals.find? limb = some n ∧
    goal.contactRotation.find? limb = some r ∧
    sv.projectEffector false limb (s.removeContact limb).1 r p n = some (cfg, p', r') ∧
    s' = (s.removeContact limb).1.addContact limb p' n r' cfg

/-- the contacts of all other effectors are the same in both states -/
def OnlyChanges (limb : N) (s s' : State N K) : Prop :=
  ∀ n, n ≠ limb → s'.contacts.find? n = s.contacts.find? n ∧
    s'.contactPositions.find? n = s.contactPositions.find? n ∧
    s'.contactNormals.find? n = s.contactNormals.find? n ∧
    s'.contactRotation.find? n = s.contactRotation.find? n

theorem MovesLimb.only {sv : Solvers N K} {goal s s' : State N K} {limb : N} (h : MovesLimb sv goal s limb s') :
    OnlyChanges limb s s' ∧ Touches s' limb := by
  obtain ⟨p, n, r, cfg, p', r', _, _, _, _, rfl⟩ := h
  refine ⟨fun m hm => ?_, p', by simp [TouchesAt, State.addContact, AMap.find?_set]⟩
  unfold State.removeContact State.addContact
  split_ifs <;> simp [AMap.find?_set, AMap.find?_erase, hm]

/-- frames appended one limb at a time, all with the same date -/
inductive GoalMoves (sv : Solvers N K) (goal : State N K) (time : K) :
    State N K → List N → List (Frame N K) → Prop
  | nil (s) : GoalMoves sv goal time s [] []
  | cons {s s' limb limbs fs} : MovesLimb sv goal s limb s' → GoalMoves sv goal time s' limbs fs →
      GoalMoves sv goal time s (limb :: limbs) ((time, s') :: fs)

theorem replaceLimb_spec {sv : Solvers N K} {s goal : State N K} {limb : N} {s' : State N K}
    (h : replaceLimbContact sv false s goal limb = some (some s')) : MovesLimb sv goal s limb s' := by
  unfold replaceLimbContact at h
  simp only at h
  split at h
  · rename_i r p n h1 h2 h3
    split at h
    · rename_i c pos rot h4
      simp only [Option.some.injEq] at h
      exact ⟨p, n, r, c, pos, rot, h2, h3, h1, h4, h.symm⟩
    · cases h
  · cases h

theorem firstMovable_spec {sv : Solvers N K} {mid goal : State N K} (before after : List N) {s : State N K}
    {rest : List N} (h : firstMovable sv false mid goal before after = some (some (s, rest))) :
    ∃ limb ∈ after, MovesLimb sv goal mid limb s ∧ (before ++ after).Perm (limb :: rest) := by
  induction after generalizing before with
  | nil => simp [firstMovable] at h
  | cons limb after ih =>
    unfold firstMovable at h
    split at h
    · cases h
    · rename_i s' hs'
      simp only [Option.some.injEq, Prod.mk.injEq] at h
      obtain ⟨rfl, rfl⟩ := h
      exact ⟨limb, by simp, replaceLimb_spec hs', List.perm_middle⟩
    · obtain ⟨l, hl, hm, hp⟩ := ih _ h
      exact ⟨l, List.mem_cons_of_mem _ hl, hm, by simpa using hp⟩

theorem addGoalRec_spec (sv : Solvers N K) (goal : State N K) (time : K) (fuel : Nat) (last : State N K)
    (vars : List N) (added : List (Frame N K)) (h : addGoalRec sv false goal time fuel last vars = some added) :
    ∃ limbs, GoalMoves sv goal time last limbs added ∧ limbs.Subperm vars ∧
      (vars ≠ [] → limbs.length < vars.length) := by
  induction fuel generalizing last vars added with
  | zero =>
    simp [addGoalRec] at h; subst h
    exact ⟨[], .nil _, List.nil_subperm, fun hne => List.length_pos_iff.2 hne⟩
  | succ fuel ih =>
    unfold addGoalRec at h
    split_ifs at h with h1
    · simp at h; subst h
      exact ⟨[], .nil _, List.nil_subperm, fun hne => List.length_pos_iff.2 hne⟩
    · split at h
      · cases h
      · simp at h; subst h
        exact ⟨[], .nil _, List.nil_subperm, fun hne => List.length_pos_iff.2 hne⟩
      · rename_i s rest hm
        rw [Option.map_eq_some_iff] at h
        obtain ⟨fs, hf, rfl⟩ := h
        obtain ⟨limb, _, hmv, hp⟩ := firstMovable_spec [] vars hm
        obtain ⟨limbs, g1, g2, g3⟩ := ih s rest fs hf
        simp only [List.nil_append] at hp
        refine ⟨limb :: limbs, .cons hmv g1, ?_, fun _ => ?_⟩
        · exact ((List.subperm_cons limb).2 g2).trans hp.symm.subperm
        · rw [hp.length_eq] at h1 ⊢
          simp only [List.length_cons] at h1 ⊢
          have : rest ≠ [] := by rintro rfl; simp at h1
          have := g3 this
          omega

/-- the state reached by the moves -/
theorem GoalMoves.last_mem {sv : Solvers N K} {goal : State N K} {time : K} {s : State N K} {limbs : List N}
    {fs : List (Frame N K)} (h : GoalMoves sv goal time s limbs fs) :
    limbs.length = fs.length ∧ ∀ f ∈ fs, f.1 = time ∧ ∃ a limb, limb ∈ limbs ∧ MovesLimb sv goal a limb f.2 := by
  induction h with
  | nil s => simp
  | cons h1 h2 ih =>
    refine ⟨by simp [ih.1], fun f hf => ?_⟩
    rcases List.mem_cons.1 hf with rfl | hf
    · exact ⟨rfl, _, _, by simp, h1⟩
    · obtain ⟨e, a, l, hl, hm⟩ := ih.2 f hf
      exact ⟨e, a, l, by simp [hl], hm⟩

/-- **C28** (partial: an exception leaves the postural option disabled, see `C28_option_violated`) When
`addGoalConfig` returns, the robot's postural option has its previous value and the plan is the given one
followed by intermediate frames, each of which releases the contact of one limb of the remaining variations and
puts it where the goal has it (no limb twice, fewer than the number of variations, all dated like the last given
frame), followed by the goal itself iff exactly one effector is still to be moved. -/
theorem C28_goal_partial (sv : Solvers N K) (postural : Bool) (goal : State N K) (pathEnd : Option K)
    (states : List (Frame N K)) (last : Frame N K) (plan : List (Frame N K)) (p : Bool)
    (h : addGoalConfig sv postural goal pathEnd states last = (some plan, p)) :
    p = postural ∧ ∃ limbs added tail, plan = states ++ added ++ tail ∧
      GoalMoves sv goal last.1 last.2 limbs added ∧ limbs.Subperm (last.2.contactVariations goal) ∧
      (last.2.contactVariations goal ≠ [] → limbs.length < (last.2.contactVariations goal).length) ∧
      ((∃ limb, ((added.getLastD last).2.contactVariations goal) = [limb]) ∧
          tail = [(if (last.2.contactVariations goal).length = 1 then last.1 else pathEnd.getD last.1, goal)] ∨
        (∀ limb, ((added.getLastD last).2.contactVariations goal) ≠ [limb]) ∧ tail = []) := by
  unfold addGoalConfig at h
  simp only at h
  split_ifs at h with h0 h1
  · simp only [Prod.mk.injEq, Option.some.injEq] at h
    obtain ⟨rfl, rfl⟩ := h
    refine ⟨rfl, [], [], [], by simp, .nil _, List.nil_subperm, fun hne => List.length_pos_iff.2 hne, Or.inr ⟨?_, rfl⟩⟩
    intro limb he
    simp only [List.getLastD_nil] at he
    rw [he] at h0; simp at h0
  · simp only [Prod.mk.injEq, Option.some.injEq] at h
    obtain ⟨rfl, rfl⟩ := h
    refine ⟨rfl, [], [], [(last.1, goal)], by simp, .nil _, List.nil_subperm, fun hne => List.length_pos_iff.2 hne,
      Or.inl ⟨List.length_eq_one_iff.1 h1, by rw [if_pos h1]⟩⟩
  · split at h
    · simp at h
    · rename_i added hadd
      obtain ⟨limbs, g1, g2, g3⟩ := addGoalRec_spec sv goal last.1 _ last.2 _ added hadd
      split_ifs at h with h2
      · simp only [Prod.mk.injEq, Option.some.injEq] at h
        obtain ⟨rfl, rfl⟩ := h
        refine ⟨rfl, limbs, added, [(pathEnd.getD (added.getLastD last).1, goal)], rfl, g1, g2, g3,
          Or.inl ⟨List.length_eq_one_iff.1 h2, ?_⟩⟩
        rw [if_neg h1]
        have : (added.getLastD last).1 = last.1 := by
          cases added with
          | nil => rfl
          | cons f fs =>
            rw [List.getLastD_eq_getLast?, List.getLast?_eq_getLast_of_ne_nil (by simp), Option.getD_some]
            exact (g1.last_mem.2 _ (List.getLast_mem (by simp))).1
        rw [this]
      · simp only [Prod.mk.injEq, Option.some.injEq] at h
        obtain ⟨rfl, rfl⟩ := h
        refine ⟨rfl, limbs, added, [], by simp, g1, g2, g3, Or.inr ⟨fun limb he => ?_, rfl⟩⟩
        rw [he] at h2; simp at h2

/-- **C28 (no exception)** If the goal stores complete data for its contacts and every effector to be moved
touches in the goal, `addGoalConfig` does not throw. -/
theorem C28_no_throw (sv : Solvers N K) (postural : Bool) (goal : State N K) (hg : Sound goal) (pathEnd : Option K)
    (states : List (Frame N K)) (last : Frame N K)
    (hv : ∀ n ∈ last.2.contactVariations goal, Touches goal n) :
    (addGoalConfig sv postural goal pathEnd states last).1 ≠ none := by
  have hfind : ∀ n, Touches goal n → ∃ r p m, goal.contactRotation.find? n = some r ∧
      goal.contactPositions.find? n = some p ∧ goal.contactNormals.find? n = some m := by
    rintro n ⟨p, hp⟩
    have hk : n ∈ goal.contacts.keys := by
      rw [← hg.positionsKeys, ← AMap.find?_isSome]; unfold TouchesAt at hp; simp [hp]
    obtain ⟨r, hr⟩ := Option.isSome_iff_exists.1 (AMap.find?_isSome.2 (hg.rotationsKeys ▸ hk))
    obtain ⟨m, hm⟩ := Option.isSome_iff_exists.1 (AMap.find?_isSome.2 (hg.normalsKeys ▸ hk))
    exact ⟨r, p, m, hr, hp, hm⟩
  have hmov : ∀ (s : State N K) (after before : List N), (∀ n ∈ after, Touches goal n) →
      firstMovable sv false s goal before after ≠ none := by
    intro s after
    induction after with
    | nil => intro before _; simp [firstMovable]
    | cons limb after ih =>
      intro before hx
      obtain ⟨r, p, m, h1, h2, h3⟩ := hfind limb (hx limb (by simp))
      unfold firstMovable replaceLimbContact
      simp only [h1, h2, h3]
      cases hp : sv.projectEffector false limb (s.removeContact limb).1 r p m with
      | none => simpa using ih _ (fun n hn => hx n (by simp [hn]))
      | some q => simp
  have hrec : ∀ (fuel : Nat) (s : State N K) (vars : List N), (∀ n ∈ vars, Touches goal n) →
      addGoalRec sv false goal last.1 fuel s vars ≠ none := by
    intro fuel
    induction fuel with
    | zero => intro s vars _; simp [addGoalRec]
    | succ fuel ih =>
      intro s vars hx
      unfold addGoalRec
      split_ifs
      · simp
      · split
        · rename_i hm; exact absurd hm (hmov s vars [] hx)
        · simp
        · rename_i s' rest hm
          obtain ⟨limb, _, _, hp⟩ := firstMovable_spec [] vars hm
          have := ih s' rest (fun n hn => hx n (by
            have hq : n ∈ limb :: rest := by simp [hn]
            simpa using hp.mem_iff.2 hq))
          simpa using this
  unfold addGoalConfig
  simp only
  split_ifs
  · simp
  · simp
  · split
    · rename_i hm; exact absurd hm (hrec _ _ _ hv)
    · split_ifs <;> simp

/-- a goal two moves away: one intermediate state, then the goal dated at the end of the path -/
example : addGoalConfig demoSv true (mk [5] [(1, 3), (2, 4)]) (some 9) [(0, mk [0] [(1, 0), (2, 0)])]
      (0, mk [0] [(1, 0), (2, 0)]) =
    (some [(0, mk [0] [(1, 0), (2, 0)]), (0, ((mk [0] [(1, 0), (2, 0)]).removeContact 1).1.addContact 1 ⟨3, 0, 0⟩ ⟨0, 0, 1⟩ Mat3.one [8]),
      (9, mk [5] [(1, 3), (2, 4)])], true) := by decide

/-- **C28 is violated**: when the last state holds a contact that the goal releases and another effector has to be
moved, `addGoalConfig` throws and leaves the robot's postural option disabled. -/
theorem C28_option_violated :
    addGoalConfig demoSv true (mk [5] [(2, 4)]) (some 9) [(0, mk [0] [(1, 0), (2, 0)])]
      (0, mk [0] [(1, 0), (2, 0)]) = (none, false) := by decide

/-! ## Whole plans -/

/-- where a frame of a plan may come from -/
def Origin (sv : Solvers N K) (compute : Compute N K) (configs : List (List K)) (ts init : K)
    (start goal : State N K) (f : Frame N K) : Prop :=
  f = (init, start) ∨ (∃ prev rep, Produces sv compute configs ts init prev rep f) ∨ f.2 = goal ∨
    (∃ s limb, MovesLimb sv goal s limb f.2) ∨ Rebuilt sv f.2

theorem Grown.origin {sv : Solvers N K} {compute : Compute N K} {configs : List (List K)} {ts init : K}
    {start : State N K} {states : List (Frame N K)} {reps : List (ContactReport N K)}
    (h : Grown sv compute configs ts init start states reps) :
    ∀ f ∈ states, f = (init, start) ∨ ∃ prev rep, Produces sv compute configs ts init prev rep f := by
  induction h with
  | start => simp
  | push h1 h2 h3 ih =>
    intro f hf
    rcases List.mem_append.1 hf with h | h
    · exact ih f h
    · simp at h; subst h; exact Or.inr ⟨_, _, h3⟩

theorem Filtered.dropLast {sv : Solvers N K} {l out : List (Frame N K)} (h : Filtered sv l out) :
    (out.dropLast.map Prod.fst).Sublist (l.dropLast.map Prod.fst) := by
  rcases List.eq_nil_or_concat out with rfl | ⟨o', x, rfl⟩
  · simp
  · have hl := h.last
    rcases List.eq_nil_or_concat l with rfl | ⟨l', y, rfl⟩
    · simp at hl
    · simp only [List.concat_eq_append, List.getLast?_concat, Option.some.injEq] at hl
      subst hl
      have := h.times
      simp only [List.concat_eq_append, List.map_append, List.map_cons, List.map_nil] at this ⊢
      rw [List.append_sublist_append_right] at this
      simpa using this

/-- **C24** (partial: the date of the goal can be smaller than the date before it, see `C24_goal_date_violated`)
If a failed report, or one with several breaks, is always a repositioning, the plan returned by `Interpolate` begins
with the start state at the initial date; every frame is that one, or comes from contact generation for a sampled
configuration, or is the goal, or an intermediate state that moves one limb to its place in the goal, or a state
rebuilt by the filter; and all dates but the last are in non-decreasing order — all of them if the loop's last
possible date is not beyond the end of the path. -/
theorem C24_plan_partial [IsStrictOrderedRing K] (sv : Solvers N K) (compute : Compute N K)
    (configs : List (List K)) (ts init : K) (hts : 0 ≤ ts) (hne : configs ≠ [])
    (start goal : State N K) (Good : State N K → Prop) (h0 : Good start)
    (hG : ∀ s c v, Good s → Good (newStateOf (compute s c v)))
    (hh : ∀ s c v, Good s → (compute s c v).success = false ∨ (compute s c v).multipleBreaks = true →
      (compute s c v).repositionedInPlace = true)
    (fuel : Nat) (postural deep p : Bool) (pathEnd : Option K) (plan : List (Frame N K))
    (h : interpolate sv compute postural start goal pathEnd configs ts init deep fuel = (.done plan, p)) :
    p = postural ∧ plan.head? = some (init, start) ∧
    (∀ f ∈ plan, Origin sv compute configs ts init start goal f) ∧
    (plan.dropLast.map Prod.fst).Pairwise (· ≤ ·) ∧
    ((∀ e, pathEnd = some e → init + (configs.length - 1 : Nat) * ts ≤ e) →
      (plan.map Prod.fst).Pairwise (· ≤ ·)) := by
  unfold interpolate at h
  split at h
  · simp at h
  · rename_i w hm
    obtain ⟨reps, hgr, hhead, hsort, _⟩ := C24_loop sv compute configs ts init hts hne start Good h0 hG hh
      fuel false w hm
    simp only [Prod.mk.injEq] at h
    obtain ⟨hf, rfl⟩ := h
    obtain ⟨hfil, _⟩ := C27_filter_partial sv fuel deep _ _ hf
    have hs := hsort.sublist hfil.times
    refine ⟨rfl, by rw [hfil.head]; exact hhead, fun f hx => ?_, hs.sublist ((List.dropLast_sublist _).map _), fun _ => hs⟩
    rcases hfil.origin f hx with h1 | h1
    · rcases hgr.origin f h1 with h2 | h2
      · exact Or.inl h2
      · exact Or.inr (Or.inl h2)
    · exact Or.inr (Or.inr (Or.inr (Or.inr h1)))
  · rename_i w hm
    obtain ⟨reps, hgr, hhead, hsort, _, hlast, _⟩ := C24_loop sv compute configs ts init hts hne start Good h0 hG hh
      fuel true w hm
    obtain ⟨wf, hinv, e1, e2, e3⟩ := mainLoop_inv sv compute configs ts init hts start Good hG hh fuel _
      (loopInv_start sv compute configs ts init start Good h0 hne) true w hm
    obtain ⟨rfl, hcit⟩ := e3 rfl
    split_ifs at h with hlen
    · split at h
      · simp at h
      · rename_i l p' hgoal
        simp only [Prod.mk.injEq] at h
        obtain ⟨hf, rfl⟩ := h
        obtain ⟨hp, limbs, added, tail, rfl, g1, _, _, gt⟩ := C28_goal_partial sv postural goal pathEnd _ _ _ _ hgoal
        obtain ⟨hfil, _⟩ := C27_filter_partial sv fuel deep _ _ hf
        have hadd := g1.last_mem
        have hmid : ((wf.states ++ added).map Prod.fst).Pairwise (· ≤ ·) := by
          rw [List.map_append, List.pairwise_append]
          refine ⟨hsort, ?_, ?_⟩
          · rw [List.pairwise_map]
            refine List.pairwise_of_forall_mem_list fun a ha b hb => ?_
            rw [(hadd.2 a ha).1, (hadd.2 b hb).1]
          · intro a ha b hb
            obtain ⟨f, hf, rfl⟩ := List.mem_map.1 hb
            rw [(hadd.2 f hf).1]
            exact hinv.lastMax a ha
        have hmax : ∀ t ∈ (wf.states ++ added).map Prod.fst, t ≤ wf.front.1 := by
          intro t ht
          rw [List.map_append, List.mem_append] at ht
          rcases ht with ht | ht
          · exact hinv.lastMax t ht
          · obtain ⟨f, hf, rfl⟩ := List.mem_map.1 ht
            exact (hadd.2 f hf).1.le
        have htail : tail = [] ∨ ∃ d, tail = [(d, goal)] ∧ (d = wf.front.1 ∨ pathEnd = some d) := by
          rcases gt with ⟨_, ht⟩ | ⟨_, ht⟩
          · right
            refine ⟨_, ht, ?_⟩
            split_ifs
            · exact Or.inl rfl
            · cases pathEnd with
              | none => exact Or.inl rfl
              | some e => exact Or.inr rfl
          · exact Or.inl ht
        refine ⟨hp, ?_, fun f hx => ?_, ?_, fun hend => ?_⟩
        · rw [hfil.head, List.append_assoc, List.head?_append, hhead]; rfl
        · rcases hfil.origin f hx with h1 | h1
          · rw [List.mem_append, List.mem_append] at h1
            rcases h1 with (h1 | h1) | h1
            · rcases hgr.origin f h1 with h2 | h2
              · exact Or.inl h2
              · exact Or.inr (Or.inl h2)
            · obtain ⟨_, a, limb, _, hmv⟩ := hadd.2 f h1
              exact Or.inr (Or.inr (Or.inr (Or.inl ⟨a, limb, hmv⟩)))
            · rcases htail with rfl | ⟨d, rfl, _⟩
              · simp at h1
              · simp at h1; subst h1; exact Or.inr (Or.inr (Or.inl rfl))
          · exact Or.inr (Or.inr (Or.inr (Or.inr h1)))
        · refine List.Pairwise.sublist hfil.dropLast ?_
          rcases htail with rfl | ⟨d, rfl, _⟩
          · rw [List.append_nil]
            exact hmid.sublist ((List.dropLast_sublist _).map _)
          · rw [List.dropLast_concat]; exact hmid
        · refine List.Pairwise.sublist hfil.times ?_
          rcases htail with rfl | ⟨d, rfl, hd⟩
          · rw [List.append_nil]; exact hmid
          · rw [List.map_append, List.pairwise_append]
            refine ⟨hmid, by simp, fun a ha b hb => ?_⟩
            simp at hb; subst hb
            refine le_trans (hmax a ha) ?_
            rcases hd with rfl | hd
            · exact le_rfl
            · refine le_trans ?_ (hend _ hd)
              obtain ⟨o, ho, _, hfr⟩ := hinv.offset
              rw [hfr]
              have := natCast_mul_mono hts (show wf.lastIterator + o - 1 ≤ configs.length - 1 by
                have := hinv.lt; omega)
              linarith
    · simp only [Prod.mk.injEq, Run.done.injEq] at h
      obtain ⟨rfl, rfl⟩ := h
      refine ⟨rfl, hhead, fun f hx => ?_, hsort.sublist ((List.dropLast_sublist _).map _), fun _ => hsort⟩
      rcases hgr.origin f hx with h2 | h2
      · exact Or.inl h2
      · exact Or.inr (Or.inl h2)

/-- **C26** (partial, see `C26_failed_state_violated`) A state of the interpolation loop's plan that does not come from
a successful contact generation was repositioned in place, and at most 20 states of the plan were. -/
theorem C26_success_partial [IsStrictOrderedRing K] (sv : Solvers N K) (compute : Compute N K)
    (configs : List (List K)) (ts init : K) (hts : 0 ≤ ts) (hne : configs ≠ [])
    (start : State N K) (Good : State N K → Prop) (h0 : Good start)
    (hG : ∀ s c v, Good s → Good (newStateOf (compute s c v)))
    (hh : ∀ s c v, Good s → (compute s c v).success = false ∨ (compute s c v).multipleBreaks = true →
      (compute s c v).repositionedInPlace = true)
    (fuel : Nat) (b : Bool) (w : Loop N K)
    (h : mainLoop sv compute configs ts fuel (Loop.start start init) = some (b, w)) :
    ∃ reps : List (ContactReport N K), w.states.map Prod.snd = start :: reps.map newStateOf ∧
      (∀ r ∈ reps, r.success = true ∨ r.repositionedInPlace = true) ∧
      reps.countP (fun r => r.repositionedInPlace) ≤ 20 := by
  obtain ⟨reps, hgr, _, _, hc, _⟩ := C24_loop sv compute configs ts init hts hne start Good h0 hG hh fuel b w h
  refine ⟨reps, ?_, ?_, hc⟩
  · clear hc
    generalize w.states = st at hgr
    induction hgr with
    | start => rfl
    | push h1 h2 h3 ih =>
      obtain ⟨i, c, body, v, _, _, _, _, h5, _⟩ := h3
      rw [List.map_append, ih]; simp [h5]
  · clear hc
    generalize w.states = st at hgr
    induction hgr with
    | start => simp
    | push h1 h2 h3 ih =>
      intro r hr
      rcases List.mem_append.1 hr with h | h
      · exact ih r h
      · simp at h; subst h
        obtain ⟨i, c, body, v, _, _, _, _, _, _, h7⟩ := h3
        rcases h7 with h | h
        · exact Or.inr h.1
        · exact Or.inl h.2.1

/-- the library's contact generation in an environment without any contact surface, colliding everywhere -/
def hopeless : Compute ℕ ℤ := fun s c _ =>
  (computeContacts { demoEnv with fullValid := fun _ => false, octree := fun _ _ _ => [] } false 10 s c 3 0 true
    true).getD ⟨⟨true, s, .stable⟩, true, false, false, false⟩

/-- **C26 is violated**: with the library's contact generation, a plan may contain the state of a failed report:
here the robot keeps no contact at all. -/
theorem C26_failed_state_violated :
    (match interpolate demoSv hopeless false State.demo State.demo none [[0], [1], [2]] 1 0 false 100 with
      | (.done plan, _) => plan.map (fun f => (f.1, f.2.contacts)) | _ => []) =
      [(0, State.demo.contacts), (0, [])] ∧
    (hopeless State.demo [1] 0).success = false := by decide

/-- contact generation moving one effector at a time; the first report is a repositioning -/
def scripted (s : State ℕ ℤ) (_ : List ℤ) (v : ℤ) : ContactReport ℕ ℤ :=
  if v = 0 then ⟨⟨true, mk [1] [(1, 5), (2, 0)], .stable⟩, false, false, true, true⟩
  else if v = 2 then ⟨⟨true, mk [2] [(1, 5), (2, 5)], .stable⟩, false, false, true, false⟩
  else if v = 4 then ⟨⟨true, mk [3] [(1, 9), (2, 5)], .stable⟩, false, false, true, false⟩
  else ⟨⟨true, s, .stable⟩, true, false, false, false⟩

/-- **C24 is violated** by the date of the goal: path range [0, 3], time step 2 (samples at 0, 2 and 3): the last
state is dated 4, and the goal, appended after it, 3. -/
theorem C24_goal_date_violated :
    (match interpolate demoSv scripted false (mk [0] [(1, 0), (2, 0)]) (mk [4] [(1, 20), (2, 20)]) (some 3)
        [[0], [2], [3]] 2 0 false 100 with
      | (.done plan, _) => plan.map (fun f => (f.1, f.2.configuration)) | _ => []) =
      [(0, [0]), (0, [1]), (2, [2]), (4, [3]), (4, [8]), (3, [4])] ∧
    (∀ s c v, (scripted s c v).success = true ∧ (scripted s c v).multipleBreaks = false) := by
  refine ⟨by decide, fun s c v => ?_⟩
  unfold scripted; split_ifs <;> exact ⟨rfl, rfl⟩

/-- contact generation that creates a contact for the first sample -/
def firstOnly (s : State ℕ ℤ) (c : List ℤ) (_ : ℤ) : ContactReport ℕ ℤ :=
  if c = [1] then ⟨⟨true, mk c [(1, 5), (2, 0)], .stable⟩, false, false, true, false⟩
  else ⟨⟨true, s, .stable⟩, true, false, false, false⟩

/-- **C69 is violated**: a state generated for the sample at date 1 is dated 0. -/
theorem C69_date_violated :
    (match mainLoop demoSv firstOnly [[0], [1], [2]] 1 100 (Loop.start (mk [0] [(1, 0), (2, 0)]) 0) with
      | some (_, w) => w.states.map (fun f => (f.1, f.2.configuration)) | _ => []) = [(0, [0]), (0, [1])] := by
  decide

/-- the plan of the library's contact generation in the demo world: hypotheses of C24–C26 hold -/
example : ∃ compute, IsComputeContacts demoEnv false 3 0 true true compute ∧ Sound (State.demo : State ℕ ℤ) ∧
    demoEnv.limbs.Nodup :=
  ⟨(isComputeContacts_exists demoEnv (by decide) false 3 0 true true).choose,
    (isComputeContacts_exists demoEnv (by decide) false 3 0 true true).choose_spec,
    State.demo_consistent.sound, by decide⟩
example : (match interpolate demoSv (fun s c _ => (computeContacts demoEnv false 10 s c 3 0 true true).getD
      ⟨⟨true, s, .stable⟩, true, false, false, false⟩) false State.demo State.demo none [[0], [1]] 1 0 false 100 with
    | (.done plan, _) => plan.map (fun f => (f.1, f.2.contacts.keys)) | _ => []) =
    [(0, [1, 2]), (0, [1, 2, 3]), (0, [1, 2])] := by decide

end Interp
end Rbprm
