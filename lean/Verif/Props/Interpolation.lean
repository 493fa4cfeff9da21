import Verif.Props.Filter
import Verif.Props.Sound
import Mathlib.Tactic.Linarith
import Mathlib.Tactic.Ring
/-!
# Properties C24, C25, C26, C69: the interpolation loop
-/
set_option linter.unusedSectionVars false
namespace Rbprm
namespace Interp
open State Contact
variable {N K : Type _} [LinearOrder N] [CommRing K] [LinearOrder K]

/-! ## Progress -/

/-- what one iteration does to the counters -/
theorem iterate_progress (sv : Solvers N K) (compute : Compute N K) (configs : List (List K)) (ts : K)
    (w w' : Loop N K) (h : iterate sv compute configs ts w = .next w')
    (h1 : 1 ≤ w.cit) (h2 : w.cit < configs.length) (h3 : w.lastIterator < w.cit)
    (hm : (reportOf sv compute configs w).multipleBreaks = true →
      (reportOf sv compute configs w).repositionedInPlace = true) :
    1 ≤ w'.cit ∧ w'.cit ≤ configs.length ∧ w'.lastIterator < w'.cit ∧
    ((w'.repos = w.repos + 1 ∧ w'.repos ≤ 20) ∨ (w'.repos = w.repos ∧ w.cit < w'.cit)) ∧
    (w'.front = w.front ∨ ∃ t, w'.front = (t, newStateOf (reportOf sv compute configs w))) := by
  unfold iterate at h
  simp only at h
  generalize reportOf sv compute configs w = rep at h hm
  split_ifs at h with a1 a2
  cases h
  cases hs : rep.success <;> cases hmb : rep.multipleBreaks <;> cases hr : rep.repositionedInPlace <;>
  cases ha : w.allowFailure <;> cases hcm : rep.contactMaintained <;> cases hcc : rep.contactCreated <;>
  by_cases hl : w.cit + 1 = configs.length <;>
  simp [afterPush, afterReposition, afterBreaks, afterFailure, hs, hmb, hr, ha, hl, hcm, hcc] at hm a2 ⊢ <;>
  omega

/-- the loop invariant on positions -/
structure Placed (Good : State N K → Prop) (len : Nat) (w : Loop N K) : Prop where
  one : 1 ≤ w.cit
  le : w.cit ≤ len
  lt : w.lastIterator < w.cit
  repos : w.repos ≤ 20
  good : Good w.front.2

/-- how many more iterations can happen -/
def budget (len : Nat) (w : Loop N K) : Nat := (20 - w.repos) * len + (len - w.cit)

theorem mainLoop_terminates (sv : Solvers N K) (compute : Compute N K) (configs : List (List K)) (ts : K)
    (Good : State N K → Prop) (hG : ∀ s c v, Good s → Good (newStateOf (compute s c v)))
    (hm : ∀ s c v, Good s → (compute s c v).multipleBreaks = true → (compute s c v).repositionedInPlace = true)
    (fuel : Nat) (w : Loop N K) (hw : Placed Good configs.length w) (hf : budget configs.length w < fuel) :
    ∃ r, ∀ fuel' ≥ fuel, mainLoop sv compute configs ts fuel' w = some r := by
  induction fuel generalizing w with
  | zero => omega
  | succ fuel ih =>
    by_cases hc : w.cit = configs.length
    · refine ⟨(true, w), fun f hf' => ?_⟩
      obtain ⟨f, rfl⟩ : ∃ g, f = g + 1 := ⟨f - 1, by omega⟩
      rw [mainLoop, if_pos hc]
    · cases hi : iterate sv compute configs ts w with
      | abort w' =>
        refine ⟨(false, w'), fun f hf' => ?_⟩
        obtain ⟨f, rfl⟩ : ∃ g, f = g + 1 := ⟨f - 1, by omega⟩
        rw [mainLoop, if_neg hc, hi]
      | next w' =>
        have hlt : w.cit < configs.length := lt_of_le_of_ne hw.le hc
        obtain ⟨p1, p2, p3, p4, p5⟩ := iterate_progress sv compute configs ts w w' hi hw.one hlt hw.lt
          (fun e => hm _ _ _ hw.good e)
        have hw' : Placed Good configs.length w' := by
          refine ⟨p1, p2, p3, ?_, ?_⟩
          · rcases p4 with h | h
            · exact h.2
            · rw [h.1]; exact hw.repos
          · rcases p5 with h | ⟨t, h⟩
            · rw [h]; exact hw.good
            · rw [h]; exact hG _ _ _ hw.good
        have hb : budget configs.length w' < budget configs.length w := by
          unfold budget
          have := hw.repos
          rcases p4 with ⟨e, hle⟩ | ⟨e, hlt'⟩
          · obtain ⟨k, hk⟩ : ∃ k, 20 - w.repos = k + 1 := ⟨20 - w.repos - 1, by omega⟩
            have hk' : 20 - w'.repos = k := by omega
            rw [hk, hk', Nat.succ_mul]
            omega
          · rw [e]; omega
        obtain ⟨r, hr⟩ := ih w' hw' (by omega)
        refine ⟨r, fun f hf' => ?_⟩
        obtain ⟨f, rfl⟩ : ∃ g, f = g + 1 := ⟨f - 1, by omega⟩
        rw [mainLoop, if_neg hc, hi]
        exact hr f (by omega)

theorem start_placed {Good : State N K → Prop} {start : State N K} (hg : Good start) (v : K)
    {len : Nat} (hl : 1 ≤ len) : Placed Good len (Loop.start start v) :=
  ⟨le_rfl, hl, Nat.lt_succ_self 0, Nat.zero_le _, hg⟩

/-- **C25** If contact generation never reports several broken contacts without having repositioned in place, at
least along the states it produces from the start state, the interpolation loop makes at most `21 · #configs`
calls to it: that much fuel gives the result, and more fuel does not change it. -/
theorem C25_bounded_calls (sv : Solvers N K) (compute : Compute N K) (configs : List (List K)) (ts init : K)
    (start : State N K) (hne : configs ≠ [])
    (Good : State N K → Prop) (h0 : Good start) (hG : ∀ s c v, Good s → Good (newStateOf (compute s c v)))
    (hm : ∀ s c v, Good s → (compute s c v).multipleBreaks = true → (compute s c v).repositionedInPlace = true) :
    ∃ r, ∀ fuel ≥ 21 * configs.length, mainLoop sv compute configs ts fuel (Loop.start start init) = some r := by
  have hl : 1 ≤ configs.length := List.length_pos_iff.2 hne
  refine mainLoop_terminates sv compute configs ts Good hG hm _ _ (start_placed h0 init hl) ?_
  unfold budget Loop.start
  simp only
  omega

theorem filterStates_mono (sv : Solvers N K) (deep : Bool) (l : List (Frame N K)) :
    ∀ fuel ≥ l.length + 1, filterStates sv fuel deep l = filterStates sv (l.length + 1) deep l := by
  have key : ∀ (fuel fuel' : Nat) (l : List (Frame N K)), fuel ≤ fuel' →
      deepLoop sv fuel l ≠ .noFuel → deepLoop sv fuel' l = deepLoop sv fuel l := by
    intro fuel
    induction fuel with
    | zero => intro fuel' l _ h; exact absurd rfl h
    | succ fuel ih =>
      intro fuel' l hle h
      obtain ⟨f, rfl⟩ : ∃ g, fuel' = g + 1 := ⟨fuel' - 1, by omega⟩
      simp only [deepLoop] at h ⊢
      cases hr : filterStatesRec sv l with
      | none => rfl
      | some r =>
        simp only [hr] at h ⊢
        split_ifs at h ⊢ with hl
        · rfl
        · exact ih f r (by omega) h
  intro fuel hf
  have hnf := C27_terminates sv (l.length + 1) deep l (Nat.lt_succ_self _)
  unfold filterStates at hnf ⊢
  split_ifs at hnf ⊢
  · rfl
  · exact key _ _ _ hf hnf
  · rfl

/-- **C25 (whole call)** under the same condition `Interpolate` always returns (or throws). -/
theorem C25_terminates (sv : Solvers N K) (compute : Compute N K) (postural : Bool) (configs : List (List K))
    (ts init : K) (start goal : State N K) (pathEnd : Option K) (deep : Bool) (hne : configs ≠ [])
    (Good : State N K → Prop) (h0 : Good start) (hG : ∀ s c v, Good s → Good (newStateOf (compute s c v)))
    (hm : ∀ s c v, Good s → (compute s c v).multipleBreaks = true → (compute s c v).repositionedInPlace = true) :
    ∃ fuel0 r, r.1 ≠ .noFuel ∧ ∀ fuel ≥ fuel0,
      interpolate sv compute postural start goal pathEnd configs ts init deep fuel = r := by
  obtain ⟨⟨b, w⟩, hr⟩ := C25_bounded_calls sv compute configs ts init start hne Good h0 hG hm
  cases b with
  | false =>
    refine ⟨max (21 * configs.length) (w.states.length + 1),
      (filterStates sv (w.states.length + 1) deep w.states, postural),
      C27_terminates sv _ deep _ (Nat.lt_succ_self _), fun fuel hf => ?_⟩
    unfold interpolate
    rw [hr fuel (le_trans (le_max_left _ _) hf)]
    simp only
    rw [filterStates_mono sv deep _ fuel (le_trans (le_max_right _ _) hf)]
  | true =>
    by_cases hlen : 1 < w.states.length
    · rcases hg : addGoalConfig sv postural goal pathEnd w.states w.front with ⟨l, p⟩
      cases l with
      | none =>
        refine ⟨21 * configs.length, (.throws, p), by simp, fun fuel hf => ?_⟩
        unfold interpolate
        rw [hr fuel hf]
        simp only [if_pos hlen, hg]
      | some l =>
        refine ⟨max (21 * configs.length) (l.length + 1), (filterStates sv (l.length + 1) deep l, p),
          C27_terminates sv _ deep _ (Nat.lt_succ_self _), fun fuel hf => ?_⟩
        unfold interpolate
        rw [hr fuel (le_trans (le_max_left _ _) hf)]
        simp only [if_pos hlen, hg]
        rw [filterStates_mono sv deep _ fuel (le_trans (le_max_right _ _) hf)]
    · refine ⟨21 * configs.length, (.done w.states, postural), by simp, fun fuel hf => ?_⟩
      unfold interpolate
      rw [hr fuel hf]
      simp only [if_neg hlen]

/-- `compute` is `ComputeContacts` of this library in the environment `env`, for previous states with complete
contact data -/
def IsComputeContacts {Smp : Type _} (env : Env N K Smp) (postural : Bool) (thr : K) (extraDim : Nat)
    (tr qs : Bool) (compute : Compute N K) : Prop :=
  ∀ s c v, Sound s → ∃ fuel, computeContacts env postural fuel s c thr extraDim tr qs = some (compute s c v)

/-- such a `compute` exists: contact generation always returns (C21) -/
theorem isComputeContacts_exists {Smp : Type _} (env : Env N K Smp) (hl : env.limbs.Nodup) (postural : Bool)
    (thr : K) (extraDim : Nat) (tr qs : Bool) :
    ∃ compute : Compute N K, IsComputeContacts env postural thr extraDim tr qs compute := by
  have : ∀ s c, ∃ fuel r, computeContacts env postural fuel s c thr extraDim tr qs = some r := by
    intro s c
    obtain ⟨r, hr⟩ := C21_terminates env hl postural (computeHelper s c thr tr qs)
    exact ⟨_, _, by rw [computeContacts, hr _ le_rfl]; rfl⟩
  exact ⟨fun s c _ => (this s c).choose_spec.choose, fun s c _ _ => ⟨_, (this s c).choose_spec.choose_spec⟩⟩

theorem computeContacts_good {Smp : Type _} [IsStrictOrderedRing K] {env : Env N K Smp} (hl : env.limbs.Nodup)
    {postural : Bool} {thr : K} {extraDim : Nat} {tr qs : Bool} {compute : Compute N K}
    (hc : IsComputeContacts env postural thr extraDim tr qs compute) :
    (∀ s c v, Sound s → Sound (newStateOf (compute s c v))) ∧
    (∀ s c v, Sound s → (compute s c v).success = false ∨ (compute s c v).multipleBreaks = true →
      (compute s c v).repositionedInPlace = true) := by
  constructor
  · intro s c v hs
    obtain ⟨fuel, hf⟩ := hc s c v hs
    exact (C70_contact_data env hl postural fuel s hs c thr extraDim tr qs _ hf).same_maps rfl rfl rfl rfl
  · intro s c v hs hb
    obtain ⟨fuel, hf⟩ := hc s c v hs
    exact C71_honest_report env hl postural fuel s hs c thr extraDim tr qs _ hf hb

/-- **C25 (this library)** With the contact generation of this library the condition holds: `Interpolate` from a
start state with complete contact data always returns (or throws), in every environment. -/
theorem C25_library {Smp : Type _} [IsStrictOrderedRing K] (env : Env N K Smp) (hl : env.limbs.Nodup)
    (thr : K) (extraDim : Nat) (tr qs : Bool) (compute : Compute N K) (postural : Bool)
    (hc : IsComputeContacts env postural thr extraDim tr qs compute)
    (sv : Solvers N K) (configs : List (List K))
    (ts init : K) (start goal : State N K) (hs : Sound start) (pathEnd : Option K) (deep : Bool)
    (hne : configs ≠ []) :
    ∃ fuel0 r, r.1 ≠ .noFuel ∧ ∀ fuel ≥ fuel0,
      interpolate sv compute postural start goal pathEnd configs ts init deep fuel = r :=
  C25_terminates sv compute postural configs ts init start goal pathEnd deep hne Sound hs
    (computeContacts_good hl hc).1 (fun s c v hg hb => (computeContacts_good hl hc).2 s c v hg (Or.inr hb))

/-! ## What enters the plan -/

/-- nothing changed: the contacts of the previous state were kept and none was created -/
def SameContacts (rep : ContactReport N K) : Prop :=
  rep.success = true ∧ rep.contactMaintained = true ∧ rep.contactCreated = false

/-- one iteration, when a failed report or a report of several breaks is always a repositioning -/
theorem iterate_honest (sv : Solvers N K) (compute : Compute N K) (configs : List (List K)) (ts : K)
    (w w' : Loop N K) (h : iterate sv compute configs ts w = .next w') (rep : ContactReport N K)
    (hrep : rep = reportOf sv compute configs w)
    (hh : rep.success = false ∨ rep.multipleBreaks = true → rep.repositionedInPlace = true) :
    ∃ stamp at',
      (rep.repositionedInPlace = true ∧ stamp = w.front.1 ∧ at' = w.lastIterator ∧ w'.repos = w.repos + 1 ∧
          w'.repos ≤ 20 ∨
        rep.repositionedInPlace = false ∧ rep.success = true ∧ stamp = w.currentVal ∧ at' = w.cit ∧
          w'.repos = w.repos) ∧
      w'.cit = at' + 1 ∧ w'.currentVal = stamp + ts ∧
      (SameContacts rep ∧ w'.front = w.front ∧ w'.older = w.older ∧ w'.lastIterator = w.lastIterator ∨
        ¬ SameContacts rep ∧ w'.front = (stamp, newStateOf rep) ∧ w'.older = w.front :: w.older ∧
          w'.lastIterator = at') := by
  unfold iterate at h
  simp only [← hrep] at h
  clear hrep
  split_ifs at h with a1 a2
  cases h
  cases hr : rep.repositionedInPlace with
  | true =>
    refine ⟨w.front.1, w.lastIterator, Or.inl ⟨rfl, rfl, rfl, ?_, ?_⟩, ?_⟩
    · unfold afterPush afterReposition afterBreaks afterFailure
      rw [hr]; split_ifs <;> simp_all
    · simp only [hr, Bool.true_and, decide_eq_true_eq, not_lt] at a2
      refine le_trans (le_of_eq ?_) a2
      unfold afterPush; simp only; split_ifs <;> rfl
    · cases hs : rep.success <;> cases hmb : rep.multipleBreaks <;>
      cases ha : w.allowFailure <;> cases hcm : rep.contactMaintained <;> cases hcc : rep.contactCreated <;>
      by_cases hl : w.cit + 1 = configs.length <;>
      simp [afterPush, afterReposition, afterBreaks, afterFailure, SameContacts, hr, hs, hmb, ha, hl, hcm, hcc]
  | false =>
    have hs : rep.success = true := by
      by_contra hc; rw [Bool.not_eq_true] at hc; rw [hh (Or.inl hc)] at hr; cases hr
    have hmb : rep.multipleBreaks = false := by
      by_contra hc; rw [Bool.not_eq_false] at hc; rw [hh (Or.inr hc)] at hr; cases hr
    refine ⟨w.currentVal, w.cit, Or.inr ⟨rfl, hs, rfl, rfl, ?_⟩, ?_⟩
    · unfold afterPush afterReposition afterBreaks afterFailure
      rw [hr]; split_ifs <;> simp_all
    · cases ha : w.allowFailure <;> cases hcm : rep.contactMaintained <;> cases hcc : rep.contactCreated <;>
      by_cases hl : w.cit + 1 = configs.length <;>
      simp [afterPush, afterReposition, afterBreaks, afterFailure, SameContacts, hr, hs, hmb, ha, hl, hcm, hcc]

theorem iterate_abort (sv : Solvers N K) (compute : Compute N K) (configs : List (List K)) (ts : K)
    (w w' : Loop N K) (h : iterate sv compute configs ts w = .abort w') :
    w'.front = w.front ∧ w'.older = w.older := by
  unfold iterate at h
  simp only at h
  generalize reportOf sv compute configs w = rep at h
  split_ifs at h with a1 a2 <;> cases h
  · unfold afterFailure; split_ifs <;> exact ⟨rfl, rfl⟩
  · unfold afterReposition afterBreaks afterFailure
    split_ifs <;> exact ⟨rfl, rfl⟩

/-- Contact generation was called from the last planned state `prev`, for the root and extra coordinates of the
`i`-th sampled configuration and the date `v`, and its report `rep` gives the next frame `f` of the plan. The
date passed is the one of sample `i` or of sample `i - 1`. -/
def Produces (sv : Solvers N K) (compute : Compute N K) (configs : List (List K)) (ts init : K)
    (prev : Frame N K) (rep : ContactReport N K) (f : Frame N K) : Prop :=
  ∃ (i : Nat) (c body : List K) (v : K), 1 ≤ i ∧ configs[i]? = some c ∧
    (v = init + i * ts ∨ v = init + (i - 1 : Nat) * ts) ∧
    rep = compute prev.2 (loadPrevious sv.extraDim body c) v ∧
    f.2 = newStateOf rep ∧ ¬ SameContacts rep ∧
    (rep.repositionedInPlace = true ∧ f.1 = prev.1 ∨
      rep.repositionedInPlace = false ∧ rep.success = true ∧ f.1 = v)

/-- plans grown from the start state by successive reports -/
inductive Grown (sv : Solvers N K) (compute : Compute N K) (configs : List (List K)) (ts init : K)
    (start : State N K) : List (Frame N K) → List (ContactReport N K) → Prop
  | start : Grown sv compute configs ts init start [(init, start)] []
  | push {states reps prev rep f} : Grown sv compute configs ts init start states reps →
      states.getLast? = some prev → Produces sv compute configs ts init prev rep f →
      Grown sv compute configs ts init start (states ++ [f]) (reps ++ [rep])

/-- the loop invariant -/
structure LoopInv (sv : Solvers N K) (compute : Compute N K) (configs : List (List K)) (ts init : K)
    (start : State N K) (Good : State N K → Prop) (w : Loop N K) : Prop extends Placed Good configs.length w where
  offset : ∃ o : Nat, o ≤ 1 ∧ w.currentVal = init + (w.cit + o - 1 : Nat) * ts ∧
    w.front.1 = init + (w.lastIterator + o - 1 : Nat) * ts
  grown : ∃ reps, Grown sv compute configs ts init start w.states reps ∧
    reps.countP (fun r => r.repositionedInPlace) ≤ w.repos
  sorted : (w.states.map Prod.fst).Pairwise (· ≤ ·)
  lastMax : ∀ t ∈ w.states.map Prod.fst, t ≤ w.front.1
  allGood : ∀ f ∈ w.states, Good f.2

theorem states_snoc (w w' : Loop N K) (f : Frame N K) (h1 : w'.front = f) (h2 : w'.older = w.front :: w.older) :
    w'.states = w.states ++ [f] := by
  unfold Loop.states; rw [h1, h2]; simp

theorem states_last (w : Loop N K) : w.states.getLast? = some w.front := by
  unfold Loop.states; simp

theorem natCast_mul_mono [IsStrictOrderedRing K] {ts : K} (h : 0 ≤ ts) {a b : Nat} (hab : a ≤ b) :
    (a : K) * ts ≤ (b : K) * ts :=
  mul_le_mul_of_nonneg_right (Nat.cast_le.2 hab) h

theorem loopInv_step [IsStrictOrderedRing K] (sv : Solvers N K) (compute : Compute N K)
    (configs : List (List K)) (ts init : K) (hts : 0 ≤ ts)
    (start : State N K) (Good : State N K → Prop)
    (hG : ∀ s c v, Good s → Good (newStateOf (compute s c v)))
    (hh : ∀ s c v, Good s → (compute s c v).success = false ∨ (compute s c v).multipleBreaks = true →
      (compute s c v).repositionedInPlace = true)
    (w w' : Loop N K) (hw : LoopInv sv compute configs ts init start Good w)
    (hc : w.cit ≠ configs.length) (hi : iterate sv compute configs ts w = .next w') :
    LoopInv sv compute configs ts init start Good w' := by
  have hlt : w.cit < configs.length := lt_of_le_of_ne hw.le hc
  obtain ⟨p1, p2, p3, p4, p5⟩ := iterate_progress sv compute configs ts w w' hi hw.one hlt hw.lt
    (fun e => hh _ _ _ hw.good (Or.inr e))
  have hpl : Placed Good configs.length w' := by
    refine ⟨p1, p2, p3, ?_, ?_⟩
    · rcases p4 with h | h
      · exact h.2
      · rw [h.1]; exact hw.repos
    · rcases p5 with h | ⟨t, h⟩
      · rw [h]; exact hw.good
      · rw [h]; exact hG _ _ _ hw.good
  obtain ⟨rep, hrep⟩ : ∃ rep, rep = reportOf sv compute configs w := ⟨_, rfl⟩
  obtain ⟨stamp, at', hcase, hcit, hval, hpush⟩ := iterate_honest sv compute configs ts w w' hi rep hrep
    (by rw [hrep]; exact hh _ _ _ hw.good)
  obtain ⟨o, ho, hv, hf⟩ := hw.offset
  obtain ⟨reps, hgr, hcount⟩ := hw.grown
  have hone := hw.one
  have hltw := hw.lt
  -- dates
  have hdates : ∃ o' : Nat, o' ≤ 1 ∧ stamp + ts = init + (at' + 1 + o' - 1 : Nat) * ts ∧
      stamp = init + (at' + o' - 1 : Nat) * ts ∧ (rep.repositionedInPlace = false → o' = o) ∧
      w.front.1 = init + (w.lastIterator + o' - 1 : Nat) * ts ∧ w.front.1 ≤ stamp := by
    rcases hcase with ⟨hr, e1, e2, _⟩ | ⟨hr, _, e1, e2, _⟩
    · by_cases hz : w.lastIterator + o = 0
      · have h0 : w.lastIterator = 0 := by omega
        have ho0 : o = 0 := by omega
        subst ho0
        refine ⟨1, le_rfl, ?_, ?_, by simp [hr], ?_, e1.ge⟩
        · rw [e1, e2, hf, h0]; simp
        · rw [e1, e2, hf, h0]
        · rw [hf, h0]
      · refine ⟨o, ho, ?_, by rw [e1, e2, hf], fun _ => rfl, hf, e1.ge⟩
        rw [e1, e2, hf]
        have : w.lastIterator + 1 + o - 1 = (w.lastIterator + o - 1) + 1 := by omega
        rw [this]; push_cast; ring
    · refine ⟨o, ho, ?_, by rw [e1, e2, hv], fun _ => rfl, hf, ?_⟩
      · rw [e1, e2, hv]
        have : w.cit + 1 + o - 1 = (w.cit + o - 1) + 1 := by omega
        rw [this]; push_cast; ring
      · rw [e1, hv, hf]
        have := natCast_mul_mono hts (show w.lastIterator + o - 1 ≤ w.cit + o - 1 by omega)
        linarith
  obtain ⟨o', ho', d1, d2, d3, d4, d5⟩ := hdates
  rcases hpush with ⟨hsame, e1, e2, e3⟩ | ⟨hns, e1, e2, e3⟩
  · have hst : w'.states = w.states := by unfold Loop.states; rw [e1, e2]
    refine { hpl with offset := ⟨o', ho', ?_, ?_⟩, grown := ?_, sorted := ?_, lastMax := ?_, allGood := ?_ }
    · rw [hval, hcit]; exact d1
    · rw [e1, e3]; exact d4
    · refine ⟨reps, by rw [hst]; exact hgr, le_trans hcount ?_⟩
      rcases hcase with ⟨_, _, _, h, _⟩ | ⟨_, _, _, _, h⟩ <;> omega
    · rw [hst]; exact hw.sorted
    · rw [hst, e1]; exact hw.lastMax
    · rw [hst]; exact hw.allGood
  · have hst := states_snoc w w' _ e1 e2
    have hprod : Produces sv compute configs ts init w.front rep (stamp, newStateOf rep) := by
      refine ⟨w.cit, configs.getD w.cit [], w.lastConfig, w.currentVal, hone, ?_, ?_, hrep, rfl, hns, ?_⟩
      · rw [List.getD_eq_getElem?_getD, List.getElem?_eq_getElem hlt]; rfl
      · rcases Nat.le_one_iff_eq_zero_or_eq_one.1 ho with h | h
        · right; rw [hv, h]; simp
        · left; rw [hv, h]; simp
      · rcases hcase with ⟨hr, h1, _⟩ | ⟨hr, hs, h1, _⟩
        · exact Or.inl ⟨hr, h1⟩
        · exact Or.inr ⟨hr, hs, h1⟩
    refine { hpl with offset := ⟨o', ho', ?_, ?_⟩, grown := ?_, sorted := ?_, lastMax := ?_, allGood := ?_ }
    · rw [hval, hcit]; exact d1
    · rw [e1, e3]; exact d2
    · refine ⟨reps ++ [rep], by rw [hst]; exact hgr.push (states_last w) hprod, ?_⟩
      rw [List.countP_append, List.countP_singleton]
      rcases hcase with ⟨hr, _, _, h, _⟩ | ⟨hr, _, _, _, h⟩ <;> simp only [hr] <;> simp <;> omega
    · rw [hst, List.map_append, List.pairwise_append]
      refine ⟨hw.sorted, by simp, fun a ha b hb => ?_⟩
      simp at hb; subst hb
      exact le_trans (hw.lastMax a ha) d5
    · rw [hst, e1]
      intro t ht
      rw [List.map_append, List.mem_append] at ht
      rcases ht with ht | ht
      · exact le_trans (hw.lastMax t ht) d5
      · simp at ht; exact ht.le
    · rw [hst]
      intro f hf'
      rcases List.mem_append.1 hf' with h | h
      · exact hw.allGood f h
      · simp at h; subst h; rw [← e1]; exact hpl.good

theorem mainLoop_inv [IsStrictOrderedRing K] (sv : Solvers N K) (compute : Compute N K)
    (configs : List (List K)) (ts init : K) (hts : 0 ≤ ts)
    (start : State N K) (Good : State N K → Prop)
    (hG : ∀ s c v, Good s → Good (newStateOf (compute s c v)))
    (hh : ∀ s c v, Good s → (compute s c v).success = false ∨ (compute s c v).multipleBreaks = true →
      (compute s c v).repositionedInPlace = true)
    (fuel : Nat) (w : Loop N K) (hw : LoopInv sv compute configs ts init start Good w) (b : Bool) (w' : Loop N K)
    (h : mainLoop sv compute configs ts fuel w = some (b, w')) :
    ∃ wf, LoopInv sv compute configs ts init start Good wf ∧ wf.front = w'.front ∧ wf.older = w'.older ∧
      (b = true → wf = w' ∧ w'.cit = configs.length) := by
  induction fuel generalizing w with
  | zero => simp [mainLoop] at h
  | succ fuel ih =>
    simp only [mainLoop] at h
    split_ifs at h with hc
    · cases h; exact ⟨_, hw, rfl, rfl, fun _ => ⟨rfl, hc⟩⟩
    · cases hi : iterate sv compute configs ts w with
      | abort w1 =>
        simp only [hi] at h
        cases h
        obtain ⟨e1, e2⟩ := iterate_abort sv compute configs ts w _ hi
        exact ⟨w, hw, e1.symm, e2.symm, by simp⟩
      | next w1 =>
        simp only [hi] at h
        exact ih w1 (loopInv_step sv compute configs ts init hts start Good hG hh w w1 hw hc hi) h

theorem loopInv_start (sv : Solvers N K) (compute : Compute N K) (configs : List (List K)) (ts init : K)
    (start : State N K) (Good : State N K → Prop) (hg : Good start) (hne : configs ≠ []) :
    LoopInv sv compute configs ts init start Good (Loop.start start init) where
  toPlaced := start_placed hg init (List.length_pos_iff.2 hne)
  offset := ⟨0, Nat.zero_le _, by simp [Loop.start], by simp [Loop.start]⟩
  grown := ⟨[], Grown.start, Nat.zero_le _⟩
  sorted := by simp [Loop.states, Loop.start]
  lastMax := by simp [Loop.states, Loop.start]
  allGood := by intro f hf; simp [Loop.states, Loop.start] at hf; subst hf; exact hg

theorem Grown.head {sv : Solvers N K} {compute : Compute N K} {configs : List (List K)} {ts init : K}
    {start : State N K} {states : List (Frame N K)} {reps : List (ContactReport N K)}
    (h : Grown sv compute configs ts init start states reps) :
    states.head? = some (init, start) ∧ states.length = reps.length + 1 := by
  induction h with
  | start => exact ⟨rfl, rfl⟩
  | push h1 h2 h3 ih =>
    refine ⟨?_, by simp [ih.2]⟩
    rw [List.head?_append, ih.1]; rfl

/-- **C24 (loop), C26, C69** (partial for C26 and C69: see the violations below).  If a failed report, or one with
several breaks, is always a repositioning, then the plan of the interpolation loop is grown from the start
state: it begins with the start state at the initial date, dates never decrease, each later state is the result of
contact generation from its predecessor for a sampled configuration, dated like that sample or one step before it or,
if repositioned, like its predecessor; every state of an unsuccessful report was repositioned, and there are at most
20 of those. -/
theorem C24_loop [IsStrictOrderedRing K] (sv : Solvers N K) (compute : Compute N K)
    (configs : List (List K)) (ts init : K) (hts : 0 ≤ ts) (hne : configs ≠ [])
    (start : State N K) (Good : State N K → Prop) (h0 : Good start)
    (hG : ∀ s c v, Good s → Good (newStateOf (compute s c v)))
    (hh : ∀ s c v, Good s → (compute s c v).success = false ∨ (compute s c v).multipleBreaks = true →
      (compute s c v).repositionedInPlace = true)
    (fuel : Nat) (b : Bool) (w : Loop N K)
    (h : mainLoop sv compute configs ts fuel (Loop.start start init) = some (b, w)) :
    ∃ reps, Grown sv compute configs ts init start w.states reps ∧
      w.states.head? = some (init, start) ∧
      (w.states.map Prod.fst).Pairwise (· ≤ ·) ∧
      reps.countP (fun r => r.repositionedInPlace) ≤ 20 ∧
      w.states.getLast? = some w.front ∧ (∀ f ∈ w.states, Good f.2) := by
  obtain ⟨wf, hinv, e1, e2, _⟩ := mainLoop_inv sv compute configs ts init hts start Good hG hh fuel _
    (loopInv_start sv compute configs ts init start Good h0 hne) b w h
  have hst : w.states = wf.states := by unfold Loop.states; rw [e1, e2]
  obtain ⟨reps, h1, h2⟩ := hinv.grown
  refine ⟨reps, by rw [hst]; exact h1, by rw [hst]; exact h1.head.1, by rw [hst]; exact hinv.sorted,
    le_trans h2 hinv.repos, states_last w, by rw [hst]; exact hinv.allGood⟩

/-- contact generation succeeded, without repositioning, for sample `i`, called from a state of the plan -/
def Served (sv : Solvers N K) (compute : Compute N K) (configs : List (List K)) (states : List (Frame N K))
    (i : Nat) : Prop :=
  ∃ prev ∈ states, ∃ c body v, configs[i]? = some c ∧
    (compute prev.2 (loadPrevious sv.extraDim body c) v).success = true ∧
    (compute prev.2 (loadPrevious sv.extraDim body c) v).repositionedInPlace = false

theorem mainLoop_served (sv : Solvers N K) (compute : Compute N K) (configs : List (List K)) (ts : K)
    (Good : State N K → Prop)
    (hG : ∀ s c v, Good s → Good (newStateOf (compute s c v)))
    (hh : ∀ s c v, Good s → (compute s c v).success = false ∨ (compute s c v).multipleBreaks = true →
      (compute s c v).repositionedInPlace = true)
    (fuel : Nat) (w : Loop N K) (hw : Placed Good configs.length w)
    (hs : ∀ i, 1 ≤ i → i < w.cit → Served sv compute configs w.states i) (w' : Loop N K)
    (h : mainLoop sv compute configs ts fuel w = some (true, w')) :
    ∀ i, 1 ≤ i → i < configs.length → Served sv compute configs w'.states i := by
  induction fuel generalizing w with
  | zero => simp [mainLoop] at h
  | succ fuel ih =>
    simp only [mainLoop] at h
    split_ifs at h with hc
    · cases h; intro i h1 h2; exact hs i h1 (by omega)
    · cases hi : iterate sv compute configs ts w with
      | abort w1 => simp only [hi] at h; cases h
      | next w1 =>
        simp only [hi] at h
        have hlt : w.cit < configs.length := lt_of_le_of_ne hw.le hc
        obtain ⟨p1, p2, p3, p4, p5⟩ := iterate_progress sv compute configs ts w w1 hi hw.one hlt hw.lt
          (fun e => hh _ _ _ hw.good (Or.inr e))
        have hpl : Placed Good configs.length w1 := by
          refine ⟨p1, p2, p3, ?_, ?_⟩
          · rcases p4 with h | h
            · exact h.2
            · rw [h.1]; exact hw.repos
          · rcases p5 with h | ⟨t, h⟩
            · rw [h]; exact hw.good
            · rw [h]; exact hG _ _ _ hw.good
        refine ih w1 hpl ?_ h
        obtain ⟨rep, hrep⟩ : ∃ rep, rep = reportOf sv compute configs w := ⟨_, rfl⟩
        obtain ⟨stamp, at', hcase, hcit, _, hpush⟩ := iterate_honest sv compute configs ts w w1 hi rep hrep
          (by rw [hrep]; exact hh _ _ _ hw.good)
        have hsub : ∀ f ∈ w.states, f ∈ w1.states := by
          intro f hf
          rcases hpush with ⟨_, e1, e2, _⟩ | ⟨_, e1, e2, _⟩
          · unfold Loop.states; rw [e1, e2]; exact hf
          · rw [states_snoc w w1 _ e1 e2]; exact List.mem_append_left _ hf
        intro i h1 h2
        have lift : Served sv compute configs w.states i → Served sv compute configs w1.states i := by
          rintro ⟨prev, hp, r⟩
          exact ⟨prev, hsub prev hp, r⟩
        apply lift
        rcases hcase with ⟨_, _, e, _⟩ | ⟨hr, hsu, _, e, _⟩
        · have := hw.lt
          exact hs i h1 (by omega)
        · by_cases hlast : i = w.cit
          · subst hlast
            refine ⟨w.front, by unfold Loop.states; simp, configs.getD w.cit [], w.lastConfig, w.currentVal, ?_, ?_, ?_⟩
            · rw [List.getD_eq_getElem?_getD, List.getElem?_eq_getElem hlt]; rfl
            · have : rep = compute w.front.2 (loadPrevious sv.extraDim w.lastConfig (configs.getD w.cit []))
                w.currentVal := hrep
              rw [← this]; exact hsu
            · have : rep = compute w.front.2 (loadPrevious sv.extraDim w.lastConfig (configs.getD w.cit []))
                w.currentVal := hrep
              rw [← this]; exact hr
          · exact hs i h1 (by omega)

/-- **C73** If the interpolation loop runs to its end, contact generation succeeded without repositioning for every
sampled configuration after the first, called from a state of the plan: no sample is skipped. -/
theorem C73_all_samples (sv : Solvers N K) (compute : Compute N K) (configs : List (List K)) (ts init : K)
    (hne : configs ≠ []) (start : State N K) (Good : State N K → Prop) (h0 : Good start)
    (hG : ∀ s c v, Good s → Good (newStateOf (compute s c v)))
    (hh : ∀ s c v, Good s → (compute s c v).success = false ∨ (compute s c v).multipleBreaks = true →
      (compute s c v).repositionedInPlace = true)
    (fuel : Nat) (w : Loop N K)
    (h : mainLoop sv compute configs ts fuel (Loop.start start init) = some (true, w)) :
    ∀ i, 1 ≤ i → i < configs.length → Served sv compute configs w.states i :=
  mainLoop_served sv compute configs ts Good hG hh fuel _ (start_placed h0 init (List.length_pos_iff.2 hne))
    (fun i h1 h2 => by simp [Loop.start] at h2; omega) w h

/-- **C73 (request)** What contact generation is asked for at a sample: root and extra degrees of freedom are those
of the sample, every other joint keeps its last value. -/
theorem C73_request (e : Nat) (previous config : List K) (h7 : 7 + e ≤ config.length)
    (hl : previous.length = config.length) (i : Nat) (hi : i < config.length) :
    (loadPrevious e previous config).length = config.length ∧
    (loadPrevious e previous config)[i]? =
      if i < 7 ∨ config.length - e ≤ i then config[i]? else previous[i]? := by
  have hlen : (config.take 7 ++ previous.drop 7).length = config.length := by simp [hl]; omega
  unfold loadPrevious copyTail
  rw [hlen]
  refine ⟨by simp [hl]; omega, ?_⟩
  split_ifs with hc
  · rcases hc with hc | hc
    · rw [List.getElem?_append_left (by simp [hl]; omega), List.getElem?_take, if_pos (by omega),
        List.getElem?_append_left (by simp; omega), List.getElem?_take, if_pos hc]
    · rw [List.getElem?_append_right (by simp [hl]; omega), List.getElem?_drop]
      congr 1; simp [hl]; omega
  · rw [not_or, not_lt, not_le] at hc
    rw [List.getElem?_append_left (by simp [hl]; omega), List.getElem?_take, if_pos (by omega),
      List.getElem?_append_right (by simp; omega), List.getElem?_drop]
    congr 1; simp; omega

example : loadPrevious 1 [0, 0, 0, 0, 0, 0, 0, 8, 9, 0] [1, 1, 1, 1, 1, 1, 1, 1, 1, (1 : ℤ)] =
    [1, 1, 1, 1, 1, 1, 1, 8, 9, 1] := by decide

/-- **C72** Planned states count their contacts: with the library's contact generation, from a start state with
complete contact data, the counter of every later state of the loop's plan is its number of contacts, and its contact
data is complete. -/
theorem C72_counter {Smp : Type _} [IsStrictOrderedRing K] (env : Env N K Smp) (hl : env.limbs.Nodup)
    (thr : K) (extraDim : Nat) (tr qs : Bool) (compute : Compute N K) (postural : Bool)
    (hc : IsComputeContacts env postural thr extraDim tr qs compute)
    (sv : Solvers N K) (configs : List (List K)) (hne : configs ≠ [])
    (ts init : K) (hts : 0 ≤ ts) (start : State N K) (hs : Sound start) (fuel : Nat) (b : Bool) (w : Loop N K)
    (h : mainLoop sv compute configs ts fuel (Loop.start start init) = some (b, w)) :
    ∀ f ∈ w.states.tail, f.2.nbContacts = f.2.contacts.length ∧ Sound f.2 := by
  obtain ⟨h1, h2⟩ := computeContacts_good hl hc
  obtain ⟨reps, hgr, -, -, -, -, hgood⟩ := C24_loop sv compute configs ts init hts hne start Sound hs h1 h2 fuel b w h
  intro f hf
  have hsound := hgood f (List.mem_of_mem_tail hf)
  refine ⟨?_, hsound⟩
  have : ∃ rep, f.2 = newStateOf rep := by
    clear hgood hsound
    generalize w.states = st at hgr hf
    induction hgr with
    | start => simp at hf
    | @push states reps prev rep f' h1 h2 h3 ih =>
      rw [List.tail_append_of_ne_nil (by rintro rfl; simp at h2)] at hf
      rcases List.mem_append.1 hf with h | h
      · exact ih h
      · simp at h; subst h
        obtain ⟨i, c, body, v, _, _, _, _, h5, _⟩ := h3
        exact ⟨rep, h5⟩
  obtain ⟨rep, e⟩ := this
  have hk := congrArg List.length hsound.normalsKeys
  simp only [AMap.keys, List.length_map] at hk
  rw [← hk, e]; rfl

end Interp
end Rbprm
