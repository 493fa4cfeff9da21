import Verif.Props.Goal
import Verif.Props.Projection
/-!
# Property C165: the states of a contact plan

`Interpolate` as a whole, with the contact generation of this library: what comes out is made of states with complete contact data, whatever the environment answers, and without deep filtering
it always comes out when the goal is in contact with every limb.
-/
set_option linter.unusedSectionVars false
namespace Rbprm
namespace Interp
open State Contact
variable {N K : Type _} [LinearOrder N] [CommRing K] [LinearOrder K]

/-- The contact data of a state is complete: position, normal and rotation for exactly its contacts, all of them active, as many as its counter says, and all of them limbs of the list. -/
structure WellFormed (limbs : List N) (s : State N K) : Prop where
  sound : Sound s
  counter : s.nbContacts = s.contacts.length
  known : ∀ n ∈ s.contacts.keys, n ∈ limbs

theorem WellFormed.same_maps {limbs : List N} {s s' : State N K} (h : WellFormed limbs s) (e1 : s'.contacts = s.contacts)
    (e2 : s'.contactNormals = s.contactNormals) (e3 : s'.contactPositions = s.contactPositions)
    (e4 : s'.contactRotation = s.contactRotation) (e5 : s'.nbContacts = s.nbContacts) : WellFormed limbs s' :=
  ⟨h.sound.same_maps e1 e2 e3 e4, by rw [e1, e5]; exact h.counter, by rw [e1]; exact h.known⟩

theorem keys_removeContact {s : State N K} (n : N) {m : N} (h : m ∈ (s.removeContact n).1.contacts.keys) :
    m ∈ s.contacts.keys := by
  unfold State.removeContact at h
  split_ifs at h
  · rw [AMap.keys_erase] at h
    exact List.mem_of_mem_filter h
  · exact h

theorem keys_extends {w w' : State N K} {l : List N} (h : Extends w w' l) {m : N} (hm : m ∈ w'.contacts.keys) :
    m ∈ w.contacts.keys ∨ m ∈ l := by
  by_cases hl : m ∈ l
  · exact Or.inr hl
  · left
    rw [← AMap.find?_isSome] at hm ⊢
    rwa [← (h.same m hl).1]

section library
variable {Smp : Type _}

theorem repositionLoop_known (env : Env N K Smp) (hg : ∀ n, ∀ m ∈ env.group n, m ∈ env.limbs) (postural : Bool) (saved : List K) (O : List N)
    (s : State N K) (popped : List N) (nName : Option N) (h : Helper N K) (hs : ∀ n ∈ s.contacts.keys, n ∈ env.limbs) :
    ∀ n ∈ (repositionLoop env postural saved O s popped nName h).1.contacts.keys, n ∈ env.limbs := by
  induction O generalizing s popped nName h with
  | nil => exact hs
  | cons prev O ih =>
    unfold repositionLoop
    split_ifs
    · exact hs
    · cases hgr : env.group prev with
      | nil => exact ih _ _ _ _ hs
      | cons limb gs =>
        simp only
        refine ih _ popped (some limb) { h with workingState := (s.removeContact limb).1 } fun n hn => ?_
        obtain ⟨h1, h2⟩ := generateContact_shape env postural (s.removeContact limb).1 { h with workingState := (s.removeContact limb).1 } limb
        by_cases hx : (generateContact env postural (s.removeContact limb).1 { h with workingState := (s.removeContact limb).1 } limb).status = .noContact
        · rw [(h2 hx).2] at hn
          exact hs n (keys_removeContact limb hn)
        · obtain ⟨p, m, R, c, b, e, _⟩ := h1 hx
          rw [e] at hn
          rcases keys_extends (Extends.one _ _ _ _ _ _ _) hn with h' | h'
          · exact hs n (keys_removeContact limb h')
          · rw [List.mem_singleton] at h'
            subst h'
            exact hg prev n (by rw [hgr]; exact List.mem_cons_self ..)

/-- the contacts of a state returned by `ComputeContacts` are limbs of the robot -/
theorem computeContacts_known (env : Env N K Smp) (hl : env.limbs.Nodup) (hg : ∀ n, ∀ m ∈ env.group n, m ∈ env.limbs) (postural : Bool) (fuel : Nat)
    (previous : State N K) (hp : Sound previous) (hk : ∀ n ∈ previous.contacts.keys, n ∈ env.limbs) (configuration : List K) (thr : K) (extraDim : Nat)
    (tr qs : Bool) (rep : ContactReport N K)
    (hr : computeContacts env postural fuel previous configuration thr extraDim tr qs = some rep) :
    ∀ n ∈ rep.result.contacts.keys, n ∈ env.limbs := by
  unfold computeContacts at hr
  rw [Option.map_eq_some_iff] at hr
  obtain ⟨r0, hr0, hr⟩ := hr
  have hws : Sound (computeHelper previous configuration thr tr qs).workingState :=
    hp.same_maps rfl rfl rfl rfl
  obtain ⟨_, _, _, c4, c5⟩ := C21_report env hl postural fuel _ r0 hr0 hp.toMapsOk hws.toMapsOk
    (by intro c hc; simp [computeHelper, Helper.create] at hc)
  have main : ∀ n ∈ r0.result.contacts.keys, n ∈ env.limbs := by
    cases hrep : r0.repositionedInPlace with
    | false =>
      obtain ⟨hs, h', f1, f2⟩ := c4 hrep
      have hs' : (genFromMaintain env postural h').1.success = true := by rw [← f2]; exact hs
      obtain ⟨c, hc, cfg, b, l, hx, hln, _⟩ := genFromMaintain_result env hl postural h' hs'
      have hcs : ∀ n ∈ c.contacts.keys, n ∈ env.limbs := f1.candidates_all hl (fun s => ∀ n ∈ s.contacts.keys, n ∈ env.limbs)
        (startCandidates_all (fun s => ∀ n ∈ s.contacts.keys, n ∈ env.limbs) (fun s n hm m hmm => hm m (keys_removeContact n hmm)) _ hk
          (by intro c hc; simp [computeHelper, Helper.create] at hc)) c hc
      rw [← f2] at hx
      intro n hn
      rcases keys_extends hx hn with h | h
      · exact hcs n h
      · exact (hln n h).1
    | true =>
      obtain ⟨h', _, _, _, f⟩ := c5 hrep
      have : r0.result = r0.toReport.result := rfl
      rw [this, f]
      exact repositionLoop_known env hg postural _ _ _ _ _ _ hk
  rw [← hr]
  split_ifs
  · exact main
  · exact main

end library

/-- The projections used by the filter keep the contact data complete: what is assumed of `sv` (met by the functions of the library, `C165_projections`). -/
structure KeepsData (limbs : List N) (sv : Solvers N K) : Prop where
  obstacle : ∀ limb ∈ limbs, ∀ (s : State N K) n p s', WellFormed limbs s → sv.projectState limb s n p = (true, s') → WellFormed limbs s'
  root : ∀ (c : List K) (s s' : State N K), WellFormed limbs s → sv.projectRoot c s = (true, s') → WellFormed limbs s'

theorem rebuild_wellFormed {limbs : List N} {sv : Solvers N K} (hsv : KeepsData limbs sv) {limb : N} (hlimb : limb ∈ limbs) {s s' : State N K} {n p : Vec3 K}
    {rc : List K} (hs : WellFormed limbs s) (h : rebuild sv limb s n p rc = some s') : WellFormed limbs s' := by
  unfold rebuild at h
  simp only at h
  split_ifs at h with h1 h2
  · cases h
    rw [Bool.and_eq_true] at h2
    have w1 := hsv.obstacle limb hlimb s n p _ hs (Prod.ext h1 rfl)
    exact hsv.root rc _ _ w1 (Prod.ext h2.1 rfl)

theorem WellFormed.creation {limbs : List N} {c p : State N K} (hc : WellFormed limbs c) {limb : N} {more : List N}
    (h : c.contactCreations p = limb :: more) : limb ∈ limbs := by
  obtain ⟨v, hv⟩ := creation_touches hc.sound.toMapsOk h
  apply hc.known
  rw [← hc.sound.positionsKeys, ← AMap.find?_isSome, hv]
  rfl

theorem replaceOf_wellFormed {limbs : List N} {sv : Solvers N K} (hsv : KeepsData limbs sv) {c1 c2 c3 s : State N K} (h1 : WellFormed limbs c1)
    (h3 : WellFormed limbs c3) (h : replaceOf sv c1 c2 c3 = some (some s)) : WellFormed limbs s := by
  unfold replaceOf at h
  split at h
  · cases h
  · rename_i limb more hcr
    split at h
    · simp only at h
      split at h
      · rename_i s' hs'
        split_ifs at h
        · cases h
          exact rebuild_wellFormed hsv (h3.creation hcr) (h1.same_maps (s' := { c1 with configuration := c3.configuration }) rfl rfl rfl rfl rfl) hs'
        · cases h
      · cases h
    · cases h

theorem skipOf_wellFormed {limbs : List N} {sv : Solvers N K} (hsv : KeepsData limbs sv) {c0 c1 c2 c3 s : State N K} (h1 : WellFormed limbs c1)
    (h2 : WellFormed limbs c2) (h : skipOf sv c0 c1 c2 c3 = some (some s)) : WellFormed limbs s := by
  unfold skipOf at h
  split at h
  · cases h
  · rename_i limb more hcr
    split at h
    · simp only at h
      split at h
      · rename_i s' hs'
        split_ifs at h
        · cases h
          exact rebuild_wellFormed hsv (h1.creation hcr) (h2.same_maps (s' := { c2 with configuration := c0.configuration }) rfl rfl rfl rfl rfl) hs'
        · cases h
      · cases h
    · cases h

theorem tryReplace_wellFormed {limbs : List N} {sv : Solvers N K} (hsv : KeepsData limbs sv) (l out : List (Frame N K)) (hl : ∀ f ∈ l, WellFormed limbs f.2)
    (h : tryReplaceRec sv l = some out) : ∀ f ∈ out, WellFormed limbs f.2 := by
  fun_induction tryReplaceRec sv l generalizing out with
  | case1 a b c d rest hc hs => cases h
  | case2 a b c d rest hc s hs ih =>
    rw [Option.map_eq_some_iff] at h
    obtain ⟨r, hr, rfl⟩ := h
    intro f hf
    rcases List.mem_cons.1 hf with rfl | hf
    · exact hl _ (by simp)
    rcases List.mem_cons.1 hf with rfl | hf
    · exact replaceOf_wellFormed hsv (hl b (by simp)) (hl d (by simp)) hs
    · exact ih r (fun g hg => hl g (by simp only [List.mem_cons] at hg ⊢; tauto)) hr f hf
  | case3 a b c d rest hc hs ih =>
    rw [Option.map_eq_some_iff] at h
    obtain ⟨r, hr, rfl⟩ := h
    intro f hf
    rcases List.mem_cons.1 hf with rfl | hf
    · exact hl _ (by simp)
    · exact ih r (fun g hg => hl g (List.mem_cons_of_mem _ hg)) hr f hf
  | case4 a b c d rest hc ih =>
    rw [Option.map_eq_some_iff] at h
    obtain ⟨r, hr, rfl⟩ := h
    intro f hf
    rcases List.mem_cons.1 hf with rfl | hf
    · exact hl _ (by simp)
    · exact ih r (fun g hg => hl g (List.mem_cons_of_mem _ hg)) hr f hf
  | case5 l _ => cases h; exact hl

theorem trySkip_wellFormed {limbs : List N} {sv : Solvers N K} (hsv : KeepsData limbs sv) (l out : List (Frame N K)) (hl : ∀ f ∈ l, WellFormed limbs f.2)
    (h : trySkipRec sv l = some out) : ∀ f ∈ out, WellFormed limbs f.2 := by
  fun_induction trySkipRec sv l generalizing out with
  | case1 a b c d rest hc hs => cases h
  | case2 a b c d rest hc s hs ih =>
    rw [Option.map_eq_some_iff] at h
    obtain ⟨r, hr, rfl⟩ := h
    intro f hf
    rcases List.mem_cons.1 hf with rfl | hf
    · exact hl _ (by simp)
    rcases List.mem_cons.1 hf with rfl | hf
    · exact skipOf_wellFormed hsv (hl b (by simp)) (hl c (by simp)) hs
    · exact ih r (fun g hg => hl g (by simp only [List.mem_cons] at hg ⊢; tauto)) hr f hf
  | case3 a b c d rest hc hs ih =>
    rw [Option.map_eq_some_iff] at h
    obtain ⟨r, hr, rfl⟩ := h
    intro f hf
    rcases List.mem_cons.1 hf with rfl | hf
    · exact hl _ (by simp)
    · exact ih r (fun g hg => hl g (List.mem_cons_of_mem _ hg)) hr f hf
  | case4 a b c d rest hc ih =>
    rw [Option.map_eq_some_iff] at h
    obtain ⟨r, hr, rfl⟩ := h
    intro f hf
    rcases List.mem_cons.1 hf with rfl | hf
    · exact hl _ (by simp)
    · exact ih r (fun g hg => hl g (List.mem_cons_of_mem _ hg)) hr f hf
  | case5 l _ => cases h; exact hl

theorem filterStatesRec_wellFormed {limbs : List N} {sv : Solvers N K} (hsv : KeepsData limbs sv) (l out : List (Frame N K)) (hl : ∀ f ∈ l, WellFormed limbs f.2)
    (h : filterStatesRec sv l = some out) : ∀ f ∈ out, WellFormed limbs f.2 := by
  unfold filterStatesRec at h
  split at h
  · cases h
  · rename_i m hm
    refine trySkip_wellFormed hsv m out (tryReplace_wellFormed hsv _ m (fun f hf => hl f ?_) hm) h
    have h3 := ((dropping_filters sv (filterBreakCreate sv (filterRepositioning sv l))).2.2).1.subset hf
    have h2 := ((dropping_filters sv (filterRepositioning sv l)).2.1).1.subset h3
    exact ((dropping_filters sv l).1).1.subset h2

theorem filterStates_wellFormed {limbs : List N} {sv : Solvers N K} (hsv : KeepsData limbs sv) (fuel : Nat) (deep : Bool) (l out : List (Frame N K))
    (hl : ∀ f ∈ l, WellFormed limbs f.2) (h : filterStates sv fuel deep l = .done out) : ∀ f ∈ out, WellFormed limbs f.2 := by
  unfold filterStates at h
  split_ifs at h with h1 h2
  · cases h; exact hl
  · clear h1
    induction fuel generalizing l with
    | zero => cases h
    | succ fuel ih =>
      unfold deepLoop at h
      split at h
      · cases h
      · rename_i r hr
        have hw := filterStatesRec_wellFormed hsv l r hl hr
        split_ifs at h
        · cases h; exact hw
        · exact ih r hw h
  · cases h
    exact fun f hf => hl f (((dropping_filters sv l).2.2).1.subset hf)

theorem WellFormed.removeContact {limbs : List N} {s : State N K} (h : WellFormed limbs s) (n : N) :
    WellFormed limbs (s.removeContact n).1 ∧ n ∉ (s.removeContact n).1.contacts.keys := by
  refine ⟨⟨h.sound.removeContact n, ?_, fun m hm => h.known m (keys_removeContact n hm)⟩, ?_⟩
  · unfold State.removeContact
    split_ifs with hn
    · have hmem := AMap.has_iff.1 hn
      have hlen : (s.contacts.erase n).length + 1 = s.contacts.length := by
        have := filter_ne_length_of_nodup h.sound.contacts.nodup hmem
        rw [← AMap.keys_erase] at this
        simpa [AMap.keys] using this
      simp only [h.counter]
      unfold sizeDec
      rw [if_neg (by omega)]
      omega
    · exact h.counter
  · unfold State.removeContact
    split_ifs with hn
    · simp [AMap.keys_erase]
    · exact fun hm => hn (AMap.has_iff.2 hm)

theorem WellFormed.addContact {limbs : List N} {s : State N K} (h : WellFormed limbs s) {limb : N} (hl : limb ∈ limbs) (hn : limb ∉ s.contacts.keys)
    (p n : Vec3 K) (R : Mat3 K) (c : List K) : WellFormed limbs (s.addContact limb p n R c) := by
  refine ⟨(h.sound.extends (Extends.one s limb p n R c s.stable)).same_maps rfl rfl rfl rfl, ?_, fun m hm => ?_⟩
  · unfold State.addContact
    simp only [AMap.length_set_of_not_mem true hn, h.counter]
  · rcases AMap.mem_keys_set.1 hm with rfl | hm
    · exact hl
    · exact h.known m hm

theorem MovesLimb.wellFormed {limbs : List N} {sv : Solvers N K} {goal s s' : State N K} {limb : N} (hg : WellFormed limbs goal) (hs : WellFormed limbs s)
    (h : MovesLimb sv goal s limb s') : WellFormed limbs s' := by
  obtain ⟨p, n, r, cfg, p', r', hp, hn, hr, _, rfl⟩ := h
  refine (hs.removeContact limb).1.addContact (hg.known limb ?_) (hs.removeContact limb).2 _ _ _ _
  rw [← hg.sound.positionsKeys, ← AMap.find?_isSome, hp]
  rfl

theorem GoalMoves.wellFormed {limbs : List N} {sv : Solvers N K} {goal : State N K} (hg : WellFormed limbs goal) {time : K} {s : State N K} {moved : List N}
    {fs : List (Frame N K)} (h : GoalMoves sv goal time s moved fs) (hs : WellFormed limbs s) : ∀ f ∈ fs, WellFormed limbs f.2 := by
  induction h with
  | nil s => simp
  | cons h1 h2 ih =>
    have h3 := h1.wellFormed hg hs
    intro f hf
    rcases List.mem_cons.1 hf with rfl | hf
    · exact h3
    · exact ih h3 f hf

/-- the states of the loop -/
theorem mainLoop_wellFormed {Smp : Type _} [IsStrictOrderedRing K] (env : Env N K Smp) (hl : env.limbs.Nodup) (hgr : ∀ n, ∀ m ∈ env.group n, m ∈ env.limbs)
    (thr : K) (extraDim : Nat) (tr qs : Bool) (compute : Compute N K) (postural : Bool)
    (hc : IsComputeContacts env postural thr extraDim tr qs compute)
    (sv : Solvers N K) (configs : List (List K)) (hne : configs ≠ [])
    (ts init : K) (hts : 0 ≤ ts) (start : State N K) (hs : WellFormed env.limbs start) (fuel : Nat) (b : Bool) (w : Loop N K)
    (h : mainLoop sv compute configs ts fuel (Loop.start start init) = some (b, w)) :
    ∀ f ∈ w.states, WellFormed env.limbs f.2 := by
  have h1 : ∀ s c v, WellFormed env.limbs s → WellFormed env.limbs (newStateOf (compute s c v)) := by
    intro s c v hw
    obtain ⟨fuel, hf⟩ := hc s c v hw.sound
    have hsd := (computeContacts_good hl hc).1 s c v hw.sound
    refine ⟨hsd, ?_, computeContacts_known env hl hgr postural fuel s hw.sound hw.known c thr extraDim tr qs _ hf⟩
    have hk := congrArg List.length hsd.normalsKeys
    simp only [AMap.keys, List.length_map] at hk
    rw [← hk]
    rfl
  have h2 : ∀ s c v, WellFormed env.limbs s → (compute s c v).success = false ∨ (compute s c v).multipleBreaks = true →
      (compute s c v).repositionedInPlace = true := fun s c v hw => (computeContacts_good hl hc).2 s c v hw.sound
  obtain ⟨reps, -, -, -, -, -, hgood⟩ := C24_loop sv compute configs ts init hts hne start (WellFormed env.limbs) hs h1 h2 fuel b w h
  exact hgood

/-- **C165** Every state of a plan returned by `Interpolate` has complete contact data: a position, a normal and a rotation for exactly its contacts, which are active limbs of the robot, as
many as its counter says; whatever the robot, the obstacles and the solvers answer, with and without deep filtering, aborted or not.  Assumed: the start and the goal have such data, and
the two projections used by deep filtering keep it (they do, `C165_projections`). -/
theorem C165_plan {Smp : Type _} [IsStrictOrderedRing K] (env : Env N K Smp) (hl : env.limbs.Nodup) (hgr : ∀ n, ∀ m ∈ env.group n, m ∈ env.limbs)
    (thr : K) (extraDim : Nat) (tr qs : Bool) (compute : Compute N K) (postural : Bool)
    (hc : IsComputeContacts env postural thr extraDim tr qs compute)
    (sv : Solvers N K) (hsv : KeepsData env.limbs sv) (configs : List (List K)) (hne : configs ≠ [])
    (ts init : K) (hts : 0 ≤ ts) (start goal : State N K) (hs : WellFormed env.limbs start) (hgoal : WellFormed env.limbs goal)
    (pathEnd : Option K) (deep p : Bool) (fuel : Nat) (plan : List (Frame N K))
    (h : interpolate sv compute postural start goal pathEnd configs ts init deep fuel = (.done plan, p)) :
    ∀ f ∈ plan, WellFormed env.limbs f.2 := by
  unfold interpolate at h
  split at h
  · cases h
  · rename_i w hm
    have hw := mainLoop_wellFormed env hl hgr thr extraDim tr qs compute postural hc sv configs hne ts init hts start hs fuel _ w hm
    exact filterStates_wellFormed hsv fuel deep _ plan hw (Prod.mk.inj h).1
  · rename_i w hm
    have hw := mainLoop_wellFormed env hl hgr thr extraDim tr qs compute postural hc sv configs hne ts init hts start hs fuel _ w hm
    split_ifs at h
    · split at h
      · cases h
      · rename_i l p' hadd
        obtain ⟨_, moved, added, tail, rfl, hmv, _, _, htail⟩ := C28_goal_partial sv postural goal pathEnd _ _ l p' hadd
        refine filterStates_wellFormed hsv fuel deep _ plan (fun f hf => ?_) (Prod.mk.inj h).1
        rcases List.mem_append.1 hf with hf | hf
        · rcases List.mem_append.1 hf with hf | hf
          · exact hw f hf
          · exact hmv.wellFormed hgoal (hw w.front (by simp [Loop.states])) f hf
        · rcases htail with ⟨_, rfl⟩ | ⟨_, rfl⟩
          · rw [List.mem_singleton] at hf
            subst hf
            exact hgoal
          · cases hf
    · have := (Prod.mk.inj h).1
      cases this
      exact hw

/-- **C165 (always returns)** Without deep filtering, and when the goal is in contact with every limb of the robot, `Interpolate` returns a plan — it neither throws nor runs for ever —
and leaves the postural option of the robot as it was. -/
theorem C165_returns {Smp : Type _} [IsStrictOrderedRing K] (env : Env N K Smp) (hl : env.limbs.Nodup) (hgr : ∀ n, ∀ m ∈ env.group n, m ∈ env.limbs)
    (thr : K) (extraDim : Nat) (tr qs : Bool) (compute : Compute N K) (postural : Bool)
    (hc : IsComputeContacts env postural thr extraDim tr qs compute)
    (sv : Solvers N K) (configs : List (List K)) (hne : configs ≠ [])
    (ts init : K) (hts : 0 ≤ ts) (start goal : State N K) (hs : WellFormed env.limbs start) (hgoal : Sound goal) (hall : ∀ n ∈ env.limbs, Touches goal n)
    (pathEnd : Option K) :
    ∃ fuel0 plan, ∀ fuel ≥ fuel0, interpolate sv compute postural start goal pathEnd configs ts init false fuel = (.done plan, postural) := by
  obtain ⟨fuel0, r, hr, hall'⟩ := C25_library env hl thr extraDim tr qs compute postural hc sv configs ts init start goal hs.sound pathEnd false hne
  have h0 := hall' fuel0 le_rfl
  suffices hx : ∃ plan, r = (.done plan, postural) by
    obtain ⟨plan, rfl⟩ := hx
    exact ⟨fuel0, plan, hall'⟩
  rw [← h0]
  rw [← h0] at hr
  have hfil : ∀ (l : List (Frame N K)), ∃ plan, filterStates sv fuel0 false l = .done plan := by
    intro l
    unfold filterStates
    by_cases hlen : l.length ≤ 2
    · exact ⟨_, by rw [if_pos hlen]⟩
    · exact ⟨_, by rw [if_neg hlen, if_neg (by simp)]⟩
  unfold interpolate at hr ⊢
  split
  · rename_i hm
    rw [hm] at hr
    exact absurd rfl hr
  · obtain ⟨plan, hp⟩ := hfil _
    exact ⟨plan, by rw [hp]⟩
  · rename_i w hm
    have hw := mainLoop_wellFormed env hl hgr thr extraDim tr qs compute postural hc sv configs hne ts init hts start hs fuel0 _ w hm
    split_ifs
    · have hfront := hw w.front (by simp [Loop.states])
      have hno := C28_no_throw sv postural goal hgoal pathEnd w.states w.front (fun n hn => ?_)
      · split
        · rename_i p hadd
          rw [hadd] at hno
          exact absurd rfl hno
        · rename_i l p hadd
          obtain ⟨rfl, _⟩ := C28_goal_partial sv postural goal pathEnd _ _ l p hadd
          obtain ⟨plan, hp⟩ := hfil l
          exact ⟨plan, by rw [hp]⟩
      · by_cases hg : Touches goal n
        · exact hg
        · obtain ⟨q, hq⟩ : Touches w.front.2 n := by
            rcases ((C04_variations hfront.sound.toMapsOk hgoal.toMapsOk).2 n).1 hn with h | h | h
            · exact h.1
            · exact absurd h.1 hg
            · obtain ⟨p, q, hp, _⟩ := h
              exact absurd ⟨p, hp⟩ hg
          refine hall n (hfront.known n ?_)
          rw [← hfront.sound.positionsKeys, ← AMap.find?_isSome, show w.front.2.contactPositions.find? n = some q from hq]
          rfl
    · exact ⟨_, rfl⟩

theorem projectEffector_result {Smp : Type _} {rob : Proj.Robot N Smp} {proj : List (Proj.Constraint N)} {check : List ℝ → Bool} {limbId : N} {limb : Proj.Limb N}
    {q : List ℝ} {normal position : Vec3 ℝ} {rotation : Mat3 ℝ} {current : State N ℝ} (h : (rob.toObstacle proj check limbId limb q current normal position rotation).1.success = true) :
    ∃ p r c, (rob.toObstacle proj check limbId limb q current normal position rotation).1.result =
      (State.init rob.junk).assign (current.addContact limbId p normal r c) false := by
  unfold Proj.Robot.toObstacle Proj.Robot.projectEffector at h ⊢
  simp only at h ⊢
  generalize rob.apply _ q = r at h ⊢
  by_cases hx : (r.1 && check r.2) = true
  · rw [if_pos hx]
    exact ⟨_, _, _, rfl⟩
  · rw [if_neg hx] at h
    cases h

/-- **C165 (projections)** The two projections of the library keep complete contact data. -/
theorem C165_projections {Smp : Type _} (rob : Proj.Robot N Smp) (limbs : List N) (sv : Solvers N ℝ)
    (h1 : ∀ limb s n p s', sv.projectState limb s n p = (true, s') → ∃ device check l lock rot rep,
      rob.stateToObstacle device check limb l s n p lock rot = some rep ∧ rep.success = true ∧ rep.result = s')
    (h2 : ∀ c s s', sv.projectRoot c s = (true, s') → ∃ head off rep, rob.toRootConfiguration c head s off = some rep ∧ rep.result = s') : KeepsData limbs sv := by
  constructor
  · intro limb hlimb s n p s' hs h
    obtain ⟨device, check, l, lock, rot, rep, hrep, hsuc, rfl⟩ := h1 limb s n p s' h
    unfold Proj.Robot.stateToObstacle at hrep
    obtain ⟨cs, hcs, rfl⟩ := Option.map_eq_some_iff.1 hrep
    obtain ⟨p', r', c', e⟩ := projectEffector_result hsuc
    exact ((hs.removeContact limb).1.addContact hlimb (hs.removeContact limb).2 p' n r' c').same_maps (by rw [e]; rfl) (by rw [e]; rfl) (by rw [e]; rfl) (by rw [e]; rfl)
      (by rw [e]; rfl)
  · intro c s s' hs h
    obtain ⟨head, off, rep, hrep, rfl⟩ := h2 c s s' h
    obtain ⟨e1, e2, e3, e4, _, e6, _⟩ := Proj.C132_contacts rob s rep (Or.inr (Or.inl ⟨c, head, off, hrep⟩))
    exact hs.same_maps e1 e3 e2 e4 e6

/-! ## A concrete robot -/

/-- the robot of the examples, whose groups are made of its limbs -/
def groupedEnv : Env ℕ ℤ ℤ := { demoEnv with group := fun n => if n ∈ [1, 2, 3, 4] then [n] else [] }

/-- its contact generation -/
def groupedCompute : Compute ℕ ℤ := fun s c _ =>
  (computeContacts groupedEnv false 30 s c 3 0 false true).getD ⟨⟨false, s, .noContact⟩, false, false, false, true⟩

theorem mk_all : WellFormed [1, 2, 3, 4] (mk [1, 1] [(1, 0), (2, 0), (3, 0), (4, 0)]) := by
  refine ⟨⟨⟨?_, ?_, ?_, ?_⟩, ?_, ?_, ?_, ?_⟩, ?_, ?_⟩
  any_goals (first | decide | (unfold AMap.WF; decide))
  intro n b h
  have := AMap.find?_some_mem h
  simp [mk, State.addContact, State.init, AMap.set] at this
  tauto

/-- the hypotheses of C165 are met: by the robot, by a start with two contacts, by a goal in contact with every limb, by the solvers -/
example : groupedEnv.limbs.Nodup ∧ (∀ n, ∀ m ∈ groupedEnv.group n, m ∈ groupedEnv.limbs) ∧
    (∃ compute, IsComputeContacts groupedEnv false 3 0 false true compute) ∧ KeepsData groupedEnv.limbs demoSv ∧
    WellFormed groupedEnv.limbs State.demo ∧ WellFormed groupedEnv.limbs (mk [1, 1] [(1, 0), (2, 0), (3, 0), (4, 0)]) ∧
    ∀ n ∈ groupedEnv.limbs, Touches (mk [1, 1] [(1, 0), (2, 0), (3, 0), (4, 0)]) n := by
  refine ⟨by decide, ?_, isComputeContacts_exists _ (by decide) _ _ _ _ _, ⟨?_, ?_⟩, ?_, mk_all, ?_⟩
  · intro n m hm
    simp only [groupedEnv] at hm
    split_ifs at hm with h
    · rw [List.mem_singleton] at hm
      rw [hm]
      exact h
    · cases hm
  · intro limb hl s n p s' hs h
    cases h
    exact (hs.removeContact limb).1.addContact hl (hs.removeContact limb).2 _ _ _ _
  · intro c s s' hs h
    cases h
    exact hs.same_maps rfl rfl rfl rfl rfl
  · exact ⟨State.demo_consistent.sound, State.demo_consistent.counter, by decide⟩
  · intro n hn
    have : n = 1 ∨ n = 2 ∨ n = 3 ∨ n = 4 := by simpa [groupedEnv, demoEnv] using hn
    rcases this with rfl | rfl | rfl | rfl <;> exact ⟨_, rfl⟩

/-- and the plans are not trivial: one that ends with the goal -/
example : ((match interpolate demoSv groupedCompute false State.demo (mk [1, 1] [(1, 0), (2, 0), (3, 0), (4, 0)]) (some 4) [[0, 0], [1, 1], [2, 2]] 1 0 false 100 with
    | (.done plan, p) => (plan.map fun f => (f.1, f.2.contacts.keys), p)
    | _ => ([], true)) : List (ℤ × List ℕ) × Bool) = ([(0, [1, 2]), (0, [1, 2, 3]), (1, [1, 2, 3, 4]), (4, [1, 2, 3, 4])], false) := by decide

end Interp
end Rbprm
