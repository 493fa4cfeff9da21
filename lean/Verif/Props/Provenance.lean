import Verif.Props.Balance
/-!
# Property C170: where the contacts come from

`ComputeContacts` (algorithm.cc:194-275), `gen_contacts`, `repositionContacts` (contact_generation.cc) and `Interpolate`: a user relies on each contact of each computed state being either a contact of the given state or
a contact of that limb found by projecting it on a candidate surface.
-/
set_option linter.unusedSectionVars false
namespace Rbprm
namespace Interp
open State Contact
variable {N K Smp : Type _} [LinearOrder N] [CommRing K] [LinearOrder K]

/-! ## Specification -/

/-- a contact of a limb: position, normal and rotation -/
abbrev ContactData (K : Type _) := Vec3 K × Vec3 K × Mat3 K

/-- the limb is in contact in the state, with that position, normal and rotation -/
def HasContact (s : State N K) (n : N) (d : ContactData K) : Prop :=
  s.contactPositions.find? n = some d.1 ∧ s.contactNormals.find? n = some d.2.1 ∧ s.contactRotation.find? n = some d.2.2

/-- the contact was found by contact generation: its limb was projected, from one of the samples proposed for that limb, on the surface of this sample, the limb is free of collision, and what is recorded is the place of the
effector in the configuration found and the normal of the surface -/
def Found (env : Env N K Smp) (n : N) (d : ContactData K) : Prop :=
  ∃ (params base : State N K) (smp : Smp) (postural : Bool) (q cfg : List K), smp ∈ env.octree n params base ∧
    env.applyEffector postural n smp (env.load smp q) { base with stable := false } = (true, cfg) ∧ env.limbValid n cfg = true ∧
    d = (env.effectorPosition n cfg, env.normal smp, env.effectorRotation n cfg)

/-- every contact of the state is a contact of `s` or was found by contact generation -/
def Inherits (env : Env N K Smp) (s t : State N K) : Prop := ∀ n d, HasContact t n d → HasContact s n d ∨ Found env n d

/-! ## Proofs -/

/-- all the contacts of a state satisfy a property -/
def Legit (P : N → ContactData K → Prop) (s : State N K) : Prop := ∀ n d, HasContact s n d → P n d

theorem HasContact.congr {s t : State N K} (e2 : t.contactNormals = s.contactNormals) (e3 : t.contactPositions = s.contactPositions) (e4 : t.contactRotation = s.contactRotation) {n : N} {d : ContactData K}
    (h : HasContact t n d) : HasContact s n d := by
  unfold HasContact at h ⊢
  rw [← e2, ← e3, ← e4]
  exact h

theorem Legit.congr {P : N → ContactData K → Prop} {s t : State N K} (h : Legit P s) (e2 : t.contactNormals = s.contactNormals) (e3 : t.contactPositions = s.contactPositions)
    (e4 : t.contactRotation = s.contactRotation) : Legit P t := fun n d hd => h n d (hd.congr e2 e3 e4)

theorem HasContact.of_removeContact {s : State N K} {m n : N} {d : ContactData K} (h : HasContact (s.removeContact m).1 n d) : HasContact s n d := by
  unfold State.removeContact at h
  split_ifs at h
  · obtain ⟨h1, h2, h3⟩ := h
    simp only [AMap.find?_erase] at h1 h2 h3
    split_ifs at h1 h2 h3
    exact ⟨h1, h2, h3⟩
  · exact h

theorem Legit.removeContact {P : N → ContactData K → Prop} {s : State N K} (h : Legit P s) (m : N) : Legit P (s.removeContact m).1 := fun n d hd => h n d hd.of_removeContact

theorem trials_found (env : Env N K Smp) (p : Bool) (params w : State N K) (limb : N) (l : List Smp) (hl : ∀ x ∈ l, x ∈ env.octree limb params w) (c : List K) (t : Trial K Smp)
    (ht : t ∈ trials env p w limb l c) (hok : t.ok = true) : Found env limb (env.effectorPosition limb t.config, env.normal t.smp, env.effectorRotation limb t.config) := by
  induction l generalizing c with
  | nil => cases ht
  | cons smp l ih =>
    unfold trials at ht
    rcases List.mem_cons.1 ht with rfl | ht
    · simp only [Bool.and_eq_true] at hok
      exact ⟨params, w, smp, p, c, _, hl smp (by simp), Prod.ext hok.1 rfl, hok.2, rfl⟩
    · exact ih (fun x hx => hl x (List.mem_cons_of_mem _ hx)) _ ht

theorem attempts_found (env : Env N K Smp) (p : Bool) (params : State N K) (h : Helper N K) (limb : N) (t : Trial K Smp) (ht : t ∈ attempts env p params h limb) (hok : t.ok = true) :
    Found env limb (env.effectorPosition limb t.config, env.normal t.smp, env.effectorRotation limb t.config) := by
  unfold attempts at ht
  rcases List.mem_append.1 ht with ht | ht
  · split_ifs at ht
    · exact trials_found env true params _ limb _ (fun _ hx => hx) _ t ht hok
    · cases ht
  · exact trials_found env false params _ limb _ (fun _ hx => hx) _ t ht hok

theorem Legit.returned {env : Env N K Smp} {P : N → ContactData K → Prop} (hP : ∀ n d, Found env n d → P n d) {h : Helper N K} {limb : N} (hw : Legit P h.workingState) {t : Trial K Smp}
    (ht : Found env limb (env.effectorPosition limb t.config, env.normal t.smp, env.effectorRotation limb t.config)) (b : Bool) : Legit P (t.returned env h limb b) := by
  intro n d ⟨h1, h2, h3⟩
  have e1 : (t.returned env h limb b).contactPositions = h.workingState.contactPositions.set limb (env.effectorPosition limb t.config) := rfl
  have e2 : (t.returned env h limb b).contactNormals = h.workingState.contactNormals.set limb (env.normal t.smp) := rfl
  have e3 : (t.returned env h limb b).contactRotation = h.workingState.contactRotation.set limb (env.effectorRotation limb t.config) := rfl
  rw [e1, AMap.find?_set] at h1
  rw [e2, AMap.find?_set] at h2
  rw [e3, AMap.find?_set] at h3
  by_cases hn : n = limb
  · rw [if_pos hn] at h1 h2 h3
    cases hn
    have : d = (env.effectorPosition limb t.config, env.normal t.smp, env.effectorRotation limb t.config) :=
      Prod.ext (Option.some.inj h1).symm (Prod.ext (Option.some.inj h2).symm (Option.some.inj h3).symm)
    rw [this]
    exact hP _ _ ht
  · rw [if_neg hn] at h1 h2 h3
    exact hw n d ⟨h1, h2, h3⟩

/-- when no stability is required nothing is left behind by the first pass -/
theorem clean_of_unchecked (env : Env N K Smp) (params : State N K) (h : Helper N K) (limb : N) (hc : h.checkStabilityGenerate = false) : CleanFirstPass env params h limb :=
  fun _ _ => ⟨(fun hs => by have := hs.2.1.1; rw [hc] at this; cases this), (fun hs => by have := hs.2.2.1.1; rw [hc] at this; cases this)⟩

/-- nor when reachability is not tested and no unstable contact is kept -/
theorem clean_of_untested (env : Env N K Smp) (params : State N K) (h : Helper N K) (limb : N) (hr : h.testReachability = false) (hf : h.contactIfFails = false) : CleanFirstPass env params h limb :=
  fun _ _ => ⟨(fun hs => hs.2.2.2 (fun ht => by rw [hr] at ht; cases ht)), (fun hs => by have := hs.1; rw [hf] at this; cases this)⟩

theorem generateContact_legit (env : Env N K Smp) (P : N → ContactData K → Prop) (hP : ∀ n d, Found env n d → P n d) (postural : Bool) (params : State N K) (h : Helper N K) (limb : N)
    (hw : Legit P h.workingState)
    (hok : postural = false ∨ (h.testReachability = false ∧ h.contactIfFails = false) ∨ ((generateContact env postural params h limb).success = true ∧ h.acceptUnreachable = false)) :
    Legit P (generateContact env postural params h limb).result := by
  obtain ⟨c1, _, c3, c4, c5⟩ := C17_reachable env postural params h limb
  by_cases hp : postural = true → CleanFirstPass env params h limb
  · obtain ⟨d1, d2, d3⟩ := C17_generate_contact_partial env postural params h limb hp
    cases hst : (generateContact env postural params h limb).status with
    | reachable =>
      obtain ⟨_, t, ⟨pre, post, e, hg, _⟩, hres⟩ := c1 hst
      rw [hres]
      exact hw.returned hP (attempts_found env postural params h limb t (by rw [e]; simp) hg.1) _
    | stable =>
      obtain ⟨_, _, t, ⟨pre, post, e, hg, _⟩, hres⟩ := d1 hst
      rw [hres]
      exact hw.returned hP (attempts_found env postural params h limb t (by rw [e]; simp) hg.1) _
    | unstable =>
      obtain ⟨_, _, _, t, ht, hg, hres, _⟩ := d2 hst
      rw [hres]
      exact hw.returned hP (attempts_found env postural params h limb t ht hg.1) _
    | noContact =>
      rw [(d3 hst).2.2]
      exact hw.congr rfl rfl rfl
  · rcases hok with rfl | ⟨h1, h2⟩ | ⟨hs, hacc⟩
    · exact absurd (by simp) hp
    · exact absurd (fun _ => clean_of_untested env params h limb h1 h2) hp
    · have hck : h.checkStabilityGenerate = true := by
        cases hc : h.checkStabilityGenerate with
        | true => rfl
        | false => exact absurd (fun _ => clean_of_unchecked env params h limb hc) hp
      have hst : (generateContact env postural params h limb).status = .reachable := by
        cases hc : (generateContact env postural params h limb).status with
        | reachable => rfl
        | stable => rw [c3 hc, hacc] at hs; cases hs
        | unstable => rw [c4 hc, hck] at hs; cases hs
        | noContact => rw [c5 hc] at hs; cases hs
      obtain ⟨_, t, ⟨pre, post, e, hg, _⟩, hres⟩ := c1 hst
      rw [hres]
      exact hw.returned hP (attempts_found env postural params h limb t (by rw [e]; simp) hg.1) _

theorem genLimbs_legit (env : Env N K Smp) (P : N → ContactData K → Prop) (hP : ∀ n d, Found env n d → P n d) (postural cs : Bool) (params : State N K) (ls : List N) (h : Helper N K) (rep : Report N K)
    (hacc : h.acceptUnreachable = false) (hw : Legit P h.workingState) (hrep : rep.success = true → Legit P rep.result) :
    ((genLimbs env postural cs params ls h rep).1.success = true → Legit P (genLimbs env postural cs params ls h rep).1.result) ∧
      Legit P (genLimbs env postural cs params ls h rep).2.workingState ∧ (genLimbs env postural cs params ls h rep).2.acceptUnreachable = false := by
  induction ls generalizing h rep with
  | nil => exact ⟨hrep, hw, hacc⟩
  | cons limb rest ih =>
    unfold genLimbs
    dsimp only
    set h1 : Helper N K := if rest.isEmpty then { h with checkStabilityGenerate := cs } else h with hh1
    have a1 : h1.acceptUnreachable = false := by rw [hh1]; split_ifs <;> exact hacc
    have w1 : Legit P h1.workingState := by rw [hh1]; split_ifs <;> exact hw
    have key : (generateContact env postural params h1 limb).success = true → Legit P (generateContact env postural params h1 limb).result :=
      fun hs => generateContact_legit env P hP postural params h1 limb w1 (Or.inr (Or.inr ⟨hs, a1⟩))
    refine ih _ _ ?_ ?_ key
    · split_ifs <;> exact a1
    · split_ifs with hs
      · exact key hs
      · exact w1

theorem genLoop_legit (env : Env N K Smp) (P : N → ContactData K → Prop) (hP : ∀ n d, Found env n d → P n d) (postural cs : Bool) (cands : List (State N K × List N)) (h : Helper N K) (rep : Report N K)
    (hacc : h.acceptUnreachable = false) (hw : Legit P h.workingState) (hrep : rep.success = true → Legit P rep.result)
    (hs : (genLoop env postural cs cands h rep).1.success = true) : Legit P (genLoop env postural cs cands h rep).1.result := by
  induction cands generalizing h rep with
  | nil => exact hrep hs
  | cons c rest ih =>
    unfold genLoop at hs ⊢
    cases hr : rep.success with
    | true =>
      simp only [hr, if_true] at hs ⊢
      exact hrep hr
    | false =>
      simp only [hr, Bool.false_eq_true, if_false] at hs ⊢
      have w1 : Legit P (checkMaintained env cs c.2 h).workingState := by
        unfold checkMaintained
        split_ifs <;> exact hw.congr rfl rfl rfl
      have a1 : (checkMaintained env cs c.2 h).acceptUnreachable = false := by
        unfold checkMaintained
        split_ifs <;> exact hacc
      split_ifs at hs ⊢
      · exact w1
      · obtain ⟨g1, g2, g3⟩ := genLimbs_legit env P hP postural cs c.1 c.2 { checkMaintained env cs c.2 h with checkStabilityGenerate := false } rep a1 w1 hrep
        exact ih _ _ g3 g2 g1 hs

theorem genContacts_legit (env : Env N K Smp) (P : N → ContactData K → Prop) (hP : ∀ n d, Found env n d → P n d) (postural : Bool) (h : Helper N K)
    (hacc : h.acceptUnreachable = false) (hw : Legit P h.workingState) (hs : (genContacts env postural h).1.success = true) : Legit P (genContacts env postural h).1.result := by
  unfold genContacts at hs ⊢
  dsimp only at hs ⊢
  split_ifs at hs ⊢ <;> exact genLoop_legit env P hP postural _ _ h _ hacc hw (fun hx => by cases hx) hs

theorem repositionLoop_legit (env : Env N K Smp) (P : N → ContactData K → Prop) (hP : ∀ n d, Found env n d → P n d) (postural : Bool) (saved : List K) (O : List N) (s : State N K) (popped : List N)
    (nName : Option N) (h : Helper N K) (hs : Legit P s) (hpost : postural = false ∨ (h.testReachability = false ∧ h.contactIfFails = false)) :
    Legit P (repositionLoop env postural saved O s popped nName h).1 := by
  induction O generalizing s popped nName h with
  | nil => exact hs
  | cons prev O ih =>
    unfold repositionLoop
    split_ifs
    · exact hs
    · cases hg : env.group prev with
      | nil => exact ih _ _ _ _ (hs.congr rfl rfl rfl) hpost
      | cons limb gs =>
        simp only
        exact ih _ popped (some limb) { h with workingState := (s.removeContact limb).1 }
          (generateContact_legit env P hP postural _ _ limb (hs.removeContact limb) (hpost.imp id Or.inl)) hpost

theorem computeContacts_legit (env : Env N K Smp) (hl : env.limbs.Nodup) (P : N → ContactData K → Prop) (hP : ∀ n d, Found env n d → P n d) (postural : Bool) (fuel : Nat)
    (previous : State N K) (hp : Sound previous) (hlp : Legit P previous) (configuration : List K) (thr : K) (extraDim : Nat) (tr qs : Bool) (rep : ContactReport N K)
    (hr : computeContacts env postural fuel previous configuration thr extraDim tr qs = some rep) (hpost : postural = false ∨ tr = false ∨ rep.repositionedInPlace = false) : Legit P rep.result := by
  unfold computeContacts at hr
  rw [Option.map_eq_some_iff] at hr
  obtain ⟨r0, hr0, hr⟩ := hr
  set h := computeHelper previous configuration thr tr qs with hh
  have hws : Sound h.workingState := hp.same_maps rfl rfl rfl rfl
  obtain ⟨_, _, _, c4, c5⟩ := C21_report env hl postural fuel h r0 hr0 hp.toMapsOk hws.toMapsOk (by intro c hc; simp [hh, computeHelper, Helper.create] at hc)
  have hre : rep.repositionedInPlace = r0.repositionedInPlace := by rw [← hr]; split_ifs <;> rfl
  have main : Legit P r0.result := by
    cases hrep : r0.repositionedInPlace with
    | false =>
      obtain ⟨hs, h', f1, f2⟩ := c4 hrep
      have hs' : (genFromMaintain env postural h').1.success = true := by rw [← f2]; exact hs
      have hset := f1.setup hl
      unfold genFromMaintain at hs' f2
      simp only at hs' f2
      split_ifs at hs' f2 with hm
      · obtain ⟨c, hc, cfg, b, e⟩ := maintainContacts_result env h' hm
        have hcs : Legit P c := f1.candidates_all hl (Legit P)
          (startCandidates_all (Legit P) (fun s n hm => hm.removeContact n) h (hlp.congr rfl rfl rfl) (by intro c hc; simp [hh, computeHelper, Helper.create] at hc)) c hc
        have hq := (maintainContacts_queue env h').1
        have hres : r0.result = r0.toReport.result := rfl
        rw [hres, f2]
        refine genContacts_legit env P hP postural _ ?_ ?_ hs'
        · show (maintainContacts env h').2.acceptUnreachable = false
          rw [hq, hset]
          rfl
        · show Legit P (maintainContacts env h').1.result
          rw [e]
          exact hcs.congr rfl rfl rfl
      · exact absurd hs' hm
    | true =>
      obtain ⟨h', f1, _, _, f⟩ := c5 hrep
      have hset := (f1.setup hl).trans (genFromMaintain_queue env hl postural h').1
      have hpf : postural = false ∨ ((genFromMaintain env postural h').2.testReachability = false ∧ (genFromMaintain env postural h').2.contactIfFails = false) := by
        rcases hpost with h0 | h0 | h0
        · exact Or.inl h0
        · exact Or.inr ⟨by rw [hset]; exact h0, by rw [hset]; rfl⟩
        · rw [hre, hrep] at h0; cases h0
      have : r0.result = r0.toReport.result := rfl
      rw [this, f]
      refine Legit.congr (s := (repositionLoop env postural (genFromMaintain env postural h').2.previousState.configuration h.previousState.contactOrder { h.previousState with stable := false } [] none
        { (genFromMaintain env postural h').2 with workingState := h.previousState }).1) ?_ rfl rfl rfl
      exact repositionLoop_legit env P hP postural _ _ _ _ _ _ (hlp.congr rfl rfl rfl) hpf
  rw [← hr]
  split_ifs
  · exact main.congr rfl rfl rfl
  · exact main

/-- **C170** (partial: with the postural task of contact creation and the test of reachability the state repositioned after a failure is excluded, see `C170_violated`).  Whatever the robot, the obstacles and the solvers answer and
whatever the outcome, each contact of the state returned by `ComputeContacts` is a contact of the previous state, unchanged, or was found by contact generation. -/
theorem C170_step_partial (env : Env N K Smp) (hl : env.limbs.Nodup) (postural : Bool) (fuel : Nat) (previous : State N K) (hp : Sound previous) (configuration : List K) (thr : K) (extraDim : Nat)
    (tr qs : Bool) (rep : ContactReport N K) (hr : computeContacts env postural fuel previous configuration thr extraDim tr qs = some rep)
    (hpost : postural = false ∨ tr = false ∨ rep.repositionedInPlace = false) : Inherits env previous rep.result :=
  computeContacts_legit env hl (fun n d => HasContact previous n d ∨ Found env n d) (fun _ _ h => Or.inr h) postural fuel previous hp (fun _ _ h => Or.inl h) configuration thr extraDim tr qs rep hr hpost

/-- **C170** The contacts of an initial state were all found by contact generation. -/
theorem C170_initial (env : Env N K Smp) (postural : Bool) (configuration : List K) (thr : K) (n : N) (d : ContactData K)
    (h : HasContact (computeContactsInitial env postural configuration thr) n d) : Found env n d := by
  have key : ∀ (ls : List N) (s : State N K), Legit (Found env) s → Legit (Found env) (initialLoop env postural thr ls s) := by
    intro ls
    induction ls with
    | nil => exact fun s hs => hs
    | cons limb rest ih =>
      intro s hs
      unfold initialLoop
      dsimp only
      refine ih _ (Legit.congr (s := if (!contactExistsWithinGroup env limb s) = true then computeStableContact env postural s limb thr rest.isEmpty else s) ?_ rfl rfl rfl)
      split_ifs
      · unfold computeStableContact
        dsimp only
        refine Legit.congr (generateContact_legit env (Found env) (fun _ _ h => h) postural s _ limb ?_ (Or.inr (Or.inl ⟨rfl, rfl⟩))) rfl rfl rfl
        exact hs.congr rfl rfl rfl
      · exact hs
  refine key env.limbs _ ?_ n d h
  intro m e he
  have := he.1
  simp [State.init] at this

/-- the contact is that of the limb in the goal, or was found by projecting the limb to it -/
def Reached (sv : Solvers N K) (goal : State N K) (n : N) (d : ContactData K) : Prop :=
  HasContact goal n d ∨ ∃ base p r cfg, HasContact goal n (p, d.2.1, r) ∧ sv.projectEffector false n base r p d.2.1 = some (cfg, d.1, d.2.2)

theorem GoalMoves.legit {sv : Solvers N K} {goal : State N K} {time : K} {P : N → ContactData K → Prop} (hP : ∀ n d, Reached sv goal n d → P n d) {s : State N K} {moved : List N} {fs : List (Frame N K)}
    (h : GoalMoves sv goal time s moved fs) (hs : Legit P s) : ∀ f ∈ fs, Legit P f.2 := by
  induction h with
  | nil s => simp
  | @cons s s' limb limbs fs h1 h2 ih =>
    have key : Legit P s' := by
      obtain ⟨p, nn, r, cfg, p', r', g1, g2, g3, g4, rfl⟩ := h1
      rintro n d ⟨k1, k2, k3⟩
      simp only [State.addContact, AMap.find?_set] at k1 k2 k3
      by_cases hn : n = limb
      · rw [if_pos hn] at k1 k2 k3
        subst hn
        cases Option.some.inj k2
        refine hP _ _ (Or.inr ⟨(s.removeContact n).1, p, r, cfg, ⟨g1, g2, g3⟩, ?_⟩)
        rw [g4, Option.some.inj k1, Option.some.inj k3]
      · rw [if_neg hn] at k1 k2 k3
        exact hs.removeContact limb n d ⟨k1, k2, k3⟩
    intro f hf
    rcases List.mem_cons.1 hf with rfl | hf
    · exact key
    · exact ih key f hf

/-- **C170 (plans)** (partial: without postural task or without test of reachability; the states rebuilt by deep filtering are excluded).  Whatever the robot, the obstacles and the solvers answer, each contact of each state of a
plan is a contact of the start, or was found by contact generation, or is a contact of the goal or was found by projecting the limb to its contact in the goal. -/
theorem C170_plan_partial [IsStrictOrderedRing K] (env : Env N K Smp) (hl : env.limbs.Nodup)
    (thr : K) (extraDim : Nat) (tr qs : Bool) (compute : Compute N K) (postural : Bool) (hpost : postural = false ∨ tr = false)
    (hc : IsComputeContacts env postural thr extraDim tr qs compute)
    (sv : Solvers N K) (configs : List (List K)) (hne : configs ≠ [])
    (ts init : K) (hts : 0 ≤ ts) (start goal : State N K) (hs : Sound start)
    (pathEnd : Option K) (deep p : Bool) (fuel : Nat) (plan : List (Frame N K))
    (h : interpolate sv compute postural start goal pathEnd configs ts init deep fuel = (.done plan, p)) :
    ∀ f ∈ plan, (deep = true ∧ Rebuilt sv f.2) ∨ ∀ n d, HasContact f.2 n d → HasContact start n d ∨ Found env n d ∨ Reached sv goal n d := by
  set P : N → ContactData K → Prop := fun n d => HasContact start n d ∨ Found env n d ∨ Reached sv goal n d with hP
  have hstep : ∀ s c v, Sound s ∧ Legit P s → Sound (newStateOf (compute s c v)) ∧ Legit P (newStateOf (compute s c v)) := by
    intro s c v hs
    refine ⟨(computeContacts_good hl hc).1 s c v hs.1, ?_⟩
    obtain ⟨fuel, hf⟩ := hc s c v hs.1
    exact (computeContacts_legit env hl P (fun _ _ h => Or.inr (Or.inl h)) postural fuel s hs.1 hs.2 c thr extraDim tr qs _ hf (hpost.imp id Or.inl)).congr rfl rfl rfl
  have hloop : ∀ b w, mainLoop sv compute configs ts fuel (Loop.start start init) = some (b, w) → w.states.getLast? = some w.front ∧ ∀ f ∈ w.states, Legit P f.2 := by
    intro b w hm
    obtain ⟨_, _, _, _, _, hlast, hgood⟩ := C24_loop sv compute configs ts init hts hne start (fun s => Sound s ∧ Legit P s) ⟨hs, fun n d hd => Or.inl hd⟩ hstep
      (fun s c v hs => (computeContacts_good hl hc).2 s c v hs.1) fuel b w hm
    exact ⟨hlast, fun f hf => (hgood f hf).2⟩
  have hend : ∀ (whole : List (Frame N K)) f, f ∈ plan → filterStates sv fuel deep whole = .done plan → f ∈ whole ∨ (deep = true ∧ Rebuilt sv f.2) := by
    intro whole f hf hfil
    have hfl := C27_filter_partial sv fuel deep whole plan hfil
    cases hd : deep with
    | false => exact Or.inl ((hfl.2.1 hd).subset hf)
    | true => exact (hfl.1.origin f hf).imp id fun h => ⟨rfl, h⟩
  intro f hf
  unfold interpolate at h
  split at h
  · cases h
  · rename_i w hm
    rcases hend _ f hf (Prod.mk.inj h).1 with hf | hf
    · exact Or.inr ((hloop _ w hm).2 f hf)
    · exact Or.inl hf
  · rename_i w hm
    obtain ⟨hlast, hall⟩ := hloop _ w hm
    split_ifs at h
    · split at h
      · cases h
      · rename_i l p' hadd
        obtain ⟨_, moved, added, tail, rfl, hmv, _, _, htail⟩ := C28_goal_partial sv postural goal pathEnd _ _ l p' hadd
        rcases hend _ f hf (Prod.mk.inj h).1 with hf | hf
        swap
        · exact Or.inl hf
        refine Or.inr ?_
        rcases List.mem_append.1 hf with hf | hf
        · rcases List.mem_append.1 hf with hf | hf
          · exact hall f hf
          · exact hmv.legit (P := P) (fun n d h => Or.inr (Or.inr h)) (hall _ (List.mem_of_getLast? hlast)) f hf
        · rcases htail with ⟨_, rfl⟩ | ⟨_, rfl⟩
          · rw [List.mem_singleton] at hf
            subst hf
            exact fun n d hd => Or.inr (Or.inr (Or.inl hd))
          · cases hf
    · cases (Prod.mk.inj h).1
      exact Or.inr (hall f hf)

/-! ## Examples and violations -/

/-- the hypotheses of `C170_step_partial` are met, by a step that finds a contact for the third limb and one that fails and repositions the first limb -/
example : demoEnv.limbs.Nodup ∧ Sound (State.demo : State ℕ ℤ) ∧
    ((computeContacts demoEnv false 10 State.demo [1, 1] 3 0 true true).map fun r => (r.repositionedInPlace, r.result.contactPositions)) =
      some (false, [(1, ⟨0, 0, 0⟩), (2, ⟨3, 4, 0⟩), (3, ⟨3, 4, 0⟩)]) ∧
    ((computeContacts { demoEnv with fullValid := fun _ => false } false 10 State.demo [1, 1] 3 0 true true).map fun r => (r.repositionedInPlace, r.result.contactPositions)) =
      some (true, [(1, ⟨0, 0, 0⟩), (2, ⟨2, 4, 0⟩)]) :=
  ⟨by decide, State.demo_consistent.sound, by decide, by decide⟩

/-- an initial state with contacts -/
example : (computeContactsInitial demoEnv true [1, 1] 3).contactPositions = [(1, ⟨1, 4, 0⟩), (2, ⟨2, 4, 0⟩), (3, ⟨3, 4, 0⟩), (4, ⟨4, 4, 0⟩)] := by decide

/-- the hypotheses of `C170_plan_partial` are met, by a plan in which contacts are found and limbs are moved to the goal -/
example : groupedEnv.limbs.Nodup ∧ (∃ compute, IsComputeContacts groupedEnv false 3 0 false true compute) ∧ Sound (State.demo : State ℕ ℤ) ∧
    (match interpolate demoSv groupedCompute false State.demo (mk [1, 1] [(1, 0), (2, 0), (3, 0), (4, 0)]) (some 4) [[0, 0], [1, 1], [2, 2]] 1 0 false 100 with
      | (.done plan, _) => plan.map fun (f : Frame ℕ ℤ) => f.2.contactPositions
      | _ => []) = [[(1, ⟨0, 0, 0⟩), (2, ⟨3, 4, 0⟩)], [(1, ⟨0, 0, 0⟩), (2, ⟨3, 4, 0⟩), (3, ⟨3, 4, 0⟩)], [(1, ⟨0, 0, 0⟩), (2, ⟨0, 0, 0⟩), (3, ⟨3, 4, 0⟩), (4, ⟨4, 4, 0⟩)],
        [(1, ⟨0, 0, 0⟩), (2, ⟨0, 0, 0⟩), (3, ⟨0, 0, 0⟩), (4, ⟨0, 0, 0⟩)]] :=
  ⟨by decide, isComputeContacts_exists _ (by decide) _ _ _ _ _, State.demo_consistent.sound, by decide⟩

/-- a robot whose only candidate is robust but cannot be reached, and is only found by the postural task -/
def stiffEnv : Env ℕ ℤ ℤ := { demoEnv with octree := fun _ _ _ => [25], applyEffector := fun p _ smp _ _ => (p, [smp]), fullValid := fun _ => false }

/-- **C170 is violated** with the postural task: the step fails, the robot is repositioned, and the returned state, said to be stable, has a contact at a place which is not initialised: neither a contact of the previous state nor a contact
found by contact generation. -/
theorem C170_violated : ∃ (rep : ContactReport ℕ ℤ) (d : ContactData ℤ), computeContacts stiffEnv true 10 State.demo [1, 1] 3 0 true true = some rep ∧ rep.success = true ∧
    HasContact rep.result 2 d ∧ d.1 = stiffEnv.junkVec ∧ ¬ HasContact State.demo 2 d ∧ ¬ Found stiffEnv 2 d := by
  have key : ((computeContacts stiffEnv true 10 State.demo [1, 1] 3 0 true true).map fun r => (r.success, r.result.contactPositions.find? 2, r.result.contactNormals.find? 2, r.result.contactRotation.find? 2)) =
      some (true, some stiffEnv.junkVec, some stiffEnv.junkVec, some stiffEnv.junkMat) := by decide
  obtain ⟨rep, h1, h2⟩ := Option.map_eq_some_iff.1 key
  simp only [Prod.mk.injEq] at h2
  refine ⟨rep, (stiffEnv.junkVec, stiffEnv.junkVec, stiffEnv.junkMat), h1, h2.1, ⟨h2.2.1, h2.2.2.1, h2.2.2.2⟩, rfl, (fun h => absurd h.1 (by decide)), ?_⟩
  rintro ⟨_, _, _, _, _, cfg, _, _, _, h⟩
  have := congrArg (fun d : ContactData ℤ => d.1.x) h
  simp [stiffEnv, demoEnv] at this

end Interp
end Rbprm
