import Verif.Props.Steps
import Mathlib.Tactic.Tauto
/-!
# Property C168: what was checked of the states of a plan

`ComputeContacts` with a previous state (algorithm.cc:235-275) and `Interpolate` (interpolation/rbprm-path-interpolation.cc): a user relies on each state of a plan being in static equilibrium with the
required robustness, free of collision, and reachable from the one before when that is asked for.
-/
set_option linter.unusedSectionVars false
namespace Rbprm
namespace Interp
open State Contact
variable {N K Smp : Type _} [LinearOrder N] [CommRing K] [LinearOrder K]

/-! ## Specification -/

/-- the state in which the limb has been put in contact by a sample, with that configuration of the robot -/
def withContact (env : Env N K Smp) (base : State N K) (limb : N) (smp : Smp) (cfg : List K) : State N K :=
  base.addContact limb (env.effectorPosition limb cfg) (env.normal smp) (env.effectorRotation limb cfg) cfg

/-- the configurations that are reached when the candidates of a limb are tried: a sample among them is loaded and the effector is projected, each time from the configuration that the attempt before has left -/
inductive Tried (env : Env N K Smp) (base : State N K) (limb : N) : List K → Prop
  | here : Tried env base limb base.configuration
  | next (p : Bool) (params : State N K) (smp : Smp) (c : List K) : smp ∈ env.octree limb params base → Tried env base limb c →
      Tried env base limb (env.applyEffector p limb smp (env.load smp c) base).2

/-- what the generation of a contact checked: the projection of the effector succeeded, the limb is free of collision, and, unless this is the only contact, the state is in equilibrium with the required robustness
and can be reached (in quasi-static mode from the state without the contact, otherwise from the previous state of the plan) -/
structure PlacedContact (env : Env N K Smp) (thr : K) (tr qs : Bool) (previous base : State N K) (limb : N) (smp : Smp) (cfg : List K) : Prop where
  known : limb ∈ env.limbs
  free : base.contacts.find? limb ≠ some true
  projected : ∃ p params c, smp ∈ env.octree limb params base ∧ Tried env base limb c ∧ env.applyEffector p limb smp (env.load smp c) base = (true, cfg)
  valid : env.limbValid limb cfg = true
  robust : 1 ≤ base.nbContacts → (thr : WithBot K) ≤ env.robustness (withContact env base limb smp cfg)
  reachable : 1 ≤ base.nbContacts → tr = true →
    if qs then env.reachable base (withContact env base limb smp cfg) = true else env.reachableDyn previous (withContact env base limb smp cfg) = true

/-- two states with the same contacts, at the same places -/
def SameContactData (s t : State N K) : Prop :=
  s.contacts = t.contacts ∧ s.contactPositions = t.contactPositions ∧ s.contactNormals = t.contactNormals ∧ s.contactRotation = t.contactRotation

/-- where the reachability of a quasi-static step is tested from: the previous state moved as a whole to the new configuration, or a state that was tried before and kept all its contacts but one at most -/
def TestedFrom (env : Env N K Smp) (previous : State N K) (configuration : List K) (w : State N K) : Prop :=
  w = { previous with configuration := configuration, stable := false } ∨ (env.fullValid w.configuration = true ∧ LostAtMost 1 previous w ∧ WellFormed env.limbs w)

/-- What was checked of the state `s` placed after `previous`: it has the contacts of a state `t` in equilibrium with the required robustness, and the configuration of `t` but for the extra coordinates; `t` comes from a
state `base` free of collision, in which at most one contact of `previous` has been released, and is either `base` itself or `base` with one more contact, checked as above.  There are at least two contacts. -/
structure Checked (env : Env N K Smp) (thr : K) (tr qs : Bool) (extraDim : Nat) (previous s : State N K) : Prop where
  twoContacts : 2 ≤ s.contacts.length
  history : ∃ base t, env.fullValid base.configuration = true ∧ WellFormed env.limbs base ∧ LostAtMost 1 previous base ∧
    (qs = true → tr = true → ∃ configuration w, TestedFrom env previous configuration w ∧ env.reachable w base = true) ∧
    (t = base ∨ ∃ limb smp cfg, PlacedContact env thr tr qs previous base limb smp cfg ∧ t = withContact env base limb smp cfg) ∧
    (thr : WithBot K) ≤ env.robustness t ∧ SameContactData s t ∧ ∃ root, s.configuration = copyTail extraDim t.configuration root

/-! ## Proofs -/

theorem trials_ok (env : Env N K Smp) (p : Bool) (w params : State N K) (hw : w.stable = false) (limb : N) (l : List Smp) (hl : ∀ smp ∈ l, smp ∈ env.octree limb params w) (c : List K) (hc : Tried env w limb c)
    (t : Trial K Smp) (ht : t ∈ trials env p w limb l c) (hok : t.ok = true) :
    ∃ q, t.smp ∈ env.octree limb params w ∧ Tried env w limb q ∧ env.applyEffector p limb t.smp (env.load t.smp q) w = (true, t.config) ∧ env.limbValid limb t.config = true := by
  have e : ({ w with stable := false } : State N K) = w := by rw [← hw]
  induction l generalizing c with
  | nil => cases ht
  | cons smp l ih =>
    unfold trials at ht
    rcases List.mem_cons.1 ht with rfl | ht
    · simp only [Bool.and_eq_true, e] at hok
      exact ⟨c, hl smp (List.mem_cons_self ..), hc, Prod.ext hok.1 (by rw [e]), by rw [e]; exact hok.2⟩
    · rw [e] at ht
      exact ih (fun s hs => hl s (List.mem_cons_of_mem _ hs)) _ (.next p params smp c (hl smp (List.mem_cons_self ..)) hc) ht

theorem attempts_ok (env : Env N K Smp) (p : Bool) (params : State N K) (h : Helper N K) (hw : h.workingState.stable = false) (limb : N) (t : Trial K Smp) (ht : t ∈ attempts env p params h limb)
    (hok : t.ok = true) : ∃ p q, t.smp ∈ env.octree limb params h.workingState ∧ Tried env h.workingState limb q ∧
      env.applyEffector p limb t.smp (env.load t.smp q) h.workingState = (true, t.config) ∧ env.limbValid limb t.config = true := by
  unfold attempts at ht
  rcases List.mem_append.1 ht with ht | ht
  · split_ifs at ht
    · exact ⟨true, trials_ok env true _ params hw limb _ (fun _ h => h) _ .here t ht hok⟩
    · cases ht
  · exact ⟨false, trials_ok env false _ params hw limb _ (fun _ h => h) _ .here t ht hok⟩

/-- the outcomes of `gen_contacts` when one contact may be created and stability is required -/
def Outcome (env : Env N K Smp) (thr : K) (tr qs : Bool) (previous base out : State N K) : Prop :=
  (out = { base with stable := true } ∧ 2 ≤ base.nbContacts ∧ (thr : WithBot K) ≤ env.robustness base) ∨
  ∃ limb smp cfg, PlacedContact env thr tr qs previous base limb smp cfg ∧ out = { withContact env base limb smp cfg with nbContacts := base.nbContacts, stable := true }

theorem generateContact_outcome (env : Env N K Smp) (postural : Bool) (params : State N K) (h : Helper N K) (limb : N) (hlimb : limb ∈ env.limbs) (hfree : h.workingState.contacts.find? limb ≠ some true)
    (h1 : h.checkStabilityGenerate = true) (h2 : h.stableForOneContact = false) (h3 : h.acceptUnreachable = false) (h4 : h.workingState.stable = false)
    (hs : (generateContact env postural params h limb).success = true) :
    Outcome env h.robustnessTreshold h.testReachability h.quasiStatic h.previousState h.workingState (generateContact env postural params h limb).result := by
  obtain ⟨c1, _, c3, c4, c5⟩ := C17_reachable env postural params h limb
  have hst : (generateContact env postural params h limb).status = .reachable := by
    cases hc : (generateContact env postural params h limb).status with
    | reachable => rfl
    | stable => rw [c3 hc, h3] at hs; cases hs
    | unstable => rw [c4 hc, h1] at hs; cases hs
    | noContact => rw [c5 hc] at hs; cases hs
  obtain ⟨_, t, ⟨pre, post, e, hg, _⟩, hres⟩ := c1 hst
  have hw : ({ h.workingState with stable := false } : State N K) = h.workingState := by rw [← h4]
  obtain ⟨p, q, k0, k1, k2, k3⟩ := attempts_ok env postural params h h4 limb t (by rw [e]; simp) hg.1
  have hstate : t.state env h.workingState limb = withContact env h.workingState limb t.smp t.config := by
    unfold Trial.state withContact; rw [hw]
  have hreq : 1 ≤ h.workingState.nbContacts → StabilityRequired h := fun hn => ⟨h1, by omega⟩
  refine Or.inr ⟨limb, t.smp, t.config, ⟨hlimb, hfree, ⟨p, params, q, k0, k1, k2⟩, k3, fun hn => ?_, fun hn htr => ?_⟩, ?_⟩
  · rw [← hstate]; exact (hg.2 (hreq hn)).1
  · have := (hg.2 (hreq hn)).2 htr
    rw [hw, hstate] at this
    exact this
  · rw [hres]; unfold Trial.returned; rw [hstate]

theorem genLoop_outcome (env : Env N K Smp) (postural : Bool) (cands : List (State N K × List N)) (h : Helper N K) (rep : Report N K) (hrep : rep.success = false)
    (hM : ∀ c ∈ cands, c.2.length ≤ 1) (hF : ∀ c ∈ cands, ∀ n ∈ c.2, n ∈ env.limbs ∧ h.workingState.contacts.find? n ≠ some true)
    (h2 : h.stableForOneContact = false) (h3 : h.acceptUnreachable = false) (h4 : h.workingState.stable = false)
    (hs : (genLoop env postural true cands h rep).1.success = true) :
    Outcome env h.robustnessTreshold h.testReachability h.quasiStatic h.previousState h.workingState (genLoop env postural true cands h rep).1.result := by
  induction cands generalizing h rep with
  | nil => unfold genLoop at hs; rw [hrep] at hs; cases hs
  | cons c rest ih =>
    unfold genLoop at hs ⊢
    simp only [hrep, Bool.false_eq_true, if_false] at hs ⊢
    rcases c with ⟨params, ls⟩
    match ls, hM (params, ls) (by simp), hF (params, ls) (by simp) with
    | [], _, _ =>
      by_cases hcm : 2 ≤ h.workingState.nbContacts ∧ (h.robustnessTreshold : WithBot K) ≤ env.robustness h.workingState
      · have e : checkMaintained env true [] h = { h with workingState := { h.workingState with stable := true } } := by
          unfold checkMaintained
          rw [if_pos (by simp [hcm.1]), if_pos hcm.2]
        simp only [e, List.isEmpty_nil, Bool.true_and, Bool.true_or, hcm.1, decide_true, if_true] at hs ⊢
        exact Or.inl ⟨rfl, hcm.1, hcm.2⟩
      · have e : checkMaintained env true [] h = h := by
          unfold checkMaintained
          by_cases hn : 2 ≤ h.workingState.nbContacts
          · rw [if_pos (by simp [hn]), if_neg fun hr => hcm ⟨hn, hr⟩]
          · rw [if_neg (by simp [hn, h2])]
        simp only [e, List.isEmpty_nil, Bool.true_and, h4, Bool.not_true, Bool.or_self, Bool.false_and, Bool.false_eq_true, if_false, genLimbs] at hs ⊢
        exact ih { h with checkStabilityGenerate := false } rep hrep (fun c hc => hM c (List.mem_cons_of_mem _ hc)) (fun c hc => hF c (List.mem_cons_of_mem _ hc)) h2 h3 h4 hs
    | [limb], _, hl =>
      have e : checkMaintained env true [limb] h = h := by
        unfold checkMaintained
        rw [if_neg (by simp)]
      simp only [e, List.isEmpty_cons, Bool.false_and, Bool.false_eq_true, if_false, genLimbs, List.isEmpty_nil, if_true] at hs ⊢
      set h' : Helper N K := { h with checkStabilityGenerate := true } with hh'
      cases hg : (generateContact env postural params h' limb).success with
      | true =>
        have e2 : ∀ h'' , genLoop env postural true rest h'' (generateContact env postural params h' limb) = (generateContact env postural params h' limb, h'', false) := by
          intro h''
          cases rest with
          | nil => rfl
          | cons a b => unfold genLoop; rw [hg]; rfl
        rw [e2]
        exact generateContact_outcome env postural params h' limb (hl limb (by simp)).1 (hl limb (by simp)).2 rfl h2 h3 h4 hg
      | false =>
        simp only [hg, Bool.false_eq_true, if_false] at hs ⊢
        exact ih h' _ hg (fun c hc => hM c (List.mem_cons_of_mem _ hc)) (fun c hc => hF c (List.mem_cons_of_mem _ hc)) h2 h3 h4 hs
    | _ :: _ :: _, hM, _ => simp at hM

theorem genContacts_outcome (env : Env N K Smp) (hl : env.limbs.Nodup) (postural : Bool) (h : Helper N K) (h0 : h.maxContactCreations ≤ 1)
    (h1 : h.checkStabilityGenerate = true) (h2 : h.stableForOneContact = false) (h3 : h.acceptUnreachable = false) (h4 : h.workingState.stable = false)
    (hs : (genContacts env postural h).1.success = true) :
    Outcome env h.robustnessTreshold h.testReachability h.quasiStatic h.previousState h.workingState (genContacts env postural h).1.result := by
  have hfree : (h.workingState.freeEffectors env.limbs).Nodup := nodup_freeEffectors _ hl
  obtain ⟨_, e2, _⟩ := C12_enumeration (h.workingState.freeEffectors env.limbs) hfree h.workingState h.maxContactCreations h.maximiseContacts
  have key := genLoop_outcome env postural (genCandidates env h) h (Report.default env) rfl
    (fun c hc => ((e2 c.2).1 (List.mem_map_of_mem hc)).2.2.trans h0)
    (fun c hc n hn => by
      have := ((e2 c.2).1 (List.mem_map_of_mem hc)).2.1 n hn
      unfold freeEffectors at this
      rw [List.mem_filter] at this
      refine ⟨this.1, fun hc => ?_⟩
      simp [hc] at this) h2 h3 h4
  unfold genContacts at hs ⊢
  simp only [h1] at hs ⊢
  split_ifs at hs ⊢
  · exact key hs
  · exact key hs

theorem genLoop_fails (env : Env N K Smp) (postural : Bool) (cands : List (State N K × List N)) (h : Helper N K) (rep : Report N K)
    (hM : ∀ c ∈ cands, c.2.length ≤ 1) (h2 : h.stableForOneContact = false)
    (hs : (genLoop env postural true cands h rep).1.success = false) : (genLoop env postural true cands h rep).2.1.workingState = h.workingState := by
  induction cands generalizing h rep with
  | nil => rfl
  | cons c rest ih =>
    unfold genLoop at hs ⊢
    cases hrep : rep.success with
    | true => simp only [if_true]
    | false =>
      simp only [hrep, Bool.false_eq_true, if_false] at hs ⊢
      rcases c with ⟨params, ls⟩
      match ls, hM (params, ls) (by simp) with
      | [], _ =>
        by_cases hcm : 2 ≤ h.workingState.nbContacts ∧ (h.robustnessTreshold : WithBot K) ≤ env.robustness h.workingState
        · have e : checkMaintained env true [] h = { h with workingState := { h.workingState with stable := true } } := by
            unfold checkMaintained
            rw [if_pos (by simp [hcm.1]), if_pos hcm.2]
          simp only [e, List.isEmpty_nil, Bool.true_and, Bool.true_or, hcm.1, decide_true, if_true] at hs
          cases hs
        · have e : checkMaintained env true [] h = h := by
            unfold checkMaintained
            by_cases hn : 2 ≤ h.workingState.nbContacts
            · rw [if_pos (by simp [hn]), if_neg fun hr => hcm ⟨hn, hr⟩]
            · rw [if_neg (by simp [hn, h2])]
          simp only [e, List.isEmpty_nil, Bool.true_and, genLimbs] at hs ⊢
          split_ifs at hs ⊢
          · exact ih { h with checkStabilityGenerate := false } rep (fun c hc => hM c (List.mem_cons_of_mem _ hc)) h2 hs
      | [limb], _ =>
        have e : checkMaintained env true [limb] h = h := by
          unfold checkMaintained
          rw [if_neg (by simp)]
        simp only [e, List.isEmpty_cons, Bool.false_and, Bool.false_eq_true, if_false, genLimbs, List.isEmpty_nil, if_true] at hs ⊢
        set h' : Helper N K := { h with checkStabilityGenerate := true } with hh'
        cases hg : (generateContact env postural params h' limb).success with
        | true =>
          have e2 : ∀ h'' , genLoop env postural true rest h'' (generateContact env postural params h' limb) = (generateContact env postural params h' limb, h'', false) := by
            intro h''
            cases rest with
            | nil => rfl
            | cons a b => unfold genLoop; rw [hg]; rfl
          rw [e2, hg] at hs
          cases hs
        | false =>
          simp only [hg, Bool.false_eq_true, if_false] at hs ⊢
          exact ih h' _ (fun c hc => hM c (List.mem_cons_of_mem _ hc)) h2 hs
      | _ :: _ :: _, hM => simp at hM

theorem genContacts_fails (env : Env N K Smp) (hl : env.limbs.Nodup) (postural : Bool) (h : Helper N K) (h0 : h.maxContactCreations ≤ 1)
    (h1 : h.checkStabilityGenerate = true) (h2 : h.stableForOneContact = false) (hs : (genContacts env postural h).1.success = false) :
    (genContacts env postural h).2.workingState = h.workingState := by
  have hfree : (h.workingState.freeEffectors env.limbs).Nodup := nodup_freeEffectors _ hl
  obtain ⟨_, e2, _⟩ := C12_enumeration (h.workingState.freeEffectors env.limbs) hfree h.workingState h.maxContactCreations h.maximiseContacts
  have key := genLoop_fails env postural (genCandidates env h) h (Report.default env) (fun c hc => ((e2 c.2).1 (List.mem_map_of_mem hc)).2.2.trans h0) h2
  unfold genContacts at hs ⊢
  simp only [h1] at hs ⊢
  split_ifs at hs ⊢
  · exact key hs
  · exact key hs

/-- the working states of the attempts -/
theorem failing_workingState {env : Env N K Smp} (hl : env.limbs.Nodup) {postural : Bool} {h h' : Helper N K} (hf : Failing env postural h h') (P : State N K → Prop) (h0 : P h.workingState)
    (h1 : h.maxContactCreations ≤ 1) (h2 : h.checkStabilityGenerate = true) (h3 : h.stableForOneContact = false) (h4 : h.checkStabilityMaintain = false)
    (hP : ∀ c ∈ startCandidates h, ∀ cfg, env.fullValid cfg = true → P { c with configuration := cfg }) : P h'.workingState := by
  induction hf with
  | refl h => exact h0
  | @step h h' k1 k2 k3 ih =>
    have hset := (genFromMaintain_queue env hl postural h).1
    have hst := (Failing.step k1 k2 (Failing.refl _)).candidates_all hl (fun c => ∀ cfg, env.fullValid cfg = true → P { c with configuration := cfg }) hP
    refine ih ?_ (by rw [hset]; exact h1) (by rw [hset]; exact h2) (by rw [hset]; exact h3) (by rw [hset]; exact h4) hst
    have hm := C15_maintain_contacts env hl h h4
    unfold genFromMaintain at k1 k2 ⊢
    simp only at k1 k2 ⊢
    by_cases hs : (maintainContacts env h).1.success = true
    · rw [if_pos hs] at k1 k2 ⊢
      obtain ⟨⟨pre, c, e, hacc, hres, _⟩, _, hsame⟩ := And.intro (hm.1 hs) hm.2
      rw [genContacts_fails env hl postural _ (by rw [hsame]; exact h1) (by rw [hsame]; exact h2) (by rw [hsame]; exact h3) k1]
      show P (maintainContacts env h).1.result
      rw [hres]
      exact hP c (by rw [e]; simp) _ hacc.valid
    · rw [if_neg hs] at k2
      exact absurd (hm.2.1 (Bool.eq_false_of_not_eq_true hs)).1 k2

theorem startCandidates_contact {limbs : List N} (h : Helper N K) (he : h.candidates = []) (hb : h.maxContactBreaks = 1) (hw : WellFormed limbs h.workingState) :
    ∀ c ∈ startCandidates h, 1 ≤ c.nbContacts := by
  intro c hc
  have h1 : 1 ≤ h.workingState.contacts.length := by
    by_contra hz
    have hz' : h.workingState.contacts = [] := List.length_eq_zero_iff.1 (by omega)
    unfold startCandidates at hc
    rw [if_neg (fun hx => hx.2 hz'), he] at hc
    cases hc
  by_cases e : h.workingState.nbContacts = 1
  · unfold startCandidates at hc
    rw [if_pos ⟨he, fun hz => by rw [hz] at h1; simp at h1⟩, C11_single_contact _ e, List.mem_singleton] at hc
    rw [hc, e]
  · have hwf := startCandidates_all (WellFormed limbs) (fun s n hs => (hs.removeContact n).1) h hw (by rw [he]; simp) c hc
    obtain ⟨removed, r1, r2⟩ := startCandidates_lost h he c hc
    rw [hb] at r1
    rw [hw.counter] at e
    rw [hwf.counter]
    have hnd := hw.sound.contacts.nodup
    -- two different contacts, one of which is kept
    match hk : h.workingState.contacts, h1, e, hnd, r2 with
    | [], h1, _, _, _ => simp at h1
    | [_], _, e, _, _ => simp at e
    | a :: b :: rest, _, _, hnd, r2 =>
      have hab : a.1 ≠ b.1 := by
        simp [AMap.keys] at hnd
        tauto
      have : ∃ x ∈ [a.1, b.1], x ∉ removed := by
        by_contra hcon
        push Not at hcon
        have ha := hcon a.1 (by simp)
        have hb := hcon b.1 (by simp)
        match removed, r1, ha, hb with
        | [y], _, ha, hb => simp at ha hb; exact hab (ha.trans hb.symm)
      obtain ⟨x, hx, hxr⟩ := this
      have hmem : x ∈ AMap.keys (a :: b :: rest) := by
        simp only [List.mem_cons, List.not_mem_nil, or_false] at hx
        rcases hx with rfl | rfl <;> simp [AMap.keys]
      have hsome := AMap.find?_isSome.2 hmem
      rw [← (r2 x hxr).1, AMap.find?_isSome] at hsome
      have := List.length_pos_of_mem hsome
      rw [AMap.keys, List.length_map] at this
      exact this

theorem step_outcome (env : Env N K Smp) (hl : env.limbs.Nodup) (postural : Bool) (fuel : Nat) (previous : State N K) (hp : WellFormed env.limbs previous)
    (configuration : List K) (thr : K) (extraDim : Nat) (tr qs : Bool) (rep : ContactReport N K)
    (hr : computeContacts env postural fuel previous configuration thr extraDim tr qs = some rep) (hnr : rep.repositionedInPlace = false) :
    rep.success = true ∧ ∃ base out, env.fullValid base.configuration = true ∧ WellFormed env.limbs base ∧ LostAtMost 1 previous base ∧ 1 ≤ base.nbContacts ∧
      (qs = true → tr = true → ∃ w, TestedFrom env previous configuration w ∧ env.reachable w base = true) ∧
      Outcome env thr tr qs previous base out ∧ rep.result = { out with configuration := copyTail extraDim out.configuration configuration } := by
  unfold computeContacts at hr
  rw [Option.map_eq_some_iff] at hr
  obtain ⟨r0, hr0, hr⟩ := hr
  set h := computeHelper previous configuration thr tr qs with hh
  have hws : WellFormed env.limbs h.workingState := hp.same_maps rfl rfl rfl rfl rfl
  obtain ⟨_, _, _, c4, _⟩ := C21_report env hl postural fuel h r0 hr0 hp.sound.toMapsOk hws.sound.toMapsOk (fun c hc => by simp [hh, computeHelper, Helper.create] at hc)
  have hnr0 : r0.repositionedInPlace = false := by rw [← hr] at hnr; split_ifs at hnr <;> exact hnr
  obtain ⟨hs, h', f1, f2⟩ := c4 hnr0
  rw [hs, if_pos rfl] at hr
  refine ⟨by rw [← hr], ?_⟩
  have hset := f1.setup hl
  have hcand : ∀ (P : State N K → Prop), (∀ c ∈ startCandidates h, P c) → ∀ c ∈ startCandidates h', P c := fun P => f1.candidates_all hl P
  have hs' : (genFromMaintain env postural h').1.success = true := by rw [← f2]; exact hs
  have hmaint := C15_maintain_contacts env hl h' (by rw [hset]; rfl)
  unfold genFromMaintain at hs' f2
  simp only at hs' f2
  split_ifs at hs' f2 with hm
  · obtain ⟨⟨pre, c, e, hacc, hres⟩, _, hsame⟩ := And.intro (hmaint.1 hm) hmaint.2
    obtain ⟨hres, _⟩ := hres
    have hc : c ∈ startCandidates h' := by rw [e]; simp
    have g1 : WellFormed env.limbs c := hcand _ (startCandidates_all (WellFormed env.limbs) (fun s n hs => (hs.removeContact n).1) h hws (fun c hc => by cases hc)) c hc
    have g2 : c.stable = false := hcand (fun c => c.stable = false) (startCandidates_all (fun c => c.stable = false)
      (fun s n hs => by unfold State.removeContact; split_ifs <;> first | exact hs | rfl) h rfl (fun c hc => by cases hc)) c hc
    have g3 : LostAtMost 1 previous c := hcand (LostAtMost 1 previous) (startCandidates_lost h rfl) c hc
    have g4 : 1 ≤ c.nbContacts := hcand (fun c => 1 ≤ c.nbContacts) (startCandidates_contact (limbs := env.limbs) h rfl rfl hws) c hc
    have g5 : TestedFrom env previous configuration h'.workingState := failing_workingState hl f1 (TestedFrom env previous configuration) (Or.inl rfl) le_rfl rfl rfl rfl
      (fun c hc cfg hv => Or.inr ⟨hv, startCandidates_lost h rfl c hc,
        (startCandidates_all (WellFormed env.limbs) (fun s n hs => (hs.removeContact n).1) h hws (fun c hc => by cases hc) c hc).same_maps rfl rfl rfl rfl rfl⟩)
    have key := genContacts_outcome env hl postural { (maintainContacts env h').2 with workingState := (maintainContacts env h').1.result }
      (by rw [hsame, hset]; exact le_rfl) (by rw [hsame, hset]; rfl) (by rw [hsame, hset]; rfl) (by rw [hsame, hset]; rfl) (by rw [hres]; exact g2) hs'
    have k1 : (maintainContacts env h').2.robustnessTreshold = thr := by rw [hsame, hset]; rfl
    have k2 : (maintainContacts env h').2.testReachability = tr := by rw [hsame, hset]; rfl
    have k3 : (maintainContacts env h').2.quasiStatic = qs := by rw [hsame, hset]; rfl
    have k4 : (maintainContacts env h').2.previousState = previous := by rw [hsame, hset]; rfl
    have key' : Outcome env thr tr qs previous (maintainContacts env h').1.result (genContacts env postural { (maintainContacts env h').2 with workingState := (maintainContacts env h').1.result }).1.result := by
      rw [← k1, ← k2, ← k3, ← k4]; exact key
    refine ⟨(maintainContacts env h').1.result, r0.result, hacc.valid, g1.same_maps (by rw [hres]) (by rw [hres]) (by rw [hres]) (by rw [hres]) (by rw [hres]), ?_, ?_, ?_, ?_, by rw [← hr]⟩
    · rw [hres]; exact g3
    · rw [hres]; exact g4
    · exact fun hq ht => ⟨h'.workingState, g5, hacc.reachable (by rw [hset]; exact hq) (by rw [hset]; exact ht)⟩
    · rw [f2]; exact key'
  · exact absurd hs' hm

/-- **C168 (one step)** Whatever the robot, the obstacles and the solvers answer, a state given by contact generation from a state with complete contact data, not by repositioning the robot in place, is checked as above. -/
theorem C168_step (env : Env N K Smp) (hl : env.limbs.Nodup) (postural : Bool) (fuel : Nat) (previous : State N K) (hp : WellFormed env.limbs previous)
    (configuration : List K) (thr : K) (extraDim : Nat) (tr qs : Bool) (rep : ContactReport N K)
    (hr : computeContacts env postural fuel previous configuration thr extraDim tr qs = some rep) (hnr : rep.repositionedInPlace = false) :
    rep.success = true ∧ Checked env thr tr qs extraDim previous rep.result := by
  obtain ⟨hsuc, base, out, h1, h2, h3, h4, h7, h5, h6⟩ := step_outcome env hl postural fuel previous hp configuration thr extraDim tr qs rep hr hnr
  refine ⟨hsuc, ?_⟩
  rcases h5 with ⟨rfl, g1, g2⟩ | ⟨limb, smp, cfg, g1, rfl⟩
  · refine ⟨?_, base, base, h1, h2, h3, fun a b => ⟨configuration, h7 a b⟩, Or.inl rfl, g2, ?_, configuration, by rw [h6]⟩
    · rw [h6]; exact h2.counter ▸ g1
    · rw [h6]; exact ⟨rfl, rfl, rfl, rfl⟩
  · refine ⟨?_, base, _, h1, h2, h3, fun a b => ⟨configuration, h7 a b⟩, Or.inr ⟨limb, smp, cfg, g1, rfl⟩, g1.robust h4, ?_, configuration, by rw [h6]⟩
    · rw [h6]
      show 2 ≤ (base.contacts.set limb true).length
      have : limb ∉ base.contacts.keys := fun hk => by
        obtain ⟨v, hv⟩ := Option.isSome_iff_exists.1 (AMap.find?_isSome.2 hk)
        exact g1.free (by rw [hv, h2.sound.active limb v hv])
      rw [AMap.length_set_of_not_mem true this]
      have := h2.counter
      omega
    · rw [h6]; exact ⟨rfl, rfl, rfl, rfl⟩

theorem GoalMoves.moves {sv : Solvers N K} {goal : State N K} {time : K} {s : State N K} {moved : List N} {fs : List (Frame N K)} (h : GoalMoves sv goal time s moved fs) :
    ∀ f ∈ fs, ∃ s limb, MovesLimb sv goal s limb f.2 := by
  induction h with
  | nil s => simp
  | cons h1 h2 ih =>
    intro f hf
    rcases List.mem_cons.1 hf with rfl | hf
    · exact ⟨_, _, h1⟩
    · exact ih f hf

/-- the states of the loop -/
theorem Grown.checked {env : Env N K Smp} (hl : env.limbs.Nodup) {thr : K} {extraDim : Nat} {tr qs postural : Bool} {compute : Compute N K}
    (hc : IsComputeContacts env postural thr extraDim tr qs compute) {sv : Solvers N K} {configs : List (List K)} {ts init : K} {start : State N K}
    {states : List (Frame N K)} {reps : List (ContactReport N K)} (h : Grown sv compute configs ts init start states reps) (hs : ∀ f ∈ states, WellFormed env.limbs f.2) :
    ∀ f ∈ states, f = (init, start) ∨ ∃ prev ∈ states, (∃ rep, Produces sv compute configs ts init prev rep f ∧ rep.repositionedInPlace = true) ∨ Checked env thr tr qs extraDim prev.2 f.2 := by
  induction h with
  | start => intro f hf; exact Or.inl (List.mem_singleton.1 hf)
  | @push states reps prev rep f h1 h2 h3 ih =>
    intro g hg
    rcases List.mem_append.1 hg with hg | hg
    · rcases ih (fun f hf => hs f (List.mem_append_left _ hf)) g hg with h | ⟨prev, k1, k2⟩
      · exact Or.inl h
      · exact Or.inr ⟨prev, List.mem_append_left _ k1, k2⟩
    · rw [List.mem_singleton] at hg
      subst hg
      have hm := List.mem_append_left [g] (List.mem_of_getLast? h2)
      refine Or.inr ⟨prev, hm, ?_⟩
      cases hre : rep.repositionedInPlace with
      | true => exact Or.inl ⟨rep, h3, hre⟩
      | false =>
        obtain ⟨i, c, body, v, _, _, _, hrep, hf, _, _⟩ := h3
        obtain ⟨fuel, hfu⟩ := hc prev.2 (loadPrevious sv.extraDim body c) v (hs prev hm).sound
        rw [← hrep] at hfu
        have := (C168_step env hl postural fuel prev.2 (hs prev hm) _ thr extraDim tr qs rep hfu hre).2
        rw [hf]
        exact Or.inr ⟨this.1, this.2⟩

/-- **C168** (partial: not the states repositioned in place, those of the end of the plan and those rebuilt by deep filtering, see the violations).  Whatever the robot, the obstacles and the solvers answer, each state of a plan
is the start, the goal, a state made on the way to the goal by moving one limb, a state rebuilt by deep filtering (collision free), a state where contact generation failed and repositioned the robot, or a state whose contacts were checked: at least two, in equilibrium with
the required robustness, none of them in collision. -/
theorem C168_plan_partial [IsStrictOrderedRing K] (env : Env N K Smp) (hl : env.limbs.Nodup) (hgr : ∀ n, ∀ m ∈ env.group n, m ∈ env.limbs)
    (thr : K) (extraDim : Nat) (tr qs : Bool) (compute : Compute N K) (postural : Bool)
    (hc : IsComputeContacts env postural thr extraDim tr qs compute)
    (sv : Solvers N K) (configs : List (List K)) (hne : configs ≠ [])
    (ts init : K) (hts : 0 ≤ ts) (start goal : State N K) (hs : WellFormed env.limbs start)
    (pathEnd : Option K) (deep p : Bool) (fuel : Nat) (plan : List (Frame N K))
    (h : interpolate sv compute postural start goal pathEnd configs ts init deep fuel = (.done plan, p)) :
    ∀ f ∈ plan, f = (init, start) ∨ f.2 = goal ∨ (∃ s limb, MovesLimb sv goal s limb f.2) ∨ (deep = true ∧ Rebuilt sv f.2) ∨
      ∃ prev : Frame N K, WellFormed env.limbs prev.2 ∧
        ((∃ rep, Produces sv compute configs ts init prev rep f ∧ rep.repositionedInPlace = true) ∨ Checked env thr tr qs extraDim prev.2 f.2) := by
  have hloop : ∀ b w, mainLoop sv compute configs ts fuel (Loop.start start init) = some (b, w) → ∀ f ∈ w.states,
      f = (init, start) ∨ f.2 = goal ∨ (∃ s limb, MovesLimb sv goal s limb f.2) ∨ (deep = true ∧ Rebuilt sv f.2) ∨
      ∃ prev : Frame N K, WellFormed env.limbs prev.2 ∧
        ((∃ rep, Produces sv compute configs ts init prev rep f ∧ rep.repositionedInPlace = true) ∨ Checked env thr tr qs extraDim prev.2 f.2) := by
    intro b w hm f hf
    have hw := mainLoop_wellFormed env hl hgr thr extraDim tr qs compute postural hc sv configs hne ts init hts start hs fuel b w hm
    obtain ⟨reps, hg, _⟩ := C24_loop sv compute configs ts init hts hne start Sound hs.sound (computeContacts_good hl hc).1 (computeContacts_good hl hc).2 fuel b w hm
    rcases hg.checked hl hc hw f hf with h | ⟨prev, k1, k2⟩
    · exact Or.inl h
    · exact Or.inr (Or.inr (Or.inr (Or.inr ⟨prev, hw prev k1, k2⟩)))
  have hend : ∀ (whole : List (Frame N K)) f, f ∈ plan → filterStates sv fuel deep whole = .done plan → f ∈ whole ∨ (deep = true ∧ Rebuilt sv f.2) := by
    intro whole f hf hfil
    have hfl := C27_filter_partial sv fuel deep whole plan hfil
    cases hd : deep with
    | false => exact Or.inl ((hfl.2.1 hd).subset hf)
    | true => exact (hfl.1.origin f hf).imp id fun h => ⟨rfl, h⟩
  intro f hf
  unfold interpolate at h
  split at h
  · cases h
  · rename_i w hm
    rcases hend _ f hf (Prod.mk.inj h).1 with hf | hf
    · exact hloop _ w hm f hf
    · exact Or.inr (Or.inr (Or.inr (Or.inl hf)))
  · rename_i w hm
    split_ifs at h
    · split at h
      · cases h
      · rename_i l p' hadd
        obtain ⟨_, moved, added, tail, rfl, hmv, _, _, htail⟩ := C28_goal_partial sv postural goal pathEnd _ _ l p' hadd
        rcases hend _ f hf (Prod.mk.inj h).1 with hf | hf
        swap
        · exact Or.inr (Or.inr (Or.inr (Or.inl hf)))
        rcases List.mem_append.1 hf with hf | hf
        · rcases List.mem_append.1 hf with hf | hf
          · exact hloop _ w hm f hf
          · exact Or.inr (Or.inr (Or.inl (hmv.moves f hf)))
        · rcases htail with ⟨_, rfl⟩ | ⟨_, rfl⟩
          · rw [List.mem_singleton] at hf
            subst hf
            exact Or.inr (Or.inl rfl)
          · cases hf
    · cases (Prod.mk.inj h).1
      exact hloop _ w hm f hf

/-! ## Examples and violations -/

/-- the hypotheses of `C168_step` are met: a contact is created -/
example : demoEnv.limbs.Nodup ∧ WellFormed demoEnv.limbs (State.demo : State ℕ ℤ) ∧
    ((computeContacts demoEnv false 10 State.demo [1, 1] 3 0 true true).map fun r => (r.repositionedInPlace, r.result.contacts.keys, r.result.configuration)) =
      some (false, [1, 2, 3], [4]) :=
  ⟨by decide, ⟨State.demo_consistent.sound, State.demo_consistent.counter, by decide⟩, by decide⟩

/-- … or the contacts are kept: the configuration is in equilibrium as it is -/
example : ((computeContacts { demoEnv with octree := fun _ _ _ => [] } false 10 State.demo [5, 1] 3 0 true true).map fun r => (r.repositionedInPlace, r.result.contacts.keys, r.result.configuration)) =
      some (false, [1, 2], [5, 1]) := by decide

/-- the hypotheses of `C168_plan_partial` are met, by a plan in which the second and third states are made by contact generation -/
example : groupedEnv.limbs.Nodup ∧ (∀ n, ∀ m ∈ groupedEnv.group n, m ∈ groupedEnv.limbs) ∧ (∃ compute, IsComputeContacts groupedEnv false 3 0 false true compute) ∧
    WellFormed groupedEnv.limbs (State.demo : State ℕ ℤ) ∧
    (match interpolate demoSv groupedCompute false State.demo allPlaced none [[0, 0], [1, 1], [2, 2]] 1 0 false 100 with
      | (.done plan, _) => plan.map fun (f : Frame ℕ ℤ) => (f.2.contactPositions.keys, f.2.configuration)
      | _ => []) = [([1, 2], [0, 0, 0]), ([1, 2, 3], [4]), ([1, 2, 3, 4], [4])] := by
  refine ⟨by decide, ?_, isComputeContacts_exists _ (by decide) _ _ _ _ _, ⟨State.demo_consistent.sound, State.demo_consistent.counter, by decide⟩, by decide⟩
  intro n m hm
  simp only [groupedEnv] at hm
  split_ifs at hm with h
  · rw [List.mem_singleton] at hm
    rw [hm]
    exact h
  · cases hm

/-- **C168 is violated** at a repositioning: contact generation fails, and the next state of the plan has no contact at all; nothing was checked of it. -/
theorem C168_reposition_violated : ∃ a b : Frame ℕ ℤ,
    (interpolate demoSv hopeless false State.demo State.demo none [[0], [1], [2]] 1 0 false 100).1 = .done [a, b] ∧
      ∀ (env : Env ℕ ℤ ℤ) thr tr qs extraDim previous, ¬ Checked env thr tr qs extraDim previous b.2 := by
  refine ⟨(0, State.demo), (0, (hopeless State.demo [1] 0).result), by decide, fun env thr tr qs extraDim previous h => ?_⟩
  have h1 := h.twoContacts
  have h2 : (hopeless State.demo [1] 0).result.contacts.length = 0 := by decide
  simp only at h1
  omega

/-- a robot that falls in one of its configurations -/
def slippery : Env ℕ ℤ ℤ := { groupedEnv with robustness := fun s => if s.configuration.headD 0 = 8 then ⊥ else ((s.configuration.headD 0 : ℤ) : WithBot ℤ) }

/-- its contact generation -/
def slipperyCompute : Compute ℕ ℤ := fun s c _ =>
  (computeContacts slippery false 30 s c 3 0 false true).getD ⟨⟨false, s, .noContact⟩, false, false, false, true⟩

/-- **C168 is violated** at the end of the plan: the limbs are moved to their places in the goal without any test of equilibrium; here the robot falls in the third state. -/
theorem C168_goal_violated : ∃ a b c d : Frame ℕ ℤ,
    (interpolate demoSv slipperyCompute false State.demo (mk [1, 1] [(1, 0), (2, 0), (3, 0), (4, 0)]) (some 4) [[0, 0], [1, 1], [2, 2]] 1 0 false 100).1 = .done [a, b, c, d] ∧
      slippery.robustness c.2 = ⊥ ∧ ∀ previous, ¬ Checked slippery 3 false true 0 previous c.2 := by
  have hex : ∃ a b c d : Frame ℕ ℤ,
      (interpolate demoSv slipperyCompute false State.demo (mk [1, 1] [(1, 0), (2, 0), (3, 0), (4, 0)]) (some 4) [[0, 0], [1, 1], [2, 2]] 1 0 false 100).1 = .done [a, b, c, d] ∧
      c.2.configuration = [8] := by
    have key : (match (interpolate demoSv slipperyCompute false State.demo (mk [1, 1] [(1, 0), (2, 0), (3, 0), (4, 0)]) (some 4) [[0, 0], [1, 1], [2, 2]] 1 0 false 100).1 with
      | .done [_, _, c, _] => decide (c.2.configuration = [8])
      | _ => false) = true := by decide
    revert key
    generalize (interpolate demoSv slipperyCompute false State.demo (mk [1, 1] [(1, 0), (2, 0), (3, 0), (4, 0)]) (some 4) [[0, 0], [1, 1], [2, 2]] 1 0 false 100).1 = o
    intro key
    split at key
    · exact ⟨_, _, _, _, rfl, of_decide_eq_true key⟩
    · cases key
  obtain ⟨a, b, c, d, h1, h2⟩ := hex
  refine ⟨a, b, c, d, h1, by simp [slippery, h2], fun previous h => ?_⟩
  obtain ⟨base, t, _, _, _, _, _, h3, _, root, h4⟩ := h.history
  have h5 : t.configuration = [8] := by
    rw [h2] at h4
    simpa [copyTail] using h4.symm
  simp [slippery, h5] at h3

/-- **C168 is violated** by deep filtering: a state is rebuilt by projections, without any test of equilibrium; here every state of the given plan is in equilibrium, and the robot falls in one of the filtered plan. -/
theorem C168_deep_violated : ∃ (env : Env ℕ ℤ ℤ) (out : List (Frame ℕ ℤ)) (f : Frame ℕ ℤ), filterStates demoSv 10 true replPlan = .done out ∧ f ∈ out ∧ env.robustness f.2 = ⊥ ∧
    ∀ g ∈ replPlan, ((0 : ℤ) : WithBot ℤ) ≤ env.robustness g.2 := by
  have hex : ∃ out : List (Frame ℕ ℤ), filterStates demoSv 10 true replPlan = .done out ∧ ∃ f ∈ out, f.2.configuration = [9] := by
    have key : (match filterStates demoSv 10 true replPlan with
      | .done out => decide (∃ f ∈ out, f.2.configuration = [9])
      | _ => false) = true := by decide
    revert key
    generalize filterStates demoSv 10 true replPlan = o
    intro key
    split at key
    · exact ⟨_, rfl, of_decide_eq_true key⟩
    · cases key
  obtain ⟨out, h1, f, h2, h3⟩ := hex
  refine ⟨{ demoEnv with robustness := fun s => if s.configuration = [9] then ⊥ else (1 : ℤ) }, out, f, h1, h2, by simp [h3], ?_⟩
  decide

/-- **C168 is violated** as to reachability, in quasi-static mode: the test is made from the previous state moved as a whole to the new configuration, not from the previous state; here the new state cannot be reached from it. -/
theorem C168_reachable_violated : ∃ (env : Env ℕ ℤ ℤ) (rep : ContactReport ℕ ℤ), computeContacts env false 10 State.demo [1, 1] 3 0 true true = some rep ∧
    rep.success = true ∧ rep.repositionedInPlace = false ∧ env.reachable State.demo rep.result = false := by
  have key : ((computeContacts { demoEnv with reachable := fun s _ => decide (s.configuration ≠ [0, 0, 0]) } false 10 State.demo [1, 1] 3 0 true true).map fun r =>
      (r.success, r.repositionedInPlace)) = some (true, false) := by decide
  obtain ⟨rep, h1, h2⟩ := Option.map_eq_some_iff.1 key
  simp only [Prod.mk.injEq] at h2
  exact ⟨_, rep, h1, h2.1, h2.2, (by decide : decide ((State.demo : State ℕ ℤ).configuration ≠ [0, 0, 0]) = false)⟩

/-- **C168 is violated** as to reachability, in dynamic mode: when a contact is released and none is placed nothing is tested; here no state can be reached from any other one. -/
theorem C168_dynamic_violated : ∃ (env : Env ℕ ℤ ℤ) (start : State ℕ ℤ) (rep : ContactReport ℕ ℤ), computeContacts env false 10 start [5] 3 0 true false = some rep ∧
    rep.success = true ∧ rep.repositionedInPlace = false ∧ start.contacts.keys = [1, 2, 3] ∧ rep.result.contacts.keys = [2, 3] ∧ ∀ s t, env.reachableDyn s t = false := by
  have key : ((computeContacts { demoEnv with reachableDyn := fun _ _ => false, applyRoot := fun c s => (decide (s.contacts.length ≤ 2), c) } false 10
      (mk [0] [(1, 0), (2, 0), (3, 0)]) [5] 3 0 true false).map fun r => (r.success, r.repositionedInPlace, r.result.contacts.keys)) = some (true, false, [2, 3]) := by decide
  obtain ⟨rep, h1, h2⟩ := Option.map_eq_some_iff.1 key
  simp only [Prod.mk.injEq] at h2
  exact ⟨_, _, rep, h1, h2.1, h2.2.1, by decide, h2.2.2, fun _ _ => rfl⟩

end Interp
end Rbprm
