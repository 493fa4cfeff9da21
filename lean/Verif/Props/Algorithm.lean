import Verif.Model.Algorithm
import Verif.Props.GenContacts
/-!
# Properties C18, C21, C22, C66, C67: `oneStep` and `ComputeContacts`
-/
set_option linter.unusedSectionVars false
namespace Rbprm
namespace Contact
open State
variable {N K Smp : Type _} [LinearOrder N] [CommRing K] [LinearOrder K]

/-! ## The candidate queue shrinks -/

theorem maintainStabilityRec_suffix (env : Env N K Smp) (target : List K) (len : Nat) (rob : K)
    (cands : List (State N K)) (rep : Report N K) :
    (maintainStabilityRec env target len rob cands rep).2.2 <:+ cands := by
  induction cands generalizing rep with
  | nil => unfold maintainStabilityRec; split_ifs <;> simp
  | cons c rest ih =>
    unfold maintainStabilityRec
    split_ifs with h1
    · exact List.suffix_rfl
    · simp only
      split_ifs with h2
      · exact List.suffix_cons c rest
      · have := ih (projectToRootConfiguration env target c)
        rcases hq : maintainStabilityRec env target len rob rest (projectToRootConfiguration env target c)
          with ⟨b, rep', rest'⟩
        rw [hq] at this
        cases b with
        | true => exact this.trans (List.suffix_cons c rest)
        | false => exact List.suffix_cons c rest

theorem maintainContacts_queue (env : Env N K Smp) (h : Helper N K) :
    (maintainContacts env h).2 = { h with candidates := (maintainContacts env h).2.candidates } ∧
    (maintainContacts env h).2.candidates <:+ startCandidates h ∧
    (startCandidates h ≠ [] →
      (maintainContacts env h).2.candidates.length < (startCandidates h).length) := by
  have hs := maintainLoop_spec env h (startCandidates h) (Report.default env) rfl
  have hq : (maintainLoop env h (startCandidates h) (Report.default env)).2 <:+ startCandidates h ∧
      (startCandidates h ≠ [] →
        (maintainLoop env h (startCandidates h) (Report.default env)).2.length <
          (startCandidates h).length) := by
    simp only at hs
    set q := maintainLoop env h (startCandidates h) (Report.default env)
    cases hq : q.1.success with
    | true =>
      obtain ⟨pre, c, e, _⟩ := hs.1 hq
      rw [e]
      refine ⟨⟨pre ++ [c], by simp⟩, fun _ => by simp; omega⟩
    | false =>
      obtain ⟨e, _⟩ := hs.2 hq
      rw [e]
      exact ⟨List.nil_suffix, fun hne => List.length_pos_iff.2 hne⟩
  unfold maintainContacts
  simp only
  split_ifs
  · refine ⟨rfl, ?_, fun hne => ?_⟩
    · exact (maintainStabilityRec_suffix _ _ _ _ _ _).trans hq.1
    · exact lt_of_le_of_lt (maintainStabilityRec_suffix _ _ _ _ _ _).length_le (hq.2 hne)
  · exact ⟨rfl, hq⟩

/-- helpers differ only by working state and candidate queue -/
def SameSetup (h h' : Helper N K) : Prop :=
  h' = { h with workingState := h'.workingState, candidates := h'.candidates }

theorem SameSetup.trans {a b c : Helper N K} (h : SameSetup a b) (h' : SameSetup b c) : SameSetup a c := by
  unfold SameSetup at *; rw [h', h]

theorem genFromMaintain_queue (env : Env N K Smp) (hl : env.limbs.Nodup) (postural : Bool)
    (h : Helper N K) :
    SameSetup h (genFromMaintain env postural h).2 ∧
    (genFromMaintain env postural h).2.candidates = (maintainContacts env h).2.candidates := by
  obtain ⟨h1, _⟩ := maintainContacts_queue env h
  unfold genFromMaintain SameSetup
  simp only
  split_ifs
  · have := (C19_gen_contacts_partial env hl postural
      { (maintainContacts env h).2 with workingState := (maintainContacts env h).1.result }).1
    simp only at this
    constructor
    · rw [this, h1]
    · rw [this]
  · exact ⟨by rw [h1], rfl⟩

/-! ## C21 -/

/-- `h'` is reached from `h` by attempts that failed and left candidates in the queue -/
inductive Failing (env : Env N K Smp) (postural : Bool) : Helper N K → Helper N K → Prop
  | refl (h) : Failing env postural h h
  | step {h h'} : (genFromMaintain env postural h).1.success = false →
      (genFromMaintain env postural h).2.candidates ≠ [] →
      Failing env postural (genFromMaintain env postural h).2 h' → Failing env postural h h'

theorem Failing.setup {env : Env N K Smp} (hl : env.limbs.Nodup) {postural : Bool} {h h' : Helper N K}
    (hf : Failing env postural h h') : SameSetup h h' := by
  induction hf with
  | refl h => exact rfl
  | step _ _ _ ih => exact (genFromMaintain_queue env hl postural _).1.trans ih

theorem oneStepLoop_spec (env : Env N K Smp) (postural : Bool) (fuel : Nat) (h : Helper N K)
    (r : Report N K × Helper N K) (hr : oneStepLoop env postural fuel h = some r) :
    ∃ h', Failing env postural h h' ∧ r = genFromMaintain env postural h' ∧
      (r.1.success = false → r.2.candidates = []) := by
  induction fuel generalizing h with
  | zero => simp [oneStepLoop] at hr
  | succ fuel ih =>
    simp only [oneStepLoop] at hr
    split_ifs at hr with hc
    · obtain ⟨h', h1, h2, h3⟩ := ih _ hr
      simp only [Bool.and_eq_true, Bool.not_eq_true', List.isEmpty_eq_false_iff] at hc
      exact ⟨h', Failing.step hc.1 hc.2 h1, h2, h3⟩
    · simp only [Option.some.injEq] at hr
      subst hr
      refine ⟨h, Failing.refl h, rfl, fun hs => ?_⟩
      simp [hs] at hc
      simpa using hc

theorem oneStepLoop_terminates (env : Env N K Smp) (hl : env.limbs.Nodup) (postural : Bool) (fuel : Nat)
    (h : Helper N K) (hf : (startCandidates h).length < fuel) :
    ∃ r, ∀ fuel' ≥ fuel, oneStepLoop env postural fuel' h = some r := by
  induction fuel generalizing h with
  | zero => omega
  | succ fuel ih =>
    obtain ⟨_, hq⟩ := genFromMaintain_queue env hl postural h
    obtain ⟨_, _, hlt⟩ := maintainContacts_queue env h
    set r := genFromMaintain env postural h with hr
    by_cases hc : (!r.1.success && !r.2.candidates.isEmpty) = true
    · have hc' : r.1.success = false ∧ r.2.candidates ≠ [] := by
        simpa only [Bool.and_eq_true, Bool.not_eq_true', List.isEmpty_eq_false_iff] using hc
      have hst : startCandidates r.2 = r.2.candidates := by
        unfold startCandidates; rw [if_neg (fun hx => hc'.2 hx.1)]
      have hne : startCandidates h ≠ [] := by
        intro he
        have := (maintainContacts_queue env h).2.1
        rw [he, List.suffix_nil] at this
        exact hc'.2 (by rw [hq, this])
      have hlt' := hlt hne
      rw [← hq] at hlt'
      obtain ⟨x, hx⟩ := ih r.2 (by rw [hst]; omega)
      refine ⟨x, fun fuel' hge => ?_⟩
      obtain ⟨f, rfl⟩ : ∃ f, fuel' = f + 1 := ⟨fuel' - 1, by omega⟩
      simp only [oneStepLoop]
      rw [← hr, if_pos hc]
      exact hx f (by omega)
    · refine ⟨r, fun fuel' hge => ?_⟩
      obtain ⟨f, rfl⟩ : ∃ f, fuel' = f + 1 := ⟨fuel' - 1, by omega⟩
      simp only [oneStepLoop]
      rw [← hr, if_neg hc]

/-- **C21 (termination)** `oneStep` returns after at most one attempt per maintenance candidate. -/
theorem C21_terminates (env : Env N K Smp) (hl : env.limbs.Nodup) (postural : Bool) (h : Helper N K) :
    ∃ r, ∀ fuel ≥ (startCandidates h).length + 1, oneStep env postural fuel h = some r := by
  obtain ⟨r, hr⟩ := oneStepLoop_terminates env hl postural _ h (Nat.lt_succ_self _)
  exact ⟨_, fun fuel hf => by rw [oneStep, hr fuel hf]; rfl⟩

/-- maps stay maps -/
theorem generateContact_maps (env : Env N K Smp) (postural : Bool) (params : State N K) (h : Helper N K)
    (limb : N) (hm : MapsOk h.workingState) :
    MapsOk (generateContact env postural params h limb).result := by
  obtain ⟨h1, h2⟩ := generateContact_shape env postural params h limb
  by_cases hn : (generateContact env postural params h limb).status = .noContact
  · rw [(h2 hn).2]; exact ⟨hm.contacts, hm.normals, hm.positions, hm.rotations⟩
  · obtain ⟨p, n, R, c, b, e, _⟩ := h1 hn
    rw [e]; exact (Extends.one _ _ _ _ _ _ _).maps hm

theorem removeContact_maps (s : State N K) (n : N) (hm : MapsOk s) : MapsOk (s.removeContact n).1 := by
  unfold State.removeContact
  split_ifs
  · exact ⟨AMap.WF_erase hm.contacts _, AMap.WF_erase hm.normals _, AMap.WF_erase hm.positions _,
      AMap.WF_erase hm.rotations _⟩
  · exact hm

theorem repositionLoop_maps (env : Env N K Smp) (postural : Bool) (saved : List K) (O : List N)
    (s : State N K) (popped : List N) (nName : Option N) (h : Helper N K) (hm : MapsOk s) :
    MapsOk (repositionLoop env postural saved O s popped nName h).1 ∧
    SameSetup h (repositionLoop env postural saved O s popped nName h).2.2.2.2 := by
  induction O generalizing s popped nName h with
  | nil => exact ⟨hm, rfl⟩
  | cons prev O ih =>
    unfold repositionLoop
    split_ifs
    · exact ⟨hm, rfl⟩
    · cases hg : env.group prev with
      | nil => exact ih _ _ _ _ ⟨hm.contacts, hm.normals, hm.positions, hm.rotations⟩
      | cons limb gs =>
        simp only
        obtain ⟨i1, i2⟩ := ih _ popped (some limb) { h with workingState := (s.removeContact limb).1 }
          (generateContact_maps env postural (s.removeContact limb).1
            { h with workingState := (s.removeContact limb).1 } limb (removeContact_maps s limb hm))
        refine ⟨i1, ?_⟩
        unfold SameSetup at i2 ⊢
        rw [i2]

theorem repositionContacts_maps (env : Env N K Smp) (postural : Bool) (h : Helper N K)
    (hm : MapsOk h.workingState) : MapsOk (repositionContacts env postural h).1.result ∧
      SameSetup h (repositionContacts env postural h).2 := by
  have := repositionLoop_maps env postural h.previousState.configuration h.workingState.contactOrder
    { h.workingState with stable := false } [] none h ⟨hm.contacts, hm.normals, hm.positions, hm.rotations⟩
  exact ⟨⟨this.1.contacts, this.1.normals, this.1.positions, this.1.rotations⟩, this.2⟩

/-! ### Every maintenance candidate inherits what removals preserve -/

theorem combRec_all (P : State N K → Prop) (hP : ∀ s n, P s → P (s.removeContact n).1) (maxBroken : Nat)
    (fuel : Nat) (current : State N K) (depth : Nat) (res : List (List (State N K)))
    (hc : P current) (hr : ∀ l ∈ res, ∀ s ∈ l, P s) :
    ∀ l ∈ maintainCombRec maxBroken fuel current depth res, ∀ s ∈ l, P s := by
  induction fuel generalizing current depth res with
  | zero =>
    unfold maintainCombRec
    have : ∀ l ∈ res.set depth (pushIfNew (res.getD depth []) current).1, ∀ s ∈ l, P s := by
      intro l hl s hs
      rcases List.mem_or_eq_of_mem_set hl with h | h
      · exact hr l h s hs
      · subst h
        have hd : ∀ s ∈ res.getD depth [], P s := by
          intro s hs
          by_cases hlt : depth < res.length
          · rw [List.getD_eq_getElem?_getD, List.getElem?_eq_getElem hlt] at hs
            exact hr _ (List.getElem_mem hlt) s hs
          · rw [List.getD_eq_getElem?_getD, List.getElem?_eq_none (by omega)] at hs; simp at hs
        unfold pushIfNew at hs
        split_ifs at hs
        · exact hd s hs
        · rcases List.mem_append.1 hs with h | h
          · exact hd s h
          · simp at h; subst h; exact hc
    simp only
    split_ifs <;> exact this
  | succ fuel ih =>
    unfold maintainCombRec
    have h1 : ∀ l ∈ res.set depth (pushIfNew (res.getD depth []) current).1, ∀ s ∈ l, P s := by
      intro l hl s hs
      rcases List.mem_or_eq_of_mem_set hl with h | h
      · exact hr l h s hs
      · subst h
        have hd : ∀ s ∈ res.getD depth [], P s := by
          intro s hs
          by_cases hlt : depth < res.length
          · rw [List.getD_eq_getElem?_getD, List.getElem?_eq_getElem hlt] at hs
            exact hr _ (List.getElem_mem hlt) s hs
          · rw [List.getD_eq_getElem?_getD, List.getElem?_eq_none (by omega)] at hs; simp at hs
        unfold pushIfNew at hs
        split_ifs at hs
        · exact hd s hs
        · rcases List.mem_append.1 hs with h | h
          · exact hd s h
          · simp at h; subst h; exact hc
    simp only
    split_ifs
    · exact h1
    · generalize current.contactOrder = O
      generalize res.set depth (pushIfNew (res.getD depth []) current).1 = res1 at h1
      induction O generalizing res1 with
      | nil => exact h1
      | cons a O ihO =>
        rw [List.foldl_cons]
        exact ihO _ (ih _ _ _ (hP _ _ hc) h1)

theorem startCandidates_all (P : State N K → Prop) (hP : ∀ s n, P s → P (s.removeContact n).1)
    (h : Helper N K) (hw : P h.workingState) (hc : ∀ c ∈ h.candidates, P c) :
    ∀ c ∈ startCandidates h, P c := by
  unfold startCandidates
  split_ifs
  · unfold maintainContactsCombinatorial flattenDepth
    simp only
    intro c hcm
    split_ifs at hcm
    · obtain ⟨l, hl, hcl⟩ := List.mem_flatten.1 hcm
      rcases List.mem_or_eq_of_mem_set hl with h1 | h1
      · rw [List.mem_replicate] at h1; rw [h1.2] at hcl; simp at hcl
      · subst h1; simp at hcl; subst hcl; exact hw
    · obtain ⟨l, hl, hcl⟩ := List.mem_flatten.1 hcm
      refine combRec_all P hP _ _ _ _ _ hw ?_ l hl c hcl
      intro l hl s hs
      rw [List.mem_replicate] at hl; rw [hl.2] at hs; simp at hs
  · exact hc

theorem Failing.candidates_all {env : Env N K Smp} (hl : env.limbs.Nodup) {postural : Bool}
    {h h' : Helper N K} (hf : Failing env postural h h') (P : State N K → Prop)
    (hs : ∀ c ∈ startCandidates h, P c) : ∀ c ∈ startCandidates h', P c := by
  induction hf with
  | refl h => exact hs
  | @step h h' h1 h2 h3 ih =>
    apply ih
    have hst : startCandidates (genFromMaintain env postural h).2 =
        (genFromMaintain env postural h).2.candidates := by
      unfold startCandidates; rw [if_neg (fun hx => h2 hx.1)]
    rw [hst, (genFromMaintain_queue env hl postural h).2]
    intro c hc
    exact hs c ((maintainContacts_queue env h).2.1.subset hc)

/-- a successfully maintained state is a candidate up to its configuration and stable flag -/
theorem maintainContacts_result (env : Env N K Smp) (h : Helper N K)
    (hs : (maintainContacts env h).1.success = true) :
    ∃ c ∈ startCandidates h, ∃ cfg b,
      (maintainContacts env h).1.result = { c with configuration := cfg, stable := b } := by
  have hl := maintainLoop_spec env h (startCandidates h) (Report.default env) rfl
  simp only [maintainContacts] at hs ⊢
  set q := maintainLoop env h (startCandidates h) (Report.default env) with hq
  have hok : q.1.success = true := by
    by_contra hc
    rw [if_neg (by simp [hc])] at hs
    exact hc hs
  obtain ⟨pre, c, e, er, _⟩ := hl.1 hok
  have hbase : q.1.result = { c with configuration := q.1.result.configuration } := by
    have hok' : (maintainOne env h c).success = true := by rw [← er]; exact hok
    rw [er]
    unfold maintainOne projectToRootConfiguration at hok' ⊢
    cases hproj : (env.applyRoot h.workingState.configuration c).1 with
    | false => simp [hproj] at hok'
    | true =>
      simp only [hproj, if_true] at hok' ⊢
      unfold genColFree at hok' ⊢
      rw [colFreeAll_append] at hok' ⊢
      set R := colFreeAll env _ _ with hR
      cases hRs : R.success with
      | false => simp [hRs] at hok'
      | true =>
        have hch := (colFreeAll_success env _ _ _ hRs).config_only
        rw [← hR] at hch
        simp only [if_true]
        split_ifs <;> exact hch
  split_ifs with hm
  · unfold maintainStability
    simp only
    obtain ⟨c1, c2, c3⟩ := C16_stability_rec env h.workingState.configuration
      q.1.result.contactOrder.length h.robustnessTreshold q.2 q.1
    cases hb : (maintainStabilityRec env h.workingState.configuration
      q.1.result.contactOrder.length h.robustnessTreshold q.2 q.1).1 with
    | false =>
      rw [c3 hb]
      exact ⟨c, by rw [e]; simp, _, false, by rw [hbase]⟩
    | true =>
      rcases c2 hb with ⟨_, _, hrep⟩ | ⟨pre', c', post, e', _, _, _, _, hres⟩
      · rw [hrep]
        exact ⟨c, by rw [e]; simp, _, true, by rw [hbase]⟩
      · exact ⟨c', by rw [e, e']; simp, _, true, hres⟩
  · exact ⟨c, by rw [e]; simp, _, c.stable, hbase⟩

/-- a successful attempt is a candidate extended by contacts of limbs free in it -/
theorem genFromMaintain_result (env : Env N K Smp) (hl : env.limbs.Nodup) (postural : Bool)
    (h : Helper N K) (hs : (genFromMaintain env postural h).1.success = true) :
    ∃ c ∈ startCandidates h, ∃ cfg b l,
      Extends ({ c with configuration := cfg, stable := b } : State N K)
        (genFromMaintain env postural h).1.result l ∧
      (∀ n ∈ l, n ∈ env.limbs ∧ c.contacts.find? n ≠ some true) ∧
      (h.maxContactCreations ≤ 1 → l.length ≤ h.maxContactCreations) := by
  unfold genFromMaintain at hs ⊢
  simp only at hs ⊢
  split_ifs at hs ⊢ with hm
  · obtain ⟨c, hc, cfg, b, e⟩ := maintainContacts_result env h hm
    obtain ⟨l, h1, h2, h3⟩ := (C19_gen_contacts_partial env hl postural
      { (maintainContacts env h).2 with workingState := (maintainContacts env h).1.result }).2 hs
    simp only [e] at h1 h2
    refine ⟨c, hc, cfg, b, l, ?_, h1, ?_⟩
    · simpa only [e] using h2
    · intro hx
      have hq := (maintainContacts_queue env h).1
      have : (maintainContacts env h).2.maxContactCreations = h.maxContactCreations := by rw [hq]
      simp only [this] at h3
      exact h3 hx
  · exact absurd hs hm

/-- **C21** The report of `oneStep` describes the transition from the previous state to the returned state:
`contactCreated` iff some effector touches in the result and either did not touch before or touched elsewhere
(more than a centimetre away); `multipleBreaks` iff more effectors broke contact than allowed;
`contactMaintained` iff not repositioned and no effector broke contact; and `repositionedInPlace` iff
every attempt up to the exhaustion of the candidates failed, in which case the report is the one of
`repositionContacts` applied to the previous state. -/
theorem C21_report (env : Env N K Smp) (hl : env.limbs.Nodup) (postural : Bool) (fuel : Nat) (h : Helper N K)
    (r : ContactReport N K) (hr : oneStep env postural fuel h = some r)
    (hp : MapsOk h.previousState) (hw : MapsOk h.workingState) (hcs : ∀ c ∈ h.candidates, MapsOk c) :
    MapsOk r.result ∧
    (r.contactCreated = true ↔ ∃ n, (Touches r.result n ∧ ¬ Touches h.previousState n) ∨
        Moved h.previousState r.result n) ∧
    (∃ broken : List N, broken.Nodup ∧
      (∀ n, n ∈ broken ↔ (Touches h.previousState n ∧ ¬ Touches r.result n) ∨
        Moved h.previousState r.result n) ∧
      (r.multipleBreaks = true ↔ h.maxContactBreaks < broken.length) ∧
      (r.contactMaintained = true ↔ r.repositionedInPlace = false ∧ broken = [])) ∧
    (r.repositionedInPlace = false → r.success = true ∧
      ∃ h', Failing env postural h h' ∧ r.toReport = (genFromMaintain env postural h').1) ∧
    (r.repositionedInPlace = true →
      (∃ h', Failing env postural h h' ∧ (genFromMaintain env postural h').1.success = false ∧
        (genFromMaintain env postural h').2.candidates = [] ∧
        r.toReport = (repositionContacts env postural
          { (genFromMaintain env postural h').2 with workingState := h.previousState }).1)) := by
  unfold oneStep at hr
  rw [Option.map_eq_some_iff] at hr
  obtain ⟨q, hq, rfl⟩ := hr
  obtain ⟨h', f1, f2, f3⟩ := oneStepLoop_spec env postural fuel h q hq
  have hset : SameSetup h q.2 := by
    rw [f2]; exact (f1.setup hl).trans (genFromMaintain_queue env hl postural h').1
  have hprev : q.2.previousState = h.previousState := by rw [hset]
  have hmb : q.2.maxContactBreaks = h.maxContactBreaks := by rw [hset]
  -- facts about any report built against the previous state
  have main : ∀ (parent : Report N K) (hh : Helper N K) (b : Bool),
      hh.previousState = h.previousState → hh.maxContactBreaks = h.maxContactBreaks →
      let R := generateContactReport parent hh b
      (MapsOk R.result →
      (R.contactCreated = true ↔ ∃ n, (Touches R.result n ∧ ¬ Touches h.previousState n) ∨
        Moved h.previousState R.result n)) ∧
      (∃ broken : List N, broken.Nodup ∧
      (∀ n, n ∈ broken ↔ (Touches h.previousState n ∧ ¬ Touches R.result n) ∨
        Moved h.previousState R.result n) ∧
      (R.multipleBreaks = true ↔ h.maxContactBreaks < broken.length) ∧
      (R.contactMaintained = true ↔ R.repositionedInPlace = false ∧ broken = [])) := by
    intro parent hh b e1 e2 R
    refine ⟨fun hm => ?_, (parent.result.contactBreaks h.previousState), ?_, ?_, ?_, ?_⟩
    · simp only [R, generateContactReport, e1, decide_eq_true_eq, List.length_pos_iff_exists_mem]
      have hm' : MapsOk parent.result := hm
      simp only [C05_creations (next := parent.result) (prev := h.previousState) hm']
    · have : parent.result.contactBreaks h.previousState =
        h.previousState.contactCreations parent.result := rfl
      rw [this]
      exact nodup_creationsLoop _ _ _ List.nodup_nil
    · intro n
      exact C05_breaks (next := parent.result) hp n
    · simp [R, generateContactReport, e1, e2]
    · simp [R, generateContactReport, e1, List.length_eq_zero_iff]
  cases hs : q.1.success with
  | false =>
    simp only [Bool.not_false, if_true]
    unfold handleFailure
    have hrep : ({ q.2 with workingState := q.2.previousState } : Helper N K) =
      { q.2 with workingState := h.previousState } := by rw [hprev]
    rw [hrep]
    obtain ⟨hm2, hset2⟩ := repositionContacts_maps env postural
      { q.2 with workingState := h.previousState } hp
    have hsetup : SameSetup q.2 (repositionContacts env postural
        { q.2 with workingState := h.previousState }).2 := by
      unfold SameSetup at hset2 ⊢
      rw [hset2]
    have hmm := main (repositionContacts env postural { q.2 with workingState := h.previousState }).1
      (repositionContacts env postural { q.2 with workingState := h.previousState }).2 true
      (by rw [hsetup]; exact hprev) (by rw [hsetup]; exact hmb)
    refine ⟨hm2, hmm.1 hm2, hmm.2, by simp [generateContactReport], fun _ => ⟨h', f1, ?_, ?_, ?_⟩⟩
    · rw [← f2]; exact hs
    · rw [← f2]; exact f3 hs
    · rw [← f2]; rfl
  | true =>
    simp only [Bool.not_true, Bool.false_eq_true, if_false]
    have hmm := main q.1 q.2 false hprev hmb
    have hall := f1.candidates_all hl MapsOk
      (startCandidates_all MapsOk (fun s n hm => removeContact_maps s n hm) h hw hcs)
    have hm3 : MapsOk q.1.result := by
      rw [f2] at hs ⊢
      obtain ⟨c, hc, cfg, b, l, hx, _⟩ := genFromMaintain_result env hl postural h' hs
      have hcm := hall c hc
      exact hx.maps ⟨hcm.contacts, hcm.normals, hcm.positions, hcm.rotations⟩
    refine ⟨hm3, hmm.1 hm3, hmm.2, fun _ => ⟨hs, h', f1, by rw [← f2]; rfl⟩,
      by simp [generateContactReport]⟩

/-- non-vacuity: a plain step creating a contact, and a step that ends in repositioning -/
example : MapsOk demoHelper.previousState ∧ MapsOk demoHelper.workingState ∧ demoHelper.candidates = [] ∧
    ((oneStep demoEnv false 10 demoHelper).map (fun r =>
      (r.success, r.contactCreated, r.contactMaintained, r.multipleBreaks, r.repositionedInPlace))) =
      some (true, true, true, false, false) := by
  refine ⟨demo_consistent.toMapsOk, ?_, rfl, by decide⟩
  exact (Consistent.of_flags demo_consistent _ _).toMapsOk
example : ((oneStep { demoEnv with fullValid := fun _ => false } false 10 demoHelper).map (fun r =>
      (r.success, r.contactCreated, r.repositionedInPlace))) = some (true, true, true) := by decide

/-! ## C18 -/

theorem Extends.keys_perm {w w' : State N K} {l : List N} (h : Extends w w' l) (hm : MapsOk w)
    (hl : l.Nodup) (hn : ∀ n ∈ l, n ∉ w.contacts.keys) :
    w'.contacts.keys.Perm (w.contacts.keys ++ l) := by
  refine (List.perm_ext_iff_of_nodup (h.maps hm).contacts.nodup ?_).2 fun n => ?_
  · rw [List.nodup_append]
    exact ⟨hm.contacts.nodup, hl, fun a ha b hb e => hn b hb (e ▸ ha)⟩
  · rw [List.mem_append, ← AMap.find?_isSome, ← AMap.find?_isSome]
    by_cases hx : n ∈ l
    · simp [(h.added n hx).1, hx]
    · simp [(h.same n hx).1, hx]

/-- **C18 (with previous state)** (partial: the counter misses the contact just created, see
`C18_previous_violated`; repositioned states are not covered).  A successful, not repositioned,
`ComputeContacts` from a consistent state returns at most one new contact, the order and the contact map
agree, and the counter is the number of contacts minus the number of created ones. -/
theorem C18_previous_partial (env : Env N K Smp) (hl : env.limbs.Nodup) (postural : Bool) (fuel : Nat)
    (previous : State N K) (hp : Consistent previous) (configuration : List K) (thr : K) (extraDim : Nat)
    (tr qs : Bool) (rep : ContactReport N K)
    (hr : computeContacts env postural fuel previous configuration thr extraDim tr qs = some rep)
    (hnr : rep.repositionedInPlace = false) :
    rep.success = true ∧ ∃ l : List N, l.length ≤ 1 ∧ (∀ n ∈ l, n ∈ env.limbs) ∧
      rep.result.nbContacts + l.length = rep.result.contacts.length ∧
      rep.result.contactOrder.Perm rep.result.contacts.keys ∧ MapsOk rep.result := by
  unfold computeContacts at hr
  rw [Option.map_eq_some_iff] at hr
  obtain ⟨r0, hr0, hr⟩ := hr
  have hws : Consistent (computeHelper previous configuration thr tr qs).workingState :=
    Consistent.of_flags hp _ _
  obtain ⟨_, _, _, c4, _⟩ := C21_report env hl postural fuel _ r0 hr0 hp.toMapsOk hws.toMapsOk
    (by intro c hc; simp [computeHelper, Helper.create] at hc)
  have hnr0 : r0.repositionedInPlace = false := by rw [← hr] at hnr; split_ifs at hnr <;> exact hnr
  obtain ⟨hs, h', f1, f2⟩ := c4 hnr0
  have hs' : (genFromMaintain env postural h').1.success = true := by rw [← f2]; exact hs
  obtain ⟨c, hc, cfg, b, l, hx, hfree, hlen⟩ := genFromMaintain_result env hl postural h' hs'
  have hcons : Consistent c := f1.candidates_all hl Consistent
    (startCandidates_all Consistent (fun s n hm => State.Consistent.removeContact hm n) _ hws
      (by intro c hc; simp [computeHelper, Helper.create] at hc)) c hc
  have hl1 : l.length ≤ 1 := by
    have hset := f1.setup hl
    have : h'.maxContactCreations = 1 := by rw [hset]; rfl
    rw [this] at hlen; exact hlen le_rfl
  have hcc : Consistent ({ c with configuration := cfg, stable := b } : State N K) :=
    Consistent.of_flags hcons cfg b
  have hnot : ∀ n ∈ l, n ∉ c.contacts.keys := by
    intro n hn hk
    obtain ⟨v, hv⟩ := Option.isSome_iff_exists.1 (AMap.find?_isSome.2 hk)
    exact (hfree n hn).2 (by rw [hv, hcons.active n v hv])
  have hnd : l.Nodup := by
    match l, hl1 with
    | [], _ => simp
    | [a], _ => simp
  have hperm := hx.keys_perm hcc.toMapsOk hnd hnot
  rw [← f2] at hx hperm
  rw [hs, if_pos rfl] at hr
  rw [← hr]
  refine ⟨rfl, l, hl1, fun n hn => (hfree n hn).1, ?_, ?_, ?_⟩
  · have h1 : r0.result.nbContacts = c.nbContacts := hx.counter
    have h2 := hperm.length_eq
    simp only [List.length_append, AMap.keys, List.length_map] at h2
    have h3 := hcc.counter
    simp only at h3 ⊢
    rw [h2, h1, h3]
  · show r0.result.contactOrder.Perm r0.result.contacts.keys
    rw [hx.order]
    exact (hcc.orderPerm.append_right l).trans hperm.symm
  · have := hx.maps hcc.toMapsOk
    exact ⟨this.contacts, this.normals, this.positions, this.rotations⟩

/-- **C18 is violated** with a previous state: two contacts kept, one created, counter 2. -/
theorem C18_previous_violated :
    ((computeContacts demoEnv false 10 State.demo [1, 1] 3 0 true true).map (fun r =>
      (r.success, r.repositionedInPlace, r.result.nbContacts, r.result.contacts.keys))) =
      some (true, false, 2, [1, 2, 3]) := by decide

/-! ## C22 -/

theorem computeStableContact_shape (env : Env N K Smp) (postural : Bool) (s : State N K) (limb : N)
    (thr : K) (cs : Bool) :
    (computeStableContact env postural s limb thr cs).stable = true ∧
    ((∃ c, computeStableContact env postural s limb thr cs = { s with configuration := c, stable := true }) ∨
     (∃ p n R c, computeStableContact env postural s limb thr cs = { s with
      contacts := s.contacts.set limb true
      contactNormals := s.contactNormals.set limb n
      contactPositions := s.contactPositions.set limb p
      contactRotation := s.contactRotation.set limb R
      contactOrder := s.contactOrder ++ [limb]
      configuration := c, stable := true })) := by
  refine ⟨rfl, ?_⟩
  unfold computeStableContact
  simp only
  set h : Helper N K := { Helper.create s s.configuration thr 1 1 false cs false false with
    testReachability := false } with hh
  have hw : h.workingState = { s with stable := false } := rfl
  obtain ⟨h1, h2⟩ := generateContact_shape env postural s h limb
  by_cases hn : (generateContact env postural s h limb).status = .noContact
  · left
    rw [(h2 hn).2, hw]
    exact ⟨_, rfl⟩
  · right
    obtain ⟨p, n, R, c, b, e, _⟩ := h1 hn
    refine ⟨p, n, R, c, ?_⟩
    rw [e, hw]

/-- with a recomputed counter, adding a fresh contact to the five containers keeps consistency -/
theorem consistent_plus {s : State N K} (hc : Consistent s) {limb : N} (hn : limb ∉ s.contacts.keys)
    (p n : Vec3 K) (R : Mat3 K) (c : List K) (b : Bool) :
    Consistent ({ s with
      contacts := s.contacts.set limb true
      contactNormals := s.contactNormals.set limb n
      contactPositions := s.contactPositions.set limb p
      contactRotation := s.contactRotation.set limb R
      contactOrder := s.contactOrder ++ [limb]
      configuration := c, stable := b
      nbContacts := (s.contactNormals.set limb n).length } : State N K) := by
  have h1 := State.Consistent.addContact hc hn p n R c
  refine ⟨⟨h1.contacts, h1.normals, h1.positions, h1.rotations⟩, h1.normalsKeys, h1.positionsKeys,
    h1.rotationsKeys, h1.orderPerm, ?_, h1.active⟩
  have := congrArg List.length h1.normalsKeys
  simp only [AMap.keys, List.length_map] at this
  exact this

theorem initialLoop_spec (env : Env N K Smp) (postural : Bool) (thr : K) (limbs : List N) (s : State N K)
    (hc : Consistent s) (hnd : limbs.Nodup) (hd : ∀ n ∈ limbs, n ∉ s.contacts.keys)
    (hself : ∀ n, n ∈ s.contacts.keys ∨ n ∈ limbs → n ∈ env.group n)
    (hgrp : ∀ a ∈ s.contacts.keys, ∀ b ∈ s.contacts.keys, env.group a = env.group b → a = b) :
    let r := initialLoop env postural thr limbs s
    Consistent r ∧ (∃ l, l.Sublist limbs ∧ r.contactOrder = s.contactOrder ++ l) ∧
    (∀ a ∈ r.contacts.keys, ∀ b ∈ r.contacts.keys, env.group a = env.group b → a = b) ∧
    (s.stable = true → r.stable = true) := by
  induction limbs generalizing s with
  | nil => exact ⟨hc, ⟨[], by simp [initialLoop]⟩, hgrp, id⟩
  | cons limb rest ih =>
    obtain ⟨hnd1, hnd2⟩ := List.nodup_cons.1 hnd
    have hlen : s.contactNormals.length = s.nbContacts := by
      have := congrArg List.length hc.normalsKeys
      simp only [AMap.keys, List.length_map] at this
      rw [this, hc.counter]
    have key : ∀ s1 : State N K, Consistent s1 → s1.contacts.keys = s.contacts.keys →
        s1.contactOrder = s.contactOrder → (s.stable = true → s1.stable = true) →
        let r := initialLoop env postural thr rest s1
        Consistent r ∧ (∃ l, l.Sublist (limb :: rest) ∧ r.contactOrder = s.contactOrder ++ l) ∧
        (∀ a ∈ r.contacts.keys, ∀ b ∈ r.contacts.keys, env.group a = env.group b → a = b) ∧
        (s.stable = true → r.stable = true) := by
      intro s1 h1 h2 h3 h4
      obtain ⟨i1, ⟨l, i2, i3⟩, i4, i5⟩ := ih s1 h1 hnd2
        (fun n hn => by rw [h2]; exact hd n (List.mem_cons_of_mem _ hn))
        (fun n hn => hself n (by
          rcases hn with hn | hn
          · exact Or.inl (by rw [← h2]; exact hn)
          · exact Or.inr (List.mem_cons_of_mem _ hn)))
        (by rw [h2]; exact hgrp)
      exact ⟨i1, ⟨l, i2.cons _, by rw [i3, h3]⟩, i4, fun hs => i5 (h4 hs)⟩
    simp only [initialLoop]
    cases hex : contactExistsWithinGroup env limb s with
    | true =>
      simp only [Bool.not_true, Bool.false_eq_true, if_false]
      refine key { s with nbContacts := s.contactNormals.length } ?_ rfl rfl id
      rw [hlen]; exact hc
    | false =>
      simp only [Bool.not_false, if_true]
      obtain ⟨hst, hsh⟩ := computeStableContact_shape env postural s limb thr rest.isEmpty
      rcases hsh with ⟨c, e⟩ | ⟨p, n, R, c, e⟩
      · rw [e]
        refine key _ ?_ rfl rfl (fun _ => rfl)
        simp only [hlen]
        exact Consistent.of_flags hc c true
      · rw [e]
        have hfresh : limb ∉ s.contacts.keys := hd limb (by simp)
        have hcons := consistent_plus hc hfresh p n R c true
        have hk : (s.contacts.set limb true).keys.Perm (s.contacts.keys ++ [limb]) := keys_set_perm true hfresh
        have hnogrp : ∀ a ∈ s.contacts.keys, a ∉ env.group limb := by
          intro a ha hm
          unfold contactExistsWithinGroup at hex
          rw [List.any_eq_false] at hex
          exact hex a hm (AMap.has_iff.2 (by rw [hc.positionsKeys]; exact ha))
        obtain ⟨i1, ⟨l, i2, i3⟩, i4, i5⟩ := ih _ hcons hnd2 (by
            intro m hm hk'
            rw [hk.mem_iff, List.mem_append] at hk'
            rcases hk' with hk' | hk'
            · exact hd m (List.mem_cons_of_mem _ hm) hk'
            · simp at hk'; subst hk'; exact hnd1 hm) (by
            intro m hm
            rw [hk.mem_iff, List.mem_append] at hm
            rcases hm with (hm | hm) | hm
            · exact hself m (Or.inl hm)
            · simp at hm; subst hm; exact hself _ (Or.inr (by simp))
            · exact hself m (Or.inr (List.mem_cons_of_mem _ hm))) (by
            intro a ha b hb hab
            rw [hk.mem_iff, List.mem_append] at ha hb
            simp only [List.mem_singleton] at ha hb
            rcases ha with ha | ha <;> rcases hb with hb | hb
            · exact hgrp a ha b hb hab
            · subst hb
              exact absurd (hab ▸ hself a (Or.inl ha)) (hnogrp a ha)
            · subst ha
              exact absurd (hab ▸ hself b (Or.inl hb)) (hnogrp b hb)
            · rw [ha, hb])
        refine ⟨i1, ⟨limb :: l, i2.cons_cons _, ?_⟩, i4, fun _ => i5 rfl⟩
        rw [i3]; simp

/-- **C22 / C18** (`ComputeContacts` without previous state; partial: the stable flag is meaningless, see
`C22_stable_violated`, and the restoration of the robot's configuration is not modelled).  If every limb
belongs to its own group, the result is consistent (in particular the counter is the number of contacts),
contacts were created in limb order, and no two contacts belong to the same group. -/
theorem C22_initial_contacts_partial (env : Env N K Smp) (hl : env.limbs.Nodup)
    (hself : ∀ n ∈ env.limbs, n ∈ env.group n) (postural : Bool) (configuration : List K) (thr : K) :
    let r := computeContactsInitial env postural configuration thr
    Consistent r ∧ r.contactOrder.Sublist env.limbs ∧
    (∀ a ∈ r.contacts.keys, ∀ b ∈ r.contacts.keys, env.group a = env.group b → a = b) := by
  obtain ⟨h1, ⟨l, h2, h3⟩, h4, _⟩ := initialLoop_spec env postural thr env.limbs
    { (State.init env.junkRob : State N K) with configuration := configuration }
    (Consistent.of_flags (State.Consistent.init env.junkRob) configuration false) hl
    (by intro n _ hk; simp [State.init] at hk)
    (by intro n hn; rcases hn with hn | hn
        · simp [State.init] at hn
        · exact hself n hn)
    (by intro a ha; simp [State.init] at ha)
  refine ⟨h1, ?_, h4⟩
  unfold computeContactsInitial
  rw [h3]; simpa [State.init] using h2

/-- **C18 (initial)** the counter of the initial state is its number of contacts. -/
theorem C18_initial (env : Env N K Smp) (hl : env.limbs.Nodup)
    (hself : ∀ n ∈ env.limbs, n ∈ env.group n) (postural : Bool) (configuration : List K) (thr : K) :
    (computeContactsInitial env postural configuration thr).nbContacts =
      (computeContactsInitial env postural configuration thr).contacts.length :=
  (C22_initial_contacts_partial env hl hself postural configuration thr).1.counter

/-- three limbs in two groups: the second limb of the shared group is skipped -/
example : (computeContactsInitial { demoEnv with group := fun n => if n ≤ 2 then [1, 2] else [n] } false
    [0] 3).contacts.keys = [1, 3, 4] := by decide

/-- **C22 is violated**: the initial state of a robot with at least one limb is always flagged stable … -/
theorem C22_always_stable (env : Env N K Smp) (hne : env.limbs ≠ []) (postural : Bool) (configuration : List K) (thr : K) :
    (computeContactsInitial env postural configuration thr).stable = true := by
  unfold computeContactsInitial
  cases hlm : env.limbs with
  | nil => exact absurd hlm hne
  | cons limb rest =>
    simp only [initialLoop]
    have hex : contactExistsWithinGroup env limb
        ({ (State.init env.junkRob : State N K) with configuration := configuration }) = false := by
      unfold contactExistsWithinGroup; simp [State.init, AMap.has]
    simp only [hex, Bool.not_false, if_true]
    -- the flag survives the rest of the loop whatever it does
    have keep : ∀ (ls : List N) (s : State N K), s.stable = true →
        (initialLoop env postural thr ls s).stable = true := by
      intro ls
      induction ls with
      | nil => intro s hs; exact hs
      | cons a ls ih =>
        intro s hs
        simp only [initialLoop]
        apply ih
        split_ifs
        · exact (computeStableContact_shape env postural s a thr ls.isEmpty).1
        · exact hs
    apply keep; rfl

/-- … even when no contact at all could be created. -/
theorem C22_stable_violated :
    (computeContactsInitial { demoEnv with octree := fun _ _ _ => [] } false [0] 3).stable = true ∧
    (computeContactsInitial { demoEnv with octree := fun _ _ _ => [] } false [0] 3).contacts = [] := by
  decide

/-! ## C66, C67 -/

/-- **C66** A successful `ComputeContacts` from a previous state returns the requested extra degrees of freedom
(the last `extraDim` coordinates), leaves the other ones as generated, and does not change a failed report. -/
theorem C66_extra_dofs (env : Env N K Smp) (postural : Bool) (fuel : Nat) (previous : State N K)
    (configuration : List K) (thr : K) (extraDim : Nat) (tr qs : Bool) (rep : ContactReport N K)
    (hr : computeContacts env postural fuel previous configuration thr extraDim tr qs = some rep) :
    ∃ gen, oneStep env postural fuel (computeHelper previous configuration thr tr qs) = some gen ∧
      rep.success = gen.success ∧ (gen.success = false → rep = gen) ∧
      (gen.success = true → gen.result.configuration.length = configuration.length →
        extraDim ≤ configuration.length →
        rep.result.configuration.length = configuration.length ∧
        ∀ i, i < configuration.length → rep.result.configuration[i]? =
          if i < configuration.length - extraDim then gen.result.configuration[i]?
          else configuration[i]?) := by
  unfold computeContacts at hr
  rw [Option.map_eq_some_iff] at hr
  obtain ⟨gen, hg, hr⟩ := hr
  refine ⟨gen, hg, ?_, ?_, ?_⟩
  · rw [← hr]; split_ifs <;> rfl
  · intro hs; rw [← hr, if_neg (by simp [hs])]
  · intro hs hlen hd
    rw [if_pos hs] at hr
    rw [← hr]
    simp only [copyTail, hlen]
    refine ⟨by simp [hlen], fun i hi => ?_⟩
    by_cases hlt : i < configuration.length - extraDim
    · rw [if_pos hlt, List.getElem?_append_left (by simp [hlen]; omega), List.getElem?_take, if_pos hlt]
    · rw [if_neg hlt, List.getElem?_append_right (by simp [hlen]; omega), List.getElem?_drop]
      congr 1
      simp [hlen]; omega

example : ((computeContacts demoEnv false 10 State.demo [1, 8] 3 1 true true).map (fun r =>
    (r.success, r.result.configuration))) = some (true, [8]) := by decide

/-- **C67** From a previous state without contacts `ComputeContacts` never succeeds and creates no contact,
whatever the environment offers. -/
theorem C67_no_contacts_fails (env : Env N K Smp) (postural : Bool) (fuel : Nat) (previous : State N K)
    (h0 : previous.contacts = []) (ho : previous.contactOrder = [])
    (configuration : List K) (thr : K) (extraDim : Nat) (tr qs : Bool) (rep : ContactReport N K)
    (hr : computeContacts env postural fuel previous configuration thr extraDim tr qs = some rep) :
    rep.success = false ∧ rep.result.contacts = [] ∧ rep.repositionedInPlace = true := by
  unfold computeContacts oneStep at hr
  rw [Option.map_map, Option.map_eq_some_iff] at hr
  obtain ⟨q, hq, hr⟩ := hr
  cases fuel with
  | zero => simp [oneStepLoop] at hq
  | succ fuel =>
    have hsc : startCandidates (computeHelper previous configuration thr tr qs) = [] := by
      unfold startCandidates
      rw [if_neg (by simp [computeHelper, Helper.create, h0])]; rfl
    have hm : maintainContacts env (computeHelper previous configuration thr tr qs) =
        (Report.default env, { computeHelper previous configuration thr tr qs with candidates := [] }) := by
      unfold maintainContacts
      rw [hsc]
      rfl
    have hgm : genFromMaintain env postural (computeHelper previous configuration thr tr qs) =
        (Report.default env, { computeHelper previous configuration thr tr qs with candidates := [] }) := by
      unfold genFromMaintain
      rw [hm]
      rfl
    simp only [oneStepLoop, hgm] at hq
    simp only [Report.default, List.isEmpty_nil, Bool.not_true, Bool.and_false, Bool.false_eq_true,
      if_false, Option.some.injEq] at hq
    subst hq
    simp only [Function.comp, Bool.not_false, if_true, handleFailure, repositionContacts,
      generateContactReport, computeHelper, Helper.create, ho, repositionLoop, Bool.false_eq_true,
      if_false] at hr
    rw [← hr]
    exact ⟨rfl, h0, rfl⟩

end Contact
end Rbprm
