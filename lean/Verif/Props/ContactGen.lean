import Verif.Model.ContactGen
import Verif.Props.State
import Verif.Props.Combinatorics
/-!
# Properties C15–C20: contact maintenance and creation
-/
set_option linter.unusedSectionVars false
namespace Rbprm
namespace Contact
open State
variable {N K Smp : Type _} [LinearOrder N] [CommRing K] [LinearOrder K]

/-! ## A concrete robot used by the non-vacuity examples and counterexamples -/

/-- Four limbs; samples are integers and a sample's configuration is the singleton list of it; negative
samples collide; robustness is the value of the first coordinate plus the number of contacts. -/
def demoEnv : Env ℕ ℤ ℤ where
  limbs := [1, 2, 3, 4]
  nonContacting := [9]
  group n := [n]
  applyRoot t _ := (true, t)
  limbValid _ c := decide (0 ≤ c.headD 0)
  fullValid c := decide (c.headD 0 ≠ 7)
  limbSamples _ := [-5, 3]
  load smp _ := [smp]
  reachable _ s := decide (s.configuration.headD 0 ≤ 20)
  reachableDyn _ s := decide (s.configuration.headD 0 ≤ 20)
  robustness s := ((s.configuration.headD 0 : ℤ) : WithBot ℤ)
  octree _ _ _ := [-2, 2, 4]
  applyEffector postural _ smp _ _ := (!postural || decide (smp ≠ 2), [smp])
  effectorPosition l c := ⟨l, c.headD 0, 0⟩
  effectorRotation _ _ := Mat3.one
  normal _ := ⟨0, 0, 1⟩
  junkVec := ⟨-99, -99, -99⟩
  junkMat := Mat3.one
  junkRob := 0

/-- A helper around the consistent two-contact state `State.demo`. -/
def demoHelper : Helper ℕ ℤ :=
  { Helper.create State.demo [1, 1] 3 1 1 false true false true with quasiStatic := true }

/-! ## `setCollisionFree` -/

/-- the configurations successively tried by `setCollisionFree` after the current one -/
def loadedConfigs (env : Env N K Smp) : List Smp → List K → List (List K)
  | [], _ => []
  | smp :: rest, c => env.load smp c :: loadedConfigs env rest (env.load smp c)

theorem firstFreeSample_spec (env : Env N K Smp) (limb : N) (smps : List Smp) (c : List K) :
    (∀ c', firstFreeSample env limb smps c = some c' →
      c' ∈ loadedConfigs env smps c ∧ env.limbValid limb c' = true) ∧
    (firstFreeSample env limb smps c = none ↔
      ∀ c' ∈ loadedConfigs env smps c, env.limbValid limb c' = false) := by
  induction smps generalizing c with
  | nil => simp [firstFreeSample, loadedConfigs]
  | cons smp rest ih =>
    simp only [firstFreeSample, loadedConfigs]
    cases hv : env.limbValid limb (env.load smp c) with
    | true => simp [hv]
    | false =>
      have := ih (env.load smp c)
      simp only [Bool.false_eq_true, if_false, List.mem_cons, forall_eq_or_imp, hv, true_and]
      exact ⟨fun c' h => ⟨Or.inr (this.1 c' h).1, (this.1 c' h).2⟩, this.2⟩

/-- **C15 (helper claim)** `setCollisionFree` only changes the configuration; it succeeds iff the current
configuration or one of the loaded samples is valid for the limb, and then the returned configuration is
valid; on failure the state is returned unchanged. -/
theorem C15_setCollisionFree (env : Env N K Smp) (limb : N) (s : State N K) :
    let r := setCollisionFree env limb s
    r.result = { s with configuration := r.result.configuration } ∧
    (r.success = true ↔
      ∃ c ∈ s.configuration :: loadedConfigs env (env.limbSamples limb) s.configuration,
        env.limbValid limb c = true) ∧
    (r.success = true → env.limbValid limb r.result.configuration = true) ∧
    (r.success = false → r.result = s) ∧
    (env.limbValid limb s.configuration = true → r.result = s) := by
  intro r
  have hs := firstFreeSample_spec env limb (env.limbSamples limb) s.configuration
  simp only [r, setCollisionFree]
  cases hv : env.limbValid limb s.configuration with
  | true => simp [hv]
  | false =>
    simp only [Bool.false_eq_true, if_false, List.mem_cons, exists_eq_or_imp, hv, false_or]
    cases hf : firstFreeSample env limb (env.limbSamples limb) s.configuration with
    | some c =>
      have := hs.1 c hf
      simp only [true_iff, forall_const, false_imp_iff, and_true, Bool.true_eq_false]
      exact ⟨trivial, ⟨c, this⟩, this.2⟩
    | none =>
      have := hs.2.1 hf
      simp only [Bool.false_eq_true, false_iff, not_exists, not_and, true_and, forall_const,
        Bool.not_eq_true]
      exact ⟨this, by simp⟩

example : (setCollisionFree demoEnv 1 { State.demo with configuration := [-1] }).success = true ∧
    (setCollisionFree demoEnv 1 { State.demo with configuration := [-1] }).result.configuration = [3] := by
  decide

/-! ## C15 -/

/-- every limb of the list is made collision free in turn -/
inductive FreeChain (env : Env N K Smp) : List N → State N K → State N K → Prop
  | nil (s) : FreeChain env [] s s
  | cons {l ls s u} : (setCollisionFree env l s).success = true →
      FreeChain env ls (setCollisionFree env l s).result u → FreeChain env (l :: ls) s u

/-- Specification: candidate `c` passes projection, collision-free search of the free limbs and of
the non-contacting limbs, full-body collision validation, and the reachability test when required; `out`
is the accepted state. -/
structure Accepts (env : Env N K Smp) (h : Helper N K) (c out : State N K) : Prop where
  projected : (env.applyRoot h.workingState.configuration c).1 = true
  freed : ∃ free, free.Perm ((c.freeEffectors env.limbs)) ∧
    FreeChain env (free ++ env.nonContacting)
      { c with configuration := (env.applyRoot h.workingState.configuration c).2 } out
  valid : env.fullValid out.configuration = true
  reachable : h.quasiStatic = true → h.testReachability = true →
    env.reachable h.workingState out = true

theorem colFreeAll_success (env : Env N K Smp) (ls : List N) (s : State N K) (st : Status) :
    (colFreeAll env ls ⟨true, s, st⟩).success = true →
      FreeChain env ls s (colFreeAll env ls ⟨true, s, st⟩).result := by
  induction ls generalizing s st with
  | nil => intro _; exact FreeChain.nil s
  | cons l ls ih =>
    intro h
    simp only [colFreeAll, if_true] at h ⊢
    have hs : (setCollisionFree env l s).success = true := by
      by_contra hc
      cases ls with
      | nil => exact hc (by simpa [colFreeAll] using h)
      | cons a ls => simp only [colFreeAll, hc] at h; exact hc (by simpa using h)
    have e : setCollisionFree env l s = ⟨true, (setCollisionFree env l s).result,
        (setCollisionFree env l s).status⟩ := by rw [← hs]
    rw [e] at h ⊢
    exact FreeChain.cons hs (ih _ _ h)

theorem colFreeAll_of_fail (env : Env N K Smp) (ls : List N) (r : Report N K) (h : r.success = false) :
    colFreeAll env ls r = r := by
  cases ls with
  | nil => rfl
  | cons l ls => simp [colFreeAll, h]

theorem colFreeAll_append (env : Env N K Smp) (l1 l2 : List N) (r : Report N K) :
    colFreeAll env l2 (colFreeAll env l1 r) = colFreeAll env (l1 ++ l2) r := by
  induction l1 generalizing r with
  | nil => rfl
  | cons l l1 ih =>
    simp only [colFreeAll, List.cons_append]
    cases hr : r.success with
    | true => simp [ih]
    | false => simp only [Bool.false_eq_true, if_false]; exact colFreeAll_of_fail env l2 r hr

theorem colFreeAll_of_chain (env : Env N K Smp) {ls : List N} {s u : State N K}
    (h : FreeChain env ls s u) (st : Status) :
    (colFreeAll env ls ⟨true, s, st⟩).success = true ∧ (colFreeAll env ls ⟨true, s, st⟩).result = u := by
  induction h generalizing st with
  | nil s => exact ⟨rfl, rfl⟩
  | @cons l ls s u h1 h2 ih =>
    simp only [colFreeAll, if_true]
    have e : setCollisionFree env l s = ⟨true, (setCollisionFree env l s).result,
        (setCollisionFree env l s).status⟩ := by rw [← h1]
    rw [e]; exact ih _

theorem FreeChain.config_only {env : Env N K Smp} {ls : List N} {s u : State N K}
    (h : FreeChain env ls s u) : u = { s with configuration := u.configuration } := by
  induction h with
  | nil s => rfl
  | @cons l ls s u h1 h2 ih =>
    have := (C15_setCollisionFree env l s).1
    rw [this] at ih
    rw [ih]

theorem freeEffectors_config (s : State N K) (c : List K) (l : List N) :
    ({ s with configuration := c } : State N K).freeEffectors l = s.freeEffectors l := rfl

theorem nodup_freeEffectors (s : State N K) {l : List N} (h : l.Nodup) : (s.freeEffectors l).Nodup :=
  h.filter _

/-- The model's one-candidate step accepts exactly per specification (limb names are map keys, hence
distinct). -/
theorem maintainOne_accepts (env : Env N K Smp) (hl : env.limbs.Nodup) (h : Helper N K) (c : State N K)
    (hs : (maintainOne env h c).success = true) : Accepts env h c (maintainOne env h c).result := by
  unfold maintainOne projectToRootConfiguration at hs ⊢
  cases hp : (env.applyRoot h.workingState.configuration c).1 with
  | false => simp [hp] at hs
  | true =>
    simp only [hp, if_true] at hs ⊢
    unfold genColFree at hs ⊢
    rw [colFreeAll_append] at hs ⊢
    set L := sortLimbs h.workingState
      (({ c with configuration := (env.applyRoot h.workingState.configuration c).2 } :
        State N K).freeEffectors env.limbs) with hL
    set R := colFreeAll env (L ++ env.nonContacting)
      ⟨true, { c with configuration := (env.applyRoot h.workingState.configuration c).2 }, .noContact⟩
      with hR
    have hperm : L.Perm (c.freeEffectors env.limbs) := by
      obtain ⟨_, _, _, _, hp, _⟩ := C13_sortLimbs h.workingState _ (nodup_freeEffectors
        ({ c with configuration := (env.applyRoot h.workingState.configuration c).2 } : State N K) hl)
      exact hp
    cases hRs : R.success with
    | false => simp [hRs] at hs
    | true =>
      have hch := colFreeAll_success env (L ++ env.nonContacting) _ _ hRs
      simp only [hRs, if_true] at hs ⊢
      cases hv : env.fullValid R.result.configuration with
      | false => simp [hv] at hs
      | true =>
        simp only [hv, if_true] at hs ⊢
        cases hq : (h.quasiStatic && h.testReachability) with
        | false =>
          simp only [Bool.false_eq_true, if_false]
          refine ⟨hp, ⟨L, hperm, hch⟩, hv, ?_⟩
          intro a b; simp [a, b] at hq
        | true =>
          simp only [hq, if_true] at hs ⊢
          exact ⟨hp, ⟨L, hperm, hch⟩, hv, fun _ _ => hs⟩

/-- Specification of a rejection of a candidate: projection failed, or collision-free search failed for
the (sorted) free limbs, or collision, or unreachable. -/
def Rejects (env : Env N K Smp) (h : Helper N K) (c : State N K) : Prop :=
  let free := sortLimbs h.workingState (c.freeEffectors env.limbs) ++ env.nonContacting
  let start : State N K := { c with configuration := (env.applyRoot h.workingState.configuration c).2 }
  (env.applyRoot h.workingState.configuration c).1 = false ∨
  (¬ ∃ out, FreeChain env free start out) ∨
  (∃ out, FreeChain env free start out ∧
    (env.fullValid out.configuration = false ∨
      (h.quasiStatic = true ∧ h.testReachability = true ∧ env.reachable h.workingState out = false)))

theorem maintainOne_rejects (env : Env N K Smp) (h : Helper N K) (c : State N K)
    (hs : (maintainOne env h c).success = false) : Rejects env h c := by
  unfold maintainOne projectToRootConfiguration at hs
  unfold Rejects
  cases hp : (env.applyRoot h.workingState.configuration c).1 with
  | false => exact Or.inl rfl
  | true =>
    right
    simp only [hp, if_true] at hs
    unfold genColFree at hs
    rw [colFreeAll_append] at hs
    simp only [freeEffectors_config] at hs
    by_cases hex : ∃ out, FreeChain env
        (sortLimbs h.workingState (c.freeEffectors env.limbs) ++ env.nonContacting)
        ({ c with configuration := (env.applyRoot h.workingState.configuration c).2 } : State N K) out
    · right
      obtain ⟨out, ho⟩ := hex
      refine ⟨out, ho, ?_⟩
      obtain ⟨h1, h2⟩ := colFreeAll_of_chain env ho .noContact
      simp only [h1, if_true, h2] at hs
      cases hv : env.fullValid out.configuration with
      | false => exact Or.inl rfl
      | true =>
        simp only [hv, if_true] at hs
        cases hq : (h.quasiStatic && h.testReachability) with
        | false => simp [hq] at hs
        | true =>
          simp only [hq, if_true] at hs
          simp only [Bool.and_eq_true] at hq
          exact Or.inr ⟨hq.1, hq.2, hs⟩
    · exact Or.inl hex

theorem maintainLoop_spec (env : Env N K Smp) (h : Helper N K) (cands : List (State N K))
    (rep : Report N K) (hr : rep.success = false) :
    let r := maintainLoop env h cands rep
    (r.1.success = true → ∃ pre c, cands = pre ++ c :: r.2 ∧ r.1 = maintainOne env h c ∧
      ∀ x ∈ pre, (maintainOne env h x).success = false) ∧
    (r.1.success = false → r.2 = [] ∧ ∀ x ∈ cands, (maintainOne env h x).success = false) := by
  induction cands generalizing rep with
  | nil => simp [maintainLoop, hr]
  | cons c rest ih =>
    simp only [maintainLoop, hr, Bool.false_eq_true, if_false]
    cases ho : (maintainOne env h c).success with
    | true =>
      have e : maintainLoop env h rest (maintainOne env h c) = (maintainOne env h c, rest) := by
        cases rest with
        | nil => rfl
        | cons a l => simp [maintainLoop, ho]
      simp only [e, ho]
      exact ⟨fun _ => ⟨[], c, rfl, rfl, by simp⟩, by simp⟩
    | false =>
      obtain ⟨h1, h2⟩ := ih _ ho
      refine ⟨fun hs => ?_, fun hs => ?_⟩
      · obtain ⟨pre, c', e, er, hp⟩ := h1 hs
        refine ⟨c :: pre, c', congrArg (c :: ·) e, er, ?_⟩
        intro x hx
        rcases List.mem_cons.1 hx with rfl | hx
        · exact ho
        · exact hp x hx
      · obtain ⟨e, hp⟩ := h2 hs
        refine ⟨e, ?_⟩
        intro x hx
        rcases List.mem_cons.1 hx with rfl | hx
        · exact ho
        · exact hp x hx

/-- **C15** Without maintain-stability check: on success the result is the acceptance of one of the
candidates, all earlier ones are rejected, the queue left is the suffix after it, and only
configuration differs between that candidate and the result; on failure every candidate is rejected and
the queue is empty.  The rest of the helper is unchanged. -/
theorem C15_maintain_contacts (env : Env N K Smp) (hl : env.limbs.Nodup) (h : Helper N K)
    (hm : h.checkStabilityMaintain = false) :
    let r := maintainContacts env h
    (r.1.success = true →
      ∃ pre c, startCandidates h = pre ++ c :: r.2.candidates ∧ Accepts env h c r.1.result ∧
        r.1.result = { c with configuration := r.1.result.configuration } ∧
        ∀ x ∈ pre, Rejects env h x) ∧
    (r.1.success = false → r.2.candidates = [] ∧ ∀ x ∈ startCandidates h, Rejects env h x) ∧
    r.2 = { h with candidates := r.2.candidates } := by
  intro r
  have hs := maintainLoop_spec env h (startCandidates h) (Report.default env) rfl
  simp only [r, maintainContacts, hm, Bool.and_false, Bool.false_eq_true, if_false]
  refine ⟨fun hok => ?_, fun hf => ?_, trivial⟩
  · obtain ⟨pre, c, e, er, hp⟩ := hs.1 hok
    have hacc : (maintainOne env h c).success = true := by rw [← er]; exact hok
    have ha := maintainOne_accepts env hl h c hacc
    refine ⟨pre, c, e, by rw [er]; exact ha, ?_, fun x hx => maintainOne_rejects env h x (hp x hx)⟩
    rw [er]
    obtain ⟨_, _, hch⟩ := ha.freed
    exact hch.config_only
  · obtain ⟨e, hp⟩ := hs.2 hf
    exact ⟨e, fun x hx => maintainOne_rejects env h x (hp x hx)⟩

/-- non-vacuity of C15: the first candidate is accepted -/
example : demoHelper.checkStabilityMaintain = false ∧ demoEnv.limbs.Nodup ∧
    (maintainContacts demoEnv demoHelper).1.success = true ∧
    (maintainContacts demoEnv demoHelper).1.result.contacts = State.demo.contacts ∧
    (startCandidates demoHelper).length = 3 := by decide
/-- … and with a configuration in collision every candidate is rejected -/
example : (maintainContacts demoEnv { demoHelper with
    workingState := { State.demo with configuration := [7] } }).1.success = false := by decide

/-! ## C16 -/

/-- **C16** The recursion of `maintain_contacts_stability`. -/
theorem C16_stability_rec (env : Env N K Smp) (target : List K) (len : Nat) (rob : K)
    (cands : List (State N K)) (rep : Report N K) :
    let r := maintainStabilityRec env target len rob cands rep
    (r.2.1.result.stable = r.1) ∧
    (r.1 = true →
      ((rob : WithBot K) < env.robustness rep.result ∧ r.2.2 = cands ∧
        r.2.1 = { rep with result := { rep.result with stable := true } }) ∨
      (∃ pre c post, cands = pre ++ c :: post ∧ r.2.2 = post ∧
        (∀ x ∈ pre ++ [c], len ≤ x.contactOrder.length) ∧
        (rob : WithBot K) < env.robustness { c with configuration := (env.applyRoot target c).2 } ∧
        r.2.1.success = (env.applyRoot target c).1 ∧
        r.2.1.result = { c with configuration := (env.applyRoot target c).2, stable := true })) ∧
    (r.1 = false → r.2.1 = { rep with result := { rep.result with stable := false } }) := by
  induction cands generalizing rep with
  | nil =>
    unfold maintainStabilityRec
    by_cases hr : (rob : WithBot K) < env.robustness rep.result
    · rw [if_pos hr]; exact ⟨rfl, fun _ => Or.inl ⟨hr, rfl, rfl⟩, by simp⟩
    · rw [if_neg hr]; exact ⟨rfl, by simp, fun _ => rfl⟩
  | cons c rest ih =>
    unfold maintainStabilityRec
    by_cases hr : (rob : WithBot K) < env.robustness rep.result
    · rw [if_pos hr]; exact ⟨rfl, fun _ => Or.inl ⟨hr, rfl, rfl⟩, by simp⟩
    · rw [if_neg hr]
      simp only
      by_cases hlen : c.contactOrder.length < len
      · rw [if_pos hlen]; exact ⟨rfl, by simp, fun _ => rfl⟩
      · rw [if_neg hlen]
        have := ih (projectToRootConfiguration env target c)
        rcases hq : maintainStabilityRec env target len rob rest (projectToRootConfiguration env target c)
          with ⟨b, rep', rest'⟩
        rw [hq] at this
        cases b with
        | false => exact ⟨rfl, by simp, fun _ => rfl⟩
        | true =>
          obtain ⟨h1, h2, _⟩ := this
          refine ⟨h1, fun _ => Or.inr ?_, by simp⟩
          rcases h2 rfl with ⟨hrob, he, hrep⟩ | ⟨pre, c', post, e, he, hmem, hrob, hsucc, hres⟩
          · refine ⟨[], c, rest, rfl, he, ?_, hrob, ?_, ?_⟩
            · intro x hx; simp at hx; subst hx; omega
            · simp only at hrep ⊢; rw [hrep]; rfl
            · simp only at hrep ⊢; rw [hrep]; rfl
          · refine ⟨c :: pre, c', post, by simp [e], he, ?_, hrob, hsucc, hres⟩
            intro x hx
            simp only [List.cons_append, List.mem_cons] at hx
            rcases hx with rfl | hx
            · omega
            · exact hmem x hx

/-- **C16** at the level of `maintain_contacts`: with the stability check, a successful report whose
state is flagged stable has robustness above the threshold and comes from a successful projection. -/
theorem C16_maintain_stable_partial (env : Env N K Smp) (h : Helper N K)
    (hm : h.checkStabilityMaintain = true) :
    let r := maintainContacts env h
    (r.1.success = true → r.1.result.stable = true →
      ∃ c ∈ startCandidates h, (env.applyRoot h.workingState.configuration c).1 = true ∧
        ∃ st : State N K, r.1.result = { st with stable := true } ∧
          st = { c with configuration := st.configuration } ∧
          (h.robustnessTreshold : WithBot K) < env.robustness st) := by
  intro r hs hst
  have hl := maintainLoop_spec env h (startCandidates h) (Report.default env) rfl
  simp only [r, maintainContacts, hm, Bool.and_true] at hs hst ⊢
  cases hok : (maintainLoop env h (startCandidates h) (Report.default env)).1.success with
  | false => simp only [hok, Bool.false_eq_true, if_false] at hs
  | true =>
    simp only [hok, if_true] at hs hst ⊢
    obtain ⟨pre, c, e, er, _⟩ := hl.1 hok
    have hproj : (env.applyRoot h.workingState.configuration c).1 = true := by
      by_contra hc
      rw [er] at hok
      unfold maintainOne projectToRootConfiguration at hok
      simp only [Bool.not_eq_true] at hc
      simp [hc] at hok
    have hcfg : (maintainOne env h c).result = { c with configuration := (maintainOne env h c).result.configuration } := by
      have hok' : (maintainOne env h c).success = true := by rw [← er]; exact hok
      unfold maintainOne projectToRootConfiguration at hok' ⊢
      simp only [hproj, if_true] at hok' ⊢
      unfold genColFree at hok' ⊢
      rw [colFreeAll_append] at hok' ⊢
      set R := colFreeAll env _ _ with hR
      cases hRs : R.success with
      | false => simp [hRs] at hok'
      | true =>
        have hch := (colFreeAll_success env _ _ _ hRs).config_only
        rw [← hR] at hch
        simp only [if_true]
        split_ifs <;> exact hch
    unfold maintainStability at hs hst ⊢
    simp only at hs hst ⊢
    have c16 := C16_stability_rec env h.workingState.configuration
      (maintainLoop env h (startCandidates h) (Report.default env)).1.result.contactOrder.length
      h.robustnessTreshold (maintainLoop env h (startCandidates h) (Report.default env)).2
      (maintainLoop env h (startCandidates h) (Report.default env)).1
    obtain ⟨c1, c2, _⟩ := c16
    rw [hst] at c1
    rcases c2 c1.symm with ⟨hrob, _, hrep⟩ | ⟨pre', c', post, e', _, _, hrob, hsucc, hres⟩
    · refine ⟨c, by rw [e]; simp, hproj, _, by rw [hrep], ?_, hrob⟩
      rw [er]; exact hcfg
    · refine ⟨c', by rw [e, e']; simp, by rw [← hsucc]; exact hs, _, by rw [hres], rfl, hrob⟩

/-- two contacts: rejected; contact 1 alone: accepted but weak; contact 2 alone: `ok`, configuration `[c]` -/
def fallbackEnv (ok : Bool) (c : ℤ) : Env ℕ ℤ ℤ :=
  { demoEnv with
    applyRoot := fun t s =>
      if s.contacts.has 1 && s.contacts.has 2 then (false, t)
      else if s.contacts.has 1 then (true, t) else (ok, [c]) }

/-- non-vacuity of C16: the second one-contact candidate is robust and returned -/
example : (maintainContacts (fallbackEnv true 9) { demoHelper with checkStabilityMaintain := true }).1.success
      = true ∧
    (maintainContacts (fallbackEnv true 9) { demoHelper with checkStabilityMaintain := true }).1.result.stable
      = true := by decide

/-- **C16 is violated** without the success hypothesis: the returned state is flagged stable although its
projection failed (l.176-184 never look at `rep.success_`). -/
theorem C16_failed_projection_violated :
    (maintainContacts (fallbackEnv false 9) { demoHelper with checkStabilityMaintain := true }).1.success
      = false ∧
    (maintainContacts (fallbackEnv false 9) { demoHelper with checkStabilityMaintain := true }).1.result.stable
      = true := by decide

/-- **C16 / C15**: with the stability check on, the state taken by the stability recursion is not
checked for collision again: a successful stable report can hold a configuration the collision validation
rejects. -/
theorem C15_stability_collision_violated :
    let r := (maintainContacts (fallbackEnv true 7) { demoHelper with checkStabilityMaintain := true }).1
    r.success = true ∧ r.result.stable = true ∧
      (fallbackEnv true 7).fullValid r.result.configuration = false := by decide

end Contact
end Rbprm
