import Verif.Props.Balance
import Verif.Props.Provenance
/-!
# Property C178: contacts are released only if they cannot be kept

`ComputeContacts` (algorithm.cc:194-275) tries the sets of kept contacts one after the other, the largest first (`maintain_contacts`), and the free limbs for each of them (`gen_contacts`): a user relies on a contact being released,
and on the robot being repositioned in place, only when there is no other way.
-/
set_option linter.unusedSectionVars false
namespace Rbprm
namespace Interp
open State Contact
variable {N K Smp : Type _} [LinearOrder N] [CommRing K] [LinearOrder K]

/-! ## Specification -/

/-- contact generation can go on from `base`: it is in equilibrium with at least two contacts, or one of the attempts to place a limb that is not in contact is good (free of collision, in equilibrium and reachable) -/
def GoesOn (env : Env N K Smp) (postural : Bool) (h : Helper N K) (base : State N K) : Prop :=
  (2 ≤ base.nbContacts ∧ (h.robustnessTreshold : WithBot K) ≤ env.robustness base) ∨
  ∃ limb ∈ env.limbs, base.contacts.find? limb ≠ some true ∧ ∃ t ∈ attempts env postural base { h with workingState := base } limb, Good env { h with workingState := base } limb t

/-- the contacts of `c` cannot be kept: the robot cannot be moved with them, or contact generation cannot go on from there -/
def NoWay (env : Env N K Smp) (postural : Bool) (h : Helper N K) (c : State N K) : Prop :=
  Rejects env h c ∨ ∃ base, Accepts env h c base ∧ base = { c with configuration := base.configuration } ∧ ¬ GoesOn env postural h base

/-! ## Proofs -/

theorem genLoop_noway (env : Env N K Smp) (postural : Bool) (cands : List (State N K × List N)) (h : Helper N K) (rep : Report N K) (hrep : rep.success = false)
    (hM : ∀ c ∈ cands, c.2.length ≤ 1) (h2 : h.stableForOneContact = false) (hs : (genLoop env postural true cands h rep).1.success = false) :
    ∀ c ∈ cands, (c.2 = [] → ¬ (2 ≤ h.workingState.nbContacts ∧ (h.robustnessTreshold : WithBot K) ≤ env.robustness h.workingState)) ∧
      ∀ limb, c.2 = [limb] → ∀ t ∈ attempts env postural c.1 { h with checkStabilityGenerate := true } limb, ¬ Good env { h with checkStabilityGenerate := true } limb t := by
  induction cands generalizing h rep with
  | nil => simp
  | cons c rest ih =>
    unfold genLoop at hs
    simp only [hrep, Bool.false_eq_true, if_false] at hs
    rcases c with ⟨params, ls⟩
    match ls, hM (params, ls) (by simp) with
    | [], _ =>
      by_cases hcm : 2 ≤ h.workingState.nbContacts ∧ (h.robustnessTreshold : WithBot K) ≤ env.robustness h.workingState
      · have e : checkMaintained env true [] h = { h with workingState := { h.workingState with stable := true } } := by
          unfold checkMaintained
          rw [if_pos (by simp [hcm.1]), if_pos hcm.2]
        simp only [e, List.isEmpty_nil, Bool.true_and, Bool.true_or, hcm.1, decide_true, if_true] at hs
        cases hs
      · have e : checkMaintained env true [] h = h := by
          unfold checkMaintained
          by_cases hn : 2 ≤ h.workingState.nbContacts
          · rw [if_pos (by simp [hn]), if_neg fun hr => hcm ⟨hn, hr⟩]
          · rw [if_neg (by simp [hn, h2])]
        simp only [e, List.isEmpty_nil, Bool.true_and, genLimbs] at hs
        split_ifs at hs
        intro c hc
        rcases List.mem_cons.1 hc with rfl | hc
        · exact ⟨fun _ => hcm, fun _ hh => by cases hh⟩
        · exact ih { h with checkStabilityGenerate := false } rep hrep (fun c hc => hM c (List.mem_cons_of_mem _ hc)) h2 hs c hc
    | [limb], _ =>
      have e : checkMaintained env true [limb] h = h := by
        unfold checkMaintained
        rw [if_neg (by simp)]
      simp only [e, List.isEmpty_cons, Bool.false_and, Bool.false_eq_true, if_false, genLimbs, List.isEmpty_nil, if_true] at hs
      set h' : Helper N K := { h with checkStabilityGenerate := true } with hh'
      cases hg : (generateContact env postural params h' limb).success with
      | true =>
        have e2 : ∀ h'' , genLoop env postural true rest h'' (generateContact env postural params h' limb) = (generateContact env postural params h' limb, h'', false) := by
          intro h''
          cases rest with
          | nil => rfl
          | cons a b => unfold genLoop; rw [hg]; rfl
        rw [e2, hg] at hs
        cases hs
      | false =>
        simp only [hg, Bool.false_eq_true, if_false] at hs
        have c17 := C17_reachable env postural params h' limb
        have c1 := c17.1
        have hng := c17.2.1 (fun hst => by have := (c1 hst).1; rw [hg] at this; cases this)
        intro c hc
        rcases List.mem_cons.1 hc with rfl | hc
        · refine ⟨(fun hh => by cases hh), fun l hl => ?_⟩
          obtain rfl : limb = l := by simpa using hl
          exact hng
        · exact ih h' _ hg (fun c hc => hM c (List.mem_cons_of_mem _ hc)) h2 hs c hc
    | _ :: _ :: _, hM => simp at hM

theorem genContacts_noway (env : Env N K Smp) (hl : env.limbs.Nodup) (postural : Bool) (h : Helper N K) (h0 : h.maxContactCreations = 1)
    (h1 : h.checkStabilityGenerate = true) (h2 : h.stableForOneContact = false) (hs : (genContacts env postural h).1.success = false) : ¬ GoesOn env postural h h.workingState := by
  have hfree : (h.workingState.freeEffectors env.limbs).Nodup := nodup_freeEffectors _ hl
  obtain ⟨e1, e2, _⟩ := C12_enumeration (h.workingState.freeEffectors env.limbs) hfree h.workingState h.maxContactCreations h.maximiseContacts
  have key := genLoop_noway env postural (genCandidates env h) h (Report.default env) rfl (fun c hc => by have := ((e2 c.2).1 (List.mem_map_of_mem hc)).2.2; omega) h2 (by
    unfold genContacts at hs
    simp only [h1] at hs
    split_ifs at hs <;> exact hs)
  have eh : ({ h with checkStabilityGenerate := true } : Helper N K) = h := by rw [← h1]
  rw [eh] at key
  rintro (hr | ⟨limb, k1, k2, t, k3, k4⟩)
  · obtain ⟨c, hc, e⟩ := List.mem_map.1 ((e2 []).2 ⟨List.nodup_nil, by simp, by simp⟩)
    exact (key c hc).1 e hr
  · obtain ⟨c, hc, e⟩ := List.mem_map.1 ((e2 [limb]).2 ⟨by simp, by
      intro x hx
      rw [List.mem_singleton.1 hx]
      unfold freeEffectors
      rw [List.mem_filter]
      refine ⟨k1, ?_⟩
      cases hf : h.workingState.contacts.find? limb with
      | none => simp
      | some b =>
        cases b with
        | true => exact absurd hf k2
        | false => simp, by simp [h0]⟩)
    have e' : c.1 = h.workingState := e1 c hc
    have := (key c hc).2 limb e
    rw [e'] at this
    exact this t k3 k4

/-- what is known of the helpers of the attempts -/
structure StepHelper (h : Helper N K) : Prop where
  creations : h.maxContactCreations = 1
  generate : h.checkStabilityGenerate = true
  one : h.stableForOneContact = false
  maintain : h.checkStabilityMaintain = false

theorem StepHelper.congr {h h' : Helper N K} (hh : StepHelper h) (hs : SameSetup h h') : StepHelper h' := by
  unfold SameSetup at hs
  exact ⟨by rw [hs]; exact hh.1, by rw [hs]; exact hh.2, by rw [hs]; exact hh.3, by rw [hs]; exact hh.4⟩

/-- one attempt that fails: there is no way with the candidates that it has used -/
theorem attempt_noway (env : Env N K Smp) (hl : env.limbs.Nodup) (postural : Bool) (h : Helper N K) (hh : StepHelper h) (hs : (genFromMaintain env postural h).1.success = false) :
    ∃ used, startCandidates h = used ++ (genFromMaintain env postural h).2.candidates ∧ (startCandidates h ≠ [] → used ≠ []) ∧ ∀ c ∈ used, NoWay env postural h c := by
  have hm := C15_maintain_contacts env hl h hh.maintain
  have hq := (genFromMaintain_queue env hl postural h).2
  unfold genFromMaintain at hs
  simp only at hs
  split_ifs at hs with hmain
  · obtain ⟨⟨pre, x, e, hacc, hres, hpre⟩, _, hsame⟩ := And.intro (hm.1 hmain) hm.2
    refine ⟨pre ++ [x], by rw [hq, e]; simp, fun _ => by simp, fun c hc => ?_⟩
    rcases List.mem_append.1 hc with hc | hc
    · exact Or.inl (hpre c hc)
    · rw [List.mem_singleton.1 hc]
      refine Or.inr ⟨_, hacc, hres, ?_⟩
      have hset : SameSetup h { (maintainContacts env h).2 with workingState := (maintainContacts env h).1.result } := by unfold SameSetup; rw [hsame]
      have hh' := hh.congr hset
      have := genContacts_noway env hl postural _ hh'.creations hh'.generate hh'.one hs
      refine fun hg => this ?_
      rcases hg with hg | ⟨limb, k1, k2, t, k3, k4⟩
      · exact Or.inl (by rw [hsame]; exact hg)
      · exact Or.inr ⟨limb, k1, k2, t, by rw [hsame]; exact k3, by rw [hsame]; exact k4⟩
  · obtain ⟨e, hall⟩ := hm.2.1 (Bool.eq_false_of_not_eq_true hmain)
    exact ⟨startCandidates h, by rw [hq, e]; simp, fun h => h, fun c hc => Or.inl (hall c hc)⟩

/-- the attempts that fail: there is no way with the candidates that they have used, from the state left by the attempts before -/
theorem failing_noway {env : Env N K Smp} (hl : env.limbs.Nodup) {postural : Bool} {h h' : Helper N K} (hf : Failing env postural h h') (hh : StepHelper h) :
    ∃ used, startCandidates h = used ++ startCandidates h' ∧ (∀ c ∈ used, ∃ g, Failing env postural h g ∧ NoWay env postural g c) ∧
      (h' = h ∨ ∀ c, (startCandidates h).head? = some c → NoWay env postural h c) := by
  induction hf with
  | refl h => exact ⟨[], rfl, by simp, Or.inl rfl⟩
  | @step h h' k1 k2 k3 ih =>
    obtain ⟨u, e, hne, hu⟩ := attempt_noway env hl postural h hh k1
    have hst : startCandidates (genFromMaintain env postural h).2 = (genFromMaintain env postural h).2.candidates := by
      unfold startCandidates; rw [if_neg (fun hx => k2 hx.1)]
    obtain ⟨u', e', hu', _⟩ := ih (hh.congr (genFromMaintain_queue env hl postural h).1)
    rw [hst] at e'
    refine ⟨u ++ u', by rw [e, e', List.append_assoc], fun c hc => ?_, Or.inr fun c hc => ?_⟩
    · rcases List.mem_append.1 hc with hc | hc
      · exact ⟨h, Failing.refl h, hu c hc⟩
      · obtain ⟨g, g1, g2⟩ := hu' c hc
        exact ⟨g, Failing.step k1 k2 g1, g2⟩
    · have : u ≠ [] := hne (by rw [e]; simp [k2])
      obtain ⟨a, l, rfl⟩ := List.exists_cons_of_ne_nil this
      rw [e] at hc
      obtain rfl : a = c := by simpa using hc
      exact hu a (by simp)

theorem computeHelper_step (previous : State N K) (configuration : List K) (thr : K) (tr qs : Bool) : StepHelper (computeHelper previous configuration thr tr qs) := ⟨rfl, rfl, rfl, rfl⟩

theorem combRec_head (c : State N K) (d : Nat) (acc : List (List (State N K))) : (maintainCombRec 1 0 c (d + 1) acc)[0]? = acc[0]? := by
  unfold maintainCombRec
  rw [if_pos (by simp)]
  simp

/-- the first candidate keeps all the contacts -/
theorem startCandidates_head (h : Helper N K) (he : h.candidates = []) (hb : h.maxContactBreaks = 1) (hc : h.workingState.contacts ≠ []) : (startCandidates h).head? = some h.workingState := by
  unfold startCandidates
  rw [if_pos ⟨he, hc⟩, hb]
  unfold maintainContactsCombinatorial flattenDepth
  simp only
  split_ifs
  · rfl
  · have key : (maintainCombRec 1 1 h.workingState 0 (List.replicate (1 + 1) []))[0]? = some [h.workingState] := by
      unfold maintainCombRec
      rw [if_neg (by simp [pushIfNew])]
      have : ∀ (l : List N) (acc : List (List (State N K))), acc[0]? = some [h.workingState] →
          (l.foldl (fun acc contactRemoved => maintainCombRec 1 0 (h.workingState.removeContact contactRemoved).1 (0 + 1) acc) acc)[0]? = some [h.workingState] := by
        intro l
        induction l with
        | nil => exact fun _ h => h
        | cons a l ih => exact fun acc hacc => ih _ ((combRec_head _ _ _).trans hacc)
      exact this _ _ (by simp [pushIfNew, List.replicate])
    cases hq : maintainCombRec 1 1 h.workingState 0 (List.replicate (1 + 1) []) with
    | nil => rw [hq] at key; cases key
    | cons a l => rw [hq] at key; obtain rfl : a = [h.workingState] := by simpa using key
                  rfl

theorem HasContact.withContact {env : Env N K Smp} {base : State N K} (hb : Sound base) {limb : N} (hfree : base.contacts.find? limb ≠ some true) {smp : Smp} {cfg : List K} {n : N} {d : ContactData K}
    (h : HasContact base n d) : HasContact (withContact env base limb smp cfg) n d := by
  have hn : n ≠ limb := by
    rintro rfl
    have hk : n ∈ base.contacts.keys := by rw [← hb.positionsKeys]; exact AMap.find?_isSome.1 (by rw [h.1]; rfl)
    obtain ⟨v, hv⟩ := Option.isSome_iff_exists.1 (AMap.find?_isSome.2 hk)
    exact hfree (by rw [hv, hb.active n v hv])
  unfold Interp.withContact State.addContact
  exact ⟨by rw [← h.1]; simp [AMap.find?_set, hn], by rw [← h.2.1]; simp [AMap.find?_set, hn], by rw [← h.2.2]; simp [AMap.find?_set, hn]⟩

/-- **C178** Whatever the robot, the obstacles and the solvers answer, a step from a state with complete contact data releases a contact, or repositions the robot in place, only if there is no way with all the contacts:
the robot cannot be moved to the given configuration with them, or contact generation cannot go on from there. -/
theorem C178_kept (env : Env N K Smp) (hl : env.limbs.Nodup) (postural : Bool) (fuel : Nat) (previous : State N K) (hp : WellFormed env.limbs previous) (hc : previous.contacts ≠ [])
    (configuration : List K) (thr : K) (extraDim : Nat) (tr qs : Bool) (rep : ContactReport N K)
    (hr : computeContacts env postural fuel previous configuration thr extraDim tr qs = some rep)
    (hlost : rep.repositionedInPlace = true ∨ ∃ n d, HasContact previous n d ∧ ¬ HasContact rep.result n d) :
    NoWay env postural (computeHelper previous configuration thr tr qs) { previous with configuration := configuration, stable := false } := by
  have hr' := hr
  unfold computeContacts at hr
  rw [Option.map_eq_some_iff] at hr
  obtain ⟨r0, hr0, hr⟩ := hr
  set h := computeHelper previous configuration thr tr qs with hh
  have hstep : StepHelper h := computeHelper_step previous configuration thr tr qs
  have hws : WellFormed env.limbs h.workingState := hp.same_maps rfl rfl rfl rfl rfl
  have hhead : (startCandidates h).head? = some h.workingState := startCandidates_head h rfl rfl hc
  obtain ⟨_, _, _, c4, c5⟩ := C21_report env hl postural fuel h r0 hr0 hp.sound.toMapsOk hws.sound.toMapsOk (fun c hc => by simp [hh, computeHelper, Helper.create] at hc)
  have hrp : rep.repositionedInPlace = r0.repositionedInPlace := by rw [← hr]; split_ifs <;> rfl
  show NoWay env postural h h.workingState
  have last : ∀ h', Failing env postural h h' → (genFromMaintain env postural h').1.success = false → NoWay env postural h h.workingState := by
    intro h' hf hs
    obtain ⟨_, _, _, e | e⟩ := failing_noway hl hf hstep
    · subst e
      obtain ⟨used, e, hne, hu⟩ := attempt_noway env hl postural h hstep hs
      have : used ≠ [] := hne (by intro h0; rw [h0] at hhead; cases hhead)
      obtain ⟨a, l, rfl⟩ := List.exists_cons_of_ne_nil this
      rw [e] at hhead
      obtain rfl : a = h.workingState := by simpa using hhead
      exact hu _ (by simp)
    · exact e _ hhead
  cases hb : r0.repositionedInPlace with
  | true =>
    obtain ⟨h', f1, f2, _⟩ := c5 hb
    exact last h' f1 f2
  | false =>
    rcases hlost with hlost | ⟨n, d, hd, hnd⟩
    · rw [hrp, hb] at hlost; cases hlost
    obtain ⟨hs, h', f1, f2⟩ := c4 hb
    obtain ⟨_, _, _, e | e⟩ := failing_noway hl f1 hstep
    swap
    · exact e _ hhead
    subst e
    have hs' : (genFromMaintain env postural h).1.success = true := by rw [← f2]; exact hs
    have hmaint := C15_maintain_contacts env hl h rfl
    unfold genFromMaintain at hs' f2
    simp only at hs' f2
    split_ifs at hs' f2 with hm
    · obtain ⟨⟨pre, c, e, hacc, hres, hpre⟩, _, hsame⟩ := And.intro (hmaint.1 hm) hmaint.2
      cases pre with
      | cons a pre =>
        rw [e] at hhead
        obtain rfl : a = h.workingState := by simpa using hhead
        exact Or.inl (hpre _ (by simp))
      | nil =>
        rw [e] at hhead
        obtain rfl : c = h.workingState := by simpa using hhead
        exfalso
        apply hnd
        have key := genContacts_outcome env hl postural { (maintainContacts env h).2 with workingState := (maintainContacts env h).1.result }
          (by rw [hsame]; exact le_rfl) (by rw [hsame]; rfl) (by rw [hsame]; rfl) (by rw [hsame]; rfl) (by rw [hres]; rfl) hs'
        rw [← f2] at key
        have hbd : HasContact (maintainContacts env h).1.result n d := by rw [hres]; exact hd
        have hbs : Sound (maintainContacts env h).1.result := hws.sound.same_maps (by rw [hres]) (by rw [hres]) (by rw [hres]) (by rw [hres])
        have hout : HasContact r0.result n d := by
          rcases key with ⟨e, _⟩ | ⟨limb, smp, cfg, hpl, e⟩
          · rw [e]; exact hbd
          · rw [e]; exact HasContact.withContact (env := env) (smp := smp) (cfg := cfg) hbs hpl.free hbd
        rw [← hr]
        split_ifs <;> exact hout
    · exact absurd hs' hm

/-- **C178 (repositioning)** (partial: there is no way from the configuration given, or from one left by an earlier attempt; see `C178_violated`).  Whatever the robot, the obstacles and the solvers answer, a step from a state
with complete contact data, with several contacts, repositions the robot in place only after all the sets of contacts with at most one contact less have been tried: there was no way with each of them, from the state given or
from a state tried before, free of collision, with at most one contact less. -/
theorem C178_repositioned_partial (env : Env N K Smp) (hl : env.limbs.Nodup) (postural : Bool) (fuel : Nat) (previous : State N K) (hp : Consistent previous)
    (hk : ∀ n ∈ previous.contacts.keys, n ∈ env.limbs) (h2 : 2 ≤ previous.contacts.length)
    (configuration : List K) (thr : K) (extraDim : Nat) (tr qs : Bool) (rep : ContactReport N K)
    (hr : computeContacts env postural fuel previous configuration thr extraDim tr qs = some rep) (hre : rep.repositionedInPlace = true)
    (kept : List N) (hs : kept.Sublist previous.contactOrder) (hlen : previous.contacts.length ≤ kept.length + 1) :
    ∃ c g, BrokenTo { previous with configuration := configuration, stable := false } c ∧ c.contactOrder = kept ∧ SameSetup (computeHelper previous configuration thr tr qs) g ∧ TestedFrom env previous configuration g.workingState ∧ NoWay env postural g c := by
  have hpw : WellFormed env.limbs previous := ⟨hp.sound, hp.counter, hk⟩
  unfold computeContacts at hr
  rw [Option.map_eq_some_iff] at hr
  obtain ⟨r0, hr0, hr⟩ := hr
  set h := computeHelper previous configuration thr tr qs with hh
  have hstep : StepHelper h := computeHelper_step previous configuration thr tr qs
  have hws : WellFormed env.limbs h.workingState := hpw.same_maps rfl rfl rfl rfl rfl
  have hwc : Consistent h.workingState := Consistent.of_flags hp _ _
  obtain ⟨_, _, _, _, c5⟩ := C21_report env hl postural fuel h r0 hr0 hp.toMapsOk hwc.toMapsOk (fun c hc => by simp [hh, computeHelper, Helper.create] at hc)
  obtain ⟨h', f1, f2, f3, _⟩ := c5 (by rw [← hr] at hre; split_ifs at hre <;> exact hre)
  have hn : h.workingState.nbContacts ≠ 1 := by have : h.workingState.nbContacts = previous.contacts.length := hp.counter; omega
  have hlo : h.workingState.contactOrder.length = previous.contacts.length := by
    have := hp.orderPerm.length_eq
    rw [show h.workingState.contactOrder = previous.contactOrder from rfl, this]
    simp [AMap.keys]
  obtain ⟨m1, m2, _⟩ := C11_maintain_combinatorial h.workingState hwc hn 1
  obtain ⟨c, hc, hck⟩ := m2 kept hs (by omega)
  have hst : startCandidates h = maintainContactsCombinatorial h.workingState 1 := by
    unfold startCandidates
    rw [if_pos ⟨rfl, fun h0 => by have : previous.contacts = [] := h0; rw [this] at h2; simp at h2⟩]
    rfl
  have hB : BrokenTo h.workingState c := (m1 c hc).1
  rw [← hst] at hc
  have tested : ∀ g, Failing env postural h g → TestedFrom env previous configuration g.workingState := fun g hg =>
    failing_workingState hl hg (TestedFrom env previous configuration) (Or.inl rfl) le_rfl rfl rfl rfl
      (fun c hc cfg hv => Or.inr ⟨hv, startCandidates_lost h rfl c hc,
        (startCandidates_all (WellFormed env.limbs) (fun s n hs => (hs.removeContact n).1) h hws (fun c hc => by cases hc) c hc).same_maps rfl rfl rfl rfl rfl⟩)
  obtain ⟨used, e, hu, _⟩ := failing_noway hl f1 hstep
  obtain ⟨used', e', _, hu'⟩ := attempt_noway env hl postural h' (hstep.congr (f1.setup hl)) f2
  rw [f3, List.append_nil] at e'
  rw [e, List.mem_append] at hc
  rcases hc with hc | hc
  · obtain ⟨g, g1, g2⟩ := hu c hc
    exact ⟨c, g, hB, hck, g1.setup hl, tested g g1, g2⟩
  · exact ⟨c, h', hB, hck, f1.setup hl, tested h' f1, hu' c (by rw [← e']; exact hc)⟩

/-! ## Examples -/

theorem demo_wellFormed : WellFormed demoEnv.limbs (State.demo : State ℕ ℤ) := ⟨demo_consistent.sound, rfl, by decide⟩

/-- a robot that drifts when it is moved, for which nothing is proposed while the two limbs are in contact -/
def driftEnv : Env ℕ ℤ ℤ := { demoEnv with
  applyRoot := fun t _ => (true, t.map (· + 1)), fullValid := fun c => decide (c.headD 0 ≠ 3), octree := fun _ p _ => if p.contacts.length = 2 then [] else [4] }

/-- the hypotheses are met: from the configuration 0 the contact of the second limb is released, and found again elsewhere, after the first attempt has failed; from the configuration 1 the robot is repositioned in place -/
example : driftEnv.limbs.Nodup ∧ WellFormed driftEnv.limbs (State.demo : State ℕ ℤ) ∧ (State.demo : State ℕ ℤ).contacts ≠ [] ∧
    ((computeContacts driftEnv false 10 State.demo [0] 3 0 true true).map fun r => (r.repositionedInPlace, r.success, r.result.contacts.keys, r.result.contactPositions.find? 2)) = some (false, true, [1, 2], some ⟨2, 4, 0⟩) ∧
    ((computeContacts driftEnv false 10 State.demo [1] 3 0 true true).map fun r => (r.repositionedInPlace, r.success, r.result.contacts.keys)) = some (true, true, [1, 2]) :=
  ⟨by decide, demo_wellFormed, by decide, by decide, by decide⟩

/-- **C178 is violated** as a statement on the configuration given: the robot is repositioned in place although there was a way: with the contact of the first limb only it can be moved to the configuration given, free of
collision, and the second limb placed again from there.  The second attempt moves the robot from the configuration left by the first one instead. -/
theorem C178_violated : ∃ rep c base, computeContacts driftEnv false 10 State.demo [1] 3 0 true true = some rep ∧ rep.repositionedInPlace = true ∧
    BrokenTo { (State.demo : State ℕ ℤ) with configuration := [1], stable := false } c ∧ c.contactOrder = [1] ∧
    Accepts driftEnv (computeHelper State.demo [1] 3 true true) c base ∧ base = { c with configuration := base.configuration } ∧ GoesOn driftEnv false (computeHelper State.demo [1] 3 true true) base := by
  have hs : ((computeContacts driftEnv false 10 State.demo [1] 3 0 true true).map fun r => r.repositionedInPlace) = some true := by decide
  obtain ⟨rep, h1, h2⟩ := Option.map_eq_some_iff.1 hs
  have hcons : Consistent ({ (State.demo : State ℕ ℤ) with configuration := [1], stable := false } : State ℕ ℤ) := Consistent.of_flags demo_consistent _ _
  obtain ⟨m1, m2, _⟩ := C11_maintain_combinatorial _ hcons (by decide) 1
  set c : State ℕ ℤ := (({ (State.demo : State ℕ ℤ) with configuration := [1], stable := false } : State ℕ ℤ).removeContact 2).1 with hc
  set h : Helper ℕ ℤ := { computeHelper State.demo [1] 3 true true with candidates := [c] } with hh
  have hm := (C15_maintain_contacts driftEnv (by decide) h rfl).1 (by decide)
  obtain ⟨pre, c', e, hacc, hres, _⟩ := hm
  have hst : startCandidates h = [c] := by rw [startCandidates, if_neg (by simp [hh])]
  rw [hst] at e
  cases pre with
  | cons a l => simp at e
  | nil =>
    obtain rfl : c = c' := by simpa using (List.cons.inj e).1
    have hcfg : (maintainContacts driftEnv h).1.result.configuration = [2] := by decide
    rw [hcfg] at hres
    rw [hres] at hacc
    clear hres hcfg
    refine ⟨rep, c, { c with configuration := [2] }, h1, h2, (m1 c (by decide)).1, by decide, ⟨hacc.projected, hacc.freed, hacc.valid, hacc.reachable⟩, rfl, Or.inr ⟨2, by decide, by decide, ?_⟩⟩
    clear_value h
    have hat : attempts driftEnv false { c with configuration := [2] } { computeHelper State.demo [1] 3 true true with workingState := { c with configuration := [2] } } 2 = [⟨true, 4, [4]⟩] := by
      rw [hc]; rfl
    rw [hat]
    exact ⟨⟨true, 4, [4]⟩, by simp, rfl, fun _ => ⟨by rw [hc]; decide, by rw [hc]; decide⟩⟩

end Interp
end Rbprm
