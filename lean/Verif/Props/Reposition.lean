import Verif.Props.Free
import Verif.Props.Equilibrium
import Verif.Props.Provenance
/-!
# Property C177: what holds after a repositioning in place

When no contact can be placed contact generation repositions the robot in place (`repositionContacts`, contact_generation.cc:843-928; `handleFailure`, algorithm.cc:99-108): a user relies on the state obtained in this way being
checked as the others, and on the whole plan being free of collision.
-/
set_option linter.unusedSectionVars false
namespace Rbprm
namespace Interp
open State Contact
variable {N K Smp O : Type _} [LinearOrder N] [CommRing K] [LinearOrder K] [DecidableEq O]

/-! ## Specification -/

/-- every contact of `s` is a contact of `previous`, with the same position, normal and rotation -/
def Kept (previous s : State N K) : Prop := ∀ n d, HasContact s n d → HasContact previous n d

/-- limbs are moved, one after the other, to postures of their databases in which they are free of collision -/
inductive Rearranged (env : Env N K Smp) (c : List K) : List K → Prop
  | same : Rearranged env c c
  | limb (l : N) (c1 c2 : List K) : Rearranged env c c1 → l ∈ env.limbs → c2 ∈ loadedConfigs env (env.limbSamples l) c1 → env.limbValid l c2 = true → Rearranged env c c2

/-- What was checked of the state `s` obtained by repositioning the robot of `previous` in place: some contacts were released and their limbs rearranged, the others are as before, and one was placed, with the checks of contact
generation but for reachability. -/
def Replaced (env : Env N K Smp) (thr : K) (extraDim : Nat) (previous s : State N K) : Prop :=
  ∃ base limb smp cfg root, WellFormed env.limbs base ∧ Kept previous base ∧ Rearranged env previous.configuration base.configuration ∧
    PlacedContact env thr false true previous base limb smp cfg ∧ SameContactData s (withContact env base limb smp cfg) ∧ s.configuration = copyTail extraDim cfg root

/-- what holds when repositioning fails: contacts were released and their limbs rearranged -/
def Given (env : Env N K Smp) (previous s : State N K) : Prop := Kept previous s ∧ Rearranged env previous.configuration s.configuration

/-- the joints whose collisions with the obstacles are not tested when the limb they belong to is placed, since the user disabled them (see `Spared`) -/
def Excused (B : Bodies N K O) (n : N) : Prop := ∃ x ∈ B.limbs, Spared x.2 n

/-- samples of the database of a limb are loaded in this limb (`C173_load`) -/
def LoadsInLimb (env : Env N K Smp) (B : Bodies N K O) : Prop :=
  ∀ x ∈ B.limbs, ∀ smp ∈ env.limbSamples x.1, ∀ q, Joints.AgreeOutside B.root x.2.joint (env.load smp q) q

/-! ## Proofs -/

theorem Kept.refl (s : State N K) : Kept s s := fun _ _ h => h

theorem Rearranged.trans {env : Env N K Smp} {a b c : List K} (h1 : Rearranged env a b) (h2 : Rearranged env b c) : Rearranged env a c := by
  induction h2 with
  | same => exact h1
  | limb l c1 c2 _ g1 g2 g3 ih => exact .limb l c1 c2 ih g1 g2 g3

theorem setCollisionFree_rearranged (env : Env N K Smp) {l : N} (hl : l ∈ env.limbs) (s : State N K) : Rearranged env s.configuration (setCollisionFree env l s).result.configuration := by
  unfold setCollisionFree
  split_ifs with h
  · exact .same
  · split
    · rename_i c hc
      have := (firstFreeSample_spec env l (env.limbSamples l) s.configuration).1 c hc
      exact .limb l _ _ .same hl this.1 this.2
    · exact .same

theorem generateContact_none (env : Env N K Smp) (postural : Bool) (params : State N K) (h : Helper N K) (limb : N) (hs : (generateContact env postural params h limb).status = .noContact) :
    (generateContact env postural params h limb).result = (setCollisionFree env limb { h.workingState with stable := false }).result := by
  unfold generateContact at hs ⊢
  have key : ∀ r : State N K × Search K × Bool, r = findValidCandidate env postural params h limb → r.2.1.foundSample = false → r.2.1.foundStable = false → r.2.1.unstableContact = false →
      r.1 = { h.workingState with stable := false } := by
    intro r hr h1 h2 h3
    unfold findValidCandidate at hr
    simp only at hr
    split_ifs at hr <;>
    · rw [hr] at h1 h2 h3 ⊢
      simp only [findPass] at h1 h2 h3 ⊢
      simp [buildState, h1, h2, h3]
  generalize findValidCandidate env postural params h limb = r at hs key ⊢
  simp only at hs ⊢
  split_ifs at hs with h1 h2 h3
  rw [if_neg h1, if_neg h2, if_neg h3, key r rfl (Bool.eq_false_of_not_eq_true h1) (Bool.eq_false_of_not_eq_true h2) (Bool.eq_false_of_not_eq_true h3)]

theorem generateContact_any (env : Env N K Smp) (postural : Bool) (params : State N K) (h : Helper N K) (limb : N) (hlimb : limb ∈ env.limbs) (hfree : h.workingState.contacts.find? limb ≠ some true)
    (h0 : postural = false ∨ h.testReachability = false) (h1 : h.checkStabilityGenerate = true) (h2 : h.stableForOneContact = false) (h3 : h.contactIfFails = false) (h4 : h.workingState.stable = false)
    (hs : (generateContact env postural params h limb).status ≠ .noContact) :
    ∃ smp cfg, PlacedContact env h.robustnessTreshold false true h.previousState h.workingState limb smp cfg ∧
      (generateContact env postural params h limb).result = { withContact env h.workingState limb smp cfg with nbContacts := h.workingState.nbContacts, stable := true } := by
  have hw : ({ h.workingState with stable := false } : State N K) = h.workingState := by rw [← h4]
  have hreq : 1 ≤ h.workingState.nbContacts → StabilityRequired h := fun hn => ⟨h1, by omega⟩
  have main : ∀ t ∈ attempts env postural params h limb, t.ok = true → (1 ≤ h.workingState.nbContacts → Robust env h (t.state env h.workingState limb)) →
      (generateContact env postural params h limb).result = t.returned env h limb true → ∃ smp cfg, PlacedContact env h.robustnessTreshold false true h.previousState h.workingState limb smp cfg ∧
      (generateContact env postural params h limb).result = { withContact env h.workingState limb smp cfg with nbContacts := h.workingState.nbContacts, stable := true } := by
    intro t ht hok hrob hres
    obtain ⟨p, q, k0, k1, k2, k3⟩ := attempts_ok env postural params h h4 limb t ht hok
    have hstate : t.state env h.workingState limb = withContact env h.workingState limb t.smp t.config := by
      unfold Trial.state withContact; rw [hw]
    refine ⟨t.smp, t.config, ⟨hlimb, hfree, ⟨p, params, q, k0, k1, k2⟩, k3, fun hn => ?_, fun _ hh => by cases hh⟩, ?_⟩
    · rw [← hstate]; exact hrob hn
    · rw [hres]; unfold Trial.returned; rw [hstate]
  have hclean : postural = true → CleanFirstPass env params h limb := by
    intro hp t _
    refine ⟨fun hst => hst.2.2.2 fun htr => ?_, fun hc => by rw [h3] at hc; cases hc.1⟩
    rcases h0 with h0 | h0
    · rw [h0] at hp; cases hp
    · rw [h0] at htr; cases htr
  cases hst : (generateContact env postural params h limb).status with
  | reachable =>
    obtain ⟨_, t, ⟨pre, post, e, hg, _⟩, hres⟩ := (C17_reachable env postural params h limb).1 hst
    exact main t (by rw [e]; simp) hg.1 (fun hn => (hg.2 (hreq hn)).1) hres
  | stable =>
    obtain ⟨_, _, t, ⟨pre, post, e, hg, _⟩, hres⟩ := (C17_generate_contact_partial env postural params h limb hclean).1 hst
    exact main t (by rw [e]; simp) hg.1 (fun _ => hg.2.2.1) hres
  | unstable => rw [unstable_contactIfFails env postural params h limb hst] at h3; cases h3
  | noContact => exact absurd hst hs

/-- the loop of the repositioning -/
theorem repositionLoop_checked (env : Env N K Smp) (hgr : ∀ n, ∀ m ∈ env.group n, m ∈ env.limbs) (postural : Bool) (previous : State N K) (order : List N) (s : State N K) (popped : List N) (name : Option N)
    (h : Helper N K) (hs : WellFormed env.limbs s) (hk : Kept previous s) (hr : Rearranged env previous.configuration s.configuration) (hst : s.stable = false)
    (h0 : postural = false ∨ h.testReachability = false) (h1 : h.checkStabilityGenerate = true) (h2 : h.stableForOneContact = false) (h3 : h.contactIfFails = false) (h4 : h.previousState = previous) :
    let r := repositionLoop env postural previous.configuration order s popped name h
    (r.1.stable = true → ∃ base limb smp cfg, WellFormed env.limbs base ∧ Kept previous base ∧ Rearranged env previous.configuration base.configuration ∧
      PlacedContact env h.robustnessTreshold false true previous base limb smp cfg ∧ r.1 = { withContact env base limb smp cfg with nbContacts := base.nbContacts, stable := true }) ∧
    (r.1.stable = false → Given env previous r.1) := by
  induction order generalizing s popped name h with
  | nil =>
    refine ⟨fun hh => ?_, fun _ => ⟨hk, hr⟩⟩
    rw [show (repositionLoop env postural previous.configuration [] s popped name h).1 = s from rfl, hst] at hh
    cases hh
  | cons prev order ih =>
    simp only [repositionLoop, hst, Bool.false_eq_true, if_false]
    cases hg : env.group prev with
    | nil => exact ih _ _ _ h (hs.same_maps rfl rfl rfl rfl rfl) (fun n d hd => hk n d (hd.congr rfl rfl rfl)) .same rfl h0 h1 h2 h3 h4
    | cons limb more =>
      have hlimb : limb ∈ env.limbs := hgr prev limb (by rw [hg]; simp)
      set s1 := (s.removeContact limb).1 with hs1
      have w1 : WellFormed env.limbs s1 := (hs.removeContact limb).1
      have k1 : Kept previous s1 := fun n d hd => hk n d hd.of_removeContact
      have c1 : s1.configuration = s.configuration := by rw [hs1]; unfold State.removeContact; split_ifs <;> rfl
      have t1 : s1.stable = false := by rw [hs1]; unfold State.removeContact; split_ifs <;> first | exact hst | rfl
      have f1 : s1.contacts.find? limb ≠ some true := by
        rw [hs1]; unfold State.removeContact
        split_ifs with hh
        · simp [AMap.find?_erase]
        · intro hc
          exact hh (AMap.has_iff.2 (AMap.find?_isSome.1 (by rw [hc]; rfl)))
      simp only
      set h' : Helper N K := { h with workingState := s1 } with hh'
      by_cases hn : (generateContact env postural h'.workingState h' limb).status = .noContact
      · have e := generateContact_none env postural h'.workingState h' limb hn
        have e0 : (generateContact env postural h'.workingState h' limb).result =
            { s1 with stable := false, configuration := (generateContact env postural h'.workingState h' limb).result.configuration } := by
          rw [e, (C15_setCollisionFree env limb _).1]
        refine ih _ popped (some limb) h' (w1.same_maps ?_ ?_ ?_ ?_ ?_) (fun n d hd => k1 n d (hd.congr ?_ ?_ ?_)) ?_ ?_ h0 h1 h2 h3 h4
        any_goals (rw [e0])
        rw [e]
        refine (c1 ▸ hr : Rearranged env previous.configuration s1.configuration).trans ?_
        exact setCollisionFree_rearranged env hlimb { s1 with stable := false }
      · obtain ⟨smp, cfg, g1, g2⟩ := generateContact_any env postural h'.workingState h' limb hlimb f1 h0 h1 h2 h3 t1 hn
        have hstop : ∀ o, repositionLoop env postural previous.configuration o (generateContact env postural h'.workingState h' limb).result popped (some limb) h' =
            ((generateContact env postural h'.workingState h' limb).result, o, popped, some limb, h') := by
          intro o
          cases o with
          | nil => rfl
          | cons a b => simp [repositionLoop, g2]
        rw [hstop]
        refine ⟨fun _ => ⟨s1, limb, smp, cfg, w1, k1, c1 ▸ hr, ?_, g2⟩, fun hh => ?_⟩
        · rw [← h4]; exact g1
        · rw [g2] at hh; cases hh

/-- **C177 (one step; partial: not when the postural task is combined with the test of reachability, `C17_postural_violated`)** Whatever the robot, the obstacles and the solvers answer, a state given by contact generation by
repositioning the robot in place, from a state with complete contact data, is checked as above if this succeeded; otherwise contacts were released and limbs rearranged.  What is missing: reachability, and equilibrium if all other
contacts were released, see the violations. -/
theorem C177_step_partial (env : Env N K Smp) (hl : env.limbs.Nodup) (hgr : ∀ n, ∀ m ∈ env.group n, m ∈ env.limbs) (postural : Bool) (fuel : Nat) (previous : State N K) (hp : WellFormed env.limbs previous)
    (configuration : List K) (thr : K) (extraDim : Nat) (tr qs : Bool) (h0 : postural = false ∨ tr = false) (rep : ContactReport N K)
    (hr : computeContacts env postural fuel previous configuration thr extraDim tr qs = some rep) (hre : rep.repositionedInPlace = true) :
    (rep.success = true → Replaced env thr extraDim previous rep.result) ∧ (rep.success = false → Given env previous rep.result) := by
  unfold computeContacts at hr
  rw [Option.map_eq_some_iff] at hr
  obtain ⟨r0, hr0, hr⟩ := hr
  set h := computeHelper previous configuration thr tr qs with hh
  have hws : WellFormed env.limbs h.workingState := hp.same_maps rfl rfl rfl rfl rfl
  obtain ⟨_, _, _, _, c5⟩ := C21_report env hl postural fuel h r0 hr0 hp.sound.toMapsOk hws.sound.toMapsOk (fun c hc => by simp [hh, computeHelper, Helper.create] at hc)
  have hre0 : r0.repositionedInPlace = true := by rw [← hr] at hre; split_ifs at hre <;> exact hre
  obtain ⟨h', f1, -, -, f2⟩ := c5 hre0
  have hset : SameSetup h (genFromMaintain env postural h').2 := (f1.setup hl).trans (genFromMaintain_queue env hl postural h').1
  set h2 : Helper N K := { (genFromMaintain env postural h').2 with workingState := h.previousState } with hh2
  have hset2 : h2 = { h with workingState := previous, candidates := h2.candidates } := by rw [hh2, hset]; rfl
  have hloop := repositionLoop_checked env hgr postural previous previous.contactOrder { previous with stable := false } [] none h2
    (hp.same_maps rfl rfl rfl rfl rfl) (fun n d hd => hd.congr rfl rfl rfl) .same rfl (by rw [hset2]; exact h0) (by rw [hset2]; rfl) (by rw [hset2]; rfl) (by rw [hset2]; rfl) (by rw [hset2]; rfl)
  have hthr : h2.robustnessTreshold = thr := by rw [hset2]; rfl
  rw [hthr] at hloop
  have e1 : h2.workingState = previous := by rw [hset2]
  have e2 : h2.previousState = previous := by rw [hset2]; rfl
  have hsucc : r0.success = (repositionLoop env postural previous.configuration previous.contactOrder { previous with stable := false } [] none h2).1.stable ∧
      ∃ order, r0.result = { (repositionLoop env postural previous.configuration previous.contactOrder { previous with stable := false } [] none h2).1 with contactOrder := order } := by
    have e3 : r0.success = r0.toReport.success := rfl
    have e4 : r0.result = r0.toReport.result := rfl
    rw [e3, e4, f2]
    unfold repositionContacts
    simp only [e1, e2]
    exact ⟨trivial, _, rfl⟩
  generalize repositionLoop env postural previous.configuration previous.contactOrder { previous with stable := false } [] none h2 = r at hloop hsucc
  obtain ⟨s1, order, s2⟩ := hsucc
  refine ⟨fun hs => ?_, fun hs => ?_⟩
  · have hs0 : r0.success = true := by rw [← hr] at hs; split_ifs at hs <;> exact hs
    rw [hs0, if_pos rfl] at hr
    obtain ⟨base, limb, smp, cfg, g1, g2, g3, g4, g5⟩ := hloop.1 (by rw [← s1]; exact hs0)
    refine ⟨base, limb, smp, cfg, configuration, g1, g2, g3, g4, ?_, ?_⟩
    · rw [← hr]
      simp only [s2, g5]
      exact ⟨rfl, rfl, rfl, rfl⟩
    · rw [← hr]
      simp only [s2, g5]
      rfl
  · have hs0 : r0.success = false := by rw [← hr] at hs; split_ifs at hs <;> exact hs
    rw [hs0, if_neg (by simp)] at hr
    obtain ⟨g1, g2⟩ := hloop.2 (by rw [← s1]; exact hs0)
    rw [← hr, s2]
    exact ⟨fun n d hd => g1 n d (hd.congr rfl rfl rfl), g2⟩

/-- the states of the loop -/
theorem Grown.replaced {env : Env N K Smp} (hl : env.limbs.Nodup) (hgr : ∀ n, ∀ m ∈ env.group n, m ∈ env.limbs) {thr : K} {extraDim : Nat} {tr qs postural : Bool} (h0 : postural = false ∨ tr = false)
    {compute : Compute N K} (hc : IsComputeContacts env postural thr extraDim tr qs compute) {sv : Solvers N K} {configs : List (List K)} {ts init : K} {prev f : Frame N K} {rep : ContactReport N K}
    (hw : WellFormed env.limbs prev.2) (hp : Produces sv compute configs ts init prev rep f) (hre : rep.repositionedInPlace = true) :
    Replaced env thr extraDim prev.2 f.2 ∨ rep.success = false ∧ Given env prev.2 f.2 := by
  obtain ⟨i, c, body, v, _, _, _, hrep, hf, _, _⟩ := hp
  obtain ⟨fuel, hfu⟩ := hc prev.2 (loadPrevious sv.extraDim body c) v hw.sound
  rw [← hrep] at hfu
  obtain ⟨g1, g2⟩ := C177_step_partial env hl hgr postural fuel prev.2 hw _ thr extraDim tr qs h0 rep hfu hre
  rw [hf]
  cases hs : rep.success with
  | true =>
    obtain ⟨base, limb, smp, cfg, root, k1, k2, k3, k4, k5, k6⟩ := g1 hs
    exact Or.inl ⟨base, limb, smp, cfg, root, k1, k2, k3, k4, k5, k6⟩
  | false =>
    obtain ⟨k1, k2⟩ := g2 hs
    exact Or.inr ⟨rfl, fun n d hd => k1 n d (hd.congr rfl rfl rfl), k2⟩

/-- **C177 (whole plan; partial)**: as C168, but also the states after a repositioning are checked, unless it failed. -/
theorem C177_plan_partial [IsStrictOrderedRing K] (env : Env N K Smp) (hl : env.limbs.Nodup) (hgr : ∀ n, ∀ m ∈ env.group n, m ∈ env.limbs)
    (thr : K) (extraDim : Nat) (tr qs : Bool) (compute : Compute N K) (postural : Bool) (h0 : postural = false ∨ tr = false)
    (hc : IsComputeContacts env postural thr extraDim tr qs compute)
    (sv : Solvers N K) (configs : List (List K)) (hne : configs ≠ [])
    (ts init : K) (hts : 0 ≤ ts) (start goal : State N K) (hs : WellFormed env.limbs start)
    (pathEnd : Option K) (deep p : Bool) (fuel : Nat) (plan : List (Frame N K))
    (h : interpolate sv compute postural start goal pathEnd configs ts init deep fuel = (.done plan, p)) :
    ∀ f ∈ plan, f = (init, start) ∨ f.2 = goal ∨ (∃ s limb, MovesLimb sv goal s limb f.2) ∨ (deep = true ∧ Rebuilt sv f.2) ∨
      ∃ prev : Frame N K, WellFormed env.limbs prev.2 ∧
        (Checked env thr tr qs extraDim prev.2 f.2 ∨ Replaced env thr extraDim prev.2 f.2 ∨
          (∃ rep, Produces sv compute configs ts init prev rep f ∧ rep.repositionedInPlace = true ∧ rep.success = false) ∧ Given env prev.2 f.2) := by
  intro f hf
  rcases C168_plan_partial env hl hgr thr extraDim tr qs compute postural hc sv configs hne ts init hts start goal hs pathEnd deep p fuel plan h f hf with
    h | h | h | h | ⟨prev, hw, ⟨rep, h1, h2⟩ | h⟩
  · exact Or.inl h
  · exact Or.inr (Or.inl h)
  · exact Or.inr (Or.inr (Or.inl h))
  · exact Or.inr (Or.inr (Or.inr (Or.inl h)))
  · refine Or.inr (Or.inr (Or.inr (Or.inr ⟨prev, hw, Or.inr ?_⟩)))
    rcases Grown.replaced hl hgr h0 hc hw h1 h2 with k | ⟨k1, k2⟩
    · exact Or.inl k
    · exact Or.inr ⟨⟨rep, h1, h2, k1⟩, k2⟩
  · exact Or.inr (Or.inr (Or.inr (Or.inr ⟨prev, hw, Or.inl h⟩)))

/-! ## Collisions -/

theorem FreeExcept.mono {B : Bodies N K O} {ex ex' : N → Prop} (hsub : ∀ n, ex n → ex' n) {c : List K} (h : FreeExcept B ex c) : FreeExcept B ex' c :=
  ⟨h.self, fun n o hm hx => h.obstacles n o hm fun he => hx (hsub n he)⟩

/-- a limb is moved and tested -/
theorem moved_free {env : Env N K Smp} {B : Bodies N K O} (hu : UsesBodies env B) (hk : B.Kinematic) {x : N × Joints.Limb N} (hx : x ∈ B.limbs) {c cfg : List K}
    (hb : FreeExcept B (Excused B) c) (ha : Joints.AgreeOutside B.root x.2.joint cfg c) (hv : env.limbValid x.1 cfg = true) : FreeExcept B (Excused B) cfg := by
  obtain ⟨_, h1, h2⟩ := hu.limb x hx cfg hv
  refine ⟨h1, fun n o hm hsp => ?_⟩
  obtain ⟨ho, k, hkb, rfl⟩ := tested_joint hm
  by_cases hin : Joints.Below x.2.joint k
  · refine h2 (k.name, o) ?_
    cases hdis : x.2.disable with
    | false => exact (Joints.C129_all _ _ _ _ _).2 ⟨ho, k, hin, rfl⟩
    | true =>
      refine (Joints.C129_disabled _ _ _ (Joints.below_nodup (hk.limbs x hx) hk.distinct) _ _).2 ⟨ho, k, hin, rfl, fun hc => hsp ⟨x, hx, hdis, k, hin, rfl, Or.inl hc⟩, fun s s1 s2 s3 => ?_⟩
      exact hsp ⟨x, hx, hdis, k, hin, rfl, Or.inr ⟨s, s1, s2, s3⟩⟩
  · rw [← hb.obstacles _ o hm hsp]
    exact hk.joint _ _ k o hkb (fun j hj hjk => ha j hj (fun hlj => hin (hlj.trans hjk)))

theorem loaded_agree {env : Env N K Smp} {B : Bodies N K O} (hld : LoadsInLimb env B) {x : N × Joints.Limb N} (hx : x ∈ B.limbs) (l : List Smp) (hl : ∀ smp ∈ l, smp ∈ env.limbSamples x.1) (c c' : List K)
    (h : c' ∈ loadedConfigs env l c) : Joints.AgreeOutside B.root x.2.joint c' c := by
  induction l generalizing c with
  | nil => cases h
  | cons smp l ih =>
    have h1 := hld x hx smp (hl smp (List.mem_cons_self ..)) c
    rcases List.mem_cons.1 h with rfl | h
    · exact h1
    · exact (ih (fun s hs => hl s (List.mem_cons_of_mem _ hs)) _ h).trans h1

theorem Rearranged.free {env : Env N K Smp} {B : Bodies N K O} (hu : UsesBodies env B) (hk : B.Kinematic) (hld : LoadsInLimb env B) {c c' : List K} (h : Rearranged env c c')
    (hc : FreeExcept B (Excused B) c) : FreeExcept B (Excused B) c' := by
  induction h with
  | same => exact hc
  | limb l c1 c2 _ g1 g2 g3 ih =>
    obtain ⟨d, hd⟩ := hu.known l g1
    exact moved_free hu hk hd ih (loaded_agree hld hd _ (fun _ h => h) c1 c2 g2) g3

theorem Replaced.free {env : Env N K Smp} {B : Bodies N K O} (hu : UsesBodies env B) (hk : B.Kinematic) (hld : LoadsInLimb env B) {thr : K} {extraDim : Nat} (he : extraDim ≤ B.extra)
    {previous s : State N K} (h : Replaced env thr extraDim previous s) (hp : FreeExcept B (Excused B) previous.configuration) : FreeExcept B (Excused B) s.configuration := by
  obtain ⟨base, limb, smp, cfg, root, -, -, h1, h2, -, h3⟩ := h
  obtain ⟨l, hl⟩ := hu.known limb h2.known
  obtain ⟨p, params, c, g1, g2, g3⟩ := h2.projected
  have ht : Tried env base limb cfg := by
    have := Tried.next p params smp c g1 g2
    rwa [g3] at this
  rw [h3]
  exact free_copyTail hk (moved_free hu hk hl (h1.free hu hk hld hp) (tried_agree hu hk hl ht) h2.valid) (hu.limb _ hl cfg h2.valid).1 extraDim he root

theorem Free.excused {B : Bodies N K O} {s : State N K} (h : Free B s) : FreeExcept B (Excused B) s.configuration := by
  rcases h with h | ⟨x, hx, -, h⟩
  · exact h.mono fun _ h => h.elim
  · exact h.mono fun n hn => ⟨x, hx, hn⟩

/-- **C177 (collisions, one step; partial as above)**: from a state free of collision, contact generation returns a state free of collision, whether it repositions the robot or not, and whether this succeeds or not: all that the
validation of the robot tests, but the ends of limbs whose collisions were disabled. -/
theorem C177_free_step_partial (env : Env N K Smp) (B : Bodies N K O) (hu : UsesBodies env B) (hk : B.Kinematic) (hld : LoadsInLimb env B) (hl : env.limbs.Nodup)
    (hgr : ∀ n, ∀ m ∈ env.group n, m ∈ env.limbs) (postural : Bool) (fuel : Nat) (previous : State N K)
    (hp : WellFormed env.limbs previous) (configuration : List K) (thr : K) (extraDim : Nat) (he : extraDim ≤ B.extra) (tr qs : Bool) (h0 : postural = false ∨ tr = false) (rep : ContactReport N K)
    (hr : computeContacts env postural fuel previous configuration thr extraDim tr qs = some rep) (hf : FreeExcept B (Excused B) previous.configuration) :
    FreeExcept B (Excused B) rep.result.configuration := by
  cases hre : rep.repositionedInPlace with
  | false => exact (C174_step env B hu hk hl postural fuel previous hp configuration thr extraDim he tr qs rep hr hre).2.excused
  | true =>
    obtain ⟨g1, g2⟩ := C177_step_partial env hl hgr postural fuel previous hp configuration thr extraDim tr qs h0 rep hr hre
    cases hs : rep.success with
    | true => exact (g1 hs).free hu hk hld he hf
    | false => exact (g2 hs).2.free hu hk hld hf

theorem Grown.free {env : Env N K Smp} {B : Bodies N K O} (hu : UsesBodies env B) (hk : B.Kinematic) (hld : LoadsInLimb env B) (hl : env.limbs.Nodup) (hgr : ∀ n, ∀ m ∈ env.group n, m ∈ env.limbs)
    {thr : K} {extraDim : Nat} (he : extraDim ≤ B.extra) {tr qs postural : Bool} (h0 : postural = false ∨ tr = false) {compute : Compute N K}
    (hc : IsComputeContacts env postural thr extraDim tr qs compute) {sv : Solvers N K} {configs : List (List K)} {ts init : K} {start : State N K} (hstart : FreeExcept B (Excused B) start.configuration)
    {states : List (Frame N K)} {reps : List (ContactReport N K)} (h : Grown sv compute configs ts init start states reps) (hs : ∀ f ∈ states, WellFormed env.limbs f.2) :
    ∀ f ∈ states, FreeExcept B (Excused B) f.2.configuration := by
  induction h with
  | start => intro f hf; rw [List.mem_singleton.1 hf]; exact hstart
  | @push states reps prev rep f h1 h2 h3 ih =>
    have ih' := ih fun f hf => hs f (List.mem_append_left _ hf)
    intro g hg
    rcases List.mem_append.1 hg with hg | hg
    · exact ih' g hg
    · rw [List.mem_singleton] at hg
      subst hg
      have hm := List.mem_of_getLast? h2
      have hw := hs prev (List.mem_append_left [g] hm)
      obtain ⟨i, c, body, v, _, _, _, hrep, hf, _, _⟩ := h3
      obtain ⟨fuel, hfu⟩ := hc prev.2 (loadPrevious sv.extraDim body c) v hw.sound
      rw [← hrep] at hfu
      rw [hf]
      exact C177_free_step_partial env B hu hk hld hl hgr postural fuel prev.2 hw _ thr extraDim he tr qs h0 rep hfu (ih' prev hm)

/-- **C177 (collisions, whole plan; partial as above)**: if the start and the goal are free of collision then all states of a plan are, with or without repositionings and deep filtering: all that the validation of the robot
tests, but the ends of limbs whose collisions were disabled. -/
theorem C177_free_plan_partial [IsStrictOrderedRing K] (env : Env N K Smp) (B : Bodies N K O) (hu : UsesBodies env B) (hk : B.Kinematic) (hld : LoadsInLimb env B)
    (hl : env.limbs.Nodup) (hgr : ∀ n, ∀ m ∈ env.group n, m ∈ env.limbs)
    (thr : K) (extraDim : Nat) (he : extraDim ≤ B.extra) (tr qs : Bool) (compute : Compute N K) (postural : Bool) (h0 : postural = false ∨ tr = false)
    (hc : IsComputeContacts env postural thr extraDim tr qs compute)
    (sv : Solvers N K) (hsv : SharesValidation env sv) (configs : List (List K)) (hne : configs ≠ [])
    (ts init : K) (hts : 0 ≤ ts) (start goal : State N K) (hs : WellFormed env.limbs start)
    (hstart : FreeExcept B (Excused B) start.configuration) (hgoal : FreeExcept B (Excused B) goal.configuration)
    (pathEnd : Option K) (deep p : Bool) (fuel : Nat) (plan : List (Frame N K))
    (h : interpolate sv compute postural start goal pathEnd configs ts init deep fuel = (.done plan, p)) :
    ∀ f ∈ plan, FreeExcept B (Excused B) f.2.configuration := by
  have hfull : ∀ c, env.fullValid c = true → FreeExcept B (Excused B) c := fun c hc => ⟨(hu.full c hc).2.1, fun n o hm _ => (hu.full c hc).2.2 _ hm⟩
  have hreb : ∀ s, Rebuilt sv s → FreeExcept B (Excused B) s.configuration := fun s h => by
    obtain ⟨_, _, _, _, _, _, _, _, h3⟩ := h
    exact hfull _ (hsv.full _ h3)
  have hloop : ∀ b w, mainLoop sv compute configs ts fuel (Loop.start start init) = some (b, w) → ∀ f ∈ w.states, FreeExcept B (Excused B) f.2.configuration := by
    intro b w hm
    have hw := mainLoop_wellFormed env hl hgr thr extraDim tr qs compute postural hc sv configs hne ts init hts start hs fuel b w hm
    obtain ⟨reps, hg, _⟩ := C24_loop sv compute configs ts init hts hne start Sound hs.sound (computeContacts_good hl hc).1 (computeContacts_good hl hc).2 fuel b w hm
    exact hg.free hu hk hld hl hgr he h0 hc hstart hw
  have hend : ∀ (whole : List (Frame N K)) f, f ∈ plan → filterStates sv fuel deep whole = .done plan → f ∈ whole ∨ Rebuilt sv f.2 := by
    intro whole f hf hfil
    have hfl := C27_filter_partial sv fuel deep whole plan hfil
    cases hd : deep with
    | false => exact Or.inl ((hfl.2.1 hd).subset hf)
    | true => exact hfl.1.origin f hf
  intro f hf
  unfold interpolate at h
  split at h
  · cases h
  · rename_i w hm
    rcases hend _ f hf (Prod.mk.inj h).1 with hf | hf
    · exact hloop _ w hm f hf
    · exact hreb _ hf
  · rename_i w hm
    split_ifs at h
    · split at h
      · cases h
      · rename_i l p' hadd
        obtain ⟨_, moved, added, tail, rfl, hmv, _, _, htail⟩ := C28_goal_partial sv postural goal pathEnd _ _ l p' hadd
        rcases hend _ f hf (Prod.mk.inj h).1 with hf | hf
        swap
        · exact hreb _ hf
        rcases List.mem_append.1 hf with hf | hf
        · rcases List.mem_append.1 hf with hf | hf
          · exact hloop _ w hm f hf
          · obtain ⟨_, _, _, _, _, cfg, _, _, _, _, _, h4, h5⟩ := hmv.moves f hf
            rw [h5]
            exact hfull cfg (hsv.effector _ _ _ _ _ _ _ _ _ h4)
        · rcases htail with ⟨_, rfl⟩ | ⟨_, rfl⟩
          · rw [List.mem_singleton] at hf
            subst hf
            exact hgoal
          · cases hf
    · cases (Prod.mk.inj h).1
      exact hloop _ w hm f hf

/-! ## Equilibrium -/

/-- **C177 (equilibrium)**: after a successful repositioning with at least two contacts the state is in equilibrium on its recorded contacts, with the required robustness. -/
theorem C177_balanced {N K Smp : Type _} [LinearOrder N] [Field K] [LinearOrder K] [IsStrictOrderedRing K] (env : Env N K Smp) (stab : Stability.StabEnv N K) (sv : Stability.Solver K)
    (hu : UsesIsStable env stab sv) (hmax : 0 < stab.maxDouble) (thr : K) (hthr : 0 ≤ thr) (extraDim : Nat) (previous s : State N K) (h : Replaced env thr extraDim previous s)
    (h2 : 2 ≤ s.contacts.length) : Balanced stab sv thr extraDim s := by
  obtain ⟨base, limb, smp, cfg, root, hw, -, -, g, h4, h5⟩ := h
  have hk : limb ∉ base.contacts.keys := fun hk => by
    obtain ⟨v, hv⟩ := Option.isSome_iff_exists.1 (AMap.find?_isSome.2 hk)
    exact g.free (by rw [hv, hw.sound.active limb v hv])
  have hn : 1 ≤ base.nbContacts := by
    rw [h4.1] at h2
    have e : (withContact env base limb smp cfg).contacts = base.contacts.set limb true := rfl
    rw [e, AMap.length_set_of_not_mem true hk] at h2
    rw [hw.counter]
    omega
  have h3 := g.robust hn
  obtain ⟨hlen, acc, r, k1, k2⟩ := hu _ (fun e => by rw [e] at h3; exact absurd h3 (by simp))
  rw [k2] at h3
  exact isStable_balanced stab sv hmax thr hthr extraDim s _ h4 ⟨root, h5⟩ hlen acc r (WithBot.coe_le_coe.1 h3) k1

/-! ## Examples and violations -/

theorem tripod_wellFormed : WellFormed tripodEnv.limbs tripodState := by
  refine ⟨⟨⟨?_, ?_, ?_, ?_⟩, ?_, ?_, ?_, ?_⟩, ?_, ?_⟩
  any_goals (first | decide | (unfold AMap.WF; decide))
  intro n b h
  have := AMap.find?_some_mem h
  simp [tripodState, State.addContact, State.init, AMap.set] at this
  tauto

theorem tripod_loads : LoadsInLimb tripodEnv tripodBodies := by
  intro x hx smp hs q j h1 h2
  have hx' : x.1 ∈ [1, 2, 3] ∧ x.2 = tripodLeg x.1 := by
    simp only [tripodBodies, List.mem_cons, List.not_mem_nil, or_false] at hx
    rcases hx with rfl | rfl | rfl <;> exact ⟨by decide, rfl⟩
  rw [hx'.2] at h2
  obtain ⟨e1, e2, e3⟩ := tripod_outside x.1 hx'.1 j h1 h2
  have hsm : smp.1 = x.1 := by
    change smp ∈ [(x.1, 5)] at hs
    rw [List.mem_singleton.1 hs]
  rw [e1]
  show Joints.segment ((q.set (2 * smp.1 - 1) smp.2).set (2 * smp.1) smp.2) j.rank 1 = _
  rw [hsm, segment_set _ _ _ _ e3, segment_set _ _ _ _ e2]

theorem tripod_start : FreeExcept tripodBodies (Excused tripodBodies) tripodState.configuration := by
  refine ⟨by decide, fun n o hm hx => ?_⟩
  have : ∀ p ∈ tripodBodies.tested, p.1 = 11 ∨ p.1 = 21 ∨ tripodBodies.hits tripodState.configuration p.1 p.2 = false := by decide
  have leaf : ∀ l ∈ [1, 2, 3], ∀ a b, (tripodLeg l).joint = .mk a (2 * l - 1) 1 [.mk b (2 * l) 1 []] → Spared (tripodLeg l) b := by
    intro l hl a b e
    refine ⟨?_, .mk b (2 * l) 1 [], ?_, rfl, Or.inl rfl⟩
    · simp only [List.mem_cons, List.not_mem_nil, or_false] at hl
      rcases hl with rfl | rfl | rfl <;> rfl
    · rw [e]
      exact .child (fun h => h) (List.mem_cons_self ..) (Joints.Below.refl _)
  rcases this (n, o) hm with h | h | h
  · exact absurd ⟨(1, tripodLeg 1), by simp [tripodBodies], by rw [show n = 11 from h]; exact leaf 1 (by decide) 10 11 rfl⟩ hx
  · exact absurd ⟨(2, tripodLeg 2), by simp [tripodBodies], by rw [show n = 21 from h]; exact leaf 2 (by decide) 20 21 rfl⟩ hx
  · exact h

/-- the hypotheses of `C177_step_partial` and of `C177_free_step_partial` are met: the robot hits itself in the configuration of the planner, and the first leg is put down again in place -/
example : UsesBodies tripodEnv tripodBodies ∧ tripodBodies.Kinematic ∧ LoadsInLimb tripodEnv tripodBodies ∧ tripodEnv.limbs.Nodup ∧ (∀ n, ∀ m ∈ tripodEnv.group n, m ∈ tripodEnv.limbs) ∧
    WellFormed tripodEnv.limbs tripodState ∧ FreeExcept tripodBodies (Excused tripodBodies) tripodState.configuration ∧
    ((computeContacts tripodEnv false 10 tripodState [8, 1, 1, 1, 9, 1, 1, 4] 3 1 true true).map fun r => (r.repositionedInPlace, r.success, r.result.contacts.keys, r.result.configuration)) =
      some (true, true, [1, 2], [0, 5, 9, 1, 9, 1, 1, 4]) := by
  refine ⟨tripod_uses, tripod_kinematic, tripod_loads, by decide, fun n m hm => ?_, tripod_wellFormed, tripod_start, by decide⟩
  simp only [tripodEnv] at hm
  split_ifs at hm with h
  · rw [List.mem_singleton] at hm
    rw [hm]
    exact h
  · cases hm

/-- **C177 is violated**: a repositioning succeeds with one contact, whose equilibrium is not tested; it is far below the threshold. -/
theorem C177_equilibrium_violated : ∃ rep, computeContacts tripodEnv false 10 tripodState [8, 1, 1, 1, 9, 1, 1, 4] 30 1 true true = some rep ∧ rep.success = true ∧ rep.repositionedInPlace = true ∧
    rep.result.contacts.keys = [2] ∧ tripodEnv.robustness rep.result < ((30 : ℤ) : WithBot ℤ) := by
  have hs : ((computeContacts tripodEnv false 10 tripodState [8, 1, 1, 1, 9, 1, 1, 4] 30 1 true true).map fun r => (r.success, r.repositionedInPlace, r.result.contacts.keys)) = some (true, true, [2]) := by decide
  obtain ⟨rep, h1, h2⟩ := Option.map_eq_some_iff.1 hs
  simp only [Prod.mk.injEq] at h2
  exact ⟨rep, h1, h2.1, h2.2.1, h2.2.2, by show ((5 : ℤ) : WithBot ℤ) < _; exact WithBot.coe_lt_coe.2 (by decide)⟩

/-- **C177 is violated**: a repositioning succeeds although the test of reachability is asked for and no state is reachable from another one. -/
theorem C177_reachability_violated : ∃ rep, computeContacts { tripodEnv with reachable := fun _ _ => false } false 10 tripodState [8, 1, 1, 1, 9, 1, 1, 4] 3 1 true true = some rep ∧ rep.success = true ∧
    rep.repositionedInPlace = true ∧ rep.result.contacts.keys = [1, 2] ∧ rep.result.configuration = [0, 5, 9, 1, 9, 1, 1, 4] := by
  have hs : ((computeContacts { tripodEnv with reachable := fun _ _ => false } false 10 tripodState [8, 1, 1, 1, 9, 1, 1, 4] 3 1 true true).map fun r =>
      (r.success, r.repositionedInPlace, r.result.contacts.keys, r.result.configuration)) = some (true, true, [1, 2], [0, 5, 9, 1, 9, 1, 1, 4]) := by decide
  obtain ⟨rep, h1, h2⟩ := Option.map_eq_some_iff.1 hs
  simp only [Prod.mk.injEq] at h2
  exact ⟨rep, h1, h2.1, h2.2.1, h2.2.2.1, h2.2.2.2⟩

end Interp
end Rbprm
