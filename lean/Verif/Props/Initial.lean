import Verif.Props.Reposition
/-!
# Property C179: what was checked of the initial state

`ComputeContacts` without a previous state (algorithm.cc:194-233) places the limbs one after the other from the configuration given: a user relies on the state returned being free of collision if this configuration is, and on the
state being in equilibrium.
-/
set_option linter.unusedSectionVars false
namespace Rbprm
namespace Interp
open State Contact
variable {N K Smp O : Type _} [LinearOrder N] [CommRing K] [LinearOrder K] [DecidableEq O]

/-! ## Specification -/

/-- The limbs of a list are placed one after the other, or rearranged when no contact is found for them: what was checked of each contact placed is what contact generation checks but for equilibrium and reachability; equilibrium is
tested for the last limb of the list, if there were contacts before. -/
inductive PlacedInTurn (env : Env N K Smp) (thr : K) : List N → State N K → State N K → Prop
  | nil (s) : PlacedInTurn env thr [] s s
  | skip (limb rest s s') : (∃ m ∈ env.group limb, Touches s m) → PlacedInTurn env thr rest s s' → PlacedInTurn env thr (limb :: rest) s s'
  | notFound (limb rest s c s') : (c = s.configuration ∨ c ∈ loadedConfigs env (env.limbSamples limb) s.configuration ∧ env.limbValid limb c = true) →
      PlacedInTurn env thr rest { s with configuration := c, stable := true } s' → PlacedInTurn env thr (limb :: rest) s s'
  | placed (limb rest s smp cfg s') : (∃ p params c, smp ∈ env.octree limb params { s with stable := false } ∧ Tried env { s with stable := false } limb c ∧
        env.applyEffector p limb smp (env.load smp c) { s with stable := false } = (true, cfg)) →
      env.limbValid limb cfg = true → (rest = [] → s.contacts ≠ [] → (thr : WithBot K) ≤ env.robustness (withContact env { s with stable := false } limb smp cfg)) →
      PlacedInTurn env thr rest { withContact env s limb smp cfg with stable := true } s' → PlacedInTurn env thr (limb :: rest) s s'

/-! ## Proofs -/

theorem generateContact_placed (env : Env N K Smp) (postural : Bool) (params : State N K) (h : Helper N K) (limb : N)
    (h0 : h.testReachability = false) (h3 : h.contactIfFails = false) (h4 : h.workingState.stable = false) (hs : (generateContact env postural params h limb).status ≠ .noContact) :
    ∃ smp cfg, (∃ p params c, smp ∈ env.octree limb params h.workingState ∧ Tried env h.workingState limb c ∧ env.applyEffector p limb smp (env.load smp c) h.workingState = (true, cfg)) ∧
      env.limbValid limb cfg = true ∧ (StabilityRequired h → (h.robustnessTreshold : WithBot K) ≤ env.robustness (withContact env h.workingState limb smp cfg)) ∧
      (generateContact env postural params h limb).result = { withContact env h.workingState limb smp cfg with nbContacts := h.workingState.nbContacts, stable := true } := by
  have hw : ({ h.workingState with stable := false } : State N K) = h.workingState := by rw [← h4]
  cases hst : (generateContact env postural params h limb).status with
  | reachable =>
    obtain ⟨_, t, ⟨pre, post, e, hg, _⟩, hres⟩ := (C17_reachable env postural params h limb).1 hst
    obtain ⟨p, q, k0, k1, k2, k3⟩ := attempts_ok env postural params h h4 limb t (by rw [e]; simp) hg.1
    have hstate : t.state env h.workingState limb = withContact env h.workingState limb t.smp t.config := by
      unfold Trial.state withContact; rw [hw]
    refine ⟨t.smp, t.config, ⟨p, params, q, k0, k1, k2⟩, k3, fun hq => ?_, ?_⟩
    · rw [← hstate]; exact (hg.2 hq).1
    · rw [hres]; unfold Trial.returned; rw [hstate]
  | stable =>
    have hclean : postural = true → CleanFirstPass env params h limb := fun _ => clean_of_untested env params h limb h0 h3
    obtain ⟨_, _, t, ⟨pre, post, e, hg, _⟩, hres⟩ := (C17_generate_contact_partial env postural params h limb hclean).1 hst
    exact absurd (fun htr : h.testReachability = true => by rw [h0] at htr; cases htr) hg.2.2.2
  | unstable => rw [unstable_contactIfFails env postural params h limb hst] at h3; cases h3
  | noContact => exact absurd hst hs

theorem initialLoop_placed (env : Env N K Smp) (postural : Bool) (thr : K) (limbs : List N) (s : State N K) (hc : Consistent s) (hnd : limbs.Nodup) (hd : ∀ n ∈ limbs, n ∉ s.contacts.keys) :
    PlacedInTurn env thr limbs s (initialLoop env postural thr limbs s) := by
  induction limbs generalizing s with
  | nil => exact .nil s
  | cons limb rest ih =>
    obtain ⟨hnd1, hnd2⟩ := List.nodup_cons.1 hnd
    have hlen : s.contactNormals.length = s.nbContacts := by
      have := congrArg List.length hc.normalsKeys
      simp only [AMap.keys, List.length_map] at this
      rw [this, hc.counter]
    have hfresh := hd limb (by simp)
    simp only [initialLoop]
    by_cases hg : contactExistsWithinGroup env limb s = true
    · rw [hg]
      simp only [Bool.not_true, Bool.false_eq_true, if_false]
      rw [hlen]
      refine .skip limb rest s _ ?_ (ih s hc hnd2 fun n hn => hd n (List.mem_cons_of_mem _ hn))
      unfold contactExistsWithinGroup at hg
      obtain ⟨m, h1, h2⟩ := List.any_eq_true.1 hg
      refine ⟨m, h1, ?_⟩
      obtain ⟨v, hv⟩ := Option.isSome_iff_exists.1 (AMap.find?_isSome.2 (AMap.has_iff.1 h2))
      exact ⟨v, hv⟩
    · rw [Bool.eq_false_of_not_eq_true hg]
      simp only [Bool.not_false, if_true]
      unfold computeStableContact
      simp only
      set h : Helper N K := { Helper.create s s.configuration thr 1 1 false rest.isEmpty false false with testReachability := false } with hh
      have hws : h.workingState = { s with stable := false } := rfl
      by_cases hn : (generateContact env postural s h limb).status = .noContact
      · have e := generateContact_none env postural s h limb hn
        have e0 := (C15_setCollisionFree env limb { h.workingState with stable := false })
        have e1 : ({ (generateContact env postural s h limb).result with stable := true, nbContacts := (generateContact env postural s h limb).result.contactNormals.length } : State N K) =
            { s with configuration := (setCollisionFree env limb { h.workingState with stable := false }).result.configuration, stable := true } := by
          rw [e, e0.1]
          simp only [hws, hlen]
        rw [e1]
        refine .notFound limb rest s _ _ ?_ (ih _ (Consistent.of_flags hc _ _) hnd2 fun n hn => hd n (List.mem_cons_of_mem _ hn))
        unfold setCollisionFree
        split_ifs
        · exact Or.inl rfl
        · split
          · rename_i c hcc
            exact Or.inr ((firstFreeSample_spec env limb (env.limbSamples limb) s.configuration).1 c hcc)
          · exact Or.inl rfl
      · obtain ⟨smp, cfg, g1, g2, g3, g4⟩ := generateContact_placed env postural s h limb rfl rfl rfl hn
        have hcons : Consistent ({ withContact env s limb smp cfg with stable := true } : State N K) := Consistent.of_flags (State.Consistent.addContact hc hfresh _ _ _ _) cfg true
        have e : ({ (generateContact env postural s h limb).result with stable := true, nbContacts := (generateContact env postural s h limb).result.contactNormals.length } : State N K) =
            { withContact env s limb smp cfg with stable := true } := by
          rw [g4]
          have : (s.contactNormals.set limb (env.normal smp)).length = s.nbContacts + 1 := by
            rw [AMap.length_set_of_not_mem _ (by rw [hc.normalsKeys]; exact hfresh), hlen]
          unfold withContact State.addContact
          simp only [hws]
          congr 1
        rw [e]
        refine .placed limb rest s smp cfg _ g1 g2 (fun hr hne => g3 ⟨by rw [hh, hr]; rfl, fun hx => hne ?_⟩) (ih _ hcons hnd2 fun n hn => ?_)
        · have h1 : s.nbContacts = 0 := by have := hx.1; simp only [hws] at this; omega
          rw [hc.counter] at h1
          exact List.length_eq_zero_iff.1 h1
        · intro hk
          rcases AMap.mem_keys_set.1 hk with hk | hk
          · exact hnd1 (hk ▸ hn)
          · exact hd n (List.mem_cons_of_mem _ hn) hk

/-- the state from which the limbs are placed: the configuration given, and no contact -/
def startingState (env : Env N K Smp) (configuration : List K) : State N K := { (State.init env.junkRob : State N K) with configuration := configuration }

/-- **C179** Whatever the robot, the obstacles and the solvers answer, the limbs of the initial state were placed one after the other from the configuration given, with the checks above. -/
theorem C179_placed (env : Env N K Smp) (hl : env.limbs.Nodup) (postural : Bool) (configuration : List K) (thr : K) :
    PlacedInTurn env thr env.limbs (startingState env configuration) (computeContactsInitial env postural configuration thr) :=
  initialLoop_placed env postural thr env.limbs _ (Consistent.of_flags (State.Consistent.init env.junkRob) configuration false) hl (by intro n _ hk; simp [startingState, State.init] at hk)

theorem PlacedInTurn.free {env : Env N K Smp} {B : Bodies N K O} (hu : UsesBodies env B) (hk : B.Kinematic) (hld : LoadsInLimb env B) {thr : K} {limbs : List N} {s s' : State N K}
    (h : PlacedInTurn env thr limbs s s') (hl : ∀ n ∈ limbs, n ∈ env.limbs) (hs : FreeExcept B (Excused B) s.configuration) : FreeExcept B (Excused B) s'.configuration := by
  induction h with
  | nil s => exact hs
  | skip limb rest s s' _ _ ih => exact ih (fun n hn => hl n (List.mem_cons_of_mem _ hn)) hs
  | notFound limb rest s c s' h1 _ ih =>
    refine ih (fun n hn => hl n (List.mem_cons_of_mem _ hn)) ?_
    rcases h1 with rfl | ⟨h1, h2⟩
    · exact hs
    · exact Rearranged.free hu hk hld (.limb limb _ c .same (hl limb (by simp)) h1 h2) hs
  | placed limb rest s smp cfg s' h1 h2 _ _ ih =>
    refine ih (fun n hn => hl n (List.mem_cons_of_mem _ hn)) ?_
    obtain ⟨p, params, c, g1, g2, g3⟩ := h1
    obtain ⟨l, hx⟩ := hu.known limb (hl limb (by simp))
    have ht : Tried env { s with stable := false } limb cfg := by
      have := Tried.next p params smp c g1 g2
      rwa [g3] at this
    have ha := tried_agree hu hk hx ht
    exact moved_free hu hk hx hs ha h2

/-- **C179 (collisions)** If the configuration given is free of collision, the initial state is: all that the validation of the robot tests, but the ends of limbs whose collisions were disabled. -/
theorem C179_free (env : Env N K Smp) (B : Bodies N K O) (hu : UsesBodies env B) (hk : B.Kinematic) (hld : LoadsInLimb env B) (hl : env.limbs.Nodup) (postural : Bool) (configuration : List K) (thr : K)
    (hf : FreeExcept B (Excused B) configuration) : FreeExcept B (Excused B) (computeContactsInitial env postural configuration thr).configuration :=
  (C179_placed env hl postural configuration thr).free hu hk hld (fun _ h => h) hf

theorem PlacedInTurn.balanced {env : Env N K Smp} {thr : K} {limbs : List N} {s s' : State N K} (h : PlacedInTurn env thr limbs s s') (pre : List N) (last : N) (hl : limbs = pre ++ [last])
    (hd : limbs.Nodup) (hs : ∀ n ∈ limbs, s.contactPositions.find? n = none) (ht : Touches s' last) (h2 : 2 ≤ s'.contacts.length) :
    ∃ t, SameContactData s' t ∧ s'.configuration = t.configuration ∧ (thr : WithBot K) ≤ env.robustness t := by
  induction h generalizing pre with
  | nil s => simp at hl
  | skip limb rest s s' h1 hrest ih =>
    cases pre with
    | nil =>
      obtain ⟨rfl, rfl⟩ : limb = last ∧ rest = [] := by simpa using hl
      cases hrest
      obtain ⟨p, hp⟩ := ht
      have hp : s.contactPositions.find? limb = some p := hp
      rw [hs limb (by simp)] at hp
      cases hp
    | cons a pre =>
      rw [List.cons_append] at hl
      injection hl with _ hl
      exact ih pre hl (List.nodup_cons.1 hd).2 (fun n hn => hs n (List.mem_cons_of_mem _ hn)) ht h2
  | notFound limb rest s c s' h1 hrest ih =>
    cases pre with
    | nil =>
      obtain ⟨rfl, rfl⟩ : limb = last ∧ rest = [] := by simpa using hl
      cases hrest
      obtain ⟨p, hp⟩ := ht
      have hp : s.contactPositions.find? limb = some p := hp
      rw [hs limb (by simp)] at hp
      cases hp
    | cons a pre =>
      rw [List.cons_append] at hl
      injection hl with _ hl
      exact ih pre hl (List.nodup_cons.1 hd).2 (fun n hn => hs n (List.mem_cons_of_mem _ hn)) ht h2
  | placed limb rest s smp cfg s' h1 hv h3 hrest ih =>
    cases pre with
    | nil =>
      obtain ⟨rfl, rfl⟩ : limb = last ∧ rest = [] := by simpa using hl
      cases hrest
      refine ⟨withContact env { s with stable := false } limb smp cfg, ⟨rfl, rfl, rfl, rfl⟩, rfl, h3 rfl fun hne => ?_⟩
      have h2 : 2 ≤ (s.contacts.set limb true).length := h2
      rw [hne] at h2
      simp [AMap.set] at h2
    | cons a pre =>
      rw [List.cons_append] at hl
      injection hl with _ hl
      have hnd := List.nodup_cons.1 hd
      refine ih pre hl hnd.2 (fun n hn => ?_) ht h2
      have hne : n ≠ limb := fun e => hnd.1 (e ▸ hn)
      show (s.contactPositions.set limb _).find? n = none
      rw [AMap.find?_set, if_neg hne]
      exact hs n (List.mem_cons_of_mem _ hn)

/-- **C179 (equilibrium)** (partial: only if the last limb is in contact, see `C179_violated`).  If the last limb is in contact, with others, the initial state is in equilibrium with the required robustness. -/
theorem C179_balanced_partial (env : Env N K Smp) (hl : env.limbs.Nodup) (postural : Bool) (configuration : List K) (thr : K) (pre : List N) (last : N) (hlast : env.limbs = pre ++ [last])
    (ht : Touches (computeContactsInitial env postural configuration thr) last) (h2 : 2 ≤ (computeContactsInitial env postural configuration thr).contacts.length) :
    ∃ t, SameContactData (computeContactsInitial env postural configuration thr) t ∧ (computeContactsInitial env postural configuration thr).configuration = t.configuration ∧
      (thr : WithBot K) ≤ env.robustness t :=
  (C179_placed env hl postural configuration thr).balanced pre last hlast hl (fun n _ => rfl) ht h2

/-! ## Examples -/

/-- the hypotheses of `C179_balanced_partial` are met: four limbs in contact -/
example : demoEnv.limbs = [1, 2, 3] ++ [4] ∧ (computeContactsInitial demoEnv true [1, 1] 3).contacts.keys = [1, 2, 3, 4] ∧
    (3 : WithBot ℤ) ≤ demoEnv.robustness (computeContactsInitial demoEnv true [1, 1] 3) := by decide

/-- the hypotheses of `C179_free` are met, and contacts are placed -/
example : UsesBodies tripodEnv tripodBodies ∧ tripodBodies.Kinematic ∧ LoadsInLimb tripodEnv tripodBodies ∧ tripodEnv.limbs.Nodup ∧ FreeExcept tripodBodies (Excused tripodBodies) tripodState.configuration ∧
    (computeContactsInitial tripodEnv false tripodState.configuration 3).contacts.keys = [1, 2, 3] :=
  ⟨tripod_uses, tripod_kinematic, tripod_loads, by decide, tripod_start, by decide⟩

/-- nothing is found for the last limb -/
def lastEnv : Env ℕ ℤ ℤ := { demoEnv with octree := fun l _ _ => if l = 4 then [] else [2] }

/-- **C179 is violated**: when nothing is found for the last limb, equilibrium is not tested at all: the state, with three contacts, is said to be stable although it is not robust enough. -/
theorem C179_violated : (computeContactsInitial lastEnv false [1, 1] 3).contacts.keys = [1, 2, 3] ∧ (computeContactsInitial lastEnv false [1, 1] 3).stable = true ∧
    ¬ (3 : WithBot ℤ) ≤ lastEnv.robustness (computeContactsInitial lastEnv false [1, 1] 3) := by decide

/-- neither is it when the group of the last limb is in contact already -/
theorem C179_group_violated : (computeContactsInitial { demoEnv with octree := fun _ _ _ => [2], group := fun l => if 3 ≤ l then [3, 4] else [l] } false [1, 1] 3).contacts.keys = [1, 2, 3] ∧
    (computeContactsInitial { demoEnv with octree := fun _ _ _ => [2], group := fun l => if 3 ≤ l then [3, 4] else [l] } false [1, 1] 3).stable = true ∧
    ¬ (3 : WithBot ℤ) ≤ demoEnv.robustness (computeContactsInitial { demoEnv with octree := fun _ _ _ => [2], group := fun l => if 3 ≤ l then [3, 4] else [l] } false [1, 1] 3) := by decide

end Interp
end Rbprm
