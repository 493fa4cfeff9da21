import Verif.Props.Algorithm
/-!
# Property C70: states returned by contact generation store complete contact data; and the report of
`ComputeContacts` never announces several broken contacts unless it repositioned in place.
-/
set_option linter.unusedSectionVars false
namespace Rbprm
namespace Contact
open State
variable {N K Smp : Type _} [LinearOrder N] [CommRing K] [LinearOrder K]

/-- A position, a normal and a rotation are stored for exactly the contacts, and all contacts are active. -/
structure Sound (s : State N K) : Prop extends MapsOk s where
  normalsKeys : s.contactNormals.keys = s.contacts.keys
  positionsKeys : s.contactPositions.keys = s.contacts.keys
  rotationsKeys : s.contactRotation.keys = s.contacts.keys
  active : ∀ n b, s.contacts.find? n = some b → b = true

theorem _root_.Rbprm.State.Consistent.sound {s : State N K} (h : Consistent s) : Sound s :=
  ⟨h.toMapsOk, h.normalsKeys, h.positionsKeys, h.rotationsKeys, h.active⟩

theorem Sound.same_maps {s s' : State N K} (h : Sound s) (e1 : s'.contacts = s.contacts)
    (e2 : s'.contactNormals = s.contactNormals) (e3 : s'.contactPositions = s.contactPositions)
    (e4 : s'.contactRotation = s.contactRotation) : Sound s' := by
  refine ⟨⟨?_, ?_, ?_, ?_⟩, ?_, ?_, ?_, ?_⟩
  · rw [e1]; exact h.contacts
  · rw [e2]; exact h.normals
  · rw [e3]; exact h.positions
  · rw [e4]; exact h.rotations
  · rw [e1, e2]; exact h.normalsKeys
  · rw [e1, e3]; exact h.positionsKeys
  · rw [e1, e4]; exact h.rotationsKeys
  · rw [e1]; exact h.active

/-- two sorted maps with the same members have the same key list -/
theorem keys_eq_of_mem {V W : Type _} {a : AMap N V} {b : AMap N W} (ha : a.WF) (hb : b.WF)
    (h : ∀ n, n ∈ a.keys ↔ n ∈ b.keys) : a.keys = b.keys :=
  List.Perm.eq_of_pairwise (fun _ _ _ _ h1 h2 => absurd h2 (lt_asymm h1)) ha hb
    ((List.perm_ext_iff_of_nodup ha.nodup hb.nodup).2 h)

theorem Sound.removeContact {s : State N K} (h : Sound s) (n : N) : Sound (s.removeContact n).1 := by
  unfold State.removeContact
  split_ifs
  · refine ⟨⟨AMap.WF_erase h.contacts _, AMap.WF_erase h.normals _, AMap.WF_erase h.positions _,
      AMap.WF_erase h.rotations _⟩, ?_, ?_, ?_, ?_⟩
    · simp only [AMap.keys_erase, h.normalsKeys]
    · simp only [AMap.keys_erase, h.positionsKeys]
    · simp only [AMap.keys_erase, h.rotationsKeys]
    · intro m b hb
      simp only [AMap.find?_erase] at hb
      split_ifs at hb
      exact h.active m b hb
  · exact h

theorem Sound.extends {w w' : State N K} {l : List N} (h : Sound w) (hx : Extends w w' l) : Sound w' := by
  have hm := hx.maps h.toMapsOk
  have key : ∀ {V : Type _} (a : AMap N V) (a' : AMap N V), a.keys = w.contacts.keys →
      a'.WF → (∀ n, n ∉ l → a'.find? n = a.find? n) → (∀ n ∈ l, (a'.find? n).isSome) →
      a'.keys = w'.contacts.keys := by
    intro V a a' hk hwf h1 h2
    refine keys_eq_of_mem hwf hm.contacts fun n => ?_
    rw [← AMap.find?_isSome, ← AMap.find?_isSome]
    by_cases hn : n ∈ l
    · simp [h2 n hn, (hx.added n hn).1]
    · rw [h1 n hn, (hx.same n hn).1, AMap.find?_isSome, AMap.find?_isSome, hk]
  refine ⟨hm, ?_, ?_, ?_, ?_⟩
  · exact key w.contactNormals _ h.normalsKeys hm.normals (fun n hn => (hx.same n hn).2.2.1)
      (fun n hn => (hx.added n hn).2.2.1)
  · refine key w.contactPositions _ h.positionsKeys hm.positions (fun n hn => (hx.same n hn).2.1)
      (fun n hn => ?_)
    obtain ⟨p, hp⟩ := (hx.added n hn).2.1
    unfold TouchesAt at hp; simp [hp]
  · exact key w.contactRotation _ h.rotationsKeys hm.rotations (fun n hn => (hx.same n hn).2.2.2)
      (fun n hn => (hx.added n hn).2.2.2)
  · intro n b hb
    by_cases hn : n ∈ l
    · rw [(hx.added n hn).1] at hb; cases hb; rfl
    · rw [(hx.same n hn).1] at hb; exact h.active n b hb

theorem generateContact_sound (env : Env N K Smp) (postural : Bool) (params : State N K) (h : Helper N K)
    (limb : N) (hs : Sound h.workingState) : Sound (generateContact env postural params h limb).result := by
  obtain ⟨h1, h2⟩ := generateContact_shape env postural params h limb
  by_cases hn : (generateContact env postural params h limb).status = .noContact
  · rw [(h2 hn).2]; exact hs.same_maps rfl rfl rfl rfl
  · obtain ⟨p, n, R, c, b, e, _⟩ := h1 hn
    rw [e]; exact hs.extends (Extends.one _ _ _ _ _ _ _)

theorem repositionLoop_sound (env : Env N K Smp) (postural : Bool) (saved : List K) (O : List N)
    (s : State N K) (popped : List N) (nName : Option N) (h : Helper N K) (hs : Sound s) :
    Sound (repositionLoop env postural saved O s popped nName h).1 := by
  induction O generalizing s popped nName h with
  | nil => exact hs
  | cons prev O ih =>
    unfold repositionLoop
    split_ifs
    · exact hs
    · cases hg : env.group prev with
      | nil => exact ih _ _ _ _ (hs.same_maps rfl rfl rfl rfl)
      | cons limb gs =>
        simp only
        exact ih _ popped (some limb) { h with workingState := (s.removeContact limb).1 }
          (generateContact_sound env postural _ _ limb (hs.removeContact limb))

theorem repositionContacts_sound (env : Env N K Smp) (postural : Bool) (h : Helper N K)
    (hs : Sound h.workingState) : Sound (repositionContacts env postural h).1.result := by
  have := repositionLoop_sound env postural h.previousState.configuration h.workingState.contactOrder
    { h.workingState with stable := false } [] none h (hs.same_maps rfl rfl rfl rfl)
  exact this.same_maps rfl rfl rfl rfl

/-- **C70** Whatever the environment and the outcome (success or failure, repositioned or not),
`ComputeContacts` from a state whose contact data is complete returns a state whose contact data is complete:
a position, a normal and a rotation for exactly its contacts, all of them active. -/
theorem C70_contact_data (env : Env N K Smp) (hl : env.limbs.Nodup) (postural : Bool) (fuel : Nat)
    (previous : State N K) (hp : Sound previous) (configuration : List K) (thr : K) (extraDim : Nat)
    (tr qs : Bool) (rep : ContactReport N K)
    (hr : computeContacts env postural fuel previous configuration thr extraDim tr qs = some rep) :
    Sound rep.result := by
  unfold computeContacts at hr
  rw [Option.map_eq_some_iff] at hr
  obtain ⟨r0, hr0, hr⟩ := hr
  have hws : Sound (computeHelper previous configuration thr tr qs).workingState :=
    hp.same_maps rfl rfl rfl rfl
  obtain ⟨_, _, _, c4, c5⟩ := C21_report env hl postural fuel _ r0 hr0 hp.toMapsOk hws.toMapsOk
    (by intro c hc; simp [computeHelper, Helper.create] at hc)
  have main : Sound r0.result := by
    cases hrep : r0.repositionedInPlace with
    | false =>
      obtain ⟨hs, h', f1, f2⟩ := c4 hrep
      have hs' : (genFromMaintain env postural h').1.success = true := by rw [← f2]; exact hs
      obtain ⟨c, hc, cfg, b, l, hx, _⟩ := genFromMaintain_result env hl postural h' hs'
      have hcs : Sound c := f1.candidates_all hl Sound
        (startCandidates_all Sound (fun s n hm => hm.removeContact n) _ hws
          (by intro c hc; simp [computeHelper, Helper.create] at hc)) c hc
      rw [← f2] at hx
      exact (hcs.same_maps (s' := { c with configuration := cfg, stable := b }) rfl rfl rfl rfl).extends hx
    | true =>
      obtain ⟨h', _, _, _, f⟩ := c5 hrep
      have : r0.result = r0.toReport.result := rfl
      rw [this, f]
      exact repositionContacts_sound env postural _ hp
  rw [← hr]
  split_ifs
  · exact main.same_maps rfl rfl rfl rfl
  · exact main

/-- **C70 (initial)** the same holds for `ComputeContacts` without previous state. -/
theorem C70_initial (env : Env N K Smp) (hl : env.limbs.Nodup)
    (hself : ∀ n ∈ env.limbs, n ∈ env.group n) (postural : Bool) (configuration : List K) (thr : K) :
    Sound (computeContactsInitial env postural configuration thr) :=
  (C22_initial_contacts_partial env hl hself postural configuration thr).1.sound

/-- both kinds of outcome occur from a complete state -/
example : Sound (State.demo : State ℕ ℤ) ∧
    ((computeContacts demoEnv false 10 State.demo [1, 1] 3 0 true true).map (fun r =>
      (r.success, r.result.contactNormals.keys))) = some (true, [1, 2, 3]) ∧
    ((computeContacts { demoEnv with fullValid := fun _ => false, octree := fun _ _ _ => [] } false 10
      State.demo [1, 1] 3 0 true true).map (fun r =>
      (r.success, r.repositionedInPlace, r.result.contactNormals.keys))) = some (false, true, []) :=
  ⟨State.demo_consistent.sound, by decide, by decide⟩

/-! ## How many contacts an attempt can break -/

/-- at most `k` contacts of `s` are missing in `c` -/
def LostAtMost (k : Nat) (s c : State N K) : Prop :=
  ∃ removed : List N, removed.length ≤ k ∧ ∀ n ∉ removed,
    c.contacts.find? n = s.contacts.find? n ∧ c.contactPositions.find? n = s.contactPositions.find? n

theorem LostAtMost.remove {k : Nat} {s c : State N K} (h : LostAtMost k s c) (m : N) :
    LostAtMost (k + 1) s (c.removeContact m).1 := by
  obtain ⟨removed, h1, h2⟩ := h
  refine ⟨m :: removed, by simp; omega, fun n hn => ?_⟩
  simp only [List.mem_cons, not_or] at hn
  unfold State.removeContact
  split_ifs
  · simp only [AMap.find?_erase, if_neg hn.1]; exact h2 n hn.2
  · exact h2 n hn.2

theorem LostAtMost.mono {k k' : Nat} (hk : k ≤ k') {s c : State N K} (h : LostAtMost k s c) :
    LostAtMost k' s c := by
  obtain ⟨r, h1, h2⟩ := h
  exact ⟨r, by omega, h2⟩

theorem combRec_lost (s : State N K) (maxBroken : Nat)
    (fuel : Nat) (current : State N K) (depth : Nat) (res : List (List (State N K)))
    (hd : depth ≤ maxBroken) (hc : LostAtMost depth s current)
    (hr : ∀ l ∈ res, ∀ c ∈ l, LostAtMost maxBroken s c) :
    ∀ l ∈ maintainCombRec maxBroken fuel current depth res, ∀ c ∈ l, LostAtMost maxBroken s c := by
  induction fuel generalizing current depth res with
  | zero =>
    unfold maintainCombRec
    have h1 : ∀ l ∈ res.set depth (pushIfNew (res.getD depth []) current).1, ∀ c ∈ l,
        LostAtMost maxBroken s c := by
      intro l hl c hcm
      rcases List.mem_or_eq_of_mem_set hl with h | h
      · exact hr l h c hcm
      · subst h
        have hdd : ∀ c ∈ res.getD depth [], LostAtMost maxBroken s c := by
          intro c hc
          by_cases hlt : depth < res.length
          · rw [List.getD_eq_getElem?_getD, List.getElem?_eq_getElem hlt] at hc
            exact hr _ (List.getElem_mem hlt) c hc
          · rw [List.getD_eq_getElem?_getD, List.getElem?_eq_none (by omega)] at hc; simp at hc
        unfold pushIfNew at hcm
        split_ifs at hcm
        · exact hdd c hcm
        · rcases List.mem_append.1 hcm with h | h
          · exact hdd c h
          · simp at h; subst h; exact hc.mono hd
    simp only
    split_ifs <;> exact h1
  | succ fuel ih =>
    unfold maintainCombRec
    have h1 : ∀ l ∈ res.set depth (pushIfNew (res.getD depth []) current).1, ∀ c ∈ l,
        LostAtMost maxBroken s c := by
      intro l hl c hcm
      rcases List.mem_or_eq_of_mem_set hl with h | h
      · exact hr l h c hcm
      · subst h
        have hdd : ∀ c ∈ res.getD depth [], LostAtMost maxBroken s c := by
          intro c hc
          by_cases hlt : depth < res.length
          · rw [List.getD_eq_getElem?_getD, List.getElem?_eq_getElem hlt] at hc
            exact hr _ (List.getElem_mem hlt) c hc
          · rw [List.getD_eq_getElem?_getD, List.getElem?_eq_none (by omega)] at hc; simp at hc
        unfold pushIfNew at hcm
        split_ifs at hcm
        · exact hdd c hcm
        · rcases List.mem_append.1 hcm with h | h
          · exact hdd c h
          · simp at h; subst h; exact hc.mono hd
    simp only
    split_ifs with hb
    · exact h1
    · have hlt : depth + 1 ≤ maxBroken := by
        simp only [Bool.or_eq_true, decide_eq_true_eq, not_or] at hb; omega
      generalize current.contactOrder = O
      generalize res.set depth (pushIfNew (res.getD depth []) current).1 = res1 at h1
      induction O generalizing res1 with
      | nil => exact h1
      | cons a O ihO =>
        rw [List.foldl_cons]
        exact ihO _ (ih _ _ _ hlt (hc.remove a) h1)

theorem startCandidates_lost (h : Helper N K) (he : h.candidates = []) :
    ∀ c ∈ startCandidates h, LostAtMost h.maxContactBreaks h.workingState c := by
  have h0 : LostAtMost 0 h.workingState h.workingState := ⟨[], by simp, fun n _ => ⟨rfl, rfl⟩⟩
  unfold startCandidates
  split_ifs
  · unfold maintainContactsCombinatorial flattenDepth
    simp only
    intro c hcm
    split_ifs at hcm
    · obtain ⟨l, hl, hcl⟩ := List.mem_flatten.1 hcm
      rcases List.mem_or_eq_of_mem_set hl with h1 | h1
      · rw [List.mem_replicate] at h1; rw [h1.2] at hcl; simp at hcl
      · subst h1; simp at hcl; subst hcl; exact h0.mono (Nat.zero_le _)
    · obtain ⟨l, hl, hcl⟩ := List.mem_flatten.1 hcm
      refine combRec_lost h.workingState _ _ _ _ _ (Nat.zero_le _) h0 ?_ l hl c hcl
      intro l hl s hs
      rw [List.mem_replicate] at hl; rw [hl.2] at hs; simp at hs
  · rw [he]; simp

theorem not_farApart_self (p : Vec3 K) [IsStrictOrderedRing K] : ¬ FarApart p p := by
  have : (10000 : K) * Vec3.distSq p p = 0 := by
    simp [Vec3.distSq, Vec3.normSq, Vec3.dot]
  unfold FarApart
  rw [this]
  exact not_lt.2 zero_le_one

/-- **C71** The report of `ComputeContacts` is honest: from a previous state with complete contact data, a
failed report or a report of several broken contacts is always marked as repositioned in place. -/
theorem C71_honest_report [IsStrictOrderedRing K] (env : Env N K Smp) (hl : env.limbs.Nodup)
    (postural : Bool) (fuel : Nat)
    (previous : State N K) (hp : Sound previous) (configuration : List K) (thr : K) (extraDim : Nat)
    (tr qs : Bool) (rep : ContactReport N K)
    (hr : computeContacts env postural fuel previous configuration thr extraDim tr qs = some rep)
    (hb : rep.success = false ∨ rep.multipleBreaks = true) : rep.repositionedInPlace = true := by
  by_contra hnr
  rw [Bool.not_eq_true] at hnr
  unfold computeContacts at hr
  rw [Option.map_eq_some_iff] at hr
  obtain ⟨r0, hr0, hr⟩ := hr
  have hws : Sound (computeHelper previous configuration thr tr qs).workingState :=
    hp.same_maps rfl rfl rfl rfl
  obtain ⟨_, _, ⟨broken, b1, b2, b3, _⟩, c4, _⟩ := C21_report env hl postural fuel _ r0 hr0 hp.toMapsOk
    hws.toMapsOk (by intro c hc; simp [computeHelper, Helper.create] at hc)
  have hnr0 : r0.repositionedInPlace = false := by rw [← hr] at hnr; split_ifs at hnr <;> exact hnr
  obtain ⟨hs, h', f1, f2⟩ := c4 hnr0
  have hs' : (genFromMaintain env postural h').1.success = true := by rw [← f2]; exact hs
  obtain ⟨c, hc, cfg, b, l, hx, hfree, _⟩ := genFromMaintain_result env hl postural h' hs'
  obtain ⟨removed, hr1, hr2⟩ := f1.candidates_all hl (fun c => LostAtMost 1 previous c)
    (by have := startCandidates_lost (computeHelper previous configuration thr tr qs) rfl
        exact this) c hc
  rw [← f2] at hx
  have hmb : r0.multipleBreaks = true := by
    rcases hb with hb | hb
    · rw [← hr, hs, if_pos rfl] at hb; simp at hb
    · rw [← hr, hs, if_pos rfl] at hb; exact hb
  have hlong := b3.1 hmb
  have hsub : broken ⊆ removed := by
    intro n hn
    by_contra hnr
    obtain ⟨e1, e2⟩ := hr2 n hnr
    have hprev : Touches previous n := by
      rcases (b2 n).1 hn with h | ⟨p, q, h, _⟩
      · exact h.1
      · exact ⟨p, h⟩
    have hkey : previous.contacts.find? n = some true := by
      obtain ⟨p, hpp⟩ := hprev
      have : n ∈ previous.contacts.keys := by
        rw [← hp.positionsKeys, ← AMap.find?_isSome, hpp]; rfl
      obtain ⟨v, hv⟩ := Option.isSome_iff_exists.1 (AMap.find?_isSome.2 this)
      rw [hv, hp.active n v hv]
    have hnl : n ∉ l := fun hl => (hfree n hl).2 (by rw [e1, hkey])
    have hres : r0.result.contactPositions.find? n = previous.contactPositions.find? n := by
      have := (hx.same n hnl).2.1
      exact this.trans e2
    rcases (b2 n).1 hn with ⟨⟨p, hpp⟩, hnt⟩ | ⟨p, q, hpp, hq, hf⟩
    · exact hnt ⟨p, by unfold TouchesAt; rw [hres]; exact hpp⟩
    · unfold TouchesAt at hpp hq
      rw [hres] at hq
      have : previous.contactPositions.find? n = some p := hpp
      rw [this] at hq
      cases hq
      exact not_farApart_self p hf
  have hlen : broken.length ≤ removed.length := (List.subperm_of_subset b1 hsub).length_le
  have : (computeHelper previous configuration thr tr qs).maxContactBreaks = 1 := rfl
  omega

/-- the repositioned outcome with several breaks does occur -/
example : ((computeContacts { demoEnv with fullValid := fun _ => false, octree := fun _ _ _ => [] } false 10
      State.demo [1, 1] 3 0 true true).map (fun r =>
      (r.success, r.multipleBreaks, r.repositionedInPlace))) = some (false, true, true) := by decide

end Contact
end Rbprm
