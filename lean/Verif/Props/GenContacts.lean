import Verif.Props.GenerateContact
/-!
# Properties C19, C20: `gen_contacts` and `repositionContacts`
-/
set_option linter.unusedSectionVars false
namespace Rbprm
namespace Contact
open State
variable {N K Smp : Type _} [LinearOrder N] [CommRing K] [LinearOrder K]

/-- `w'` is `w` with a contact created for each limb of `l`, in this order: their data are set, the data of
every other limb is untouched, the order queue grows by `l`.  (The counter is untouched as well: see C18.) -/
structure Extends (w w' : State N K) (l : List N) : Prop where
  order : w'.contactOrder = w.contactOrder ++ l
  counter : w'.nbContacts = w.nbContacts
  same : ∀ n, n ∉ l → w'.contacts.find? n = w.contacts.find? n ∧
    w'.contactPositions.find? n = w.contactPositions.find? n ∧
    w'.contactNormals.find? n = w.contactNormals.find? n ∧
    w'.contactRotation.find? n = w.contactRotation.find? n
  added : ∀ n ∈ l, w'.contacts.find? n = some true ∧ Touches w' n ∧
    (w'.contactNormals.find? n).isSome ∧ (w'.contactRotation.find? n).isSome
  maps : MapsOk w → MapsOk w'

theorem Extends.refl' (w : State N K) (c : List K) (b : Bool) :
    Extends w { w with configuration := c, stable := b } [] :=
  ⟨by simp, rfl, fun _ _ => ⟨rfl, rfl, rfl, rfl⟩, by simp,
    fun h => ⟨h.contacts, h.normals, h.positions, h.rotations⟩⟩

theorem Extends.trans {a b c : State N K} {l l' : List N} (h : Extends a b l) (h' : Extends b c l') :
    Extends a c (l ++ l') := by
  refine ⟨by rw [h'.order, h.order, List.append_assoc], by rw [h'.counter, h.counter], ?_, ?_,
    fun hm => h'.maps (h.maps hm)⟩
  · intro n hn
    simp only [List.mem_append, not_or] at hn
    obtain ⟨a1, a2, a3, a4⟩ := h.same n hn.1
    obtain ⟨b1, b2, b3, b4⟩ := h'.same n hn.2
    exact ⟨b1.trans a1, b2.trans a2, b3.trans a3, b4.trans a4⟩
  · intro n hn
    by_cases hn' : n ∈ l'
    · exact h'.added n hn'
    · have hl : n ∈ l := (List.mem_append.1 hn).resolve_right hn'
      obtain ⟨b1, b2, b3, b4⟩ := h'.same n hn'
      obtain ⟨a1, ⟨p, a2⟩, a3, a4⟩ := h.added n hl
      refine ⟨by rw [b1]; exact a1, ⟨p, ?_⟩, by rw [b3]; exact a3, by rw [b4]; exact a4⟩
      unfold TouchesAt at a2 ⊢; rw [b2]; exact a2

/-- the four contact maps with one contact added -/
theorem Extends.one (w : State N K) (limb : N) (p n : Vec3 K) (R : Mat3 K) (c : List K) (b : Bool) :
    Extends w { w with
      contacts := w.contacts.set limb true
      contactNormals := w.contactNormals.set limb n
      contactPositions := w.contactPositions.set limb p
      contactRotation := w.contactRotation.set limb R
      contactOrder := w.contactOrder ++ [limb]
      configuration := c, stable := b } [limb] := by
  refine ⟨rfl, rfl, ?_, ?_, fun hm => ⟨AMap.WF_set hm.contacts _ _, AMap.WF_set hm.normals _ _,
    AMap.WF_set hm.positions _ _, AMap.WF_set hm.rotations _ _⟩⟩
  · intro m hm
    have : m ≠ limb := by simpa using hm
    simp [AMap.find?_set, this]
  · intro m hm
    have : m = limb := by simpa using hm
    subst this
    refine ⟨by simp [AMap.find?_set], ⟨p, by simp [TouchesAt, AMap.find?_set]⟩, ?_, ?_⟩ <;>
      simp [AMap.find?_set]

/-- explicit shape of the state built by `findValidCandidate` -/
theorem buildState_shape (h : Helper N K) (limb : N) (w : Search K) :
    ((w.foundSample || w.foundStable || w.unstableContact) = true →
      ∃ p n R c b, buildState h limb w = { h.workingState with
      contacts := h.workingState.contacts.set limb true
      contactNormals := h.workingState.contactNormals.set limb n
      contactPositions := h.workingState.contactPositions.set limb p
      contactRotation := h.workingState.contactRotation.set limb R
      contactOrder := h.workingState.contactOrder ++ [limb]
      configuration := c, stable := b } ∧ (b = (w.foundSample || w.foundStable))) ∧
    ((w.foundSample || w.foundStable || w.unstableContact) = false →
      buildState h limb w = { h.workingState with stable := false }) := by
  unfold buildState
  cases w.foundSample <;> cases w.foundStable <;> cases w.unstableContact <;>
    simp

/-- shape of a `generate_contact` report -/
theorem generateContact_shape (env : Env N K Smp) (postural : Bool) (params : State N K)
    (h : Helper N K) (limb : N) :
    let r := generateContact env postural params h limb
    (r.status ≠ .noContact → ∃ p n R c b, r.result = { h.workingState with
      contacts := h.workingState.contacts.set limb true
      contactNormals := h.workingState.contactNormals.set limb n
      contactPositions := h.workingState.contactPositions.set limb p
      contactRotation := h.workingState.contactRotation.set limb R
      contactOrder := h.workingState.contactOrder ++ [limb]
      configuration := c, stable := b } ∧ (b = true ↔ r.status ≠ .unstable)) ∧
    (r.status = .noContact → r.success = false ∧
      r.result = { h.workingState with stable := false, configuration := r.result.configuration }) := by
  intro r
  have hr : r = generateContact env postural params h limb := rfl
  clear_value r
  unfold generateContact at hr
  have hb : (findValidCandidate env postural params h limb).1 =
      buildState h limb (findValidCandidate env postural params h limb).2.1 := by
    unfold findValidCandidate; simp only; split_ifs <;> rfl
  obtain ⟨s1, s2⟩ := buildState_shape h limb (findValidCandidate env postural params h limb).2.1
  rw [← hb] at s1 s2
  generalize findValidCandidate env postural params h limb = q at *
  simp only at hr
  cases h1 : q.2.1.foundSample with
  | true =>
    obtain ⟨p, n, R, c, b, e, e'⟩ := s1 (by simp [h1])
    simp only [h1, if_true] at hr
    subst hr
    exact ⟨fun _ => ⟨p, n, R, c, b, e, by simp [e', h1]⟩, by simp⟩
  | false =>
    cases h2 : q.2.1.foundStable with
    | true =>
      obtain ⟨p, n, R, c, b, e, e'⟩ := s1 (by simp [h2])
      simp only [h1, h2, if_true, Bool.false_eq_true, if_false] at hr
      subst hr
      exact ⟨fun _ => ⟨p, n, R, c, b, e, by simp [e', h2]⟩, by simp⟩
    | false =>
      cases h3 : q.2.1.unstableContact with
      | true =>
        obtain ⟨p, n, R, c, b, e, e'⟩ := s1 (by simp [h3])
        simp only [h1, h2, h3, if_true, Bool.false_eq_true, if_false] at hr
        subst hr
        exact ⟨fun _ => ⟨p, n, R, c, b, e, by simp [e', h1, h2]⟩, by simp⟩
      | false =>
        have e := s2 (by simp [h1, h2, h3])
        simp only [h1, h2, h3, Bool.false_eq_true, if_false] at hr
        subst hr
        refine ⟨by simp, fun _ => ⟨rfl, ?_⟩⟩
        rw [e]
        have := (C15_setCollisionFree env limb ({ h.workingState with stable := false } : State N K)).1
        rw [this]

theorem generateContact_extends (env : Env N K Smp) (postural : Bool) (params : State N K)
    (h : Helper N K) (limb : N) (hs : (generateContact env postural params h limb).success = true) :
    Extends h.workingState (generateContact env postural params h limb).result [limb] := by
  obtain ⟨h1, h2⟩ := generateContact_shape env postural params h limb
  have hn : (generateContact env postural params h limb).status ≠ .noContact := by
    intro hc; rw [(h2 hc).1] at hs; simp at hs
  obtain ⟨p, n, R, c, b, e, _⟩ := h1 hn
  rw [e]; exact Extends.one _ _ _ _ _ _ _

/-! ## C19 -/

theorem genLimbs_spec (env : Env N K Smp) (postural cs : Bool) (params : State N K) (ls : List N)
    (h : Helper N K) (rep : Report N K) :
    let r := genLimbs env postural cs params ls h rep
    (∃ l, l.Sublist ls ∧ Extends h.workingState r.2.workingState l ∧
      (ls.length ≤ 1 → ls ≠ [] → r.1.success = false → l = [])) ∧
    r.2.checkStabilityGenerate = (if ls = [] then h.checkStabilityGenerate else cs) ∧
    (ls = [] → r.1 = rep) ∧ (ls ≠ [] → r.1.success = true → r.1.result = r.2.workingState) ∧
    r.2 = { h with workingState := r.2.workingState,
                   checkStabilityGenerate := r.2.checkStabilityGenerate } := by
  induction ls generalizing h rep with
  | nil =>
    simp only [genLimbs]
    exact ⟨⟨[], List.Sublist.refl _, Extends.refl' h.workingState _ _, by simp⟩, by simp⟩
  | cons limb rest ih =>
    simp only [genLimbs]
    set h1 : Helper N K := if rest.isEmpty then { h with checkStabilityGenerate := cs } else h with hh1
    set rp := generateContact env postural params h1 limb with hrp
    set h2 : Helper N K := if rp.success then { h1 with workingState := rp.result } else h1 with hh2
    have hw1 : h1.workingState = h.workingState := by rw [hh1]; split_ifs <;> rfl
    have hc2 : h2.checkStabilityGenerate = h1.checkStabilityGenerate := by rw [hh2]; split_ifs <;> rfl
    have hsh : h2 = { h with workingState := h2.workingState,
                             checkStabilityGenerate := h2.checkStabilityGenerate } := by
      rw [hh2, hh1]; split_ifs <;> rfl
    obtain ⟨⟨l, i1, i2, i3⟩, i4, i5, i6, i7⟩ := ih h2 rp
    have hstep : ∃ l0, l0.Sublist [limb] ∧ Extends h.workingState h2.workingState l0 ∧
        (rp.success = false → l0 = []) := by
      cases hs : rp.success with
      | true =>
        refine ⟨[limb], List.Sublist.refl _, ?_, by simp⟩
        have := generateContact_extends env postural params h1 limb hs
        rw [hw1] at this
        rw [hh2, if_pos hs]; exact this
      | false =>
        refine ⟨[], by simp, ?_, by simp⟩
        rw [hh2, if_neg (by simp [hs]), hw1]
        exact Extends.refl' h.workingState _ _
    obtain ⟨l0, j1, j2, j3⟩ := hstep
    refine ⟨⟨l0 ++ l, ?_, j2.trans i2, ?_⟩, ?_, by simp, ?_, ?_⟩
    · have := List.Sublist.append j1 i1; simpa using this
    · intro hlen _ hf
      have hr : rest = [] := by
        cases rest with
        | nil => rfl
        | cons a b => simp at hlen
      subst hr
      rw [i5 rfl] at hf
      have hl : l = [] := by simpa using i1
      rw [j3 hf, hl]; rfl
    · rw [i4]
      by_cases hr : rest = []
      · rw [if_pos hr, hc2, hh1]; simp [hr]
      · simp [hr]
    · intro _ hs
      by_cases hr : rest = []
      · subst hr
        simp only [genLimbs] at hs ⊢
        rw [hh2, if_pos hs]
      · exact i6 hr hs
    · rw [i7]; rw [hsh]

theorem checkMaintained_shape (env : Env N K Smp) (cs : Bool) (l : List N) (h : Helper N K) :
    ∃ b, checkMaintained env cs l h = { h with workingState := { h.workingState with stable := b } } := by
  unfold checkMaintained
  split_ifs
  · exact ⟨true, rfl⟩
  · exact ⟨h.workingState.stable, rfl⟩
  · exact ⟨h.workingState.stable, rfl⟩

theorem genLoop_spec (env : Env N K Smp) (postural cs : Bool) (F : List N) (M : Nat)
    (cands : List (State N K × List N)) (hF : ∀ c ∈ cands, ∀ x ∈ c.2, x ∈ F)
    (hM : ∀ c ∈ cands, c.2.length ≤ M) (hnd : (cands.map Prod.snd).Nodup) (h : Helper N K)
    (rep : Report N K) (hrep : rep.success = false)
    (hinv : h.checkStabilityGenerate = cs ∨ [] ∉ cands.map Prod.snd) :
    let r := genLoop env postural cs cands h rep
    (∃ l, (∀ x ∈ l, x ∈ F) ∧ Extends h.workingState r.2.1.workingState l ∧
      (M ≤ 1 → l.length ≤ M ∧ (r.1.success = false → l = []))) ∧
    (r.1.success = true → r.1.result = r.2.1.workingState) ∧
    (r.2.2 = true → r.2.1.checkStabilityGenerate = cs) ∧
    r.2.1 = { h with workingState := r.2.1.workingState,
                     checkStabilityGenerate := r.2.1.checkStabilityGenerate } := by
  induction cands generalizing h rep with
  | nil =>
    simp only [genLoop]
    exact ⟨⟨[], by simp, Extends.refl' h.workingState _ _, by simp⟩, by simp [hrep]⟩
  | cons c rest ih =>
    simp only [genLoop, hrep, Bool.false_eq_true, if_false]
    obtain ⟨b, hcm⟩ := checkMaintained_shape env cs c.2 h
    set h1 := checkMaintained env cs c.2 h with hh1
    have hext1 : Extends h.workingState h1.workingState [] := by
      rw [hcm]; exact Extends.refl' h.workingState _ _
    have hc1 : h1.checkStabilityGenerate = h.checkStabilityGenerate := by rw [hcm]
    by_cases hearly : (c.2.isEmpty && (h1.workingState.stable || !cs) &&
        decide (2 ≤ h1.workingState.nbContacts)) = true
    · rw [if_pos hearly]
      have hemp : c.2 = [] := by
        simp only [Bool.and_eq_true] at hearly; exact List.isEmpty_iff.1 hearly.1.1
      refine ⟨⟨[], by simp, hext1, by simp⟩, by simp, fun _ => ?_, by rw [hcm]⟩
      rcases hinv with h1' | h1'
      · simp only; rw [hc1, h1']
      · exact absurd (by simp [hemp]) h1'
    · rw [if_neg hearly]
      obtain ⟨⟨l, i1, i2, i3⟩, i4, i5, i6, i7⟩ := genLimbs_spec env postural cs c.1 c.2
        { h1 with checkStabilityGenerate := false } rep
      set g := genLimbs env postural cs c.1 c.2 { h1 with checkStabilityGenerate := false } rep with hg
      have hext2 : Extends h.workingState g.2.workingState l := by
        have := hext1.trans (b := h1.workingState) (c := g.2.workingState) i2
        simpa using this
      have hlF : ∀ x ∈ l, x ∈ F := fun x hx => hF c (by simp) x (i1.subset hx)
      have hnd' := hnd
      simp only [List.map_cons, List.nodup_cons] at hnd'
      have hshape : g.2 = 
          { h with workingState := g.2.workingState, checkStabilityGenerate := g.2.checkStabilityGenerate } := by
        rw [i7, hcm]
      cases hs : g.1.success with
      | true =>
        have e : genLoop env postural cs rest g.2 g.1 = (g.1, g.2, false) := by
          cases rest with
          | nil => rfl
          | cons a b => simp [genLoop, hs]
        rw [e]
        refine ⟨⟨l, hlF, hext2, fun hM1 => ⟨?_, by simp [hs]⟩⟩, fun _ => ?_, by simp, hshape⟩
        · exact (i1.length_le).trans (hM c (by simp))
        · by_cases hce : c.2 = []
          · rw [i5 hce, hrep] at hs; simp at hs
          · exact i6 hce hs
      | false =>
        obtain ⟨⟨l', k1, k2, k3⟩, k4, k5, k6⟩ := ih (fun c hc => hF c (List.mem_cons_of_mem _ hc))
          (fun c hc => hM c (List.mem_cons_of_mem _ hc)) hnd'.2 g.2 g.1 hs (by
            by_cases hce : c.2 = []
            · right; rw [hce] at hnd'; exact hnd'.1
            · left; rw [i4, if_neg hce])
        refine ⟨⟨l ++ l', ?_, hext2.trans k2, fun hM1 => ?_⟩, k4, k5, ?_⟩
        · intro x hx
          rcases List.mem_append.1 hx with hx | hx
          · exact hlF x hx
          · exact k1 x hx
        · have hl : l = [] := by
            by_cases hce : c.2 = []
            · rw [hce] at i1; simpa using i1
            · exact i3 ((hM c (by simp)).trans hM1) hce hs
          rw [hl]; simpa using k3 hM1
        · rw [k6, hshape]

/-- **C19** (partial: the bound on the number of creations holds for `maxContactCreations ≤ 1`, the value used
by `ComputeContacts`; it is false for larger values, see `C19_two_creations_violated`).
`gen_contacts` restores the stability option on every exit; it changes nothing else in the helper but the
working state; a success extends the working state by contacts of limbs that were free only, leaving every
other contact untouched. -/
theorem C19_gen_contacts_partial (env : Env N K Smp) (hl : env.limbs.Nodup) (postural : Bool)
    (h : Helper N K) :
    let r := genContacts env postural h
    r.2 = { h with workingState := r.2.workingState } ∧
    (r.1.success = true → ∃ l, (∀ n ∈ l, n ∈ env.limbs ∧ h.workingState.contacts.find? n ≠ some true) ∧
      Extends h.workingState r.1.result l ∧
      (h.maxContactCreations ≤ 1 → l.length ≤ h.maxContactCreations)) := by
  intro r
  have hfree : (h.workingState.freeEffectors env.limbs).Nodup := nodup_freeEffectors _ hl
  obtain ⟨_, e2, e3⟩ := C12_enumeration (h.workingState.freeEffectors env.limbs) hfree h.workingState
    h.maxContactCreations h.maximiseContacts
  obtain ⟨⟨l, k1, k2, k3⟩, k4, k5, k6⟩ := genLoop_spec env postural h.checkStabilityGenerate
    (h.workingState.freeEffectors env.limbs) h.maxContactCreations (genCandidates env h)
    (fun c hc x hx => ((e2 c.2).1 (List.mem_map_of_mem hc)).2.1 x hx)
    (fun c hc => ((e2 c.2).1 (List.mem_map_of_mem hc)).2.2) e3 h (Report.default env) rfl (Or.inl rfl)
  simp only [r, genContacts]
  set q := genLoop env postural h.checkStabilityGenerate (genCandidates env h) h (Report.default env)
  have hw : ∀ n ∈ h.workingState.freeEffectors env.limbs, n ∈ env.limbs ∧
      h.workingState.contacts.find? n ≠ some true := by
    intro n hn
    unfold freeEffectors at hn
    rw [List.mem_filter] at hn
    refine ⟨hn.1, fun hc => ?_⟩
    simp [hc] at hn
  cases hq : q.2.2 with
  | true =>
    simp only [if_true]
    refine ⟨?_, fun hs => ⟨l, fun n hn => hw n (k1 n hn), ?_, fun hM => (k3 hM).1⟩⟩
    · conv_lhs => rw [k6]
      rw [k5 hq]
    · rw [k4 hs]; exact k2
  | false =>
    simp only [Bool.false_eq_true, if_false]
    refine ⟨?_, fun hs => ⟨l, fun n hn => hw n (k1 n hn), ?_, fun hM => (k3 hM).1⟩⟩
    · conv_lhs => rw [k6]
    · rw [k4 hs]; exact k2

example : (genContacts demoEnv false demoHelper).1.success = true ∧
    (genContacts demoEnv false demoHelper).1.result.contactOrder = [2, 1, 3] := by decide

/-- **C19 is violated** for `maxContactCreations = 2`: contacts created by an abandoned candidate stay in
the working state, so three creations happen and limb 3 is queued twice. -/
theorem C19_two_creations_violated :
    let env : Env ℕ ℤ ℤ := { demoEnv with robustness := fun s => ((s.contactOrder.length : ℤ) : WithBot ℤ) }
    let r := genContacts env false { demoHelper with maxContactCreations := 2, robustnessTreshold := 5 }
    r.1.success = true ∧ r.1.result.contactOrder = [2, 1, 3, 4, 3] := by decide

/-! ## C20 -/

/-- an unstable contact is only ever returned when the caller asked for it -/
theorem unstable_contactIfFails (env : Env N K Smp) (postural : Bool) (params : State N K)
    (h : Helper N K) (limb : N)
    (hs : (generateContact env postural params h limb).status = .unstable) : h.contactIfFails = true := by
  have pass : ∀ p fs un, (findPass env p params h limb false fs un).2.foundSample = false →
      (findPass env p params h limb false fs un).2.foundStable = false →
      (findPass env p params h limb false fs un).2.unstableContact = true →
      fs = false ∧ (un = true ∨ h.contactIfFails = true) := by
    intro p fs un h1 h2 h3
    have hsp := (candidateLoop_spec env p h limb (env.octree limb params h.workingState)
      (Search.start env h false fs un) rfl).2 h1
    have hfs : fs = false := by
      cases fs with
      | false => rfl
      | true => exact absurd ((hsp.2.1 rfl).1.symm.trans h2) (by simp)
    refine ⟨hfs, ?_⟩
    rcases (((hsp.2.2 hfs).2 h2).2) with ⟨e, _⟩ | ⟨_, e, _⟩
    · left; have : _ = un := e; rw [← this]; exact h3
    · exact Or.inr e
  unfold generateContact findValidCandidate at hs
  cases hf : (findPass env postural params h limb false false false).2.foundSample with
  | true => simp [hf] at hs
  | false =>
    cases postural with
    | false =>
      simp only [hf, Bool.false_and, Bool.false_eq_true, if_false] at hs
      split_ifs at hs with h1 h2
      have := (pass false false false hf (by simpa using h1) h2).2
      simpa using this
    | true =>
      simp only [hf, Bool.true_and, Bool.not_false, if_true] at hs
      split_ifs at hs with h0 h1 h2
      obtain ⟨e1, e2⟩ := pass false _ _ (by simpa using h0) (by simpa using h1) h2
      rcases e2 with e2 | e2
      · simpa using (pass true false false hf e1 e2).2
      · exact e2

/-- the contact data of limb `n` is the same in both states -/
def SameData (a b : State N K) (n : N) : Prop :=
  a.contacts.find? n = b.contacts.find? n ∧ a.contactPositions.find? n = b.contactPositions.find? n ∧
  a.contactNormals.find? n = b.contactNormals.find? n ∧ a.contactRotation.find? n = b.contactRotation.find? n

theorem SameData.trans {a b c : State N K} {n : N} (h : SameData a b n) (h' : SameData b c n) :
    SameData a c n :=
  ⟨h.1.trans h'.1, h.2.1.trans h'.2.1, h.2.2.1.trans h'.2.2.1, h.2.2.2.trans h'.2.2.2⟩

theorem removeContact_data (s : State N K) {n m : N} (hne : m ≠ n) : SameData (s.removeContact n).1 s m := by
  unfold State.removeContact
  split_ifs
  · simp [SameData, AMap.find?_erase, hne]
  · exact ⟨rfl, rfl, rfl, rfl⟩

theorem Consistent.of_flags {s : State N K} (h : Consistent s) (c : List K) (b : Bool) :
    Consistent { s with configuration := c, stable := b } :=
  ⟨⟨h.contacts, h.normals, h.positions, h.rotations⟩, h.normalsKeys, h.positionsKeys, h.rotationsKeys,
    h.orderPerm, h.counter, h.active⟩

theorem repositionLoop_spec (env : Env N K Smp) (postural : Bool) (saved : List K) (O : List N)
    (s : State N K) (popped : List N) (nName : Option N) (h : Helper N K)
    (hc : Consistent s) (ho : s.contactOrder = O) (hst : s.stable = false)
    (hg : ∀ n ∈ O, env.group n = [n]) (hcf : h.contactIfFails = false) :
    let r := repositionLoop env postural saved O s popped nName h
    (r.1.stable = true → ∃ lost limb rest, O = lost ++ limb :: rest ∧ r.2.1 = rest ∧ r.2.2.1 = popped ∧
      r.2.2.2.1 = some limb ∧ ∃ s0, Consistent s0 ∧ s0.contactOrder = rest ∧
        (∀ n ∈ rest, SameData s0 s n) ∧ ∃ p n R c, r.1 = { s0 with
          contacts := s0.contacts.set limb true
          contactNormals := s0.contactNormals.set limb n
          contactPositions := s0.contactPositions.set limb p
          contactRotation := s0.contactRotation.set limb R
          contactOrder := s0.contactOrder ++ [limb]
          configuration := c, stable := true }) ∧
    (r.1.stable = false → r.2.1 = [] ∧ r.2.2.1 = popped ∧ Consistent r.1 ∧ r.1.contactOrder = []) := by
  induction O generalizing s nName h with
  | nil => simp [repositionLoop, hst, hc, ho]
  | cons prev O ih =>
    simp only [repositionLoop, hst, Bool.false_eq_true, if_false, hg prev (by simp)]
    set s1 := (s.removeContact prev).1 with hs1
    have hmem : prev ∈ s.contacts.keys := hc.orderPerm.mem_iff.1 (by simp [ho])
    have hs1c : Consistent s1 := State.Consistent.removeContact hc prev
    have hnd := hc.order_nodup
    rw [ho] at hnd
    have hs1o : s1.contactOrder = O := by
      rw [hs1]; unfold State.removeContact
      rw [if_pos (AMap.has_iff.2 hmem)]
      simp only [requeueWithout_eq, ho]
      rw [List.filter_cons_of_neg (by simp)]
      refine List.filter_eq_self.2 ?_
      intro x hx; simpa using fun e : x = prev => (List.nodup_cons.1 hnd).1 (e ▸ hx)
    have hne : ∀ n ∈ O, n ≠ prev := fun n hn e => (List.nodup_cons.1 hnd).1 (e ▸ hn)
    set h1 : Helper N K := { h with workingState := s1 } with hh1
    set rep := generateContact env postural h1.workingState h1 prev with hrep
    obtain ⟨g1, g2⟩ := generateContact_shape env postural h1.workingState h1 prev
    by_cases hn : rep.status = .noContact
    · obtain ⟨_, e⟩ := g2 hn
      have e' : rep.result = { s1 with stable := false, configuration := rep.result.configuration } := e
      have i := ih rep.result (some prev) h1 (by
          rw [e']; exact Consistent.of_flags hs1c _ _) (by rw [e']; exact hs1o) (by rw [e'])
          (fun n hn => hg n (List.mem_cons_of_mem _ hn)) hcf
      refine ⟨fun hs => ?_, i.2⟩
      obtain ⟨lost, limb, rest, q1, q2, q3, q4, s0, q5, q6, q7, q8⟩ := i.1 hs
      refine ⟨prev :: lost, limb, rest, by rw [q1]; rfl, q2, q3, q4, s0, q5, q6, ?_, q8⟩
      intro n hnr
      have hnO : n ∈ O := by rw [q1]; simp [hnr]
      have a1 : SameData rep.result s1 n := by rw [e']; exact ⟨rfl, rfl, rfl, rfl⟩
      exact (q7 n hnr).trans (a1.trans (removeContact_data s (hne n hnO)))
    · obtain ⟨p, n, R, c, b, e, eb⟩ := g1 hn
      have hb : b = true := eb.2 (fun hu => by
        have := unstable_contactIfFails env postural h1.workingState h1 prev hu
        rw [show h1.contactIfFails = h.contactIfFails from rfl, hcf] at this; simp at this)
      subst hb
      have hst' : rep.result.stable = true := by rw [hrep, e]
      have hstop : repositionLoop env postural saved O rep.result popped (some prev) h1 =
          (rep.result, O, popped, some prev, h1) := by
        cases O with
        | nil => rfl
        | cons a b => simp [repositionLoop, hst']
      rw [hstop]
      refine ⟨fun _ => ⟨[], prev, O, rfl, rfl, rfl, rfl, s1, hs1c, hs1o,
        fun n hn => removeContact_data s (hne n hn), p, n, R, c, e⟩, by simp [hst']⟩

/-- **C20** (partial: limb groups are singletons and unstable contacts are not requested; otherwise the order
does not list the contacts, see the `_violated` theorems).  `repositionContacts` succeeds iff the
returned state is stable.  Contacts are visited in contact order: on success the visited ones before the last are
gone, the last one is re-created and becomes the newest, the unvisited ones keep their data; on failure all
contacts are gone.  The returned order lists exactly the contacts of the returned state. -/
theorem C20_reposition_partial (env : Env N K Smp) (postural : Bool) (h : Helper N K)
    (hc : Consistent h.workingState) (hcf : h.contactIfFails = false)
    (hg : ∀ n ∈ h.workingState.contactOrder, env.group n = [n]) :
    let r := (repositionContacts env postural h).1
    (r.success = true ↔ r.result.stable = true) ∧
    (r.success = true ↔ r.status = .stable) ∧
    r.result.contactOrder.Perm r.result.contacts.keys ∧
    (r.success = true → ∃ lost limb rest, h.workingState.contactOrder = lost ++ limb :: rest ∧
      r.result.contactOrder = rest ++ [limb] ∧ ∀ n ∈ rest, SameData r.result h.workingState n) ∧
    (r.success = false → r.result.contacts = [] ∧ r.result.contactOrder = []) := by
  have hsp := repositionLoop_spec env postural h.previousState.configuration
    h.workingState.contactOrder { h.workingState with stable := false } [] none h
    (Consistent.of_flags hc h.workingState.configuration false) rfl rfl hg hcf
  simp only [repositionContacts]
  simp only at hsp
  set q := repositionLoop env postural h.previousState.configuration h.workingState.contactOrder
    { h.workingState with stable := false } [] none h with hq
  refine ⟨trivial, ?_, ?_, ?_, ?_⟩
  · cases q.1.stable <;> simp
  · cases hs : q.1.stable with
    | true =>
      obtain ⟨lost, limb, rest, q1, q2, q3, q4, s0, q5, q6, q7, p, n, R, c, q8⟩ := hsp.1 hs
      have hnot : limb ∉ s0.contacts.keys := by
        intro hm
        have hm' := q5.orderPerm.mem_iff.2 hm
        rw [q6] at hm'
        have hnd := hc.order_nodup
        rw [q1] at hnd
        exact (List.nodup_cons.1 (List.nodup_append.1 hnd).2.1).1 hm'
      have h1 : q.1.contacts = s0.contacts.set limb true := by rw [q8]
      simp only [q2, q3, q4, if_true, List.nil_append, Option.toList_some, h1]
      rw [← q6]
      exact (q5.orderPerm.append_right [limb]).trans (keys_set_perm true hnot).symm
    | false =>
      obtain ⟨e1, e2, e3, e4⟩ := hsp.2 hs
      simp only [e1, e2, Bool.false_eq_true, if_false, List.append_nil]
      have := e3.orderPerm
      rw [e4] at this; exact this
  · intro hs
    obtain ⟨lost, limb, rest, q1, q2, q3, q4, s0, q5, q6, q7, p, n, R, c, q8⟩ := hsp.1 hs
    refine ⟨lost, limb, rest, q1, by simp [hs, q2, q3, q4], ?_⟩
    intro m hm
    have hne : m ≠ limb := by
      intro e
      have hnd := hc.order_nodup
      rw [q1] at hnd
      exact (List.nodup_cons.1 (List.nodup_append.1 hnd).2.1).1 (e ▸ hm)
    have a1 : SameData ({ q.1 with contactOrder := q.2.2.1 ++ q.2.1 ++
        (if q.1.stable = true then q.2.2.2.1.toList else []) } : State N K) s0 m := by
      rw [q8]
      simp [SameData, AMap.find?_set, hne]
    exact a1.trans ((q7 m hm).trans ⟨rfl, rfl, rfl, rfl⟩)
  · intro hs
    obtain ⟨e1, e2, e3, e4⟩ := hsp.2 hs
    refine ⟨?_, by simp [hs, e1, e2]⟩
    have := e3.orderPerm
    rw [e4] at this
    have := List.Perm.nil_eq this
    show q.1.contacts = []
    unfold AMap.keys at this
    exact List.map_eq_nil_iff.1 this.symm

/-- non-vacuity -/
example : Consistent demoHelper.workingState ∧ demoHelper.contactIfFails = false ∧
    (∀ n ∈ demoHelper.workingState.contactOrder, demoEnv.group n = [n]) ∧
    (repositionContacts demoEnv false demoHelper).1.success = true ∧
    (repositionContacts demoEnv false demoHelper).1.result.contactOrder = [1, 2] :=
  ⟨Consistent.of_flags demo_consistent _ _, rfl, by decide, by decide, by decide⟩

/-- **C20 is violated**: a success may have lost a contact (limb 2 could not be placed again, limb 1 could). -/
theorem C20_lost_contact_violated :
    let env : Env ℕ ℤ ℤ := { demoEnv with octree := fun l _ _ => if l = 2 then [] else [4] }
    (repositionContacts env false demoHelper).1.success = true ∧
    (repositionContacts env false demoHelper).1.result.contacts.keys = [1] := by decide

/-- the loop over contacts of no group: nothing is removed, the names are put aside in reversed order -/
theorem repositionLoop_no_group (env : Env N K Smp) (postural : Bool) (saved : List K) (order : List N) (result : State N K) (popped : List N)
    (nName : Option N) (h : Helper N K) (hs : result.stable = false) (hg : ∀ n ∈ order, env.group n = []) :
    ∃ q, repositionLoop env postural saved order result popped nName h = ({ result with configuration := q }, [], order.reverse ++ popped, nName, h) := by
  induction order generalizing result popped with
  | nil => exact ⟨result.configuration, rfl⟩
  | cons n l ih =>
    unfold repositionLoop
    simp only [hs, hg n (by simp), Bool.false_eq_true, if_false]
    obtain ⟨q, hq⟩ := ih { result with configuration := saved } (n :: popped) hs fun m hm => hg m (by simp [hm])
    simp only [hs] at hq
    exact ⟨q, by rw [hq]; simp⟩

/-- **C20** (contacts of no group).  If the effector of no contact belongs to a limb group the repositioning fails, and no contact is lost: every contact keeps
its data and the creation order still lists each of them once (in the reversed order). -/
theorem C20_no_group (env : Env N K Smp) (postural : Bool) (h : Helper N K) (hg : ∀ n ∈ h.workingState.contactOrder, env.group n = []) :
    let r := (repositionContacts env postural h).1
    r.success = false ∧ r.result.stable = false ∧ r.result.contactOrder = h.workingState.contactOrder.reverse ∧
      r.result.contacts = h.workingState.contacts ∧ ∀ n, SameData r.result h.workingState n := by
  obtain ⟨q, hq⟩ := repositionLoop_no_group env postural h.previousState.configuration h.workingState.contactOrder
    { h.workingState with stable := false } [] none h rfl hg
  simp only [repositionContacts, hq]
  simp [SameData]

/-- the hypothesis of `C20_no_group` holds: a state with several contacts -/
example : (repositionContacts ({ demoEnv with group := fun _ => [] } : Env ℕ ℤ ℤ) false demoHelper).1.result.contactOrder =
    demoHelper.workingState.contactOrder.reverse ∧ 2 ≤ demoHelper.workingState.contactOrder.length := by decide

/-- **C20 is violated** for groups of several limbs: limbs 2 and 5 share a group, 5 is put in contact while 2
stays, and the order does not list 2. -/
theorem C20_group_violated :
    let env : Env ℕ ℤ ℤ := { demoEnv with group := fun n => if n = 2 ∨ n = 5 then [5, 2] else [n] }
    (repositionContacts env false demoHelper).1.success = true ∧
    (repositionContacts env false demoHelper).1.result.contacts.keys = [1, 2, 5] ∧
    (repositionContacts env false demoHelper).1.result.contactOrder = [1, 5] := by decide

/-- **C20 is violated** when unstable contacts are requested: a failed repositioning keeps contacts which the order
does not list. -/
theorem C20_unstable_violated :
    let r := (repositionContacts demoEnv false
      { demoHelper with contactIfFails := true, robustnessTreshold := 100 }).1
    r.success = false ∧ r.result.contacts.keys = [1, 2] ∧ r.result.contactOrder = [] := by decide

end Contact
end Rbprm
