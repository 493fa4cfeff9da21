import Verif.Props.ContactGen
/-!
# Property C17: `generate_contact`
-/
set_option linter.unusedSectionVars false
namespace Rbprm
namespace Contact
open State
variable {N K Smp : Type _} [LinearOrder N] [CommRing K] [LinearOrder K]

/-! ## Specification -/

/-- One projection attempt: did inverse kinematics and the limb collision check both succeed, for which
sample, reaching which configuration. -/
structure Trial (K Smp : Type _) where
  ok : Bool
  smp : Smp
  config : List K

/-- The attempts made for a limb, in candidate order; each one starts from the configuration left by
the previous one. -/
def trials (env : Env N K Smp) (postural : Bool) (w : State N K) (limb : N) :
    List Smp → List K → List (Trial K Smp)
  | [], _ => []
  | smp :: rest, c =>
    let r := env.applyEffector postural limb smp (env.load smp c) { w with stable := false }
    ⟨r.1 && env.limbValid limb r.2, smp, r.2⟩ :: trials env postural w limb rest r.2

/-- The state in which `limb` is put in contact by the attempt. -/
def Trial.state (env : Env N K Smp) (w : State N K) (limb : N) (t : Trial K Smp) : State N K :=
  ({ w with stable := false }).addContact limb (env.effectorPosition limb t.config) (env.normal t.smp)
    (env.effectorRotation limb t.config) t.config

/-- Stability has to be established for a contact created from `h`. -/
def StabilityRequired (h : Helper N K) : Prop :=
  h.checkStabilityGenerate = true ∧ ¬ (h.workingState.nbContacts + 1 = 1 ∧ h.stableForOneContact = false)

instance (h : Helper N K) : Decidable (StabilityRequired h) := by unfold StabilityRequired; infer_instance

/-- robust enough -/
def Robust (env : Env N K Smp) (h : Helper N K) (s : State N K) : Prop :=
  (h.robustnessTreshold : WithBot K) ≤ env.robustness s

instance (env : Env N K Smp) (h : Helper N K) (s : State N K) : Decidable (Robust env h s) := by
  unfold Robust; infer_instance

/-- reachable from the working state (quasi-static) or from the previous state (dynamic), when the test
is enabled -/
def Reaches (env : Env N K Smp) (h : Helper N K) (s : State N K) : Prop :=
  h.testReachability = true →
    if h.quasiStatic then env.reachable { h.workingState with stable := false } s = true
    else env.reachableDyn h.previousState s = true

theorem reaches_iff (env : Env N K Smp) (h : Helper N K) (s : State N K) :
    Reaches env h s ↔ candidateReachable env h s = true := by
  unfold Reaches candidateReachable
  cases h.testReachability <;> cases h.quasiStatic <;> simp

instance (env : Env N K Smp) (h : Helper N K) (s : State N K) : Decidable (Reaches env h s) :=
  decidable_of_iff _ (reaches_iff env h s).symm

/-- a fully satisfying attempt -/
def Good (env : Env N K Smp) (h : Helper N K) (limb : N) (t : Trial K Smp) : Prop :=
  t.ok = true ∧ (StabilityRequired h →
    Robust env h (t.state env h.workingState limb) ∧ Reaches env h (t.state env h.workingState limb))

/-- robust but unreachable -/
def StableOnly (env : Env N K Smp) (h : Helper N K) (limb : N) (t : Trial K Smp) : Prop :=
  t.ok = true ∧ StabilityRequired h ∧ Robust env h (t.state env h.workingState limb) ∧
    ¬ Reaches env h (t.state env h.workingState limb)

/-- collision free but not robust -/
def Weak (env : Env N K Smp) (h : Helper N K) (limb : N) (t : Trial K Smp) : Prop :=
  t.ok = true ∧ StabilityRequired h ∧ ¬ Robust env h (t.state env h.workingState limb)

instance (env : Env N K Smp) (h : Helper N K) (limb : N) (t : Trial K Smp) :
    Decidable (Good env h limb t) := by unfold Good; infer_instance
instance (env : Env N K Smp) (h : Helper N K) (limb : N) (t : Trial K Smp) :
    Decidable (StableOnly env h limb t) := by unfold StableOnly; infer_instance
instance (env : Env N K Smp) (h : Helper N K) (limb : N) (t : Trial K Smp) :
    Decidable (Weak env h limb t) := by unfold Weak; infer_instance

/-- `t` is the first element of `l` satisfying `p` -/
def FirstWith {α : Type _} (p : α → Prop) (l : List α) (t : α) : Prop :=
  ∃ pre post, l = pre ++ t :: post ∧ p t ∧ ∀ x ∈ pre, ¬ p x

/-- All attempts of one call: with the postural task first (when the option is on), then without. -/
def attempts (env : Env N K Smp) (postural : Bool) (params : State N K) (h : Helper N K) (limb : N) :
    List (Trial K Smp) :=
  (if postural then
    trials env true h.workingState limb (env.octree limb params h.workingState) h.workingState.configuration
   else []) ++
  trials env false h.workingState limb (env.octree limb params h.workingState) h.workingState.configuration

/-- What is returned for an accepted attempt: the working state plus the contact of the attempt; the counter
is the working state's. -/
def Trial.returned (env : Env N K Smp) (h : Helper N K) (limb : N) (t : Trial K Smp) (stable : Bool) :
    State N K :=
  { t.state env h.workingState limb with nbContacts := h.workingState.nbContacts, stable := stable }

/-! ## Proof -/

/-- loop variables hold the data of attempt `t` -/
def Holds (env : Env N K Smp) (limb : N) (t : Trial K Smp) (w : Search K) : Prop :=
  w.position = env.effectorPosition limb t.config ∧ w.normal = env.normal t.smp ∧
    w.rotation = env.effectorRotation limb t.config

def firstTrial (env : Env N K Smp) (postural : Bool) (w : State N K) (limb : N) (smp : Smp)
    (c : List K) : Trial K Smp :=
  let r := env.applyEffector postural limb smp (env.load smp c) { w with stable := false }
  ⟨r.1 && env.limbValid limb r.2, smp, r.2⟩

theorem trials_cons (env : Env N K Smp) (postural : Bool) (w : State N K) (limb : N) (smp : Smp)
    (rest : List Smp) (c : List K) :
    trials env postural w limb (smp :: rest) c = firstTrial env postural w limb smp c ::
      trials env postural w limb rest (firstTrial env postural w limb smp c).config := rfl

theorem project_eq (env : Env N K Smp) (postural : Bool) (h : Helper N K) (limb : N) (smp : Smp)
    (c : List K) :
    projectSampleToObstacle env postural limb smp c { h.workingState with stable := false } =
      let t := firstTrial env postural h.workingState limb smp c
      (⟨t.ok, if t.ok then t.state env h.workingState limb else { h.workingState with stable := false },
        .noContact⟩, t.config) := by
  unfold projectSampleToObstacle firstTrial
  simp only
  generalize env.applyEffector postural limb smp (env.load smp c) { h.workingState with stable := false } = r
  cases hb : (r.1 && env.limbValid limb r.2) <;> rfl

theorem take_holds (env : Env N K Smp) (w : Search K) (wst : State N K) (limb : N) (t : Trial K Smp) :
    Holds env limb t (w.take limb (t.state env wst limb)) := by
  unfold Holds Search.take Trial.state State.addContact
  simp [AMap.find?_set]

theorem state_nb (env : Env N K Smp) (wst : State N K) (limb : N) (t : Trial K Smp) :
    (t.state env wst limb).nbContacts = wst.nbContacts + 1 := rfl

theorem skip_iff (h : Helper N K) (n : Nat) (hn : n = h.workingState.nbContacts + 1) :
    (!h.checkStabilityGenerate || (n == 1 && !h.stableForOneContact)) = true ↔ ¬ StabilityRequired h := by
  unfold StabilityRequired
  cases h.checkStabilityGenerate <;> cases h.stableForOneContact <;> simp [hn]

/-- One iteration, by cases of the specification. -/
theorem tryCandidate_cases (env : Env N K Smp) (postural : Bool) (h : Helper N K) (limb : N)
    (w : Search K) (smp : Smp) :
    let t := firstTrial env postural h.workingState limb smp w.configuration
    let w' := tryCandidate env postural h limb w smp
    w'.configuration = t.config ∧
    ((Good env h limb t ∧ w'.foundSample = true ∧ Holds env limb t w') ∨
     (StableOnly env h limb t ∧ w.foundStable = false ∧ Holds env limb t w' ∧
        w'.foundStable = true ∧ w'.foundSample = w.foundSample ∧
        w'.unstableContact = w.unstableContact ∧ w'.bestUnreachable = t.config ∧
        (h.robustnessTreshold : WithBot K) ≤ w'.maxRob) ∨
     (Weak env h limb t ∧ w.maxRob < env.robustness (t.state env h.workingState limb) ∧
        h.contactIfFails = true ∧ Holds env limb t w' ∧ w'.unstableContact = true ∧
        w'.foundStable = w.foundStable ∧ w'.foundSample = w.foundSample ∧
        w'.moreRobust = t.config ∧ w'.bestUnreachable = w.bestUnreachable ∧
        w'.maxRob = env.robustness (t.state env h.workingState limb)) ∨
     (w' = { w with configuration := t.config } ∧ ¬ Good env h limb t ∧
       (StableOnly env h limb t → w.foundStable = true) ∧
       (Weak env h limb t → h.contactIfFails = true →
          env.robustness (t.state env h.workingState limb) ≤ w.maxRob))) := by
  intro t w'
  have hw' : w' = tryCandidate env postural h limb w smp := rfl
  unfold tryCandidate at hw'
  have hr : projectSampleToObstacle env postural limb smp w.configuration
      { h.workingState with stable := false } = (⟨t.ok, if t.ok then t.state env h.workingState limb else
      { h.workingState with stable := false }, .noContact⟩, t.config) :=
    project_eq env postural h limb smp w.configuration
  rw [hr] at hw'
  clear_value w' t
  unfold judgeCandidate at hw'
  simp only at hw'
  cases hok : t.ok with
  | false =>
    simp only [hok, Bool.false_eq_true, if_false] at hw'
    refine ⟨by rw [hw'], Or.inr (Or.inr (Or.inr ⟨hw', ?_, ?_, ?_⟩))⟩
    · rintro ⟨h1, _⟩; rw [hok] at h1; simp at h1
    · rintro ⟨h1, _⟩; rw [hok] at h1; simp at h1
    · rintro ⟨h1, _⟩; rw [hok] at h1; simp at h1
  | true =>
    simp only [hok, if_true] at hw'
    by_cases hreq : StabilityRequired h
    · have hskip := (not_congr (skip_iff h (t.state env h.workingState limb).nbContacts rfl)).2
        (not_not.2 hreq)
      change w' = (if (!h.checkStabilityGenerate || ((t.state env h.workingState limb).nbContacts == 1 &&
        !h.stableForOneContact)) = true then _ else _) at hw'
      rw [if_neg hskip] at hw'
      change w' = (if Robust env h (t.state env h.workingState limb) then _ else _) at hw'
      by_cases hrob : Robust env h (t.state env h.workingState limb)
      · rw [if_pos hrob] at hw'
        change w' = (if candidateReachable env h (t.state env h.workingState limb) = true then _ else _)
          at hw'
        by_cases hre : Reaches env h (t.state env h.workingState limb)
        · rw [if_pos ((reaches_iff _ _ _).1 hre)] at hw'
          refine ⟨by rw [hw']; rfl, Or.inl ⟨⟨hok, fun _ => ⟨hrob, hre⟩⟩, by rw [hw'], ?_⟩⟩
          rw [hw']; exact take_holds env _ _ limb t
        · rw [if_neg (fun hc => hre ((reaches_iff _ _ _).2 hc))] at hw'
          cases hfs : w.foundStable with
          | false =>
            simp only [hfs, Bool.not_false, if_true] at hw'
            refine ⟨by rw [hw']; rfl, Or.inr (Or.inl ⟨⟨hok, hreq, hrob, hre⟩, rfl, ?_⟩)⟩
            refine ⟨by rw [hw']; exact take_holds env _ _ limb t, ?_⟩
            rw [hw']
            refine ⟨rfl, rfl, rfl, rfl, ?_⟩
            exact le_trans hrob (le_max_left _ _)
          | true =>
            simp only [hfs, Bool.not_true, Bool.false_eq_true, if_false] at hw'
            refine ⟨by rw [hw'], Or.inr (Or.inr (Or.inr ⟨hw', ?_, fun _ => rfl, ?_⟩))⟩
            · rintro ⟨_, h2⟩; exact hre (h2 hreq).2
            · rintro ⟨_, _, h2⟩; exact absurd hrob h2
      · rw [if_neg hrob] at hw'
        have hng : ¬ Good env h limb t := by rintro ⟨_, h2⟩; exact hrob (h2 hreq).1
        by_cases hb : w.maxRob < env.robustness (t.state env h.workingState limb) ∧ h.contactIfFails = true
        · have : (decide (w.maxRob < env.robustness (t.state env h.workingState limb)) &&
            h.contactIfFails) = true := by simp [hb.1, hb.2]
          change w' = (if (decide (w.maxRob < env.robustness (t.state env h.workingState limb)) &&
            h.contactIfFails) = true then _ else _) at hw'
          rw [if_pos this] at hw'
          refine ⟨by rw [hw']; rfl, Or.inr (Or.inr (Or.inl ⟨⟨hok, hreq, hrob⟩, hb.1, hb.2, ?_⟩))⟩
          refine ⟨by rw [hw']; exact take_holds env _ _ limb t, ?_⟩
          rw [hw']
          exact ⟨rfl, rfl, rfl, rfl, rfl, rfl⟩
        · have : ¬ (decide (w.maxRob < env.robustness (t.state env h.workingState limb)) &&
            h.contactIfFails) = true := by simpa using hb
          change w' = (if (decide (w.maxRob < env.robustness (t.state env h.workingState limb)) &&
            h.contactIfFails) = true then _ else _) at hw'
          rw [if_neg this] at hw'
          refine ⟨by rw [hw'], Or.inr (Or.inr (Or.inr ⟨hw', hng, ?_, ?_⟩))⟩
          · rintro ⟨_, _, h2, _⟩; exact absurd h2 hrob
          · intro _ hc; by_contra hn; exact hb ⟨not_le.1 hn, hc⟩
    · have hskip := (skip_iff h (t.state env h.workingState limb).nbContacts rfl).2 hreq
      change w' = (if (!h.checkStabilityGenerate || ((t.state env h.workingState limb).nbContacts == 1 &&
        !h.stableForOneContact)) = true then _ else _) at hw'
      rw [if_pos hskip] at hw'
      refine ⟨by rw [hw']; rfl, Or.inl ⟨⟨hok, fun hc => absurd hc hreq⟩, by rw [hw'], ?_⟩⟩
      rw [hw']; exact take_holds env _ _ limb t

theorem firstWith_cons_pos {α : Type _} {p : α → Prop} {a : α} {l : List α} (h : p a) :
    FirstWith p (a :: l) a := ⟨[], l, rfl, h, by simp⟩

theorem firstWith_cons_neg {α : Type _} {p : α → Prop} {a t : α} {l : List α} (h : ¬ p a)
    (ht : FirstWith p l t) : FirstWith p (a :: l) t := by
  obtain ⟨pre, post, e, h1, h2⟩ := ht
  refine ⟨a :: pre, post, by rw [e]; rfl, h1, ?_⟩
  intro x hx
  rcases List.mem_cons.1 hx with rfl | hx
  · exact h
  · exact h2 x hx

theorem good_not_stableOnly {env : Env N K Smp} {h : Helper N K} {limb : N} {t : Trial K Smp}
    (hs : StableOnly env h limb t) : ¬ Good env h limb t := fun hg => hs.2.2.2 (hg.2 hs.2.1).2
theorem good_not_weak {env : Env N K Smp} {h : Helper N K} {limb : N} {t : Trial K Smp}
    (hs : Weak env h limb t) : ¬ Good env h limb t := fun hg => hs.2.2 (hg.2 hs.2.1).1

theorem candidateLoop_found (env : Env N K Smp) (postural : Bool) (h : Helper N K) (limb : N)
    (smps : List Smp) (w : Search K) (hf : w.foundSample = true) :
    candidateLoop env postural h limb smps w = w := by
  cases smps with
  | nil => rfl
  | cons a l => simp [candidateLoop, hf]

/-- The whole loop. -/
theorem candidateLoop_spec (env : Env N K Smp) (postural : Bool) (h : Helper N K) (limb : N)
    (smps : List Smp) (w : Search K) (hf : w.foundSample = false) :
    let T := trials env postural h.workingState limb smps w.configuration
    let w' := candidateLoop env postural h limb smps w
    (w'.foundSample = true → ∃ t, FirstWith (Good env h limb) T t ∧ w'.configuration = t.config ∧
        Holds env limb t w') ∧
    (w'.foundSample = false →
      (∀ t ∈ T, ¬ Good env h limb t) ∧
      (w.foundStable = true → w'.foundStable = true ∧ w'.bestUnreachable = w.bestUnreachable ∧
        ((h.robustnessTreshold : WithBot K) ≤ w.maxRob →
          w'.position = w.position ∧ w'.normal = w.normal ∧ w'.rotation = w.rotation)) ∧
      (w.foundStable = false →
        (w'.foundStable = true → ∃ t, FirstWith (StableOnly env h limb) T t ∧
          w'.bestUnreachable = t.config ∧ Holds env limb t w') ∧
        (w'.foundStable = false → (∀ t ∈ T, ¬ StableOnly env h limb t) ∧
          ((w'.unstableContact = w.unstableContact ∧ w'.moreRobust = w.moreRobust ∧
              w'.position = w.position ∧ w'.normal = w.normal ∧ w'.rotation = w.rotation ∧
              w'.maxRob = w.maxRob ∧
              (h.contactIfFails = true → ∀ t ∈ T, Weak env h limb t →
                env.robustness (t.state env h.workingState limb) ≤ w.maxRob)) ∨
            (w'.unstableContact = true ∧ h.contactIfFails = true ∧ ∃ t ∈ T, Weak env h limb t ∧
              w'.moreRobust = t.config ∧ Holds env limb t w' ∧
              w'.maxRob = env.robustness (t.state env h.workingState limb) ∧
              w.maxRob < env.robustness (t.state env h.workingState limb) ∧
              ∀ t' ∈ T, Weak env h limb t' → env.robustness (t'.state env h.workingState limb) ≤
                env.robustness (t.state env h.workingState limb)))))) := by
  induction smps generalizing w with
  | nil =>
    simp only [candidateLoop, trials, hf]
    simp +contextual
  | cons smp rest ih =>
    rw [trials_cons]
    simp only [candidateLoop, hf, Bool.false_eq_true, if_false]
    obtain ⟨hcfg, hc⟩ := tryCandidate_cases env postural h limb w smp
    set t := firstTrial env postural h.workingState limb smp w.configuration with ht
    set w1 := tryCandidate env postural h limb w smp with hw1
    rcases hc with ⟨hg, hfs, hh⟩ | ⟨hso, hfs0, hh, hfs1, hsame, hun, hbest, hthr⟩ |
      ⟨hwk, hlt, hcf, hh, hun, hfst, hsame, hmr, hbest, hmax⟩ | ⟨he, hng, hnso, hnw⟩
    · rw [candidateLoop_found _ _ _ _ _ _ hfs]
      exact ⟨fun _ => ⟨t, firstWith_cons_pos hg, hcfg, hh⟩, by simp [hfs]⟩
    · have := ih w1 (by rw [hsame]; exact hf)
      rw [hcfg] at this
      simp only at this
      obtain ⟨i1, i2⟩ := this
      refine ⟨fun hs => ?_, fun hs => ?_⟩
      · obtain ⟨t', h1, h2⟩ := i1 hs
        exact ⟨t', firstWith_cons_neg (good_not_stableOnly hso) h1, h2⟩
      · obtain ⟨j1, j2, j3⟩ := i2 hs
        refine ⟨?_, fun hc => absurd hc (by simp [hfs0]), fun _ => ⟨fun _ => ?_, fun hc => ?_⟩⟩
        · intro x hx
          rcases List.mem_cons.1 hx with rfl | hx
          · exact good_not_stableOnly hso
          · exact j1 x hx
        · obtain ⟨k1, k2, k3⟩ := j2 hfs1
          obtain ⟨k4, k5, k6⟩ := k3 hthr
          refine ⟨t, firstWith_cons_pos hso, by rw [k2, hbest], ?_⟩
          unfold Holds at hh ⊢
          rw [k4, k5, k6]; exact hh
        · rw [(j2 hfs1).1] at hc; simp at hc
    · have := ih w1 (by rw [hsame]; exact hf)
      rw [hcfg] at this
      simp only at this
      obtain ⟨i1, i2⟩ := this
      refine ⟨fun hs => ?_, fun hs => ?_⟩
      · obtain ⟨t', h1, h2⟩ := i1 hs
        exact ⟨t', firstWith_cons_neg (good_not_weak hwk) h1, h2⟩
      · obtain ⟨j1, j2, j3⟩ := i2 hs
        have hnso : ¬ StableOnly env h limb t := fun hc => hwk.2.2 hc.2.2.1
        refine ⟨?_, fun hc => ?_, fun hc => ⟨fun hd => ?_, fun hd => ?_⟩⟩
        · intro x hx
          rcases List.mem_cons.1 hx with rfl | hx
          · exact good_not_weak hwk
          · exact j1 x hx
        · obtain ⟨k1, k2, _⟩ := j2 (by rw [hfst]; exact hc)
          refine ⟨k1, by rw [k2, hbest], fun hle => ?_⟩
          exact absurd (le_trans hle hlt.le) hwk.2.2
        · obtain ⟨t', k1, k2⟩ := (j3 (by rw [hfst]; exact hc)).1 hd
          exact ⟨t', firstWith_cons_neg hnso k1, k2⟩
        · obtain ⟨k1, k2⟩ := (j3 (by rw [hfst]; exact hc)).2 hd
          refine ⟨?_, Or.inr ?_⟩
          · intro x hx
            rcases List.mem_cons.1 hx with rfl | hx
            · exact hnso
            · exact k1 x hx
          · rcases k2 with ⟨e1, e2, e3, e4, e5, e6, e7⟩ | ⟨e1, _, t', ht', e3, e4, e5, e6, e7, e8⟩
            · refine ⟨by rw [e1, hun], hcf, t, List.mem_cons_self, hwk, by rw [e2, hmr], ?_, by rw [e6, hmax], hlt, ?_⟩
              · unfold Holds at hh ⊢; rw [e3, e4, e5]; exact hh
              · intro x hx hxw
                rcases List.mem_cons.1 hx with rfl | hx
                · exact le_rfl
                · rw [← hmax]; exact e7 hcf x hx hxw
            · rw [hmax] at e7
              refine ⟨e1, hcf, t', List.mem_cons_of_mem _ ht', e3, e4, e5, e6, lt_trans hlt e7, ?_⟩
              intro x hx hxw
              rcases List.mem_cons.1 hx with rfl | hx
              · exact e7.le
              · exact e8 x hx hxw
    · have := ih w1 (by rw [he]; exact hf)
      rw [hcfg] at this
      simp only at this
      obtain ⟨i1, i2⟩ := this
      have f1 : w1.foundStable = w.foundStable := by rw [he]
      have f2 : w1.bestUnreachable = w.bestUnreachable := by rw [he]
      have f3 : w1.maxRob = w.maxRob := by rw [he]
      have f4 : w1.position = w.position := by rw [he]
      have f5 : w1.normal = w.normal := by rw [he]
      have f6 : w1.rotation = w.rotation := by rw [he]
      have f7 : w1.unstableContact = w.unstableContact := by rw [he]
      have f8 : w1.moreRobust = w.moreRobust := by rw [he]
      rw [f1, f2, f3, f4, f5, f6, f7, f8] at i2
      refine ⟨fun hs => ?_, fun hs => ?_⟩
      · obtain ⟨t', h1, h2⟩ := i1 hs
        exact ⟨t', firstWith_cons_neg hng h1, h2⟩
      · obtain ⟨j1, j2, j3⟩ := i2 hs
        refine ⟨?_, j2, fun hc => ⟨fun hd => ?_, fun hd => ?_⟩⟩
        · intro x hx
          rcases List.mem_cons.1 hx with rfl | hx
          · exact hng
          · exact j1 x hx
        · obtain ⟨t', k1, k2⟩ := (j3 hc).1 hd
          exact ⟨t', firstWith_cons_neg (fun hx => by simpa [hc] using hnso hx) k1, k2⟩
        · obtain ⟨k1, k2⟩ := (j3 hc).2 hd
          refine ⟨?_, ?_⟩
          · intro x hx
            rcases List.mem_cons.1 hx with rfl | hx
            · exact fun hx => by simpa [hc] using hnso hx
            · exact k1 x hx
          · rcases k2 with ⟨e1, e2, e3, e4, e5, e6, e7⟩ | ⟨e1, hcf, t', ht', e3, e4, e5, e6, e7, e8⟩
            · refine Or.inl ⟨e1, e2, e3, e4, e5, e6, fun hcf x hx hxw => ?_⟩
              rcases List.mem_cons.1 hx with rfl | hx
              · exact hnw hxw hcf
              · exact e7 hcf x hx hxw
            · refine Or.inr ⟨e1, hcf, t', List.mem_cons_of_mem _ ht', e3, e4, e5, e6, e7, ?_⟩
              intro x hx hxw
              rcases List.mem_cons.1 hx with rfl | hx
              · exact (hnw hxw hcf).trans e7.le
              · exact e8 x hx hxw

theorem buildState_returned (env : Env N K Smp) (h : Helper N K) (limb : N) (t : Trial K Smp)
    (w : Search K) (hh : Holds env limb t w)
    (hc : (w.foundSample = true ∧ w.configuration = t.config) ∨
      (w.foundSample = false ∧ w.foundStable = true ∧ w.bestUnreachable = t.config)) :
    buildState h limb w = t.returned env h limb true := by
  obtain ⟨h1, h2, h3⟩ := hh
  rcases hc with ⟨h4, h5⟩ | ⟨h4, h5, h6⟩ <;>
    simp [buildState, Trial.returned, Trial.state, State.addContact, *]

theorem buildState_weak (env : Env N K Smp) (h : Helper N K) (limb : N) (t : Trial K Smp)
    (w : Search K) (hh : Holds env limb t w)
    (h4 : w.foundSample = false) (h5 : w.foundStable = false) (h6 : w.unstableContact = true)
    (h7 : w.moreRobust = t.config) :
    buildState h limb w = t.returned env h limb false := by
  obtain ⟨h1, h2, h3⟩ := hh
  simp [buildState, Trial.returned, Trial.state, State.addContact, *]

theorem buildState_none (h : Helper N K) (limb : N) (w : Search K)
    (h4 : w.foundSample = false) (h5 : w.foundStable = false) (h6 : w.unstableContact = false) :
    buildState h limb w = { h.workingState with stable := false } := by
  simp [buildState, *]

/-- What one pass with fresh flags returns. -/
theorem findPass_spec (env : Env N K Smp) (postural : Bool) (params : State N K) (h : Helper N K)
    (limb : N) (fs un : Bool) :
    let T := trials env postural h.workingState limb (env.octree limb params h.workingState)
      h.workingState.configuration
    let r := findPass env postural params h limb false fs un
    (r.2.foundSample = true → ∃ t, FirstWith (Good env h limb) T t ∧ r.1 = t.returned env h limb true) ∧
    (r.2.foundSample = false → ∀ t ∈ T, ¬ Good env h limb t) ∧
    (r.2.foundSample = false → fs = false → r.2.foundStable = true →
      ∃ t, FirstWith (StableOnly env h limb) T t ∧ r.1 = t.returned env h limb true) ∧
    (r.2.foundSample = false → fs = false → r.2.foundStable = false →
      (∀ t ∈ T, ¬ StableOnly env h limb t) ∧
      (un = false → r.2.unstableContact = true → h.contactIfFails = true ∧
        ∃ t ∈ T, Weak env h limb t ∧ r.1 = t.returned env h limb false ∧
        ∀ t' ∈ T, Weak env h limb t' → env.robustness (t'.state env h.workingState limb) ≤
                env.robustness (t.state env h.workingState limb)) ∧
      (r.2.unstableContact = false → un = false ∧ r.1 = { h.workingState with stable := false } ∧
        (h.contactIfFails = true → ∀ t ∈ T, Weak env h limb t →
          env.robustness (t.state env h.workingState limb) = ⊥))) := by
  intro T r
  have hs := candidateLoop_spec env postural h limb (env.octree limb params h.workingState)
    (Search.start env h false fs un) rfl
  have hr2 : r.2 = candidateLoop env postural h limb (env.octree limb params h.workingState)
    (Search.start env h false fs un) := rfl
  have hr1 : r.1 = buildState h limb r.2 := rfl
  simp only at hs
  rw [← hr2] at hs
  change (_ → ∃ t, FirstWith _ T _ ∧ _) ∧ (_ → (∀ t ∈ T, _) ∧ _) at hs
  obtain ⟨h1, h2⟩ := hs
  refine ⟨fun hf => ?_, fun hf => (h2 hf).1, fun hf hfs hst => ?_, fun hf hfs hst => ?_⟩
  · obtain ⟨t, e1, e2, e3⟩ := h1 hf
    exact ⟨t, e1, by rw [hr1]; exact buildState_returned env h limb t _ e3 (Or.inl ⟨hf, e2⟩)⟩
  · obtain ⟨t, e1, e2, e3⟩ := ((h2 hf).2.2 hfs).1 hst
    exact ⟨t, e1, by rw [hr1]; exact buildState_returned env h limb t _ e3 (Or.inr ⟨hf, hst, e2⟩)⟩
  · obtain ⟨e1, e2⟩ := ((h2 hf).2.2 hfs).2 hst
    refine ⟨e1, fun hun hu => ?_, fun hu => ?_⟩
    · rcases e2 with ⟨e, _⟩ | ⟨_, e, t, ht, e3, e4, e5, _, _, e7⟩
      · rw [hu] at e; simp [Search.start, hun] at e
      · exact ⟨e, t, ht, e3, by rw [hr1]; exact buildState_weak env h limb t _ e5 hf hst hu e4, e7⟩
    · rcases e2 with ⟨e, _, _, _, _, _, e3⟩ | ⟨e, _⟩
      · refine ⟨by rw [hu] at e; exact e.symm, by rw [hr1]; exact buildState_none h limb _ hf hst hu, ?_⟩
        intro hc t ht hw
        exact le_bot_iff.1 (e3 hc t ht hw)
      · rw [hu] at e; simp at e

theorem firstWith_append_left {α : Type _} {p : α → Prop} {l l' : List α} {t : α}
    (h : FirstWith p l t) : FirstWith p (l ++ l') t := by
  obtain ⟨pre, post, e, h1, h2⟩ := h
  exact ⟨pre, post ++ l', by rw [e]; simp, h1, h2⟩

theorem firstWith_append_right {α : Type _} {p : α → Prop} {l l' : List α} {t : α}
    (hl : ∀ x ∈ l, ¬ p x) (h : FirstWith p l' t) : FirstWith p (l ++ l') t := by
  obtain ⟨pre, post, e, h1, h2⟩ := h
  refine ⟨l ++ pre, post, by rw [e]; simp, h1, ?_⟩
  intro x hx
  rcases List.mem_append.1 hx with hx | hx
  · exact hl x hx
  · exact h2 x hx

/-- **C17 (reachable part, unconditional)** If `generate_contact` answers REACHABLE it succeeded, and the
result is the working state plus the contact of the first attempt that is collision free and (if stability is
required) robust and reachable.  If it answers anything else no attempt qualifies. -/
theorem C17_reachable (env : Env N K Smp) (postural : Bool) (params : State N K) (h : Helper N K)
    (limb : N) :
    let r := generateContact env postural params h limb
    let A := attempts env postural params h limb
    (r.status = .reachable → r.success = true ∧ ∃ t, FirstWith (Good env h limb) A t ∧
      r.result = t.returned env h limb true) ∧
    (r.status ≠ .reachable → ∀ t ∈ A, ¬ Good env h limb t) ∧
    (r.status = .stable → r.success = h.acceptUnreachable) ∧
    (r.status = .unstable → r.success = !h.checkStabilityGenerate) ∧
    (r.status = .noContact → r.success = false) := by
  intro r A
  have hr : r = generateContact env postural params h limb := rfl
  have hA : A = attempts env postural params h limb := rfl
  clear_value r A
  unfold generateContact findValidCandidate at hr
  unfold attempts at hA
  obtain ⟨p1, p2, _⟩ := findPass_spec env postural params h limb false false
  cases hf : (findPass env postural params h limb false false false).2.foundSample with
  | true =>
    obtain ⟨t, e1, e2⟩ := p1 hf
    simp only [hf, Bool.not_true, Bool.and_false, Bool.false_eq_true, if_false, if_true] at hr
    subst hr
    refine ⟨fun _ => ⟨rfl, t, ?_, e2⟩, by simp, by simp, by simp, by simp⟩
    rw [hA]
    cases postural with
    | true => exact firstWith_append_left e1
    | false => exact e1
  | false =>
    cases postural with
    | false =>
      simp only [hf, Bool.false_and, Bool.false_eq_true, if_false] at hr
      simp only [Bool.false_eq_true, if_false, List.nil_append] at hA
      have := p2 hf
      rw [← hA] at this
      subst hr
      split_ifs <;> exact ⟨by simp, fun _ => this, by simp, by simp, by simp⟩
    | true =>
      simp only [hf, Bool.true_and, Bool.not_false, if_true] at hr
      simp only [if_true] at hA
      have q1 := p2 hf
      obtain ⟨p3, p4, _⟩ := findPass_spec env false params h limb
        (findPass env true params h limb false false false).2.foundStable
        (findPass env true params h limb false false false).2.unstableContact
      set r2 := findPass env false params h limb false _ _ with hr2
      cases hf2 : r2.2.foundSample with
      | true =>
        obtain ⟨t, e1, e2⟩ := p3 hf2
        simp only [hf2, if_true] at hr
        subst hr
        refine ⟨fun _ => ⟨rfl, t, ?_, e2⟩, by simp, by simp, by simp, by simp⟩
        rw [hA]
        exact firstWith_append_right q1 e1
      | false =>
        have q2 := p4 hf2
        have : ∀ t ∈ A, ¬ Good env h limb t := by
          intro t ht
          rw [hA] at ht
          rcases List.mem_append.1 ht with ht | ht
          · exact q1 t ht
          · exact q2 t ht
        simp only [hf2, Bool.false_eq_true, if_false] at hr
        subst hr
        split_ifs <;> exact ⟨by simp, fun _ => this, by simp, by simp, by simp⟩

/-- The postural-task pass leaves nothing behind: no robust-but-unreachable attempt and no kept weak one. -/
def CleanFirstPass (env : Env N K Smp) (params : State N K) (h : Helper N K) (limb : N) : Prop :=
  ∀ t ∈ trials env true h.workingState limb (env.octree limb params h.workingState)
      h.workingState.configuration,
    ¬ StableOnly env h limb t ∧ ¬ (h.contactIfFails = true ∧ Weak env h limb t)

/-- **C17** (partial: when the postural-task option is on, the first pass must leave no stable or
unstable candidate behind; without it the claim is false, see `C17_postural_violated`).  STABLE: no attempt
qualifies, the result is built from the first robust but unreachable attempt, success only if unreachable
contacts are accepted.  UNSTABLE: failure, no robust attempt at all, the result is built from an attempt
of maximal robustness.  NO_CONTACT: failure, nothing but the configuration and the stable flag differ from the
working state, and no attempt was collision free except unusable weak ones. -/
theorem C17_generate_contact_partial (env : Env N K Smp) (postural : Bool) (params : State N K)
    (h : Helper N K) (limb : N) (hp : postural = true → CleanFirstPass env params h limb) :
    let r := generateContact env postural params h limb
    let A := attempts env postural params h limb
    (r.status = .stable → r.success = h.acceptUnreachable ∧ (∀ t ∈ A, ¬ Good env h limb t) ∧
      ∃ t, FirstWith (StableOnly env h limb) A t ∧ r.result = t.returned env h limb true) ∧
    (r.status = .unstable → r.success = false ∧ h.contactIfFails = true ∧
      (∀ t ∈ A, ¬ Good env h limb t ∧ ¬ StableOnly env h limb t) ∧
      ∃ t ∈ A, Weak env h limb t ∧ r.result = t.returned env h limb false ∧
        ∀ t' ∈ A, Weak env h limb t' → env.robustness (t'.state env h.workingState limb) ≤
          env.robustness (t.state env h.workingState limb)) ∧
    (r.status = .noContact → r.success = false ∧
      (∀ t ∈ A, ¬ Good env h limb t ∧ ¬ StableOnly env h limb t ∧
        (h.contactIfFails = true → Weak env h limb t →
          env.robustness (t.state env h.workingState limb) = ⊥)) ∧
      r.result = { h.workingState with stable := false, configuration := r.result.configuration }) := by
  intro r A
  have hg : r.status ≠ .reachable → ∀ t ∈ A, ¬ Good env h limb t :=
    (C17_reachable env postural params h limb).2.1
  have hr : r = generateContact env postural params h limb := rfl
  have hA : A = attempts env postural params h limb := rfl
  clear_value r A
  unfold generateContact findValidCandidate at hr
  unfold attempts at hA
  -- reduce to one fresh pass
  have key : r.status ≠ .reachable → ∃ p, (∀ t ∈ A, t ∈ trials env p h.workingState limb
        (env.octree limb params h.workingState) h.workingState.configuration ∨
        (¬ StableOnly env h limb t ∧ ¬ (h.contactIfFails = true ∧ Weak env h limb t))) ∧
      (∃ pre, (∀ t ∈ pre, ¬ StableOnly env h limb t) ∧ A = pre ++ trials env p h.workingState limb
        (env.octree limb params h.workingState) h.workingState.configuration) ∧
      (findPass env p params h limb false false false).2.foundSample = false ∧
      r = (let r := findPass env p params h limb false false false
        if r.2.foundStable then ⟨h.acceptUnreachable, r.1, .stable⟩
        else if r.2.unstableContact then ⟨!h.checkStabilityGenerate, r.1, .unstable⟩
        else ⟨false, (setCollisionFree env limb r.1).result, .noContact⟩) := by
    intro hne
    cases postural with
    | false =>
      refine ⟨false, ?_⟩
      simp only [Bool.false_and, Bool.false_eq_true, if_false] at hr
      simp only [Bool.false_eq_true, if_false, List.nil_append] at hA
      cases hf : (findPass env false params h limb false false false).2.foundSample with
      | true => simp only [hf, if_true] at hr; rw [hr] at hne; simp at hne
      | false =>
        simp only [hf, Bool.false_eq_true, if_false] at hr
        exact ⟨fun t ht => Or.inl (by rw [← hA]; exact ht), ⟨[], by simp, hA⟩, rfl, hr⟩
    | true =>
      refine ⟨false, ?_⟩
      have hclean := hp rfl
      simp only [if_true] at hA
      obtain ⟨_, _, p3, p4⟩ := findPass_spec env true params h limb false false
      cases hf : (findPass env true params h limb false false false).2.foundSample with
      | true =>
        simp only [hf, Bool.not_true, Bool.and_false, Bool.false_eq_true, if_false, if_true] at hr
        rw [hr] at hne; simp at hne
      | false =>
        have hs0 : (findPass env true params h limb false false false).2.foundStable = false := by
          by_contra hc
          obtain ⟨t, ⟨pre, post, e, hso, _⟩, _⟩ := p3 hf rfl (by simpa using hc)
          exact (hclean t (by rw [e]; simp)).1 hso
        have hu0 : (findPass env true params h limb false false false).2.unstableContact = false := by
          by_contra hc
          obtain ⟨hcf, t, ht, hw, _⟩ := (p4 hf rfl hs0).2.1 rfl (by simpa using hc)
          exact (hclean t ht).2 ⟨hcf, hw⟩
        simp only [hf, hs0, hu0, Bool.true_and, Bool.not_false, if_true] at hr
        cases hf2 : (findPass env false params h limb false false false).2.foundSample with
        | true => simp only [hf2, if_true] at hr; rw [hr] at hne; simp at hne
        | false =>
          simp only [hf2, Bool.false_eq_true, if_false] at hr
          refine ⟨fun t ht => ?_, ⟨_, fun t ht => (hclean t ht).1, hA⟩, rfl, hr⟩
          rw [hA] at ht
          rcases List.mem_append.1 ht with ht | ht
          · exact Or.inr (hclean t ht)
          · exact Or.inl ht
  by_cases hne : r.status = .reachable
  · rw [hne]; simp
  · obtain ⟨p, hAT, ⟨pre, hpre, hApp⟩, hf, he⟩ := key hne
    have hgood := hg hne
    obtain ⟨_, _, p3, p4⟩ := findPass_spec env p params h limb false false
    simp only at he
    cases hst : (findPass env p params h limb false false false).2.foundStable with
    | true =>
      simp only [hst, if_true] at he
      obtain ⟨t, e1, e2⟩ := p3 hf rfl hst
      rw [he]
      refine ⟨fun _ => ⟨rfl, hgood, t, ?_, e2⟩, by simp, by simp⟩
      rw [hApp]; exact firstWith_append_right hpre e1
    | false =>
      obtain ⟨q1, q2, q3⟩ := p4 hf rfl hst
      have hso : ∀ t ∈ A, ¬ StableOnly env h limb t := by
        intro t ht
        rcases hAT t ht with h1 | h1
        · exact q1 t h1
        · exact h1.1
      cases hu : (findPass env p params h limb false false false).2.unstableContact with
      | true =>
        simp only [hst, hu, if_true, Bool.false_eq_true, if_false] at he
        obtain ⟨hcf, t, ht, hw, hres, hmax⟩ := q2 rfl hu
        rw [he]
        refine ⟨by simp, fun _ => ⟨?_, hcf, fun t ht => ⟨hgood t ht, hso t ht⟩, t, ?_, hw, hres, ?_⟩, by simp⟩
        · simp [hw.2.1.1]
        · rw [hApp]; exact List.mem_append_right _ ht
        · intro t' ht' hw'
          rcases hAT t' ht' with h1 | h1
          · exact hmax t' h1 hw'
          · exact absurd ⟨hcf, hw'⟩ h1.2
      | false =>
        simp only [hst, hu, Bool.false_eq_true, if_false] at he
        obtain ⟨_, hres, hbot⟩ := q3 hu
        rw [he]
        refine ⟨by simp, by simp, fun _ => ⟨rfl, fun t ht => ⟨hgood t ht, hso t ht, ?_⟩, ?_⟩⟩
        · intro hcf hw
          rcases hAT t ht with h1 | h1
          · exact hbot hcf t h1 hw
          · exact absurd ⟨hcf, hw⟩ h1.2
        · rw [hres]
          have := (C15_setCollisionFree env limb ({ h.workingState with stable := false } : State N K)).1
          rw [this]

/-- **C17** The robot's postural-task option is restored whatever happens. -/
theorem C17_postural_restored (env : Env N K Smp) (postural : Bool) (params : State N K)
    (h : Helper N K) (limb : N) : (findValidCandidate env postural params h limb).2.2 = postural := by
  unfold findValidCandidate
  cases postural with
  | false => simp
  | true => simp only [Bool.true_and]; split_ifs <;> rfl

/-! ### Non-vacuity and counterexample -/

/-- second candidate (value 2) is too weak, third (value 4) is robust and reachable -/
example : (generateContact demoEnv false State.demo demoHelper 3).status = .reachable ∧
    (generateContact demoEnv false State.demo demoHelper 3).result.configuration = [4] ∧
    (generateContact demoEnv false State.demo demoHelper 3).result.contactOrder = [2, 1, 3] := by decide
/-- everything robust is unreachable -/
example : (generateContact { demoEnv with octree := fun _ _ _ => [2, 25, 30] } false State.demo demoHelper 3).status
    = .stable := by decide
/-- only weak candidates -/
example : (generateContact { demoEnv with octree := fun _ _ _ => [0, 2, 1] } false State.demo
      { demoHelper with contactIfFails := true } 3).status = .unstable ∧
    (generateContact { demoEnv with octree := fun _ _ _ => [0, 2, 1] } false State.demo
      { demoHelper with contactIfFails := true } 3).result.configuration = [2] := by decide
example : (generateContact demoEnv false State.demo { demoHelper with robustnessTreshold := 100 } 3).status
    = .noContact := by decide
/-- a clean postural pass -/
example : CleanFirstPass demoEnv State.demo demoHelper 3 := by
  unfold CleanFirstPass; decide

/-- **C17 is violated** with the postural-task option: the first pass finds a robust but unreachable
contact, the retry inherits the flag, finds nothing, and the returned "stable" state has an
empty configuration and an uninitialised contact position. -/
theorem C17_postural_violated :
    let env : Env ℕ ℤ ℤ := { demoEnv with octree := fun _ _ _ => [25],
                                          applyEffector := fun p _ smp _ _ => (p, [smp]) }
    let r := generateContact env true State.demo demoHelper 3
    r.status = .stable ∧ r.result.stable = true ∧ r.result.configuration = [] ∧
      r.result.contactPositions.find? 3 = some env.junkVec := by decide

end Contact
end Rbprm
