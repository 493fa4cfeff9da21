import Verif.Props.GenerateContact
import Verif.Props.Candidates
set_option linter.unusedSectionVars false
/-!
# Property C188: the contact that is created is the best of those that can be used

A user gives a heuristic for a limb and relies on contact generation to take, of all samples of the limb that touch an affordance object and can be used, one with the best value; whether a candidate
can be used depends on it alone, not on the candidates that were refused before.
-/
namespace Rbprm
namespace Contact
open Sampling (OctreeReport SampleDB Affordance Sample)
variable {N K : Type _} [LinearOrder N] [CommRing K] [LinearOrder K]

/-! ## Specification -/

/-- the candidate, tried alone from the configuration of the working state (with the postural task or without it) -/
def alone (env : Env N K (OctreeReport K)) (postural : Bool) (h : Helper N K) (limb : N) (x : OctreeReport K) : Trial K (OctreeReport K) :=
  let r := env.applyEffector postural limb x (env.load x h.workingState.configuration) { h.workingState with stable := false }
  ⟨r.1 && env.limbValid limb r.2, x, r.2⟩

/-- the candidate can be used: the effector can be put there, the limb is free of collision and, if this is asked for, the state is robust and reachable -/
def Usable (env : Env N K (OctreeReport K)) (postural : Bool) (h : Helper N K) (limb : N) (x : OctreeReport K) : Prop := Good env h limb (alone env postural h limb x)

/-- the candidates are for the coordinates `first, …, first + n - 1` of the configuration: their samples have them, and placing the effector changes no other coordinate (C173) -/
structure OfLimb (env : Env N K (OctreeReport K)) (h : Helper N K) (limb : N) (first n : ℕ) (candidates : List (OctreeReport K)) : Prop where
  fits : first + n ≤ h.workingState.configuration.length
  samples : ∀ x ∈ candidates, x.sample.startRank = first ∧ x.sample.length = n ∧ x.sample.configuration.length = n
  load : ∀ x ∈ candidates, ∀ q q', Sampling.load x.sample q = some q' → env.load x q = q'
  place : ∀ p, ∀ x ∈ candidates, ∀ q : List K, q.length = h.workingState.configuration.length →
    let q' := (env.applyEffector p limb x q { h.workingState with stable := false }).2
    q'.length = q.length ∧ q'.take first = q.take first ∧ q'.drop (first + n) = q.drop (first + n)

/-- the candidates are those of the library, for the database of the limb, its heuristic and the affordance objects -/
def OfLibrary (db : SampleDB N K) (normalize : Vec3 K → Vec3 K) (limbEval eval : Option (Sample K → Vec3 K → K)) (objects : List (Affordance K)) (candidates : List (OctreeReport K)) : Prop :=
  Sampling.collideOctree db normalize limbEval eval objects = some candidates

/-! ## Proofs -/

theorem load_eq {env : Env N K (OctreeReport K)} {h : Helper N K} {limb : N} {first n : ℕ} {l : List (OctreeReport K)} (hl : OfLimb env h limb first n l) {x : OctreeReport K} (hx : x ∈ l)
    {q : List K} (hq : q.length = h.workingState.configuration.length) : env.load x q = q.take first ++ x.sample.configuration ++ q.drop (first + n) := by
  obtain ⟨h1, h2, h3⟩ := hl.samples x hx
  refine hl.load x hx q _ ?_
  unfold Sampling.load
  rw [if_pos ⟨by rw [h1, h2, hq]; exact hl.fits, by rw [h3, h2]⟩, h1, h2]

theorem trials_alone (env : Env N K (OctreeReport K)) (p : Bool) (h : Helper N K) (limb : N) (first n : ℕ) (l : List (OctreeReport K)) (hl : OfLimb env h limb first n l) (c : List K)
    (h1 : c.length = h.workingState.configuration.length) (h2 : c.take first = h.workingState.configuration.take first)
    (h3 : c.drop (first + n) = h.workingState.configuration.drop (first + n)) : trials env p h.workingState limb l c = l.map (alone env p h limb) := by
  have aux : ∀ (m : List (OctreeReport K)), (∀ x ∈ m, x ∈ l) → ∀ c : List K, c.length = h.workingState.configuration.length → c.take first = h.workingState.configuration.take first →
      c.drop (first + n) = h.workingState.configuration.drop (first + n) → trials env p h.workingState limb m c = m.map (alone env p h limb) := by
    intro m
    induction m with
    | nil => intro _ _ _ _ _; rfl
    | cons x m ih =>
      intro hm c h1 h2 h3
      have hx := hm x (List.mem_cons_self ..)
      have hload : env.load x c = env.load x h.workingState.configuration := by
        rw [load_eq hl hx h1, load_eq hl hx rfl, h2, h3]
      have hf := hl.fits
      obtain ⟨s1, s2, s3⟩ := hl.samples x hx
      have hlen : (env.load x h.workingState.configuration).length = h.workingState.configuration.length := by
        rw [load_eq hl hx rfl]
        simp [s3]
        omega
      obtain ⟨p1, p2, p3⟩ := hl.place p x hx _ hlen
      rw [trials_cons, List.map_cons]
      have hfirst : firstTrial env p h.workingState limb x c = alone env p h limb x := by
        unfold firstTrial alone
        rw [hload]
      rw [hfirst]
      congr 1
      refine ih (fun y hy => hm y (List.mem_cons_of_mem _ hy)) _ (p1.trans hlen) (p2.trans ?_) (p3.trans ?_)
      · rw [load_eq hl hx rfl, List.append_assoc, List.take_append_of_le_length (by simp; omega), List.take_of_length_le (by simp)]
      · rw [load_eq hl hx rfl, List.drop_append, List.drop_eq_nil_of_le (by simp [s3]), List.nil_append]
        simp only [List.length_append, List.length_take, s3]
        rw [show first + n - (min first h.workingState.configuration.length + n) = 0 by omega, List.drop_zero]
  exact aux l (fun _ h => h) c h1 h2 h3

/-- **C188 (independence)**.  Each candidate is tried as if it were the only one: the attempts are, with the postural task and then without it, those of the candidates alone, in their order. -/
theorem C188_independent (env : Env N K (OctreeReport K)) (postural : Bool) (params : State N K) (h : Helper N K) (limb : N) (first n : ℕ) (hl : OfLimb env h limb first n (env.octree limb params h.workingState)) :
    attempts env postural params h limb = (if postural then (env.octree limb params h.workingState).map (alone env true h limb) else []) ++ (env.octree limb params h.workingState).map (alone env false h limb) := by
  unfold attempts
  rw [trials_alone env true h limb first n _ hl _ rfl rfl rfl, trials_alone env false h limb first n _ hl _ rfl rfl rfl]

theorem firstWith_map {α β : Type _} (f : α → β) (P : β → Prop) {l : List α} {t : β} (h : FirstWith P (l.map f) t) : ∃ pre x post, l = pre ++ x :: post ∧ f x = t ∧ P t ∧ ∀ y ∈ pre, ¬ P (f y) := by
  obtain ⟨pre, post, e, ht, hn⟩ := h
  obtain ⟨l1, l2, rfl, rfl, e2⟩ := List.map_eq_append_iff.1 e
  obtain ⟨x, l3, rfl, rfl, rfl⟩ := List.map_eq_cons_iff.1 e2
  exact ⟨l1, x, l3, rfl, rfl, ht, fun y hy => hn _ (List.mem_map_of_mem hy)⟩

theorem firstWith_append {α : Type _} {P : α → Prop} {l l' : List α} {t : α} (h : FirstWith P (l ++ l') t) : FirstWith P l t ∨ (∀ x ∈ l, ¬ P x) ∧ FirstWith P l' t := by
  obtain ⟨pre, post, e, ht, hn⟩ := h
  rcases List.append_eq_append_iff.1 e with ⟨a, rfl, e2⟩ | ⟨a, rfl, e2⟩
  · right
    exact ⟨fun x hx => hn x (List.mem_append_left _ hx), a, post, e2, ht, fun x hx => hn x (List.mem_append_right _ hx)⟩
  · cases a with
    | nil =>
      right
      simp at e2
      refine ⟨fun x hx => hn x (by simpa using hx), [], post, e2.symm, ht, by simp⟩
    | cons b a =>
      left
      simp at e2
      obtain ⟨rfl, _⟩ := e2
      exact ⟨pre, a, rfl, ht, hn⟩

theorem best_of_first {P : OctreeReport K → Prop} {l pre post : List (OctreeReport K)} {x : OctreeReport K} (hs : l.Pairwise (fun a b => b.value ≤ a.value)) (e : l = pre ++ x :: post) (hn : ∀ y ∈ pre, ¬ P y) :
    ∀ y ∈ l, P y → y.value ≤ x.value := by
  subst e
  intro y hy hp
  rcases List.mem_append.1 hy with hy | hy
  · exact absurd hp (hn y hy)
  · rcases List.mem_cons.1 hy with rfl | hy
    · exact le_refl _
    · exact (List.pairwise_cons.1 (List.pairwise_append.1 hs).2.1).1 y hy

/-- **C188 (best)**.  If a reachable contact is reported then it is the one of a candidate that can be used, and no candidate that can be used has a better value; with the postural task if a candidate can be used with it. -/
theorem C188_best (env : Env N K (OctreeReport K)) (postural : Bool) (params : State N K) (h : Helper N K) (limb : N) (first n : ℕ) (db : SampleDB N K) (hdb : Sampling.Indexed db) (normalize : Vec3 K → Vec3 K)
    (limbEval eval : Option (Sample K → Vec3 K → K)) (objects : List (Affordance K)) (hc : OfLibrary db normalize limbEval eval objects (env.octree limb params h.workingState))
    (hl : OfLimb env h limb first n (env.octree limb params h.workingState)) (hr : (generateContact env postural params h limb).status = .reachable) :
    ∃ p x, x ∈ env.octree limb params h.workingState ∧ Usable env p h limb x ∧ (p = true → postural = true) ∧
      (generateContact env postural params h limb).result = (alone env p h limb x).returned env h limb true ∧
      (∀ y ∈ env.octree limb params h.workingState, Usable env p h limb y → y.value ≤ x.value) ∧
      (p = false → postural = true → ∀ y ∈ env.octree limb params h.workingState, ¬ Usable env true h limb y) := by
  have hsorted := ((Sampling.C33_collide hdb normalize limbEval eval objects).2 _ hc).sorted
  obtain ⟨_, t, ht, hres⟩ := (C17_reachable env postural params h limb).1 hr
  rw [C188_independent env postural params h limb first n hl] at ht
  rcases firstWith_append ht with ht | ⟨hno, ht⟩
  · cases postural with
    | false =>
      obtain ⟨pre, post, e, _⟩ := ht
      simp at e
    | true =>
      obtain ⟨pre, x, post, e, rfl, hg, hn⟩ := firstWith_map _ _ ht
      exact ⟨true, x, by rw [e]; simp, hg, fun _ => rfl, hres, best_of_first (P := Usable env true h limb) hsorted e hn, fun h => (by cases h)⟩
  · obtain ⟨pre, x, post, e, rfl, hg, hn⟩ := firstWith_map _ _ ht
    refine ⟨false, x, by rw [e]; simp, hg, fun h => (by cases h), hres, best_of_first (P := Usable env false h limb) hsorted e hn, fun _ hp y hy hu => ?_⟩
    rw [if_pos hp] at hno
    exact hno _ (List.mem_map_of_mem hy) hu

/-- **C188 (complete)**.  If no reachable contact is reported then no candidate can be used, with the postural task (if it is on) or without it. -/
theorem C188_complete (env : Env N K (OctreeReport K)) (postural : Bool) (params : State N K) (h : Helper N K) (limb : N) (first n : ℕ) (hl : OfLimb env h limb first n (env.octree limb params h.workingState))
    (hr : (generateContact env postural params h limb).status ≠ .reachable) :
    ∀ x ∈ env.octree limb params h.workingState, ¬ Usable env false h limb x ∧ (postural = true → ¬ Usable env true h limb x) := by
  have hno := (C17_reachable env postural params h limb).2.1 hr
  rw [C188_independent env postural params h limb first n hl] at hno
  intro x hx
  refine ⟨hno _ (List.mem_append_right _ (List.mem_map_of_mem hx)), fun hp => hno _ (List.mem_append_left _ ?_)⟩
  rw [if_pos hp]
  exact List.mem_map_of_mem hx

/-- **C188 (candidates)**.  There is a candidate for each affordance object, each contact of the octree with it and each sample whose effector is in the touched voxel, and no other; its value is the one of the heuristic (the one given to contact generation or else the one of the
limb) for the sample and the normal of the surface. -/
theorem C188_candidates (db : SampleDB N K) (hdb : Sampling.Indexed db) (normalize : Vec3 K → Vec3 K) (limbEval eval : Option (Sample K → Vec3 K → K)) (objects : List (Affordance K)) (candidates : List (OctreeReport K))
    (hc : OfLibrary db normalize limbEval eval objects candidates) (f : Sample K → Vec3 K → K) (hf : eval.or limbEval = some f) :
    (∀ object ∈ objects, ∀ c ∈ object.contacts, ∀ s ∈ db.samples, db.voxelOf s.effectorPosition = c.b1 → ∃ x ∈ candidates, x.sample = s ∧ x.contact = c ∧ x.triangle = object.surface c.b2) ∧
    ∀ x ∈ candidates, x.value = f x.sample x.normal ∧ x.sample ∈ db.samples ∧ ∃ object ∈ objects, x.contact ∈ object.contacts ∧ x.triangle = object.surface x.contact.b2 ∧
      db.voxelOf x.sample.effectorPosition = x.contact.b1 ∧ x.normal = normalize (Vec3.cross (x.triangle.2.1 - x.triangle.1) (x.triangle.2.2 - x.triangle.1)) := by
  have hp := ((Sampling.C33_collide hdb normalize limbEval eval objects).2 _ hc).perm
  rw [hf] at hp
  constructor
  · intro object ho c hcc s hs hv
    obtain ⟨i, hi, rfl⟩ := List.getElem_of_mem hs
    refine ⟨Sampling.mkReport object.surface normalize (some f) c i db.samples[i], ?_, rfl, rfl, rfl⟩
    rw [hp.mem_iff]
    refine List.mem_flatMap.2 ⟨object, ho, List.mem_flatMap.2 ⟨c, hcc, ?_⟩⟩
    unfold Sampling.dueReports
    refine List.mem_map.2 ⟨(db.samples[i], i), List.mem_filter.2 ⟨?_, by simpa using hv⟩, rfl⟩
    rw [List.mem_zipIdx_iff_getElem?]
    simp [hi]
  · intro x hx
    rw [hp.mem_iff] at hx
    obtain ⟨object, ho, hx⟩ := List.mem_flatMap.1 hx
    obtain ⟨c, hcc, hx⟩ := List.mem_flatMap.1 hx
    unfold Sampling.dueReports at hx
    obtain ⟨⟨s, i⟩, hsi, rfl⟩ := List.mem_map.1 hx
    obtain ⟨h1, h2⟩ := List.mem_filter.1 hsi
    refine ⟨rfl, ?_, object, ho, hcc, rfl, of_decide_eq_true h2, rfl⟩
    rw [List.mem_zipIdx_iff_getElem?] at h1
    exact List.mem_of_getElem? h1

/-! ## Non-vacuity -/

/-- a sample of the second coordinate -/
def armSample (x value : ℤ) (id : ℕ) : Sample ℤ where
  startRank := 1
  length := 1
  configuration := [x]
  effectorPosition := 0
  effectorPositionInLimbFrame := 0
  jacobian := ⟨0, 0, []⟩
  jacobianProduct := ⟨0, 0, []⟩
  id := id
  staticValue := value

/-- three samples in one voxel -/
def armDB : SampleDB ℕ ℤ := ⟨1, [armSample 8 1 0, armSample (-1) 9 1, armSample 4 5 2], fun _ => 0, [], [], [(0, (0, 3))]⟩

theorem armDB_indexed : Sampling.Indexed armDB := by
  have all : ∀ i (s : Sample ℤ), armDB.samples[i]? = some s → i < 3 ∧ s.id = i := by
    intro i s h
    match i, h with
    | 0, h => cases h; exact ⟨by omega, rfl⟩
    | 1, h => cases h; exact ⟨by omega, rfl⟩
    | 2, h => cases h; exact ⟨by omega, rfl⟩
  have vox : ∀ v a n, AMap.find? armDB.samplesInVoxels v = some (a, n) → v = 0 ∧ a = 0 ∧ n = 3 := by
    intro v a n h
    simp only [armDB, AMap.find?_cons] at h
    split_ifs at h with hv
    · simp only [Option.some.injEq, Prod.mk.injEq] at h; exact ⟨hv.symm, h.1.symm, h.2.symm⟩
    · cases h
  refine ⟨armDB.samples, List.Perm.refl _, fun i s h => (all i s h).2, ?_, ?_, ?_, fun v => rfl⟩
  · intro v a n h
    obtain ⟨rfl, rfl, rfl⟩ := vox v a n h
    exact ⟨by omega, le_refl _, fun i s hi => ⟨fun _ => rfl, fun _ => ⟨by omega, by have := (all i s hi).1; omega⟩⟩⟩
  · intro i s h
    exact ⟨0, 3, rfl, by omega, by have := (all i s h).1; omega⟩
  · intro v w a n b m hne h1 h2
    exact absurd ((vox v a n h1).1.trans (vox w b m h2).1.symm) hne

/-- the ground -/
def armGround : Affordance ℤ := ⟨fun _ => (⟨0, 0, 0⟩, ⟨1, 0, 0⟩, ⟨0, 1, 0⟩), [⟨0, 0⟩]⟩

/-- a robot whose limb 3 has the second coordinate: negative values collide -/
def armEnv : Env ℕ ℤ (OctreeReport ℤ) where
  limbs := [1, 2, 3, 4]
  nonContacting := []
  group n := [n]
  applyRoot t _ := (true, t)
  limbValid _ c := decide (0 ≤ c.getD 1 0)
  fullValid _ := true
  limbSamples _ := []
  load x q := (Sampling.load x.sample q).getD q
  reachable _ _ := true
  reachableDyn _ _ := true
  robustness _ := ((10 : ℤ) : WithBot ℤ)
  octree _ _ _ := (Sampling.collideOctree armDB id (some fun s _ => s.staticValue) none [armGround]).getD []
  applyEffector _ _ _ q _ := (true, q)
  effectorPosition l c := ⟨l, c.getD 1 0, 0⟩
  effectorRotation _ _ := Mat3.one
  normal _ := ⟨0, 0, 1⟩
  junkVec := ⟨-99, -99, -99⟩
  junkMat := Mat3.one
  junkRob := 0

/-- the hypotheses of C188 are met, and the sample of value 5 is taken: the one of value 9 collides, the one of value 1 is not as good -/
theorem C188_example : Sampling.Indexed armDB ∧ (∀ params, OfLibrary armDB id (some fun s _ => s.staticValue) none [armGround] (armEnv.octree 3 params demoHelper.workingState)) ∧
    (∀ params, OfLimb armEnv demoHelper 3 1 1 (armEnv.octree 3 params demoHelper.workingState)) ∧
    (generateContact armEnv false State.demo demoHelper 3).status = .reachable ∧ (generateContact armEnv false State.demo demoHelper 3).result.configuration = [1, 4] := by
  have hc : Sampling.collideOctree armDB id (some fun s _ => s.staticValue) none [armGround] ≠ none := by
    intro h
    exact absurd ((Sampling.C33_collide armDB_indexed id (some fun s _ => s.staticValue) none [armGround]).1.1 h) (by simp)
  have hl : ∀ params : State ℕ ℤ, OfLibrary armDB id (some fun s _ => s.staticValue) none [armGround] (armEnv.octree 3 params demoHelper.workingState) := by
    intro params
    unfold OfLibrary armEnv
    simp only
    cases h : Sampling.collideOctree armDB id (some fun s _ => s.staticValue) none [armGround] with
    | none => exact absurd h hc
    | some r => rfl
  refine ⟨armDB_indexed, hl, fun params => ⟨by decide, fun x hx => ?_, fun x _ q q' h => ?_, fun p x _ q hq => ⟨rfl, rfl, rfl⟩⟩, by decide +kernel, by decide +kernel⟩
  · obtain ⟨_, hs, _⟩ := (C188_candidates armDB armDB_indexed id _ none [armGround] _ (hl params) (fun s _ => s.staticValue) rfl).2 x hx
    simp only [armDB, List.mem_cons, List.not_mem_nil, or_false] at hs
    rcases hs with h | h | h <;> rw [h] <;> exact ⟨rfl, rfl, rfl⟩
  · show (Sampling.load x.sample q).getD q = q'
    rw [h]
    rfl

end Contact
end Rbprm
