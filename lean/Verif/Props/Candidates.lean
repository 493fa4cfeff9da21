import Verif.Props.SampleDB
set_option linter.unusedSectionVars false
/-! # C33, C74: candidate reports, samples -/
namespace Rbprm
namespace Sampling
variable {N K : Type _} [LinearOrder N]

section
variable [LinearOrder K]

/-! ## Specification -/

/-- `out` holds the reports of `l`, ordered by decreasing value, reports of equal value in the order of `l` -/
structure Ranked (out l : List (OctreeReport K)) : Prop where
  perm : out.Perm l
  sorted : out.Pairwise (fun a b => b.value ≤ a.value)
  ties : ∀ v, out.filter (fun r => decide (r.value = v)) = l.filter (fun r => decide (r.value = v))

theorem insertReport_perm (r : OctreeReport K) (l : List (OctreeReport K)) : (insertReport r l).Perm (r :: l) := by
  induction l with
  | nil => exact List.Perm.refl _
  | cons e l ih =>
    unfold insertReport
    split_ifs
    · exact List.Perm.refl _
    · exact (ih.cons e).trans (List.Perm.swap _ _ _)

theorem insertReport_sorted (r : OctreeReport K) (l : List (OctreeReport K))
    (h : l.Pairwise (fun a b => b.value ≤ a.value)) :
    (insertReport r l).Pairwise (fun a b => b.value ≤ a.value) := by
  induction l with
  | nil => simp [insertReport]
  | cons e l ih =>
    rw [List.pairwise_cons] at h
    unfold insertReport
    split_ifs with hc
    · refine List.pairwise_cons.2 ⟨?_, List.pairwise_cons.2 h⟩
      intro x hx
      rcases List.mem_cons.1 hx with rfl | hx
      · exact le_of_lt hc
      · exact (h.1 x hx).trans (le_of_lt hc)
    · refine List.pairwise_cons.2 ⟨?_, ih h.2⟩
      intro x hx
      rcases List.mem_cons.1 ((insertReport_perm r l).mem_iff.1 hx) with rfl | hx
      · exact not_lt.1 hc
      · exact h.1 x hx

theorem insertReport_ties (r : OctreeReport K) (l : List (OctreeReport K))
    (h : l.Pairwise (fun a b => b.value ≤ a.value)) (v : K) :
    (insertReport r l).filter (fun x => decide (x.value = v)) =
      l.filter (fun x => decide (x.value = v)) ++ [r].filter (fun x => decide (x.value = v)) := by
  induction l with
  | nil => simp [insertReport]
  | cons e l ih =>
    rw [List.pairwise_cons] at h
    unfold insertReport
    split_ifs with hc
    · by_cases hr : r.value = v
      · have hnone : (e :: l).filter (fun x => decide (x.value = v)) = [] := by
          rw [List.filter_eq_nil_iff]
          intro x hx
          simp only [decide_eq_true_eq]
          rcases List.mem_cons.1 hx with rfl | hx
          · rw [← hr]; exact hc.ne
          · rw [← hr]; exact ((h.1 x hx).trans_lt hc).ne
        rw [hnone, List.filter_cons, hnone]; simp [hr]
      · rw [List.filter_cons]; simp [hr]
    · rw [List.filter_cons, ih h.2, List.filter_cons (xs := l)]
      split_ifs <;> simp

/-- inserting a list of reports one by one -/
def insertAll (l acc : List (OctreeReport K)) : List (OctreeReport K) := l.foldl (fun f x => insertReport x f) acc

theorem Ranked.insertAll {acc a : List (OctreeReport K)} (h : Ranked acc a) (l : List (OctreeReport K)) :
    Ranked (insertAll l acc) (a ++ l) := by
  induction l generalizing acc a with
  | nil => simpa [Sampling.insertAll] using h
  | cons r l ih =>
    have h1 : Ranked (insertReport r acc) (a ++ [r]) := by
      refine ⟨?_, insertReport_sorted r acc h.sorted, ?_⟩
      · exact (insertReport_perm r acc).trans ((h.perm.cons r).trans (List.perm_append_comm (l₁ := [r])))
      · intro v; rw [insertReport_ties r acc h.sorted, h.ties, List.filter_append]
    have := ih h1
    simpa [Sampling.insertAll] using this

theorem Ranked.nil : Ranked ([] : List (OctreeReport K)) [] := ⟨List.Perm.refl _, List.Pairwise.nil, fun _ => rfl⟩

theorem Ranked.refine {out a b : List (OctreeReport K)} (h : Ranked out a) (hp : a.Perm b)
    (ht : ∀ v, a.filter (fun r => decide (r.value = v)) = b.filter (fun r => decide (r.value = v))) : Ranked out b :=
  ⟨h.perm.trans hp, h.sorted, fun v => (h.ties v).trans (ht v)⟩

variable [CommRing K]

/-- The reports due for a contact: one for each sample whose effector lies in the touched voxel, by rank. -/
def dueReports (db : SampleDB N K) (surface : Nat → Vec3 K × Vec3 K × Vec3 K) (normalize : Vec3 K → Vec3 K)
    (heuristic : Option (Sample K → Vec3 K → K)) (c : OctContact) : List (OctreeReport K) :=
  (db.samples.zipIdx.filter (fun p => decide (db.voxelOf p.1.effectorPosition = c.b1))).map
    (fun p => mkReport surface normalize heuristic c p.2 p.1)

/-- A database in the state left by construction, sorting and loading (C29): the voxel table partitions the samples. -/
def Indexed (db : SampleDB N K) : Prop := ∃ before, Partition db.voxelOf before db.samples db.samplesInVoxels

theorem reportSamples_spec (db : SampleDB N K) (surface : Nat → Vec3 K × Vec3 K × Vec3 K)
    (normalize : Vec3 K → Vec3 K) (heuristic : Option (Sample K → Vec3 K → K)) (c : OctContact) (a n : Nat)
    (h : a + n ≤ db.samples.length) (acc : List (OctreeReport K)) :
    reportSamples db surface normalize heuristic c a n acc =
      some (insertAll (((db.samples.zipIdx.drop a).take n).map
        (fun p => mkReport surface normalize heuristic c p.2 p.1)) acc) := by
  induction n generalizing a acc with
  | zero => simp [reportSamples, insertAll]
  | succ n ih =>
    have ha : a < db.samples.length := by omega
    rw [reportSamples, List.getElem?_eq_getElem ha]
    simp only
    rw [ih (a + 1) (by omega)]
    have hd : db.samples.zipIdx.drop a = (db.samples[a], a) :: db.samples.zipIdx.drop (a + 1) := by
      rw [List.drop_eq_getElem_cons (by simpa using ha)]; simp
    rw [hd]; simp [insertAll]

theorem filter_eq_window {X : Type _} (l : List X) (p : X → Bool) (a n : Nat)
    (h : ∀ i x, l[i]? = some x → ((a ≤ i ∧ i < a + n) ↔ p x = true)) : l.filter p = (l.drop a).take n := by
  have h1 : l = l.take a ++ ((l.drop a).take n ++ (l.drop a).drop n) := by simp
  conv_lhs => rw [h1]
  rw [List.filter_append, List.filter_append]
  have e1 : (l.take a).filter p = [] := by
    rw [List.filter_eq_nil_iff]
    intro x hx hp
    obtain ⟨i, hi⟩ := List.mem_iff_getElem?.1 hx
    rw [List.getElem?_take] at hi
    split_ifs at hi with hia
    have := (h i x hi).2 hp; omega
  have e3 : ((l.drop a).drop n).filter p = [] := by
    rw [List.filter_eq_nil_iff]
    intro x hx hp
    obtain ⟨i, hi⟩ := List.mem_iff_getElem?.1 hx
    rw [List.getElem?_drop, List.getElem?_drop] at hi
    have := (h _ x hi).2 hp; omega
  have e2 : ((l.drop a).take n).filter p = (l.drop a).take n := by
    rw [List.filter_eq_self]
    intro x hx
    obtain ⟨i, hi⟩ := List.mem_iff_getElem?.1 hx
    rw [List.getElem?_take] at hi
    split_ifs at hi with hin
    rw [List.getElem?_drop] at hi
    exact (h _ x hi).1 ⟨by omega, by omega⟩
  rw [e1, e2, e3]; simp

theorem due_of_range {db : SampleDB N K} (hdb : Indexed db) (surface : Nat → Vec3 K × Vec3 K × Vec3 K)
    (normalize : Vec3 K → Vec3 K) (heuristic : Option (Sample K → Vec3 K → K)) (c : OctContact) :
    (∀ a n, AMap.find? db.samplesInVoxels c.b1 = some (a, n) → a + n ≤ db.samples.length ∧
      dueReports db surface normalize heuristic c = ((db.samples.zipIdx.drop a).take n).map
        (fun p => mkReport surface normalize heuristic c p.2 p.1)) ∧
    (AMap.find? db.samplesInVoxels c.b1 = none → dueReports db surface normalize heuristic c = []) := by
  obtain ⟨before, hp⟩ := hdb
  constructor
  · intro a n h
    obtain ⟨-, h2, h3⟩ := hp.range _ _ _ h
    refine ⟨h2, ?_⟩
    unfold dueReports
    rw [filter_eq_window db.samples.zipIdx _ a n]
    intro i x hx
    rw [List.getElem?_zipIdx] at hx
    cases hs : db.samples[i]? with
    | none => rw [hs] at hx; simp at hx
    | some s =>
      rw [hs] at hx
      simp only [Option.map_some, Option.some.injEq] at hx
      subst hx
      simp only [decide_eq_true_eq]
      exact h3 i s hs
  · intro h
    unfold dueReports
    rw [List.map_eq_nil_iff, List.filter_eq_nil_iff]
    rintro ⟨s, i⟩ hx
    simp only [decide_eq_true_eq]
    intro hv
    obtain ⟨hi, hs⟩ := List.mem_zipIdx_iff_getElem?.1 hx |> fun h => (⟨trivial, h⟩ : True ∧ _)
    obtain ⟨a, n, h1, -⟩ := hp.cover i s hs
    rw [hv, h] at h1; simp at h1

theorem contactsLoop_spec {db : SampleDB N K} (hdb : Indexed db) (surface : Nat → Vec3 K × Vec3 K × Vec3 K)
    (normalize : Vec3 K → Vec3 K) (heuristic : Option (Sample K → Vec3 K → K)) (contacts : List OctContact)
    (acc : List (OctreeReport K)) :
    contactsLoop db surface normalize heuristic contacts acc =
      some (insertAll (contacts.flatMap (dueReports db surface normalize heuristic)) acc) := by
  induction contacts generalizing acc with
  | nil => simp [contactsLoop, insertAll]
  | cons c contacts ih =>
    obtain ⟨h1, h2⟩ := due_of_range hdb surface normalize heuristic c
    rw [contactsLoop]
    cases hf : AMap.find? db.samplesInVoxels c.b1 with
    | none => simp only; rw [ih, List.flatMap_cons, h2 hf, List.nil_append]
    | some p =>
      obtain ⟨a, n⟩ := p
      obtain ⟨h3, h4⟩ := h1 a n hf
      simp only
      rw [reportSamples_spec db surface normalize heuristic c a n h3, ← h4]
      simp only
      rw [ih, List.flatMap_cons]
      simp [insertAll]

/-- **C33** (one obstacle).  On an indexed database `GetCandidates` never reads outside the samples; starting from an
empty set it returns exactly one report per contact and sample of the touched voxel, in decreasing value (arrival order
among equals), and tells whether there is one. -/
theorem C33_candidates {db : SampleDB N K} (hdb : Indexed db) (surface : Nat → Vec3 K × Vec3 K × Vec3 K)
    (normalize : Vec3 K → Vec3 K) (heuristic : Option (Sample K → Vec3 K → K)) (contacts : List OctContact) :
    ∃ r, getCandidates db surface normalize heuristic contacts [] = some (r, !r.isEmpty) ∧
      Ranked r (contacts.flatMap (dueReports db surface normalize heuristic)) := by
  refine ⟨_, by rw [getCandidates, contactsLoop_spec hdb], ?_⟩
  have := Ranked.nil.insertAll (contacts.flatMap (dueReports db surface normalize heuristic))
  simpa using this

/-- **C33** (contents of a report): each report of `GetCandidates` points to a sample of the database, in the voxel of
its contact, with the heuristic value of that sample and the normal of the touched triangle. -/
theorem C33_report_contents {db : SampleDB N K} (hdb : Indexed db) (surface : Nat → Vec3 K × Vec3 K × Vec3 K)
    (normalize : Vec3 K → Vec3 K) (f : Sample K → Vec3 K → K) (contacts : List OctContact)
    (r : List (OctreeReport K)) (b : Bool)
    (h : getCandidates db surface normalize (some f) contacts [] = some (r, b)) :
    ∀ x ∈ r, x.contact ∈ contacts ∧ db.samples[x.rank]? = some x.sample ∧
      db.voxelOf x.sample.effectorPosition = x.contact.b1 ∧ x.value = f x.sample x.normal ∧
      x.triangle = surface x.contact.b2 ∧
      x.normal = normalize (Vec3.cross (x.triangle.2.1 - x.triangle.1) (x.triangle.2.2 - x.triangle.1)) := by
  obtain ⟨r', h1, h2⟩ := C33_candidates hdb surface normalize (some f) contacts
  rw [h] at h1; cases h1
  intro x hx
  obtain ⟨c, hc, hx⟩ := List.mem_flatMap.1 (h2.perm.mem_iff.1 hx)
  obtain ⟨⟨s, i⟩, hp, rfl⟩ := List.mem_map.1 hx
  obtain ⟨hp, hv⟩ := List.mem_filter.1 hp
  exact ⟨hc, List.mem_zipIdx_iff_getElem?.1 hp, of_decide_eq_true hv, rfl, rfl, rfl⟩

theorem perAffordance_spec {db : SampleDB N K} (hdb : Indexed db) (normalize : Vec3 K → Vec3 K)
    (heuristic : Option (Sample K → Vec3 K → K)) (affs : List (Affordance K)) :
    candidatesPerAffordance db normalize heuristic affs = some (affs.map (fun aff =>
      insertAll (aff.contacts.flatMap (dueReports db aff.surface normalize heuristic)) [])) := by
  induction affs with
  | nil => rfl
  | cons aff affs ih =>
    rw [candidatesPerAffordance, ih, getCandidates, contactsLoop_spec hdb]; rfl

theorem foldl_insertAll (ls : List (List (OctreeReport K))) (acc : List (OctreeReport K)) :
    ls.foldl (fun final r => r.foldl (fun f x => insertReport x f) final) acc = insertAll ls.flatten acc := by
  induction ls generalizing acc with
  | nil => rfl
  | cons l ls ih => rw [List.foldl_cons, ih, List.flatten_cons]; simp [insertAll]

/-- **C33** (several obstacles).  `CollideOctree` throws iff there is no obstacle, otherwise it merges the reports of
all obstacles: none is lost, decreasing value, obstacle order among equals.  The heuristic is the given one, or the
limb's if none is given. -/
theorem C33_collide {db : SampleDB N K} (hdb : Indexed db) (normalize : Vec3 K → Vec3 K)
    (limbEval eval : Option (Sample K → Vec3 K → K)) (affs : List (Affordance K)) :
    (collideOctree db normalize limbEval eval affs = none ↔ affs = []) ∧
    ∀ r, collideOctree db normalize limbEval eval affs = some r →
      Ranked r (affs.flatMap (fun aff => aff.contacts.flatMap
        (dueReports db aff.surface normalize (eval.or limbEval)))) := by
  cases affs with
  | nil => simp [collideOctree]
  | cons aff affs =>
    have hc : collideOctree db normalize limbEval eval (aff :: affs) =
        some (insertAll ((aff :: affs).map (fun aff =>
          insertAll (aff.contacts.flatMap (dueReports db aff.surface normalize (eval.or limbEval))) [])).flatten []) := by
      rw [← foldl_insertAll]
      unfold collideOctree
      simp only [List.isEmpty_cons, Bool.false_eq_true, if_false, perAffordance_spec hdb]
      cases eval <;> rfl
    rw [hc]
    refine ⟨by simp, ?_⟩
    rintro r h; cases h
    have h0 := Ranked.nil.insertAll ((aff :: affs).map (fun aff =>
          insertAll (aff.contacts.flatMap (dueReports db aff.surface normalize (eval.or limbEval))) [])).flatten
    rw [List.nil_append] at h0
    have hr : ∀ a : Affordance K, Ranked
        (insertAll (a.contacts.flatMap (dueReports db a.surface normalize (eval.or limbEval))) [])
        (a.contacts.flatMap (dueReports db a.surface normalize (eval.or limbEval))) := by
      intro a; simpa using Ranked.nil.insertAll (a.contacts.flatMap (dueReports db a.surface normalize (eval.or limbEval)))
    refine h0.refine ?_ ?_
    · generalize aff :: affs = l
      induction l with
      | nil => exact List.Perm.refl _
      | cons a l ih =>
        rw [List.map_cons, List.flatten_cons, List.flatMap_cons]
        exact (hr a).perm.append ih
    · intro v
      generalize aff :: affs = l
      induction l with
      | nil => rfl
      | cons a l ih =>
        rw [List.map_cons, List.flatten_cons, List.flatMap_cons, List.filter_append, List.filter_append, (hr a).ties, ih]

/-- **C33** (databases as users get them).  On a constructed database `GetCandidates` is defined and gives one report per
contact and sample of the database whose effector position falls in the contact's voxel. -/
theorem C33_constructed {K : Type _} [Field K] [LinearOrder K] [IsStrictOrderedRing K] (big : K)
    (srt : List (Sample K) → List (Sample K)) (hsrt : IsSort srt) (generated : List (Sample K)) (voxelOf : Vec3 K → ℤ)
    (resolution : K) (data : AMap N (SampleDB N K → Sample K → K)) (static : N) :
    ∃ db, construct big srt generated voxelOf resolution data static = some db ∧ Indexed db ∧
      ∀ (surface : Nat → Vec3 K × Vec3 K × Vec3 K) (normalize : Vec3 K → Vec3 K)
        (heuristic : Option (Sample K → Vec3 K → K)) (contacts : List OctContact),
      ∃ r, getCandidates db surface normalize heuristic contacts [] = some (r, !r.isEmpty) ∧
        (r.map (fun x => (x.contact, x.rank))).Perm (contacts.flatMap (fun c => ((List.range db.samples.length).filter
          (fun i => decide ((db.samples[i]?).map (fun s => voxelOf s.effectorPosition) = some c.b1))).map
            (fun i => (c, i)))) := by
  obtain ⟨db, before, h1, h2, -, -, h5⟩ := C29_construct big srt hsrt generated voxelOf resolution data static
  have hi : Indexed db := ⟨before, by rw [h5]; exact h2⟩
  refine ⟨db, h1, hi, fun surface normalize heuristic contacts => ?_⟩
  obtain ⟨r, h6, h7⟩ := C33_candidates hi surface normalize heuristic contacts
  refine ⟨r, h6, (h7.perm.map _).trans ?_⟩
  rw [List.map_flatMap]
  refine List.Perm.of_eq (List.flatMap_congr (fun c _ => ?_))
  rw [dueReports, List.map_map, ← h5]
  generalize db.samples = l
  induction l using List.reverseRecOn with
  | nil => rfl
  | append_singleton l s ih =>
    rw [List.zipIdx_append, List.filter_append, List.map_append, ih, List.length_append, List.length_singleton,
      List.range_succ, List.filter_append, List.map_append]
    congr 1
    · congr 1
      refine List.filter_congr (fun i hi => ?_)
      rw [List.getElem?_append_left (List.mem_range.1 hi)]
    · simp only [List.zipIdx_singleton, List.filter_cons, List.filter_nil, Nat.zero_add, List.getElem?_concat_length,
        Option.map_some, Option.some.injEq]
      split_ifs <;> rfl

end

/-! ## C74: samples -/

/-- the positions and jacobians stored in `s` are those of the robot configuration `q`, of which `s` holds the limb's
segment -/
structure FromConfiguration (kin : LimbKinematics K) (q : List K) (s : Sample K) : Prop where
  place : s.startRank = kin.startRank ∧ s.length = kin.length
  configuration : s.configuration = (q.drop kin.startRank).take kin.length
  effectorPosition : s.effectorPosition = kin.position q
  inLimb : s.effectorPositionInLimbFrame = kin.positionInLimbFrame q
  jacobian : s.jacobian = kin.jacobian q ∧ s.jacobianProduct = kin.jacobianProduct q
  manipulability : s.staticValue = kin.manipulability q

theorem generateLoop_get (kin : LimbKinematics K) (k : Nat) (shots : List (List K)) (i : Nat) :
    (generateLoop kin k shots)[i]? = (shots[i]?).map (fun q => kin.sample q (kin.segment q) (k + i)) := by
  induction shots generalizing k i with
  | nil => simp [generateLoop]
  | cons q shots ih =>
    rw [generateLoop]
    cases i with
    | zero => simp
    | succ i => simp only [List.getElem?_cons_succ, ih]; rw [Nat.add_right_comm k 1, Nat.add_assoc k]

/-- **C74, partial**: `GenerateSamples` produces `max 1 nbSamples` samples with identifiers equal to their index; sample
`i > 0` describes the `i`-th shot configuration, and sample 0 the neutral configuration provided the device it was
cloned from is in its neutral configuration.  Missing: that proviso, see `C74_violated`. -/
theorem C74_generate_partial (kin : LimbKinematics K) (current neutral : List K) (shots : List (List K)) (n : Nat)
    (hn : n - 1 ≤ shots.length) :
    (generateSamples kin current neutral shots n).length = max 1 n ∧
    (∀ i (s : Sample K), (generateSamples kin current neutral shots n)[i]? = some s → s.id = i) ∧
    (∀ i (s : Sample K) q, (generateSamples kin current neutral shots n)[i + 1]? = some s → shots[i]? = some q →
      FromConfiguration kin q s) ∧
    (current = neutral → ∀ s, (generateSamples kin current neutral shots n)[0]? = some s →
      FromConfiguration kin neutral s) := by
  have hg := generateLoop_get kin 1 (shots.take (n - 1))
  have hlen : (generateLoop kin 1 (shots.take (n - 1))).length = n - 1 := by
    have : ∀ k (l : List (List K)), (generateLoop kin k l).length = l.length := by
      intro k l; induction l generalizing k with
      | nil => rfl
      | cons q l ih => simp [generateLoop, ih]
    rw [this, List.length_take]; omega
  refine ⟨?_, ?_, ?_, ?_⟩
  · rw [generateSamples, List.length_cons, hlen]; omega
  · intro i s h
    cases i with
    | zero => simp only [generateSamples, List.getElem?_cons_zero, Option.some.injEq] at h; subst h; rfl
    | succ i =>
      simp only [generateSamples, List.getElem?_cons_succ, hg] at h
      cases hq : (shots.take (n - 1))[i]? with
      | none => rw [hq] at h; simp at h
      | some q =>
        rw [hq] at h; simp only [Option.map_some, Option.some.injEq] at h; subst h
        simp only [LimbKinematics.sample]; omega
  · intro i s q h hq
    simp only [generateSamples, List.getElem?_cons_succ, hg] at h
    rw [List.getElem?_take] at h
    split_ifs at h
    · rw [hq] at h; simp only [Option.map_some, Option.some.injEq] at h; subst h
      exact ⟨⟨rfl, rfl⟩, rfl, rfl, rfl, ⟨rfl, rfl⟩, rfl⟩
    · simp at h
  · rintro rfl s h
    simp only [generateSamples, List.getElem?_cons_zero, Option.some.injEq] at h; subst h
    exact ⟨⟨rfl, rfl⟩, rfl, rfl, rfl, ⟨rfl, rfl⟩, rfl⟩

/-- a one-joint limb whose effector is at the joint value -/
def demoKin : LimbKinematics ℚ :=
  ⟨0, 1, fun q => ⟨q.headD 0, 0, 0⟩, fun q => ⟨q.headD 0, 0, 0⟩, fun _ => ⟨0, 0, []⟩, fun _ => ⟨0, 0, []⟩, fun q => q.headD 0⟩

/-- **C74 is violated** for sample 0 when the device is not in its neutral configuration: its configuration is the
neutral one but its position is that of the current configuration, so no robot configuration matches it. -/
theorem C74_violated : ∃ s, (generateSamples demoKin [5] [0] [[1]] 2)[0]? = some s ∧
    ¬ ∃ q, FromConfiguration demoKin q s := by
  refine ⟨_, rfl, ?_⟩
  rintro ⟨q, h⟩
  have h1 := h.configuration
  have h2 := h.effectorPosition
  simp only [LimbKinematics.sample, LimbKinematics.segment, demoKin, List.drop_zero, List.take_succ_cons, List.take_zero,
    Vec3.mk.injEq] at h1 h2
  cases q with
  | nil => simp at h1
  | cons x q =>
    simp at h1 h2
    rw [← h1] at h2; norm_num at h2

/-- hypotheses of C74 -/
example : (2 : Nat) - 1 ≤ [[(1 : ℚ)]].length ∧
    (generateSamples demoKin [0] [0] [[1]] 2)[1]? = some (demoKin.sample [1] [1] 1) := by
  constructor <;> decide +kernel

/-- **C75**: `Load` writes the sample's segment in the configuration and nothing else; it is idempotent and loading
another sample of the same limb afterwards forgets the first. -/
theorem C75_load (s t : Sample K) (q q' : List K) (h : load s q = some q') :
    q'.length = q.length ∧ (q'.drop s.startRank).take s.length = s.configuration ∧
    (∀ i, i < s.startRank ∨ s.startRank + s.length ≤ i → q'[i]? = q[i]?) ∧
    load s q' = some q' ∧
    (t.startRank = s.startRank → t.length = s.length → load t q' = load t q) := by
  unfold load at h
  split_ifs at h with hc
  obtain ⟨h1, h2⟩ := hc
  simp only [Option.some.injEq] at h
  subst h
  have ht : (q.take s.startRank).length = s.startRank := by rw [List.length_take]; omega
  have hl : (q.take s.startRank ++ s.configuration ++ q.drop (s.startRank + s.length)).length = q.length := by
    simp only [List.length_append, ht, h2, List.length_drop]; omega
  have htake : (q.take s.startRank ++ s.configuration ++ q.drop (s.startRank + s.length)).take s.startRank =
      q.take s.startRank := by
    rw [List.append_assoc, List.take_append_of_le_length (by omega), List.take_of_length_le (by omega)]
  have hdrop : (q.take s.startRank ++ s.configuration ++ q.drop (s.startRank + s.length)).drop (s.startRank + s.length) =
      q.drop (s.startRank + s.length) := by
    rw [List.drop_append_of_le_length (by simp only [List.length_append, ht, h2]; omega)]
    rw [List.drop_of_length_le (by simp only [List.length_append, ht, h2]; omega), List.nil_append]
  refine ⟨hl, ?_, ?_, ?_, ?_⟩
  · rw [List.append_assoc, List.drop_append_of_le_length (by omega), List.drop_of_length_le (by omega), List.nil_append,
      List.take_append_of_le_length (by omega), List.take_of_length_le (by omega)]
  · rintro i (hi | hi)
    · rw [List.append_assoc, List.getElem?_append_left (by omega), List.getElem?_take]; simp [hi]
    · rw [List.getElem?_append_right (by simp only [List.length_append, ht, h2]; omega), List.getElem?_drop]
      congr 1; simp only [List.length_append, ht, h2]; omega
  · unfold load
    rw [hl, if_pos ⟨h1, h2⟩, htake, hdrop]
  · intro e1 e2
    unfold load
    rw [e1, e2, hl, htake, hdrop]

/-- hypotheses of C75 -/
example : load (demoKin.sample [4] [4] 0) [1, 2, 3] = some [4, 2, 3] := by decide +kernel

/-! ## Concrete case for C33 -/

theorem demoDb_indexed : ∃ db, align demoDb = some db ∧ Indexed db := by
  obtain ⟨db, h1, h2, h3, -⟩ := C29_octree_partition demoDb (by decide)
  exact ⟨db, h1, demoDb.samples, by rw [h3]; exact h2⟩

/-- two contacts in the same voxel give a report each; the unknown voxel 9 gives none -/
example : ((align demoDb).bind (fun db => getCandidates db (fun _ => (0, 0, 0)) id
    (some fun s _ => s.effectorPosition.x) [⟨0, 3⟩, ⟨9, 1⟩, ⟨-5, 0⟩, ⟨0, 4⟩] [])).map
      (fun p => p.1.map (fun r => (r.rank, r.value, r.contact.b2))) =
    some [(0, 1, 0), (2, 1/2, 3), (2, 1/2, 4), (1, 0, 3), (1, 0, 4)] := by decide +kernel

end Sampling
end Rbprm
