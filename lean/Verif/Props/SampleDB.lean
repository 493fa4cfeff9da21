import Verif.Model.SampleDB
import Mathlib.Tactic.SplitIfs
import Mathlib.Tactic.Tauto
import Mathlib.Tactic.Linarith
import Mathlib.Tactic.FieldSimp
import Mathlib.Data.List.Perm.Basic
import Mathlib.Data.List.Nodup
import Mathlib.Data.List.Range
set_option linter.unusedSectionVars false
/-! # C29-C32: the sample database -/
namespace Rbprm
namespace Sampling
variable {N K : Type _} [LinearOrder N]

/-! ## Specification -/

/-- the sample without its identifier -/
def Sample.anon (s : Sample K) : Sample K := { s with id := 0 }

/-- `after`, indexed by `voxels`, is a reordering of `before` by voxel -/
structure Partition (voxelOf : Vec3 K → ℤ) (before after : List (Sample K)) (voxels : AMap ℤ (Nat × Nat)) : Prop where
  /-- no sample is lost, invented or altered -/
  perm : (after.map Sample.anon).Perm (before.map Sample.anon)
  /-- the identifier of a sample is its index -/
  ids : ∀ i (s : Sample K), after[i]? = some s → s.id = i
  /-- the range of a voxel is non-empty, inside the database, and contains exactly the samples of the voxel -/
  range : ∀ v a n, AMap.find? voxels v = some (a, n) → 0 < n ∧ a + n ≤ after.length ∧
    ∀ i (s : Sample K), after[i]? = some s → ((a ≤ i ∧ i < a + n) ↔ voxelOf s.effectorPosition = v)
  /-- every sample is in the range of some voxel -/
  cover : ∀ i (s : Sample K), after[i]? = some s →
    ∃ a n, AMap.find? voxels (voxelOf s.effectorPosition) = some (a, n) ∧ a ≤ i ∧ i < a + n
  /-- ranges of different voxels are disjoint -/
  disjoint : ∀ v w a n b m, v ≠ w → AMap.find? voxels v = some (a, n) → AMap.find? voxels w = some (b, m) →
    a + n ≤ b ∨ b + m ≤ a
  /-- inside a voxel the former order is kept -/
  stable : ∀ v, (after.filter (fun s => decide (voxelOf s.effectorPosition = v))).map Sample.anon =
    (before.filter (fun s => decide (voxelOf s.effectorPosition = v))).map Sample.anon

/-! ## Samples per voxel -/

/-- ranks (from `sid`) of the samples of `l` in voxel `v` -/
def ranksFrom (voxelOf : Vec3 K → ℤ) (v : ℤ) : Nat → List (Sample K) → List Nat
  | _, [] => []
  | sid, s :: l => if voxelOf s.effectorPosition = v then sid :: ranksFrom voxelOf v (sid + 1) l
      else ranksFrom voxelOf v (sid + 1) l

theorem ranksFrom_cons (voxelOf : Vec3 K → ℤ) (v : ℤ) (sid : Nat) (s : Sample K) (l : List (Sample K)) :
    ranksFrom voxelOf v sid (s :: l) = if voxelOf s.effectorPosition = v then
      sid :: ranksFrom voxelOf v (sid + 1) l else ranksFrom voxelOf v (sid + 1) l := rfl

theorem mem_ranksFrom {voxelOf : Vec3 K → ℤ} {v : ℤ} {sid : Nat} {l : List (Sample K)} {r : Nat} :
    r ∈ ranksFrom voxelOf v sid l ↔
      sid ≤ r ∧ ∃ s, l[r - sid]? = some s ∧ voxelOf s.effectorPosition = v := by
  induction l generalizing sid with
  | nil => simp [ranksFrom]
  | cons s l ih =>
    have key : r ∈ ranksFrom voxelOf v (sid + 1) l ↔
        sid < r ∧ ∃ s', (s :: l)[r - sid]? = some s' ∧ voxelOf s'.effectorPosition = v := by
      rw [ih]
      constructor
      · rintro ⟨h, s', h1, h2⟩
        refine ⟨h, s', ?_, h2⟩
        have : r - sid = (r - (sid + 1)) + 1 := by omega
        rw [this, List.getElem?_cons_succ]; exact h1
      · rintro ⟨h, s', h1, h2⟩
        refine ⟨h, s', ?_, h2⟩
        have : r - sid = (r - (sid + 1)) + 1 := by omega
        rw [this, List.getElem?_cons_succ] at h1; exact h1
    unfold ranksFrom
    split_ifs with hv
    · rw [List.mem_cons, key]
      constructor
      · rintro (rfl | ⟨h, h'⟩)
        · exact ⟨le_refl _, s, by simp, hv⟩
        · exact ⟨by omega, h'⟩
      · rintro ⟨h, h'⟩
        by_cases e : r = sid
        · exact Or.inl e
        · exact Or.inr ⟨by omega, h'⟩
    · rw [key]
      constructor
      · rintro ⟨h, h'⟩; exact ⟨by omega, h'⟩
      · rintro ⟨h, s', h1, h2⟩
        refine ⟨?_, s', h1, h2⟩
        by_contra hc
        have : r - sid = 0 := by omega
        rw [this] at h1; simp at h1; subst h1; exact hv h2

theorem ranksFrom_sorted (voxelOf : Vec3 K → ℤ) (v : ℤ) (sid : Nat) (l : List (Sample K)) :
    (ranksFrom voxelOf v sid l).Pairwise (· < ·) := by
  induction l generalizing sid with
  | nil => simp [ranksFrom]
  | cons s l ih =>
    unfold ranksFrom
    split_ifs
    · refine List.pairwise_cons.2 ⟨fun r hr => ?_, ih _⟩
      have := (mem_ranksFrom.1 hr).1; omega
    · exact ih _

theorem WF_insertNew {W : Type _} {I : Type _} [LinearOrder I] {m : AMap I W} (h : AMap.WF m) (k : I) (w : W) : AMap.WF (AMap.insertNew m k w) := by
  unfold AMap.insertNew; split_ifs
  · exact h
  · exact AMap.WF_set h k w

theorem perVoxelLoop_spec (voxelOf : Vec3 K → ℤ) (sid : Nat) (l : List (Sample K)) (res : AMap ℤ (List Nat))
    (hw : AMap.WF res) :
    AMap.WF (perVoxelLoop voxelOf sid l res) ∧
    ∀ v, (AMap.find? (perVoxelLoop voxelOf sid l res) v).getD [] =
        (AMap.find? res v).getD [] ++ ranksFrom voxelOf v sid l ∧
      (v ∈ AMap.keys (perVoxelLoop voxelOf sid l res) ↔ v ∈ AMap.keys res ∨ ranksFrom voxelOf v sid l ≠ []) := by
  induction l generalizing sid res with
  | nil => simp [perVoxelLoop, ranksFrom, hw]
  | cons s l ih =>
    unfold perVoxelLoop
    simp only
    cases hf : AMap.find? res (voxelOf s.effectorPosition) with
    | some old =>
      simp only
      obtain ⟨h1, h2⟩ := ih (sid + 1) _ (AMap.WF_set hw (voxelOf s.effectorPosition) (old ++ [sid]))
      refine ⟨h1, fun v => ?_⟩
      obtain ⟨h3, h4⟩ := h2 v
      have hk : voxelOf s.effectorPosition ∈ AMap.keys res := AMap.find?_isSome.1 (by rw [hf]; rfl)
      rw [h3, h4, AMap.find?_set, AMap.mem_keys_set, ranksFrom_cons]
      by_cases e : voxelOf s.effectorPosition = v
      · subst e; simp [hf, hk]
      · simp [e, Ne.symm e]
    | none =>
      simp only
      have hk : voxelOf s.effectorPosition ∉ AMap.keys res := AMap.find?_eq_none.1 hf
      obtain ⟨h1, h2⟩ := ih (sid + 1) _ (WF_insertNew hw (voxelOf s.effectorPosition) [sid])
      refine ⟨h1, fun v => ?_⟩
      obtain ⟨h3, h4⟩ := h2 v
      have hh : AMap.has res (voxelOf s.effectorPosition) = false := by
        rw [← Bool.not_eq_true, AMap.has_iff]; exact hk
      rw [h3, h4]
      simp only [AMap.insertNew, hh, Bool.false_eq_true, if_false, AMap.find?_set, AMap.mem_keys_set]
      rw [ranksFrom_cons]
      by_cases e : voxelOf s.effectorPosition = v
      · subst e; simp [hf]
      · simp [e, Ne.symm e]

theorem perVoxel_WF (voxelOf : Vec3 K → ℤ) (l : List (Sample K)) : AMap.WF (getSamplesPerVoxel voxelOf l) :=
  (perVoxelLoop_spec voxelOf 0 l [] AMap.WF_nil).1

theorem perVoxel_find (voxelOf : Vec3 K → ℤ) (l : List (Sample K)) (v : ℤ) :
    (AMap.find? (getSamplesPerVoxel voxelOf l) v).getD [] = ranksFrom voxelOf v 0 l := by
  simpa [getSamplesPerVoxel] using ((perVoxelLoop_spec voxelOf 0 l [] AMap.WF_nil).2 v).1

theorem perVoxel_keys (voxelOf : Vec3 K → ℤ) (l : List (Sample K)) (v : ℤ) :
    v ∈ AMap.keys (getSamplesPerVoxel voxelOf l) ↔ ranksFrom voxelOf v 0 l ≠ [] := by
  simpa [getSamplesPerVoxel] using ((perVoxelLoop_spec voxelOf 0 l [] AMap.WF_nil).2 v).2

/-! ## The new order -/

/-- the samples of the given ranks, numbered from `k` -/
def relabel (samples : List (Sample K)) : Nat → List Nat → List (Sample K)
  | _, [] => []
  | k, r :: l => (match samples[r]? with | some s => [{ s with id := k }] | none => []) ++ relabel samples (k + 1) l

theorem relabel_append (samples : List (Sample K)) (k : Nat) (a b : List Nat) :
    relabel samples k (a ++ b) = relabel samples k a ++ relabel samples (k + a.length) b := by
  induction a generalizing k with
  | nil => simp [relabel]
  | cons r a ih =>
    simp only [List.cons_append, relabel, ih, List.append_assoc, List.length_cons]
    rw [Nat.add_right_comm k 1, Nat.add_assoc k]

theorem relabel_get (samples : List (Sample K)) (k : Nat) (a : List Nat) (h : ∀ r ∈ a, r < samples.length) (i : Nat) :
    (relabel samples k a)[i]? = (a[i]?.bind (samples[·]?)).map (fun s => { s with id := k + i }) := by
  induction a generalizing k i with
  | nil => simp [relabel]
  | cons r a ih =>
    have hr := h r (by simp)
    have ih' := fun k i => ih k (fun r hr => h r (List.mem_cons_of_mem _ hr)) i
    simp only [relabel, List.getElem?_eq_getElem hr, List.singleton_append]
    cases i with
    | zero => simp [List.getElem?_eq_getElem hr]
    | succ i =>
      simp only [List.getElem?_cons_succ, ih']
      congr 1; funext s; rw [Nat.add_right_comm k 1, Nat.add_assoc k]

theorem relabel_anon (samples : List (Sample K)) (k : Nat) (a : List Nat) :
    (relabel samples k a).map Sample.anon = (a.filterMap (samples[·]?)).map Sample.anon := by
  induction a generalizing k with
  | nil => simp [relabel]
  | cons r a ih =>
    simp only [relabel, List.map_append, ih, List.filterMap_cons]
    cases samples[r]? <;> simp [Sample.anon]

theorem relabel_length (samples : List (Sample K)) (k : Nat) (a : List Nat) (h : ∀ r ∈ a, r < samples.length) :
    (relabel samples k a).length = a.length := by
  induction a generalizing k with
  | nil => simp [relabel]
  | cons r a ih =>
    simp only [relabel, List.getElem?_eq_getElem (h r (by simp)), List.singleton_append, List.length_cons,
      ih (k + 1) (fun r hr => h r (List.mem_cons_of_mem _ hr))]

theorem alignSamples_spec (samples : List (Sample K)) (ids : List Nat) (a : AlignState K)
    (h : ∀ r ∈ ids, r < samples.length) :
    alignSamples samples ids a = some { a with
      reorderedSamples := a.reorderedSamples ++ relabel samples a.currentNewIndex ids
      realignOrderIds := a.realignOrderIds ++ ids
      currentNewIndex := a.currentNewIndex + ids.length } := by
  induction ids generalizing a with
  | nil => simp [alignSamples, relabel]
  | cons r ids ih =>
    rw [alignSamples, List.getElem?_eq_getElem (h r (by simp))]
    simp only
    rw [ih _ (fun r hr => h r (List.mem_cons_of_mem _ hr))]
    simp only [relabel, List.getElem?_eq_getElem (h r (by simp)), List.append_assoc, List.singleton_append,
      List.length_cons]
    congr 2; omega

/-- the voxel ranges of consecutive blocks starting at `k` -/
def ranges (f : ℤ → List Nat) : Nat → List ℤ → AMap ℤ (Nat × Nat)
  | _, [] => []
  | k, v :: vs => (v, (k, (f v).length)) :: ranges f (k + (f v).length) vs

theorem keys_ranges (f : ℤ → List Nat) (k : Nat) (vs : List ℤ) : AMap.keys (ranges f k vs) = vs := by
  induction vs generalizing k with
  | nil => rfl
  | cons v vs ih => simp [ranges, ih]

theorem set_append {W I : Type _} [LinearOrder I] (m : AMap I W) (k : I) (w : W) (h : ∀ j ∈ AMap.keys m, j < k) :
    AMap.set m k w = m ++ [(k, w)] := by
  induction m with
  | nil => rfl
  | cons p m ih =>
    obtain ⟨j, u⟩ := p
    have hj : j < k := h j (by simp)
    simp only [AMap.set, not_lt.2 hj.le, if_false, hj.ne', List.cons_append]
    rw [ih (fun i hi => h i (by simp [hi]))]

theorem insertNew_append {W I : Type _} [LinearOrder I] (m : AMap I W) (k : I) (w : W) (h : ∀ j ∈ AMap.keys m, j < k) :
    AMap.insertNew m k w = m ++ [(k, w)] := by
  have : AMap.has m k = false := by
    rw [← Bool.not_eq_true, AMap.has_iff]; intro hc; exact lt_irrefl _ (h k hc)
  rw [AMap.insertNew, this]; simp only [Bool.false_eq_true, if_false]; exact set_append m k w h

theorem alignVoxels_spec (samples : List (Sample K)) (m : AMap ℤ (List Nat)) (f : ℤ → List Nat)
    (hf : ∀ v, (AMap.find? m v).getD [] = f v) (hlt : ∀ v, ∀ r ∈ f v, r < samples.length)
    (vs : List ℤ) (hs : vs.Pairwise (· < ·)) (a : AlignState K)
    (ha : ∀ j ∈ AMap.keys a.reorderedSamplesPerVoxel, ∀ v ∈ vs, j < v) :
    alignVoxels samples m vs a = some
      { currentNewIndex := a.currentNewIndex + (vs.flatMap f).length
        reorderedSamples := a.reorderedSamples ++ relabel samples a.currentNewIndex (vs.flatMap f)
        realignOrderIds := a.realignOrderIds ++ vs.flatMap f
        reorderedSamplesPerVoxel := a.reorderedSamplesPerVoxel ++ ranges f a.currentNewIndex vs } := by
  induction vs generalizing a with
  | nil => simp [alignVoxels, relabel, ranges]
  | cons v vs ih =>
    rw [List.pairwise_cons] at hs
    rw [alignVoxels, hf, alignSamples_spec samples (f v) a (hlt v)]
    simp only
    rw [insertNew_append _ v _ (fun j hj => ha j hj v (by simp)), ih hs.2]
    · simp only [Nat.add_sub_cancel_left, List.flatMap_cons, List.length_append, relabel_append, ranges,
        List.append_assoc, List.singleton_append, Nat.add_assoc]
    · intro j hj w hw
      simp only [AMap.keys, List.map_append, List.mem_append, List.map_cons, List.map_nil, List.mem_singleton] at hj
      rcases hj with hj | rfl
      · exact ha j hj w (by simp [hw])
      · exact hs.1 w hw

/-! ## Values -/

theorem reorderValue_spec (vals : List K) (order : List Nat) (h : ∀ r ∈ order, r < vals.length) :
    reorderValue vals order = some (order.filterMap (vals[·]?)) := by
  unfold reorderValue
  induction order with
  | nil => rfl
  | cons r l ih =>
    rw [List.mapM_cons, ih (fun r hr => h r (by simp [hr])), List.getElem?_eq_getElem (h r (by simp))]
    simp [List.getElem?_eq_getElem (h r (by simp))]

theorem reorderValues_spec (order : List Nat) (m : AMap N (List K)) (h : ∀ p ∈ m, ∀ r ∈ order, r < p.2.length) :
    reorderValues order m = some (m.map (fun p => (p.1, order.filterMap (p.2[·]?)))) := by
  induction m with
  | nil => rfl
  | cons p m ih =>
    obtain ⟨n, v⟩ := p
    rw [reorderValues, ih (fun p hp => h p (by simp [hp])), reorderValue_spec v order (h (n, v) (by simp))]
    rfl

theorem find?_map {V W : Type _} (m : AMap N V) (g : V → W) (n : N) :
    AMap.find? (m.map (fun p => (p.1, g p.2))) n = (AMap.find? m n).map g := by
  induction m with
  | nil => rfl
  | cons p m ih =>
    obtain ⟨k, v⟩ := p
    rw [List.map_cons, AMap.find?_cons, AMap.find?_cons]
    split_ifs
    · rfl
    · exact ih

/-! ## `alignSampleOrderWithOctree` -/

/-- the voxels of a list of samples, in increasing order -/
def voxelsOf (voxelOf : Vec3 K → ℤ) (l : List (Sample K)) : List ℤ := AMap.keys (getSamplesPerVoxel voxelOf l)

/-- the new order: for each voxel the ranks of its samples -/
def newOrder (voxelOf : Vec3 K → ℤ) (l : List (Sample K)) : List Nat :=
  (voxelsOf voxelOf l).flatMap (fun v => ranksFrom voxelOf v 0 l)

theorem voxelsOf_sorted (voxelOf : Vec3 K → ℤ) (l : List (Sample K)) : (voxelsOf voxelOf l).Pairwise (· < ·) :=
  perVoxel_WF voxelOf l

theorem mem_ranks0 {voxelOf : Vec3 K → ℤ} {v : ℤ} {l : List (Sample K)} {r : Nat} :
    r ∈ ranksFrom voxelOf v 0 l ↔ ∃ s, l[r]? = some s ∧ voxelOf s.effectorPosition = v := by
  rw [mem_ranksFrom]; simp

theorem ranks0_lt {voxelOf : Vec3 K → ℤ} {l : List (Sample K)} (v : ℤ) (r : Nat) (h : r ∈ ranksFrom voxelOf v 0 l) :
    r < l.length := by
  obtain ⟨s, h, -⟩ := mem_ranks0.1 h
  exact (List.getElem?_eq_some_iff.1 h).1

theorem mem_newOrder {voxelOf : Vec3 K → ℤ} {l : List (Sample K)} {r : Nat} :
    r ∈ newOrder voxelOf l ↔ r < l.length := by
  unfold newOrder
  rw [List.mem_flatMap]
  constructor
  · rintro ⟨v, -, hr⟩; exact ranks0_lt v r hr
  · intro hr
    have : r ∈ ranksFrom voxelOf (voxelOf l[r].effectorPosition) 0 l :=
      mem_ranks0.2 ⟨l[r], List.getElem?_eq_getElem hr, rfl⟩
    refine ⟨_, ?_, this⟩
    unfold voxelsOf
    rw [perVoxel_keys]; exact List.ne_nil_of_mem this

theorem newOrder_nodup (voxelOf : Vec3 K → ℤ) (l : List (Sample K)) : (newOrder voxelOf l).Nodup := by
  unfold newOrder
  rw [List.nodup_flatMap]
  refine ⟨fun v _ => (ranksFrom_sorted voxelOf v 0 l).imp (fun h => h.ne), ?_⟩
  refine (voxelsOf_sorted voxelOf l).imp ?_
  intro v w hvw r hr hr'
  obtain ⟨s, h1, h2⟩ := mem_ranks0.1 hr
  obtain ⟨s', h3, h4⟩ := mem_ranks0.1 hr'
  rw [h1] at h3; cases h3
  omega

theorem newOrder_perm (voxelOf : Vec3 K → ℤ) (l : List (Sample K)) :
    (newOrder voxelOf l).Perm (List.range l.length) := by
  rw [List.perm_ext_iff_of_nodup (newOrder_nodup voxelOf l) List.nodup_range]
  intro r; rw [mem_newOrder, List.mem_range]

theorem range_filterMap {X : Type _} (l : List X) : (List.range l.length).filterMap (l[·]?) = l := by
  induction l with
  | nil => rfl
  | cons x l ih =>
    rw [List.length_cons, List.range_succ_eq_map, List.filterMap_cons]
    simp only [List.getElem?_cons_zero, List.filterMap_map]
    congr 1

/-- `align` in closed form, when every value list covers the samples. -/
theorem align_eq (db : SampleDB N K) (hv : ∀ p ∈ db.values, p.2.length = db.samples.length) :
    align db = some { db with
      samples := relabel db.samples 0 (newOrder db.voxelOf db.samples)
      samplesInVoxels := ranges (fun v => ranksFrom db.voxelOf v 0 db.samples) 0 (voxelsOf db.voxelOf db.samples)
      values := db.values.map (fun p => (p.1, (newOrder db.voxelOf db.samples).filterMap (p.2[·]?))) } := by
  have hs : (AMap.keys (getSamplesPerVoxel db.voxelOf db.samples)).insertionSort (· ≤ ·) =
      voxelsOf db.voxelOf db.samples := by
    exact List.Pairwise.insertionSort_eq ((voxelsOf_sorted db.voxelOf db.samples).imp (fun h => h.le))
  unfold align
  simp only [hs]
  rw [alignVoxels_spec db.samples _ (fun v => ranksFrom db.voxelOf v 0 db.samples)
    (perVoxel_find db.voxelOf db.samples) (fun v r h => ranks0_lt v r h) _ (voxelsOf_sorted _ _) _ (by simp)]
  simp only [List.nil_append]
  rw [reorderValues_spec _ _ (fun p hp r hr => by rw [hv p hp]; exact mem_newOrder.1 hr)]
  rfl

/-- position of the blocks in the concatenation -/
theorem ranges_find (f : ℤ → List Nat) (k : Nat) (vs : List ℤ) (v : ℤ) (a n : Nat)
    (h : AMap.find? (ranges f k vs) v = some (a, n)) :
    k ≤ a ∧ n = (f v).length ∧ v ∈ vs ∧ a + n ≤ k + (vs.flatMap f).length ∧
      (∀ j, j < n → (vs.flatMap f)[a - k + j]? = (f v)[j]?) := by
  induction vs generalizing k with
  | nil => simp [ranges] at h
  | cons w vs ih =>
    rw [ranges, AMap.find?_cons] at h
    split_ifs at h with e
    · subst e; cases h
      refine ⟨le_refl _, rfl, by simp, by simp, ?_⟩
      intro j hj
      simp only [Nat.sub_self, Nat.zero_add, List.flatMap_cons]
      rw [List.getElem?_append_left hj]
    · obtain ⟨h1, h2, h3, h4, h5⟩ := ih _ h
      refine ⟨by omega, h2, by simp [h3], by simp only [List.flatMap_cons, List.length_append]; omega, ?_⟩
      intro j hj
      rw [List.flatMap_cons, List.getElem?_append_right (by omega), ← h5 j hj]
      congr 1; omega

/-- an element of the block `f v` can only be found inside the range of `v` -/
theorem ranges_inv (f : ℤ → List Nat) (vx : Nat → ℤ) (hvx : ∀ v, ∀ r ∈ f v, vx r = v) (k : Nat) (vs : List ℤ)
    (hs : vs.Nodup) (i r : Nat) (h : (vs.flatMap f)[i]? = some r) :
    ∃ a n, AMap.find? (ranges f k vs) (vx r) = some (a, n) ∧ a ≤ k + i ∧ k + i < a + n := by
  induction vs generalizing k i with
  | nil => simp at h
  | cons w vs ih =>
    rw [List.nodup_cons] at hs
    rw [List.flatMap_cons] at h
    by_cases hi : i < (f w).length
    · rw [List.getElem?_append_left hi] at h
      have := hvx w r (List.mem_of_getElem? h)
      subst this
      exact ⟨k, (f (vx r)).length, by simp [ranges, AMap.find?_cons], by omega, by omega⟩
    · rw [List.getElem?_append_right (by omega)] at h
      obtain ⟨a, n, h1, h2, h3⟩ := ih (k + (f w).length) hs.2 _ h
      have hne : w ≠ vx r := by
        rintro rfl
        have : vx r ∈ AMap.keys (ranges f (k + (f (vx r)).length) vs) := AMap.find?_isSome.1 (by rw [h1]; rfl)
        rw [keys_ranges] at this; exact hs.1 this
      exact ⟨a, n, by rw [ranges, AMap.find?_cons, if_neg hne, h1], by omega, by omega⟩

theorem ranks_filterMap (voxelOf : Vec3 K → ℤ) (v : ℤ) (pre l : List (Sample K)) :
    (ranksFrom voxelOf v pre.length l).filterMap ((pre ++ l)[·]?) =
      l.filter (fun s => decide (voxelOf s.effectorPosition = v)) := by
  induction l generalizing pre with
  | nil => rfl
  | cons s l ih =>
    have := ih (pre ++ [s])
    simp only [List.length_append, List.length_singleton, List.append_assoc, List.singleton_append] at this
    rw [ranksFrom_cons]
    split_ifs with e
    · rw [List.filterMap_cons, this]
      simp [e]
    · rw [this]; simp [e]

theorem flatMap_filter_block (f : ℤ → List Nat) (p : Nat → Bool) (v : ℤ) (hp : ∀ r ∈ f v, p r = true)
    (hn : ∀ w, w ≠ v → ∀ r ∈ f w, p r = false) (vs : List ℤ) (hs : vs.Nodup) (hv : f v ≠ [] → v ∈ vs) :
    (vs.flatMap f).filter p = f v := by
  induction vs with
  | nil => by_cases h : f v = [] <;> simp_all
  | cons w vs ih =>
    rw [List.nodup_cons] at hs
    rw [List.flatMap_cons, List.filter_append]
    by_cases e : w = v
    · subst e
      have : (vs.flatMap f).filter p = [] := by
        rw [List.filter_eq_nil_iff]
        intro r hr
        obtain ⟨u, hu, hr⟩ := List.mem_flatMap.1 hr
        rw [hn u (fun h => hs.1 (h ▸ hu)) r hr]; simp
      rw [this, List.append_nil, List.filter_eq_self.2 hp]
    · have : (f w).filter p = [] := by
        rw [List.filter_eq_nil_iff]; intro r hr; rw [hn w e r hr]; simp
      rw [this, List.nil_append]
      refine ih hs.2 (fun h => ?_)
      rcases List.mem_cons.1 (hv h) with h | h
      · exact absurd h.symm e
      · exact h

theorem anon_position (s : Sample K) : s.anon.effectorPosition = s.effectorPosition := rfl

theorem filter_anon (voxelOf : Vec3 K → ℤ) (v : ℤ) (l : List (Sample K)) :
    (l.filter (fun s => decide (voxelOf s.effectorPosition = v))).map Sample.anon =
      (l.map Sample.anon).filter (fun s => decide (voxelOf s.effectorPosition = v)) := by
  rw [List.filter_map]; rfl

theorem filter_filterMap {X : Type _} (l : List X) (p : X → Bool) (ids : List Nat) :
    (ids.filterMap (l[·]?)).filter p = (ids.filter (fun r => (l[r]?.map p).getD false)).filterMap (l[·]?) := by
  induction ids with
  | nil => rfl
  | cons r ids ih =>
    rw [List.filterMap_cons, List.filter_cons]
    cases h : l[r]? with
    | none => simp [ih]
    | some x =>
      simp only [List.filter_cons, Option.map_some, Option.getD_some, ih]
      by_cases hp : p x = true <;> simp [h, hp]

theorem partition_newOrder (voxelOf : Vec3 K → ℤ) (l : List (Sample K)) :
    Partition voxelOf l (relabel l 0 (newOrder voxelOf l))
      (ranges (fun v => ranksFrom voxelOf v 0 l) 0 (voxelsOf voxelOf l)) := by
  have hlt : ∀ r ∈ newOrder voxelOf l, r < l.length := fun r h => mem_newOrder.1 h
  have hget := relabel_get l 0 (newOrder voxelOf l) hlt
  have hlen := relabel_length l 0 (newOrder voxelOf l) hlt
  -- a sample found at index i comes from the rank `newOrder[i]`
  have hat : ∀ i (s : Sample K), (relabel l 0 (newOrder voxelOf l))[i]? = some s →
      ∃ (r : Nat) (t : Sample K), (newOrder voxelOf l)[i]? = some r ∧ l[r]? = some t ∧ s = ({ t with id := i } : Sample K) := by
    intro i s hs
    rw [hget] at hs
    cases hr : (newOrder voxelOf l)[i]? with
    | none => simp [hr] at hs
    | some r =>
      cases ht : l[r]? with
      | none => simp [hr, ht] at hs
      | some t =>
        simp only [hr, Option.bind_some, ht, Option.map_some, Option.some.injEq, Nat.zero_add] at hs
        exact ⟨r, t, rfl, ht, hs.symm⟩
  have hvx : ∀ v, ∀ r ∈ ranksFrom voxelOf v 0 l,
      (fun r => ((l[r]?).map (fun s => voxelOf s.effectorPosition)).getD 0) r = v := by
    intro v r hr
    obtain ⟨s, h1, h2⟩ := mem_ranks0.1 hr
    simp [h1, h2]
  have hnd : (voxelsOf voxelOf l).Nodup := (voxelsOf_sorted voxelOf l).imp (fun h => h.ne)
  have hcover : ∀ i (s : Sample K), (relabel l 0 (newOrder voxelOf l))[i]? = some s →
      ∃ a n, AMap.find? (ranges (fun v => ranksFrom voxelOf v 0 l) 0 (voxelsOf voxelOf l))
        (voxelOf s.effectorPosition) = some (a, n) ∧ a ≤ i ∧ i < a + n := by
    intro i s hs
    obtain ⟨r, t, h1, h2, rfl⟩ := hat i s hs
    obtain ⟨a, n, h3, h4, h5⟩ := ranges_inv _ _ hvx 0 _ hnd i r h1
    simp only [h2, Option.map_some, Option.getD_some] at h3
    exact ⟨a, n, h3, by omega, by omega⟩
  have hrange : ∀ v a n, AMap.find? (ranges (fun v => ranksFrom voxelOf v 0 l) 0 (voxelsOf voxelOf l)) v = some (a, n) →
      0 < n ∧ a + n ≤ (relabel l 0 (newOrder voxelOf l)).length ∧
      ∀ i (s : Sample K), (relabel l 0 (newOrder voxelOf l))[i]? = some s →
        ((a ≤ i ∧ i < a + n) ↔ voxelOf s.effectorPosition = v) := by
    intro v a n h
    obtain ⟨-, h2, h3, h4, h5⟩ := ranges_find _ _ _ _ _ _ h
    refine ⟨?_, by rw [hlen]; rw [Nat.zero_add] at h4; exact h4, ?_⟩
    · rw [h2]; exact List.length_pos_iff.2 ((perVoxel_keys voxelOf l v).1 h3)
    · intro i s hs
      constructor
      · rintro ⟨ha, hb⟩
        obtain ⟨r, t, h6, h7, rfl⟩ := hat i s hs
        have := h5 (i - a) (by omega)
        simp only [Nat.sub_zero, Nat.add_sub_cancel' ha] at this
        rw [newOrder] at h6
        rw [h6] at this
        obtain ⟨s', h8, h9⟩ := mem_ranks0.1 (List.mem_of_getElem? this.symm)
        rw [h7] at h8; cases h8; exact h9
      · rintro rfl
        obtain ⟨a', n', h6, h7, h8⟩ := hcover i s hs
        rw [h] at h6; cases h6; exact ⟨h7, h8⟩
  refine ⟨?_, ?_, hrange, hcover, ?_, ?_⟩
  · rw [relabel_anon]
    have := ((newOrder_perm voxelOf l).filterMap (l[·]?)).map Sample.anon
    rwa [range_filterMap] at this
  · intro i s hs
    obtain ⟨r, t, -, -, rfl⟩ := hat i s hs; rfl
  · intro v w a n b m hvw hv hw
    obtain ⟨h1, h2, h3⟩ := hrange v a n hv
    obtain ⟨h4, h5, h6⟩ := hrange w b m hw
    by_contra hc
    have hi : max a b < (relabel l 0 (newOrder voxelOf l)).length := by omega
    have hs := List.getElem?_eq_getElem hi
    have e1 := (h3 _ _ hs).1 ⟨by omega, by omega⟩
    have e2 := (h6 _ _ hs).1 ⟨by omega, by omega⟩
    exact hvw (e1.symm.trans e2)
  · intro v
    rw [filter_anon, relabel_anon, ← filter_anon, filter_filterMap]
    have hb : (newOrder voxelOf l).filter
        (fun r => ((l[r]?).map (fun s => decide (voxelOf s.effectorPosition = v))).getD false) =
        ranksFrom voxelOf v 0 l := by
      refine flatMap_filter_block _ _ v ?_ ?_ _ hnd ?_
      · intro r hr
        obtain ⟨s, h1, h2⟩ := mem_ranks0.1 hr
        simp [h1, h2]
      · intro w hw r hr
        obtain ⟨s, h1, h2⟩ := mem_ranks0.1 hr
        simp [h1, h2, hw]
      · intro h; exact (perVoxel_keys voxelOf l v).2 h
    rw [hb]
    have := ranks_filterMap voxelOf v [] l
    simp only [List.length_nil, List.nil_append] at this
    rw [this]

/-! ## C29 -/

/-- **C29** (after the octree alignment, which ends every construction, sort and reload).  When the values stored
in the database cover the samples, the alignment is defined and partitions the samples by voxel. -/
theorem C29_octree_partition (db : SampleDB N K) (hv : ∀ p ∈ db.values, p.2.length = db.samples.length) :
    ∃ db', align db = some db' ∧ Partition db.voxelOf db.samples db'.samples db'.samplesInVoxels ∧
      db'.voxelOf = db.voxelOf ∧ (∀ p ∈ db'.values, p.2.length = db'.samples.length) := by
  refine ⟨_, align_eq db hv, partition_newOrder db.voxelOf db.samples, rfl, ?_⟩
  intro p hp
  obtain ⟨q, hq, rfl⟩ := List.mem_map.1 hp
  simp only
  rw [relabel_length _ _ _ (fun r h => mem_newOrder.1 h)]
  have h2 := hv q hq
  have := ((newOrder_perm db.voxelOf db.samples).filterMap (q.2[·]?)).length_eq
  rw [this, (newOrder_perm db.voxelOf db.samples).length_eq, ← h2, range_filterMap, List.length_range]

section field
variable [Field K] [LinearOrder K] [IsStrictOrderedRing K]

/-- what sorting and analysis leave untouched in a sample: configuration, positions, jacobians -/
def Sample.payload (s : Sample K) : Sample K := { s with id := 0, staticValue := 0 }

/-- `srt` is a correct `std::sort` for `sample_greater` -/
def IsSort (srt : List (Sample K) → List (Sample K)) : Prop :=
  ∀ l, (srt l).Perm l ∧ (srt l).Pairwise (fun a b => b.staticValue ≤ a.staticValue)

theorem setStatic_payload (l : List (Sample K)) (v : List K) :
    (setStatic l v).map Sample.payload = l.map Sample.payload := by
  induction l generalizing v with
  | nil => cases v <;> rfl
  | cons s l ih =>
    cases v with
    | nil => rfl
    | cons x v => rw [setStatic, List.map_cons, ih]; rfl

theorem setStatic_length (l : List (Sample K)) (v : List K) : (setStatic l v).length = l.length := by
  have := congrArg List.length (setStatic_payload l v); simpa using this

theorem store_payload (big : K) (db : SampleDB N K) (name : N) (eval : SampleDB N K → Sample K → K) (st : Bool) :
    (storeValue big db name eval st).samples.map Sample.payload = db.samples.map Sample.payload := by
  unfold storeValue; simp only; split_ifs
  · exact setStatic_payload _ _
  · rfl

theorem store_length (big : K) (db : SampleDB N K) (name : N) (eval : SampleDB N K → Sample K → K) (st : Bool) :
    (storeValue big db name eval st).samples.length = db.samples.length := by
  have := congrArg List.length (store_payload big db name eval st); simpa using this

theorem mem_set {V : Type _} (m : AMap N V) (k : N) (v : V) (p : N × V) (h : p ∈ AMap.set m k v) :
    p = (k, v) ∨ p ∈ m := by
  induction m with
  | nil => left; simpa [AMap.set] using h
  | cons q m ih =>
    obtain ⟨j, u⟩ := q
    simp only [AMap.set] at h
    split_ifs at h
    · rcases List.mem_cons.1 h with h | h
      · exact Or.inl h
      · exact Or.inr h
    · rcases List.mem_cons.1 h with h | h
      · exact Or.inl h
      · exact Or.inr (List.mem_cons_of_mem _ h)
    · rcases List.mem_cons.1 h with h | h
      · exact Or.inr (by simp [h])
      · rcases ih h with h | h
        · exact Or.inl h
        · exact Or.inr (List.mem_cons_of_mem _ h)

theorem store_values_length (big : K) (db : SampleDB N K) (name : N) (eval : SampleDB N K → Sample K → K) (st : Bool)
    (hv : ∀ p ∈ db.values, p.2.length = db.samples.length) :
    ∀ p ∈ (storeValue big db name eval st).values, p.2.length = (storeValue big db name eval st).samples.length := by
  intro p hp
  rw [store_length]
  unfold storeValue at hp
  simp only [AMap.insertNew] at hp
  split_ifs at hp
  · exact hv p hp
  · rcases mem_set _ _ _ _ hp with rfl | h
    · simp
    · exact hv p h

theorem addAll_spec (big : K) (srt : List (Sample K) → List (Sample K)) (static : N)
    (data : AMap N (SampleDB N K → Sample K → K)) (db : SampleDB N K)
    (hv : ∀ p ∈ db.values, p.2.length = db.samples.length) :
    ∃ db', addAll big srt static data db = some db' ∧ db'.voxelOf = db.voxelOf ∧
      db'.samples.map Sample.payload = db.samples.map Sample.payload ∧
      (∀ p ∈ db'.values, p.2.length = db'.samples.length) := by
  induction data generalizing db with
  | nil => exact ⟨db, rfl, rfl, rfl, hv⟩
  | cons q data ih =>
    obtain ⟨name, eval⟩ := q
    rw [addAll, addValue]
    by_cases hn : AMap.has db.values name = true
    · simp only [hn, if_true]; exact ih db hv
    · simp only [hn, if_false, Bool.false_eq_true]
      obtain ⟨db', h1, h2, h3, h4⟩ := ih _ (store_values_length big db name eval (decide (static = name)) hv)
      exact ⟨db', h1, h2.trans rfl, h3.trans (store_payload _ _ _ _ _), h4⟩

theorem anon_payload (s : Sample K) : s.anon.payload = s.payload := rfl

/-- **C29** (construction).  Building a database never indexes outside a vector; the samples of the result are a
permutation of the generated ones (up to identifier and static value), and the voxel table partitions them. -/
theorem C29_construct (big : K) (srt : List (Sample K) → List (Sample K)) (hsrt : IsSort srt)
    (generated : List (Sample K)) (voxelOf : Vec3 K → ℤ) (resolution : K)
    (data : AMap N (SampleDB N K → Sample K → K)) (static : N) :
    ∃ db before, construct big srt generated voxelOf resolution data static = some db ∧
      Partition voxelOf before db.samples db.samplesInVoxels ∧
      (db.samples.map Sample.payload).Perm (generated.map Sample.payload) ∧
      (∀ p ∈ db.values, p.2.length = db.samples.length) ∧ db.voxelOf = voxelOf := by
  obtain ⟨db1, h1, h2, h3, h4⟩ := addAll_spec big srt static data ⟨resolution, generated, voxelOf, [], [], []⟩
    (by simp)
  obtain ⟨db', h5, h6, h7, h8⟩ := C29_octree_partition { db1 with samples := srt db1.samples }
    (fun p hp => by simp only; rw [(hsrt db1.samples).1.length_eq]; exact h4 p hp)
  refine ⟨db', srt db1.samples, by rw [construct, h1]; exact h5, ?_, ?_, h8, by rw [h7]; exact h2⟩
  · simp only at h6 h2; rw [h2] at h6; exact h6
  · have hp := (h6.perm.map Sample.payload)
    simp only [List.map_map] at hp
    have e : Sample.payload ∘ Sample.anon = (Sample.payload : Sample K → Sample K) := rfl
    rw [e] at hp
    simp only at h3
    rw [← h3]
    exact hp.trans ((hsrt db1.samples).1.map _)

/-! ## C32 -/

/-- **C32, partial**: `sortDB` is defined, permutes the samples, renumbers them, and the samples of each voxel are in
non-increasing static value.  Missing: the order across voxels, see `C32_violated`. -/
theorem C32_sort_partial (srt : List (Sample K) → List (Sample K)) (hsrt : IsSort srt) (db : SampleDB N K)
    (hv : ∀ p ∈ db.values, p.2.length = db.samples.length) :
    ∃ db', sortDB srt db = some db' ∧ (db'.samples.map Sample.anon).Perm (db.samples.map Sample.anon) ∧
      (∀ i (s : Sample K), db'.samples[i]? = some s → s.id = i) ∧
      (∀ v, (db'.samples.filter (fun s => decide (db.voxelOf s.effectorPosition = v))).Pairwise
        (fun a b => b.staticValue ≤ a.staticValue)) := by
  obtain ⟨db', h1, h2, -, -⟩ := C29_octree_partition { db with samples := srt db.samples }
    (fun p hp => by simp only; rw [(hsrt db.samples).1.length_eq]; exact hv p hp)
  refine ⟨db', h1, h2.perm.trans ((hsrt db.samples).1.map _), h2.ids, ?_⟩
  intro v
  have h3 : ((db'.samples.filter (fun s => decide (db.voxelOf s.effectorPosition = v))).map Sample.anon).Pairwise
      (fun a b => b.staticValue ≤ a.staticValue) := by
    rw [h2.stable v, List.pairwise_map]
    exact ((hsrt db.samples).2.filter _)
  rw [List.pairwise_map] at h3
  exact h3

/-! ## C31 -/

theorem foldl_min_le (l : List K) (b : K) : l.foldl min b ≤ b ∧ ∀ x ∈ l, l.foldl min b ≤ x := by
  induction l generalizing b with
  | nil => simp
  | cons y l ih =>
    obtain ⟨h1, h2⟩ := ih (min b y)
    refine ⟨h1.trans (min_le_left _ _), ?_⟩
    intro x hx
    rcases List.mem_cons.1 hx with rfl | hx
    · exact h1.trans (min_le_right _ _)
    · exact h2 x hx

theorem foldl_min_mem (l : List K) (b : K) : l.foldl min b = b ∨ l.foldl min b ∈ l := by
  induction l generalizing b with
  | nil => simp
  | cons y l ih =>
    rcases ih (min b y) with h | h
    · rcases min_choice b y with h' | h'
      · left; rw [List.foldl_cons, h, h']
      · right; rw [List.foldl_cons, h, h']; simp
    · right; rw [List.foldl_cons]; exact List.mem_cons_of_mem _ h

theorem foldl_max_ge (l : List K) (b : K) : b ≤ l.foldl max b ∧ ∀ x ∈ l, x ≤ l.foldl max b := by
  induction l generalizing b with
  | nil => simp
  | cons y l ih =>
    obtain ⟨h1, h2⟩ := ih (max b y)
    refine ⟨(le_max_left _ _).trans h1, ?_⟩
    intro x hx
    rcases List.mem_cons.1 hx with rfl | hx
    · exact (le_max_right _ _).trans h1
    · exact h2 x hx

theorem foldl_max_mem (l : List K) (b : K) : l.foldl max b = b ∨ l.foldl max b ∈ l := by
  induction l generalizing b with
  | nil => simp
  | cons y l ih =>
    rcases ih (max b y) with h | h
    · rcases max_choice b y with h' | h'
      · left; rw [List.foldl_cons, h, h']
      · right; rw [List.foldl_cons, h, h']; simp
    · right; rw [List.foldl_cons]; exact List.mem_cons_of_mem _ h

/-- `lo` and `hi` are the least and the greatest element of `l` -/
def IsMinMax (l : List K) (lo hi : K) : Prop := lo ∈ l ∧ hi ∈ l ∧ ∀ x ∈ l, lo ≤ x ∧ x ≤ hi

theorem rawBounds_spec (big : K) (raw : List K) (hne : raw ≠ []) (hb : ∀ x ∈ raw, -big ≤ x ∧ x ≤ big) :
    IsMinMax raw (rawBounds big raw).1 (rawBounds big raw).2 := by
  obtain ⟨y, hy⟩ := List.exists_mem_of_ne_nil raw hne
  have h1 := foldl_min_le raw big
  have h2 := foldl_max_ge raw (-big)
  refine ⟨?_, ?_, fun x hx => ⟨h1.2 x hx, h2.2 x hx⟩⟩
  · rcases foldl_min_mem raw big with h | h
    · have : y = big := le_antisymm (hb y hy).2 (by rw [← h]; exact h1.2 y hy)
      simp only [rawBounds, h]; rwa [← this]
    · exact h
  · rcases foldl_max_mem raw (-big) with h | h
    · have : y = -big := le_antisymm (by rw [← h]; exact h2.2 y hy) (hb y hy).1
      simp only [rawBounds, h]; rwa [← this]
    · exact h

/-- `out` is the normalisation of `raw` in the English sense -/
structure Normalised (raw out : List K) : Prop where
  length : out.length = raw.length
  unit : ∀ y ∈ out, 0 ≤ y ∧ y ≤ 1
  /-- all zeros for a constant function -/
  const : (∀ x ∈ raw, ∀ y ∈ raw, x = y) → ∀ y ∈ out, y = 0
  /-- otherwise the order is preserved, the worst sample gets 0 and the best 1 -/
  order : ∀ (i j : Nat) (a b a' b' : K), raw[i]? = some a → raw[j]? = some b → out[i]? = some a' → out[j]? = some b' →
    (a < b ↔ a' < b')
  best : ∀ (i : Nat) (a : K), raw[i]? = some a → (∀ x ∈ raw, x ≤ a) → (∃ x ∈ raw, x < a) → out[i]? = some 1
  worst : ∀ (i : Nat) (a : K), raw[i]? = some a → (∀ x ∈ raw, a ≤ x) → out[i]? = some 0
  /-- affine: differences are scaled by one common factor -/
  affine : ∃ c, 0 ≤ c ∧ ∀ (i j : Nat) (a b a' b' : K), raw[i]? = some a → raw[j]? = some b → out[i]? = some a' → out[j]? = some b' →
    b' - a' = c * (b - a)

theorem normalise_spec (raw : List K) (lo hi : K) (h : IsMinMax raw lo hi) :
    Normalised raw (raw.map (normalise (lo, hi))) := by
  obtain ⟨hlo, hhi, hx⟩ := h
  have hle : lo ≤ hi := (hx lo hlo).2
  by_cases he : hi - lo = 0
  · have hn : ∀ x, normalise (lo, hi) x = 0 := by intro x; simp [normalise, he]
    have hc : ∀ x ∈ raw, x = lo := fun x h => le_antisymm ((hx x h).2.trans (by linarith)) (hx x h).1
    refine ⟨by simp, ?_, ?_, ?_, ?_, ?_, ?_⟩
    · intro y hy; obtain ⟨x, -, rfl⟩ := List.mem_map.1 hy; rw [hn]; exact ⟨le_refl _, zero_le_one⟩
    · intro _ y hy; obtain ⟨x, -, rfl⟩ := List.mem_map.1 hy; exact hn x
    · intro i j a b a' b' h1 h2 h3 h4
      rw [List.getElem?_map, h1] at h3; rw [List.getElem?_map, h2] at h4
      simp only [Option.map_some, hn, Option.some.injEq] at h3 h4
      rw [hc a (List.mem_of_getElem? h1), hc b (List.mem_of_getElem? h2), ← h3, ← h4]
      simp
    · intro i a h1 _ h3
      obtain ⟨x, h4, h5⟩ := h3
      rw [hc x h4, hc a (List.mem_of_getElem? h1)] at h5
      exact absurd h5 (lt_irrefl _)
    · intro i a h1 _; rw [List.getElem?_map, h1]; simp [hn]
    · refine ⟨0, le_refl _, ?_⟩
      intro i j a b a' b' h1 h2 h3 h4
      rw [List.getElem?_map, h1] at h3; rw [List.getElem?_map, h2] at h4
      simp only [Option.map_some, hn, Option.some.injEq] at h3 h4
      rw [← h3, ← h4]; ring
  · have hpos : 0 < hi - lo := lt_of_le_of_ne (by linarith) (Ne.symm he)
    have hn : ∀ x, normalise (lo, hi) x = (x - lo) / (hi - lo) := by intro x; simp [normalise, he]
    refine ⟨by simp, ?_, ?_, ?_, ?_, ?_, ?_⟩
    · intro y hy; obtain ⟨x, h, rfl⟩ := List.mem_map.1 hy; rw [hn]
      have := hx x h
      exact ⟨div_nonneg (by linarith) hpos.le, (div_le_one hpos).2 (by linarith)⟩
    · intro h y hy; exact absurd (sub_eq_zero.2 (h hi hhi lo hlo)) he
    · intro i j a b a' b' h1 h2 h3 h4
      rw [List.getElem?_map, h1] at h3; rw [List.getElem?_map, h2] at h4
      simp only [Option.map_some, hn, Option.some.injEq] at h3 h4
      rw [← h3, ← h4, div_lt_div_iff_of_pos_right hpos]
      constructor <;> intro h <;> linarith
    · intro i a h1 h2 _
      have : a = hi := le_antisymm (hx a (List.mem_of_getElem? h1)).2 (h2 hi hhi)
      rw [List.getElem?_map, h1]; simp only [Option.map_some, hn, this, div_self he]
    · intro i a h1 h2
      have : a = lo := le_antisymm (h2 lo hlo) (hx a (List.mem_of_getElem? h1)).1
      rw [List.getElem?_map, h1]; simp only [Option.map_some, hn, this, sub_self, zero_div]
    · refine ⟨1 / (hi - lo), (one_div_pos.2 hpos).le, ?_⟩
      intro i j a b a' b' h1 h2 h3 h4
      rw [List.getElem?_map, h1] at h3; rw [List.getElem?_map, h2] at h4
      simp only [Option.map_some, hn, Option.some.injEq] at h3 h4
      rw [← h3, ← h4]; field_simp; ring

theorem find?_insertNew {V I : Type _} [LinearOrder I] (m : AMap I V) (k : I) (v : V) (j : I) :
    AMap.find? (AMap.insertNew m k v) j =
      if j = k then (match AMap.find? m k with | some w => some w | none => some v) else AMap.find? m j := by
  unfold AMap.insertNew
  by_cases h : AMap.has m k = true
  · rw [if_pos h]
    have := AMap.find?_isSome.2 (AMap.has_iff.1 h)
    split_ifs with e
    · subst e; cases hf : AMap.find? m j with
      | some w => rfl
      | none => rw [hf] at this; simp at this
    · rfl
  · rw [if_neg h, AMap.find?_set]
    have hn : AMap.find? m k = none := AMap.find?_eq_none.2 (fun hc => h (AMap.has_iff.2 hc))
    rw [hn]

/-- static values as written by `addValue` -/
theorem setStatic_get (l : List (Sample K)) (v : List K) (h : v.length = l.length) (i : Nat) :
    (setStatic l v)[i]? = (l[i]?).bind (fun s => (v[i]?).map (fun x => { s with staticValue := x })) := by
  induction l generalizing v i with
  | nil => cases v <;> simp [setStatic]
  | cons s l ih =>
    cases v with
    | nil => simp at h
    | cons x v =>
      rw [setStatic]
      cases i with
      | zero => simp
      | succ i => simp only [List.getElem?_cons_succ]; exact ih v (by simpa using h) i

/-- **C31**.  `addValue` of a new name stores the normalised values, sample by sample, records the exact bounds, leaves
the other values alone, and (static) copies each sample's own value into it. -/
theorem C31_addValue (big : K) (srt : List (Sample K) → List (Sample K)) (db : SampleDB N K) (name : N)
    (eval : SampleDB N K → Sample K → K) (st : Bool) (hn : name ∉ AMap.keys db.values)
    (hnb : name ∉ AMap.keys db.valueBounds) (hne : db.samples ≠ [])
    (hb : ∀ s ∈ db.samples, -big ≤ eval db s ∧ eval db s ≤ big) :
    ∃ db' vals lo hi, addValue big srt db name eval st false = some db' ∧
      AMap.find? db'.values name = some vals ∧ Normalised (db.samples.map (eval db)) vals ∧
      AMap.find? db'.valueBounds name = some (lo, hi) ∧ IsMinMax (db.samples.map (eval db)) lo hi ∧
      (∀ n, n ≠ name → AMap.find? db'.values n = AMap.find? db.values n ∧
        AMap.find? db'.valueBounds n = AMap.find? db.valueBounds n) ∧
      db'.samples.map Sample.payload = db.samples.map Sample.payload ∧
      (st = false → db'.samples = db.samples) ∧
      (st = true → ∀ (i : Nat) (s : Sample K) (x : K), db.samples[i]? = some s → vals[i]? = some x →
        db'.samples[i]? = some { s with staticValue := x }) := by
  have hf : AMap.has db.values name = false := by
    rw [← Bool.not_eq_true, AMap.has_iff]; exact hn
  refine ⟨storeValue big db name eval st,
    (db.samples.map (eval db)).map (normalise (rawBounds big (db.samples.map (eval db)))),
    (rawBounds big (db.samples.map (eval db))).1, (rawBounds big (db.samples.map (eval db))).2,
    by rw [addValue, hf]; simp only [Bool.false_eq_true, if_false], ?_, ?_, ?_, ?_, ?_, store_payload _ _ _ _ _, ?_, ?_⟩
  · simp only [storeValue, find?_insertNew, if_true, AMap.find?_eq_none.2 hn]
  · refine normalise_spec _ _ _ (rawBounds_spec big _ (by simpa using hne) ?_)
    intro x hx; obtain ⟨s, h1, rfl⟩ := List.mem_map.1 hx; exact hb s h1
  · simp only [storeValue, find?_insertNew, if_true, AMap.find?_eq_none.2 hnb]
  · refine rawBounds_spec big _ (by simpa using hne) ?_
    intro x hx; obtain ⟨s, h1, rfl⟩ := List.mem_map.1 hx; exact hb s h1
  · intro n h; simp only [storeValue, find?_insertNew, if_neg h, and_self]
  · rintro rfl; rfl
  · rintro rfl i s x h1 h2
    simp only [storeValue, if_true]
    rw [setStatic_get _ _ (by simp), h1, h2]; rfl

/-- **C31** (existing name): nothing changes. -/
theorem C31_existing (big : K) (srt : List (Sample K) → List (Sample K)) (db : SampleDB N K) (name : N)
    (eval : SampleDB N K → Sample K → K) (st so : Bool) (hn : name ∈ AMap.keys db.values) :
    addValue big srt db name eval st so = some db := by
  rw [addValue, if_pos (AMap.has_iff.2 hn)]

/-! ## C30 -/

/-- value `name` is, index by index, the number `g` gives to the sample stored there -/
def Attached (db : SampleDB N K) (name : N) (g : Sample K → K) : Prop :=
  AMap.find? db.values name = some (db.samples.map g)

/-- `g` only looks at the payload of a sample (configuration, positions, jacobians) -/
def OnPayload (g : Sample K → K) : Prop := ∀ s t, s.payload = t.payload → g s = g t

theorem OnPayload.map {g : Sample K → K} (hg : OnPayload g) {l l' : List (Sample K)}
    (h : l.map Sample.payload = l'.map Sample.payload) : l.map g = l'.map g := by
  induction l generalizing l' with
  | nil => cases l' with
    | nil => rfl
    | cons => simp at h
  | cons s l ih =>
    cases l' with
    | nil => simp at h
    | cons t l' =>
      simp only [List.map_cons, List.cons.injEq] at h ⊢
      exact ⟨hg s t h.1, ih h.2⟩

theorem align_attached {db db' : SampleDB N K} {name : N} {g : Sample K → K} (hg : OnPayload g)
    (hv : ∀ p ∈ db.values, p.2.length = db.samples.length) (ha : Attached db name g) (h : align db = some db') :
    Attached db' name g := by
  rw [align_eq db hv] at h
  cases h
  unfold Attached at ha ⊢
  have h1 := find?_map db.values (fun v => (newOrder db.voxelOf db.samples).filterMap (v[·]?)) name
  simp only
  rw [h1, ha, Option.map_some, Option.some.injEq]
  have h2 : (relabel db.samples 0 (newOrder db.voxelOf db.samples)).map g =
      ((newOrder db.voxelOf db.samples).filterMap (db.samples[·]?)).map g := by
    refine hg.map ?_
    have := congrArg (List.map Sample.payload) (relabel_anon db.samples 0 (newOrder db.voxelOf db.samples))
    simp only [List.map_map] at this
    exact this
  rw [h2, List.map_filterMap]
  congr 1; funext r; simp only [List.getElem?_map]

/-- operations that do not call `std::sort` -/
inductive DbOp (N K : Type _) where
  /-- `addValue(db, name, eval, isStatic, false)` -/
  | add (name : N) (eval : SampleDB N K → Sample K → K) (st : Bool)
  /-- the alignment with (new) voxel numbers that ends a reload -/
  | realign (voxelOf : Vec3 K → ℤ)

/-- effect of an operation -/
def DbOp.run (big : K) (srt : List (Sample K) → List (Sample K)) (db : SampleDB N K) : DbOp N K → Option (SampleDB N K)
  | .add name eval st => addValue big srt db name eval st false
  | .realign voxelOf => align { db with voxelOf := voxelOf }

/-- a history of operations -/
def runOps (big : K) (srt : List (Sample K) → List (Sample K)) : List (DbOp N K) → SampleDB N K → Option (SampleDB N K)
  | [], db => some db
  | op :: ops, db => match op.run big srt db with | none => none | some db' => runOps big srt ops db'

theorem addValue_attached (big : K) (srt : List (Sample K) → List (Sample K)) (db : SampleDB N K) (name : N)
    (eval : SampleDB N K → Sample K → K) (st : Bool) (hn : name ∉ AMap.keys db.values)
    (hg : OnPayload (eval db)) :
    ∃ db', addValue big srt db name eval st false = some db' ∧
      Attached db' name (fun s => normalise (rawBounds big (db.samples.map (eval db))) (eval db s)) := by
  have hf : AMap.has db.values name = false := by
    rw [← Bool.not_eq_true, AMap.has_iff]; exact hn
  refine ⟨storeValue big db name eval st, by rw [addValue, hf]; simp only [Bool.false_eq_true, if_false], ?_⟩
  unfold Attached
  simp only [storeValue, find?_insertNew, if_true, AMap.find?_eq_none.2 hn, List.map_map, Option.some.injEq]
  split_ifs
  · have := (OnPayload.map hg (setStatic_payload db.samples
      (db.samples.map (normalise (rawBounds big (db.samples.map (eval db))) ∘ eval db)))).symm
    have h2 := congrArg (List.map (normalise (rawBounds big (db.samples.map (eval db))))) this
    simp only [List.map_map] at h2
    exact h2
  · rfl

/-- **C30, partial**: along every history of `addValue` without sorting and of re-alignments (reloads), starting at any
database whose value lists cover the samples, no operation indexes outside a vector and every value attached to the
samples stays attached.  (`addValue_attached`: a new value starts attached.)  Missing: sorting, see `C30_violated`. -/
theorem C30_history_partial (big : K) (srt : List (Sample K) → List (Sample K)) (ops : List (DbOp N K))
    (db : SampleDB N K) (hv : ∀ p ∈ db.values, p.2.length = db.samples.length) :
    ∃ db', runOps big srt ops db = some db' ∧
      (db'.samples.map Sample.payload).Perm (db.samples.map Sample.payload) ∧
      ∀ name g, OnPayload g → Attached db name g → Attached db' name g := by
  induction ops generalizing db with
  | nil => exact ⟨db, rfl, List.Perm.refl _, fun _ _ _ h => h⟩
  | cons op ops ih =>
    rw [runOps]
    cases op with
    | add name eval st =>
      simp only [DbOp.run, addValue]
      by_cases hn : AMap.has db.values name = true
      · simp only [hn, if_true]; exact ih db hv
      · simp only [hn, if_false, Bool.false_eq_true]
        obtain ⟨db', h1, h2, h3⟩ := ih _ (store_values_length big db name eval st hv)
        refine ⟨db', h1, by rw [store_payload] at h2; exact h2, fun n g hg ha => h3 n g hg ?_⟩
        unfold Attached at ha ⊢
        have hne : n ≠ name := by
          rintro rfl
          exact hn (AMap.has_iff.2 (AMap.find?_isSome.1 (by rw [ha]; rfl)))
        rw [OnPayload.map hg (store_payload big db name eval st), ← ha]
        simp only [storeValue, find?_insertNew, if_neg hne]
    | realign voxelOf =>
      obtain ⟨db1, h1, h2, -, h4⟩ := C29_octree_partition { db with voxelOf := voxelOf } hv
      simp only [DbOp.run, h1]
      obtain ⟨db', h5, h6, h7⟩ := ih db1 h4
      refine ⟨db', h5, h6.trans ?_, fun n g hg ha => h7 n g hg ?_⟩
      · have := h2.perm.map Sample.payload
        simp only [List.map_map] at this
        exact this
      · exact align_attached hg (db := { db with voxelOf := voxelOf }) hv ha h1

/-- **C30** (sorting an ordered database).  If `std::sort` leaves the samples in place, values stay attached. -/
theorem C30_sorted_partial (srt : List (Sample K) → List (Sample K)) (db db' : SampleDB N K) (name : N)
    (g : Sample K → K) (hg : OnPayload g) (hv : ∀ p ∈ db.values, p.2.length = db.samples.length)
    (hs : srt db.samples = db.samples) (ha : Attached db name g) (h : sortDB srt db = some db') :
    Attached db' name g := by
  rw [sortDB, hs] at h
  exact align_attached hg hv ha h

end field

/-! ## Concrete cases -/

/-- a sample whose effector is at `(x,0,0)` -/
def demoSample (x : ℚ) (i : Nat) (st : ℚ) : Sample ℚ :=
  ⟨0, 1, [x], ⟨x, 0, 0⟩, ⟨x, 0, 0⟩, ⟨0, 0, []⟩, ⟨0, 0, []⟩, i, st⟩

/-- voxels of size 1 -/
def demoVoxel (p : Vec3 ℚ) : ℤ := if p.x < 1 then 0 else if p.x < 2 then -5 else 3

/-- three samples, two of them in the same voxel, one stored value -/
def demoDb : SampleDB Nat ℚ :=
  ⟨1, [demoSample 0 0 0, demoSample 1 1 1, demoSample (1/2) 2 2], demoVoxel, [(7, [0, 1, 1/2])], [], []⟩

example : ∀ p ∈ demoDb.values, p.2.length = demoDb.samples.length := by decide

/-- the alignment of the demo database: voxel -5 first, then the two samples of voxel 0 in their former order -/
example : (align demoDb).map (fun d => d.samples.map (fun s => (s.id, s.configuration))) =
      some [(0, [1]), (1, [0]), (2, [1/2])] ∧
    (align demoDb).map (fun d => d.samplesInVoxels) = some [(-5, (0, 1)), (0, (1, 2))] ∧
    (align demoDb).map (fun d => d.values) = some [(7, [1, 0, 1/2])] := by
  refine ⟨?_, ?_, ?_⟩ <;> decide +kernel

/-- the order of `sample_greater` -/
def demoRel (a b : Sample ℚ) : Prop := b.staticValue ≤ a.staticValue
instance : DecidableRel demoRel := fun a b => inferInstanceAs (Decidable (b.staticValue ≤ a.staticValue))
instance : Std.Total demoRel := ⟨fun a b => le_total b.staticValue a.staticValue⟩
instance : IsTrans (Sample ℚ) demoRel := ⟨fun _ _ _ h h' => le_trans (α := ℚ) h' h⟩

/-- insertion sort: a correct `std::sort` -/
def demoSort (l : List (Sample ℚ)) : List (Sample ℚ) := l.insertionSort demoRel

theorem demoSort_isSort : IsSort demoSort := fun l =>
  ⟨List.perm_insertionSort _ _, List.pairwise_insertionSort demoRel l⟩

/-- analysis function of the demo: the abscissa of the effector -/
def demoEval : SampleDB Nat ℚ → Sample ℚ → ℚ := fun _ s => s.effectorPosition.x

theorem demoEval_payload (db : SampleDB Nat ℚ) : OnPayload (demoEval db) := by
  intro s t h
  have : s.payload.effectorPosition = t.payload.effectorPosition := by rw [h]
  simp only [demoEval, show s.effectorPosition = s.payload.effectorPosition from rfl, this]; rfl

/-- **C32 is violated** as stated: after sorting, samples are grouped by voxel, so the static value is not
non-increasing along the database. -/
theorem C32_violated : ∃ db', sortDB demoSort demoDb = some db' ∧
    ¬ db'.samples.Pairwise (fun a b => b.staticValue ≤ a.staticValue) := by
  obtain ⟨db', h, -⟩ := C32_sort_partial demoSort demoSort_isSort demoDb (by decide)
  refine ⟨db', h, ?_⟩
  have h2 : (sortDB demoSort demoDb).map (fun d => d.samples.map Sample.staticValue) = some [1, 2, 0] := by
    decide +kernel
  rw [h] at h2
  simp only [Option.map_some, Option.some.injEq] at h2
  intro hc
  have : (db'.samples.map Sample.staticValue).Pairwise (fun a b => b ≤ a) := by
    rw [List.pairwise_map]; exact hc
  rw [h2] at this
  revert this; decide

/-- **C30 is violated** by the constructor (and by `addValue(..., sortSamples = true)`): `std::sort` moves the samples
but not the stored values.  Two generated samples in one voxel, analysed with their abscissa, which is also the static
value: in the database sample 0 is the one at abscissa 5, but its stored value is 0, the value of the other. -/
theorem C30_violated : ∃ db, construct (100 : ℚ) demoSort [demoSample 0 0 0, demoSample 5 1 0] (fun _ => 0) 1
      [(7, demoEval)] 7 = some db ∧
    db.samples.map (fun s => s.effectorPosition.x) = [5, 0] ∧ AMap.find? db.values 7 = some [0, 1] ∧
    ¬ Attached db 7 (fun s => normalise (0, 5) (s.effectorPosition.x)) := by
  have h0 : (construct (100 : ℚ) demoSort [demoSample 0 0 0, demoSample 5 1 0] (fun _ => 0) 1 [(7, demoEval)] 7).map
      (fun d => (d.samples.map (fun s => s.effectorPosition.x), AMap.find? d.values 7)) = some ([5, 0], some [0, 1]) := by
    decide +kernel
  cases hc : construct (100 : ℚ) demoSort [demoSample 0 0 0, demoSample 5 1 0] (fun _ => 0) 1 [(7, demoEval)] 7 with
  | none => rw [hc] at h0; simp at h0
  | some db =>
    rw [hc] at h0
    simp only [Option.map_some, Option.some.injEq, Prod.mk.injEq] at h0
    refine ⟨db, rfl, h0.1, h0.2, ?_⟩
    unfold Attached
    rw [h0.2]
    intro h
    simp only [Option.some.injEq] at h
    have h2 : db.samples.map (fun s => normalise (0, 5) (s.effectorPosition.x)) =
        (db.samples.map (fun s => s.effectorPosition.x)).map (normalise (0, 5)) := by rw [List.map_map]; rfl
    rw [h2, h0.1] at h
    revert h; decide +kernel

/-- hypotheses of C31 on the demo database -/
example : (3 : Nat) ∉ AMap.keys demoDb.values ∧ demoDb.samples ≠ [] ∧
    (∀ s ∈ demoDb.samples, -100 ≤ demoEval demoDb s ∧ demoEval demoDb s ≤ 100) := by
  refine ⟨by decide, by decide, ?_⟩
  decide +kernel

/-- hypotheses of C30: value 7 of the demo database is attached -/
example : Attached demoDb 7 (fun s => s.effectorPosition.x) := by
  unfold Attached; decide +kernel

end Sampling
end Rbprm
