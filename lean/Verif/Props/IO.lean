import Verif.Model.IO
import Verif.Props.SampleDB
set_option linter.unusedSectionVars false
/-! # C34, C35: text files -/
namespace Rbprm
namespace IO
open Sampling
variable {N K : Type _} [LinearOrder N]

/-! ## C35 -/

/-- fields written one after the other with a separator between them -/
def joined (sep : Char) : List (List Char) → List Char
  | [] => []
  | [f] => f
  | f :: g :: r => f ++ sep :: joined sep (g :: r)

theorem splitLoop_field (sep : Char) (f rest s1 : List Char) (hf : sep ∉ f) (hr : rest ≠ []) (hn : s1 ++ f ≠ []) :
    splitLoop sep (f ++ sep :: rest) s1 = (s1 ++ f) :: splitLoop sep rest [] := by
  induction f generalizing s1 with
  | nil =>
    cases rest with
    | nil => exact absurd rfl hr
    | cons d rest =>
      simp only [List.append_nil] at hn
      simp [splitLoop, hn]
  | cons c f ih =>
    have hc : c ≠ sep := fun h => hf (by simp [h])
    have hf' : sep ∉ f := fun h => hf (by simp [h])
    have : splitLoop sep (c :: f ++ sep :: rest) s1 = splitLoop sep (f ++ sep :: rest) (s1 ++ [c]) := by
      cases f with
      | nil => simp [splitLoop, hc]
      | cons d f => simp [splitLoop, hc]
    rw [this, ih (s1 ++ [c]) hf' (by simp)]; simp

theorem splitLoop_last (sep : Char) (f s1 : List Char) (hf : sep ∉ f) (hn : f ≠ []) :
    splitLoop sep f s1 = [s1 ++ f] := by
  induction f generalizing s1 with
  | nil => exact absurd rfl hn
  | cons c f ih =>
    have hc : c ≠ sep := fun h => hf (by simp [h])
    cases f with
    | nil => rfl
    | cons d f =>
      rw [splitLoop, if_neg hc, ih (s1 ++ [c]) (fun h => hf (by simp [h])) (by simp)]; simp

theorem splitLoop_last_sep (sep : Char) (f s1 : List Char) (hf : sep ∉ f) :
    splitLoop sep (f ++ [sep]) s1 = [s1 ++ f ++ [sep]] := by
  induction f generalizing s1 with
  | nil => simp [splitLoop]
  | cons c f ih =>
    have hc : c ≠ sep := fun h => hf (by simp [h])
    have h1 := ih (s1 ++ [c]) (fun h => hf (by simp [h]))
    cases f with
    | nil => simp [splitLoop, hc]
    | cons d f =>
      rw [List.cons_append, List.cons_append, splitLoop, if_neg hc, ← List.cons_append, h1]; simp

/-- **C35** (splitting).  `splitString` inverts joining with a separator, for non-empty fields without separator. -/
theorem C35_split (sep : Char) (fields : List (List Char)) (h : ∀ f ∈ fields, f ≠ [] ∧ sep ∉ f) :
    splitString (joined sep fields) sep = fields := by
  unfold splitString
  induction fields with
  | nil => rfl
  | cons f r ih =>
    cases r with
    | nil => rw [joined, splitLoop_last sep f [] (h f (by simp)).2 (h f (by simp)).1]; simp
    | cons g r =>
      have hr : joined sep (g :: r) ≠ [] := by
        have := (h g (by simp)).1
        cases r <;> simp [joined, this]
      rw [joined, splitLoop_field sep f _ [] (h f (by simp)).2 hr (by simpa using (h f (by simp)).1),
        ih (fun f hf => h f (by simp [hf]))]
      simp

/-- **C35**, the trailing separator: it is kept in the last field (the readers rely on number parsing to ignore it). -/
theorem C35_trailing_separator (sep : Char) (fields : List (List Char)) (last : List Char)
    (h : ∀ f ∈ fields, f ≠ [] ∧ sep ∉ f) (hl : sep ∉ last) :
    splitString (joined sep (fields ++ [last]) ++ [sep]) sep = fields ++ [last ++ [sep]] := by
  unfold splitString
  induction fields with
  | nil => simp only [List.nil_append, joined]; rw [splitLoop_last_sep sep last [] hl]; simp
  | cons f r ih =>
    have e : joined sep (f :: r ++ [last]) = f ++ sep :: joined sep (r ++ [last]) := by cases r <;> rfl
    have ih' := ih (fun f hf => h f (by simp [hf]))
    rw [e, List.append_assoc, List.cons_append, splitLoop_field sep f _ [] (h f (by simp)).2 (by simp)
      (by simpa using (h f (by simp)).1), ih']
    simp

/-! ## Numbers -/

/-- `x` survives printing and reading, also with the trailing separator -/
structure Codec.Exact (c : Codec K) (x : K) : Prop where
  back : c.toD (c.prt x) = x
  backSep : c.toD (c.prt x ++ [';']) = x
  noSep : ';' ∉ c.prt x
  nonempty : c.prt x ≠ []

/-- the same for an integer -/
structure Codec.ExactN (c : Codec K) (n : Nat) : Prop where
  back : c.toI (c.prtN n) = n
  noSep : ';' ∉ c.prtN n
  nonempty : c.prtN n ≠ []

theorem semis_split (c : Codec K) (l : List K) (h : ∀ x ∈ l, c.Exact x) :
    (splitString (semis c l) ';').map c.toD = l ∧ (splitString (semis c l) ';').length = l.length := by
  unfold splitString
  induction l with
  | nil => simp [semis, splitLoop]
  | cons x l ih =>
    have hx := h x (by simp)
    cases l with
    | nil =>
      have : semis c [x] = c.prt x ++ [';'] := by simp [semis]
      rw [this, splitLoop_last_sep _ _ _ hx.noSep]
      simp [hx.backSep]
    | cons y l =>
      have e : semis c (x :: y :: l) = c.prt x ++ ';' :: semis c (y :: l) := by simp [semis]
      have hne : semis c (y :: l) ≠ [] := by simp [semis]
      have ih' := ih (fun z hz => h z (by simp [hz]))
      rw [e, splitLoop_field _ _ _ _ hx.noSep hne (by simpa using hx.nonempty)]
      simp [hx.back, ih'.1, ih'.2]

theorem readEntries_map (c : Codec K) (ds : List (List Char)) :
    readEntries c ds.length ds = some (ds.map c.toD) := by
  induction ds with
  | nil => rfl
  | cons d ds ih => rw [List.length_cons, readEntries, ih]; rfl

theorem readEntries_semis (c : Codec K) (l : List K) (h : ∀ x ∈ l, c.Exact x) (n : Nat) (hn : l.length = n) :
    readEntries c n (splitString (semis c l) ';') = some l := by
  obtain ⟨h1, h2⟩ := semis_split c l h
  rw [← hn, ← h2, readEntries_map, h1]

/-- entries are exact and as many as the dimensions say -/
structure MatExact (c : Codec K) (m : Mat K) : Prop where
  size : m.data.length = m.rows * m.cols
  rows : c.ExactN m.rows
  cols : c.ExactN m.cols
  entries : ∀ x ∈ m.data, c.Exact x

/-- **C35** (matrices): `readMatrix` inverts `writeMatrix` and leaves the rest of the file, including empty matrices. -/
theorem C35_matrix (c : Codec K) (m : Mat K) (h : MatExact c m) (rest : List (List Char)) :
    readMatrix c (writeMatrix c m ++ rest) = some (m, rest) := by
  have h1 : splitString (c.prtN m.rows ++ ';' :: c.prtN m.cols) ';' = [c.prtN m.rows, c.prtN m.cols] :=
    C35_split ';' [c.prtN m.rows, c.prtN m.cols] (by
      intro f hf
      simp only [List.mem_cons, List.not_mem_nil, or_false] at hf
      rcases hf with rfl | rfl
      · exact ⟨h.rows.nonempty, h.rows.noSep⟩
      · exact ⟨h.cols.nonempty, h.cols.noSep⟩)
  unfold readMatrix writeMatrix
  simp only [List.cons_append, List.nil_append, getline, h1, h.rows.back, h.cols.back]
  rw [readEntries_semis c m.data h.entries _ h.size]

/-- **C35** (vectors): `readVecFCL` inverts `writeVecFCL`. -/
theorem C35_vector (c : Codec K) (v : Vec3 K) (h : ∀ x ∈ [v.x, v.y, v.z], c.Exact x) (rest : List (List Char)) :
    readVec c (writeVec c v :: rest) = some (v, rest) := by
  obtain ⟨h1, h2⟩ := semis_split c [v.x, v.y, v.z] h
  unfold readVec writeVec
  simp only [getline]
  match hs : splitString (semis c [v.x, v.y, v.z]) ';' with
  | [] => rw [hs] at h2; simp at h2
  | [a] => rw [hs] at h2; simp at h2
  | [a, b] => rw [hs] at h2; simp at h2
  | a :: b :: d :: e =>
    rw [hs] at h1
    simp only [List.map_cons, List.cons.injEq] at h1
    simp only [h1.1, h1.2.1, h1.2.2.1]

/-- **C35** (rotations): `readRotMatrixFCL` inverts `writeRotMatrixFCL`. -/
theorem C35_rotation (c : Codec K) (m : List K) (hl : m.length = 9) (h : ∀ x ∈ m, c.Exact x) (rest : List (List Char)) :
    readRot c (writeRot c m :: rest) = some (m, rest) := by
  unfold readRot writeRot
  simp only [getline]
  rw [readEntries_semis c m h 9 hl]

/-! ## C34 -/

/-- every number of the sample is printed exactly -/
structure SampleExact (c : Codec K) (s : Sample K) : Prop where
  ints : c.ExactN s.id ∧ c.ExactN s.length ∧ c.ExactN s.startRank
  static : c.Exact s.staticValue
  pos : ∀ x ∈ [s.effectorPosition.x, s.effectorPosition.y, s.effectorPosition.z], c.Exact x
  pos' : ∀ x ∈ [s.effectorPositionInLimbFrame.x, s.effectorPositionInLimbFrame.y, s.effectorPositionInLimbFrame.z],
    c.Exact x
  conf : MatExact c ⟨s.configuration.length, 1, s.configuration⟩
  jac : MatExact c s.jacobian
  prod : MatExact c s.jacobianProduct

theorem readSample_write (c : Codec K) (s : Sample K) (h : SampleExact c s) (rest : List (List Char)) :
    readSample c ((writeSample c s).tail ++ rest) = some (s, rest) := by
  have hb : readBody c (writeVec c s.effectorPosition :: writeVec c s.effectorPositionInLimbFrame ::
      (writeMatrix c ⟨s.configuration.length, 1, s.configuration⟩ ++ (writeMatrix c s.jacobian ++
        (writeMatrix c s.jacobianProduct ++ rest)))) =
      some ((s.effectorPosition, s.effectorPositionInLimbFrame, ⟨s.configuration.length, 1, s.configuration⟩,
        s.jacobian, s.jacobianProduct), rest) := by
    unfold readBody
    rw [C35_vector c _ h.pos]
    simp only [Option.bind_some]
    rw [C35_vector c _ h.pos']
    simp only [Option.bind_some]
    rw [C35_matrix c _ h.conf]
    simp only [Option.bind_some]
    rw [C35_matrix c _ h.jac]
    simp only [Option.bind_some]
    rw [C35_matrix c _ h.prod]
    simp only [Option.bind_some]
  unfold readSample readHeader writeSample
  simp only [List.cons_append, List.nil_append, List.tail_cons, getline, List.append_assoc]
  rw [hb]
  simp only [h.ints.1.back, h.ints.2.1.back, h.ints.2.2.back, h.static.back]

theorem readValueLoop_map (c : Codec K) (l : List K) (h : ∀ x ∈ l, c.Exact x) (rest : List (List Char)) :
    readValueLoop c l.length (l.map c.prt ++ rest) = (l, rest) := by
  induction l with
  | nil => rfl
  | cons x l ih =>
    rw [List.length_cons, readValueLoop, List.map_cons, List.cons_append]
    simp only [getline]
    rw [ih (fun y hy => h y (by simp [hy])), (h x (by simp)).back]

theorem loadLoop_samples (c : Codec K) (nameOf : List Char → N) (lv : Bool) (size : Nat) (ss : List (Sample K))
    (h : ∀ s ∈ ss, SampleExact c s) (fuel : Nat) (rest : List (List Char)) (acc : List (Sample K) × AMap N (List K))
    (hf : ss.length ≤ fuel) :
    loadLoop c nameOf lv size fuel (ss.flatMap (writeSample c) ++ rest) acc =
      loadLoop c nameOf lv size (fuel - ss.length) rest (acc.1 ++ ss, acc.2) := by
  induction ss generalizing fuel acc with
  | nil => simp
  | cons s ss ih =>
    cases fuel with
    | zero => simp at hf
    | succ fuel =>
      have e : (s :: ss).flatMap (writeSample c) ++ rest = "sample".toList ::
          ((writeSample c s).tail ++ (ss.flatMap (writeSample c) ++ rest)) := by
        rw [List.flatMap_cons, List.append_assoc]; rfl
      rw [e, loadLoop, if_pos (List.infix_refl _), readSample_write c s (h s (by simp))]
      simp only
      rw [ih (fun t ht => h t (by simp [ht])) fuel _ (by simpa using hf)]
      simp

theorem loadLoop_values (c : Codec K) (nameLine : N → List Char) (nameOf : List Char → N)
    (hname : ∀ n, nameOf (nameLine n) = n) (size : Nat) (vs : AMap N (List K)) (hw : AMap.WF vs)
    (h : ∀ p ∈ vs, p.2.length = size ∧ ∀ x ∈ p.2, c.Exact x) (fuel : Nat)
    (acc : List (Sample K) × AMap N (List K)) (hacc : ∀ j ∈ AMap.keys acc.2, ∀ k ∈ AMap.keys vs, j < k)
    (hf : 2 * vs.length ≤ fuel) :
    loadLoop c nameOf true size fuel (vs.flatMap (writeValue c nameLine)) acc = some (acc.1, acc.2 ++ vs) := by
  induction vs generalizing fuel acc with
  | nil => cases fuel <;> simp [loadLoop]
  | cons p vs ih =>
    obtain ⟨n, v⟩ := p
    match fuel, hf with
    | 0, hf => simp at hf
    | 1, hf => simp at hf; omega
    | fuel + 2, hf =>
      obtain ⟨h1, h2⟩ := h (n, v) (by simp)
      simp only at h1 h2
      have e : ((n, v) :: vs).flatMap (writeValue c nameLine) = "value".toList :: nameLine n ::
          (v.map c.prt ++ ([] :: vs.flatMap (writeValue c nameLine))) := by
        simp [writeValue, List.flatMap_cons]
      rw [e, loadLoop, if_neg (by decide), if_pos ⟨List.infix_refl _, rfl⟩]
      simp only [getline]
      rw [← h1, readValueLoop_map c v h2]
      simp only
      rw [loadLoop, if_neg (by decide), if_neg (by decide), hname]
      rw [insertNew_append _ n _ (fun j hj => hacc j hj n (by simp)), h1]
      rw [AMap.WF_cons] at hw
      rw [ih hw.2 (fun p hp => h p (by simp [hp])) fuel _ ?_ (by simp at hf; omega)]
      · simp
      · intro j hj k hk
        simp only [AMap.keys, List.map_append, List.mem_append, List.map_cons, List.map_nil, List.mem_singleton] at hj
        rcases hj with hj | rfl
        · exact hacc j hj k (by simp [hk])
        · exact hw.1 k hk

theorem writeSamples_length (c : Codec K) (ss : List (Sample K)) :
    (ss.flatMap (writeSample c)).length = 13 * ss.length := by
  induction ss with
  | nil => rfl
  | cons s ss ih => rw [List.flatMap_cons, List.length_append, ih]; simp [writeSample, writeMatrix]; omega

theorem writeValues_length (c : Codec K) (nameLine : N → List Char) (vs : AMap N (List K)) :
    2 * vs.length ≤ (vs.flatMap (writeValue c nameLine)).length := by
  induction vs with
  | nil => simp
  | cons p vs ih => rw [List.flatMap_cons, List.length_append]; simp [writeValue]; omega

/-- every number of the database is printed exactly and its values cover the samples -/
structure DbExact (c : Codec K) (db : SampleDB N K) : Prop where
  size : c.ExactN db.samples.length
  resolution : c.Exact db.resolution
  samples : ∀ s ∈ db.samples, SampleExact c s
  valuesWF : AMap.WF db.values
  values : ∀ p ∈ db.values, p.2.length = db.samples.length ∧ ∀ x ∈ p.2, c.Exact x

/-- Reading back a saved database: resolution, samples, values are recovered; then the samples are re-aligned with
the voxels of a freshly built octree. -/
theorem load_save (c : Codec K) (nameLine : N → List Char) (nameOf : List Char → N)
    (hname : ∀ n, nameOf (nameLine n) = n) (newOctree : List (Sample K) → K → Vec3 K → ℤ) (db : SampleDB N K)
    (h : DbExact c db) :
    loadDB c nameOf true newOctree (saveLimbDatabase c nameLine db) =
      align ⟨db.resolution, db.samples, newOctree db.samples db.resolution, db.values, [], []⟩ := by
  unfold loadDB saveLimbDatabase
  simp only [List.cons_append, List.nil_append, getline, h.size.back, h.resolution.back]
  rw [loadLoop_samples c nameOf true _ db.samples h.samples _ _ _
    (by rw [List.length_append, writeSamples_length]; omega)]
  rw [loadLoop_values c nameLine nameOf hname _ db.values h.valuesWF h.values _ _ (by simp)
    (by rw [List.length_append, writeSamples_length]; have := writeValues_length c nameLine db.values; omega)]
  simp

/-! ### alignment of an aligned database -/

/-- the database a construction, sort or load with this voxel function leaves behind -/
def AlignedWith (voxelOf : Vec3 K → ℤ) (db : SampleDB N K) : Prop :=
  ∃ db0 : SampleDB N K, db0.voxelOf = voxelOf ∧ (∀ p ∈ db0.values, p.2.length = db0.samples.length) ∧ align db0 = some db

theorem voxelsOf_mem {voxelOf : Vec3 K → ℤ} {l : List (Sample K)} {v : ℤ} :
    v ∈ voxelsOf voxelOf l ↔ v ∈ l.map (fun s => voxelOf s.effectorPosition) := by
  unfold voxelsOf
  rw [perVoxel_keys]
  constructor
  · intro hne
    obtain ⟨r, hr⟩ := List.exists_mem_of_ne_nil _ hne
    obtain ⟨s, h1, h2⟩ := mem_ranks0.1 hr
    exact List.mem_map.2 ⟨s, List.mem_of_getElem? h1, h2⟩
  · intro h
    obtain ⟨s, h1, h2⟩ := List.mem_map.1 h
    obtain ⟨i, hi⟩ := List.mem_iff_getElem?.1 h1
    exact List.ne_nil_of_mem (mem_ranks0.2 ⟨s, hi, h2⟩)

theorem ranksFrom_length (voxelOf : Vec3 K → ℤ) (v : ℤ) (k : Nat) (l : List (Sample K)) :
    (ranksFrom voxelOf v k l).length = (l.map (fun s => voxelOf s.effectorPosition)).count v := by
  induction l generalizing k with
  | nil => rfl
  | cons s l ih =>
    rw [ranksFrom_cons, List.map_cons, List.count_cons]
    by_cases h : voxelOf s.effectorPosition = v
    · simp [ih, h]
    · simp [ih, h]

theorem ranges_congr (f g : ℤ → List Nat) (h : ∀ v, (f v).length = (g v).length) (k : Nat) (vs : List ℤ) :
    ranges f k vs = ranges g k vs := by
  induction vs generalizing k with
  | nil => rfl
  | cons v vs ih => rw [ranges, ranges, h v, ih]

theorem sorted_eq_of_mem {a b : List ℤ} (ha : a.Pairwise (· < ·)) (hb : b.Pairwise (· < ·)) (h : ∀ v, v ∈ a ↔ v ∈ b) :
    a = b := by
  have hp : a.Perm b := (List.perm_ext_iff_of_nodup (ha.imp (fun h => h.ne)) (hb.imp (fun h => h.ne))).2 h
  exact hp.eq_of_pairwise (fun x y _ _ h1 h2 => absurd (lt_trans h1 h2) (lt_irrefl _)) ha hb

theorem relabel_voxels (voxelOf : Vec3 K → ℤ) (l : List (Sample K)) (k : Nat) (order : List Nat) :
    (relabel l k order).map (fun s => voxelOf s.effectorPosition) =
      (order.filterMap (l[·]?)).map (fun s => voxelOf s.effectorPosition) := by
  have := congrArg (List.map (fun s => voxelOf s.effectorPosition)) (relabel_anon l k order)
  simp only [List.map_map] at this
  exact this

/-- along an aligned database the voxel identifiers do not decrease -/
theorem aligned_sorted (voxelOf : Vec3 K → ℤ) (l : List (Sample K)) :
    ((relabel l 0 (newOrder voxelOf l)).map (fun s => voxelOf s.effectorPosition)).Pairwise (· ≤ ·) := by
  rw [relabel_voxels]
  unfold newOrder
  have hvs := voxelsOf_sorted voxelOf l
  generalize voxelsOf voxelOf l = vs at hvs
  induction vs with
  | nil => simp
  | cons v vs ih =>
    rw [List.pairwise_cons] at hvs
    rw [List.flatMap_cons, List.filterMap_append, List.map_append, List.pairwise_append]
    have hblock : ∀ w, ∀ x ∈ ((ranksFrom voxelOf w 0 l).filterMap (l[·]?)).map (fun s => voxelOf s.effectorPosition),
        x = w := by
      intro w x hx
      obtain ⟨s, hs, rfl⟩ := List.mem_map.1 hx
      obtain ⟨r, hr, hrs⟩ := List.mem_filterMap.1 hs
      obtain ⟨s', h1, h2⟩ := mem_ranks0.1 hr
      rw [hrs] at h1; cases h1; exact h2
    refine ⟨?_, ih hvs.2, ?_⟩
    · rw [List.pairwise_iff_forall_sublist]
      intro a b hab
      have ha := hblock v a (hab.subset (by simp))
      have hb := hblock v b (hab.subset (by simp))
      omega
    · intro a ha b hb
      rw [hblock v a ha]
      obtain ⟨s, hs, rfl⟩ := List.mem_map.1 hb
      obtain ⟨r, hr, hrs⟩ := List.mem_filterMap.1 hs
      obtain ⟨w, hw, hr⟩ := List.mem_flatMap.1 hr
      obtain ⟨s', h1, h2⟩ := mem_ranks0.1 hr
      rw [hrs] at h1; cases h1
      rw [h2]; exact (hvs.1 w hw).le

/-- on a database whose voxel identifiers do not decrease, the new order is the old one -/
theorem newOrder_of_sorted (voxelOf : Vec3 K → ℤ) (l : List (Sample K))
    (hs : (l.map (fun s => voxelOf s.effectorPosition)).Pairwise (· ≤ ·)) :
    newOrder voxelOf l = List.range l.length := by
  have hp := newOrder_perm voxelOf l
  refine hp.eq_of_pairwise (le := (· < ·)) (fun x y _ _ h1 h2 => absurd (lt_trans h1 h2) (lt_irrefl _)) ?_ List.pairwise_lt_range
  unfold newOrder
  rw [List.pairwise_flatMap]
  refine ⟨fun v _ => ranksFrom_sorted voxelOf v 0 l, ?_⟩
  refine (voxelsOf_sorted voxelOf l).imp ?_
  intro v w hvw r hr r' hr'
  obtain ⟨s, h1, h2⟩ := mem_ranks0.1 hr
  obtain ⟨s', h3, h4⟩ := mem_ranks0.1 hr'
  by_contra hc
  have hlt : r' < r := by
    rcases Nat.lt_or_ge r' r with h | h
    · exact h
    · have : r = r' := by omega
      subst this; rw [h1] at h3; cases h3; omega
  obtain ⟨hr1, e1⟩ := List.getElem?_eq_some_iff.1 h1
  obtain ⟨hr2, e2⟩ := List.getElem?_eq_some_iff.1 h3
  have := List.pairwise_iff_getElem.1 hs r' r (by simpa using hr2) (by simpa using hr1) hlt
  simp only [List.getElem_map, e1, e2, h2, h4] at this
  omega

theorem relabel_range (l : List (Sample K)) (hids : ∀ i (s : Sample K), l[i]? = some s → s.id = i) :
    relabel l 0 (List.range l.length) = l := by
  refine List.ext_getElem? (fun i => ?_)
  rw [relabel_get l 0 _ (fun r hr => List.mem_range.1 hr)]
  by_cases hi : i < l.length
  · rw [List.getElem?_eq_getElem hi, List.getElem?_range hi]
    simp only [Option.bind_some, List.getElem?_eq_getElem hi, Option.map_some, Option.some.injEq, Nat.zero_add]
    have := hids i l[i] (List.getElem?_eq_getElem hi)
    generalize l[i] = s at this
    cases s; simp only at this; subst this; rfl
  · rw [List.getElem?_eq_none (l := l) (by omega), List.getElem?_eq_none (l := List.range l.length) (by
      rw [List.length_range]; omega)]; rfl

/-- aligning twice with the same voxels changes nothing -/
theorem align_idem (db0 db : SampleDB N K) (hv : ∀ p ∈ db0.values, p.2.length = db0.samples.length)
    (h : align db0 = some db) : align db = some db := by
  obtain ⟨db', h1, h2, h3, h4⟩ := C29_octree_partition db0 hv
  rw [h] at h1; cases h1
  have hdb := h
  rw [align_eq db0 hv] at hdb
  have hs : db.samples = relabel db0.samples 0 (newOrder db0.voxelOf db0.samples) := by cases hdb; rfl
  have hvx : db.samplesInVoxels = ranges (fun v => ranksFrom db0.voxelOf v 0 db0.samples) 0
      (voxelsOf db0.voxelOf db0.samples) := by cases hdb; rfl
  have hsort : (db.samples.map (fun s => db.voxelOf s.effectorPosition)).Pairwise (· ≤ ·) := by
    rw [h3, hs]; exact aligned_sorted _ _
  have hperm : (db.samples.map (fun s => db.voxelOf s.effectorPosition)).Perm
      (db0.samples.map (fun s => db0.voxelOf s.effectorPosition)) := by
    have := h2.perm.map (fun s : Sample K => db0.voxelOf s.effectorPosition)
    simp only [List.map_map] at this
    rw [h3]; exact this
  rw [align_eq db h4, newOrder_of_sorted _ _ hsort, relabel_range _ h2.ids]
  have hval : db.values.map (fun p => (p.1, (List.range db.samples.length).filterMap (p.2[·]?))) = db.values := by
    conv_rhs => rw [← List.map_id db.values]
    refine List.map_congr_left (fun p hp => ?_)
    rw [← h4 p hp, range_filterMap]; rfl
  have hvox : ranges (fun v => ranksFrom db.voxelOf v 0 db.samples) 0 (voxelsOf db.voxelOf db.samples) =
      db.samplesInVoxels := by
    have e : voxelsOf db.voxelOf db.samples = voxelsOf db0.voxelOf db0.samples :=
      sorted_eq_of_mem (voxelsOf_sorted _ _) (voxelsOf_sorted _ _)
        (fun v => by rw [voxelsOf_mem, voxelsOf_mem]; exact hperm.mem_iff)
    rw [hvx, e]
    refine ranges_congr _ _ (fun v => ?_) _ _
    rw [ranksFrom_length, ranksFrom_length]; exact hperm.count_eq v
  rw [hval, hvox]

/-- **C34, partial**: loading a saved database gives back the same resolution, the same samples in the same order, the
same voxel table and the same values, provided every number is printed exactly and the new octree numbers its voxels
as the old one.  Missing: these two provisos and the value bounds, see `C34_order_violated`, `C34_bounds_violated`. -/
theorem C34_roundtrip_partial (c : Codec K) (nameLine : N → List Char) (nameOf : List Char → N)
    (hname : ∀ n, nameOf (nameLine n) = n) (newOctree : List (Sample K) → K → Vec3 K → ℤ) (db : SampleDB N K)
    (h : DbExact c db) (hal : AlignedWith db.voxelOf db) (hoct : newOctree db.samples db.resolution = db.voxelOf) :
    ∃ db', loadDB c nameOf true newOctree (saveLimbDatabase c nameLine db) = some db' ∧
      db'.resolution = db.resolution ∧ db'.samples = db.samples ∧ db'.samplesInVoxels = db.samplesInVoxels ∧
      db'.values = db.values ∧ db'.voxelOf = db.voxelOf := by
  obtain ⟨db0, h1, h2, h3⟩ := hal
  have h4 := align_idem db0 db h2 h3
  rw [load_save c nameLine nameOf hname newOctree db h, hoct]
  rw [align_eq db (fun p hp => (h.values p hp).1)] at h4
  rw [align_eq ⟨db.resolution, db.samples, db.voxelOf, db.values, [], []⟩ (fun p hp => (h.values p hp).1)]
  simp only [Option.some.injEq] at h4
  refine ⟨_, rfl, rfl, ?_, ?_, ?_, rfl⟩
  · have e := congrArg (fun d => d.samples) h4; exact e
  · have e := congrArg (fun d => d.samplesInVoxels) h4; exact e
  · have e := congrArg (fun d => d.values) h4; exact e

/-- **C34** (any voxel numbering): the loaded samples are a permutation of the saved ones, partitioned by the new
voxels, and every value stays with its sample. -/
theorem C34_any_octree [Field K] [LinearOrder K] [IsStrictOrderedRing K] (c : Codec K) (nameLine : N → List Char) (nameOf : List Char → N)
    (hname : ∀ n, nameOf (nameLine n) = n) (newOctree : List (Sample K) → K → Vec3 K → ℤ) (db : SampleDB N K)
    (h : DbExact c db) :
    ∃ db', loadDB c nameOf true newOctree (saveLimbDatabase c nameLine db) = some db' ∧
      db'.resolution = db.resolution ∧
      Partition (newOctree db.samples db.resolution) db.samples db'.samples db'.samplesInVoxels ∧
      ∀ name g, OnPayload g → Attached db name g → Attached db' name g := by
  rw [load_save c nameLine nameOf hname newOctree db h]
  obtain ⟨db', h1, h2, -, -⟩ := C29_octree_partition
    ⟨db.resolution, db.samples, newOctree db.samples db.resolution, db.values, [], []⟩ (fun p hp => (h.values p hp).1)
  refine ⟨db', h1, ?_, h2, ?_⟩
  · rw [align_eq ⟨db.resolution, db.samples, newOctree db.samples db.resolution, db.values, [], []⟩
      (fun p hp => (h.values p hp).1)] at h1
    cases h1; rfl
  · intro name g hg ha
    exact align_attached hg (db := ⟨db.resolution, db.samples, newOctree db.samples db.resolution, db.values, [], []⟩)
      (fun p hp => (h.values p hp).1) ha h1

/-- numbers of the limb header -/
structure LimbExact (c : Codec K) (l : Limb N K) : Prop where
  rot : l.effectorDefaultRotation.length = 9 ∧ ∀ x ∈ l.effectorDefaultRotation, c.Exact x
  offset : ∀ x ∈ [l.offset.x, l.offset.y, l.offset.z], c.Exact x
  normal : ∀ x ∈ [l.normal.x, l.normal.y, l.normal.z], c.Exact x
  xy : c.Exact l.x ∧ c.Exact l.y
  contactType : c.ExactN l.contactType
  db : DbExact c l.sampleContainer

/-- **C34** (limb files): all header fields are read back, except the limb offset, which is not in the file and is left
uninitialised. -/
theorem C34_limb_partial (c : Codec K) (nameLine : N → List Char) (nameOf : List Char → N)
    (hname : ∀ n, nameOf (nameLine n) = n) (newOctree : List (Sample K) → K → Vec3 K → ℤ) (l : Limb N K)
    (h : LimbExact c l) (hal : AlignedWith l.sampleContainer.voxelOf l.sampleContainer)
    (hoct : newOctree l.sampleContainer.samples l.sampleContainer.resolution = l.sampleContainer.voxelOf) :
    ∃ db', loadLimb c nameOf true newOctree (saveLimb c nameLine l) =
        some { l with limbOffset := none, sampleContainer := db' } ∧
      db'.resolution = l.sampleContainer.resolution ∧ db'.samples = l.sampleContainer.samples ∧
      db'.samplesInVoxels = l.sampleContainer.samplesInVoxels ∧ db'.values = l.sampleContainer.values ∧
      db'.voxelOf = l.sampleContainer.voxelOf := by
  obtain ⟨db', h1, h2⟩ := C34_roundtrip_partial c nameLine nameOf hname newOctree l.sampleContainer h.db hal hoct
  refine ⟨db', ?_, h2⟩
  unfold loadLimb saveLimb
  simp only [List.cons_append, List.nil_append, getline]
  rw [C35_rotation c _ h.rot.1 h.rot.2]
  simp only [Option.bind_some]
  rw [C35_vector c _ h.offset]
  simp only [Option.bind_some]
  rw [C35_vector c _ h.normal]
  simp only [Option.bind_some, h1, h.xy.1.back, h.xy.2.back, h.contactType.back]

/-! ## Concrete cases -/

/-- unary numbers -/
def demoCodec : Codec Nat where
  prt n := '1' :: List.replicate n '1'
  toD s := s.count '1' - 1
  prtN n := '1' :: List.replicate n '1'
  toI s := s.count '1' - 1

theorem demo_exact (n : Nat) : demoCodec.Exact n := by
  refine ⟨?_, ?_, ?_, by simp [demoCodec]⟩
  · simp [demoCodec]
  · simp [demoCodec, List.count_append]
  · simp [demoCodec, List.mem_replicate]

theorem demo_exactN (n : Nat) : demoCodec.ExactN n := by
  refine ⟨?_, ?_, by simp [demoCodec]⟩
  · simp [demoCodec]
  · simp [demoCodec, List.mem_replicate]

/-- a sample at abscissa `x` -/
def natSample (x i : Nat) : Sample Nat := ⟨0, 1, [x], ⟨x, 0, 0⟩, ⟨x, 1, 0⟩, ⟨1, 2, [3, x]⟩, ⟨0, 0, []⟩, i, x⟩

/-- a database of two samples in different voxels, with one value; the voxels are numbered by `voxelOf` -/
def natDb (voxelOf : Vec3 Nat → ℤ) : SampleDB Nat Nat :=
  ⟨2, [natSample 4 0, natSample 5 1], voxelOf, [(3, [8, 9])], [(3, (8, 9))], []⟩

theorem natDb_exact (v : Vec3 Nat → ℤ) (db : SampleDB Nat Nat) (h : align (natDb v) = some db)
    : DbExact demoCodec db := by
  have hs : ∀ s : Sample Nat, s.jacobian = ⟨1, 2, s.jacobian.data⟩ → s.jacobian.data.length = 2 →
      s.jacobianProduct = ⟨0, 0, []⟩ → SampleExact demoCodec s := by
    intro s h1 h2 h3
    refine ⟨⟨demo_exactN _, demo_exactN _, demo_exactN _⟩, demo_exact _, fun x _ => demo_exact x, fun x _ => demo_exact x,
      ⟨by simp, demo_exactN _, demo_exactN _, fun x _ => demo_exact x⟩, ?_, ?_⟩
    · rw [h1]; exact ⟨by simpa using h2, demo_exactN _, demo_exactN _, fun x _ => demo_exact x⟩
    · rw [h3]; exact ⟨by simp, demo_exactN _, demo_exactN _, fun x _ => demo_exact x⟩
  have hv : ∀ p ∈ (natDb v).values, p.2.length = (natDb v).samples.length := by simp [natDb]
  obtain ⟨db', h1, h2, h3, h4⟩ := C29_octree_partition (natDb v) hv
  rw [h] at h1; cases h1
  rw [align_eq _ hv] at h
  refine ⟨demo_exactN _, demo_exact _, ?_, ?_, fun p hp => ⟨h4 p hp, fun x _ => demo_exact x⟩⟩
  · intro s hs'
    have := h2.perm.mem_iff.1 (List.mem_map.2 ⟨s, hs', rfl⟩)
    obtain ⟨t, ht, hts⟩ := List.mem_map.1 this
    have e1 : t.jacobian = s.jacobian := congrArg (fun s => s.jacobian) hts
    have e2 : t.jacobianProduct = s.jacobianProduct := congrArg (fun s => s.jacobianProduct) hts
    simp only [natDb, List.mem_cons, List.not_mem_nil, or_false] at ht
    rcases ht with rfl | rfl <;> exact hs s (by rw [← e1]; rfl) (by rw [← e1]; rfl) (by rw [← e2]; rfl)
  · cases h; unfold AMap.WF; simp [natDb]

/-- non-vacuity of `C34_roundtrip_partial` -/
example : ∃ db, align (natDb (fun p => (p.x : ℤ))) = some db ∧ DbExact demoCodec db ∧ AlignedWith db.voxelOf db ∧
    db.samples.length = 2 := by
  obtain ⟨db, h1, h2, h3, -⟩ := C29_octree_partition (natDb (fun p => (p.x : ℤ))) (by simp [natDb])
  refine ⟨db, h1, natDb_exact _ db h1, ⟨natDb (fun p => (p.x : ℤ)), h3.symm, by simp [natDb], h1⟩, ?_⟩
  have := h2.perm.length_eq
  simpa [natDb] using this

/-- **C34 is violated** when the new octree places its nodes differently in memory: voxel identifiers are address
differences, the order of the voxels may change, and with it the order of the samples. -/
theorem C34_order_violated : ∃ db db', align (natDb (fun p => (p.x : ℤ))) = some db ∧ DbExact demoCodec db ∧
    loadDB demoCodec demoCodec.toI true (fun _ _ p => -(p.x : ℤ)) (saveLimbDatabase demoCodec demoCodec.prtN db) =
      some db' ∧ db'.samples ≠ db.samples := by
  obtain ⟨db, h1, h2, h3, -⟩ := C29_octree_partition (natDb (fun p => (p.x : ℤ))) (by simp [natDb])
  have hx := natDb_exact _ db h1
  have hl := load_save demoCodec demoCodec.prtN demoCodec.toI (fun n => (demo_exactN n).back)
    (fun _ _ p => -(p.x : ℤ)) db hx
  obtain ⟨db', h4, -, -, -⟩ := C29_octree_partition
    ⟨db.resolution, db.samples, fun p => -(p.x : ℤ), db.values, [], []⟩ (fun p hp => (hx.values p hp).1)
  refine ⟨db, db', h1, hx, by rw [hl]; exact h4, ?_⟩
  have e1 : (align (natDb (fun p => (p.x : ℤ)))).map (fun d => d.samples.map (fun s => s.effectorPosition.x)) =
      some [4, 5] := by decide +kernel
  have e2 : (align (natDb (fun p => (p.x : ℤ)))).bind (fun d => (align
      ⟨d.resolution, d.samples, fun p => -(p.x : ℤ), d.values, [], []⟩).map
        (fun d => d.samples.map (fun s => s.effectorPosition.x))) = some [5, 4] := by decide +kernel
  rw [h1] at e1 e2
  simp only [Option.bind_some, h4, Option.map_some, Option.some.injEq] at e1 e2
  intro hc
  rw [hc, e1] at e2
  simp at e2

/-- **C34 is violated** for the bounds of the raw values: they are not in the file and the loaded database has none. -/
theorem C34_bounds_violated (c : Codec K) (nameOf : List Char → N) (lv : Bool)
    (newOctree : List (Sample K) → K → Vec3 K → ℤ) (file : List (List Char)) (db' : SampleDB N K)
    (h : loadDB c nameOf lv newOctree file = some db') : db'.valueBounds = [] := by
  unfold loadDB at h
  simp only at h
  split at h
  · simp at h
  · unfold align at h
    simp only at h
    split at h
    · simp at h
    · split at h
      · simp at h
      · cases h; rfl

/-- **C34 is violated** when values are not loaded and a value's name contains the word "sample": the name line is taken
for the start of a sample and the constructor reads outside a vector. -/
theorem C34_skip_values_violated : ∃ nameLine : Nat → List Char,
    loadDB demoCodec (fun _ => 0) false (fun _ _ _ => 0)
      (saveLimbDatabase demoCodec nameLine (⟨1, [], fun _ => 0, [(0, [])], [], []⟩ : SampleDB Nat Nat)) = none ∧
    (loadDB demoCodec (fun _ => 0) true (fun _ _ _ => 0)
      (saveLimbDatabase demoCodec nameLine (⟨1, [], fun _ => 0, [(0, [])], [], []⟩ : SampleDB Nat Nat))).isSome := by
  refine ⟨fun _ => "sampleQuality".toList, ?_, by decide +kernel⟩
  rw [← Option.isNone_iff_eq_none]; decide +kernel

end IO
end Rbprm
