import Verif.Model.Octree
import Verif.Props.Candidates
import Mathlib.Data.List.Dedup
import Mathlib.Data.Rat.Floor
import Mathlib.Algebra.Order.Floor.Ring
import Mathlib.Tactic.Linarith
import Mathlib.Tactic.Ring
import Mathlib.Tactic.FieldSimp
set_option linter.unusedSectionVars false
/-!
# C160, C161: the octree of a sample database and its boxes
-/
namespace Rbprm
namespace Octree
variable {K : Type _} [Field K] [LinearOrder K] [IsStrictOrderedRing K] [FloorRing K]

/-- the leaves are different nodes, none of them is null, and the addresses are those of a 64 bit machine -/
structure Addresses (t : Tree K) : Prop where
  nodup : t.leaves.Nodup
  distinct : ∀ c ∈ t.leaves, ∀ d ∈ t.leaves, t.node c = t.node d → c = d
  notNull : ∀ c ∈ t.leaves, t.node c ≠ t.null
  range : ∀ c ∈ t.leaves, -2 ^ 63 ≤ t.node c ∧ t.node c < 2 ^ 63
  nullRange : -2 ^ 63 ≤ t.null ∧ t.null < 2 ^ 63

/-- the point is in the box (closed at its lower, open at its upper faces) -/
def InBox (b : Box K) (p : Vec3 K) : Prop :=
  (b.centre.x - b.size / 2 ≤ p.x ∧ p.x < b.centre.x + b.size / 2) ∧ (b.centre.y - b.size / 2 ≤ p.y ∧ p.y < b.centre.y + b.size / 2) ∧
    (b.centre.z - b.size / 2 ≤ p.z ∧ p.z < b.centre.z + b.size / 2)

theorem key_inj {a b : ℤ} (ha : -2 ^ 63 ≤ a ∧ a < 2 ^ 63) (hb : -2 ^ 63 ≤ b ∧ b < 2 ^ 63) (h : key a = key b) : a = b := by
  unfold key at h
  omega

theorem floor_iff {res : K} (hr : 0 < res) (x : K) (i : ℤ) : ⌊x / res⌋ = i ↔ (i + 1 / 2) * res - res / 2 ≤ x ∧ x < (i + 1 / 2) * res + res / 2 := by
  rw [Int.floor_eq_iff, le_div_iff₀ hr, div_lt_iff₀ hr]
  constructor <;> rintro ⟨h1, h2⟩ <;> constructor <;> linarith

theorem inBox_iff {res : K} (hr : 0 < res) (c : Cell) (p : Vec3 K) : InBox (boxOf res c) p ↔ cell res p = c := by
  obtain ⟨i, j, k⟩ := c
  simp only [InBox, boxOf, cell, Prod.mk.injEq, floor_iff hr]

theorem cell_centre {res : K} (hr : 0 < res) (c : Cell) : cell res (boxOf res c).centre = c := by
  rw [← inBox_iff hr]
  simp only [InBox]
  have : (boxOf res c).size = res := rfl
  rw [this]
  refine ⟨⟨?_, ?_⟩, ⟨?_, ?_⟩, ⟨?_, ?_⟩⟩ <;> linarith

theorem search_leaf (t : Tree K) (hr : 0 < t.res) {c : Cell} (hc : c ∈ t.leaves) : t.search (boxOf t.res c).centre = t.node c := by
  unfold Tree.search
  rw [cell_centre hr, if_pos hc]

theorem boxesLoop_spec (t : Tree K) (hr : 0 < t.res) (ht : Addresses t) (done todo : List Cell) (hd : t.leaves = done ++ todo) (acc : AMap ℕ (Box K))
    (hw : AMap.WF acc) (hacc : ∀ k b, acc.find? k = some b ↔ ∃ c ∈ done, k = key (t.node c) ∧ b = boxOf t.res c) :
    ∃ out, boxesLoop t (todo.map (boxOf t.res)) (acc, 0) = (out, 0) ∧ AMap.WF out ∧ ∀ k b, out.find? k = some b ↔ ∃ c ∈ t.leaves, k = key (t.node c) ∧ b = boxOf t.res c := by
  induction todo generalizing done acc with
  | nil => exact ⟨acc, rfl, hw, by simpa [hd] using hacc⟩
  | cons c todo ih =>
    have hc : c ∈ t.leaves := by rw [hd]; simp
    have hnd : c ∉ done := by
      have h1 := ht.nodup
      rw [hd] at h1
      exact fun h => (List.disjoint_of_nodup_append h1) h (by simp)
    have hkey : ∀ d ∈ done, key (t.node d) ≠ key (t.node c) := by
      intro d hdm he
      have hdl : d ∈ t.leaves := by rw [hd]; simp [hdm]
      have := ht.distinct d hdl c hc (key_inj (ht.range d hdl) (ht.range c hc) he)
      exact hnd (this ▸ hdm)
    have hnone : acc.find? (key (t.node c)) = none := by
      cases h : acc.find? (key (t.node c)) with
      | none => rfl
      | some b =>
        obtain ⟨d, hdm, he, -⟩ := (hacc _ _).1 h
        exact absurd he.symm (hkey d hdm)
    rw [List.map_cons, boxesLoop, search_leaf t hr hc]
    rw [if_neg (by simp [AMap.has, hnone])]
    refine ih (done ++ [c]) (by simpa using hd) _ (AMap.WF_insertNew hw _ _) ?_
    intro k b
    rw [AMap.find?_insertNew, hnone]
    by_cases hk : k = key (t.node c)
    · rw [if_pos hk]
      simp only [Option.getD_none, Option.some.injEq, List.mem_append, List.mem_singleton]
      constructor
      · rintro rfl; exact ⟨c, Or.inr rfl, hk, rfl⟩
      · rintro ⟨d, hdm | rfl, he, hb⟩
        · exact absurd (he.symm.trans hk) (hkey d hdm)
        · exact hb.symm
    · rw [if_neg hk, hacc]
      simp only [List.mem_append, List.mem_singleton]
      constructor
      · rintro ⟨d, hdm, h⟩; exact ⟨d, Or.inl hdm, h⟩
      · rintro ⟨d, hdm | rfl, he, hb⟩
        · exact ⟨d, hdm, he, hb⟩
        · exact absurd he hk

/-- **C160.**  Every leaf of the octree has one box, its cube, registered under the identifier of the leaf; there is no other box, and none is created and lost. -/
theorem C160_boxes (t : Tree K) (hr : 0 < t.res) (ht : Addresses t) :
    (generateBoxes t).2 = 0 ∧ ∀ k b, (generateBoxes t).1.find? k = some b ↔ ∃ c ∈ t.leaves, k = key (t.node c) ∧ b = boxOf t.res c := by
  obtain ⟨out, h1, -, h3⟩ := boxesLoop_spec t hr ht [] t.leaves rfl [] AMap.WF_nil (by simp [AMap.find?])
  unfold generateBoxes
  rw [h1]
  exact ⟨rfl, h3⟩

/-- **C160** (samples).  A position that the octree finds is in the box of its voxel and in no other; for one that it does not find there is no box. -/
theorem C160_position (t : Tree K) (hr : 0 < t.res) (ht : Addresses t) (p : Vec3 K) :
    (t.search p ≠ t.null → ∃ b, (generateBoxes t).1.find? (key (t.search p)) = some b ∧ b.size = t.res ∧ InBox b p ∧
      ∀ k b', (generateBoxes t).1.find? k = some b' → InBox b' p → k = key (t.search p)) ∧
    (t.search p = t.null → (generateBoxes t).1.find? (key (t.search p)) = none ∧ ∀ k b, (generateBoxes t).1.find? k = some b → ¬ InBox b p) := by
  obtain ⟨-, hb⟩ := C160_boxes t hr ht
  by_cases hc : cell t.res p ∈ t.leaves
  · have hs : t.search p = t.node (cell t.res p) := by unfold Tree.search; rw [if_pos hc]
    rw [hs]
    refine ⟨fun _ => ⟨boxOf t.res (cell t.res p), (hb _ _).2 ⟨_, hc, rfl, rfl⟩, rfl, (inBox_iff hr _ _).2 rfl, ?_⟩, fun h => absurd h (ht.notNull _ hc)⟩
    intro k b' h hin
    obtain ⟨d, hd, rfl, rfl⟩ := (hb _ _).1 h
    rw [(inBox_iff hr d p).1 hin]
  · have hs : t.search p = t.null := by unfold Tree.search; rw [if_neg hc]
    refine ⟨fun h => absurd hs h, fun _ => ⟨?_, ?_⟩⟩
    · rw [hs]
      cases h : (generateBoxes t).1.find? (key t.null) with
      | none => rfl
      | some b =>
        obtain ⟨d, hd, he, -⟩ := (hb _ _).1 h
        exact absurd (key_inj ht.nullRange (ht.range d hd) he).symm (ht.notNull d hd)
    · intro k b h hin
      obtain ⟨d, hd, -, rfl⟩ := (hb _ _).1 h
      exact hc ((inBox_iff hr d p).1 hin ▸ hd)

/-! ### the conversion to float -/

/-- **C161** (what is found).  The octree finds a position exactly if some position was inserted in its cell. -/
theorem C161_found (cast : Vec3 K → Vec3 K) (order : List Cell → List Cell) (ho : ∀ l, (order l).Perm l) (node : Cell → ℤ) (null : ℤ) (hn : ∀ c, node c ≠ null) (res : K) (positions : List (Vec3 K)) (p : Vec3 K) :
    (generateOctree cast order node null res positions).search p ≠ null ↔ ∃ p' ∈ positions, cell res (cast p') = cell res p := by
  have hm : ∀ c, c ∈ (generateOctree cast order node null res positions).leaves ↔ ∃ p' ∈ positions, cell res (cast p') = c := by
    intro c
    unfold generateOctree
    simp only
    rw [(ho _).mem_iff, List.mem_dedup, List.mem_map]
  unfold Tree.search
  by_cases hc : cell (generateOctree cast order node null res positions).res p ∈ (generateOctree cast order node null res positions).leaves
  · rw [if_pos hc]
    simp only [generateOctree, ne_eq, hn, not_false_iff, true_iff]
    exact (hm _).1 hc
  · rw [if_neg hc]
    simp only [generateOctree, ne_eq, not_true, false_iff]
    exact fun h => hc ((hm _).2 h)

open Sampling in
/-- **C161, partial.**  When the conversion to `float` keeps the cell of the positions of all samples, every sample of a database that was constructed is in a voxel of its octree and is a candidate for every contact with
this voxel.  Missing: positions that the conversion moves to another cell (`C161_violated`). -/
theorem C161_partial {N : Type _} [LinearOrder N] (cast : Vec3 K → Vec3 K) (order : List Cell → List Cell) (ho : ∀ l, (order l).Perm l) (node : Cell → ℤ) (null : ℤ) (hn : ∀ c, node c ≠ null)
    (big : K) (srt : List (Sample K) → List (Sample K)) (hsrt : IsSort srt) (generated : List (Sample K)) (res : K) (data : AMap N (SampleDB N K → Sample K → K)) (static : N)
    (hcast : ∀ s ∈ generated, cell res (cast s.effectorPosition) = cell res s.effectorPosition) :
    ∃ db, construct big srt generated (generateOctree cast order node null res (generated.map (·.effectorPosition))).search res data static = some db ∧
      ∀ (i : ℕ) (s : Sample K), db.samples[i]? = some s → db.voxelOf s.effectorPosition ≠ null ∧ db.voxelOf s.effectorPosition = node (cell res s.effectorPosition) ∧
        ∀ (surface : ℕ → Vec3 K × Vec3 K × Vec3 K) (normalize : Vec3 K → Vec3 K) (heuristic : Option (Sample K → Vec3 K → K)) (contacts : List OctContact) (c : OctContact), c ∈ contacts →
          c.b1 = node (cell res s.effectorPosition) → ∃ r, getCandidates db surface normalize heuristic contacts [] = some (r, true) ∧ ∃ x ∈ r, x.contact = c ∧ x.rank = i ∧ x.sample = s := by
  obtain ⟨db, before, h1, h2, h3, -, h5⟩ := C29_construct big srt hsrt generated (generateOctree cast order node null res (generated.map (·.effectorPosition))).search res data static
  refine ⟨db, h1, ?_⟩
  intro i s hs
  have hmem : ∃ s0 ∈ generated, s0.effectorPosition = s.effectorPosition := by
    have h4 := h3.mem_iff (a := s.payload)
    obtain ⟨s0, hs0, he⟩ := List.mem_map.1 (h4.1 (List.mem_map.2 ⟨s, List.mem_of_getElem? hs, rfl⟩))
    refine ⟨s0, hs0, ?_⟩
    simp only [Sample.payload] at he
    have := congrArg Sample.effectorPosition he
    exact this
  obtain ⟨s0, hs0, he⟩ := hmem
  have hne : db.voxelOf s.effectorPosition ≠ null := by
    rw [h5, C161_found cast order ho node null hn]
    exact ⟨s0.effectorPosition, List.mem_map.2 ⟨s0, hs0, rfl⟩, by rw [hcast s0 hs0, he]⟩
  have heq : db.voxelOf s.effectorPosition = node (cell res s.effectorPosition) := by
    rw [h5] at hne ⊢
    unfold Tree.search at hne ⊢
    by_cases hc : cell (generateOctree cast order node null res (generated.map (·.effectorPosition))).res s.effectorPosition ∈ (generateOctree cast order node null res (generated.map (·.effectorPosition))).leaves
    · rw [if_pos hc]; rfl
    · rw [if_neg hc] at hne; exact absurd rfl hne
  refine ⟨hne, heq, ?_⟩
  intro surface normalize heuristic contacts c hc hcb
  obtain ⟨r, k1, k2⟩ := C33_candidates (db := db) ⟨before, by rw [h5]; exact h2⟩ surface normalize heuristic contacts
  have hx : mkReport surface normalize heuristic c i s ∈ r := by
    rw [k2.perm.mem_iff, List.mem_flatMap]
    refine ⟨c, hc, ?_⟩
    unfold dueReports
    refine List.mem_map.2 ⟨(s, i), List.mem_filter.2 ⟨?_, by simp [heq, hcb]⟩, rfl⟩
    rw [List.mem_zipIdx_iff_getElem?]
    exact hs
  refine ⟨r, ?_, _, hx, rfl, rfl, rfl⟩
  rw [k1]
  cases r with
  | nil => simp at hx
  | cons a l => rfl

open Sampling in
/-- a sample that the octree does not find is never a candidate: no contact with a leaf of the octree reports it -/
theorem C161_lost {N : Type _} [LinearOrder N] (db : SampleDB N K) (hdb : Indexed db) (t : Tree K) (ht : Addresses t) (hv : db.voxelOf = t.search) (i : ℕ) (s : Sample K) (hs : db.samples[i]? = some s)
    (hlost : t.search s.effectorPosition = t.null) (surface : ℕ → Vec3 K × Vec3 K × Vec3 K) (normalize : Vec3 K → Vec3 K) (f : Sample K → Vec3 K → K) (contacts : List OctContact)
    (hc : ∀ c ∈ contacts, ∃ l ∈ t.leaves, c.b1 = t.node l) (r : List (OctreeReport K)) (b : Bool) (h : getCandidates db surface normalize (some f) contacts [] = some (r, b)) :
    ∀ x ∈ r, x.rank ≠ i := by
  intro x hx he
  obtain ⟨h1, h2, h3, -⟩ := C33_report_contents hdb surface normalize f contacts r b h x hx
  rw [he, hs] at h2
  cases h2
  rw [hv, hlost] at h3
  obtain ⟨l, hl, hb⟩ := hc _ h1
  exact ht.notNull l hl (by rw [← hb, ← h3])

/-- the conversion to `float` of the numbers between 1/16 and 1/8: multiples of 2⁻²⁷ -/
def toFloat (x : ℚ) : ℚ := (⌊x * 2 ^ 27 + 1 / 2⌋ : ℤ) / 2 ^ 27

/-- the conversion of a position -/
def castDemo (p : Vec3 ℚ) : Vec3 ℚ := ⟨toFloat p.x, toFloat p.y, toFloat p.z⟩

/-- addresses: one per cell of a small region -/
def nodeDemo (c : Cell) : ℤ := if 0 ≤ c.1 then 1 + c.1 else c.1

/-- the position of a sample just below the face x = 0.1 of the cells of 10 cm -/
def lowPosition : Vec3 ℚ := ⟨999999999 / 10000000000, 7 / 100, 7 / 100⟩

/-- its octree -/
def treeDemo : Tree ℚ := generateOctree castDemo id nodeDemo 0 (1 / 10) [lowPosition]

theorem nodeDemo_ne (c : Cell) : nodeDemo c ≠ 0 := by
  unfold nodeDemo
  split <;> omega

/-- **C161 is violated** by a position just below a face of the grid: the conversion to `float` moves it to the next cell, and the position itself is not found: the only sample of the database is in no
voxel of its octree, and no contact can report it. -/
theorem C161_violated : Addresses treeDemo ∧ treeDemo.leaves = [(1, 0, 0)] ∧ cell (1 / 10) lowPosition = (0, 0, 0) ∧ treeDemo.search lowPosition = treeDemo.null ∧
    ∀ (s : Sampling.Sample ℚ) (_ : s.effectorPosition = lowPosition) (db : Sampling.SampleDB ℕ ℚ) (_ : Sampling.Indexed db) (_ : db.voxelOf = treeDemo.search) (_ : db.samples = [s])
      (surface : ℕ → Vec3 ℚ × Vec3 ℚ × Vec3 ℚ) (normalize : Vec3 ℚ → Vec3 ℚ) (f : Sampling.Sample ℚ → Vec3 ℚ → ℚ) (contacts : List Sampling.OctContact),
      (∀ c ∈ contacts, ∃ l ∈ treeDemo.leaves, c.b1 = treeDemo.node l) → Sampling.getCandidates db surface normalize (some f) contacts [] = some ([], false) := by
  have hl : treeDemo.leaves = [(1, 0, 0)] := by decide +kernel
  have hA : Addresses treeDemo := by
    refine ⟨by rw [hl]; simp, ?_, fun c _ => nodeDemo_ne c, ?_, by decide⟩
    · rw [hl]; simp
    · rw [hl]; simp only [List.mem_singleton, forall_eq]; decide
  have hs : treeDemo.search lowPosition = treeDemo.null := by decide +kernel
  refine ⟨hA, hl, by decide +kernel, hs, ?_⟩
  intro s he db hdb hv hd surface normalize f contacts hc
  obtain ⟨r, k1, k2⟩ := Sampling.C33_candidates hdb surface normalize (some f) contacts
  have hr : r = [] := by
    cases r with
    | nil => rfl
    | cons x l =>
      obtain ⟨-, h2, -⟩ := Sampling.C33_report_contents hdb surface normalize f contacts _ _ k1 x (by simp)
      have hx := C161_lost db hdb treeDemo hA hv 0 s (by rw [hd]; rfl) (by rw [he]; exact hs) surface normalize f contacts hc _ _ k1 x (by simp)
      rw [hd] at h2
      have : x.rank = 0 := by
        by_contra h0
        obtain ⟨n, hn⟩ := Nat.exists_eq_succ_of_ne_zero h0
        rw [hn] at h2
        simp at h2
      exact absurd this hx
  rw [k1, hr]; rfl

/-- non-vacuity: two positions in two cells, whose conversion stays in the cell: the hypotheses of C160 and C161 hold, and each position has its box -/
def goodTree : Tree ℚ := generateOctree castDemo id nodeDemo 0 (1 / 10) [⟨7 / 100, 7 / 100, 7 / 100⟩, ⟨12 / 100, 7 / 100, 7 / 100⟩]

example : Addresses goodTree ∧ (generateBoxes goodTree).1.find? (key (goodTree.search ⟨12 / 100, 7 / 100, 7 / 100⟩)) = some ⟨⟨3 / 20, 1 / 20, 1 / 20⟩, 1 / 10⟩ ∧
    cell (1 / 10) (castDemo ⟨12 / 100, 7 / 100, 7 / 100⟩) = cell (1 / 10 : ℚ) ⟨12 / 100, 7 / 100, 7 / 100⟩ := by
  have hl : goodTree.leaves = [(0, 0, 0), (1, 0, 0)] := by decide +kernel
  refine ⟨⟨by rw [hl]; decide, by rw [hl]; decide, fun c _ => nodeDemo_ne c, by rw [hl]; decide, by decide⟩, by decide +kernel, by decide +kernel⟩

end Octree
end Rbprm
