import Verif.Model.SampleDB
import Mathlib.Algebra.Order.Floor.Ring
import Mathlib.Algebra.Order.Field.Basic
import Mathlib.Data.Nat.Basic
set_option linter.unusedSectionVars false
/-!
# Model of the octree of a sample database (`sample-db.cc`)

octomap: the key of a coordinate is its floor in units of the resolution; a leaf is a cell of the grid (cells are not merged: the pruning of eight equal neighbours is left out); `search` returns the leaf of the
cell of a point, or null.  The address of a node relative to the root is a function of its cell.
-/
namespace Rbprm
namespace Octree
variable {K : Type _} [Field K] [LinearOrder K] [FloorRing K]

/-- `octomap::OcTreeKey` [octomap, used in sample-db.cc:20-55] -/
abbrev Cell := ℤ × ℤ × ℤ

/-- `coordToKey` [octomap, used in sample-db.cc:20-55] -/
def cell (res : K) (p : Vec3 K) : Cell := (⌊p.x / res⌋, ⌊p.y / res⌋, ⌊p.z / res⌋)

/-- an `octomap::OcTree`: its leaves in the order of the iterators, the addresses of the nodes and the difference of the null pointer to the root [sample-db.cc:20-55] -/
structure Tree (K : Type _) where
  res : K
  leaves : List Cell
  node : Cell → ℤ
  null : ℤ

/-- sample-db.cc:20-32 `generateOctree`: the positions are converted to `float` (`cast`); `order`: the order of the iterators -/
def generateOctree (cast : Vec3 K → Vec3 K) (order : List Cell → List Cell) (node : Cell → ℤ) (null : ℤ) (res : K) (positions : List (Vec3 K)) : Tree K :=
  ⟨res, order ((positions.map fun p => cell res (cast p)).dedup), node, null⟩

/-- sample-db.cc:43-44, 130 `octTree->search(x, y, z) - octTree->getRoot()`: the coordinates are `double` -/
def Tree.search (t : Tree K) (p : Vec3 K) : ℤ := if cell t.res p ∈ t.leaves then t.node (cell t.res p) else t.null

/-- a box of `fcl::OcTree::toBoxes`: the centre and the size of a leaf (cost and threshold left out) [sample-db.cc:117-141] -/
structure Box (K : Type _) where
  centre : Vec3 K
  size : K
deriving DecidableEq, Repr

/-- the cube of a leaf [fcl, used in sample-db.cc:117-141] -/
def boxOf (res : K) (c : Cell) : Box K := ⟨⟨(c.1 + 1 / 2) * res, (c.2.1 + 1 / 2) * res, (c.2.2 + 1 / 2) * res⟩, res⟩

/-- the conversion of a difference of pointers to `std::size_t` [sample-db.cc:117-141] -/
def key (id : ℤ) : ℕ := (id % 2 ^ 64).toNat

/-- sample-db.cc:123-138 the loop of `generateBoxesFromOctomap`; the second component counts the boxes that are created and not kept (`insert` does nothing) -/
def boxesLoop (t : Tree K) : List (Box K) → AMap ℕ (Box K) × ℕ → AMap ℕ (Box K) × ℕ
  | [], boxes => boxes
  | b :: rest, boxes =>
    boxesLoop t rest (if boxes.1.has (key (t.search b.centre)) then (boxes.1, boxes.2 + 1) else (boxes.1.insertNew (key (t.search b.centre)) b, boxes.2))

/-- sample-db.cc:117-140 `generateBoxesFromOctomap` -/
def generateBoxes (t : Tree K) : AMap ℕ (Box K) × ℕ := boxesLoop t (t.leaves.map (boxOf t.res)) ([], 0)

end Octree
end Rbprm
