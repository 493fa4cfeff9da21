import Verif.Base.AMap
import Mathlib.Data.Nat.Basic
/-!
# Who owns the geometry of a sample database (`include/hpp/rbprm/sampling/sample-db.hh`, `src/sampling/sample-db.cc`)

A database holds raw pointers to the boxes of its octree, which its destructor deletes, and shared pointers to the octree (`geometry_` and the one in `treeObject_`; `octree_` is a raw pointer to the same object).  The copy
constructor and the assignment are those of the compiler: the declarations that would forbid them are commented out (sample-db.hh:100-104).  Addresses are numbers which are never used twice.
-/
namespace Rbprm
namespace Own

/-- sample-db.hh:90-119: the members that hold memory; `boxes`: voxel to address of its box; `geometry`: address of the octree -/
structure Db where
  boxes : AMap ℕ ℕ
  geometry : ℕ
deriving DecidableEq, Repr

/-- the memory of the process: the databases in scope, the boxes not yet deleted, the counts of the shared pointers, the next address, and whether an address was deleted twice [sample-db.hh:90-119] -/
structure World where
  dbs : AMap ℕ Db
  boxes : List ℕ
  uses : AMap ℕ ℕ
  next : ℕ
  fault : Bool
deriving DecidableEq, Repr

/-- nothing is in scope [sample-db.hh:90-119] -/
def World.start : World := ⟨[], [], [], 0, false⟩

/-- sample-db.cc:117-140 `generateBoxesFromOctomap`: each box is allocated, and dropped by `insert` if the voxel is there already -/
def allocBoxes : List ℕ → ℕ → AMap ℕ ℕ → AMap ℕ ℕ
  | [], _, m => m
  | id :: rest, next, m => allocBoxes rest (next + 1) (m.insertNew id next)

/-- two more shared pointers to an object [sample-db.hh:109-115] -/
def retain (uses : AMap ℕ ℕ) (g : ℕ) : AMap ℕ ℕ := uses.set g ((uses.find? g).getD 0 + 2)

/-- two shared pointers less; the object is deleted with the last one [sample-db.hh:109-115] -/
def release (uses : AMap ℕ ℕ) (g : ℕ) : AMap ℕ ℕ :=
  match uses.find? g with
  | none => uses
  | some c => if c ≤ 2 then uses.erase g else uses.set g (c - 2)

/-- sample-db.cc:163-169: the loop of the destructor; deleting an address twice is a fault -/
def deleteBoxes : List ℕ → World → World
  | [], w => w
  | a :: rest, w => deleteBoxes rest (if a ∈ w.boxes then { w with boxes := w.boxes.erase a } else { w with fault := true })

/-- what a program does with databases; a name is that of a variable in scope [sample-db.hh:90-119] -/
inductive Op where
  /-- the constructors (sample-db.cc:143-161, 371-397); `ids`: the voxels of the boxes of the octree, in the order of `toBoxes` -/
  | create (x : ℕ) (ids : List ℕ)
  /-- the copy constructor of the compiler -/
  | copy (x y : ℕ)
  /-- the assignment of the compiler, `x = y` -/
  | assign (x y : ℕ)
  /-- the destructor -/
  | destroy (x : ℕ)
deriving DecidableEq, Repr

/-- the effect of an operation; nothing if the names do not fit, which is not a program [sample-db.cc:143-169, 371-397, sample-db.hh:90-119] -/
def step (w : World) : Op → World
  | .create x ids =>
    if w.dbs.has x then w
    else
      { w with dbs := w.dbs.set x ⟨allocBoxes ids w.next [], w.next + ids.length⟩
               boxes := w.boxes ++ List.range' w.next ids.length
               uses := retain w.uses (w.next + ids.length), next := w.next + ids.length + 1 }
  | .copy x y =>
    match w.dbs.find? y with
    | some d => if w.dbs.has x then w else { w with dbs := w.dbs.set x d, uses := retain w.uses d.geometry }
    | none => w
  | .assign x y =>
    match w.dbs.find? x, w.dbs.find? y with
    | some old, some d => { w with dbs := w.dbs.set x d, uses := release (retain w.uses d.geometry) old.geometry }
    | _, _ => w
  | .destroy x =>
    match w.dbs.find? x with
    | some d =>
      let w' := deleteBoxes (d.boxes.map Prod.snd) w
      { w' with dbs := w.dbs.erase x, uses := release w.uses d.geometry }
    | none => w

/-- a program [sample-db.hh:90-119] -/
def run (w : World) (ops : List Op) : World := ops.foldl step w

end Own
end Rbprm
