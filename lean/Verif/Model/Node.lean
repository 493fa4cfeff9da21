import Verif.Model.Geom
import Verif.Base.AMap
import Mathlib.Analysis.SpecialFunctions.Pow.NNReal
import Mathlib.Algebra.BigOperators.Group.Finset.Basic
import Mathlib.Data.Finset.Range
set_option linter.unusedSectionVars false
/-!
# The matrices of a roadmap node (`src/planner/rbprm-node.cc`)

`double` is `ℝ`.  A matrix is given by its sizes and its entries; writing a block out of its bounds is `none`.
-/
namespace Rbprm
namespace Node

/-- a matrix with dynamic sizes (Eigen) [Eigen, used in rbprm-node.cc:144-346] -/
structure Mx where
  rows : ℕ
  cols : ℕ
  entry : ℕ → ℕ → ℝ

/-- `Zero(r, c)` [Eigen, used in rbprm-node.cc:144-346] -/
def Mx.zero (r c : ℕ) : Mx := ⟨r, c, fun _ _ => 0⟩

/-- `M.block<R, C>(r, c) = B` [Eigen, used in rbprm-node.cc:144-346] -/
def Mx.setBlock (M : Mx) (r c R C : ℕ) (B : ℕ → ℕ → ℝ) : Option Mx :=
  if r + R ≤ M.rows ∧ c + C ≤ M.cols then
    some { M with entry := fun i j => if r ≤ i ∧ i < r + R ∧ c ≤ j ∧ j < c + C then B (i - r) (j - c) else M.entry i j }
  else none

/-- the product of two matrices [Eigen, used in rbprm-node.cc:144-346] -/
def Mx.mul (A B : Mx) : Mx := ⟨A.rows, B.cols, fun i j => ∑ k ∈ Finset.range A.cols, A.entry i k * B.entry k j⟩

/-- the `i`-th coordinate of a vector [Eigen, used in rbprm-node.cc:144-346] -/
def coord (v : Vec3 ℝ) : ℕ → ℝ
  | 0 => v.x
  | 1 => v.y
  | _ => v.z

/-- the identity matrix [Eigen, used in rbprm-node.cc:144-346] -/
def identity (i j : ℕ) : ℝ := if i = j then 1 else 0

/-- `centroidal_dynamics::crossMatrix` [used in rbprm-node.cc:144-346] -/
def crossMatrix (p : Vec3 ℝ) : ℕ → ℕ → ℝ
  | 0, 0 => 0
  | 0, 1 => -p.z
  | 0, _ => p.y
  | 1, 0 => p.z
  | 1, 1 => 0
  | 1, _ => -p.x
  | _, 0 => -p.y
  | _, 1 => p.x
  | _, _ => 0

/-- `normalize` of Eigen: a null vector is unchanged [used in rbprm-node.cc:144-346] -/
noncomputable def normalize (v : Vec3 ℝ) : Vec3 ℝ := if v.normSq > 0 then Vec3.smul (1 / Real.sqrt v.normSq) v else v

/-- rbprm-node.cc:40–44, 156: `quat * Vector3(1, 0, 0)` for the quaternion `(w, x, y, z)` -/
def headOf (w x y z : ℝ) : Vec3 ℝ := ⟨1 - 2 * (y * y + z * z), 2 * (x * y + z * w), 2 * (x * z - y * w)⟩

/-- rbprm-node.cc:156–162: the tangents `ti1` and `ti2`; `head` is the direction of the head of the robot -/
noncomputable def tangents (pn head : Vec3 ℝ) : Vec3 ℝ × Vec3 ℝ :=
  let tProj := normalize ⟨head.x, head.y, 0⟩
  let ti1 := Vec3.cross pn tProj
  let ti1 := if Vec3.dot ti1 ti1 < 1 / 1000 then Vec3.cross pn ⟨1, 0, 0⟩ else ti1
  let ti1 := if Vec3.dot ti1 ti1 < 1 / 1000 then Vec3.cross pn ⟨0, 1, 0⟩ else ti1
  (ti1, Vec3.cross pn ti1)

/-- rbprm-node.cc:169–174: the columns of `Vi` -/
noncomputable def ray (pn head : Vec3 ℝ) (mu : ℝ) : ℕ → Vec3 ℝ
  | 0 => normalize (pn + Vec3.smul mu (tangents pn head).1)
  | 1 => normalize (pn - Vec3.smul mu (tangents pn head).1)
  | 2 => normalize (pn + Vec3.smul mu (tangents pn head).2)
  | _ => normalize (pn - Vec3.smul mu (tangents pn head).2)

/-- rbprm-node.cc:189–197: the `i`-th corner of the rectangle -/
noncomputable def corner (pn center head : Vec3 ℝ) (sizeX sizeY : ℝ) (i : ℕ) : Vec3 ℝ :=
  let shiftX := Vec3.smul sizeX (tangents pn head).2
  let shiftY := Vec3.smul sizeY (tangents pn head).1
  let p := if i < 2 then center + shiftX else center - shiftX
  if i % 2 = 0 then p + shiftY else p - shiftY

/-- the loop variables of `fillNodeMatrices` (rbprm-node.cc:270–276) -/
structure Fill where
  index : ℕ
  V : Mx
  IP : Mx

/-- rbprm-node.cc:200–214 (and 221–230): the blocks of one contact point -/
noncomputable def writePoint (pn head : Vec3 ℝ) (mu : ℝ) (index : ℕ) (p : Vec3 ℝ) (V IP : Mx) : Option (Mx × Mx) := do
  let IP ← IP.setBlock 0 (3 * index) 3 3 identity
  let IP ← IP.setBlock 3 (3 * index) 3 3 (crossMatrix p)
  let V ← V.setBlock (3 * index) (4 * index) 3 4 (fun i j => coord (ray pn head mu j) i)
  some (V, IP)

/-- rbprm-node.cc:145–233 `computeNodeMatrixForOnePoint` -/
noncomputable def onePoint (pn center head : Vec3 ℝ) (sizeX sizeY : ℝ) (rectangular : Bool) (mu : ℝ) (st : Fill) : Option Fill :=
  if rectangular then
    (List.range 4).foldlM (fun (VI : Mx × Mx) i => writePoint pn head mu (st.index + i) (corner pn center head sizeX sizeY i) VI.1 VI.2) (st.V, st.IP) |>.map
      fun VI => ⟨st.index + 4, VI.1, VI.2⟩
  else
    (writePoint pn head mu st.index center st.V st.IP).map fun VI => ⟨st.index + 1, VI.1, VI.2⟩

/-- what is stored in the node (rbprm-node.hh:88–97) -/
structure NodeData where
  numberOfContacts : ℕ
  V : Mx
  IP : Mx
  G : Mx
  H : ℕ → ℕ → ℝ
  h : ℕ → ℝ

/-- rbprm-node.cc:318–323: `m * H` -/
def dynH (m : ℝ) (c : Vec3 ℝ) (i j : ℕ) : ℝ := m * (if i < 3 then identity i j else crossMatrix c (i - 3) j)
/-- rbprm-node.cc:324–330: `m * h` -/
noncomputable def dynh (m : ℝ) (c : Vec3 ℝ) (i : ℕ) : ℝ :=
  let g : Vec3 ℝ := ⟨0, 0, -(981 / 100)⟩
  m * (if i < 3 then coord (-g) i else coord (Vec3.cross c (-g)) (i - 3))

/-- one report of a ROM: the result of `approximateContactPoint` and the values that `pn` and `contactPoint` have afterwards (uninitialised if it failed) [rbprm-node.cc:102-142, 234-346] -/
structure RomContact where
  pointExist : Bool
  pn : Vec3 ℝ
  contactPoint : Vec3 ℝ

/-- rbprm-node.cc:235–343 `fillNodeMatrices` (the report can be cast; `c` are the first three entries of the configuration).  What is stored in the node when a point does not exist (288–308) is overwritten at the end and left out. -/
noncomputable def fillNodeMatrices (roms : List RomContact) (head c : Vec3 ℝ) (rectangular : Bool) (sizeX sizeY m mu : ℝ) : Option NodeData :=
  let n := roms.length + 3 * (if rectangular then 1 else 0) * roms.length
  (roms.foldlM (fun st r => onePoint r.pn r.contactPoint head sizeX sizeY rectangular mu st) ⟨0, Mx.zero (3 * n) (4 * n), Mx.zero 6 (3 * n)⟩).map fun st =>
    ⟨n, st.V, st.IP, st.IP.mul st.V, dynH m c, dynh m c⟩

/-! ### the contact surface -/

/-- rbprm-node.cc:46–75 `computeIntersectionSurface`: the triangles of the ROM, the vertices of the environment object, its plane; outer `none`: undefined, inner `none`: failure -/
def intersectionSurface {K : Type _} [Field K] [LinearOrder K] (fuel : ℕ) (rom : List (Vec3 K × Vec3 K × Vec3 K)) (env : List (Vec3 K)) (pn p0 : Vec3 K) : Option (Option (List (Vec3 K))) :=
  match Geom.intersectPolygonePlane fuel rom pn p0 with
  | none => none
  | some plane =>
    if plane.length > 0 then
      match Geom.compute3DIntersection fuel plane env with
      | none => none
      | some inter => if inter.length = 0 then some none else some (some inter)
    else some none

/-- rbprm-node.cc:105–143 `approximateContactPoint`, from the intersection `hull`; `reference` is the reference position of the effector, `root` its transform into the world; `none`: failure; inner `none`: the result is not written -/
noncomputable def approximateContactPoint (hull : Option (List (Vec3 ℝ))) (pn reference : Vec3 ℝ) (root : Vec3 ℝ → Vec3 ℝ) : Option (Option (Vec3 ℝ)) :=
  match hull with
  | none => none
  | some [] => none
  | some (p :: l) =>
    if Real.sqrt reference.normSq ≠ 0 then some ((Geom.projectPointInsidePlan (p :: l) (root reference) pn p).map Prod.fst)
    else some (some (Geom.center (p :: l)))

/-- rbprm-node.cc:383–408: the loop over the surfaces; `dist` is the distance between the reference and its projection in the intersection (`none`: no intersection), `st` the least distance so far (`none`: the largest number) and the best report -/
noncomputable def bestLoop {R : Type _} (dist : R → Option ℝ) (st : Option ℝ × R) (r : R) : Option ℝ × R :=
  match dist r with
  | none => st
  | some d =>
    match st.1 with
    | none => (some d, r)
    | some m => if d < m then (some d, r) else st

/-- rbprm-node.cc:345–417 `chooseBestContactSurface`, for one ROM: `current` is the report of the ROM (its objects), `reports` all the collisions -/
noncomputable def chooseBest {R : Type _} (dist : R → Option ℝ) (current : R) (reports : List R) : R :=
  match reports with
  | [] => current
  | [_] => current
  | r :: rest => ((r :: rest).foldl (bestLoop dist) (none, r)).2

/-- rbprm-node.cc:345–417 `chooseBestContactSurface`: `none` is a report that cannot be cast, at which the loop returns -/
noncomputable def chooseAll {N R : Type _} (dist : N → R → Option ℝ) : List (N × Option (R × List R)) → List (N × Option (R × List R))
  | [] => []
  | (n, none) :: l => (n, none) :: l
  | (n, some (current, reports)) :: l => (n, some (chooseBest (dist n) current reports, reports)) :: chooseAll dist l

end Node
end Rbprm
