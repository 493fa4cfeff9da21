import Verif.Base.AMap
import Verif.Base.Vec3
import Mathlib.Algebra.Order.Field.Basic
import Mathlib.Data.Int.Order.Basic
import Mathlib.Data.List.Sort
set_option linter.unusedSectionVars false
/-!
# Model of `sampling/sample-db.cc`, `sampling/sample.cc` and of `CollideOctree`

`double` is an ordered field `K` (no rounding).  The octree is the function `voxelOf` which sends a position to the
voxel identifier `octTree->search(..) - octTree->getRoot()` (a difference of addresses: an arbitrary integer,
possibly different for every octree that is built).  `none` as a result is undefined behaviour of the C++ code
(index outside a vector) or, in `collideOctree`, the exception.  `std::sort` is a parameter: the standard leaves
the order of equivalent elements unspecified.
-/
namespace Rbprm
namespace Sampling

/-- `Eigen::MatrixXd`, entries row by row. [Eigen, used in sample.hh:39-92] -/
structure Mat (K : Type _) where
  rows : Nat
  cols : Nat
  data : List K
deriving DecidableEq, Repr

/-- include/hpp/rbprm/sampling/sample.hh:37-92 `Sample`.  `configuration_` is an n×1 matrix. -/
structure Sample (K : Type _) where
  startRank : Nat
  length : Nat
  configuration : List K
  effectorPosition : Vec3 K
  effectorPositionInLimbFrame : Vec3 K
  jacobian : Mat K
  jacobianProduct : Mat K
  id : Nat
  staticValue : K
deriving DecidableEq, Repr

/-- sample-db.hh:83-124 `SampleDB` without the fcl objects.  `voxelOf` is `octomapTree_`. -/
structure SampleDB (N K : Type _) where
  resolution : K
  samples : List (Sample K)
  voxelOf : Vec3 K → ℤ
  values : AMap N (List K)
  valueBounds : AMap N (K × K)
  samplesInVoxels : AMap ℤ (Nat × Nat)

variable {N K : Type _} [LinearOrder N]

/-- sample-db.cc:40-53 loop of `getSamplesPerVoxel`, `sid` is the rank of the first remaining sample. -/
def perVoxelLoop (voxelOf : Vec3 K → ℤ) : Nat → List (Sample K) → AMap ℤ (List Nat) → AMap ℤ (List Nat)
  | _, [], res => res
  | sid, s :: rest, res =>
    let id := voxelOf s.effectorPosition
    perVoxelLoop voxelOf (sid + 1) rest
      (match AMap.find? res id with
       | some l => AMap.set res id (l ++ [sid])
       | none => AMap.insertNew res id [sid])

/-- sample-db.cc:35-55 `getSamplesPerVoxel`. -/
def getSamplesPerVoxel (voxelOf : Vec3 K → ℤ) (samples : List (Sample K)) : AMap ℤ (List Nat) :=
  perVoxelLoop voxelOf 0 samples []

/-- the local variables of `alignSampleOrderWithOctree` that its loop updates (sample-db.cc:58-77) -/
structure AlignState (K : Type _) where
  currentNewIndex : Nat
  reorderedSamples : List (Sample K)
  realignOrderIds : List Nat
  reorderedSamplesPerVoxel : AMap ℤ (Nat × Nat)

/-- sample-db.cc:83-89 inner loop: `db.samples_[*sit]` is undefined when `*sit` is out of range. -/
def alignSamples (samples : List (Sample K)) : List Nat → AlignState K → Option (AlignState K)
  | [], a => some a
  | sit :: rest, a =>
    match samples[sit]? with
    | none => none
    | some s => alignSamples samples rest
        { a with reorderedSamples := a.reorderedSamples ++ [{ s with id := a.currentNewIndex }],
                 realignOrderIds := a.realignOrderIds ++ [sit],
                 currentNewIndex := a.currentNewIndex + 1 }

/-- sample-db.cc:78-93 outer loop over the sorted voxel identifiers. -/
def alignVoxels (samples : List (Sample K)) (samplesPerVoxel : AMap ℤ (List Nat)) :
    List ℤ → AlignState K → Option (AlignState K)
  | [], a => some a
  | voxelId :: rest, a =>
    match alignSamples samples ((AMap.find? samplesPerVoxel voxelId).getD []) a with
    | none => none
    | some a' =>
      let range := (a.currentNewIndex, a'.currentNewIndex - a.currentNewIndex)
      alignVoxels samples samplesPerVoxel rest
        { a' with reorderedSamplesPerVoxel := AMap.insertNew a'.reorderedSamplesPerVoxel voxelId range }

/-- sample-db.cc:98-103 the values of one name in the new order. -/
def reorderValue (vals : List K) (order : List Nat) : Option (List K) := order.mapM (fun i => vals[i]?)

/-- sample-db.cc:96-105 all values (`insert` in key order rebuilds the map). -/
def reorderValues (order : List Nat) : AMap N (List K) → Option (AMap N (List K))
  | [] => some []
  | (name, vals) :: rest =>
    match reorderValue vals order, reorderValues order rest with
    | some v, some r => some ((name, v) :: r)
    | _, _ => none

/-- sample-db.cc:57-109 `alignSampleOrderWithOctree`.  The keys of a `std::map` are sorted already, so `std::sort`
on them (l.74, distinct integers) is an insertion sort. -/
def align (db : SampleDB N K) : Option (SampleDB N K) :=
  let samplesPerVoxel := getSamplesPerVoxel db.voxelOf db.samples
  let voxelIds := (AMap.keys samplesPerVoxel).insertionSort (· ≤ ·)
  match alignVoxels db.samples samplesPerVoxel voxelIds ⟨0, [], [], []⟩ with
  | none => none
  | some a =>
    match reorderValues a.realignOrderIds db.values with
    | none => none
    | some vals => some { db with samplesInVoxels := a.reorderedSamplesPerVoxel, values := vals,
                                  samples := a.reorderedSamples }

/-- sample-db.cc:111-115 `sortDB`; `srt` is `std::sort` with `sample_greater` (sample.hh:94-98). -/
def sortDB (srt : List (Sample K) → List (Sample K)) (db : SampleDB N K) : Option (SampleDB N K) :=
  align { db with samples := srt db.samples }

section field
variable [Field K] [LinearOrder K]

/-- sample-db.cc:194-206: the raw values and their bounds, starting from `-big` and `big`
(`std::numeric_limits<double>::max()`). -/
def rawBounds (big : K) (raw : List K) : K × K := (raw.foldl min big, raw.foldl max (-big))

/-- sample-db.cc:209-211 normalisation of one value. -/
def normalise (b : K × K) (x : K) : K := if b.2 - b.1 ≠ 0 then (x - b.1) / (b.2 - b.1) else 0

/-- sample-db.cc:212-215 `samples_[id].staticValue_ = values[id]` for all ids (same length by construction). -/
def setStatic : List (Sample K) → List K → List (Sample K)
  | s :: ss, v :: vs => { s with staticValue := v } :: setStatic ss vs
  | ss, _ => ss

/-- sample-db.cc:205-216: the database after the evaluation and before the optional sort. -/
def storeValue (big : K) (db : SampleDB N K) (name : N) (eval : SampleDB N K → Sample K → K)
    (isStatic : Bool) : SampleDB N K :=
  let raw := db.samples.map (eval db)
  let b := rawBounds big raw
  let vals := raw.map (normalise b)
  { db with
    valueBounds := AMap.insertNew db.valueBounds name b
    samples := if isStatic then setStatic db.samples vals else db.samples
    values := AMap.insertNew db.values name vals }

/-- sample-db.cc:185-220 `addValue`. -/
def addValue (big : K) (srt : List (Sample K) → List (Sample K)) (db : SampleDB N K) (name : N)
    (eval : SampleDB N K → Sample K → K) (isStatic sortSamples : Bool) : Option (SampleDB N K) :=
  if AMap.has db.values name then some db
  else if sortSamples then sortDB srt (storeValue big db name eval isStatic)
  else some (storeValue big db name eval isStatic)

/-- sample-db.cc:155-159 loop of the constructor over the analysis functions. -/
def addAll (big : K) (srt : List (Sample K) → List (Sample K)) (staticValue : N) :
    AMap N (SampleDB N K → Sample K → K) → SampleDB N K → Option (SampleDB N K)
  | [], db => some db
  | (name, eval) :: rest, db =>
    match addValue big srt db name eval (decide (staticValue = name)) false with
    | none => none
    | some db' => addAll big srt staticValue rest db'

/-- sample-db.cc:143-161 the constructor; `generated` is the result of `GenerateSamples` and `voxelOf` the octree
generated from them. -/
def construct (big : K) (srt : List (Sample K) → List (Sample K)) (generated : List (Sample K))
    (voxelOf : Vec3 K → ℤ) (resolution : K) (data : AMap N (SampleDB N K → Sample K → K)) (staticValue : N) :
    Option (SampleDB N K) :=
  match addAll big srt staticValue data ⟨resolution, generated, voxelOf, [], [], []⟩ with
  | none => none
  | some db => sortDB srt db

end field

/-! ### candidates -/

/-- `fcl::Contact`, the two fields in use: octree node and triangle. [used in sample-db.cc:223-279] -/
structure OctContact where
  b1 : ℤ
  b2 : Nat
deriving DecidableEq, Repr

/-- sample-db.hh:38-51 `OctreeReport`; `sample_` is a pointer into `samples_`: its rank and the sample. -/
structure OctreeReport (K : Type _) where
  rank : Nat
  sample : Sample K
  contact : OctContact
  value : K
  normal : Vec3 K
  triangle : Vec3 K × Vec3 K × Vec3 K
deriving DecidableEq

section reports
variable [LinearOrder K]

/-- `std::multiset<OctreeReport, sample_compare>::insert` (sample-db.hh:56-62): after every element whose value is
not smaller. -/
def insertReport (r : OctreeReport K) : List (OctreeReport K) → List (OctreeReport K)
  | [] => [r]
  | e :: l => if r.value > e.value then r :: e :: l else e :: insertReport r l

variable [CommRing K]

/-- sample-db.cc:254-271 the report for a sample; `surface` gives the vertices of a triangle, `normalize` is Eigen's,
`heuristic` is `evaluate` with its direction and parameters applied (`none`: null pointer). -/
def mkReport (surface : Nat → Vec3 K × Vec3 K × Vec3 K) (normalize : Vec3 K → Vec3 K)
    (heuristic : Option (Sample K → Vec3 K → K)) (contact : OctContact) (rank : Nat) (s : Sample K) :
    OctreeReport K :=
  let tr := surface contact.b2
  let normal := normalize (Vec3.cross (tr.2.1 - tr.1) (tr.2.2 - tr.1))
  { rank := rank, sample := s, contact := contact,
    value := match heuristic with | some f => f s normal | none => 0
    normal := normal, triangle := tr }

/-- sample-db.cc:249-273 loop over `n` consecutive samples starting at `rank`; dereferencing past the end is
undefined. -/
def reportSamples (db : SampleDB N K) (surface : Nat → Vec3 K × Vec3 K × Vec3 K) (normalize : Vec3 K → Vec3 K)
    (heuristic : Option (Sample K → Vec3 K → K)) (contact : OctContact) :
    Nat → Nat → List (OctreeReport K) → Option (List (OctreeReport K))
  | _, 0, reports => some reports
  | rank, n + 1, reports =>
    match db.samples[rank]? with
    | none => none
    | some s => reportSamples db surface normalize heuristic contact (rank + 1) n
        (insertReport (mkReport surface normalize heuristic contact rank s) reports)

/-- sample-db.cc:239-277 loop of `GetCandidates` over the contacts fcl reported (at most 1000, l.228).  `visited`,
`totalSamples` and `okay` are never read. -/
def contactsLoop (db : SampleDB N K) (surface : Nat → Vec3 K × Vec3 K × Vec3 K) (normalize : Vec3 K → Vec3 K)
    (heuristic : Option (Sample K → Vec3 K → K)) :
    List OctContact → List (OctreeReport K) → Option (List (OctreeReport K))
  | [], reports => some reports
  | contact :: rest, reports =>
    match AMap.find? db.samplesInVoxels contact.b1 with
    | none => contactsLoop db surface normalize heuristic rest reports
    | some (first, n) =>
      match reportSamples db surface normalize heuristic contact first n reports with
      | none => none
      | some reports' => contactsLoop db surface normalize heuristic rest reports'

/-- sample-db.cc:223-279 `GetCandidates` filling `reports`; the flag is the returned `!reports.empty()`. -/
def getCandidates (db : SampleDB N K) (surface : Nat → Vec3 K × Vec3 K × Vec3 K) (normalize : Vec3 K → Vec3 K)
    (heuristic : Option (Sample K → Vec3 K → K)) (contacts : List OctContact) (reports : List (OctreeReport K)) :
    Option (List (OctreeReport K) × Bool) :=
  match contactsLoop db surface normalize heuristic contacts reports with
  | none => none
  | some r => some (r, !r.isEmpty)

/-- an affordance object: its triangles and the contacts fcl finds between it and the octree [sample-db.cc:223-279, contact_generation.cc:464-503] -/
structure Affordance (K : Type _) where
  surface : Nat → Vec3 K × Vec3 K × Vec3 K
  contacts : List OctContact

/-- contact_generation.cc:483-494 one report set per affordance. -/
def candidatesPerAffordance (db : SampleDB N K) (normalize : Vec3 K → Vec3 K)
    (heuristic : Option (Sample K → Vec3 K → K)) : List (Affordance K) → Option (List (List (OctreeReport K)))
  | [] => some []
  | aff :: rest =>
    match getCandidates db aff.surface normalize heuristic aff.contacts [],
          candidatesPerAffordance db normalize heuristic rest with
    | some (r, _), some rs => some (r :: rs)
    | _, _ => none

/-- contact_generation.cc:464-503 `CollideOctree`; `evaluate == 0 ? limb->evaluate_ : evaluate` is l.479. -/
def collideOctree (db : SampleDB N K) (normalize : Vec3 K → Vec3 K)
    (limbEvaluate evaluate : Option (Sample K → Vec3 K → K)) (affordances : List (Affordance K)) :
    Option (List (OctreeReport K)) :=
  let eval := match evaluate with | none => limbEvaluate | some f => some f
  if affordances.isEmpty then none
  else match candidatesPerAffordance db normalize eval affordances with
    | none => none
    | some reports => some (reports.foldl (fun final r => r.foldl (fun f x => insertReport x f) final) [])

end reports

/-! ### samples -/

/-- sample.cc:165-169 `Load`: overwrite the segment of the limb (`segment` asserts that it fits). -/
def load (s : Sample K) (configuration : List K) : Option (List K) :=
  if s.startRank + s.length ≤ configuration.length ∧ s.configuration.length = s.length then
    some (configuration.take s.startRank ++ s.configuration ++ configuration.drop (s.startRank + s.length))
  else none

/-- what `Sample`'s constructor reads from the device for its current configuration: positions, jacobian, product
and manipulability (sample.cc:39-112), and the place of the limb in the configuration. -/
structure LimbKinematics (K : Type _) where
  startRank : Nat
  length : Nat
  position : List K → Vec3 K
  positionInLimbFrame : List K → Vec3 K
  jacobian : List K → Mat K
  jacobianProduct : List K → Mat K
  manipulability : List K → K

/-- sample.cc:134-149 the constructor taking a configuration segment: everything else comes from the `current`
configuration of the device. -/
def LimbKinematics.sample (kin : LimbKinematics K) (current segment : List K) (id : Nat) : Sample K where
  startRank := kin.startRank
  length := kin.length
  configuration := segment
  effectorPosition := kin.position current
  effectorPositionInLimbFrame := kin.positionInLimbFrame current
  jacobian := kin.jacobian current
  jacobianProduct := kin.jacobianProduct current
  id := id
  staticValue := kin.manipulability current

/-- the limb's segment of a configuration [sample.cc:97-112] -/
def LimbKinematics.segment (kin : LimbKinematics K) (q : List K) : List K :=
  (q.drop kin.startRank).take kin.length

/-- sample.cc:191-207 loop of `GenerateSamples` over the shot configurations. -/
def generateLoop (kin : LimbKinematics K) : Nat → List (List K) → List (Sample K)
  | _, [] => []
  | i, config :: rest => kin.sample config (kin.segment config) i :: generateLoop kin (i + 1) rest

/-- sample.cc:171-209 `GenerateSamples`; `current` is the configuration of the cloned device, `shots` the
configurations drawn (only `nbSamples - 1` of them are used). -/
def generateSamples (kin : LimbKinematics K) (current neutral : List K) (shots : List (List K)) (nbSamples : Nat) :
    List (Sample K) :=
  kin.sample current (kin.segment neutral) 0 :: generateLoop kin 1 (shots.take (nbSamples - 1))

end Sampling
end Rbprm
