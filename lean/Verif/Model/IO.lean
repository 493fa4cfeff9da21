import Verif.Model.SampleDB
import Mathlib.Data.List.Infix
set_option linter.unusedSectionVars false
/-!
# Model of the text files: `tools.cc` (namespace `io`), saving and loading of limb databases

A file is the list of its lines (`std::endl` ends a line; `getline` at the end of the file gives an empty line).
Printing of a number with `operator<<` and reading with `operator>>` are the fields of `Codec`; the C++ stream prints
six significant digits, so a `double` is read back exactly only if it needs no more: this is `Codec.Exact`.
`none` is undefined behaviour (index outside a vector).
-/
namespace Rbprm
namespace IO
open Sampling

/-- number formatting [standard library, used in tools.cc:158-180, 197-270] -/
structure Codec (K : Type _) where
  /-- `output << x` for a `double` -/
  prt : K → List Char
  /-- tools.cc:158-162 `StrToD` -/
  toD : List Char → K
  /-- `output << n` for an integer -/
  prtN : Nat → List Char
  /-- tools.cc:164-168 `StrToI` -/
  toI : List Char → Nat

variable {N K : Type _} [LinearOrder N]

/-- tools.cc:186-193 loop of `splitString`; the last character of the string is always appended to the current field,
even if it is the separator. -/
def splitLoop (sep : Char) : List Char → List Char → List (List Char)
  | [], _ => []
  | [c], s1 => [s1 ++ [c]]
  | c :: d :: rest, s1 =>
    if c = sep then (if s1 ≠ [] then s1 :: splitLoop sep (d :: rest) [] else splitLoop sep (d :: rest) [])
    else splitLoop sep (d :: rest) (s1 ++ [c])

/-- tools.cc:182-195 `splitString`. -/
def splitString (s : List Char) (sep : Char) : List (List Char) := splitLoop sep s []

/-- `getline`. [standard library, used in tools.cc:170-180, 206-270] -/
def getline : List (List Char) → List Char × List (List Char)
  | [] => ([], [])
  | l :: f => (l, f)

/-- the entries followed by `;` each (tools.cc:199-203, 230-232, 251-255) -/
def semis (c : Codec K) (l : List K) : List Char := l.flatMap (fun x => c.prt x ++ [';'])

/-- tools.cc:197-204 `writeMatrix` followed by `std::endl`: two lines. -/
def writeMatrix (c : Codec K) (m : Mat K) : List (List Char) :=
  [c.prtN m.rows ++ ';' :: c.prtN m.cols, semis c m.data]

/-- tools.cc:220-225 `res(i,j) = StrToD(*current); ++current;` for `n` entries. -/
def readEntries (c : Codec K) : Nat → List (List Char) → Option (List K)
  | 0, _ => some []
  | _ + 1, [] => none
  | n + 1, d :: ds => (readEntries c n ds).map (c.toD d :: ·)

/-- tools.cc:211-227 `readMatrix`. -/
def readMatrix (c : Codec K) (file : List (List Char)) : Option (Mat K × List (List Char)) :=
  let l1 := getline file
  match splitString l1.1 ';' with
  | d0 :: d1 :: _ =>
    let l2 := getline l1.2
    match readEntries c (c.toI d0 * c.toI d1) (splitString l2.1 ';') with
    | some data => some (⟨c.toI d0, c.toI d1, data⟩, l2.2)
    | none => none
  | _ => none

/-- tools.cc:229-233 `writeVecFCL` followed by `std::endl`. -/
def writeVec (c : Codec K) (v : Vec3 K) : List Char := semis c [v.x, v.y, v.z]

/-- tools.cc:240-248 `readVecFCL`. -/
def readVec (c : Codec K) (file : List (List Char)) : Option (Vec3 K × List (List Char)) :=
  let l1 := getline file
  match splitString l1.1 ';' with
  | d0 :: d1 :: d2 :: _ => some (⟨c.toD d0, c.toD d1, c.toD d2⟩, l1.2)
  | _ => none

/-- tools.cc:250-256 `writeRotMatrixFCL` (the nine entries, row by row) followed by `std::endl`. -/
def writeRot (c : Codec K) (m : List K) : List Char := semis c m

/-- tools.cc:263-275 `readRotMatrixFCL`. -/
def readRot (c : Codec K) (file : List (List Char)) : Option (List K × List (List Char)) :=
  let l1 := getline file
  match readEntries c 9 (splitString l1.1 ';') with
  | some data => some (data, l1.2)
  | none => none

/-! ### sample-db.cc -/

/-- sample-db.cc:293-309 `writeSample`. -/
def writeSample (c : Codec K) (s : Sample K) : List (List Char) :=
  ["sample".toList, c.prtN s.id, c.prtN s.length, c.prtN s.startRank, c.prt s.staticValue,
   writeVec c s.effectorPosition, writeVec c s.effectorPositionInLimbFrame] ++
  writeMatrix c ⟨s.configuration.length, 1, s.configuration⟩ ++ writeMatrix c s.jacobian ++
  writeMatrix c s.jacobianProduct

/-- sample-db.cc:318-328 `writeValues` for one name; `name` is the line written for it. -/
def writeValue (c : Codec K) (nameLine : N → List Char) (p : N × List K) : List (List Char) :=
  ["value".toList, nameLine p.1] ++ p.2.map c.prt ++ [[]]

/-- sample-db.cc:362-369 `saveLimbDatabase` (311-316 `writeSamples`). -/
def saveLimbDatabase (c : Codec K) (nameLine : N → List Char) (db : SampleDB N K) : List (List Char) :=
  [c.prtN db.samples.length, c.prt db.resolution] ++ db.samples.flatMap (writeSample c) ++
    db.values.flatMap (writeValue c nameLine)

/-- sample-db.cc:336-339 the scalar fields of `readSample`: id, length, startRank, staticValue. -/
def readHeader (c : Codec K) (file : List (List Char)) : (Nat × Nat × Nat × K) × List (List Char) :=
  let a := getline file
  let b := getline a.2
  let d := getline b.2
  let e := getline d.2
  ((c.toI a.1, c.toI b.1, c.toI d.1, c.toD e.1), e.2)

/-- sample-db.cc:340-344 the vectors and matrices of `readSample`. -/
def readBody (c : Codec K) (file : List (List Char)) :
    Option ((Vec3 K × Vec3 K × Mat K × Mat K × Mat K) × List (List Char)) :=
  (readVec c file).bind fun p1 => (readVec c p1.2).bind fun p2 => (readMatrix c p2.2).bind fun m1 =>
    (readMatrix c m1.2).bind fun m2 => (readMatrix c m2.2).bind fun m3 =>
      some ((p1.1, p2.1, m1.1, m2.1, m3.1), m3.2)

/-- sample-db.cc:330-347 `readSample`. -/
def readSample (c : Codec K) (file : List (List Char)) : Option (Sample K × List (List Char)) :=
  let h := readHeader c file
  match readBody c h.2 with
  | none => none
  | some ((p1, p2, conf, jac, prod), rest) =>
    some (⟨h.1.2.2.1, h.1.2.1, conf.data, p1, p2, jac, prod, h.1.1, h.1.2.2.2⟩, rest)

/-- sample-db.cc:355-358 loop of `readValue`. -/
def readValueLoop (c : Codec K) : Nat → List (List Char) → List K × List (List Char)
  | 0, file => ([], file)
  | n + 1, file =>
    let l := getline file
    let r := readValueLoop c n l.2
    (c.toD l.1 :: r.1, r.2)

/-- sample-db.cc:381-387 the reading loop; `size` is the first line, `nameOf` interprets the name line.  `fuel` bounds
the number of iterations: each consumes a line. -/
def loadLoop (c : Codec K) (nameOf : List Char → N) (loadValues : Bool) (size : Nat) :
    Nat → List (List Char) → List (Sample K) × AMap N (List K) → Option (List (Sample K) × AMap N (List K))
  | _, [], acc => some acc
  | 0, _ :: _, acc => some acc
  | fuel + 1, line :: file, acc =>
    if "sample".toList <:+: line then
      match readSample c file with
      | none => none
      | some (s, file') => loadLoop c nameOf loadValues size fuel file' (acc.1 ++ [s], acc.2)
    else if "value".toList <:+: line ∧ loadValues = true then
      let l := getline file
      let r := readValueLoop c size l.2
      loadLoop c nameOf loadValues size fuel r.2 (acc.1, AMap.insertNew acc.2 (nameOf l.1) r.1)
    else loadLoop c nameOf loadValues size fuel file acc

/-- sample-db.cc:371-396 the constructor from a file; `newOctree` is the voxel function of the octree generated from
the samples read (its voxel identifiers are address differences). -/
def loadDB (c : Codec K) (nameOf : List Char → N) (loadValues : Bool)
    (newOctree : List (Sample K) → K → Vec3 K → ℤ) (file : List (List Char)) : Option (SampleDB N K) :=
  let l1 := getline file
  let l2 := getline l1.2
  match loadLoop c nameOf loadValues (c.toI l1.1) l2.2.length l2.2 ([], []) with
  | none => none
  | some (samples, values) =>
    align ⟨c.toD l2.1, samples, newOctree samples (c.toD l2.1), values, [], []⟩

/-! ### rbprm-limb.cc -/

/-- rbprm-limb.hh fields written or read by the limb files.  `limbOffset = none`: not initialised. [rbprm-limb.cc:155-222, rbprm-limb.hh:51-161] -/
structure Limb (N K : Type _) where
  limbName : List Char
  effectorName : List Char
  effectorDefaultRotation : List K
  offset : Vec3 K
  limbOffset : Option (Vec3 K)
  normal : Vec3 K
  x : K
  y : K
  contactType : Nat
  sampleContainer : SampleDB N K

/-- rbprm-limb.cc:155-169 `saveLimbInfoAndDatabase`. -/
def saveLimb (c : Codec K) (nameLine : N → List Char) (l : Limb N K) : List (List Char) :=
  [l.limbName, l.effectorName, writeRot c l.effectorDefaultRotation, writeVec c l.offset, writeVec c l.normal,
   c.prt l.x, c.prt l.y, c.prtN l.contactType] ++ saveLimbDatabase c nameLine l.sampleContainer

/-- rbprm-limb.cc:202-211 reading, field by field. -/
def loadLimb (c : Codec K) (nameOf : List Char → N) (loadValues : Bool)
    (newOctree : List (Sample K) → K → Vec3 K → ℤ) (file : List (List Char)) : Option (Limb N K) :=
  let n1 := getline file
  let n2 := getline n1.2
  (readRot c n2.2).bind fun rot => (readVec c rot.2).bind fun off => (readVec c off.2).bind fun nor =>
    let x := getline nor.2
    let y := getline x.2
    let t := getline y.2
    (loadDB c nameOf loadValues newOctree t.2).bind fun db =>
      some ⟨n1.1, n2.1, rot.1, off.1, none, nor.1, c.toD x.1, c.toD y.1, c.toI t.1, db⟩

end IO
end Rbprm
