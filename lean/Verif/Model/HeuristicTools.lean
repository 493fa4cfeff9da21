import Verif.Base.AMap
import Verif.Base.Vec3
import Mathlib.Analysis.SpecialFunctions.Pow.NNReal
import Mathlib.Analysis.SpecialFunctions.Trigonometric.Inverse
set_option linter.unusedSectionVars false
/-!
# Tools of the heuristics (`src/sampling/heuristic-tools.cc`)

`double` is `ℝ`; the result of a function that is not a number is `none`, and every comparison with it is false.  A 2D vector is a pair.  `eps` is the tolerance of `operator==` (1e-9, line 73).
-/
namespace Rbprm
namespace Heur

/-- heuristic-tools.hh:55–65 `Vec2D` -/
abbrev V2 := ℝ × ℝ

/-- heuristic-tools.hh:13–30 `HeuristicParam`; `T` are transforms, `P` paths (`none`: null pointer) -/
structure HeuristicParam (N T P : Type _) where
  contactPositions : AMap N (Vec3 ℝ)
  comPosition : Vec3 ℝ
  comSpeed : Vec3 ℝ
  comAcceleration : Vec3 ℝ
  sampleLimbName : N
  tfWorldRoot : T
  comPath : Option P
  currentPathId : ℝ
  limbReferenceOffset : Vec3 ℝ

/-- heuristic-tools.cc:18–24: the copy constructor; `junk` are the members it does not initialise (`comPath_` is a null pointer) -/
def HeuristicParam.copy {N T P : Type _} (z : HeuristicParam N T P) (junk : ℝ × Vec3 ℝ) : HeuristicParam N T P :=
  { contactPositions := z.contactPositions, comPosition := z.comPosition, comSpeed := z.comSpeed, comAcceleration := z.comAcceleration,
    sampleLimbName := z.sampleLimbName, tfWorldRoot := z.tfWorldRoot, comPath := none, currentPathId := junk.1, limbReferenceOffset := junk.2 }

/-- heuristic-tools.cc:25–37: the assignment operator -/
def HeuristicParam.assign {N T P : Type _} (this z : HeuristicParam N T P) : HeuristicParam N T P :=
  { this with
    contactPositions := z.contactPositions, comPosition := z.comPosition, comSpeed := z.comSpeed, comAcceleration := z.comAcceleration,
    sampleLimbName := z.sampleLimbName, tfWorldRoot := z.tfWorldRoot }

/-- heuristic-tools.cc:39–45 `transform` -/
def transform (p tr : Vec3 ℝ) (ro : Mat3 ℝ) : Vec3 ℝ :=
  ⟨p.x * ro.r0.x + p.y * ro.r0.y + p.z * ro.r0.z + tr.x,
   p.x * ro.r1.x + p.y * ro.r1.y + p.z * ro.r1.z + tr.y,
   p.x * ro.r2.x + p.y * ro.r2.y + p.z * ro.r2.z + tr.z⟩

/-- heuristic-tools.cc:68–70 `Vec2D::euclideanDist` -/
noncomputable def dist2 (a b : V2) : ℝ := Real.sqrt ((a.1 - b.1) ^ 2 + (a.2 - b.2) ^ 2)

/-- heuristic-tools.cc:71–74 `operator==` -/
def Near (eps : ℝ) (a b : V2) : Prop := |a.1 - b.1| < eps ∧ |a.2 - b.2| < eps

/-- heuristic-tools.hh:81–92 `Plane`: `a x + b y + c z + d = 0` -/
structure Plane where
  a : ℝ
  b : ℝ
  c : ℝ
  d : ℝ

/-- heuristic-tools.cc:90–97 `orthogonalProjection` -/
noncomputable def orthogonalProjection (p : Vec3 ℝ) (pl : Plane) : Vec3 ℝ :=
  let k := (pl.a * p.x + pl.b * p.y + pl.c * p.z + pl.d) / (pl.a ^ 2 + pl.b ^ 2 + pl.c ^ 2)
  ⟨p.x - k * pl.a, p.y - k * pl.b, p.z - k * pl.c⟩

/-- heuristic-tools.cc:99–113 `computeSupportPolygon` -/
noncomputable def supportPolygon {N : Type _} (contacts : AMap N (Vec3 ℝ)) : List V2 :=
  contacts.map fun e => let proj := orthogonalProjection e.2 ⟨0, 0, 1, 0⟩; (proj.x, proj.y)

open Classical in
/-- heuristic-tools.cc:115–129 `computeAngle`; `none`: 0/0 -/
noncomputable def computeAngle (eps : ℝ) (center e1 e2 : V2) : Option ℝ :=
  if Near eps e1 e2 then some 0
  else
    let v1 : V2 := (e1.1 - center.1, e1.2 - center.2)
    let norm1 := Real.sqrt (v1.1 ^ 2 + v1.2 ^ 2)
    let v2 : V2 := (e2.1 - center.1, e2.2 - center.2)
    let norm2 := Real.sqrt (v2.1 ^ 2 + v2.2 ^ 2)
    let sp := v1.1 * v2.1 + v1.2 * v2.2
    if norm1 * norm2 = 0 then none else some (Real.arccos (sp / (norm1 * norm2)))

/-- `a <= b` on numbers that may be NaN [C++ comparison, used in heuristic-tools.cc:131-260] -/
def LeN (a b : Option ℝ) : Prop := ∃ x y, a = some x ∧ b = some y ∧ x ≤ y
/-- `a < b` on numbers that may be NaN [C++ comparison, used in heuristic-tools.cc:131-260] -/
def LtN (a b : Option ℝ) : Prop := ∃ x y, a = some x ∧ b = some y ∧ x < y

open Classical in
/-- heuristic-tools.cc:159–175: the `while (!convex)` loop; the subset is a list whose head is its back.  The result is the subset and `opening`. -/
noncomputable def scanLoop (eps dir : ℝ) (cur : V2) : List V2 → Option ℝ → List V2 × Option ℝ
  | [], opening => ([], opening)
  | [b], opening => ([b], opening)
  | b :: base :: rest, opening =>
    let angle := computeAngle eps base (base.1 + dir, base.2) b
    if LtN angle opening then scanLoop eps dir cur (base :: rest) (computeAngle eps base (base.1 + dir, base.2) cur)
    else (b :: base :: rest, opening)

open Classical in
/-- heuristic-tools.cc:131–180 `scanningProcess`; `hi` is `higher_val`, `dir` is `direction_val`; the state is the subset (its back first) and the angle -/
noncomputable def scan (eps hi dir : ℝ) (base : V2) (st : List V2 × Option ℝ) (cur : V2) : List V2 × Option ℝ :=
  match st.1 with
  | [] => st
  | [b] => ([cur, b], computeAngle eps base (base.1 + dir, base.2) cur)
  | b :: b' :: rest =>
    if hi * cur.2 ≥ hi * b.2 then
      let opening := computeAngle eps b (b.1 + dir, b.2) cur
      if LeN opening st.2 then (cur :: b :: b' :: rest, opening)
      else
        let r := scanLoop eps dir cur (b' :: rest) (computeAngle eps b' (b'.1 + dir, b'.2) cur)
        (cur :: r.1, r.2)
    else st

/-- heuristic-tools.cc:189–197: the first point with the least abscissa, and the list without it -/
noncomputable def splitMin : List V2 → Option (V2 × List V2)
  | [] => none
  | a :: l =>
    match splitMin l with
    | none => some (a, [])
    | some (m, rest) => if m.1 < a.1 then some (m, a :: rest) else some (a, l)

/-- heuristic-tools.cc:187–200: sorting by increasing abscissa; the number is the length of the list -/
noncomputable def sortByX : ℕ → List V2 → List V2
  | 0, _ => []
  | n + 1, l =>
    match splitMin l with
    | none => []
    | some (m, rest) => m :: sortByX n rest

/-- heuristic-tools.cc:203–221 (and 224–241): scanning of the points on one side of the height of the base point.  `above` selects the points of the upper set. -/
noncomputable def scanAll (eps dir : ℝ) (above : Bool) (base : V2) (points : List V2) : List V2 :=
  (points.foldl (fun st p => if (decide (p.2 ≥ base.2)) = above then scan eps (if above then 1 else -1) dir base st p else st) ([base], none)).1

open Classical in
/-- heuristic-tools.cc:256–258: without duplicates -/
noncomputable def dedup (eps : ℝ) (l : List V2) : List V2 :=
  l.foldl (fun res p => if ∃ q ∈ res, Near eps q p then res else res ++ [p]) []

/-- heuristic-tools.cc:182–260 `convexHull` -/
noncomputable def convexHull2 (eps : ℝ) (set : List V2) : List V2 :=
  match sortByX set.length set with
  | [] => []
  | base :: rest =>
    let trUpper := scanAll eps 1 true base rest
    let trLower := scanAll eps 1 false base rest
    let backwards := (base :: rest).reverse
    let baseR := backwards.headD base
    let restR := backwards.tail
    let tlUpper := scanAll eps (-1) true baseR restR
    let tlLower := scanAll eps (-1) false baseR restR
    dedup eps (trUpper.reverse ++ tlUpper ++ tlLower.reverse ++ trLower)

/-- heuristic-tools.cc:279–285: the longest edge of the polygon `a :: l` -/
noncomputable def maxEdge (a : V2) (l : List V2) : ℝ :=
  ((a :: l).zip l).foldl (fun m e => if dist2 e.1 e.2 > m then dist2 e.1 e.2 else m) (dist2 (l.getLastD a) a)

/-- heuristic-tools.cc:289–293: rotate the polygon until its last edge is longer than the threshold; `none`: not within `fuel` rotations -/
noncomputable def shiftLoop (thr : ℝ) : ℕ → V2 → List V2 → Option (V2 × List V2)
  | 0, _, _ => none
  | fuel + 1, a, l =>
    if dist2 (l.getLastD a) a ≤ thr then
      match l with
      | [] => shiftLoop thr fuel a []
      | b :: l' => shiftLoop thr fuel b (l' ++ [a])
    else some (a, l)

/-- heuristic-tools.cc:306–313, 322–329: the mean of some points -/
noncomputable def mean (l : List V2) : V2 := ((l.map Prod.fst).sum / l.length, (l.map Prod.snd).sum / l.length)

/-- heuristic-tools.cc:296–297: the local variables of the loop -/
structure Group where
  final : List V2
  localSubset : List V2
  ongoing : Bool

/-- heuristic-tools.cc:300–321: one step of the loop; `p` and `q` are `shifted[i]` and `shifted[i+1]` -/
noncomputable def groupStep (thr : ℝ) (st : Group) (p q : V2) : Group :=
  if dist2 p q > thr then
    if st.ongoing = false then { st with final := st.final ++ [p] }
    else ⟨st.final ++ [mean (st.localSubset ++ [p])], [], false⟩
  else { st with localSubset := st.localSubset ++ [p], ongoing := true }

/-- heuristic-tools.cc:262–331 `weightedCentroidConvex2D`; outer `none`: exception, inner `none`: the shifting loop does not end within `fuel` rotations -/
noncomputable def weightedCentroid (fuel : ℕ) (polygon : List V2) : Option (Option V2) :=
  match polygon with
  | [] => none
  | [p] => some (some p)
  | [p, q] => some (some ((p.1 + q.1) / 2, (p.2 + q.2) / 2))
  | a :: l =>
    let threshold := maxEdge a l / 10
    match shiftLoop threshold fuel a l with
    | none => some none
    | some (b, m) =>
      let st := ((b :: m).zip (m ++ [b])).foldl (fun st e => groupStep threshold st e.1 e.2) ⟨[], [], false⟩
      some (some (mean st.final))

/-- heuristic-tools.cc:333–347 `removeNonGroundContacts`; `none`: `begin()` of an empty map is read -/
noncomputable def removeNonGround {N : Type _} [LinearOrder N] (contacts : AMap N (Vec3 ℝ)) (thr : ℝ) : Option (AMap N (Vec3 ℝ)) :=
  match contacts with
  | [] => none
  | e :: rest =>
    let minZ := (e :: rest).foldl (fun m c => if c.2.z < m then c.2.z else m) e.2.z
    let out := ((e :: rest).filter fun c => decide (|c.2.z - minZ| > |thr|)).map Prod.fst
    some (out.foldl (fun m n => AMap.erase m n) (e :: rest))

end Heur
end Rbprm
