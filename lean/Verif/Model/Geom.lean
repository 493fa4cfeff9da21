import Verif.Base.Vec3
import Mathlib.Algebra.Order.Field.Basic
set_option linter.unusedSectionVars false
/-!
# Planar geometry (`src/utils/algorithms.cc`)

`double` is replaced by an ordered field: rounding is not modelled.  Distances are represented by their squares.
-/
namespace Rbprm
namespace Geom
variable {K : Type _} [Field K] [LinearOrder K] [IsStrictOrderedRing K]

/-- algorithms.cc:40–42 `isLeft` -/
def isLeft (lA lB p2 : Vec3 K) : K := (lB.x - lA.x) * (p2.y - lA.y) - (p2.x - lA.x) * (lB.y - lA.y)

/-- algorithms.cc:44–52 `leftMost`, the loop -/
def leftMostFrom (res : Vec3 K) : List (Vec3 K) → Vec3 K
  | [] => res
  | c :: l => leftMostFrom (if c.x < res.x then c else res) l

/-- algorithms.cc:142–150: the inner loop of `convexHull`; `res` is the vector built so far -/
def wrapFrom (res : List (Vec3 K)) (pointOnHull : Vec3 K) (lastPoint : Vec3 K) : List (Vec3 K) → Vec3 K
  | [] => lastPoint
  | c :: l =>
    if lastPoint = pointOnHull ∨ isLeft pointOnHull lastPoint c > 0 then
      if c ∉ res ∨ res.head? = some c then wrapFrom res pointOnHull c l else wrapFrom res pointOnHull lastPoint l
    else wrapFrom res pointOnHull lastPoint l

/-- algorithms.cc:140–154, the `do … while` loop; `none`: not ended after `fuel` rounds (the code has no such bound).
In the first round `res` is empty and `*(res.begin())` (line 146) is read only when `std::find` finds `*current`, which is impossible. -/
def hullLoop (p0 : Vec3 K) (ps : List (Vec3 K)) : ℕ → List (Vec3 K) → Vec3 K → Option (List (Vec3 K))
  | 0, _, _ => none
  | fuel + 1, res, pointOnHull =>
    let lastPoint := wrapFrom res pointOnHull p0 ps
    let res := res ++ [pointOnHull]
    if res.head? ≠ some lastPoint then hullLoop p0 ps fuel res lastPoint else some (res ++ [lastPoint])

/-- algorithms.cc:135–157 `convexHull` -/
def convexHull (fuel : ℕ) : List (Vec3 K) → Option (List (Vec3 K))
  | [] => some []
  | p0 :: ps => hullLoop p0 ps fuel [] (leftMostFrom p0 ps)

/-- algorithms.cc:173–178: the loop over the edges -/
def rightOfEdges : List (Vec3 K) → Vec3 K → Bool
  | a :: b :: l, p => if isLeft a b p > 0 then false else rightOfEdges (b :: l) p
  | _, _ => true

/-- algorithms.cc:158–179 `containsHull`; `sqrt(x*x + y*y) < epsilon` is written with squares (`epsilon` is positive in all calls) -/
def containsHull (hull : List (Vec3 K)) (aPoint : Vec3 K) (epsilon : K) : Bool :=
  match hull with
  | [] => false
  | [h] => decide ((aPoint.x - h.x) * (aPoint.x - h.x) + (aPoint.y - h.y) * (aPoint.y - h.y) < epsilon * epsilon)
  | [h, h'] => decide ((h'.x - h.x) * (h'.x - h.x) + (h'.y - h.y) * (h'.y - h.y) < epsilon * epsilon)
  | hull => rightOfEdges hull aPoint

/-- algorithms.cc:181–184 `contains` -/
def contains (fuel : ℕ) (points : List (Vec3 K)) (aPoint : Vec3 K) (epsilon : K) : Option Bool :=
  (convexHull fuel points).map (containsHull · aPoint epsilon)

/-- algorithms.cc:186–212 `lineSect`; the third coordinate of the result is never written, `junk` stands for what it holds -/
def lineSect (junk : K) (p1 p2 p3 p4 : Vec3 K) : Vec3 K :=
  let d := (p1.x - p2.x) * (p3.y - p4.y) - (p1.y - p2.y) * (p3.x - p4.x)
  let pre := p1.x * p2.y - p1.y * p2.x
  let post := p3.x * p4.y - p3.y * p4.x
  ⟨(pre * (p3.x - p4.x) - (p1.x - p2.x) * post) / d, (pre * (p3.y - p4.y) - (p1.y - p2.y) * post) / d, junk⟩

/-- algorithms.cc:214–255 `lineSect3D` -/
def lineSect3D (p1 p2 p3 p4 : Vec3 K) : Vec3 K :=
  let u := p2 - p1
  let d := (p1.x - p2.x) * (p3.y - p4.y) - (p1.y - p2.y) * (p3.x - p4.x)
  let pre := p1.x * p2.y - p1.y * p2.x
  let post := p3.x * p4.y - p3.y * p4.x
  let x := (pre * (p3.x - p4.x) - (p1.x - p2.x) * post) / d
  let y := (pre * (p3.y - p4.y) - (p1.y - p2.y) * post) / d
  let t := if u.x ≠ 0 then (x - p1.x) / u.x else if u.y ≠ 0 then (y - p1.y) / u.y else 1
  ⟨x, y, p1.z + t * u.z⟩

/-- algorithms.cc:300–317 (and 332–349): the loop over the vertices for one edge `a b` of the clipping polygon; `sect` is `lineSect` or `lineSect3D`;
`s` is the previous vertex.  The `outputList` is returned in order. -/
def clipEdge (sect : Vec3 K → Vec3 K → Vec3 K → Vec3 K → Vec3 K) (a b : Vec3 K) : Vec3 K → List (Vec3 K) → List (Vec3 K)
  | _, [] => []
  | s, e :: l =>
    let dirS := isLeft a b s
    let dirE := isLeft a b e
    if dirE ≤ 0 then
      if dirS > 0 then sect s e a b :: e :: clipEdge sect a b e l else e :: clipEdge sect a b e l
    else if dirS ≤ 0 then sect s e a b :: clipEdge sect a b e l
    else clipEdge sect a b e l

/-- algorithms.cc:294–318 (and 326–350): the loop over the edges of the clipping polygon.  `none`: line 298 (330) reads the element before the
first one of an empty list. -/
def clipLoop (sect : Vec3 K → Vec3 K → Vec3 K → Vec3 K → Vec3 K) : List (Vec3 K) → List (Vec3 K) → Option (List (Vec3 K))
  | a :: b :: clip, input =>
    match input.getLast? with
    | none => none
    | some s => clipLoop sect (b :: clip) (clipEdge sect a b s input)
  | _, input => some input

/-- algorithms.cc:290–320 `compute2DIntersection(subPolygon, clipPolygon)`; with an empty `clipPolygon` the loop condition `end() - 1` is undefined,
taken as `none` -/
def compute2DIntersection (junk : K) (sub clip : List (Vec3 K)) : Option (List (Vec3 K)) :=
  if clip = [] then none else clipLoop (lineSect junk) clip sub

/-- algorithms.cc:322–368 `compute3DIntersection` -/
def compute3DIntersection (fuel : ℕ) (sub clip : List (Vec3 K)) : Option (List (Vec3 K)) :=
  if clip = [] then none else (clipLoop lineSect3D clip sub).bind (convexHull fuel)

/-- algorithms.cc:370–372 `distanceToPlane(n, t, v)` -/
def distanceToPlaneOffset (n : Vec3 K) (t : K) (v : Vec3 K) : K := Vec3.dot n v - t

/-- algorithms.cc:374–377 `distanceToPlane(point, Pn, P0)` -/
def distanceToPlane (point pn p0 : Vec3 K) : K := |Vec3.dot (point - p0) pn|

/-- algorithms.cc:379–387 `projectPointOnPlane` -/
def projectPointOnPlane (point pn p0 : Vec3 K) : Vec3 K :=
  let v := point - p0
  let d := Vec3.dot v pn
  point - Vec3.smul d pn

/-- sum of points, algorithms.cc:73–78 -/
def sumPoints : List (Vec3 K) → Vec3 K
  | [] => 0
  | p :: l => p + sumPoints l

/-- algorithms.cc:68–84 `center`: the mean of all points but the last -/
def center (points : List (Vec3 K)) : Vec3 K :=
  let l := points.dropLast
  let s := sumPoints l
  ⟨s.x / l.length, s.y / l.length, s.z / l.length⟩

/-- algorithms.cc:411–418: the loop of `projectPointInsidePlan` over the edges; `best` is `(res, d_min)` (squared), `none` before the first improvement
(`d_min` is the largest number then, and `res` keeps what the caller had put there).  When the edge is parallel to the line, `lineSect3D` divides by zero: its
result is infinite or not a number, and the comparison of line 415 is false. -/
def insideLoop (projOrtho c point : Vec3 K) : List (Vec3 K) → Option (Vec3 K × K) → Option (Vec3 K × K)
  | e :: e' :: l, best =>
    let proj := lineSect3D projOrtho c e e'
    let d := Vec3.distSq proj point
    let best' :=
      if (projOrtho.x - c.x) * (e.y - e'.y) - (projOrtho.y - c.y) * (e.x - e'.x) = 0 then best
      else match best with
        | none => some (proj, d)
        | some (r, dMin) => if d < dMin then some (proj, d) else some (r, dMin)
    insideLoop projOrtho c point (e' :: l) best'
  | _, best => best

/-- algorithms.cc:389–423 `projectPointInsidePlan`: the result and the (squared) distance that is returned; `none`: the result is not written -/
def projectPointInsidePlan (plan : List (Vec3 K)) (point pn p0 : Vec3 K) : Option (Vec3 K × K) :=
  let projOrtho := projectPointOnPlane point pn p0
  if containsHull plan projOrtho (1 / 10000) then some (projOrtho, Vec3.distSq projOrtho point)
  else insideLoop projOrtho (center plan) point plan none

/-- include/hpp/rbprm/utils/algorithms.h:42 -/
def epsilon : K := 1 / 100000

/-- algorithms.cc:602–626 `intersectSegmentPlane` -/
def intersectSegmentPlane (s0 s1 pn p0 : Vec3 K) : List (Vec3 K) :=
  let u := s1 - s0
  let w := s0 - p0
  let d := Vec3.dot pn u
  let n := - Vec3.dot pn w
  if |d| < epsilon then
    if |n| < epsilon then [s0, s1] else []
  else
    let di := n / d
    if di < 0 ∨ di > 1 then [] else [s0 + Vec3.smul di u]

/-- algorithms.cc:640–649: the three edges of a triangle against the plane -/
def intersectTriPlane (t : Vec3 K × Vec3 K × Vec3 K) (pn p0 : Vec3 K) : List (Vec3 K) :=
  intersectSegmentPlane t.1 t.2.1 pn p0 ++ intersectSegmentPlane t.2.1 t.2.2 pn p0 ++ intersectSegmentPlane t.2.2 t.1 pn p0

/-- algorithms.cc:628–670 `intersectPolygonePlane`, the plane being given by a normal and a point (`computePlanEquation`, 682–693, reads them off the first
triangle of the other model) -/
def intersectPolygonePlane (fuel : ℕ) (tris : List (Vec3 K × Vec3 K × Vec3 K)) (pn p0 : Vec3 K) : Option (List (Vec3 K)) :=
  let res := tris.flatMap (fun t => intersectTriPlane t pn p0)
  if res = [] then some [] else convexHull fuel res

/-- algorithms.cc:438–453 `insideTriangle` -/
def insideTriangle (a b c p : Vec3 K) : Bool :=
  let n := Vec3.cross (b - a) (c - a)
  let pa := a - p
  let pb := b - p
  let pc := c - p
  if Vec3.dot (Vec3.cross pb pc) n < -epsilon then false
  else if Vec3.dot (Vec3.cross pc pa) n < -epsilon then false
  else if Vec3.dot (Vec3.cross pa pb) n < -epsilon then false
  else true

/-- algorithms.cc:515–523: one vertex is put with the negative one or appended to the (two-element) arrays of the others.
State: `(dneg, pneg)` and the list of `(dpos, ppos)` written so far; `none`: an element after the end of the arrays is written. -/
def sortVertex (st : Option ((K × Vec3 K) × List (K × Vec3 K))) (dk : K × Vec3 K) : Option ((K × Vec3 K) × List (K × Vec3 K)) :=
  match st with
  | none => none
  | some (neg, pos) => if dk.1 < 0 then some (dk, pos) else if pos.length < 2 then some (neg, pos ++ [dk]) else none

/-- algorithms.cc:481–544 `intersectTriangles(tri, tri2)`; `n2`, `t2` (lines 485–486) are given.  `none`: undefined behaviour, that is a write after the end
of `dpos`/`ppos`, or `dpos[1]`/`pneg` read without having been written. -/
def intersectTriangles (tri tri2 : Vec3 K × Vec3 K × Vec3 K) (n2 : Vec3 K) (t2 : K) : Option (List (Vec3 K)) :=
  let d0 := distanceToPlaneOffset n2 t2 tri.1
  let d1 := distanceToPlaneOffset n2 t2 tri.2.1
  let d2 := distanceToPlaneOffset n2 t2 tri.2.2
  let num := (if d0 < epsilon then 1 else 0) + (if d1 < epsilon then 1 else 0) + (if d2 < epsilon then 1 else 0)
  if num > 2 then some []
  else
    let sg : K := if num = 2 then -1 else 1
    match [(sg * d0, tri.1), (sg * d1, tri.2.1), (sg * d2, tri.2.2)].foldl sortVertex (some ((0, 0), [])) with
    | some ((dneg, pneg), [(dp0, pp0), (dp1, pp1)]) =>
      let i1 := pneg + Vec3.smul (dneg / (dneg - dp0)) (pp0 - pneg)
      let i2 := pneg + Vec3.smul (dneg / (dneg - dp1)) (pp1 - pneg)
      some ((if insideTriangle tri2.1 tri2.2.1 tri2.2.2 i1 then [i1] else []) ++ (if insideTriangle tri2.1 tri2.2.1 tri2.2.2 i2 then [i2] else []))
    | _ => none

/-- algorithms.cc:59–61: the sum over the inner vertices; `prev` is the vertex before the first of the list -/
def areaSum (prev : Vec3 K) : List (Vec3 K) → K
  | c :: n :: l => c.x * (n.y - prev.y) + areaSum c (n :: l)
  | _ => 0

/-- algorithms.cc:54–66 `area`.  With exactly two points the loop is empty (`pointsBegin + 1 = pointsEnd - 1`) and lines 62–63 give
`x₁ (y₁ - y₀) / 2`. -/
def area (points : List (Vec3 K)) : K :=
  match points with
  | p0 :: p1 :: l =>
    let last := (p1 :: l).getLast (by simp)
    let beforeLast := ((p0 :: p1 :: l).dropLast).getLast (by simp)
    |(areaSum p0 (p1 :: l) + last.x * (p1.y - beforeLast.y)) / 2|
  | _ => 0

/-- algorithms.cc:93–99: the sums of `centroid` -/
def centroidSums : List (Vec3 K) → K × K × K
  | p :: q :: l =>
    let r := centroidSums (q :: l)
    let w := p.x * q.y - q.x * p.y
    (w + r.1, (p.x + q.x) * w + r.2.1, (p.y + q.y) * w + r.2.2)
  | _ => (0, 0, 0)

/-- algorithms.cc:87–107 `centroid`: the point and the signed area -/
def centroid (points : List (Vec3 K)) : Vec3 K × K :=
  let s := centroidSums points
  let area := s.1 / 2
  (⟨s.2.1 / (6 * area), s.2.2 / (6 * area), 0⟩, area)

end Geom
end Rbprm
