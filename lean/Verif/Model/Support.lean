import Verif.Base.Vec3
import Mathlib.Algebra.Order.Field.Basic
set_option linter.unusedSectionVars false
/-!
# Support polygon (`src/stability/support.cc`)

`double` is replaced by an ordered field: rounding is not modelled.  Norms are compared through their squares (both sides
of every comparison are norms or positive constants, so this is the same comparison).
-/
namespace Rbprm
namespace Support
variable {K : Type _} [Field K] [LinearOrder K] [IsStrictOrderedRing K]

/-- support.cc:22–25 `isLeft`: positive iff `p2` is left of the line from `p0` to `p1`, seen from above -/
def isLeft (p0 p1 p2 : Vec3 K) : K := (p1.x - p0.x) * (p2.y - p0.y) - (p2.x - p0.x) * (p1.y - p0.y)

/-- support.cc:29–33, the loop of `LeftMost`; `i` is the element the index designates -/
def leftMostFrom (i : Vec3 K) : List (Vec3 K) → Vec3 K
  | [] => i
  | p :: l => leftMostFrom (if p.x < i.x then p else i) l

/-- support.cc:27–35 `LeftMost(points)`, for `points = p0 :: ps` (the code reads `points[0]` whatever the size) -/
def leftMost (p0 : Vec3 K) (ps : List (Vec3 K)) : Vec3 K := leftMostFrom p0 ps

/-- support.cc:48–52: the loop over `points[1..]` that looks for the next corner of the hull; `pi = pointOnHull` -/
def wrapFrom (pi : Vec3 K) (endPoint : Vec3 K) : List (Vec3 K) → Vec3 K
  | [] => endPoint
  | p :: l => wrapFrom pi (if endPoint = pi ∨ isLeft pi endPoint p > 0 then p else endPoint) l

/-- support.cc:46–52: `endPoint` at the end of one round -/
def wrap (p0 : Vec3 K) (ps : List (Vec3 K)) (pi : Vec3 K) : Vec3 K := wrapFrom pi p0 ps

/-- support.cc:44–55, the `do … while` loop; `res` is the vector under construction, `pi` is `pointOnHull`.
`none`: the loop has not ended after `fuel` rounds (the code has no such bound). -/
def hullLoop (p0 : Vec3 K) (ps : List (Vec3 K)) : ℕ → List (Vec3 K) → Vec3 K → Option (List (Vec3 K))
  | 0, _, _ => none
  | fuel + 1, res, pi =>
    let endPoint := wrap p0 ps pi
    let res := res ++ [pi]
    if res.head? ≠ some endPoint then hullLoop p0 ps fuel res endPoint else some (res ++ [endPoint])

/-- support.cc:39–58 `ConvexHull(points)`, `points = p0 :: ps` -/
def convexHull (fuel : ℕ) (p0 : Vec3 K) (ps : List (Vec3 K)) : Option (List (Vec3 K)) :=
  hullLoop p0 ps fuel [] (leftMost p0 ps)

/-- squared norm of the difference of the horizontal parts [support.cc:60-90] -/
def distSq2 (a b : Vec3 K) : K := (a.x - b.x) * (a.x - b.x) + (a.y - b.y) * (a.y - b.y)

/-- support.cc:60–84 `DistancePointSegment`, squared.  For a segment parallel to an axis the code divides by zero:
`Xint` or `Yint` is not a number, the test of line 77 is false and the closest end is taken; modelled as such. -/
def distancePointSegmentSq (pt A B : Vec3 K) : K :=
  let closestEnd := min (distSq2 pt A) (distSq2 pt B)
  if A.x = B.x ∨ A.y = B.y then closestEnd
  else
    let a := (A.y - B.y) / (A.x - B.x)
    let b := B.y - a * B.x
    let c := -(1 / a)
    let d := pt.y - pt.x * c
    let xInt := (d - b) / (c - a)
    let yInt := a * xInt + b
    let inter : Vec3 K := ⟨xInt, yInt, 0⟩
    if (xInt - A.x) * (B.x - A.x) + (yInt - A.y) * (B.y - A.y) > 0 ∧ distSq2 inter A < distSq2 B A then distSq2 pt inter
    else closestEnd

/-- support.cc:11 `Epsilon` -/
def epsilon : K := 1 / 1000

/-- support.cc:109–121: what one edge adds to the winding number -/
def windStep (a b P : Vec3 K) : ℤ :=
  if a.y ≤ P.y then (if b.y > P.y then (if isLeft a b P > 0 then 1 else 0) else 0)
  else (if b.y ≤ P.y then (if isLeft a b P < 0 then -1 else 0) else 0)

/-- support.cc:108–122: the loop over the edges -/
def winding : List (Vec3 K) → Vec3 K → ℤ
  | a :: b :: l, P => windStep a b P + winding (b :: l) P
  | _, _ => 0

/-- support.cc:92–124 `InPolygon` -/
def inPolygon (points : List (Vec3 K)) (P : Vec3 K) : Bool :=
  match points with
  | [] => false
  | [p0] => decide (distSq2 P p0 < epsilon * epsilon)
  | [p0, p1] => decide (distancePointSegmentSq P p0 p1 < epsilon * epsilon)
  | points => decide (winding points P ≠ 0)

/-- one contact of the support: its position and the half sizes `xs[i]`, `ys[i]` of its rectangle [support.cc:128-144, stability.cc:45-98] -/
structure Foot (K : Type _) where
  pos : Vec3 K
  xs : K
  ys : K

/-- support.cc:136–140: the corners of one contact, in the order of the code -/
def corners (f : Foot K) : List (Vec3 K) :=
  [f.pos + ⟨f.xs, f.ys, 0⟩, f.pos + ⟨-f.xs, f.ys, 0⟩, f.pos + ⟨-f.xs, -f.ys, 0⟩, f.pos + ⟨f.xs, -f.ys, 0⟩]

/-- support.cc:135–141: `points` before the hull -/
def allCorners (feet : List (Foot K)) : List (Vec3 K) := feet.flatMap corners

/-- support.cc:128–144 `Contains`; the flat vectors `support`, `xs`, `ys` are given contact by contact.
`none`: the hull has not been computed within `fuel` rounds. -/
def contains (fuel : ℕ) (feet : List (Foot K)) (aPoint : Vec3 K) : Option Bool :=
  match allCorners feet with
  | [] => some false
  | p0 :: ps => (convexHull fuel p0 ps).map (inPolygon · aPoint)

end Support
end Rbprm
