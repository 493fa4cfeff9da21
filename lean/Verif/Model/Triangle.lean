import Verif.Base.Vec3
import Mathlib.Algebra.Order.Field.Basic
set_option linter.unusedSectionVars false
/-!
# Points and triangles (`src/projection/projection.cc`, lines 506–632)

`double` is replaced by an ordered field: rounding is not modelled.
-/
namespace Rbprm
namespace Triangle
variable {K : Type _} [Field K] [LinearOrder K] [IsStrictOrderedRing K]

/-- projection.cc:507–512 `SameSide` -/
def sameSide (p1 p2 a b : Vec3 K) : Bool :=
  decide (Vec3.dot (Vec3.cross (b - a) (p1 - a)) (Vec3.cross (b - a) (p2 - a)) ≥ 0)

/-- projection.cc:515–518 `PointInTriangle` -/
def pointInTriangle (p a b c : Vec3 K) : Bool := sameSide p a b c && sameSide p b a c && sameSide p c a b

/-- projection.cc:520–522 `clamp` -/
def clamp (val lo hi : K) : K := min (max val lo) hi

/-- projection.cc:535–596: the coordinates `s`, `t` of the result along the edges, from the five dot products -/
def closestCoords (a b c d e : K) : K × K :=
  let det := a * c - b * b
  let s := b * e - c * d
  let t := b * d - a * e
  if s + t < det then
    if s < 0 then
      if t < 0 then
        if d < 0 then (clamp (-d / a) 0 1, 0) else (0, clamp (-e / c) 0 1)
      else (0, clamp (-e / c) 0 1)
    else if t < 0 then (clamp (-d / a) 0 1, 0)
    else
      let invDet := 1 / det
      (s * invDet, t * invDet)
  else
    if s < 0 then
      let tmp0 := b + d
      let tmp1 := c + e
      if tmp1 > tmp0 then
        let numer := tmp1 - tmp0
        let denom := a - 2 * b + c
        let s := clamp (numer / denom) 0 1
        (s, 1 - s)
      else (0, clamp (-e / c) 0 1)
    else if t < 0 then
      if a + d > b + e then
        let numer := c + e - b - d
        let denom := a - 2 * b + c
        let s := clamp (numer / denom) 0 1
        (s, 1 - s)
      else (clamp (-e / c) 0 1, 0)
    else
      let numer := c + e - b - d
      let denom := a - 2 * b + c
      let s := clamp (numer / denom) 0 1
      (s, 1 - s)

/-- projection.cc:524–600 `closestPointInTriangle` with `epsilon = 0`, the value line 632 passes -/
def closestPointInTriangle (source t0 t1 t2 : Vec3 K) : Vec3 K :=
  let edge0 := t1 - t0
  let edge1 := t2 - t0
  let v0 := t0 - source
  let a := Vec3.dot edge0 edge0
  let b := Vec3.dot edge0 edge1
  let c := Vec3.dot edge1 edge1
  let d := Vec3.dot edge0 v0
  let e := Vec3.dot edge1 v0
  let st := closestCoords a b c d e
  t0 + Vec3.smul st.1 edge0 + Vec3.smul st.2 edge1

end Triangle
end Rbprm
