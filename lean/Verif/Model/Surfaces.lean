import Verif.Model.Node
import Verif.Model.Kinematics
set_option linter.unusedSectionVars false
/-!
# Contact surfaces from the meshes of the objects (`src/utils/algorithms.cc`, `src/planner/rbprm-node.cc`)

A `BVHModelOB` is the list of its vertices and the list of the index triples of its triangles.  `double` is an ordered field.  `normalize` stands for Eigen's `normalize()`.
-/
namespace Rbprm
namespace Surface
variable {K : Type _} [Field K] [LinearOrder K] [IsStrictOrderedRing K]

/-- `BVHModel<OBBRSS>`: `vertices` and `tri_indices` [fcl, used in rbprm-shooter.cc:41-58, 317-351] -/
structure Mesh (K : Type _) where
  vertices : List (Vec3 K)
  tris : List (ℕ × ℕ × ℕ)

/-- algorithms.cc:21–36 `GetModel`: the mesh with its vertices in the world; `placement` is the transform of the object -/
def getModel (placement : Reach.Transform K) (m : Mesh K) : Mesh K := { m with vertices := m.vertices.map placement.apply }

/-- `vertices[tri_indices[i][j]]`, j = 0, 1, 2; `none`: an index outside of the vertices [rbprm-shooter.cc:317-351] -/
def Mesh.corners (m : Mesh K) (t : ℕ × ℕ × ℕ) : Option (Vec3 K × Vec3 K × Vec3 K) :=
  match m.vertices[t.1]?, m.vertices[t.2.1]?, m.vertices[t.2.2]? with
  | some a, some b, some c => some (a, b, c)
  | _, _, _ => none

/-- the triangles, in order [rbprm-shooter.cc:317-351] -/
def Mesh.triangles (m : Mesh K) : Option (List (Vec3 K × Vec3 K × Vec3 K)) := m.tris.mapM m.corners

/-- algorithms.cc:15–20 `TriangleNormal` -/
def triangleNormal (normalize : Vec3 K → Vec3 K) (t : Vec3 K × Vec3 K × Vec3 K) : Vec3 K := normalize (Vec3.cross (t.2.1 - t.1) (t.2.2 - t.1))

/-- algorithms.cc:682–693 `computePlanEquation`: normal and first corner of the first triangle; `none`: there is no triangle -/
def computePlanEquation (normalize : Vec3 K → Vec3 K) (m : Mesh K) : Option (Vec3 K × Vec3 K) :=
  match m.tris with
  | [] => none
  | t :: _ => (m.corners t).map fun c => (triangleNormal normalize c, c.1)

/-- algorithms.cc:672–680 `convertBVH` -/
def convertBVH (fuel : ℕ) (m : Mesh K) : Option (List (Vec3 K)) := Geom.convexHull fuel m.vertices

/-- rbprm-node.cc:46–75 `computeIntersectionSurface`, with algorithms.cc:628–670 `intersectPolygonePlane`: the normal `pn` written by `computePlanEquation`, and the
intersection (`none`: the function answers false).  Outer `none`: undefined.  `convertBVH`, which has no effect, is called here even if the intersection with the plane is empty. -/
def surfaceOf (normalize : Vec3 K → Vec3 K) (fuel : ℕ) (rom env : Mesh K) (romPlacement envPlacement : Reach.Transform K) : Option (Vec3 K × Option (List (Vec3 K))) :=
  let modelRom := getModel romPlacement rom
  let modelEnv := getModel envPlacement env
  match computePlanEquation normalize modelEnv, modelRom.triangles, convertBVH fuel modelEnv with
  | some (pn, p0), some tris, some hull => (Node.intersectionSurface fuel tris hull pn p0).map fun r => (pn, r)
  | _, _, _ => none

/-! ### clipping with iterators -/

/-- algorithms.cc:265–282: the loop over the vertices for the edge `a b`; `e` is the previous vertex -/
def walk (junk : K) (a b : Vec3 K) : Vec3 K → List (Vec3 K) → List (Vec3 K)
  | _, [] => []
  | e, s :: l =>
    let dirE := Geom.isLeft a b e
    let dirS := Geom.isLeft a b s
    if dirE < 0 then
      if dirS < 0 then s :: walk junk a b s l else Geom.lineSect junk s e a b :: walk junk a b s l
    else if dirS < 0 then Geom.lineSect junk s e a b :: s :: walk junk a b s l
    else walk junk a b s l

/-- algorithms.cc:283–286: the next input: closed if it has more than three points -/
def nextInput (out : List (Vec3 K)) : List (Vec3 K) := if 3 < out.length then out ++ out.head?.toList else out

/-- algorithms.cc:261–288: the loop over the edges; `poly` are the points from `from` to `to`, `input` is `inputList`.  `none`: `*from` of an empty range is read -/
def clipIterators (junk : K) : List (Vec3 K) → List (Vec3 K) → List (Vec3 K) → Option (List (Vec3 K))
  | a :: b :: clip, poly, _ =>
    match poly with
    | [] => none
    | e :: l =>
      let out := walk junk a b e l
      if out = [] then some [] else clipIterators junk (b :: clip) (nextInput out) (nextInput out)
  | _, _, input => some input

/-- algorithms.cc:257–288 `compute2DIntersection(subBegin, subEndHull, clipBegin, clipEndHull)`; for an empty clipping polygon the loop condition `clipEndHull - 1` is undefined -/
def compute2DIntersectionIt (junk : K) (sub clip : List (Vec3 K)) : Option (List (Vec3 K)) :=
  if clip = [] then none else clipIterators junk clip sub []

/-! ### the centre of a planar polygon -/

/-- algorithms.cc:109–127 `centerPlanar`; `n3` is what `n[3]`, outside of the three coordinates of `n`, holds.  `none`: without points the bound of the loop, `size() - 1`, wraps around -/
def centerPlanar (n3 : K) (points : List (Vec3 K)) (n : Vec3 K) (t : K) : Option (Vec3 K) :=
  if points = [] then none
  else
    let a := Geom.area points
    let s := Geom.centroidSums points
    let cx := s.2.1 / (6 * a)
    let cy := s.2.2 / (6 * a)
    some ⟨cx, cy, -(n.x * cx + n.y * cy + t) / n3⟩

/-- algorithms.cc:129–133 `projectZ` -/
def projectZ (points : List (Vec3 K)) : List (Vec3 K) := points.map fun p => { p with z := 0 }

end Surface
end Rbprm
