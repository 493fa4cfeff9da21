import Verif.Base.AMap
import Verif.Base.Vec3
import Mathlib.Algebra.Order.Field.Basic
set_option linter.unusedSectionVars false
/-!
# Model of `rbprm-shooter.cc`

Numbers are a linearly ordered field `K`; `sqrt`, `cos`, `sin` are parameters, instantiated by the real functions in the
theorems that depend on them.  Random numbers, the uniform shooter of hpp-core and the configuration validation are
functions of a state `ω` (the random generator and the validator); `rand()/RAND_MAX` is one number.
-/
namespace Rbprm
namespace Shoot

/-- `Eigen::Quaterniond` (coefficients in the order of `coeffs()`) [Eigen, used in rbprm-shooter.cc:118-178] -/
structure Quat (K : Type _) where
  x : K
  y : K
  z : K
  w : K
deriving DecidableEq, Repr

/-- a configuration: root translation (0-2), root rotation (3-6), everything else [rbprm-shooter.cc:85-178] -/
structure Config (K : Type _) where
  trans : Vec3 K
  rot : Quat K
  rest : List K
deriving DecidableEq, Repr

/-- rbprm-shooter.hh `TrianglePoints` [rbprm-shooter.hh:32-40] -/
structure Tri (K : Type _) where
  p1 : Vec3 K
  p2 : Vec3 K
  p3 : Vec3 K
deriving DecidableEq, Repr

/-- bounds of the root translation, `none` for an unbounded coordinate (the code then clamps to the range of `double`) [rbprm-shooter.cc:69-116] -/
structure Bounds (K : Type _) where
  x : Option (K × K)
  y : Option (K × K)
  z : Option (K × K)

/-- `(inf, sup)` for the rotations around z, y, x (rbprm-shooter.hh:75-82) -/
structure Euler (K : Type _) where
  z : K × K
  y : K × K
  x : K × K

variable {K ω : Type _} [Field K] [LinearOrder K]

/-! ### geometry -/

/-- rbprm-shooter.cc:60-67 `TriangleArea`. -/
def triangleArea (sqrt : K → K) (tri : Tri K) : K :=
  let a := sqrt (Vec3.normSq (tri.p1 - tri.p2))
  let b := sqrt (Vec3.normSq (tri.p2 - tri.p3))
  let c := sqrt (Vec3.normSq (tri.p3 - tri.p1))
  let s := 1 / 2 * (a + b + c)
  sqrt (s * (s - a) * (s - b) * (s - c))

/-- `normalize()` / `normalized()` of Eigen. [Eigen, used in rbprm-shooter.cc:317-351, 400-477] -/
def normalize (sqrt : K → K) (v : Vec3 K) : Vec3 K :=
  if 0 < Vec3.normSq v then Vec3.smul (1 / sqrt (Vec3.normSq v)) v else v

/-- rbprm-shooter.cc:69-92: one coordinate of `SetConfigTranslation` and `Translate`. -/
def clamp (b : Option (K × K)) (x : K) : K :=
  match b with
  | none => x
  | some (lo, hi) => min hi (max lo x)

/-- rbprm-shooter.cc:85-92 `SetConfigTranslation`. -/
def setConfigTranslation (b : Bounds K) (config : Config K) (t : Vec3 K) : Config K :=
  { config with trans := ⟨clamp b.x t.x, clamp b.y t.y, clamp b.z t.z⟩ }

/-- rbprm-shooter.cc:94-102 `Translate`. -/
def translate (b : Bounds K) (config : Config K) (t : Vec3 K) : Config K :=
  { config with trans := ⟨clamp b.x (config.trans.x + t.x), clamp b.y (config.trans.y + t.y),
      clamp b.z (config.trans.z + t.z)⟩ }

/-- quaternion product [Eigen, used in rbprm-shooter.cc:118-178] -/
def Quat.mul (a b : Quat K) : Quat K where
  w := a.w * b.w - a.x * b.x - a.y * b.y - a.z * b.z
  x := a.w * b.x + a.x * b.w + a.y * b.z - a.z * b.y
  y := a.w * b.y + a.y * b.w + a.z * b.x - a.x * b.z
  z := a.w * b.z + a.z * b.w + a.x * b.y - a.y * b.x

/-- `Eigen::AngleAxisd` converted to a quaternion [Eigen, used in rbprm-shooter.cc:118-178] -/
def angleAxis (cos sin : K → K) (angle : K) (axis : Vec3 K) : Quat K :=
  ⟨sin (angle / 2) * axis.x, sin (angle / 2) * axis.y, sin (angle / 2) * axis.z, cos (angle / 2)⟩

/-! ### weighted triangles -/

/-- rbprm-shooter.cc:319-341: areas, normals and triangles of the surfaces; a surface without triangle model is a null
pointer (`none`). -/
def collectTriangles (sqrt : K → K) : List (Option (List (Tri K))) → Option (List (K × Vec3 K × Tri K))
  | [] => some []
  | none :: _ => none
  | some tris :: rest =>
    (collectTriangles sqrt rest).map (fun l => tris.map (fun tri =>
      (triangleArea sqrt tri, normalize sqrt (Vec3.cross (tri.p2 - tri.p1) (tri.p3 - tri.p1)), tri)) ++ l)

/-- rbprm-shooter.cc:342-349 the second loop of `InitWeightedTriangles`.  Simplified: when all areas are 0 the code computes 0/0 (not a number), the model 0. -/
def cumulate (sum : K) : K → List K → List K
  | _, [] => []
  | previousWeight, w :: ws => (previousWeight + w / sum) :: cumulate sum (previousWeight + w / sum) ws

/-- rbprm-shooter.hh:118-127 -/
structure Shooter (K : Type _) where
  shootLimit : Nat
  displacementLimit : Nat
  weights : List K
  triangles : List (Vec3 K × Tri K)
  ratioWeighted : K
  eulerSo3 : Option (Euler K)
  bounds : Bounds K

/-- rbprm-shooter.cc:317-351 `InitWeightedTriangles`: weights and triangles. -/
def initWeightedTriangles (sqrt : K → K) (geometries : List (Option (List (Tri K)))) :
    Option (List K × List (Vec3 K × Tri K)) :=
  (collectTriangles sqrt geometries).map (fun l =>
    (cumulate ((l.map Prod.fst).foldl (· + ·) 0) 0 (l.map Prod.fst), l.map Prod.snd))

/-- rbprm-shooter.cc:353-356 `RandomPointIntriangle`: `none` for an empty list (`rand() % 0`). -/
def randomTriangle (triangles : List (Vec3 K × Tri K)) (draw : Nat) : Option (Vec3 K × Tri K) :=
  if triangles.length = 0 then none else triangles[draw % triangles.length]?

/-- rbprm-shooter.cc:361-364 the loop of `WeightedTriangle`. -/
def weightedLoop (r : K) : List K → List (Vec3 K × Tri K) → Option (Vec3 K × Tri K)
  | w :: ws, t :: ts => if w ≥ r then some t else weightedLoop r ws ts
  | _, _ => none

/-- rbprm-shooter.cc:358-366 `WeightedTriangle`; `none` for an empty list (`triangles_[-1]`). -/
def weightedTriangle (weights : List K) (triangles : List (Vec3 K × Tri K)) (r : K) : Option (Vec3 K × Tri K) :=
  match weightedLoop r weights triangles with
  | some t => some t
  | none => triangles.getLast?

/-- rbprm-shooter.cc:419-420 the point of the triangle. -/
def pointInTriangle (sqrt : K → K) (tri : Tri K) (r1 r2 : K) : Vec3 K :=
  Vec3.smul (1 - sqrt r1) tri.p1 + Vec3.smul (sqrt r1 * (1 - r2)) tri.p2 + Vec3.smul (sqrt r1 * r2) tri.p3

/-! ### shooting -/

/-- what a validation tells the shooter: the answer, and, for a trunk in collision, the normal of the contact triangle
(not normalised) and the penetration depth [rbprm-shooter.cc:377-477] -/
structure Verdict (K : Type _) where
  accepted : Bool
  trunkInCollision : Bool
  normal : Vec3 K
  depth : K

/-- the environment of the shooter [rbprm-shooter.cc:353-477] -/
structure ShootEnv (K ω : Type _) where
  uniform : ω → Config K → ω × Config K
  rand : ω → ω × K
  randInt : ω → ω × Nat
  validate : ω → Config K → ω × Verdict K
  sqrt : K → K
  cos : K → K
  sin : K → K

/-- rbprm-shooter.cc:122-125: the three angles, from three random numbers. -/
def eulerAngles (e : Euler K) (r : Vec3 K) : Vec3 K :=
  ⟨e.z.1 + (e.z.2 - e.z.1) * r.x, e.y.1 + (e.y.2 - e.y.1) * r.y, e.x.1 + (e.x.2 - e.x.1) * r.z⟩

/-- rbprm-shooter.cc:127-129: the quaternion of Euler angles (z, y, x). -/
def eulerQuat (cos sin : K → K) (rot : Vec3 K) : Quat K :=
  ((angleAxis cos sin rot.x ⟨0, 0, 1⟩).mul (angleAxis cos sin rot.y ⟨0, 1, 0⟩)).mul
    (angleAxis cos sin rot.z ⟨1, 0, 0⟩)

/-- rbprm-shooter.cc:118-136 `SampleRotation`. -/
def sampleRotation (env : ShootEnv K ω) (so3 : Option (Euler K)) (w : ω) (config : Config K) : ω × Config K :=
  match so3 with
  | none => (w, config)
  | some e =>
    let a := env.rand w
    let b := env.rand a.1
    let c := env.rand b.1
    (c.1, { config with rot := eulerQuat env.cos env.sin (eulerAngles e ⟨a.2, b.2, c.2⟩) })

/-- rbprm-shooter.cc:368-375 `randConfigAtPos`. -/
def randConfigAtPos (env : ShootEnv K ω) (s : Shooter K) (p : Vec3 K) (w : ω) (config : Config K) : ω × Config K :=
  let u := env.uniform w config
  sampleRotation env s.eulerSo3 u.1 (setConfigTranslation s.bounds u.2 p)

/-- rbprm-shooter.cc:440-456 the loop trying to reach a ROM; returns `found`. -/
def reachLoop (env : ShootEnv K ω) (s : Shooter K) (p lastDirection : Vec3 K) :
    Nat → ω → Config K → ω × Config K × Bool
  | 0, w, config => (w, config, false)
  | limitDis + 1, w, config =>
    let c := randConfigAtPos env s p w config
    let v1 := env.validate c.1 c.2
    let moved : ω × Config K := if v1.2.accepted then (v1.1, c.2) else
      let r := env.rand v1.1
      (r.1, translate s.bounds c.2 (Vec3.smul (1 / 5 * r.2) (-lastDirection)))
    let v2 := env.validate moved.1 moved.2
    if v2.2.accepted then (v2.1, moved.2, true)
    else if v2.2.trunkInCollision then (v2.1, moved.2, false)
    else reachLoop env s p lastDirection limitDis v2.1 moved.2

/-- rbprm-shooter.cc:430-471 the loop of displacements; returns `found`. -/
def displaceLoop (env : ShootEnv K ω) (s : Shooter K) (p : Vec3 K) : Nat → Vec3 K → ω → Config K → ω × Config K × Bool
  | 0, _, w, config => (w, config, false)
  | limitDis + 1, lastDirection, w, config =>
    let v := env.validate w config
    if v.2.accepted then (v.1, config, true)
    else if !v.2.trunkInCollision then reachLoop env s p lastDirection (limitDis + 1) v.1 config
    else
      let n := normalize env.sqrt v.2.normal
      displaceLoop env s p limitDis n v.1 (translate s.bounds config (Vec3.smul (|v.2.depth| + 3 / 100) n))

/-- rbprm-shooter.cc:407-424 and the loop of l.430: one shot. -/
def shootOnce (env : ShootEnv K ω) (s : Shooter K) (w : ω) (config : Config K) : Option (ω × Config K × Bool) :=
  let r := env.rand w
  let sampled : ω × Option (Vec3 K × Tri K) :=
    if r.2 > s.ratioWeighted then
      let d := env.randInt r.1
      (d.1, randomTriangle s.triangles d.2)
    else
      let d := env.rand r.1
      (d.1, weightedTriangle s.weights s.triangles d.2)
  match sampled.2 with
  | none => none
  | some (n, tri) =>
    let r1 := env.rand sampled.1
    let r2 := env.rand r1.1
    let p := pointInTriangle env.sqrt tri r1.2 r2.2
    let c := randConfigAtPos env s p r2.1 config
    some (displaceLoop env s p s.displacementLimit n c.1 c.2)

/-- rbprm-shooter.cc:406-473 the loop of shots. -/
def shootLoop (env : ShootEnv K ω) (s : Shooter K) : Nat → ω → Config K → Option (ω × Config K × Bool)
  | 0, w, config => some (w, config, false)
  | limit + 1, w, config =>
    match shootOnce env s w config with
    | none => none
    | some (w', config', found) => if found then some (w', config', true) else shootLoop env s limit w' config'

/-- rbprm-shooter.cc:400-477 `impl_shoot`: the configuration, with the flag `found` that decides the final message. -/
def implShoot (env : ShootEnv K ω) (s : Shooter K) (w : ω) (config : Config K) : Option (ω × Config K × Bool) :=
  let u := env.uniform w config
  shootLoop env s s.shootLimit u.1 u.2

/-! ### surfaces -/

/-- rbprm-shooter.cc:257-290 `getUsedSurfaces`: the loop over the affordance types of all ROMs, in order; `added` is
`addedTypes`. -/
def usedSurfacesLoop {N O : Type _} [LinearOrder N] (affordances : AMap N (List O)) : List N → List N → List O
  | [], _ => []
  | t :: ts, added =>
    if t ∈ added then usedSurfacesLoop affordances ts added
    else (AMap.find? affordances t).getD [] ++ usedSurfacesLoop affordances ts (t :: added)

/-- rbprm-shooter.cc:257-290 `getUsedSurfaces`. -/
def getUsedSurfaces {N O : Type _} [LinearOrder N] (affordances : AMap N (List O)) (affFilters : AMap N (List N)) :
    List O := usedSurfacesLoop affordances (affFilters.flatMap Prod.snd) []

/-- rbprm-shooter.cc:294-315 the constructor; `mesh` is the triangle model of an object. -/
def Shooter.create {N O : Type _} [LinearOrder N] (sqrt : K → K) (bounds : Bounds K) (mesh : O → Option (List (Tri K)))
    (affordances : AMap N (List O)) (affFilters : AMap N (List N)) (shootLimit displacementLimit : Nat) :
    Option (Shooter K) :=
  (initWeightedTriangles sqrt ((getUsedSurfaces affordances affFilters).map mesh)).map (fun wt =>
    ⟨shootLimit, displacementLimit, wt.1, wt.2, 3 / 10, none, bounds⟩)

end Shoot
end Rbprm
