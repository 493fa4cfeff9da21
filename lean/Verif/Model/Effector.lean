import Verif.Model.State
import Verif.Model.FullBody
import Mathlib.Algebra.Polynomial.Derivative
import Mathlib.Algebra.Polynomial.Eval.Defs
import Mathlib.Algebra.Order.Field.Basic
set_option linter.unusedSectionVars false
/-!
# Model of the trajectories of the moving effector (`effector-rrt.cc`)

Without `getWayPoints`, `splineFromEffectorTraj`, `Is2d`, `IsLine`, `genHeight`, which nothing calls. A Bézier curve is a polynomial in the time since its beginning; the functions of the library
bezier-com-traj that compute curves are oracles.
-/
namespace Rbprm
namespace Effector
open Polynomial Registry
variable {N K : Type _} [LinearOrder N] [Field K] [LinearOrder K]

/-- a curve [effector-rrt.cc:275-371] -/
abbrev Curve (K : Type _) [Field K] := Vec3 K[X]

/-- position, velocity, acceleration and jerk [the constraints at the ends of a curve, effector-rrt.cc:592-786] -/
@[ext] structure Jet (K : Type _) where
  pos : Vec3 K
  vel : Vec3 K
  acc : Vec3 K
  jerk : Vec3 K

/-- `bezier_t::operator()`, `derivate(time, 1)` ... of a curve [effector-rrt.cc:592-786] -/
noncomputable def deriv (n : ℕ) (c : Curve K) (t : K) : Vec3 K :=
  ⟨(derivative^[n] c.x).eval t, (derivative^[n] c.y).eval t, (derivative^[n] c.z).eval t⟩

/-- value and first three derivatives [effector-rrt.cc:592-786] -/
noncomputable def jet (c : Curve K) (t : K) : Jet K := ⟨deriv 0 c t, deriv 1 c t, deriv 2 c t, deriv 3 c t⟩

/-- `bezier_com_traj::ProblemData`: the constraints at both ends; its constructor sets them to 0 [bezier_com_traj, used in effector-rrt.cc:592-786] -/
structure Data (K : Type _) where
  c0 : Vec3 K
  dc0 : Vec3 K
  ddc0 : Vec3 K
  j0 : Vec3 K
  c1 : Vec3 K
  dc1 : Vec3 K
  ddc1 : Vec3 K
  j1 : Vec3 K

/-- number of free way points: flags of lines 678, 744, 765 [effector-rrt.cc:678, 744, 765] -/
inductive Flag where
  | one
  | three
  | five
deriving DecidableEq

/-- the functions of the library: `computeConstantWaypointsInitPredef`, `computeConstantWaypointsGoalPredef`, `solveEndEffector` (for the effector path of the call) [bezier_com_traj, called in effector-rrt.cc:592-786] -/
structure Lib (K : Type _) [Field K] where
  initPredef : Data K → K → Curve K
  goalPredef : Data K → K → Curve K
  solve : Flag → Data K → K → K → Option (Curve K)

/-- effector-rrt.cc:134-145 `getNormal` (the same default as lines 500-514) -/
def getNormal (effector : N) (state : State N K) : Vec3 K × Bool :=
  match state.contactNormals.find? effector with
  | some n => (n, true)
  | none => (⟨0, 0, 1⟩, false)

/-- effector-rrt.cc:275-371 `buildPredefinedPath`: the curve and the constraints at its ends -/
noncomputable def buildPredefined (lib : Lib K) (normal c : Vec3 K) (posOffset velOffset time : K) (init : Bool) (aOffset : K) : Curve K × Data K :=
  if init then
    let d : Data K := ⟨c, 0, 0, 0, c + Vec3.smul posOffset normal, Vec3.smul velOffset normal, Vec3.smul aOffset normal, 0⟩
    let curve := lib.initPredef d time
    (curve, { d with j1 := deriv 3 curve time, ddc1 := deriv 2 curve time, dc1 := deriv 1 curve time })
  else
    let d : Data K := ⟨c + Vec3.smul posOffset normal, Vec3.smul velOffset normal, Vec3.smul aOffset normal, 0, c, 0, 0, 0⟩
    let curve := lib.goalPredef d time
    (curve, { d with j0 := deriv 3 curve 0, ddc0 := deriv 2 curve 0, dc0 := deriv 1 curve 0 })

/-- effector-rrt.cc:422-431 `computePredefConstants`: `posOffset`; `velOffset` and `a_max_predefined` are not set -/
def posOffset (pMax total tPredef : K) : K :=
  let timeMid := (total - 2 * tPredef) / 2
  pMax / (1 + 4 * timeMid / tPredef + 6 * timeMid * timeMid / (tPredef * tPredef) - timeMid * timeMid * timeMid / (tPredef * tPredef * tPredef))

/-- three curves with their durations (lines 409-418) [effector-rrt.cc:409-418] -/
structure Triple (K : Type _) [Field K] where
  takeoff : Curve K
  mid : Curve K
  landing : Curve K
  tTakeoff : K
  tMid : K
  tLanding : K

/-- effector-rrt.cc:489-537, 650-688: take-off, landing, constraints between them, and durations; `vel`, `acc`: the values of the variables that are not initialised -/
noncomputable def prepare (lib : Lib K) (pMax comLength vel acc : K) (n0 n1 start goal : Vec3 K) : Curve K × Curve K × Data K × K × K :=
  let total := comLength - 2 * (1 / 20)
  let tTakeoff := 3 / 10
  let off := posOffset pMax total tTakeoff
  let takeoff := buildPredefined lib n0 start off vel tTakeoff true acc
  let landing := buildPredefined lib n1 goal off (-vel) tTakeoff false acc
  let d : Data K := ⟨takeoff.2.c1, takeoff.2.dc1, takeoff.2.ddc1, takeoff.2.j1, landing.2.c0, landing.2.dc0, landing.2.ddc0, landing.2.j0⟩
  (takeoff.1, landing.1, d, tTakeoff, total - 2 * tTakeoff)

/-- effector-rrt.cc:373-420 `computeBezierPath` -/
def bezierPath (lib : Lib K) (flag : Flag) (weight : K) (p : Curve K × Curve K × Data K × K × K) : Option (Triple K) :=
  match lib.solve flag p.2.2.1 p.2.2.2.2 weight with
  | none => none
  | some mid => some ⟨p.1, mid, p.2.1, p.2.2.2.1, p.2.2.2.2, p.2.2.2.1⟩

/-- effector-rrt.cc:433-562 `generateEndEffectorBezier` until the path is saved; `hrp2`: the effector is a leg of HRP-2; `start`, `goal`: positions of the effector in the two states.
`none`: the solver failed, a null pointer is returned. -/
noncomputable def generate (lib : Lib K) (hrp2 : Bool) (comLength vel acc : K) (eff : N) (s0 s1 : State N K) (start goal : Vec3 K) : Option (Triple K) :=
  bezierPath lib .one 0 (prepare lib (if hrp2 then 3 / 100 else 5 / 100) comLength vel acc (getNormal eff s0).1 (getNormal eff s1).1 start goal)

/-- evaluation of the path vector of the three curves at time `t` [hpp-core `PathVector`, built in effector-rrt.cc:409-418] -/
noncomputable def Triple.eval (p : Triple K) (t : K) : Vec3 K :=
  if t < p.tTakeoff then deriv 0 p.takeoff t
  else if t < p.tTakeoff + p.tMid then deriv 0 p.mid (t - p.tTakeoff)
  else deriv 0 p.landing (t - p.tTakeoff - p.tMid)

/-! ### references for the whole-body motion -/

/-- effector-rrt.cc:708-715 -/
def weights : List K := [0, 1 / 2, 3 / 4, 17 / 20, 9 / 10, 19 / 20, 1]

/-- effector-rrt.cc:724-783: the attempts in order -/
def attempts : List (Flag × K) := weights.map (fun w => (.one, w)) ++ weights.tail.map (fun w => (.three, w)) ++ weights.tail.map (fun w => (.five, w))

/-- an element of the list of references: three curves, or (if the solver fails) the given whole-body path [effector-rrt.cc:592-786] -/
inductive Reference (K : Type _) [Field K] where
  | bezier (p : Triple K)
  | wholeBody

/-- `bezierPath ? bezierPath : fullBodyPathVector` [effector-rrt.cc:592-786] -/
def toReference : Option (Triple K) → Reference K
  | some p => .bezier p
  | none => .wholeBody

/-- effector-rrt.cc:592-786 `fitBeziersToPath`; `none`: `contactNormals_.at` throws -/
noncomputable def fit (lib : Lib K) (comLength vel acc : K) (eff : N) (s0 s1 : State N K) (start goal : Vec3 K) : Option (List (Reference K)) :=
  match s0.contactNormals.find? eff, s1.contactNormals.find? eff with
  | some n0, some n1 => some (attempts.map fun a => toReference (bezierPath lib a.1 a.2 (prepare lib (3 / 100) comLength vel acc n0 n1 start goal)))
  | _, _ => none

variable {P L C F : Type _}

/-- what the interpolation of the whole body along a reference does [effector-rrt.cc:788-922] -/
inductive Follow (P : Type _) where
  | path (p : P)
  /-- throws a `runtime_error` -/
  | throws
  /-- never ends (`interpolateStatesFromPathGetter` tries again for ever) -/
  | hangs

/-- what the loop on the references gives [effector-rrt.cc:788-922] -/
inductive Search (P : Type _) (K : Type _) [Field K] where
  | found (i : ℕ) (r : Reference K) (p : P)
  | none
  | hangs

/-- effector-rrt.cc:829-881: the loop; the outcome of an interpolation may depend on the iteration -/
def search (follow : ℕ → Reference K → Follow P) : ℕ → List (Reference K) → Search P K
  | _, [] => .none
  | i, r :: rs =>
    match follow i r with
    | .path p => .found i r p
    | .throws => search follow (i + 1) rs
    | .hangs => .hangs

/-- a path saved in the problem solver [effector-rrt.cc:788-922] -/
inductive Saved (P : Type _) (K : Type _) [Field K] where
  | wholeBody (p : P)
  | effector (p : Triple K)

/-- the paths of the problem solver, in the order of their numbers, and the robot with the trajectories of its effectors [effector-rrt.cc:788-922, rbprm-fullbody.cc:213-269] -/
structure World (N L C F P : Type _) (K : Type _) [Field K] where
  paths : List (Saved P K)
  body : FullBody N L C F (Curve K)

/-- what a call gives [effector-rrt.cc:788-976] -/
inductive Outcome (P W : Type _) where
  | returns (p : P) (w : W)
  /-- `map::at` throws -/
  | throws
  | hangs
  /-- reads beyond the elements of a path vector or dereferences a null pointer (an assertion in debug builds) -/
  | undefined

/-- effector-rrt.cc:788-922 `effectorRRTFromPath` with a whole-body path -/
noncomputable def fromPath (lib : Lib K) (comLength vel acc : K) (eff frame : N) (s0 s1 : State N K) (start goal : Vec3 K) (follow : ℕ → Reference K → Follow P) (wholeBody : P)
    (w : World N L C F P K) : Outcome P (World N L C F P K) :=
  match fit lib comLength vel acc eff s0 s1 start goal with
  | none => .throws
  | some refs =>
    match search follow 0 refs with
    | .hangs => .hangs
    | .none => .returns wholeBody w
    | .found _ .wholeBody _ => .undefined
    | .found _ (.bezier p) path =>
      let paths := w.paths ++ [.effector p]
      .returns path ⟨paths, (addEffectorTrajectories w.body paths.length frame [p.takeoff, p.mid, p.landing]).2⟩

/-- effector-rrt.cc:924-952 `effectorRRTFromPath`; `comRRT`: the path of `comRRT`; `none` if it never ends -/
noncomputable def effectorRRT (lib : Lib K) (comLength vel acc : K) (eff frame : N) (s0 s1 : State N K) (start goal : Vec3 K) (follow : ℕ → Reference K → Follow P) (comRRT : Option P)
    (w : World N L C F P K) : Outcome P (World N L C F P K) :=
  match comRRT with
  | none => .hangs
  | some p =>
    let w' : World N L C F P K := { w with paths := w.paths ++ [.wholeBody p] }
    if State.effectorDistanceSq s0 s1 < 9 / 10000 then .returns p w'
    else fromPath lib comLength vel acc eff frame s0 s1 start goal follow p w'

/-- effector-rrt.cc:563-589: `generateEndEffectorBezier` saves the path -/
noncomputable def generateAndSave (lib : Lib K) (hrp2 : Bool) (comLength vel acc : K) (eff frame : N) (s0 s1 : State N K) (start goal : Vec3 K) (w : World N L C F P K) :
    Option (Triple K) × World N L C F P K :=
  match generate lib hrp2 comLength vel acc eff s0 s1 start goal with
  | none => (none, w)
  | some p =>
    let paths := w.paths ++ [.effector p]
    (some p, ⟨paths, (addEffectorTrajectories w.body (paths.length - 1) frame [p.takeoff, p.mid, p.landing]).2⟩)

/-! ### position of the effector along the whole-body path -/

/-- effector-rrt.cc:1021-1037: the loop; `dof` is the extra degree of freedom along the path -/
def searchIndex (dof : K → K) (len t : K) : ℕ → K → Option K
  | 0, _ => none
  | fuel + 1, c => if c < len then (if dof c ≥ t then some c else searchIndex dof len t fuel (c + 1 / 100)) else some len

/-- effector-rrt.cc:1014-1045 `EndEffectorPath::operator()`: `pos`: position of the effector along the path, `fin`: its last extra degree of freedom -/
def endEffectorAt (dof : K → K) (pos : K → Vec3 K) (fin len : K) (offset : Vec3 K) (fuel : ℕ) (u : K) : Option (Vec3 K) :=
  (searchIndex dof len (u * fin) fuel 0).map fun i => pos i + offset

end Effector
end Rbprm
