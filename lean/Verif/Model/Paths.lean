import Verif.Base.Vec3
import Mathlib.Algebra.Order.Field.Basic
import Mathlib.Algebra.Order.Group.Unbundled.Abs
set_option linter.unusedSectionVars false
/-!
# Model of the paths of the interpolation
(`time-constraint-path.cc`, `com-trajectory.cc`, `polynom-trajectory.cc`, `bezier-path.cc`, `time-constraint-path-validation.cc`, `time-constraint-helper.inl`, `time-constraint-shooter.cc`)

Numbers are an ordered field `K`, without NaN: where the code divides by 0, the model has an explicit outcome.
-/
namespace Rbprm
namespace Paths
variable {K R : Type _} [Field K] [LinearOrder K]

/-! ### TimeConstraintPath -/

/-- a configuration: the joints, and the extra degree of freedom `pathDofRank_` [time-constraint-path.hh:215] -/
@[ext] structure Conf (R K : Type _) where
  rest : R
  dof : K

/-- a constraint set with a projector, after the right hand sides of the time dependent constraints have been set for a value of the extra degree of freedom (time-constraint-utils.hh
`UpdateConstraints`): `apply` and `isSatisfied` [time-constraint-path.cc:90-117] -/
structure Constr (R K : Type _) where
  project : K → Conf R K → Conf R K × Bool
  sat : K → Conf R K → Bool

/-- time-constraint-path.hh:41-: `TimeConstraintPath`, of time range `[0, len]` -/
structure TPath (R K : Type _) where
  init : Conf R K
  fin : Conf R K
  len : K
  constr : Option (Constr R K)

/-- time-constraint-path.cc:80-86 `ComputeExtraDofValue` -/
def extraDof (init fin : Conf R K) (u : K) : K := (fin.dof - init.dof) * u + init.dof

/-- time-constraint-path.cc:95-115 `impl_compute`: the configuration; `interp` is `RnxSOnConfigSpace()->interpolate` on the joints -/
def TPath.raw (interp : R → R → K → R) (p : TPath R K) (t : K) : Conf R K :=
  if t = 0 ∨ p.len = 0 then p.init
  else if t = p.len then p.fin
  else ⟨interp p.init.rest p.fin.rest (t / p.len), extraDof p.init p.fin (t / p.len)⟩

/-- `core::Path::operator()`: `impl_compute`, which also updates the constraints for the extra degree of freedom of the result, then the constraints are applied [hpp-core, with time-constraint-path.cc:97-117] -/
def TPath.eval (interp : R → R → K → R) (p : TPath R K) (t : K) : Conf R K × Bool :=
  match p.constr with
  | none => (p.raw interp t, true)
  | some c => c.project (p.raw interp t).dof (p.raw interp t)

/-- time-constraint-path.cc:143-195 `checkPath`: false if it throws -/
def TPath.check (p : TPath R K) : Bool :=
  match p.constr with
  | none => true
  | some c => c.sat p.init.dof p.init && c.sat p.fin.dof p.fin

/-- what `extract` gives: a path, an exception, or a path whose extra degree of freedom is not a number [time-constraint-path.cc:119-143] -/
inductive Extracted (R K : Type _) where
  | ok (p : TPath R K)
  | throws
  | nan

/-- time-constraint-path.cc:117-141 `extract` -/
def TPath.extract (interp : R → R → K → R) (p : TPath R K) (a b : K) : Extracted R K :=
  let q1 := p.eval interp a
  let q2 := p.eval interp b
  if q1.2 = false ∨ q2.2 = false then .throws
  else if p.len = 0 then .nan
  else
    let q : TPath R K := ⟨{ q1.1 with dof := extraDof p.init p.fin (a / p.len) }, { q2.1 with dof := extraDof p.init p.fin (b / p.len) }, |b - a|, p.constr⟩
    if q.check = false then .throws else .ok q

/-- time-constraint-path.hh `initialConfig`: the extra degree of freedom is kept [time-constraint-path.hh:134-143] -/
def TPath.initialConfig (p : TPath R K) (q : Conf R K) : TPath R K := { p with init := { q with dof := p.init.dof } }

/-- time-constraint-path.hh `endConfig` [time-constraint-path.hh:145-154] -/
def TPath.endConfig (p : TPath R K) (q : Conf R K) : TPath R K := { p with fin := { q with dof := p.fin.dof } }

/-! ### ComTrajectory -/

/-- com-trajectory.hh: `ComTrajectory`, of time range `[0, len]` [com-trajectory.hh:41-134] -/
structure ComTraj (K : Type _) where
  init : Vec3 K
  fin : Vec3 K
  speed : Vec3 K
  acc : Vec3 K
  len : K

/-- com-trajectory.cc:47-56 `normalize` -/
def normalize (len t : K) : K := if len = 0 then 0 else t / len

/-- com-trajectory.cc:67-78 `impl_compute` -/
def ComTraj.eval (p : ComTraj K) (t : K) : Vec3 K :=
  if t = 0 ∨ p.len = 0 then p.init
  else if t = p.len then p.fin
  else
    let u := normalize p.len t * p.len
    Vec3.smul (u * u / 2) p.acc + Vec3.smul u p.speed + p.init

/-- com-trajectory.cc:80-92 `extract` -/
def ComTraj.extract (p : ComTraj K) (a b : K) : ComTraj K :=
  let u := normalize p.len a * p.len
  ⟨p.eval a, p.eval b, Vec3.smul u p.acc + p.speed, p.acc, min |b - a| p.len⟩

/-! ### PolynomTrajectory -/

/-- polynom-trajectory.hh: `PolynomTrajectory`, of time range `[start, stop]` [polynom-trajectory.hh:47-135] -/
structure PolyTraj (K : Type _) where
  curve : K → Vec3 K
  start : K
  stop : K

/-- polynom-trajectory.cc:65-73 `impl_compute` -/
def PolyTraj.eval (p : PolyTraj K) (t : K) : Vec3 K := if t = p.start ∨ p.stop = 0 then p.curve p.start else p.curve t

/-- polynom-trajectory.cc:75-78 `extract` -/
def PolyTraj.extract (p : PolyTraj K) (a b : K) : PolyTraj K := ⟨p.curve, a, b⟩

/-! ### BezierPath -/

/-- bezier-path.hh: `BezierPath`, of time range `[first, last]`; the curve is defined on `[cmin, cmax]` [bezier-path.hh:45-205] -/
structure Bezier (R K : Type _) where
  curve : K → Vec3 K
  cmin : K
  cmax : K
  init : R
  fin : R
  first : K
  last : K

/-- bezier-path.cc:83-93 `initial`; `interp` is `pinocchio::interpolate` on the other joints (the position is overwritten by the curve) -/
def Bezier.initial (interp : R → R → K → R) (p : Bezier R K) : Vec3 K × R :=
  let u := p.cmin + p.first / (p.cmax - p.cmin)
  let u := if u < 0 then 0 else u
  (p.curve p.first, interp p.init p.fin u)

/-- bezier-path.cc:96-106 `end` -/
def Bezier.end' (interp : R → R → K → R) (p : Bezier R K) : Vec3 K × R :=
  let u := p.cmin + p.last / (p.cmax - p.cmin)
  let u := if u > 1 then 1 else u
  (p.curve p.last, interp p.init p.fin u)

/-- bezier-path.cc:108-125 `impl_compute` -/
def Bezier.eval (interp : R → R → K → R) (p : Bezier R K) (t : K) : Vec3 K × R :=
  if t < p.first then p.initial interp
  else if t > p.last then p.end' interp
  else
    let u := p.cmin + t / (p.cmax - p.cmin)
    let u := if p.last = 0 then 0 else u
    (p.curve t, interp p.init p.fin u)

/-- bezier-path.cc:58-73: the constructor from waypoints: the curve is defined on `[0, last - first]`; the assertion `first = 0` is disabled in release builds -/
def Bezier.ofCurve (curve : K → Vec3 K) (init fin : R) (first last : K) : Bezier R K := ⟨curve, 0, last - first, init, fin, first, last⟩

/-! ### TimeConstraintPathValidation -/

/-- a path as the validation uses it: ends, length, evaluation (of which the assertions require success) [time-constraint-path-validation.cc:40-71] -/
structure VPath (R K : Type _) where
  init : Conf R K
  fin : Conf R K
  len : K
  eval : K → Conf R K

/-- time-constraint-path-validation.cc:56-67: the loop; `distance / totalDistance > 0.2` is written without division (0 / 0 is not greater than 0.2, x / 0 is) -/
def jumps (dist : Conf R K → Conf R K → K) (p : VPath R K) (total : K) (last : Conf R K) : List K → Bool
  | [] => false
  | i :: is =>
    let q := p.eval (i / 10 * p.len)
    if dist last q > 1 / 5 * total then true else jumps dist p total q is

/-- time-constraint-path-validation.cc:37-71 `validate`: the answer; `dist`: the distance of all coordinates but the first seven; `discretized`: the answer of the discretised validation -/
def validate (dist : Conf R K → Conf R K → K) (discretized : Bool) (p : VPath R K) : Bool :=
  if p.init.dof > p.fin.dof then false
  else if jumps dist p (dist p.fin p.init) p.init [1, 2, 3, 4, 5, 6, 7, 8, 9] then false
  else discretized

/-! ### parallel interpolation -/

variable {P Q : Type _}

/-- a write of the parallel loop (time-constraint-helper.inl:329-338) -/
inductive Write (P : Type _) where
  | res (i : ℕ) (p : P)
  | valid (i : ℕ) (b : Bool)

/-- the arrays `res` (null pointers at first) and `valid` (not initialised) [time-constraint-helper.inl:297-348] -/
structure Memory (P : Type _) where
  res : ℕ → Option P
  valid : ℕ → Bool

/-- one write [time-constraint-helper.inl:297-348] -/
def Memory.write (m : Memory P) : Write P → Memory P
  | .res i p => { m with res := fun j => if j = i then some p else m.res j }
  | .valid i b => { m with valid := fun j => if j = i then b else m.valid j }

/-- time-constraint-helper.inl:329-338: the writes of iteration `i`, whose planner (with the optimisers) answers `out i` -/
def taskWrites (out : ℕ → Option P) (i : ℕ) : List (Write P) :=
  match out i with
  | some p => [.res i p, .valid i true]
  | none => [.valid i false]

/-- all the writes of a parallel loop [time-constraint-helper.inl:297-348] -/
def allWrites (n : ℕ) (out : ℕ → Option P) : List (Write P) := (List.range n).flatMap (taskWrites out)

/-- time-constraint-helper.inl:213-228 `checkPath`: the first pair that is not valid, from `i` on -/
def checkPath (n : ℕ) (valid : ℕ → Bool) : ℕ := ((List.range n).find? fun i => !valid i).getD n

/-- what the interpolation gives [time-constraint-helper.inl:297-348] -/
inductive Interpolated (Q : Type _) where
  | ok (l : List Q)
  /-- still running after the given number of rounds -/
  | running
  /-- dereferences a null pointer -/
  | null
  /-- writes beyond the arrays -/
  | overflow

/-- time-constraint-helper.inl:317-340: the loop; `sched r` is the order of the writes of round `r` -/
def rounds (n : ℕ) (sched : ℕ → List (Write P)) : ℕ → ℕ → Memory P → Option (Memory P)
  | 0, _, _ => none
  | fuel + 1, r, m =>
    let m' := (sched r).foldl Memory.write m
    if checkPath n m'.valid < n then rounds n sched fuel (r + 1) m' else some m'

/-- time-constraint-helper.inl:235-237: `completePath->concatenate(res[i])` -/
def joinPath (res : ℕ → Option (List P)) (acc : Option (List P)) (i : ℕ) : Option (List P) :=
  match acc, res i with
  | some l, some p => some (l ++ p)
  | _, _ => none

/-- time-constraint-helper.inl:230-270 `ConcatenateAndResizePath`: a path vector is the list of its elements after `flatten`; `reduce` removes the extra degree of freedom of an element
(the identity if `keepExtraDof`); the answer is `none` if a null pointer is dereferenced -/
def concatenate (reduce : P → Q) (res : ℕ → Option (List P)) (n : ℕ) : Option (List Q) :=
  match res 0 with
  | none => none
  | some p0 =>
    ((List.range' 1 (n - 1)).foldl (joinPath res) (some p0)).map (List.map reduce)

/-- time-constraint-helper.inl:294-346 `interpolateStatesFromPathGetter` for `n` pairs of states; the assertion `n < 100` is disabled in release builds -/
def interpolate (reduce : P → Q) (n : ℕ) (sched : ℕ → List (Write (List P))) (m0 : Memory (List P)) (fuel : ℕ) : Interpolated Q :=
  if n > 100 then .overflow
  else
    match rounds n sched fuel 0 m0 with
    | none => .running
    | some m =>
      match concatenate reduce m.res n with
      | none => .null
      | some l => .ok l

end Paths
end Rbprm
