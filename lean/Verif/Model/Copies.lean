import Verif.Model.Paths
import Verif.Model.Parabola
set_option linter.unusedSectionVars false
/-!
# Model of the copies of paths
(copy constructors and `copy`, `createCopy` of `com-trajectory`, `polynom-trajectory`, `time-constraint-path`, `bezier-path`, `parabola-path`, `timed-parabola-path`)

An object is its part inherited from `core::Path` (`Base`: the time range and the constraints) and the data of its class. `copy` of the part of `core::Path` keeps the time range, and
copies the constraints (hpp-core).
-/
namespace Rbprm
namespace Copies
open Paths
variable {K R C : Type _} [Field K] [LinearOrder K]

/-- the part of a path inherited from `core::Path`: time range and constraints [hpp-core, base class of com-trajectory.hh:41, bezier-path.hh:45, parabola-path.hh:44] -/
structure Base (K C : Type _) where
  first : K
  last : K
  constr : Option C

/-- `core::Path::Path(timeRange, …)` [hpp-core, called in parabola-path.cc:35-55] -/
def Base.ofRange (first last : K) : Base K C := ⟨first, last, none⟩

/-- what a request for a copy gives: a path, an exception, or the end of the program (`throw;` outside of a handler calls `std::terminate`) [parabola-path.hh:90-124, timed-parabola-path.hh:96-130] -/
inductive Outcome (P : Type _) where
  | ok (p : P)
  | throws
  | terminates

/-- `length()` of `core::Path`: that of the time range [hpp-core, used in parabola-path.cc:149-160] -/
def Base.length (b : Base K C) : K := b.last - b.first

/-! ### ComTrajectory -/

/-- com-trajectory.hh:41-134: a `ComTrajectory`, with the part of its base class -/
structure Com (K C : Type _) where
  base : Base K C
  data : ComTraj K

/-- com-trajectory.cc:31-45: the constructor -/
def Com.create (init fin speed acc : Vec3 K) (len : K) : Com K C := ⟨.ofRange 0 len, ⟨init, fin, speed, acc, len⟩⟩

/-- com-trajectory.cc:58-65: the copy constructor, which makes a new base class part -/
def Com.copy (p : Com K C) : Com K C := ⟨.ofRange 0 p.data.len, p.data⟩

/-- com-trajectory.hh:127: `copy` with constraints -/
def Com.copyWith (_ : Com K C) (_ : C) : Outcome (Com K C) := .terminates

/-- com-trajectory.cc:47-56 `normalize` -/
def Base.normalize (b : Base K C) (t : K) : K := if b.last = 0 then 0 else (t - b.first) / (b.last - b.first)

/-- com-trajectory.cc:67-78 `impl_compute` -/
def Com.eval (p : Com K C) (t : K) : Vec3 K :=
  if t = p.base.first ∨ p.base.last = 0 then p.data.init
  else if t = p.base.last then p.data.fin
  else
    let u := p.base.normalize t * p.data.len
    Vec3.smul (u * u / 2) p.data.acc + Vec3.smul u p.data.speed + p.data.init

/-- com-trajectory.cc:80-92 `extract` -/
def Com.extract (p : Com K C) (a b : K) : Com K C :=
  let u := p.base.normalize a * p.data.len
  .create (p.eval a) (p.eval b) (Vec3.smul u p.data.acc + p.data.speed) p.data.acc (min |b - a| p.data.len)

/-! ### PolynomTrajectory -/

/-- polynom-trajectory.hh:47-135: a `PolynomTrajectory`, with the part of its base class -/
structure Poly (K C : Type _) where
  base : Base K C
  data : PolyTraj K

/-- polynom-trajectory.cc:31-42: the constructor: the base class is made with the range `[0, length]`, and then the time range set -/
def Poly.create (curve : K → Vec3 K) (start stop : K) : Poly K C :=
  ⟨{ Base.ofRange 0 (stop - start) with first := start, last := stop }, ⟨curve, start, stop⟩⟩

/-- polynom-trajectory.cc:55-62: the copy constructor -/
def Poly.copy (p : Poly K C) : Poly K C :=
  ⟨{ Base.ofRange 0 (p.data.stop - p.data.start) with first := p.base.first, last := p.base.last }, p.data⟩

/-- polynom-trajectory.hh:124: `copy` with constraints -/
def Poly.copyWith (_ : Poly K C) (_ : C) : Outcome (Poly K C) := .terminates

/-- polynom-trajectory.cc:64-72 `impl_compute` -/
def Poly.eval (p : Poly K C) (t : K) : Vec3 K :=
  if t = p.base.first ∨ p.base.last = 0 then p.data.curve p.data.start else p.data.curve t

/-- polynom-trajectory.cc:74-77 `extract` -/
def Poly.extract (p : Poly K C) (a b : K) : Poly K C := .create p.data.curve a b

/-! ### TimeConstraintPath -/

/-- time-constraint-path.hh:64-74, 107-114 `create`: the constructor, and `checkPath` -/
def tcreate (init fin : Conf R K) (len : K) (c : Option (Constr R K)) : Outcome (TPath R K) :=
  let p : TPath R K := ⟨init, fin, len, c⟩
  if p.check then .ok p else .throws

/-- time-constraint-path.hh:87-97, time-constraint-path.cc:65-71 `createCopy`: the copy constructor, and `checkPath` -/
def tcopy (p : TPath R K) : Outcome (TPath R K) :=
  let q : TPath R K := ⟨p.init, p.fin, p.len, p.constr⟩
  if q.check then .ok q else .throws

/-- time-constraint-path.hh:99-110, time-constraint-path.cc:73-80 `createCopy` with constraints -/
def tcopyWith (p : TPath R K) (c : Constr R K) : Outcome (TPath R K) :=
  let q : TPath R K := ⟨p.init, p.fin, p.len, some c⟩
  if q.check then .ok q else .throws

/-! ### BezierPath -/

/-- bezier-path.hh: a `BezierPath` with its constraints [bezier-path.hh:45-205] -/
structure Bez (R K : Type _) where
  data : Bezier R K
  constr : Option ((Vec3 K × R → Vec3 K × R) × (Vec3 K × R → Bool))

/-- `core::Path::checkPath`: the ends satisfy the constraints (false if it throws) [hpp-core, called in bezier-path.cc:53-71] -/
def Bez.check (interp : R → R → K → R) (p : Bez R K) : Bool :=
  match p.constr with
  | none => true
  | some c => c.2 (p.data.initial interp) && c.2 (p.data.end' interp)

/-- bezier-path.hh:124-131 `operator()`: `impl_compute`, then the constraints are applied -/
def Bez.eval (interp : R → R → K → R) (p : Bez R K) (t : K) : Vec3 K × R :=
  match p.constr with
  | none => p.data.eval interp t
  | some c => c.1 (p.data.eval interp t)

/-- bezier-path.hh:88-96, bezier-path.cc:73-78 `createCopy`: no check -/
def Bez.copy (p : Bez R K) : Bez R K := ⟨p.data, p.constr⟩

/-- bezier-path.hh:98-110, bezier-path.cc:80-88 `createCopy` with constraints -/
def Bez.copyWith (interp : R → R → K → R) (p : Bez R K) (c : (Vec3 K × R → Vec3 K × R) × (Vec3 K × R → Bool)) : Outcome (Bez R K) :=
  let q : Bez R K := ⟨p.data, some c⟩
  if q.check interp then .ok q else .throws

/-! ### jumps -/

/-- parabola-path.hh:88-95, parabola-path.cc:79-92: `createCopy` -/
def jcopy (p : Parabola.Path R) : Parabola.Path R := ⟨p.init, p.fin, p.len, p.co, p.V0, p.Vimp⟩

/-- parabola-path.hh:97-109: `createCopy` with constraints, which are ignored -/
def jcopyWith (p : Parabola.Path R) (_ : C) : Parabola.Path R := jcopy p

/-- parabola-path.cc:34-54: the constructor without velocities: `mem` is the contents of the memory of `V0_`, which is not initialised (nor is `Vimp_`) -/
def jcreate (mem mem' : Vec3 ℝ) (init fin : Parabola.Conf R) (len : ℝ) (co : Parabola.Coefs) : Parabola.Path R := ⟨init, fin, len, co, mem, mem'⟩

/-- timed-parabola-path.hh:95-101, timed-parabola-path.cc:86-92: `createCopy` -/
def timedCopy (p : Parabola.Timed R) : Parabola.Timed R := ⟨p.init, p.fin, p.para, p.range, p.len⟩

/-- timed-parabola-path.hh:103-115: `createCopy` with constraints, which are ignored -/
def timedCopyWith (p : Parabola.Timed R) (_ : C) : Parabola.Timed R := timedCopy p

/-- timed-parabola-path.cc:54-65: the constructor from coefficients: the parabola is made without velocities -/
noncomputable def timedOfCoefs (mem mem' : Vec3 ℝ) (init fin : Parabola.Conf R) (len : ℝ) (co : Parabola.Coefs) : Parabola.Timed R :=
  Parabola.Timed.create init fin (jcreate mem mem' init fin len co)

/-- timed-parabola-path.cc:67-83: the constructor with velocities -/
noncomputable def timedOfVelocities (init fin : Parabola.Conf R) (len : ℝ) (co : Parabola.Coefs) (V0 Vimp : Vec3 ℝ) : Parabola.Timed R :=
  Parabola.Timed.create init fin ⟨init, fin, len, co, V0, Vimp⟩

/-- timed-parabola-path.cc:98-102 `extract` -/
def timedExtract (_ : Parabola.Timed R) (_ _ : ℝ) : Outcome (Parabola.Timed R) := .throws

end Copies
end Rbprm
