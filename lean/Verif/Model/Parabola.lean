import Verif.Base.Vec3
import Mathlib.Analysis.SpecialFunctions.Complex.Arg
import Mathlib.Analysis.SpecialFunctions.Trigonometric.Arctan
set_option linter.unusedSectionVars false
/-!
# Model of the jumps (`parabola-path.cc`, `timed-parabola-path.cc`, `steering-method-parabola.cc`)

Over the reals, without NaN: jumps without horizontal displacement (0 / 0 in the code) are excluded by hypotheses.
-/
namespace Rbprm
namespace Parabola
open Real

/-- a configuration: position of the root, the other joints (type `R`), the six extra degrees of freedom (velocity, acceleration) [the vectors of parabola-path.cc:94-147] -/
@[ext] structure Conf (R : Type _) where
  pos : Vec3 ℝ
  rest : R
  vel : Vec3 ℝ
  acc : Vec3 ℝ

variable {R : Type _}

/-- `u * b + (1 - u) * a` [parabola-path.cc:94-147] -/
def lerp (u : ℝ) (a b : Vec3 ℝ) : Vec3 ℝ := Vec3.smul u b + Vec3.smul (1 - u) a

/-- `pinocchio::interpolate`: linear for the position of the root and the extra degrees of freedom; `joints`: the other joints [called in parabola-path.cc:94-147] -/
def interpolate (joints : R → R → ℝ → R) (q0 q1 : Conf R) (u : ℝ) : Conf R :=
  ⟨lerp u q0.pos q1.pos, joints q0.rest q1.rest u, lerp u q0.vel q1.vel, lerp u q0.acc q1.acc⟩

/-- the seven coefficients [steering-method-parabola.cc:762-795] -/
structure Coefs where
  a : ℝ
  b : ℝ
  c : ℝ
  theta : ℝ
  alpha : ℝ
  xdot : ℝ
  x0 : ℝ

/-- `cos (theta) * x + sin (theta) * y` [steering-method-parabola.cc:762-795, parabola-path.cc:94-147] -/
noncomputable def along (theta : ℝ) (p : Vec3 ℝ) : ℝ := cos theta * p.x + sin theta * p.y

/-- the height of the parabola [parabola-path.cc:94-147] -/
def Coefs.height (co : Coefs) (x : ℝ) : ℝ := co.a * x * x + co.b * x + co.c

/-- `ParabolaPath` (parabola-path.hh), without the names of the ROMs; time range `[0, len]` [parabola-path.hh:44-243] -/
structure Path (R : Type _) where
  init : Conf R
  fin : Conf R
  len : ℝ
  co : Coefs
  V0 : Vec3 ℝ
  Vimp : Vec3 ℝ

/-- parabola-path.cc:119-123: the position computed from the coefficients -/
noncomputable def Path.onParabola (p : Path R) (u : ℝ) : Vec3 ℝ :=
  let x := p.init.pos.x + u * p.len * cos p.co.theta
  let y := p.init.pos.y + u * p.len * sin p.co.theta
  ⟨x, y, p.co.height (along p.co.theta ⟨x, y, 0⟩)⟩

open Classical in
/-- parabola-path.cc:94-147 `impl_compute`: the position `onParabola (t / len)` is written into the result, and is then overwritten by `interpolate`, which writes the whole result; the extra degrees of freedom are set to 0 -/
noncomputable def Path.eval (joints : R → R → ℝ → R) (p : Path R) (t : ℝ) : Conf R :=
  if t = 0 ∨ p.init.pos.x = p.fin.pos.x then p.init
  else if t ≥ p.len then p.fin
  else
    { interpolate joints p.init p.fin (t / p.len) with vel := ⟨0, 0, 0⟩, acc := ⟨0, 0, 0⟩ }

/-- parabola-path.cc:214-224 `computeLength`; steering-method-parabola.cc:749-760 -/
noncomputable def computeLength (theta : ℝ) (q1 q2 : Conf R) : ℝ := (q2.pos.x - q1.pos.x) * cos theta + (q2.pos.y - q1.pos.y) * sin theta

/-- parabola-path.cc:149-159 `extract` -/
noncomputable def Path.extract (joints : R → R → ℝ → R) (p : Path R) (a b : ℝ) : Path R :=
  ⟨p.eval joints a, p.eval joints b, computeLength p.co.theta (p.eval joints a) (p.eval joints b), p.co, p.V0, p.Vimp⟩

/-- parabola-path.cc:161-179 `reverse` -/
noncomputable def Path.reverse (joints : R → R → ℝ → R) (p : Path R) : Path R :=
  ⟨p.eval joints p.len, p.eval joints 0, p.len, p.co, p.Vimp, p.V0⟩

/-- parabola-path.cc:233-250 `evaluateVelocity` -/
noncomputable def Path.velocity (joints : R → R → ℝ → R) (p : Path R) (t : ℝ) : Vec3 ℝ :=
  ⟨p.co.xdot * cos p.co.theta, p.co.xdot * sin p.co.theta,
   p.co.xdot * (-(981 / 100) * (along p.co.theta (p.eval joints t).pos - p.co.x0) * (1 / (p.co.xdot * p.co.xdot)) + tan p.co.alpha)⟩

/-- `TimedParabolaPath` (timed-parabola-path.hh); `range`: the end of the time range, which is that of the base class [timed-parabola-path.hh:35-224] -/
structure Timed (R : Type _) where
  init : Conf R
  fin : Conf R
  para : Path R
  range : ℝ
  len : ℝ

/-- norm of a vector [Eigen, used in parabola-path.cc:214-231] -/
noncomputable def norm (v : Vec3 ℝ) : ℝ := sqrt v.normSq

/-- timed-parabola-path.cc:39-51, 114-128: the constructor from a parabola, and `computeTimedLength`; the base class is a copy of the parabola -/
noncomputable def Timed.create (init fin : Conf R) (p : Path R) : Timed R :=
  ⟨init, fin, p, p.len, computeLength p.co.theta p.init p.fin / (norm p.V0 * cos p.co.alpha)⟩

open Classical in
/-- timed-parabola-path.cc:130-170 `impl_compute` -/
noncomputable def Timed.eval (joints : R → R → ℝ → R) (p : Timed R) (t : ℝ) : Conf R :=
  if t = 0 ∨ p.init.pos.x = p.fin.pos.x then p.init
  else if t ≥ p.len then p.fin
  else
    let u := t * norm p.para.V0 * cos p.para.co.alpha
    { p.para.eval joints u with vel := p.para.velocity joints u, acc := ⟨0, 0, -(981 / 100)⟩ }

/-- timed-parabola-path.cc:106-112 `reverse` -/
noncomputable def Timed.reverse (joints : R → R → ℝ → R) (p : Timed R) : Timed R := Timed.create p.fin p.init (p.para.reverse joints)

/-! ### steering method -/

/-- steering-method-parabola.cc:762-795 `computeCoefficients`: the coefficients, `V0_`, `Vimp_` -/
noncomputable def coefficients (g alpha theta X Z x0 z0 : ℝ) : Coefs × Vec3 ℝ × Vec3 ℝ :=
  let xdot := sqrt (g * X * X / (2 * (X * tan alpha - Z)))
  let inv := 1 / (xdot * xdot)
  let V0 := sqrt (1 + tan alpha * tan alpha) * xdot
  (⟨-(1 / 2) * g * inv, tan alpha + g * x0 * inv, z0 - tan alpha * x0 - 1 / 2 * g * x0 * x0 * inv, theta, alpha, xdot, x0⟩,
   ⟨xdot * cos theta, xdot * sin theta, V0 * sin alpha⟩,
   ⟨xdot * cos theta, xdot * sin theta, -g * X / xdot + xdot * tan alpha⟩)

open Classical in
/-- steering-method-parabola.cc:441-462 `second_constraint` and 686-708 `sixth_constraint`: the two angles at which the parabola has the maximal speed; `none`: fail -/
noncomputable def roots (X A B C : ℝ) : Option (ℝ × ℝ) :=
  let delta := B * B - 4 * A * C
  if delta < 0 then none
  else if X > 0 then some (arctan (1 / 2 * (-B + sqrt delta) / A), arctan (1 / 2 * (-B - sqrt delta) / A))
  else some (arctan (1 / 2 * (-B + sqrt delta) / A) + π, arctan (1 / 2 * (-B - sqrt delta) / A) + π)

/-- steering-method-parabola.cc:441-462 `second_constraint` -/
noncomputable def secondConstraint (g V X Y : ℝ) : Option (ℝ × ℝ) :=
  roots X (g * X * X) (-2 * X * V * V) (g * X * X + 2 * Y * V * V)

/-- steering-method-parabola.cc:686-708 `sixth_constraint` -/
noncomputable def sixthConstraint (g V X Y : ℝ) : Option (ℝ × ℝ) :=
  roots X (g * X * X) (-2 * X * V * V - 4 * X * Y * g) (g * X * X + 2 * Y * V * V + 4 * g * Y * Y)

open Classical in
/-- steering-method-parabola.cc:797-810 `parabMaxHeightRespected`; `zmax` is the upper bound of the root joint -/
noncomputable def maxHeightRespected (zmax : ℝ) (co : Coefs) (x0 x1 : ℝ) : Bool :=
  let xm := -(1 / 2) * co.b / co.a
  !(decide (x0 ≤ xm ∧ xm ≤ x1 ∧ co.height xm > zmax))

/-- steering-method-parabola.cc:812-841 `dichotomy` -/
noncomputable def dichotomy (inf sup : ℝ) (n : ℕ) : ℝ :=
  let e : ℝ := match n with
    | 0 => 1 / 4
    | 1 => 3 / 4
    | 2 => 1 / 8
    | 3 => 3 / 8
    | 4 => 5 / 8
    | 5 => 7 / 8
    | _ => 1 / 2
  e * sup + (1 - e) * inf

/-- parameters of the steering method: gravity, velocity bounds, height bound; `valid`: the path validation without any ROM [steering-method-parabola.cc:38-347] -/
structure SteerEnv (R : Type _) where
  g : ℝ
  V0max : ℝ
  Vimpmax : ℝ
  zmax : ℝ
  valid : Path R → Bool

/-- steering-method-parabola.cc:176-270: the interval of the angle; the cones are disabled (angles from -2π to 2π, `n2_angle` = 1.5); `none`: no path -/
noncomputable def bounds (env : SteerEnv R) (X Z : ℝ) : Option (ℝ × ℝ) :=
  match secondConstraint env.g env.V0max X Z, sixthConstraint env.g env.Vimpmax X Z with
  | some lim, some imp =>
    let inf := max (max (-2 * π) (max lim.2 imp.2)) (max (-2 * π) (arctan (Z / X) + 1 / 1000))
    let sup := min (2 * π) (min (min lim.1 imp.1) (π / 2))
    open Classical in if inf > sup then none else some (inf, sup)
  | _, _ => none

/-- steering-method-parabola.cc:281-320: the parabola for an angle, and whether it respects the height -/
noncomputable def attempt (env : SteerEnv R) (q1 q2 : Conf R) (alpha : ℝ) : Path R × Bool :=
  let d := q2.pos - q1.pos
  let theta := Complex.arg ⟨d.x, d.y⟩
  let X := d.x * cos theta + d.y * sin theta
  let co := coefficients env.g alpha theta X d.z (along theta q1.pos) q1.pos.z
  (⟨q1, q2, computeLength theta q1 q2, co.1, co.2.1, co.2.2⟩, maxHeightRespected env.zmax co.1 (along theta q1.pos) (along theta q2.pos))

/-- steering-method-parabola.cc:317-338: the dichotomy; `k` attempts remain of `nLimit_` = 6 -/
noncomputable def search (env : SteerEnv R) (q1 q2 : Conf R) (inf sup : ℝ) (p : Path R × Bool) : ℕ → ℕ → Option (Path R)
  | 0, _ => if env.valid p.1 = true ∧ p.2 = true then some p.1 else none
  | k + 1, n =>
    if env.valid p.1 = true ∧ p.2 = true then some p.1
    else search env q1 q2 inf sup (attempt env q1 q2 (dichotomy inf sup n)) k (n + 1)

/-- steering-method-parabola.cc:69-346 `compute_3D_path` -/
noncomputable def steer (env : SteerEnv R) (q1 q2 : Conf R) : Option (Timed R) :=
  let d := q2.pos - q1.pos
  let theta := Complex.arg ⟨d.x, d.y⟩
  let X := d.x * cos theta + d.y * sin theta
  match bounds env X d.z with
  | none => none
  | some (inf, sup) =>
    let alpha := inf + 1 / 10 * (sup - inf)
    if (attempt env q1 q2 inf).2 = false then none
    else
      match search env q1 q2 inf sup (attempt env q1 q2 alpha) 6 0 with
      | none => none
      | some p => some (Timed.create { p.init with vel := p.V0, acc := ⟨p.init.acc.x, p.init.acc.y, -env.g⟩ } { p.fin with vel := p.Vimp } p)

end Parabola
end Rbprm
