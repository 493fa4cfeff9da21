import Verif.Model.Paths
set_option linter.unusedSectionVars false
/-!
# Model of the steering method of the interpolation (`time-constraint-steering.hh`)
-/
namespace Rbprm
namespace Paths
variable {K R : Type _} [Field K] [LinearOrder K]

/-- how the right hand side of a constraint is chosen: given once, taken from a configuration (`rightHandSideFromConfig`, for the constraints of comparison type equality), or set by a `TimeDependant` from the extra
degree of freedom [hpp-core, with time-dependant.hh:54-76, time-constraint-utils.hh:62-69] -/
inductive Rhs (K : Type _) where
  | given (v : K)
  | stored (v : K)
  | timed (f : K → K)

/-- one scalar constraint [hpp-constraints `Implicit`] -/
structure Equation (R K : Type _) where
  f : Conf R K → K
  rhs : Rhs K

/-- the value that the constraint must have, when the time dependent right hand sides have been set for `dof` -/
def Equation.target (e : Equation R K) (dof : K) : K :=
  match e.rhs with
  | .given v => v
  | .stored v => v
  | .timed g => g dof

/-- `rightHandSideFromConfig` for one constraint [hpp-core, called at time-constraint-steering.hh:87] -/
def Equation.fromConfig (q : Conf R K) (e : Equation R K) : Equation R K :=
  match e.rhs with
  | .stored _ => { e with rhs := .stored (e.f q) }
  | _ => e

/-- a set of constraints with or without projector; `small` is the comparison of the error with the threshold of the projector, `solve` its iterations [hpp-core] -/
structure CSet (R K : Type _) where
  projector : Bool
  equations : List (Equation R K)
  small : List K → Bool
  solve : List (Equation R K) → K → Conf R K → Conf R K × Bool

/-- the error of a configuration -/
def errors (es : List (Equation R K)) (dof : K) (q : Conf R K) : List K := es.map fun e => e.f q - e.target dof

/-- the constraints that a path with this set applies and checks; without projector there is no numerical constraint [hpp-core `ConstraintSet`] -/
def CSet.constr (c : CSet R K) : Constr R K where
  project dof q := if c.projector then c.solve c.equations dof q else (q, true)
  sat dof q := !c.projector || c.small (errors c.equations dof q)

/-- time-constraint-steering.hh:84-92: a copy of the constraints with right hand sides from `q1`, if there is a projector, else the constraints themselves -/
def steerConstraints (constraints : Option (CSet R K)) (q1 : Conf R K) : Option (CSet R K) :=
  match constraints with
  | some c => if c.projector then some { c with equations := c.equations.map (Equation.fromConfig q1) } else some c
  | none => none

/-- time-constraint-steering.hh:81-96 `impl_compute`, as called by `core::SteeringMethod::operator()`, which gives no path if `checkPath` throws `projection_error` [hpp-core, with time-constraint-path.hh:61-84] -/
def steer (distance : Conf R K → Conf R K → K) (constraints : Option (CSet R K)) (q1 q2 : Conf R K) : Option (TPath R K) :=
  let length := distance q1 q2
  let p : TPath R K := ⟨q1, q2, length, (steerConstraints constraints q1).map CSet.constr⟩
  if p.check then some p else none

end Paths
end Rbprm
