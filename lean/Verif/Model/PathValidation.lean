import Mathlib.Algebra.Order.Field.Basic
set_option linter.unusedSectionVars false
/-!
# Model of `RbPrmPathValidation::validate` and `DynamicPathValidation::validate` (with filter)

Times are a linearly ordered field `K`.  `path t` is the configuration of the path at `t` (`none`: `operator()` returned
false).  The configuration validation is a state machine on a state `σ` (`RbPrmValidation` reorders its collision pairs,
`DynamicValidation` remembers contacts and accelerations): `check s q` is the answer, the configuration report and the new
state.  `none` as a result of a loop means that the given number of iterations did not suffice; that the loop ends is a
theorem.  `core::Path::extract` is represented by the extracted interval.
-/
namespace Rbprm
namespace PathValidation
variable {K Q Rep σ : Type _} [Field K] [LinearOrder K]

/-- what `validPart` is set to [rbprm-path-validation.cc:49-118] -/
inductive ValidPart (K : Type _) where
  | whole
  | extract (first second : K)
deriving DecidableEq

/-- `core::CollisionPathValidationReport`: parameter and configuration report (`none`: null pointer) [rbprm-path-validation.cc:49-118] -/
structure PathReport (K Rep : Type _) where
  parameter : K
  configReport : Option Rep
deriving DecidableEq

/-- result of a validation: answer, `validPart`, `validationReport` (`none`: the argument is not written), state [rbprm-path-validation.cc:49-118] -/
structure Result (K Rep σ : Type _) where
  valid : Bool
  validPart : ValidPart K
  report : Option (PathReport K Rep)
  state : σ

/-- a configuration validation [rbprm-path-validation.cc:49-118] -/
abbrev Check (Q Rep σ : Type _) := σ → Q → Bool × Rep × σ

/-- what the loops leave: `valid`, `lastValidTime`, report, state [rbprm-path-validation.cc:49-118] -/
structure LoopResult (K Rep σ : Type _) where
  valid : Bool
  lastValidTime : K
  report : Option (PathReport K Rep)
  state : σ

/-- rbprm-path-validation.cc:93-94 (65): evaluate and validate at `t`: the answer, `configReport` and state afterwards. -/
def checkAt (path : K → Option Q) (check : Check Q Rep σ) (s : σ) (configReport : Option Rep) (t : K) :
    Bool × Option Rep × σ :=
  match path t with
  | none => (false, configReport, s)
  | some q => ((check s q).1, some (check s q).2.1, (check s q).2.2)

/-- rbprm-path-validation.cc:92-106 the loop forward. -/
def forwardLoop (path : K → Option Q) (check : Check Q Rep σ) (stepSize tmax : K) :
    Nat → K → K → Nat → Option Rep → σ → Option (LoopResult K Rep σ)
  | 0, _, _, _, _, _ => none
  | n + 1, t, lastValidTime, finished, configReport, s =>
    if finished < 2 then
      let c := checkAt path check s configReport t
      if c.1 = false then some ⟨false, lastValidTime, some ⟨t, c.2.1⟩, c.2.2⟩
      else if t + stepSize > tmax then
        forwardLoop path check stepSize tmax n tmax t (finished + 1) c.2.1 c.2.2
      else forwardLoop path check stepSize tmax n (t + stepSize) t finished c.2.1 c.2.2
    else some ⟨true, lastValidTime, none, s⟩

/-- rbprm-path-validation.cc:63-77 the loop backward. -/
def backwardLoop (path : K → Option Q) (check : Check Q Rep σ) (stepSize tmin : K) :
    Nat → K → K → Nat → Option Rep → σ → Option (LoopResult K Rep σ)
  | 0, _, _, _, _, _ => none
  | n + 1, t, lastValidTime, finished, configReport, s =>
    if finished < 2 then
      let c := checkAt path check s configReport t
      if c.1 = false then some ⟨false, lastValidTime, some ⟨t, c.2.1⟩, c.2.2⟩
      else if t - stepSize < tmin then
        backwardLoop path check stepSize tmin n tmin t (finished + 1) c.2.1 c.2.2
      else backwardLoop path check stepSize tmin n (t - stepSize) t finished c.2.1 c.2.2
    else some ⟨true, lastValidTime, none, s⟩

/-- rbprm-path-validation.cc:55-114 (dynamic-path-validation.cc:66-135): the body of `validate`; at most `fuel` iterations.
`configReport` is the report before the loop. -/
def validateFrom (configReport : Option Rep) (fuel : Nat) (path : K → Option Q) (tmin tmax : K) (reverse : Bool) (check : Check Q Rep σ) (stepSize : K)
    (s : σ) : Option (Result K Rep σ) :=
  if reverse then
    (backwardLoop path check stepSize tmin fuel tmax tmax 0 configReport s).map (fun r =>
      if r.valid then ⟨true, .whole, r.report, r.state⟩
      else ⟨false, .extract r.lastValidTime tmax, r.report, r.state⟩)
  else
    (forwardLoop path check stepSize tmax fuel tmin tmin 0 configReport s).map (fun r =>
      if r.valid then ⟨true, .whole, r.report, r.state⟩
      else ⟨false, .extract tmin r.lastValidTime, r.report, r.state⟩)

/-- rbprm-path-validation.cc:49-115 `validate` with filter (the filter is part of `check`); at most `fuel` iterations. -/
def validate (fuel : Nat) (path : K → Option Q) (tmin tmax : K) (reverse : Bool) (check : Check Q Rep σ) (stepSize : K)
    (s : σ) : Option (Result K Rep σ) := validateFrom none fuel path tmin tmax reverse check stepSize s

/-- dynamic-path-validation.cc:76-77: ROM validation, then (if accepted) the dynamic one on the report of the former;
the states are those of both validators. -/
def dynamicCheck {τ : Type _} (rbprm : Check Q Rep σ) (dyn : τ → Q → Rep → Bool × Rep × τ) : Check Q Rep (σ × τ) :=
  fun s q =>
    let c := rbprm s.1 q
    if c.1 then
      let d := dyn s.2 q c.2.1
      (d.1, d.2.1, (c.2.2, d.2.2))
    else (false, c.2.1, (c.2.2, s.2))

/-- dynamic-path-validation.cc:48-138 `validate` with filter.  `initialCheck` is `rbprmValidation_->validate(q,
configReport)` (default filter), `setInitial` is `setInitialReport`.  l.55 evaluates the path into a vector of size 0:
undefined (`.error`) unless the path has output size 0. -/
def dynamicValidate {τ : Type _} (fuel : Nat) (outputSize : Nat) (path : K → Option Q) (tmin tmax : K) (reverse : Bool)
    (initialCheck rbprm : Check Q Rep σ) (dyn : τ → Q → Rep → Bool × Rep × τ) (setInitial : τ → Rep → τ) (stepSize : K)
    (uninitialised : Q) (s : σ × τ) : Except Unit (Option (Result K Rep (σ × τ))) :=
  if outputSize ≠ 0 then .error ()
  else
    let q := (path (if reverse then tmax else tmin)).getD uninitialised
    let c := initialCheck s.1 q
    .ok (validateFrom (some c.2.1) fuel path tmin tmax reverse (dynamicCheck rbprm dyn) stepSize
      (c.2.2, setInitial s.2 c.2.1))

end PathValidation
end Rbprm
