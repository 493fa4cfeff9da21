import Verif.Model.PathValidation
import Verif.Model.Dynamic
set_option linter.unusedSectionVars false
/-!
# Model of the registration of configuration validations with a path validation, and of `DynamicPathValidation::validate` without filter
(`rbprm-path-validation.cc`, `dynamic-path-validation.cc/.hh`)

The discretised validation of hpp-core (`core::pathValidation::Discretized::validate`) is taken to be the same loop as that of `RbPrmPathValidation` (Model/PathValidation.lean), on the conjunction
of the registered validations: in the order of their registration, up to the first one that refuses, all on the same report, which is null before the first configuration
(`core::ConfigValidations`).  The validation of the ROMs is a function of the configuration (the order of its collision pairs is left out).
-/
namespace Rbprm
namespace DynPath
variable {K Q A M Rom Obj : Type _} [Field K] [LinearOrder K] [LinearOrder Rom] [DecidableEq Obj] [DecidableEq A]
open Dynamic (DynEnv DynState Report)

/-- a registered validation: the one of the ROMs (`RbPrmValidation`), the dynamic one, or another one, for instance of the joint bounds [rbprm-path-validation.cc:43-47, dynamic-path-validation.hh:47] -/
inductive Kind (Q : Type _) where
  | rom
  | dynamic
  | other (accepts : Q → Bool)

/-- what is called: `RbPrmPathValidation::add` with a validation of the ROMs or another one, `addDynamicValidator` [rbprm-path-validation.cc:43-47, dynamic-path-validation.hh:47] -/
abbrev Op (Q : Type _) := Kind Q

/-- the validations of the discretised validation, and whether `rbprmValidation_` and `dynamicValidation_` are set [dynamic-path-validation.hh:31-60] -/
structure Registry (Q : Type _) where
  kinds : List (Kind Q)
  romSet : Bool
  dynSet : Bool

/-- a new path validation (rbprm-path-validation.cc:39-41) -/
def Registry.new : Registry Q := ⟨[], false, false⟩

/-- rbprm-path-validation.cc:43-47 `add`: the result of the cast replaces `rbprmValidation_`; dynamic-path-validation.hh:47-50 `addDynamicValidator` -/
def Registry.add (r : Registry Q) : Op Q → Registry Q
  | .rom => { r with kinds := r.kinds ++ [.rom], romSet := true }
  | .other p => { r with kinds := r.kinds ++ [.other p], romSet := false }
  | .dynamic => { r with kinds := r.kinds ++ [.dynamic], dynSet := true }

/-- the state of the validations: the dynamic one, the report variable (`none`: null, or not a report of the ROMs), `ub`: undefined behaviour occurred [dynamic-path-validation.cc:48-138] -/
structure St (A Rep M : Type _) where
  dyn : DynState A Rep M
  report : Option Rep
  ub : Bool

/-- the ROM validation: answer and report, and the dynamic one [dynamic-path-validation.cc:48-138] -/
structure Env (Q A Rep M : Type _) where
  rom : Q → Bool × Rep
  dyn : DynEnv Q A Rep M

/-- one validation of one configuration [hpp-core, called in dynamic-path-validation.cc:48-138] -/
def exec (env : Env Q A (Report Rom Obj) M) (st : St A (Report Rom Obj) M) (q : Q) : Kind Q → Bool × St A (Report Rom Obj) M
  | .rom => ((env.rom q).1, { st with report := some (env.rom q).2 })
  | .dynamic =>
    match Dynamic.validate env.dyn st.dyn q st.report with
    | none => (false, { st with ub := true })
    | some (b, d) => (b, { st with dyn := d })
  | .other p => (p q, if p q then st else { st with report := none })

/-- `core::ConfigValidations::validate`: all the registered validations, up to the first refusal [hpp-core, called in dynamic-path-validation.cc:48-138] -/
def execAll (env : Env Q A (Report Rom Obj) M) (q : Q) : List (Kind Q) → St A (Report Rom Obj) M → Bool × St A (Report Rom Obj) M
  | [], st => (true, st)
  | k :: ks, st =>
    match exec env st q k with
    | (true, st') => execAll env q ks st'
    | (false, st') => (false, st')

/-- the conjunction of the registered validations, as the loop calls it [dynamic-path-validation.cc:48-138] -/
def check (env : Env Q A (Report Rom Obj) M) (kinds : List (Kind Q)) : PathValidation.Check Q (Option (Report Rom Obj)) (St A (Report Rom Obj) M) :=
  fun st q => ((execAll env q kinds st).1, (execAll env q kinds st).2.report, (execAll env q kinds st).2)

/-- dynamic-path-validation.cc:140-165 `validate` without filter; `garbage`: the vector before the evaluation, read when the path cannot be evaluated; outer `none`: a null pointer is used -/
def validate (env : Env Q A (Report Rom Obj) M) (reg : Registry Q) (fuel : ℕ) (path : K → Option Q) (tmin tmax : K) (reverse : Bool) (step : K) (garbage : Q) (d : DynState A (Report Rom Obj) M) :
    Option (Option (PathValidation.Result K (Option (Report Rom Obj)) (St A (Report Rom Obj) M))) :=
  if reg.romSet = false ∨ reg.dynSet = false then none
  else
    let q := (path (if reverse then tmax else tmin)).getD garbage
    some (PathValidation.validate fuel path tmin tmax reverse (check env reg.kinds) step ⟨Dynamic.setInitialReport d (some (env.rom q).2), none, false⟩)

/-- rbprm-path-validation.cc:49-115 `validate` with a filter (which is part of `filtered`): only `rbprmValidation_` is called; outer `none`: it is null -/
def validateFiltered {Rep : Type _} (filtered : Q → Bool × Rep) (reg : Registry Q) (fuel : ℕ) (path : K → Option Q) (tmin tmax : K) (reverse : Bool) (step : K) :
    Option (Option (PathValidation.Result K Rep Unit)) :=
  if reg.romSet = false then none
  else some (PathValidation.validate fuel path tmin tmax reverse (fun _ q => ((filtered q).1, (filtered q).2, ())) step ())

end DynPath
end Rbprm
