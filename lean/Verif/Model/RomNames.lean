import Verif.Model.Setup
set_option linter.unusedSectionVars false
/-!
# Model of the names of the ROMs of a jump
(`SteeringMethodParabola::fillROMnames` and the members `initialROMnames_`, `endROMnames_` of the steering method and of `ParabolaPath`)

The configuration validations of the problem are called in the order of their registration up to the first one that refuses, on one report variable that is null before
(`core::ConfigValidations`, hpp-core); a validation that is not that of the ROMs writes its own report when it refuses.  A configuration is what the validations see of it.
-/
namespace Rbprm
namespace RomNames
open Validation
variable {N O R : Type _} [LinearOrder N] [DecidableEq O]

/-- what the validations see of a configuration: collisions, joint bounds (inside of the validation of the ROMs), and the answers of the other validations [steering-method-parabola.cc:843-867] -/
structure Seen (O : Type _) where
  collides : O × O → Bool
  boundsOk : Bool
  others : ℕ → Bool

/-- a registered validation: that of the ROMs, or another one [steering-method-parabola.cc:843-867] -/
inductive Kind where
  | rom
  | other (i : ℕ)

/-- `core::ConfigValidations::validate`: the validator afterwards and the report variable, `none`: null or not a report of the ROMs; outer `none`: undefined behaviour [hpp-core, called in steering-method-parabola.cc:843-867] -/
def validateAll (q : Seen O) : List Kind → Validator N O R → Option (Report N O) → Option (Validator N O R × Option (Report N O))
  | [], v, r => some (v, r)
  | .rom :: ks, v, _ =>
    match validateDefault q.collides q.boundsOk v with
    | none => none
    | some (true, v', r) => validateAll q ks v' (some r)
    | some (false, v', r) => some (v', some r)
  | .other i :: ks, v, r => if q.others i then validateAll q ks v r else some (v, none)

/-- steering-method-parabola.cc:843-864 `fillROMnames`: the names are appended -/
def fillROMnames (kinds : List Kind) (q : Seen O) (v : Validator N O R) (names : List N) : Option (Validator N O R × List N) :=
  match validateAll q kinds v none with
  | none => none
  | some (v', none) => some (v', names)
  | some (v', some r) => some (v', names ++ r.ROMReports.keys)

/-- the members `initialROMnames_` and `endROMnames_` of the steering method, and of a jump [steering-method-parabola.hh:193-194, parabola-path.hh:187-188] -/
@[ext] structure Names (N : Type _) where
  initial : List N
  final : List N

/-- steering-method-parabola.cc:299-303: the names before the first parabola is made -/
def steerNames (kinds : List Kind) (q1 q2 : Seen O) (v : Validator N O R) (old : Names N) : Option (Validator N O R × Names N) :=
  let cleared : Names N := { old with initial := [], final := [] }
  match fillROMnames kinds q1 v cleared.initial with
  | none => none
  | some (v', initial) => (fillROMnames kinds q2 v' cleared.final).map fun x => (x.1, ⟨initial, x.2⟩)

/-- parabola-path.cc:161-180 `reverse`: the names of the reversed jump -/
def Names.reverse (n : Names N) : Names N := ⟨n.final, n.initial⟩

/-- parabola-path.cc:148-159 `extract`: the names of a part of the jump -/
def Names.extract (n : Names N) : Names N := ⟨n.initial, n.final⟩

end RomNames
end Rbprm
