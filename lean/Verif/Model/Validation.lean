import Verif.Base.AMap
set_option linter.unusedSectionVars false
/-!
# Model of `rbprm-validation.cc` and `rbprm-rom-validation.cc`

Names are an ordered type `N`, collision objects a type `O`, collision requests a type `R`.  A configuration enters
through the oracle `collides` (which pairs of objects are in collision there) and the flag `boundsOk` of
`JointBoundValidation`.  `hpp::core::CollisionValidation::validate` (external) is modelled by its contract: it accepts
iff no pair collides, otherwise it reports the first colliding pair in the order of `pairs()`.  ROM devices are keyed
by their name (`robotRoms_`).  `none` is undefined behaviour of the C++ code (index out of range, null pointer).
-/
namespace Rbprm
namespace Validation
variable {N O R : Type _}

/-- `core::CollisionValidationReport`: the colliding pair, and all colliding pairs when all contacts are computed. [hpp-core, used in rbprm-rom-validation.cc:49-98] -/
structure CollisionReport (O : Type _) where
  object1 : O
  object2 : O
  all : List (O × O)
deriving DecidableEq

/-- rbprm-rom-validation.hh:41-81 `RbPrmRomValidation` with `pairs()`, `requests()` and the options of
`core::CollisionValidation`. -/
structure Rom (O R : Type _) where
  pairs : List (O × O)
  requests : List R
  optional : Bool
  computeAllContacts : Bool

/-- `core::CollisionValidation::validate` (external, see the header of this file). [called in rbprm-rom-validation.cc:49-98, rbprm-validation.cc:196-231] -/
def coreValidate (collides : O × O → Bool) (pairs : List (O × O)) (computeAll : Bool) : Option (CollisionReport O) :=
  match pairs.find? collides with
  | none => none
  | some p => some ⟨p.1, p.2, if computeAll then pairs.filter collides else [p]⟩

/-- `std::swap(l[i], l[j])`. [standard library; rbprm-rom-validation.cc:100-112] -/
def swapAt {α : Type _} (l : List α) (i j : Nat) : Option (List α) :=
  match l[i]?, l[j]? with
  | some a, some b => some ((l.set i b).set j a)
  | _, _ => none

/-- rbprm-rom-validation.cc:76-88: bring the first pair with object `obj2` to the front. -/
def bringToFront [DecidableEq O] (rom : Rom O R) (obj2 : O) : Option (Rom O R) :=
  let i := rom.pairs.findIdx (fun p => decide (p.2 = obj2))
  if i ≠ 0 ∧ rom.pairs ≠ [] then
    match swapAt rom.pairs 0 i, swapAt rom.requests 0 i with
    | some p, some r => some { rom with pairs := p, requests := r }
    | _, _ => none
  else some rom

/-- what `RbPrmRomValidation::validate` leaves: its answer, the ROM, and the collision report of a collision. [rbprm-rom-validation.cc:49-98] -/
structure RomResult (O R : Type _) where
  accepted : Bool
  rom : Rom O R
  collision : Option (CollisionReport O)

/-- rbprm-rom-validation.cc:49-98 `validate`; `isRbprmReport` tells whether the given report is an
`RbprmValidationReport`. -/
def romValidate [DecidableEq O] (collides : O × O → Bool) (rom : Rom O R) (isRbprmReport : Bool) :
    Option (RomResult O R) :=
  match coreValidate collides rom.pairs rom.computeAllContacts with
  | none => some ⟨rom.optional, rom, none⟩
  | some rep =>
    if isRbprmReport then
      match bringToFront rom rep.object2 with
      | none => none
      | some rom' => some ⟨true, rom', some rep⟩
    else some ⟨true, rom, some rep⟩

/-- rbprm-rom-validation.cc:100-109 loop of `randomnizeCollisionPairs` from index `i`; `draw i` is `std::rand()`. -/
def randomnizeLoop (draw : Nat → Nat) : Nat → Nat → Rom O R → Option (Rom O R)
  | 0, _, rom => some rom
  | n + 1, i, rom =>
    let j := draw i % (i + 1)
    if i ≠ j then
      match swapAt rom.pairs i j, swapAt rom.requests i j with
      | some p, some r => randomnizeLoop draw n (i + 1) { rom with pairs := p, requests := r }
      | _, _ => none
    else randomnizeLoop draw n (i + 1) rom

/-- rbprm-rom-validation.cc:100-109 `randomnizeCollisionPairs`. -/
def randomnizeCollisionPairs (draw : Nat → Nat) (rom : Rom O R) : Option (Rom O R) :=
  randomnizeLoop draw rom.pairs.length 0 rom

/-- rbprm-validation-report.hh:36-46 `RbprmValidationReport`; `none` in a field: not initialised. -/
structure Report (N O : Type _) where
  ROMReports : AMap N (CollisionReport O)
  ROMFilters : AMap N Bool
  trunkInCollision : Option Bool
  trunkReport : Option (CollisionReport O)
  romsValid : Option Bool

/-- a new report [rbprm-validation.cc:196-222] -/
def Report.new : Report N O := ⟨[], [], none, none, none⟩

section roms
variable [LinearOrder N] [DecidableEq O]

/-- rbprm-rom-validation.cc:60-74 what a ROM validation writes into the report. -/
def Report.record (r : Report N O) (name : N) (collision : Option (CollisionReport O)) : Report N O :=
  { r with
    ROMFilters := AMap.insertNew r.ROMFilters name collision.isSome
    ROMReports := match collision with
      | some c => AMap.insertNew r.ROMReports name c
      | none => r.ROMReports }

/-- rbprm-validation.cc:149-159 the loop of `validateRoms` over the remaining ROMs; the report is a pointer, `none` is the
null pointer. -/
def romsLoop (collides : O × O → Bool) (filter : List N) :
    AMap N (Rom O R) → Nat → Option (Report N O) → Option (AMap N (Rom O R) × Nat × Option (Report N O))
  | [], filterMatch, r => some ([], filterMatch, r)
  | (name, rom) :: rest, filterMatch, r =>
    if filterMatch < 1 ∨ filterMatch < filter.length then
      if filter.isEmpty ∨ name ∈ filter then
        match romValidate collides rom r.isSome with
        | none => none
        | some v =>
          (romsLoop collides filter rest (if v.accepted then filterMatch + 1 else filterMatch)
            (r.map (fun r => r.record name v.collision))).map (fun x => ((name, v.rom) :: x.1, x.2.1, x.2.2))
      else (romsLoop collides filter rest filterMatch r).map (fun x => ((name, rom) :: x.1, x.2.1, x.2.2))
    else some ((name, rom) :: rest, filterMatch, r)

/-- rbprm-validation.cc:143-163 `validateRoms`: answer, ROMs and report afterwards; l.161 writes through the pointer. -/
def validateRomsPtr (collides : O × O → Bool) (filter : List N) (roms : AMap N (Rom O R)) (report : Option (Report N O)) :
    Option (Bool × AMap N (Rom O R) × Report N O) :=
  match romsLoop collides filter roms 0 report with
  | none => none
  | some (roms', filterMatch, report') =>
    match report' with
    | none => none
    | some r' =>
      let valid := decide (filter.length ≤ filterMatch)
      some (valid, roms', { r' with romsValid := some valid })

/-- `validateRoms` called with a report. [rbprm-validation.cc:143-180] -/
def validateRoms (collides : O × O → Bool) (filter : List N) (roms : AMap N (Rom O R)) (r : Report N O) :
    Option (Bool × AMap N (Rom O R) × Report N O) := validateRomsPtr collides filter roms (some r)

/-- rbprm-validation.cc:171-180 the overloads of `validateRoms` without report: `unusedReport` is a default-constructed
(null) pointer. -/
def validateRomsNoReport (collides : O × O → Bool) (filter : List N) (roms : AMap N (Rom O R)) :
    Option (Bool × AMap N (Rom O R) × Report N O) := validateRomsPtr collides filter roms none

/-- rbprm-validation.hh `RbPrmValidation`: pairs of the trunk validation, ROM validations, default filter. [rbprm-validation.hh:46-186] -/
structure Validator (N O R : Type _) where
  trunkPairs : List (O × O)
  trunkAll : Bool
  roms : AMap N (Rom O R)
  defaultFilter : List N

/-- rbprm-validation.cc:204-216 the report after the validation of the trunk. -/
def trunkRecord (trunk : Option (CollisionReport O)) : Report N O :=
  match trunk with
  | none => { Report.new with trunkInCollision := some false }
  | some c => { Report.new with trunkInCollision := some true, trunkReport := some c }

/-- rbprm-validation.cc:196-222 `validate`: the answer, the validator afterwards and the report. -/
def validate (collides : O × O → Bool) (boundsOk : Bool) (v : Validator N O R) (filter : List N) :
    Option (Bool × Validator N O R × Report N O) :=
  let trunk := coreValidate collides v.trunkPairs v.trunkAll
  match validateRoms collides filter v.roms (trunkRecord trunk) with
  | none => none
  | some (valid, roms', r') => some (valid && trunk.isNone && boundsOk, { v with roms := roms' }, r')

/-- rbprm-validation.cc:182-189 `validate` with the default filter. -/
def validateDefault (collides : O × O → Bool) (boundsOk : Bool) (v : Validator N O R) :
    Option (Bool × Validator N O R × Report N O) := validate collides boundsOk v v.defaultFilter

/-- rbprm-validation.cc:224-231 `validateTrunk`. -/
def validateTrunk (collides : O × O → Bool) (v : Validator N O R) : Bool :=
  (coreValidate collides v.trunkPairs v.trunkAll).isNone

/-- rbprm-validation.cc:246-251 `randomnizeCollisionPairs` on all ROMs; `draw name` is the stream of `rand()` during
the shuffle of that ROM. -/
def randomnizeAll (draw : N → Nat → Nat) : AMap N (Rom O R) → Option (AMap N (Rom O R))
  | [] => some []
  | (name, rom) :: rest =>
    match randomnizeCollisionPairs (draw name) rom, randomnizeAll draw rest with
    | some r, some rs => some ((name, r) :: rs)
    | _, _ => none

/-- rbprm-validation.cc:253-258 `computeAllContacts`. -/
def computeAllContacts (b : Bool) (roms : AMap N (Rom O R)) : AMap N (Rom O R) :=
  roms.map (fun p => (p.1, { p.2 with computeAllContacts := b }))

/-! ### the constructor -/

/-- rbprm-validation.cc:121-134: the objects of the known affordance types of a filter. -/
def affordanceObjects (affordances : AMap N (List O)) (types : List N) : List O :=
  types.flatMap (fun t => (AMap.find? affordances t).getD [])

/-- rbprm-validation.cc:37-58 and 101-140: the validation of one ROM.  `bodies` are the collision bodies of the ROM,
`addObstacle` (core) adds one pair per body; without affordance filter nothing is added. -/
def createRom (bodies : List O) (request : R) (affordances : AMap N (List O)) (types : Option (List N))
    (inFilter : Bool) : Rom O R :=
  match types with
  | none => ⟨[], [], false, false⟩
  | some types =>
    let pairs := (affordanceObjects affordances types).flatMap (fun o => bodies.map (fun b => (b, o)))
    ⟨pairs, pairs.map (fun _ => request), !inFilter, false⟩

/-- rbprm-validation.cc:76-141 the constructor; `roms` are the ROM devices with their bodies, `trunkBodies` those of
the trunk (`addObstacle` of the geometries). -/
def Validator.create (trunkBodies : List O) (roms : AMap N (List O)) (request : R) (filter : List N)
    (affFilters : AMap N (List N)) (affordances : AMap N (List O)) (geometries : List O) : Validator N O R where
  trunkPairs := geometries.flatMap (fun o => trunkBodies.map (fun b => (b, o)))
  trunkAll := false
  roms := roms.map (fun p => (p.1, createRom p.2 request affordances (AMap.find? affFilters p.1)
    (decide (p.1 ∈ filter))))
  defaultFilter := (roms.filter (fun p => AMap.has affFilters p.1)).map Prod.fst

end roms
end Validation
end Rbprm
