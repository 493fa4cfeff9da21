import Verif.Model.Validation
set_option linter.unusedSectionVars false
/-!
# Model of the obstacle management of `RbPrmValidation`

`RbPrmValidation` is a `core::ConfigValidation` whose obstacles can be changed after construction: `addObstacle`,
`removeObstacleFromJoint`, and the switches `randomnizeCollisionPairs`, `computeAllContacts`.  `joint` maps a collision
body to its joint.  The external `core::ObstacleUser` is modelled by its contract: `addObstacle` appends one pair per
collision body of the robot of that validation, `removeObstacleFromJoint` erases all the pairs of the joint and the
obstacle together with their requests; whether it raises an exception when it erases nothing depends on the version of
hpp-core and is the parameter `strict`.
-/
namespace Rbprm
namespace Validation
variable {N O R J : Type _} [LinearOrder N] [DecidableEq O] [DecidableEq J]

/-- rbprm-validation.cc:233-235 `addObstacle`: forwarded to the validation of the trunk only; `bodies` are the collision
bodies of the trunk. -/
def addObstacle (bodies : List O) (object : O) (v : Validator N O R) : Validator N O R :=
  { v with trunkPairs := v.trunkPairs ++ bodies.map (fun b => (b, object)) }

/-- the pairs concerned by `core::ObstacleUser::removeObstacleFromJoint` (external). [called in rbprm-validation.cc:237-244] -/
def concerned (joint : O → J) (j : J) (object : O) (p : O × O) : Bool := decide (joint p.1 = j ∧ p.2 = object)

/-- erase the concerned pairs and their requests (external, see the header). [called in rbprm-validation.cc:237-244] -/
def erasePairs (drop : O × O → Bool) : List (O × O) → List R → List (O × O) × List R
  | p :: ps, r :: rs =>
    let rest := erasePairs drop ps rs
    if drop p then rest else (p :: rest.1, r :: rest.2)
  | ps, rs => (ps, rs)

/-- `core::ObstacleUser::removeObstacleFromJoint` on a ROM validation; `none`: it raised an exception. [called in rbprm-validation.cc:237-244] -/
def romRemove (strict : Bool) (drop : O × O → Bool) (rom : Rom O R) : Option (Rom O R) :=
  if strict ∧ ¬ rom.pairs.any drop then none
  else
    let e := erasePairs drop rom.pairs rom.requests
    some { rom with pairs := e.1, requests := e.2 }

/-- rbprm-validation.cc:240-243 the loop over the ROM validations; the flag tells whether an exception was raised (it then
leaves the remaining ROMs as they are). -/
def romsRemove (strict : Bool) (drop : O × O → Bool) : AMap N (Rom O R) → Bool × AMap N (Rom O R)
  | [] => (false, [])
  | (n, rom) :: rest =>
    match romRemove strict drop rom with
    | none => (true, (n, rom) :: rest)
    | some rom' =>
      let x := romsRemove strict drop rest
      (x.1, (n, rom') :: x.2)

/-- rbprm-validation.cc:237-244 `removeObstacleFromJoint`: trunk first, then every ROM; the flag tells whether the call
raised an exception. -/
def removeObstacle (strict : Bool) (joint : O → J) (j : J) (object : O) (v : Validator N O R) :
    Bool × Validator N O R :=
  let drop := concerned joint j object
  if strict ∧ ¬ v.trunkPairs.any drop then (true, v)
  else
    let x := romsRemove strict drop v.roms
    (x.1, { v with trunkPairs := v.trunkPairs.filter (fun p => !drop p), roms := x.2 })

/-- the public operations on a `RbPrmValidation` [rbprm-validation.cc:233-259] -/
inductive Op (N O J : Type _) where
  | add (object : O)
  | remove (j : J) (object : O)
  | shuffle (draw : N → Nat → Nat)
  | allContacts (b : Bool)
  | validate (collides : O × O → Bool) (boundsOk : Bool) (filter : List N)

/-- one operation (rbprm-validation.cc:182-258); an exception raised by a removal is caught by the caller. -/
def step (strict : Bool) (bodies : List O) (joint : O → J) (v : Validator N O R) : Op N O J → Option (Validator N O R)
  | .add object => some (addObstacle bodies object v)
  | .remove j object => some (removeObstacle strict joint j object v).2
  | .shuffle draw => (randomnizeAll draw v.roms).map (fun roms => { v with roms := roms })
  | .allContacts b => some { v with roms := computeAllContacts b v.roms }
  | .validate collides boundsOk filter => (validate collides boundsOk v filter).map (fun x => x.2.1)

end Validation
end Rbprm
