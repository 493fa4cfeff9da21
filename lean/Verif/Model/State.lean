import Verif.Base.AMap
import Verif.Base.Vec3
/-!
# Model of `rbprm::State`  (src/rbprm-state.cc, include/hpp/rbprm/rbprm-state.hh)

* names (`std::string`) are an arbitrary linearly ordered type `N`;
* `double` is an ordered commutative ring `K`; `norm() > 0.01` is `10000 * normSq > 1`;
* `std::queue<std::string>` is a list, front first;
* `std::size_t nbContacts` is a natural number below `2^64`; `--` wraps at 0.
-/
namespace Rbprm

/-- include/hpp/rbprm/rbprm-state.hh:40-129 `struct State`. -/
structure State (N K : Type _) where
  configuration : List K
  contacts : AMap N Bool
  contactNormals : AMap N (Vec3 K)
  contactPositions : AMap N (Vec3 K)
  contactRotation : AMap N (Mat3 K)
  contactOrder : List N
  nbContacts : Nat
  stable : Bool
  robustness : K
deriving DecidableEq, Repr

/-- `--n` on `std::size_t` (64 bits, wraps around). [rbprm-state.cc:50-85] -/
def sizeDec (n : Nat) : Nat := if n = 0 then 2 ^ 64 - 1 else n - 1

/-- `(p - q).norm() > 0.01` (src/rbprm-state.cc:96-97), squared. -/
def movedBy {K : Type _} [CommRing K] [LinearOrder K] (p q : Vec3 K) : Bool :=
  decide (1 < 10000 * Vec3.distSq p q)

namespace State
variable {N K : Type _}

/-- rbprm-state.hh:41 `State()`.  `robustness` is left uninitialised by the C++; the model takes its
(arbitrary) initial value and the default-constructed configuration as parameters. -/
def init (r : K) : State N K :=
  ⟨[], [], [], [], [], [], 0, false, r⟩

/-- src/rbprm-state.cc:22-32 copy constructor: every field is copied. -/
def copyCtor (other : State N K) : State N K :=
  { configuration := other.configuration
    contactOrder := other.contactOrder
    nbContacts := other.nbContacts
    stable := other.stable
    robustness := other.robustness
    contacts := other.contacts
    contactNormals := other.contactNormals
    contactPositions := other.contactPositions
    contactRotation := other.contactRotation }

/-- src/rbprm-state.cc:34-48 `operator=`: `robustness` is not assigned. The self-assignment guard is
`sameObject`. -/
def assign (this other : State N K) (sameObject : Bool) : State N K :=
  if sameObject then this
  else
    { this with
      contacts := other.contacts
      contactNormals := other.contactNormals
      contactPositions := other.contactPositions
      contactRotation := other.contactRotation
      contactOrder := other.contactOrder
      nbContacts := other.nbContacts
      stable := other.stable
      configuration := other.configuration }

variable [LinearOrder N]

/-- src/rbprm-state.cc:59-67: the queue rebuilt without `contactId`. -/
def requeueWithout : List N → N → List N
  | [], _ => []
  | current :: rest, contactId =>
    if contactId ≠ current then current :: requeueWithout rest contactId
    else requeueWithout rest contactId

/-- src/rbprm-state.cc:50-71 `RemoveContact`. -/
def removeContact (s : State N K) (contactId : N) : State N K × Bool :=
  if s.contacts.has contactId then
    ({ s with
       contacts := s.contacts.erase contactId
       contactNormals := s.contactNormals.erase contactId
       contactPositions := s.contactPositions.erase contactId
       contactRotation := s.contactRotation.erase contactId
       nbContacts := sizeDec s.nbContacts
       stable := false
       contactOrder := requeueWithout s.contactOrder contactId }, true)
  else (s, false)

/-- src/rbprm-state.cc:73-85 `RemoveFirstContact`; `none` is the returned empty string. -/
def removeFirstContact (s : State N K) : State N K × Option N :=
  match s.contactOrder with
  | [] => (s, none)
  | contactId :: rest =>
    ({ s with
       contactOrder := rest
       contacts := s.contacts.erase contactId
       contactNormals := s.contactNormals.erase contactId
       contactPositions := s.contactPositions.erase contactId
       contactRotation := s.contactRotation.erase contactId
       stable := false
       nbContacts := sizeDec s.nbContacts }, some contactId)

/-- src/projection/projection.cc:428-437: the contact bookkeeping of a successful
`projectEffector` (the IK and collision outcome are inputs of the operation). -/
def addContact (s : State N K) (limbId : N) (position normal : Vec3 K) (rotation : Mat3 K)
    (configuration : List K) : State N K :=
  { s with
    contacts := s.contacts.set limbId true
    contactPositions := s.contactPositions.set limbId position
    contactRotation := s.contactRotation.set limbId rotation
    contactNormals := s.contactNormals.set limbId normal
    contactOrder := s.contactOrder ++ [limbId]
    configuration := configuration
    nbContacts := s.nbContacts + 1 }

section variations
variable [CommRing K] [LinearOrder K]

/-- src/rbprm-state.cc:91-98: is `(name, pos)` a new contact w.r.t. `previous`? -/
def isNewContact (previous : State N K) (name : N) (pos : Vec3 K) : Bool :=
  match previous.contactPositions.find? name with
  | none => true
  | some p => movedBy p pos

/-- src/rbprm-state.cc:89-103: the loop of `contactCreations(previous, outList)` over
`contactPositions_`, appending to `outList`. -/
def creationsLoop (previous : State N K) : AMap N (Vec3 K) → List N → List N
  | [], outList => outList
  | (name, pos) :: rest, outList =>
    if isNewContact previous name pos && !(outList.contains name) then
      creationsLoop previous rest (outList ++ [name])
    else creationsLoop previous rest outList

/-- src/rbprm-state.cc:87-104 `contactCreations(previous, outList)`. -/
def contactCreationsInto (s previous : State N K) (outList : List N) : List N :=
  creationsLoop previous s.contactPositions outList

/-- src/rbprm-state.cc:106-109 `contactBreaks(previous, outList)`. -/
def contactBreaksInto (s previous : State N K) (outList : List N) : List N :=
  contactCreationsInto previous s outList

/-- src/rbprm-state.cc:117-121 `contactCreations(previous)`. -/
def contactCreations (s previous : State N K) : List N := contactCreationsInto s previous []

/-- src/rbprm-state.cc:111-115 `contactBreaks(previous)`. -/
def contactBreaks (s previous : State N K) : List N := contactBreaksInto s previous []

/-- src/rbprm-state.cc:147-152 `contactVariations(previous)`. -/
def contactVariations (s previous : State N K) : List N :=
  contactBreaksInto s previous (contactCreationsInto s previous [])

/-- src/rbprm-state.cc:126-139 `freeLimbMotions`; `none` is the exception thrown by
`contacts_.at`. The first conjunct short-circuits. -/
def freeLimbMotions (s : State N K) (variations : List N) : List N → Option (List N)
  | [] => some []
  | eff :: rest =>
    if variations.contains eff then freeLimbMotions s variations rest
    else
      match s.contacts.find? eff with
      | none => none
      | some true => freeLimbMotions s variations rest
      | some false => (freeLimbMotions s variations rest).map (eff :: ·)

/-- src/rbprm-state.cc:142-145 `freeVariations(previous, allEffectors)`. -/
def freeVariations (s previous : State N K) (allEffectors : List N) : Option (List N) :=
  freeLimbMotions s (contactVariations s previous) allEffectors

/-- src/rbprm-state.cc:154-167 `fixedContacts(previous)`. -/
def fixedContacts (s previous : State N K) : List N :=
  let variations := contactVariations s previous
  s.contactPositions.keys.filter (fun name => !(variations.contains name))

/-- src/rbprm-state.cc:169-181 `allVariations(previous, allEffectors)`. -/
def allVariations (s previous : State N K) (allEffectors : List N) : List N :=
  let fixed := fixedContacts s previous
  allEffectors.filter (fun e => !(fixed.contains e))

/-- src/rbprm-state.cc:310-323 `effectorDistance(from, to)`.  The model returns the *squared*
distance (`max` commutes with the square on non-negative numbers, so no root is needed). -/
def effectorDistanceSq (frm dest : State N K) : K :=
  (contactCreations dest frm).foldl (fun norm name =>
    match frm.contactPositions.find? name, dest.contactPositions.find? name with
    | some p, some q => max norm (Vec3.distSq p q)
    | _, _ => norm) 0

end variations

/-- include/hpp/rbprm/rbprm-state.hh:140-152 `freeEffectors(state, start, end)`. -/
def freeEffectors (s : State N K) (effs : List N) : List N :=
  effs.filter (fun e => match s.contacts.find? e with
    | none => true
    | some b => !b)

/-- Outcome of a printing routine: the visited names in order, an exception thrown by `map::at`,
or a dereferenced past-the-end iterator. [rbprm-state.cc:183-308] -/
inductive PrintOutcome (N : Type _) where
  | ok (visited : List N)
  | outOfRange
  | undefinedBehaviour
deriving DecidableEq, Repr

/-- src/rbprm-state.cc:217-232 the loop of `printInternal`: `c` counts up to `nbContacts` while `cit`
walks `contactNormals_`; positions and rotations are read with `at`.  The model ignores the printed
characters (and the `substr(1)` of an empty name). -/
def printLoop (positions : AMap N (Vec3 K)) (rotations : AMap N (Mat3 K)) :
    Nat → AMap N (Vec3 K) → PrintOutcome N
  | 0, _ => .ok []
  | _ + 1, [] => .undefinedBehaviour
  | c + 1, (name, _) :: cit =>
    match positions.find? name, rotations.find? name with
    | some _, some _ =>
      match printLoop positions rotations c cit with
      | .ok l => .ok (name :: l)
      | e => e
    | _, _ => .outOfRange

/-- src/rbprm-state.cc:216-239 `printInternal`. -/
def printInternal (s : State N K) : PrintOutcome N :=
  printLoop s.contactPositions s.contactRotation s.nbContacts s.contactNormals

/-- src/rbprm-state.cc:244-248: the name loop of `print(stringstream)`. -/
def printNames : Nat → AMap N (Vec3 K) → PrintOutcome N
  | 0, _ => .ok []
  | _ + 1, [] => .undefinedBehaviour
  | c + 1, (name, _) :: cit =>
    match printNames c cit with
    | .ok l => .ok (name :: l)
    | e => e

/-- src/rbprm-state.cc:241-251 `print(stringstream)`: names, then `printInternal`. -/
def print (s : State N K) : PrintOutcome N :=
  match printNames s.nbContacts s.contactNormals with
  | .ok _ => printInternal s
  | e => e

/-- src/rbprm-state.cc:253-282 `print(stringstream, previous)`: the loop over the contact positions is
always safe; then `printInternal`. -/
def printPrev (s _previous : State N K) : PrintOutcome N := printInternal s

end State
end Rbprm
