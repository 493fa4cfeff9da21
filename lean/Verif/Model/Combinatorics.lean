import Verif.Model.State
/-!
# Model of the combinatorial part of `contact_generation.cc`

`push_if_new`, `maintain_contacts_combinatorial(_rec)`, `flatten`, `sortLimbs`,
`stringCombinatorial(Rec)`, `gen_contacts_combinatorial`, `getAffObjectsForLimb`.
-/
namespace Rbprm
namespace Contact
open State
variable {N K : Type _} [LinearOrder N]

/-- src/contact_generation/contact_generation.cc:74-80 `push_if_new`: states are compared through
their contact order. -/
def pushIfNew (states : List (State N K)) (current : State N K) : List (State N K) × Bool :=
  if states.any (fun s => decide (current.contactOrder = s.contactOrder)) then (states, false)
  else (states ++ [current], true)

/-- contact_generation.cc:90-130 `maintain_contacts_combinatorial_rec`.  `res` is the vector indexed by
depth.  `fuel` makes the recursion structural; `maxBrokenContacts - depth` always suffices since the
function returns at `depth >= maxBrokenContacts`.  (`fixedContacts` at l.107 is computed and not used; the
counter `i` of l.104-128 never stops the loop before the queue is empty.) -/
def maintainCombRec (maxBroken : Nat) : Nat → State N K → Nat → List (List (State N K)) →
    List (List (State N K))
  | fuel, current, depth, res =>
    let p := pushIfNew (res.getD depth []) current
    let res1 := res.set depth p.1
    if !p.2 || decide (maxBroken ≤ depth) then res1
    else
      match fuel with
      | 0 => res1
      | fuel + 1 =>
        current.contactOrder.foldl
          (fun acc contactRemoved =>
            maintainCombRec maxBroken fuel (current.removeContact contactRemoved).1 (depth + 1) acc)
          res1

/-- contact_generation.cc:132-140 `flatten` -/
def flattenDepth (res : List (List (State N K))) : List (State N K) := res.flatten

/-- contact_generation.cc:142-156 `maintain_contacts_combinatorial`. -/
def maintainContactsCombinatorial (current : State N K) (maxBroken : Nat) : List (State N K) :=
  let res : List (List (State N K)) := List.replicate (maxBroken + 1) []
  if current.nbContacts = 1 then flattenDepth (res.set 0 [current])
  else flattenDepth (maintainCombRec maxBroken maxBroken current 0 res)

/-- include/hpp/rbprm/tools.hh:222-228 `insertIfNew`. -/
def insertIfNew {A : Type _} [DecidableEq A] (data : List A) (value : A) : List A × Bool :=
  if data.contains value then (data, false) else (data ++ [value], true)

/-- contact_generation.cc:266-271: the free limbs met along the contact order, each once. -/
def sortLimbsUsed (freeLimbs : List N) : List N → List N → List N
  | [], res1 => res1
  | l :: order, res1 =>
    if freeLimbs.contains l then sortLimbsUsed freeLimbs order (insertIfNew res1 l).1
    else sortLimbsUsed freeLimbs order res1

/-- contact_generation.cc:259-281 `sortLimbs`. -/
def sortLimbs (current : State N K) (freeLimbs : List N) : List N :=
  let res1 := sortLimbsUsed freeLimbs current.contactOrder []
  let res2 := freeLimbs.filter (fun l => !(res1.contains l))
  res2 ++ res1

/-- contact_generation.cc:326-337: the sequences extended by one new candidate. -/
def extendAll {A : Type _} [DecidableEq A] (res : List (List A)) (candidates : List A) :
    List (List A) :=
  res.flatMap (fun contacts => candidates.filterMap (fun c =>
    let r := insertIfNew contacts c
    if r.2 then some r.1 else none))

/-- contact_generation.cc:322-340 `stringCombinatorialRec` (the `res` reference becomes the result). -/
def stringCombRec {A : Type _} [DecidableEq A] (candidates : List A) : Nat → List (List A) →
    List (List A)
  | 0, res => res
  | depth + 1, res => res ++ stringCombRec candidates depth (extendAll res candidates)

/-- contact_generation.cc:342-354 `stringCombinatorial`; `std::rotate` by one moves the head last. -/
def stringCombinatorial {A : Type _} [DecidableEq A] (candidates : List A) (maxDepth : Nat)
    (maximise : Bool) : List (List A) :=
  let res := stringCombRec candidates maxDepth [[]]
  if maximise then res.drop 1 ++ res.take 1 else res

/-- contact_generation.cc:356-380 `gen_contacts_combinatorial(freeEffectors, previous, ...)`. -/
def genContactsCombinatorial (freeEffectors : List N) (previous : State N K) (maxCreated : Nat)
    (maximise : Bool) : List (State N K × List N) :=
  (stringCombinatorial freeEffectors maxCreated maximise).map (fun l => (previous, l))

/-- Outcome of `getAffObjectsForLimb`. [contact_generation.cc:195-235] -/
inductive AffOutcome (O : Type _) where
  | objects (l : List O)
  | throws
  | undefinedBehaviour
deriving DecidableEq, Repr

/-- `key.find(limb) != std::string::npos` [contact_generation.cc:204] -/
def containsSub (key limb : List Char) : Bool := decide (limb <:+: key)

/-- contact_generation.cc:201-210: the first filter whose key contains the limb name. -/
def findFilter {F : Type _} (limb : List Char) : List (List Char × F) → Option F
  | [] => none
  | (key, tys) :: rest => if containsSub key limb then some tys else findFilter limb rest

/-- contact_generation.cc:225-230: objects of the listed types; dereferencing `find(...)==end()` is
undefined behaviour (`none`). -/
def affOfTypes {T O : Type _} [DecidableEq T] (affordances : List (T × List O)) : List T → Option (List O)
  | [] => some []
  | t :: tys =>
    match affordances.lookup t with
    | none => none
    | some objs => (affOfTypes affordances tys).map (objs ++ ·)

/-- contact_generation.cc:195-235 `getAffObjectsForLimb`.  The affordance map is an association list in
key order; objects are opaque. -/
def getAffObjectsForLimb {T O : Type _} [DecidableEq T] (limb : List Char)
    (affordances : List (T × List O)) (affFilters : List (List Char × List T)) : AffOutcome O :=
  let affs : Option (List O) :=
    match findFilter limb affFilters with
    | none => some (affordances.flatMap Prod.snd)
    | some tys => affOfTypes affordances tys
  match affs with
  | none => .undefinedBehaviour
  | some [] => .throws
  | some l => .objects l

end Contact
end Rbprm
