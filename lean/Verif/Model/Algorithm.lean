import Verif.Model.ContactGen
/-!
# Model of `src/contact_generation/algorithm.cc`

The robot's current configuration (saved and restored by `ComputeContacts`) and its computation flags are not
part of this model but of `Model/Restore`: whether `core::ConfigurationIn_t save = device->currentConfiguration()`
copies or aliases the vector is decided by a typedef of hpp-pinocchio, which is not in /repo.
-/
namespace Rbprm
namespace Contact
open State
variable {N K Smp : Type _} [LinearOrder N] [CommRing K] [LinearOrder K]

/-- reports.hh:51-58 `ContactReport`. -/
structure ContactReport (N K : Type _) extends Report N K where
  contactMaintained : Bool
  multipleBreaks : Bool
  contactCreated : Bool
  repositionedInPlace : Bool

/-- algorithm.cc:50-63 `generateContactReport`. -/
def generateContactReport (parent : Report N K) (h : Helper N K) (repositionedInPlace : Bool) :
    ContactReport N K :=
  { parent with
    contactCreated := decide (0 < (parent.result.contactCreations h.previousState).length)
    multipleBreaks := decide (h.maxContactBreaks < (parent.result.contactBreaks h.previousState).length)
    repositionedInPlace := repositionedInPlace
    contactMaintained := !repositionedInPlace &&
      decide ((parent.result.contactBreaks h.previousState).length = 0) }

/-- algorithm.cc:65-95 `genContactFromOneMaintainCombinatorial`. -/
def genFromMaintain (env : Env N K Smp) (postural : Bool) (h : Helper N K) : Report N K × Helper N K :=
  let r := maintainContacts env h
  if r.1.success then genContacts env postural { r.2 with workingState := r.1.result } else r

/-- algorithm.cc:99-108 `handleFailure`. -/
def handleFailure (env : Env N K Smp) (postural : Bool) (h : Helper N K) : ContactReport N K :=
  let r := repositionContacts env postural { h with workingState := h.previousState }
  generateContactReport r.1 r.2 true

/-- algorithm.cc:113-114: the do-while loop; `none` when the fuel is exhausted. -/
def oneStepLoop (env : Env N K Smp) (postural : Bool) : Nat → Helper N K → Option (Report N K × Helper N K)
  | 0, _ => none
  | fuel + 1, h =>
    let r := genFromMaintain env postural h
    if !r.1.success && !r.2.candidates.isEmpty then oneStepLoop env postural fuel r.2 else some r

/-- algorithm.cc:110-121 `oneStep`. -/
def oneStep (env : Env N K Smp) (postural : Bool) (fuel : Nat) (h : Helper N K) :
    Option (ContactReport N K) :=
  (oneStepLoop env postural fuel h).map (fun r =>
    if !r.1.success then handleFailure env postural r.2 else generateContactReport r.1 r.2 false)

/-- algorithm.cc:123-134 `ContactExistsWithinGroup`. -/
def contactExistsWithinGroup (env : Env N K Smp) (limb : N) (current : State N K) : Bool :=
  (env.group limb).any (fun m => current.contactPositions.has m)

/-- algorithm.cc:136-192 `ComputeStableContact` as called at l.222 (contactIfFails = stableForOneContact =
false).  `rep.status_ == STABLE_CONTACT || REACHABLE_CONTACT` (l.188) is always true. -/
def computeStableContact (env : Env N K Smp) (postural : Bool) (current : State N K) (limb : N)
    (robustnessTreshold : K) (checkStabilityGenerate : Bool) : State N K :=
  let h := { Helper.create current current.configuration robustnessTreshold 1 1 false
    checkStabilityGenerate false false with testReachability := false }
  { (generateContact env postural current h limb).result with stable := true }

/-- algorithm.cc:213-229: the loop over the limbs, in map order; stability is required for the last one
only. -/
def initialLoop (env : Env N K Smp) (postural : Bool) (robustnessTreshold : K) :
    List N → State N K → State N K
  | [], result => result
  | limb :: rest, result =>
    let result :=
      if !contactExistsWithinGroup env limb result then
        computeStableContact env postural result limb robustnessTreshold rest.isEmpty
      else result
    initialLoop env postural robustnessTreshold rest
      { result with nbContacts := result.contactNormals.length }

/-- algorithm.cc:194-233 `ComputeContacts` without previous state. -/
def computeContactsInitial (env : Env N K Smp) (postural : Bool) (configuration : List K)
    (robustnessTreshold : K) : State N K :=
  initialLoop env postural robustnessTreshold env.limbs
    { (State.init env.junkRob : State N K) with configuration := configuration }

/-- algorithm.cc:270 `v.tail(n) = w.tail(n)` -/
def copyTail (n : Nat) (v w : List K) : List K := v.take (v.length - n) ++ w.drop (w.length - n)

/-- algorithm.cc:258-263: the helper built from the arguments. -/
def computeHelper (previous : State N K) (configuration : List K) (robustnessTreshold : K)
    (testReachability quasiStatic : Bool) : Helper N K :=
  { Helper.create previous configuration robustnessTreshold 1 1 false true false false with
    testReachability := testReachability, quasiStatic := quasiStatic }

/-- algorithm.cc:235-275 `ComputeContacts` with a previous state. -/
def computeContacts (env : Env N K Smp) (postural : Bool) (fuel : Nat) (previous : State N K)
    (configuration : List K) (robustnessTreshold : K) (extraDim : Nat)
    (testReachability quasiStatic : Bool) : Option (ContactReport N K) :=
  (oneStep env postural fuel
    (computeHelper previous configuration robustnessTreshold testReachability quasiStatic)).map (fun rep =>
    if rep.success then
      { rep with result := { rep.result with
          configuration := copyTail extraDim rep.result.configuration configuration } }
    else rep)

end Contact
end Rbprm
