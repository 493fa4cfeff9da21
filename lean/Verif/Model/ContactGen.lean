import Verif.Model.Combinatorics
import Mathlib.Order.WithBot
/-!
# Model of `contact_generation.cc` (contact maintenance and creation) and of the bookkeeping of
`projection.cc`

Inverse kinematics, collision checks, forward kinematics, the equilibrium LP, reachability LPs and the
octree query are the fields of `Env`; theorems quantify over all of them.  They are functions of
the listed arguments (deterministic solvers).  `State::operator=` is modelled as a full copy here (the
dropped `robustness` field, see C08, is not used by this file).
-/
namespace Rbprm
namespace Contact
open State

/-- include/hpp/rbprm/reports.hh:28-35 `ContactComputationStatus`. -/
inductive Status where
  | noContact | unstable | stable | reachable
deriving DecidableEq, Repr

/-- reports.hh:38-45 `ProjectionReport`. -/
structure Report (N K : Type _) where
  success : Bool
  result : State N K
  status : Status

/-- contact_generation.hh:36-74 `ContactGenHelper` without the affordance data (used only by the octree
query). -/
structure Helper (N K : Type _) where
  previousState : State N K
  checkStabilityMaintain : Bool
  contactIfFails : Bool
  stableForOneContact : Bool
  robustnessTreshold : K
  maxContactBreaks : Nat
  maxContactCreations : Nat
  workingState : State N K
  checkStabilityGenerate : Bool
  candidates : List (State N K)
  quasiStatic : Bool
  testReachability : Bool
  maximiseContacts : Bool
  acceptUnreachable : Bool

/-- contact_generation.cc:35-70 the constructor (defaults l.62-67). -/
def Helper.create {N K : Type _} (ps : State N K) (configuration : List K) (robustnessTreshold : K)
    (maxContactBreaks maxContactCreations : Nat) (checkStabilityMaintain checkStabilityGenerate : Bool)
    (contactIfFails stableForOneContact : Bool) : Helper N K where
  previousState := ps
  checkStabilityMaintain := checkStabilityMaintain
  contactIfFails := contactIfFails
  stableForOneContact := stableForOneContact
  robustnessTreshold := robustnessTreshold
  maxContactBreaks := maxContactBreaks
  maxContactCreations := maxContactCreations
  workingState := { ps with configuration := configuration, stable := false }
  checkStabilityGenerate := checkStabilityGenerate
  candidates := []
  quasiStatic := false
  testReachability := true
  maximiseContacts := true
  acceptUnreachable := false

/-- Everything the code asks from the robot, the environment and the solvers. [oracles of contact_generation.cc:160-932 and projection.cc:262-649] -/
structure Env (N K Smp : Type _) where
  /-- keys of `GetLimbs()`, in map order -/
  limbs : List N
  /-- keys of `GetNonContactingLimbs()`, in map order -/
  nonContacting : List N
  /-- the limb group of a limb (`GetGroups().at(limb->limb_->name())`) -/
  group : N → List N
  /-- `proj->apply` of `projectToRootConfiguration` for a target and a state: success and final
  configuration -/
  applyRoot : List K → State N K → Bool × List K
  /-- `GetLimbCollisionValidation().at(limb)->validate` -/
  limbValid : N → List K → Bool
  /-- `GetCollisionValidation()->validate` -/
  fullValid : List K → Bool
  /-- `limb->sampleContainer_.samples_` -/
  limbSamples : N → List Smp
  /-- `sampling::Load(sample, configuration)` -/
  load : Smp → List K → List K
  /-- `reachability::isReachable(from, to).success()` -/
  reachable : State N K → State N K → Bool
  /-- `reachability::isReachableDynamic(from, to).success()` -/
  reachableDyn : State N K → State N K → Bool
  /-- `stability::IsStable`; `⊥` is `-numeric_limits<double>::max()` -/
  robustness : State N K → WithBot K
  /-- `CollideOctree`: candidates in decreasing heuristic order, for a limb, the state the heuristic
  parameters are taken from, and the working state -/
  octree : N → State N K → State N K → List Smp
  /-- `proj->apply` of `projectEffector`: postural task flag, limb, sample, configuration, state -/
  applyEffector : Bool → N → Smp → List K → State N K → Bool × List K
  /-- effector position in a configuration -/
  effectorPosition : N → List K → Vec3 K
  /-- effector rotation in a configuration -/
  effectorRotation : N → List K → Mat3 K
  /-- normalised normal of the contact surface of a sample -/
  normal : Smp → Vec3 K
  /-- uninitialised `position`, `normal` (contact_generation.cc:524) -/
  junkVec : Vec3 K
  /-- uninitialised `rotation` (contact_generation.cc:525) -/
  junkMat : Mat3 K
  /-- uninitialised `robustness` of a default constructed State -/
  junkRob : K

variable {N K Smp : Type _} [LinearOrder N] [CommRing K] [LinearOrder K]

/-- reports.hh:39 default constructed report. -/
def Report.default (env : Env N K Smp) : Report N K := ⟨false, State.init env.junkRob, .noContact⟩

/-- src/projection/projection.cc:262-300 `projectToRootConfiguration` (offset zero; `Model/Projection` has its constraints). Simplification, here and below: the field `robustness` of a state, which
`operator=` does not assign and which the code only prints, is copied. -/
def projectToRootConfiguration (env : Env N K Smp) (conf : List K) (current : State N K) : Report N K :=
  let r := env.applyRoot conf current
  ⟨r.1, { current with configuration := r.2 }, .noContact⟩

/-- projection.cc:322-333: samples are loaded one after the other in the same configuration vector. -/
def firstFreeSample (env : Env N K Smp) (limb : N) : List Smp → List K → Option (List K)
  | [], _ => none
  | smp :: rest, configuration =>
    let c := env.load smp configuration
    if env.limbValid limb c then some c else firstFreeSample env limb rest c

/-- projection.cc:302-335 `setCollisionFree`. -/
def setCollisionFree (env : Env N K Smp) (limb : N) (current : State N K) : Report N K :=
  if env.limbValid limb current.configuration then ⟨true, current, .noContact⟩
  else
    match firstFreeSample env limb (env.limbSamples limb) current.configuration with
    | some c => ⟨true, { current with configuration := c }, .noContact⟩
    | none => ⟨false, current, .noContact⟩

/-- projection.cc:352-456 `projectEffector`, reached through `projectSampleToObstacle`
(projection.cc:602-649); also returns the modified configuration argument. -/
def projectSampleToObstacle (env : Env N K Smp) (postural : Bool) (limb : N) (smp : Smp)
    (configuration : List K) (current : State N K) : Report N K × List K :=
  let c0 := env.load smp configuration
  let r := env.applyEffector postural limb smp c0 current
  if r.1 && env.limbValid limb r.2 then
    (⟨true, current.addContact limb (env.effectorPosition limb r.2) (env.normal smp)
        (env.effectorRotation limb r.2) r.2, .noContact⟩, r.2)
  else (⟨false, current, .noContact⟩, r.2)

/-- contact_generation.cc:293-300 and 308-318: `setCollisionFree` along a list of limbs while it
succeeds. -/
def colFreeAll (env : Env N K Smp) : List N → Report N K → Report N K
  | [], res => res
  | l :: ls, res => if res.success then colFreeAll env ls (setCollisionFree env l res.result) else res

/-- contact_generation.cc:283-320 `genColFree`. -/
def genColFree (env : Env N K Smp) (h : Helper N K) (currentRep : Report N K) : Report N K :=
  let freeLimbs := sortLimbs h.workingState (currentRep.result.freeEffectors env.limbs)
  colFreeAll env env.nonContacting (colFreeAll env freeLimbs currentRep)

/-- contact_generation.cc:160-188 `maintain_contacts_stability_rec`: result flag, report, remaining
candidates. -/
def maintainStabilityRec (env : Env N K Smp) (target : List K) (contactLength : Nat) (robustness : K) :
    List (State N K) → Report N K → Bool × Report N K × List (State N K)
  | candidates, currentRep =>
    if env.robustness currentRep.result > (robustness : WithBot K) then
      (true, { currentRep with result := { currentRep.result with stable := true } }, candidates)
    else
      let rep0 : Report N K := { currentRep with result := { currentRep.result with stable := false } }
      match candidates with
      | [] => (false, rep0, [])
      | cState :: rest =>
        if cState.contactOrder.length < contactLength then (false, rep0, rest)
        else
          let rep := projectToRootConfiguration env target cState
          match maintainStabilityRec env target contactLength robustness rest rep with
          | (true, rep', rest') => (true, rep', rest')
          | (false, _, _) => (false, rep0, rest)

/-- contact_generation.cc:237-249 `maintain_contacts_stability`. -/
def maintainStability (env : Env N K Smp) (h : Helper N K) (rep : Report N K) : Report N K × Helper N K :=
  let r := maintainStabilityRec env h.workingState.configuration rep.result.contactOrder.length
    h.robustnessTreshold h.candidates rep
  (r.2.1, { h with candidates := r.2.2 })

/-- contact_generation.cc:410-456: one iteration of the candidate loop. -/
def maintainOne (env : Env N K Smp) (h : Helper N K) (cState : State N K) : Report N K :=
  let rep := projectToRootConfiguration env h.workingState.configuration cState
  let rep := if rep.success then genColFree env h rep else rep
  let rep := if rep.success then { rep with success := env.fullValid rep.result.configuration } else rep
  if rep.success then
    if h.quasiStatic && h.testReachability then
      let ok := env.reachable h.workingState rep.result
      { rep with success := ok, status := if ok then .reachable else .stable }
    else rep
  else rep

/-- contact_generation.cc:410-456 the loop. -/
def maintainLoop (env : Env N K Smp) (h : Helper N K) : List (State N K) → Report N K →
    Report N K × List (State N K)
  | [], rep => (rep, [])
  | cState :: rest, rep =>
    if rep.success then (rep, cState :: rest)
    else maintainLoop env h rest (maintainOne env h cState)

/-- contact_generation.cc:399-403: the candidates used by `maintain_contacts`. -/
def startCandidates (h : Helper N K) : List (State N K) :=
  if h.candidates = [] ∧ h.workingState.contacts ≠ [] then
    maintainContactsCombinatorial h.workingState h.maxContactBreaks
  else h.candidates

/-- contact_generation.cc:395-462 `maintain_contacts`. -/
def maintainContacts (env : Env N K Smp) (h : Helper N K) : Report N K × Helper N K :=
  let r := maintainLoop env h (startCandidates h) (Report.default env)
  let h' := { h with candidates := r.2 }
  if r.1.success && h.checkStabilityMaintain then maintainStability env h' r.1
  else (r.1, h')

/-- Loop variables of `findValidCandidate`. [contact_generation.cc:505-528] -/
structure Search (K : Type _) where
  foundSample : Bool
  foundStable : Bool
  unstableContact : Bool
  maxRob : WithBot K
  configuration : List K
  bestUnreachable : List K
  moreRobust : List K
  position : Vec3 K
  normal : Vec3 K
  rotation : Mat3 K

/-- contact_generation.cc:562-564 (and 598-600, 611-613, 639-641): read the contact data of the limb
from the projected state; `at` cannot fail since the projection has just inserted it. -/
def Search.take (w : Search K) (limb : N) (s : State N K) : Search K :=
  { w with
    position := (s.contactPositions.find? limb).getD w.position
    rotation := (s.contactRotation.find? limb).getD w.rotation
    normal := (s.contactNormals.find? limb).getD w.normal }

/-- contact_generation.cc:576-596: the reachability verdict for a stable candidate. -/
def candidateReachable (env : Env N K Smp) (h : Helper N K) (cand : State N K) : Bool :=
  if h.testReachability then
    if h.quasiStatic then env.reachable { h.workingState with stable := false } cand
    else env.reachableDyn h.previousState cand
  else true

/-- contact_generation.cc:550-645: judge a projected candidate. -/
def judgeCandidate (env : Env N K Smp) (h : Helper N K) (limb : N) (w : Search K) (rep : Report N K) :
    Search K :=
  if rep.success then
    if !h.checkStabilityGenerate || (rep.result.nbContacts == 1 && !h.stableForOneContact) then
      { w.take limb rep.result with foundSample := true }
    else if (h.robustnessTreshold : WithBot K) ≤ env.robustness rep.result then
      if candidateReachable env h rep.result then
        { w.take limb rep.result with foundSample := true }
      else if !w.foundStable then
        { w.take limb rep.result with
          maxRob := max (env.robustness rep.result) w.maxRob
          bestUnreachable := w.configuration
          foundStable := true }
      else w
    else if decide (w.maxRob < env.robustness rep.result) && h.contactIfFails then
      { w.take limb rep.result with
        moreRobust := w.configuration
        maxRob := env.robustness rep.result
        unstableContact := true }
    else w
  else w

/-- contact_generation.cc:535-645: one candidate. -/
def tryCandidate (env : Env N K Smp) (postural : Bool) (h : Helper N K) (limb : N) (w : Search K)
    (smp : Smp) : Search K :=
  let r := projectSampleToObstacle env postural limb smp w.configuration
    { h.workingState with stable := false }
  judgeCandidate env h limb { w with configuration := r.2 } r.1

/-- contact_generation.cc:532-648: the loop, stopped by the first reachable sample. -/
def candidateLoop (env : Env N K Smp) (postural : Bool) (h : Helper N K) (limb : N) :
    List Smp → Search K → Search K
  | [], w => w
  | smp :: rest, w =>
    if w.foundSample then w else candidateLoop env postural h limb rest (tryCandidate env postural h limb w smp)

/-- contact_generation.cc:513-525: initial values of the loop variables; the three flags are references
and keep the caller's values. -/
def Search.start (env : Env N K Smp) (h : Helper N K) (foundSample foundStable unstable : Bool) : Search K where
  foundSample := foundSample
  foundStable := foundStable
  unstableContact := unstable
  maxRob := ⊥
  configuration := h.workingState.configuration
  bestUnreachable := []
  moreRobust := []
  position := env.junkVec
  normal := env.junkVec
  rotation := env.junkMat

/-- contact_generation.cc:649-671: build the returned state from the search. -/
def buildState (h : Helper N K) (limb : N) (w : Search K) : State N K :=
  let current := { h.workingState with stable := false }
  let current :=
    if w.foundSample || w.foundStable || w.unstableContact then
      { current with
        contacts := current.contacts.set limb true
        contactNormals := current.contactNormals.set limb w.normal
        contactPositions := current.contactPositions.set limb w.position
        contactRotation := current.contactRotation.set limb w.rotation
        contactOrder := current.contactOrder ++ [limb] }
    else current
  if w.foundSample then { current with configuration := w.configuration, stable := true }
  else if w.foundStable then { current with configuration := w.bestUnreachable, stable := true }
  else if w.unstableContact then { current with configuration := w.moreRobust, stable := false }
  else current

/-- contact_generation.cc:505-691 without the retry (one pass). -/
def findPass (env : Env N K Smp) (postural : Bool) (params : State N K) (h : Helper N K) (limb : N)
    (foundSample foundStable unstable : Bool) : State N K × Search K :=
  let w := candidateLoop env postural h limb (env.octree limb params h.workingState)
    (Search.start env h foundSample foundStable unstable)
  (buildState h limb w, w)

/-- contact_generation.cc:505-691 `findValidCandidate`: the result, the search (holding the flags), and
the value of the robot's postural-task option afterwards.  The retry runs with the option off and with the
flags left by the first pass. -/
def findValidCandidate (env : Env N K Smp) (postural : Bool) (params : State N K) (h : Helper N K)
    (limb : N) : State N K × Search K × Bool :=
  let r := findPass env postural params h limb false false false
  if postural && !r.2.foundSample then
    let r2 := findPass env false params h limb r.2.foundSample r.2.foundStable r.2.unstableContact
    (r2.1, r2.2, true)
  else (r.1, r.2, postural)

/-- contact_generation.cc:693-762 `generate_contact`. -/
def generateContact (env : Env N K Smp) (postural : Bool) (params : State N K) (h : Helper N K)
    (limb : N) : Report N K :=
  let r := findValidCandidate env postural params h limb
  if r.2.1.foundSample then ⟨true, r.1, .reachable⟩
  else if r.2.1.foundStable then ⟨h.acceptUnreachable, r.1, .stable⟩
  else if r.2.1.unstableContact then ⟨!h.checkStabilityGenerate, r.1, .unstable⟩
  else ⟨false, (setCollisionFree env limb r.1).result, .noContact⟩

/-- contact_generation.cc:805-837: create the contacts of one candidate; the stability option is set back
for the last limb, and a success updates the working state. -/
def genLimbs (env : Env N K Smp) (postural checkStability : Bool) (params : State N K) :
    List N → Helper N K → Report N K → Report N K × Helper N K
  | [], h, rep => (rep, h)
  | limb :: rest, h, _ =>
    let h := if rest.isEmpty then { h with checkStabilityGenerate := checkStability } else h
    let rep := generateContact env postural params h limb
    let h := if rep.success then { h with workingState := rep.result } else h
    genLimbs env postural checkStability params rest h rep

/-- contact_generation.cc:779-792: stability of the working state when no contact is created. -/
def checkMaintained (env : Env N K Smp) (checkStability : Bool) (second : List N) (h : Helper N K) :
    Helper N K :=
  if second.isEmpty && checkStability && (decide (2 ≤ h.workingState.nbContacts) || h.stableForOneContact) then
    if (h.robustnessTreshold : WithBot K) ≤ env.robustness h.workingState then
      { h with workingState := { h.workingState with stable := true } }
    else h
  else h

/-- contact_generation.cc:773-838: the candidate loop; the flag says whether the early `return` of l.800
was taken. -/
def genLoop (env : Env N K Smp) (postural checkStability : Bool) :
    List (State N K × List N) → Helper N K → Report N K → Report N K × Helper N K × Bool
  | [], h, rep => (rep, h, false)
  | cState :: rest, h, rep =>
    if rep.success then (rep, h, false)
    else
      let h := checkMaintained env checkStability cState.2 h
      if cState.2.isEmpty && (h.workingState.stable || !checkStability) &&
          decide (2 ≤ h.workingState.nbContacts) then
        (⟨true, h.workingState, .stable⟩, h, true)
      else
        let r := genLimbs env postural checkStability cState.1 cState.2
          { h with checkStabilityGenerate := false } rep
        genLoop env postural checkStability rest r.2 r.1

/-- contact_generation.cc:382-393 `gen_contacts_combinatorial(helper)`. -/
def genCandidates (env : Env N K Smp) (h : Helper N K) : List (State N K × List N) :=
  genContactsCombinatorial (h.workingState.freeEffectors env.limbs) h.workingState
    h.maxContactCreations h.maximiseContacts

/-- contact_generation.cc:764-841 `gen_contacts`. -/
def genContacts (env : Env N K Smp) (postural : Bool) (h : Helper N K) : Report N K × Helper N K :=
  let checkStability := h.checkStabilityGenerate
  let r := genLoop env postural checkStability (genCandidates env h) h (Report.default env)
  if r.2.2 then (r.1, r.2.1)
  else (r.1, { r.2.1 with checkStabilityGenerate := checkStability })

/-- contact_generation.cc:856-911: the repositioning loop over the old contact order.  The test of
l.896 `status == STABLE_CONTACT || REACHABLE_CONTACT` is always true (the enumerator is 3), so the first
limb of the group is always taken; an empty group is skipped (`poppedContacts`).
Result: state, remaining order, popped contacts (most recent first), last limb, helper. -/
def repositionLoop (env : Env N K Smp) (postural : Bool) (saved : List K) :
    List N → State N K → List N → Option N → Helper N K →
    State N K × List N × List N × Option N × Helper N K
  | [], result, popped, nName, h => (result, [], popped, nName, h)
  | prevName :: oldOrder, result, popped, nName, h =>
    if result.stable then (result, prevName :: oldOrder, popped, nName, h)
    else
      match env.group prevName with
      | [] =>
        repositionLoop env postural saved oldOrder { result with configuration := saved }
          (prevName :: popped) nName h
      | limb :: _ =>
        let result := (result.removeContact limb).1
        let h := { h with workingState := result }
        let rep := generateContact env postural h.workingState h limb
        repositionLoop env postural saved oldOrder rep.result popped (some limb) h

/-- contact_generation.cc:843-928 `repositionContacts`. -/
def repositionContacts (env : Env N K Smp) (postural : Bool) (h : Helper N K) : Report N K × Helper N K :=
  let result := { h.workingState with stable := false }
  let r := repositionLoop env postural h.previousState.configuration result.contactOrder result [] none h
  let newOrder := r.2.2.1 ++ r.2.1 ++ (if r.1.stable then r.2.2.2.1.toList else [])
  (⟨r.1.stable, { r.1 with contactOrder := newOrder },
    if r.1.stable then .stable else .noContact⟩, r.2.2.2.2)

end Contact
end Rbprm
