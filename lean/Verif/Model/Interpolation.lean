import Verif.Model.Algorithm
/-!
# Model of `src/interpolation/rbprm-path-interpolation.cc`

Time is an element of the ordered ring `K`.  A frame is a pair (time, state).  Iterators into vectors are suffixes
of lists or indices.  `State::operator=` is modelled as a full copy (see C08).  Profiling and printing are
dropped.  `none`/`Run.throws` stands for an exception of `map::at` or an out-of-range vector access.
-/
namespace Rbprm
namespace Interp
open State Contact
variable {N K : Type _} [LinearOrder N] [CommRing K] [LinearOrder K]

/-- rbprm-state.hh:33 `StateFrame`: a date and a state -/
abbrev Frame (N K : Type _) := K × State N K

/-- Outcome of a computation that may throw; `noFuel` only exists in the model. [rbprm-path-interpolation.cc:228-421] -/
inductive Run (α : Type _) where
  | done (a : α)
  | throws
  | noFuel
deriving DecidableEq, Repr

/-- What the interpolation asks from the robot and the solvers. [rbprm-path-interpolation.cc:66-870] -/
structure Solvers (N K : Type _) where
  /-- `testReachability(s0, s1)` (l.483-498; constantly true when the option is off) -/
  reach : State N K → State N K → Bool
  /-- `projection::projectStateToObstacle(robot, limb, state, normal, position)` -/
  projectState : N → State N K → Vec3 K → Vec3 K → Bool × State N K
  /-- `projection::projectToRootConfiguration(robot, conf, state)` -/
  projectRoot : List K → State N K → Bool × State N K
  /-- `GetCollisionValidation()->validate` -/
  fullValid : List K → Bool
  /-- `GetLimb(id)->offset_` -/
  limbOffset : N → Vec3 K
  /-- the IK and collision test of `projectEffector` (postural flag, limb, state without the limb, target
  rotation, position, normal): on success the configuration and the effector's position and rotation -/
  projectEffector : Bool → N → State N K → Mat3 K → Vec3 K → Vec3 K → Option (List K × Vec3 K × Mat3 K)
  /-- square of `std::numeric_limits<double>::epsilon()` -/
  epsilonSq : K
  /-- the literal `10e-3` of l.757 -/
  centi : K
  /-- `extraConfigSpace().dimension()` -/
  extraDim : Nat

/-! ## Discretisation -/

/-- rbprm-path-interpolation.cc:81-86: the values taken by `i`; `none` when the fuel is exhausted. -/
def stepTimes (second timeStep : K) : Nat → K → Option (List K)
  | 0, _ => none
  | fuel + 1, i =>
    if i < second then (stepTimes second timeStep fuel (i + timeStep)).map (i :: ·) else some []

/-- rbprm-path-interpolation.cc:50-64 `configPosition`; `path` evaluates the path.  Vectors are lists; `size_t` subtraction and
the Eigen size checks are taken to be in range. -/
def configPosition (extraDim outputSize : Nat) (second : K) (path : K → List K) (previous : List K) (i : K) :
    List K :=
  let v := path (min i second)
  let headed := v.take (outputSize - extraDim) ++ previous.drop (outputSize - extraDim)
  copyTail extraDim headed v

/-- rbprm-path-interpolation.cc:83, l.87: the configurations are chained, each one filled up from its predecessor. -/
def chainConfigs (place : List K → K → List K) : List K → List K → List (List K)
  | _, [] => []
  | previous, t :: ts => place previous t :: chainConfigs place (place previous t) ts

/-- rbprm-path-interpolation.cc:66-87: the configurations built from a path: the start configuration, the inner samples, the
end. -/
def discretise (extraDim outputSize : Nat) (path : K → List K) (start : List K) (first second timeStep : K)
    (fuel : Nat) : Option (List (List K)) :=
  (stepTimes second timeStep fuel (first + timeStep)).map (fun ts =>
    start :: chainConfigs (configPosition extraDim outputSize second path) start (ts ++ [second]))

/-! ## Goal -/

/-- rbprm-path-interpolation.cc:98-119 `replaceLimbContactForState`: outer `none` is an exception (`at`), inner `none` a failed
projection. -/
def replaceLimbContact (sv : Solvers N K) (postural : Bool) (current goal : State N K) (limb : N) :
    Option (Option (State N K)) :=
  let st := (current.removeContact limb).1
  match goal.contactRotation.find? limb, goal.contactPositions.find? limb, goal.contactNormals.find? limb with
  | some r, some p, some n =>
    match sv.projectEffector postural limb st r p n with
    | some (c, pos, rot) => some (some (st.addContact limb pos n rot c))
    | none => some none
  | _, _, _ => none

/-- rbprm-path-interpolation.cc:130-155: the first limb of `variations` that can be moved, with the new state and the remaining
variations; outer `none` is an exception. -/
def firstMovable (sv : Solvers N K) (postural : Bool) (mid goal : State N K) :
    List N → List N → Option (Option (State N K × List N))
  | _, [] => some none
  | before, limb :: after =>
    match replaceLimbContact sv postural mid goal limb with
    | none => none
    | some (some s) => some (some (s, before ++ after))
    | some none => firstMovable sv postural mid goal (before ++ [limb]) after

/-- rbprm-path-interpolation.cc:123-156 `addGoalConfigRec`; `fuel` is the number of variations.  Returns the appended frames. -/
def addGoalRec (sv : Solvers N K) (postural : Bool) (goal : State N K) (time : K) :
    Nat → State N K → List N → Option (List (Frame N K))
  | 0, _, _ => some []
  | fuel + 1, last, variations =>
    if variations.length = 1 then some []
    else
      match firstMovable sv postural last goal [] variations with
      | none => none
      | some none => some []
      | some (some (s, rest)) => (addGoalRec sv postural goal time fuel s rest).map ((time, s) :: ·)

/-- rbprm-path-interpolation.cc:161-209 `addGoalConfig`: the plan (`none` if an exception is thrown) and the robot's postural
option afterwards.  `last` is `states.back()`; `pathEnd` is the end of the path if there is one. -/
def addGoalConfig (sv : Solvers N K) (postural : Bool) (goal : State N K) (pathEnd : Option K)
    (states : List (Frame N K)) (last : Frame N K) : Option (List (Frame N K)) × Bool :=
  let variations := last.2.contactVariations goal
  if variations.length = 0 then (some states, postural)
  else if variations.length = 1 then (some (states ++ [(last.1, goal)]), postural)
  else
    match addGoalRec sv false goal last.1 variations.length last.2 variations with
    | none => (none, false)
    | some added =>
      let results := states ++ added
      let newLast := added.getLastD last
      if (newLast.2.contactVariations goal).length = 1 then
        (some (results ++ [(pathEnd.getD newLast.1, goal)]), postural)
      else (some results, postural)

/-! ## Filtering -/

/-- rbprm-path-interpolation.cc:500-557 `FilterRepositioning(from, to, res)`: `prev` is `from - 1`, the list is the suffix starting
at `from` (its last element is `originStates.back()`).  The frames pushed to `res`. -/
def filterRepRec (sv : Solvers N K) : Frame N K → List (Frame N K) → List (Frame N K)
  | prev, cur :: nxt :: rest =>
    if decide (cur.2.contactBreaks prev.2 = nxt.2.contactBreaks prev.2) &&
        decide (cur.2.contactCreations prev.2 = nxt.2.contactCreations cur.2) &&
        sv.reach prev.2 nxt.2 then
      match rest with
      | [] => []
      | _ :: _ => nxt :: filterRepRec sv nxt rest
    else cur :: filterRepRec sv cur (nxt :: rest)
  | _, _ => []

/-- rbprm-path-interpolation.cc:559-578 `FilterBreakCreate(from, to, res)`. -/
def filterBreakRec (sv : Solvers N K) : Frame N K → List (Frame N K) → List (Frame N K)
  | prev, cur :: nxt :: rest =>
    if (cur.2.contactCreations prev.2).isEmpty && (nxt.2.contactBreaks cur.2).isEmpty &&
        decide (nxt.2.contactCreations cur.2 = cur.2.contactBreaks prev.2) && sv.reach prev.2 nxt.2 then
      match rest with
      | [] => []
      | _ :: _ => nxt :: filterBreakRec sv nxt rest
    else cur :: filterBreakRec sv cur (nxt :: rest)
  | _, _ => []

/-- rbprm-path-interpolation.cc:580-588 `FilterRepositioning(originStates)`. -/
def filterRepositioning (sv : Solvers N K) (l : List (Frame N K)) : List (Frame N K) :=
  match l with
  | a :: b :: c :: rest => a :: filterRepRec sv a (b :: c :: rest) ++ [(b :: c :: rest).getLastD a]
  | _ => l

/-- rbprm-path-interpolation.cc:590-598 `FilterBreakCreate(originStates)`. -/
def filterBreakCreate (sv : Solvers N K) (l : List (Frame N K)) : List (Frame N K) :=
  match l with
  | a :: b :: c :: rest => a :: filterBreakRec sv a (b :: c :: rest) ++ [(b :: c :: rest).getLastD a]
  | _ => l

/-- squared norm of a difference of vectors (l.609) [rbprm-path-interpolation.cc:609] -/
def distSqList (v w : List K) : K := (List.zipWith (fun a b => (a - b) * (a - b)) v w).sum

/-- rbprm-path-interpolation.cc:605-615: the loop of `FilterObsolete`; `prev` is the preceding *input* frame; the last frame is
excluded. -/
def obsoleteRec (sv : Solvers N K) : Frame N K → List (Frame N K) → List (Frame N K)
  | prev, cur :: nxt :: rest =>
    if decide (sv.epsilonSq < distSqList cur.2.configuration prev.2.configuration) &&
        !((cur.2.contactBreaks prev.2).isEmpty && (cur.2.contactCreations prev.2).isEmpty) then
      cur :: obsoleteRec sv cur (nxt :: rest)
    else obsoleteRec sv cur (nxt :: rest)
  | _, _ => []

/-- rbprm-path-interpolation.cc:600-641 `FilterObsolete`. -/
def filterObsolete (sv : Solvers N K) (l : List (Frame N K)) : List (Frame N K) :=
  match l with
  | a :: b :: c :: rest => a :: obsoleteRec sv a (b :: c :: rest) ++ [(b :: c :: rest).getLastD a]
  | _ => l

/-- rbprm-path-interpolation.cc:658-662 = l.741-745: the last five conditions, common to `tryReplaceStates` and
`trySkipStates`. -/
def sameMove (c0 c1 c2 c3 : State N K) : Bool :=
  decide (c1.contactBreaks c0 = c3.contactBreaks c2) &&
  decide (c1.contactBreaks c0 = c1.contactCreations c0) &&
  decide (c1.contactBreaks c0 = c3.contactCreations c2) &&
  !decide (c1.contactBreaks c0 = c2.contactBreaks c1) &&
  !decide (c1.contactCreations c0 = c2.contactCreations c1)

/-- rbprm-path-interpolation.cc:689-694, l.773-779: project on the contact, then on the root of `rootConf`; a collision free
result is returned (the distance and reachability tests are done by the caller). -/
def rebuild (sv : Solvers N K) (limb : N) (s : State N K) (n p : Vec3 K) (rootConf : List K) :
    Option (State N K) :=
  let r1 := sv.projectState limb s n p
  if r1.1 then
    let r2 := sv.projectRoot rootConf r1.2
    if r2.1 && sv.fullValid r2.2.configuration then some r2.2 else none
  else none

/-- rbprm-path-interpolation.cc:668-694: the replacement of `c1`; outer `none` is an exception. -/
def replaceOf (sv : Solvers N K) (c1 c2 c3 : State N K) : Option (Option (State N K)) :=
  match c3.contactCreations c2 with
  | [] => none
  | limb :: _ =>
    match c3.contactNormals.find? limb, c3.contactPositions.find? limb, c1.contactPositions.find? limb with
    | some n, some p3, some q1 =>
      let p := p3 + sv.limbOffset limb
      let p1 := q1 + sv.limbOffset limb
      match rebuild sv limb { c1 with configuration := c3.configuration } n p c1.configuration with
      | some s => some (if decide (25 * Vec3.distSq p1 p < 1) && sv.reach s c3 then some s else none)
      | none => some none
    | _, _, _ => none

/-- rbprm-path-interpolation.cc:643-713 `tryReplaceStates(from, to, res)` followed by the `push_back(originStates.back())` of l.722: the
list is the suffix starting at `from`, and `from == to` iff three frames are left.  The early returns of
l.699-703 push exactly the remaining suffix, like the base case. -/
def tryReplaceRec (sv : Solvers N K) : List (Frame N K) → Option (List (Frame N K))
  | a :: b :: c :: d :: rest =>
    if decide ((d.2.contactCreations c.2).length = 1) && sameMove a.2 b.2 c.2 d.2 then
      match replaceOf sv b.2 c.2 d.2 with
      | none => none
      | some (some s) => (tryReplaceRec sv (d :: rest)).map (fun r => a :: (b.1, s) :: r)
      | some none => (tryReplaceRec sv (b :: c :: d :: rest)).map (a :: ·)
    else (tryReplaceRec sv (b :: c :: d :: rest)).map (a :: ·)
  | l => some l

/-- rbprm-path-interpolation.cc:749-779: the replacement of `c2` when `c1` is skipped; outer `none` is an exception or the access
`contactCreations(ci0)[0]` of an empty vector. -/
def skipOf (sv : Solvers N K) (c0 c1 c2 c3 : State N K) : Option (Option (State N K)) :=
  match c1.contactCreations c0 with
  | [] => none
  | limb :: _ =>
    match c0.contactNormals.find? limb, c0.contactPositions.find? limb, c1.contactPositions.find? limb,
      c1.contactNormals.find? limb with
    | some n, some p0, some q1, some n1 =>
      let p := p0 + sv.limbOffset limb - Vec3.smul sv.centi n
      let p1 := q1 + sv.limbOffset limb - Vec3.smul sv.centi n1
      match rebuild sv limb { c2 with configuration := c0.configuration } n p c2.configuration with
      | some s => some (if decide (100 * Vec3.distSq p1 p < 1) && sv.reach c0 s && sv.reach s c3
          then some s else none)
      | none => some none
    | _, _, _, _ => none

/-- rbprm-path-interpolation.cc:726-798 `trySkipStates(from, to, res)` followed by l.807 (see `tryReplaceRec`). -/
def trySkipRec (sv : Solvers N K) : List (Frame N K) → Option (List (Frame N K))
  | a :: b :: c :: d :: rest =>
    if decide ((c.2.contactCreations b.2).length = 1) && sameMove a.2 b.2 c.2 d.2 then
      match skipOf sv a.2 b.2 c.2 d.2 with
      | none => none
      | some (some s) => (trySkipRec sv (d :: rest)).map (fun r => a :: (c.1, s) :: r)
      | some none => (trySkipRec sv (b :: c :: d :: rest)).map (a :: ·)
    else (trySkipRec sv (b :: c :: d :: rest)).map (a :: ·)
  | l => some l

/-- rbprm-path-interpolation.cc:811-816 `FilterStatesRec`. -/
def filterStatesRec (sv : Solvers N K) (l : List (Frame N K)) : Option (List (Frame N K)) :=
  match tryReplaceRec sv (filterObsolete sv (filterBreakCreate sv (filterRepositioning sv l))) with
  | none => none
  | some l => trySkipRec sv l

/-- rbprm-path-interpolation.cc:856-864: the do-while loop of deep filtering. -/
def deepLoop (sv : Solvers N K) : Nat → List (Frame N K) → Run (List (Frame N K))
  | 0, _ => .noFuel
  | fuel + 1, res =>
    match filterStatesRec sv res with
    | none => .throws
    | some r => if r.length = res.length then .done r else deepLoop sv fuel r

/-- rbprm-path-interpolation.cc:818-870 `FilterStates` (the checks of l.827-849 only print). -/
def filterStates (sv : Solvers N K) (fuel : Nat) (deep : Bool) (l : List (Frame N K)) : Run (List (Frame N K)) :=
  if l.length ≤ 2 then .done l
  else if deep then deepLoop sv fuel l
  else .done (filterObsolete sv l)

/-! ## The main loop -/

/-- rbprm-path-interpolation.cc:218-226 `loadPreviousConfiguration`. -/
def loadPrevious (extraDim : Nat) (previous config : List K) : List K :=
  copyTail extraDim (config.take 7 ++ previous.drop 7) config

/-- Local variables of `Interpolate` (l.238-251). `cit` and `lastIterator` are indices in `configs`; `states`
is kept in reverse (most recent first) and is never empty: `front` is its last pushed frame. [rbprm-path-interpolation.cc:238-251] -/
structure Loop (N K : Type _) where
  nbFailures : Nat
  currentVal : K
  front : Frame N K
  older : List (Frame N K)
  lastConfig : List K
  lastIterator : Nat
  nbRecontacts : Nat
  repos : Nat
  allowFailure : Bool
  cit : Nat

/-- the vector `states` [rbprm-path-interpolation.cc:238-251] -/
def Loop.states (w : Loop N K) : List (Frame N K) := (w.front :: w.older).reverse

/-- `contact::ComputeContacts(previous, robot, configuration, ..., currentVal, ...)`; direction and
acceleration (l.265-273) are functions of the same arguments. [algorithm.cc:235-279, called in rbprm-path-interpolation.cc:262-281] -/
abbrev Compute (N K : Type _) := State N K → List K → K → ContactReport N K

/-- Result of one iteration. [rbprm-path-interpolation.cc:260-397] -/
inductive Step (N K : Type _) where
  | next (w : Loop N K)
  | abort (w : Loop N K)

/-- rbprm-path-interpolation.cc:297-302: bookkeeping of a failure. -/
def afterFailure (len : Nat) (timeStep : K) (rep : ContactReport N K) (w : Loop N K) : Loop N K :=
  if w.allowFailure && (!rep.success || rep.multipleBreaks) then
    { w with
      nbFailures := w.nbFailures + 1
      cit := if w.cit + 1 ≠ len then w.cit + 1 else w.cit
      currentVal := w.currentVal + timeStep }
  else w

/-- rbprm-path-interpolation.cc:325-335 -/
def afterBreaks (timeStep : K) (rep : ContactReport N K) (w : Loop N K) : Loop N K :=
  if (rep.multipleBreaks && !w.allowFailure) || (!rep.multipleBreaks && rep.repositionedInPlace) then
    { w with nbRecontacts := w.nbRecontacts + 1, cit := w.cit - 1, currentVal := w.currentVal - timeStep }
  else { w with nbRecontacts := 0 }

/-- rbprm-path-interpolation.cc:336-359 without the abort -/
def afterReposition (rep : ContactReport N K) (w : Loop N K) : Loop N K :=
  if rep.repositionedInPlace then
    { w with repos := w.repos + 1, cit := w.lastIterator, currentVal := w.front.1 }
  else w

/-- rbprm-path-interpolation.cc:361: the counter is recomputed. -/
def newStateOf (rep : ContactReport N K) : State N K :=
  { rep.result with nbContacts := rep.result.contactNormals.length }

/-- rbprm-path-interpolation.cc:381-396 and the increments of l.261. -/
def afterPush (timeStep : K) (rep : ContactReport N K) (w : Loop N K) : Loop N K :=
  let w1 :=
    if !(rep.success && rep.contactMaintained && !rep.contactCreated) then
      { w with
        front := (w.currentVal, newStateOf rep)
        older := w.front :: w.older
        lastIterator := w.cit }
    else w
  { w1 with
    allowFailure := decide (w1.nbRecontacts < 2)
    lastConfig := rep.result.configuration
    cit := w1.cit + 1
    currentVal := w1.currentVal + timeStep }

/-- rbprm-path-interpolation.cc:262-281: the contact report of an iteration. -/
def reportOf (sv : Solvers N K) (compute : Compute N K) (configs : List (List K)) (w : Loop N K) :
    ContactReport N K :=
  compute w.front.2 (loadPrevious sv.extraDim w.lastConfig (configs.getD w.cit [])) w.currentVal

/-- rbprm-path-interpolation.cc:260-397: one iteration of the loop body (and the increments). -/
def iterate (sv : Solvers N K) (compute : Compute N K) (configs : List (List K)) (timeStep : K) (w : Loop N K) :
    Step N K :=
  let rep := reportOf sv compute configs w
  let failed := w.allowFailure && (!rep.success || rep.multipleBreaks)
  let w1 := afterFailure configs.length timeStep rep w
  if failed && decide (1 < w1.nbFailures) then .abort w1
  else
    let w2 := afterReposition rep (afterBreaks timeStep rep w1)
    if rep.repositionedInPlace && decide (20 < w2.repos) then .abort w2
    else .next (afterPush timeStep rep w2)

/-- rbprm-path-interpolation.cc:260-397: the loop; the flag says whether it ran to the end. -/
def mainLoop (sv : Solvers N K) (compute : Compute N K) (configs : List (List K)) (timeStep : K) :
    Nat → Loop N K → Option (Bool × Loop N K)
  | 0, _ => none
  | fuel + 1, w =>
    if w.cit = configs.length then some (true, w)
    else
      match iterate sv compute configs timeStep w with
      | .abort w' => some (false, w')
      | .next w' => mainLoop sv compute configs timeStep fuel w'

/-- rbprm-path-interpolation.cc:238-251 -/
def Loop.start (start : State N K) (initValue : K) : Loop N K where
  nbFailures := 0
  currentVal := initValue
  front := (initValue, start)
  older := []
  lastConfig := start.configuration
  lastIterator := 0
  nbRecontacts := 0
  repos := 0
  allowFailure := true
  cit := 1

/-- rbprm-path-interpolation.cc:228-421 `Interpolate(…, configs, …)`; `configs` is not empty (it starts with the start configuration).
The second component is the postural option afterwards. -/
def interpolate (sv : Solvers N K) (compute : Compute N K) (postural : Bool) (start goal : State N K)
    (pathEnd : Option K) (configs : List (List K)) (timeStep initValue : K) (deep : Bool) (fuel : Nat) :
    Run (List (Frame N K)) × Bool :=
  match mainLoop sv compute configs timeStep fuel (Loop.start start initValue) with
  | none => (.noFuel, postural)
  | some (false, w) => (filterStates sv fuel deep w.states, postural)
  | some (true, w) =>
    if 1 < w.states.length then
      match addGoalConfig sv postural goal pathEnd w.states w.front with
      | (none, p) => (.throws, p)
      | (some l, p) => (filterStates sv fuel deep l, p)
    else (.done w.states, postural)

end Interp
end Rbprm
