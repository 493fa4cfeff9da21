import Verif.Model.Kinematics
set_option linter.unusedSectionVars false
/-!
# Reachability between two states (`src/contact_generation/reachability.cc`, `include/hpp/rbprm/contact_generation/reachability.hh`)

Compiled as in the repository: `QHULL`, `STAT_TIMINGS` and `FULL_TIME_SAMPLING` are 0 (reachability.cc:10–20), messages are not modelled.
`none` in a result is an exception or an undefined access that leaves the function.
-/
namespace Rbprm
namespace Reach
open Stability
variable {N K : Type _} [LinearOrder N] [Field K] [LinearOrder K] [IsStrictOrderedRing K]

/-- reachability.hh:20–30 `enum Status` -/
inductive Status
  | unreachable | unableToCompute | sameRootPosition | tooManyContactsVariation | noContactVariation | contactBreakFailed
  | contactCreationFailed | quasiStatic | reachable
deriving DecidableEq, Repr

/-- reachability.hh:32–85 `struct Result`, without the paths (see `Dynamic` below) -/
structure Result (K : Type _) where
  status : Status
  x : Vec3 K
  xBreak : Vec3 K
  xCreate : Vec3 K
  constraints : Ineq K
deriving DecidableEq, Repr

/-- reachability.hh:39–45 `Result(status)` -/
def Result.of (s : Status) : Result K := ⟨s, 0, 0, 0, []⟩

/-- reachability.hh:55–58 `success()` -/
def Result.success (r : Result K) : Bool :=
  r.status = .reachable || r.status = .noContactVariation || r.status = .sameRootPosition || r.status = .quasiStatic

/-- the rest of the world: the robot (its kinematic constraints and what `setupLibrary` reads), and the libraries [reachability.cc:102-497] -/
structure ReachEnv (N K : Type _) where
  kin : KinEnv N K
  stab : StabEnv N K
  solver : Solver K
  /-- `m_gravity` and `m_mass` of the `Equilibrium` object -/
  gravity : Vec3 K
  mass : K
  /-- `getPolytopeInequalities`: the rows of `H` (linear and angular part) with the entries of `h`; `none`: the status is not `OPTIMAL` -/
  polytope : Problem K → Option (List ((Vec3 K × Vec3 K) × K))
  /-- Euclidean norm of a row of six numbers -/
  norm6 : Vec3 K × Vec3 K → K
  /-- `bezier_com_traj::solve(Ab, (H, g), initial guess)`: minimise ½ xᵀHx + gᵀx under the constraints; `none`: a vector whose coordinates are not numbers -/
  qp : Ineq K → Mat3 K × Option (Vec3 K) → Option (Vec3 K) → Bool × Vec3 K
  offset : N → Vec3 K

/-- reachability.cc:97–106 `computeDistanceCost` -/
def distanceCost (c : Option (Vec3 K)) : Mat3 K × Option (Vec3 K) := (Mat3.one, c.map fun v => -v)

/-- reachability.cc:108–119 `intersectionExist`: the answer and `c_out` -/
def ReachEnv.solve (env : ReachEnv N K) (Ab : Ineq K) (c : Option (Vec3 K)) : Bool × Vec3 K := env.qp Ab (distanceCost c) c

/-- reachability.cc:84–95 `stackConstraints` -/
def stackConstraints (Ab Cd : Ineq K) : Ineq K := Ab ++ Cd

/-- reachability.cc:121–165 `computeStabilityConstraints`: one row; `skew g · x = g × x`, so the row of `A` is `m (Hₐ (g − a)^)`, that is `m (Hₐ × (g − a))`;
`H` is normalised but `h` is not (line 143) -/
def stabilityRow (env : ReachEnv N K) (acc : Vec3 K) (r : (Vec3 K × Vec3 K) × K) : Vec3 K × K :=
  let s := (env.norm6 r.1)⁻¹
  let Hl := Vec3.smul s (-r.1.1)
  let Ha := Vec3.smul s (-r.1.2)
  let ga := env.gravity - acc
  (Vec3.smul env.mass (Vec3.cross Ha ga), r.2 + env.mass * Vec3.dot Hl ga)

/-- reachability.cc:121–165 `computeStabilityConstraints`; empty if the library fails -/
def stabilityConstraints (env : ReachEnv N K) (pb : Problem K) (acc : Vec3 K) : Ineq K :=
  match env.polytope pb with
  | none => []
  | some rows => rows.map (stabilityRow env acc)

/-- reachability.cc:167–187 `computeContactConeForState`; the result is the problem in the library, `none` if `success` is false.  The foot size is 0.05.
Simplified: all exceptions of `setupLibrary` are caught (in the code `std::out_of_range`, thrown when the maps of the state have different keys, is not). -/
def contactCone (env : ReachEnv N K) (state : State N K) : Option (Problem K) :=
  (setupLibrary env.stab env.solver state Alg.PP (1 / 20) (1 / 20)).map Prod.snd

/-- reachability.cc:189–207 `computeStabilityConstraintsForState`; outer `none`: `front()` of an empty queue or `at` throws; inner `none`: `success` is false -/
def stabilityForState (env : ReachEnv N K) (state : State N K) (acc : Vec3 K) : Option (Option (Ineq K)) :=
  match contactCone env state with
  | none => some none
  | some cone =>
    match state.contactOrder with
    | [] => none
    | n :: _ =>
      match state.contactPositions.find? n with
      | none => none
      | some _ =>
        let Ab := stabilityConstraints env cone acc
        if Ab.length = 0 then some none else some (some Ab)

/-- reachability.cc:209–219 `computeConstraintsForState` -/
def constraintsForStateAcc (env : ReachEnv N K) (state : State N K) (acc : Vec3 K) : Option (Option (Ineq K)) :=
  match stabilityForState env state acc with
  | none => none
  | some none => some none
  | some (some Ab) =>
    match constraintsForState env.kin state with
    | none => none
    | some K => some (some (stackConstraints K Ab))

/-- reachability.cc:428–437: sum of the contact points of the state; `none`: an exception -/
def contactSum (env : ReachEnv N K) (state : State N K) : AMap N (Vec3 K) → Vec3 K → Option (Vec3 K)
  | [], c => some c
  | (name, p) :: l, c =>
    match state.contactRotation.find? name, env.kin.limbs.find? name with
    | some R, some _ => contactSum env state l (c + Transform.apply ⟨R, p⟩ (env.offset name))
    | _, _ => none

/-- reachability.cc:427–439: the target of the cost; inner `none`: division by zero (no contact) -/
def robustTarget (env : ReachEnv N K) (state : State N K) (z : K) : Option (Option (Vec3 K)) :=
  match contactSum env state state.contactPositions 0 with
  | none => none
  | some c =>
    if state.contactPositions.length = 0 then some none
    else
      let c := Vec3.smul (state.contactPositions.length : K)⁻¹ c
      some (some ⟨c.x, c.y, z⟩)

/-- one contact is broken and one is created, and it is the same limb (reachability.cc:296–298) -/
def repositioning (previous next : State N K) : Bool :=
  (next.contactBreaks previous).length = 1 && (next.contactCreations previous).length = 1 && (next.contactVariations previous).length = 1

/-- reachability.cc:301–302: the state between the two -/
def intermediateState (previous : State N K) (broken : List N) : State N K :=
  match broken with
  | [] => previous
  | b :: _ => ((State.copyCtor previous).removeContact b).1

/-- reachability.cc:322–402: the constraints of the centre of mass; outer `none`: exception; inner `none`: `UNABLE_TO_COMPUTE` -/
def transitionConstraints (env : ReachEnv N K) (previous next : State N K) (acc : Vec3 K) (nb nc : ℕ) : Option (Option (Ineq K)) :=
  if nb = 1 ∧ nc = 1 then
    match constraintsForStateAcc env previous acc with
    | none => none
    | some none => some none
    | some (some Ap) =>
      match constraintsForStateAcc env next acc with
      | none => none
      | some none => some none
      | some (some An) => some (some (stackConstraints Ap An))
  else if nb > 0 then
    match stabilityForState env next acc with
    | none => none
    | some none => some none
    | some (some An) =>
      match constraintsForState env.kin previous with
      | none => none
      | some Kp => some (some (stackConstraints An Kp))
  else
    match stabilityForState env previous acc with
    | none => none
    | some none => some none
    | some (some Ap) =>
      match constraintsForState env.kin next with
      | none => none
      | some Kn => some (some (stackConstraints Ap Kn))

/-- reachability.cc:265–497 `isReachable` with `useIntermediateState = false` -/
def isReachableDirect (env : ReachEnv N K) (previous next : State N K) (acc : Vec3 K) : Option (Result K) :=
  let contactsBreak := next.contactBreaks previous
  let contactsCreation := next.contactCreations previous
  if contactsCreation.length ≤ 0 ∧ contactsBreak.length ≤ 0 then some (.of .noContactVariation)
  else if contactsCreation.length > 1 ∨ contactsBreak.length > 1 then some (.of .tooManyContactsVariation)
  else if contactsBreak.length = 1 ∧ contactsCreation.length = 1 ∧ ¬ (next.contactVariations previous).length = 1 then some (.of .tooManyContactsVariation)
  else
    match transitionConstraints env previous next acc contactsBreak.length contactsCreation.length with
    | none => none
    | some none => some (.of .unableToCompute)
    | some (some Ab) =>
      let z := ((env.stab.centerOfMass previous.configuration).z + (env.stab.centerOfMass next.configuration).z) / 2
      let smaller :=
        if contactsBreak.length = 1 ∧ contactsCreation.length = 1 then intermediateState previous contactsBreak
        else if contactsBreak.length > 0 then next else previous
      match robustTarget env smaller z with
      | none => none
      | some target =>
        let r := env.solve Ab target
        some { (Result.of (if r.1 then .reachable else .unreachable) : Result K) with x := r.2, constraints := Ab }

/-- reachability.cc:221–263 `isReachableIntermediate`: the two calls use the default arguments (acceleration 0, no intermediate state) -/
def isReachableIntermediate (env : ReachEnv N K) (previous intermediate next : State N K) : Option (Result K) :=
  match isReachableDirect env previous intermediate 0, isReachableDirect env intermediate next 0 with
  | some resBreak, some resCreate =>
    if resBreak.success && resCreate.success then
      some { (Result.of .reachable : Result K) with x := Vec3.smul (1 / 2) (resBreak.x + resCreate.x), xBreak := resBreak.x, xCreate := resCreate.x }
    else if resBreak.status = .unreachable ∧ resCreate.status = .unreachable then some (.of .unreachable)
    else if !resBreak.success then some (.of .contactBreakFailed)
    else if !resCreate.success then some (.of .contactCreationFailed)
    else some (.of .unableToCompute)
  | _, _ => none

/-- reachability.cc:265–497 `isReachable` (the recursion through `isReachableIntermediate` ends since it calls with `useIntermediateState = false`).  The guards before line 306
are the same for both values of the flag. -/
def isReachable (env : ReachEnv N K) (previous next : State N K) (acc : Vec3 K) (useIntermediateState : Bool) : Option (Result K) :=
  if useIntermediateState && repositioning previous next then
    isReachableIntermediate env previous (intermediateState previous (next.contactBreaks previous)) next
  else isReachableDirect env previous next acc

/-! ## Dynamic reachability -/

/-- result of `computeCOMTraj`: final velocity and acceleration, and the curve [bezier_com_traj, used in reachability.cc:506-905] -/
structure ComTraj (K C : Type _) where
  dc1 : Vec3 K
  ddc1 : Vec3 K
  curve : C

/-- the storage of an object [reachability.cc:506-905] -/
inductive Storage | automatic | heap
deriving DecidableEq, Repr

/-- `BezierPath::create(device, curve, init, end, interval)` [bezier-path.cc:53-71, called in reachability.cc:506-905] -/
structure BPath (K C : Type _) where
  curve : C
  init : List K
  goal : List K
  first : K
  last : K

/-- the data that is given to the solver (reachability.cc:620–683): the phases, with their kinematic constraints and cones, and the boundary values -/
structure PData (K : Type _) where
  phases : List (Ineq K × Problem K)
  c0 : Vec3 K
  c1 : Vec3 K
  dc0 : Vec3 K
  dc1 : Vec3 K

/-- the world for `isReachableDynamic`: `solveCom` is `computeCOMTraj` or (for a positive number of points) `computeCOMTrajFixedSize`; `bezier2` is the Bézier curve with three
control points [reachability.cc:506-905] -/
structure DynEnv (N K C : Type _) extends ReachEnv N K where
  solveCom : PData K → List K → ℕ → Option (ComTraj K C)
  bezier2 : Vec3 K → Vec3 K → Vec3 K → C

/-- what `isReachableDynamic` gives: the result, the paths and timings that are stored in it, the state `next` (which is an in-out argument) and the storage of the objects that were
deleted [reachability.cc:506-905] -/
structure Dynamic (N K C : Type _) where
  res : Result K
  path : Option (BPath K C)
  timings : List K
  phases : List (BPath K C)
  next : State N K
  deleted : List Storage

/-- `v.segment<3>(i)` [Eigen, used in reachability.cc:506-905] -/
def segment3 (v : List K) (i : ℕ) : Vec3 K := ⟨v.getD i 0, v.getD (i + 1) 0, v.getD (i + 2) 0⟩

/-- `v.segment<3>(i) = w` [Eigen, used in reachability.cc:506-905] -/
def setSegment3 (v : List K) (i : ℕ) (w : Vec3 K) : List K := ((v.set i w.x).set (i + 1) w.y).set (i + 2) w.z

/-- reachability.cc:741–745: the rows of `timings_matrix` -/
def timingTable : List (List K) :=
  [[6/10, 12/10, 6/10], [1, 12/10, 1], [8/10, 7/10, 8/10], [3/10, 6/10, 3/10], [5/10, 6/10, 5/10], [6/10, 6/10, 6/10], [8/10, 6/10, 8/10],
   [3/10, 8/10, 3/10], [3/10, 7/10, 3/10], [6/10, 8/10, 6/10], [1, 7/10, 1], [15/10, 7/10, 1], [8/10, 8/10, 8/10], [1, 6/10, 1], [12/10, 6/10, 12/10],
   [15/10, 6/10, 15/10], [1/10, 2/10, 1/10], [2/10, 3/10, 2/10]]

/-- reachability.cc:766–873: the loop over the timings.  `rest`: the rows of the table from `t_id` on (empty if the timings were provided); the row that is assigned when
`t_id` reaches the number of rows is not tried (line 864).  The result is the timings of the first success and the trajectory. -/
def timingLoop {C : Type _} (solve : List K → Option (ComTraj K C)) (current : List K) : List (List K) → Option (List K × ComTraj K C)
  | [] => (solve current).map fun r => (current, r)
  | row :: rest =>
    match solve current with
    | some r => some (current, r)
    | none => if rest = [] then none else timingLoop solve row rest

/-- reachability.cc:708–873: the rows of the table are used if the number of timings is not the number of phases, otherwise the given timings are -/
def searchTimings {C : Type _} (solve : List K → Option (ComTraj K C)) (timings : List K) (phases : ℕ) : Option (List K × ComTraj K C) :=
  if timings.length ≠ phases then
    match timingTable.map (List.take phases) with
    | [] => none
    | row :: rest => timingLoop solve row rest
  else timingLoop solve timings []

/-- sum of the timings (lines 749–752, 757–760, 866–869) [reachability.cc:749-760, 866-869] -/
def total (l : List K) : K := l.foldl (· + ·) 0

/-- reachability.cc:789–830: the result of a successful call -/
def wrap {C : Type _} (previous next : State N K) (idVel : ℕ) (t : List K) (r : ComTraj K C) (deleted : List Storage) : Dynamic N K C :=
  let next' := { next with configuration := setSegment3 (setSegment3 next.configuration idVel r.dc1) (idVel + 3) r.ddc1 }
  let t0 := t.getD 0 0
  let t1 := t.getD 1 0
  let path a b : BPath K C := ⟨r.curve, previous.configuration, next'.configuration, a, b⟩
  ⟨.of .reachable, some (path 0 (total t)), t,
    [path 0 t0, path t0 (t0 + t1)] ++ (if t.length > 2 then [path (t0 + t1) (total t)] else []), next', deleted⟩

/-- an answer without path [reachability.cc:506-905] -/
def plain {C : Type _} (next : State N K) (s : Status) : Dynamic N K C := ⟨.of s, none, [], [], next, []⟩

/-- reachability.cc:617–900: the dynamic part, after the quasi-static attempt.  `conePrevious`, `coneMid` and `coneNext` are local variables (lines 629, 638, 645) whose addresses
are deleted at the end (878–880). -/
def dynamicPart {C : Type _} (env : DynEnv N K C) (previous mid next : State N K) (nb nc : ℕ) (timings : List K) (numPoints : ℕ) : Option (Dynamic N K C) :=
  match constraintsForState env.kin previous, constraintsForState env.kin mid, constraintsForState env.kin next with
  | some Kp, some Km, some Kn =>
    match contactCone env.toReachEnv previous, contactCone env.toReachEnv mid, contactCone env.toReachEnv next with
    | some cp, some cm, some cn =>
      let phases := if nb = 1 ∧ nc = 1 then [(Kp, cp), (Km, cm), (Kn, cn)] else [(Kp, cp), (Kn, cn)]
      let idVel := next.configuration.length - env.stab.extraDim
      let pData : PData K := ⟨phases, env.stab.centerOfMass previous.configuration, env.stab.centerOfMass next.configuration,
        segment3 previous.configuration idVel, segment3 next.configuration idVel⟩
      let solve t := env.solveCom pData t numPoints
      let found := searchTimings solve timings phases.length
      let deleted := phases.map fun _ => Storage.automatic
      match found with
      | some (t, r) => some (wrap previous next idVel t r deleted)
      | none => some { plain next .unreachable with deleted := deleted }
    | _, _, _ => some (plain next .unableToCompute)
  | _, _, _ => none

/-- reachability.cc:506–901 `isReachableDynamic`.  Simplified: when only a contact is created the kinematic constraints of `mid` are not computed (line 633); since `mid` is then a
copy of `previous` they exist iff those of `previous` do, and they are not used. -/
def isReachableDynamic {C : Type _} (env : DynEnv N K C) (previous next : State N K) (tryQuasiStatic : Bool) (timings : List K) (numPoints : ℕ) : Option (Dynamic N K C) :=
  let contactsBreak := next.contactBreaks previous
  let contactsCreation := next.contactCreations previous
  let nb := contactsBreak.length
  let nc := contactsCreation.length
  if previous.configuration.take 3 = next.configuration.take 3 then some (plain next .sameRootPosition)
  else if nc ≤ 0 ∧ nb ≤ 0 then some (plain next .noContactVariation)
  else if nb + nc > 2 ∨ nb > 1 ∨ nc > 1 then some (plain next .tooManyContactsVariation)
  else if nb = 0 ∧ previous.nbContacts ≤ 1 then some (plain next .unableToCompute)
  else if nc = 0 ∧ next.nbContacts ≤ 1 then some (plain next .unableToCompute)
  else
    let mid := intermediateState previous contactsBreak
    if tryQuasiStatic then
      match isReachableIntermediate env.toReachEnv previous mid next with
      | none => none
      | some q =>
        if q.success then
          let curve := env.bezier2 (env.stab.centerOfMass previous.configuration) q.x (env.stab.centerOfMass next.configuration)
          some ⟨{ q with status := .quasiStatic }, some ⟨curve, previous.configuration, next.configuration, 0, 1⟩, [], [], next, []⟩
        else dynamicPart env previous mid next nb nc timings numPoints
    else dynamicPart env previous mid next nb nc timings numPoints

end Reach
end Rbprm
