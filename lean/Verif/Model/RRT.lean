import Verif.Model.Interp
import Verif.Model.Paths
set_option linter.unusedSectionVars false
/-!
# Model of `limbRRT`, `limbRRTFromPath`, `comRRT`, `comRRTFromPath`
(`limb-rrt.cc`, `com-rrt.cc`, `com-rrt-shooter.cc`, `limb-rrt-shooter.cc`, `time-constraint-helper.{hh,inl}`)

The planner of a pair of states (`core::BiRRTPlanner`), the shortcut optimisers, the steering method of the reference problem
and the extraction of a path are oracles.  An element of a path is seen through its ends and its evaluation (which fails when the
projection on the constraints fails).  The error of a constraint is the squared norm that `core::ConfigProjector` compares to the
square of its threshold, all constraints together.  The parallel loop is that of `Paths.interpolate`.
-/
namespace Rbprm
namespace RRT
open Interp Sampling Paths
variable {N K : Type _} [LinearOrder N] [Field K] [LinearOrder K]

/-- an element of a path: ends and evaluation; `none`: the projection fails [time-constraint-path.cc:97-117] -/
structure Elem (K : Type _) where
  init : List K
  fin : List K
  eval : K → Option (List K)

/-- what a planner is given for a pair of states: ends, constraints, threshold of the projector, number of iterations (0: no
limit), and the path and limbs of the shooter [time-constraint-helper.inl:135-200] -/
structure Task (N K : Type _) where
  start : List K
  goal : List K
  constraints : List (Constraint N (List K) K)
  threshold : K
  maxIterations : ℕ
  shooterPath : RefPath (List K) K
  free : AMap N (List (Sample K))

/-- the robot: its limbs with their samples, and the current configuration of the device, to which the helper adds one extra
degree of freedom, of any value [time-constraint-helper.hh:45-102] -/
structure Robot (N K : Type _) where
  climbs : AMap N (CLimb K)
  samples : AMap N (List (Sample K))
  current : List K

/-- the oracles: planner of round `r` (`none`: it fails, the exception is caught), the two shortcut optimisers [time-constraint-helper.inl:135-220] -/
structure Solver (N K : Type _) where
  plan : ℕ → Task N K → Option (List (Elem K))
  random : Task N K → List (Elem K) → List (Elem K)
  partial' : Task N K → List (Elem K) → List (Elem K)

/-- time-constraint-helper.inl:192-211 `optimize`: both optimisers `num` times -/
def optimize (sv : Solver N K) (num : ℕ) (task : Task N K) (l : List (Elem K)) : List (Elem K) :=
  (sv.partial' task)^[num] ((sv.random task)^[num] l)

/-- time-constraint-helper.hh:54-79, time-constraint-helper.inl:133-167: the task of a pair of states with shooter path `path`;
both shooters take the limbs that are not fixed; `none`: `at` throws -/
def task (robot : Robot N K) (extra : K) (path : RefPath (List K) K) (threshold : K) (maxIterations : ℕ) (frm dest : State N K) :
    Option (Task N K) :=
  match contactConstraints robot.climbs frm dest, timeConfig (robot.current ++ [extra]) frm 0,
      timeConfig (robot.current ++ [extra]) dest 1 with
  | some cs, some start, some goal =>
    some ⟨start, goal, cs, threshold, maxIterations, path, freeLimbs robot.samples frm dest⟩
  | _, _, _ => none

/-- time-constraint-helper.inl:329-337: what iteration `i` of round `r` finds -/
def attempt (sv : Solver N K) (num : ℕ) (tasks : List (Task N K)) (r i : ℕ) : Option (List (Elem K)) :=
  match tasks[i]? with
  | none => none
  | some t => (sv.plan r t).map (optimize sv num t)

/-- time-constraint-helper.inl:242-269: without `keepExtraDof`, the last coordinate is removed -/
def reduce (keepExtraDof : Bool) (e : Elem K) : Elem K :=
  if keepExtraDof then e else ⟨e.init.dropLast, e.fin.dropLast, fun t => (e.eval t).map List.dropLast⟩

/-- what a call gives [time-constraint-helper.inl:297-348] -/
inductive Result (K : Type _) where
  | path (l : List (Elem K))
  /-- still running after the given number of rounds -/
  | running
  /-- an exception or undefined behaviour -/
  | fails

/-- what `Paths.interpolate` gives, as a result [time-constraint-helper.inl:297-348] -/
def ofInterpolated : Interpolated (Elem K) → Result K
  | .ok l => .path l
  | .running => .running
  | .null => .fails
  | .overflow => .fails

/-- the environment of the parallel loop: the order in which the writes of a round reach memory, the initial contents of the
arrays, and the number of rounds that are watched [time-constraint-helper.inl:297-348] -/
structure Machine (K : Type _) where
  order : ℕ → List (Write (List (Elem K))) → List (Write (List (Elem K)))
  memory : Memory (List (Elem K))
  rounds : ℕ

/-- time-constraint-helper.inl:294-346 `interpolateStatesFromPathGetter` for the tasks of the pairs of states -/
def interpolateTasks (sv : Solver N K) (mc : Machine K) (num : ℕ) (keepExtraDof : Bool) (tasks : List (Task N K)) : Result K :=
  ofInterpolated (interpolate (reduce keepExtraDof) tasks.length
    (fun r => mc.order r (allWrites tasks.length (attempt sv num tasks r))) mc.memory mc.rounds)

/-- all the values, or `none` [time-constraint-helper.inl:297-348] -/
def sequence {α : Type _} : List (Option α) → Option (List α)
  | [] => some []
  | a :: l =>
    match a, sequence l with
    | some a, some l => some (a :: l)
    | _, _ => none

/-- the successive pairs of a list [time-constraint-helper.inl:297-348] -/
def pairs {α : Type _} : List α → List (α × α)
  | a :: b :: l => (a, b) :: pairs (b :: l)
  | _ => []

/-- time-constraint-helper.inl:272-292, 319-328: the tasks of the successive pairs of states; `getter` is the path getter
(`GenPath`, `ExtractPath`), `get` gives the state of an iterator -/
def tasksOf {A : Type _} (robot : Robot N K) (extra : K) (getter : A → A → RefPath (List K) K) (get : A → State N K)
    (threshold : K) (maxIterations : ℕ) (l : List A) : Option (List (Task N K)) :=
  sequence ((pairs l).map fun p => task robot extra (getter p.1 p.2) threshold maxIterations (get p.1) (get p.2))

/-- limb-rrt.cc:31-43 with `interpolateStates` (time-constraint-helper.inl:368-384) and `GenPath` (272-279): the tasks of
`limbRRT`; `steer` is the steering method of the reference problem; threshold 0.001 -/
def limbTasks (robot : Robot N K) (extra : K) (steer : List K → List K → RefPath (List K) K) (maxIterations : ℕ)
    (states : List (State N K)) : Option (List (Task N K)) :=
  tasksOf robot extra (fun a b => steer a.configuration b.configuration) id (1 / 1000) maxIterations states

/-- limb-rrt.cc:31-43 `limbRRT` -/
def limbRRT (robot : Robot N K) (extra : K) (sv : Solver N K) (mc : Machine K) (steer : List K → List K → RefPath (List K) K)
    (states : List (State N K)) (num maxIterations : ℕ) : Result K :=
  match limbTasks robot extra steer maxIterations states with
  | none => .fails
  | some tasks => interpolateTasks sv mc num false tasks

/-- limb-rrt.cc:45-57 with `interpolateStatesFromPath` (time-constraint-helper.inl:348-366) and `ExtractPath` (281-288): the tasks
of `limbRRTFromPath`; `extract` is that of the reference path; the default arguments are those of
time-constraint-helper.hh:122-129 -/
def limbPathTasks (robot : Robot N K) (extra : K) (extract : K → K → RefPath (List K) K) (frames : List (K × State N K)) :
    Option (List (Task N K)) :=
  tasksOf robot extra (fun a b => extract a.1 b.1) Prod.snd (1 / 1000) 0 frames

/-- limb-rrt.cc:45-57 `limbRRTFromPath` -/
def limbRRTFromPath (robot : Robot N K) (extra : K) (sv : Solver N K) (mc : Machine K) (extract : K → K → RefPath (List K) K)
    (frames : List (K × State N K)) (num : ℕ) : Result K :=
  match limbPathTasks robot extra extract frames with
  | none => .fails
  | some tasks => interpolateTasks sv mc num false tasks

/-- com-rrt.cc:151-164 `comRRTFromPath`: the shooter follows the guide path (com-rrt-shooter.cc:47-55), the path of the centre of
mass is not used -/
def comRRTFromPath (robot : Robot N K) (extra : K) (sv : Solver N K) (mc : Machine K) (_comPath : RefPath (Vec3 K) K)
    (guide : RefPath (List K) K) (frames : List (K × State N K)) (num : ℕ) : Result K :=
  match tasksOf robot extra (fun _ _ => guide) Prod.snd (1 / 1000) 0 frames with
  | none => .fails
  | some tasks => interpolateTasks sv mc num false tasks

/-- com-rrt.cc:61-124: the guide path; `unconstrained` is the planner without constraints of lines 87-116 (`none`: it throws, and
nothing catches), `toPath` makes a path of a path vector -/
def guidePath (robot : Robot N K) (extra : K) (sv : Solver N K) (mc : Machine K) (steer : List K → List K → RefPath (List K) K)
    (unconstrained : List K → List K → Option (List (Elem K))) (start next : State N K) (num : ℕ) : Result K :=
  if (State.allVariations next start robot.climbs.keys).isEmpty then
    match unconstrained start.configuration next.configuration with
    | none => .fails
    | some l => .path l
  else limbRRT robot extra sv mc steer [start, next] num 10000

/-- com-rrt.cc:61-149 `comRRT`: threshold 0.05, at most 10000 iterations; `mc'` is the environment of the second loop -/
def comRRT (robot : Robot N K) (extra : K) (sv : Solver N K) (mc mc' : Machine K) (steer : List K → List K → RefPath (List K) K)
    (unconstrained : List K → List K → Option (List (Elem K))) (toPath : List (Elem K) → RefPath (List K) K)
    (_comPath : RefPath (Vec3 K) K) (start next : State N K) (num : ℕ) (keepExtraDof : Bool) : Result K :=
  match guidePath robot extra sv mc steer unconstrained start next num with
  | .fails => .fails
  | .running => .running
  | .path l =>
    match task robot extra (toPath l) (1 / 20) 10000 start next with
    | none => .fails
    | some t => interpolateTasks sv mc' num keepExtraDof [t]

end RRT
end Rbprm
