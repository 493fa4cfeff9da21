import Mathlib.Data.Nat.Basic
set_option linter.unusedSectionVars false
/-!
# Model of the dynamic planner (`dynamic-planner.cc`)

A node of the roadmap is identified with its configuration (type `C`; hpp-core's `addNode` returns the existing node of the
component that has this configuration).  A roadmap is the list of its nodes and of its edges: source, target, path.  Nearest
nodes, steering methods, constraints, path validation and shooter are oracles of hpp-core or of other files; the first
argument (the number of the step, and 0 for the start component or the number of the end component from 1 on) lets their
answers depend on a state.  The matrices of the nodes (`computeGIWC`) are in `Model/Node`; the steering method uses them, it
is an oracle here.
-/
namespace Rbprm
namespace Planner
variable {C P K : Type _} [DecidableEq C] [DecidableEq K]

/-- a roadmap [hpp-core, used in dynamic-planner.cc:171-564] -/
structure Roadmap (C P : Type _) where
  nodes : List C
  edges : List (C × C × P)
deriving DecidableEq

/-- hpp-core `Roadmap::addEdge` [used in dynamic-planner.cc:308-434] -/
def Roadmap.addEdge (rm : Roadmap C P) (a b : C) (p : P) : Roadmap C P := { rm with edges := rm.edges ++ [(a, b, p)] }

/-- hpp-core `Roadmap::addNode` [used in dynamic-planner.cc:308-434] -/
def Roadmap.addNode (rm : Roadmap C P) (q : C) : Roadmap C P := if q ∈ rm.nodes then rm else { rm with nodes := rm.nodes ++ [q] }

/-- the number of the step and of the component [dynamic-planner.cc:308-434] -/
abbrev Tok := ℕ × ℕ

/-- the oracles [dynamic-planner.cc:171-434] -/
structure Env (C P K : Type _) where
  initial : P → C
  final : P → C
  /-- `timeRange ().first`, `timeRange ().second` -/
  t0 : P → K
  t1 : P → K
  /-- `configurationShooter_->shoot ()` -/
  shoot : ℕ → C
  /-- `nearestNode`, in the start component or in an end component -/
  nearest : Tok → Roadmap C P → C → C
  /-- `sm_->constraints ()`: `projectOnKernel` if there is a projector, and `apply` (`none`: returns false) -/
  constraints : Option (Option (C → C → C) × (C → Option C))
  /-- `(*sm_) (near, q)`, or, if reverse, `(*sm_) (q, near)`; `none`: null pointer -/
  steer : Tok → C → C → Bool → Option P
  /-- `pathValidation->validate (path, reverse, validPart, report)` -/
  validate : Tok → P → Bool → Bool × Option P
  /-- number of end components -/
  ends : ℕ

variable (env : Env C P K)

/-- dynamic-planner.cc:171-191 `extendInternal` -/
def extendInternal (k : Tok) (near target : C) (reverse : Bool) : Option P :=
  match env.constraints with
  | none => env.steer k near target reverse
  | some (projector, apply) =>
    let q := match projector with
      | some f => f near target
      | none => target
    match apply q with
    | some q => env.steer k near q reverse
    | none => none

/-- what the first part of `oneStep` leaves: the roadmap, `reachedNodeFromStart` (not null exactly if `startComponentConnected`;
its configuration is `q_new`), `pathValidFromStart` [dynamic-planner.cc:308-360] -/
structure Front (C P : Type _) where
  rm : Roadmap C P
  reached : Option C
  validFromStart : Bool

/-- dynamic-planner.cc:326-364: extension of the start component -/
def front (k : ℕ) (rm : Roadmap C P) (q : C) : Front C P :=
  let near := env.nearest (k, 0) rm q
  match extendInternal env (k, 0) near q false with
  | none => ⟨rm, none, false⟩
  | some path =>
    match env.validate (k, 0) path false with
    | (v, none) => ⟨rm, none, v⟩
    | (v, some w) =>
      if env.t1 w ≠ env.t0 path then
        ⟨(rm.addNode (env.final w)).addEdge near (env.final w) w, some (env.final w), v && decide (env.final w = q)⟩
      else ⟨rm, none, false⟩

/-- the roadmap, and whether the function returned [dynamic-planner.cc:308-434] -/
abbrev Step (C P : Type _) := Roadmap C P × Bool

/-- dynamic-planner.cc:412-427: connection of the two new nodes; `none`: a null pointer is dereferenced -/
def joinNew (k : Tok) (rm : Roadmap C P) (qn qe : C) : Option (Step C P) :=
  match extendInternal env k qn qe false with
  | none => some (rm, false)
  | some path =>
    match env.validate k path false with
    | (false, _) => some (rm, false)
    | (true, none) => none
    | (true, some w) => if env.final w = qe then some (rm.addEdge qn qe path, true) else some (rm, false)

/-- dynamic-planner.cc:400-430: the path from the end component does not reach the new node -/
def extendEnd (k : Tok) (rm : Roadmap C P) (reached : Option C) (near : C) (path w : P) : Option (Step C P) :=
  if env.t1 w ≠ env.t0 path then
    let qe := env.initial w
    let rm := (rm.addNode qe).addEdge qe near w
    match reached with
    | none => some (rm, false)
    | some qn => joinNew env k rm qn qe
  else some (rm, false)

/-- dynamic-planner.cc:373-432: extension of one end component -/
def back (k : Tok) (rm : Roadmap C P) (reached : Option C) (validFromStart : Bool) (q : C) : Option (Step C P) :=
  let near := env.nearest k rm q
  match extendInternal env k near q true with
  | none => some (rm, false)
  | some path =>
    match validFromStart, env.validate k path true, reached with
    | true, (_, some _), none => none
    | true, (true, none), _ => none
    | true, (v, some w), some qn =>
      if v = true ∧ env.initial w = qn then some (rm.addEdge qn near w, true) else extendEnd env k rm reached near path w
    | _, (_, some w), _ => extendEnd env k rm reached near path w
    | _, (_, none), _ => some (rm, false)

/-- dynamic-planner.cc:372-433: the loop over the end components -/
def backLoop (k : ℕ) (reached : Option C) (validFromStart : Bool) (q : C) : ℕ → ℕ → Roadmap C P → Option (Roadmap C P)
  | 0, _, rm => some rm
  | n + 1, i, rm =>
    match back env (k, i) rm reached validFromStart q with
    | none => none
    | some (rm, true) => some rm
    | some (rm, false) => backLoop k reached validFromStart q n (i + 1) rm

/-- dynamic-planner.cc:308-434 `oneStep` -/
def oneStep (k : ℕ) (rm : Roadmap C P) : Option (Roadmap C P) :=
  let q := env.shoot k
  let f := front env k rm q
  backLoop env k f.reached f.validFromStart q env.ends 1 f.rm

/-- the loop of hpp-core `PathPlanner::solve`, without the test whether the goal is reached [calls dynamic-planner.cc:308-434] -/
def steps : ℕ → ℕ → Roadmap C P → Option (Roadmap C P)
  | 0, _, rm => some rm
  | n + 1, k, rm => match oneStep env k rm with
    | none => none
    | some rm => steps n (k + 1) rm

/-! ### direct connection -/

/-- the other oracles used by `tryConnectInitAndGoals` [dynamic-planner.cc:480-564] -/
structure JumpEnv (C P : Type _) where
  /-- `problem ()->pathProjector ()`; `none`: null pointer; `apply` returning false -/
  projector : Option (P → Option P)
  tryJump : Bool
  /-- `validate` gives a report -/
  report : Tok → P → Bool
  /-- the trunk is valid at the parameter of the report -/
  trunk : Tok → P → Bool
  /-- `(*smParabola_) (from, to)` -/
  parabola : Tok → C → C → Option P
  /-- the length of the parabola is positive -/
  long : P → Bool
  /-- `initial ()` with the velocity `V0_`, `end ()` with the velocity `Vimp_` -/
  takeOff : P → C
  landing : P → C

variable (je : JumpEnv C P)

/-- dynamic-planner.cc:193-221 `extendParabola`, for `reverse` false -/
def extendParabola (k : Tok) (start target : C) : Option P :=
  match env.constraints with
  | none => je.parabola k start target
  | some (projector, apply) =>
    let q := match projector with
      | some f => f start target
      | none => target
    match apply q with
    | some q => je.parabola k start q
    | none => none

/-- dynamic-planner.cc:223-306 `tryParabolaPath`, for `reverse` false.  Result: the roadmap, and on success `x_jump`, `paraPath`; `none`: a null pointer is dereferenced -/
def tryParabola (k : Tok) (rm : Roadmap C P) (near last target : C) : Option (Roadmap C P × Option (C × P)) :=
  match extendParabola env je k last target with
  | none => some (rm, none)
  | some para =>
    if je.long para = true then
      match extendInternal env k near (je.takeOff para) false with
      | none => some (rm, none)
      | some kino =>
        match env.validate k kino false with
        | (false, _) => some (rm, none)
        | (true, none) => none
        | (true, some w) =>
          if env.t1 w ≠ env.t0 kino ∧ env.final w = je.takeOff para then
            let rm := (rm.addNode (je.takeOff para)).addEdge near (je.takeOff para) kino
            let rm := (rm.addNode (je.landing para)).addEdge (je.takeOff para) (je.landing para) para
            some (rm, some (je.takeOff para, para))
          else some (rm, none)
    else some (rm, none)

/-- dynamic-planner.cc:508-561: what follows the projection -/
def connectProjected (k : Tok) (rm : Roadmap C P) (init goal : C) (path proj : P) : Option (Roadmap C P) :=
  match env.validate k proj false with
  | (true, none) => none
  | (false, none) => some rm
  | (v, some w) =>
    if v = true ∧ env.t1 w ≠ env.t0 path then some (rm.addEdge init goal proj)
    else if je.tryJump = true then
      if je.report k proj = false then none
      else if je.trunk k proj = true then
        match tryParabola env je k rm init (env.final w) goal with
        | none => none
        | some (rm, none) => some rm
        | some (rm, some (jump, para)) => some (rm.addEdge jump goal para)
      else some rm
    else if env.t1 w ≠ env.t0 path then some ((rm.addNode (env.final w)).addEdge init (env.final w) w)
    else some rm

/-- dynamic-planner.cc:489-562: one goal -/
def connectGoal (k : Tok) (rm : Roadmap C P) (init goal : C) : Option (Roadmap C P) :=
  match extendInternal env k init goal false with
  | none => some rm
  | some path =>
    match je.projector with
    | none => connectProjected env je k rm init goal path path
    | some f => match f path with
      | none => some rm
      | some proj => connectProjected env je k rm init goal path proj

/-- dynamic-planner.cc:478-563 `tryConnectInitAndGoals`; `k` is a step before the first one -/
def connect (k : ℕ) (init : C) : List C → ℕ → Roadmap C P → Option (Roadmap C P)
  | [], _, rm => some rm
  | goal :: l, i, rm => match connectGoal env je (k, i) rm init goal with
    | none => none
    | some rm => connect k init l (i + 1) rm

end Planner
end Rbprm
