import Verif.Model.Validation
import Verif.Model.Node
import Verif.Model.Planner
set_option linter.unusedSectionVars false
/-!
# Construction of the dynamic planner and of the optimisers; the contacts they give to a node

The constructors of `dynamic-planner.cc`, `oriented-path-optimizer.cc`, `random-shortcut-dynamic.cc` and
`steering-method-parabola.cc` (`double` is `ℝ`), `DynamicPlanner::computeGIWC` and the first half of the methods `steer` of
the optimisers.  The validator is that of `Model/Validation`; `problem()->configValidations()` holds this validator alone
(assumption).
-/
namespace Rbprm
namespace Setup
open Validation

/-! ### parameters -/

/-- the parameters of the problem: `none` if the user did not set the value [dynamic-planner.cc:83-122, 593-612] -/
structure Params where
  sizeFootX : Option ℝ
  sizeFootY : Option ℝ
  friction : Option ℝ
  tryJump : Option Bool
  /-- "Kinodynamic/velocityBound" (declared in hpp-core) -/
  velocityBound : ℝ

/-- dynamic-planner.cc:593–612 the declared defaults, and hpp-core `Problem::getParameter` -/
noncomputable def getSizeFootX (p : Params) : ℝ := p.sizeFootX.getD 0
/-- dynamic-planner.cc:598–601 -/
noncomputable def getSizeFootY (p : Params) : ℝ := p.sizeFootY.getD 0
/-- dynamic-planner.cc:602–606 -/
noncomputable def getFriction (p : Params) : ℝ := p.friction.getD (1 / 2)
/-- dynamic-planner.cc:607–611 -/
def getTryJump (p : Params) : Bool := p.tryJump.getD false

/-- the members `sizeFootX_`, `sizeFootY_`, `rectangularContact_`, `tryJump_`, `mu_` [dynamic-planner.cc:83-122, random-shortcut-dynamic.cc:57-89, oriented-path-optimizer.cc:56-90] -/
structure Settings where
  sizeX : ℝ
  sizeY : ℝ
  rectangular : Bool
  tryJump : Bool
  mu : ℝ

open Classical in
/-- dynamic-planner.cc:83–122 `DynamicPlanner (problem)` -/
noncomputable def plannerSettings (p : Params) : Settings :=
  let sx := getSizeFootX p / 2
  let sy := getSizeFootY p / 2
  ⟨sx, sy, if sx > 0 ∧ sy > 0 then true else false, getTryJump p, getFriction p⟩

open Classical in
/-- dynamic-planner.cc:124–164 `DynamicPlanner (problem, roadmap)` -/
noncomputable def plannerOnRoadmapSettings (p : Params) : Settings :=
  let sx := getSizeFootX p / 2
  let sy := getSizeFootY p / 2
  ⟨sx, sy, if sx > 0 ∧ sy > 0 then true else false, getTryJump p, getFriction p⟩

open Classical in
/-- oriented-path-optimizer.cc:56–90 `OrientedPathOptimizer (problem)` -/
noncomputable def orientedSettings (p : Params) : Settings :=
  let sx := getSizeFootX p / 2
  let sy := getSizeFootY p / 2
  ⟨sx, sy, if sx > 0 ∧ sy > 0 then true else false, getTryJump p, getFriction p⟩

open Classical in
/-- random-shortcut-dynamic.cc:57–86 `RandomShortcutDynamic (problem)` -/
noncomputable def shortcutSettings (p : Params) : Settings :=
  let sx := getSizeFootX p / 2
  let sy := getSizeFootY p / 2
  ⟨sx, sy, if sx > 0 ∧ sy > 0 then true else false, getTryJump p, getFriction p⟩

/-- `fillNodeMatrices` as called by the planner (dynamic-planner.cc:471–475) and by the optimisers
(oriented-path-optimizer.cc:244–247, random-shortcut-dynamic.cc:256–259); `c` are the first entries of the configuration,
`head` the direction of the root, `mass` the mass of the robot -/
noncomputable def fill (s : Settings) (roms : List Node.RomContact) (head c : Vec3 ℝ) (mass : ℝ) : Option Node.NodeData :=
  Node.fillNodeMatrices roms head c s.rectangular s.sizeX s.sizeY mass s.mu

/-- the members of `SteeringMethodParabola` that depend on the problem, and its friction [steering-method-parabola.cc:38-56] -/
structure JumpSettings where
  V0max : ℝ
  Vimpmax : ℝ
  mu : ℝ

/-- steering-method-parabola.cc:38–56 `SteeringMethodParabola (problem)` (created at dynamic-planner.cc:90 and 131) -/
noncomputable def jumpSettings (p : Params) : JumpSettings := ⟨p.velocityBound, p.velocityBound, 1 / 2⟩

/-! ### the roadmap of a planner -/

section roadmap
variable {C P : Type _}
open Planner

/-- the roadmaps of a planner: the one of the base class and the member `roadmap_` (dynamic-planner.hh:104) -/
structure DynamicPlanner (C P : Type _) where
  base : Roadmap C P
  own : Roadmap C P

/-- dynamic-planner.cc:78–81, 83–93 `create`: both roadmaps are new -/
def create : DynamicPlanner C P := ⟨⟨[], []⟩, ⟨[], []⟩⟩

/-- dynamic-planner.cc:72–76, 124–134 `createWithRoadmap`: the roadmap is given to the base class, `roadmap_` is new -/
def createWithRoadmap (roadmap : Roadmap C P) : DynamicPlanner C P := ⟨roadmap, ⟨[], []⟩⟩

/-- dynamic-planner.hh:59 `roadmap ()` (virtual, also used by the base class) -/
def DynamicPlanner.roadmap (planner : DynamicPlanner C P) : Roadmap C P := planner.own

end roadmap

/-! ### the contact surfaces of a node -/

section contacts
variable {N O R : Type _} [LinearOrder N] [DecidableEq O]

/-- the report of a ROM for `chooseBestContactSurface`: the objects of the report and those of all the collisions [rbprm-node.cc:348-418] -/
def romReports (r : Report N O) : List (N × Option ((O × O) × List (O × O))) :=
  r.ROMReports.map fun e => (e.1, some ((e.2.object1, e.2.object2), e.2.all))

/-- the objects used by `fillNodeMatrices` (rbprm-node.cc:279–287) -/
def surfaces (l : List (N × Option ((O × O) × List (O × O)))) : AMap N (O × O) :=
  l.filterMap fun e => e.2.map fun r => (e.1, r.1)

/-- dynamic-planner.cc:436–456 `computeGIWC`: the pair of objects of each ROM in contact, and the validator afterwards;
`dist` is the distance used by `chooseBestContactSurface` at this configuration -/
noncomputable def computeGIWC (draw : N → ℕ → ℕ) (collides : O × O → Bool) (boundsOk : Bool) (dist : N → O × O → Option ℝ)
    (useBest : Bool) (v : Validator N O R) : Option (AMap N (O × O) × Validator N O R) :=
  match randomnizeAll draw v.roms with
  | none => none
  | some roms =>
    match validateDefault collides boundsOk { v with roms := computeAllContacts true roms } with
    | none => none
    | some (_, v', r) =>
      let reports := if useBest then Node.chooseAll dist (romReports r) else romReports r
      some (surfaces reports, { v' with roms := computeAllContacts false v'.roms })

/-- oriented-path-optimizer.cc:238–242 and random-shortcut-dynamic.cc:250–254: the beginning of `steer` -/
def steerContacts (collides : O × O → Bool) (boundsOk : Bool) (v : Validator N O R) :
    Option (AMap N (O × O) × Validator N O R) :=
  match validateDefault collides boundsOk { v with roms := computeAllContacts true v.roms } with
  | none => none
  | some (_, v', r) => some (surfaces (romReports r), { v' with roms := computeAllContacts false v'.roms })

/-- what can happen to the validator of a problem: a validation at a configuration with a filter, the contacts of a node of
the planner, those of an optimiser, `computeAllContacts` by the user [rbprm-validation.cc:143-259, dynamic-planner.cc:436-478] -/
inductive Call (N O : Type _) where
  | validate (collides : O × O → Bool) (boundsOk : Bool) (filter : List N)
  | node (draw : N → ℕ → ℕ) (collides : O × O → Bool) (boundsOk : Bool) (dist : N → O × O → Option ℝ)
  | steer (collides : O × O → Bool) (boundsOk : Bool)
  | allContacts (b : Bool)

/-- the validator after a call [rbprm-validation.cc:143-259, dynamic-planner.cc:436-478] -/
noncomputable def Call.run (v : Validator N O R) : Call N O → Option (Validator N O R)
  | .validate collides boundsOk filter => (Validation.validate collides boundsOk v filter).map fun x => x.2.1
  | .node draw collides boundsOk dist => (computeGIWC draw collides boundsOk dist true v).map Prod.snd
  | .steer collides boundsOk => (steerContacts collides boundsOk v).map Prod.snd
  | .allContacts b => some { v with roms := computeAllContacts b v.roms }

end contacts
end Setup
end Rbprm
