import Verif.Model.Effector
import Verif.Model.RRT
set_option linter.unusedSectionVars false
/-!
# Model of `effectorRRT` as a whole (`effector-rrt.cc`): the references of `Model/Effector` are followed by the planner of `Model/RRT`
-/
namespace Rbprm
namespace Effector
open Interp Sampling RRT Registry
variable {N K L C F : Type _} [LinearOrder N] [Field K] [LinearOrder K]

/-- what the caller of effectorRRT gives for the whole body: reference of the centre of mass, whole-body reference, joints to constrain [effector-rrt.cc:788-797] -/
structure Wanted (N K : Type _) where
  comPath : RefPath (Vec3 K) K
  refFull : Option (RefPath (List K) K)
  joints : List N
  locked : List N
  keepExtraDof : Bool

/-- the path that the constraint of the effector reads its positions from: the three curves, one after the other; if the solver failed, the whole-body path, of which the first three coordinates are read
(`wholeRef`) [effector-rrt.cc:409-418, 848-850; interpolation-constraints.hh:97-112] -/
noncomputable def Reference.path (wholeRef : RefPath (Vec3 K) K) : Reference K → RefPath (Vec3 K) K
  | .bezier p => ⟨0, p.tTakeoff + p.tMid + p.tLanding, p.eval⟩
  | .wholeBody => wholeRef

/-- effector-rrt.cc:848-872, with time-constraint-helper.inl:133-167: what the planner of a reference is given; threshold 0.001, 500 iterations; `none`: `at` throws -/
noncomputable def effectorTask (robot : Robot N K) (extra : K) (garbage : Vec3 K) (want : Wanted N K) (wholeRef : RefPath (Vec3 K) K) (shooter : RefPath (List K) K) (eff : N) (s0 s1 : State N K) (r : Reference K) :
    Option (Task N K) :=
  match effectorRRTConstraints robot.climbs garbage want.comPath (r.path wholeRef) want.refFull eff want.joints want.locked s0 s1, timeConfig (robot.current ++ [extra]) s0 0,
      timeConfig (robot.current ++ [extra]) s1 1 with
  | some cs, some start, some goal => some ⟨start, goal, cs, 1 / 1000, 500, shooter, freeLimbs robot.samples s0 s1⟩
  | _, _, _ => none

/-- effector-rrt.cc:829-881: the whole-body motion along reference `r`, the attempt of number `i`; one optimisation.  The first case cannot occur after comRRT has returned (`effectorTask_some`): it has created the same contact constraints. -/
noncomputable def followMotion (robot : Robot N K) (extra : K) (garbage : Vec3 K) (sv : ℕ → Solver N K) (mc : ℕ → Machine K) (want : Wanted N K) (wholeRef : RefPath (Vec3 K) K) (shooter : RefPath (List K) K)
    (eff : N) (s0 s1 : State N K) (i : ℕ) (r : Reference K) : Follow (List (Elem K)) :=
  match effectorTask robot extra garbage want wholeRef shooter eff s0 s1 r with
  | none => .throws
  | some t =>
    match interpolateTasks (sv i) (mc i) 1 want.keepExtraDof [t] with
    | .path l => .path l
    | .running => .hangs
    | .fails => .throws

/-- the oracles of a call: planners and memory of comRRT (two loops) and of the attempts, steering method and planner without constraints, library of curves, reading of paths [effector-rrt.cc:788-952] -/
structure Tools (N K : Type _) [Field K] where
  lib : Lib K
  vel : K
  acc : K
  garbage : Vec3 K
  extra : K
  sv : Solver N K
  mc : Machine K
  mc' : Machine K
  svs : ℕ → Solver N K
  mcs : ℕ → Machine K
  steer : List K → List K → RefPath (List K) K
  unconstrained : List K → List K → Option (List (Elem K))
  toPath : List (Elem K) → RefPath (List K) K
  wholeRef : List (Elem K) → RefPath (Vec3 K) K

/-- effector-rrt.cc:924-952 `effectorRRTFromPath` (and `effectorRRT`, 954-976, with no whole-body reference): comRRT, always with the extra degree of freedom, then the references; the ends of the effector are its positions
in the two states (606-619) -/
noncomputable def effectorMotion (T : Tools N K) (kin : Kin N (List K) K) (robot : Robot N K) (want : Wanted N K) (comLength : K) (eff frame : N) (s0 s1 : State N K) (num : ℕ) (w : World N L C F (List (Elem K)) K) :
    Outcome (List (Elem K)) (World N L C F (List (Elem K)) K) :=
  match comRRT robot T.extra T.sv T.mc T.mc' T.steer T.unconstrained T.toPath want.comPath s0 s1 num true with
  | .fails => .throws
  | .running => .hangs
  | .path l =>
    effectorRRT T.lib comLength T.vel T.acc eff frame s0 s1 (kin.pos eff s0.configuration) (kin.pos eff s1.configuration)
      (followMotion robot T.extra T.garbage T.svs T.mcs want (T.wholeRef l) (T.toPath (l.map (reduce false))) eff s0 s1) (some l) w

end Effector
end Rbprm
