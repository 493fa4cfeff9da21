import Verif.Model.HeuristicTools
import Mathlib.Analysis.SpecialFunctions.Complex.Arg
set_option linter.unusedSectionVars false
/-!
# The heuristics (`src/sampling/heuristic.cc`)

`double` is `ℝ`.  A random number is the quotient `r` of `rand()` and `RAND_MAX`, given as an argument.  A transform is a rotation matrix and a translation; a path is the transform of the root along the path (the first seven entries of its configurations, with a unit quaternion).
-/
namespace Rbprm
namespace Heur

/-- a transform `fcl::Transform3f` [fcl, used in heuristic-tools.hh:13-49] -/
structure Tf where
  rot : Mat3 ℝ
  trans : Vec3 ℝ

/-- the action of a transform on a point: the translation of `tf * point` (heuristic.cc:256–257, 263–264) -/
def Tf.apply (t : Tf) (p : Vec3 ℝ) : Vec3 ℝ := t.rot.mulVec p + t.trans

/-- the members of a sample that the heuristics read (sample.hh:68–95); `jacobianProduct` is the upper left block of the product -/
structure Sample where
  staticValue : ℝ
  effectorPosition : Vec3 ℝ
  effectorPositionInLimbFrame : Vec3 ℝ
  jacobianProduct : Mat3 ℝ
  configuration : List ℝ

variable {N : Type _} [LinearOrder N]

/-- the parameters of the heuristics [heuristic-tools.hh:13-49] -/
abbrev Params (N : Type _) := HeuristicParam N Tf (ℝ → Tf)

/-- heuristic.cc:50–53 (and 56–59): the loop that enlarges the weight of the speed; `none`: not within `fuel` rounds -/
noncomputable def growLoop (speed bound : ℝ) : ℕ → ℝ → Option ℝ
  | 0, _ => none
  | fuel + 1, w => if |w * speed| ≤ bound then growLoop speed bound fuel (w * (3 / 2)) else some w

/-- heuristic.cc:43–60: the weights `w1x`, `w1y` and `w2` -/
noncomputable def weights (fuel : ℕ) (params : Params N) : Option (ℝ × ℝ × ℝ) :=
  let g : ℝ := -(980665 / 100000)
  let w2 := params.comPosition.z / g
  let w1 := -100 * w2
  let wx := if params.comSpeed.x ≠ 0 ∧ w2 * params.comAcceleration.x ≠ 0 then growLoop params.comSpeed.x |w2 * params.comAcceleration.x| fuel w1 else some w1
  let wy := if params.comSpeed.y ≠ 0 ∧ w2 * params.comAcceleration.x ≠ 0 then growLoop params.comSpeed.y |w2 * params.comAcceleration.y| fuel w1 else some w1
  match wx, wy with
  | some wx, some wy => some (wx, wy, w2)
  | _, _ => none

/-- heuristic.cc:62–67: the point of interest -/
def interest (params : Params N) (w : ℝ × ℝ × ℝ) : V2 :=
  (params.comPosition.x + w.1 * params.comSpeed.x + w.2.2 * params.comAcceleration.x,
   params.comPosition.y + w.2.1 * params.comSpeed.y + w.2.2 * params.comAcceleration.y)

/-- heuristic.cc:36–41: the contacts with the one of the sample; `insert` keeps an existing entry -/
def contactsWith (sample : Sample) (params : Params N) : AMap N (Vec3 ℝ) :=
  params.contactPositions.insertNew params.sampleLimbName (transform sample.effectorPosition params.tfWorldRoot.trans params.tfWorldRoot.rot)

/-- heuristic.cc:31–83 `dynamicHeuristic`; `big` is the value that replaces the distance when the centroid throws, `none`: a loop does not end within `fuel` rounds, or the end of an empty map is read -/
noncomputable def dynamicHeuristic (eps big : ℝ) (fuel : ℕ) (sample : Sample) (params : Params N) : Option ℝ :=
  match removeNonGround (contactsWith sample params) (1 / 4) with
  | none => none
  | some contacts =>
    match weights fuel params with
    | none => none
    | some w =>
      match weightedCentroid fuel (convexHull2 eps (supportPolygon contacts)) with
      | none => some (-big)
      | some none => none
      | some (some c) => some (-(dist2 (interest params w) c))

/-- heuristic.cc:89–91 (and 98–100): `-dᵀ P (-d)` -/
def effort (sample : Sample) (direction : Vec3 ℝ) : ℝ := Vec3.dot (-direction) (sample.jacobianProduct.mulVec (-direction))

/-- heuristic.cc:85–92 `EFORTHeuristic` -/
def efort (sample : Sample) (direction normal : Vec3 ℝ) : ℝ := effort sample direction * normal.z
/-- heuristic.cc:94–101 `EFORTNormalHeuristic` -/
def efortNormal (sample : Sample) (direction normal : Vec3 ℝ) : ℝ := effort sample direction * Vec3.dot direction normal
/-- heuristic.cc:103–111 `ManipulabilityHeuristic` -/
noncomputable def manipulabilityHeuristic (r : ℝ) (sample : Sample) (normal : Vec3 ℝ) : ℝ :=
  if normal.z < 7 / 10 then -1 else sample.staticValue * 10000 * normal.z * 100000 + r
/-- heuristic.cc:113–118 `RandomHeuristic` -/
def randomHeuristic (r : ℝ) : ℝ := r
/-- heuristic.cc:120–133 `ForwardHeuristic` -/
def forwardHeuristic (r : ℝ) (sample : Sample) (direction normal : Vec3 ℝ) : ℝ :=
  sample.staticValue * 1000 * normal.z +
    100 * Vec3.dot sample.effectorPositionInLimbFrame ⟨direction.x, direction.y, sample.effectorPositionInLimbFrame.z⟩ + r
/-- heuristic.cc:299–307 `BackwardHeuristic` -/
def backwardHeuristic (r : ℝ) (sample : Sample) (direction normal : Vec3 ℝ) : ℝ :=
  sample.staticValue * 10000 * normal.z - 100 * Vec3.dot sample.effectorPosition direction + r
/-- heuristic.cc:210–224 `StaticHeuristic` -/
def staticHeuristic (sample : Sample) : ℝ := sample.staticValue
/-- heuristic.cc:309–314 `DistanceToLimitHeuristic` -/
noncomputable def distanceToLimitHeuristic (sample : Sample) : ℝ := Real.sqrt (sample.configuration.map fun x => x * x).sum

/-- `normalize` of Eigen: a null vector is unchanged [Eigen, called in heuristic.cc:31-305] -/
noncomputable def normalize (v : Vec3 ℝ) : Vec3 ℝ := if v.normSq > 0 then Vec3.smul (1 / Real.sqrt v.normSq) v else v

/-- heuristic.cc:166–187: the direction and its weight, from the horizontal unit vector `dir`, the position `pos` and the unit normal `n`; `left`: the limb is on the left of the root.  `atan2 y x` is the argument of `x + i y`. -/
noncomputable def sideWeight (left : Prop) [Decidable left] (dir pos n : Vec3 ℝ) : ℝ × Vec3 ℝ :=
  let angle := Complex.arg ⟨Vec3.dot dir pos, Vec3.dot (Vec3.cross dir pos) n⟩
  if left then (if angle < 0 then (100 / 10, -dir) else (100, dir))
  else (if angle > 0 then (100 / 10, -dir) else (100, dir))

/-- heuristic.cc:135–208 `DynamicWalkHeuristic`; a direction that is not a number is `none` -/
noncomputable def dynamicWalk (r : ℝ) (sample : Sample) (direction : Option (Vec3 ℝ)) (normal : Vec3 ℝ) (params : Params N) : ℝ :=
  let n := normalize normal
  let value (weightStatic weightDir : ℝ) (pos dir : Vec3 ℝ) : ℝ :=
    weightStatic * sample.staticValue + weightDir * Vec3.dot pos dir +
      1 * Vec3.dot pos ⟨params.comAcceleration.x, params.comAcceleration.y, dir.z⟩ + r
  match direction with
  | none => value 100 0 sample.effectorPositionInLimbFrame ⟨0, 0, 1⟩
  | some d =>
    if Real.sqrt d.normSq = 0 then value 100 0 sample.effectorPositionInLimbFrame ⟨0, 0, 1⟩
    else
      let dir := normalize ⟨d.x, d.y, 0⟩
      let p := params.tfWorldRoot.rot.mulVec sample.effectorPositionInLimbFrame
      let pos : Vec3 ℝ := ⟨p.x, p.y, 0⟩
      let limbRoot := sample.effectorPosition - sample.effectorPositionInLimbFrame
      let wd := sideWeight (limbRoot.y > 0) dir pos n
      value (100 * normal.z) wd.1 pos wd.2

/-- heuristic.cc:226–276 `fixedStepHeuristic`; `tStep` is 1, 0.8, 0.6 or 0.4 (278–297) -/
noncomputable def fixedStep (tStep : ℝ) (sample : Sample) (params : Params N) : ℝ :=
  match params.comPath with
  | none => staticHeuristic sample
  | some path =>
    let pTarget := (path (params.currentPathId + tStep)).apply params.limbReferenceOffset
    let pSample := params.tfWorldRoot.apply sample.effectorPosition
    (1 - (pSample - pTarget).normSq) + 1 / 10 * sample.staticValue

end Heur
end Rbprm
