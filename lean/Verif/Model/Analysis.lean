import Verif.Base.AMap
import Mathlib.Analysis.SpecialFunctions.Pow.NNReal
import Mathlib.Analysis.SpecialFunctions.Exp
import Mathlib.LinearAlgebra.Matrix.Determinant.Basic
set_option linter.unusedSectionVars false
/-!
# The analyses of a sample (`src/sampling/analysis.cc`)

`double` is `ℝ` (no rounding, no overflow; a result that is not a number is `none`).  The singular values of a matrix are an oracle (`Eigen::JacobiSVD`).  A jacobian is a matrix with 6 rows; its number of columns is a parameter.
-/
namespace Rbprm
namespace Analysis

/-- analysis.cc:33–37 `JacobianMode` -/
inductive JMode | all | rotation | translation
deriving DecidableEq, Repr

/-- a jacobian with its 6 rows (sample.hh:85) -/
abbrev Jac (n : ℕ) := Matrix (Fin 6) (Fin n) ℝ

/-- analysis.cc:45–46, 66: `block(0, 0, 3, cols)` -/
def topRows {n : ℕ} (J : Jac n) : Matrix (Fin 3) (Fin n) ℝ := fun i j => J ⟨i.val, by omega⟩ j
/-- analysis.cc:48–49, 70: `block(3, 0, 3, cols)` -/
def bottomRows {n : ℕ} (J : Jac n) : Matrix (Fin 3) (Fin n) ℝ := fun i j => J ⟨3 + i.val, by omega⟩ j

/-- the sub-matrix of a mode: a number of rows and a matrix (analysis.cc:40–55) -/
def subJacobian {n : ℕ} (J : Jac n) : JMode → Σ r : ℕ, Matrix (Fin r) (Fin n) ℝ
  | .all => ⟨6, J⟩
  | .translation => ⟨3, topRows J⟩
  | .rotation => ⟨3, bottomRows J⟩

/-- analysis.cc:40–55 `svd` followed by `singularValues()`: `sv` is the oracle -/
def singularValues (sv : {r n : ℕ} → Matrix (Fin r) (Fin n) ℝ → List ℝ) {n : ℕ} (J : Jac n) (m : JMode) : List ℝ := sv (subJacobian J m).2

/-- analysis.cc:57–79 `manipulability`, sample.cc:92–95 `Manipulability`; `prod` is the stored `jacobianProduct_` -/
noncomputable def manipulability {n : ℕ} (J : Jac n) (prod : Matrix (Fin 6) (Fin 6) ℝ) (m : JMode) : ℝ :=
  let det : ℝ := match m with
    | .all => prod.det
    | .translation => (topRows J * (topRows J).transpose).det
    | .rotation => (bottomRows J * (bottomRows J).transpose).det
  if det > 0 then Real.sqrt det else 0

/-- analysis.cc:85–91: the loop over the singular values; `big` is `numeric_limits<double>::max()` -/
noncomputable def extremes (big : ℝ) (S : List ℝ) : ℝ × ℝ :=
  S.foldl (fun mm v => (if v < mm.1 then v else mm.1, if v > mm.2 then v else mm.2)) (big, 0)

/-- analysis.cc:81–93 `isotropy`; `none` is the square root of a negative number (NaN) -/
noncomputable def isotropy (big : ℝ) (S : List ℝ) : Option ℝ :=
  let mm := extremes big S
  if mm.2 > 0 then
    let r := 1 - mm.1 * mm.1 / mm.2 * mm.2
    if r < 0 then none else some (1 - Real.sqrt r)
  else some 0

/-- analysis.cc:95–105 `minSing` -/
noncomputable def minSing (big : ℝ) (S : List ℝ) : ℝ := S.foldl (fun m v => if v < m then v else m) big
/-- analysis.cc:107–117 `maxSing` -/
noncomputable def maxSing (big : ℝ) (S : List ℝ) : ℝ := S.foldl (fun m v => if v > m then v else m) (-big)

/-! ### the data base of full body configurations -/

/-- analysis.cc:119–154 `FullBodyDB`: the static instance holds a list of configurations.  `shots` are the configurations drawn by the shooter, `valid` the collision validation of the device; the loop (analysis.cc:138–150) adds the valid ones until there are `nb`; `none`: the finite list of shots is exhausted -/
def generateDB {C : Type _} (valid : C → Bool) : List C → List C → ℕ → Option (List C)
  | _, db, 0 => some db
  | [], _, _ + 1 => none
  | c :: shots, db, i + 1 => if valid c then generateDB valid shots (db ++ [c]) i else generateDB valid shots db (i + 1)

/-- analysis.cc:123–129 `Instance` -/
def instanceDB {C : Type _} (valid : C → Bool) (shots db : List C) (nb : ℕ) : Option (List C) :=
  if db.length < nb then generateDB valid shots db (nb - db.length) else some db

/-- analysis.cc:160–184 `selfCollisionProbability`: `load` overwrites the limb's part of a configuration, `db` are the configurations of the instance, `current` is the configuration of the device; the result is the ratio (`none`: 0/0) and the configuration of the device afterwards -/
def selfCollisionProbability {C : Type _} (valid : C → Bool) (load : C → C) (db : List C) (current : C) : Option ℚ × C :=
  let save := current
  let r := db.foldl (fun (st : ℕ × C) c => let conf := load c; (if valid conf then st.1 + 1 else st.1, conf)) (0, current)
  (if db.length = 0 then none else some ((r.1 : ℚ) / (db.length : ℚ)), save)

/-! ### joint limits -/

/-- what `distanceRec` reads in a joint [analysis.cc:186-203] -/
structure Joint where
  name : String
  rank : ℕ
  configSize : ℕ
  bounded : Bool
  lb : ℝ
  ub : ℝ

/-- analysis.cc:190–196: the term of one joint; `conf` is the configuration.  A degenerate interval is the caller's hypothesis. -/
noncomputable def jointTerm (conf : ℕ → ℝ) (j : Joint) (current : ℝ) : ℝ :=
  if j.configSize > 0 ∧ j.bounded = true then min current ((conf j.rank - j.lb) * (j.ub - conf j.rank) / ((j.ub - j.lb) * (j.ub - j.lb))) else current

/-- analysis.cc:186–203 `distanceRec`: the list is the chain of first children that starts with the current joint -/
noncomputable def distanceRec (conf : ℕ → ℝ) (last : String) : List Joint → ℝ → ℝ
  | [], d => d
  | j :: rest, d =>
    let d := jointTerm conf j d
    if last = j.name ∨ rest = [] then d else distanceRec conf last rest d

/-- analysis.cc:223–236 `distanceToLimits` for a limb whose first joint starts `chain` and whose effector frame is called `effector` -/
noncomputable def distanceToLimits (conf : ℕ → ℝ) (effector : String) (chain : List Joint) : ℝ :=
  1 - Real.exp (-5 * distanceRec conf effector chain 1)

/-! ### limbs of a sample -/

/-- analysis.cc:205–221 `getLimbFromStartRank`: limbs are given with the rank of their first joint; `none`: exception -/
def limbOfRank {N L : Type _} (limbs nonContacting : List (N × ℕ × L)) (rank : ℕ) : Option L :=
  match List.find? (fun e => e.2.1 == rank) limbs with
  | some e => some e.2.2
  | none =>
    match List.find? (fun e => e.2.1 == rank) nonContacting with
    | some e => some e.2.2
    | none => none

/-! ### distance to the reference configuration -/

/-- analysis.cc:270–276: the weight of one degree of freedom, from the column of its joint's jacobian -/
noncomputable def axisWeight (col : Fin 6 → ℝ) : ℝ :=
  if |col 4| > 1/2 then 1 else if |col 5| > 1/2 then 10 else 100

/-- analysis.cc:254–279 `computeWeightsFromAxis`; `lo` and `hi` are the velocity ranks of the first and the last joint -/
noncomputable def weightsFromAxis (col : ℕ → Fin 6 → ℝ) (lo hi : ℕ) : List ℝ := (List.range' lo (hi + 1 - lo)).map fun i => axisWeight (col i)

/-- analysis.cc:303–315: the posture weights of the full body if there is one per degree of freedom -/
noncomputable def weightsOf (posture : List ℝ) (numberDof : ℕ) (col : ℕ → Fin 6 → ℝ) (lo hi : ℕ) : List ℝ :=
  if posture.length = numberDof then (posture.drop lo).take (hi - lo + 1) else weightsFromAxis col lo hi

/-- analysis.cc:326–330: the weighted sum; the weights are read from index 0, the differences from index `lo` -/
def weightedSum (diff weights : ℕ → ℝ) (lo hi : ℕ) : ℝ := ((List.range' lo (hi + 1 - lo)).map fun i => diff i * diff i * weights (i - lo)).sum

/-- analysis.cc:288–339 `referenceConfiguration`: `diff` is the difference between the sample and the reference -/
noncomputable def referenceConfiguration (diff weights : ℕ → ℝ) (lo hi : ℕ) : ℝ := 100 - Real.sqrt (weightedSum diff weights lo hi)

end Analysis
end Rbprm
