import Verif.Model.Factories
import Verif.Props.Heuristic
import Verif.Props.FullBody
import Verif.Props.Analysis
import Mathlib.Tactic.SplitIfs
set_option linter.unusedSectionVars false
/-!
# The names of the built-in evaluation functions (C143), and the "jointlimits" heuristic (C111)
-/
namespace Rbprm
namespace Factory
open Heur Analysis

/-! ### C143 -/

theorem find?_insertAll {F : Type _} (l : List (String × F)) (m : AMap String F) (name : String) :
    (insertAll m l).find? name = (m.find? name).or (AMap.find? l name) := by
  induction l generalizing m with
  | nil => simp [insertAll]
  | cons e l ih =>
    obtain ⟨n, f⟩ := e
    rw [insertAll, ih, AMap.find?_insertNew, AMap.find?_cons]
    by_cases h : name = n
    · subst h
      rw [if_pos rfl, if_pos rfl]
      cases m.find? name <;> rfl
    · rw [if_neg h, if_neg (fun e => h e.symm)]

/-- C143: the names of the heuristics.  The ones that are documented denote the heuristic with that name; "fixedStep1", "fixedStep08", "fixedStep06" and "fixedStep04" look 1, 0.8, 0.6 and 0.4 ahead of the
current position on the path; there is no other name. -/
theorem C143_heuristics (eps big : ℝ) (fuel : ℕ) (r : ℝ) (s : Sample) (d n : Vec3 ℝ) (p : Params String) :
    let value := fun name => ((heuristics eps big fuel).find? name).bind fun f => f r s d n p
    value "static" = some s.staticValue ∧ value "random" = some r ∧
    value "EFORT" = some (efort s d n) ∧ value "EFORT_Normal" = some (efortNormal s d n) ∧
    value "manipulability" = some (manipulabilityHeuristic r s n) ∧
    value "forward" = some (forwardHeuristic r s d n) ∧ value "backward" = some (backwardHeuristic r s d n) ∧
    value "dynamicWalk" = some (dynamicWalk r s (some d) n p) ∧ value "dynamic" = dynamicHeuristic eps big fuel s p ∧
    value "jointlimits" = some (distanceToLimitHeuristic s) ∧
    value "fixedStep1" = some (fixedStep 1 s p) ∧ value "fixedStep08" = some (fixedStep 0.8 s p) ∧
    value "fixedStep06" = some (fixedStep 0.6 s p) ∧ value "fixedStep04" = some (fixedStep 0.4 s p) ∧
    ∀ name, (heuristics eps big fuel).find? name ≠ none → name ∈ ["static", "random", "EFORT", "EFORT_Normal", "manipulability", "forward", "backward", "dynamicWalk", "dynamic", "jointlimits",
      "fixedStep1", "fixedStep08", "fixedStep06", "fixedStep04"] := by
  have e : ∀ name, (heuristics eps big fuel).find? name = AMap.find? (heuristicTable eps big fuel) name := fun name => by
    rw [heuristics, find?_insertAll, AMap.find?_nil, Option.none_or]
  simp only [e]
  refine ⟨?_, ?_, ?_, ?_, ?_, ?_, ?_, ?_, ?_, ?_, ?_, ?_, ?_, ?_, ?_⟩
  iterate 11 (simp [heuristicTable, AMap.find?_cons, staticHeuristic, randomHeuristic, fixedStepFn])
  iterate 3 (· simp [heuristicTable, AMap.find?_cons, fixedStepFn]; norm_num)
  · intro name h
    have : name ∈ (heuristicTable eps big fuel).map Prod.fst := by
      have := AMap.find?_isSome.1 (Option.ne_none_iff_isSome.1 h)
      exact this
    simp only [heuristicTable, List.map_cons, List.map_nil] at this
    simp only [List.mem_cons, List.not_mem_nil, or_false] at this ⊢
    tauto

/-- C143: the names of the analyses.  The suffix "Rot" is for the rows 3 to 5 of the jacobian (rotation), "Tr" for the rows 0 to 2 (translation), none for all rows; the value is that of the manipulability, of the
isotropy, of the least or of the largest singular value. -/
theorem C143_analyses (big : ℝ) (sv : {r n : ℕ} → Matrix (Fin r) (Fin n) ℝ → List ℝ) {n : ℕ} (J : Jac n) :
    let value := fun name => (analyses.find? name).bind (Eval.value big sv J (J * J.transpose))
    let Rot : Matrix (Fin 3) (Fin n) ℝ := fun i j => J ⟨3 + i.val, by omega⟩ j
    let Tr : Matrix (Fin 3) (Fin n) ℝ := fun i j => J ⟨i.val, by omega⟩ j
    (value "manipulability" = some (if 0 < (J * J.transpose).det then Real.sqrt (J * J.transpose).det else 0) ∧
     value "manipulabilityRot" = some (if 0 < (Rot * Rot.transpose).det then Real.sqrt (Rot * Rot.transpose).det else 0) ∧
     value "manipulabilityTr" = some (if 0 < (Tr * Tr.transpose).det then Real.sqrt (Tr * Tr.transpose).det else 0)) ∧
    (value "isotropy" = isotropy big (sv J) ∧ value "isotropyRot" = isotropy big (sv Rot) ∧ value "isotropyTr" = isotropy big (sv Tr)) ∧
    (value "minimumSingularValue" = some (minSing big (sv J)) ∧ value "minimumSingularValueRot" = some (minSing big (sv Rot)) ∧ value "minimumSingularValueTr" = some (minSing big (sv Tr))) ∧
    (value "maximumSingularValue" = some (maxSing big (sv J)) ∧ value "maximumSingularValueRot" = some (maxSing big (sv Rot)) ∧ value "maximumSingularValueTr" = some (maxSing big (sv Tr))) ∧
    analyses.find? "selfCollisionProbability" = some .selfCollisionProbability ∧ analyses.find? "jointLimitsDistance" = some .distanceToLimits ∧
    analyses.find? "ReferenceConfiguration" = some .referenceConfiguration := by
  have e : ∀ name, analyses.find? name = AMap.find? analysisTable name := fun name => by
    rw [analyses, find?_insertAll, AMap.find?_nil, Option.none_or]
  simp only [e]
  refine ⟨⟨?_, ?_, ?_⟩, ⟨?_, ?_, ?_⟩, ⟨?_, ?_, ?_⟩, ⟨?_, ?_, ?_⟩, ?_, ?_, ?_⟩
  all_goals (simp [analysisTable, AMap.find?_cons, Eval.value, mode, manipulability, singularValues, subJacobian, topRows, bottomRows]; try rfl)

/-- C143: whatever a user registers, and in whatever order, the names of the built-in heuristics go on denoting the built-in ones; registering under such a name fails. -/
theorem C143_kept {L C T : Type _} (eps big : ℝ) (fuel : ℕ) (static : String) (ops : List (Registry.Op String L C HeuristicFn T)) (name : String) (f : HeuristicFn)
    (h : (heuristics eps big fuel).find? name = some f) (g : HeuristicFn) :
    AMap.find? (Registry.run static (Registry.FullBody.create (heuristics eps big fuel)) ops).2.heuristics name = some f ∧
    (Registry.addHeuristic (Registry.run static (Registry.FullBody.create (L := L) (C := C) (T := T) (heuristics eps big fuel)) ops).2 name g).1 = false := by
  have h1 := (Registry.C77_factory static ops (Registry.FullBody.create (heuristics eps big fuel)) name).1
  have h2 : AMap.find? (Registry.FullBody.create (N := String) (L := L) (C := C) (T := T) (heuristics eps big fuel)).heuristics name = some f := h
  rw [h2] at h1
  refine ⟨h1, ?_⟩
  rw [(Registry.C77_factory static [] _ name).2 g, h1]
  rfl

/-! ### the heuristic "jointlimits" -/

/-- C111: the heuristic "jointlimits" is the Euclidean norm of the configuration of the sample. -/
theorem C111_jointlimits (s : Sample) : 0 ≤ distanceToLimitHeuristic s ∧ distanceToLimitHeuristic s ^ 2 = (s.configuration.map (· ^ 2)).sum := by
  have e : (s.configuration.map fun x => x * x) = s.configuration.map (· ^ 2) := List.map_congr_left fun x _ => by ring
  refine ⟨Real.sqrt_nonneg _, ?_⟩
  unfold distanceToLimitHeuristic
  rw [Real.sq_sqrt, e]
  refine List.sum_nonneg fun x hx => ?_
  obtain ⟨y, -, rfl⟩ := List.mem_map.1 hx
  exact mul_self_nonneg y

/-- **C111 is violated** for "jointlimits": if the range of each joint is centred at 0, the sample in which all joints are at their limit gets a larger value than any sample in the ranges that is not at a limit with some joint,
so that samples near the limits are preferred. -/
theorem C111_jointlimits_violated (s s' : Sample) (hr : List.Forall₂ (fun x limit => |x| ≤ limit) s.configuration s'.configuration)
    (hs : ∃ e ∈ s.configuration.zip s'.configuration, |e.1| < e.2) : distanceToLimitHeuristic s < distanceToLimitHeuristic s' := by
  have le2 : ∀ x y : ℝ, |x| ≤ y → x * x ≤ y * y := fun x y h => by
    rw [← abs_mul_abs_self x]; exact mul_self_le_mul_self (abs_nonneg x) h
  have lt2 : ∀ x y : ℝ, |x| < y → x * x < y * y := fun x y h => by
    rw [← abs_mul_abs_self x]; exact mul_self_lt_mul_self (abs_nonneg x) h
  have key : ∀ (l l' : List ℝ), List.Forall₂ (fun x y => |x| ≤ y) l l' → (l.map fun x => x * x).sum ≤ (l'.map fun x => x * x).sum ∧
      ((∃ e ∈ l.zip l', |e.1| < e.2) → (l.map fun x => x * x).sum < (l'.map fun x => x * x).sum) := by
    intro l l' h
    induction h with
    | nil => simp
    | cons h _ ih =>
      simp only [List.map_cons, List.sum_cons, List.zip_cons_cons, List.mem_cons]
      have h1 := le2 _ _ h
      refine ⟨by linarith [ih.1], ?_⟩
      rintro ⟨e, rfl | he, hlt⟩
      · have := lt2 _ _ hlt
        linarith [ih.1]
      · have := ih.2 ⟨e, he, hlt⟩
        linarith
  unfold distanceToLimitHeuristic
  refine Real.sqrt_lt_sqrt ?_ ((key _ _ hr).2 hs)
  refine List.sum_nonneg fun x hx => ?_
  obtain ⟨y, -, rfl⟩ := List.mem_map.1 hx
  exact mul_self_nonneg y

/-- C111_jointlimits_violated applies: the centre of two ranges `[-1, 1]` and `[-2, 2]`, and their upper ends -/
example : List.Forall₂ (fun x limit : ℝ => |x| ≤ limit) [0, 0] [1, 2] ∧ ∃ e ∈ ([0, 0] : List ℝ).zip [1, 2], |e.1| < e.2 := by
  refine ⟨by simp, (0, 1), by simp, by simp⟩

/-- C143_kept applies: "static" is built in -/
example : (heuristics 0 0 0).find? "static" = some fun _ s _ _ _ => some (staticHeuristic s) := by
  rw [heuristics, find?_insertAll, AMap.find?_nil, Option.none_or]
  simp [heuristicTable, AMap.find?_cons]

end Factory
end Rbprm
