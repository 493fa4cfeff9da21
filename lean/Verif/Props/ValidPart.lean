import Verif.Model.ValidPart
import Verif.Props.Paths
import Mathlib.Tactic.NormNum
set_option linter.unusedSectionVars false
/-!
# Property C183: the valid part that the validation of time constraint paths gives

The planners extend their trees by the valid part, from the end of the path that is in the tree: its start, or its end if the path is validated backwards.
-/
namespace Rbprm
namespace Paths
variable {K R Rep : Type _} [Field K] [LinearOrder K] [IsStrictOrderedRing K] (interp : R → R → K → R)

/-- what a planner expects of a validation: an accepted path is the valid part; the valid part of a rejected path is a part of it, extracted, and has its start, or its end if it was validated backwards -/
def Contract (p : TPath R K) (reverse : Bool) (v : Verdict R K Rep) : Prop :=
  (v.valid = true → v.part = .ok p) ∧
  (v.valid = false → if reverse then ∃ a, 0 ≤ a ∧ a ≤ p.len ∧ v.part = p.extract interp a p.len else ∃ b, 0 ≤ b ∧ b ≤ p.len ∧ v.part = p.extract interp 0 b)

/-- **C183 (forward)** (partial: not backwards).  The validation of time constraint paths satisfies the contract if the discretised validation does. -/
theorem C183_forward_partial (dist : Conf R K → Conf R K → K) (discretized : TPath R K → Bool → Verdict R K Rep) (p : TPath R K) (hl : 0 ≤ p.len) (hd : Contract interp p false (discretized p false)) :
    Contract interp p false (validatePart interp dist discretized p false) := by
  have key : Contract interp p false (⟨false, p.extract interp 0 0, none⟩ : Verdict R K Rep) :=
    ⟨fun h => (by cases h), fun _ => by simpa using ⟨0, le_refl _, hl, rfl⟩⟩
  unfold validatePart
  split_ifs
  · exact key
  · exact key
  · exact hd

/-- **C183 (answer)**.  The answer is the one of C60, whichever way the path is validated. -/
theorem C183_answer (dist : Conf R K → Conf R K → K) (discretized : TPath R K → Bool → Verdict R K Rep) (p : TPath R K) (reverse : Bool) :
    (validatePart interp dist discretized p reverse).valid = validate dist (discretized p reverse).valid ⟨p.init, p.fin, p.len, fun t => (p.eval interp t).1⟩ := by
  unfold validatePart validate
  dsimp only
  split_ifs <;> rfl

/-- **C183 (backwards)** (partial: paths that the additional tests do not reject).  An accepted path is its valid part; a path that is rejected by the discretised validation has the part this gives. -/
theorem C183_backward_partial (dist : Conf R K → Conf R K → K) (discretized : TPath R K → Bool → Verdict R K Rep) (p : TPath R K) (reverse : Bool)
    (hd : Contract interp p reverse (discretized p reverse)) (h : validate dist true ⟨p.init, p.fin, p.len, fun t => (p.eval interp t).1⟩ = true) :
    Contract interp p reverse (validatePart interp dist discretized p reverse) := by
  unfold validate at h
  dsimp only at h
  unfold validatePart
  split_ifs at h ⊢
  exact hd

/-- **C183 (rejected)**.  The part of a path that the additional tests reject is the start alone, a path of length 0, without report; the extraction throws if the start does not satisfy the constraints, and gives a path without extra degree of freedom (not a
number) if the rejected path has length 0. -/
theorem C183_rejected (dist : Conf R K → Conf R K → K) (discretized : TPath R K → Bool → Verdict R K Rep) (p : TPath R K) (reverse : Bool)
    (h : validate dist true ⟨p.init, p.fin, p.len, fun t => (p.eval interp t).1⟩ = false) :
    (validatePart interp dist discretized p reverse).valid = false ∧ (validatePart interp dist discretized p reverse).report = none ∧
    ∀ q, (validatePart interp dist discretized p reverse).part = .ok q → p.len ≠ 0 ∧ q.len = 0 ∧ q.init = q.fin ∧ q.init.dof = p.init.dof ∧ q.init.rest = (p.eval interp 0).1.rest := by
  have hp : validatePart interp dist discretized p reverse = ⟨false, p.extract interp 0 0, none⟩ := by
    unfold validate at h
    dsimp only at h
    unfold validatePart
    split_ifs at h ⊢
    · rfl
    · rfl
  rw [hp]
  refine ⟨rfl, rfl, fun q hq => ?_⟩
  obtain ⟨hl, rfl⟩ := extract_ok interp hq
  refine ⟨hl, by simp, rfl, ?_, rfl⟩
  simp [extraDof]

/-- **C183 is violated** backwards, for each path whose extra degree of freedom decreases: the valid part, if there is one, is at the start of the path, not at its end. -/
theorem C183_violated (dist : Conf R K → Conf R K → K) (discretized : TPath R K → Bool → Verdict R K Rep) (p : TPath R K) (q : TPath R K) (h : p.init.dof > p.fin.dof)
    (hq : (validatePart interp dist discretized p true).part = .ok q) : ¬ Contract interp p true (validatePart interp dist discretized p true) := by
  have hp : validatePart interp dist discretized p true = ⟨false, p.extract interp 0 0, none⟩ := by
    unfold validatePart
    rw [if_pos h]
  rw [hp] at hq ⊢
  rintro ⟨_, hc⟩
  have hc' := hc rfl
  simp only [if_true] at hc'
  obtain ⟨a, _, _, ha⟩ := hc'
  have hq' : p.extract interp 0 0 = .ok q := hq
  rw [hq'] at ha
  obtain ⟨hl, e1⟩ := extract_ok interp hq'
  obtain ⟨_, e2⟩ := extract_ok interp ha.symm
  have d1 : q.fin.dof = p.init.dof := by rw [e1]; simp [extraDof]
  have d2 : q.fin.dof = p.fin.dof := by
    rw [e2]
    simp only [extraDof]
    rw [div_self hl]
    ring
  rw [← d1, ← d2] at h
  exact lt_irrefl _ h

/-- a path whose extra degree of freedom decreases from 1 to 0 in 4 seconds: validated backwards from its end, its valid part is the configuration at its start -/
example (discretized : TPath ℚ ℚ → Bool → Verdict ℚ ℚ Unit) : ∃ q, (validatePart (fun a b u : ℚ => a + u * (b - a)) (fun a b => |a.rest - b.rest|) discretized ⟨⟨0, 1⟩, ⟨8, 0⟩, 4, none⟩ true).part = .ok q ∧
    q.fin = ⟨0, 1⟩ := by
  refine ⟨⟨⟨0, 1⟩, ⟨0, 1⟩, 0, none⟩, ?_, rfl⟩
  simp [validatePart, TPath.extract, TPath.eval, TPath.raw, extraDof, TPath.check]

end Paths
end Rbprm
