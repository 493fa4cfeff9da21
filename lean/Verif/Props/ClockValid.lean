import Verif.Props.Clock
import Verif.Props.ValidPart
set_option linter.unusedSectionVars false
/-!
# C199: the validation of time constraint paths keeps the planners from going back in time
-/
namespace Rbprm
namespace RRT
open Interp Paths Effector
variable {N K Rep : Type _} [LinearOrder N] [Field K] [LinearOrder K] [IsStrictOrderedRing K]

/-! ## Specification -/

/-- the paths of a planner that steers and keeps the valid part that `TimeConstraintPathValidation` gives, validated in either direction, and forward parts of what it keeps -/
inductive Validated (interp : List K → List K → K → List K) (distance dist : Conf (List K) K → Conf (List K) K → K) (discretized : TPath (List K) K → Bool → Verdict (List K) K Rep) (c : CSet (List K) K) : TPath (List K) K → Prop
  | kept {q1 q2 : Conf (List K) K} {s p : TPath (List K) K} {reverse : Bool} (h : steer distance (some c) q1 q2 = some s) (hv : (validatePart interp dist discretized s reverse).part = .ok p) :
      Validated interp distance dist discretized c p
  | part {p q : TPath (List K) K} {a b : K} (hp : Validated interp distance dist discretized c p) (hab : a ≤ b) (h : p.extract interp a b = .ok q) : Validated interp distance dist discretized c q

/-- a solution of a task made of such paths -/
def ValidatedAssembled (body : Body N K) (solve : Task N K → List (Equation (List K) K) → K → Conf (List K) K → Conf (List K) K × Bool) (interp : List K → List K → K → List K)
    (distance dist : Conf (List K) K → Conf (List K) K → K) (discretized : Task N K → TPath (List K) K → Bool → Verdict (List K) K Rep) (t : Task N K) (l : List (Elem K)) : Prop :=
  ∃ ps : List (TPath (List K) K), l = ps.map (elemOf interp) ∧ (∀ p ∈ ps, Validated interp distance dist (discretized t) (taskSet body solve t) p) ∧ Leads Elem.init Elem.fin t.start l t.goal

/-- planner and optimisers only assemble such paths -/
structure AssemblesValidated (body : Body N K) (solve : Task N K → List (Equation (List K) K) → K → Conf (List K) K → Conf (List K) K × Bool) (interp : List K → List K → K → List K)
    (distance dist : Conf (List K) K → Conf (List K) K → K) (discretized : Task N K → TPath (List K) K → Bool → Verdict (List K) K Rep) (sv : Solver N K) : Prop where
  plan : ∀ r t l, sv.plan r t = some l → ValidatedAssembled body solve interp distance dist discretized t l
  random : ∀ t l, ValidatedAssembled body solve interp distance dist discretized t l → ValidatedAssembled body solve interp distance dist discretized t (sv.random t l)
  partial' : ∀ t l, ValidatedAssembled body solve interp distance dist discretized t l → ValidatedAssembled body solve interp distance dist discretized t (sv.partial' t l)

section
variable {body : Body N K} {solve : Task N K → List (Equation (List K) K) → K → Conf (List K) K → Conf (List K) K × Bool} {interp : List K → List K → K → List K}
  {distance dist : Conf (List K) K → Conf (List K) K → K} {discretized : Task N K → TPath (List K) K → Bool → Verdict (List K) K Rep}

theorem part_time {p q : TPath (List K) K} {a b : K} (hl : 0 ≤ p.len) (ht : p.init.dof ≤ p.fin.dof) (hab : a ≤ b) (h : p.extract interp a b = .ok q) : 0 ≤ q.len ∧ q.init.dof ≤ q.fin.dof ∧ (q.len = 0 → q.init.dof = q.fin.dof) := by
  unfold TPath.extract at h
  simp only at h
  split_ifs at h with h1 h2 h3
  cases h
  refine ⟨abs_nonneg _, ?_, fun h0 => by rw [sub_eq_zero.1 (abs_eq_zero.1 h0)]⟩
  have hl : 0 < p.len := lt_of_le_of_ne hl (Ne.symm h2)
  have : a / p.len ≤ b / p.len := by gcongr
  simp only [extraDof]
  have := mul_le_mul_of_nonneg_left this (sub_nonneg.2 ht)
  linarith

theorem zero_part_time {p q : TPath (List K) K} (h : p.extract interp 0 0 = .ok q) : 0 ≤ q.len ∧ q.init.dof ≤ q.fin.dof ∧ (q.len = 0 → q.init.dof = q.fin.dof) := by
  unfold TPath.extract at h
  simp only at h
  split_ifs at h with h1 h2 h3
  cases h
  exact ⟨abs_nonneg _, le_refl _, fun _ => rfl⟩

/-- **C199 (edge)**.  What a planner keeps of a path of the steering method has a time that does not decrease, whatever the direction in which it was validated. -/
theorem C199_edge (hd : ∀ a b, 0 ≤ distance a b ∧ (distance a b = 0 → a = b)) {t : Task N K} (hv : ∀ p reverse, Paths.Contract interp p reverse (discretized t p reverse)) {p : TPath (List K) K}
    (h : Validated interp distance dist (discretized t) (taskSet body solve t) p) :
    Built interp distance (taskSet body solve t) p ∧ 0 ≤ p.len ∧ p.init.dof ≤ p.fin.dof ∧ (p.len = 0 → p.init.dof = p.fin.dof) := by
  induction h with
  | @kept q1 q2 s p reverse h hp =>
    have hb : Built interp distance (taskSet body solve t) s := .steered h
    obtain ⟨-, e⟩ := (steer_spec distance _ rfl _ _ _).1 h
    have hl : 0 ≤ s.len := by rw [e]; exact (hd _ _).1
    have h0 : s.len = 0 → s.init.dof = s.fin.dof := by
      rw [e]
      intro h0
      rw [(hd _ _).2 h0]
    unfold validatePart at hp
    split_ifs at hp with h1 h2
    · exact ⟨.part hb hp, zero_part_time hp⟩
    · exact ⟨.part hb hp, zero_part_time hp⟩
    · have ht := not_lt.1 h1
      obtain ⟨c1, c2⟩ := hv s reverse
      cases hval : (discretized t s reverse).valid with
      | true =>
        rw [c1 hval] at hp
        cases hp
        exact ⟨hb, hl, ht, h0⟩
      | false =>
        have := c2 hval
        cases reverse with
        | true =>
          simp only [if_true] at this
          obtain ⟨a, -, ha, e⟩ := this
          rw [e] at hp
          exact ⟨.part hb hp, part_time hl ht ha hp⟩
        | false =>
          simp only [Bool.false_eq_true, if_false] at this
          obtain ⟨b, hb0, -, e⟩ := this
          rw [e] at hp
          exact ⟨.part hb hp, part_time hl ht hb0 hp⟩
  | part _ hab h ih => exact ⟨.part ih.1 h, part_time ih.2.1 ih.2.2.1 hab h⟩

theorem validated_timedPaths (hd : ∀ a b, 0 ≤ distance a b ∧ (distance a b = 0 → a = b)) (hv : ∀ t p reverse, Paths.Contract interp p reverse (discretized t p reverse)) {t : Task N K} {l : List (Elem K)}
    (h : ValidatedAssembled body solve interp distance dist discretized t l) : TimedPaths body solve interp distance t l := by
  obtain ⟨ps, e, hf, hl⟩ := h
  exact ⟨ps, e, fun p hp => C199_edge hd (hv t) (hf p hp), hl⟩

/-- **C199 (comRRT)**.  If planner and optimisers put together what `TimeConstraintPathValidation` leaves of the paths of the steering method, the last coordinate of the configurations of a motion of comRRT is a clock that never goes back. -/
theorem C199_comRRT (hs : ∀ t, Paths.Solves (taskSet body solve t)) (hd : ∀ a b, 0 ≤ distance a b ∧ (distance a b = 0 → a = b)) (hv : ∀ t p reverse, Paths.Contract interp p reverse (discretized t p reverse)) (sv : Solver N K)
    (ha : AssemblesValidated body solve interp distance dist discretized sv) (robot : Robot N K) (extra : K)
    (mc mc' : Machine K) (hm : mc'.Ok) (steerRef : List K → List K → RefPath (List K) K) (unconstrained : List K → List K → Option (List (Elem K))) (toPath : List (Elem K) → RefPath (List K) K)
    (comPath : RefPath (Vec3 K) K) (start next : State N K) (hst : StateOk robot start) (hn : StateOk robot next) (num : ℕ) (l : List (Elem K))
    (h : comRRT robot extra sv mc mc' steerRef unconstrained toPath comPath start next num true = .path l) :
    ∃ ps : List (TPath (List K) K), l = ps.map (elemOf interp) ∧ ∃ clock, Clock l (ps.map TPath.len) clock ∧ ∀ i e, l[i]? = some e → ∀ s q, e.eval s = some q → q.getLastD 0 = clock i s :=
  comRRT_clock hs (fun _ _ => validated_timedPaths hd hv) sv ⟨ha.plan, ha.random, ha.partial'⟩ robot extra mc mc' hm steerRef unconstrained toPath comPath start next hst hn num l h

/-! ## A planner that validates -/

/-- a validation without obstacles -/
def noObstacle (_ : Task ℕ ℚ) (p : TPath (List ℚ) ℚ) (_ : Bool) : Verdict (List ℚ) ℚ Unit := ⟨true, .ok p, none⟩

theorem noObstacle_contract (t : Task ℕ ℚ) (p : TPath (List ℚ) ℚ) (reverse : Bool) : Paths.Contract hop p reverse (noObstacle t p reverse) := ⟨fun _ => rfl, fun h => by cases h⟩

theorem forward_validated {t : Task ℕ ℚ} {p : TPath (List ℚ) ℚ} (h : Forward hop apart (taskSet demoBody downSolve t) p) : Validated hop apart (fun _ _ => 0) (noObstacle t) (taskSet demoBody downSolve t) p := by
  induction h with
  | @steered q1 q2 p h ht =>
    refine .kept (reverse := false) h ?_
    have j : ∀ (l : List ℚ) (P : VPath (List ℚ) ℚ) q, jumps (fun _ _ => (0 : ℚ)) P 0 q l = false := by
      intro l
      induction l with
      | nil => intro _ _; rfl
      | cons i is ih => intro P q; simp only [jumps, mul_zero, gt_iff_lt, lt_irrefl, if_false]; exact ih P _
    obtain ⟨-, e⟩ := (steer_spec _ _ rfl _ _ _).1 h
    have ht' : ¬ p.init.dof > p.fin.dof := by rw [e]; exact not_lt.2 ht
    unfold validatePart
    rw [if_neg ht', j]
    rfl
  | part _ hab h ih => exact .part ih hab h

theorem forwardSolver_validates : AssemblesValidated demoBody downSolve hop apart (fun _ _ => 0) noObstacle forwardSolver where
  plan r t l h := by
    obtain ⟨ps, e, hf, hl⟩ := forward_assembles.plan r t l h
    exact ⟨ps, e, fun p hp => forward_validated (hf p hp), hl⟩
  random _ _ h := h
  partial' _ _ h := h

/-- non-vacuity of `C199_comRRT`: the hypotheses on the planner hold for the one that returns a motion in the example of C198 -/
example : (∀ t, Paths.Solves (taskSet demoBody downSolve t)) ∧ (∀ a b, 0 ≤ apart a b ∧ (apart a b = 0 → a = b)) ∧ (∀ t p reverse, Paths.Contract hop p reverse (noObstacle t p reverse)) ∧
    AssemblesValidated demoBody downSolve hop apart (fun _ _ => 0) noObstacle forwardSolver :=
  ⟨downSolve_solves, apart_distance, noObstacle_contract, forwardSolver_validates⟩

end
end RRT

namespace Effector
open Interp Sampling RRT Registry Paths
variable {N K L C F Rep : Type _} [LinearOrder N] [Field K] [LinearOrder K] [IsStrictOrderedRing K]
variable {body : Body N K} {solve : Task N K → List (Equation (List K) K) → K → Conf (List K) K → Conf (List K) K × Bool} {interp : List K → List K → K → List K}
  {distance dist : Conf (List K) K → Conf (List K) K → K} {discretized : Task N K → TPath (List K) K → Bool → Verdict (List K) K Rep}

/-- **C199 (effectorRRT)**.  If the planners put together what `TimeConstraintPathValidation` leaves of the paths of the steering method, a motion of effectorRRT follows its references at the fraction that a clock shows which never goes back. -/
theorem C199_effectorRRT (T : Tools N K) (hs : ∀ t, Paths.Solves (taskSet body solve t)) (hd : ∀ a b, 0 ≤ distance a b ∧ (distance a b = 0 → a = b)) (hv : ∀ t p reverse, Paths.Contract interp p reverse (discretized t p reverse))
    (hc : AssemblesValidated body solve interp distance dist discretized T.sv)
    (hcs : ∀ i, AssemblesValidated body solve interp distance dist discretized (T.svs i)) (hm : T.mc'.Ok) (hms : ∀ i, (T.mcs i).Ok) (robot : Robot N K) (hl : ∀ n l, robot.climbs.find? n = some l → Orthogonal l.placement)
    (want : Wanted N K) (comLength : K) (eff frame : N) (s0 s1 : State N K) (h0 : StateOk robot s0) (h1 : StateOk robot s1) (num : ℕ) (w w' : World N L C F (List (Elem K)) K) (l : List (Elem K))
    (h : effectorMotion T body.kin robot want comLength eff frame s0 s1 num w = .returns l w') :
    ∃ (ps : List (TPath (List K) K)) (keep : Bool), l = (ps.map (elemOf interp)).map (reduce keep) ∧ ∃ clock, Clock l (ps.map TPath.len) clock ∧
    ((∃ guide p, w'.paths = w.paths ++ [.wholeBody guide, .effector p] ∧ ∀ i e, l[i]? = some e → ∀ s q, e.eval s = some q →
        (want.keepExtraDof = false → Follows body robot.climbs (1 / 1000) want T.garbage p.eval (p.tTakeoff + p.tMid + p.tLanding) eff s0 s1 (clock i s) q) ∧
        (want.keepExtraDof = true → q.getLastD 0 = clock i s ∧ Follows body robot.climbs (1 / 1000) want T.garbage p.eval (p.tTakeoff + p.tMid + p.tLanding) eff s0 s1 (clock i s) q.dropLast)) ∨
      (w'.paths = w.paths ++ [.wholeBody l] ∧ ∀ i e, l[i]? = some e → ∀ s q, e.eval s = some q → q.getLastD 0 = clock i s)) :=
  effectorRRT_clock T hs (fun _ _ => validated_timedPaths hd hv) ⟨hc.plan, hc.random, hc.partial'⟩ (fun i => ⟨(hcs i).plan, (hcs i).random, (hcs i).partial'⟩) hm hms robot hl want comLength eff frame s0 s1 h0 h1 num w w' l h

end Effector
end Rbprm
