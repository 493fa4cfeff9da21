import Verif.Model.Steering
import Verif.Props.Paths
set_option linter.unusedSectionVars false
/-!
# Property C194: the paths that the steering method of the interpolation gives
-/
namespace Rbprm
namespace Paths
variable {K R : Type _} [Field K] [LinearOrder K]

/-- the specification: a configuration respects a constraint for a planner that departs from `q1`: given values are the given ones, stored values are those of `q1`, timed values are those of the time of the configuration -/
def ErrorFrom (q1 q : Conf R K) (e : Equation R K) : K :=
  match e.rhs with
  | .given v => e.f q - v
  | .stored _ => e.f q - e.f q1
  | .timed g => e.f q - g q.dof

/-- all constraints are respected, up to the threshold of the projector -/
def Respects (c : CSet R K) (q1 q : Conf R K) : Prop := c.small (c.equations.map (ErrorFrom q1 q)) = true

theorem errors_from (es : List (Equation R K)) (q1 q : Conf R K) : errors (es.map (Equation.fromConfig q1)) q.dof q = es.map (ErrorFrom q1 q) := by
  unfold errors
  rw [List.map_map]
  refine List.map_congr_left fun e _ => ?_
  rcases e with ⟨f, v | v | g⟩ <;> rfl

theorem steer_spec (distance : Conf R K → Conf R K → K) (c : CSet R K) (hp : c.projector = true) (q1 q2 : Conf R K) (p : TPath R K) :
    steer distance (some c) q1 q2 = some p ↔
      (Respects c q1 q1 ∧ Respects c q1 q2) ∧ p = ⟨q1, q2, distance q1 q2, some (CSet.constr { c with equations := c.equations.map (Equation.fromConfig q1) })⟩ := by
  unfold steer steerConstraints TPath.check Respects
  simp only [hp, if_true, Option.map_some, CSet.constr, Bool.not_true, Bool.false_or, errors_from]
  constructor
  · intro h
    split_ifs at h with hc
    · rw [Bool.and_eq_true] at hc
      exact ⟨hc, (Option.some.inj h).symm⟩
  · rintro ⟨⟨h1, h2⟩, rfl⟩
    rw [if_pos (by rw [h1, h2]; rfl)]

/-- **C194 (exactly)**.  The steering method gives a path exactly if both configurations respect the constraints, with the stored values of the first one. -/
theorem C194_when (distance : Conf R K → Conf R K → K) (c : CSet R K) (hp : c.projector = true) (q1 q2 : Conf R K) :
    (steer distance (some c) q1 q2).isSome = true ↔ Respects c q1 q1 ∧ Respects c q1 q2 := by
  rw [Option.isSome_iff_exists]
  constructor
  · rintro ⟨p, h⟩
    exact ((steer_spec distance c hp q1 q2 p).1 h).1
  · intro h
    exact ⟨_, (steer_spec distance c hp q1 q2 _).2 ⟨h, rfl⟩⟩

/-- without constraints, or without projector, there is always a path, and it is the straight one -/
theorem C194_free (interp : R → R → K → R) (distance : Conf R K → Conf R K → K) (c : Option (CSet R K)) (hc : ∀ c' ∈ c, c'.projector = false) (q1 q2 : Conf R K) :
    ∃ p, steer distance c q1 q2 = some p ∧ p.init = q1 ∧ p.fin = q2 ∧ p.len = distance q1 q2 ∧ ∀ t, p.eval interp t = (p.raw interp t, true) := by
  rcases c with _ | c
  · exact ⟨⟨q1, q2, distance q1 q2, none⟩, by simp [steer, steerConstraints, TPath.check], rfl, rfl, rfl, fun t => rfl⟩
  · have h := hc c rfl
    refine ⟨⟨q1, q2, distance q1 q2, some c.constr⟩, ?_, rfl, rfl, rfl, fun t => ?_⟩
    · simp [steer, steerConstraints, TPath.check, h, CSet.constr]
    · simp [TPath.eval, CSet.constr, h]

/-- what the projector of hpp-core guarantees: a solution respects the constraints, and the extra degree of freedom, which no constraint depends on, keeps its value -/
structure Solves (c : CSet R K) : Prop where
  sound : ∀ es dof q, (c.solve es dof q).2 = true → c.small (errors es dof (c.solve es dof q).1) = true
  dof : ∀ es dof q, (c.solve es dof q).1.dof = q.dof
  /-- no iteration is made from a configuration that respects the constraints -/
  fixed : ∀ es dof q, c.small (errors es dof q) = true → c.solve es dof q = (q, true)

/-- **C194** (partial: see `C194_symmetry_violated`).  The path that the steering method gives goes from the first to the second configuration, its duration is their distance, and each of its points at which the projection succeeds
respects the constraints: the timed constraints for the time of this point, and the stored values are those of the first configuration. -/
theorem C194_partial [IsStrictOrderedRing K] (interp : R → R → K → R) (distance : Conf R K → Conf R K → K) (c : CSet R K) (hp : c.projector = true) (hs : Solves c) (q1 q2 : Conf R K) (p : TPath R K)
    (h : steer distance (some c) q1 q2 = some p) :
    p.len = distance q1 q2 ∧ p.eval interp 0 = (q1, true) ∧ (distance q1 q2 ≠ 0 → p.eval interp (distance q1 q2) = (q2, true)) ∧
    ∀ t, (p.eval interp t).2 = true → Respects c q1 (p.eval interp t).1 ∧ (distance q1 q2 ≠ 0 → (p.eval interp t).1.dof = q1.dof + t / distance q1 q2 * (q2.dof - q1.dof)) := by
  obtain ⟨⟨h1, h2⟩, rfl⟩ := (steer_spec distance c hp q1 q2 p).1 h
  refine ⟨rfl, ?_, ?_, ?_⟩
  · simp only [TPath.eval, TPath.raw, CSet.constr, hp, if_true, true_or]
    exact hs.fixed _ _ _ (by rw [errors_from]; exact h1)
  · intro hl
    simp only [TPath.eval, TPath.raw, CSet.constr, hp, if_true, hl, or_self, if_false]
    exact hs.fixed _ _ _ (by rw [errors_from]; exact h2)
  · intro t ht
    obtain ⟨r, hr⟩ : ∃ r, r = (⟨q1, q2, distance q1 q2, some (CSet.constr { c with equations := c.equations.map (Equation.fromConfig q1) })⟩ : TPath R K).raw interp t := ⟨_, rfl⟩
    have he : (⟨q1, q2, distance q1 q2, some (CSet.constr { c with equations := c.equations.map (Equation.fromConfig q1) })⟩ : TPath R K).eval interp t =
        c.solve (c.equations.map (Equation.fromConfig q1)) r.dof r := by
      rw [hr]
      exact if_pos hp
    rw [he] at ht ⊢
    have e := hs.sound _ _ _ ht
    have hd := hs.dof (c.equations.map (Equation.fromConfig q1)) r.dof r
    constructor
    · unfold Respects
      rw [← errors_from, hd]
      exact e
    · intro hl
      rw [hd, hr, raw_dof interp _ (by exact hl)]

/-- **C194 (symmetry)**.  Where constraints are respected only exactly, the steering method links two configurations in both directions or in none. -/
theorem C194_symmetry (distance : Conf R K → Conf R K → K) (c : CSet R K) (hp : c.projector = true) (hsmall : ∀ l, c.small l = true ↔ ∀ x ∈ l, x = 0) (q1 q2 : Conf R K) :
    (steer distance (some c) q1 q2).isSome = (steer distance (some c) q2 q1).isSome := by
  have key : ∀ a b : Conf R K, Respects c a a ∧ Respects c a b → Respects c b b ∧ Respects c b a := by
    intro a b ⟨h1, h2⟩
    unfold Respects at *
    simp only [hsmall, List.mem_map, forall_exists_index, and_imp, forall_apply_eq_imp_iff₂] at *
    constructor <;> intro e he
    · have x := h1 e he
      have y := h2 e he
      rcases e with ⟨f, v | v | g⟩ <;> simp_all [ErrorFrom]
    · have x := h1 e he
      have y := h2 e he
      rcases e with ⟨f, v | v | g⟩
      · exact x
      · simp only [ErrorFrom] at *
        rw [sub_eq_zero] at *
        exact y.symm
      · exact x
  rw [Bool.eq_iff_iff, C194_when distance c hp, C194_when distance c hp]
  exact ⟨key q1 q2, key q2 q1⟩

/-- a constraint `x = 0` and a stored value of `y`, on points of the plane; the threshold is on the square of the norm of the error: 1 -/
def twoEquations : CSet (ℚ × ℚ) ℚ where
  projector := true
  equations := [⟨fun q => q.rest.1, .given 0⟩, ⟨fun q => q.rest.2, .stored 0⟩]
  small l := decide ((l.map fun x => x * x).sum < 1)
  solve es dof q := (q, decide (((errors es dof q).map fun x => x * x).sum < 1))

/-- the projector of the example is one -/
theorem twoEquations_solves : Solves twoEquations where
  sound es dof q h := h
  dof es dof q := rfl
  fixed es dof q h := by
    show (q, decide _) = _
    exact congrArg (Prod.mk q) h

/-- **C194 is violated** for the tolerance: the threshold is for the norm of all errors, and the stored values have no error at the first configuration, so that two configurations may be linked in one direction only. -/
theorem C194_symmetry_violated (distance : Conf (ℚ × ℚ) ℚ → Conf (ℚ × ℚ) ℚ → ℚ) :
    (steer distance (some twoEquations) ⟨(4 / 5, 0), 0⟩ ⟨(0, 4 / 5), 1⟩).isSome = true ∧ (steer distance (some twoEquations) ⟨(0, 4 / 5), 1⟩ ⟨(4 / 5, 0), 0⟩).isSome = false := by
  constructor
  · rw [C194_when _ _ rfl]
    unfold Respects
    constructor <;> decide +kernel
  · rw [← Bool.not_eq_true, C194_when _ _ rfl]
    unfold Respects
    intro h
    exact absurd h.2 (by decide +kernel)

/-- **C194 is violated** without a projector: two configurations at distance 0 are linked by a path that never reaches the second one. -/
theorem C194_degenerate_violated (interp : R → R → K → R) (distance : Conf R K → Conf R K → K) (q1 q2 : Conf R K) (hd : distance q1 q2 = 0) (p : TPath R K) (h : steer distance none q1 q2 = some p) (t : K) :
    p.fin = q2 ∧ p.eval interp t = (q1, true) := by
  simp only [steer, steerConstraints, TPath.check, Option.map_none, if_true, Option.some.injEq] at h
  subst h
  exact ⟨rfl, by simp [TPath.eval, TPath.raw, hd]⟩

/-- a path of the example: it departs with the stored value `y = 1/2` and arrives with `y = 1` -/
example : (steer (fun _ _ => 1) (some twoEquations) ⟨(0, 1 / 2), 0⟩ ⟨(0, 1), 1⟩).isSome = true := by
  rw [C194_when _ _ rfl]
  unfold Respects
  constructor <;> decide +kernel

end Paths
end Rbprm
