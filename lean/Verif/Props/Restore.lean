import Verif.Model.Restore
import Verif.Props.Device
import Verif.Props.Stability
set_option linter.unusedSectionVars false
/-!
# C141, C142: what calls leave behind in the robot, the cone of a state
-/
namespace Rbprm
namespace Restore
open Dev

/-! ### C141 -/

/-- the robot is where it was: same configuration -/
def SamePlace (r r' : Robot) : Prop := r'.device.current = r.device.current

/-- the transforms of the robot are those of its configuration -/
def UpToDate (r : Robot) : Prop := r.device.computed = r.device.current

/-- C141: a configuration saved by value is given back by both `ComputeContacts`, if they return, and by the stability tests, whatever the functions they call do to the robot -/
theorem C141_copy_partial (q : List ℝ) (r : Robot) :
    (∀ limbs, SamePlace r (computeContactsInitial .byValue q limbs r)) ∧
    (∀ newflag oneStep, (computeContactsPrevious .byValue newflag q oneStep r).2 = true → SamePlace r (computeContactsPrevious .byValue newflag q oneStep r).1) ∧
    SamePlace r (setupLibrary .byValue q r) := by
  refine ⟨fun limbs => rfl, fun newflag oneStep h => ?_, rfl⟩
  unfold computeContactsPrevious at h ⊢
  simp only at h ⊢
  by_cases hr : (oneStep (({ r with flag := newflag }).set q).forward).2 = true
  · rw [if_pos hr]
    rfl
  · rw [if_neg hr] at h
    exact absurd h hr

/-- C141: the analyses of samples leave the robot where it was, with its transforms computed -/
theorem C141_analysis (shot configs : List (List ℝ)) (validate : List ℝ → Work) (r : Robot) :
    (SamePlace r (generateFullBodyDB shot validate r) ∧ UpToDate (generateFullBodyDB shot validate r)) ∧
    SamePlace r (selfCollisionProbability shot configs validate r) ∧ UpToDate (selfCollisionProbability shot configs validate r) :=
  ⟨⟨rfl, rfl⟩, rfl, rfl⟩

/-- C141: the flag is given back when the call returns -/
theorem C141_flag (k : Kind) (newflag : ℕ) (q : List ℝ) (oneStep : Robot → Robot × Bool) (r : Robot) (h : (computeContactsPrevious k newflag q oneStep r).2 = true) :
    (computeContactsPrevious k newflag q oneStep r).1.flag = r.flag := by
  unfold computeContactsPrevious at h ⊢
  simp only at h ⊢
  by_cases hr : (oneStep (({ r with flag := newflag }).set q).forward).2 = true
  · rw [if_pos hr]
  · rw [if_neg hr] at h
    exact absurd h hr

/-- C141: during the work of `ComputeContacts` the robot is in the given configuration, with its transforms computed and the flag set -/
theorem C141_during (k : Kind) (newflag : ℕ) (q : List ℝ) (r : Robot) :
    (∀ w rest, ∃ r', computeContactsInitial k q (w :: rest) r = computeContactsInitial k q [fun _ => rest.foldl (fun r w => w r) (w r')] r ∧ r'.device.current = q ∧ UpToDate r') ∧
    (∀ oneStep, ∃ r', (computeContactsPrevious k newflag q oneStep r).2 = (oneStep r').2 ∧ r'.device.current = q ∧ UpToDate r' ∧ r'.flag = newflag) := by
  refine ⟨fun w rest => ⟨(r.set q).forward, rfl, rfl, rfl⟩, fun oneStep => ⟨((({ r with flag := newflag } : Robot).set q).forward), ?_, rfl, rfl, rfl⟩⟩
  unfold computeContactsPrevious
  simp only
  by_cases hr : (oneStep (({ r with flag := newflag }).set q).forward).2 = true
  · rw [if_pos hr, hr]
  · rw [if_neg hr]

/-- C141, violated: a configuration saved by reference (as declared) is not given back: the stability tests leave the robot in the configuration of the state, `ComputeContacts` where the last
function left it -/
theorem C141_reference_violated (q : List ℝ) (r : Robot) :
    (setupLibrary .byRef q r).device.current = q ∧
    (∀ limbs, (computeContactsInitial .byRef q limbs r).device.current = (limbs.foldl (fun r w => w r) (r.set q).forward).device.current) ∧
    (computeContactsInitial .byRef q [] r).device.current = q ∧
    (∀ newflag oneStep, (computeContactsPrevious .byRef newflag q oneStep r).1.device.current = (oneStep ({ r with flag := newflag }.set q).forward).1.device.current) := by
  refine ⟨rfl, fun limbs => rfl, rfl, fun newflag oneStep => ?_⟩
  unfold computeContactsPrevious
  simp only
  by_cases hr : (oneStep (({ r with flag := newflag }).set q).forward).2 = true
  · rw [if_pos hr]
    rfl
  · rw [if_neg hr]

/-- C141: with a reference, the robot is given back exactly if it was already there -/
theorem C141_reference_iff (q : List ℝ) (r : Robot) : SamePlace r (setupLibrary .byRef q r) ↔ r.device.current = q := by
  unfold SamePlace
  rw [(C141_reference_violated q r).1]
  exact eq_comm

/-- C141, violated: even saved by value the transforms are not computed again: they are those of the state of the last stability test -/
theorem C141_transforms_violated (k : Kind) (q : List ℝ) (r : Robot) : (setupLibrary k q r).device.computed = q ∧
    (r.device.current ≠ q → ¬ UpToDate (setupLibrary .byValue q r)) := by
  refine ⟨?_, fun h h' => h ?_⟩
  · cases k <;> rfl
  · exact h'.symm

/-- C141, violated: if `oneStep` throws (an unknown limb), neither the configuration nor the flag is given back -/
theorem C141_throw_violated (k : Kind) (newflag : ℕ) (q : List ℝ) (r : Robot) :
    (computeContactsPrevious k newflag q (fun r => (r, false)) r).1.device.current = q ∧ (computeContactsPrevious k newflag q (fun r => (r, false)) r).1.flag = newflag := by
  cases k <;> exact ⟨rfl, rfl⟩

/-! ### C142 -/

section
variable {N K : Type _} [LinearOrder N] [Field K] [LinearOrder K] [IsStrictOrderedRing K]

/-- C142: the cone is the one of the library for the contacts of the state with the friction coefficient of the robot, when the library can compute it -/
theorem C142_cone_partial (env : Stability.StabEnv N K) (sv : Stability.Solver K) (polytope : Stability.Problem K → Option (Cone K)) (state : State N K) (friction : K)
    (com : Vec3 K) (pb : Stability.Problem K) (c : Cone K) (hs : Stability.setupLibrary env sv state .PP 0 0 = some (com, pb)) (hc : polytope pb = some c) :
    computeCentroidalCone env sv polytope state friction = some c ∧ pb.friction = env.friction ∧ pb.alg = .PP := by
  refine ⟨?_, ?_⟩
  · unfold computeCentroidalCone
    rw [hs]
    simp only
    rw [hc]
  · unfold Stability.setupLibrary at hs
    simp only at hs
    by_cases h1 : (state.contactPositions.keys.all fun n => env.limbs.has n) = true
    · rw [if_pos h1] at hs
      cases h2 : Stability.allRows env state 0 0 (state.contactPositions.keys.filter fun n => !Stability.grasping env n) with
      | none => rw [h2] at hs; cases hs
      | some a =>
        cases h3 : Stability.allRows env state 0 0 (state.contactPositions.keys.filter fun n => Stability.grasping env n) with
        | none => rw [h2, h3] at hs; cases hs
        | some b =>
          rw [h2, h3] at hs
          simp only [ite_self] at hs
          split at hs
          · simp only [Option.some.injEq, Prod.mk.injEq] at hs
            rw [← hs.2]
            exact ⟨rfl, rfl⟩
          · cases hs
    · rw [if_neg h1] at hs
      cases hs

/-- C142, violated: the friction coefficient given by the caller has no influence -/
theorem C142_friction_violated (env : Stability.StabEnv N K) (sv : Stability.Solver K) (polytope : Stability.Problem K → Option (Cone K)) (state : State N K) (f f' : K) :
    computeCentroidalCone env sv polytope state f = computeCentroidalCone env sv polytope state f' := rfl

theorem zipWith_zero : ∀ (n : ℕ) (w : List K), (List.zipWith (· * ·) (List.replicate n (0 : K)) w).sum = 0
  | 0, _ => by simp
  | n + 1, [] => by simp [List.replicate_succ]
  | n + 1, a :: w => by
    rw [List.replicate_succ, List.zipWith_cons_cons, List.sum_cons, zipWith_zero n w, zero_mul, add_zero]

/-- C142, violated: when the library fails the cone that is returned accepts every wrench -/
theorem C142_failure_violated (env : Stability.StabEnv N K) (sv : Stability.Solver K) (polytope : Stability.Problem K → Option (Cone K)) (state : State N K) (friction : K)
    (com : Vec3 K) (pb : Stability.Problem K) (hs : Stability.setupLibrary env sv state .PP 0 0 = some (com, pb)) (hc : polytope pb = none) :
    ∃ c, computeCentroidalCone env sv polytope state friction = some c ∧ ∀ w, c.Accepts w := by
  refine ⟨⟨List.replicate 6 (List.replicate 6 0), List.replicate 6 0⟩, ?_, fun w r hr => ?_⟩
  · unfold computeCentroidalCone
    rw [hs]
    simp only
    rw [hc]
  · have h1 : r.1 = List.replicate 6 0 := List.eq_of_mem_replicate (List.of_mem_zip hr).1
    have h2 : r.2 = 0 := List.eq_of_mem_replicate (List.of_mem_zip hr).2
    rw [h1, h2, zipWith_zero]

/-- a case of `C142_cone_partial` and of `C142_failure_violated`: three contacts -/
example : (∃ com pb, Stability.setupLibrary Stability.demoStabEnv Stability.demoSolver (Stability.demoState [0, 1, 2]) .PP 0 0 = some (com, pb) ∧ pb.positions.length = 6) := by
  have : (Stability.setupLibrary Stability.demoStabEnv Stability.demoSolver (Stability.demoState [0, 1, 2]) .PP 0 0).map (fun p => p.2.positions.length) = some 6 := by decide +kernel
  cases h : Stability.setupLibrary Stability.demoStabEnv Stability.demoSolver (Stability.demoState [0, 1, 2]) .PP 0 0 with
  | none => rw [h] at this; cases this
  | some p =>
    rw [h] at this
    exact ⟨p.1, p.2, rfl, by simpa using this⟩

/-- C142: no cone exactly if the contacts cannot be given to the library (an unknown limb, or the library refuses them: an exception) -/
theorem C142_defined (env : Stability.StabEnv N K) (sv : Stability.Solver K) (polytope : Stability.Problem K → Option (Cone K)) (state : State N K) (friction : K) :
    computeCentroidalCone env sv polytope state friction = none ↔ Stability.setupLibrary env sv state .PP 0 0 = none := by
  unfold computeCentroidalCone
  cases h : Stability.setupLibrary env sv state .PP 0 0 with
  | none => simp
  | some p =>
    simp only
    cases polytope p.2 <;> simp
end

end Restore
end Rbprm
