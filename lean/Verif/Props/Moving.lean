import Verif.Props.Crossing
import Verif.Props.ReachabilityMore
/-!
# Property C176: the steps of a plan can be made in motion

The dynamic test of reachability of contact generation is realised by `isReachableDynamic` (`Model/Reachability`): when the plan is not quasi-static, a user relies on a trajectory of the centre of mass between two states
of a plan whose contacts differ.
-/
set_option linter.unusedSectionVars false
namespace Rbprm
namespace Interp
open State Contact
variable {N K Smp C : Type _} [LinearOrder N] [Field K] [LinearOrder K] [IsStrictOrderedRing K]

/-! ## Specification -/

/-- the dynamic test of reachability of contact generation is `isReachableDynamic`, without timings (contact_generation.cc:586) -/
def UsesDynamic (env : Env N K Smp) (robot : Reach.DynEnv N K C) (quasi : Bool) (points : ℕ) : Prop :=
  ∀ s t, env.reachableDyn s t = true → ∃ d, Reach.isReachableDynamic robot s t quasi [] points = some d ∧ d.res.success = true

/-- One can go from `s` to `t`: at rest, if this is to be tried (through the state without the contact that is released), or along a trajectory that the solver found, from the centre of mass of `s` to that of `t`, with their
velocities, under the constraints of the contacts of both states and of the state between them, and with one of the timings of the table. -/
def Moves (robot : Reach.DynEnv N K C) (quasi : Bool) (points : ℕ) (s t : State N K) : Prop :=
  (quasi = true ∧ ∃ mid, (mid = s ∨ ∃ n, mid = (s.removeContact n).1) ∧ Passes robot.toReachEnv s mid ∧ Passes robot.toReachEnv mid t) ∨
  ∃ p timings r, Reach.ProblemOf robot s t p ∧ (∃ row ∈ (Reach.timingTable : List (List K)), timings = row.take p.phases.length) ∧ robot.solveCom p timings points = some r

/-- What dynamic reachability says of a state `s` placed after `previous`: a contact was released at most and none created, or one was created in a state `t` that has the contacts of `s` and its configuration (but for the extra
coordinates), and either the position of the robot is the same, or no contact changed, or one can go from `previous` to `t`. -/
def Driven (robot : Reach.DynEnv N K C) (quasi : Bool) (points extraDim : ℕ) (previous s : State N K) : Prop :=
  LostAtMost 1 previous s ∨ ∃ t, SameContactData s t ∧ (∃ root, s.configuration = copyTail extraDim t.configuration root) ∧
    (previous.configuration.take 3 = t.configuration.take 3 ∨ (∀ n, ¬ Reach.Changes previous t n) ∨ Moves robot quasi points previous t)

/-! ## Proofs -/

theorem moves_of_success {robot : Reach.DynEnv N K C} (hR : ∀ n q, Reach.Orthogonal (robot.kin.effector n q).rot) (hsol : ∀ Ab c, (robot.solve Ab c).1 = true → Reach.Sat Ab (robot.solve Ab c).2)
    {quasi : Bool} {points : ℕ} {s t : State N K} (hs : Sound s) (ht : Sound t) {d : Reach.Dynamic N K C} (h : Reach.isReachableDynamic robot s t quasi [] points = some d) (hd : d.res.success = true) :
    s.configuration.take 3 = t.configuration.take 3 ∨ (∀ n, ¬ Reach.Changes s t n) ∨ Moves robot quasi points s t := by
  by_cases h3 : s.configuration.take 3 = t.configuration.take 3
  · exact Or.inl h3
  obtain ⟨c1, c2, -⟩ := Reach.C144_partial robot s t quasi [] points hs.toMapsOk ht.toMapsOk d h
  obtain ⟨c3, -⟩ := c2 h3
  by_cases hn : ∀ n, ¬ Reach.Changes s t n
  · exact Or.inr (Or.inl hn)
  refine Or.inr (Or.inr ?_)
  rw [Reach.C52_success] at hd
  rcases Reach.dynamic_cases robot s t quasi [] points d h with ⟨st, rfl, g1, g2, g3⟩ | ⟨hq, q, g1, g2, rfl⟩ | ⟨p, hp, ⟨u, r, g1, rfl⟩ | ⟨-, rfl⟩⟩
  · have e1 : st ≠ .noContactVariation := fun e => hn (c3.1 e)
    have e2 : st ≠ .sameRootPosition := fun e => h3 (c1.1 e)
    simp [Reach.plain, Reach.Result.of, g1, e1, e2, g3] at hd
  · refine Or.inl ⟨hq, ?_⟩
    set mid := Reach.intermediateState s (t.contactBreaks s) with hmid
    have hm : mid = s ∨ ∃ n, mid = (s.removeContact n).1 := by
      rw [hmid]
      unfold Reach.intermediateState
      cases t.contactBreaks s with
      | nil => exact Or.inl rfl
      | cons b l => exact Or.inr ⟨b, rfl⟩
    have hms : Sound mid := by
      rcases hm with e | ⟨n, e⟩
      · rw [e]; exact hs
      · rw [e]; exact hs.removeContact n
    refine ⟨mid, hm, ?_⟩
    unfold Reach.isReachableIntermediate at g1
    split at g1
    · rename_i rb rc k1 k2
      by_cases hb : rb.success = true ∧ rc.success = true
      · exact ⟨passes_of_success hR hsol hs hms (r := rb) (by simp only [Reach.isReachable, Bool.false_and, Bool.false_eq_true, if_false]; exact k1) hb.1,
          passes_of_success hR hsol hms ht (r := rc) (by simp only [Reach.isReachable, Bool.false_and, Bool.false_eq_true, if_false]; exact k2) hb.2⟩
      · rw [if_neg (by rw [Bool.and_eq_true]; exact hb)] at g1
        exfalso
        split_ifs at g1 <;> (rw [← Option.some.inj g1, Reach.C52_success] at g2; simp [Reach.Result.of] at g2)
    · cases g1
  · refine Or.inr ⟨p, u, r, hp, ?_, ?_⟩
    · obtain ⟨pre, post, e, -⟩ := g1
      have hu : u ∈ Reach.tried [] p.phases.length := by rw [e]; simp
      unfold Reach.tried at hu
      have hl : p.phases.length ≠ 0 := by
        obtain ⟨_, _, _, _, -, -, -, -, ⟨-, e⟩ | ⟨_, _, _, -, -, -, -, e⟩⟩ := hp.phases <;> rw [e] <;> simp
      rw [if_neg (by simpa using hl.symm)] at hu
      obtain ⟨row, k1, k2⟩ := List.mem_map.1 (List.mem_of_mem_dropLast hu)
      exact ⟨row, k1, k2.symm⟩
    · obtain ⟨pre, post, -, e, -⟩ := g1
      exact e
  · simp [Reach.plain, Reach.Result.of] at hd

theorem Checked.driven {env : Env N K Smp} {robot : Reach.DynEnv N K C} {quasi : Bool} {points : ℕ} (hu : UsesDynamic env robot quasi points) (hR : ∀ n q, Reach.Orthogonal (robot.kin.effector n q).rot)
    (hsol : ∀ Ab c, (robot.solve Ab c).1 = true → Reach.Sat Ab (robot.solve Ab c).2) {thr : K} {extraDim : Nat} {previous s : State N K} (hp : WellFormed env.limbs previous)
    (h : Checked env thr true false extraDim previous s) : Driven robot quasi points extraDim previous s := by
  obtain ⟨base, t, -, hw, h1, -, h3, -, h4, h5⟩ := h.history
  rcases h3 with rfl | ⟨limb, smp, cfg, g, rfl⟩
  · obtain ⟨removed, k1, k2⟩ := h1
    refine Or.inl ⟨removed, k1, fun n hn => ?_⟩
    rw [h4.1, h4.2.1]
    exact k2 n hn
  · have hk : limb ∉ base.contacts.keys := fun hk => by
      obtain ⟨v, hv⟩ := Option.isSome_iff_exists.1 (AMap.find?_isSome.2 hk)
      exact g.free (by rw [hv, hw.sound.active limb v hv])
    have hn : 1 ≤ base.nbContacts := by
      have h2 := h.twoContacts
      rw [h4.1] at h2
      have e : (withContact env base limb smp cfg).contacts = base.contacts.set limb true := rfl
      rw [e, AMap.length_set_of_not_mem true hk] at h2
      rw [hw.counter]
      omega
    have g1 := g.reachable hn rfl
    rw [if_neg (by simp)] at g1
    obtain ⟨d, hd, hd'⟩ := hu _ _ g1
    have hwt : WellFormed env.limbs (withContact env base limb smp cfg) := hw.addContact g.known hk _ _ _ _
    exact Or.inr ⟨_, h4, h5, moves_of_success hR hsol hp.sound hwt.sound hd hd'⟩

/-- **C176 (one step; partial)** Whatever the robot, the obstacles and the solvers answer, if reachability is tested and the plan is not quasi-static, a state given by contact generation from a state with complete contact data,
not by repositioning the robot in place, is driven to as above.  What is missing: that one can go to it in all cases, see the violations. -/
theorem C176_step_partial (env : Env N K Smp) (robot : Reach.DynEnv N K C) (quasi : Bool) (points : ℕ) (hu : UsesDynamic env robot quasi points)
    (hR : ∀ n q, Reach.Orthogonal (robot.kin.effector n q).rot) (hsol : ∀ Ab c, (robot.solve Ab c).1 = true → Reach.Sat Ab (robot.solve Ab c).2)
    (hl : env.limbs.Nodup) (postural : Bool) (fuel : Nat) (previous : State N K) (hp : WellFormed env.limbs previous)
    (configuration : List K) (thr : K) (extraDim : Nat) (rep : ContactReport N K)
    (hr : computeContacts env postural fuel previous configuration thr extraDim true false = some rep) (hnr : rep.repositionedInPlace = false) :
    rep.success = true ∧ Driven robot quasi points extraDim previous rep.result := by
  obtain ⟨h1, h2⟩ := C168_step env hl postural fuel previous hp configuration thr extraDim true false rep hr hnr
  exact ⟨h1, h2.driven hu hR hsol hp⟩

/-- **C176 (whole plan; partial)**: each state of a plan is the start, the goal, a move of one limb to its place in the goal, a state rebuilt by deep filtering, a state after a repositioning, or is driven to from a state with
complete contact data. -/
theorem C176_plan_partial (env : Env N K Smp) (robot : Reach.DynEnv N K C) (quasi : Bool) (points : ℕ) (hu : UsesDynamic env robot quasi points)
    (hR : ∀ n q, Reach.Orthogonal (robot.kin.effector n q).rot) (hsol : ∀ Ab c, (robot.solve Ab c).1 = true → Reach.Sat Ab (robot.solve Ab c).2)
    (hl : env.limbs.Nodup) (hgr : ∀ n, ∀ m ∈ env.group n, m ∈ env.limbs)
    (thr : K) (extraDim : Nat) (compute : Compute N K) (postural : Bool)
    (hc : IsComputeContacts env postural thr extraDim true false compute)
    (sv : Solvers N K) (configs : List (List K)) (hne : configs ≠ [])
    (ts init : K) (hts : 0 ≤ ts) (start goal : State N K) (hs : WellFormed env.limbs start)
    (pathEnd : Option K) (deep p : Bool) (fuel : Nat) (plan : List (Frame N K))
    (h : interpolate sv compute postural start goal pathEnd configs ts init deep fuel = (.done plan, p)) :
    ∀ f ∈ plan, f = (init, start) ∨ f.2 = goal ∨ (∃ s limb, MovesLimb sv goal s limb f.2) ∨ (deep = true ∧ Rebuilt sv f.2) ∨
      ∃ prev : Frame N K, WellFormed env.limbs prev.2 ∧
        ((∃ rep, Produces sv compute configs ts init prev rep f ∧ rep.repositionedInPlace = true) ∨ Driven robot quasi points extraDim prev.2 f.2) := by
  intro f hf
  rcases C168_plan_partial env hl hgr thr extraDim true false compute postural hc sv configs hne ts init hts start goal hs pathEnd deep p fuel plan h f hf with
    h | h | h | h | ⟨prev, hw, h | h⟩
  · exact Or.inl h
  · exact Or.inr (Or.inl h)
  · exact Or.inr (Or.inr (Or.inl h))
  · exact Or.inr (Or.inr (Or.inr (Or.inl h)))
  · exact Or.inr (Or.inr (Or.inr (Or.inr ⟨prev, hw, Or.inl h⟩)))
  · exact Or.inr (Or.inr (Or.inr (Or.inr ⟨prev, hw, Or.inr (h.driven hu hR hsol hw)⟩)))

/-! ## The robot on a line -/

/-- the robot of C175, with a solver that finds a trajectory or not -/
def lineDyn (found : Bool) : Reach.DynEnv ℕ ℚ (List (Vec3 ℚ)) where
  toReachEnv := lineRobot
  solveCom := fun p _ _ => if found then some ⟨p.dc1, 0, [p.c0, p.c1]⟩ else none
  bezier2 := fun a b c => [a, b, c]

/-- its contact generation asks `isReachableDynamic` -/
def lineDynEnv (found : Bool) (places : List ℚ) : Env ℕ ℚ ℚ :=
  { lineEnv places with
    reachableDyn := fun s t => match Reach.isReachableDynamic (lineDyn found) s t false [] 0 with
      | some d => d.res.success
      | none => false }

theorem lineDyn_uses (found : Bool) (places : List ℚ) : UsesDynamic (lineDynEnv found places) (lineDyn found) false 0 := by
  intro s t h
  simp only [lineDynEnv] at h
  split at h
  · rename_i d hd; exact ⟨d, hd, h⟩
  · cases h

/-- the hypotheses of `C176_step_partial` are met: the first foot is put down at 6, if a trajectory is found -/
example : UsesDynamic (lineDynEnv true [4]) (lineDyn true) false 0 ∧ (lineDynEnv true [4]).limbs.Nodup ∧ WellFormed (lineDynEnv true [4]).limbs lineState ∧
    (∀ n q, Reach.Orthogonal ((lineDyn true).kin.effector n q).rot) ∧ (∀ Ab c, ((lineDyn true).solve Ab c).1 = true → Reach.Sat Ab ((lineDyn true).solve Ab c).2) ∧
    ((computeContacts (lineDynEnv true [4]) false 10 lineState [2, 0, 5, 5] 3 0 true false).map fun r => (r.repositionedInPlace, r.result.contactPositions.find? 1)) = some (false, some ⟨6, 0, 0⟩) ∧
    ((computeContacts (lineDynEnv false [4]) false 10 lineState [2, 0, 5, 5] 3 0 true false).map fun r => r.result.contactPositions.find? 1) ≠ some (some ⟨6, 0, 0⟩) :=
  ⟨lineDyn_uses _ _, by decide, line_wellFormed [4], line_rotation, line_solver, by decide +kernel, by decide +kernel⟩

/-- **C176 is violated**: a step that only releases a contact is not tested.  The first foot is released although no trajectory is found, and although the robot cannot do so at rest. -/
theorem C176_violated : ∃ rep, computeContacts (lineDynEnv false []) false 10 lineState [2, 0, 5, 5] 2 0 true false = some rep ∧ rep.success = true ∧ rep.repositionedInPlace = false ∧
    rep.result.contacts.keys = [2, 3] ∧ (Reach.isReachableDynamic (lineDyn false) lineState rep.result true [] 0).map (fun d => d.res.status) = some .unreachable := by
  have hs : (computeContacts (lineDynEnv false []) false 10 lineState [2, 0, 5, 5] 2 0 true false).isSome = true := by decide +kernel
  obtain ⟨rep, hrep⟩ := Option.isSome_iff_exists.1 hs
  have hv : ((computeContacts (lineDynEnv false []) false 10 lineState [2, 0, 5, 5] 2 0 true false).map fun r => (r.success, r.repositionedInPlace, r.result.contacts.keys)) =
      some (true, false, [2, 3]) := by decide +kernel
  have h5 : ((computeContacts (lineDynEnv false []) false 10 lineState [2, 0, 5, 5] 2 0 true false).map fun r =>
      (Reach.isReachableDynamic (lineDyn false) lineState r.result true [] 0).map (fun d => d.res.status)) = some (some .unreachable) := by decide +kernel
  rw [hrep] at hv h5
  simp only [Option.map_some, Option.some.injEq, Prod.mk.injEq] at hv h5
  exact ⟨rep, hrep, hv.1, hv.2.1, hv.2.2, h5⟩

/-- **C176 is violated**: whatever the contacts, a state in which the robot has not moved counts as reachable: nothing is computed, and there is no path. -/
theorem C176_root_violated (robot : Reach.DynEnv N K C) (quasi : Bool) (points : ℕ) (s t : State N K) (h : s.configuration.take 3 = t.configuration.take 3) :
    ∃ d, Reach.isReachableDynamic robot s t quasi [] points = some d ∧ d.res.success = true ∧ d.path.isNone = true := by
  refine ⟨Reach.plain t .sameRootPosition, ?_, by simp [Reach.plain, Reach.Result.of, Reach.Result.success], rfl⟩
  unfold Reach.isReachableDynamic
  simp only
  rw [if_pos h]

end Interp
end Rbprm
