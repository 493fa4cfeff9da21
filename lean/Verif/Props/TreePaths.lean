import Verif.Props.RRT
import Verif.Props.Steering
set_option linter.unusedSectionVars false
/-!
# C196: motions between states, for planners that only use the steering method of the library

C151 assumes of the planner and of the optimisers of hpp-core that their solutions respect the constraints.  Here they may do anything, as long as they put together paths of
`TimeConstraintSteering` (`Paths.steer`) and parts of them (`TimeConstraintPath::extract`, also backwards) to a sequence from the start to the goal.
-/
namespace Rbprm
namespace RRT
open Interp Paths
variable {N K : Type _} [LinearOrder N] [Field K] [LinearOrder K] [IsStrictOrderedRing K]

/-- the configuration of the device with the extra degree of freedom at its end -/
def confList (q : Conf (List K) K) : List K := q.rest ++ [q.dof]

/-- an element of a solution: a path, as the user sees it -/
def elemOf (interp : List K → List K → K → List K) (p : TPath (List K) K) : Elem K where
  init := confList p.init
  fin := confList p.fin
  eval s := if (p.eval interp s).2 = true then some (confList (p.eval interp s).1) else none

/-- the constraints of a task in the projector of its problem: the squared errors (at the time of the configuration) are compared together with the threshold; `solve`: the iterations of the projector -/
def taskSet (body : Body N K) (solve : Task N K → List (Equation (List K) K) → K → Conf (List K) K → Conf (List K) K × Bool) (t : Task N K) : CSet (List K) K where
  projector := true
  equations := t.constraints.map fun c => ⟨fun q => errorSq body q.dof q.rest c, .given 0⟩
  small l := decide (l.sum ≤ t.threshold ^ 2)
  solve := solve t

/-- the paths that a planner for a task can have: those of the steering method, and parts of those, forwards or backwards -/
inductive Built (interp : List K → List K → K → List K) (distance : Conf (List K) K → Conf (List K) K → K) (c : CSet (List K) K) : TPath (List K) K → Prop
  | steered {q1 q2 : Conf (List K) K} {p : TPath (List K) K} (h : steer distance (some c) q1 q2 = some p) : Built interp distance c p
  | part {p q : TPath (List K) K} {a b : K} (hp : Built interp distance c p) (h : p.extract interp a b = .ok q) : Built interp distance c q

/-- a solution of a task made of such paths -/
def Assembled (body : Body N K) (solve : Task N K → List (Equation (List K) K) → K → Conf (List K) K → Conf (List K) K × Bool) (interp : List K → List K → K → List K)
    (distance : Conf (List K) K → Conf (List K) K → K) (t : Task N K) (l : List (Elem K)) : Prop :=
  ∃ ps : List (TPath (List K) K), l = ps.map (elemOf interp) ∧ (∀ p ∈ ps, Built interp distance (taskSet body solve t) p) ∧ Leads Elem.init Elem.fin t.start l t.goal

/-- planner and optimisers only assemble paths -/
structure Assembles (body : Body N K) (solve : Task N K → List (Equation (List K) K) → K → Conf (List K) K → Conf (List K) K × Bool) (interp : List K → List K → K → List K)
    (distance : Conf (List K) K → Conf (List K) K → K) (sv : Solver N K) : Prop where
  plan : ∀ r t l, sv.plan r t = some l → Assembled body solve interp distance t l
  random : ∀ t l, Assembled body solve interp distance t l → Assembled body solve interp distance t (sv.random t l)
  partial' : ∀ t l, Assembled body solve interp distance t l → Assembled body solve interp distance t (sv.partial' t l)

section
variable {body : Body N K} {solve : Task N K → List (Equation (List K) K) → K → Conf (List K) K → Conf (List K) K × Bool} {interp : List K → List K → K → List K}
  {distance : Conf (List K) K → Conf (List K) K → K}

theorem taskSet_from (t : Task N K) (q1 : Conf (List K) K) : (taskSet body solve t).equations.map (Equation.fromConfig q1) = (taskSet body solve t).equations := by
  simp only [taskSet, List.map_map]
  rfl

theorem small_accepted (t : Task N K) (dof : K) (q : Conf (List K) K) : (taskSet body solve t).small (errors (taskSet body solve t).equations dof q) = true ↔ Accepted body t (confList q) := by
  unfold Accepted confList errors
  simp only [taskSet, List.map_map, decide_eq_true_eq, List.dropLast_concat, List.getLastD_concat]
  rw [show (fun e : Equation (List K) K => e.f q - e.target dof) ∘ (fun c => (⟨fun q => errorSq body q.dof q.rest c, .given 0⟩ : Equation (List K) K)) = errorSq body q.dof q.rest from by
    funext c
    simp [Equation.target]]

theorem built_constr {t : Task N K} {p : TPath (List K) K} (h : Built interp distance (taskSet body solve t) p) :
    p.constr = some (taskSet body solve t).constr ∧ Accepted body t (confList p.init) ∧ Accepted body t (confList p.fin) := by
  induction h with
  | steered h =>
    obtain ⟨⟨h1, h2⟩, rfl⟩ := (steer_spec distance _ rfl _ _ _).1 h
    unfold Respects at h1 h2
    rw [← errors_from, taskSet_from, small_accepted] at h1 h2
    refine ⟨?_, h1, h2⟩
    simp only [taskSet_from]
  | part hp h ih =>
    obtain ⟨-, -, e, hc⟩ := C58_extract_checked interp _ _ _ _ h
    obtain ⟨h1, h2⟩ := hc _ ih.1
    simp only [CSet.constr] at h1 h2
    exact ⟨e.trans ih.1, (small_accepted t _ _).1 h1, (small_accepted t _ _).1 h2⟩

/-- **C196 (edges)**.  Each path of the steering method and each part of it respects the constraints of the task at its ends and wherever it can be evaluated. -/
theorem C196_edge {t : Task N K} (hs : Paths.Solves (taskSet body solve t)) {p : TPath (List K) K} (h : Built interp distance (taskSet body solve t) p) :
    Accepted body t (elemOf interp p).init ∧ Accepted body t (elemOf interp p).fin ∧ ∀ s q, (elemOf interp p).eval s = some q → Accepted body t q := by
  obtain ⟨hc, h1, h2⟩ := built_constr h
  refine ⟨h1, h2, fun s q hq => ?_⟩
  simp only [elemOf] at hq
  split_ifs at hq with he
  rw [Option.some.injEq] at hq
  subst hq
  have e : p.eval interp s = solve t (taskSet body solve t).equations (p.raw interp s).dof (p.raw interp s) := by
    unfold TPath.eval
    rw [hc]
    rfl
  rw [e] at he ⊢
  exact (small_accepted t _ _).1 (hs.sound _ _ _ he)

theorem assembled_solves (hs : ∀ t, Paths.Solves (taskSet body solve t)) {t : Task N K} {l : List (Elem K)} (h : Assembled body solve interp distance t l) : Solves body t l := by
  obtain ⟨ps, rfl, hb, hl⟩ := h
  refine ⟨hl, fun e he => ?_⟩
  obtain ⟨p, hp, rfl⟩ := List.mem_map.1 he
  exact C196_edge (hs t) (hb p hp)

open Classical in
/-- the same planner, with optimisers that leave alone what is not assembled -/
noncomputable def careful (body : Body N K) (solve : Task N K → List (Equation (List K) K) → K → Conf (List K) K → Conf (List K) K × Bool) (interp : List K → List K → K → List K)
    (distance : Conf (List K) K → Conf (List K) K → K) (sv : Solver N K) : Solver N K where
  plan := sv.plan
  random t l := if Assembled body solve interp distance t l then sv.random t l else l
  partial' t l := if Assembled body solve interp distance t l then sv.partial' t l else l

theorem careful_contract (hs : ∀ t, Paths.Solves (taskSet body solve t)) {sv : Solver N K} (ha : Assembles body solve interp distance sv) : Contract body (careful body solve interp distance sv) where
  plan r t l h := assembled_solves hs (ha.plan r t l h)
  random t l h := by
    simp only [careful]
    split_ifs with hA
    · exact assembled_solves hs (ha.random t l hA)
    · exact h
  partial' t l h := by
    simp only [careful]
    split_ifs with hA
    · exact assembled_solves hs (ha.partial' t l hA)
    · exact h

theorem iterate_same {α : Type _} {f g : α → α} {P : α → Prop} (hg : ∀ x, P x → g x = f x) (hf : ∀ x, P x → P (f x)) (n : ℕ) {x : α} (hx : P x) : g^[n] x = f^[n] x ∧ P (f^[n] x) := by
  induction n generalizing x with
  | zero => exact ⟨rfl, hx⟩
  | succ n ih =>
    rw [Function.iterate_succ_apply, Function.iterate_succ_apply, hg x hx]
    exact ih (hf x hx)

theorem careful_attempt {sv : Solver N K} (ha : Assembles body solve interp distance sv) (num : ℕ) (tasks : List (Task N K)) : attempt (careful body solve interp distance sv) num tasks = attempt sv num tasks := by
  funext r i
  unfold attempt
  split
  · rfl
  · rename_i t _
    show (sv.plan r t).map _ = _
    cases h : sv.plan r t with
    | none => rfl
    | some l =>
      simp only [Option.map_some, Option.some.injEq, optimize]
      obtain ⟨e1, h1⟩ := iterate_same (g := (careful body solve interp distance sv).random t) (f := sv.random t) (P := Assembled body solve interp distance t)
        (fun x hx => if_pos hx) (fun x hx => ha.random t x hx) num (ha.plan r t l h)
      rw [e1]
      exact (iterate_same (g := (careful body solve interp distance sv).partial' t) (f := sv.partial' t) (P := Assembled body solve interp distance t)
        (fun x hx => if_pos hx) (fun x hx => ha.partial' t x hx) num h1).1

theorem careful_tasks {sv : Solver N K} (ha : Assembles body solve interp distance sv) (mc : Machine K) (num : ℕ) (keep : Bool) (tasks : List (Task N K)) :
    interpolateTasks (careful body solve interp distance sv) mc num keep tasks = interpolateTasks sv mc num keep tasks := by
  unfold interpolateTasks
  rw [careful_attempt ha]

/-- **C196 (limbRRT)**.  Whatever planner and optimisers assemble from the paths of the steering method, a motion that limbRRT returns goes through all states and keeps the contacts that two consecutive states share within 1 mm of their place. -/
theorem C196_limbRRT (hs : ∀ t, Paths.Solves (taskSet body solve t)) (sv : Solver N K) (ha : Assembles body solve interp distance sv) (robot : Robot N K)
    (hl : ∀ n l, robot.climbs.find? n = some l → Orthogonal l.placement) (extra : K) (mc : Machine K) (hm : mc.Ok) (steerRef : List K → List K → RefPath (List K) K)
    (states : List (State N K)) (h2 : 2 ≤ states.length) (hok : ∀ s ∈ states, StateOk robot s) (num maxIterations : ℕ) (l : List (Elem K))
    (h : limbRRT robot extra sv mc steerRef states num maxIterations = .path l) : Through body robot.climbs (1 / 1000) states l := by
  refine C151_limbRRT body robot hl extra (careful body solve interp distance sv) (careful_contract hs ha) mc hm steerRef states h2 hok num maxIterations l ?_
  rw [← h]
  unfold limbRRT
  simp only [careful_tasks ha]

/-- **C196 (limbRRTFromPath)** -/
theorem C196_limbRRTFromPath (hs : ∀ t, Paths.Solves (taskSet body solve t)) (sv : Solver N K) (ha : Assembles body solve interp distance sv) (robot : Robot N K)
    (hl : ∀ n l, robot.climbs.find? n = some l → Orthogonal l.placement) (extra : K) (mc : Machine K) (hm : mc.Ok) (extract : K → K → RefPath (List K) K)
    (frames : List (K × State N K)) (h2 : 2 ≤ frames.length) (hok : ∀ s ∈ frames, StateOk robot s.2) (num : ℕ) (l : List (Elem K))
    (h : limbRRTFromPath robot extra sv mc extract frames num = .path l) : Through body robot.climbs (1 / 1000) (frames.map Prod.snd) l := by
  refine C151_limbRRTFromPath body robot hl extra (careful body solve interp distance sv) (careful_contract hs ha) mc hm extract frames h2 hok num l ?_
  rw [← h]
  unfold limbRRTFromPath
  simp only [careful_tasks ha]

/-- **C196 (comRRTFromPath)** -/
theorem C196_comRRTFromPath (hs : ∀ t, Paths.Solves (taskSet body solve t)) (sv : Solver N K) (ha : Assembles body solve interp distance sv) (robot : Robot N K)
    (hl : ∀ n l, robot.climbs.find? n = some l → Orthogonal l.placement) (extra : K) (mc : Machine K) (hm : mc.Ok) (comPath : RefPath (Vec3 K) K) (guide : RefPath (List K) K)
    (frames : List (K × State N K)) (h2 : 2 ≤ frames.length) (hok : ∀ s ∈ frames, StateOk robot s.2) (num : ℕ) (l : List (Elem K))
    (h : comRRTFromPath robot extra sv mc comPath guide frames num = .path l) : Through body robot.climbs (1 / 1000) (frames.map Prod.snd) l := by
  refine C151_comRRTFromPath body robot hl extra (careful body solve interp distance sv) (careful_contract hs ha) mc hm comPath guide frames h2 hok num l ?_
  rw [← h]
  unfold comRRTFromPath
  simp only [careful_tasks ha]

/-- **C196 (comRRT)** (the planner of comRRT has a threshold of 5 cm: see `C151_tolerance_violated`) -/
theorem C196_comRRT (hs : ∀ t, Paths.Solves (taskSet body solve t)) (sv : Solver N K) (ha : Assembles body solve interp distance sv) (robot : Robot N K)
    (hl : ∀ n l, robot.climbs.find? n = some l → Orthogonal l.placement) (extra : K) (mc mc' : Machine K) (hm : mc'.Ok) (steerRef : List K → List K → RefPath (List K) K)
    (unconstrained : List K → List K → Option (List (Elem K))) (toPath : List (Elem K) → RefPath (List K) K) (comPath : RefPath (Vec3 K) K) (start next : State N K)
    (hst : StateOk robot start) (hn : StateOk robot next) (num : ℕ) (l : List (Elem K))
    (h : comRRT robot extra sv mc mc' steerRef unconstrained toPath comPath start next num false = .path l) : Motion body robot.climbs (1 / 20) start next l := by
  refine (C151_comRRT_partial body robot hl extra (careful body solve interp distance sv) (careful_contract hs ha) mc mc' hm steerRef unconstrained toPath comPath start next hst hn num).1 l ?_
  rw [← h]
  unfold comRRT guidePath limbRRT
  simp only [careful_tasks ha]

end

/-! ## a planner that tries the straight path, with a projector -/

/-- the device part and the extra degree of freedom of a configuration -/
def splitList (l : List ℚ) : Conf (List ℚ) ℚ := ⟨l.dropLast, l.getLastD 0⟩

/-- put the point down -/
def down (q : Conf (List ℚ) ℚ) : Conf (List ℚ) ℚ := ⟨[0], q.dof⟩

/-- a projector: if the configuration does not respect the constraints the point is put down -/
def downSolve (t : Task ℕ ℚ) (es : List (Equation (List ℚ) ℚ)) (dof : ℚ) (q : Conf (List ℚ) ℚ) : Conf (List ℚ) ℚ × Bool :=
  if (errors es dof q).sum ≤ t.threshold ^ 2 then (q, true) else if (errors es dof (down q)).sum ≤ t.threshold ^ 2 then (down q, true) else (q, false)

theorem downSolve_solves (t : Task ℕ ℚ) : Paths.Solves (taskSet demoBody downSolve t) where
  sound es dof q h := by
    simp only [taskSet, downSolve] at h ⊢
    split_ifs at h ⊢ with h1 h2
    · simpa using h1
    · simpa using h2
  dof es dof q := by
    simp only [taskSet, downSolve]
    split_ifs <;> rfl
  fixed es dof q h := by
    simp only [taskSet, downSolve] at h ⊢
    rw [if_pos (by simpa using h)]

/-- an interpolation that lifts the point by up to 25 cm -/
def hop (_ _ : List ℚ) (u : ℚ) : List ℚ := [u * (1 - u)]

/-- the discrete distance -/
def apart (a b : Conf (List ℚ) ℚ) : ℚ := if a.rest = b.rest ∧ a.dof = b.dof then 0 else 1

/-- the straight path between start and goal, if the steering method has it -/
def straightSolver : Solver ℕ ℚ where
  plan _ t := if confList (splitList t.start) = t.start ∧ confList (splitList t.goal) = t.goal then
    (steer apart (some (taskSet demoBody downSolve t)) (splitList t.start) (splitList t.goal)).map fun p => [elemOf hop p] else none
  random _ l := l
  partial' _ l := l

theorem straight_assembles : Assembles demoBody downSolve hop apart straightSolver where
  plan r t l h := by
    simp only [straightSolver] at h
    split_ifs at h with hc
    cases hp : steer apart (some (taskSet demoBody downSolve t)) (splitList t.start) (splitList t.goal) with
    | none => rw [hp] at h; cases h
    | some p =>
      rw [hp] at h
      cases h
      refine ⟨[p], rfl, ?_, ?_⟩
      · rintro q hq
        rw [List.mem_singleton] at hq
        subst hq
        exact .steered hp
      · obtain ⟨-, rfl⟩ := (steer_spec _ _ rfl _ _ _).1 hp
        exact ⟨hc.1, hc.2⟩
  random _ _ h := h
  partial' _ _ h := h

/-- the path of this planner for the demo -/
def hopPath (path : RefPath (List ℚ) ℚ) (thr : ℚ) (mi : ℕ) : TPath (List ℚ) ℚ := ⟨⟨[0], 0⟩, ⟨[0], 1⟩, 1, some (taskSet demoBody downSolve (demoTask path thr mi)).constr⟩

theorem straight_plan (path : RefPath (List ℚ) ℚ) (thr : ℚ) (mi r : ℕ) : straightSolver.plan r (demoTask path thr mi) = some [elemOf hop (hopPath path thr mi)] := by
  have h0 : (0 : ℚ) ≤ thr ^ 2 := sq_nonneg _
  have hst : steer apart (some (taskSet demoBody downSolve (demoTask path thr mi))) ⟨[0], 0⟩ ⟨[0], 1⟩ = some (hopPath path thr mi) := by
    rw [steer_spec _ _ rfl]
    unfold Respects
    rw [← errors_from, ← errors_from, taskSet_from, small_accepted, small_accepted]
    refine ⟨⟨?_, ?_⟩, ?_⟩
    · simpa [Accepted, confList, demoTask, errorSq, demoBody, Vec3.normSq, Vec3.dot] using h0
    · simpa [Accepted, confList, demoTask, errorSq, demoBody, Vec3.normSq, Vec3.dot] using h0
    · simp [hopPath, apart]
  have e1 : splitList (demoTask path thr mi).start = ⟨[0], 0⟩ := rfl
  have e2 : splitList (demoTask path thr mi).goal = ⟨[0], 1⟩ := rfl
  simp only [straightSolver, e1, e2, hst]
  rw [if_pos ⟨rfl, rfl⟩]
  rfl

/-- non-vacuity of `C196_limbRRT`: the planner assembles, and limbRRT returns its path; between the states the interpolation lifts the point, the path does not -/
example (ref : List ℚ → List ℚ → RefPath (List ℚ) ℚ) : ∃ l, limbRRT demoRobot 0 straightSolver demoMachine ref [oneContact 0, oneContact 0] 1 100 = .path l ∧
    ∃ e ∈ l, e.eval (1 / 2) = some [0] := by
  have ht : limbTasks demoRobot 0 ref 100 [oneContact 0, oneContact 0] = some [demoTask (ref (oneContact 0).configuration (oneContact 0).configuration) (1 / 1000) 100] := by
    unfold limbTasks tasksOf
    simp only [pairs, List.map_cons, List.map_nil, id, demo_task, sequence]
  set pth := ref (oneContact 0).configuration (oneContact 0).configuration
  refine ⟨[reduce false (elemOf hop (hopPath pth (1 / 1000) 100))], ?_, _, List.mem_singleton_self _, ?_⟩
  · unfold limbRRT
    rw [ht]
    have ha : ∀ r, attempt straightSolver 1 [demoTask pth (1 / 1000) 100] r 0 = some [elemOf hop (hopPath pth (1 / 1000) 100)] := by
      intro r
      simp only [attempt, List.getElem?_cons_zero, straight_plan]
      rfl
    show interpolateTasks straightSolver demoMachine 1 false [demoTask pth (1 / 1000) 100] = _
    unfold interpolateTasks
    have hm : demoMachine.Ok := fun r l => List.Perm.refl _
    rw [(C61_result (reduce false) [demoTask pth (1 / 1000) 100].length (by simp) (by simp) (attempt straightSolver 1 [demoTask pth (1 / 1000) 100])
      _ (schedule_ok hm _ _) demoMachine.memory demoMachine.rounds).1 0 (by simp [demoMachine]) (fun r' hr' => by omega)
      (fun _ => [elemOf hop (hopPath pth (1 / 1000) 100)]) (fun i hi => ?_)]
    · rfl
    · simp only [List.length_singleton, Nat.lt_one_iff] at hi
      subst hi
      exact ha 0
  · have e : (hopPath pth (1 / 1000) 100).eval hop (1 / 2) = (⟨[0], 1 / 2⟩, true) := by
      norm_num [hopPath, TPath.eval, TPath.raw, CSet.constr, taskSet, downSolve, down, errors, Equation.target, demoTask, errorSq, demoBody, Vec3.normSq, Vec3.dot, hop, extraDof]
    show Option.map List.dropLast (if ((hopPath pth (1 / 1000) 100).eval hop (1 / 2)).2 = true then some (confList ((hopPath pth (1 / 1000) 100).eval hop (1 / 2)).1) else none) = _
    rw [e]
    rfl
end RRT
end Rbprm
