import Verif.Model.EffectorMotion
import Verif.Props.Effector
import Verif.Props.RRT
set_option linter.unusedSectionVars false
/-!
# C197: the whole-body motion of effectorRRT
-/
namespace Rbprm
namespace Effector
open Interp Sampling RRT Registry Paths
variable {N K L C F : Type _} [LinearOrder N] [Field K] [LinearOrder K] [IsStrictOrderedRing K]

/-! ## Specification -/

/-- configuration `q`, at the fraction `u` of the motion: the contacts that both states share are kept, the centre of mass and the effector are where their references are at this fraction, and so are the orientations of the
constrained joints, all within `tol`; `T` is the duration of the reference `ref` of the effector, `shift` is added to it -/
structure Follows (body : Body N K) (limbs : AMap N (CLimb K)) (tol : K) (want : Wanted N K) (shift : Vec3 K) (ref : K → Vec3 K) (T : K) (eff : N) (s0 s1 : State N K) (u : K) (q : List K) : Prop where
  contacts : KeepsContacts body limbs tol s0 s1 q
  com : Vec3.distSq (body.kin.com q) (want.comPath.eval (want.comPath.first + u * (want.comPath.last - want.comPath.first))) ≤ tol ^ 2
  effector : Vec3.distSq (body.kin.pos eff q) (ref (u * T) + shift) ≤ tol ^ 2
  joints : ∀ r, want.refFull = some r → ∀ j ∈ want.joints, body.angleSq (body.kin.jointRot j q) (body.kin.jointRot j (r.eval (r.first + u * (r.last - r.first)))) ≤ tol ^ 2

/-! ## Lemmas -/

theorem effectorTask_spec {robot : Robot N K} {extra : K} {garbage : Vec3 K} {want : Wanted N K} {wholeRef : RefPath (Vec3 K) K} {shooter : RefPath (List K) K} {eff : N} {s0 s1 : State N K} {r : Reference K} {t : Task N K}
    (ha : s0.configuration.length = robot.current.length) (hb : s1.configuration.length = robot.current.length)
    (h : effectorTask robot extra garbage want wholeRef shooter eff s0 s1 r = some t) :
    t.start = s0.configuration ++ [0] ∧ t.goal = s1.configuration ++ [1] ∧ t.threshold = 1 / 1000 ∧ ∃ contacts,
      addContactConstraints robot.climbs s0 (State.fixedContacts s1 s0) = some contacts ∧
      t.constraints = contacts ++ [.com want.comPath, .effector eff garbage (r.path wholeRef)] ++
        (match want.refFull with
        | none => []
        | some ref => want.joints.map fun j => .jointOrientation j ref) := by
  unfold effectorTask at h
  rw [C123_ends _ s0 (by simp [ha]), C123_ends _ s1 (by simp [hb])] at h
  split at h
  · rename_i cs s g h1 h2 h3
    cases h
    cases h2
    cases h3
    refine ⟨rfl, rfl, rfl, ?_⟩
    unfold effectorRRTConstraints at h1
    split at h1
    · cases h1
    · rename_i c hc
      cases h1
      refine ⟨c, hc, ?_⟩
      dsimp only
      cases want.refFull <;> rfl
  · cases h

theorem rhs_eq {V : Type _} (ref : RefPath V K) (u : K) : rhs ref u = ref.eval (ref.first + u * (ref.last - ref.first)) := by
  unfold rhs
  congr 1
  ring

theorem distSq_eq (a b : Vec3 K) : Vec3.distSq a b = Vec3.normSq (a - b) := rfl

theorem sub_sub_eq (a b c : Vec3 K) : a - b - c = a - (c + b) := by
  ext <;> simp <;> ring

theorem accepted_follows (body : Body N K) {robot : Robot N K} (hl : ∀ n l, robot.climbs.find? n = some l → Orthogonal l.placement) {extra : K} {garbage : Vec3 K} {want : Wanted N K} {wholeRef : RefPath (Vec3 K) K}
    {shooter : RefPath (List K) K} {eff : N} {s0 s1 : State N K} (h0 : StateOk robot s0) (h1 : StateOk robot s1) {p : Triple K} {t : Task N K}
    (h : effectorTask robot extra garbage want wholeRef shooter eff s0 s1 (.bezier p) = some t) (q : List K) (hq : Accepted body t q) :
    Follows body robot.climbs (1 / 1000) want garbage p.eval (p.tTakeoff + p.tMid + p.tLanding) eff s0 s1 (q.getLastD 0) q.dropLast := by
  obtain ⟨-, -, ht, contacts, hc, hcs⟩ := effectorTask_spec h0.2 h1.2 h
  have each := accepted_each body t q hq
  rw [ht] at each
  refine ⟨?_, ?_, ?_, ?_⟩
  · have hc' : Accepted body { t with constraints := contacts } q := by
      refine le_trans ?_ hq
      simp only [hcs, List.map_append, List.sum_append]
      have n1 : ∀ l : List (Constraint N (List K) K), 0 ≤ (l.map (errorSq body (q.getLastD 0) q.dropLast)).sum := by
        intro l
        refine List.sum_nonneg ?_
        intro x hx
        obtain ⟨c, -, rfl⟩ := List.mem_map.1 hx
        exact errorSq_nonneg _ _ _ _
      have a1 := n1 [.com want.comPath, .effector eff garbage ((Reference.bezier p).path wholeRef)]
      have a2 := n1 (match want.refFull with
        | none => []
        | some ref => want.joints.map fun j => .jointOrientation j ref)
      linarith
    have := accepted_keeps body h0.1 h1.1 hl (t := { t with constraints := contacts }) hc q hc'
    rwa [show ({ t with constraints := contacts } : Task N K).threshold = 1 / 1000 from ht] at this
  · have := each (.com want.comPath) (by rw [hcs]; simp)
    simp only [errorSq, rhs_eq] at this
    rwa [distSq_eq]
  · have := each (.effector eff garbage ((Reference.bezier p).path wholeRef)) (by rw [hcs]; simp)
    simp only [errorSq, rhs_eq, Reference.path] at this
    rw [distSq_eq, ← sub_sub_eq]
    rwa [zero_add, sub_zero] at this
  · intro r hr j hj
    have := each (.jointOrientation j r) (by rw [hcs, hr]; exact List.mem_append_right _ (List.mem_map.2 ⟨j, hj, rfl⟩))
    simpa only [errorSq, rhs_eq] using this

theorem followMotion_path (body : Body N K) {robot : Robot N K} (hl : ∀ n l, robot.climbs.find? n = some l → Orthogonal l.placement) {extra : K} {garbage : Vec3 K} {sv : ℕ → Solver N K} (hc : ∀ i, RRT.Contract body (sv i))
    {mc : ℕ → Machine K} (hm : ∀ i, (mc i).Ok) {want : Wanted N K} {wholeRef : RefPath (Vec3 K) K}
    {shooter : RefPath (List K) K} {eff : N} {s0 s1 : State N K} (h0 : StateOk robot s0) (h1 : StateOk robot s1) {p : Triple K} {i : ℕ} {l : List (Elem K)}
    (h : followMotion robot extra garbage sv mc want wholeRef shooter eff s0 s1 i (.bezier p) = .path l) :
    ∃ l', l = l'.map (reduce want.keepExtraDof) ∧ Leads Elem.init Elem.fin (s0.configuration ++ [0]) l' (s1.configuration ++ [1]) ∧
      ∀ e ∈ l', ∀ s q, e.eval s = some q → Follows body robot.climbs (1 / 1000) want garbage p.eval (p.tTakeoff + p.tMid + p.tLanding) eff s0 s1 (q.getLastD 0) q.dropLast := by
  unfold followMotion at h
  split at h
  · cases h
  · rename_i t ht
    split at h <;> cases h
    rename_i hi
    obtain ⟨f, hf, rfl⟩ := interpolateTasks_path (hc i) (hm i) 1 want.keepExtraDof [t] (by simp) l hi
    obtain ⟨e0, e1, -, -⟩ := effectorTask_spec h0.2 h1.2 ht
    have hs := hf 0 t rfl
    refine ⟨f 0, by simp, ?_, fun e he s q hq => accepted_follows body hl h0 h1 ht q ((hs.2 e he).2.2 s q hq)⟩
    have := hs.1
    rwa [e0, e1] at this

/-- the contact constraints of an attempt exist if comRRT has returned -/
theorem effectorTask_some {robot : Robot N K} {extra : K} {sv : Solver N K} {mc mc' : Machine K} {steer : List K → List K → RefPath (List K) K} {unconstrained : List K → List K → Option (List (Elem K))}
    {toPath : List (Elem K) → RefPath (List K) K} {comPath : RefPath (Vec3 K) K} {s0 s1 : State N K} {num : ℕ} {keep : Bool} {l : List (Elem K)}
    (h : comRRT robot extra sv mc mc' steer unconstrained toPath comPath s0 s1 num keep = .path l) (garbage : Vec3 K) (want : Wanted N K) (wholeRef : RefPath (Vec3 K) K) (shooter : RefPath (List K) K) (eff : N)
    (r : Reference K) : (effectorTask robot extra garbage want wholeRef shooter eff s0 s1 r).isSome := by
  obtain ⟨g, t, -, ht, -⟩ := comRRT_cases h
  unfold task at ht
  split at ht
  · rename_i cs st go h1 h2 h3
    unfold effectorTask effectorRRTConstraints
    rw [h1, h2, h3]
    rfl
  · cases ht

/-! ## C197 -/

/-- **C197** (partial: see `C197_size_violated`, `C197_shift_violated`).  When effectorRRT returns, either the motion leads from the first to the second state, and wherever it can be evaluated the contacts that both states share, the centre of
mass and the effector are within 1 mm of their references at the same fraction of the time, where the reference of the effector has been added to the paths of the problem, begins at rest at the position of the effector in
the first state, ends at rest at that in the second one and is smooth; or the motion is that of comRRT.  With `keepExtraDof` the fraction is the last coordinate of the configuration. -/
theorem C197_partial (T : Tools N K) (body : Body N K) (hlib : Contract T.lib) (hc : RRT.Contract body T.sv) (hcs : ∀ i, RRT.Contract body (T.svs i)) (hm : T.mc'.Ok) (hms : ∀ i, (T.mcs i).Ok) (robot : Robot N K)
    (hl : ∀ n l, robot.climbs.find? n = some l → Orthogonal l.placement) (want : Wanted N K) (comLength : K) (hlen : 7 / 10 < comLength) (eff frame : N) (s0 s1 : State N K) (h0 : StateOk robot s0) (h1 : StateOk robot s1)
    (num : ℕ) (w w' : World N L C F (List (Elem K)) K) (l : List (Elem K)) (h : effectorMotion T body.kin robot want comLength eff frame s0 s1 num w = .returns l w') :
    (∃ guide p n0 n1, w'.paths = w.paths ++ [.wholeBody guide, .effector p] ∧ s0.contactNormals.find? eff = some n0 ∧ s1.contactNormals.find? eff = some n1 ∧
        Smooth p (posOffset (3 / 100) (comLength - 1 / 10) (3 / 10)) (comLength - 1 / 10) n0 n1 (body.kin.pos eff s0.configuration) (body.kin.pos eff s1.configuration) ∧
        (want.keepExtraDof = false → Leads Elem.init Elem.fin s0.configuration l s1.configuration ∧ ∀ e ∈ l, ∀ t q, e.eval t = some q → ∃ u,
          Follows body robot.climbs (1 / 1000) want T.garbage p.eval (comLength - 1 / 10) eff s0 s1 u q) ∧
        (want.keepExtraDof = true → Leads Elem.init Elem.fin (s0.configuration ++ [0]) l (s1.configuration ++ [1]) ∧ ∀ e ∈ l, ∀ t q, e.eval t = some q →
          Follows body robot.climbs (1 / 1000) want T.garbage p.eval (comLength - 1 / 10) eff s0 s1 (q.getLastD 0) q.dropLast)) ∨
    (w'.paths = w.paths ++ [.wholeBody l] ∧ comRRT robot T.extra T.sv T.mc T.mc' T.steer T.unconstrained T.toPath want.comPath s0 s1 num true = .path l ∧
      Leads Elem.init Elem.fin (s0.configuration ++ [0]) l (s1.configuration ++ [1]) ∧ ∀ e ∈ l, ∀ t q, e.eval t = some q → KeepsContacts body robot.climbs (1 / 20) s0 s1 q.dropLast) := by
  unfold effectorMotion at h
  split at h
  · cases h
  · cases h
  rename_i g hg
  have hcom := (C151_comRRT_partial body robot hl T.extra T.sv hc T.mc T.mc' hm T.steer T.unconstrained T.toPath want.comPath s0 s1 h0 h1 num).2 g hg
  unfold effectorRRT at h
  simp only at h
  split_ifs at h
  · cases h
    exact Or.inr ⟨rfl, hg, hcom⟩
  · cases e0 : s0.contactNormals.find? eff with
    | none => simp only [fromPath, fit, e0] at h; cases h
    | some n0 =>
      cases e1 : s1.contactNormals.find? eff with
      | none => simp only [fromPath, fit, e0, e1] at h; cases h
      | some n1 =>
        rcases C126_returns T.lib comLength T.vel T.acc eff frame s0 s1 _ _ n0 n1 _ g _ w' l e0 e1 h with ⟨k, p, hk, hf, -, hp, -⟩ | ⟨-, rfl, rfl⟩
        · left
          obtain ⟨l', rfl, hl1, hl2⟩ := followMotion_path body hl hcs hms h0 h1 hf
          have hsm : Smooth p (posOffset (3 / 100) (comLength - 1 / 10) (3 / 10)) (comLength - 1 / 10) n0 n1 (body.kin.pos eff s0.configuration) (body.kin.pos eff s1.configuration) := by
            unfold attempt at hk
            rw [Option.map_eq_some_iff] at hk
            obtain ⟨a, -, ha⟩ := hk
            unfold toReference at ha
            split at ha
            · rename_i q hq
              cases ha
              exact smooth_of T.lib hlib _ comLength T.vel T.acc n0 n1 _ _ _ _ hlen p hq
            · cases ha
          rw [hsm.durations.2.2] at hl2
          refine ⟨g, p, n0, n1, by rw [hp]; simp, rfl, rfl, hsm, fun hk => ?_, fun hk => ?_⟩
          · rw [hk]
            constructor
            · have := leads_map (i := Elem.init) (f := Elem.fin) (i' := Elem.init) (f' := Elem.fin) List.dropLast (reduce (K := K) false) (fun _ => rfl) (fun _ => rfl) l' _ _ hl1
              simpa using this
            · intro e he t q hq
              obtain ⟨e', he', rfl⟩ := List.mem_map.1 he
              simp only [reduce, Bool.false_eq_true, if_false] at hq
              obtain ⟨q', hq', rfl⟩ := Option.map_eq_some_iff.1 hq
              exact ⟨_, hl2 e' he' t q' hq'⟩
          · rw [hk]
            have hr : l'.map (reduce true) = l' := by
              rw [show (reduce true : Elem K → Elem K) = id from by funext e; simp [reduce]]
              simp
            rw [hr]
            exact ⟨hl1, hl2⟩
        · exact Or.inr ⟨rfl, hg, hcom⟩

/-- **C197 is violated** for the size of the configurations: when the effector moves by less than 3 cm, the motion of comRRT is returned, which has the extra degree of freedom, whether the caller wants it or not: it does not begin at the
configuration of the first state. -/
theorem C197_size_violated (T : Tools N K) (body : Body N K) (hc : RRT.Contract body T.sv) (hm : T.mc'.Ok) (robot : Robot N K) (hl : ∀ n l, robot.climbs.find? n = some l → Orthogonal l.placement) (want : Wanted N K)
    (comLength : K) (eff frame : N) (s0 s1 : State N K) (h0 : StateOk robot s0) (h1 : StateOk robot s1) (num : ℕ) (w : World N L C F (List (Elem K)) K) (l : List (Elem K))
    (hg : comRRT robot T.extra T.sv T.mc T.mc' T.steer T.unconstrained T.toPath want.comPath s0 s1 num true = .path l) (hd : State.effectorDistanceSq s0 s1 < (3 / 100) ^ 2) :
    (∃ w', effectorMotion T body.kin robot want comLength eff frame s0 s1 num w = .returns l w') ∧ ¬ Leads Elem.init Elem.fin s0.configuration l s1.configuration := by
  constructor
  · refine ⟨⟨w.paths ++ [.wholeBody l], w.body⟩, ?_⟩
    unfold effectorMotion
    rw [hg]
    unfold effectorRRT
    simp only
    rw [if_pos (by norm_num at hd ⊢; exact hd)]
  · have hcom := ((C151_comRRT_partial body robot hl T.extra T.sv hc T.mc T.mc' hm T.steer T.unconstrained T.toPath want.comPath s0 s1 h0 h1 num).2 l hg).1
    cases l with
    | nil =>
      have : s0.configuration ++ [(0 : K)] = s1.configuration ++ [1] := hcom
      have := congrArg (fun l => l.getLastD 0) this
      simp at this
    | cons e l =>
      intro h
      have a1 : e.init = s0.configuration ++ [0] := hcom.1
      have a2 : e.init = s0.configuration := h.1
      have := congrArg List.length (a1.symm.trans a2)
      simp at this

theorem sq_le_of_distSq {a b : Vec3 K} {tol : K} (ht : 0 ≤ tol) (h : Vec3.distSq a b ≤ tol ^ 2) : |a.x - b.x| ≤ tol := by
  refine abs_le_of_sq_le_sq ?_ ht
  refine le_trans ?_ h
  rw [distSq_eq]
  unfold Vec3.normSq Vec3.dot
  have := mul_self_nonneg (a - b).y
  have := mul_self_nonneg (a - b).z
  simp only [Vec3.sub_x, Vec3.sub_y, Vec3.sub_z] at *
  linarith [sq (a.x - b.x)]

/-- **C197 is violated** for the effector when the memory of the default argument of its constraint is not 0 (here by more than 2 mm along the first axis): no configuration of the motion has the effector within 1 mm of its reference. -/
theorem C197_shift_violated {body : Body N K} {limbs : AMap N (CLimb K)} {want : Wanted N K} {shift : Vec3 K} {ref : K → Vec3 K} {T : K} {eff : N} {s0 s1 : State N K} {u : K} {q : List K}
    (h : Follows body limbs (1 / 1000) want shift ref T eff s0 s1 u q) (hs : 1 / 500 < |shift.x|) : ¬ Vec3.distSq (body.kin.pos eff q) (ref (u * T)) ≤ (1 / 1000) ^ 2 := by
  intro h'
  have a := sq_le_of_distSq (by norm_num) h.effector
  have b := sq_le_of_distSq (by norm_num) h'
  rw [Vec3.add_x] at a
  rw [abs_le] at a b
  have : |shift.x| ≤ 1 / 500 := by
    rw [abs_le]
    constructor <;> linarith [a.1, a.2, b.1, b.2]
  linarith

/-! ### a robot that moves its effector along the reference -/

/-- a point with three coordinates -/
def pointBody : Body ℕ ℚ where
  kin := ⟨fun _ q => ⟨q.getD 0 0, q.getD 1 0, q.getD 2 0⟩, fun _ _ => Mat3.one, fun _ => 0⟩
  angleSq := fun _ _ => 0
  nonneg := fun _ _ => le_refl _
  invariant := fun _ _ _ _ => rfl

/-- the state in which the point touches at a distance `d` -/
def pointAt (d : ℚ) : State ℕ ℚ := { stepAt d with configuration := [d, 0, 0] }

/-- its robot -/
def pointRobot : Robot ℕ ℚ := ⟨[(1, ⟨false, Mat3.one⟩)], [(1, [])], [0, 0, 0]⟩

/-- the motion that is exactly where the constraint of the effector wants it, if there is one -/
def exact (t : Task ℕ ℚ) : Elem ℚ :=
  ⟨t.start, t.goal, fun u => t.constraints.findSome? fun c =>
    match c with
    | .effector _ g ref => some [(rhs ref u + g).x, (rhs ref u + g).y, (rhs ref u + g).z, u]
    | _ => none⟩

open Classical in
/-- a planner that answers with this motion when it is a solution -/
noncomputable def exactSolver : Solver ℕ ℚ where
  plan := fun _ t => if Solves pointBody t [exact t] then some [exact t] else none
  random := fun _ l => l
  partial' := fun _ l => l

theorem exactSolver_contract : RRT.Contract pointBody exactSolver where
  plan := by
    intro r t l hl
    simp only [exactSolver] at hl
    split at hl
    · rename_i hs; cases hl; exact hs
    · cases hl
  random := fun _ _ h => h
  partial' := fun _ _ h => h

theorem exact_interpolate (t : Task ℕ ℚ) (hs : Solves pointBody t [exact t]) (num : ℕ) (keep : Bool) : interpolateTasks exactSolver demoMachine num keep [t] = .path [reduce keep (exact t)] := by
  have ha : ∀ r, RRT.attempt exactSolver num [t] r 0 = some [exact t] := by
    intro r
    simp only [RRT.attempt, List.getElem?_cons_zero, exactSolver, if_pos hs, Option.map_some, optimize]
    rw [show (fun l : List (Elem ℚ) => l) = id from rfl, Function.iterate_id]
    rfl
  unfold interpolateTasks
  have hm : demoMachine.Ok := fun r l => List.Perm.refl _
  rw [(C61_result (reduce keep) [t].length (by simp) (by simp) (RRT.attempt exactSolver num [t]) _ (schedule_ok hm _ _) demoMachine.memory demoMachine.rounds).1 0 (by simp [demoMachine]) (fun r' hr' => by omega)
    (fun _ => [exact t]) (fun i hi => ?_)]
  · rfl
  · simp only [List.length_singleton, Nat.lt_one_iff] at hi
    subst hi
    exact ha 0

/-- the tools of the example -/
noncomputable def pointTools : Tools ℕ ℚ :=
  ⟨demoLib, 7, 8, 0, 0, exactSolver, demoMachine, demoMachine, fun _ => exactSolver, fun _ => demoMachine, fun _ _ => ⟨0, 1, fun _ => []⟩, fun _ _ => some [], fun _ => ⟨0, 1, fun _ => []⟩, fun _ => ⟨0, 1, fun _ => 0⟩⟩

/-- what is wanted -/
def pointWanted : Wanted ℕ ℚ := ⟨⟨0, 2, fun _ => 0⟩, none, [], [], true⟩

theorem point_stateOk (d : ℚ) : StateOk pointRobot (pointAt d) := by
  refine ⟨⟨?_, ?_, ?_, ?_⟩, rfl⟩ <;> unfold AMap.WF <;> exact List.pairwise_singleton _ _

theorem point_task (path : RefPath (List ℚ) ℚ) (thr : ℚ) (mi : ℕ) : task pointRobot 0 path thr mi (pointAt 0) (pointAt 1) = some ⟨[0, 0, 0, 0], [1, 0, 0, 1], [], thr, mi, path, [(1, [])]⟩ := by
  have hf : (pointAt 1).fixedContacts (pointAt 0) = [] := by decide +kernel
  have hfree : freeLimbs pointRobot.samples (pointAt 0) (pointAt 1) = [(1, [])] := by
    unfold freeLimbs; rw [hf]; rfl
  have hc : contactConstraints (C := List ℚ) pointRobot.climbs (pointAt 0) (pointAt 1) = some [] := by
    simp only [contactConstraints, hf]
    rfl
  unfold task
  rw [hc, C123_ends _ _ (by simp [pointRobot, pointAt]), C123_ends _ _ (by simp [pointRobot, pointAt]), hfree]
  rfl

theorem point_com (path : RefPath (Vec3 ℚ) ℚ) : ∃ l, comRRT pointRobot 0 exactSolver demoMachine demoMachine pointTools.steer pointTools.unconstrained pointTools.toPath path (pointAt 0) (pointAt 1) 1 true = .path l := by
  have free : ∀ t : Task ℕ ℚ, t.constraints = [] → Solves pointBody t [exact t] := by
    intro t ht
    have ha : ∀ q, Accepted pointBody t q := by
      intro q
      unfold Accepted
      rw [ht]
      exact sq_nonneg _
    refine ⟨⟨rfl, rfl⟩, fun e he => ?_⟩
    exact ⟨ha _, ha _, fun s q _ => ha q⟩
  have hg : ∃ g, guidePath pointRobot 0 exactSolver demoMachine pointTools.steer pointTools.unconstrained (pointAt 0) (pointAt 1) 1 = .path g := by
    have hv : ¬ (State.allVariations (pointAt 1) (pointAt 0) (AMap.keys pointRobot.climbs)).isEmpty = true := by decide +kernel
    have ht : limbTasks pointRobot 0 pointTools.steer 10000 [pointAt 0, pointAt 1] =
        some [⟨[0, 0, 0, 0], [1, 0, 0, 1], [], 1 / 1000, 10000, pointTools.steer (pointAt 0).configuration (pointAt 1).configuration, [(1, [])]⟩] := by
      unfold limbTasks tasksOf
      simp only [pairs, List.map_cons, List.map_nil, id, point_task, RRT.sequence]
    unfold guidePath
    rw [if_neg hv]
    unfold limbRRT
    rw [ht]
    exact ⟨_, exact_interpolate _ (free _ rfl) 1 false⟩
  obtain ⟨g, hg⟩ := hg
  unfold comRRT
  rw [hg]
  dsimp only
  rw [point_task]
  exact ⟨_, exact_interpolate _ (free _ rfl) 1 true⟩

/-- the first reference of the example -/
theorem point_reference : ∃ p, attempt (demoLib (K := ℚ)) 2 7 8 ⟨0, 0, 1⟩ ⟨0, 0, 1⟩ ⟨0, 0, 0⟩ ⟨1, 0, 0⟩ 0 = some (.bezier p) ∧ p.eval 0 = ⟨0, 0, 0⟩ ∧ p.eval (2 - 1 / 10) = ⟨1, 0, 0⟩ ∧ p.tTakeoff + p.tMid + p.tLanding = 2 - 1 / 10 := by
  have hk : bezierPath (demoLib (K := ℚ)) .one 0 (prepare demoLib (3 / 100) 2 7 8 ⟨0, 0, 1⟩ ⟨0, 0, 1⟩ ⟨0, 0, 0⟩ ⟨1, 0, 0⟩) = some _ := rfl
  have hsm := smooth_of (demoLib (K := ℚ)) demoLib_contract _ 2 7 8 _ _ _ _ _ _ (by norm_num) _ hk
  obtain ⟨a, b, -, -⟩ := C124_path _ _ _ _ _ _ _ hsm (by simp only [prepare]; norm_num)
  exact ⟨_, rfl, a, b, hsm.durations.2.2⟩

theorem point_follows (wholeRef : RefPath (Vec3 ℚ) ℚ) (shooter : RefPath (List ℚ) ℚ) (p : Triple ℚ) (h0 : p.eval 0 = ⟨0, 0, 0⟩) (h1 : p.eval (2 - 1 / 10) = ⟨1, 0, 0⟩) (hT : p.tTakeoff + p.tMid + p.tLanding = 2 - 1 / 10) :
    ∃ e, followMotion pointRobot 0 0 pointTools.svs pointTools.mcs pointWanted wholeRef shooter 1 (pointAt 0) (pointAt 1) 0 (.bezier p) = .path [e] ∧
      ∀ u, e.eval u = some [(p.eval (19 / 10 * u)).x, (p.eval (19 / 10 * u)).y, (p.eval (19 / 10 * u)).z, u] := by
  set ref : RefPath (Vec3 ℚ) ℚ := ⟨0, p.tTakeoff + p.tMid + p.tLanding, p.eval⟩ with hr
  have hrhs : ∀ u, rhs ref u = p.eval (19 / 10 * u) := by
    intro u
    simp only [rhs, hr, hT]
    congr 1
    ring
  have hf : (pointAt 1).fixedContacts (pointAt 0) = [] := by decide +kernel
  have hfree : freeLimbs pointRobot.samples (pointAt 0) (pointAt 1) = [(1, [])] := by
    unfold freeLimbs; rw [hf]; rfl
  have hc : contactConstraints (C := List ℚ) pointRobot.climbs (pointAt 0) (pointAt 1) = some [] := by
    simp only [contactConstraints, hf]
    rfl
  have ht : effectorTask pointRobot 0 0 pointWanted wholeRef shooter 1 (pointAt 0) (pointAt 1) (.bezier p) =
      some ⟨[0, 0, 0, 0], [1, 0, 0, 1], [.com pointWanted.comPath, .effector 1 0 ref], 1 / 1000, 500, shooter, [(1, [])]⟩ := by
    unfold effectorTask effectorRRTConstraints
    rw [hc, C123_ends _ _ (by simp [pointRobot, pointAt]), C123_ends _ _ (by simp [pointRobot, pointAt]), hfree]
    rfl
  have acc : ∀ x y z u, p.eval (19 / 10 * u) = ⟨x, y, z⟩ →
      Accepted pointBody ⟨[0, 0, 0, 0], [1, 0, 0, 1], [.com pointWanted.comPath, .effector 1 0 ref], 1 / 1000, 500, shooter, [(1, [])]⟩ [x, y, z, u] := by
    intro x y z u h
    unfold Accepted
    simp only [List.map_cons, List.map_nil, errorSq, List.sum_cons, List.sum_nil, List.getLastD_cons, List.getLastD_nil, hrhs, h, List.dropLast]
    norm_num [pointBody, pointWanted, rhs, Vec3.normSq, Vec3.dot]
  have hev : ∀ u, (exact ⟨[0, 0, 0, 0], [1, 0, 0, 1], [.com pointWanted.comPath, .effector 1 0 ref], 1 / 1000, 500, shooter, [(1, [])]⟩).eval u =
      some [(p.eval (19 / 10 * u)).x, (p.eval (19 / 10 * u)).y, (p.eval (19 / 10 * u)).z, u] := by
    intro u
    simp [exact, hrhs]
  have hs : Solves pointBody ⟨[0, 0, 0, 0], [1, 0, 0, 1], [.com pointWanted.comPath, .effector 1 0 ref], 1 / 1000, 500, shooter, [(1, [])]⟩
      [exact ⟨[0, 0, 0, 0], [1, 0, 0, 1], [.com pointWanted.comPath, .effector 1 0 ref], 1 / 1000, 500, shooter, [(1, [])]⟩] := by
    refine ⟨⟨rfl, rfl⟩, fun e he => ?_⟩
    rw [List.mem_singleton] at he
    subst he
    refine ⟨acc 0 0 0 0 (by rw [mul_zero, h0]), acc 1 0 0 1 (by rw [← h1]; norm_num), fun s q hq => ?_⟩
    rw [hev] at hq
    cases hq
    exact acc _ _ _ _ rfl
  refine ⟨_, ?_, hev⟩
  unfold followMotion
  rw [ht]
  have hi : interpolateTasks (pointTools.svs 0) (pointTools.mcs 0) 1 pointWanted.keepExtraDof _ = _ := exact_interpolate _ hs 1 true
  dsimp only
  rw [hi]
  rfl

/-- non-vacuity of `C197_partial`: effectorRRT returns, for an effector that moves by 1 m, a motion along the first reference, which is evaluated everywhere -/
example (w : World ℕ L C F (List (Elem ℚ)) ℚ) : Contract pointTools.lib ∧ RRT.Contract pointBody pointTools.sv ∧ StateOk pointRobot (pointAt 0) ∧ StateOk pointRobot (pointAt 1) ∧
    ∃ l w', effectorMotion pointTools pointBody.kin pointRobot pointWanted 2 1 5 (pointAt 0) (pointAt 1) 1 w = .returns l w' ∧ ∃ e ∈ l, ∀ u, (e.eval u).isSome := by
  refine ⟨demoLib_contract, exactSolver_contract, point_stateOk 0, point_stateOk 1, ?_⟩
  obtain ⟨g, hg⟩ := point_com pointWanted.comPath
  obtain ⟨p, hp, h0, h1, hT⟩ := point_reference
  obtain ⟨e, he, hev⟩ := point_follows (pointTools.wholeRef g) (pointTools.toPath (g.map (reduce false))) p h0 h1 hT
  have hd : ¬ State.effectorDistanceSq (pointAt 0) (pointAt 1) < 9 / 10000 := by decide +kernel
  obtain ⟨w', hw⟩ := C126_complete (L := L) (C := C) (F := F) pointTools.lib 2 7 8 1 5 (pointAt 0) (pointAt 1) ⟨0, 0, 0⟩ ⟨1, 0, 0⟩ ⟨0, 0, 1⟩ ⟨0, 0, 1⟩
    (followMotion pointRobot 0 0 pointTools.svs pointTools.mcs pointWanted (pointTools.wholeRef g) (pointTools.toPath (g.map (reduce false))) 1 (pointAt 0) (pointAt 1)) g
    { w with paths := w.paths ++ [.wholeBody g] } rfl rfl 0 p [e] hp he (fun k' hk => by omega)
  refine ⟨[e], w', ?_, e, List.mem_singleton_self _, fun u => by rw [hev]; rfl⟩
  unfold effectorMotion
  rw [show comRRT pointRobot pointTools.extra pointTools.sv pointTools.mc pointTools.mc' pointTools.steer pointTools.unconstrained pointTools.toPath pointWanted.comPath (pointAt 0) (pointAt 1) 1 true = .path g from hg]
  simp only [effectorRRT]
  rw [if_neg hd]
  exact hw

/-- non-vacuity of `C197_size_violated`: comRRT returns for a state and itself -/
example (T : Tools ℕ ℚ) (he : T.extra = 0) (hs : T.sv = demoSolver (1 / 25)) (h1 : T.mc = demoMachine) (h2 : T.mc' = demoMachine) (hu : T.unconstrained = fun _ _ => some []) (comPath : RefPath (Vec3 ℚ) ℚ) :
    RRT.Contract demoBody T.sv ∧ T.mc'.Ok ∧ StateOk demoRobot (oneContact 0) ∧ State.effectorDistanceSq (oneContact 0) (oneContact 0) < (3 / 100) ^ 2 ∧
    ∃ l, comRRT demoRobot T.extra T.sv T.mc T.mc' T.steer T.unconstrained T.toPath comPath (oneContact 0) (oneContact 0) 1 true = .path l := by
  rw [he, hs, h1, h2, hu]
  refine ⟨demoSolver_contract _, fun r l => List.Perm.refl _, demo_stateOk, by decide +kernel, [reduce true (lifted (1 / 25))], ?_⟩
  have hg : guidePath demoRobot 0 (demoSolver (1 / 25)) demoMachine T.steer (fun _ _ => some []) (oneContact 0) (oneContact 0) 1 = .path [] := by
    have : (State.allVariations (oneContact 0) (oneContact 0) (AMap.keys demoRobot.climbs)).isEmpty = true := by decide +kernel
    unfold guidePath
    rw [if_pos this]
  unfold comRRT
  rw [hg]
  dsimp only
  rw [demo_task]
  exact demo_interpolate _ _ _ _ (by norm_num) true

end Effector
end Rbprm
