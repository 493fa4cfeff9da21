import Verif.Model.RRT
import Verif.Props.Interp
set_option linter.unusedSectionVars false
/-!
# C151, C152: the motions returned by limbRRT, comRRT and their variants
-/
namespace Rbprm
namespace RRT
open Interp Sampling Paths State
variable {N K : Type _} [LinearOrder N] [Field K] [LinearOrder K] [IsStrictOrderedRing K]

/-! ## Specification -/

/-- a robot as a user sees it: kinematics in a configuration of the robot, and the squared angle between two rotations -/
structure Body (N K : Type _) [Field K] [LinearOrder K] where
  kin : Kin N (List K) K
  angleSq : Mat3 K → Mat3 K → K
  nonneg : ∀ a b, 0 ≤ angleSq a b
  invariant : ∀ a b p, Orthogonal p → angleSq (Stability.mulMat a p) (Stability.mulMat b p) = angleSq a b

/-- configuration `q` keeps the contacts that the two states share (within a centimetre): each is within `tol` of the place it has
in the first state, and within the angle `tol` of its orientation for a surface contact -/
def KeepsContacts (body : Body N K) (limbs : AMap N (CLimb K)) (tol : K) (frm dest : State N K) (q : List K) : Prop :=
  ∀ n p p', TouchesAt frm n p → TouchesAt dest n p' → ¬ FarApart p p' →
    Vec3.distSq (body.kin.pos n q) p ≤ tol ^ 2 ∧
    ∀ l, limbs.find? n = some l → l.sixDof = true → ∀ r, frm.contactRotation.find? n = some r →
      body.angleSq (frameRot body.kin n l q) r ≤ tol ^ 2

/-- the elements lead from the first state to the second one and keep their common contacts whenever they can be evaluated -/
def Motion (body : Body N K) (limbs : AMap N (CLimb K)) (tol : K) (frm dest : State N K) (l : List (Elem K)) : Prop :=
  Leads Elem.init Elem.fin frm.configuration l dest.configuration ∧
  ∀ e ∈ l, ∀ t q, e.eval t = some q → KeepsContacts body limbs tol frm dest q

/-- the elements are motions from each state to the next one -/
def Through (body : Body N K) (limbs : AMap N (CLimb K)) (tol : K) : List (State N K) → List (Elem K) → Prop
  | a :: b :: rest, l => ∃ l1 l2, l = l1 ++ l2 ∧ Motion body limbs tol a b l1 ∧ Through body limbs tol (b :: rest) l2
  | _, l => l = []

/-- limb `n` touches in both states, at the same place (within a centimetre) -/
def Stays (frm dest : State N K) (n : N) : Prop := ∃ p p', TouchesAt frm n p ∧ TouchesAt dest n p' ∧ ¬ FarApart p p'

/-! ## Contracts of hpp-core -/

/-- the squared error of a constraint -/
def errorSq (body : Body N K) (u : K) (q : List K) : Constraint N (List K) K → K
  | .position n t => Vec3.normSq (body.kin.pos n q - t)
  | .orientation n r => body.angleSq (body.kin.jointRot n q) r
  | .com ref => Vec3.normSq (body.kin.com q - rhs ref u)
  | .effector n t ref => Vec3.normSq (body.kin.pos n q - t - rhs ref u)
  | .jointOrientation n ref => body.angleSq (body.kin.jointRot n q) (body.kin.jointRot n (rhs ref u))

/-- the projector accepts the configuration (whose last coordinate is the extra degree of freedom) -/
def Accepted (body : Body N K) (t : Task N K) (q : List K) : Prop :=
  (t.constraints.map (errorSq body (q.getLastD 0) q.dropLast)).sum ≤ t.threshold ^ 2

/-- a solution: it leads from the start to the goal, the ends of its elements are accepted (`TimeConstraintPath::checkPath`), and
so are its configurations -/
def Solves (body : Body N K) (t : Task N K) (l : List (Elem K)) : Prop :=
  Leads Elem.init Elem.fin t.start l t.goal ∧
  ∀ e ∈ l, Accepted body t e.init ∧ Accepted body t e.fin ∧ ∀ s q, e.eval s = some q → Accepted body t q

/-- the planner gives solutions and the optimisers keep solutions -/
structure Contract (body : Body N K) (sv : Solver N K) : Prop where
  plan : ∀ r t l, sv.plan r t = some l → Solves body t l
  random : ∀ t l, Solves body t l → Solves body t (sv.random t l)
  partial' : ∀ t l, Solves body t l → Solves body t (sv.partial' t l)

/-- memory sees the writes of a round in any order -/
def Machine.Ok (mc : Machine K) : Prop := ∀ r l, (mc.order r l).Perm l

/-! ## Lemmas -/

theorem normSq_nonneg' (a : Vec3 K) : 0 ≤ Vec3.normSq a := by
  unfold Vec3.normSq Vec3.dot
  have := mul_self_nonneg a.x; have := mul_self_nonneg a.y; have := mul_self_nonneg a.z
  linarith

theorem errorSq_nonneg (body : Body N K) (u : K) (q : List K) (c : Constraint N (List K) K) : 0 ≤ errorSq body u q c := by
  cases c <;> simp only [errorSq]
  · exact normSq_nonneg' _
  · exact body.nonneg _ _
  · exact normSq_nonneg' _
  · exact normSq_nonneg' _
  · exact body.nonneg _ _

theorem accepted_each (body : Body N K) (t : Task N K) (q : List K) (h : Accepted body t q) (c : Constraint N (List K) K)
    (hc : c ∈ t.constraints) : errorSq body (q.getLastD 0) q.dropLast c ≤ t.threshold ^ 2 := by
  refine le_trans ?_ h
  refine List.single_le_sum ?_ _ (List.mem_map.2 ⟨c, hc, rfl⟩)
  intro x hx
  obtain ⟨c', -, rfl⟩ := List.mem_map.1 hx
  exact errorSq_nonneg _ _ _ _

theorem addContact_mem (limbs : AMap N (CLimb K)) (s : State N K) : ∀ (ns : List N) (cs : List (Constraint N (List K) K)),
    addContactConstraints limbs s ns = some cs → ∀ n ∈ ns, ∃ l p, limbs.find? n = some l ∧ s.contactPositions.find? n = some p ∧
      .position n p ∈ cs ∧ (l.sixDof = true → ∃ r, s.contactRotation.find? n = some r ∧
        .orientation n (Stability.mulMat r l.placement.transpose) ∈ cs)
  | [], _, _ => by simp
  | m :: ns, cs, h => by
    unfold addContactConstraints at h
    split at h
    · rename_i l l' h1 h2
      cases h
      intro n hn
      rcases List.mem_cons.1 hn with rfl | hn
      · unfold contactConstraint at h1
        split at h1
        · rename_i lb p e1 e2
          refine ⟨lb, p, e1, e2, ?_⟩
          split at h1
          · split at h1
            · rename_i r e3
              cases h1
              exact ⟨by simp, fun _ => ⟨r, e3, by simp⟩⟩
            · cases h1
          · rename_i h6
            cases h1
            exact ⟨by simp, fun h => absurd h h6⟩
        · cases h1
      · obtain ⟨lb, p, e1, e2, e3, e4⟩ := addContact_mem limbs s ns l' h2 n hn
        refine ⟨lb, p, e1, e2, List.mem_append_right _ e3, fun h => ?_⟩
        obtain ⟨r, e5, e6⟩ := e4 h
        exact ⟨r, e5, List.mem_append_right _ e6⟩
    · cases h

/-- what a task is -/
theorem task_spec {robot : Robot N K} {extra : K} {path : RefPath (List K) K} {thr : K} {mi : ℕ} {a b : State N K} {t : Task N K}
    (ha : a.configuration.length = robot.current.length) (hb : b.configuration.length = robot.current.length)
    (h : task robot extra path thr mi a b = some t) :
    t.start = a.configuration ++ [0] ∧ t.goal = b.configuration ++ [1] ∧ t.threshold = thr ∧ t.maxIterations = mi ∧
      t.shooterPath = path ∧ t.free = freeLimbs robot.samples a b ∧
      addContactConstraints robot.climbs a (State.fixedContacts b a) = some t.constraints := by
  unfold task at h
  rw [C123_ends _ a (by simp [ha]), C123_ends _ b (by simp [hb])] at h
  split at h
  · rename_i cs s g h1 h2 h3
    cases h
    cases h2
    cases h3
    exact ⟨rfl, rfl, rfl, rfl, rfl, rfl, h1⟩
  · cases h

theorem accepted_keeps (body : Body N K) {robot : Robot N K} {t : Task N K} {a b : State N K} (hma : a.MapsOk) (hmb : b.MapsOk)
    (hl : ∀ n l, robot.climbs.find? n = some l → Orthogonal l.placement)
    (hc : addContactConstraints robot.climbs a (State.fixedContacts b a) = some t.constraints) (q : List K)
    (h : Accepted body t q) : KeepsContacts body robot.climbs t.threshold a b q.dropLast := by
  intro n p p' h1 h2 h3
  obtain ⟨l, p'', e1, e2, e3, e4⟩ := addContact_mem robot.climbs a _ _ hc n (((C06_fixed hmb hma).2 n).2 ⟨p, p', h1, h2, h3⟩)
  unfold TouchesAt at h1
  rw [h1] at e2
  cases e2
  refine ⟨accepted_each body t q h _ e3, fun l' hl' h6 r hr => ?_⟩
  rw [e1] at hl'
  cases hl'
  obtain ⟨r', e5, e6⟩ := e4 h6
  rw [hr] at e5
  cases e5
  have := accepted_each body t q h _ e6
  simp only [errorSq] at this
  have hp := hl n l e1
  rw [← body.invariant _ _ l.placement hp, mulMat_assoc, hp.2, mulMat_one] at this
  exact this

theorem optimize_solves {body : Body N K} {sv : Solver N K} (hc : Contract body sv) (num : ℕ) (t : Task N K) (l : List (Elem K))
    (h : Solves body t l) : Solves body t (optimize sv num t l) := by
  have it : ∀ (f : List (Elem K) → List (Elem K)), (∀ l, Solves body t l → Solves body t (f l)) → ∀ n l, Solves body t l →
      Solves body t (f^[n] l) := by
    intro f hf n
    induction n with
    | zero => exact fun l h => h
    | succ n ih => intro l h; rw [Function.iterate_succ_apply]; exact ih _ (hf l h)
  exact it _ (hc.partial' t) num _ (it _ (hc.random t) num l h)

theorem attempt_solves {body : Body N K} {sv : Solver N K} (hc : Contract body sv) (num : ℕ) (tasks : List (Task N K)) (r i : ℕ)
    (l : List (Elem K)) (h : attempt sv num tasks r i = some l) : ∃ t, tasks[i]? = some t ∧ Solves body t l := by
  unfold attempt at h
  split at h
  · cases h
  · rename_i t ht
    obtain ⟨l', h1, rfl⟩ := Option.map_eq_some_iff.1 h
    exact ⟨t, ht, optimize_solves hc num t l' (hc.plan r t l' h1)⟩

/-- a successful interpolation is that of some round -/
theorem interpolate_ok {P Q : Type _} (red : P → Q) (n : ℕ) (h1 : 1 ≤ n) (run : ℕ → ℕ → Option (List P))
    (sched : ℕ → List (Write (List P))) (hs : Schedule n run sched) (m0 : Memory (List P)) (fuel : ℕ) (l : List Q)
    (h : interpolate red n sched m0 fuel = .ok l) :
    ∃ r < fuel, ∃ f : ℕ → List P, (∀ i < n, run r i = some (f i)) ∧ l = ((List.range n).flatMap f).map red := by
  by_cases h2 : n ≤ 100
  · by_cases hex : ∀ r < fuel, ∃ i < n, run r i = none
    · rw [(C61_result red n h1 h2 run sched hs m0 fuel).2 hex] at h; cases h
    · push Not at hex
      classical
      obtain ⟨r, ⟨hr, hall⟩, hmin⟩ : ∃ r, (r < fuel ∧ ∀ i < n, run r i ≠ none) ∧ ∀ r' < r, ¬ (r' < fuel ∧ ∀ i < n, run r' i ≠ none) :=
        ⟨Nat.find hex, Nat.find_spec hex, fun r' hr' => Nat.find_min hex hr'⟩
      have hf : ∀ r' < r, ∃ i < n, run r' i = none := by
        intro r' hr'
        have := hmin r' hr'
        push Not at this
        exact this (by omega)
      have hok : ∀ i < n, run r i = some ((run r i).getD []) := by
        intro i hi
        cases e : run r i with
        | none => exact absurd e (hall i hi)
        | some l => rfl
      rw [(C61_result red n h1 h2 run sched hs m0 fuel).1 r hr hf _ hok] at h
      cases h
      exact ⟨r, hr, fun i => (run r i).getD [], hok, rfl⟩
  · unfold interpolate at h
    rw [if_pos (by omega)] at h
    cases h

theorem schedule_ok {mc : Machine K} (hm : mc.Ok) (n : ℕ) (run : ℕ → ℕ → Option (List (Elem K))) :
    Schedule n run (fun r => mc.order r (allWrites n (run r))) := fun r => hm r _

theorem interpolateTasks_path {body : Body N K} {sv : Solver N K} (hc : Contract body sv) {mc : Machine K} (hm : mc.Ok) (num : ℕ)
    (keep : Bool) (tasks : List (Task N K)) (hne : tasks ≠ []) (l : List (Elem K))
    (h : interpolateTasks sv mc num keep tasks = .path l) :
    ∃ f : ℕ → List (Elem K), (∀ i t, tasks[i]? = some t → Solves body t (f i)) ∧
      l = ((List.range tasks.length).flatMap f).map (reduce keep) := by
  unfold interpolateTasks at h
  unfold ofInterpolated at h
  split at h <;> cases h
  rename_i hi
  obtain ⟨r, -, f, hf, rfl⟩ := interpolate_ok (reduce keep) tasks.length (List.length_pos_iff.2 hne) (attempt sv num tasks) _
    (schedule_ok hm _ _) _ _ _ hi
  refine ⟨f, fun i t ht => ?_, rfl⟩
  obtain ⟨hlt, rfl⟩ := List.getElem?_eq_some_iff.1 ht
  obtain ⟨t', e1, e2⟩ := attempt_solves hc num tasks r i _ (hf i hlt)
  rw [ht] at e1
  cases e1
  exact e2

theorem leads_map {A B C D : Type _} {i f : A → C} {i' f' : B → D} (g : C → D) (red : A → B) (hi : ∀ a, i' (red a) = g (i a))
    (hf : ∀ a, f' (red a) = g (f a)) : ∀ (l : List A) (a b : C), Leads i f a l b → Leads i' f' (g a) (l.map red) (g b)
  | [], _, _, h => congrArg g h
  | x :: l, a, b, h => by
    refine ⟨by rw [hi, h.1], ?_⟩
    rw [hf]
    exact leads_map g red hi hf l _ b h.2

/-- a solution of the task of a pair, without the extra degree of freedom, is a motion between the two states -/
theorem solves_motion (body : Body N K) {robot : Robot N K} (hl : ∀ n l, robot.climbs.find? n = some l → Orthogonal l.placement)
    {extra : K} {path : RefPath (List K) K} {thr : K} {mi : ℕ} {a b : State N K} {t : Task N K} (hma : a.MapsOk) (hmb : b.MapsOk)
    (ha : a.configuration.length = robot.current.length) (hb : b.configuration.length = robot.current.length)
    (h : task robot extra path thr mi a b = some t) (l : List (Elem K)) (hs : Solves body t l) :
    Motion body robot.climbs thr a b (l.map (reduce false)) := by
  obtain ⟨h1, h2, h3, -, -, -, h7⟩ := task_spec ha hb h
  constructor
  · have := leads_map (i := Elem.init) (f := Elem.fin) (i' := Elem.init) (f' := Elem.fin) List.dropLast (reduce (K := K) false) (fun _ => rfl) (fun _ => rfl) l _ _ hs.1
    rw [h1, h2] at this
    simpa using this
  · intro e he s q hq
    obtain ⟨e', he', rfl⟩ := List.mem_map.1 he
    simp only [reduce, Bool.false_eq_true, if_false] at hq
    obtain ⟨q', hq', rfl⟩ := Option.map_eq_some_iff.1 hq
    have := accepted_keeps body hma hmb hl h7 q' ((hs.2 e' he').2.2 s q' hq')
    rwa [h3] at this

theorem range_flatMap_succ {α : Type _} (n : ℕ) (f : ℕ → List α) :
    (List.range (n + 1)).flatMap f = f 0 ++ (List.range n).flatMap (fun i => f (i + 1)) := by
  rw [List.range_succ_eq_map, List.flatMap_cons, List.flatMap_map]

theorem tasksOf_length {A : Type _} {robot : Robot N K} {extra : K} {getter : A → A → RefPath (List K) K} {get : A → State N K}
    {thr : K} {mi : ℕ} : ∀ (l : List A) (tasks : List (Task N K)), tasksOf robot extra getter get thr mi l = some tasks →
      tasks.length = l.length - 1
  | [], tasks, h => by cases h; rfl
  | [_], tasks, h => by cases h; rfl
  | a :: b :: l, tasks, h => by
    unfold tasksOf at h
    simp only [pairs, List.map_cons, sequence] at h
    split at h
    · rename_i t ts h1 h2
      cases h
      have := tasksOf_length (b :: l) ts h2
      simp [this]
    · cases h

theorem tasksOf_cons {A : Type _} {robot : Robot N K} {extra : K} {getter : A → A → RefPath (List K) K} {get : A → State N K}
    {thr : K} {mi : ℕ} {a b : A} {l : List A} {tasks : List (Task N K)}
    (h : tasksOf robot extra getter get thr mi (a :: b :: l) = some tasks) :
    ∃ t ts, tasks = t :: ts ∧ task robot extra (getter a b) thr mi (get a) (get b) = some t ∧
      tasksOf robot extra getter get thr mi (b :: l) = some ts := by
  unfold tasksOf at h
  simp only [pairs, List.map_cons, sequence] at h
  split at h
  · rename_i t ts h1 h2
    cases h
    exact ⟨t, ts, rfl, h1, h2⟩
  · cases h

/-- well-formed states of the robot -/
def StateOk (robot : Robot N K) (s : State N K) : Prop := s.MapsOk ∧ s.configuration.length = robot.current.length

theorem through_of_tasks (body : Body N K) {robot : Robot N K}
    (hl : ∀ n l, robot.climbs.find? n = some l → Orthogonal l.placement) {A : Type _} {extra : K}
    {getter : A → A → RefPath (List K) K} {get : A → State N K} {thr : K} {mi : ℕ} :
    ∀ (l : List A) (_ : ∀ a ∈ l, StateOk robot (get a)) (tasks : List (Task N K))
      (_ : tasksOf robot extra getter get thr mi l = some tasks) (f : ℕ → List (Elem K))
      (_ : ∀ i t, tasks[i]? = some t → Solves body t (f i)),
      Through body robot.climbs thr (l.map get) (((List.range tasks.length).flatMap f).map (reduce false))
  | [], _, tasks, h, f, _ => by cases h; rfl
  | [_], _, tasks, h, f, _ => by cases h; rfl
  | a :: b :: l, hok, tasks, h, f, hf => by
    obtain ⟨t, ts, rfl, h1, h2⟩ := tasksOf_cons h
    rw [List.length_cons, range_flatMap_succ, List.map_append]
    have ha := hok a (by simp)
    have hb := hok b (by simp)
    refine ⟨_, _, rfl, solves_motion body hl ha.1 hb.1 ha.2 hb.2 h1 _ (hf 0 t rfl), ?_⟩
    exact through_of_tasks body hl (b :: l) (fun x hx => hok x (by simp at hx ⊢; tauto)) ts h2 (fun i => f (i + 1))
      (fun i t' ht => hf (i + 1) t' (by simpa using ht))

theorem through_result (body : Body N K) {robot : Robot N K} (hl : ∀ n l, robot.climbs.find? n = some l → Orthogonal l.placement)
    {sv : Solver N K} (hc : Contract body sv) {mc : Machine K} (hm : mc.Ok) {A : Type _} {extra : K}
    {getter : A → A → RefPath (List K) K} {get : A → State N K} {thr : K} {mi num : ℕ} (frames : List A) (h2 : 2 ≤ frames.length)
    (hok : ∀ a ∈ frames, StateOk robot (get a)) (tasks : List (Task N K))
    (ht : tasksOf robot extra getter get thr mi frames = some tasks) (l : List (Elem K))
    (h : interpolateTasks sv mc num false tasks = .path l) : Through body robot.climbs thr (frames.map get) l := by
  have hlen := tasksOf_length frames tasks ht
  obtain ⟨f, hf, rfl⟩ := interpolateTasks_path hc hm num false tasks (by rintro rfl; simp at hlen; omega) l h
  exact through_of_tasks body hl frames hok tasks ht f hf

/-! ## C151 -/

/-- **C151 (limbRRT)** When it returns, the path goes through the configurations of all the states, and between two states it keeps
every contact that they share within 1 mm of its place. -/
theorem C151_limbRRT (body : Body N K) (robot : Robot N K) (hl : ∀ n l, robot.climbs.find? n = some l → Orthogonal l.placement)
    (extra : K) (sv : Solver N K) (hc : Contract body sv) (mc : Machine K) (hm : mc.Ok) (steer : List K → List K → RefPath (List K) K)
    (states : List (State N K)) (h2 : 2 ≤ states.length) (hok : ∀ s ∈ states, StateOk robot s) (num maxIterations : ℕ)
    (l : List (Elem K)) (h : limbRRT robot extra sv mc steer states num maxIterations = .path l) :
    Through body robot.climbs (1 / 1000) states l := by
  unfold limbRRT limbTasks at h
  split at h
  · cases h
  · rename_i tasks ht
    have := through_result body hl hc hm states h2 hok tasks ht l h
    rwa [List.map_id'] at this

/-- **C151 (limbRRTFromPath)** -/
theorem C151_limbRRTFromPath (body : Body N K) (robot : Robot N K)
    (hl : ∀ n l, robot.climbs.find? n = some l → Orthogonal l.placement) (extra : K) (sv : Solver N K) (hc : Contract body sv)
    (mc : Machine K) (hm : mc.Ok) (extract : K → K → RefPath (List K) K) (frames : List (K × State N K)) (h2 : 2 ≤ frames.length)
    (hok : ∀ s ∈ frames, StateOk robot s.2) (num : ℕ) (l : List (Elem K))
    (h : limbRRTFromPath robot extra sv mc extract frames num = .path l) :
    Through body robot.climbs (1 / 1000) (frames.map Prod.snd) l := by
  unfold limbRRTFromPath limbPathTasks at h
  split at h
  · cases h
  · rename_i tasks ht
    exact through_result body hl hc hm frames h2 hok tasks ht l h

/-- **C151 (comRRTFromPath)** -/
theorem C151_comRRTFromPath (body : Body N K) (robot : Robot N K)
    (hl : ∀ n l, robot.climbs.find? n = some l → Orthogonal l.placement) (extra : K) (sv : Solver N K) (hc : Contract body sv)
    (mc : Machine K) (hm : mc.Ok) (comPath : RefPath (Vec3 K) K) (guide : RefPath (List K) K) (frames : List (K × State N K))
    (h2 : 2 ≤ frames.length) (hok : ∀ s ∈ frames, StateOk robot s.2) (num : ℕ) (l : List (Elem K))
    (h : comRRTFromPath robot extra sv mc comPath guide frames num = .path l) :
    Through body robot.climbs (1 / 1000) (frames.map Prod.snd) l := by
  unfold comRRTFromPath at h
  split at h
  · cases h
  · rename_i tasks ht
    exact through_result body hl hc hm frames h2 hok tasks ht l h

theorem comRRT_cases {robot : Robot N K} {extra : K} {sv : Solver N K} {mc mc' : Machine K}
    {steer : List K → List K → RefPath (List K) K} {unconstrained : List K → List K → Option (List (Elem K))}
    {toPath : List (Elem K) → RefPath (List K) K} {comPath : RefPath (Vec3 K) K} {start next : State N K} {num : ℕ} {keep : Bool}
    {l : List (Elem K)}
    (h : comRRT robot extra sv mc mc' steer unconstrained toPath comPath start next num keep = .path l) :
    ∃ g t, guidePath robot extra sv mc steer unconstrained start next num = .path g ∧
      task robot extra (toPath g) (1 / 20) 10000 start next = some t ∧ interpolateTasks sv mc' num keep [t] = .path l := by
  unfold comRRT at h
  split at h
  · cases h
  · cases h
  · rename_i g hg
    split at h
    · cases h
    · rename_i t ht
      exact ⟨g, t, hg, ht, h⟩

/-- **C151 (comRRT), partial**: the path leads from the first state to the second one and keeps their common contacts within 5 cm;
with the extra degree of freedom it leads from time 0 to time 1.  Missing: 1 mm, see `C151_tolerance_violated`. -/
theorem C151_comRRT_partial (body : Body N K) (robot : Robot N K)
    (hl : ∀ n l, robot.climbs.find? n = some l → Orthogonal l.placement) (extra : K) (sv : Solver N K) (hc : Contract body sv)
    (mc mc' : Machine K) (hm : mc'.Ok) (steer : List K → List K → RefPath (List K) K)
    (unconstrained : List K → List K → Option (List (Elem K))) (toPath : List (Elem K) → RefPath (List K) K)
    (comPath : RefPath (Vec3 K) K) (start next : State N K) (hs : StateOk robot start) (hn : StateOk robot next) (num : ℕ) :
    (∀ l, comRRT robot extra sv mc mc' steer unconstrained toPath comPath start next num false = .path l →
      Motion body robot.climbs (1 / 20) start next l) ∧
    (∀ l, comRRT robot extra sv mc mc' steer unconstrained toPath comPath start next num true = .path l →
      Leads Elem.init Elem.fin (start.configuration ++ [0]) l (next.configuration ++ [1]) ∧
      ∀ e ∈ l, ∀ t q, e.eval t = some q → KeepsContacts body robot.climbs (1 / 20) start next q.dropLast) := by
  constructor
  · intro l h
    obtain ⟨g, t, -, ht, h⟩ := comRRT_cases h
    obtain ⟨f, hf, rfl⟩ := interpolateTasks_path hc hm num false [t] (by simp) l h
    have := solves_motion body hl hs.1 hn.1 hs.2 hn.2 ht _ (hf 0 t rfl)
    simpa using this
  · intro l h
    obtain ⟨g, t, -, ht, h⟩ := comRRT_cases h
    obtain ⟨f, hf, rfl⟩ := interpolateTasks_path hc hm num true [t] (by simp) l h
    have hr : (reduce true : Elem K → Elem K) = id := by funext e; simp [reduce]
    obtain ⟨h1, h2, h3, -, -, -, h7⟩ := task_spec hs.2 hn.2 ht
    have := hf 0 t rfl
    simp only [List.length_singleton, List.range_one, List.flatMap_singleton, hr, List.map_id]
    refine ⟨by rw [← h1, ← h2]; exact this.1, fun e he s q hq => ?_⟩
    have := accepted_keeps body hs.1 hn.1 hl h7 q ((this.2 e he).2.2 s q hq)
    rwa [h3] at this

/-! ### a contact that slips by 4 cm -/

/-- a point robot: configuration is the height of its only contact -/
def demoBody : Body ℕ ℚ where
  kin := ⟨fun _ q => ⟨0, 0, q.getD 0 0⟩, fun _ _ => Mat3.one, fun _ => 0⟩
  angleSq := fun _ _ => 0
  nonneg := fun _ _ => le_refl _
  invariant := fun _ _ _ _ => rfl

/-- the robot -/
def demoRobot : Robot ℕ ℚ := ⟨[(1, ⟨false, Mat3.one⟩)], [(1, [])], [0]⟩

/-- an element on which the contact is lifted by `h` between both ends -/
def lifted (h : ℚ) : Elem ℚ := ⟨[0, 0], [0, 1], fun t => some [h, t]⟩

open Classical in
/-- a planner that answers with this element when it is a solution -/
noncomputable def demoSolver (h : ℚ) : Solver ℕ ℚ where
  plan := fun _ t => if Solves demoBody t [lifted h] then some [lifted h] else none
  random := fun _ l => l
  partial' := fun _ l => l

theorem demoSolver_contract (h : ℚ) : Contract demoBody (demoSolver h) where
  plan := by
    intro r t l hl
    simp only [demoSolver] at hl
    split at hl
    · rename_i hs; cases hl; exact hs
    · cases hl
  random := fun _ _ h => h
  partial' := fun _ _ h => h

/-- a machine: null pointers, writes in program order, three rounds watched -/
def demoMachine : Machine ℚ := ⟨fun _ l => l, ⟨fun _ => none, fun _ => false⟩, 3⟩

/-- the task of the demo -/
def demoTask (path : RefPath (List ℚ) ℚ) (thr : ℚ) (mi : ℕ) : Task ℕ ℚ :=
  ⟨[0, 0], [0, 1], [.position 1 ⟨0, 0, 0⟩], thr, mi, path, []⟩

theorem demo_task (path : RefPath (List ℚ) ℚ) (thr : ℚ) (mi : ℕ) :
    task demoRobot 0 path thr mi (oneContact 0) (oneContact 0) = some (demoTask path thr mi) := by
  have hf : (oneContact 0).fixedContacts (oneContact 0) = [1] := by decide +kernel
  have hfree : freeLimbs demoRobot.samples (oneContact 0) (oneContact 0) = [] := by
    unfold freeLimbs; rw [hf]; rfl
  have hc : contactConstraints (C := List ℚ) demoRobot.climbs (oneContact 0) (oneContact 0) = some [.position 1 ⟨0, 0, 0⟩] := by
    simp only [contactConstraints, hf]
    simp [addContactConstraints, contactConstraint, AMap.find?, oneContact, demoRobot]
  unfold task
  rw [hc, C123_ends _ _ (by simp [demoRobot, oneContact]), C123_ends _ _ (by simp [demoRobot, oneContact]), hfree]
  rfl

theorem demo_solves (path : RefPath (List ℚ) ℚ) (thr h : ℚ) (mi : ℕ) (hh : h ^ 2 ≤ thr ^ 2) :
    Solves demoBody (demoTask path thr mi) [lifted h] := by
  have h0 : (0 : ℚ) ≤ thr ^ 2 := sq_nonneg _
  refine ⟨⟨rfl, rfl⟩, ?_⟩
  intro e he
  rw [List.mem_singleton] at he
  subst he
  refine ⟨?_, ?_, ?_⟩
  · simpa [Accepted, demoTask, lifted, errorSq, demoBody, Vec3.normSq, Vec3.dot] using h0
  · simpa [Accepted, demoTask, lifted, errorSq, demoBody, Vec3.normSq, Vec3.dot] using h0
  · intro s q hq
    cases hq
    simpa [Accepted, demoTask, errorSq, demoBody, Vec3.normSq, Vec3.dot, ← sq] using hh

theorem demo_interpolate (path : RefPath (List ℚ) ℚ) (thr h : ℚ) (mi : ℕ) (hh : h ^ 2 ≤ thr ^ 2) (keep : Bool) :
    interpolateTasks (demoSolver h) demoMachine 1 keep [demoTask path thr mi] = .path [reduce keep (lifted h)] := by
  have ha : ∀ r, attempt (demoSolver h) 1 [demoTask path thr mi] r 0 = some [lifted h] := by
    intro r
    simp [attempt, optimize, demoSolver, demo_solves path thr h mi hh]
  unfold interpolateTasks
  have hm : demoMachine.Ok := fun r l => List.Perm.refl _
  rw [(C61_result (reduce keep) [demoTask path thr mi].length (by simp) (by simp) (attempt (demoSolver h) 1 [demoTask path thr mi])
    _ (schedule_ok hm _ _) demoMachine.memory demoMachine.rounds).1 0 (by simp [demoMachine]) (fun r' hr' => by omega)
    (fun _ => [lifted h]) (fun i hi => ?_)]
  · rfl
  · simp only [List.length_singleton, Nat.lt_one_iff] at hi
    subst hi
    exact ha 0

theorem demo_stateOk : StateOk demoRobot (oneContact 0) := by
  refine ⟨⟨?_, ?_, ?_, ?_⟩, rfl⟩ <;> unfold AMap.WF <;> decide

/-- **C151 is violated** by comRRT: its projector has a tolerance of 5 cm, and a motion on which a contact, at the same place in
both states, is 4 cm above it in between, is returned. -/
theorem C151_tolerance_violated (comPath : RefPath (Vec3 ℚ) ℚ) (steer : List ℚ → List ℚ → RefPath (List ℚ) ℚ)
    (toPath : List (Elem ℚ) → RefPath (List ℚ) ℚ) :
    Contract demoBody (demoSolver (1 / 25)) ∧ demoMachine.Ok ∧ StateOk demoRobot (oneContact 0) ∧
    ∃ l, comRRT demoRobot 0 (demoSolver (1 / 25)) demoMachine demoMachine steer (fun _ _ => some []) toPath comPath (oneContact 0)
        (oneContact 0) 1 false = .path l ∧
      ∃ e ∈ l, ∃ q, e.eval (1 / 2) = some q ∧ ¬ KeepsContacts demoBody demoRobot.climbs (1 / 1000) (oneContact 0) (oneContact 0) q := by
  refine ⟨demoSolver_contract _, fun r l => List.Perm.refl _, demo_stateOk, [reduce false (lifted (1 / 25))], ?_,
    _, List.mem_singleton_self _, [1 / 25], rfl, ?_⟩
  · have hg : guidePath demoRobot 0 (demoSolver (1 / 25)) demoMachine steer (fun _ _ => some []) (oneContact 0) (oneContact 0) 1 =
        .path [] := by
      have : (State.allVariations (oneContact 0) (oneContact 0) (AMap.keys demoRobot.climbs)).isEmpty = true := by decide +kernel
      unfold guidePath
      rw [if_pos this]
    unfold comRRT
    rw [hg]
    dsimp only
    rw [demo_task]
    exact demo_interpolate _ _ _ _ (by norm_num) false
  · intro h
    have := (h 1 ⟨0, 0, 0⟩ ⟨0, 0, 0⟩ rfl rfl (by unfold FarApart; norm_num [Vec3.distSq, Vec3.normSq, Vec3.dot])).1
    revert this
    norm_num [demoBody, Vec3.distSq, Vec3.normSq, Vec3.dot]

/-- non-vacuity of `C151_limbRRT`: limbRRT returns for two states, with a contact that slips by half a millimetre -/
example (steer : List ℚ → List ℚ → RefPath (List ℚ) ℚ) : limbRRT demoRobot 0 (demoSolver (1 / 2000)) demoMachine steer
    [oneContact 0, oneContact 0] 1 100 = .path [reduce false (lifted (1 / 2000))] := by
  have : limbTasks demoRobot 0 steer 100 [oneContact 0, oneContact 0] =
      some [demoTask (steer (oneContact 0).configuration (oneContact 0).configuration) (1 / 1000) 100] := by
    unfold limbTasks tasksOf
    simp only [pairs, List.map_cons, List.map_nil, id, demo_task, sequence]
  unfold limbRRT
  rw [this]
  exact demo_interpolate _ _ _ _ (by norm_num) false

/-! ## C151: where the random configurations of a pair come from -/

theorem tasksOf_get {A : Type _} {robot : Robot N K} {extra : K} {getter : A → A → RefPath (List K) K} {get : A → State N K}
    {thr : K} {mi : ℕ} : ∀ (l : List A) (tasks : List (Task N K)), tasksOf robot extra getter get thr mi l = some tasks →
      ∀ i t, tasks[i]? = some t → ∃ a b, l[i]? = some a ∧ l[i + 1]? = some b ∧
        task robot extra (getter a b) thr mi (get a) (get b) = some t
  | [], tasks, h => by cases h; simp
  | [_], tasks, h => by cases h; simp
  | a :: b :: l, tasks, h => by
    obtain ⟨t, ts, rfl, h1, h2⟩ := tasksOf_cons h
    intro i t' ht
    cases i with
    | zero => cases ht; exact ⟨a, b, rfl, rfl, h1⟩
    | succ i =>
      obtain ⟨a', b', e1, e2, e3⟩ := tasksOf_get (b :: l) ts h2 i t' (by simpa using ht)
      exact ⟨a', b', by simpa using e1, by simpa using e2, e3⟩

/-- **C151 (random configurations)** The planner of limbRRTFromPath for the transition between frames `i` and `i + 1` starts from the
configurations of these frames and draws configurations of the reference path between the times of the frames, at the fraction `u` of this
interval, but for the limbs that move, which are in the configuration of one of their samples.  `ref` is the reference path;
`extract` gives, whatever its time range, the part of it between two times. -/
theorem C151_draws (robot : Robot N K) (extra : K) (extract : K → K → RefPath (List K) K) (ref : K → List K)
    (hx : ∀ t0 t1 u, (extract t0 t1).eval ((extract t0 t1).first + u * ((extract t0 t1).last - (extract t0 t1).first)) =
      ref (t0 + u * (t1 - t0)))
    (frames : List (K × State N K)) (hok : ∀ s ∈ frames, StateOk robot s.2) (tasks : List (Task N K))
    (ht : limbPathTasks robot extra extract frames = some tasks) (i : ℕ) (t : Task N K) (hi : tasks[i]? = some t) :
    ∃ t0 t1 a b, frames[i]? = some (t0, a) ∧ frames[i + 1]? = some (t1, b) ∧
      t.start = a.configuration ++ [0] ∧ t.goal = b.configuration ++ [1] ∧
      ∀ (seg : N → ℕ × ℕ) (rank : ℕ), LimbsOk t.free rank seg → ∀ u rnd q, 0 ≤ u → u ≤ 1 → t0 ≤ t1 →
        shoot t.shooterPath rank t.free u rnd = .ok q →
        ∃ instant, t0 ≤ instant ∧ instant ≤ t1 ∧ q[rank]? = some u ∧
          (∀ k < rank, (∀ n samples, (n, samples) ∈ robot.samples → ¬ Stays a b n → ¬ InLimb seg n k) →
            q[k]? = (ref instant)[k]?) ∧
          ∀ n samples, (n, samples) ∈ robot.samples → ¬ Stays a b n →
            ∃ s ∈ samples, (q.drop (seg n).1).take (seg n).2 = s.configuration := by
  obtain ⟨⟨t0, a⟩, ⟨t1, b⟩, h1, h2, h3⟩ := tasksOf_get frames tasks ht i t hi
  have ha := hok _ (List.mem_of_getElem? h1)
  have hb := hok _ (List.mem_of_getElem? h2)
  obtain ⟨e1, e2, -, -, e5, e6, -⟩ := task_spec ha.2 hb.2 h3
  refine ⟨t0, t1, a, b, h1, h2, e1, e2, fun seg rank hl u rnd q h0 h1' ht01 hsh => ?_⟩
  obtain ⟨g1, g2, g3, g4⟩ := C120_shoot t.shooterPath rank t.free seg hl u rnd q hsh
  have hfree : ∀ n samples, (n, samples) ∈ t.free ↔ (n, samples) ∈ robot.samples ∧ ¬ Stays a b n := by
    intro n samples
    rw [e6, C120_free _ _ _ hb.1 ha.1]
    rfl
  refine ⟨t0 + u * (t1 - t0), ?_, ?_, g2, fun k hk hn => ?_, fun n samples hm hs => g4 n samples ((hfree n samples).2 ⟨hm, hs⟩)⟩
  · nlinarith [mul_nonneg h0 (sub_nonneg.2 ht01)]
  · nlinarith [mul_nonneg (sub_nonneg.2 h1') (sub_nonneg.2 ht01)]
  · rw [g3 k hk (fun n samples hm => hn n samples ((hfree n samples).1 hm).1 ((hfree n samples).1 hm).2), e5]
    rw [hx]

/-- **C151 (random configurations of limbRRT)** The planner for the transition between states `i` and `i + 1` starts from their
configurations and draws configurations on the path of the steering method from one to the other, but for the limbs that move. -/
theorem C151_steer_draws (robot : Robot N K) (extra : K) (steer : List K → List K → RefPath (List K) K) (maxIterations : ℕ)
    (states : List (State N K)) (hok : ∀ s ∈ states, StateOk robot s) (tasks : List (Task N K))
    (ht : limbTasks robot extra steer maxIterations states = some tasks) (i : ℕ) (t : Task N K) (hi : tasks[i]? = some t) :
    ∃ a b, states[i]? = some a ∧ states[i + 1]? = some b ∧ t.start = a.configuration ++ [0] ∧ t.goal = b.configuration ++ [1] ∧
      t.maxIterations = maxIterations ∧
      ∀ (seg : N → ℕ × ℕ) (rank : ℕ), LimbsOk t.free rank seg → ∀ u rnd q, shoot t.shooterPath rank t.free u rnd = .ok q →
        ∀ path, steer a.configuration b.configuration = path → q[rank]? = some u ∧
          (∀ k < rank, (∀ n samples, (n, samples) ∈ robot.samples → ¬ Stays a b n → ¬ InLimb seg n k) →
            q[k]? = (path.eval (path.first + u * (path.last - path.first)))[k]?) ∧
          ∀ n samples, (n, samples) ∈ robot.samples → ¬ Stays a b n →
            ∃ s ∈ samples, (q.drop (seg n).1).take (seg n).2 = s.configuration := by
  obtain ⟨a, b, h1, h2, h3⟩ := tasksOf_get states tasks ht i t hi
  have ha := hok _ (List.mem_of_getElem? h1)
  have hb := hok _ (List.mem_of_getElem? h2)
  obtain ⟨e1, e2, -, e4, e5, e6, -⟩ := task_spec ha.2 hb.2 h3
  refine ⟨a, b, h1, h2, e1, e2, e4, fun seg rank hl u rnd q hsh path hpath => ?_⟩
  obtain ⟨g1, g2, g3, g4⟩ := C120_shoot t.shooterPath rank t.free seg hl u rnd q hsh
  have hfree : ∀ n samples, (n, samples) ∈ t.free ↔ (n, samples) ∈ robot.samples ∧ ¬ Stays a b n := by
    intro n samples
    rw [e6]
    exact C120_free _ _ _ hb.1 ha.1 n samples
  refine ⟨g2, fun k hk hn => ?_, fun n samples hm hs => g4 n samples ((hfree n samples).2 ⟨hm, hs⟩)⟩
  rw [g3 k hk (fun n samples hm => hn n samples ((hfree n samples).1 hm).1 ((hfree n samples).1 hm).2), e5]
  subst hpath
  rfl

/-! ## C152 -/

/-- **C152 (guide of comRRT)** The path returned by comRRT comes from a planner between the two states, of at most 10000 iterations,
whose draws follow a guide: a motion that keeps the common contacts within 1 mm if a limb moves, and otherwise the path of a
planner that only knows the two configurations. -/
theorem C152_guide (body : Body N K) (robot : Robot N K) (hl : ∀ n l, robot.climbs.find? n = some l → Orthogonal l.placement)
    (extra : K) (sv : Solver N K) (hc : Contract body sv) (mc mc' : Machine K) (hm : mc.Ok) (hm' : mc'.Ok)
    (steer : List K → List K → RefPath (List K) K) (unconstrained : List K → List K → Option (List (Elem K)))
    (toPath : List (Elem K) → RefPath (List K) K) (comPath : RefPath (Vec3 K) K) (start next : State N K)
    (hs : StateOk robot start) (hn : StateOk robot next) (num : ℕ) (keep : Bool) (l : List (Elem K))
    (h : comRRT robot extra sv mc mc' steer unconstrained toPath comPath start next num keep = .path l) :
    ∃ r t g, (sv.plan r t).isSome ∧ t.start = start.configuration ++ [0] ∧ t.goal = next.configuration ++ [1] ∧
      t.maxIterations = 10000 ∧ t.shooterPath = toPath g ∧
      ((∃ n ∈ robot.climbs.keys, ¬ Stays start next n) → Motion body robot.climbs (1 / 1000) start next g) ∧
      ((∀ n ∈ robot.climbs.keys, Stays start next n) → unconstrained start.configuration next.configuration = some g) := by
  obtain ⟨g, t, hg, ht, h⟩ := comRRT_cases h
  obtain ⟨e1, e2, -, e4, e5, -, -⟩ := task_spec hs.2 hn.2 ht
  have hi : ∃ r, (sv.plan r t).isSome := by
    unfold interpolateTasks ofInterpolated at h
    split at h <;> cases h
    rename_i hi
    obtain ⟨r, -, f, hf, -⟩ := interpolate_ok (reduce keep) [t].length (by simp) (attempt sv num [t]) _ (schedule_ok hm' _ _) _ _ _ hi
    have := hf 0 (by simp)
    simp only [attempt, List.getElem?_cons_zero, Option.map_eq_some_iff] at this
    obtain ⟨l, h1, -⟩ := this
    exact ⟨r, by rw [h1]; rfl⟩
  obtain ⟨r, hr⟩ := hi
  have hvar : ∀ n, n ∈ State.allVariations next start robot.climbs.keys ↔ n ∈ robot.climbs.keys ∧ ¬ Stays start next n := by
    intro n
    simp only [State.allVariations, List.mem_filter, List.contains_eq_mem, Bool.not_eq_true', decide_eq_false_iff_not]
    rw [(C06_fixed hn.1 hs.1).2 n]
    rfl
  refine ⟨r, t, g, hr, e1, e2, e4, e5, ?_, ?_⟩
  · rintro ⟨n, hn1, hn2⟩
    unfold guidePath at hg
    rw [if_neg] at hg
    · have := C151_limbRRT body robot hl extra sv hc mc hm steer [start, next] (by simp) (by
        intro s h; simp only [List.mem_cons, List.not_mem_nil, or_false] at h; rcases h with rfl | rfl <;> assumption) num 10000 g hg
      obtain ⟨l1, l2, rfl, h1, h2⟩ := this
      simp only [Through] at h2
      subst h2
      simpa using h1
    · rw [Bool.not_eq_true, List.isEmpty_eq_false_iff_exists_mem]
      exact ⟨n, (hvar n).2 ⟨hn1, hn2⟩⟩
  · intro hall
    unfold guidePath at hg
    rw [if_pos] at hg
    · split at hg
      · cases hg
      · rename_i g' hu
        cases hg
        exact hu
    · rw [List.isEmpty_iff]
      exact List.eq_nil_iff_forall_not_mem.2 (fun n h => ((hvar n).1 h).2 (hall n ((hvar n).1 h).1))


/-- **C152**: limbRRT returns a path as soon as, in some round, the planner solves every pair of states (at most 100). -/
theorem C152_returns (robot : Robot N K) (extra : K) (sv : Solver N K) (mc : Machine K) (hm : mc.Ok)
    (steer : List K → List K → RefPath (List K) K) (states : List (State N K)) (h2 : 2 ≤ states.length) (h100 : states.length ≤ 101)
    (num maxIterations : ℕ) (tasks : List (Task N K)) (ht : limbTasks robot extra steer maxIterations states = some tasks) (r : ℕ)
    (hr : r < mc.rounds) (hp : ∀ t ∈ tasks, (sv.plan r t).isSome) :
    ∃ l, limbRRT robot extra sv mc steer states num maxIterations = .path l := by
  have hlen := tasksOf_length states tasks ht
  have hs := schedule_ok hm tasks.length (attempt sv num tasks)
  have hex : ¬ ∀ r < mc.rounds, ∃ i < tasks.length, attempt sv num tasks r i = none := by
    intro h
    obtain ⟨i, hi, he⟩ := h r hr
    unfold attempt at he
    rw [List.getElem?_eq_getElem hi] at he
    simp only [Option.map_eq_none_iff] at he
    have := hp _ (List.getElem_mem hi)
    rw [he] at this
    cases this
  push Not at hex
  classical
  obtain ⟨r, ⟨hr, hall⟩, hmin⟩ : ∃ r, (r < mc.rounds ∧ ∀ i < tasks.length, attempt sv num tasks r i ≠ none) ∧
      ∀ r' < r, ¬ (r' < mc.rounds ∧ ∀ i < tasks.length, attempt sv num tasks r' i ≠ none) :=
    ⟨Nat.find hex, Nat.find_spec hex, fun r' hr' => Nat.find_min hex hr'⟩
  have hf : ∀ r' < r, ∃ i < tasks.length, attempt sv num tasks r' i = none := by
    intro r' hr'
    have := hmin r' hr'
    push Not at this
    exact this (by omega)
  have hok : ∀ i < tasks.length, attempt sv num tasks r i = some ((attempt sv num tasks r i).getD []) := by
    intro i hi
    cases e : attempt sv num tasks r i with
    | none => exact absurd e (hall i hi)
    | some l => rfl
  unfold limbRRT
  rw [ht]
  simp only [interpolateTasks]
  rw [(C61_result (reduce false) tasks.length (by omega) (by omega) _ _ hs mc.memory mc.rounds).1 r hr hf _ hok]
  exact ⟨_, rfl⟩

/-- the state's configuration realises the contact -/
def AtPlace (body : Body N K) (s : State N K) (n : N) : Prop := ∀ p, TouchesAt s n p → body.kin.pos n s.configuration = p

theorem drift_unsolvable (body : Body N K) {robot : Robot N K} {extra : K} {path : RefPath (List K) K} {thr : K} {mi : ℕ}
    {a b : State N K} (ha : StateOk robot a) (hb : StateOk robot b)
    (hl : ∀ n l, robot.climbs.find? n = some l → Orthogonal l.placement) (n : N) (p p' : Vec3 K) (h1 : TouchesAt a n p)
    (h2 : TouchesAt b n p') (hfar : ¬ FarApart p p') (hdrift : thr ^ 2 < Vec3.distSq p' p) (hr : AtPlace body b n) (t : Task N K)
    (ht : task robot extra path thr mi a b = some t) (l : List (Elem K)) : ¬ Solves body t l := by
  intro hs
  obtain ⟨e1, e2, e3, -, -, -, e7⟩ := task_spec ha.2 hb.2 ht
  have key : ∀ (l : List (Elem K)) (x : List K), (∀ e ∈ l, Accepted body t e.fin) → Leads Elem.init Elem.fin x l t.goal →
      x = t.goal ∨ Accepted body t t.goal := by
    intro l
    induction l with
    | nil => intro x _ h; exact .inl h
    | cons e l ih =>
      intro x hacc h
      rcases ih _ (fun e' he => hacc e' (List.mem_cons_of_mem _ he)) h.2 with h' | h'
      · exact .inr (h' ▸ hacc e List.mem_cons_self)
      · exact .inr h'
  rcases key l t.start (fun e he => (hs.2 e he).2.1) hs.1 with h | h
  · rw [e1, e2] at h
    have := congrArg List.getLast? h
    simp at this
  · have := (accepted_keeps body ha.1 hb.1 hl e7 _ h n p p' h1 h2 hfar).1
    rw [e2, List.dropLast_concat, hr p' h2, e3] at this
    exact absurd this (not_le.2 hdrift)

/-- **C152 is violated** for a contact that is displaced by more than 1 mm and at most 1 cm: it counts as kept, but the final
configuration does not satisfy the constraint that keeps it; limbRRT tries for ever, whatever the planner. -/
theorem C152_drift_violated (body : Body N K) (robot : Robot N K)
    (hl : ∀ n l, robot.climbs.find? n = some l → Orthogonal l.placement) (extra : K) (sv : Solver N K) (hc : Contract body sv)
    (mc : Machine K) (hm : mc.Ok) (steer : List K → List K → RefPath (List K) K) (a b : State N K) (ha : StateOk robot a)
    (hb : StateOk robot b) (n : N) (p p' : Vec3 K) (h1 : TouchesAt a n p) (h2 : TouchesAt b n p') (hfar : ¬ FarApart p p')
    (hdrift : (1 / 1000 : K) ^ 2 < Vec3.distSq p' p) (hr : AtPlace body b n) (num maxIterations : ℕ) (tasks : List (Task N K))
    (ht : limbTasks robot extra steer maxIterations [a, b] = some tasks) :
    limbRRT robot extra sv mc steer [a, b] num maxIterations = .running := by
  have hlen := tasksOf_length _ tasks ht
  obtain ⟨t, ts, rfl, e1, e2⟩ := tasksOf_cons (getter := fun a b : State N K => steer a.configuration b.configuration) (get := id) ht
  unfold limbRRT
  rw [ht]
  simp only [interpolateTasks]
  rw [(C61_result (reduce false) (t :: ts).length (by simp) (by simp only [List.length_cons, List.length_nil] at hlen ⊢; omega) _ _ (schedule_ok hm _ _) mc.memory mc.rounds).2]
  · rfl
  · intro r _
    refine ⟨0, by simp, ?_⟩
    cases e : attempt sv num (t :: ts) r 0 with
    | none => rfl
    | some l =>
      obtain ⟨t', e3, e4⟩ := attempt_solves hc num _ r 0 l e
      cases e3
      exact absurd e4 (drift_unsolvable body ha hb hl n p p' h1 h2 hfar hdrift hr _ e1 l)

/-- **C152 is violated** for comRRT in the same way, as soon as a limb moves: its guide is computed by limbRRT. -/
theorem C152_com_drift_violated (body : Body N K) (robot : Robot N K)
    (hl : ∀ n l, robot.climbs.find? n = some l → Orthogonal l.placement) (extra : K) (sv : Solver N K) (hc : Contract body sv)
    (mc mc' : Machine K) (hm : mc.Ok) (steer : List K → List K → RefPath (List K) K)
    (unconstrained : List K → List K → Option (List (Elem K))) (toPath : List (Elem K) → RefPath (List K) K)
    (comPath : RefPath (Vec3 K) K) (a b : State N K) (ha : StateOk robot a) (hb : StateOk robot b) (n : N) (p p' : Vec3 K)
    (h1 : TouchesAt a n p) (h2 : TouchesAt b n p') (hfar : ¬ FarApart p p') (hdrift : (1 / 1000 : K) ^ 2 < Vec3.distSq p' p)
    (hr : AtPlace body b n) (num : ℕ) (keep : Bool) (tasks : List (Task N K))
    (ht : limbTasks robot extra steer 10000 [a, b] = some tasks) (m : N) (hm1 : m ∈ robot.climbs.keys) (hm2 : ¬ Stays a b m) :
    comRRT robot extra sv mc mc' steer unconstrained toPath comPath a b num keep = .running := by
  have hv : (State.allVariations b a robot.climbs.keys).isEmpty = false := by
    rw [List.isEmpty_eq_false_iff_exists_mem]
    refine ⟨m, ?_⟩
    simp only [State.allVariations, List.mem_filter, List.contains_eq_mem, Bool.not_eq_true', decide_eq_false_iff_not]
    exact ⟨hm1, fun h => hm2 (((C06_fixed hb.1 ha.1).2 m).1 h)⟩
  unfold comRRT guidePath
  rw [if_neg (by rw [hv]; simp), C152_drift_violated body robot hl extra sv hc mc hm steer a b ha hb n p p' h1 h2 hfar hdrift hr num
    10000 tasks ht]

/-- **C152 is violated** by comRRT when no limb moves: a failure of the planner of its guide, which ignores the contacts, escapes as
an exception, although the transition can be solved (with any guide). -/
theorem C152_exception_violated (comPath : RefPath (Vec3 ℚ) ℚ) (steer : List ℚ → List ℚ → RefPath (List ℚ) ℚ)
    (toPath : List (Elem ℚ) → RefPath (List ℚ) ℚ) :
    comRRT demoRobot 0 (demoSolver 0) demoMachine demoMachine steer (fun _ _ => none) toPath comPath (oneContact 0)
        (oneContact 0) 1 false = .fails ∧
    ∀ guide, ∃ t, task demoRobot 0 guide (1 / 20) 10000 (oneContact 0) (oneContact 0) = some t ∧
      ((demoSolver 0).plan 0 t).isSome := by
  constructor
  · have : (State.allVariations (oneContact 0) (oneContact 0) (AMap.keys demoRobot.climbs)).isEmpty = true := by decide +kernel
    unfold comRRT guidePath
    rw [if_pos this]
  · intro guide
    refine ⟨_, demo_task guide _ _, ?_⟩
    simp only [demoSolver]
    rw [if_pos (demo_solves guide (1 / 20) 0 10000 (by norm_num))]
    rfl

/-- **C152 is violated** for the centre of mass: the answers of comRRT and comRRTFromPath do not depend on the path of the centre of
mass. -/
theorem C152_com_violated (robot : Robot N K) (extra : K) (sv : Solver N K) (mc mc' : Machine K)
    (steer : List K → List K → RefPath (List K) K) (unconstrained : List K → List K → Option (List (Elem K)))
    (toPath : List (Elem K) → RefPath (List K) K) (comPath comPath' : RefPath (Vec3 K) K) (start next : State N K) (num : ℕ)
    (keep : Bool) (guide : RefPath (List K) K) (frames : List (K × State N K)) :
    comRRT robot extra sv mc mc' steer unconstrained toPath comPath start next num keep =
      comRRT robot extra sv mc mc' steer unconstrained toPath comPath' start next num keep ∧
    comRRTFromPath robot extra sv mc comPath guide frames num = comRRTFromPath robot extra sv mc comPath' guide frames num :=
  ⟨rfl, rfl⟩

/-- the hypotheses of `C152_drift_violated` are met by a contact that moves by 5 mm -/
example : StateOk demoRobot (oneContact 0) ∧ StateOk demoRobot (oneContact (1 / 200)) ∧ TouchesAt (oneContact 0) 1 ⟨0, 0, 0⟩ ∧
    TouchesAt (oneContact (1 / 200)) 1 ⟨0, 0, 1 / 200⟩ ∧ ¬ FarApart (⟨0, 0, 0⟩ : Vec3 ℚ) ⟨0, 0, 1 / 200⟩ ∧
    (1 / 1000 : ℚ) ^ 2 < Vec3.distSq (⟨0, 0, 1 / 200⟩ : Vec3 ℚ) ⟨0, 0, 0⟩ ∧ AtPlace demoBody (oneContact (1 / 200)) 1 ∧
    ∀ steer, ∃ tasks, limbTasks demoRobot 0 steer 100 [oneContact 0, oneContact (1 / 200)] = some tasks := by
  refine ⟨demo_stateOk, ⟨⟨?_, ?_, ?_, ?_⟩, rfl⟩, rfl, rfl, ?_, ?_, ?_, ?_⟩
  · unfold AMap.WF; decide
  · unfold AMap.WF; decide
  · unfold AMap.WF; decide
  · unfold AMap.WF; decide
  · unfold FarApart; norm_num [Vec3.distSq, Vec3.normSq, Vec3.dot]
  · norm_num [Vec3.distSq, Vec3.normSq, Vec3.dot]
  · intro p h
    simp only [TouchesAt, oneContact, AMap.find?] at h
    simp only [if_true, Option.some.injEq] at h
    rw [← h]; rfl
  · intro steer
    have hf : (oneContact (1 / 200)).fixedContacts (oneContact 0) = [1] := by decide +kernel
    have hc : contactConstraints (C := List ℚ) demoRobot.climbs (oneContact 0) (oneContact (1 / 200)) = some [.position 1 ⟨0, 0, 0⟩] := by
      simp only [contactConstraints, hf]
      simp [addContactConstraints, contactConstraint, AMap.find?, oneContact, demoRobot]
    have : ∀ path, ∃ t, task demoRobot 0 path (1 / 1000) 100 (oneContact 0) (oneContact (1 / 200)) = some t := by
      intro path
      unfold task
      rw [hc, C123_ends _ _ (by simp [demoRobot, oneContact]), C123_ends _ _ (by simp [demoRobot, oneContact])]
      exact ⟨_, rfl⟩
    obtain ⟨t, h⟩ := this (steer (oneContact 0).configuration (oneContact (1 / 200)).configuration)
    refine ⟨[t], ?_⟩
    unfold limbTasks tasksOf
    simp only [pairs, List.map_cons, List.map_nil, id, sequence, h]

end RRT
end Rbprm
