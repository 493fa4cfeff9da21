import Verif.Model.Planner
import Mathlib.Tactic.SplitIfs
import Mathlib.Algebra.Order.Ring.Int
import Mathlib.Tactic.ByContra
set_option linter.unusedSectionVars false
set_option linter.unusedSimpArgs false
/-!
# C56: the edges of the roadmap of the dynamic planner
-/
namespace Rbprm
namespace Planner
variable {C P K : Type _} [DecidableEq C] [DecidableEq K]

/-! ### specification -/

/-- every edge joins nodes of the roadmap, its path goes from the configuration of its source to the one of its target, and was accepted -/
def EdgesOk (env : Env C P K) (Accepted : P → Prop) (rm : Roadmap C P) : Prop :=
  ∀ e ∈ rm.edges, e.1 ∈ rm.nodes ∧ e.2.1 ∈ rm.nodes ∧ env.initial e.2.2 = e.1 ∧ env.final e.2.2 = e.2.1 ∧ Accepted e.2.2

/-- what is expected of hpp-core and of the other classes: a nearest node is a node; the steering method starts (reverse: ends) at the node, and may stop anywhere;
the validation of a valid path returns it (C41); of what the steering method made in a direction it otherwise returns a part with the same beginning (reverse: end), and what it returns is `Valid`, unless it is a part of length 0 -/
structure Contract (env : Env C P K) (Valid : P → Prop) : Prop where
  nearest : ∀ k rm q, rm.nodes ≠ [] → env.nearest k rm q ∈ rm.nodes
  forward : ∀ k n q p, env.steer k n q false = some p → env.initial p = n
  backward : ∀ k n q p, env.steer k n q true = some p → env.final p = n
  whole : ∀ k p r w, env.validate k p r = (true, w) → w = some p
  part_forward : ∀ k n q p v w, env.steer k n q false = some p → env.validate k p false = (v, some w) → env.initial w = env.initial p ∧ (v = true ∨ env.t1 w ≠ env.t0 p → Valid w)
  part_backward : ∀ k n q p v w, env.steer k n q true = some p → env.validate k p true = (v, some w) → env.final w = env.final p ∧ (v = true ∨ env.t1 w ≠ env.t0 p → Valid w)

/-- nothing is removed -/
def Grows (rm rm' : Roadmap C P) : Prop := (∀ q ∈ rm.nodes, q ∈ rm'.nodes) ∧ rm.edges <+: rm'.edges

/-- a sequence of edges of the roadmap -/
def Route (rm : Roadmap C P) : C → List (C × C × P) → C → Prop
  | a, [], b => a = b
  | a, e :: l, b => e ∈ rm.edges ∧ e.1 = a ∧ Route rm e.2.1 l b

/-- a continuous sequence of paths -/
def Continuous (env : Env C P K) : C → List P → C → Prop
  | a, [], b => a = b
  | a, p :: l, b => env.initial p = a ∧ Continuous env (env.final p) l b

/-! ### lemmas -/

variable {env : Env C P K} {Valid Accepted : P → Prop}

theorem Grows.refl (rm : Roadmap C P) : Grows rm rm := ⟨fun _ h => h, List.prefix_refl _⟩
theorem Grows.trans {a b c : Roadmap C P} (h1 : Grows a b) (h2 : Grows b c) : Grows a c :=
  ⟨fun q h => h2.1 q (h1.1 q h), h1.2.trans h2.2⟩

theorem mem_addNode (rm : Roadmap C P) (q x : C) : x ∈ (rm.addNode q).nodes ↔ x ∈ rm.nodes ∨ x = q := by
  unfold Roadmap.addNode
  split
  · constructor
    · exact Or.inl
    · rintro (h | rfl) <;> assumption
  · simp

@[simp] theorem addNode_edges (rm : Roadmap C P) (q : C) : (rm.addNode q).edges = rm.edges := by
  unfold Roadmap.addNode; split <;> rfl

@[simp] theorem addEdge_nodes (rm : Roadmap C P) (a b : C) (p : P) : (rm.addEdge a b p).nodes = rm.nodes := rfl

theorem grows_addNode (rm : Roadmap C P) (q : C) : Grows rm (rm.addNode q) :=
  ⟨fun _ h => (mem_addNode ..).2 (Or.inl h), by rw [addNode_edges]; exact List.prefix_refl _⟩

theorem grows_addEdge (rm : Roadmap C P) (a b : C) (p : P) : Grows rm (rm.addEdge a b p) :=
  ⟨fun _ h => h, List.prefix_append _ _⟩

theorem EdgesOk.addNode {rm : Roadmap C P} (h : EdgesOk env Accepted rm) (q : C) : EdgesOk env Accepted (rm.addNode q) := by
  intro e he
  rw [addNode_edges] at he
  obtain ⟨h1, h2, h3⟩ := h e he
  exact ⟨(mem_addNode ..).2 (Or.inl h1), (mem_addNode ..).2 (Or.inl h2), h3⟩

theorem EdgesOk.addEdge {rm : Roadmap C P} (h : EdgesOk env Accepted rm) {a b : C} {p : P} (ha : a ∈ rm.nodes) (hb : b ∈ rm.nodes)
    (hi : env.initial p = a) (hf : env.final p = b) (hv : Accepted p) : EdgesOk env Accepted (rm.addEdge a b p) := by
  intro e he
  rcases List.mem_append.1 he with he | he
  · exact h e he
  · simp only [List.mem_singleton] at he
    subst he
    exact ⟨ha, hb, hi, hf, hv⟩

theorem extend_steer {k : Tok} {near q : C} {r : Bool} {p : P} (h : extendInternal env k near q r = some p) : ∃ q', env.steer k near q' r = some p := by
  unfold extendInternal at h
  split at h
  · exact ⟨_, h⟩
  · simp only at h
    split at h
    · exact ⟨_, h⟩
    · cases h

theorem front_spec (ct : Contract env Valid) (k : ℕ) (rm : Roadmap C P) (q : C) (hn : rm.nodes ≠ []) (h : EdgesOk env Valid rm) :
    EdgesOk env Valid (front env k rm q).rm ∧ Grows rm (front env k rm q).rm ∧ (∀ x, (front env k rm q).reached = some x → x ∈ (front env k rm q).rm.nodes) ∧
    ((front env k rm q).validFromStart = true → (front env k rm q).reached = some q) := by
  unfold front
  simp only
  split
  · exact ⟨h, Grows.refl _, by simp, by simp⟩
  · rename_i path hp
    obtain ⟨q', hp⟩ := extend_steer hp
    split
    · rename_i v hv
      refine ⟨h, Grows.refl _, by simp, fun e => ?_⟩
      subst e
      exact absurd (ct.whole _ _ _ _ hv) (by simp)
    · rename_i v w hv
      split
      · rename_i hlen
        have hw := ct.part_forward _ _ _ _ _ _ hp hv
        refine ⟨(h.addNode _).addEdge ?_ ?_ ?_ rfl (hw.2 (Or.inr hlen)), (grows_addNode _ _).trans (grows_addEdge _ _ _ _), ?_, ?_⟩
        · exact (mem_addNode ..).2 (Or.inl (ct.nearest _ _ _ hn))
        · exact (mem_addNode ..).2 (Or.inr rfl)
        · rw [hw.1, ct.forward _ _ _ _ hp]
        · intro x hx
          simp only [Option.some.injEq] at hx
          subst hx
          exact (mem_addNode ..).2 (Or.inr rfl)
        · intro hx
          simp only [Bool.and_eq_true, decide_eq_true_eq] at hx
          simp [hx.2]
      · exact ⟨h, Grows.refl _, by simp, by simp⟩

theorem joinNew_spec (ct : Contract env Valid) {k : Tok} {rm : Roadmap C P} {qn qe : C} (h : EdgesOk env Valid rm) (h1 : qn ∈ rm.nodes) (h2 : qe ∈ rm.nodes) :
    ∃ s, joinNew env k rm qn qe = some s ∧ EdgesOk env Valid s.1 ∧ Grows rm s.1 := by
  unfold joinNew
  split
  · exact ⟨_, rfl, h, Grows.refl _⟩
  · rename_i path hp
    obtain ⟨q', hp⟩ := extend_steer hp
    split
    · exact ⟨_, rfl, h, Grows.refl _⟩
    · rename_i hv
      exact absurd (ct.whole _ _ _ _ hv) (by simp)
    · rename_i w hv
      have hw := ct.part_forward _ _ _ _ _ _ hp hv
      have := ct.whole _ _ _ _ hv
      rw [Option.some.injEq] at this
      subst this
      split
      · rename_i hf
        exact ⟨_, rfl, h.addEdge h1 h2 (ct.forward _ _ _ _ hp) hf (hw.2 (Or.inl rfl)), grows_addEdge _ _ _ _⟩
      · exact ⟨_, rfl, h, Grows.refl _⟩

theorem extendEnd_spec (ct : Contract env Valid) {k : Tok} {rm : Roadmap C P} {reached : Option C} {near q : C} {path w : P} {v : Bool} (h : EdgesOk env Valid rm)
    (hr : ∀ x, reached = some x → x ∈ rm.nodes) (hn : near ∈ rm.nodes) (hp : env.steer k near q true = some path) (hv : env.validate k path true = (v, some w)) :
    ∃ s, extendEnd env k rm reached near path w = some s ∧ EdgesOk env Valid s.1 ∧ Grows rm s.1 := by
  unfold extendEnd
  split
  · rename_i hlen
    have hw := ct.part_backward _ _ _ _ _ _ hp hv
    have hok : EdgesOk env Valid ((rm.addNode (env.initial w)).addEdge (env.initial w) near w) := by
      refine (h.addNode _).addEdge ((mem_addNode ..).2 (Or.inr rfl)) ((mem_addNode ..).2 (Or.inl hn)) rfl ?_ (hw.2 (Or.inr hlen))
      rw [hw.1, ct.backward _ _ _ _ hp]
    have hg := (grows_addNode rm (env.initial w)).trans (grows_addEdge _ (env.initial w) near w)
    simp only
    split
    · exact ⟨_, rfl, hok, hg⟩
    · rename_i qn
      obtain ⟨s, hs, h1, h2⟩ := joinNew_spec (k := k) ct hok (hg.1 _ (hr _ rfl)) ((mem_addNode ..).2 (Or.inr rfl))
      exact ⟨s, hs, h1, hg.trans h2⟩
  · exact ⟨_, rfl, h, Grows.refl _⟩

theorem back_spec (ct : Contract env Valid) {k : Tok} {rm : Roadmap C P} {reached : Option C} {vs : Bool} {q : C} (h : EdgesOk env Valid rm) (hne : rm.nodes ≠ [])
    (hr : ∀ x, reached = some x → x ∈ rm.nodes) (hvs : vs = true → reached = some q) :
    ∃ s, back env k rm reached vs q = some s ∧ EdgesOk env Valid s.1 ∧ Grows rm s.1 := by
  have hn := ct.nearest k rm q hne
  unfold back
  simp only
  split
  · exact ⟨_, rfl, h, Grows.refl _⟩
  · rename_i path hp
    obtain ⟨q', hp⟩ := extend_steer hp
    split
    · simp at hvs
    · rename_i hv
      exact absurd (ct.whole _ _ _ _ hv) (by simp)
    · rename_i v w qn hv
      split
      · rename_i hi
        have hw := ct.part_backward _ _ _ _ _ _ hp hv
        refine ⟨_, rfl, h.addEdge (hr _ rfl) hn hi.2 ?_ (hw.2 (Or.inl hi.1)), grows_addEdge _ _ _ _⟩
        rw [hw.1, ct.backward _ _ _ _ hp]
      · exact extendEnd_spec ct h hr hn hp hv
    · rename_i hv _ _
      exact extendEnd_spec ct h hr hn hp hv
    · exact ⟨_, rfl, h, Grows.refl _⟩

theorem Grows.ne {a b : Roadmap C P} (h : Grows a b) (hn : a.nodes ≠ []) : b.nodes ≠ [] := by
  obtain ⟨x, hx⟩ := List.exists_mem_of_ne_nil _ hn
  exact List.ne_nil_of_mem (h.1 x hx)

theorem backLoop_spec (ct : Contract env Valid) {k : ℕ} {reached : Option C} {vs : Bool} {q : C} (n i : ℕ) {rm : Roadmap C P} (h : EdgesOk env Valid rm) (hne : rm.nodes ≠ [])
    (hr : ∀ x, reached = some x → x ∈ rm.nodes) (hvs : vs = true → reached = some q) :
    ∃ rm', backLoop env k reached vs q n i rm = some rm' ∧ EdgesOk env Valid rm' ∧ Grows rm rm' := by
  induction n generalizing i rm with
  | zero => exact ⟨_, rfl, h, Grows.refl _⟩
  | succ n ih =>
    obtain ⟨⟨rm1, b⟩, hs, h1, h2⟩ := back_spec (k := (k, i)) (q := q) ct h hne hr hvs
    unfold backLoop
    rw [hs]
    cases b with
    | true => exact ⟨_, rfl, h1, h2⟩
    | false =>
      obtain ⟨rm', e, h3, h4⟩ := ih (i + 1) h1 (h2.ne hne) (fun x hx => h2.1 _ (hr x hx))
      exact ⟨rm', e, h3, h2.trans h4⟩

theorem oneStep_spec (ct : Contract env Valid) (k : ℕ) {rm : Roadmap C P} (h : EdgesOk env Valid rm) (hne : rm.nodes ≠ []) :
    ∃ rm', oneStep env k rm = some rm' ∧ EdgesOk env Valid rm' ∧ Grows rm rm' := by
  obtain ⟨h1, h2, h3, h4⟩ := front_spec ct k rm (env.shoot k) hne h
  obtain ⟨rm', e, h5, h6⟩ := backLoop_spec (k := k) ct env.ends 1 h1 (h2.ne hne) h3 h4
  exact ⟨rm', e, h5, h2.trans h6⟩

/-! ### C56 -/

/-- C56 (part): any number of steps, whatever the random configurations and the answers of the steering method (that may stop anywhere) and of the validation, never
dereferences a null pointer, removes nothing, and keeps that every edge carries an accepted path between the configurations of its nodes. -/
theorem C56_partial (env : Env C P K) (Valid : P → Prop) (ct : Contract env Valid) (n k : ℕ) (rm : Roadmap C P) (hne : rm.nodes ≠ []) (h : EdgesOk env Valid rm) :
    ∃ rm', steps env n k rm = some rm' ∧ EdgesOk env Valid rm' ∧ Grows rm rm' := by
  induction n generalizing k rm with
  | zero => exact ⟨_, rfl, h, Grows.refl _⟩
  | succ n ih =>
    obtain ⟨rm1, e1, h1, h2⟩ := oneStep_spec ct k h hne
    obtain ⟨rm', e, h3, h4⟩ := ih (k + 1) rm1 (h2.ne hne) h1
    refine ⟨rm', ?_, h3, h2.trans h4⟩
    rw [steps, e1]
    exact e

/-- C56: along a roadmap whose edges are as stated, every route is a continuous sequence of accepted paths. -/
theorem C56_route (env : Env C P K) (Valid : P → Prop) (rm : Roadmap C P) (h : EdgesOk env Valid rm) (a b : C) (l : List (C × C × P)) (hr : Route rm a l b) :
    Continuous env a (l.map fun e => e.2.2) b ∧ ∀ p ∈ l.map (fun e => e.2.2), Valid p := by
  induction l generalizing a with
  | nil => exact ⟨hr, by simp⟩
  | cons e l ih =>
    obtain ⟨he, ha, hr⟩ := hr
    obtain ⟨h1, h2⟩ := ih _ hr
    obtain ⟨-, -, hi, hf, hv⟩ := h e he
    refine ⟨⟨hi.trans ha, hf ▸ h1⟩, ?_⟩
    intro p hp
    rcases List.mem_cons.1 hp with rfl | hp
    · exact hv
    · exact h2 p hp

/-- C56: if the start component reaches the random configuration by a valid path and an end component does so backwards, the step connects them through it. -/
theorem C56_connects (env : Env C P K) (Valid : P → Prop) (ct : Contract env Valid) (k : ℕ) (rm : Roadmap C P) (hends : env.ends ≠ 0)
    (p p' : P) (hp : extendInternal env (k, 0) (env.nearest (k, 0) rm (env.shoot k)) (env.shoot k) false = some p) (hf : env.final p = env.shoot k)
    (hl : env.t1 p ≠ env.t0 p) (hv : (env.validate (k, 0) p false).1 = true)
    (near : C) (hnear : near = env.nearest (k, 1) (front env k rm (env.shoot k)).rm (env.shoot k))
    (hp' : extendInternal env (k, 1) near (env.shoot k) true = some p') (hi : env.initial p' = env.shoot k) (hv' : (env.validate (k, 1) p' true).1 = true) :
    ∃ rm', oneStep env k rm = some rm' ∧ Route rm' (env.nearest (k, 0) rm (env.shoot k))
      [(env.nearest (k, 0) rm (env.shoot k), env.shoot k, p), (env.shoot k, near, p')] near := by
  have e1 : env.validate (k, 0) p false = (true, some p) := by
    rcases hx : env.validate (k, 0) p false with ⟨v, w⟩
    rw [hx] at hv
    simp only at hv
    subst hv
    rw [ct.whole _ _ _ _ hx]
  have e2 : env.validate (k, 1) p' true = (true, some p') := by
    rcases hx : env.validate (k, 1) p' true with ⟨v, w⟩
    rw [hx] at hv'
    simp only at hv'
    subst hv'
    rw [ct.whole _ _ _ _ hx]
  have hfr : front env k rm (env.shoot k) = ⟨(rm.addNode (env.shoot k)).addEdge (env.nearest (k, 0) rm (env.shoot k)) (env.shoot k) p, some (env.shoot k), true⟩ := by
    unfold front
    simp only [hp, e1, hl, hf, ne_eq, not_false_eq_true, if_true, decide_true, Bool.and_true, ite_true]
  rw [hfr] at hnear
  obtain ⟨n, hn⟩ := Nat.exists_eq_succ_of_ne_zero hends
  refine ⟨((rm.addNode (env.shoot k)).addEdge (env.nearest (k, 0) rm (env.shoot k)) (env.shoot k) p).addEdge (env.shoot k) near p', ?_, ?_⟩
  · unfold oneStep
    simp only [hfr, hn, backLoop]
    have : back env (k, 1) ((rm.addNode (env.shoot k)).addEdge (env.nearest (k, 0) rm (env.shoot k)) (env.shoot k) p) (some (env.shoot k)) true (env.shoot k)
        = some (((rm.addNode (env.shoot k)).addEdge (env.nearest (k, 0) rm (env.shoot k)) (env.shoot k) p).addEdge (env.shoot k) near p', true) := by
      unfold back
      simp only [← hnear, hp', e2, hi, and_self, if_true, ite_true]
    rw [this]
  · refine ⟨?_, rfl, ?_, rfl, rfl⟩ <;> simp [Roadmap.addEdge]

/-! ### direct connections -/

/-- what is expected of the parabola: it takes off and lands with the velocities of its ends, and (the steering method validates it for the trunk) it is `Jump` -/
structure JumpContract (env : Env C P K) (je : JumpEnv C P) (Jump : P → Prop) : Prop where
  takeOff : ∀ k a b p, je.parabola k a b = some p → je.takeOff p = env.initial p ∧ je.landing p = env.final p ∧ Jump p

/-- C56: the jump that is tried leaves from the first configuration towards the second; with constraints towards the configuration that the constraints made of it (the second configuration, passed through
the projector on the way from the first to the second if the constraints have one); if they cannot be applied there is no jump. -/
theorem C56_jump_target (je : JumpEnv C P) (k : Tok) (start target : C) :
    (env.constraints = none → extendParabola env je k start target = je.parabola k start target) ∧
    (∀ apply, env.constraints = some (none, apply) → extendParabola env je k start target = (apply target).bind (je.parabola k start)) ∧
    ∀ proj apply, env.constraints = some (some proj, apply) → extendParabola env je k start target = (apply (proj start target)).bind (je.parabola k start) := by
  refine ⟨fun h => ?_, fun apply h => ?_, fun proj apply h => ?_⟩
  · unfold extendParabola; rw [h]
  · unfold extendParabola; rw [h]; dsimp only; cases apply target <;> rfl
  · unfold extendParabola; rw [h]; dsimp only; cases apply (proj start target) <;> rfl

theorem parabola_of {je : JumpEnv C P} {k : Tok} {a b : C} {p : P} (h : extendParabola env je k a b = some p) : ∃ b', je.parabola k a b' = some p := by
  unfold extendParabola at h
  split at h
  · exact ⟨_, h⟩
  · simp only at h
    split at h
    · exact ⟨_, h⟩
    · cases h

theorem EdgesOk.mono {A B : P → Prop} (h : ∀ p, A p → B p) {rm : Roadmap C P} (he : EdgesOk env A rm) : EdgesOk env B rm :=
  fun e m => ⟨(he e m).1, (he e m).2.1, (he e m).2.2.1, (he e m).2.2.2.1, h _ (he e m).2.2.2.2⟩

theorem tryParabola_spec {je : JumpEnv C P} {Jump : P → Prop} (ct : Contract env Valid) (jc : JumpContract env je Jump) {k : Tok} {rm : Roadmap C P} {near last target : C}
    (h : EdgesOk env (fun p => Valid p ∨ Jump p) rm) (hn : near ∈ rm.nodes) :
    ∃ rm' o, tryParabola env je k rm near last target = some (rm', o) ∧ EdgesOk env (fun p => Valid p ∨ Jump p) rm' ∧ Grows rm rm' ∧
      ∀ j p, o = some (j, p) → j ∈ rm'.nodes ∧ env.initial p = j ∧ Jump p ∧ extendParabola env je k last target = some p := by
  unfold tryParabola
  split
  · exact ⟨_, _, rfl, h, Grows.refl _, by simp⟩
  · rename_i para hpara
    obtain ⟨b', hb'⟩ := parabola_of hpara
    obtain ⟨j1, j2, j3⟩ := jc.takeOff _ _ _ _ hb'
    split
    · split
      · exact ⟨_, _, rfl, h, Grows.refl _, by simp⟩
      · rename_i kino hkino
        obtain ⟨q', hkino⟩ := extend_steer hkino
        split
        · exact ⟨_, _, rfl, h, Grows.refl _, by simp⟩
        · rename_i hv
          exact absurd (ct.whole _ _ _ _ hv) (by simp)
        · rename_i w hv
          have hw := ct.part_forward _ _ _ _ _ _ hkino hv
          have := ct.whole _ _ _ _ hv
          rw [Option.some.injEq] at this
          subst this
          split
          · rename_i hc
            have g1 := (grows_addNode rm (je.takeOff para)).trans (grows_addEdge _ near (je.takeOff para) w)
            have o1 : EdgesOk env (fun p => Valid p ∨ Jump p) ((rm.addNode (je.takeOff para)).addEdge near (je.takeOff para) w) :=
              (h.addNode _).addEdge ((mem_addNode ..).2 (Or.inl hn)) ((mem_addNode ..).2 (Or.inr rfl)) (ct.forward _ _ _ _ hkino) hc.2 (Or.inl (hw.2 (Or.inl rfl)))
            have m1 : je.takeOff para ∈ ((rm.addNode (je.takeOff para)).addEdge near (je.takeOff para) w).nodes := (mem_addNode ..).2 (Or.inr rfl)
            refine ⟨_, _, rfl, (o1.addNode _).addEdge ((mem_addNode ..).2 (Or.inl m1)) ((mem_addNode ..).2 (Or.inr rfl)) j1.symm j2.symm (Or.inr j3),
              g1.trans ((grows_addNode _ _).trans (grows_addEdge _ _ _ _)), ?_⟩
            intro j p hjp
            simp only [Option.some.injEq, Prod.mk.injEq] at hjp
            obtain ⟨rfl, rfl⟩ := hjp
            exact ⟨(mem_addNode ..).2 (Or.inl m1), j1.symm, j3, hpara⟩
          · exact ⟨_, _, rfl, h, Grows.refl _, by simp⟩
    · exact ⟨_, _, rfl, h, Grows.refl _, by simp⟩

/-- C56 (part): if the steering method (and the projector) reaches the goals exactly, parabolas to goals land there with the velocity of the goal, and a report is
given whenever no full path is, (and the validation treats the projected paths as it does those of the steering method) the direct connections keep that every edge carries an accepted path (for jumps: accepted for the trunk) between the configurations of its nodes. -/
theorem C56_direct_partial (env : Env C P K) (je : JumpEnv C P) (Valid Jump : P → Prop) (ct : Contract env Valid) (jc : JumpContract env je Jump) (k i : ℕ) (init : C) (goals : List C)
    (rm : Roadmap C P) (hi : init ∈ rm.nodes) (hg : ∀ g ∈ goals, g ∈ rm.nodes)
    (hreach : ∀ t, ∀ g ∈ goals, ∀ p, extendInternal env t init g false = some p → env.final p = g)
    (hproj : ∀ f, je.projector = some f → ∀ p p', f p = some p' → env.initial p' = env.initial p ∧ env.final p' = env.final p ∧
      ∀ t v w, env.validate t p' false = (v, some w) → env.initial w = env.initial p' ∧ (v = true ∨ env.t1 w ≠ env.t0 p → Valid w))
    (hland : je.tryJump = true → ∀ t q, ∀ g ∈ goals, ∀ p, extendParabola env je t q g = some p → env.final p = g)
    (hrep : je.tryJump = true → ∀ t p, je.report t p = true)
    (h : EdgesOk env (fun p => Valid p ∨ Jump p) rm) :
    ∃ rm', connect env je k init goals i rm = some rm' ∧ EdgesOk env (fun p => Valid p ∨ Jump p) rm' ∧ Grows rm rm' := by
  have key : ∀ (t : Tok) (rm : Roadmap C P), init ∈ rm.nodes → ∀ g ∈ goals, g ∈ rm.nodes → EdgesOk env (fun p => Valid p ∨ Jump p) rm →
      ∀ path proj, env.initial proj = init → env.final proj = g → (∀ v w, env.validate t proj false = (v, some w) → env.initial w = env.initial proj ∧ (v = true ∨ env.t1 w ≠ env.t0 path → Valid w)) →
      ∃ rm', connectProjected env je t rm init g path proj = some rm' ∧ EdgesOk env (fun p => Valid p ∨ Jump p) rm' ∧ Grows rm rm' := by
    intro t rm hi g hg' hgm h path proj e1 e2 e3
    unfold connectProjected
    split
    · rename_i hv
      exact absurd (ct.whole _ _ _ _ hv) (by simp)
    · exact ⟨_, rfl, h, Grows.refl _⟩
    · rename_i v w hv
      have hw := e3 _ _ hv
      by_cases hc : v = true ∧ env.t1 w ≠ env.t0 path
      · rw [if_pos hc]
        have hwp := hc.1 ▸ hv
        have := ct.whole _ _ _ _ hwp
        rw [Option.some.injEq] at this
        subst this
        exact ⟨_, rfl, h.addEdge hi hgm e1 e2 (Or.inl (hw.2 (Or.inl hc.1))), grows_addEdge _ _ _ _⟩
      · rw [if_neg hc]
        by_cases hj : je.tryJump = true
        · rw [if_pos hj, if_neg (by rw [hrep hj]; simp)]
          by_cases ht : je.trunk t proj = true
          · rw [if_pos ht]
            obtain ⟨rm', o, e, h1, h2, h3⟩ := tryParabola_spec (k := t) (last := env.final w) (target := g) ct jc h hi
            rw [e]
            cases o with
            | none => exact ⟨_, rfl, h1, h2⟩
            | some jp =>
              obtain ⟨j, p⟩ := jp
              obtain ⟨h4, h5, h6, h7⟩ := h3 j p rfl
              exact ⟨_, rfl, h1.addEdge h4 (h2.1 _ hgm) h5 (hland hj _ _ _ hg' _ h7) (Or.inr h6), h2.trans (grows_addEdge _ _ _ _)⟩
          · rw [if_neg ht]
            exact ⟨_, rfl, h, Grows.refl _⟩
        · rw [if_neg hj]
          split
          · rename_i hlen
            refine ⟨_, rfl, (h.addNode _).addEdge ((mem_addNode ..).2 (Or.inl hi)) ((mem_addNode ..).2 (Or.inr rfl)) ?_ rfl (Or.inl (hw.2 (Or.inr hlen))),
              (grows_addNode _ _).trans (grows_addEdge _ _ _ _)⟩
            rw [hw.1, e1]
          · exact ⟨_, rfl, h, Grows.refl _⟩
  have hsub : ∀ g ∈ goals, g ∈ goals := fun _ h => h
  generalize hgs : goals = gs at hsub hg
  have hgs' : ∀ g ∈ gs, g ∈ goals := by rw [hgs]; exact hsub
  clear hgs hsub
  induction gs generalizing i rm with
  | nil => exact ⟨_, rfl, h, Grows.refl _⟩
  | cons g gs ih =>
    have hg1 := hgs' g (by simp)
    have step : ∃ rm', connectGoal env je (k, i) rm init g = some rm' ∧ EdgesOk env (fun p => Valid p ∨ Jump p) rm' ∧ Grows rm rm' := by
      unfold connectGoal
      split
      · exact ⟨_, rfl, h, Grows.refl _⟩
      · rename_i path hp
        have e2 := hreach _ _ hg1 _ hp
        obtain ⟨q', hp'⟩ := extend_steer hp
        have e1 := ct.forward _ _ _ _ hp'
        split
        · exact key _ _ hi _ hg1 (hg _ (by simp)) h _ _ e1 e2 (fun v w hv => ct.part_forward _ _ _ _ _ _ hp' hv)
        · rename_i f hf
          split
          · exact ⟨_, rfl, h, Grows.refl _⟩
          · rename_i proj hproj'
            obtain ⟨a, b, c⟩ := hproj _ hf _ _ hproj'
            exact key _ _ hi _ hg1 (hg _ (by simp)) h _ _ (a.trans e1) (b.trans e2) (c _)
    obtain ⟨rm1, e, h1, h2⟩ := step
    obtain ⟨rm', e', h3, h4⟩ := ih (i := i + 1) (rm := rm1) (h2.1 _ hi) h1 (fun x hx => h2.1 _ (hg x (by simp [hx]))) (fun x hx => hgs' x (by simp [hx]))
    refine ⟨rm', ?_, h3, h2.trans h4⟩
    unfold connect
    rw [e]
    exact e'

/-! ### instances -/

/-- positions on a line; a path is its ends; the steering method stops after two units -/
def clamp (a b : ℤ) : ℤ := max (a - 2) (min b (a + 2))

/-- everything is valid; the nearest node of the start component is the first one, of the end component 4 -/
def lineEnv : Env ℤ (ℤ × ℤ) ℤ where
  initial := Prod.fst
  final := Prod.snd
  t0 := fun _ => 0
  t1 := fun p => p.2 - p.1
  shoot := fun k => 2 + k
  nearest := fun k rm _ => if k.2 = 0 ∨ 4 ∉ rm.nodes then (rm.nodes.head?).getD 0 else 4
  constraints := none
  steer := fun _ n q r => if r then some (clamp n q, n) else some (n, clamp n q)
  validate := fun _ p _ => (true, some p)
  ends := 1

theorem line_contract : Contract lineEnv (fun _ => True) where
  nearest := by
    intro k rm q h
    show (if k.2 = 0 ∨ 4 ∉ rm.nodes then (rm.nodes.head?).getD 0 else 4) ∈ rm.nodes
    split
    · rw [List.head?_eq_some_head h]; exact List.head_mem h
    · rename_i h4
      by_contra h5
      exact h4 (Or.inr h5)
  forward := by
    intro k n q p h
    simp only [lineEnv, Bool.false_eq_true, if_false, Option.some.injEq] at h
    rw [← h]; rfl
  backward := by
    intro k n q p h
    simp only [lineEnv, if_true, Option.some.injEq] at h
    rw [← h]; rfl
  whole := by
    intro k p r w h
    simp only [lineEnv, Prod.mk.injEq] at h
    exact h.2.symm
  part_forward := by
    intro k n q p v w _ h
    simp only [lineEnv, Prod.mk.injEq, Option.some.injEq] at h
    rw [h.2]; exact ⟨rfl, fun _ => trivial⟩
  part_backward := by
    intro k n q p v w _ h
    simp only [lineEnv, Prod.mk.injEq, Option.some.injEq] at h
    rw [h.2]; exact ⟨rfl, fun _ => trivial⟩

/-- C56_partial applies: one step from the nodes 0 and 4 connects them -/
example : ∃ rm', steps lineEnv 1 0 ⟨[0, 4], []⟩ = some rm' ∧ EdgesOk lineEnv (fun _ => True) rm' ∧ Grows ⟨[0, 4], []⟩ rm' :=
  C56_partial lineEnv _ line_contract 1 0 ⟨[0, 4], []⟩ (by simp) (by intro e he; simp at he)

example : steps lineEnv 1 0 ⟨[0, 4], []⟩ = some ⟨[0, 4, 2], [(0, 2, (0, 2)), (2, 4, (2, 4))]⟩ := by decide

/-- the steering method stops before the random configuration: the two new nodes are connected -/
example : steps lineEnv 1 1 ⟨[0, 4], []⟩ = some ⟨[0, 4, 2, 3], [(0, 2, (0, 2)), (3, 4, (3, 4)), (2, 3, (2, 3))]⟩ := by decide

/-- C56_connects applies -/
example : ∃ rm', oneStep lineEnv 0 ⟨[0, 4], []⟩ = some rm' ∧ Route rm' 0 [(0, 2, (0, 2)), (2, 4, (2, 4))] 4 :=
  C56_connects lineEnv _ line_contract 0 ⟨[0, 4], []⟩ (by decide) (0, 2) (2, 4) (by decide) (by decide) (by decide) (by decide) 4 (by decide) (by decide) (by decide) (by decide)

/-- without anything special about goals -/
def noJump : JumpEnv ℤ (ℤ × ℤ) := ⟨none, false, fun _ _ => true, fun _ _ => true, fun _ _ _ => none, fun _ => true, Prod.fst, Prod.snd⟩

/-- C56_direct_partial applies: the goal 2 is reached -/
example : ∃ rm', connect lineEnv noJump 0 0 [2] 0 ⟨[0, 2], []⟩ = some rm' ∧ EdgesOk lineEnv (fun p => True ∨ True) rm' ∧ Grows ⟨[0, 2], []⟩ rm' := by
  refine C56_direct_partial lineEnv noJump (fun _ => True) (fun _ => True) line_contract ⟨by intro k a b p h; cases h⟩ 0 0 0 [2] ⟨[0, 2], []⟩ (by simp) (by simp) ?_ ?_ ?_ ?_ ?_
  · intro t g hg p hp
    simp only [List.mem_singleton] at hg
    subst hg
    simp only [extendInternal, lineEnv, Bool.false_eq_true, if_false, Option.some.injEq] at hp
    rw [← hp]; decide
  · intro f hf; cases hf
  · intro h; cases h
  · intro h; cases h
  · intro e he; simp at he

/-- **C56 is violated** by the direct connections: the steering method may stop before the goal (C55), the path it returns is valid, and an edge to the goal is added without comparing its end with the goal. -/
theorem C56_goal_violated : Contract lineEnv (fun _ => True) ∧ connect lineEnv noJump 0 0 [10] 0 ⟨[0, 10], []⟩ = some ⟨[0, 10], [(0, 10, (0, 2))]⟩ ∧
    ¬ EdgesOk lineEnv (fun _ => True) ⟨[0, 10], [(0, 10, (0, 2))]⟩ := by
  refine ⟨line_contract, by decide, fun h => ?_⟩
  have := (h (0, 10, (0, 2)) (by simp)).2.2.2.1
  simp [lineEnv] at this

/-- position and velocity; the steering method is exact; nothing beyond 5 is valid -/
def gapEnv : Env (ℤ × ℤ) ((ℤ × ℤ) × (ℤ × ℤ)) ℤ where
  initial := Prod.fst
  final := Prod.snd
  t0 := fun _ => 0
  t1 := fun p => p.2.1 - p.1.1
  shoot := fun _ => (0, 0)
  nearest := fun _ rm _ => (rm.nodes.head?).getD (0, 0)
  constraints := none
  steer := fun _ n q r => if r then some (q, n) else some (n, q)
  validate := fun _ p r => if p.2.1 ≤ 5 then (true, some p) else if r = true then (false, none) else if p.1.1 ≤ 5 then (false, some (p.1, (5, p.2.2))) else (false, none)
  ends := 1

/-- jumps take off with velocity 3 and land with velocity -3 -/
def gapJump : JumpEnv (ℤ × ℤ) ((ℤ × ℤ) × (ℤ × ℤ)) where
  projector := none
  tryJump := true
  report := fun _ _ => true
  trunk := fun _ _ => true
  parabola := fun _ a b => some ((a.1, 3), (b.1, -3))
  long := fun _ => true
  takeOff := Prod.fst
  landing := Prod.snd

theorem gap_contract : Contract gapEnv (fun p => p.2.1 ≤ 5) where
  nearest := by
    intro k rm q h
    show (rm.nodes.head?).getD (0, 0) ∈ rm.nodes
    rw [List.head?_eq_some_head h]; exact List.head_mem h
  forward := by
    intro k n q p h
    simp only [gapEnv, Bool.false_eq_true, if_false, Option.some.injEq] at h
    rw [← h]; rfl
  backward := by
    intro k n q p h
    simp only [gapEnv, if_true, Option.some.injEq] at h
    rw [← h]; rfl
  whole := by
    intro k p r w h
    simp only [gapEnv] at h
    split_ifs at h <;> simp_all
  part_forward := by
    intro k n q p v w _ h
    simp only [gapEnv, Bool.false_eq_true, if_false] at h
    split_ifs at h with h1 h2
    · simp only [Prod.mk.injEq, Option.some.injEq] at h
      rw [← h.2]; exact ⟨rfl, fun _ => h1⟩
    · simp only [Prod.mk.injEq, Option.some.injEq] at h
      rw [← h.2]; exact ⟨rfl, fun _ => le_refl _⟩
    · simp at h
  part_backward := by
    intro k n q p v w _ h
    simp only [gapEnv, if_true] at h
    split_ifs at h with h1
    · simp only [Prod.mk.injEq, Option.some.injEq] at h
      rw [← h.2]; exact ⟨rfl, fun _ => h1⟩
    · simp at h

/-- **C56 is violated** when jumps are tried: the jump lands with its own velocity, and besides the edge to the landing configuration one to the goal is added with the same path. -/
theorem C56_jump_violated : Contract gapEnv (fun p => p.2.1 ≤ 5) ∧ JumpContract gapEnv gapJump (fun _ => True) ∧
    ∃ rm', connect gapEnv gapJump 0 (0, 0) [(10, 0)] 0 ⟨[(0, 0), (10, 0)], []⟩ = some rm' ∧ ((5, 3), (10, 0), ((5, 3), (10, -3))) ∈ rm'.edges ∧
    ¬ EdgesOk gapEnv (fun _ => True) rm' := by
  refine ⟨gap_contract, ⟨?_⟩, ⟨[(0, 0), (10, 0), (5, 3), (10, -3)], [((0, 0), (5, 3), ((0, 0), (5, 3))), ((5, 3), (10, -3), ((5, 3), (10, -3))), ((5, 3), (10, 0), ((5, 3), (10, -3)))]⟩, ?_, ?_, ?_⟩
  · intro k a b p h
    exact ⟨rfl, rfl, trivial⟩
  · decide
  · simp
  · intro h
    have := (h ((5, 3), (10, 0), ((5, 3), (10, -3))) (by simp)).2.2.2.1
    simp [gapEnv] at this

/-- **C56 is violated**: if the steering method returns a path of length 0 (cut at its beginning, C55) it is valid, there is no report, and when jumps are tried the null report is dereferenced. -/
theorem C56_null_violated (env : Env C P K) (je : JumpEnv C P) (k : Tok) (rm : Roadmap C P) (init goal : C) (path : P) (hv : env.validate k path false = (true, some path))
    (h0 : env.t1 path = env.t0 path) (hj : je.tryJump = true) (hr : je.report k path = false) : connectProjected env je k rm init goal path path = none := by
  unfold connectProjected
  rw [hv]
  simp [h0, hj, hr]

end Planner
end Rbprm
