import Verif.Props.Planner
import Verif.Props.Dynamic
import Verif.Props.PathValidation
import Mathlib.Data.Rat.Floor
set_option linter.unusedSectionVars false
/-!
# C169: from the steering method and the path validation to the roadmap

The environment of `Model/Planner` is instantiated with `Dynamic.steer` (rbprm-steering-kinodynamic.cc) and the loop of `PathValidation.validateFrom`
(rbprm-path-validation.cc, dynamic-path-validation.cc).  A path is represented by the path of hpp-core's steering method and an interval of it; `extract` of a
`KinodynamicPath` gives a path of time range from 0 to the length of the interval.
-/
namespace Rbprm
namespace Planner
variable {K A C Rep σ : Type _} [Field K] [LinearOrder K] [IsStrictOrderedRing K] [DecidableEq C]

/-- an interval of a path computed by hpp-core -/
structure Piece (K A : Type _) where
  path : Dynamic.KPath K A
  a : K
  b : K

/-- the configuration at a time of its own range, from 0 to `b - a` -/
def Piece.eval (conf : Dynamic.KPath K A → K → Option C) (p : Piece K A) (t : K) : Option C := conf p.path (p.a + t)

/-- what a validation leaves of it -/
def Piece.part (p : Piece K A) : PathValidation.ValidPart K → Piece K A
  | .whole => p
  | .extract u v => ⟨p.path, p.a + u, p.a + v⟩

/-! ### specification -/

/-- the planner runs with the steering method and the path validation of this library.  `conf` evaluates a path of hpp-core; the steering method may depend on the
call (bounds, contacts of the nodes), so may the state of the validation, the report before its loop and the number of iterations that suffice. -/
structure Built (env : Env C (Piece K A) K) (senv : Tok → Dynamic.SteerEnv K A C C) (conf : Dynamic.KPath K A → K → Option C)
    (check : PathValidation.Check C Rep σ) (step : K) : Prop where
  nearest : ∀ k rm q, rm.nodes ≠ [] → env.nearest k rm q ∈ rm.nodes
  initial : ∀ p q, conf p.path p.a = some q → env.initial p = q
  final : ∀ p q, conf p.path p.b = some q → env.final p = q
  t0 : ∀ p, env.t0 p = 0
  t1 : ∀ p, env.t1 p = p.b - p.a
  config : ∀ k n, (senv k).config n = n
  steer : ∀ k n q r, env.steer k n q r = (Dynamic.steer (senv k) n q r).range.map fun x => ⟨x.1, x.2.1, x.2.2⟩
  validate : ∀ k p r, ∃ c fuel s res, PathValidation.validateFrom c fuel (p.eval conf) 0 (p.b - p.a) r check step s = some res ∧
    env.validate k p r = (res.valid, some (p.part res.validPart))

/-- hpp-core's steering method: the path joins the two configurations, its phases are not negative and not longer than itself -/
structure Joins (conf : Dynamic.KPath K A → K → Option C) (p : Dynamic.KPath K A) (x y : C) : Prop where
  len : 0 ≤ p.len
  timed : Dynamic.Timed p
  inside : ∀ s ∈ Dynamic.switches p, s ≤ p.len
  first : conf p 0 = some x
  last : conf p p.len = some y

/-- configurations of this part were validated one after the other, all accepted, among them both ends, and no time of it is more than `step` from one of them -/
def Tested (conf : Dynamic.KPath K A → K → Option C) (check : PathValidation.Check C Rep σ) (step : K) (w : Piece K A) : Prop :=
  ∃ ts s s', PathValidation.Accepted (conf w.path) check s ts s' ∧ (∀ t ∈ ts, w.a ≤ t ∧ t ≤ w.b) ∧ w.a ∈ ts ∧ w.b ∈ ts ∧
    ∀ u, w.a ≤ u → u ≤ w.b → ∃ t ∈ ts, |u - t| ≤ step

/-- the beginning of a path from the node; if the bounds of the acceleration were lowered for the node, the path is not longer than 50 seconds and the acceleration shortly after every change is admissible
for the node -/
structure Leaves (env : Dynamic.SteerEnv K A C C) (conf : Dynamic.KPath K A → K → Option C) (node q : C) (w : Piece K A) : Prop where
  start : w.a = 0
  inside : w.b ≤ w.path.len
  first : conf w.path 0 = some node
  goal : conf w.path w.path.len = some q
  admissible : (Dynamic.setBounds env node q false).upToDate = false → w.path.len ≤ 50 ∧
    ∀ s ∈ 0 :: Dynamic.switches w.path, s < w.b → s + 1 / 10000 < w.path.len → env.admissible node (w.path.acc (s + 1 / 10000)) = true

/-- the end of a path to the node, in the same way with the acceleration shortly before every change -/
structure Arrives (env : Dynamic.SteerEnv K A C C) (conf : Dynamic.KPath K A → K → Option C) (node q : C) (w : Piece K A) : Prop where
  stop : w.b = w.path.len
  inside : 0 ≤ w.a
  first : conf w.path 0 = some q
  goal : conf w.path w.path.len = some node
  admissible : (Dynamic.setBounds env node q true).upToDate = false → w.path.len ≤ 50 ∧
    ∀ s ∈ w.path.len :: Dynamic.switches w.path, w.a < s → 0 < s - 1 / 10000 → env.admissible node (w.path.acc (s - 1 / 10000)) = true

/-! ### lemmas -/

theorem chain_covers {step : K} {ts : List K} {x y : K} (hc : ts.IsChain (fun a b => a ≤ b ∧ b ≤ a + step)) (hx : ts.head? = some x) (hy : ts.getLast? = some y) (h0 : 0 ≤ step) :
    (∀ t ∈ ts, x ≤ t ∧ t ≤ y) ∧ ∀ u, x ≤ u → u ≤ y → ∃ t ∈ ts, |u - t| ≤ step := by
  induction ts generalizing x with
  | nil => simp at hx
  | cons a ts ih =>
    simp only [List.head?_cons, Option.some.injEq] at hx
    subst hx
    cases ts with
    | nil =>
      simp only [List.getLast?_singleton, Option.some.injEq] at hy
      subst hy
      refine ⟨by simp, fun u h1 h2 => ⟨a, by simp, ?_⟩⟩
      have : u = a := le_antisymm h2 h1
      subst this
      simpa using h0
    | cons b ts =>
      rw [List.isChain_cons_cons] at hc
      rw [List.getLast?_cons_cons] at hy
      obtain ⟨h1, h2⟩ := ih hc.2 rfl hy
      refine ⟨?_, ?_⟩
      · intro t ht
        rcases List.mem_cons.1 ht with rfl | ht
        · exact ⟨le_refl _, hc.1.1.trans (h1 b (by simp)).2⟩
        · exact ⟨hc.1.1.trans (h1 t ht).1, (h1 t ht).2⟩
      · intro u hu1 hu2
        rcases le_total u b with hb | hb
        · refine ⟨a, by simp, ?_⟩
          rw [abs_le]
          constructor <;> linarith [hc.1.2]
        · obtain ⟨t, ht, h⟩ := h2 u hb hu2
          exact ⟨t, List.mem_cons_of_mem _ ht, h⟩

theorem spaced_covers {r : Bool} {step : K} {ts : List K} {x y : K} (hc : PathValidation.Spaced r step ts) (hx : ts.head? = some (if r then y else x))
    (hy : ts.getLast? = some (if r then x else y)) (h0 : 0 ≤ step) : (∀ t ∈ ts, x ≤ t ∧ t ≤ y) ∧ ∀ u, x ≤ u → u ≤ y → ∃ t ∈ ts, |u - t| ≤ step := by
  cases r with
  | false => exact chain_covers (by simpa [PathValidation.Spaced] using hc) (by simpa using hx) (by simpa using hy) h0
  | true =>
    have h := chain_covers (ts := ts.reverse) (x := x) (y := y) (step := step) (by rw [List.isChain_reverse]; simpa [PathValidation.Spaced] using hc)
      (by rw [List.head?_reverse]; simpa using hy) (by rw [List.getLast?_reverse]; simpa using hx) h0
    simpa using h

theorem accepted_shift {conf : K → Option C} {check : PathValidation.Check C Rep σ} {a : K} {s s' : σ} {ts : List K}
    (h : PathValidation.Accepted (fun t => conf (a + t)) check s ts s') : PathValidation.Accepted conf check s (ts.map (a + ·)) s' := by
  induction h with
  | nil => exact .nil _
  | cons hq ha _ ih => exact .cons hq ha ih

theorem mem_of_head? {α : Type _} {l : List α} {x : α} (h : l.head? = some x) : x ∈ l := by
  cases l with
  | nil => simp at h
  | cons a l => simp at h; subst h; simp

theorem loop_last {path : K → Option C} {check : PathValidation.Check C Rep σ} {next : K → K} {beyond : K → Prop} [DecidablePred beyond] {stop : K} (hb : ¬ beyond stop)
    (n : ℕ) (t last : K) (f : ℕ) (c : Option Rep) (s : σ) (ht : ¬ beyond t) (hl : ¬ beyond last) (r : PathValidation.LoopResult K Rep σ)
    (h : PathValidation.loop path check next beyond stop n t last f c s = some r) : ¬ beyond r.lastValidTime := by
  induction n generalizing t last f c s with
  | zero => simp [PathValidation.loop] at h
  | succ n ih =>
    rw [PathValidation.loop] at h
    by_cases hf : f < 2
    · rw [if_pos hf] at h
      dsimp only at h
      by_cases hc : (PathValidation.checkAt path check s c t).1 = false
      · rw [if_pos hc] at h
        simp only [Option.some.injEq] at h
        rw [← h]; exact hl
      · rw [if_neg hc] at h
        by_cases hn : beyond (next t)
        · rw [if_pos hn] at h
          exact ih _ _ _ _ _ hb ht h
        · rw [if_neg hn] at h
          exact ih _ _ _ _ _ hn ht h
    · rw [if_neg hf] at h
      simp only [Option.some.injEq] at h
      rw [← h]; exact hl

/-- the part that is returned lies in the range of the path -/
theorem part_inside {path : K → Option C} {check : PathValidation.Check C Rep σ} {step tmin tmax : K} (hle : tmin ≤ tmax) {r : Bool}
    {c : Option Rep} {fuel : ℕ} {s : σ} {res : PathValidation.Result K Rep σ}
    (h : PathValidation.validateFrom c fuel path tmin tmax r check step s = some res) (u v : K) (he : res.validPart = .extract u v) : tmin ≤ u ∧ v ≤ tmax := by
  unfold PathValidation.validateFrom at h
  cases r with
  | true =>
    rw [if_pos rfl] at h
    simp only [PathValidation.backwardLoop_eq] at h
    obtain ⟨x, hx, e⟩ := Option.map_eq_some_iff.1 h
    have := loop_last (beyond := (· < tmin)) (lt_irrefl _) fuel _ _ _ _ _ (not_lt.2 hle) (not_lt.2 hle) x hx
    split_ifs at e
    · rw [← e] at he; cases he
    · rw [← e] at he
      simp only [PathValidation.ValidPart.extract.injEq] at he
      rw [← he.1, ← he.2]
      exact ⟨not_lt.1 this, le_refl _⟩
  | false =>
    rw [if_neg (by simp)] at h
    simp only [PathValidation.forwardLoop_eq] at h
    obtain ⟨x, hx, e⟩ := Option.map_eq_some_iff.1 h
    have := loop_last (beyond := (· > tmax)) (lt_irrefl _) fuel _ _ _ _ _ (not_lt.2 hle) (not_lt.2 hle) x hx
    split_ifs at e
    · rw [← e] at he; cases he
    · rw [← e] at he
      simp only [PathValidation.ValidPart.extract.injEq] at he
      rw [← he.1, ← he.2]
      exact ⟨le_refl _, not_lt.1 this⟩

/-- what the validation returns is a part with the same beginning or end, tested unless its length is 0 -/
theorem part_tested {conf : Dynamic.KPath K A → K → Option C} {check : PathValidation.Check C Rep σ} {step : K} (hstep : 0 < step) {p : Piece K A} (hp : p.a ≤ p.b) {r : Bool}
    {c : Option Rep} {fuel : ℕ} {s : σ} {res : PathValidation.Result K Rep σ}
    (h : PathValidation.validateFrom c fuel (p.eval conf) 0 (p.b - p.a) r check step s = some res) :
    (res.valid = true → res.validPart = .whole) ∧ (p.part res.validPart).path = p.path ∧ p.a ≤ (p.part res.validPart).a ∧ (p.part res.validPart).a ≤ (p.part res.validPart).b ∧
    (p.part res.validPart).b ≤ p.b ∧ (r = false → (p.part res.validPart).a = p.a) ∧ (r = true → (p.part res.validPart).b = p.b) ∧
    (res.valid = true ∨ (p.part res.validPart).b - (p.part res.validPart).a ≠ 0 → Tested conf check step (p.part res.validPart)) := by
  have hv := PathValidation.validateFrom_spec c _ 0 (p.b - p.a) (by linarith) r check step hstep s fuel res h
  cases hr : res.valid with
  | true =>
    obtain ⟨h1, -, ts, h2, h3, h4, h5⟩ := hv.valid hr
    rw [h1]
    refine ⟨fun _ => rfl, rfl, le_refl _, hp, le_refl _, fun _ => rfl, fun _ => rfl, fun _ => ?_⟩
    obtain ⟨h6, h7⟩ := spaced_covers (x := 0) (y := p.b - p.a) h3 (by rw [h4]; rfl) (by rw [h5]; rfl) hstep.le
    have m0 : (0 : K) ∈ ts := by
      cases r
      · exact mem_of_head? h4
      · exact List.mem_of_getLast? h5
    have m1 : p.b - p.a ∈ ts := by
      cases r
      · exact List.mem_of_getLast? h5
      · exact mem_of_head? h4
    refine ⟨ts.map (p.a + ·), s, _, accepted_shift h2, ?_, ?_, ?_, ?_⟩
    · intro t ht
      obtain ⟨t', ht', rfl⟩ := List.mem_map.1 ht
      have := h6 t' ht'
      show p.a ≤ p.a + t' ∧ p.a + t' ≤ p.b
      constructor <;> linarith
    · exact List.mem_map.2 ⟨0, m0, by simp [Piece.part]⟩
    · exact List.mem_map.2 ⟨_, m1, by simp [Piece.part]⟩
    · intro u hu1 hu2
      obtain ⟨t, ht, hd⟩ := h7 (u - p.a) (by have : p.a ≤ u := hu1; linarith) (by have : u ≤ p.b := hu2; linarith)
      exact ⟨_, List.mem_map.2 ⟨t, ht, rfl⟩, by rwa [show u - (p.a + t) = u - p.a - t by ring]⟩
  | false =>
    obtain ⟨ts, s', t, rep, h2, -, h3, h4, -, -, h5⟩ := hv.invalid hr
    refine ⟨(fun h => by cases h), ?_⟩
    rcases List.eq_nil_or_concat ts with rfl | ⟨l, z, rfl⟩
    · -- the first configuration was refused
      cases r with
      | true =>
        simp only [List.getLast?_nil, Option.getD_none, if_true] at h5
        rw [h5]
        simp [Piece.part, hp]
      | false =>
        simp only [List.getLast?_nil, Option.getD_none, Bool.false_eq_true, if_false] at h5
        rw [h5]
        simp [Piece.part, hp]
    · rw [List.concat_eq_append] at *
      have hl : (l ++ [z]).getLast? = some z := by simp
      have hh : (l ++ [z]).head? = some (PathValidation.start r 0 (p.b - p.a)) := by
        rw [← h4]
        cases l <;> rfl
      have h3' : PathValidation.Spaced r step (l ++ [z]) := (List.isChain_append.1 h3).1
      rw [hl] at h5
      simp only [Option.getD_some] at h5
      have hin := part_inside (by linarith) h
      cases r with
      | true =>
        simp only [if_true] at h5
        simp only [PathValidation.start, if_true] at hh
        obtain ⟨h6, h7⟩ := spaced_covers (x := z) (y := p.b - p.a) h3' (by rw [hh]; rfl) (by rw [hl]; rfl) hstep.le
        have hz := (hin _ _ h5).1
        rw [h5]
        have e : p.a + (p.b - p.a) = p.b := by ring
        refine ⟨rfl, ?_, ?_, e.le, by simp, fun _ => e, fun _ => ⟨(l ++ [z]).map (p.a + ·), s, s', accepted_shift h2, ?_, ?_, ?_, ?_⟩⟩
        · show p.a ≤ p.a + z; linarith
        · show p.a + z ≤ p.a + (p.b - p.a); linarith [(h6 z (by simp)).2]
        · intro t ht
          obtain ⟨t', ht', rfl⟩ := List.mem_map.1 ht
          have := h6 t' ht'
          show p.a + z ≤ p.a + t' ∧ p.a + t' ≤ p.a + (p.b - p.a)
          constructor <;> linarith
        · exact List.mem_map.2 ⟨z, by simp, rfl⟩
        · exact List.mem_map.2 ⟨_, mem_of_head? hh, rfl⟩
        · intro u hu1 hu2
          obtain ⟨t, ht, hd⟩ := h7 (u - p.a) (by have : p.a + z ≤ u := hu1; linarith) (by have : u ≤ p.a + (p.b - p.a) := hu2; linarith)
          exact ⟨_, List.mem_map.2 ⟨t, ht, rfl⟩, by rwa [show u - (p.a + t) = u - p.a - t by ring]⟩
      | false =>
        simp only [Bool.false_eq_true, if_false] at h5
        simp only [PathValidation.start, Bool.false_eq_true, if_false] at hh
        obtain ⟨h6, h7⟩ := spaced_covers (x := 0) (y := z) h3' (by rw [hh]; rfl) (by rw [hl]; rfl) hstep.le
        have hz := (hin _ _ h5).2
        rw [h5]
        have e : p.a + 0 = p.a := by ring
        refine ⟨rfl, e.ge, ?_, ?_, fun _ => e, by simp, fun _ => ⟨(l ++ [z]).map (p.a + ·), s, s', accepted_shift h2, ?_, ?_, ?_, ?_⟩⟩
        · show p.a + 0 ≤ p.a + z; linarith [(h6 z (by simp)).1]
        · show p.a + z ≤ p.b; linarith
        · intro t ht
          obtain ⟨t', ht', rfl⟩ := List.mem_map.1 ht
          have := h6 t' ht'
          show p.a + 0 ≤ p.a + t' ∧ p.a + t' ≤ p.a + z
          constructor <;> linarith
        · exact List.mem_map.2 ⟨0, mem_of_head? hh, rfl⟩
        · exact List.mem_map.2 ⟨_, by simp, rfl⟩
        · intro u hu1 hu2
          obtain ⟨t, ht, hd⟩ := h7 (u - p.a) (by have : p.a + 0 ≤ u := hu1; linarith) (by have : u ≤ p.a + z := hu2; linarith)
          exact ⟨_, List.mem_map.2 ⟨t, ht, rfl⟩, by rwa [show u - (p.a + t) = u - p.a - t by ring]⟩

theorem switches_nonneg {p : Dynamic.KPath K A} (h : Dynamic.Timed p) : ∀ s ∈ Dynamic.switches p, 0 ≤ s := by
  intro s hs
  obtain ⟨d, hd, hs⟩ := List.mem_flatMap.1 hs
  obtain ⟨h1, h2, h3⟩ := h d hd
  simp only [List.mem_cons, List.not_mem_nil, or_false] at hs
  rcases hs with rfl | rfl | rfl <;> linarith

theorem valid_whole {path : K → Option C} {check : PathValidation.Check C Rep σ} {step tmin tmax : K} {r : Bool} {c : Option Rep} {fuel : ℕ} {s : σ}
    {res : PathValidation.Result K Rep σ} (h : PathValidation.validateFrom c fuel path tmin tmax r check step s = some res) (hv : res.valid = true) : res.validPart = .whole := by
  unfold PathValidation.validateFrom at h
  cases r with
  | true =>
    rw [if_pos rfl] at h
    obtain ⟨x, -, e⟩ := Option.map_eq_some_iff.1 h
    split_ifs at e
    · rw [← e]
    · rw [← e] at hv; cases hv
  | false =>
    rw [if_neg (by simp)] at h
    obtain ⟨x, -, e⟩ := Option.map_eq_some_iff.1 h
    split_ifs at e
    · rw [← e]
    · rw [← e] at hv; cases hv

/-- a path that the steering method returns unchecked is one of hpp-core between node and configuration -/
theorem steer_unchecked (env : Dynamic.SteerEnv K A C C) (node q : C) (r : Bool) (hb : (Dynamic.setBounds env node q r).upToDate = true) (p : Dynamic.KPath K A) (a b : K)
    (h : (Dynamic.steer env node q r).range = some (p, a, b)) :
    a = 0 ∧ b = p.len ∧ ∃ m, (if r then env.kino m q (env.config node) else env.kino m (env.config node) q) = some p := by
  unfold Dynamic.steer at h
  dsimp only at h
  split at h
  · cases h
  · split at h
    · cases h
    · rename_i p' hp
      simp only [Dynamic.Steered.range, Option.some.injEq, Prod.mk.injEq] at h
      obtain ⟨rfl, rfl, rfl⟩ := h
      refine ⟨rfl, rfl, ⟨env.aMaxFixed, env.aMaxFixed, env.aMaxFixedZ⟩, ?_⟩
      unfold Dynamic.setBounds at hp
      dsimp only at hp
      split_ifs at hp <;> first | exact hp | cases hp

theorem steer_leaves {env : Dynamic.SteerEnv K A C C} {conf : Dynamic.KPath K A → K → Option C} (hcfg : ∀ n, env.config n = n)
    (hk : ∀ m x y p, env.kino m x y = some p → Joins conf p x y) {node q : C} {p : Dynamic.KPath K A} {a b : K} (h : (Dynamic.steer env node q false).range = some (p, a, b)) :
    0 ≤ b ∧ Leaves env conf node q ⟨p, a, b⟩ := by
  cases hb : (Dynamic.setBounds env node q false).upToDate with
  | true =>
    obtain ⟨rfl, rfl, m, hm⟩ := steer_unchecked env node q false hb p a b h
    rw [if_neg (by simp), hcfg] at hm
    have j := hk _ _ _ _ hm
    exact ⟨j.len, rfl, le_refl _, j.first, j.last, by simp [hb]⟩
  | false =>
    obtain ⟨p0, h1, h2, h3⟩ := Dynamic.steer_checked env node q false hb p a b h
    simp only [Bool.false_eq_true, if_false] at h1 h3
    rw [hcfg] at h1
    have j := hk _ _ _ _ h1
    obtain ⟨rfl, rfl, hc⟩ := Dynamic.cutForward_spec env node p0 p a b j.timed h3
    have hsw := switches_nonneg j.timed
    have hb0 : 0 ≤ b ∧ b ≤ p.len := by
      rcases hc.stop with rfl | ⟨hm, -, -⟩
      · exact ⟨j.len, le_refl _⟩
      · rcases List.mem_cons.1 hm with rfl | hm
        · exact ⟨le_refl _, j.len⟩
        · exact ⟨hsw _ hm, j.inside _ hm⟩
    exact ⟨hb0.1, rfl, hb0.2, j.first, j.last, fun _ => ⟨h2, fun s hs h4 h5 => hc.before s hs h4 h5⟩⟩

theorem steer_arrives {env : Dynamic.SteerEnv K A C C} {conf : Dynamic.KPath K A → K → Option C} (hcfg : ∀ n, env.config n = n)
    (hk : ∀ m x y p, env.kino m x y = some p → Joins conf p x y) {node q : C} {p : Dynamic.KPath K A} {a b : K} (h : (Dynamic.steer env node q true).range = some (p, a, b)) :
    a ≤ p.len ∧ Arrives env conf node q ⟨p, a, b⟩ := by
  cases hb : (Dynamic.setBounds env node q true).upToDate with
  | true =>
    obtain ⟨rfl, rfl, m, hm⟩ := steer_unchecked env node q true hb p a b h
    rw [if_pos rfl, hcfg] at hm
    have j := hk _ _ _ _ hm
    exact ⟨j.len, rfl, le_refl _, j.first, j.last, by simp [hb]⟩
  | false =>
    obtain ⟨p0, h1, h2, h3⟩ := Dynamic.steer_checked env node q true hb p a b h
    simp only [if_true] at h1 h3
    rw [hcfg] at h1
    have j := hk _ _ _ _ h1
    obtain ⟨rfl, rfl, hc⟩ := Dynamic.cutBackward_spec env node p0 p a b j.timed h3
    have hsw := switches_nonneg j.timed
    have ha0 : 0 ≤ a ∧ a ≤ p.len := by
      rcases hc.stop with rfl | ⟨hm, -, -⟩
      · exact ⟨le_refl _, j.len⟩
      · exact ⟨hsw _ hm, j.inside _ hm⟩
    exact ⟨ha0.2, rfl, ha0.1, j.first, j.last, fun _ => ⟨h2, fun s hs h4 h5 => hc.after s hs h4 h5⟩⟩

/-- what an accepted edge is: a tested part of a path from or to a node -/
structure Fine (senv : Tok → Dynamic.SteerEnv K A C C) (conf : Dynamic.KPath K A → K → Option C) (check : PathValidation.Check C Rep σ) (step : K) (w : Piece K A) : Prop where
  le : w.a ≤ w.b
  tested : Tested conf check step w
  made : (∃ k n q, Leaves (senv k) conf n q w) ∨ ∃ k n q, Arrives (senv k) conf n q w

theorem Tested.ends {conf : Dynamic.KPath K A → K → Option C} {check : PathValidation.Check C Rep σ} {step : K} {w : Piece K A} (h : Tested conf check step w) :
    (∃ q, conf w.path w.a = some q) ∧ ∃ q, conf w.path w.b = some q := by
  obtain ⟨ts, s, s', h1, -, h2, h3, -⟩ := h
  obtain ⟨_, q, hq, -⟩ := h1.mem h2
  obtain ⟨_, q', hq', -⟩ := h1.mem h3
  exact ⟨⟨q, hq⟩, ⟨q', hq'⟩⟩

theorem built_contract {env : Env C (Piece K A) K} {senv : Tok → Dynamic.SteerEnv K A C C} {conf : Dynamic.KPath K A → K → Option C}
    {check : PathValidation.Check C Rep σ} {step : K} (hstep : 0 < step) (hb : Built env senv conf check step)
    (hk : ∀ k m x y p, (senv k).kino m x y = some p → Joins conf p x y) : Contract env (Fine senv conf check step) := by
  have hfw : ∀ k n q p, env.steer k n q false = some p → p.a ≤ p.b ∧ Leaves (senv k) conf n q p := by
    intro k n q p h
    rw [hb.steer] at h
    obtain ⟨⟨p', a, b⟩, h', rfl⟩ := Option.map_eq_some_iff.1 h
    obtain ⟨h1, h2⟩ := steer_leaves (hb.config k) (hk k) h'
    exact ⟨h2.start.trans_le h1, h2⟩
  have hbw : ∀ k n q p, env.steer k n q true = some p → p.a ≤ p.b ∧ Arrives (senv k) conf n q p := by
    intro k n q p h
    rw [hb.steer] at h
    obtain ⟨⟨p', a, b⟩, h', rfl⟩ := Option.map_eq_some_iff.1 h
    obtain ⟨h1, h2⟩ := steer_arrives (hb.config k) (hk k) h'
    exact ⟨h1.trans_eq h2.stop.symm, h2⟩
  have hfi : ∀ k n q p, env.steer k n q false = some p → env.initial p = n := by
    intro k n q p h
    obtain ⟨-, h⟩ := hfw k n q p h
    exact hb.initial _ _ (by rw [h.start]; exact h.first)
  have hbf : ∀ k n q p, env.steer k n q true = some p → env.final p = n := by
    intro k n q p h
    obtain ⟨-, h⟩ := hbw k n q p h
    exact hb.final _ _ (by rw [h.stop]; exact h.goal)
  refine ⟨hb.nearest, hfi, hbf, ?_, ?_, ?_⟩
  · intro k p r w h
    obtain ⟨c, fuel, s, res, h1, h2⟩ := hb.validate k p r
    rw [h2] at h
    simp only [Prod.mk.injEq] at h
    rw [← h.2, valid_whole h1 h.1]
    rfl
  · intro k n q p v w hs hv
    obtain ⟨hle, hl⟩ := hfw k n q p hs
    obtain ⟨c, fuel, s, res, h1, h2⟩ := hb.validate k p false
    rw [h2] at hv
    simp only [Prod.mk.injEq, Option.some.injEq] at hv
    obtain ⟨rfl, rfl⟩ := hv
    obtain ⟨-, e, g1, g2, g3, g4, -, g6⟩ := part_tested hstep hle h1
    generalize p.part res.validPart = w at *
    have hl' : Leaves (senv k) conf n q w := ⟨(g4 rfl).trans hl.start, by rw [e]; exact g3.trans hl.inside, by rw [e]; exact hl.first, by rw [e]; exact hl.goal, by
      rw [e]; exact fun hu => ⟨(hl.admissible hu).1, fun s hs h4 h5 => (hl.admissible hu).2 s hs (h4.trans_le g3) h5⟩⟩
    refine ⟨?_, fun hc => ⟨g2, g6 ?_, Or.inl ⟨k, n, q, hl'⟩⟩⟩
    · rw [hfi k n q p hs]
      exact hb.initial _ _ (by rw [hl'.start]; exact hl'.first)
    · rwa [hb.t1, hb.t0] at hc
  · intro k n q p v w hs hv
    obtain ⟨hle, hl⟩ := hbw k n q p hs
    obtain ⟨c, fuel, s, res, h1, h2⟩ := hb.validate k p true
    rw [h2] at hv
    simp only [Prod.mk.injEq, Option.some.injEq] at hv
    obtain ⟨rfl, rfl⟩ := hv
    obtain ⟨-, e, g1, g2, g3, -, g5, g6⟩ := part_tested hstep hle h1
    generalize p.part res.validPart = w at *
    have hl' : Arrives (senv k) conf n q w := ⟨by rw [e]; exact (g5 rfl).trans hl.stop, hl.inside.trans g1, by rw [e]; exact hl.first, by rw [e]; exact hl.goal, by
      rw [e]; exact fun hu => ⟨(hl.admissible hu).1, fun s hs h4 h5 => (hl.admissible hu).2 s hs (g1.trans_lt h4) h5⟩⟩
    refine ⟨?_, fun hc => ⟨g2, g6 ?_, Or.inr ⟨k, n, q, hl'⟩⟩⟩
    · rw [hbf k n q p hs]
      exact hb.final _ _ (by rw [hl'.stop]; exact hl'.goal)
    · rwa [hb.t1, hb.t0] at hc

/-! ### C169 -/

/-- **C169**: after any number of steps from a roadmap of nodes, whatever the random configurations, nearest nodes, contacts and states of the validators: no null pointer is dereferenced, no node is lost, and every edge joins two
nodes of the roadmap, its path leads from the configuration of the one to that of the other, configurations at most one step apart from one end to the other were tested and accepted, and the
path is the beginning of a path leaving its source or the end of one arriving at its target, cut before (after) the first (last) acceleration that is not admissible there. -/
theorem C169_roadmap {env : Env C (Piece K A) K} {senv : Tok → Dynamic.SteerEnv K A C C} {conf : Dynamic.KPath K A → K → Option C}
    {check : PathValidation.Check C Rep σ} {step : K} (hstep : 0 < step) (hb : Built env senv conf check step)
    (hk : ∀ k m x y p, (senv k).kino m x y = some p → Joins conf p x y) (n k : ℕ) (nodes : List C) (hn : nodes ≠ []) :
    ∃ rm, steps env n k ⟨nodes, []⟩ = some rm ∧ (∀ x ∈ nodes, x ∈ rm.nodes) ∧ ∀ x y w, (x, y, w) ∈ rm.edges →
      x ∈ rm.nodes ∧ y ∈ rm.nodes ∧ conf w.path w.a = some x ∧ conf w.path w.b = some y ∧ 0 ≤ w.a ∧ w.a ≤ w.b ∧ w.b ≤ w.path.len ∧ Tested conf check step w ∧
      ∃ i q, Leaves (senv i) conf x q w ∨ Arrives (senv i) conf y q w := by
  obtain ⟨rm, h1, h2, h3⟩ := C56_partial env _ (built_contract hstep hb hk) n k ⟨nodes, []⟩ hn (by intro e he; simp at he)
  refine ⟨rm, h1, h3.1, fun x y w he => ?_⟩
  obtain ⟨m1, m2, e1, e2, hf⟩ := h2 _ he
  dsimp only at *
  obtain ⟨⟨q1, hq1⟩, ⟨q2, hq2⟩⟩ := hf.tested.ends
  have c1 : conf w.path w.a = some x := by rw [hq1, ← e1, hb.initial _ _ hq1]
  have c2 : conf w.path w.b = some y := by rw [hq2, ← e2, hb.final _ _ hq2]
  have hr : 0 ≤ w.a ∧ w.b ≤ w.path.len := by
    rcases hf.made with ⟨i, m, q, h⟩ | ⟨i, m, q, h⟩
    · exact ⟨h.start.ge, h.inside⟩
    · exact ⟨h.inside, h.stop.le⟩
  refine ⟨m1, m2, c1, c2, hr.1, hf.le, hr.2, hf.tested, ?_⟩
  rcases hf.made with ⟨i, m, q, h⟩ | ⟨i, m, q, h⟩
  · have : m = x := by
      have := h.first
      rw [← h.start, c1, Option.some.injEq] at this
      exact this.symm
    subst this
    exact ⟨i, q, Or.inl h⟩
  · have : m = y := by
      have := h.goal
      rw [← h.stop, c2, Option.some.injEq] at this
      exact this.symm
    subst this
    exact ⟨i, q, Or.inr h⟩

/-- a planner as required exists for every step, validation and steering method of hpp-core -/
theorem built_exists [Archimedean K] (senv : Tok → Dynamic.SteerEnv K A C C) (hc : ∀ k n, (senv k).config n = n) (conf : Dynamic.KPath K A → K → Option C)
    (check : PathValidation.Check C Rep σ) (step : K) (hstep : 0 < step) (s : σ) (shoot : ℕ → C) (x0 : C) (ends : ℕ) :
    ∃ env : Env C (Piece K A) K, env.shoot = shoot ∧ env.ends = ends ∧ Built env senv conf check step := by
  have hex : ∀ p : Piece K A, ∀ r, ∃ fuel res, PathValidation.validateFrom none fuel (p.eval conf) 0 (p.b - p.a) r check step s = some res := by
    intro p r
    obtain ⟨m, hm⟩ := PathValidation.C41_bound_exists 0 (p.b - p.a) step hstep
    have := PathValidation.C41_terminates (p.eval conf) 0 (p.b - p.a) r check step hstep s m hm (m + 3) (le_refl _)
    exact ⟨m + 3, Option.isSome_iff_exists.1 this⟩
  choose fuel res hres using hex
  refine ⟨⟨fun p => (conf p.path p.a).getD x0, fun p => (conf p.path p.b).getD x0, fun _ => 0, fun p => p.b - p.a, shoot, fun _ rm _ => (rm.nodes.head?).getD x0, none,
    fun k n q r => (Dynamic.steer (senv k) n q r).range.map fun x => ⟨x.1, x.2.1, x.2.2⟩, fun _ p r => ((res p r).valid, some (p.part (res p r).validPart)), ends⟩, rfl, rfl,
    ⟨?_, ?_, ?_, fun _ => rfl, fun _ => rfl, hc, fun _ _ _ _ => rfl, fun _ p r => ⟨none, fuel p r, s, res p r, hres p r, rfl⟩⟩⟩
  · intro k rm q h
    show (rm.nodes.head?).getD x0 ∈ rm.nodes
    rw [List.head?_eq_some_head h]
    exact List.head_mem h
  · intro p q h
    show (conf p.path p.a).getD x0 = q
    rw [h]; rfl
  · intro p q h
    show (conf p.path p.b).getD x0 = q
    rw [h]; rfl

/-! ### an instance -/

/-- positions on a line; paths last one second at constant velocity (the second component of `acc` is the position) -/
def straight (x y : ℚ) : Dynamic.KPath ℚ (ℚ × ℚ) := ⟨1, [(1, 0, 0)], fun t => (0, x + t * (y - x))⟩
def straightSteer : Dynamic.SteerEnv ℚ (ℚ × ℚ) ℚ ℚ := ⟨id, fun _ x y => some (straight x y), fun _ => ⟨1, 0, 0⟩, fun _ _ => 2, fun _ a => decide (0 ≤ a.1), 5, 0⟩
def position (p : Dynamic.KPath ℚ (ℚ × ℚ)) (t : ℚ) : Option ℚ := some (p.acc t).2
/-- there is an obstacle between 2 and 4 -/
def gapCheck : PathValidation.Check ℚ Unit Unit := fun _ q => (decide (q ≤ 2 ∨ 4 ≤ q), (), ())

def gapValidate (p : Piece ℚ (ℚ × ℚ)) (r : Bool) : Option (PathValidation.Result ℚ Unit Unit) :=
  PathValidation.validate (⌈2 * (p.b - p.a)⌉.toNat + 4) (p.eval position) 0 (p.b - p.a) r gapCheck (1 / 2) ()

/-- the random configuration is 3, the nodes are those at 0 and at 10 -/
def gapPlanner : Env ℚ (Piece ℚ (ℚ × ℚ)) ℚ where
  initial := fun p => (p.path.acc p.a).2
  final := fun p => (p.path.acc p.b).2
  t0 := fun _ => 0
  t1 := fun p => p.b - p.a
  shoot := fun _ => 3
  nearest := fun k rm _ => if k.2 = 0 ∨ 10 ∉ rm.nodes then (rm.nodes.head?).getD 0 else 10
  constraints := none
  steer := fun _ n q r => (Dynamic.steer straightSteer n q r).range.map fun x => ⟨x.1, x.2.1, x.2.2⟩
  validate := fun _ p r => match gapValidate p r with
    | some res => (res.valid, some (p.part res.validPart))
    | none => (false, none)
  ends := 1

theorem gapPlanner_built : Built gapPlanner (fun _ => straightSteer) position gapCheck (1 / 2) where
  nearest := by
    intro k rm q h
    show (if k.2 = 0 ∨ 10 ∉ rm.nodes then (rm.nodes.head?).getD 0 else 10) ∈ rm.nodes
    split
    · rw [List.head?_eq_some_head h]; exact List.head_mem h
    · rename_i h4
      by_contra h5
      exact h4 (Or.inr h5)
  initial := by
    intro p q h
    simpa [position, gapPlanner] using h
  final := by
    intro p q h
    simpa [position, gapPlanner] using h
  t0 := fun _ => rfl
  t1 := fun _ => rfl
  config := fun _ _ => rfl
  steer := fun _ _ _ _ => rfl
  validate := by
    intro k p r
    have hm : p.b - p.a - 0 < (⌈2 * (p.b - p.a)⌉.toNat + 1) • (1 / 2 : ℚ) := by
      have h1 : 2 * (p.b - p.a) ≤ (⌈2 * (p.b - p.a)⌉ : ℚ) := Int.le_ceil _
      have h2 : (⌈2 * (p.b - p.a)⌉ : ℚ) ≤ ((⌈2 * (p.b - p.a)⌉.toNat : ℕ) : ℚ) := by exact_mod_cast Int.self_le_toNat _
      rw [nsmul_eq_mul]
      push_cast
      linarith
    have := PathValidation.C41_terminates (p.eval position) 0 (p.b - p.a) r gapCheck (1 / 2) (by norm_num) () _ hm (⌈2 * (p.b - p.a)⌉.toNat + 4) (le_refl _)
    obtain ⟨res, hres⟩ := Option.isSome_iff_exists.1 this
    refine ⟨none, _, (), res, hres, ?_⟩
    have : gapValidate p r = some res := hres
    show (match gapValidate p r with
      | some res => (res.valid, some (p.part res.validPart))
      | none => (false, none)) = _
    rw [this]

theorem straight_joins (k : Tok) (m : Vec3 ℚ) (x y : ℚ) (p : Dynamic.KPath ℚ (ℚ × ℚ)) (h : straightSteer.kino m x y = some p) : Joins position p x y := by
  simp only [straightSteer, Option.some.injEq] at h
  subst h
  refine ⟨zero_le_one, ?_, ?_, by simp [position, straight], by simp [position, straight]⟩
  · show ∀ d ∈ (straight 0 0).axes, 0 ≤ d.1 ∧ 0 ≤ d.2.1 ∧ 0 ≤ d.2.2
    decide +kernel
  · show ∀ s ∈ Dynamic.switches (straight 0 0), s ≤ 1
    decide +kernel

/-- what can be compared of a roadmap -/
def summary (rm : Option (Roadmap ℚ (Piece ℚ (ℚ × ℚ)))) : Option (List ℚ × List (ℚ × ℚ × ℚ × ℚ)) :=
  rm.map fun rm => (rm.nodes, rm.edges.map fun e => (e.1, e.2.1, e.2.2.a, e.2.2.b))

/-- C169_roadmap applies: the path to 3 is kept until 3/2, the one from 3 from 13/2 on, and the new nodes are connected -/
theorem gap_run : summary (steps gapPlanner 1 0 ⟨[0, 10], []⟩) = some ([0, 10, 3 / 2, 13 / 2], [(0, 3 / 2, 0, 1 / 2), (13 / 2, 10, 1 / 2, 1), (3 / 2, 13 / 2, 0, 1)]) := by
  decide +kernel

example : ∃ rm, steps gapPlanner 1 0 ⟨[0, 10], []⟩ = some rm ∧ (∀ x ∈ [0, 10], x ∈ rm.nodes) ∧ ∀ x y w, (x, y, w) ∈ rm.edges →
      x ∈ rm.nodes ∧ y ∈ rm.nodes ∧ position w.path w.a = some x ∧ position w.path w.b = some y ∧ 0 ≤ w.a ∧ w.a ≤ w.b ∧ w.b ≤ w.path.len ∧ Tested position gapCheck (1 / 2) w ∧
      ∃ (_ : Tok) (q : ℚ), Leaves straightSteer position x q w ∨ Arrives straightSteer position y q w :=
  C169_roadmap (by norm_num) gapPlanner_built straight_joins 1 0 [0, 10] (by simp)

/-- the bounds are lowered for the nodes -/
example : (Dynamic.setBounds straightSteer 0 3 false).upToDate = false ∧ (Dynamic.setBounds straightSteer 10 3 true).upToDate = false := by decide +kernel

/-- no more than that can be said: a configuration between two tested ones may be refused, here that of the last edge in the middle of the obstacle -/
theorem C169_resolution : ∃ rm x y w t q, steps gapPlanner 1 0 ⟨[0, 10], []⟩ = some rm ∧ (x, y, w) ∈ rm.edges ∧ w.a ≤ t ∧ t ≤ w.b ∧
    position w.path t = some q ∧ (gapCheck () q).1 = false := by
  have key : (steps gapPlanner 1 0 ⟨[0, 10], []⟩).bind (fun rm => rm.edges[2]?.bind fun e =>
      if e.2.2.a ≤ 3 / 10 ∧ 3 / 10 ≤ e.2.2.b then position e.2.2.path (3 / 10) else none) = some 3 := by decide +kernel
  obtain ⟨rm, h1, h2⟩ := Option.bind_eq_some_iff.1 key
  obtain ⟨⟨x, y, w⟩, h3, h4⟩ := Option.bind_eq_some_iff.1 h2
  split_ifs at h4 with h5
  exact ⟨rm, x, y, w, 3 / 10, 3, h1, List.mem_of_getElem? h3, h5.1, h5.2, h4, by decide +kernel⟩

end Planner
end Rbprm
