import Verif.Props.TreePaths
import Verif.Props.EffectorMotion
set_option linter.unusedSectionVars false
/-!
# C198: time never goes back along the motions between states
-/
namespace Rbprm
namespace RRT
open Interp Paths Effector
variable {N K : Type _} [LinearOrder N] [Field K] [LinearOrder K] [IsStrictOrderedRing K]

/-! ## Specification -/

/-- `clock i t` is the fraction of the motion at the time `t` of its element number `i`, which lasts `len[i]`: it begins at 0, ends at 1, stays between 0 and 1 and never goes back -/
structure Clock (l : List (Elem K)) (len : List K) (clock : ℕ → K → K) : Prop where
  length : len.length = l.length
  nonneg : ∀ T ∈ len, 0 ≤ T
  begins : l ≠ [] → clock 0 0 = 0
  ends : ∀ T, len.getLast? = some T → clock (l.length - 1) T = 1
  range : ∀ i T t, len[i]? = some T → 0 ≤ t → t ≤ T → 0 ≤ clock i t ∧ clock i t ≤ 1
  advances : ∀ i j S T s t, len[i]? = some S → len[j]? = some T → 0 ≤ s → s ≤ S → 0 ≤ t → t ≤ T → i < j ∨ i = j ∧ s ≤ t → clock i s ≤ clock j t

/-- the paths that a planner keeps: those of the steering method whose time does not decrease (which is the first test of `TimeConstraintPathValidation`, see `C60_partial`), and parts of them in the same direction -/
inductive Forward (interp : List K → List K → K → List K) (distance : Conf (List K) K → Conf (List K) K → K) (c : CSet (List K) K) : TPath (List K) K → Prop
  | steered {q1 q2 : Conf (List K) K} {p : TPath (List K) K} (h : steer distance (some c) q1 q2 = some p) (ht : q1.dof ≤ q2.dof) : Forward interp distance c p
  | part {p q : TPath (List K) K} {a b : K} (hp : Forward interp distance c p) (hab : a ≤ b) (h : p.extract interp a b = .ok q) : Forward interp distance c q

/-- a solution of a task made of such paths -/
def ForwardAssembled (body : Body N K) (solve : Task N K → List (Equation (List K) K) → K → Conf (List K) K → Conf (List K) K × Bool) (interp : List K → List K → K → List K)
    (distance : Conf (List K) K → Conf (List K) K → K) (t : Task N K) (l : List (Elem K)) : Prop :=
  ∃ ps : List (TPath (List K) K), l = ps.map (elemOf interp) ∧ (∀ p ∈ ps, Forward interp distance (taskSet body solve t) p) ∧ Leads Elem.init Elem.fin t.start l t.goal

/-- planner and optimisers only assemble such paths -/
structure AssemblesForward (body : Body N K) (solve : Task N K → List (Equation (List K) K) → K → Conf (List K) K → Conf (List K) K × Bool) (interp : List K → List K → K → List K)
    (distance : Conf (List K) K → Conf (List K) K → K) (sv : Solver N K) : Prop where
  plan : ∀ r t l, sv.plan r t = some l → ForwardAssembled body solve interp distance t l
  random : ∀ t l, ForwardAssembled body solve interp distance t l → ForwardAssembled body solve interp distance t (sv.random t l)
  partial' : ∀ t l, ForwardAssembled body solve interp distance t l → ForwardAssembled body solve interp distance t (sv.partial' t l)

section
variable {body : Body N K} {solve : Task N K → List (Equation (List K) K) → K → Conf (List K) K → Conf (List K) K × Bool} {interp : List K → List K → K → List K}
  {distance : Conf (List K) K → Conf (List K) K → K}

/-! ## One path -/

theorem forward_built {c : CSet (List K) K} {p : TPath (List K) K} (h : Forward interp distance c p) : Built interp distance c p := by
  induction h with
  | steered h _ => exact .steered h
  | part _ _ h ih => exact .part ih h

theorem forward_time {t : Task N K} (hd : ∀ a b, 0 ≤ distance a b ∧ (distance a b = 0 → a = b)) {p : TPath (List K) K} (h : Forward interp distance (taskSet body solve t) p) : 0 ≤ p.len ∧ p.init.dof ≤ p.fin.dof ∧ (p.len = 0 → p.init.dof = p.fin.dof) := by
  induction h with
  | steered h ht =>
    obtain ⟨-, rfl⟩ := (steer_spec distance _ rfl _ _ _).1 h
    exact ⟨(hd _ _).1, ht, fun h0 => by rw [(hd _ _).2 h0]⟩
  | @part p q a b hp hab h ih =>
    unfold TPath.extract at h
    simp only at h
    split_ifs at h with h1 h2 h3
    cases h
    refine ⟨abs_nonneg _, ?_, fun h0 => by rw [sub_eq_zero.1 (abs_eq_zero.1 h0)]⟩
    have hl : 0 < p.len := lt_of_le_of_ne ih.1 (Ne.symm h2)
    have : a / p.len ≤ b / p.len := by gcongr
    simp only [extraDof]
    have := mul_le_mul_of_nonneg_left this (sub_nonneg.2 ih.2.1)
    linarith

/-- the facts on the paths of a solution from which the clock comes -/
def TimedPaths (body : Body N K) (solve : Task N K → List (Equation (List K) K) → K → Conf (List K) K → Conf (List K) K × Bool) (interp : List K → List K → K → List K)
    (distance : Conf (List K) K → Conf (List K) K → K) (t : Task N K) (l : List (Elem K)) : Prop :=
  ∃ ps : List (TPath (List K) K), l = ps.map (elemOf interp) ∧
    (∀ p ∈ ps, Built interp distance (taskSet body solve t) p ∧ 0 ≤ p.len ∧ p.init.dof ≤ p.fin.dof ∧ (p.len = 0 → p.init.dof = p.fin.dof)) ∧ Leads Elem.init Elem.fin t.start l t.goal

theorem forward_timedPaths (hd : ∀ a b, 0 ≤ distance a b ∧ (distance a b = 0 → a = b)) {t : Task N K} {l : List (Elem K)} (h : ForwardAssembled body solve interp distance t l) : TimedPaths body solve interp distance t l := by
  obtain ⟨ps, e, hf, hl⟩ := h
  exact ⟨ps, e, fun p hp => ⟨forward_built (hf p hp), forward_time hd (hf p hp)⟩, hl⟩

/-- the fraction of the motion at a time of a path -/
def timeAt (interp : List K → List K → K → List K) (p : TPath (List K) K) (t : K) : K := (p.raw interp t).dof

theorem timeAt_eval {t : Task N K} (hs : Paths.Solves (taskSet body solve t)) {p : TPath (List K) K} (h : Built interp distance (taskSet body solve t) p) {s : K} {q : List K} (he : (elemOf interp p).eval s = some q) :
    q.getLastD 0 = timeAt interp p s := by
  simp only [elemOf] at he
  split_ifs at he with h1
  cases he
  obtain ⟨hc, -⟩ := built_constr h
  have e : p.eval interp s = solve t (taskSet body solve t).equations (p.raw interp s).dof (p.raw interp s) := by
    unfold TPath.eval
    rw [hc]
    rfl
  rw [e]
  simp only [confList, List.getLastD_concat]
  exact hs.dof _ _ _

theorem timeAt_range {p : TPath (List K) K} (h1 : p.init.dof ≤ p.fin.dof) {t : K} (h0 : 0 ≤ t) (ht : t ≤ p.len) : p.init.dof ≤ timeAt interp p t ∧ timeAt interp p t ≤ p.fin.dof := by
  unfold timeAt TPath.raw
  split_ifs with a b
  · exact ⟨le_refl _, h1⟩
  · exact ⟨h1, le_refl _⟩
  · push Not at a
    have hl : 0 < p.len := lt_of_le_of_ne (h0.trans ht) (Ne.symm a.2)
    have u0 : 0 ≤ t / p.len := div_nonneg h0 hl.le
    have u1 : t / p.len ≤ 1 := (div_le_one hl).2 ht
    have d := sub_nonneg.2 h1
    have a1 := mul_nonneg d u0
    have a2 := mul_le_mul_of_nonneg_left u1 d
    simp only [extraDof]
    constructor <;> linarith

theorem timeAt_mono {p : TPath (List K) K} (h1 : p.init.dof ≤ p.fin.dof) {s t : K} (h0 : 0 ≤ s) (hst : s ≤ t) (ht : t ≤ p.len) : timeAt interp p s ≤ timeAt interp p t := by
  rcases eq_or_ne s 0 with rfl | hs
  · have : timeAt interp p 0 = p.init.dof := by simp [timeAt, TPath.raw]
    rw [this]
    exact (timeAt_range h1 (h0.trans hst) ht).1
  rcases eq_or_ne t p.len with rfl | htl
  · rcases eq_or_ne p.len 0 with hl | hl
    · unfold timeAt TPath.raw
      simp [hl]
    · have : timeAt interp p p.len = p.fin.dof := by simp [timeAt, TPath.raw, hl]
      rw [this]
      exact (timeAt_range h1 h0 hst).2
  · have hl : 0 < p.len := lt_of_le_of_lt (h0.trans hst) (lt_of_le_of_ne ht htl)
    have hs' : s ≠ p.len := fun e => htl (le_antisymm ht (e ▸ hst))
    have ht0 : t ≠ 0 := fun e => hs (le_antisymm (e ▸ hst) h0)
    unfold timeAt TPath.raw
    rw [if_neg (by push Not; exact ⟨hs, hl.ne'⟩), if_neg hs', if_neg (by push Not; exact ⟨ht0, hl.ne'⟩), if_neg htl]
    simp only [extraDof]
    have : s / p.len ≤ t / p.len := by gcongr
    have := mul_le_mul_of_nonneg_left this (sub_nonneg.2 h1)
    linarith

/-! ## A sequence of paths -/

/-- the times of a sequence that leads from `a` to `b` are between theirs -/
theorem leads_times : ∀ (ps : List (TPath (List K) K)) (a b : List K), (∀ p ∈ ps, p.init.dof ≤ p.fin.dof) → Leads Elem.init Elem.fin a (ps.map (elemOf interp)) b →
    a.getLastD 0 ≤ b.getLastD 0 ∧ (∀ p ∈ ps, a.getLastD 0 ≤ p.init.dof ∧ p.fin.dof ≤ b.getLastD 0) ∧ ps.Pairwise fun p q => p.fin.dof ≤ q.init.dof
  | [], a, b, _, h => by
    have : a = b := h
    subst this
    exact ⟨le_refl _, by simp, .nil⟩
  | p :: ps, a, b, hp, h => by
    obtain ⟨h1, h2⟩ := h
    have e1 : a.getLastD 0 = p.init.dof := by
      have : confList p.init = a := h1
      rw [← this]
      simp [confList]
    have e2 : (elemOf interp p).fin.getLastD 0 = p.fin.dof := by simp [elemOf, confList]
    obtain ⟨i1, i2, i3⟩ := leads_times ps _ b (fun q hq => hp q (List.mem_cons_of_mem _ hq)) h2
    rw [e2] at i1 i2
    have h0 := hp p List.mem_cons_self
    refine ⟨by rw [e1]; exact h0.trans i1, ?_, List.pairwise_cons.2 ⟨fun q hq => (i2 q hq).1, i3⟩⟩
    intro q hq
    rcases List.mem_cons.1 hq with rfl | hq
    · exact ⟨e1.le, i1⟩
    · rw [e1]
      exact ⟨h0.trans (i2 q hq).1, (i2 q hq).2⟩

theorem leads_last : ∀ (ps : List (TPath (List K) K)) (a b : List K), Leads Elem.init Elem.fin a (ps.map (elemOf interp)) b → ∀ p, ps.getLast? = some p → (elemOf interp p).fin = b
  | [], _, _, _, p, hp => by simp at hp
  | [q], _, _, h, p, hp => by
    simp only [List.getLast?_singleton, Option.some.injEq] at hp
    subst hp
    exact h.2
  | q :: q' :: ps, _, _, h, p, hp => leads_last (q' :: ps) _ _ h.2 p (by simpa [List.getLast?_cons_cons] using hp)

/-- the clock of a sequence of paths -/
def clockOf (interp : List K → List K → K → List K) (ps : List (TPath (List K) K)) (i : ℕ) (t : K) : K := (ps[i]?.map fun p => timeAt interp p t).getD 0

theorem clock_of_leads {ps : List (TPath (List K) K)} {a b : List K} (hp : ∀ p ∈ ps, 0 ≤ p.len ∧ p.init.dof ≤ p.fin.dof ∧ (p.len = 0 → p.init.dof = p.fin.dof)) (h : Leads Elem.init Elem.fin (a ++ [0]) (ps.map (elemOf interp)) (b ++ [1])) :
    Clock (ps.map (elemOf interp)) (ps.map TPath.len) (clockOf interp ps) := by
  obtain ⟨-, h2, h3⟩ := leads_times ps _ _ (fun p h => (hp p h).2.1) h
  simp only [List.getLastD_concat] at h2
  have look : ∀ i T, (ps.map TPath.len)[i]? = some T → ∃ p ∈ ps, ps[i]? = some p ∧ T = p.len ∧ ∀ t, clockOf interp ps i t = timeAt interp p t := by
    intro i T hi
    rw [List.getElem?_map, Option.map_eq_some_iff] at hi
    obtain ⟨p, hp, rfl⟩ := hi
    refine ⟨p, List.mem_of_getElem? hp, hp, rfl, fun t => ?_⟩
    simp [clockOf, hp]
  refine ⟨by simp, ?_, ?_, ?_, ?_, ?_⟩
  · intro T hT
    obtain ⟨p, hm, rfl⟩ := List.mem_map.1 hT
    exact (hp p hm).1
  · intro hne
    cases ps with
    | nil => simp at hne
    | cons p ps =>
      have e1 : confList p.init = a ++ [0] := h.1
      have := congrArg (fun l => l.getLastD 0) e1
      simp only [confList, List.getLastD_concat] at this
      simp [clockOf, timeAt, TPath.raw, this]
  · intro T hT
    rw [List.getLast?_eq_getElem?, List.length_map] at hT
    obtain ⟨p, hm, ep, rfl, e⟩ := look _ T hT
    rw [List.length_map, e]
    have ef : p.fin.dof = 1 := by
      obtain ⟨n, hn⟩ : ∃ n, ps.length = n + 1 := ⟨ps.length - 1, by have := List.length_pos_of_mem hm; omega⟩
      have hlast := leads_last ps _ _ h p (by rw [List.getLast?_eq_getElem?]; exact ep)
      have := congrArg (fun l => l.getLastD 0) hlast
      simpa [elemOf, confList] using this
    rw [← ef]
    unfold timeAt TPath.raw
    by_cases h0 : p.len = 0
    · rw [if_pos (Or.inr h0), (hp p hm).2.2 h0]
    · rw [if_neg (by simp [h0]), if_pos rfl]
  · intro i T t hi h0 ht
    obtain ⟨p, hm, -, rfl, e⟩ := look i T hi
    rw [e]
    have := timeAt_range (interp := interp) (hp p hm).2.1 h0 ht
    exact ⟨(h2 p hm).1.trans this.1, this.2.trans (h2 p hm).2⟩
  · intro i j S T s t hi hj s0 sS t0 tT hij
    obtain ⟨p, hm, ep, rfl, e⟩ := look i S hi
    obtain ⟨q, hm', eq, rfl, e'⟩ := look j T hj
    rw [e, e']
    rcases hij with hij | ⟨rfl, hst⟩
    · have := timeAt_range (interp := interp) (hp p hm).2.1 s0 sS
      have h' := timeAt_range (interp := interp) (hp q hm').2.1 t0 tT
      obtain ⟨hi1, ei⟩ := List.getElem?_eq_some_iff.1 ep
      obtain ⟨hj1, ej⟩ := List.getElem?_eq_some_iff.1 eq
      have := List.pairwise_iff_getElem.1 h3 i j hi1 hj1 hij
      rw [ei, ej] at this
      linarith
    · rw [ep] at eq
      cases eq
      exact timeAt_mono (hp p hm).2.1 s0 hst tT

/-! ## Planners -/

/-- what holds for the solutions of the planner and is kept by the optimisers holds for what the loop puts together -/
theorem interpolateTasks_pred {sv : Solver N K} {P : Task N K → List (Elem K) → Prop} (h1 : ∀ r t l, sv.plan r t = some l → P t l) (h2 : ∀ t l, P t l → P t (sv.random t l)) (h3 : ∀ t l, P t l → P t (sv.partial' t l))
    {mc : Machine K} (hm : mc.Ok) (num : ℕ) (keep : Bool) (t : Task N K) (l : List (Elem K)) (h : interpolateTasks sv mc num keep [t] = .path l) : ∃ l', P t l' ∧ l = l'.map (reduce keep) := by
  unfold interpolateTasks at h
  unfold ofInterpolated at h
  split at h <;> cases h
  rename_i hi
  obtain ⟨r, -, f, hf, rfl⟩ := interpolate_ok (reduce keep) [t].length (by simp) (attempt sv num [t]) _ (schedule_ok hm _ _) _ _ _ hi
  have := hf 0 (by simp)
  simp only [attempt, List.getElem?_cons_zero] at this
  rw [Option.map_eq_some_iff] at this
  obtain ⟨l0, hl0, e⟩ := this
  refine ⟨f 0, ?_, by simp⟩
  rw [← e]
  unfold optimize
  have it : ∀ (g : List (Elem K) → List (Elem K)), (∀ l, P t l → P t (g l)) → ∀ n l, P t l → P t (g^[n] l) := by
    intro g hg n
    induction n with
    | zero => exact fun l h => h
    | succ n ih => intro l h; rw [Function.iterate_succ_apply]; exact ih _ (hg _ h)
  exact it _ (h3 t) num _ (it _ (h2 t) num _ (h1 r t l0 hl0))

theorem reduce_true (l : List (Elem K)) : l.map (reduce true) = l := by
  rw [show (reduce true : Elem K → Elem K) = id from by funext e; simp [reduce]]
  simp

/-- a solution of a task from time 0 to time 1 has a clock, which is the last coordinate of its configurations -/
theorem timedPaths_clock (hs : ∀ t, Paths.Solves (taskSet body solve t)) {t : Task N K} {a b : List K} (ha : t.start = a ++ [0]) (hb : t.goal = b ++ [1]) {l : List (Elem K)}
    (h : TimedPaths body solve interp distance t l) :
    ∃ ps : List (TPath (List K) K), l = ps.map (elemOf interp) ∧ ∃ clock, Clock l (ps.map TPath.len) clock ∧ ∀ i e, l[i]? = some e → ∀ s q, e.eval s = some q → q.getLastD 0 = clock i s ∧ Accepted body t q := by
  obtain ⟨ps, rfl, hf, hl⟩ := h
  rw [ha, hb] at hl
  refine ⟨ps, rfl, _, clock_of_leads (fun p hp => (hf p hp).2) hl, ?_⟩
  intro i e he s q hq
  rw [List.getElem?_map, Option.map_eq_some_iff] at he
  obtain ⟨p, hp, rfl⟩ := he
  have hb := (hf p (List.mem_of_getElem? hp)).1
  refine ⟨?_, (C196_edge (hs t) hb).2.2 s q hq⟩
  rw [timeAt_eval (hs t) hb hq]
  simp [clockOf, hp]

theorem forward_clock (hs : ∀ t, Paths.Solves (taskSet body solve t)) (hd : ∀ a b, 0 ≤ distance a b ∧ (distance a b = 0 → a = b)) {t : Task N K} {a b : List K} (ha : t.start = a ++ [0]) (hb : t.goal = b ++ [1]) {l : List (Elem K)}
    (h : ForwardAssembled body solve interp distance t l) :
    ∃ ps : List (TPath (List K) K), l = ps.map (elemOf interp) ∧ ∃ clock, Clock l (ps.map TPath.len) clock ∧ ∀ i e, l[i]? = some e → ∀ s q, e.eval s = some q → q.getLastD 0 = clock i s ∧ Accepted body t q :=
  timedPaths_clock hs ha hb (forward_timedPaths hd h)

/-- a motion of comRRT has a clock if its planner has this property -/
theorem comRRT_clock (hs : ∀ t, Paths.Solves (taskSet body solve t)) {P : Task N K → List (Elem K) → Prop} (hP : ∀ t l, P t l → TimedPaths body solve interp distance t l) (sv : Solver N K)
    (ha : (∀ r t l, sv.plan r t = some l → P t l) ∧ (∀ t l, P t l → P t (sv.random t l)) ∧ ∀ t l, P t l → P t (sv.partial' t l)) (robot : Robot N K) (extra : K)
    (mc mc' : Machine K) (hm : mc'.Ok) (steerRef : List K → List K → RefPath (List K) K) (unconstrained : List K → List K → Option (List (Elem K))) (toPath : List (Elem K) → RefPath (List K) K)
    (comPath : RefPath (Vec3 K) K) (start next : State N K) (hst : StateOk robot start) (hn : StateOk robot next) (num : ℕ) (l : List (Elem K))
    (h : comRRT robot extra sv mc mc' steerRef unconstrained toPath comPath start next num true = .path l) :
    ∃ ps : List (TPath (List K) K), l = ps.map (elemOf interp) ∧ ∃ clock, Clock l (ps.map TPath.len) clock ∧ ∀ i e, l[i]? = some e → ∀ s q, e.eval s = some q → q.getLastD 0 = clock i s := by
  obtain ⟨g, t, -, ht, h⟩ := comRRT_cases h
  obtain ⟨e0, e1, -⟩ := task_spec hst.2 hn.2 ht
  obtain ⟨l', hl', rfl⟩ := interpolateTasks_pred (P := P) ha.1 ha.2.1 ha.2.2 hm num true t l h
  rw [reduce_true]
  obtain ⟨ps, hps, clock, c1, c2⟩ := timedPaths_clock hs e0 e1 (hP _ _ hl')
  exact ⟨ps, hps, clock, c1, fun i e he s q hq => (c2 i e he s q hq).1⟩

/-- **C198 (comRRT)**.  The last coordinate of the configurations of a motion that comRRT returns with the extra degree of freedom is a clock: it begins at 0, ends at 1, stays between 0 and 1 and never goes back, within each path and from one to the next; the paths are those of the steering method, with their lengths. -/
theorem C198_comRRT (hs : ∀ t, Paths.Solves (taskSet body solve t)) (hd : ∀ a b, 0 ≤ distance a b ∧ (distance a b = 0 → a = b)) (sv : Solver N K) (ha : AssemblesForward body solve interp distance sv) (robot : Robot N K) (extra : K)
    (mc mc' : Machine K) (hm : mc'.Ok) (steerRef : List K → List K → RefPath (List K) K) (unconstrained : List K → List K → Option (List (Elem K))) (toPath : List (Elem K) → RefPath (List K) K)
    (comPath : RefPath (Vec3 K) K) (start next : State N K) (hst : StateOk robot start) (hn : StateOk robot next) (num : ℕ) (l : List (Elem K))
    (h : comRRT robot extra sv mc mc' steerRef unconstrained toPath comPath start next num true = .path l) :
    ∃ ps : List (TPath (List K) K), l = ps.map (elemOf interp) ∧ ∃ clock, Clock l (ps.map TPath.len) clock ∧ ∀ i e, l[i]? = some e → ∀ s q, e.eval s = some q → q.getLastD 0 = clock i s :=
  comRRT_clock hs (fun _ _ => forward_timedPaths hd) sv ⟨ha.plan, ha.random, ha.partial'⟩ robot extra mc mc' hm steerRef unconstrained toPath comPath start next hst hn num l h

/-! ## A planner whose time does not go back -/

/-- the planner of the straight path, without those that go back in time -/
def forwardSolver : Solver ℕ ℚ := { straightSolver with plan := fun r t => if (splitList t.start).dof ≤ (splitList t.goal).dof then straightSolver.plan r t else none }

theorem apart_distance (a b : Conf (List ℚ) ℚ) : 0 ≤ apart a b ∧ (apart a b = 0 → a = b) := by
  unfold apart
  split_ifs with h
  · refine ⟨le_refl _, fun _ => ?_⟩
    cases a
    cases b
    obtain ⟨rfl, rfl⟩ := h
    rfl
  · norm_num

theorem forward_assembles : AssemblesForward demoBody downSolve hop apart forwardSolver where
  plan r t l h := by
    simp only [forwardSolver] at h
    split_ifs at h with ht
    simp only [straightSolver] at h
    split_ifs at h with hc
    cases hp : steer apart (some (taskSet demoBody downSolve t)) (splitList t.start) (splitList t.goal) with
    | none => rw [hp] at h; cases h
    | some p =>
      rw [hp] at h
      cases h
      refine ⟨[p], rfl, ?_, ?_⟩
      · rintro q hq
        rw [List.mem_singleton] at hq
        subst hq
        exact .steered hp ht
      · obtain ⟨-, rfl⟩ := (steer_spec _ _ rfl _ _ _).1 hp
        exact ⟨hc.1, hc.2⟩
  random _ _ h := h
  partial' _ _ h := h

/-- non-vacuity of `C198_comRRT`: with this planner comRRT returns a motion whose clock shows half of the time at the middle -/
example (ref : List ℚ → List ℚ → RefPath (List ℚ) ℚ) (toPath : List (Elem ℚ) → RefPath (List ℚ) ℚ) (comPath : RefPath (Vec3 ℚ) ℚ) :
    (∀ t, Paths.Solves (taskSet demoBody downSolve t)) ∧ (∀ a b, 0 ≤ apart a b ∧ (apart a b = 0 → a = b)) ∧ AssemblesForward demoBody downSolve hop apart forwardSolver ∧ demoMachine.Ok ∧ StateOk demoRobot (oneContact 0) ∧
    ∃ l, comRRT demoRobot 0 forwardSolver demoMachine demoMachine ref (fun _ _ => some []) toPath comPath (oneContact 0) (oneContact 0) 1 true = .path l ∧ ∃ e ∈ l, e.eval (1 / 2) = some [0, 1 / 2] := by
  refine ⟨downSolve_solves, apart_distance, forward_assembles, fun r l => List.Perm.refl _, demo_stateOk, [elemOf hop (hopPath (toPath []) (1 / 20) 10000)], ?_, _, List.mem_singleton_self _, ?_⟩
  · have hg : guidePath demoRobot 0 forwardSolver demoMachine ref (fun _ _ => some []) (oneContact 0) (oneContact 0) 1 = .path [] := by
      have : (State.allVariations (oneContact 0) (oneContact 0) (AMap.keys demoRobot.climbs)).isEmpty = true := by decide +kernel
      unfold guidePath
      rw [if_pos this]
    unfold comRRT
    rw [hg]
    dsimp only
    rw [demo_task]
    have ha : ∀ r, attempt forwardSolver 1 [demoTask (toPath []) (1 / 20) 10000] r 0 = some [elemOf hop (hopPath (toPath []) (1 / 20) 10000)] := by
      intro r
      have hle : (splitList (demoTask (toPath []) (1 / 20) 10000).start).dof ≤ (splitList (demoTask (toPath []) (1 / 20) 10000).goal).dof := by
        show (0 : ℚ) ≤ 1
        norm_num
      simp only [attempt, List.getElem?_cons_zero, forwardSolver, if_pos hle, straight_plan]
      rfl
    show interpolateTasks forwardSolver demoMachine 1 true [demoTask (toPath []) (1 / 20) 10000] = _
    unfold interpolateTasks
    have hm : demoMachine.Ok := fun r l => List.Perm.refl _
    rw [(C61_result (reduce true) [demoTask (toPath []) (1 / 20) 10000].length (by simp) (by simp) (attempt forwardSolver 1 [demoTask (toPath []) (1 / 20) 10000])
      _ (schedule_ok hm _ _) demoMachine.memory demoMachine.rounds).1 0 (by simp [demoMachine]) (fun r' hr' => by omega)
      (fun _ => [elemOf hop (hopPath (toPath []) (1 / 20) 10000)]) (fun i hi => ?_)]
    · rfl
    · simp only [List.length_singleton, Nat.lt_one_iff] at hi
      subst hi
      exact ha 0
  · have e : (hopPath (toPath []) (1 / 20) 10000).eval hop (1 / 2) = (⟨[0], 1 / 2⟩, true) := by
      norm_num [hopPath, TPath.eval, TPath.raw, CSet.constr, taskSet, downSolve, down, errors, Equation.target, demoTask, errorSq, demoBody, Vec3.normSq, Vec3.dot, hop, extraDof]
    show (if ((hopPath (toPath []) (1 / 20) 10000).eval hop (1 / 2)).2 = true then some (confList ((hopPath (toPath []) (1 / 20) 10000).eval hop (1 / 2)).1) else none) = _
    rw [e]
    rfl

end
end RRT

namespace Effector
open Interp Sampling RRT Registry Paths
variable {N K L C F : Type _} [LinearOrder N] [Field K] [LinearOrder K] [IsStrictOrderedRing K]
variable {body : Body N K} {solve : Task N K → List (Equation (List K) K) → K → Conf (List K) K → Conf (List K) K × Bool} {interp : List K → List K → K → List K}
  {distance : Conf (List K) K → Conf (List K) K → K}

/-- a motion of effectorRRT has a clock if its planners have this property -/
theorem effectorRRT_clock (T : Tools N K) (hs : ∀ t, Paths.Solves (taskSet body solve t)) {P : Task N K → List (Elem K) → Prop} (hP : ∀ t l, P t l → TimedPaths body solve interp distance t l)
    (hc : (∀ r t l, T.sv.plan r t = some l → P t l) ∧ (∀ t l, P t l → P t (T.sv.random t l)) ∧ ∀ t l, P t l → P t (T.sv.partial' t l))
    (hcs : ∀ i, (∀ r t l, (T.svs i).plan r t = some l → P t l) ∧ (∀ t l, P t l → P t ((T.svs i).random t l)) ∧ ∀ t l, P t l → P t ((T.svs i).partial' t l)) (hm : T.mc'.Ok) (hms : ∀ i, (T.mcs i).Ok) (robot : Robot N K) (hl : ∀ n l, robot.climbs.find? n = some l → Orthogonal l.placement)
    (want : Wanted N K) (comLength : K) (eff frame : N) (s0 s1 : State N K) (h0 : StateOk robot s0) (h1 : StateOk robot s1) (num : ℕ) (w w' : World N L C F (List (Elem K)) K) (l : List (Elem K))
    (h : effectorMotion T body.kin robot want comLength eff frame s0 s1 num w = .returns l w') :
    ∃ (ps : List (TPath (List K) K)) (keep : Bool), l = (ps.map (elemOf interp)).map (reduce keep) ∧ ∃ clock, Clock l (ps.map TPath.len) clock ∧
    ((∃ guide p, w'.paths = w.paths ++ [.wholeBody guide, .effector p] ∧ ∀ i e, l[i]? = some e → ∀ s q, e.eval s = some q →
        (want.keepExtraDof = false → Follows body robot.climbs (1 / 1000) want T.garbage p.eval (p.tTakeoff + p.tMid + p.tLanding) eff s0 s1 (clock i s) q) ∧
        (want.keepExtraDof = true → q.getLastD 0 = clock i s ∧ Follows body robot.climbs (1 / 1000) want T.garbage p.eval (p.tTakeoff + p.tMid + p.tLanding) eff s0 s1 (clock i s) q.dropLast)) ∨
      (w'.paths = w.paths ++ [.wholeBody l] ∧ ∀ i e, l[i]? = some e → ∀ s q, e.eval s = some q → q.getLastD 0 = clock i s)) := by
  unfold effectorMotion at h
  split at h
  · cases h
  · cases h
  rename_i g hg
  have hcom : ∃ ps : List (TPath (List K) K), g = ps.map (elemOf interp) ∧ ∃ clock, Clock g (ps.map TPath.len) clock ∧ ∀ i e, g[i]? = some e → ∀ s q, e.eval s = some q → q.getLastD 0 = clock i s :=
    comRRT_clock hs hP T.sv hc robot T.extra T.mc T.mc' hm T.steer T.unconstrained T.toPath want.comPath s0 s1 h0 h1 num g hg
  unfold effectorRRT at h
  simp only at h
  split_ifs at h
  · cases h
    obtain ⟨ps, hps, clock, c1, c2⟩ := hcom
    exact ⟨ps, true, by rw [reduce_true]; exact hps, clock, c1, Or.inr ⟨rfl, c2⟩⟩
  · cases e0 : s0.contactNormals.find? eff with
    | none => simp only [fromPath, fit, e0] at h; cases h
    | some n0 =>
      cases e1 : s1.contactNormals.find? eff with
      | none => simp only [fromPath, fit, e0, e1] at h; cases h
      | some n1 =>
        rcases C126_returns T.lib comLength T.vel T.acc eff frame s0 s1 _ _ n0 n1 _ g _ w' l e0 e1 h with ⟨k, p, hk, hf, -, hp, -⟩ | ⟨-, rfl, rfl⟩
        · unfold followMotion at hf
          split at hf
          · cases hf
          · rename_i t ht
            split at hf <;> cases hf
            rename_i hi
            obtain ⟨l', hl', rfl⟩ := interpolateTasks_pred (P := P) (hcs k).1 (hcs k).2.1 (hcs k).2.2 (hms k) 1 want.keepExtraDof t l hi
            obtain ⟨t0, t1, -, -⟩ := effectorTask_spec h0.2 h1.2 ht
            obtain ⟨ps, hps, clock, c1, c2⟩ := timedPaths_clock hs t0 t1 (hP _ _ hl')
            have fol : ∀ i e, l'[i]? = some e → ∀ s q, e.eval s = some q → Follows body robot.climbs (1 / 1000) want T.garbage p.eval (p.tTakeoff + p.tMid + p.tLanding) eff s0 s1 (clock i s) q.dropLast := by
              intro i e he s q hq
              obtain ⟨a, b⟩ := c2 i e he s q hq
              rw [← a]
              exact accepted_follows body hl h0 h1 ht q b
            refine ⟨ps, want.keepExtraDof, by rw [hps], clock, ⟨by rw [c1.length]; simp, c1.nonneg, fun hne => c1.begins (by rintro rfl; exact hne rfl), fun T hT => by simpa using c1.ends T hT, c1.range, c1.advances⟩, Or.inl ⟨g, p, by rw [hp]; simp, ?_⟩⟩
            intro i e he s q hq
            rw [List.getElem?_map, Option.map_eq_some_iff] at he
            obtain ⟨e', he', rfl⟩ := he
            refine ⟨fun hk => ?_, fun hk => ?_⟩
            · rw [hk] at hq
              simp only [reduce, Bool.false_eq_true, if_false] at hq
              obtain ⟨q', hq', rfl⟩ := Option.map_eq_some_iff.1 hq
              exact fol i e' he' s q' hq'
            · rw [hk] at hq
              simp only [reduce, if_true] at hq
              exact ⟨(c2 i e' he' s q hq).1, fol i e' he' s q hq⟩
        · obtain ⟨ps, hps, clock, c1, c2⟩ := hcom
          exact ⟨ps, true, by rw [reduce_true]; exact hps, clock, c1, Or.inr ⟨rfl, c2⟩⟩

/-- **C198 (effectorRRT)**.  A motion that effectorRRT returns has a clock that never goes back: either, at each time where it can be evaluated, the contacts, the centre of mass and the effector are within 1 mm of their references at the fraction
that the clock shows, which is the last coordinate of the configuration if it is kept; or it is that of comRRT. -/
theorem C198_effectorRRT (T : Tools N K) (hs : ∀ t, Paths.Solves (taskSet body solve t)) (hd : ∀ a b, 0 ≤ distance a b ∧ (distance a b = 0 → a = b)) (hc : AssemblesForward body solve interp distance T.sv)
    (hcs : ∀ i, AssemblesForward body solve interp distance (T.svs i)) (hm : T.mc'.Ok) (hms : ∀ i, (T.mcs i).Ok) (robot : Robot N K) (hl : ∀ n l, robot.climbs.find? n = some l → Orthogonal l.placement)
    (want : Wanted N K) (comLength : K) (eff frame : N) (s0 s1 : State N K) (h0 : StateOk robot s0) (h1 : StateOk robot s1) (num : ℕ) (w w' : World N L C F (List (Elem K)) K) (l : List (Elem K))
    (h : effectorMotion T body.kin robot want comLength eff frame s0 s1 num w = .returns l w') :
    ∃ (ps : List (TPath (List K) K)) (keep : Bool), l = (ps.map (elemOf interp)).map (reduce keep) ∧ ∃ clock, Clock l (ps.map TPath.len) clock ∧
    ((∃ guide p, w'.paths = w.paths ++ [.wholeBody guide, .effector p] ∧ ∀ i e, l[i]? = some e → ∀ s q, e.eval s = some q →
        (want.keepExtraDof = false → Follows body robot.climbs (1 / 1000) want T.garbage p.eval (p.tTakeoff + p.tMid + p.tLanding) eff s0 s1 (clock i s) q) ∧
        (want.keepExtraDof = true → q.getLastD 0 = clock i s ∧ Follows body robot.climbs (1 / 1000) want T.garbage p.eval (p.tTakeoff + p.tMid + p.tLanding) eff s0 s1 (clock i s) q.dropLast)) ∨
      (w'.paths = w.paths ++ [.wholeBody l] ∧ ∀ i e, l[i]? = some e → ∀ s q, e.eval s = some q → q.getLastD 0 = clock i s)) :=
  effectorRRT_clock T hs (fun _ _ => forward_timedPaths hd) ⟨hc.plan, hc.random, hc.partial'⟩ (fun i => ⟨(hcs i).plan, (hcs i).random, (hcs i).partial'⟩) hm hms robot hl want comLength eff frame s0 s1 h0 h1 num w w' l h

end Effector
end Rbprm
