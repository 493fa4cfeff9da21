import Verif.Model.Stopwatch
import Mathlib.Tactic.Linarith
import Mathlib.Tactic.FieldSimp
import Mathlib.Tactic.SplitIfs
import Mathlib.Data.Nat.Basic
import Mathlib.Algebra.Order.Field.Rat
import Mathlib.Algebra.BigOperators.Group.List.Basic
set_option linter.unusedSectionVars false
/-!
# Statistics of the stop watch (C63, C98)
-/
namespace Rbprm
namespace Watch
variable {N K : Type _} [LinearOrder N] [Field K] [LinearOrder K] [IsStrictOrderedRing K]

/-! ### specification: what was measured -/

/-- what an observer of the calls writes down: whether the watch is on, its mode and, for every name that was ever started, the time of the last start and the lapses measured since the last reset -/
structure Log (N K : Type _) where
  active : Bool
  mode : Mode
  entry : N → Option (K × List K)

/-- nothing was measured yet -/
def Log.empty (m : Mode) : Log N K := ⟨true, m, fun _ => none⟩

/-- seconds between two readings -/
def elapsed (perSec : K) : Mode → K → K → K
  | .cpuTime, a, b => (b - a) / perSec
  | _, a, b => b - a

/-- what a call adds to the log -/
def Log.add (perSec : K) (l : Log N K) : Op N K → Log N K
  | .turnOn => { l with active := true }
  | .turnOff => { l with active := false }
  | .setMode m => { l with mode := m }
  | .start n t =>
    if l.active = false then l else
    { l with entry := fun x => if x = n then (match l.entry n, l.mode with
        | none, .none => some (0, [])
        | some e, .none => some e
        | none, _ => some (t, [])
        | some e, _ => some (t, e.2)) else l.entry x }
  | .stop n t =>
    if l.active = false ∨ l.mode = .none then l else
    { l with entry := fun x => if x = n then (l.entry n).map (fun e => (e.1, e.2 ++ [elapsed perSec l.mode e.1 t])) else l.entry x }
  | .pause _ _ => l
  | .reset n => if l.active = false then l else { l with entry := fun x => if x = n then (l.entry n).map (fun _ => (0, [])) else l.entry x }
  | .resetAll => if l.active = false then l else { l with entry := fun x => (l.entry x).map (fun _ => (0, [])) }

/-- the log of a history -/
def Log.after (perSec : K) (m : Mode) (ops : List (Op N K)) : Log N K := ops.foldl (Log.add perSec) (Log.empty m)

/-- `m` is the greatest of the lapses -/
def IsMax (l : List K) (m : K) : Prop := m ∈ l ∧ ∀ x ∈ l, x ≤ m
/-- `m` is the least of the lapses -/
def IsMin (l : List K) (m : K) : Prop := m ∈ l ∧ ∀ x ∈ l, m ≤ x

/-! ### the invariant -/

/-- a record agrees with the lapses it summarises -/
structure Agrees (p : Perf K) (l : List K) : Prop where
  total : p.totalTime = l.sum
  stops : p.stops = l.length
  last : p.lastTime = l.getLast?.getD 0
  max0 : l = [] → p.maxTime = 0
  min0 : l = [] → p.minTime = 0
  max : l ≠ [] → (∀ x ∈ l, 0 ≤ x) → IsMax l p.maxTime
  min : l ≠ [] → (∀ x ∈ l, 0 < x) → IsMin l p.minTime
  minPos : l ≠ [] → (∀ x ∈ l, 0 < x) → 0 < p.minTime

theorem Agrees.init : Agrees (Perf.init : Perf K) [] := by
  constructor <;> simp [Perf.init]

theorem Agrees.start {p : Perf K} {l : List K} (h : Agrees p l) (t : K) : Agrees { p with clockStart := t, paused := false } l :=
  ⟨h.total, h.stops, h.last, h.max0, h.min0, h.max, h.min, h.minPos⟩

theorem Agrees.stop {p : Perf K} {l : List K} (h : Agrees p l) (x : K) : Agrees (p.stop x) (l ++ [x]) := by
  refine ⟨by simp [Perf.stop, h.total], by simp [Perf.stop, h.stops], by simp [Perf.stop], by simp, by simp, ?_, ?_, ?_⟩
  · intro _ hx
    have hl : ∀ y ∈ l, 0 ≤ y := fun y hy => hx y (by simp [hy])
    have hx0 : 0 ≤ x := hx x (by simp)
    show IsMax (l ++ [x]) (if x ≥ p.maxTime then x else p.maxTime)
    by_cases he : l = []
    · subst he
      rw [h.max0 rfl, if_pos hx0]
      exact ⟨by simp, by simp⟩
    · obtain ⟨hm, hb⟩ := h.max he hl
      by_cases hc : x ≥ p.maxTime
      · rw [if_pos hc]
        refine ⟨by simp, fun y hy => ?_⟩
        rcases List.mem_append.1 hy with hy | hy
        · exact (hb y hy).trans hc
        · simp at hy; exact hy.le
      · rw [if_neg hc]
        refine ⟨by simp [hm], fun y hy => ?_⟩
        rcases List.mem_append.1 hy with hy | hy
        · exact hb y hy
        · simp at hy; subst hy; exact (not_le.1 hc).le
  · intro _ hx
    have hl : ∀ y ∈ l, 0 < y := fun y hy => hx y (by simp [hy])
    show IsMin (l ++ [x]) (if x ≤ p.minTime ∨ p.minTime = 0 then x else p.minTime)
    by_cases he : l = []
    · subst he
      rw [if_pos (Or.inr (h.min0 rfl))]
      exact ⟨by simp, by simp⟩
    · obtain ⟨hm, hb⟩ := h.min he hl
      have hp := h.minPos he hl
      by_cases hc : x ≤ p.minTime
      · rw [if_pos (Or.inl hc)]
        refine ⟨by simp, fun y hy => ?_⟩
        rcases List.mem_append.1 hy with hy | hy
        · exact hc.trans (hb y hy)
        · simp at hy; exact hy.ge
      · rw [if_neg (by push Not; exact ⟨not_le.1 hc, hp.ne'⟩)]
        refine ⟨by simp [hm], fun y hy => ?_⟩
        rcases List.mem_append.1 hy with hy | hy
        · exact hb y hy
        · simp at hy; subst hy; exact (not_le.1 hc).le
  · intro _ hx
    have hl : ∀ y ∈ l, 0 < y := fun y hy => hx y (by simp [hy])
    have hx0 : 0 < x := hx x (by simp)
    show 0 < (if x ≤ p.minTime ∨ p.minTime = 0 then x else p.minTime)
    split_ifs with hc
    · exact hx0
    · by_cases he : l = []
      · exact absurd (Or.inr (h.min0 he)) hc
      · exact h.minPos he hl

/-- the watch and the log describe the same history -/
structure Rel (w : Stopwatch N K) (l : Log N K) : Prop where
  active : w.active = l.active
  mode : w.mode = l.mode
  known : ∀ n, (w.records.find? n).isSome = (l.entry n).isSome
  agrees : ∀ n p e, w.records.find? n = some p → l.entry n = some e → p.clockStart = e.1 ∧ Agrees p e.2

theorem find?_mapVal {V : Type _} (m : AMap N V) (v : V) (n : N) :
    AMap.find? (m.map fun r => (r.1, v)) n = (AMap.find? m n).map fun _ => v := by
  induction m with
  | nil => rfl
  | cons p m ih =>
    obtain ⟨k, u⟩ := p
    show AMap.find? ((k, v) :: _) n = _
    rw [AMap.find?_cons, AMap.find?_cons]
    by_cases h : k = n
    · rw [if_pos h, if_pos h]; rfl
    · rw [if_neg h, if_neg h]; exact ih

theorem lapseOf_elapsed (perSec : K) {m : Mode} (h : m ≠ .none) (a b : K) : lapseOf perSec m a b = elapsed perSec m a b := by
  cases m <;> simp_all [lapseOf, elapsed]

theorem Rel.step {perSec : K} {w : Stopwatch N K} {l : Log N K} (h : Rel w l) (o : Op N K) (ho : ∀ n c, o ≠ .pause n c) :
    Rel (step perSec w o).1 (l.add perSec o) := by
  obtain ⟨ha, hm, hk, hg⟩ := h
  cases o with
  | pause n c => exact absurd rfl (ho n c)
  | turnOn => exact ⟨rfl, hm, hk, hg⟩
  | turnOff => exact ⟨rfl, hm, hk, hg⟩
  | setMode m => exact ⟨ha, rfl, hk, hg⟩
  | resetAll =>
    by_cases hact : w.active = true
    · have hl : ¬ l.active = false := by rw [← ha, hact]; simp
      simp only [Watch.step, Log.add, hact, Bool.not_true, Bool.false_eq_true, if_false, if_neg hl]
      refine ⟨by rw [← ha, hact], hm, fun n => ?_, fun n p e h1 h2 => ?_⟩
      · rw [find?_mapVal]; simpa using hk n
      · rw [find?_mapVal] at h1
        simp only [Option.map_eq_some_iff] at h1 h2
        obtain ⟨_, _, rfl⟩ := h1
        obtain ⟨_, _, rfl⟩ := h2
        exact ⟨rfl, Agrees.init⟩
    · have hw : w.active = false := by simpa using hact
      have hl : l.active = false := by rw [← ha, hw]
      simp only [Watch.step, Log.add, hw, hl, Bool.not_false, if_true]
      exact ⟨ha, hm, hk, hg⟩
  | reset n =>
    by_cases hact : w.active = true
    · have hl : ¬ l.active = false := by rw [← ha, hact]; simp
      simp only [Watch.step, Log.add, hact, Bool.not_true, Bool.false_eq_true, if_false, if_neg hl]
      have hkn := hk n
      cases hf : w.records.find? n with
      | none =>
        rw [hf] at hkn
        have hn : l.entry n = none := by cases he : l.entry n <;> simp_all
        refine ⟨by rw [← ha, hact], hm, fun x => ?_, fun x p e h1 h2 => ?_⟩
        · dsimp only; by_cases hx : x = n
          · subst hx; simp [hf, hn]
          · rw [if_neg hx]; exact hk x
        · dsimp only at h1 h2; by_cases hx : x = n
          · subst hx; rw [hf] at h1; cases h1
          · rw [if_neg hx] at h2; exact hg x p e h1 h2
      | some q =>
        refine ⟨by rw [← ha, hact], hm, fun x => ?_, fun x p e h1 h2 => ?_⟩
        · dsimp only; rw [AMap.find?_set]
          by_cases hx : x = n
          · subst hx; rw [hf] at hkn; simp only [if_true, Option.isSome_map]; rw [← hkn]; rfl
          · rw [if_neg hx, if_neg hx]; exact hk x
        · dsimp only at h1 h2; rw [AMap.find?_set] at h1
          by_cases hx : x = n
          · rw [if_pos hx] at h1 h2
            simp only [Option.map_eq_some_iff] at h2
            obtain ⟨_, _, rfl⟩ := h2
            cases h1
            exact ⟨rfl, Agrees.init⟩
          · rw [if_neg hx] at h1 h2; exact hg x p e h1 h2
    · have hw : w.active = false := by simpa using hact
      have hl : l.active = false := by rw [← ha, hw]
      simp only [Watch.step, Log.add, hw, hl, Bool.not_false, if_true]
      exact ⟨ha, hm, hk, hg⟩
  | stop n t =>
    by_cases hact : w.active = true
    · have hl : ¬ l.active = false := by rw [← ha, hact]; simp
      by_cases hmode : w.mode = .none
      · have hlm : l.mode = .none := by rw [← hm, hmode]
        simp only [Watch.step, Log.add, hact, hmode, hlm, Bool.not_true, Bool.false_eq_true, if_false, or_true, if_true]
        exact ⟨ha, hm, hk, hg⟩
      · have hlm : ¬ (l.active = false ∨ l.mode = .none) := by rw [← hm]; tauto
        simp only [Watch.step, Log.add, hact, Bool.not_true, Bool.false_eq_true, if_false, if_neg hmode, if_neg hlm]
        have hkn := hk n
        cases hf : w.records.find? n with
        | none =>
          rw [hf] at hkn
          have hn : l.entry n = none := by cases he : l.entry n <;> simp_all
          refine ⟨by rw [← ha, hact], hm, fun x => ?_, fun x p e h1 h2 => ?_⟩
          · dsimp only; by_cases hx : x = n
            · subst hx; simp [hf, hn]
            · rw [if_neg hx]; exact hk x
          · dsimp only at h1 h2; by_cases hx : x = n
            · subst hx; rw [hf] at h1; cases h1
            · rw [if_neg hx] at h2; exact hg x p e h1 h2
        | some q =>
          refine ⟨by rw [← ha, hact], hm, fun x => ?_, fun x p e h1 h2 => ?_⟩
          · dsimp only; rw [AMap.find?_set]
            by_cases hx : x = n
            · subst hx; rw [hf] at hkn; simp only [if_true, Option.isSome_map]; rw [← hkn]; rfl
            · rw [if_neg hx, if_neg hx]; exact hk x
          · dsimp only at h1 h2; rw [AMap.find?_set] at h1
            by_cases hx : x = n
            · rw [if_pos hx] at h1 h2
              simp only [Option.map_eq_some_iff] at h2
              obtain ⟨e', he', rfl⟩ := h2
              cases h1
              obtain ⟨hc, hA⟩ := hg n q e' hf he'
              refine ⟨hc, ?_⟩
              rw [lapseOf_elapsed perSec hmode, hc, hm]
              exact hA.stop _
            · rw [if_neg hx] at h1 h2; exact hg x p e h1 h2
    · have hw : w.active = false := by simpa using hact
      have hl : l.active = false := by rw [← ha, hw]
      simp only [Watch.step, Log.add, hw, hl, Bool.not_false, if_true, true_or]
      exact ⟨ha, hm, hk, hg⟩
  | start n t =>
    by_cases hact : w.active = true
    · have hl : ¬ l.active = false := by rw [← ha, hact]; simp
      have hkn := hk n
      have hfi : (w.records.insertNew n Perf.init).find? n = some ((w.records.find? n).getD Perf.init) := by
        rw [AMap.find?_insertNew, if_pos rfl]
      by_cases hmode : w.mode = .none
      · have hlm : l.mode = .none := by rw [← hm, hmode]
        simp only [Watch.step, Log.add, hact, hmode, hlm, Bool.not_true, Bool.false_eq_true, if_false, if_true, if_neg hl]
        refine ⟨by rw [← ha, hact], by simp, fun x => ?_, fun x p e h1 h2 => ?_⟩
        · dsimp only; rw [AMap.find?_insertNew]
          by_cases hx : x = n
          · rw [if_pos hx, if_pos hx]; cases l.entry n <;> rfl
          · rw [if_neg hx, if_neg hx]; exact hk x
        · dsimp only at h1 h2; rw [AMap.find?_insertNew] at h1
          by_cases hx : x = n
          · rw [if_pos hx] at h1 h2
            cases hf : w.records.find? n with
            | none =>
              rw [hf] at hkn h1
              have hn : l.entry n = none := by cases he : l.entry n <;> simp_all
              rw [hn] at h2
              cases h1; cases h2
              exact ⟨rfl, Agrees.init⟩
            | some q =>
              rw [hf] at h1
              cases he : l.entry n with
              | none => rw [hf, he] at hkn; cases hkn
              | some e' =>
                rw [he] at h2
                cases h1; cases h2
                exact hg n _ _ hf he
          · rw [if_neg hx] at h1 h2; exact hg x p e h1 h2
      · have hlm : l.mode ≠ .none := by rw [← hm]; exact hmode
        simp only [Watch.step, Log.add, hact, hmode, Bool.not_true, Bool.false_eq_true, if_false, if_neg hl, hfi]
        refine ⟨by rw [← ha, hact], hm, fun x => ?_, fun x p e h1 h2 => ?_⟩
        · dsimp only; rw [AMap.find?_set, AMap.find?_insertNew]
          by_cases hx : x = n
          · rw [if_pos hx, if_pos hx]; cases l.entry n <;> cases l.mode <;> rfl
          · rw [if_neg hx, if_neg hx, if_neg hx]; exact hk x
        · dsimp only at h1 h2; rw [AMap.find?_set, AMap.find?_insertNew] at h1
          by_cases hx : x = n
          · rw [if_pos hx] at h1 h2
            cases hf : w.records.find? n with
            | none =>
              rw [hf] at hkn h1
              have hn : l.entry n = none := by cases he : l.entry n <;> simp_all
              rw [hn] at h2
              cases h1
              have : e = (t, []) := by cases hmm : l.mode <;> simp_all
              subst this
              exact ⟨rfl, Agrees.init.start t⟩
            | some q =>
              rw [hf] at h1
              cases he : l.entry n with
              | none => rw [hf, he] at hkn; cases hkn
              | some e' =>
                rw [he] at h2
                cases h1
                have : e = (t, e'.2) := by cases hmm : l.mode <;> simp_all
                subst this
                exact ⟨rfl, (hg n _ _ hf he).2.start t⟩
          · rw [if_neg hx] at h1 h2; rw [if_neg hx] at h1; exact hg x p e h1 h2
    · have hw : w.active = false := by simpa using hact
      have hl : l.active = false := by rw [← ha, hw]
      simp only [Watch.step, Log.add, hw, hl, Bool.not_false, if_true]
      exact ⟨ha, hm, hk, hg⟩

theorem rel_run (perSec : K) (m : Mode) (ops : List (Op N K)) (ho : ∀ o ∈ ops, ∀ n c, o ≠ .pause n c) :
    Rel (run perSec (Stopwatch.new m) ops) (Log.after perSec m ops) := by
  have key : ∀ (ops : List (Op N K)) (w : Stopwatch N K) (l : Log N K), Rel w l → (∀ o ∈ ops, ∀ n c, o ≠ .pause n c) →
      Rel (ops.foldl (fun w o => (step perSec w o).1) w) (ops.foldl (Log.add perSec) l) := by
    intro ops
    induction ops with
    | nil => intro w l h _; exact h
    | cons o ops ih =>
      intro w l h ho
      exact ih _ _ (h.step o (ho o (by simp))) (fun o' ho' => ho o' (by simp [ho']))
  exact key ops _ _ ⟨rfl, rfl, fun _ => rfl, fun n p e h1 _ => by simp [Stopwatch.new] at h1⟩ ho

/-! ### C63 -/

/-- C63 (part): after every history without `pause`, a name throws in the queries exactly if it was never started; otherwise the total is the sum of the measured lapses, the last time the last of them, the average their mean, the maximum their maximum if none is negative and the minimum their minimum if all are positive. -/
theorem C63_history_partial (perSec : K) (m : Mode) (ops : List (Op N K)) (ho : ∀ o ∈ ops, ∀ n c, o ≠ .pause n c) (name : N) :
    let w := run perSec (Stopwatch.new m) ops
    match (Log.after perSec m ops).entry name with
    | none => w.total name = none ∧ w.average name = none ∧ w.min name = none ∧ w.max name = none ∧ w.last name = none ∧ ∀ t, w.soFar perSec name t = none
    | some (start, lapses) =>
      w.total name = some lapses.sum ∧
      w.last name = some (lapses.getLast?.getD 0) ∧
      w.average name = some (if lapses = [] then none else some (lapses.sum / lapses.length)) ∧
      (lapses = [] → w.min name = some 0 ∧ w.max name = some 0) ∧
      (lapses ≠ [] → (∀ x ∈ lapses, 0 ≤ x) → ∃ M, w.max name = some M ∧ IsMax lapses M) ∧
      (lapses ≠ [] → (∀ x ∈ lapses, 0 < x) → ∃ M, w.min name = some M ∧ IsMin lapses M) ∧
      (w.mode ≠ .none → ∀ t, w.soFar perSec name t = some (elapsed perSec w.mode start t)) := by
  intro w
  have h := rel_run perSec m ops ho
  have hk := h.known name
  change ((w.records.find? name).isSome = _) at hk
  cases he : (Log.after perSec m ops).entry name with
  | none =>
    have hf : w.records.find? name = none := by rw [he] at hk; cases hf : w.records.find? name <;> simp_all
    simp only [Stopwatch.total, Stopwatch.average, Stopwatch.min, Stopwatch.max, Stopwatch.last, Stopwatch.soFar, hf, Option.map_none]
    simp
  | some e =>
    obtain ⟨start, lapses⟩ := e
    cases hf : w.records.find? name with
    | none => rw [hf, he] at hk; cases hk
    | some p =>
      obtain ⟨hc, hA⟩ := h.agrees name p _ hf he
      simp only [Stopwatch.total, Stopwatch.average, Stopwatch.min, Stopwatch.max, Stopwatch.last, Stopwatch.soFar, hf, Option.map_some]
      refine ⟨by rw [hA.total], by rw [hA.last], ?_, fun h0 => ⟨by rw [hA.min0 h0], by rw [hA.max0 h0]⟩,
        fun h0 h1 => ⟨_, rfl, hA.max h0 h1⟩, fun h0 h1 => ⟨_, rfl, hA.min h0 h1⟩, fun hm t => ?_⟩
      · rw [hA.stops, hA.total]
        simp only [List.length_eq_zero_iff]
      · rw [if_neg hm, lapseOf_elapsed perSec hm]
        simp only at hc
        rw [hc]

theorem sum_le_of_le (l : List K) (M : K) (h : ∀ x ∈ l, x ≤ M) : l.sum ≤ l.length * M := by
  induction l with
  | nil => simp
  | cons a l ih =>
    have h1 := h a (by simp)
    have h2 := ih (fun x hx => h x (by simp [hx]))
    simp only [List.sum_cons, List.length_cons, Nat.cast_add, Nat.cast_one]
    linarith [add_mul (l.length : K) 1 M, one_mul M]

theorem le_sum_of_le (l : List K) (M : K) (h : ∀ x ∈ l, M ≤ x) : l.length * M ≤ l.sum := by
  induction l with
  | nil => simp
  | cons a l ih =>
    have h1 := h a (by simp)
    have h2 := ih (fun x hx => h x (by simp [hx]))
    simp only [List.sum_cons, List.length_cons, Nat.cast_add, Nat.cast_one]
    linarith [add_mul (l.length : K) 1 M, one_mul M]

/-- C63 (part): if something was measured for a name and all its lapses are positive, then `min ≤ average ≤ max`; with lapses that are only non-negative `average ≤ max` still holds (but see `C63_violated`). -/
theorem C63_order_partial (perSec : K) (m : Mode) (ops : List (Op N K)) (ho : ∀ o ∈ ops, ∀ n c, o ≠ .pause n c) (name : N)
    {start : K} {lapses : List K} (he : (Log.after perSec m ops).entry name = some (start, lapses)) (h0 : lapses ≠ []) (hnn : ∀ x ∈ lapses, 0 ≤ x) :
    ∃ lo avg hi, (run perSec (Stopwatch.new m) ops).min name = some lo ∧ (run perSec (Stopwatch.new m) ops).average name = some (some avg) ∧
      (run perSec (Stopwatch.new m) ops).max name = some hi ∧ avg ≤ hi ∧ ((∀ x ∈ lapses, 0 < x) → lo ≤ avg) := by
  have h := rel_run perSec m ops ho
  have hk := h.known name
  cases hf : (run perSec (Stopwatch.new m) ops).records.find? name with
  | none => rw [hf, he] at hk; cases hk
  | some p =>
    obtain ⟨hc, hA⟩ := h.agrees name p _ hf he
    have hl : (0 : K) < lapses.length := by exact_mod_cast List.length_pos_of_ne_nil h0
    have hne : p.stops ≠ 0 := by rw [hA.stops]; exact (List.length_pos_of_ne_nil h0).ne'
    refine ⟨p.minTime, p.totalTime / p.stops, p.maxTime, by simp [Stopwatch.min, hf], by simp [Stopwatch.average, hf, hne], by simp [Stopwatch.max, hf], ?_, fun hpos => ?_⟩
    · rw [hA.stops, hA.total, div_le_iff₀ hl, mul_comm]
      exact sum_le_of_le _ _ (hA.max h0 hnn).2
    · rw [hA.stops, hA.total, le_div_iff₀ hl, mul_comm]
      exact le_sum_of_le _ _ (hA.min h0 hpos).2

/-- non-vacuity: the name 7 is measured three times, the watch is off during a fourth, and another name is in between; the statistics are the expected ones -/
def demoOps : List (Op ℕ ℚ) :=
  [.start 7 0, .start 8 1, .stop 7 2, .start 7 10, .stop 7 15, .stop 8 16, .turnOff, .start 7 50, .stop 7 90, .turnOn, .start 7 100, .stop 7 103]

example : (Log.after 1 .realTime demoOps).entry 7 = some (100, [2, 5, 3]) := by decide +kernel
example : (∀ o ∈ demoOps, ∀ n c, o ≠ Op.pause n c) := by
  intro o ho n c h
  subst h
  simp [demoOps] at ho
example : (run 1 (Stopwatch.new .realTime) demoOps).min 7 = some 2 ∧ (run 1 (Stopwatch.new .realTime) demoOps).max 7 = some 5 ∧
    (run 1 (Stopwatch.new .realTime) demoOps).average 7 = some (some (10 / 3)) ∧ (run 1 (Stopwatch.new .realTime) demoOps).last 7 = some 3 := by
  refine ⟨?_, ?_, ?_, ?_⟩ <;> decide +kernel

/-- C63: `stop`, `pause` and `reset` of a name that was never started throw (when the watch is on) and leave the watch unchanged; so does `stop` without a time taking mode. -/
theorem C63_unknown (perSec : K) (w : Stopwatch N K) (hw : w.active = true) (name : N) (h : w.records.find? name = none) (t : K) :
    step perSec w (.stop name t) = (w, true) ∧ step perSec w (.pause name t) = (w, true) ∧ step perSec w (.reset name) = (w, true) := by
  refine ⟨?_, ?_, ?_⟩ <;> simp [step, hw, h]

example : (Stopwatch.new .realTime : Stopwatch ℕ ℚ).records.find? 3 = none := rfl

/-- C63: an inactive watch ignores every operation but `turn_on`, `turn_off` and `set_mode`. -/
theorem C63_inactive (perSec : K) (w : Stopwatch N K) (hw : w.active = false) (name : N) (t : K) :
    step perSec w (.start name t) = (w, false) ∧ step perSec w (.stop name t) = (w, false) ∧ step perSec w (.pause name t) = (w, false) ∧
    step perSec w (.reset name) = (w, false) ∧ step perSec w .resetAll = (w, false) := by
  refine ⟨?_, ?_, ?_, ?_, ?_⟩ <;> simp [step, hw]

/-- C63: `reset` of a known name restores the statistics of a new record (total, last, minimum and maximum 0, no average) whatever happened before, pauses included, and changes no other name; `reset_all` does so for every known name. -/
theorem C63_reset (perSec : K) (w : Stopwatch N K) (hw : w.active = true) (name : N) (h : w.total name ≠ none) :
    (let w' := (step perSec w (.reset name)).1
     w'.total name = some 0 ∧ w'.last name = some 0 ∧ w'.min name = some 0 ∧ w'.max name = some 0 ∧ w'.average name = some none ∧
       ∀ other, other ≠ name → w'.records.find? other = w.records.find? other) ∧
    (let w' := (step perSec w .resetAll).1
     (∀ n, w.total n ≠ none → w'.total n = some 0 ∧ w'.last n = some 0 ∧ w'.min n = some 0 ∧ w'.max n = some 0 ∧ w'.average n = some none) ∧
       ∀ n, w.total n = none → w'.total n = none) := by
  have hs : ∀ n, w.total n ≠ none → ∃ p, w.records.find? n = some p := by
    intro n hn
    cases hf : w.records.find? n with
    | none => exact absurd (by simp [Stopwatch.total, hf]) hn
    | some p => exact ⟨p, rfl⟩
  constructor
  · obtain ⟨p, hp⟩ := hs name h
    have he : (step perSec w (.reset name)).1.records = w.records.set name Perf.init := by simp [step, hw, hp]
    simp only [Stopwatch.total, Stopwatch.last, Stopwatch.min, Stopwatch.max, Stopwatch.average, he, AMap.find?_set]
    simp only [if_true, Option.map_some, Perf.init]
    simp
    intro other ho h'
    exact absurd h' ho
  · have he : (step perSec w .resetAll).1.records = w.records.map fun r => (r.1, Perf.init) := by simp [step, hw]
    refine ⟨fun n hn => ?_, fun n hn => ?_⟩
    · obtain ⟨p, hp⟩ := hs n hn
      simp only [Stopwatch.total, Stopwatch.last, Stopwatch.min, Stopwatch.max, Stopwatch.average, he, find?_mapVal, hp]
      simp [Perf.init]
    · simp only [Stopwatch.total, he, find?_mapVal]
      simp only [Stopwatch.total, Option.map_eq_none_iff] at hn
      simp [hn]

/-- **C63 is violated**: with a lapse 0 followed by a lapse 1 the minimum is 1, more than the average 1/2 — a minimum of 0 is taken for "not set yet". -/
theorem C63_violated : ∃ ops : List (Op ℕ ℚ), (Log.after 1 .realTime ops).entry 0 = some (1, [0, 1]) ∧
    (run 1 (Stopwatch.new .realTime) ops).min 0 = some 1 ∧ (run 1 (Stopwatch.new .realTime) ops).average 0 = some (some (1 / 2)) :=
  ⟨[.start 0 0, .stop 0 0, .start 0 1, .stop 0 2], by decide +kernel, by decide +kernel, by decide +kernel⟩

/-- **C63 is violated**: `start` without a time taking mode throws, and yet it has created a record: afterwards the queries answer for a name that was never timed. -/
theorem C63_start_violated (perSec : K) (name : N) (t : K) :
    (step perSec (Stopwatch.new .none) (.start name t)).2 = true ∧ (Stopwatch.new .none : Stopwatch N K).total name = none ∧
    (step perSec (Stopwatch.new .none) (.start name t)).1.total name = some 0 := by
  refine ⟨by simp [step, Stopwatch.new], by simp [Stopwatch.total, Stopwatch.new], ?_⟩
  have : (step perSec (Stopwatch.new .none) (.start name t)).1.records = AMap.insertNew [] name Perf.init := by simp [step, Stopwatch.new]
  simp only [Stopwatch.total, this, AMap.find?_insertNew]
  simp [Perf.init]

/-! ### C98: pausing -/

/-- C98 (part): `pause` never touches the minimum, the maximum and the count, and adds the same lapse to total and last time. -/
theorem C98_partial (perSec : K) (w : Stopwatch N K) (hw : w.active = true) (name : N) (c : K) {p : Perf K} (h : w.records.find? name = some p) :
    let w' := (step perSec w (.pause name c)).1
    w'.min name = w.min name ∧ w'.max name = w.max name ∧ w'.total name = some (p.totalTime + (c - p.clockStart)) ∧
      w'.last name = some (p.lastTime + (c - p.clockStart)) ∧ ∀ other, other ≠ name → w'.records.find? other = w.records.find? other := by
  intro w'
  have he : w'.records = w.records.set name { p with lastTime := p.lastTime + (c - p.clockStart), totalTime := p.totalTime + (c - p.clockStart) } := by simp [w', step, hw, h]
  simp only [Stopwatch.total, Stopwatch.last, Stopwatch.min, Stopwatch.max, he, AMap.find?_set, h]
  simp
  intro other ho h'
  exact absurd h' ho

/-- **C98 is violated**: start at 0, pause at 1 s, restart at 5 s, stop at 7 s on the processor clock with 10⁶ ticks per second.  3 s were measured, yet the total is 10⁶ + 2 (the pause does not convert ticks to seconds), and the last time is 2 (the lapse before the pause is forgotten). -/
theorem C98_violated :
    let w := run 1000000 (Stopwatch.new .cpuTime : Stopwatch ℕ ℚ) [.start 0 0, .pause 0 1000000, .start 0 5000000, .stop 0 7000000]
    w.total 0 = some 1000002 ∧ w.last 0 = some 2 := by
  constructor <;> decide +kernel

/-- **C98 is violated** in real time mode too: there `start` reads the time of day and `pause` the processor clock, so that the total after a pause is negative. -/
theorem C98_realtime_violated :
    let w := run 1000000 (Stopwatch.new .realTime : Stopwatch ℕ ℚ) [.start 0 1700000000, .pause 0 5000]
    w.total 0 = some (-1699995000) := by
  decide +kernel

end Watch
end Rbprm
