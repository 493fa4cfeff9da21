import Verif.Props.Interpolation
import Mathlib.Tactic.SplitIfs
import Mathlib.Algebra.BigOperators.Fin
import Mathlib.Algebra.Order.BigOperators.Group.List
/-!
# Property C146: when the interpolation gives up

`Interpolate` (rbprm-path-interpolation.cc:228–421) returns what it has so far at the second failure it notices, or at the
twenty-first repositioning, and never otherwise.
-/
set_option linter.unusedSectionVars false
namespace Rbprm
namespace Interp
open State Contact
variable {N K : Type _} [LinearOrder N] [CommRing K] [LinearOrder K]

/-- The successive calls of contact generation made by the loop from the situation `w`: each with the flag saying whether a
failure is noticed at that point, and the report received.  The run ends at the
last sampled configuration or with the call that makes it give up. -/
inductive Calls (sv : Solvers N K) (compute : Compute N K) (configs : List (List K)) (ts : K) :
    Loop N K → List (Bool × ContactReport N K) → Prop
  | done (w) : w.cit = configs.length → Calls sv compute configs ts w []
  | last (w w') : w.cit ≠ configs.length → iterate sv compute configs ts w = .abort w' →
      Calls sv compute configs ts w [(w.allowFailure, reportOf sv compute configs w)]
  | call (w w' l) : w.cit ≠ configs.length → iterate sv compute configs ts w = .next w' →
      Calls sv compute configs ts w' l →
      Calls sv compute configs ts w ((w.allowFailure, reportOf sv compute configs w) :: l)

/-- A failure is noticed: contact generation failed or broke several contacts while failures are watched. -/
def Noticed (c : Bool × ContactReport N K) : Bool := c.1 && (!c.2.success || c.2.multipleBreaks)

/-- the report repositions a contact in place -/
def Repositions (c : Bool × ContactReport N K) : Bool := c.2.repositionedInPlace

theorem iterate_counts (sv : Solvers N K) (compute : Compute N K) (configs : List (List K)) (ts : K) (w w' : Loop N K)
    (c : Bool × ContactReport N K) (hc : c = (w.allowFailure, reportOf sv compute configs w)) :
    (iterate sv compute configs ts w = .next w' →
      w'.nbFailures = w.nbFailures + (if Noticed c then 1 else 0) ∧ w'.repos = w.repos + (if Repositions c then 1 else 0) ∧
      (Noticed c = true → w'.nbFailures ≤ 1) ∧ (Repositions c = true → w'.repos ≤ 20)) ∧
    (iterate sv compute configs ts w = .abort w' →
      (Noticed c = true ∧ 1 < w.nbFailures + 1) ∨ (Repositions c = true ∧ 20 < w.repos + 1)) := by
  unfold iterate
  simp only
  obtain ⟨a, rep⟩ := c
  simp only [Prod.mk.injEq] at hc
  obtain ⟨ha, hr⟩ := hc
  rw [← hr, ← ha]
  have hpush : ∀ v : Loop N K, (afterPush ts rep v).nbFailures = v.nbFailures ∧ (afterPush ts rep v).repos = v.repos := by
    intro v
    unfold afterPush
    dsimp only
    split_ifs <;> exact ⟨rfl, rfl⟩
  have hbreak : ∀ v : Loop N K, (afterBreaks ts rep v).nbFailures = v.nbFailures ∧ (afterBreaks ts rep v).repos = v.repos := by
    intro v
    unfold afterBreaks
    split_ifs <;> exact ⟨rfl, rfl⟩
  have hfail : (afterFailure configs.length ts rep w).repos = w.repos ∧
      (afterFailure configs.length ts rep w).nbFailures = w.nbFailures + (if Noticed (a, rep) then 1 else 0) := by
    unfold afterFailure Noticed
    simp only
    rw [← ha]
    split_ifs <;> exact ⟨rfl, rfl⟩
  have hrep : ∀ v : Loop N K, (afterReposition rep v).nbFailures = v.nbFailures ∧
      (afterReposition rep v).repos = v.repos + (if Repositions (a, rep) then 1 else 0) := by
    intro v
    unfold afterReposition Repositions
    simp only
    split_ifs <;> exact ⟨rfl, rfl⟩
  constructor
  · intro h
    split_ifs at h with h1 h2
    cases h
    rw [(hpush _).1, (hpush _).2, (hrep _).1, (hrep _).2, (hbreak _).1, (hbreak _).2, hfail.1, hfail.2]
    refine ⟨rfl, rfl, fun hn => ?_, fun hn => ?_⟩
    · have hn' : (a && (!rep.success || rep.multipleBreaks)) = true := hn
      rw [hn', Bool.true_and, decide_eq_true_eq, hfail.2] at h1
      omega
    · have hn' : rep.repositionedInPlace = true := hn
      rw [hn', Bool.true_and, decide_eq_true_eq, (hrep _).2, (hbreak _).2, hfail.1] at h2
      omega
  · intro h
    split_ifs at h with h1 h2
    · rw [Bool.and_eq_true, decide_eq_true_eq, hfail.2] at h1
      have : Noticed (a, rep) = true := h1.1
      rw [if_pos this] at h1
      exact Or.inl ⟨this, h1.2⟩
    · rw [Bool.and_eq_true, decide_eq_true_eq, (hrep _).2, (hbreak _).2, hfail.1] at h2
      have : Repositions (a, rep) = true := h2.1
      rw [if_pos this] at h2
      exact Or.inr ⟨this, h2.2⟩

theorem calls_counts (sv : Solvers N K) (compute : Compute N K) (configs : List (List K)) (ts : K) (fuel : Nat)
    (w : Loop N K) (b : Bool) (r : Loop N K) (h1 : w.nbFailures ≤ 1) (h2 : w.repos ≤ 20)
    (h : mainLoop sv compute configs ts fuel w = some (b, r)) :
    ∃ l, Calls sv compute configs ts w l ∧
      (b = true → w.nbFailures + l.countP Noticed ≤ 1 ∧ w.repos + l.countP Repositions ≤ 20) ∧
      (b = false → ∃ l' c, l = l' ++ [c] ∧
        w.nbFailures + l'.countP Noticed ≤ 1 ∧ w.repos + l'.countP Repositions ≤ 20 ∧
        ((Noticed c = true ∧ w.nbFailures + l.countP Noticed = 2) ∨
          (Repositions c = true ∧ w.repos + l.countP Repositions = 21))) := by
  induction fuel generalizing w with
  | zero => simp [mainLoop] at h
  | succ fuel ih =>
    rw [mainLoop] at h
    by_cases hc : w.cit = configs.length
    · rw [if_pos hc] at h
      cases h
      exact ⟨[], .done _ hc, fun _ => ⟨by simpa using h1, by simpa using h2⟩, fun hb => by cases hb⟩
    · rw [if_neg hc] at h
      cases hi : iterate sv compute configs ts w with
      | abort w' =>
        rw [hi] at h
        cases h
        have := (iterate_counts sv compute configs ts w r _ rfl).2 hi
        refine ⟨_, .last w r hc hi, fun hb => (by cases hb), fun _ => ⟨[], _, rfl, by simpa using h1, by simpa using h2, ?_⟩⟩
        rcases this with ⟨hn, hl⟩ | ⟨hn, hl⟩
        · left
          refine ⟨hn, ?_⟩
          rw [List.countP_cons, if_pos hn, List.countP_nil]
          omega
        · right
          refine ⟨hn, ?_⟩
          rw [List.countP_cons, if_pos hn, List.countP_nil]
          omega
      | next w' =>
        rw [hi] at h
        obtain ⟨e1, e2, l1, l2⟩ := (iterate_counts sv compute configs ts w w' _ rfl).1 hi
        have b1 : w'.nbFailures ≤ 1 := by
          by_cases hn : Noticed (w.allowFailure, reportOf sv compute configs w) = true
          · exact l1 hn
          · rw [if_neg hn] at e1; omega
        have b2 : w'.repos ≤ 20 := by
          by_cases hn : Repositions (w.allowFailure, reportOf sv compute configs w) = true
          · exact l2 hn
          · rw [if_neg hn] at e2; omega
        obtain ⟨l, hl, ht, hf⟩ := ih w' b1 b2 h
        refine ⟨_, .call w w' l hc hi hl, fun hb => ?_, fun hb => ?_⟩
        · have := ht hb
          rw [List.countP_cons, List.countP_cons]
          omega
        · obtain ⟨l', c, rfl, g1, g2, g3⟩ := hf hb
          refine ⟨_ :: l', c, rfl, ?_, ?_, ?_⟩
          · rw [List.countP_cons]; omega
          · rw [List.countP_cons]; omega
          · rw [List.countP_cons, List.countP_cons]
            rcases g3 with ⟨g, g'⟩ | ⟨g, g'⟩
            · left; exact ⟨g, by omega⟩
            · right; exact ⟨g, by omega⟩

/-- **C146** Interpolation gives up exactly when it notices a second failure or meets a twenty-first repositioning: a run that
reaches the end of the sampled configurations noticed at most one failure and repositioned at most twenty times; a run that
gives up does so at a call that is the second noticed failure, or the twenty-first repositioning, and had stayed within the
limits until then. -/
theorem C146_gives_up (sv : Solvers N K) (compute : Compute N K) (configs : List (List K)) (ts init : K) (start : State N K)
    (fuel : Nat) (b : Bool) (r : Loop N K) (h : mainLoop sv compute configs ts fuel (Loop.start start init) = some (b, r)) :
    ∃ l, Calls sv compute configs ts (Loop.start start init) l ∧
      (b = true → l.countP Noticed ≤ 1 ∧ l.countP Repositions ≤ 20) ∧
      (b = false → ∃ l' c, l = l' ++ [c] ∧ l'.countP Noticed ≤ 1 ∧ l'.countP Repositions ≤ 20 ∧
        ((Noticed c = true ∧ l.countP Noticed = 2) ∨ (Repositions c = true ∧ l.countP Repositions = 21))) := by
  obtain ⟨l, h1, h2, h3⟩ := calls_counts sv compute configs ts fuel _ b r (Nat.zero_le _) (Nat.zero_le _) h
  refine ⟨l, h1, fun hb => ?_, fun hb => ?_⟩
  · have := h2 hb
    simpa [Loop.start] using this
  · obtain ⟨l', c, e, g1, g2, g3⟩ := h3 hb
    refine ⟨l', c, e, by simpa [Loop.start] using g1, by simpa [Loop.start] using g2, ?_⟩
    simpa [Loop.start] using g3

/-- **C146 (what is watched)** Failures are watched at the first call, and afterwards exactly when fewer than two
"recontacts" happened in a row. -/
theorem C146_watch (ts : K) (rep : ContactReport N K) (w : Loop N K) (start : State N K) (init : K) :
    (Loop.start start init).allowFailure = true ∧
    ((afterPush ts rep w).allowFailure = true ↔ w.nbRecontacts < 2) ∧
    ((afterBreaks ts rep w).nbRecontacts =
      if (rep.multipleBreaks = true ∧ w.allowFailure = false) ∨ (rep.multipleBreaks = false ∧ rep.repositionedInPlace = true)
        then w.nbRecontacts + 1 else 0) := by
  refine ⟨rfl, ?_, ?_⟩
  · unfold afterPush
    dsimp only
    split_ifs <;> simp
  · unfold afterBreaks
    cases rep.multipleBreaks <;> cases w.allowFailure <;> cases rep.repositionedInPlace <;> simp

/-- Without repositioning nor multiple breaks every failure is noticed: the second failed call ends the run. -/
theorem C146_second_failure (sv : Solvers N K) (compute : Compute N K) (configs : List (List K)) (ts init : K)
    (start : State N K) (hq : ∀ s c v, (compute s c v).multipleBreaks = false ∧ (compute s c v).repositionedInPlace = false)
    (fuel : Nat) (b : Bool) (r : Loop N K) (h : mainLoop sv compute configs ts fuel (Loop.start start init) = some (b, r)) :
    ∃ l, Calls sv compute configs ts (Loop.start start init) l ∧
      (b = true ↔ l.countP (fun c => !c.2.success) ≤ 1) ∧ (b = false ↔ l.countP (fun c => !c.2.success) = 2) := by
  have watch : ∀ (w : Loop N K) (l), w.allowFailure = true → Calls sv compute configs ts w l →
      l.countP Noticed = l.countP (fun c => !c.2.success) ∧ l.countP Repositions = 0 := by
    intro w l hw hl
    have one : ∀ w : Loop N K, w.allowFailure = true →
        Noticed (w.allowFailure, reportOf sv compute configs w) = !(reportOf sv compute configs w).success ∧
        Repositions (w.allowFailure, reportOf sv compute configs w) = false := by
      intro w hw
      have := hq w.front.2 (loadPrevious sv.extraDim w.lastConfig (configs.getD w.cit [])) w.currentVal
      refine ⟨?_, this.2⟩
      unfold Noticed
      have e : (reportOf sv compute configs w).multipleBreaks = false := this.1
      simp [hw, e]
    induction hl with
    | done w => simp
    | last w w' h1 h2 =>
      obtain ⟨o1, o2⟩ := one w hw
      simp only [List.countP_cons, List.countP_nil, o1, o2]
      simp
    | call w w' l h1 h2 h3 ih =>
      obtain ⟨o1, o2⟩ := one w hw
      have hw' : w'.allowFailure = true := by
        have hm := (hq w.front.2 (loadPrevious sv.extraDim w.lastConfig (configs.getD w.cit [])) w.currentVal)
        unfold iterate at h2
        simp only at h2
        have e1 : (reportOf sv compute configs w).multipleBreaks = false := hm.1
        have e2 : (reportOf sv compute configs w).repositionedInPlace = false := hm.2
        generalize reportOf sv compute configs w = rep at h2 e1 e2
        split_ifs at h2
        cases h2
        rw [((C146_watch ts rep _ start init).2.1)]
        have : ∀ v : Loop N K, (afterReposition rep v) = v := by
          intro v; unfold afterReposition; simp [e2]
        rw [this, (C146_watch ts rep _ start init).2.2]
        simp [e1, e2]
      obtain ⟨i1, i2⟩ := ih hw'
      simp only [List.countP_cons, o1, o2, i1, i2]
      simp
  obtain ⟨l, h1, h2, h3⟩ := C146_gives_up sv compute configs ts init start fuel b r h
  obtain ⟨e1, e2⟩ := watch _ l rfl h1
  refine ⟨l, h1, ?_⟩
  cases b with
  | true =>
    have := (h2 rfl).1
    rw [e1] at this
    refine ⟨⟨fun _ => this, fun _ => rfl⟩, ⟨fun hb => (by cases hb), fun hb => by omega⟩⟩
  | false =>
    obtain ⟨l', c, -, -, -, g⟩ := h3 rfl
    rw [e1, e2] at g
    rcases g with ⟨-, g⟩ | ⟨-, g⟩
    · exact ⟨⟨fun hb => (by cases hb), fun hb => by omega⟩, ⟨fun _ => g, fun _ => rfl⟩⟩
    · omega

/-- contact generation that always fails / that fails once -/
def failing (once : Bool) (s : State ℕ ℤ) (c : List ℤ) (_ : ℤ) : ContactReport ℕ ℤ :=
  if once && decide (c ≠ [1]) then ⟨⟨true, s, .stable⟩, true, false, false, false⟩
  else ⟨⟨false, s, .stable⟩, false, false, false, false⟩

/-- the hypotheses of C146 hold of runs that give up and of runs that reach the end, with five sampled configurations -/
example : ((mainLoop demoSv (failing false) [[0], [1], [2], [3], [4]] 1 100 (Loop.start State.demo 0)).map Prod.fst,
    (mainLoop demoSv (failing true) [[0], [1], [2], [3], [4]] 1 100 (Loop.start State.demo 0)).map Prod.fst) =
    (some false, some true) := by decide
example : ∀ once s c v, (failing once s c v).multipleBreaks = false ∧ (failing once s c v).repositionedInPlace = false := by
  intro once s c v
  unfold failing
  split_ifs <;> exact ⟨rfl, rfl⟩

/-! ## What `FilterObsolete` compares -/

/-- **C27 (what "moved" means)** The quantity compared with the threshold by `FilterObsolete` is the squared Euclidean
distance between the two configurations; it vanishes exactly on equal configurations. -/
theorem C27_moved {K : Type _} [CommRing K] [LinearOrder K] [IsStrictOrderedRing K] (v w : List K) (hl : v.length = w.length) :
    distSqList v w = ∑ i : Fin v.length, (v[i] - w[i]'(hl ▸ i.2)) ^ 2 ∧
    0 ≤ distSqList v w ∧ (distSqList v w = 0 ↔ v = w) := by
  have nonneg : ∀ v w : List K, 0 ≤ distSqList v w := by
    intro v w
    unfold distSqList
    apply List.sum_nonneg
    intro x hx
    obtain ⟨i, hi, rfl⟩ := List.getElem_of_mem hx
    rw [List.getElem_zipWith]
    exact mul_self_nonneg _
  refine ⟨?_, nonneg v w, ?_⟩
  · unfold distSqList
    induction v generalizing w with
    | nil => simp
    | cons a v ih =>
      cases w with
      | nil => simp at hl
      | cons b w =>
        simp only [List.length_cons, Nat.add_right_cancel_iff] at hl
        rw [List.zipWith_cons_cons, List.sum_cons, ih w hl]
        simp only [List.length_cons]
        rw [Fin.sum_univ_succ]
        simp [pow_two]
  · induction v generalizing w with
    | nil =>
      cases w with
      | nil => simp [distSqList]
      | cons b w => simp at hl
    | cons a v ih =>
      cases w with
      | nil => simp at hl
      | cons b w =>
        simp only [List.length_cons, Nat.add_right_cancel_iff] at hl
        have e : distSqList (a :: v) (b :: w) = (a - b) * (a - b) + distSqList v w := by
          unfold distSqList; rw [List.zipWith_cons_cons, List.sum_cons]
        rw [e, List.cons.injEq, ← ih w hl]
        have h1 := mul_self_nonneg (a - b)
        have h2 := nonneg v w
        constructor
        · intro h
          have : (a - b) * (a - b) = 0 := by linarith
          exact ⟨sub_eq_zero.1 (mul_self_eq_zero.1 this), by linarith⟩
        · rintro ⟨rfl, h⟩
          rw [h]; ring

end Interp
end Rbprm
