import Verif.Props.Goal
import Verif.Props.Discretise
import Verif.Model.Motion
set_option linter.unusedSectionVars false
/-!
# Property C187: the time in the path that contact generation and the heuristics are told

`ComputeContacts` documents `comPath(currentPathId) == configuration` (for the root): the fixed step heuristics place the foot with respect to the root at `currentPathId + t_step`.
-/
namespace Rbprm
namespace Interp
open Motion Heur
variable {N K : Type _} [DecidableEq N] [LinearOrder N] [CommRing K] [LinearOrder K]

/-- the calls of contact generation that the loop makes from `w` on: which configuration (its index), at which time -/
def callsOf (sv : Solvers N K) (compute : Compute N K) (configs : List (List K)) (timeStep : K) : ℕ → Loop N K → List (ℕ × K)
  | 0, _ => []
  | fuel + 1, w =>
    if w.cit = configs.length then []
    else (w.cit, w.currentVal) ::
      match iterate sv compute configs timeStep w with
      | .abort _ => []
      | .next w' => callsOf sv compute configs timeStep fuel w'

theorem callsOf_inv [IsStrictOrderedRing K] (sv : Solvers N K) (compute : Compute N K) (configs : List (List K)) (ts init : K) (hts : 0 ≤ ts) (start : State N K) (Good : State N K → Prop)
    (hG : ∀ s c v, Good s → Good (newStateOf (compute s c v)))
    (hh : ∀ s c v, Good s → (compute s c v).success = false ∨ (compute s c v).multipleBreaks = true → (compute s c v).repositionedInPlace = true)
    (fuel : ℕ) (w : Loop N K) (hw : LoopInv sv compute configs ts init start Good w) :
    ∀ c ∈ callsOf sv compute configs ts fuel w, 1 ≤ c.1 ∧ c.1 < configs.length ∧ (c.2 = init + c.1 * ts ∨ c.2 = init + c.1 * ts - ts) := by
  induction fuel generalizing w with
  | zero => simp [callsOf]
  | succ fuel ih =>
    intro c hc
    simp only [callsOf] at hc
    split_ifs at hc with he
    · simp at hc
    · rcases List.mem_cons.1 hc with rfl | hc
      · refine ⟨hw.one, lt_of_le_of_ne hw.le he, ?_⟩
        obtain ⟨o, ho, hv, _⟩ := hw.offset
        have h1 := hw.one
        rcases Nat.le_one_iff_eq_zero_or_eq_one.1 ho with rfl | rfl
        · right
          simp only
          rw [hv, Nat.add_zero, Nat.cast_sub h1]
          push_cast
          ring
        · left
          simp only
          rw [hv, Nat.add_sub_cancel]
      · cases hi : iterate sv compute configs ts w with
        | abort w1 => rw [hi] at hc; simp at hc
        | next w1 =>
          rw [hi] at hc
          exact ih w1 (loopInv_step sv compute configs ts init hts start Good hG hh w w1 hw he hi) c hc

/-- **C187 (calls)** (partial: the time of the configuration, or one step before it).  Whatever contact generation answers, as long as failures are repositionings, each call is for a sample of the path after the first, at the time of this sample or one step earlier. -/
theorem C187_calls_partial [IsStrictOrderedRing K] (sv : Solvers N K) (compute : Compute N K) (configs : List (List K)) (ts init : K) (hts : 0 ≤ ts) (hne : configs ≠ []) (start : State N K) (Good : State N K → Prop)
    (h0 : Good start) (hG : ∀ s c v, Good s → Good (newStateOf (compute s c v)))
    (hh : ∀ s c v, Good s → (compute s c v).success = false ∨ (compute s c v).multipleBreaks = true → (compute s c v).repositionedInPlace = true) (fuel : ℕ) :
    ∀ c ∈ callsOf sv compute configs ts fuel (Loop.start start init), 1 ≤ c.1 ∧ c.1 < configs.length ∧ (c.2 = init + c.1 * ts ∨ c.2 = init + c.1 * ts - ts) :=
  callsOf_inv sv compute configs ts init hts start Good hG hh fuel _ (loopInv_start sv compute configs ts init start Good h0 hne)

theorem callsOf_success (sv : Solvers N K) (compute : Compute N K) (configs : List (List K)) (ts : K)
    (hs : ∀ s c v, (compute s c v).success = true ∧ (compute s c v).multipleBreaks = false ∧ (compute s c v).repositionedInPlace = false) (n fuel : ℕ) (hf : n < fuel) (w : Loop N K)
    (hw : w.cit + n = configs.length) : callsOf sv compute configs ts fuel w = (List.range n).map fun k => (w.cit + k, w.currentVal + k * ts) := by
  induction n generalizing fuel w with
  | zero =>
    obtain ⟨f, rfl⟩ : ∃ f, fuel = f + 1 := ⟨fuel - 1, by omega⟩
    simp only [callsOf]
    rw [if_pos (by omega)]
    rfl
  | succ n ih =>
    obtain ⟨f, rfl⟩ : ∃ f, fuel = f + 1 := ⟨fuel - 1, by omega⟩
    simp only [callsOf]
    rw [if_neg (by omega)]
    obtain ⟨h1, h2, h3⟩ := hs w.front.2 (loadPrevious sv.extraDim w.lastConfig (configs.getD w.cit [])) w.currentVal
    have hi : ∃ w', iterate sv compute configs ts w = .next w' ∧ w'.cit = w.cit + 1 ∧ w'.currentVal = w.currentVal + ts := by
      unfold iterate
      simp only [reportOf, h1, h2, h3, afterFailure, afterBreaks, afterReposition, Bool.not_true, Bool.or_self, Bool.and_false, Bool.false_and, if_false, Bool.false_eq_true, Bool.not_false,
        Bool.and_true, Bool.or_false]
      refine ⟨_, rfl, ?_, ?_⟩ <;> (unfold afterPush; dsimp only; split_ifs <;> rfl)
    obtain ⟨w', hi, e1, e2⟩ := hi
    rw [hi]
    simp only
    rw [ih f (by omega) w' (by omega), List.range_succ_eq_map, List.map_cons, List.map_map]
    congr 1
    · simp
    · refine List.map_congr_left fun k _ => ?_
      simp only [Function.comp, e1, e2]
      refine Prod.ext (by simp; omega) ?_
      simp only
      push_cast
      ring

/-- **C187 (skip)**.  A first failure which is no repositioning skips the sample after the failed one, and the time is advanced by as many steps as the sample: the shift of the times does not change. -/
theorem C187_skip (sv : Solvers N K) (compute : Compute N K) (configs : List (List K)) (ts : K) (w : Loop N K) (ha : w.allowFailure = true) (hn : w.nbFailures = 0) (hl : w.cit + 1 < configs.length)
    (hf : (reportOf sv compute configs w).success = false ∨ (reportOf sv compute configs w).multipleBreaks = true) (hr : (reportOf sv compute configs w).repositionedInPlace = false) :
    ∃ w', iterate sv compute configs ts w = .next w' ∧ w'.cit = w.cit + 2 ∧ w'.currentVal = w.currentVal + 2 * ts := by
  have hfail : (w.allowFailure && (!(reportOf sv compute configs w).success || (reportOf sv compute configs w).multipleBreaks)) = true := by
    rcases hf with h | h <;> simp [ha, h]
  refine ⟨_, by
    unfold iterate
    simp only [hfail, hr, Bool.true_and, Bool.false_and]
    rw [if_neg (by simp [afterFailure, hfail, hn])]
    rw [if_neg (by simp)], ?_, ?_⟩
  · unfold afterPush afterReposition afterBreaks afterFailure
    rw [if_pos hfail]
    simp only [hr, ha]
    have : w.cit + 1 ≠ configs.length := by omega
    split_ifs <;> simp_all
  · unfold afterPush afterReposition afterBreaks afterFailure
    rw [if_pos hfail]
    simp only [hr, ha]
    split_ifs <;> simp_all <;> ring

/-- **C187 is violated**, in each interpolation in which contact generation always succeeds: there is one call for each sample after the first, and it gets the time of the sample before. -/
theorem C187_violated (sv : Solvers N K) (compute : Compute N K) (configs : List (List K)) (ts init : K) (hne : configs ≠ []) (start : State N K)
    (hs : ∀ s c v, (compute s c v).success = true ∧ (compute s c v).multipleBreaks = false ∧ (compute s c v).repositionedInPlace = false) (fuel : ℕ) (hf : configs.length ≤ fuel) :
    callsOf sv compute configs ts fuel (Loop.start start init) = (List.range (configs.length - 1)).map fun k : ℕ => (k + 1, init + (k : K) * ts) := by
  have hl := List.length_pos_iff.2 hne
  rw [callsOf_success sv compute configs ts hs (configs.length - 1) fuel (by omega) _ (by show 1 + _ = _; omega)]
  refine List.map_congr_left fun k _ => ?_
  simp [Loop.start, Nat.add_comm]

/-- **C187 is violated** on paths: if contact generation always succeeds, then for each sample inside the path there is a call with the configuration of the path at `first + (k + 1) timeStep` and the time `first + k timeStep`, and no other call for it. -/
theorem C187_path_violated [IsStrictOrderedRing K] (sv : Solvers N K) (compute : Compute N K) (e o : ℕ) (path : K → List K) (start : State N K) (first second ts : K) (he : e ≤ o) (ho : o ≤ start.configuration.length)
    (hv : ∀ t, (path t).length = o) (fuel' : ℕ) (configs : List (List K)) (h : discretise e o path start.configuration first second ts fuel' = some configs)
    (hs : ∀ s c v, (compute s c v).success = true ∧ (compute s c v).multipleBreaks = false ∧ (compute s c v).repositionedInPlace = false) (fuel : ℕ) (hf : configs.length ≤ fuel) (k : ℕ)
    (hk : k + 2 < configs.length) :
    (∃ c, configs[k + 1]? = some c ∧ SampledAt e o path start.configuration (first + (k + 1) * ts) c) ∧
    ∀ v, (k + 1, v) ∈ callsOf sv compute configs ts fuel (Loop.start start first) ↔ v = first + k * ts := by
  obtain ⟨m, hm, _, h1, _⟩ := C23_discretise e o path start.configuration first second ts fuel' he ho hv configs h
  have hne : configs ≠ [] := by rintro rfl; simp at hm
  refine ⟨(h1 k (by omega)).2, fun v => ?_⟩
  rw [C187_violated sv compute configs ts first hne start hs fuel hf]
  simp only [List.mem_map, List.mem_range, Prod.mk.injEq]
  constructor
  · rintro ⟨k', _, e1, e2⟩
    have : k' = k := by omega
    rw [← e2, this]
  · rintro rfl
    exact ⟨k, by omega, rfl, rfl⟩

/-- the foothold that a fixed step heuristic aims at, as seen from the root at the time it is told: the target of C187_target -/
noncomputable def aimedAt (path : ℝ → Tf) (time tStep : ℝ) (offset : Vec3 ℝ) : Vec3 ℝ := (path (time + tStep)).apply offset

/-- **C187 (target)**.  A fixed step heuristic prefers, of two samples of the same static value, the one whose effector is closer to the foothold aimed at. -/
theorem C187_target (tStep : ℝ) (s s' : Sample) (params : Params N) (path : ℝ → Tf) (hp : params.comPath = some path) (hs : s.staticValue = s'.staticValue) :
    fixedStep tStep s params ≤ fixedStep tStep s' params ↔
      (params.tfWorldRoot.apply s'.effectorPosition - aimedAt path params.currentPathId tStep params.limbReferenceOffset).normSq ≤
      (params.tfWorldRoot.apply s.effectorPosition - aimedAt path params.currentPathId tStep params.limbReferenceOffset).normSq := by
  unfold fixedStep aimedAt
  rw [hp]
  simp only [hs]
  constructor <;> intro h <;> linarith

/-- **C187 is violated** for the target: on a path whose root moves at constant velocity without turning, the foothold that the heuristic aims at for a sample of the path is short by the way of one time step. -/
theorem C187_target_violated (v p₀ : Vec3 ℝ) (t ts tStep : ℝ) (offset : Vec3 ℝ) (rot : Mat3 ℝ) :
    aimedAt (fun u => ⟨rot, p₀ + Vec3.smul u v⟩) (t - ts) tStep offset = aimedAt (fun u => ⟨rot, p₀ + Vec3.smul u v⟩) t tStep offset - Vec3.smul ts v := by
  unfold aimedAt Tf.apply
  ext <;> simp [Vec3.smul] <;> ring

/-- three samples, contact generation that succeeds each time: calls at 0 and 1 for the samples at 1 and 2 -/
example : callsOf demoSv (fun s _ _ => ⟨⟨true, s, .stable⟩, true, false, false, false⟩) [[0], [1], [2]] 1 5 (Loop.start State.demo 0) = [(1, 0), (2, 1)] := by
  decide

/-- four samples, contact generation that fails at time 0 without repositioning: the second sample is skipped, and the third gets the time of the second -/
example : callsOf demoSv (fun s _ v => ⟨⟨decide (v ≠ 0), s, .stable⟩, true, false, false, false⟩) [[0], [1], [2], [3]] 1 5 (Loop.start State.demo 0) = [(1, 0), (3, 2)] := by
  decide

end Interp
end Rbprm
