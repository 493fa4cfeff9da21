import Verif.Model.Analysis
import Mathlib.Analysis.Matrix.PosDef
import Mathlib.LinearAlgebra.Matrix.ToLinearEquiv
import Mathlib.Algebra.Order.Star.Real
import Mathlib.Tactic.Linarith
import Mathlib.Tactic.FieldSimp
import Mathlib.Tactic.Positivity
import Mathlib.Tactic.SplitIfs
import Mathlib.Tactic.NormNum
set_option linter.unusedSectionVars false
/-!
# What the analyses measure (C64, C99–C104)
-/
namespace Rbprm
namespace Analysis
open Matrix

/-! ### extremes of a list -/

theorem foldl_min (l : List ℝ) (m : ℝ) :
    (∀ x ∈ l, l.foldl (fun m v => if v < m then v else m) m ≤ x) ∧ l.foldl (fun m v => if v < m then v else m) m ≤ m ∧
      (l.foldl (fun m v => if v < m then v else m) m = m ∨ l.foldl (fun m v => if v < m then v else m) m ∈ l) := by
  induction l generalizing m with
  | nil => simp
  | cons a l ih =>
    obtain ⟨h1, h2, h3⟩ := ih (if a < m then a else m)
    simp only [List.foldl_cons]
    have ha : (if a < m then a else m) ≤ a := by split_ifs with h; exacts [le_rfl, not_lt.1 h]
    have hm : (if a < m then a else m) ≤ m := by split_ifs with h; exacts [h.le, le_rfl]
    refine ⟨fun x hx => ?_, h2.trans hm, ?_⟩
    · rcases List.mem_cons.1 hx with rfl | hx
      · exact h2.trans ha
      · exact h1 x hx
    · rcases h3 with h3 | h3
      · by_cases h : a < m
        · right; rw [h3, if_pos h]; simp
        · left; rw [h3, if_neg h]
      · right; exact List.mem_cons_of_mem _ h3

theorem foldl_max (l : List ℝ) (m : ℝ) :
    (∀ x ∈ l, x ≤ l.foldl (fun m v => if v > m then v else m) m) ∧ m ≤ l.foldl (fun m v => if v > m then v else m) m ∧
      (l.foldl (fun m v => if v > m then v else m) m = m ∨ l.foldl (fun m v => if v > m then v else m) m ∈ l) := by
  induction l generalizing m with
  | nil => simp
  | cons a l ih =>
    obtain ⟨h1, h2, h3⟩ := ih (if a > m then a else m)
    simp only [List.foldl_cons]
    have ha : a ≤ (if a > m then a else m) := by split_ifs with h; exacts [le_rfl, not_lt.1 h]
    have hm : m ≤ (if a > m then a else m) := by split_ifs with h; exacts [le_of_lt h, le_rfl]
    refine ⟨fun x hx => ?_, hm.trans h2, ?_⟩
    · rcases List.mem_cons.1 hx with rfl | hx
      · exact ha.trans h2
      · exact h1 x hx
    · rcases h3 with h3 | h3
      · by_cases h : a > m
        · right; rw [h3, if_pos h]; simp
        · left; rw [h3, if_neg h]
      · right; exact List.mem_cons_of_mem _ h3

theorem extremes_eq (big : ℝ) (S : List ℝ) :
    extremes big S = (S.foldl (fun m v => if v < m then v else m) big, S.foldl (fun m v => if v > m then v else m) 0) := by
  unfold extremes
  generalize big = a, (0 : ℝ) = b
  induction S generalizing a b with
  | nil => rfl
  | cons v S ih => simp only [List.foldl_cons]; exact ih _ _

/-- C99: for a non-empty list of singular values below the largest representable number the analyses return its least and its greatest element. -/
theorem C99_extremes (big : ℝ) (S : List ℝ) (h0 : S ≠ []) (hb : ∀ x ∈ S, 0 ≤ x ∧ x < big) :
    (minSing big S ∈ S ∧ ∀ x ∈ S, minSing big S ≤ x) ∧ (maxSing big S ∈ S ∧ ∀ x ∈ S, x ≤ maxSing big S) := by
  obtain ⟨a1, a2, a3⟩ := foldl_min S big
  obtain ⟨b1, b2, b3⟩ := foldl_max S (-big)
  obtain ⟨x, hx⟩ := List.exists_mem_of_ne_nil S h0
  refine ⟨⟨a3.resolve_left fun h => ?_, a1⟩, ⟨b3.resolve_left fun h => ?_, b1⟩⟩
  · have := a1 x hx; rw [h] at this; exact absurd (hb x hx).2 (not_lt.2 this)
  · have := b1 x hx; rw [h] at this
    have h2 := hb x hx
    linarith

/-- C99: which rows of the jacobian the singular values are those of -/
theorem C99_rows (sv : {r n : ℕ} → Matrix (Fin r) (Fin n) ℝ → List ℝ) {n : ℕ} (J : Jac n) :
    singularValues sv J .all = sv J ∧
    singularValues sv J .translation = sv (Matrix.of ![J 0, J 1, J 2]) ∧
    singularValues sv J .rotation = sv (Matrix.of ![J 3, J 4, J 5]) := by
  refine ⟨rfl, ?_, ?_⟩
  · have : topRows J = Matrix.of ![J 0, J 1, J 2] := by
      ext i j; fin_cases i <;> rfl
    simp only [singularValues, subJacobian, this]
  · have : bottomRows J = Matrix.of ![J 3, J 4, J 5] := by
      ext i j; fin_cases i <;> rfl
    simp only [singularValues, subJacobian, this]

example : minSing 1000 [3, 1, 2] = 1 ∧ maxSing 1000 [3, 1, 2] = 3 := by
  constructor <;> norm_num [minSing, maxSing]

/-- C64 (part): if the singular values are not negative and the least one is at most 1, the isotropy is a number of the unit interval. -/
theorem C64_partial (big : ℝ) (hbig : 0 ≤ big) (S : List ℝ) (hS : ∀ x ∈ S, 0 ≤ x) (h1 : ∃ x ∈ S, x ≤ 1) :
    ∃ v, isotropy big S = some v ∧ 0 ≤ v ∧ v ≤ 1 := by
  unfold isotropy
  rw [extremes_eq]
  obtain ⟨a1, a2, a3⟩ := foldl_min S big
  obtain ⟨x, hx, hx1⟩ := h1
  have hm1 : S.foldl (fun m v => if v < m then v else m) big ≤ 1 := (a1 x hx).trans hx1
  have hm0 : 0 ≤ S.foldl (fun m v => if v < m then v else m) big := by
    rcases a3 with h | h
    · rw [h]; exact hbig
    · exact hS _ h
  generalize S.foldl (fun m v => if v < m then v else m) big = lo at *
  generalize S.foldl (fun m v => if v > m then v else m) 0 = hi
  dsimp only
  by_cases hh : hi > 0
  · rw [if_pos hh]
    have e : lo * lo / hi * hi = lo * lo := by field_simp
    rw [e]
    have h2 : lo * lo ≤ 1 := by nlinarith
    rw [if_neg (by linarith)]
    refine ⟨_, rfl, ?_, ?_⟩
    · have : Real.sqrt (1 - lo * lo) ≤ 1 := by
        rw [Real.sqrt_le_left (by norm_num)]; nlinarith
      linarith
    · have := Real.sqrt_nonneg (1 - lo * lo); linarith
  · rw [if_neg hh]; exact ⟨0, rfl, le_rfl, by norm_num⟩

example : (∀ x ∈ [(1/2 : ℝ), 3], 0 ≤ x) ∧ ∃ x ∈ [(1/2 : ℝ), 3], x ≤ 1 := by
  refine ⟨by simp, 1/2, by simp, by norm_num⟩

/-- **C64 is violated**: if all singular values are greater than 1 the isotropy is not a number, because `min * min / max * max` is `min²` and not `(min/max)²`. -/
theorem C64_violated : isotropy 1000 [2, 2] = none := by
  unfold isotropy; rw [extremes_eq]; norm_num

/-- **C64 is violated**: two jacobians that differ by a factor, with equal singular values (perfectly isotropic), do not have the same isotropy: it is 1 for the values 1, 1 and less than 1 for the values 1/2, 1/2. -/
theorem C64_scale_violated : isotropy 1000 [1, 1] = some 1 ∧ ∃ v, isotropy 1000 [1/2, 1/2] = some v ∧ v < 1 := by
  constructor
  · unfold isotropy; rw [extremes_eq]; norm_num
  · unfold isotropy; rw [extremes_eq]; norm_num

/-! ### C100: manipulability -/

/-- the directions of motion of the effector that a mode looks at, as six coordinates -/
def Relevant (m : JMode) (v : Fin 6 → ℝ) : Prop :=
  match m with
  | .all => True
  | .translation => v 3 = 0 ∧ v 4 = 0 ∧ v 5 = 0
  | .rotation => v 0 = 0 ∧ v 1 = 0 ∧ v 2 = 0

/-- no velocity of the joints moves the effector along `v` -/
def Blocked {n : ℕ} (J : Jac n) (v : Fin 6 → ℝ) : Prop := ∀ j, v 0 * J 0 j + v 1 * J 1 j + v 2 * J 2 j + v 3 * J 3 j + v 4 * J 4 j + v 5 * J 5 j = 0

theorem gram_det {r n : ℕ} (A : Matrix (Fin r) (Fin n) ℝ) : 0 ≤ (A * A.transpose).det := by
  have := (posSemidef_self_mul_conjTranspose A).det_nonneg
  rwa [conjTranspose_eq_transpose_of_trivial] at this

theorem gram_zero {r n : ℕ} (A : Matrix (Fin r) (Fin n) ℝ) : (A * A.transpose).det = 0 ↔ ∃ v, v ≠ 0 ∧ v ᵥ* A = 0 := by
  rw [← exists_vecMul_eq_zero_iff]
  refine exists_congr fun v => and_congr_right fun _ => ?_
  have := vecMul_self_mul_conjTranspose_eq_zero A v
  rwa [conjTranspose_eq_transpose_of_trivial] at this

theorem det_manip (d : ℝ) (h : 0 ≤ d) : (if d > 0 then Real.sqrt d else 0) = Real.sqrt d := by
  split_ifs with h1
  · rfl
  · have : d = 0 := le_antisymm (not_lt.1 h1) h
    rw [this, Real.sqrt_zero]

theorem topRows_apply {n : ℕ} (J : Jac n) (j : Fin n) : topRows J 0 j = J 0 j ∧ topRows J 1 j = J 1 j ∧ topRows J 2 j = J 2 j := ⟨rfl, rfl, rfl⟩
theorem bottomRows_apply {n : ℕ} (J : Jac n) (j : Fin n) : bottomRows J 0 j = J 3 j ∧ bottomRows J 1 j = J 4 j ∧ bottomRows J 2 j = J 5 j := ⟨rfl, rfl, rfl⟩

theorem ne_zero_iff_exists (k : ℕ) (v : Fin k → ℝ) : v ≠ 0 ↔ ∃ i, v i ≠ 0 := by
  rw [Ne, funext_iff, not_forall]; rfl

/-- C100: the manipulability is never negative, its square is the determinant of the product of the (sub-)jacobian with its transpose, and it is 0 exactly if some direction of the mode is blocked. -/
theorem C100_manipulability {n : ℕ} (J : Jac n) (m : JMode) :
    0 ≤ manipulability J (J * J.transpose) m ∧
    manipulability J (J * J.transpose) m ^ 2 = ((subJacobian J m).2 * (subJacobian J m).2.transpose).det ∧
    (manipulability J (J * J.transpose) m = 0 ↔ ∃ v, Relevant m v ∧ v ≠ 0 ∧ Blocked J v) := by
  have key : manipulability J (J * J.transpose) m = Real.sqrt ((subJacobian J m).2 * (subJacobian J m).2.transpose).det := by
    cases m <;> exact det_manip _ (gram_det _)
  rw [key]
  refine ⟨Real.sqrt_nonneg _, Real.sq_sqrt (gram_det _), ?_⟩
  rw [Real.sqrt_eq_zero (gram_det _), gram_zero]
  cases m with
  | all =>
    change (∃ v : Fin 6 → ℝ, v ≠ 0 ∧ v ᵥ* J = 0) ↔ _
    refine exists_congr fun v => ?_
    simp only [Relevant, true_and]
    refine and_congr_right fun _ => ?_
    simp only [funext_iff, vecMul, dotProduct, Fin.sum_univ_six, Pi.zero_apply, Blocked]
  | translation =>
    change (∃ v : Fin 3 → ℝ, v ≠ 0 ∧ v ᵥ* topRows J = 0) ↔ _
    constructor
    · rintro ⟨v, hv, h⟩
      refine ⟨![v 0, v 1, v 2, 0, 0, 0], by simp [Relevant], ?_, fun j => ?_⟩
      · obtain ⟨i, hi⟩ := (ne_zero_iff_exists _ _).1 hv
        refine (ne_zero_iff_exists _ _).2 ?_
        fin_cases i
        · exact ⟨0, hi⟩
        · exact ⟨1, hi⟩
        · exact ⟨2, hi⟩
      · have := congrFun h j
        simp only [vecMul, dotProduct, Fin.sum_univ_three, Pi.zero_apply] at this
        simpa [topRows_apply] using this
    · rintro ⟨v, ⟨h3, h4, h5⟩, hv, h⟩
      refine ⟨![v 0, v 1, v 2], ?_, ?_⟩
      · obtain ⟨i, hi⟩ := (ne_zero_iff_exists _ _).1 hv
        refine (ne_zero_iff_exists _ _).2 ?_
        fin_cases i
        · exact ⟨(0 : Fin 3), hi⟩
        · exact ⟨(1 : Fin 3), hi⟩
        · exact ⟨(2 : Fin 3), hi⟩
        · exact absurd h3 hi
        · exact absurd h4 hi
        · exact absurd h5 hi
      · funext j
        have := h j
        rw [h3, h4, h5] at this
        simp only [vecMul, dotProduct, Fin.sum_univ_three, Pi.zero_apply]
        simpa [topRows_apply] using this
  | rotation =>
    change (∃ v : Fin 3 → ℝ, v ≠ 0 ∧ v ᵥ* bottomRows J = 0) ↔ _
    constructor
    · rintro ⟨v, hv, h⟩
      refine ⟨![0, 0, 0, v 0, v 1, v 2], by simp [Relevant], ?_, fun j => ?_⟩
      · obtain ⟨i, hi⟩ := (ne_zero_iff_exists _ _).1 hv
        refine (ne_zero_iff_exists _ _).2 ?_
        fin_cases i
        · exact ⟨3, hi⟩
        · exact ⟨4, hi⟩
        · exact ⟨5, hi⟩
      · have := congrFun h j
        simp only [vecMul, dotProduct, Fin.sum_univ_three, Pi.zero_apply] at this
        simpa [bottomRows_apply] using this
    · rintro ⟨v, ⟨h3, h4, h5⟩, hv, h⟩
      refine ⟨![v 3, v 4, v 5], ?_, ?_⟩
      · obtain ⟨i, hi⟩ := (ne_zero_iff_exists _ _).1 hv
        refine (ne_zero_iff_exists _ _).2 ?_
        fin_cases i
        · exact absurd h3 hi
        · exact absurd h4 hi
        · exact absurd h5 hi
        · exact ⟨(0 : Fin 3), hi⟩
        · exact ⟨(1 : Fin 3), hi⟩
        · exact ⟨(2 : Fin 3), hi⟩
      · funext j
        have := h j
        rw [h3, h4, h5] at this
        simp only [vecMul, dotProduct, Fin.sum_univ_three, Pi.zero_apply]
        simpa [bottomRows_apply] using this

/-- non-vacuity: a limb with one joint cannot move its effector in every direction -/
example : ∃ v, Relevant .translation v ∧ v ≠ 0 ∧ Blocked (fun i _ => if i = 0 then 1 else 0 : Jac 1) v :=
  ⟨![0, 1, 0, 0, 0, 0], by simp [Relevant], (ne_zero_iff_exists _ _).2 ⟨1, by simp⟩, fun j => by simp⟩

/-! ### C101: probability of a collision -/

theorem count_foldl {C : Type _} (valid : C → Bool) (load : C → C) (db : List C) (n : ℕ) (c0 : C) :
    (db.foldl (fun (st : ℕ × C) c => let conf := load c; (if valid conf then st.1 + 1 else st.1, conf)) (n, c0)).1 = n + (db.filter fun c => valid (load c)).length := by
  induction db generalizing n c0 with
  | nil => simp
  | cons c db ih =>
    simp only [List.foldl_cons]
    rw [ih]
    by_cases h : valid (load c) = true
    · rw [if_pos h, List.filter_cons, if_pos h, List.length_cons]; omega
    · rw [if_neg h, List.filter_cons, if_neg h]

/-- C101: the value is the fraction of the configurations of the data base that are valid with the limb in the configuration of the sample; it lies in the unit interval, is 1 iff there is no collision at all, and the configuration of the device is restored. -/
theorem C101_probability {C : Type _} (valid : C → Bool) (load : C → C) (db : List C) (current : C) (h : db ≠ []) :
    ∃ p, selfCollisionProbability valid load db current = (some p, current) ∧
      p * db.length = (db.filter fun c => valid (load c)).length ∧ 0 ≤ p ∧ p ≤ 1 ∧ (p = 1 ↔ ∀ c ∈ db, valid (load c) = true) := by
  have hl : 0 < db.length := List.length_pos_of_ne_nil h
  have hq : (0 : ℚ) < db.length := by exact_mod_cast hl
  refine ⟨((db.filter fun c => valid (load c)).length : ℚ) / db.length, ?_, ?_, ?_, ?_, ?_⟩
  · unfold selfCollisionProbability
    simp only [if_neg hl.ne', count_foldl, Nat.zero_add]
  · exact div_mul_cancel₀ _ hq.ne'
  · positivity
  · rw [div_le_one hq]; exact_mod_cast List.length_filter_le _ _
  · rw [div_eq_one_iff_eq hq.ne']
    rw [Nat.cast_inj, List.length_filter_eq_length_iff]

/-- C101: the data base never loses a configuration, has the required size afterwards, and every configuration that was added is valid for the device it was generated with. -/
theorem C101_db {C : Type _} (valid : C → Bool) (shots db : List C) (nb : ℕ) {r : List C} (h : instanceDB valid shots db nb = some r) :
    ∃ added, r = db ++ added ∧ (∀ c ∈ added, valid c = true) ∧ nb ≤ r.length ∧ (db.length < nb → r.length = nb) := by
  have key : ∀ (shots db : List C) (i : ℕ) (r : List C), generateDB valid shots db i = some r →
      ∃ added, r = db ++ added ∧ (∀ c ∈ added, valid c = true) ∧ added.length = i := by
    intro shots
    induction shots with
    | nil =>
      intro db i r h
      cases i with
      | zero => simp only [generateDB, Option.some.injEq] at h; exact ⟨[], by simp [h], by simp, rfl⟩
      | succ i => simp [generateDB] at h
    | cons c shots ih =>
      intro db i r h
      cases i with
      | zero => simp only [generateDB, Option.some.injEq] at h; exact ⟨[], by simp [h], by simp, rfl⟩
      | succ i =>
        simp only [generateDB] at h
        by_cases hc : valid c = true
        · rw [if_pos hc] at h
          obtain ⟨added, h1, h2, h3⟩ := ih _ _ _ h
          refine ⟨c :: added, by rw [h1]; simp, ?_, by simp [h3]⟩
          intro x hx
          rcases List.mem_cons.1 hx with rfl | hx
          · exact hc
          · exact h2 x hx
        · rw [if_neg hc] at h
          exact ih _ _ _ h
  unfold instanceDB at h
  by_cases hlt : db.length < nb
  · rw [if_pos hlt] at h
    obtain ⟨added, h1, h2, h3⟩ := key _ _ _ _ h
    have : r.length = nb := by rw [h1, List.length_append, h3]; omega
    exact ⟨added, h1, h2, this.ge, fun _ => this⟩
  · rw [if_neg hlt] at h
    cases h
    exact ⟨[], by simp, by simp, not_lt.1 hlt, fun h => absurd h hlt⟩

example : instanceDB (fun n : ℕ => n % 2 == 0) [1, 2, 3, 4, 5] [] 2 = some [2, 4] := by decide

/-- **C101 is violated** for a second robot: the data base is shared by the whole process, so that once it is full no configuration of the second device is drawn, and the configurations of the first device (here not even valid for the second one) are used. -/
theorem C101_violated {C : Type _} (valid1 valid2 : C → Bool) (shots1 shots2 : List C) (nb : ℕ) {r : List C} (h : instanceDB valid1 shots1 [] nb = some r) :
    instanceDB valid2 shots2 r nb = some r := by
  obtain ⟨_, _, _, h3, _⟩ := C101_db valid1 shots1 [] nb h
  unfold instanceDB
  rw [if_neg (not_lt.2 h3)]

example : instanceDB (fun _ : ℕ => false) [7, 8] [2, 4] 2 = some [2, 4] := by decide

/-! ### C102: distance to the joint limits -/

/-- the joints that are looked at: up to the first one with the given name, or the whole chain -/
def upTo (last : String) : List Joint → List Joint
  | [] => []
  | j :: rest => if last = j.name then [j] else j :: upTo last rest

/-- how far a joint is from its limits: 0 on a limit, 1/4 in the middle, negative outside -/
noncomputable def margin (conf : ℕ → ℝ) (j : Joint) : ℝ := (conf j.rank - j.lb) * (j.ub - conf j.rank) / (j.ub - j.lb) ^ 2

/-- the bounded joints -/
def Bounded (j : Joint) : Prop := j.configSize > 0 ∧ j.bounded = true

theorem distanceRec_spec (conf : ℕ → ℝ) (last : String) (chain : List Joint) (d : ℝ) :
    (∀ j ∈ upTo last chain, Bounded j → distanceRec conf last chain d ≤ margin conf j) ∧ distanceRec conf last chain d ≤ d ∧
    (distanceRec conf last chain d = d ∨ ∃ j ∈ upTo last chain, Bounded j ∧ distanceRec conf last chain d = margin conf j) := by
  induction chain generalizing d with
  | nil => simp [distanceRec, upTo]
  | cons j rest ih =>
    have hterm : jointTerm conf j d ≤ d ∧ (Bounded j → jointTerm conf j d ≤ margin conf j) ∧ (jointTerm conf j d = d ∨ Bounded j ∧ jointTerm conf j d = margin conf j) := by
      have e : (conf j.rank - j.lb) * (j.ub - conf j.rank) / ((j.ub - j.lb) * (j.ub - j.lb)) = margin conf j := by unfold margin; rw [pow_two]
      unfold jointTerm
      rw [e]
      by_cases hb : j.configSize > 0 ∧ j.bounded = true
      · rw [if_pos hb]
        refine ⟨min_le_left _ _, fun _ => min_le_right _ _, ?_⟩
        rcases min_choice d (margin conf j) with h | h
        · exact Or.inl h
        · exact Or.inr ⟨hb, h⟩
      · rw [if_neg hb]
        exact ⟨le_rfl, fun h => absurd h hb, Or.inl rfl⟩
    obtain ⟨t1, t2, t3⟩ := hterm
    simp only [distanceRec, upTo]
    by_cases hn : last = j.name
    · rw [if_pos (Or.inl hn), if_pos hn]
      refine ⟨fun k hk hb => ?_, t1, ?_⟩
      · simp only [List.mem_singleton] at hk; subst hk; exact t2 hb
      · rcases t3 with h | h
        · exact Or.inl h
        · exact Or.inr ⟨j, by simp, h.1, h.2⟩
    · by_cases hr : rest = []
      · rw [if_pos (Or.inr hr), if_neg hn, hr]
        refine ⟨fun k hk hb => ?_, t1, ?_⟩
        · simp only [upTo, List.mem_singleton] at hk; subst hk; exact t2 hb
        · rcases t3 with h | h
          · exact Or.inl h
          · exact Or.inr ⟨j, by simp, h.1, h.2⟩
      · rw [if_neg (by tauto : ¬ (last = j.name ∨ rest = [])), if_neg hn]
        obtain ⟨i1, i2, i3⟩ := ih (jointTerm conf j d)
        refine ⟨fun k hk hb => ?_, i2.trans t1, ?_⟩
        · rcases List.mem_cons.1 hk with rfl | hk
          · exact i2.trans (t2 hb)
          · exact i1 k hk hb
        · rcases i3 with h | ⟨k, hk, hb, h⟩
          · rcases t3 with h' | ⟨hb, h'⟩
            · exact Or.inl (h.trans h')
            · exact Or.inr ⟨j, by simp, hb, h.trans h'⟩
          · exact Or.inr ⟨k, by simp [hk], hb, h⟩

theorem margin_le (conf : ℕ → ℝ) (j : Joint) (h : j.lb < j.ub) : margin conf j ≤ 1 / 4 := by
  unfold margin
  rw [div_le_iff₀ (pow_pos (sub_pos.2 h) 2)]
  nlinarith [sq_nonneg ((conf j.rank - j.lb) - (j.ub - conf j.rank))]

theorem margin_nonneg (conf : ℕ → ℝ) (j : Joint) (h : j.lb < j.ub) : 0 ≤ margin conf j ↔ j.lb ≤ conf j.rank ∧ conf j.rank ≤ j.ub := by
  unfold margin
  rw [div_nonneg_iff]
  have hp := pow_pos (sub_pos.2 h) 2
  constructor
  · rintro (⟨h1, _⟩ | ⟨_, h2⟩)
    · constructor <;> by_contra hc <;> nlinarith
    · linarith
  · rintro ⟨h1, h2⟩
    left
    exact ⟨mul_nonneg (by linarith) (by linarith), hp.le⟩

theorem score_lt {a b : ℝ} : 1 - Real.exp (-5 * a) < 1 - Real.exp (-5 * b) ↔ a < b := by
  constructor
  · intro h
    have : Real.exp (-5 * b) < Real.exp (-5 * a) := by linarith
    have := Real.exp_lt_exp.1 this
    linarith
  · intro h
    have : Real.exp (-5 * b) < Real.exp (-5 * a) := Real.exp_lt_exp.2 (by linarith)
    linarith

/-- C102 (part): the score of a chain is a number below 1 that only depends on the worst joint looked at: it is not negative iff all bounded joints are within their limits, it is 0 iff moreover one of them is on a limit, and a configuration has a greater score than another one iff its worst joint is further from its limits (if there is a bounded joint).  The joints looked at are those up to the first one with the name of the effector frame, or the whole chain if there is none. -/
theorem C102_partial (conf : ℕ → ℝ) (last : String) (chain : List Joint) (hb : ∀ j ∈ chain, Bounded j → j.lb < j.ub) (hex : ∃ j ∈ upTo last chain, Bounded j) :
    (∃ j ∈ upTo last chain, Bounded j ∧ (∀ k ∈ upTo last chain, Bounded k → margin conf j ≤ margin conf k) ∧
      distanceToLimits conf last chain = 1 - Real.exp (-5 * margin conf j)) ∧
    distanceToLimits conf last chain ≤ 1 - Real.exp (-5 / 4) ∧
    (0 ≤ distanceToLimits conf last chain ↔ ∀ j ∈ upTo last chain, Bounded j → j.lb ≤ conf j.rank ∧ conf j.rank ≤ j.ub) := by
  have hsub : ∀ (c : List Joint) j, j ∈ upTo last c → j ∈ c := by
    intro c
    induction c with
    | nil => intro j h; exact h
    | cons k c ih =>
      intro j h
      simp only [upTo] at h
      split_ifs at h
      · simp only [List.mem_singleton] at h; simp [h]
      · rcases List.mem_cons.1 h with h | h
        · simp [h]
        · exact List.mem_cons_of_mem _ (ih j h)
  obtain ⟨h1, h2, h3⟩ := distanceRec_spec conf last chain 1
  obtain ⟨j0, hj0, hb0⟩ := hex
  have hworst : ∃ j ∈ upTo last chain, Bounded j ∧ distanceRec conf last chain 1 = margin conf j := by
    rcases h3 with h | h
    · exfalso
      have := h1 j0 hj0 hb0
      have := margin_le conf j0 (hb j0 (hsub _ _ hj0) hb0)
      linarith
    · exact h
  obtain ⟨j, hj, hbj, he⟩ := hworst
  have hjlt := hb j (hsub _ _ hj) hbj
  refine ⟨⟨j, hj, hbj, fun k hk hbk => he ▸ h1 k hk hbk, by unfold distanceToLimits; rw [he]⟩, ?_, ?_⟩
  · unfold distanceToLimits
    rw [he]
    have := margin_le conf j hjlt
    have : Real.exp (-5 / 4) ≤ Real.exp (-5 * margin conf j) := Real.exp_le_exp.2 (by linarith)
    linarith
  · have e0 : (0 ≤ distanceToLimits conf last chain) ↔ 0 ≤ distanceRec conf last chain 1 := by
      have hz : (1 : ℝ) - Real.exp (-5 * 0) = 0 := by simp
      unfold distanceToLimits
      rw [← not_lt, ← not_lt, ← hz, score_lt]
      simp
    rw [e0]
    constructor
    · intro h k hk hbk
      exact (margin_nonneg conf k (hb k (hsub _ _ hk) hbk)).1 (h.trans (h1 k hk hbk))
    · intro h
      rw [he]
      exact (margin_nonneg conf j hjlt).2 (h j hj hbj)

/-- two joints, the effector frame is attached to the first one -/
def demoChain : List Joint := [⟨"wrist", 0, 1, true, 0, 2⟩, ⟨"finger", 1, 1, true, 0, 1⟩]

example : (∀ j ∈ demoChain, Bounded j → j.lb < j.ub) ∧ ∃ j ∈ upTo "wrist" demoChain, Bounded j := by
  refine ⟨?_, ⟨"wrist", 0, 1, true, 0, 2⟩, by simp [demoChain, upTo], by simp [Bounded]⟩
  intro j hj _
  simp only [demoChain, List.mem_cons, List.not_mem_nil, or_false] at hj
  rcases hj with rfl | rfl <;> norm_num

/-- **C102 is violated** if the effector frame does not have the name of its joint: the walk then does not stop at the effector, and a joint behind it (here a finger on its limit) decides although it does not belong to the limb, whose only joint is in the middle of its range. -/
theorem C102_violated : (∀ j ∈ demoChain, j.name ≠ "hand") ∧
    distanceToLimits (fun i => if i = 0 then 1 else 0) "hand" demoChain = 0 ∧ 0 < distanceToLimits (fun i => if i = 0 then 1 else 0) "wrist" demoChain := by
  refine ⟨by simp [demoChain], ?_, ?_⟩
  · have e : ("hand" = "wrist") = False := by decide
    norm_num [distanceToLimits, distanceRec, demoChain, jointTerm, e]
  · have : distanceRec (fun i => if i = 0 then 1 else 0) "wrist" demoChain 1 = 1 / 4 := by norm_num [distanceRec, demoChain, jointTerm]
    unfold distanceToLimits
    rw [this]
    have : Real.exp (-5 * (1 / 4)) < Real.exp 0 := Real.exp_lt_exp.2 (by norm_num)
    rw [Real.exp_zero] at this
    linarith

/-! ### C103: distance to the reference -/

theorem mem_range' (lo hi i : ℕ) : i ∈ List.range' lo (hi + 1 - lo) ↔ lo ≤ i ∧ i ≤ hi := by
  rw [List.mem_range'_1]; omega

theorem weightedSum_nonneg (diff w : ℕ → ℝ) (lo hi : ℕ) (hw : ∀ i, lo ≤ i → i ≤ hi → 0 ≤ w (i - lo)) : 0 ≤ weightedSum diff w lo hi := by
  unfold weightedSum
  refine List.sum_nonneg fun x hx => ?_
  obtain ⟨i, hi', rfl⟩ := List.mem_map.1 hx
  rw [mem_range'] at hi'
  exact mul_nonneg (mul_self_nonneg _) (hw i hi'.1 hi'.2)

/-- C103 (part): with positive weights for the degrees of freedom from the first to the last joint's first one, the score is at most 100, and it is 100 iff none of these degrees of freedom differs from the reference; moving every one of them nearer to the reference does not lower the score. -/
theorem C103_partial (diff w : ℕ → ℝ) (lo hi : ℕ) (hw : ∀ i, lo ≤ i → i ≤ hi → 0 < w (i - lo)) :
    referenceConfiguration diff w lo hi ≤ 100 ∧
    (referenceConfiguration diff w lo hi = 100 ↔ ∀ i, lo ≤ i → i ≤ hi → diff i = 0) ∧
    (∀ diff', (∀ i, lo ≤ i → i ≤ hi → |diff' i| ≤ |diff i|) → referenceConfiguration diff w lo hi ≤ referenceConfiguration diff' w lo hi) := by
  have h0 := weightedSum_nonneg diff w lo hi fun i h1 h2 => (hw i h1 h2).le
  refine ⟨?_, ?_, ?_⟩
  · unfold referenceConfiguration
    have := Real.sqrt_nonneg (weightedSum diff w lo hi)
    linarith
  · unfold referenceConfiguration
    rw [show (100 - Real.sqrt (weightedSum diff w lo hi) = 100 ↔ Real.sqrt (weightedSum diff w lo hi) = 0) from by constructor <;> intro h <;> linarith]
    rw [Real.sqrt_eq_zero h0]
    constructor
    · intro h i h1 h2
      unfold weightedSum at h
      have hall : ∀ x ∈ ((List.range' lo (hi + 1 - lo)).map fun i => diff i * diff i * w (i - lo)), 0 ≤ x := by
        intro x hx
        obtain ⟨k, hk, rfl⟩ := List.mem_map.1 hx
        rw [mem_range'] at hk
        exact mul_nonneg (mul_self_nonneg _) (hw k hk.1 hk.2).le
      have hle := List.single_le_sum hall (diff i * diff i * w (i - lo)) (List.mem_map.2 ⟨i, (mem_range' lo hi i).2 ⟨h1, h2⟩, rfl⟩)
      rw [h] at hle
      have hwi := hw i h1 h2
      have hz : diff i * diff i * w (i - lo) = 0 := le_antisymm hle (mul_nonneg (mul_self_nonneg _) hwi.le)
      rcases mul_eq_zero.1 hz with hz | hz
      · exact mul_self_eq_zero.1 hz
      · exact absurd hz hwi.ne'
    · intro h
      unfold weightedSum
      refine List.sum_eq_zero fun x hx => ?_
      obtain ⟨k, hk, rfl⟩ := List.mem_map.1 hx
      rw [mem_range'] at hk
      rw [h k hk.1 hk.2]; ring
  · intro diff' hd
    unfold referenceConfiguration
    have : weightedSum diff' w lo hi ≤ weightedSum diff w lo hi := by
      unfold weightedSum
      refine List.sum_le_sum fun i hi' => ?_
      rw [mem_range'] at hi'
      refine mul_le_mul_of_nonneg_right ?_ (hw i hi'.1 hi'.2).le
      rw [← abs_mul_abs_self (diff' i), ← abs_mul_abs_self (diff i)]
      exact mul_le_mul (hd i hi'.1 hi'.2) (hd i hi'.1 hi'.2) (abs_nonneg _) (abs_nonneg _)
    have := Real.sqrt_le_sqrt this
    linarith

/-- C103: the weight of the degree of freedom `i` is the posture weight with the same index if the full body has one weight per degree of freedom; otherwise it is 1, 10 or 100 according to the axis of the joint, hence positive. -/
theorem C103_weights (posture : List ℝ) (numberDof : ℕ) (col : ℕ → Fin 6 → ℝ) (lo hi i : ℕ) (h1 : lo ≤ i) (h2 : i ≤ hi) :
    (posture.length = numberDof → (weightsOf posture numberDof col lo hi)[i - lo]? = posture[i]?) ∧
    (posture.length ≠ numberDof → ∃ w, (weightsOf posture numberDof col lo hi)[i - lo]? = some w ∧
      ((|col i 4| > 1 / 2 → w = 1) ∧ (|col i 4| ≤ 1 / 2 → |col i 5| > 1 / 2 → w = 10) ∧ (|col i 4| ≤ 1 / 2 → |col i 5| ≤ 1 / 2 → w = 100)) ∧ 0 < w) := by
  constructor
  · intro h
    unfold weightsOf
    rw [if_pos h, List.getElem?_take_of_lt (by omega), List.getElem?_drop]
    congr 1
    omega
  · intro h
    unfold weightsOf weightsFromAxis
    rw [if_neg h, List.getElem?_map, List.getElem?_range' (by omega)]
    refine ⟨axisWeight (col i), by simp; congr 2; omega, ⟨fun ha => ?_, fun ha hc => ?_, fun ha hc => ?_⟩, ?_⟩
    · unfold axisWeight; rw [if_pos ha]
    · unfold axisWeight; rw [if_neg (not_lt.2 ha), if_pos hc]
    · unfold axisWeight; rw [if_neg (not_lt.2 ha), if_neg (not_lt.2 hc)]
    · unfold axisWeight; split_ifs <;> norm_num

/-- C103: there is one weight for each degree of freedom of the limb. -/
theorem C103_number (posture : List ℝ) (numberDof : ℕ) (col : ℕ → Fin 6 → ℝ) (lo hi : ℕ) (h1 : lo ≤ hi) (h2 : hi < numberDof) :
    (weightsOf posture numberDof col lo hi).length = hi - lo + 1 := by
  unfold weightsOf
  split_ifs with h
  · rw [List.length_take, List.length_drop]; omega
  · simp only [weightsFromAxis, List.length_map, List.length_range']; omega

example : referenceConfiguration (fun i => if i = 3 then 2 else 0) (fun _ => 1) 2 4 = 98 := by
  have : weightedSum (fun i => if i = 3 then 2 else 0) (fun _ => 1) 2 4 = 2 ^ 2 := by
    norm_num [weightedSum, List.range']
  unfold referenceConfiguration
  rw [this, Real.sqrt_sq (by norm_num)]; norm_num

/-- **C103 is violated** if the last joint of the limb has more than one degree of freedom: only its first one counts.  Here the last joint has the ranks 4 and 5, and a sample that differs from the reference on rank 5 only gets the best score. -/
theorem C103_violated : referenceConfiguration (fun i => if i = 5 then 7 else 0) (fun _ => 1) 2 4 = 100 := by
  have : weightedSum (fun i => if i = 5 then 7 else 0) (fun _ => 1) 2 4 = 0 := by
    norm_num [weightedSum, List.range']
  unfold referenceConfiguration
  rw [this, Real.sqrt_zero]; norm_num

/-! ### C104: the limb of a sample -/

/-- C104 (part): the limb that is found starts at the rank of the sample; it is a contacting one if there is one, and an exception is thrown iff there is no limb at all.  If only one limb starts at this rank, it is this one. -/
theorem C104_partial {N L : Type _} (limbs nc : List (N × ℕ × L)) (rank : ℕ) :
    (limbOfRank limbs nc rank = none ↔ ∀ e ∈ limbs ++ nc, e.2.1 ≠ rank) ∧
    (∀ l, limbOfRank limbs nc rank = some l → ∃ e ∈ limbs ++ nc, e.2.1 = rank ∧ e.2.2 = l ∧ ((∃ e ∈ limbs, e.2.1 = rank) → e ∈ limbs)) ∧
    (∀ e ∈ limbs ++ nc, e.2.1 = rank → (∀ e' ∈ limbs ++ nc, e'.2.1 = rank → e' = e) → limbOfRank limbs nc rank = some e.2.2) := by
  have main : (limbOfRank limbs nc rank = none ∧ ∀ e ∈ limbs ++ nc, e.2.1 ≠ rank) ∨
      ∃ e ∈ limbs ++ nc, e.2.1 = rank ∧ limbOfRank limbs nc rank = some e.2.2 ∧ ((∃ e ∈ limbs, e.2.1 = rank) → e ∈ limbs) := by
    cases h1 : List.find? (fun e => e.2.1 == rank) limbs with
    | some e =>
      right
      refine ⟨e, by simp [List.mem_of_find?_eq_some h1], by simpa using List.find?_some h1, by simp [limbOfRank, h1], fun _ => List.mem_of_find?_eq_some h1⟩
    | none =>
      have hn1 : ∀ e ∈ limbs, e.2.1 ≠ rank := by intro e he; have := List.find?_eq_none.1 h1 e he; simpa using this
      cases h2 : List.find? (fun e => e.2.1 == rank) nc with
      | some e =>
        right
        refine ⟨e, by simp [List.mem_of_find?_eq_some h2], by simpa using List.find?_some h2, by simp [limbOfRank, h1, h2], ?_⟩
        rintro ⟨e', he', hr⟩
        exact absurd hr (hn1 e' he')
      | none =>
        left
        refine ⟨by simp [limbOfRank, h1, h2], fun e he => ?_⟩
        rcases List.mem_append.1 he with he | he
        · exact hn1 e he
        · have := List.find?_eq_none.1 h2 e he; simpa using this
  refine ⟨?_, ?_, ?_⟩
  · rcases main with ⟨h1, h2⟩ | ⟨e, he, hr, hs, _⟩
    · exact ⟨fun _ => h2, fun _ => h1⟩
    · constructor
      · intro h; rw [hs] at h; cases h
      · intro h; exact absurd hr (h e he)
  · intro l hl
    rcases main with ⟨h1, _⟩ | ⟨e, he, hr, hs, hp⟩
    · rw [h1] at hl; cases hl
    · rw [hs] at hl; cases hl
      exact ⟨e, he, hr, rfl, hp⟩
  · intro e he hr hu
    rcases main with ⟨_, h2⟩ | ⟨e', he', hr', hs, _⟩
    · exact absurd hr (h2 e he)
    · rw [hs, hu e' he' hr']

example : limbOfRank [("arm", 3, "a")] [("leg", 7, "l")] 7 = some "l" := by decide

/-- **C104 is violated** if two limbs start at the same joint: a sample of the second one is taken for a sample of the first one. -/
theorem C104_violated : limbOfRank [("elbow", 3, "elbow"), ("hand", 3, "hand")] ([] : List (String × ℕ × String)) 3 = some "elbow" := by decide

end Analysis
end Rbprm
