import Verif.Model.Paths
import Mathlib.Tactic.FieldSimp
import Mathlib.Tactic.LinearCombination
import Mathlib.Tactic.Linarith
import Mathlib.Tactic.Positivity
import Mathlib.Tactic.NormNum
import Mathlib.Tactic.IntervalCases
import Mathlib.Algebra.Order.Field.Rat
import Mathlib.Algebra.Order.AbsoluteValue.Basic
import Mathlib.Data.List.Perm.Basic
set_option linter.unusedSectionVars false
set_option linter.unusedSimpArgs false
/-!
# C58-C61, C119-C121: paths of the interpolation
-/
namespace Rbprm
namespace Paths
variable {K R : Type _} [Field K] [LinearOrder K] [IsStrictOrderedRing K]
variable (interp : R → R → K → R)

/-! ### C58 -/

/-- the constraints do not move the extra degree of freedom -/
def KeepsDof (p : TPath R K) : Prop := ∀ c, p.constr = some c → ∀ y q, (c.project y q).1.dof = q.dof

theorem raw_dof (p : TPath R K) (hl : p.len ≠ 0) (t : K) : (p.raw interp t).dof = p.init.dof + t / p.len * (p.fin.dof - p.init.dof) := by
  unfold TPath.raw extraDof
  by_cases h0 : t = 0
  · rw [if_pos (Or.inl h0), h0]; simp
  · rw [if_neg (by rintro (h | h); exacts [h0 h, hl h])]
    by_cases h1 : t = p.len
    · rw [if_pos h1, h1, div_self hl]; ring
    · rw [if_neg h1]; simp only; ring

theorem eval_dof (p : TPath R K) (hk : KeepsDof p) (t : K) : (p.eval interp t).1.dof = (p.raw interp t).dof := by
  unfold TPath.eval
  cases h : p.constr with
  | none => rfl
  | some c => exact hk c h _ _

/-- C58: a path without constraints starts and ends at its end configurations. -/
theorem C58_ends (p : TPath R K) (h : p.constr = none) : p.eval interp 0 = (p.init, true) ∧ (p.len ≠ 0 → p.eval interp p.len = (p.fin, true)) := by
  unfold TPath.eval
  rw [h]
  refine ⟨?_, fun hl => ?_⟩
  · simp [TPath.raw]
  · simp [TPath.raw, hl]

/-- C58: with constraints, the ends are the projections of the end configurations, for the right hand sides of their own extra degree of freedom. -/
theorem C58_ends_constrained (p : TPath R K) (c : Constr R K) (h : p.constr = some c) :
    p.eval interp 0 = c.project p.init.dof p.init ∧ (p.len ≠ 0 → p.eval interp p.len = c.project p.fin.dof p.fin) := by
  unfold TPath.eval
  rw [h]
  refine ⟨?_, fun hl => ?_⟩
  · simp [TPath.raw]
  · simp [TPath.raw, hl]

/-- C58: a degenerate path is everywhere at its initial configuration. -/
theorem C58_degenerate (p : TPath R K) (hl : p.len = 0) (h : p.constr = none) (t : K) : p.eval interp t = (p.init, true) := by
  unfold TPath.eval
  rw [h]
  simp [TPath.raw, hl]

/-- C58: the extra degree of freedom is monotone along a path whose end value is not smaller than its initial value. -/
theorem C58_monotone (p : TPath R K) (hk : KeepsDof p) (hl : 0 < p.len) (h : p.init.dof ≤ p.fin.dof) (s t : K) (hst : s ≤ t) :
    (p.eval interp s).1.dof ≤ (p.eval interp t).1.dof := by
  rw [eval_dof _ _ hk, eval_dof _ _ hk, raw_dof _ _ hl.ne', raw_dof _ _ hl.ne']
  have : s / p.len ≤ t / p.len := by gcongr
  have h' : 0 ≤ p.fin.dof - p.init.dof := by linarith
  linarith [mul_le_mul_of_nonneg_right this h']

theorem extract_ok {p : TPath R K} {a b : K} {q : TPath R K} (h : p.extract interp a b = .ok q) :
    p.len ≠ 0 ∧ q = ⟨{ (p.eval interp a).1 with dof := extraDof p.init p.fin (a / p.len) }, { (p.eval interp b).1 with dof := extraDof p.init p.fin (b / p.len) }, |b - a|, p.constr⟩ := by
  unfold TPath.extract at h
  simp only at h
  split at h
  · cases h
  · split at h
    · cases h
    · rename_i hl
      split at h
      · cases h
      · cases h
        exact ⟨hl, rfl⟩

/-- C58: the extracted part has, at every time, the extra degree of freedom of the path at the corresponding time, backwards if the interval is reversed. -/
theorem C58_extract (p : TPath R K) (hk : KeepsDof p) (a b : K) (q : TPath R K) (h : p.extract interp a b = .ok q) :
    q.len = |b - a| ∧
    (a ≤ b → ∀ s, 0 ≤ s → s ≤ b - a → (q.eval interp s).1.dof = (p.eval interp (a + s)).1.dof) ∧
    (b ≤ a → ∀ s, 0 ≤ s → s ≤ a - b → (q.eval interp s).1.dof = (p.eval interp (a - s)).1.dof) := by
  obtain ⟨hl, rfl⟩ := extract_ok interp h
  have hk' : KeepsDof (⟨{ (p.eval interp a).1 with dof := extraDof p.init p.fin (a / p.len) }, { (p.eval interp b).1 with dof := extraDof p.init p.fin (b / p.len) }, |b - a|, p.constr⟩ : TPath R K) := hk
  refine ⟨rfl, fun hab s h0 h1 => ?_, fun hab s h0 h1 => ?_⟩
  · rw [eval_dof _ _ hk', eval_dof _ _ hk, raw_dof _ p hl]
    rcases eq_or_lt_of_le hab with e | e
    · have hs : s = 0 := by linarith
      subst hs
      simp only [TPath.raw, true_or, if_true, extraDof, add_zero]
      ring
    · have hba : b - a ≠ 0 := by intro e'; linarith
      rw [raw_dof _ _ (by simpa using hba)]
      simp only [extraDof, abs_of_nonneg (sub_nonneg.2 hab)]
      field_simp
      ring
  · rw [eval_dof _ _ hk', eval_dof _ _ hk, raw_dof _ p hl]
    rcases eq_or_lt_of_le hab with e | e
    · have hs : s = 0 := by linarith
      subst hs
      simp only [TPath.raw, true_or, if_true, extraDof, sub_zero]
      ring
    · have hba : a - b ≠ 0 := by intro e'; linarith
      rw [raw_dof _ _ (by simp only [ne_eq, abs_eq_zero]; intro e'; apply hba; linarith)]
      have : |b - a| = a - b := by rw [abs_sub_comm]; exact abs_of_nonneg (sub_nonneg.2 hab)
      simp only [extraDof, this]
      field_simp
      ring

/-- C58: both ends of an extracted part satisfy the constraints of the path, for their extra degree of freedom; otherwise the extraction throws. -/
theorem C58_extract_checked (p : TPath R K) (a b : K) (q : TPath R K) (h : p.extract interp a b = .ok q) :
    (p.eval interp a).2 = true ∧ (p.eval interp b).2 = true ∧
    q.constr = p.constr ∧ ∀ c, p.constr = some c → c.sat q.init.dof q.init = true ∧ c.sat q.fin.dof q.fin = true := by
  unfold TPath.extract at h
  simp only at h
  split at h
  · cases h
  · rename_i he
    push Not at he
    split at h
    · cases h
    · split at h
      · cases h
      · rename_i hc
        cases h
        refine ⟨by simpa using he.1, by simpa using he.2, rfl, fun c e => ?_⟩
        simp only [TPath.check, e] at hc
        simpa using hc

/-- C58: the extraction succeeds if the evaluation succeeds at both ends and the results satisfy the constraints there. -/
theorem C58_extract_defined (p : TPath R K) (hk : KeepsDof p) (hl : p.len ≠ 0) (a b : K) (ha : (p.eval interp a).2 = true) (hb : (p.eval interp b).2 = true)
    (hs : ∀ c, p.constr = some c → c.sat (p.eval interp a).1.dof (p.eval interp a).1 = true ∧ c.sat (p.eval interp b).1.dof (p.eval interp b).1 = true) :
    ∃ q, p.extract interp a b = .ok q ∧ q.init = (p.eval interp a).1 ∧ q.fin = (p.eval interp b).1 ∧ q.constr = p.constr := by
  have e : ∀ t, ({ (p.eval interp t).1 with dof := extraDof p.init p.fin (t / p.len) } : Conf R K) = (p.eval interp t).1 := by
    intro t
    ext
    · rfl
    · show extraDof p.init p.fin (t / p.len) = (p.eval interp t).1.dof
      rw [eval_dof _ _ hk, raw_dof _ _ hl, extraDof]; ring
  unfold TPath.extract
  simp only [ha, hb, e]
  rw [if_neg (by simp), if_neg hl]
  have hc : (⟨(p.eval interp a).1, (p.eval interp b).1, |b - a|, p.constr⟩ : TPath R K).check = true := by
    unfold TPath.check
    cases hp : p.constr with
    | none => simp [hp]
    | some c => simp [hp, hs c hp]
  rw [hc, if_neg (by simp)]
  exact ⟨_, rfl, rfl, rfl, rfl⟩

/-- interpolation along geodesics -/
structure Geodesic : Prop where
  zero : ∀ a b, interp a b 0 = a
  one : ∀ a b, interp a b 1 = b
  sub : ∀ a b u v w, interp (interp a b u) (interp a b v) w = interp a b (u + w * (v - u))

/-- C58: without constraints, and if the interpolation of the joints is linear, the extracted part is the path itself, backwards if the interval is reversed. -/
theorem C58_joints (hi : Geodesic interp) (p : TPath R K) (hc : p.constr = none) (hl : p.len ≠ 0) (a b : K) :
    ∃ q, p.extract interp a b = .ok q ∧ q.len = |b - a| ∧
      (a ≤ b → ∀ s, 0 ≤ s → s ≤ b - a → q.eval interp s = p.eval interp (a + s)) ∧
      (b ≤ a → ∀ s, 0 ≤ s → s ≤ a - b → q.eval interp s = p.eval interp (a - s)) := by
  have hraw : ∀ t, p.raw interp t = ⟨interp p.init.rest p.fin.rest (t / p.len), extraDof p.init p.fin (t / p.len)⟩ := by
    intro t
    unfold TPath.raw
    by_cases h0 : t = 0
    · rw [if_pos (Or.inl h0), h0, zero_div, hi.zero, extraDof]; simp
    · rw [if_neg (by rintro (h | h); exacts [h0 h, hl h])]
      by_cases h1 : t = p.len
      · rw [if_pos h1, h1, div_self hl, hi.one, extraDof]; simp
      · rw [if_neg h1]
  have hev : ∀ t, p.eval interp t = (p.raw interp t, true) := by intro t; unfold TPath.eval; rw [hc]
  have hk : KeepsDof p := by intro c h; rw [hc] at h; cases h
  obtain ⟨q, hq, h1, h2, h3⟩ := C58_extract_defined interp p hk hl a b (by rw [hev]) (by rw [hev]) (by intro c h; rw [hc] at h; cases h)
  have hlen := (C58_extract interp p hk a b q hq).1
  refine ⟨q, hq, hlen, fun hab s h0 hs => ?_, fun hab s h0 hs => ?_⟩
  all_goals
    unfold TPath.eval
    rw [h3, hc]
    simp only
    refine Prod.ext ?_ rfl
    simp only
    rw [hraw]
    unfold TPath.raw
    rw [h1, h2, hev, hev, hlen]
    simp only
    rw [hraw, hraw]
  · by_cases e : s = 0
    · rw [if_pos (Or.inl e), e, add_zero]
    · have hba : b - a ≠ 0 := by intro e'; apply e; linarith
      rw [if_neg (by rintro (h | h); exacts [e h, hba (abs_eq_zero.1 h)]), abs_of_nonneg (sub_nonneg.2 hab)]
      by_cases e1 : s = b - a
      · rw [if_pos e1, e1]
        have : a + (b - a) = b := by ring
        rw [this]
      · rw [if_neg e1]
        simp only [extraDof, hi.sub]
        have : a / p.len + s / (b - a) * (b / p.len - a / p.len) = (a + s) / p.len := by field_simp
        rw [this]
        congr 1
        field_simp
        ring
  · have hab' : |b - a| = a - b := by rw [abs_sub_comm]; exact abs_of_nonneg (sub_nonneg.2 hab)
    by_cases e : s = 0
    · rw [if_pos (Or.inl e), e, sub_zero]
    · have hba : a - b ≠ 0 := by intro e'; apply e; linarith
      rw [hab', if_neg (by rintro (h | h); exacts [e h, hba h])]
      by_cases e1 : s = a - b
      · rw [if_pos e1, e1]
        have : a - (a - b) = b := by ring
        rw [this]
      · rw [if_neg e1]
        simp only [extraDof, hi.sub]
        have : a / p.len + s / (a - b) * (b / p.len - a / p.len) = (a - s) / p.len := by field_simp; ring
        rw [this]
        congr 1
        field_simp
        ring

/-- linear interpolation is a geodesic interpolation -/
theorem geodesic_linear : Geodesic (fun a b u : ℚ => a + u * (b - a)) :=
  ⟨fun a b => by ring, fun a b => by ring, fun a b u v w => by ring⟩

/-- a path over the rationals, its extraction -/
example : ∃ q, (⟨⟨0, 0⟩, ⟨8, 1⟩, 4, none⟩ : TPath ℚ ℚ).extract (fun a b u : ℚ => a + u * (b - a)) 1 3 = .ok q ∧ q.eval (fun a b u : ℚ => a + u * (b - a)) 1 = (⟨4, 1 / 2⟩, true) := by
  obtain ⟨q, h, -, h1, -⟩ := C58_joints (fun a b u : ℚ => a + u * (b - a)) geodesic_linear (⟨⟨0, 0⟩, ⟨8, 1⟩, 4, none⟩ : TPath ℚ ℚ) rfl (by norm_num) 1 3
  refine ⟨q, h, ?_⟩
  rw [h1 (by norm_num) 1 (by norm_num) (by norm_num)]
  unfold TPath.eval TPath.raw extraDof
  norm_num

/-- a constraint: the joint is at least 1 when the extra degree of freedom is 1/2 -/
def bump : Constr ℚ ℚ := ⟨fun y q => (if y = 1 / 2 then { q with rest := max q.rest 1 } else q, true), fun y q => decide (y = 1 / 2 → 1 ≤ q.rest)⟩

/-- Beyond C58: with constraints the joints of an extracted part differ from those of the path, since the projected configuration becomes an end. -/
theorem C58_constrained_joints_differ : ∃ q, (⟨⟨0, 0⟩, ⟨0, 1⟩, 1, some bump⟩ : TPath ℚ ℚ).extract (fun a b u : ℚ => a + u * (b - a)) (1 / 2) 1 = .ok q ∧
    (q.eval (fun a b u : ℚ => a + u * (b - a)) (1 / 4)).1.rest ≠ ((⟨⟨0, 0⟩, ⟨0, 1⟩, 1, some bump⟩ : TPath ℚ ℚ).eval (fun a b u : ℚ => a + u * (b - a)) (1 / 2 + 1 / 4)).1.rest := by
  refine ⟨⟨⟨1, 1 / 2⟩, ⟨0, 1⟩, 1 / 2, some bump⟩, ?_, ?_⟩
  · simp [TPath.extract, TPath.eval, TPath.raw, bump, extraDof, TPath.check]
    rw [abs_of_pos (by norm_num)]; norm_num
  · simp [TPath.eval, TPath.raw, bump, extraDof]
    norm_num

/-- C58: the setters of the ends keep the extra degree of freedom. -/
theorem C58_setters (p : TPath R K) (q : Conf R K) :
    (p.initialConfig q).init = ⟨q.rest, p.init.dof⟩ ∧ (p.initialConfig q).fin = p.fin ∧ (p.endConfig q).fin = ⟨q.rest, p.fin.dof⟩ ∧ (p.endConfig q).init = p.init := ⟨rfl, rfl, rfl, rfl⟩

/-- At the boundary of C58: nothing can be extracted from a degenerate path, not even the degenerate part: the extra degree of freedom is 0 / 0. -/
theorem C58_degenerate_extract (p : TPath R K) (hl : p.len = 0) (a b : K) (q : TPath R K) : p.extract interp a b ≠ .ok q := fun h => (extract_ok interp h).1 hl

/-! ### C59 -/

/-- the law of motion of a constant acceleration -/
def law (p : ComTraj K) (t : K) : Vec3 K := Vec3.smul (t * t / 2) p.acc + Vec3.smul t p.speed + p.init

theorem com_eval (p : ComTraj K) (hl : p.len ≠ 0) (h : p.fin = law p p.len) (t : K) : p.eval t = law p t := by
  unfold ComTraj.eval
  by_cases h0 : t = 0
  · rw [if_pos (Or.inl h0), h0, law]; ext <;> simp
  · rw [if_neg (by rintro (e | e); exacts [h0 e, hl e])]
    by_cases h1 : t = p.len
    · rw [if_pos h1, h1, h]
    · rw [if_neg h1]
      simp only [normalize, if_neg hl, div_mul_cancel₀ _ hl, law]

/-- C59: a part extracted from a trajectory consistent with its acceleration is the trajectory itself. -/
theorem C59_com (p : ComTraj K) (hl : 0 < p.len) (h : p.fin = law p p.len) (a b : K) (ha : 0 ≤ a) (hab : a ≤ b) (hb : b ≤ p.len) :
    (p.extract a b).len = b - a ∧ (∀ s, 0 ≤ s → s ≤ b - a → (p.extract a b).eval s = p.eval (a + s)) ∧
    (p.extract a b).fin = law (p.extract a b) (p.extract a b).len := by
  have hlen : (p.extract a b).len = b - a := by
    show min |b - a| p.len = b - a
    rw [abs_of_nonneg (sub_nonneg.2 hab), min_eq_left (by linarith)]
  have hlaw : ∀ s, law (p.extract a b) s = law p (a + s) := by
    intro s
    have e : p.extract a b = ⟨law p a, law p b, Vec3.smul a p.acc + p.speed, p.acc, min |b - a| p.len⟩ := by
      unfold ComTraj.extract
      rw [com_eval p hl.ne' h, com_eval p hl.ne' h]
      simp only [normalize, if_neg hl.ne', div_mul_cancel₀ _ hl.ne']
    rw [e]
    ext <;> simp only [law, Vec3.add_x, Vec3.add_y, Vec3.add_z, Vec3.smul_x, Vec3.smul_y, Vec3.smul_z] <;> ring
  have hfin : (p.extract a b).fin = law (p.extract a b) (p.extract a b).len := by
    rw [hlaw, hlen]
    show p.eval b = _
    rw [com_eval p hl.ne' h]
    congr 1; ring
  refine ⟨hlen, fun s h0 h1 => ?_, hfin⟩
  rcases eq_or_lt_of_le hab with e | e
  · have hs : s = 0 := by linarith
    rw [hs, add_zero]
    show (if (0 : K) = 0 ∨ _ then _ else _) = _
    rw [if_pos (Or.inl rfl)]
    rfl
  · rw [com_eval _ (by rw [hlen]; intro e'; linarith) hfin, com_eval p hl.ne' h, hlaw]

/-- C59: a trajectory that is not consistent with its acceleration jumps at its end. -/
theorem C59_inconsistent (p : ComTraj K) (hl : p.len ≠ 0) : (∀ t, t ≠ p.len → p.eval t = law p t) ∧ p.eval p.len = p.fin := by
  constructor
  · intro t ht
    unfold ComTraj.eval
    by_cases h0 : t = 0
    · rw [if_pos (Or.inl h0), h0, law]; ext <;> simp
    · rw [if_neg (by rintro (e | e); exacts [h0 e, hl e]), if_neg ht]
      simp only [normalize, if_neg hl, div_mul_cancel₀ _ hl, law]
  · unfold ComTraj.eval
    rw [if_neg (by rintro (e | e); exacts [hl e, hl e]), if_pos rfl]

/-- **C59 is violated** for reversed intervals (`Path::reverse`): the speed is not reversed, so the trajectory goes on in the wrong direction and jumps at the end. -/
theorem C59_reverse_violated : ∃ p : ComTraj ℚ, p.fin = law p p.len ∧ 0 < p.len ∧ (p.extract 1 0).eval (1 / 2) ≠ p.eval (1 - 1 / 2) := by
  refine ⟨⟨⟨0, 0, 0⟩, ⟨1, 0, 0⟩, ⟨1, 0, 0⟩, ⟨0, 0, 0⟩, 1⟩, ?_, by norm_num, ?_⟩
  · unfold law; ext <;> simp
  · intro h
    have := congrArg Vec3.x h
    simp [ComTraj.extract, ComTraj.eval, normalize] at this
    norm_num at this

/-- C59: a part extracted from a polynomial trajectory keeps values and time stamps, if the times are not negative. -/
theorem C59_polynom (p : PolyTraj K) (h0 : 0 ≤ p.start) (a b : K) (ha : p.start ≤ a) (hb : b ≤ p.stop) :
    (p.extract a b).start = a ∧ (p.extract a b).stop = b ∧ ∀ t, a ≤ t → t ≤ b → (p.extract a b).eval t = p.eval t ∧ p.eval t = p.curve t := by
  refine ⟨rfl, rfl, fun t h1 h2 => ?_⟩
  have key : ∀ q : PolyTraj K, 0 ≤ q.start → ∀ t, q.start ≤ t → t ≤ q.stop → q.eval t = q.curve t := by
    intro q hq t k1 k2
    unfold PolyTraj.eval
    split
    · rename_i h
      rcases h with h | h
      · rw [h]
      · have : q.start = t := by linarith
        rw [this]
    · rfl
  have e2 := key p h0 t (by linarith) (by linarith)
  refine ⟨?_, e2⟩
  rw [e2]
  exact key (p.extract a b) (h0.trans ha) t h1 h2

/-- **C59 is violated** for an interval of negative times ending at 0: the trajectory stays at its start. -/
theorem C59_zero_violated (curve : K → Vec3 K) (a t : K) : (⟨curve, a, 0⟩ : PolyTraj K).eval t = curve a := by
  unfold PolyTraj.eval
  simp

/-! ### C119: Bézier paths -/

/-- C119: for a curve defined from 0 on, the evaluation at the ends of the time range gives the end configurations, and everywhere the position of the curve and the joints interpolated
with the elapsed fraction of the duration of the curve. -/
theorem C119_bezier_partial (p : Bezier R K) (hmin : p.cmin = 0) (hmax : 0 < p.cmax) (h0 : 0 ≤ p.first) (h1 : p.first ≤ p.last) (h2 : p.last ≤ p.cmax) :
    p.eval interp p.first = p.initial interp ∧ p.eval interp p.last = p.end' interp ∧
    ∀ t, p.first ≤ t → t ≤ p.last → p.eval interp t = (p.curve t, interp p.init p.fin (t / p.cmax)) := by
  have key : ∀ t, p.first ≤ t → t ≤ p.last → p.eval interp t = (p.curve t, interp p.init p.fin (t / p.cmax)) := by
    intro t k1 k2
    unfold Bezier.eval
    rw [if_neg (not_lt.2 k1), if_neg (not_lt.2 k2)]
    simp only [hmin, sub_zero, zero_add]
    by_cases e : p.last = 0
    · rw [if_pos e]
      have : t = 0 := by linarith
      rw [this, zero_div]
    · rw [if_neg e]
  refine ⟨?_, ?_, key⟩
  · rw [key _ (le_refl _) h1]
    unfold Bezier.initial
    simp only [hmin, sub_zero, zero_add]
    rw [if_neg (not_lt.2 (div_nonneg h0 hmax.le))]
  · rw [key _ h1 (le_refl _)]
    unfold Bezier.end'
    simp only [hmin, sub_zero, zero_add]
    rw [if_neg (not_lt.2 (by rw [div_le_one hmax]; exact h2))]

/-- C119: outside of its time range the path stays at its ends. -/
theorem C119_outside (p : Bezier R K) (h : p.first ≤ p.last) (t : K) :
    (t < p.first → p.eval interp t = p.initial interp ∧ (p.eval interp t).1 = p.curve p.first) ∧
    (p.last < t → p.eval interp t = p.end' interp ∧ (p.eval interp t).1 = p.curve p.last) := by
  refine ⟨fun ht => ?_, fun ht => ?_⟩
  · have : p.eval interp t = p.initial interp := by unfold Bezier.eval; rw [if_pos ht]
    exact ⟨this, by rw [this]; rfl⟩
  · have : p.eval interp t = p.end' interp := by unfold Bezier.eval; rw [if_neg (by linarith), if_pos ht]
    exact ⟨this, by rw [this]; rfl⟩

/-- C119: the end configurations of a time range that reaches beyond the curve, as it may by rounding, have the joints of the configurations given to the constructor -/
theorem C119_clamped (hi0 : ∀ a b, interp a b 0 = a) (hi1 : ∀ a b, interp a b 1 = b) (p : Bezier R K) (hmin : p.cmin = 0) (hmax : 0 < p.cmax) :
    (p.first ≤ 0 → p.initial interp = (p.curve p.first, p.init)) ∧ (p.cmax ≤ p.last → p.end' interp = (p.curve p.last, p.fin)) := by
  constructor
  · intro h
    unfold Bezier.initial
    simp only [hmin, sub_zero, zero_add]
    rcases lt_or_eq_of_le h with h | h
    · rw [if_pos (div_neg_of_neg_of_pos h hmax), hi0]
    · rw [h, zero_div, if_neg (lt_irrefl _), hi0]
  · intro h
    unfold Bezier.end'
    simp only [hmin, sub_zero, zero_add]
    rcases lt_or_eq_of_le h with h | h
    · rw [if_pos (by rw [gt_iff_lt, one_lt_div hmax]; exact h), hi1]
    · rw [← h, div_self hmax.ne', if_neg (lt_irrefl _), hi1]

/-- C119: a path created from waypoints from time 0 on starts with the joints of its initial configuration and ends with those of its final one. -/
theorem C119_waypoints (hi0 : ∀ a b, interp a b 0 = a) (hi1 : ∀ a b, interp a b 1 = b) (curve : K → Vec3 K) (init fin : R) (T : K) (hT : 0 < T) :
    (Bezier.ofCurve curve init fin 0 T).eval interp 0 = (curve 0, init) ∧ (Bezier.ofCurve curve init fin 0 T).eval interp T = (curve T, fin) := by
  have h := (C119_bezier_partial interp (Bezier.ofCurve curve init fin 0 T) rfl (by simpa [Bezier.ofCurve] using hT) (le_refl _) hT.le (by simp [Bezier.ofCurve])).2.2
  constructor
  · rw [h 0 (le_refl _) hT.le]
    simp [Bezier.ofCurve, hi0]
  · rw [h T hT.le (le_refl _)]
    simp [Bezier.ofCurve, hi1, div_self hT.ne']

/-- **C119 is violated** for a curve that is not defined from 0 on: the parameter `cmin + t / (cmax - cmin)` is not in `[0, 1]`; at the beginning of the curve on `[1, 2]` the joints are at
twice the displacement. -/
theorem C119_offset_violated : ∃ p : Bezier ℚ ℚ, p.cmin < p.cmax ∧ p.first = p.cmin ∧ p.last = p.cmax ∧
    (p.eval (fun a b u => a + u * (b - a)) p.first).2 = p.init + 2 * (p.fin - p.init) ∧ p.init ≠ p.fin ∧
    p.eval (fun a b u => a + u * (b - a)) p.last ≠ p.end' (fun a b u => a + u * (b - a)) := by
  refine ⟨⟨fun _ => ⟨0, 0, 0⟩, 1, 2, 0, 1, 1, 2⟩, by norm_num, rfl, rfl, ?_, by norm_num, ?_⟩
  · simp [Bezier.eval]; norm_num
  · simp [Bezier.eval, Bezier.end']; norm_num

/-! ### C60 -/

theorem jumps_false (dist : Conf R K → Conf R K → K) (p : VPath R K) (total : K) (l : List K) (last : Conf R K) :
    jumps dist p total last l = false ↔ List.IsChain (fun q q' => dist q q' ≤ 1 / 5 * total) (last :: l.map fun i => p.eval (i / 10 * p.len)) := by
  induction l generalizing last with
  | nil => simp [jumps]
  | cons i is ih =>
    unfold jumps
    simp only [List.map_cons, List.isChain_cons_cons]
    rw [← ih]
    split
    · rename_i h; simp only [Bool.true_eq_false, false_iff, not_and]; exact fun h' => absurd h (not_lt.2 h')
    · rename_i h; push Not at h; simp only [h, true_and]

/-- the configuration at the `i`-th tenth of the path -/
def tenth (p : VPath R K) (i : ℕ) : Conf R K := if i = 0 then p.init else if i = 10 then p.fin else p.eval ((i : K) / 10 * p.len)

/-- C60 (part), exactly: a path is accepted if and only if its extra degree of freedom is not smaller at its end, none of its first nine tenths moves by more than a fifth of the total displacement,
and the discretised validation accepts it. -/
theorem C60_partial (dist : Conf R K → Conf R K → K) (d : Bool) (p : VPath R K) :
    validate dist d p = true ↔ p.init.dof ≤ p.fin.dof ∧ (∀ i < 9, dist (tenth p i) (tenth p (i + 1)) ≤ 1 / 5 * dist p.fin p.init) ∧ d = true := by
  unfold validate
  have hj := jumps_false dist p (dist p.fin p.init) [1, 2, 3, 4, 5, 6, 7, 8, 9] p.init
  have hc : List.IsChain (fun q q' => dist q q' ≤ 1 / 5 * dist p.fin p.init) (p.init :: [1, 2, 3, 4, 5, 6, 7, 8, 9].map fun i => p.eval (i / 10 * p.len)) ↔
      ∀ i < 9, dist (tenth p i) (tenth p (i + 1)) ≤ 1 / 5 * dist p.fin p.init := by
    simp only [List.map_cons, List.map_nil, List.isChain_cons_cons, List.isChain_singleton, and_true]
    constructor
    · rintro ⟨h1, h2, h3, h4, h5, h6, h7, h8, h9⟩ i hi
      interval_cases i <;> simp [tenth] at * <;> assumption
    · intro h
      have := fun i hi => h i hi
      refine ⟨?_, ?_, ?_, ?_, ?_, ?_, ?_, ?_, ?_⟩
      · simpa [tenth] using h 0 (by norm_num)
      · simpa [tenth] using h 1 (by norm_num)
      · simpa [tenth] using h 2 (by norm_num)
      · simpa [tenth] using h 3 (by norm_num)
      · simpa [tenth] using h 4 (by norm_num)
      · simpa [tenth] using h 5 (by norm_num)
      · simpa [tenth] using h 6 (by norm_num)
      · simpa [tenth] using h 7 (by norm_num)
      · simpa [tenth] using h 8 (by norm_num)
  rw [hc] at hj
  by_cases h : p.init.dof > p.fin.dof
  · rw [if_pos h]
    simp only [Bool.false_eq_true, false_iff, not_and]
    intro h'; exact absurd h (not_lt.2 h')
  · rw [if_neg h]
    push Not at h
    by_cases hb : jumps dist p (dist p.fin p.init) p.init [1, 2, 3, 4, 5, 6, 7, 8, 9] = true
    · rw [hb, if_pos rfl]
      simp only [Bool.false_eq_true, false_iff, not_and]
      intro _ h'
      rw [hj.2 h'] at hb; cases hb
    · rw [Bool.not_eq_true] at hb
      rw [hb, if_neg (by simp)]
      exact ⟨fun k => ⟨h, hj.1 hb, k⟩, fun k => k.2.2⟩

/-- C60: along an accepted time constraint path (whose constraints keep the extra degree of freedom) the extra degree of freedom never decreases. -/
theorem C60_monotone (dist : Conf R K → Conf R K → K) (d : Bool) (p : TPath R K) (hk : KeepsDof p) (hl : 0 < p.len)
    (h : validate dist d ⟨p.init, p.fin, p.len, fun t => (p.eval interp t).1⟩ = true) (s t : K) (hst : s ≤ t) : (p.eval interp s).1.dof ≤ (p.eval interp t).1.dof :=
  C58_monotone interp p hk hl ((C60_partial dist d _).1 h).1 s t hst

/-- **C60 is violated**: a path whose whole movement is in its last tenth is accepted. -/
theorem C60_violated : ∃ p : VPath ℚ ℚ, validate (fun a b => |a.rest - b.rest|) true p = true ∧ |(tenth p 9).rest - (tenth p 10).rest| > 1 / 5 * |p.fin.rest - p.init.rest| := by
  refine ⟨⟨⟨0, 0⟩, ⟨1, 1⟩, 1, fun _ => ⟨0, 0⟩⟩, ?_, ?_⟩
  · rw [C60_partial]
    refine ⟨by norm_num, ?_, rfl⟩
    intro i hi
    interval_cases i <;> simp [tenth]
  · simp [tenth]; norm_num

/-! ### C61 -/

variable {P Q : Type _}

/-- `sched r` is an order of the writes of round `r` -/
def Schedule (n : ℕ) (run : ℕ → ℕ → Option P) (sched : ℕ → List (Write P)) : Prop := ∀ r, (sched r).Perm (allWrites n (run r))

theorem foldl_valid (ws : List (Write P)) (m : Memory P) (i : ℕ) (b : Bool) (h : ∀ b', Write.valid i b' ∈ ws → b' = b) (hm : Write.valid i b ∈ ws ∨ m.valid i = b) :
    (ws.foldl Memory.write m).valid i = b := by
  induction ws generalizing m with
  | nil => simpa using hm
  | cons w ws ih =>
    rw [List.foldl_cons]
    apply ih
    · intro b' hb'; exact h b' (List.mem_cons_of_mem _ hb')
    · cases w with
      | res j p =>
        rcases hm with hm | hm
        · rcases List.mem_cons.1 hm with e | e
          · cases e
          · exact Or.inl e
        · exact Or.inr hm
      | valid j b' =>
        by_cases e : i = j
        · subst e
          right
          have := h b' (List.mem_cons_self ..)
          simp [Memory.write, this]
        · rcases hm with hm | hm
          · rcases List.mem_cons.1 hm with e' | e'
            · cases e'; exact absurd rfl e
            · exact Or.inl e'
          · right
            simp [Memory.write, e, hm]

theorem foldl_res (ws : List (Write P)) (m : Memory P) (i : ℕ) (p : P) (h : ∀ p', Write.res i p' ∈ ws → p' = p) (hm : Write.res i p ∈ ws ∨ m.res i = some p) :
    (ws.foldl Memory.write m).res i = some p := by
  induction ws generalizing m with
  | nil => simpa using hm
  | cons w ws ih =>
    rw [List.foldl_cons]
    apply ih
    · intro b' hb'; exact h b' (List.mem_cons_of_mem _ hb')
    · cases w with
      | valid j p =>
        rcases hm with hm | hm
        · rcases List.mem_cons.1 hm with e | e
          · cases e
          · exact Or.inl e
        · exact Or.inr hm
      | res j b' =>
        by_cases e : i = j
        · subst e
          right
          have := h b' (List.mem_cons_self ..)
          simp [Memory.write, this]
        · rcases hm with hm | hm
          · rcases List.mem_cons.1 hm with e' | e'
            · cases e'; exact absurd rfl e
            · exact Or.inl e'
          · right
            simp [Memory.write, e, hm]

theorem mem_valid {n : ℕ} {out : ℕ → Option P} {i : ℕ} {b : Bool} : Write.valid i b ∈ allWrites n out ↔ i < n ∧ b = (out i).isSome := by
  unfold allWrites
  simp only [List.mem_flatMap, List.mem_range]
  constructor
  · rintro ⟨j, hj, h⟩
    unfold taskWrites at h
    split at h <;> rename_i e <;> simp at h
    · obtain ⟨rfl, rfl⟩ := h; exact ⟨hj, by rw [e]; rfl⟩
    · obtain ⟨rfl, rfl⟩ := h; exact ⟨hj, by rw [e]; rfl⟩
  · rintro ⟨hi, rfl⟩
    refine ⟨i, hi, ?_⟩
    unfold taskWrites
    split <;> rename_i e <;> simp [e]

theorem mem_res {n : ℕ} {out : ℕ → Option P} {i : ℕ} {p : P} : Write.res i p ∈ allWrites n out ↔ i < n ∧ out i = some p := by
  unfold allWrites
  simp only [List.mem_flatMap, List.mem_range]
  constructor
  · rintro ⟨j, hj, h⟩
    unfold taskWrites at h
    split at h <;> rename_i e <;> simp at h
    obtain ⟨rfl, rfl⟩ := h; exact ⟨hj, e⟩
  · rintro ⟨hi, h⟩
    refine ⟨i, hi, ?_⟩
    unfold taskWrites
    rw [h]; simp

/-- after a round: every pair's answer -/
theorem round_spec {n : ℕ} {out : ℕ → Option P} {ws : List (Write P)} (hp : ws.Perm (allWrites n out)) (m : Memory P) (i : ℕ) (hi : i < n) :
    (ws.foldl Memory.write m).valid i = (out i).isSome ∧ ∀ p, out i = some p → (ws.foldl Memory.write m).res i = some p := by
  constructor
  · apply foldl_valid
    · intro b h; exact ((mem_valid.1 (hp.mem_iff.1 h)).2)
    · left; exact hp.mem_iff.2 (mem_valid.2 ⟨hi, rfl⟩)
  · intro p h
    apply foldl_res
    · intro p' h'
      have := (mem_res.1 (hp.mem_iff.1 h')).2
      rw [h] at this; cases this; rfl
    · left; exact hp.mem_iff.2 (mem_res.2 ⟨hi, h⟩)

theorem checkPath_lt {n : ℕ} {valid : ℕ → Bool} : checkPath n valid < n ↔ ∃ i < n, valid i = false := by
  unfold checkPath
  cases h : (List.range n).find? fun i => !valid i with
  | none =>
    simp only [Option.getD_none, lt_irrefl, false_iff, not_exists, not_and]
    intro i hi
    rw [List.find?_eq_none] at h
    have := h i (List.mem_range.2 hi)
    simpa using this
  | some j =>
    have h1 := List.find?_some h
    have h2 := List.mem_range.1 (List.mem_of_find?_eq_some h)
    simp only [Option.getD_some]
    exact ⟨fun _ => ⟨j, h2, by simpa using h1⟩, fun _ => h2⟩

/-- the rounds end at the first round in which all the pairs succeed -/
theorem rounds_spec {n : ℕ} {run : ℕ → ℕ → Option P} {sched : ℕ → List (Write P)} (hs : Schedule n run sched) (fuel : ℕ) :
    ∀ r m, match rounds n sched fuel r m with
      | none => ∀ k < fuel, ∃ i < n, run (r + k) i = none
      | some m' => ∃ k < fuel, (∀ j < k, ∃ i < n, run (r + j) i = none) ∧ ∀ i < n, (run (r + k) i).isSome = true ∧ m'.res i = run (r + k) i := by
  induction fuel with
  | zero => intro r m; simp [rounds]
  | succ fuel ih =>
    intro r m
    unfold rounds
    simp only
    have hr := fun i hi => round_spec (hs r) m i hi
    by_cases h : checkPath n ((sched r).foldl Memory.write m).valid < n
    · rw [if_pos h]
      obtain ⟨i, hi, hv⟩ := checkPath_lt.1 h
      rw [(hr i hi).1] at hv
      have hn : run r i = none := by cases e : run r i with
        | none => rfl
        | some p => rw [e] at hv; cases hv
      have := ih (r + 1) ((sched r).foldl Memory.write m)
      split at this
      · intro k hk
        cases k with
        | zero => exact ⟨i, hi, hn⟩
        | succ k =>
          obtain ⟨i', hi', h'⟩ := this k (by omega)
          exact ⟨i', hi', by rw [← h']; congr 1; omega⟩
      · obtain ⟨k, hk, h1, h2⟩ := this
        refine ⟨k + 1, by omega, ?_, ?_⟩
        · intro j hj
          cases j with
          | zero => exact ⟨i, hi, hn⟩
          | succ j =>
            obtain ⟨i', hi', h'⟩ := h1 j (by omega)
            exact ⟨i', hi', by rw [← h']; congr 1; omega⟩
        · have e : r + (k + 1) = r + 1 + k := by omega
          rw [e]; exact h2
    · rw [if_neg h]
      refine ⟨0, by omega, by simp, fun i hi => ?_⟩
      rw [Nat.add_zero]
      have hv : (run r i).isSome = true := by
        rw [← (hr i hi).1]
        by_contra hc
        exact h (checkPath_lt.2 ⟨i, hi, by simpa using hc⟩)
      refine ⟨hv, ?_⟩
      obtain ⟨p, hp⟩ := Option.isSome_iff_exists.1 hv
      rw [hp, (hr i hi).2 p hp]

theorem concat_fold (res : ℕ → Option (List P)) (f : ℕ → List P) (l : List ℕ) (h : ∀ i ∈ l, res i = some (f i)) (l0 : List P) :
    l.foldl (joinPath res) (some l0) = some (l0 ++ l.flatMap f) := by
  induction l generalizing l0 with
  | nil => simp
  | cons i l ih =>
    have e : joinPath res (some l0) i = some (l0 ++ f i) := by unfold joinPath; rw [h i (List.mem_cons_self ..)]
    rw [List.foldl_cons, e]
    rw [ih (fun j hj => h j (List.mem_cons_of_mem _ hj)), List.flatMap_cons, List.append_assoc]

theorem concatenate_spec (reduce : P → Q) (res : ℕ → Option (List P)) (n : ℕ) (hn : 1 ≤ n) (f : ℕ → List P) (h : ∀ i < n, res i = some (f i)) :
    concatenate reduce res n = some (((List.range n).flatMap f).map reduce) := by
  unfold concatenate
  rw [h 0 (by omega)]
  simp only
  rw [concat_fold res f _ (by intro i hi; apply h; simp at hi; omega), Option.map_some]
  obtain ⟨k, rfl⟩ : ∃ k, n = k + 1 := ⟨n - 1, by omega⟩
  rw [List.range_eq_range', List.range'_succ, List.flatMap_cons]
  simp

/-- C61: for 1 to 100 transitions and any schedules of the rounds: if some round (of those run) succeeds for all the pairs, the answer is the concatenation, in the order of the states, of the paths
of the first such round; otherwise the interpolation is still running. -/
theorem C61_result (reduce : P → Q) (n : ℕ) (h1 : 1 ≤ n) (h2 : n ≤ 100) (run : ℕ → ℕ → Option (List P)) (sched : ℕ → List (Write (List P))) (hs : Schedule n run sched)
    (m0 : Memory (List P)) (fuel : ℕ) :
    (∀ r < fuel, (∀ r' < r, ∃ i < n, run r' i = none) → ∀ f : ℕ → List P, (∀ i < n, run r i = some (f i)) → interpolate reduce n sched m0 fuel = .ok (((List.range n).flatMap f).map reduce)) ∧
    ((∀ r < fuel, ∃ i < n, run r i = none) → interpolate reduce n sched m0 fuel = .running) := by
  unfold interpolate
  rw [if_neg (by omega)]
  have h := rounds_spec hs fuel 0 m0
  simp only [Nat.zero_add] at h
  constructor
  · intro r hr hf f hok
    split at h <;> rename_i e <;> rw [e]
    · obtain ⟨i, hi, hn⟩ := h r hr
      rw [hok i hi] at hn; cases hn
    · obtain ⟨k, hk, h3, h4⟩ := h
      have hkr : k = r := by
        rcases lt_trichotomy k r with hlt | heq | hgt
        · obtain ⟨i, hi, hn⟩ := hf k hlt
          have := (h4 i hi).1; rw [hn] at this; cases this
        · exact heq
        · obtain ⟨i, hi, hn⟩ := h3 r hgt
          rw [hok i hi] at hn; cases hn
      subst hkr
      simp only
      rw [concatenate_spec reduce _ n h1 f (fun i hi => by rw [(h4 i hi).2, hok i hi])]
  · intro hf
    split at h <;> rename_i e <;> rw [e]
    obtain ⟨k, hk, -, h4⟩ := h
    obtain ⟨i, hi, hn⟩ := hf k hk
    have := (h4 i hi).1; rw [hn] at this; cases this

/-- C61: the answer does not depend on the schedules nor on the initial contents of the arrays. -/
theorem C61_schedule (reduce : P → Q) (n : ℕ) (h1 : 1 ≤ n) (h2 : n ≤ 100) (run : ℕ → ℕ → Option (List P)) (sched sched' : ℕ → List (Write (List P))) (hs : Schedule n run sched)
    (hs' : Schedule n run sched') (m0 m0' : Memory (List P)) (fuel : ℕ) : interpolate reduce n sched m0 fuel = interpolate reduce n sched' m0' fuel := by
  by_cases h : ∀ r < fuel, ∃ i < n, run r i = none
  · rw [(C61_result reduce n h1 h2 run sched hs m0 fuel).2 h, (C61_result reduce n h1 h2 run sched' hs' m0' fuel).2 h]
  · push Not at h
    classical
    obtain ⟨r, ⟨hr, hall⟩, hmin⟩ : ∃ r, (r < fuel ∧ ∀ i < n, run r i ≠ none) ∧ ∀ r' < r, ¬ (r' < fuel ∧ ∀ i < n, run r' i ≠ none) :=
      ⟨Nat.find h, Nat.find_spec h, fun r' hr' => Nat.find_min h hr'⟩
    have hf : ∀ r' < r, ∃ i < n, run r' i = none := by
      intro r' hr'
      have := hmin r' hr'
      push Not at this
      exact this (by omega)
    have hok : ∀ i < n, run r i = some ((run r i).getD []) := by
      intro i hi
      cases e : run r i with
      | none => exact absurd e (hall i hi)
      | some l => rfl
    rw [(C61_result reduce n h1 h2 run sched hs m0 fuel).1 r hr hf _ hok, (C61_result reduce n h1 h2 run sched' hs' m0' fuel).1 r hr hf _ hok]

/-- C61: it never returns while a pair cannot be solved, whatever the number of rounds. -/
theorem C61_waits (reduce : P → Q) (n : ℕ) (h2 : n ≤ 100) (run : ℕ → ℕ → Option (List P)) (sched : ℕ → List (Write (List P))) (hs : Schedule n run sched)
    (m0 : Memory (List P)) (i : ℕ) (hi : i < n) (h : ∀ r, run r i = none) (fuel : ℕ) : interpolate reduce n sched m0 fuel = .running :=
  (C61_result reduce n (by omega) h2 run sched hs m0 fuel).2 fun r _ => ⟨i, hi, h r⟩

/-- a list of elements leads from `a` to `b` -/
def Leads {C : Type _} (init fin : P → C) : C → List P → C → Prop
  | a, [], b => a = b
  | a, p :: l, b => init p = a ∧ Leads init fin (fin p) l b

theorem leads_append {C : Type _} {init fin : P → C} {a b c : C} {l l' : List P} (h : Leads init fin a l b) (h' : Leads init fin b l' c) : Leads init fin a (l ++ l') c := by
  induction l generalizing a with
  | nil => simp only [Leads] at h; subst h; exact h'
  | cons p l ih => exact ⟨h.1, ih h.2⟩

/-- C61: if the path of each pair leads from one state's configuration to the next one's, the answer without extra degree of freedom is continuous and leads from the first state to the last one. -/
theorem C61_leads {C : Type _} (init fin : Q → C) (reduce : P → Q) (n : ℕ) (h1 : 1 ≤ n) (h2 : n ≤ 100) (run : ℕ → ℕ → Option (List P)) (sched : ℕ → List (Write (List P)))
    (hs : Schedule n run sched) (m0 : Memory (List P)) (fuel : ℕ) (state : ℕ → C) (hrun : ∀ r i l, i < n → run r i = some l → Leads init fin (state i) (l.map reduce) (state (i + 1)))
    (l : List Q) (h : interpolate reduce n sched m0 fuel = .ok l) : Leads init fin (state 0) l (state n) := by
  by_cases hex : ∀ r < fuel, ∃ i < n, run r i = none
  · rw [(C61_result reduce n h1 h2 run sched hs m0 fuel).2 hex] at h; cases h
  · push Not at hex
    classical
    obtain ⟨r, ⟨hr, hall⟩, hmin⟩ : ∃ r, (r < fuel ∧ ∀ i < n, run r i ≠ none) ∧ ∀ r' < r, ¬ (r' < fuel ∧ ∀ i < n, run r' i ≠ none) :=
      ⟨Nat.find hex, Nat.find_spec hex, fun r' hr' => Nat.find_min hex hr'⟩
    have hf : ∀ r' < r, ∃ i < n, run r' i = none := by
      intro r' hr'
      have := hmin r' hr'
      push Not at this
      exact this (by omega)
    have hok : ∀ i < n, run r i = some ((run r i).getD []) := by
      intro i hi
      cases e : run r i with
      | none => exact absurd e (hall i hi)
      | some l => rfl
    rw [(C61_result reduce n h1 h2 run sched hs m0 fuel).1 r hr hf _ hok] at h
    cases h
    have : ∀ k ≤ n, Leads init fin (state 0) (((List.range k).flatMap fun i => (run r i).getD []).map reduce) (state k) := by
      intro k hk
      induction k with
      | zero => simp [Leads]
      | succ k ih =>
        rw [List.range_succ, List.flatMap_append, List.map_append]
        refine leads_append (ih (by omega)) ?_
        simp only [List.flatMap_cons, List.flatMap_nil, List.append_nil]
        exact hrun r k _ (by omega) (hok k (by omega))
    exact this n (le_refl _)

/-- C61: without any transition a null pointer is dereferenced, with more than 100 the arrays overflow. -/
theorem C61_bounds (reduce : P → Q) (sched : ℕ → List (Write (List P))) (valid : ℕ → Bool) (fuel : ℕ) (hs : ∀ r, sched r = []) :
    interpolate reduce 0 sched ⟨fun _ => none, valid⟩ (fuel + 1) = .null ∧ ∀ n > 100, ∀ m0, interpolate reduce n sched m0 fuel = .overflow := by
  constructor
  · unfold interpolate rounds
    simp [hs, checkPath, concatenate]
  · intro n hn m0
    unfold interpolate
    rw [if_pos hn]

/-- non-vacuity: two pairs, the second one of which succeeds only in the second round, written in reverse order -/
example : interpolate (id : ℕ → ℕ) 2 (fun r => (allWrites 2 (fun i => if i = 1 ∧ r = 0 then none else some [10 * r + i])).reverse) ⟨fun _ => none, fun _ => true⟩ 5 = .ok [10, 11] := by
  have hs : Schedule 2 (fun r i => if i = 1 ∧ r = 0 then none else some [10 * r + i]) (fun r => (allWrites 2 (fun i => if i = 1 ∧ r = 0 then none else some [10 * r + i])).reverse) :=
    fun r => List.reverse_perm _
  rw [(C61_result id 2 (by omega) (by omega) _ _ hs _ 5).1 1 (by omega) (by intro r' h; exact ⟨1, by omega, by simp; omega⟩) (fun i => [10 + i]) (by intro i hi; simp)]
  rfl

end Paths
end Rbprm
