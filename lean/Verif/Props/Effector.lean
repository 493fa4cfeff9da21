import Verif.Model.Effector
import Verif.Model.Interp
import Verif.Props.FullBody
import Mathlib.Algebra.Polynomial.Taylor
import Mathlib.Algebra.Order.Archimedean.Basic
import Mathlib.Tactic.FieldSimp
import Mathlib.Tactic.ComputeDegree
import Mathlib.Tactic.Positivity
import Mathlib.Tactic.IntervalCases
import Mathlib.Tactic.LinearCombination
import Mathlib.Tactic.NormNum
import Mathlib.Tactic.Linarith
import Mathlib.Algebra.Order.Field.Rat
set_option linter.unusedSectionVars false
/-!
# C124 - C127: trajectories of the moving effector
-/
namespace Rbprm
namespace Effector
open Polynomial Registry
variable {N K : Type _} [LinearOrder N] [Field K] [LinearOrder K] [IsStrictOrderedRing K]

/-! ## Specification -/

/-- the jet of an effector at rest -/
def rest (p : Vec3 K) : Jet K := ⟨p, 0, 0, 0⟩

/-- degree at most 4 -/
def Quartic (c : Curve K) : Prop := c.x.natDegree ≤ 4 ∧ c.y.natDegree ≤ 4 ∧ c.z.natDegree ≤ 4

/-- what the documentation of bezier-com-traj says of its functions: the predefined curves are Bézier curves with five control points that satisfy the four constraints at the end where the
effector is in contact and the position at the other end; the solver satisfies the constraints at both ends -/
structure Contract (lib : Lib K) : Prop where
  init : ∀ d T, 0 < T → Quartic (lib.initPredef d T) ∧ jet (lib.initPredef d T) 0 = ⟨d.c0, d.dc0, d.ddc0, d.j0⟩ ∧ deriv 0 (lib.initPredef d T) T = d.c1
  goal : ∀ d T, 0 < T → Quartic (lib.goalPredef d T) ∧ jet (lib.goalPredef d T) T = ⟨d.c1, d.dc1, d.ddc1, d.j1⟩ ∧ deriv 0 (lib.goalPredef d T) 0 = d.c0
  solve : ∀ f d T w c, 0 < T → lib.solve f d T w = some c → jet c 0 = ⟨d.c0, d.dc0, d.ddc0, d.j0⟩ ∧ jet c T = ⟨d.c1, d.dc1, d.ddc1, d.j1⟩

/-- the motion of an effector that leaves `start` in the direction `n0` and lands on `goal` in the direction `-n1`, up to `off` along the normals, in `total` seconds: at rest at both ends and without
discontinuity of position, velocity, acceleration and jerk -/
structure Smooth (p : Triple K) (off total : K) (n0 n1 start goal : Vec3 K) : Prop where
  durations : p.tTakeoff = 3 / 10 ∧ p.tLanding = 3 / 10 ∧ p.tTakeoff + p.tMid + p.tLanding = total
  begins : jet p.takeoff 0 = rest start
  ends : jet p.landing p.tLanding = rest goal
  leaves : jet p.takeoff p.tTakeoff = jet p.mid 0
  lands : jet p.mid p.tMid = jet p.landing 0
  takeoff : ∀ t, deriv 0 p.takeoff t = start + Vec3.smul (off * (t / p.tTakeoff) ^ 4) n0
  landing : ∀ t, deriv 0 p.landing t = goal + Vec3.smul (off * (1 - t / p.tLanding) ^ 4) n1

/-! ## C124: effector trajectory -/

/-- a polynomial of degree at most 4 with three vanishing derivatives at `r` -/
theorem quartic_eval (p : K[X]) (r S c c1 : K) (hS : S ≠ 0) (hd : p.natDegree ≤ 4) (h0 : (derivative^[0] p).eval r = c) (h1 : (derivative^[1] p).eval r = 0)
    (h2 : (derivative^[2] p).eval r = 0) (h3 : (derivative^[3] p).eval r = 0) (hT : (derivative^[0] p).eval (S + r) = c1) (s : K) :
    (derivative^[0] p).eval (s + r) = c + (c1 - c) * (s / S) ^ 4 := by
  have hasse : ∀ k, (derivative^[k] p).eval r = (k.factorial : K) * (taylor r p).coeff k := by
    intro k
    rw [taylor_coeff, ← factorial_smul_hasseDeriv]
    simp
  have key : ∀ s, (derivative^[0] p).eval (s + r) = c + (taylor r p).coeff 4 * s ^ 4 := by
    intro s
    have e : (derivative^[0] p).eval (s + r) = (taylor r p).eval s := by
      rw [taylor_eval]
      rfl
    have hn : (taylor r p).natDegree < 5 := by
      rw [natDegree_taylor]
      omega
    rw [e, eval_eq_sum_range' hn]
    have k0 := hasse 0
    have k1 := hasse 1
    have k2 := hasse 2
    have k3 := hasse 3
    rw [h0] at k0
    rw [h1] at k1
    rw [h2] at k2
    rw [h3] at k3
    have m0 : (taylor r p).coeff 0 = c := by rw [k0]; simp only [Nat.factorial_zero, Nat.cast_one, one_mul]
    have m1 : (taylor r p).coeff 1 = 0 := by
      have := k1.symm
      rwa [Nat.factorial_one, Nat.cast_one, one_mul] at this
    have m2 : (taylor r p).coeff 2 = 0 := (mul_eq_zero.1 k2.symm).resolve_left (by exact_mod_cast Nat.factorial_ne_zero 2)
    have m3 : (taylor r p).coeff 3 = 0 := (mul_eq_zero.1 k3.symm).resolve_left (by exact_mod_cast Nat.factorial_ne_zero 3)
    rw [Finset.sum_range_succ, Finset.sum_range_succ, Finset.sum_range_succ, Finset.sum_range_succ, Finset.sum_range_one, m0, m1, m2, m3]
    ring
  rw [key s]
  have := key S
  rw [hT] at this
  have e : (c1 - c) * (s / S) ^ 4 = (taylor r p).coeff 4 * s ^ 4 := by
    rw [this, div_pow]
    field_simp
    ring
  rw [e]

/-- the same for a curve -/
theorem curve_eval (c : Curve K) (r S : K) (q q1 : Vec3 K) (hS : S ≠ 0) (hd : Quartic c) (h : jet c r = rest q) (hT : deriv 0 c (S + r) = q1) (s : K) :
    deriv 0 c (s + r) = q + Vec3.smul ((s / S) ^ 4) (q1 - q) := by
  obtain ⟨hx, hy, hz⟩ := hd
  simp only [jet, rest, Jet.mk.injEq, deriv, Vec3.ext_iff, Vec3.zero_x, Vec3.zero_y, Vec3.zero_z] at h hT
  obtain ⟨⟨a1, a2, a3⟩, ⟨b1, b2, b3⟩, ⟨c1, c2, c3⟩, ⟨d1, d2, d3⟩⟩ := h
  obtain ⟨t1, t2, t3⟩ := hT
  ext
  · have := quartic_eval c.x r S _ _ hS hx a1 b1 c1 d1 t1 s
    simp only [deriv, Vec3.add_x, Vec3.smul_x, Vec3.sub_x]
    rw [this]
    ring
  · have := quartic_eval c.y r S _ _ hS hy a2 b2 c2 d2 t2 s
    simp only [deriv, Vec3.add_y, Vec3.smul_y, Vec3.sub_y]
    rw [this]
    ring
  · have := quartic_eval c.z r S _ _ hS hz a3 b3 c3 d3 t3 s
    simp only [deriv, Vec3.add_z, Vec3.smul_z, Vec3.sub_z]
    rw [this]
    ring

/-- all the trajectories built from a take-off and a landing -/
theorem smooth_of (lib : Lib K) (hl : Contract lib) (pMax comLength vel acc : K) (n0 n1 start goal : Vec3 K) (f : Flag) (w : K) (hlen : 7 / 10 < comLength) (p : Triple K)
    (h : bezierPath lib f w (prepare lib pMax comLength vel acc n0 n1 start goal) = some p) :
    Smooth p (posOffset pMax (comLength - 1 / 10) (3 / 10)) (comLength - 1 / 10) n0 n1 start goal := by
  have h3 : (0 : K) < 3 / 10 := by norm_num
  unfold bezierPath at h
  split at h
  · cases h
  · rename_i mid hm
    cases h
    have ht : (0 : K) < comLength - 2 * (1 / 20) - 2 * (3 / 10) := by linarith
    obtain ⟨m0, m1⟩ := hl.solve _ _ _ _ _ ht hm
    have e20 : comLength - 2 * (1 / 20) = comLength - 1 / 10 := by ring
    simp only [prepare, buildPredefined, if_true, Bool.false_eq_true, if_false, e20] at m0 m1 ⊢
    obtain ⟨iq, i0, i1⟩ := hl.init ⟨start, 0, 0, 0, start + Vec3.smul (posOffset pMax (comLength - 1 / 10) (3 / 10)) n0, Vec3.smul vel n0, Vec3.smul acc n0, 0⟩ (3 / 10) h3
    obtain ⟨gq, g1, g0⟩ := hl.goal ⟨goal + Vec3.smul (posOffset pMax (comLength - 1 / 10) (3 / 10)) n1, Vec3.smul (-vel) n1, Vec3.smul acc n1, 0, goal, 0, 0, 0⟩ (3 / 10) h3
    refine ⟨⟨rfl, rfl, by ring⟩, i0, g1, ?_, ?_, ?_, ?_⟩
    · rw [m0]
      simp only [jet, i1]
    · rw [m1]
      simp only [jet, g0]
    · intro t
      have := curve_eval _ 0 (3 / 10) start (start + Vec3.smul (posOffset pMax (comLength - 1 / 10) (3 / 10)) n0) h3.ne' iq i0 (by rw [add_zero]; exact i1) t
      rw [add_zero] at this
      simp only
      rw [this]
      ext <;> simp only [Vec3.add_x, Vec3.add_y, Vec3.add_z, Vec3.smul_x, Vec3.smul_y, Vec3.smul_z, Vec3.sub_x, Vec3.sub_y, Vec3.sub_z] <;> ring
    · intro t
      have := curve_eval _ (3 / 10) (-(3 / 10)) goal (goal + Vec3.smul (posOffset pMax (comLength - 1 / 10) (3 / 10)) n1) (neg_ne_zero.2 h3.ne') gq g1 (by rw [neg_add_cancel]; exact g0) (t - 3 / 10)
      rw [sub_add_cancel] at this
      simp only
      rw [this]
      have e : (t - 3 / 10) / (-(3 / 10)) = 1 - t / (3 / 10 : K) := by
        rw [div_neg, sub_div, div_self h3.ne']
        ring
      rw [e]
      ext <;> simp only [Vec3.add_x, Vec3.add_y, Vec3.add_z, Vec3.smul_x, Vec3.smul_y, Vec3.smul_z, Vec3.sub_x, Vec3.sub_y, Vec3.sub_z] <;> ring

/-- **C124 Effector trajectory**: for every path of the centre of mass of more than 0.7 s, the trajectory of the effector begins at rest at its position in the first state, goes straight along the
normal of the contact, is continuous up to the jerk, comes back straight along the normal of the new contact (the vertical for an effector without contact) and ends at rest at its position
in the second state, 0.1 s less than the path of the centre of mass; whatever the variables that are not initialised contain. -/
theorem C124_generate (lib : Lib K) (hl : Contract lib) (hrp2 : Bool) (comLength vel acc : K) (eff : N) (s0 s1 : State N K) (start goal : Vec3 K) (hlen : 7 / 10 < comLength) (p : Triple K)
    (h : generate lib hrp2 comLength vel acc eff s0 s1 start goal = some p) :
    ∃ n0 n1, (∀ n, s0.contactNormals.find? eff = some n → n0 = n) ∧ (s0.contactNormals.find? eff = none → n0 = ⟨0, 0, 1⟩) ∧
      (∀ n, s1.contactNormals.find? eff = some n → n1 = n) ∧ (s1.contactNormals.find? eff = none → n1 = ⟨0, 0, 1⟩) ∧
      Smooth p (posOffset (if hrp2 then 3 / 100 else 5 / 100) (comLength - 1 / 10) (3 / 10)) (comLength - 1 / 10) n0 n1 start goal := by
  refine ⟨_, _, ?_, ?_, ?_, ?_, smooth_of lib hl _ comLength vel acc _ _ start goal _ _ hlen p h⟩
  · intro n e
    simp only [getNormal, e]
  · intro e
    simp only [getNormal, e]
  · intro n e
    simp only [getNormal, e]
  · intro e
    simp only [getNormal, e]

/-- **C124**: the same for every reference given to the whole-body planner. -/
theorem C124_references (lib : Lib K) (hl : Contract lib) (comLength vel acc : K) (eff : N) (s0 s1 : State N K) (start goal : Vec3 K) (hlen : 7 / 10 < comLength) (refs : List (Reference K))
    (h : fit lib comLength vel acc eff s0 s1 start goal = some refs) (p : Triple K) (hp : .bezier p ∈ refs) :
    ∃ n0 n1, s0.contactNormals.find? eff = some n0 ∧ s1.contactNormals.find? eff = some n1 ∧
      Smooth p (posOffset (3 / 100) (comLength - 1 / 10) (3 / 10)) (comLength - 1 / 10) n0 n1 start goal := by
  unfold fit at h
  split at h
  · rename_i n0 n1 e0 e1
    cases h
    rw [List.mem_map] at hp
    obtain ⟨a, _, ha⟩ := hp
    unfold toReference at ha
    split at ha
    · rename_i q hq
      cases ha
      exact ⟨n0, n1, e0, e1, smooth_of lib hl _ comLength vel acc n0 n1 start goal _ _ hlen p hq⟩
    · cases ha
  · cases h

/-- **C124** the path itself: the effector is at its first position at the beginning and at the last one at the end. -/
theorem C124_path (p : Triple K) (off total : K) (n0 n1 start goal : Vec3 K) (h : Smooth p off total n0 n1 start goal) (ht : 0 ≤ p.tMid) :
    p.eval 0 = start ∧ p.eval total = goal ∧ p.eval p.tTakeoff = start + Vec3.smul off n0 ∧ p.eval (p.tTakeoff + p.tMid) = goal + Vec3.smul off n1 := by
  obtain ⟨d1, d2, d3⟩ := h.durations
  have h3 : (0 : K) < 3 / 10 := by norm_num
  have z4 : ∀ n : Vec3 K, Vec3.smul (off * 0) n = 0 := by
    intro n
    ext <;> simp
  have add0 : ∀ n : Vec3 K, n + 0 = n := by
    intro n
    ext <;> simp
  refine ⟨?_, ?_, ?_, ?_⟩
  · unfold Triple.eval
    rw [if_pos (by rw [d1]; exact h3), h.takeoff, zero_div, zero_pow (by norm_num), z4, add0]
  · unfold Triple.eval
    rw [if_neg (by rw [← d3, d2]; push Not; linarith), if_neg (by rw [← d3, d2]; push Not; linarith)]
    rw [h.landing, show total - p.tTakeoff - p.tMid = p.tLanding by rw [← d3]; ring, div_self (by rw [d2]; exact h3.ne'), sub_self, zero_pow (by norm_num), z4, add0]
  · unfold Triple.eval
    rw [if_neg (lt_irrefl _)]
    split_ifs with hm
    · have := h.leaves
      simp only [jet, Jet.mk.injEq] at this
      rw [sub_self, ← this.1, h.takeoff, div_self (by rw [d1]; exact h3.ne'), one_pow, mul_one]
    · have hm0 : p.tMid = 0 := le_antisymm (by linarith [not_lt.1 hm]) ht
      have l1 := h.leaves
      have l2 := h.lands
      rw [hm0] at l2 ⊢
      rw [← l1] at l2
      simp only [jet, Jet.mk.injEq] at l2
      rw [sub_self, sub_zero, ← l2.1, h.takeoff, div_self (by rw [d1]; exact h3.ne'), one_pow, mul_one]
  · unfold Triple.eval
    rw [if_neg (by push Not; linarith), if_neg (lt_irrefl _), show p.tTakeoff + p.tMid - p.tTakeoff - p.tMid = 0 by ring, h.landing, zero_div, sub_zero, one_pow, mul_one]

/-! ### a library that satisfies the contract -/

/-- Taylor polynomial -/
noncomputable def taylor3 (c v a j : K) : K[X] := C c + C v * X + C (a / 2) * X ^ 2 + C (j / 6) * X ^ 3
/-- five control points -/
noncomputable def initPoly (c v a j c1 T : K) : K[X] := taylor3 c v a j + C ((c1 - (taylor3 c v a j).eval T) / T ^ 4) * X ^ 4
/-- the same, at the other end -/
noncomputable def goalPoly (c0 c1 v a j T : K) : K[X] := (initPoly c1 v a j c0 (-T)).comp (X - C T)
/-- a polynomial of degree 7 with given jets at 0 and `T` -/
noncomputable def hermite (c v a j T e0 e1 e2 e3 : K) : K[X] :=
  let E0 := e0 - (c + v * T + a / 2 * T ^ 2 + j / 6 * T ^ 3)
  let E1 := e1 - (v + a * T + j / 2 * T ^ 2)
  let E2 := e2 - (a + j * T)
  let E3 := e3 - j
  let r0 := E0 / T ^ 4
  let r1 := (E1 - 4 * T ^ 3 * r0) / T ^ 4
  let r2 := (E2 - 12 * T ^ 2 * r0 - 8 * T ^ 3 * r1) / (2 * T ^ 4)
  let r3 := (E3 - 24 * T * r0 - 36 * T ^ 2 * r1 - 24 * T ^ 3 * r2) / (6 * T ^ 4)
  taylor3 c v a j + X ^ 4 * (C r0 + C r1 * (X - C T) + C r2 * (X - C T) ^ 2 + C r3 * (X - C T) ^ 3)

theorem initPoly_spec (c v a j c1 T : K) (hT : T ≠ 0) : (initPoly c v a j c1 T).natDegree ≤ 4 ∧ (derivative^[0] (initPoly c v a j c1 T)).eval 0 = c ∧
    (derivative^[1] (initPoly c v a j c1 T)).eval 0 = v ∧ (derivative^[2] (initPoly c v a j c1 T)).eval 0 = a ∧ (derivative^[3] (initPoly c v a j c1 T)).eval 0 = j ∧
    (derivative^[0] (initPoly c v a j c1 T)).eval T = c1 := by
  refine ⟨?_, ?_, ?_, ?_, ?_, ?_⟩
  · unfold initPoly taylor3
    compute_degree
  · simp [initPoly, taylor3]
  · simp [initPoly, taylor3]
  · simp [initPoly, taylor3]
    ring
  · simp [initPoly, taylor3]
    ring
  · have e : (derivative^[0] (initPoly c v a j c1 T)).eval T = (taylor3 c v a j).eval T + (c1 - (taylor3 c v a j).eval T) / T ^ 4 * T ^ 4 := by
      simp [initPoly]
    rw [e, div_mul_cancel₀ _ (pow_ne_zero 4 hT)]
    ring

theorem iterate_comp (p : K[X]) (T : K) (n : ℕ) : derivative^[n] (p.comp (X - C T)) = (derivative^[n] p).comp (X - C T) := by
  induction n generalizing p with
  | zero => rfl
  | succ n ih =>
    rw [Function.iterate_succ_apply, Function.iterate_succ_apply, derivative_comp, ← ih]
    simp

theorem goalPoly_spec (c0 c1 v a j T : K) (hT : T ≠ 0) : (goalPoly c0 c1 v a j T).natDegree ≤ 4 ∧ (derivative^[0] (goalPoly c0 c1 v a j T)).eval T = c1 ∧
    (derivative^[1] (goalPoly c0 c1 v a j T)).eval T = v ∧ (derivative^[2] (goalPoly c0 c1 v a j T)).eval T = a ∧ (derivative^[3] (goalPoly c0 c1 v a j T)).eval T = j ∧
    (derivative^[0] (goalPoly c0 c1 v a j T)).eval 0 = c0 := by
  obtain ⟨h, h0, h1, h2, h3, hc⟩ := initPoly_spec c1 v a j c0 (-T) (neg_ne_zero.2 hT)
  have ev : ∀ n t, (derivative^[n] (goalPoly c0 c1 v a j T)).eval t = (derivative^[n] (initPoly c1 v a j c0 (-T))).eval (t - T) := by
    intro n t
    rw [goalPoly, iterate_comp, eval_comp]
    simp
  refine ⟨?_, ?_, ?_, ?_, ?_, ?_⟩
  · rw [goalPoly]
    refine natDegree_comp_le.trans ?_
    rw [natDegree_X_sub_C, mul_one]
    exact h
  · rw [ev, sub_self, h0]
  · rw [ev, sub_self, h1]
  · rw [ev, sub_self, h2]
  · rw [ev, sub_self, h3]
  · rw [ev, zero_sub, hc]

theorem hermite_spec (c v a j T e0 e1 e2 e3 : K) (hT : T ≠ 0) :
    ((derivative^[0] (hermite c v a j T e0 e1 e2 e3)).eval 0 = c ∧ (derivative^[1] (hermite c v a j T e0 e1 e2 e3)).eval 0 = v ∧
      (derivative^[2] (hermite c v a j T e0 e1 e2 e3)).eval 0 = a ∧ (derivative^[3] (hermite c v a j T e0 e1 e2 e3)).eval 0 = j) ∧
    (derivative^[0] (hermite c v a j T e0 e1 e2 e3)).eval T = e0 ∧ (derivative^[1] (hermite c v a j T e0 e1 e2 e3)).eval T = e1 ∧
      (derivative^[2] (hermite c v a j T e0 e1 e2 e3)).eval T = e2 ∧ (derivative^[3] (hermite c v a j T e0 e1 e2 e3)).eval T = e3 := by
  have h4 : T ^ 4 ≠ 0 := pow_ne_zero 4 hT
  unfold hermite taylor3
  simp only
  generalize h0 : (e0 - (c + v * T + a / 2 * T ^ 2 + j / 6 * T ^ 3)) / T ^ 4 = r0
  generalize h1 : (e1 - (v + a * T + j / 2 * T ^ 2) - 4 * T ^ 3 * r0) / T ^ 4 = r1
  generalize h2 : (e2 - (a + j * T) - 12 * T ^ 2 * r0 - 8 * T ^ 3 * r1) / (2 * T ^ 4) = r2
  generalize h3 : (e3 - j - 24 * T * r0 - 36 * T ^ 2 * r1 - 24 * T ^ 3 * r2) / (6 * T ^ 4) = r3
  rw [div_eq_iff h4] at h0 h1
  rw [div_eq_iff (mul_ne_zero two_ne_zero h4)] at h2
  rw [div_eq_iff (mul_ne_zero (by norm_num) h4)] at h3
  refine ⟨⟨?_, ?_, ?_, ?_⟩, ?_, ?_, ?_, ?_⟩
  · simp
  · simp
  · simp
    ring
  · simp
    ring
  · simp
    linear_combination -h0
  · simp [derivative_pow]
    linear_combination -h1
  · simp [derivative_pow]
    linear_combination -h2
  · simp [derivative_pow]
    linear_combination -h3

/-- a library -/
noncomputable def demoLib : Lib K where
  initPredef d T := ⟨initPoly d.c0.x d.dc0.x d.ddc0.x d.j0.x d.c1.x T, initPoly d.c0.y d.dc0.y d.ddc0.y d.j0.y d.c1.y T, initPoly d.c0.z d.dc0.z d.ddc0.z d.j0.z d.c1.z T⟩
  goalPredef d T := ⟨goalPoly d.c0.x d.c1.x d.dc1.x d.ddc1.x d.j1.x T, goalPoly d.c0.y d.c1.y d.dc1.y d.ddc1.y d.j1.y T, goalPoly d.c0.z d.c1.z d.dc1.z d.ddc1.z d.j1.z T⟩
  solve _ d T _ := some ⟨hermite d.c0.x d.dc0.x d.ddc0.x d.j0.x T d.c1.x d.dc1.x d.ddc1.x d.j1.x, hermite d.c0.y d.dc0.y d.ddc0.y d.j0.y T d.c1.y d.dc1.y d.ddc1.y d.j1.y,
    hermite d.c0.z d.dc0.z d.ddc0.z d.j0.z T d.c1.z d.dc1.z d.ddc1.z d.j1.z⟩

/-- the contract can be satisfied -/
theorem demoLib_contract : Contract (demoLib (K := K)) := by
  refine ⟨fun d T hT => ?_, fun d T hT => ?_, fun f d T w c hT h => ?_⟩
  · obtain ⟨x, x0, x1, x2, x3, x4⟩ := initPoly_spec d.c0.x d.dc0.x d.ddc0.x d.j0.x d.c1.x T hT.ne'
    obtain ⟨y, y0, y1, y2, y3, y4⟩ := initPoly_spec d.c0.y d.dc0.y d.ddc0.y d.j0.y d.c1.y T hT.ne'
    obtain ⟨z, z0, z1, z2, z3, z4⟩ := initPoly_spec d.c0.z d.dc0.z d.ddc0.z d.j0.z d.c1.z T hT.ne'
    refine ⟨⟨x, y, z⟩, ?_, ?_⟩
    · simp only [jet, deriv, demoLib, x0, x1, x2, x3, y0, y1, y2, y3, z0, z1, z2, z3]
    · simp only [deriv, demoLib, x4, y4, z4]
  · obtain ⟨x, x0, x1, x2, x3, x4⟩ := goalPoly_spec d.c0.x d.c1.x d.dc1.x d.ddc1.x d.j1.x T hT.ne'
    obtain ⟨y, y0, y1, y2, y3, y4⟩ := goalPoly_spec d.c0.y d.c1.y d.dc1.y d.ddc1.y d.j1.y T hT.ne'
    obtain ⟨z, z0, z1, z2, z3, z4⟩ := goalPoly_spec d.c0.z d.c1.z d.dc1.z d.ddc1.z d.j1.z T hT.ne'
    refine ⟨⟨x, y, z⟩, ?_, ?_⟩
    · simp only [jet, deriv, demoLib, x0, x1, x2, x3, y0, y1, y2, y3, z0, z1, z2, z3]
    · simp only [deriv, demoLib, x4, y4, z4]
  · obtain ⟨⟨x0, x1, x2, x3⟩, x4, x5, x6, x7⟩ := hermite_spec d.c0.x d.dc0.x d.ddc0.x d.j0.x T d.c1.x d.dc1.x d.ddc1.x d.j1.x hT.ne'
    obtain ⟨⟨y0, y1, y2, y3⟩, y4, y5, y6, y7⟩ := hermite_spec d.c0.y d.dc0.y d.ddc0.y d.j0.y T d.c1.y d.dc1.y d.ddc1.y d.j1.y hT.ne'
    obtain ⟨⟨z0, z1, z2, z3⟩, z4, z5, z6, z7⟩ := hermite_spec d.c0.z d.dc0.z d.ddc0.z d.j0.z T d.c1.z d.dc1.z d.ddc1.z d.j1.z hT.ne'
    simp only [demoLib, Option.some.injEq] at h
    subst h
    refine ⟨?_, ?_⟩
    · simp only [jet, deriv, x0, x1, x2, x3, y0, y1, y2, y3, z0, z1, z2, z3]
    · simp only [jet, deriv, x4, x5, x6, x7, y4, y5, y6, y7, z4, z5, z6, z7]

/-- a state with a contact at a distance `d` -/
def stepAt (d : ℚ) : State ℕ ℚ := ⟨[], [(1, true)], [(1, ⟨0, 0, 1⟩)], [(1, ⟨d, 0, 0⟩)], [(1, Mat3.one)], [1], 1, true, 0⟩

/-- the hypotheses of `C124_generate` are met -/
example : ∃ (p : Triple ℚ), generate (demoLib (K := ℚ)) true 2 7 8 1 (stepAt 0) (stepAt 1) ⟨0, 0, 0⟩ ⟨1, 0, 0⟩ = some p ∧ (7 / 10 : ℚ) < 2 :=
  ⟨_, rfl, by norm_num⟩

/-- the hypotheses of `C124_references` are met -/
example : ∃ (refs : List (Reference ℚ)) (p : Triple ℚ), fit (demoLib (K := ℚ)) 2 7 8 1 (stepAt 0) (stepAt 1) ⟨0, 0, 0⟩ ⟨1, 0, 0⟩ = some refs ∧ .bezier p ∈ refs :=
  ⟨_, _, rfl, List.mem_cons_self⟩

/-! ## C125: height and durations of the take-off -/

/-- the offset in terms of half the duration of the middle curve, in units of the take-off -/
theorem posOffset_eq (pMax r : K) : posOffset pMax (3 / 5 + 3 / 5 * r) (3 / 10) = pMax / (1 + 4 * r + 6 * r ^ 2 - r ^ 3) := by
  unfold posOffset
  ring_nf

/-- **C125 Height of the take-off**: for a path of the centre of mass between 0.7 s and 4.3 s, the effector leaves its contact in the direction of the normal, by at most the maximal height. -/
theorem C125_offset (pMax comLength : K) (hp : 0 < pMax) (h0 : 7 / 10 ≤ comLength) (h1 : comLength ≤ 43 / 10) :
    0 < posOffset pMax (comLength - 1 / 10) (3 / 10) ∧ posOffset pMax (comLength - 1 / 10) (3 / 10) ≤ pMax := by
  obtain ⟨r, hr⟩ : ∃ r, comLength - 1 / 10 = 3 / 5 + 3 / 5 * r := ⟨(comLength - 7 / 10) * (5 / 3), by ring⟩
  have r0 : 0 ≤ r := by linarith
  have r6 : r ≤ 6 := by linarith
  rw [hr, posOffset_eq]
  have hd : 1 ≤ 1 + 4 * r + 6 * r ^ 2 - r ^ 3 := by
    nlinarith [mul_nonneg (mul_nonneg r0 r0) (sub_nonneg.2 r6)]
  refine ⟨div_pos hp (by linarith), (div_le_iff₀ (by linarith)).2 ?_⟩
  nlinarith

/-- **C125**: the height along the normal never decreases during the take-off and never increases during the landing. -/
theorem C125_monotone (p : Triple K) (off total : K) (n0 n1 start goal : Vec3 K) (h : Smooth p off total n0 n1 start goal) (ho : 0 ≤ off) (t t' : K) (h0 : 0 ≤ t) (ht : t ≤ t') (h1 : t' ≤ 3 / 10) :
    Vec3.dot (deriv 0 p.takeoff t - start) n0 ≤ Vec3.dot (deriv 0 p.takeoff t' - start) n0 ∧ Vec3.dot (deriv 0 p.landing t' - goal) n1 ≤ Vec3.dot (deriv 0 p.landing t - goal) n1 ∧
      0 ≤ Vec3.dot (deriv 0 p.takeoff t - start) n0 ∧ 0 ≤ Vec3.dot (deriv 0 p.landing t - goal) n1 := by
  have e : ∀ (k : K) (a n : Vec3 K), Vec3.dot (a + Vec3.smul k n - a) n = k * Vec3.normSq n := by
    intro k a n
    simp only [Vec3.dot, Vec3.normSq, Vec3.sub_x, Vec3.sub_y, Vec3.sub_z, Vec3.add_x, Vec3.add_y, Vec3.add_z, Vec3.smul_x, Vec3.smul_y, Vec3.smul_z]
    ring
  have nn : ∀ n : Vec3 K, 0 ≤ Vec3.normSq n := by
    intro n
    simp only [Vec3.normSq, Vec3.dot]
    nlinarith [mul_self_nonneg n.x, mul_self_nonneg n.y, mul_self_nonneg n.z]
  obtain ⟨d1, d2, -⟩ := h.durations
  have h3 : (0 : K) < 3 / 10 := by norm_num
  rw [h.takeoff, h.takeoff, h.landing, h.landing, e, e, e, e, d1, d2]
  have a0 : 0 ≤ t / (3 / 10) := div_nonneg h0 h3.le
  have a1 : t / (3 / 10) ≤ t' / (3 / 10) := div_le_div_of_nonneg_right ht h3.le
  have a2 : t' / (3 / 10) ≤ 1 := (div_le_one h3).2 h1
  refine ⟨?_, ?_, ?_, ?_⟩
  · exact mul_le_mul_of_nonneg_right (mul_le_mul_of_nonneg_left (pow_le_pow_left₀ a0 a1 4) ho) (nn _)
  · exact mul_le_mul_of_nonneg_right (mul_le_mul_of_nonneg_left (pow_le_pow_left₀ (by linarith) (by linarith) 4) ho) (nn _)
  · exact mul_nonneg (mul_nonneg ho (pow_nonneg a0 4)) (nn _)
  · exact mul_nonneg (mul_nonneg ho (pow_nonneg (by linarith) 4)) (nn _)

/-- **C125 is violated** for slow motions: for a path of the centre of mass of 4.9 s or more the offset is negative: during its take-off and its landing the effector goes into the obstacle. -/
theorem C125_slow_violated (lib : Lib K) (hl : Contract lib) (hrp2 : Bool) (comLength vel acc : K) (eff : N) (s0 s1 : State N K) (start goal n0 : Vec3 K) (hlen : 49 / 10 ≤ comLength) (p : Triple K)
    (h : generate lib hrp2 comLength vel acc eff s0 s1 start goal = some p) (hn : s0.contactNormals.find? eff = some n0) (h0 : Vec3.normSq n0 = 1) (t : K) (ht : 0 < t) :
    posOffset (if hrp2 then 3 / 100 else 5 / 100) (comLength - 1 / 10) (3 / 10) < 0 ∧ Vec3.dot (deriv 0 p.takeoff t - start) n0 < 0 := by
  obtain ⟨n0', n1, e0, -, -, -, hs⟩ := C124_generate lib hl hrp2 comLength vel acc eff s0 s1 start goal (by linarith) p h
  rw [e0 n0 hn] at hs
  have hneg : posOffset (if hrp2 then 3 / 100 else 5 / 100) (comLength - 1 / 10) (3 / 10) < 0 := by
    obtain ⟨r, hr⟩ : ∃ r, comLength - 1 / 10 = 3 / 5 + 3 / 5 * r := ⟨(comLength - 7 / 10) * (5 / 3), by ring⟩
    have r7 : 7 ≤ r := by linarith
    rw [hr, posOffset_eq]
    refine div_neg_of_pos_of_neg (by split_ifs <;> norm_num) ?_
    have : 1 + 4 * r + 6 * r ^ 2 - r ^ 3 = 1 - 3 * r - r * ((r - 7) + r * (r - 7)) := by ring
    rw [this]
    have := mul_nonneg (by linarith : (0 : K) ≤ r) (add_nonneg (sub_nonneg.2 r7) (mul_nonneg (by linarith : (0 : K) ≤ r) (sub_nonneg.2 r7)))
    linarith
  refine ⟨hneg, ?_⟩
  rw [hs.takeoff, hs.durations.1]
  have e : ∀ (k : K) (a n : Vec3 K), Vec3.dot (a + Vec3.smul k n - a) n = k * Vec3.normSq n := by
    intro k a n
    simp only [Vec3.dot, Vec3.normSq, Vec3.sub_x, Vec3.sub_y, Vec3.sub_z, Vec3.add_x, Vec3.add_y, Vec3.add_z, Vec3.smul_x, Vec3.smul_y, Vec3.smul_z]
    ring
  rw [e, h0, mul_one]
  have h3 : (0 : K) < 3 / 10 := by norm_num
  exact mul_neg_of_neg_of_pos hneg (pow_pos (div_pos ht h3) 4)

/-- **C125 is violated** for fast motions: for a path of the centre of mass of less than 0.7 s the middle curve has a negative duration. -/
theorem C125_fast_violated (lib : Lib K) (hrp2 : Bool) (comLength vel acc : K) (eff : N) (s0 s1 : State N K) (start goal : Vec3 K) (hlen : comLength < 7 / 10) (p : Triple K)
    (h : generate lib hrp2 comLength vel acc eff s0 s1 start goal = some p) : p.tMid < 0 := by
  unfold generate bezierPath at h
  split at h
  · cases h
  · cases h
    simp only [prepare]
    linarith

/-- **C125 is violated** for the delay: the comment says that the effector does not move during 0.05 s, but the reference (0.1 s shorter) is spread over the whole path of the centre of mass: the
effector is constrained to leave its contact at once. -/
theorem C125_delay_violated (lib : Lib K) (hl : Contract lib) (comLength vel acc : K) (eff : N) (s0 s1 : State N K) (start goal : Vec3 K) (hlen : 7 / 10 < comLength) (h43 : comLength ≤ 43 / 10)
    (refs : List (Reference K)) (h : fit lib comLength vel acc eff s0 s1 start goal = some refs) (p : Triple K) (hp : .bezier p ∈ refs)
    (hn : ∀ n, s0.contactNormals.find? eff = some n → Vec3.normSq n = 1) (u : K) (hu : 0 < u) (hd : u * comLength ≤ 1 / 20) :
    Interp.rhs ⟨0, comLength - 1 / 10, p.eval⟩ u ≠ start := by
  obtain ⟨n0, n1, e0, -, hs⟩ := C124_references lib hl comLength vel acc eff s0 s1 start goal hlen refs h p hp
  have ho := (C125_offset (3 / 100) comLength (by norm_num) hlen.le h43).1
  have hlt : (comLength - 1 / 10 - 0) * u + 0 < p.tTakeoff := by
    rw [hs.durations.1]
    nlinarith
  intro he
  have hr : Interp.rhs ⟨0, comLength - 1 / 10, p.eval⟩ u = p.eval ((comLength - 1 / 10 - 0) * u + 0) := rfl
  rw [hr, Triple.eval, if_pos hlt, hs.takeoff] at he
  have hk : 0 < posOffset (3 / 100) (comLength - 1 / 10) (3 / 10) * (((comLength - 1 / 10 - 0) * u + 0) / p.tTakeoff) ^ 4 := by
    refine mul_pos ho (pow_pos (div_pos ?_ ?_) 4)
    · have : 0 < (comLength - 1 / 10) * u := mul_pos (by linarith) hu
      linarith
    · rw [hs.durations.1]
      norm_num
  generalize posOffset (3 / 100) (comLength - 1 / 10) (3 / 10) * (((comLength - 1 / 10 - 0) * u + 0) / p.tTakeoff) ^ 4 = k at hk he
  have h1 := hn n0 e0
  simp only [Vec3.ext_iff, Vec3.add_x, Vec3.add_y, Vec3.add_z, Vec3.smul_x, Vec3.smul_y, Vec3.smul_z, add_eq_left, mul_eq_zero, hk.ne', false_or] at he
  simp [Vec3.normSq, Vec3.dot, he.1, he.2.1, he.2.2] at h1

/-! ## C126: choice of the reference -/

section choice
variable {P L C F : Type _}

/-- the `k`-th attempt succeeds after failures -/
theorem search_found (follow : ℕ → Reference K → Follow P) (i : ℕ) (refs : List (Reference K)) (j : ℕ) (r : Reference K) (p : P) :
    search follow i refs = .found j r p ↔ ∃ k, j = i + k ∧ refs[k]? = some r ∧ follow j r = .path p ∧ ∀ k' < k, ∃ r', refs[k']? = some r' ∧ follow (i + k') r' = .throws := by
  induction refs generalizing i with
  | nil => simp [search]
  | cons a l ih =>
    unfold search
    constructor
    · intro h
      split at h
      · rename_i q hq
        cases h
        exact ⟨0, rfl, rfl, hq, fun k' h => absurd h (by omega)⟩
      · rename_i hq
        obtain ⟨k, h1, h2, h3, h4⟩ := (ih (i + 1)).1 h
        refine ⟨k + 1, by omega, h2, h3, fun k' hk => ?_⟩
        cases k' with
        | zero => exact ⟨a, rfl, hq⟩
        | succ k' =>
          obtain ⟨r', e1, e2⟩ := h4 k' (by omega)
          exact ⟨r', e1, by rw [show i + (k' + 1) = i + 1 + k' by omega]; exact e2⟩
      · cases h
    · rintro ⟨k, h1, h2, h3, h4⟩
      cases k with
      | zero =>
        simp only [List.getElem?_cons_zero, Option.some.injEq] at h2
        subst h2
        simp only [add_zero] at h1
        subst h1
        rw [h3]
      | succ k =>
        obtain ⟨r', e1, e2⟩ := h4 0 (by omega)
        simp only [List.getElem?_cons_zero, Option.some.injEq] at e1
        subst e1
        simp only [add_zero] at e2
        rw [e2]
        refine (ih (i + 1)).2 ⟨k, by omega, h2, h3, fun k' hk => ?_⟩
        obtain ⟨r', e1, e2⟩ := h4 (k' + 1) (by omega)
        exact ⟨r', e1, by rw [show i + 1 + k' = i + (k' + 1) by omega]; exact e2⟩

/-- no attempt succeeds -/
theorem search_none (follow : ℕ → Reference K → Follow P) (i : ℕ) (refs : List (Reference K)) :
    search follow i refs = .none ↔ ∀ k r, refs[k]? = some r → follow (i + k) r = .throws := by
  induction refs generalizing i with
  | nil => simp [search]
  | cons a l ih =>
    unfold search
    constructor
    · intro h k r hk
      split at h
      · cases h
      · rename_i hq
        cases k with
        | zero =>
          simp only [List.getElem?_cons_zero, Option.some.injEq] at hk
          subst hk
          exact hq
        | succ k =>
          rw [show i + (k + 1) = i + 1 + k by omega]
          exact (ih (i + 1)).1 h k r hk
      · cases h
    · intro h
      have h0 := h 0 a rfl
      simp only [add_zero] at h0
      rw [h0]
      refine (ih (i + 1)).2 fun k r hk => ?_
      rw [show i + 1 + k = i + (k + 1) by omega]
      exact h (k + 1) r hk

/-- what is stored after trajectories were added -/
theorem stored {T : Type _} (fb : FullBody N L C F T) (i : ℕ) (f : N) (l : List T) (p : ℕ) (e : N) :
    getEffectorTrajectory (addEffectorTrajectories fb i f l).2 p e = if i = p ∧ f = e then some ((getEffectorTrajectory fb p e).getD l) else getEffectorTrajectory fb p e :=
  traj_step f fb (.addTrajectories i f l) p e

/-- the middle curve of an attempt, with the constraints of the take-off and of the landing -/
noncomputable def attempt (lib : Lib K) (comLength vel acc : K) (n0 n1 start goal : Vec3 K) (k : ℕ) : Option (Reference K) :=
  (attempts[k]?).map fun a => toReference (bezierPath lib a.1 a.2 (prepare lib (3 / 100) comLength vel acc n0 n1 start goal))

/-- **C126 Choice of the reference**: the attempts are made with one, then three, then five free way points, each time with an increasing weight of the whole-body path (0 only the first time). -/
theorem C126_attempts : (attempts : List (Flag × K)).length = 19 ∧ (attempts : List (Flag × K))[0]? = some (.one, 0) ∧
    (∀ k f w, (attempts : List (Flag × K))[k]? = some (f, w) → (f = .one ↔ k < 7) ∧ (f = .three ↔ 7 ≤ k ∧ k < 13) ∧ (f = .five ↔ 13 ≤ k ∧ k < 19) ∧ 0 ≤ w ∧ w ≤ 1 ∧ (w = 0 ↔ k = 0)) ∧
    (∀ k f w w', (attempts : List (Flag × K))[k]? = some (f, w) → (attempts : List (Flag × K))[k + 1]? = some (f, w') → w < w') := by
  refine ⟨rfl, rfl, ?_, ?_⟩
  · intro k f w h
    have hk : k < 19 := by
      by_contra hc
      rw [List.getElem?_eq_none (by show 19 ≤ k; omega)] at h
      cases h
    interval_cases k <;> (cases h; norm_num; decide)
  · intro k f w w' h h'
    have hk : k < 18 := by
      by_contra hc
      rw [List.getElem?_eq_none (by show 19 ≤ k + 1; omega)] at h'
      cases h'
    interval_cases k <;> first | (cases h; cases h'; norm_num) | (cases h; cases h')

/-- **C126**: when the call returns, either it is the first path that follows one of the references, all the former ones having failed, its reference is added to the paths of the problem and
its three curves are stored for the effector under the number that the returned path gets if it is the next one added (if nothing is stored there yet); or all 19 attempts failed and the
given whole-body path is returned and nothing is stored. -/
theorem C126_returns (lib : Lib K) (comLength vel acc : K) (eff frame : N) (s0 s1 : State N K) (start goal n0 n1 : Vec3 K) (follow : ℕ → Reference K → Follow P) (wholeBody : P)
    (w w' : World N L C F P K) (path : P) (e0 : s0.contactNormals.find? eff = some n0) (e1 : s1.contactNormals.find? eff = some n1)
    (h : fromPath lib comLength vel acc eff frame s0 s1 start goal follow wholeBody w = .returns path w') :
    (∃ k p, attempt lib comLength vel acc n0 n1 start goal k = some (.bezier p) ∧ follow k (.bezier p) = .path path ∧
        (∀ k' < k, ∃ r, attempt lib comLength vel acc n0 n1 start goal k' = some r ∧ follow k' r = .throws) ∧
        w'.paths = w.paths ++ [.effector p] ∧
        (∀ saved, ((w'.paths ++ [Saved.wholeBody saved])[w.paths.length + 1]? = some (.wholeBody saved))) ∧
        (getEffectorTrajectory w.body (w.paths.length + 1) frame = none → getEffectorTrajectory w'.body (w.paths.length + 1) frame = some [p.takeoff, p.mid, p.landing]) ∧
        ∀ i e, (i ≠ w.paths.length + 1 ∨ e ≠ frame) → getEffectorTrajectory w'.body i e = getEffectorTrajectory w.body i e) ∨
      ((∀ k < 19, ∃ r, attempt lib comLength vel acc n0 n1 start goal k = some r ∧ follow k r = .throws) ∧ path = wholeBody ∧ w' = w) := by
  unfold fromPath fit at h
  rw [e0, e1] at h
  simp only at h
  have att : ∀ k, (attempts.map fun a => toReference (bezierPath lib a.1 a.2 (prepare lib (3 / 100) comLength vel acc n0 n1 start goal)))[k]? = attempt lib comLength vel acc n0 n1 start goal k := by
    intro k
    rw [List.getElem?_map]
    rfl
  split at h
  · cases h
  · rename_i hs
    cases h
    rw [search_none] at hs
    refine Or.inr ⟨fun k hk => ?_, rfl, rfl⟩
    have hl : k < (attempts : List (Flag × K)).length := hk
    refine ⟨toReference (bezierPath lib (attempts[k]).1 (attempts[k]).2 (prepare lib (3 / 100) comLength vel acc n0 n1 start goal)), ?_, ?_⟩
    · rw [attempt, List.getElem?_eq_getElem hl]
      rfl
    · have := hs k _ (by rw [att, attempt, List.getElem?_eq_getElem hl]; rfl)
      rwa [zero_add] at this
  · cases h
  · rename_i j p q hs
    cases h
    rw [search_found] at hs
    obtain ⟨k, hj, hr, hf, hk⟩ := hs
    rw [zero_add] at hj
    subst hj
    refine Or.inl ⟨j, p, by rw [← att]; exact hr, hf, ?_, rfl, ?_, ?_, ?_⟩
    · intro k' hk'
      obtain ⟨r, a, b⟩ := hk k' hk'
      rw [zero_add] at b
      exact ⟨r, by rw [← att]; exact a, b⟩
    · intro saved
      simp
    · intro hn
      rw [stored, if_pos ⟨by simp, rfl⟩, hn]
      rfl
    · intro i e hie
      rw [stored, if_neg]
      rintro ⟨hi, he⟩
      rw [List.length_append, List.length_singleton] at hi
      rcases hie with hie | hie
      · exact hie hi.symm
      · exact hie he.symm

/-- the hypotheses of `C126_returns` are met: here the first two attempts fail -/
example : ∃ w', fromPath (L := ℕ) (C := ℕ) (F := ℕ) (demoLib (K := ℚ)) 2 7 8 1 5 (stepAt 0) (stepAt 1) ⟨0, 0, 0⟩ ⟨1, 0, 0⟩ (fun k _ => if k = 2 then .path (100 : ℕ) else .throws) 50
    ⟨[], FullBody.create []⟩ = .returns 100 w' := ⟨_, rfl⟩

/-- **C126**: the call returns as soon as an attempt succeeds and the earlier ones threw. -/
theorem C126_complete (lib : Lib K) (comLength vel acc : K) (eff frame : N) (s0 s1 : State N K) (start goal n0 n1 : Vec3 K) (follow : ℕ → Reference K → Follow P) (wholeBody : P)
    (w : World N L C F P K) (e0 : s0.contactNormals.find? eff = some n0) (e1 : s1.contactNormals.find? eff = some n1) (k : ℕ) (p : Triple K) (path : P)
    (hk : attempt lib comLength vel acc n0 n1 start goal k = some (.bezier p)) (hf : follow k (.bezier p) = .path path)
    (hb : ∀ k' < k, ∃ r, attempt lib comLength vel acc n0 n1 start goal k' = some r ∧ follow k' r = .throws) :
    ∃ w', fromPath lib comLength vel acc eff frame s0 s1 start goal follow wholeBody w = .returns path w' := by
  unfold fromPath fit
  rw [e0, e1]
  simp only
  have att : ∀ k, (attempts.map fun a => toReference (bezierPath lib a.1 a.2 (prepare lib (3 / 100) comLength vel acc n0 n1 start goal)))[k]? = attempt lib comLength vel acc n0 n1 start goal k := by
    intro k
    rw [List.getElem?_map]
    rfl
  have hs := (search_found follow 0 (attempts.map fun a => toReference (bezierPath lib a.1 a.2 (prepare lib (3 / 100) comLength vel acc n0 n1 start goal))) k (.bezier p) path).2
    ⟨k, (zero_add k).symm, by rw [att, hk], hf, fun k' h' => by
      obtain ⟨r, a, b⟩ := hb k' h'
      exact ⟨r, by rw [att, a], by rw [zero_add]; exact b⟩⟩
  rw [hs]
  exact ⟨_, rfl⟩

/-- **C126**: when the effector moves by less than 3 cm, the path of comRRT is returned and is the last path of the problem; nothing is stored. -/
theorem C126_still (lib : Lib K) (comLength vel acc : K) (eff frame : N) (s0 s1 : State N K) (start goal : Vec3 K) (follow : ℕ → Reference K → Follow P) (p : P) (w : World N L C F P K)
    (h : State.effectorDistanceSq s0 s1 < (3 / 100) ^ 2) :
    ∃ w', effectorRRT lib comLength vel acc eff frame s0 s1 start goal follow (some p) w = .returns p w' ∧ w'.paths.getLast? = some (.wholeBody p) ∧ w'.body = w.body := by
  refine ⟨⟨w.paths ++ [.wholeBody p], w.body⟩, ?_, ?_, rfl⟩
  · unfold effectorRRT
    simp only
    rw [if_pos (by norm_num at h ⊢; exact h)]
  · simp

example : State.effectorDistanceSq (stepAt 0) (stepAt (1 / 50)) < (3 / 100) ^ 2 := by decide +kernel

/-- **C126 is violated** for solver failures: a reference for which the solver failed is replaced by the whole-body path, and if the motion along it is found, the three curves are read from a
path that has one (here the solver always fails and the first attempt is followed). -/
theorem C126_solver_violated (lib : Lib K) (comLength vel acc : K) (eff frame : N) (s0 s1 : State N K) (start goal n0 n1 : Vec3 K) (follow : ℕ → Reference K → Follow P) (wholeBody path : P)
    (w : World N L C F P K) (e0 : s0.contactNormals.find? eff = some n0) (e1 : s1.contactNormals.find? eff = some n1) (hs : ∀ d T, lib.solve .one d T 0 = none)
    (hf : follow 0 .wholeBody = .path path) : fromPath lib comLength vel acc eff frame s0 s1 start goal follow wholeBody w = .undefined := by
  unfold fromPath fit
  rw [e0, e1]
  simp only [attempts, weights, List.map_cons, List.cons_append, bezierPath, hs, toReference, search, hf]

/-- **C126 is violated** for new contacts: when the effector is not in contact in the first state (which then has no normal), the call throws if the effector moves, although a trajectory can be
computed (`generateEndEffectorBezier` uses the vertical). -/
theorem C126_normal_violated (lib : Lib K) (comLength vel acc : K) (eff frame : N) (s0 s1 : State N K) (start goal : Vec3 K) (follow : ℕ → Reference K → Follow P) (wholeBody : P)
    (w : World N L C F P K) (e0 : s0.contactNormals.find? eff = none) :
    fromPath lib comLength vel acc eff frame s0 s1 start goal follow wholeBody w = .throws ∧
    ∃ p, generate demoLib true comLength vel acc eff s0 s1 start goal = some p := by
  refine ⟨?_, _, rfl⟩
  unfold fromPath fit
  rw [e0]

/-- **C126 is violated** when the returned path is not added: a trajectory of the same effector computed next gets the number under which the first one is stored, which is kept: the curves
read for the new path are the old ones. -/
theorem C126_stale_violated (lib : Lib K) (comLength vel acc : K) (eff frame : N) (s0 s1 : State N K) (start goal n0 n1 : Vec3 K) (follow : ℕ → Reference K → Follow P) (wholeBody : P)
    (w w' : World N L C F P K) (path : P) (e0 : s0.contactNormals.find? eff = some n0) (e1 : s1.contactNormals.find? eff = some n1)
    (h : fromPath lib comLength vel acc eff frame s0 s1 start goal follow wholeBody w = .returns path w') (hf : ∃ k r, follow k r ≠ .throws ∧ attempt lib comLength vel acc n0 n1 start goal k = some r)
    (hn : getEffectorTrajectory w.body (w.paths.length + 1) frame = none) :
    ∃ p, w'.paths.getLast? = some (.effector p) ∧
      ∀ (lib' : Lib K) (b : Bool) (len v a : K) (t0 t1 : State N K) (x y : Vec3 K) (q : Triple K) (w'' : World N L C F P K),
        generateAndSave lib' b len v a eff frame t0 t1 x y w' = (some q, w'') →
        w''.paths[w.paths.length + 1]? = some (.effector q) ∧ getEffectorTrajectory w''.body (w.paths.length + 1) frame = some [p.takeoff, p.mid, p.landing] := by
  rcases C126_returns lib comLength vel acc eff frame s0 s1 start goal n0 n1 follow wholeBody w w' path e0 e1 h with ⟨k, p, -, -, -, hp, -, hs, -⟩ | ⟨ha, -, -⟩
  · refine ⟨p, by rw [hp]; simp, ?_⟩
    intro lib' b len v a t0 t1 x y q w'' hg
    unfold generateAndSave at hg
    split at hg
    · cases hg
    · cases hg
      refine ⟨?_, ?_⟩
      · simp only [hp]
        rw [List.getElem?_append_right (by simp)]
        simp
      · rw [stored, if_pos ⟨by simp [hp], rfl⟩, hs hn]
        rfl
  · obtain ⟨k, r, h1, h2⟩ := hf
    have hk : k < 19 := by
      by_contra hc
      rw [attempt, List.getElem?_eq_none (by show 19 ≤ k; omega)] at h2
      cases h2
    obtain ⟨r', h3, h4⟩ := ha k hk
    rw [h2] at h3
    cases h3
    exact absurd h4 h1

end choice

/-! ## C127: position of the effector along the whole-body path -/

/-- what the loop finds -/
theorem searchIndex_spec (dof : K → K) (len t : K) (fuel : ℕ) (c i : K) (h : searchIndex dof len t fuel c = some i) :
    (∃ k : ℕ, i = c + k / 100 ∧ i < len ∧ t ≤ dof i ∧ ∀ j < k, dof (c + (j : K) / 100) < t) ∨ (i = len ∧ ∀ j : ℕ, c + (j : K) / 100 < len → dof (c + (j : K) / 100) < t) := by
  induction fuel generalizing c with
  | zero => simp [searchIndex] at h
  | succ fuel ih =>
    unfold searchIndex at h
    have shift : ∀ j : ℕ, c + 1 / 100 + (j : K) / 100 = c + ((j + 1 : ℕ) : K) / 100 := by
      intro j
      push_cast
      ring
    split_ifs at h with hc hd
    · cases h
      exact Or.inl ⟨0, by simp, hc, hd, fun j hj => absurd hj (by omega)⟩
    · rcases ih _ h with ⟨k, h1, h2, h3, h4⟩ | ⟨h1, h2⟩
      · refine Or.inl ⟨k + 1, by rw [h1, shift], h2, h3, fun j hj => ?_⟩
        cases j with
        | zero => simpa using hd
        | succ j =>
          rw [← shift]
          exact h4 j (by omega)
      · refine Or.inr ⟨h1, fun j hj => ?_⟩
        cases j with
        | zero => simpa using hd
        | succ j =>
          rw [← shift] at hj ⊢
          exact h2 j hj
    · cases h
      refine Or.inr ⟨rfl, fun j hj => ?_⟩
      have : (0 : K) ≤ (j : K) / 100 := div_nonneg (Nat.cast_nonneg j) (by norm_num)
      linarith

/-- **C127 Effector along a whole-body path**: the position returned for `u` is the one at the first multiple of 0.01 of the path parameter where the time reaches `u` times the last time, or
at the end of the path if there is none. -/
theorem C127_position (dof : K → K) (pos : K → Vec3 K) (fin len : K) (offset : Vec3 K) (fuel : ℕ) (u : K) (r : Vec3 K) (h : endEffectorAt dof pos fin len offset fuel u = some r) :
    ∃ i, r = pos i + offset ∧ ((∃ k : ℕ, i = k / 100 ∧ i < len ∧ u * fin ≤ dof i ∧ ∀ j < k, dof ((j : K) / 100) < u * fin) ∨
      (i = len ∧ ∀ j : ℕ, (j : K) / 100 < len → dof ((j : K) / 100) < u * fin)) := by
  unfold endEffectorAt at h
  rw [Option.map_eq_some_iff] at h
  obtain ⟨i, hi, hr⟩ := h
  refine ⟨i, hr.symm, ?_⟩
  simpa only [zero_add] using searchIndex_spec dof len (u * fin) fuel 0 i hi

/-- **C127** (termination): the search ends. -/
theorem C127_terminates [Archimedean K] (dof : K → K) (pos : K → Vec3 K) (fin len : K) (offset : Vec3 K) (u : K) :
    ∃ fuel₀, ∀ fuel ≥ fuel₀, (endEffectorAt dof pos fin len offset fuel u).isSome := by
  obtain ⟨n, hn⟩ := exists_nat_gt (len * 100)
  have key : ∀ (m : ℕ) (c : K), len < c + (m : K) / 100 → ∀ fuel ≥ m + 1, (searchIndex dof len (u * fin) fuel c).isSome := by
    intro m
    induction m with
    | zero =>
      intro c hc fuel hf
      obtain ⟨f, rfl⟩ : ∃ f, fuel = f + 1 := ⟨fuel - 1, by omega⟩
      unfold searchIndex
      rw [if_neg (by simp at hc; push Not; exact hc.le)]
      rfl
    | succ m ih =>
      intro c hc fuel hf
      obtain ⟨f, rfl⟩ : ∃ f, fuel = f + 1 := ⟨fuel - 1, by omega⟩
      unfold searchIndex
      split_ifs
      · rfl
      · exact ih _ (by push_cast at hc; linarith) f (by omega)
      · rfl
  refine ⟨n + 1, fun fuel hf => ?_⟩
  unfold endEffectorAt
  rw [Option.isSome_map]
  refine key n 0 ?_ fuel hf
  have : len = len * 100 / 100 := by ring
  rw [zero_add, this]
  exact div_lt_div_of_pos_right hn (by norm_num)

/-- **C127**: at both ends: for a path whose time starts at 0 and increases strictly to its last value, 0 gives the first position and 1 the last one; in between the time of the position
returned is at least the requested one, and the one 0.01 before is less. -/
theorem C127_ends (dof : K → K) (pos : K → Vec3 K) (len : K) (offset : Vec3 K) (fuel : ℕ) (u : K) (r : Vec3 K) (hlen : 0 < len) (h0 : dof 0 = 0)
    (hm : ∀ a b, 0 ≤ a → a < b → b ≤ len → dof a < dof b) (hu0 : 0 ≤ u) (hu1 : u ≤ 1) (h : endEffectorAt dof pos (dof len) len offset fuel u = some r) :
    (u = 0 → r = pos 0 + offset) ∧ (u = 1 → r = pos len + offset) ∧
      ∃ i, 0 ≤ i ∧ i ≤ len ∧ r = pos i + offset ∧ u * dof len ≤ dof i ∧ (i ≠ 0 → ∃ j, 0 ≤ j ∧ j < i ∧ i ≤ j + 1 / 100 ∧ dof j < u * dof len) := by
  obtain ⟨i, hr, hi⟩ := C127_position dof pos _ len offset fuel u r h
  have hpos : 0 < dof len := by
    rw [← h0]
    exact hm 0 len le_rfl hlen le_rfl
  have nn : ∀ k : ℕ, (0 : K) ≤ (k : K) / 100 := fun k => div_nonneg (Nat.cast_nonneg k) (by norm_num)
  refine ⟨?_, ?_, ?_⟩
  · rintro rfl
    rw [hr]
    rcases hi with ⟨k, h1, h2, h3, h4⟩ | ⟨h1, h2⟩
    · cases k with
      | zero =>
        rw [h1]
        simp
      | succ k =>
        have := h4 0 (by omega)
        simp [h0] at this
    · have := h2 0 (by simpa using hlen)
      simp [h0] at this
  · rintro rfl
    rw [hr]
    rcases hi with ⟨k, h1, h2, h3, h4⟩ | ⟨h1, h2⟩
    · have := hm i len (by rw [h1]; exact nn k) h2 le_rfl
      linarith
    · rw [h1]
  · refine ⟨i, ?_, ?_, hr, ?_, ?_⟩
    · rcases hi with ⟨k, h1, -⟩ | ⟨h1, -⟩
      · rw [h1]
        exact nn k
      · rw [h1]
        exact hlen.le
    · rcases hi with ⟨k, -, h2, -⟩ | ⟨h1, -⟩
      · exact h2.le
      · exact h1.le
    · rcases hi with ⟨k, -, -, h3, -⟩ | ⟨h1, -⟩
      · exact h3
      · rw [h1]
        nlinarith
    · intro hi0
      rcases hi with ⟨k, h1, h2, h3, h4⟩ | ⟨h1, h2⟩
      · cases k with
        | zero => exact absurd (by rw [h1]; simp) hi0
        | succ k =>
          refine ⟨(k : K) / 100, nn k, ?_, ?_, h4 k (by omega)⟩
          · rw [h1]
            push_cast
            linarith
          · rw [h1]
            push_cast
            linarith
      · -- the last multiple of 0.01 before the end
        have hf : ∃ k : ℕ, (k : K) / 100 < len ∧ len ≤ (k : K) / 100 + 1 / 100 := by
          have h0' : endEffectorAt dof pos (dof len) len offset fuel u = some r := h
          unfold endEffectorAt at h0'
          rw [Option.map_eq_some_iff] at h0'
          obtain ⟨i', hi', -⟩ := h0'
          have key : ∀ (fuel : ℕ) (c i : K), c < len → searchIndex dof len (u * dof len) fuel c = some i → ∃ k : ℕ, c + (k : K) / 100 < len ∧ (i = len → len ≤ c + (k : K) / 100 + 1 / 100) := by
            intro fuel
            induction fuel with
            | zero => intro c i _ h; simp [searchIndex] at h
            | succ fuel ih =>
              intro c i hc h
              unfold searchIndex at h
              rw [if_pos hc] at h
              split_ifs at h with hd
              · cases h
                exact ⟨0, by simpa using hc, fun e => absurd e hc.ne⟩
              · by_cases hc' : c + 1 / 100 < len
                · obtain ⟨k, h1, h2⟩ := ih _ _ hc' h
                  refine ⟨k + 1, ?_, fun e => ?_⟩
                  · push_cast
                    linarith
                  · have := h2 e
                    push_cast
                    linarith
                · exact ⟨0, by simpa using hc, fun _ => by simpa using hc'⟩
          have hi'' : i' = len := by
            rcases searchIndex_spec dof len (u * dof len) fuel 0 i' hi' with ⟨k, k1, k2, k3, -⟩ | ⟨k1, -⟩
            · have := h2 k (by rw [zero_add] at k1; rw [← k1]; exact k2)
              rw [zero_add] at k1
              rw [← k1] at this
              exact absurd k3 (not_le.2 this)
            · exact k1
          obtain ⟨k, k1, k2⟩ := key fuel 0 i' hlen hi'
          exact ⟨k, by simpa using k1, by simpa using k2 hi''⟩
        obtain ⟨k, k1, k2⟩ := hf
        exact ⟨(k : K) / 100, nn k, by rw [h1]; exact k1, by rw [h1]; exact k2, h2 k k1⟩

/-- the hypotheses of `C127_ends` are met -/
example : endEffectorAt (K := ℚ) (fun t => t * t) (fun t => ⟨t, 0, 0⟩) (1 / 25) (1 / 5) 0 50 (1 / 2) = some ⟨15 / 100, 0, 0⟩ := by decide +kernel

end Effector
end Rbprm
