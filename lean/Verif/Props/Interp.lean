import Verif.Model.Interp
import Verif.Props.State
import Verif.Props.Candidates
import Verif.Props.Paths
import Mathlib.Algebra.Order.Field.Rat
import Mathlib.Tactic.NormNum
import Mathlib.Tactic.Linarith
import Mathlib.Tactic.FieldSimp
set_option linter.unusedSectionVars false
/-!
# Interpolation between two states: random configurations, constraints, projection on a centre of mass, sizes
-/
namespace Rbprm
namespace Interp
open Sampling State
variable {N K : Type _} [LinearOrder N] [Field K] [LinearOrder K] [IsStrictOrderedRing K]

/-! ### C120: random configurations along the reference path -/

/-- the samples of a limb are all written to the same joints, within the first `rank` coordinates, and two limbs have no joint in common -/
structure LimbsOk (limbs : List (N × List (Sample K))) (rank : ℕ) (seg : N → ℕ × ℕ) : Prop where
  segment : ∀ n samples, (n, samples) ∈ limbs → ∀ s ∈ samples, s.startRank = (seg n).1 ∧ s.length = (seg n).2 ∧ s.configuration.length = s.length
  within : ∀ n samples, (n, samples) ∈ limbs → (seg n).1 + (seg n).2 ≤ rank
  disjoint : limbs.Pairwise fun a b => (seg a.1).1 + (seg a.1).2 ≤ (seg b.1).1 ∨ (seg b.1).1 + (seg b.1).2 ≤ (seg a.1).1

/-- coordinate `i` belongs to limb `n` -/
def InLimb (seg : N → ℕ × ℕ) (n : N) (i : ℕ) : Prop := (seg n).1 ≤ i ∧ i < (seg n).1 + (seg n).2

theorem take_drop_congr {q q' : List K} {a b : ℕ} (_ : q.length = q'.length) (h : ∀ i, a ≤ i → i < a + b → q[i]? = q'[i]?) : (q.drop a).take b = (q'.drop a).take b := by
  apply List.ext_getElem?
  intro i
  rw [List.getElem?_take, List.getElem?_take]
  split
  · rw [List.getElem?_drop, List.getElem?_drop]
    exact h _ (by omega) (by omega)
  · rfl

theorem loadLimbs_ok (seg : N → ℕ × ℕ) (rank : ℕ) : ∀ (limbs : List (N × List (Sample K))) (_ : LimbsOk limbs rank seg) (rnd : ℕ → ℕ) (q q' : List K), loadLimbs limbs rnd q = .ok q' →
    q'.length = q.length ∧ (∀ i, (∀ n samples, (n, samples) ∈ limbs → ¬ InLimb seg n i) → q'[i]? = q[i]?) ∧
    ∀ k n samples, limbs[k]? = some (n, samples) → ∃ s, samples[rnd k % (samples.length - 1)]? = some s ∧ (q'.drop s.startRank).take s.length = s.configuration
  | [], _, rnd, q, q', h => by
    simp only [loadLimbs, Shot.ok.injEq] at h
    subst h
    simp
  | (n, samples) :: ls, hok, rnd, q, q', h => by
    unfold loadLimbs at h
    split at h
    · cases h
    · split at h
      · cases h
      · rename_i s hs
        split at h
        · cases h
        · rename_i q1 hq1
          have hok' : LimbsOk ls rank seg := ⟨fun n s h => hok.segment n s (List.mem_cons_of_mem _ h), fun n s h => hok.within n s (List.mem_cons_of_mem _ h), (List.pairwise_cons.1 hok.disjoint).2⟩
          obtain ⟨i1, i2, i3⟩ := loadLimbs_ok seg rank ls hok' _ q1 q' h
          obtain ⟨l1, l2, l3, _⟩ := C75_load s s q q1 hq1
          obtain ⟨e1, e2, _⟩ := hok.segment n samples (by simp) s (List.mem_of_getElem? hs)
          refine ⟨i1.trans l1, fun i hi => ?_, fun k m ss hk => ?_⟩
          · rw [i2 i fun n s h => hi n s (List.mem_cons_of_mem _ h), l3 i ?_]
            have := hi n samples (by simp)
            unfold InLimb at this
            omega
          · cases k with
            | zero =>
              simp only [List.getElem?_cons_zero, Option.some.injEq, Prod.mk.injEq] at hk
              obtain ⟨rfl, rfl⟩ := hk
              refine ⟨s, hs, ?_⟩
              rw [← l2]
              refine take_drop_congr i1 fun i h1 h2 => i2 i fun m ss hm => ?_
              have := (List.pairwise_cons.1 hok.disjoint).1 _ hm
              unfold InLimb
              simp only at this
              omega
            | succ k => exact i3 k m ss (by simpa using hk)

/-- **C120**: a random configuration has the extra degree of freedom `u`, and is the configuration of the reference path at the fraction `u` of its time range, but for the joints of the
free limbs, each of which is in the configuration of one of its samples. -/
theorem C120_shoot (path : RefPath (List K) K) (rank : ℕ) (free : AMap N (List (Sample K))) (seg : N → ℕ × ℕ) (hok : LimbsOk free rank seg) (u : K) (rnd : ℕ → ℕ) (q : List K)
    (h : shoot path rank free u rnd = .ok q) :
    q.length = rank + 1 ∧ q[rank]? = some u ∧
    (∀ i < rank, (∀ n samples, (n, samples) ∈ free → ¬ InLimb seg n i) → q[i]? = (path.eval (path.first + u * (path.last - path.first)))[i]?) ∧
    ∀ n samples, (n, samples) ∈ free → ∃ s ∈ samples, (q.drop (seg n).1).take (seg n).2 = s.configuration := by
  unfold shoot at h
  have et : (path.last - path.first) * u + path.first = path.first + u * (path.last - path.first) := by ring
  rw [et] at h
  simp only at h
  split at h
  · cases h
  · rename_i hl
    push Not at hl
    obtain ⟨h1, h2, h3⟩ := loadLimbs_ok seg rank free hok rnd _ q h
    rw [List.length_append, hl, List.length_singleton] at h1
    refine ⟨h1, ?_, fun i hi hn => ?_, fun n samples hm => ?_⟩
    · rw [h2 rank fun n s hm => ?_, List.getElem?_append_right (by omega), hl]
      · simp
      · have := hok.within n s hm
        unfold InLimb
        omega
    · rw [h2 i hn, List.getElem?_append_left (by omega)]
    · obtain ⟨k, hk⟩ := List.getElem?_of_mem hm
      obtain ⟨s, hs, he⟩ := h3 k n samples hk
      have hs' := List.mem_of_getElem? hs
      obtain ⟨e1, e2, _⟩ := hok.segment n samples hm s hs'
      exact ⟨s, hs', by rw [← e1, ← e2]; exact he⟩

/-- **C120**: for `u` in [0, 1] the instant is in the time range of the reference path. -/
theorem C120_instant (path : RefPath (List K) K) (h : path.first ≤ path.last) (u : K) (h0 : 0 ≤ u) (h1 : u ≤ 1) :
    path.first ≤ path.first + u * (path.last - path.first) ∧ path.first + u * (path.last - path.first) ≤ path.last := by
  have := sub_nonneg.2 h
  constructor <;> nlinarith

theorem loadLimbs_defined (seg : N → ℕ × ℕ) (rank : ℕ) : ∀ (limbs : List (N × List (Sample K))) (_ : LimbsOk limbs rank seg) (rnd : ℕ → ℕ) (q : List K), rank ≤ q.length →
    ((∃ q', loadLimbs limbs rnd q = .ok q') ∧ ∀ n samples, (n, samples) ∈ limbs → 2 ≤ samples.length) ∨
    (loadLimbs limbs rnd q = .throws ∧ ∃ n samples, (n, samples) ∈ limbs ∧ samples.length ≤ 1)
  | [], _, rnd, q, _ => by simp [loadLimbs]
  | (n, samples) :: ls, hok, rnd, q, hq => by
    unfold loadLimbs
    by_cases hlen : samples.length ≤ 1
    · rw [if_pos hlen]
      exact .inr ⟨rfl, n, samples, by simp, hlen⟩
    · rw [if_neg hlen]
      have hlt : rnd 0 % (samples.length - 1) < samples.length := by
        have := Nat.mod_lt (rnd 0) (y := samples.length - 1) (by omega)
        omega
      rw [List.getElem?_eq_getElem hlt]
      set s := samples[rnd 0 % (samples.length - 1)] with hs
      obtain ⟨e1, e2, e3⟩ := hok.segment n samples (by simp) s (List.getElem_mem _)
      have hw := hok.within n samples (by simp)
      have hload : ∃ q1, load s q = some q1 := by
        unfold load
        rw [if_pos ⟨by omega, e3⟩]
        exact ⟨_, rfl⟩
      obtain ⟨q1, hq1⟩ := hload
      have hl := (C75_load s s q q1 hq1).1
      simp only [hq1]
      have hok' : LimbsOk ls rank seg := ⟨fun n s h => hok.segment n s (List.mem_cons_of_mem _ h), fun n s h => hok.within n s (List.mem_cons_of_mem _ h), (List.pairwise_cons.1 hok.disjoint).2⟩
      rcases loadLimbs_defined seg rank ls hok' (fun i => rnd (i + 1)) q1 (by omega) with ⟨h1, h2⟩ | ⟨h1, m, ss, hm, hss⟩
      · refine .inl ⟨h1, fun m ss hm => ?_⟩
        rcases List.mem_cons.1 hm with e | hm
        · cases e; omega
        · exact h2 m ss hm
      · exact .inr ⟨h1, m, ss, List.mem_cons_of_mem _ hm, hss⟩

/-- **C120**: a draw either gives a configuration, if all the free limbs have two samples or more, or throws, if one has not. -/
theorem C120_defined (path : RefPath (List K) K) (rank : ℕ) (free : AMap N (List (Sample K))) (seg : N → ℕ × ℕ) (hok : LimbsOk free rank seg) (u : K) (rnd : ℕ → ℕ)
    (hp : ∀ t, (path.eval t).length = rank) :
    ((∃ q, shoot path rank free u rnd = .ok q) ↔ ∀ n samples, (n, samples) ∈ free → 2 ≤ samples.length) ∧
    (shoot path rank free u rnd = .throws ↔ ∃ n samples, (n, samples) ∈ free ∧ samples.length ≤ 1) := by
  unfold shoot
  simp only [hp, ne_eq, not_true_eq_false, if_false]
  rcases loadLimbs_defined seg rank free hok rnd (path.eval ((path.last - path.first) * u + path.first) ++ [u]) (by simp [hp]) with ⟨⟨q, h1⟩, h2⟩ | ⟨h1, n, ss, hm, hss⟩
  · refine ⟨⟨fun _ => h2, fun _ => ⟨q, h1⟩⟩, ⟨fun h => (by rw [h1] at h; cases h), fun ⟨n, ss, hm, hss⟩ => ?_⟩⟩
    have := h2 n ss hm
    omega
  · refine ⟨⟨fun ⟨q, h⟩ => (by rw [h1] at h; cases h), fun h => ?_⟩, ⟨fun _ => ⟨n, ss, hm, hss⟩, fun _ => h1⟩⟩
    have := h n ss hm
    omega

/-- **C120**: the free limbs are the registered limbs that are not in contact at the same place (within a centimetre) in both states. -/
theorem C120_free {L : Type _} (limbs : AMap N L) (frm dest : State N K) (h : dest.MapsOk) (hp : frm.MapsOk) (n : N) (l : L) :
    (n, l) ∈ freeLimbs limbs frm dest ↔ (n, l) ∈ limbs ∧ ¬ ∃ p q, TouchesAt frm n p ∧ TouchesAt dest n q ∧ ¬ FarApart p q := by
  unfold freeLimbs
  simp only [List.mem_filter, List.contains_eq_mem, Bool.not_eq_true', decide_eq_false_iff_not, (C06_fixed h hp).2]

/-- **C120**: every sample of a limb but the last is drawn for some random number, for every `u`. -/
theorem C120_drawn (path : RefPath (List K) K) (rank : ℕ) (n : N) (samples : List (Sample K)) (seg : N → ℕ × ℕ) (hok : LimbsOk [(n, samples)] rank seg) (u : K)
    (hp : ∀ t, (path.eval t).length = rank) (i : ℕ) (hi : i < samples.length - 1) (s : Sample K) (hs : samples[i]? = some s) :
    ∃ q, shoot path rank [(n, samples)] u (fun _ => i) = .ok q ∧ (q.drop (seg n).1).take (seg n).2 = s.configuration := by
  obtain ⟨q, hq⟩ := (C120_defined path rank [(n, samples)] seg hok u (fun _ => i) hp).1.2 fun m ss hm => by
    simp only [List.mem_singleton, Prod.mk.injEq] at hm
    obtain ⟨rfl, rfl⟩ := hm
    omega
  refine ⟨q, hq, ?_⟩
  unfold shoot at hq
  simp only [hp, ne_eq, not_true_eq_false, if_false] at hq
  obtain ⟨s', hs', he⟩ := (loadLimbs_ok seg rank _ hok _ _ q hq).2.2 0 n samples rfl
  rw [Nat.mod_eq_of_lt hi, hs] at hs'
  cases hs'
  obtain ⟨e1, e2, _⟩ := hok.segment n samples (by simp) s (List.mem_of_getElem? hs)
  rw [← e1, ← e2]
  exact he

/-- **C120 is violated** for the last sample of the database: it is never drawn, whatever the random numbers. -/
theorem C120_last_violated (path : RefPath (List K) K) (rank : ℕ) (free : AMap N (List (Sample K))) (seg : N → ℕ × ℕ) (hok : LimbsOk free rank seg) (u : K) (rnd : ℕ → ℕ) (q : List K)
    (h : shoot path rank free u rnd = .ok q) (n : N) (init : List (Sample K)) (s : Sample K) (hm : (n, init ++ [s]) ∈ free) (hd : ∀ t ∈ init, t.configuration ≠ s.configuration) :
    (q.drop (seg n).1).take (seg n).2 ≠ s.configuration := by
  have hlen : 2 ≤ (init ++ [s]).length := by
    unfold shoot at h
    simp only at h
    split at h
    · cases h
    · rename_i hl
      push Not at hl
      rcases loadLimbs_defined seg rank free hok rnd (path.eval ((path.last - path.first) * u + path.first) ++ [u]) (by simp [hl]) with h' | ⟨h', _⟩
      · exact h'.2 _ _ hm
      · rw [h'] at h; cases h
  unfold shoot at h
  simp only at h
  split at h
  · cases h
  · obtain ⟨k, hk⟩ := List.getElem?_of_mem hm
    obtain ⟨s', hs', he⟩ := (loadLimbs_ok seg rank free hok rnd _ q h).2.2 k n _ hk
    have hlt : rnd k % ((init ++ [s]).length - 1) < init.length := by
      have := Nat.mod_lt (rnd k) (y := (init ++ [s]).length - 1) (by omega)
      simp only [List.length_append, List.length_singleton] at this ⊢
      omega
    have hmem : s' ∈ init := by
      rw [List.getElem?_append_left hlt] at hs'
      exact List.mem_of_getElem? hs'
    obtain ⟨e1, e2, _⟩ := hok.segment n _ hm s' (List.mem_append_left _ hmem)
    rw [← e1, ← e2, he]
    exact hd s' hmem

/-- a robot with a root coordinate and two limbs of one joint -/
def demoSample (rank : ℕ) (x : ℚ) : Sample ℚ := ⟨rank, 1, [x], 0, 0, ⟨0, 0, []⟩, ⟨0, 0, []⟩, 0, 0⟩

/-- hypotheses of C120 -/
example : shoot ⟨2, 4, fun t => [t, 0, 0]⟩ 3 [(1, [demoSample 1 5, demoSample 1 6, demoSample 1 7]), (2, [demoSample 2 8, demoSample 2 9])] (1 / 2 : ℚ) (fun i => i + 1)
      = .ok [3, 6, 8, 1 / 2] ∧
    LimbsOk [((1 : ℕ), [demoSample 1 5, demoSample 1 6, demoSample 1 7]), (2, [demoSample 2 8, demoSample 2 9])] 3 (fun n => (n, 1)) := by
  constructor
  · norm_num [shoot, loadLimbs, load, demoSample]
  · constructor
    · intro n samples h s hs
      simp only [List.mem_cons, Prod.mk.injEq, List.not_mem_nil, or_false] at h
      rcases h with ⟨rfl, rfl⟩ | ⟨rfl, rfl⟩ <;> simp only [List.mem_cons, List.not_mem_nil, or_false] at hs
      · rcases hs with rfl | rfl | rfl <;> simp [demoSample]
      · rcases hs with rfl | rfl <;> simp [demoSample]
    · intro n samples h
      simp only [List.mem_cons, Prod.mk.injEq, List.not_mem_nil, or_false] at h
      rcases h with ⟨rfl, -⟩ | ⟨rfl, -⟩ <;> simp
    · simp

/-! ### C121: constraints of the motion between two states -/

/-- the inverse of a rotation matrix is its transpose -/
def Orthogonal (P : Mat3 K) : Prop := Stability.mulMat P P.transpose = Mat3.one ∧ Stability.mulMat P.transpose P = Mat3.one

theorem mulMat_assoc (A B C : Mat3 K) : Stability.mulMat (Stability.mulMat A B) C = Stability.mulMat A (Stability.mulMat B C) := by
  ext <;> simp [Stability.mulMat, Mat3.transpose, Vec3.dot] <;> ring

theorem mulMat_one (A : Mat3 K) : Stability.mulMat A Mat3.one = A := by
  ext <;> simp [Stability.mulMat, Mat3.transpose, Vec3.dot, Mat3.one]

theorem orientation_iff {P : Mat3 K} (h : Orthogonal P) (J R : Mat3 K) : J = Stability.mulMat R P.transpose ↔ Stability.mulMat J P = R := by
  constructor
  · rintro rfl
    rw [mulMat_assoc, h.2, mulMat_one]
  · rintro rfl
    rw [mulMat_assoc, h.1, mulMat_one]

theorem sub_eq_zero' (a b : Vec3 K) : a - b = 0 ↔ a = b := by
  constructor
  · intro h
    have hx := congrArg Vec3.x h
    have hy := congrArg Vec3.y h
    have hz := congrArg Vec3.z h
    simp only [Vec3.sub_x, Vec3.sub_y, Vec3.sub_z, Vec3.zero_x, Vec3.zero_y, Vec3.zero_z] at hx hy hz
    ext <;> linarith
  · rintro rfl
    ext <;> simp

variable {C : Type _}

/-- the limb is at the contact recorded by the state: its position, and its orientation if it is a surface contact -/
def AtContact (kin : Kin N C K) (limbs : AMap N (CLimb K)) (s : State N K) (n : N) (q : C) : Prop :=
  (∀ p, TouchesAt s n p → kin.pos n q = p) ∧
  ∀ l, limbs.find? n = some l → l.sixDof = true → ∀ r, s.contactRotation.find? n = some r → frameRot kin n l q = r

theorem contactConstraint_iff (kin : Kin N C K) (limbs : AMap N (CLimb K)) (hl : ∀ n l, limbs.find? n = some l → Orthogonal l.placement) (s : State N K) (n : N)
    (cs : List (Constraint N C K)) (h : contactConstraint limbs s n = some cs) (u : K) (q : C) : (∀ c ∈ cs, c.holds kin u q) ↔ AtContact kin limbs s n q := by
  unfold contactConstraint at h
  split at h
  · rename_i l p hl' hp
    unfold AtContact TouchesAt
    simp only [hl', hp, Option.some.injEq]
    split at h
    · rename_i h6
      split at h
      · rename_i r hr
        cases h
        simp only [List.mem_cons, List.not_mem_nil, or_false, forall_eq_or_imp, forall_eq, Constraint.holds, sub_eq_zero', orientation_iff (hl n l hl')]
        constructor
        · rintro ⟨h1, h2⟩
          refine ⟨fun _ e => e ▸ h1, fun _ e _ r' e' => ?_⟩
          subst e
          rw [hr] at e'
          cases e'
          exact h2
        · rintro ⟨h1, h2⟩
          exact ⟨h1 _ rfl, h2 _ rfl h6 _ hr⟩
      · cases h
    · rename_i h6
      cases h
      simp only [List.mem_cons, List.not_mem_nil, or_false, forall_eq, Constraint.holds, sub_eq_zero']
      constructor
      · intro h1
        exact ⟨fun _ e => e ▸ h1, fun _ e h => by subst e; exact absurd h h6⟩
      · rintro ⟨h1, _⟩
        exact h1 _ rfl
  · cases h

theorem addContactConstraints_iff (kin : Kin N C K) (limbs : AMap N (CLimb K)) (hl : ∀ n l, limbs.find? n = some l → Orthogonal l.placement) (s : State N K) (u : K) (q : C) :
    ∀ (ns : List N) (cs : List (Constraint N C K)), addContactConstraints limbs s ns = some cs → ((∀ c ∈ cs, c.holds kin u q) ↔ ∀ n ∈ ns, AtContact kin limbs s n q)
  | [], cs, h => by
    simp only [addContactConstraints, Option.some.injEq] at h
    subst h
    simp
  | n :: ns, cs, h => by
    unfold addContactConstraints at h
    split at h
    · rename_i l l' h1 h2
      cases h
      rw [List.forall_mem_append, contactConstraint_iff kin limbs hl s n l h1 u q, addContactConstraints_iff kin limbs hl s u q ns l' h2]
      simp
    · cases h

/-- **C121**: during the motion between two states computed by limbRRT or comRRT, a configuration is accepted by the constraints iff every contact that the two states have in common
(within a centimetre) is where the first state has it, with its orientation for a surface contact. -/
theorem C121_contacts (kin : Kin N C K) (limbs : AMap N (CLimb K)) (hl : ∀ n l, limbs.find? n = some l → Orthogonal l.placement) (frm dest : State N K) (h : dest.MapsOk) (hp : frm.MapsOk)
    (cs : List (Constraint N C K)) (hc : limbRRTConstraints limbs frm dest = some cs) (u : K) (q : C) :
    (∀ c ∈ cs, c.holds kin u q) ↔
      ∀ n p p', TouchesAt frm n p → TouchesAt dest n p' → ¬ FarApart p p' → kin.pos n q = p ∧
        ∀ l, limbs.find? n = some l → l.sixDof = true → ∀ r, frm.contactRotation.find? n = some r → frameRot kin n l q = r := by
  rw [addContactConstraints_iff kin limbs hl frm u q _ cs hc]
  constructor
  · intro h' n p p' h1 h2 h3
    have := h' n (((C06_fixed h hp).2 n).2 ⟨p, p', h1, h2, h3⟩)
    exact ⟨this.1 p h1, this.2⟩
  · intro h' n hn
    obtain ⟨p, p', h1, h2, h3⟩ := ((C06_fixed h hp).2 n).1 hn
    obtain ⟨k1, k2⟩ := h' n p p' h1 h2 h3
    refine ⟨fun p'' e => ?_, k2⟩
    unfold TouchesAt at e h1
    rw [h1] at e
    cases e
    exact k1

/-- **C121**: comRRT has the same constraints on contacts. -/
theorem C121_comRRT (limbs : AMap N (CLimb K)) (comPath : RefPath (Vec3 K) K) (frm dest : State N K) :
    comRRTConstraints (C := C) limbs comPath frm dest = limbRRTConstraints limbs frm dest := rfl

/-- **C121**: the constraints exist if the first state records a rotation for each of its contacts and every contact is that of a limb of the robot. -/
theorem C121_defined (limbs : AMap N (CLimb K)) (frm dest : State N K) (h : dest.MapsOk) (hp : frm.MapsOk)
    (hr : ∀ n p, TouchesAt frm n p → (limbs.find? n).isSome ∧ (frm.contactRotation.find? n).isSome) : ∃ cs, limbRRTConstraints (C := C) limbs frm dest = some cs := by
  have key : ∀ ns : List N, (∀ n ∈ ns, ∃ p, TouchesAt frm n p) → ∃ cs, addContactConstraints (C := C) limbs frm ns = some cs := by
    intro ns
    induction ns with
    | nil => exact fun _ => ⟨[], rfl⟩
    | cons n ns ih =>
      intro hn
      obtain ⟨cs, hcs⟩ := ih fun m hm => hn m (List.mem_cons_of_mem _ hm)
      obtain ⟨p, hp'⟩ := hn n (by simp)
      obtain ⟨e1, e2⟩ := hr n p hp'
      obtain ⟨l, hl⟩ := Option.isSome_iff_exists.1 e1
      obtain ⟨r, hr'⟩ := Option.isSome_iff_exists.1 e2
      unfold TouchesAt at hp'
      unfold addContactConstraints contactConstraint
      simp only [hl, hp', hr', hcs]
      cases l.sixDof <;> exact ⟨_, rfl⟩
  refine key _ fun n hn => ?_
  obtain ⟨p, _, h1, _⟩ := ((C06_fixed h hp).2 n).1 hn
  exact ⟨p, h1⟩

/-- a configuration realises the contacts of a state -/
def Realises (kin : Kin N C K) (limbs : AMap N (CLimb K)) (s : State N K) (q : C) : Prop := ∀ n, AtContact kin limbs s n q

/-- **C121**: the initial configuration satisfies the constraints of the motion, for every value of the extra degree of freedom. -/
theorem C121_start (kin : Kin N C K) (limbs : AMap N (CLimb K)) (hl : ∀ n l, limbs.find? n = some l → Orthogonal l.placement) (frm dest : State N K)
    (cs : List (Constraint N C K)) (hc : limbRRTConstraints limbs frm dest = some cs) (u : K) (q : C) (hq : Realises kin limbs frm q) : ∀ c ∈ cs, c.holds kin u q :=
  (addContactConstraints_iff kin limbs hl frm u q _ cs hc).2 fun n _ => hq n

/-- **C121** (partial: contacts exactly at the same place): so does the final one if the contacts that the two states share have the same position and rotation in both. -/
theorem C121_end_partial (kin : Kin N C K) (limbs : AMap N (CLimb K)) (hl : ∀ n l, limbs.find? n = some l → Orthogonal l.placement) (frm dest : State N K)
    (cs : List (Constraint N C K)) (hc : limbRRTConstraints limbs frm dest = some cs) (u : K) (q : C) (hq : Realises kin limbs dest q)
    (hsame : ∀ n ∈ dest.fixedContacts frm, frm.contactPositions.find? n = dest.contactPositions.find? n ∧ frm.contactRotation.find? n = dest.contactRotation.find? n) :
    ∀ c ∈ cs, c.holds kin u q := by
  refine (addContactConstraints_iff kin limbs hl frm u q _ cs hc).2 fun n hn => ?_
  obtain ⟨e1, e2⟩ := hsame n hn
  obtain ⟨h1, h2⟩ := hq n
  unfold AtContact TouchesAt at *
  rw [e1, e2]
  exact ⟨h1, h2⟩

/-- a state with one contact at height `z` -/
def oneContact (z : ℚ) : State ℕ ℚ :=
  { configuration := [z], contacts := [(1, true)], contactNormals := [(1, ⟨0, 0, 1⟩)], contactPositions := [(1, ⟨0, 0, z⟩)], contactRotation := [(1, Mat3.one)],
    contactOrder := [1], nbContacts := 1, stable := true, robustness := 0 }

/-- a robot that is a point with a centre of mass of its own: the configuration is the height of its contact and the position of its centre of mass -/
def pointKin : Kin ℕ (ℚ × Vec3 ℚ) ℚ := ⟨fun _ q => ⟨0, 0, q.1⟩, fun _ _ => Mat3.one, fun q => q.2⟩

/-- **C121 is violated** for the final configuration: a contact that moves by 5 mm counts as fixed, and the final configuration, where it has moved, does not satisfy the constraint. -/
theorem C121_end_violated : ∃ cs, limbRRTConstraints (C := ℚ × Vec3 ℚ) [(1, ⟨false, Mat3.one⟩)] (oneContact 0) (oneContact (1 / 200)) = some cs ∧
    Realises pointKin [(1, ⟨false, Mat3.one⟩)] (oneContact (1 / 200)) (1 / 200, 0) ∧ ¬ ∀ c ∈ cs, c.holds pointKin 1 (1 / 200, 0) := by
  refine ⟨[.position 1 ⟨0, 0, 0⟩], ?_, ?_, ?_⟩
  · have : (oneContact (1 / 200)).fixedContacts (oneContact 0) = [1] := by decide +kernel
    simp only [limbRRTConstraints, contactConstraints, this]
    simp [addContactConstraints, contactConstraint, AMap.find?, oneContact]
  · intro n
    refine ⟨fun p hp => ?_, fun l hl h6 => ?_⟩
    · simp only [TouchesAt, oneContact, AMap.find?] at hp
      split at hp
      · cases hp; rfl
      · cases hp
    · simp only [AMap.find?] at hl
      split at hl
      · cases hl; simp at h6
      · cases hl
  · intro h
    have := h _ (List.mem_singleton.2 rfl)
    simp only [Constraint.holds, pointKin, sub_eq_zero'] at this
    have := congrArg Vec3.z this
    norm_num at this

/-- **C121** for effectorRRT (partial: the default target is 0, and no orientation): a configuration is accepted for `u` iff the common contacts are kept, the centre of mass is that of the
reference at the fraction `u` of its time range, the effector is at the position of its reference, and each constrained joint has the orientation of the whole-body reference, if
there is one. -/
theorem C121_effector_partial (kin : Kin N C K) (limbs : AMap N (CLimb K)) (garbage : Vec3 K) (refCom refEff : RefPath (Vec3 K) K) (refFull : Option (RefPath C K)) (eff : N) (joints locked : List N)
    (frm dest : State N K) (cs : List (Constraint N C K)) (hc : effectorRRTConstraints limbs garbage refCom refEff refFull eff joints locked frm dest = some cs) (u : K) (q : C) :
    ∃ contacts, limbRRTConstraints limbs frm dest = some contacts ∧
    ((∀ c ∈ cs, c.holds kin u q) ↔ (∀ c ∈ contacts, c.holds kin u q) ∧ kin.com q = refCom.eval (refCom.first + u * (refCom.last - refCom.first)) ∧
      kin.pos eff q = refEff.eval (refEff.first + u * (refEff.last - refEff.first)) + garbage ∧
      ∀ ref, refFull = some ref → ∀ j ∈ joints, kin.jointRot j q = kin.jointRot j (ref.eval (ref.first + u * (ref.last - ref.first)))) := by
  have et : ∀ ref : RefPath (Vec3 K) K, rhs ref u = ref.eval (ref.first + u * (ref.last - ref.first)) := by
    intro ref
    unfold rhs
    congr 1
    ring
  have et' : ∀ ref : RefPath C K, rhs ref u = ref.eval (ref.first + u * (ref.last - ref.first)) := by
    intro ref
    unfold rhs
    congr 1
    ring
  have es : ∀ a b c : Vec3 K, a - b = c ↔ a = c + b := by
    intro a b c
    constructor
    · rintro rfl; ext <;> simp
    · rintro rfl; ext <;> simp
  unfold effectorRRTConstraints at hc
  split at hc
  · cases hc
  · rename_i l hl
    cases hc
    refine ⟨l, hl, ?_⟩
    rw [List.forall_mem_append, List.forall_mem_append]
    simp only [List.mem_cons, List.not_mem_nil, or_false, forall_eq_or_imp, forall_eq, and_assoc]
    refine and_congr_right fun _ => and_congr ?_ (and_congr ?_ ?_)
    · rw [Constraint.holds, et]
    · rw [Constraint.holds, es, et]
    · cases refFull with
      | none => simp
      | some ref =>
        simp only [List.mem_map, forall_exists_index, and_imp, forall_apply_eq_imp_iff₂, Constraint.holds, et', Option.some.injEq, forall_eq']

theorem add_eq_self (garbage r : Vec3 K) : r + garbage = r ↔ garbage = 0 := by
  constructor
  · intro h
    have hx := congrArg Vec3.x h
    have hy := congrArg Vec3.y h
    have hz := congrArg Vec3.z h
    simp only [Vec3.add_x, Vec3.add_y, Vec3.add_z] at hx hy hz
    ext <;> simp only [Vec3.zero_x, Vec3.zero_y, Vec3.zero_z] <;> linarith
  · rintro rfl
    ext <;> simp

/-- **C121 is violated** for the effector: the default argument `fcl::Vec3f()` is not initialised; if the memory did not contain 0, no configuration that satisfies the constraints has the
effector at the position of its reference. -/
theorem C121_garbage_violated (kin : Kin N C K) (limbs : AMap N (CLimb K)) (garbage : Vec3 K) (refCom refEff : RefPath (Vec3 K) K) (refFull : Option (RefPath C K)) (eff : N) (joints locked : List N)
    (frm dest : State N K) (cs : List (Constraint N C K)) (hc : effectorRRTConstraints limbs garbage refCom refEff refFull eff joints locked frm dest = some cs) (u : K) (q : C) (hg : garbage ≠ 0)
    (hq : ∀ c ∈ cs, c.holds kin u q) : kin.pos eff q ≠ refEff.eval (refEff.first + u * (refEff.last - refEff.first)) := by
  obtain ⟨_, _, h⟩ := C121_effector_partial kin limbs garbage refCom refEff refFull eff joints locked frm dest cs hc u q
  rw [(h.1 hq).2.2.1]
  exact fun e => hg ((add_eq_self _ _).1 e)

/-- **C121 is violated** for comRRT: the constraints of a motion do not depend on the reference of the centre of mass, so that it needs not follow it: here the reference stays at 0 and a
configuration with the centre of mass at 1 is accepted. -/
theorem C121_com_violated : (∀ (limbs : AMap N (CLimb K)) (c c' : RefPath (Vec3 K) K) (frm dest : State N K), comRRTConstraints (C := C) limbs c frm dest = comRRTConstraints limbs c' frm dest) ∧
    ∃ cs, comRRTConstraints (C := ℚ × Vec3 ℚ) [(1, ⟨false, Mat3.one⟩)] ⟨0, 1, fun _ => 0⟩ (oneContact 0) (oneContact 0) = some cs ∧ (∀ c ∈ cs, c.holds pointKin (1 / 2) (0, ⟨1, 0, 0⟩)) ∧
      pointKin.com (0, ⟨1, 0, 0⟩) ≠ rhs ⟨0, 1, fun _ => 0⟩ (1 / 2 : ℚ) := by
  refine ⟨fun _ _ _ _ _ => rfl, [.position 1 ⟨0, 0, 0⟩], ?_, ?_, ?_⟩
  · have : (oneContact 0).fixedContacts (oneContact 0) = [1] := by decide +kernel
    simp only [comRRTConstraints, contactConstraints, this]
    simp [addContactConstraints, contactConstraint, AMap.find?, oneContact]
  · simp only [List.mem_singleton, forall_eq, Constraint.holds, pointKin, sub_eq_zero']
  · intro h
    have := congrArg Vec3.x h
    simp [pointKin, rhs] at this

/-- **C121 is violated** for the joints that the caller of effectorRRT asks to lock: they have no effect on the constraints. -/
theorem C121_locked_violated (limbs : AMap N (CLimb K)) (garbage : Vec3 K) (refCom refEff : RefPath (Vec3 K) K) (refFull : Option (RefPath C K)) (eff : N) (joints l l' : List N) (frm dest : State N K) :
    effectorRRTConstraints limbs garbage refCom refEff refFull eff joints l frm dest = effectorRRTConstraints limbs garbage refCom refEff refFull eff joints l' frm dest := rfl

/-- **C121 is violated** for the joints whose pose the caller asks to constrain, if there is no whole-body reference (as effectorRRT calls it): they have no effect either. -/
theorem C121_joints_violated (limbs : AMap N (CLimb K)) (garbage : Vec3 K) (refCom refEff : RefPath (Vec3 K) K) (eff : N) (joints joints' l : List N) (frm dest : State N K) :
    effectorRRTConstraints (C := C) limbs garbage refCom refEff none eff joints l frm dest = effectorRRTConstraints limbs garbage refCom refEff none eff joints' l frm dest := rfl

/-! ### C122: projection on a centre of mass -/

/-- **C122**: the result has the size of a configuration of the robot, the extra degrees of freedom of the given state, and its joints are those of the projected configuration; the answer
is that of the projector. It does not depend on the coordinate that is not initialised, if the projection does not. -/
theorem C122_project (project : List K → List K × Bool) (n extra : ℕ) (last : K) (model : State N K) (hn : model.configuration.length = n) (he : extra ≤ n)
    (hp : ∀ q, (project q).1.length = q.length) :
    (projectOnCom project n extra last model).1.length = n ∧
    (projectOnCom project n extra last model).1.drop (n - extra) = model.configuration.drop (n - extra) ∧
    (projectOnCom project n extra last model).1.take (n - extra) = (project (model.configuration ++ [last])).1.take (n - extra) ∧
    (projectOnCom project n extra last model).2 = (project (model.configuration ++ [last])).2 := by
  have hl : (project (model.configuration ++ [last])).1.length = n + 1 := by rw [hp]; simp [hn]
  unfold projectOnCom
  generalize hr : project (model.configuration ++ [last]) = r at hl ⊢
  have h1 : (r.1.take (n - extra)).length = n - extra := by rw [List.length_take]; omega
  have h2 : (model.configuration.drop (n - extra)).length = extra := by rw [List.length_drop]; omega
  have h3 : (r.1.drop n).length = 1 := by rw [List.length_drop]; omega
  obtain ⟨x, hx⟩ := List.length_eq_one_iff.1 h3
  have e : (r.1.take (n - extra) ++ model.configuration.drop (n - extra) ++ r.1.drop n).dropLast = r.1.take (n - extra) ++ model.configuration.drop (n - extra) := by
    rw [hx, List.dropLast_append_cons]; simp
  simp only [e]
  refine ⟨?_, ?_, ?_, trivial⟩
  · rw [List.length_append, h1, h2]; omega
  · rw [List.drop_append_of_le_length (by omega), List.drop_of_length_le (by omega), List.nil_append]
  · rw [List.take_append_of_le_length (by omega), List.take_of_length_le (by omega)]

/-- **C122**: if the projector answers true only for configurations with the contacts of the state and the required centre of mass, and these depend only on the joints, then the result has
them too whenever the answer is true. -/
theorem C122_com (project : List K → List K × Bool) (n extra : ℕ) (last : K) (model : State N K) (hn : model.configuration.length = n) (he : extra ≤ n)
    (hp : ∀ q, (project q).1.length = q.length) (Good : List K → Prop) (hg : ∀ q q' : List K, q.take (n - extra) = q'.take (n - extra) → (Good q ↔ Good q'))
    (hproj : ∀ q, (project q).2 = true → Good (project q).1) (h : (projectOnCom project n extra last model).2 = true) : Good (projectOnCom project n extra last model).1 := by
  obtain ⟨_, _, h3, h4⟩ := C122_project project n extra last model hn he hp
  rw [hg _ _ h3]
  exact hproj _ (h4 ▸ h)

/-- hypotheses of C122: three joints and one extra degree of freedom -/
example : projectOnCom (fun q : List ℚ => (q.map (· + 1), true)) 4 1 0 { oneContact 0 with configuration := [1, 2, 3, 9] } = ([2, 3, 4, 9], true) := by
  simp [projectOnCom]; norm_num

/-! ### C123: sizes and extra degree of freedom of the interpolated path -/

/-- **C123** (partial: configurations): the path returned without extra degree of freedom has configurations of the size of the robot's, and its declared sizes are those of the robot. -/
theorem C123_sizes_partial (robot : Sizes) : (resizedSizes robot (plannedSizes robot)).1 = robot ∧ (resizedSizes robot (plannedSizes robot)).2.output = robot.output := by
  simp [resizedSizes, plannedSizes, subchain]

/-- **C123 is violated** for the derivatives: the elements of the path have derivatives with one coordinate less than the robot's (and than the path vector declares). -/
theorem C123_velocity_violated (robot : Sizes) (h : 0 < robot.derivative) : (resizedSizes robot (plannedSizes robot)).2.derivative + 1 = robot.derivative := by
  simp only [resizedSizes, plannedSizes, subchain]
  omega

/-- **C123**: the ends of the motion planned between two states are the configurations of the states, with extra degree of freedom 0 and 1. -/
theorem C123_ends (current : List K) (s : State N K) (hc : current.length = s.configuration.length + 1) (t : K) : timeConfig current s t = some (s.configuration ++ [t]) := by
  unfold timeConfig
  rw [if_pos ⟨by omega, by rintro rfl; simp at hc⟩]
  have h1 : (current.drop s.configuration.length).length = 1 := by rw [List.length_drop]; omega
  obtain ⟨x, hx⟩ := List.length_eq_one_iff.1 h1
  rw [hx, List.dropLast_append_cons]
  simp

open Paths in
/-- **C123**: without extra degree of freedom the returned path goes through the configurations of the states, from the first to the last. -/
theorem C123_states {P : Type _} (init fin : P → List K) (n : ℕ) (h1 : 1 ≤ n) (h2 : n ≤ 100) (run : ℕ → ℕ → Option (List P)) (sched : ℕ → List (Write (List P)))
    (hs : Schedule n run sched) (m0 : Memory (List P)) (fuel : ℕ) (state : ℕ → List K) (hrun : ∀ r i l, i < n → run r i = some l → Leads init fin (state i ++ [0]) l (state (i + 1) ++ [1]))
    (l : List P) (h : interpolate id n sched m0 fuel = .ok l) : Leads (fun p => (init p).dropLast) (fun p => (fin p).dropLast) (state 0) l (state n) := by
  have hd : ∀ (l : List P) (a b : List K), Leads init fin a l b → Leads (fun p => (init p).dropLast) (fun p => (fin p).dropLast) a.dropLast l b.dropLast := by
    intro l
    induction l with
    | nil => rintro a b rfl; rfl
    | cons p l ih => exact fun a b ⟨e, h⟩ => ⟨by show (init p).dropLast = _; rw [e], ih _ _ h⟩
  refine C61_leads _ _ id n h1 h2 run sched hs m0 fuel state (fun r i l hi hl => ?_) l h
  have := hd _ _ _ (hrun r i l hi hl)
  simpa using this

theorem leads_split {P D : Type _} {init fin : P → D} {a b : D} {l l' : List P} (h : Paths.Leads init fin a (l ++ l') b) : ∃ c, Paths.Leads init fin a l c ∧ Paths.Leads init fin c l' b := by
  induction l generalizing a with
  | nil => exact ⟨a, rfl, h⟩
  | cons p l ih =>
    obtain ⟨e, h⟩ := h
    obtain ⟨c, h1, h2⟩ := ih h
    exact ⟨c, ⟨e, h1⟩, h2⟩

theorem leads_unique {P D : Type _} {init fin : P → D} {a a' b b' : D} {l : List P} (hl : l ≠ []) (h : Paths.Leads init fin a l b) (h' : Paths.Leads init fin a' l b') : a = a' ∧ b = b' := by
  induction l generalizing a a' with
  | nil => exact absurd rfl hl
  | cons p l ih =>
    obtain ⟨e, h⟩ := h
    obtain ⟨e', h'⟩ := h'
    refine ⟨e.symm.trans e', ?_⟩
    cases l with
    | nil => exact h.symm.trans h'
    | cons p' l => exact (ih (by simp) h h').2

open Paths in
/-- **C123 is violated** if the extra degree of freedom is kept and there are two transitions or more: the returned path is not continuous, since each transition goes from 0 to 1. -/
theorem C123_time_violated {P : Type _} (init fin : P → List K) (n : ℕ) (h1 : 2 ≤ n) (h2 : n ≤ 100) (run : ℕ → ℕ → Option (List P)) (sched : ℕ → List (Write (List P)))
    (hs : Schedule n run sched) (m0 : Memory (List P)) (fuel : ℕ) (state : ℕ → List K)
    (hrun : ∀ r i l, i < n → run r i = some l → Leads init fin (state i ++ [0]) l (state (i + 1) ++ [1]))
    (l : List P) (h : interpolate id n sched m0 fuel = .ok l) (a b : List K) : ¬ Leads init fin a l b := by
  intro hl
  have hne : ∀ r i l, i < n → run r i = some l → l ≠ [] := by
    rintro r i _ hi e rfl
    have := hrun r i [] hi e
    simp only [Leads] at this
    have := congrArg List.getLast? this
    simp at this
  by_cases hex : ∀ r < fuel, ∃ i < n, run r i = none
  · rw [(C61_result id n (by omega) h2 run sched hs m0 fuel).2 hex] at h; cases h
  · push Not at hex
    classical
    obtain ⟨r, ⟨hr, hall⟩, hmin⟩ : ∃ r, (r < fuel ∧ ∀ i < n, run r i ≠ none) ∧ ∀ r' < r, ¬ (r' < fuel ∧ ∀ i < n, run r' i ≠ none) :=
      ⟨Nat.find hex, Nat.find_spec hex, fun r' hr' => Nat.find_min hex hr'⟩
    have hf : ∀ r' < r, ∃ i < n, run r' i = none := by
      intro r' hr'
      have := hmin r' hr'
      push Not at this
      exact this (by omega)
    have hok : ∀ i < n, run r i = some ((run r i).getD []) := by
      intro i hi
      cases e : run r i with
      | none => exact absurd e (hall i hi)
      | some l => rfl
    rw [(C61_result id n (by omega) h2 run sched hs m0 fuel).1 r hr hf _ hok] at h
    cases h
    obtain ⟨k, rfl⟩ : ∃ k, n = k + 2 := ⟨n - 2, by omega⟩
    rw [List.map_id, List.range_eq_range', List.range'_succ, List.range'_succ, List.flatMap_cons, List.flatMap_cons] at hl
    obtain ⟨c, k1, k2⟩ := leads_split hl
    obtain ⟨d, k3, _⟩ := leads_split k2
    have e1 := (leads_unique (hne r 0 _ (by omega) (hok 0 (by omega))) k1 (hrun r 0 _ (by omega) (hok 0 (by omega)))).2
    have e2 := (leads_unique (hne r 1 _ (by omega) (hok 1 (by omega))) k3 (hrun r 1 _ (by omega) (hok 1 (by omega)))).1
    rw [e1] at e2
    have := congrArg List.getLast? e2
    simp at this

end Interp
end Rbprm
