import Verif.Model.Kinematics
import Verif.Props.State
import Mathlib.Algebra.Order.Field.Rat
import Mathlib.Tactic.Linarith
import Mathlib.Tactic.Ring
import Mathlib.Tactic.LinearCombination
set_option linter.unusedSectionVars false
/-! # Kinematic constraints follow the contact frame (C51), constraints of a mesh (C92) -/
namespace Rbprm
namespace Reach
variable {N K : Type _} [LinearOrder N] [Field K] [LinearOrder K] [IsStrictOrderedRing K]

/-! ## Specification -/

/-- `x` satisfies `A x ≤ b` -/
def Sat (Ab : Ineq K) (x : Vec3 K) : Prop := ∀ r ∈ Ab, Vec3.dot r.1 x ≤ r.2

/-- `x` is on the inner side of every face: `n · x ≤ n · v` for a face through `v` with outward normal `n` -/
def InFaces (NV : Faces K) (x : Vec3 K) : Prop := ∀ r ∈ NV, Vec3.dot r.1 x ≤ Vec3.dot r.1 r.2

/-- the matrix is orthogonal: it keeps all scalar products -/
def Orthogonal (R : Mat3 K) : Prop := ∀ u v, Vec3.dot (R.mulVec u) (R.mulVec v) = Vec3.dot u v

/-! ## C51 -/

theorem verify_iff (Ab : Ineq K) (x : Vec3 K) : verify Ab x = true ↔ Sat Ab x := by
  induction Ab with
  | nil => simp [verify, Sat]
  | cons r l ih =>
    obtain ⟨a, b⟩ := r
    unfold verify
    by_cases h : Vec3.dot a x > b
    · rw [if_pos h]
      constructor
      · intro h'; cases h'
      · intro h'
        have := h' (a, b) (by simp)
        exact absurd this (not_le.2 h)
    · rw [if_neg h, ih]
      unfold Sat
      constructor
      · intro h' r hr
        rcases List.mem_cons.1 hr with rfl | hr
        · exact not_lt.1 h
        · exact h' r hr
      · intro h' r hr
        exact h' r (List.mem_cons_of_mem _ hr)

/-- **C51**, equivariance.  The point `M y` satisfies the constraints placed at `M` iff `y` satisfies the constraints of the limb. -/
theorem C51_equivariant (NV : Faces K) (M : Transform K) (hM : Orthogonal M.rot) (y : Vec3 K) :
    Sat (inequalitiesAt NV M) (M.apply y) ↔ InFaces NV y := by
  unfold Sat InFaces inequalitiesAt
  simp only [List.mem_map, forall_exists_index, and_imp, forall_apply_eq_imp_iff₂]
  have key : ∀ n v : Vec3 K, (Vec3.dot (M.rot.mulVec n) (M.apply y) ≤ Vec3.dot (M.apply v) (M.rot.mulVec n)) ↔ Vec3.dot n y ≤ Vec3.dot n v := by
    intro n v
    have e1 : Vec3.dot (M.rot.mulVec n) (M.apply y) = Vec3.dot n y + Vec3.dot (M.rot.mulVec n) M.trans := by
      rw [← hM n y]
      simp only [Transform.apply, Vec3.dot, Vec3.add_x, Vec3.add_y, Vec3.add_z]; ring
    have e2 : Vec3.dot (M.apply v) (M.rot.mulVec n) = Vec3.dot n v + Vec3.dot (M.rot.mulVec n) M.trans := by
      rw [← hM n v]
      simp only [Transform.apply, Vec3.dot, Vec3.add_x, Vec3.add_y, Vec3.add_z]; ring
    rw [e1, e2, add_le_add_iff_right]
  exact ⟨fun h r hr => (key r.1 r.2).1 (h r hr), fun h r hr => (key r.1 r.2).2 (h r hr)⟩

/-- an orthogonal matrix: the transpose is a right inverse -/
theorem Orthogonal.right_inv {R : Mat3 K} (h : Orthogonal R) (v : Vec3 K) : R.mulVec (R.transpose.mulVec v) = v := by
  -- Gram matrix is the identity
  have g : ∀ u w : Vec3 K, _ := h
  obtain ⟨⟨a, b, c⟩, ⟨d, e, f⟩, ⟨p, q, r⟩⟩ := R
  have h11 := g ⟨1, 0, 0⟩ ⟨1, 0, 0⟩
  have h12 := g ⟨1, 0, 0⟩ ⟨0, 1, 0⟩
  have h13 := g ⟨1, 0, 0⟩ ⟨0, 0, 1⟩
  have h22 := g ⟨0, 1, 0⟩ ⟨0, 1, 0⟩
  have h23 := g ⟨0, 1, 0⟩ ⟨0, 0, 1⟩
  have h33 := g ⟨0, 0, 1⟩ ⟨0, 0, 1⟩
  simp only [Mat3.mulVec, Vec3.dot, mul_one, mul_zero, add_zero, zero_add] at h11 h12 h13 h22 h23 h33
  -- det² = 1
  set D := a * (e * r - f * q) - b * (d * r - f * p) + c * (d * q - e * p) with hD
  have hdet : D * D = 1 := by
    have : D * D = (a*a+d*d+p*p) * ((b*b+e*e+q*q)*(c*c+f*f+r*r) - (b*c+e*f+q*r)*(b*c+e*f+q*r))
        - (a*b+d*e+p*q) * ((a*b+d*e+p*q)*(c*c+f*f+r*r) - (b*c+e*f+q*r)*(a*c+d*f+p*r))
        + (a*c+d*f+p*r) * ((a*b+d*e+p*q)*(b*c+e*f+q*r) - (b*b+e*e+q*q)*(a*c+d*f+p*r)) := by rw [hD]; ring
    rw [this, h11, h12, h13, h22, h23, h33]; ring
  have hD0 : D ≠ 0 := by intro h0; rw [h0] at hdet; simp at hdet
  -- R Rᵀ w with w := entries; use adjugate : adj(R) = D Rᵀ
  have m1 : e * r - f * q = D * a := by
    have : D * a = (e*r - f*q) * (a*a+d*d+p*p) - (b*r - c*q) * 0 + 0 + ((d*r-f*p)*0) + (
      - b * (d*r-f*p) * a + c * (d*q-e*p) * a - (e*r-f*q)*(d*d+p*p)) := by rw [hD]; ring
    have e1 : - b * (d*r-f*p) * a + c * (d*q-e*p) * a - (e*r-f*q)*(d*d+p*p)
        = -(d*r-f*p) * (a*b+d*e+p*q) + (d*q-e*p) * (a*c+d*f+p*r) := by ring
    rw [this, e1, h11, h12, h13]; ring
  have m2 : -(d * r - f * p) = D * b := by
    have : D * b = -(d*r-f*p) * (b*b+e*e+q*q) + (e*r-f*q) * (a*b+d*e+p*q) + (d*q-e*p) * (b*c+e*f+q*r) := by rw [hD]; ring
    rw [this, h22, h12, h23]; ring
  have m3 : d * q - e * p = D * c := by
    have : D * c = (d*q-e*p) * (c*c+f*f+r*r) + (e*r-f*q) * (a*c+d*f+p*r) - (d*r-f*p) * (b*c+e*f+q*r) := by rw [hD]; ring
    rw [this, h33, h13, h23]; ring
  have m4 : -(b * r - c * q) = D * d := by
    have : D * d = -(b*r-c*q) * (a*a+d*d+p*p) + (a*r-c*p) * (a*b+d*e+p*q) - (a*q-b*p) * (a*c+d*f+p*r) := by rw [hD]; ring
    rw [this, h11, h12, h13]; ring
  have m5 : a * r - c * p = D * e := by
    have : D * e = (a*r-c*p) * (b*b+e*e+q*q) - (b*r-c*q) * (a*b+d*e+p*q) - (a*q-b*p) * (b*c+e*f+q*r) := by rw [hD]; ring
    rw [this, h22, h12, h23]; ring
  have m6 : -(a * q - b * p) = D * f := by
    have : D * f = -(a*q-b*p) * (c*c+f*f+r*r) - (b*r-c*q) * (a*c+d*f+p*r) + (a*r-c*p) * (b*c+e*f+q*r) := by rw [hD]; ring
    rw [this, h33, h13, h23]; ring
  have m7 : b * f - c * e = D * p := by
    have : D * p = (b*f-c*e) * (a*a+d*d+p*p) - (a*f-c*d) * (a*b+d*e+p*q) + (a*e-b*d) * (a*c+d*f+p*r) := by rw [hD]; ring
    rw [this, h11, h12, h13]; ring
  have m8 : -(a * f - c * d) = D * q := by
    have : D * q = -(a*f-c*d) * (b*b+e*e+q*q) + (b*f-c*e) * (a*b+d*e+p*q) + (a*e-b*d) * (b*c+e*f+q*r) := by rw [hD]; ring
    rw [this, h22, h12, h23]; ring
  have m9 : a * e - b * d = D * r := by
    have : D * r = (a*e-b*d) * (c*c+f*f+r*r) + (b*f-c*e) * (a*c+d*f+p*r) - (a*f-c*d) * (b*c+e*f+q*r) := by rw [hD]; ring
    rw [this, h33, h13, h23]; ring
  -- rows are orthonormal
  have r11 : a*a+b*b+c*c = 1 := by
    apply mul_left_cancel₀ hD0
    have : D * (a*a+b*b+c*c) = a * (D*a) + b * (D*b) + c * (D*c) := by ring
    rw [this, ← m1, ← m2, ← m3, hD]; ring
  have r22 : d*d+e*e+f*f = 1 := by
    apply mul_left_cancel₀ hD0
    have : D * (d*d+e*e+f*f) = d * (D*d) + e * (D*e) + f * (D*f) := by ring
    rw [this, ← m4, ← m5, ← m6, hD]; ring
  have r33 : p*p+q*q+r*r = 1 := by
    apply mul_left_cancel₀ hD0
    have : D * (p*p+q*q+r*r) = p * (D*p) + q * (D*q) + r * (D*r) := by ring
    rw [this, ← m7, ← m8, ← m9, hD]; ring
  have r12 : a*d+b*e+c*f = 0 := by
    apply mul_left_cancel₀ hD0
    have : D * (a*d+b*e+c*f) = d * (D*a) + e * (D*b) + f * (D*c) := by ring
    rw [this, ← m1, ← m2, ← m3]; ring
  have r13 : a*p+b*q+c*r = 0 := by
    apply mul_left_cancel₀ hD0
    have : D * (a*p+b*q+c*r) = p * (D*a) + q * (D*b) + r * (D*c) := by ring
    rw [this, ← m1, ← m2, ← m3]; ring
  have r23 : d*p+e*q+f*r = 0 := by
    apply mul_left_cancel₀ hD0
    have : D * (d*p+e*q+f*r) = p * (D*d) + q * (D*e) + r * (D*f) := by ring
    rw [this, ← m4, ← m5, ← m6]; ring
  obtain ⟨x, y, z⟩ := v
  ext <;> simp only [Mat3.mulVec, Mat3.transpose, Vec3.dot]
  · linear_combination x * r11 + y * r12 + z * r13
  · linear_combination x * r12 + y * r22 + z * r23
  · linear_combination x * r13 + y * r23 + z * r33

/-- **C51**, in the other direction: `x` satisfies the constraints placed at `M` iff `M⁻¹ x` satisfies the constraints of the limb. -/
theorem C51_inverse (NV : Faces K) (M : Transform K) (hM : Orthogonal M.rot) (x : Vec3 K) :
    Sat (inequalitiesAt NV M) x ↔ InFaces NV (M.rot.transpose.mulVec (x - M.trans)) := by
  rw [← C51_equivariant NV M hM]
  have : M.apply (M.rot.transpose.mulVec (x - M.trans)) = x := by
    unfold Transform.apply
    rw [hM.right_inv]
    ext <;> simp
  rw [this]

theorem contactLoop_spec (env : KinEnv N K) (q : List K) (m : AMap N Bool) (Ab : Ineq K) (h : contactLoop env q m = some Ab) (x : Vec3 K) :
    (∀ p ∈ m, p.2 = true → (env.limbs.find? p.1).isSome) ∧
    (Sat Ab x ↔ ∀ p ∈ m, p.2 = true → ∀ faces, env.limbs.find? p.1 = some faces → Sat (inequalitiesAt faces (env.effector p.1 q)) x) := by
  induction m generalizing Ab with
  | nil => simp [contactLoop] at h; subst h; simp [Sat]
  | cons p l ih =>
    obtain ⟨name, c⟩ := p
    unfold contactLoop at h
    cases c with
    | false =>
      simp only [Bool.false_eq_true, if_false] at h
      obtain ⟨i1, i2⟩ := ih Ab h
      simp only [List.forall_mem_cons, Bool.false_eq_true, false_imp_iff, true_and]
      exact ⟨i1, i2⟩
    | true =>
      simp only [if_true] at h
      cases hf : env.limbs.find? name with
      | none => simp [hf] at h
      | some faces =>
        cases hr : contactLoop env q l with
        | none => simp [hf, hr] at h
        | some rest =>
          simp only [hf, hr, Option.some.injEq] at h
          obtain ⟨i1, i2⟩ := ih rest hr
          simp only [List.forall_mem_cons, true_imp_iff, hf, Option.isSome_some, true_and, Option.some.injEq, forall_eq']
          refine ⟨i1, ?_⟩
          rw [← i2, ← h]
          unfold Sat
          simp only [List.mem_append]
          exact ⟨fun h' => ⟨fun r hr => h' r (Or.inl hr), fun r hr => h' r (Or.inr hr)⟩, fun h' r hr => hr.elim (h'.1 r) (h'.2 r)⟩

theorem contactLoop_def (env : KinEnv N K) (q : List K) (m : AMap N Bool) (h : ∀ p ∈ m, p.2 = true → (env.limbs.find? p.1).isSome) :
    ∃ Ab, contactLoop env q m = some Ab := by
  induction m with
  | nil => exact ⟨_, rfl⟩
  | cons p l ih =>
    obtain ⟨name, c⟩ := p
    obtain ⟨Ab, hAb⟩ := ih fun p hp => h p (List.mem_cons_of_mem _ hp)
    unfold contactLoop
    cases c with
    | false => exact ⟨Ab, by simpa using hAb⟩
    | true =>
      obtain ⟨f, hf⟩ := Option.isSome_iff_exists.1 (h (name, true) (by simp) rfl)
      simp only at hf
      exact ⟨inequalitiesAt f (env.effector name q) ++ Ab, by simp [hf, hAb]⟩

/-- **C51**, conjunction.  The point satisfies the constraints of a state iff, for every limb in contact, the point expressed in the frame of its effector
satisfies the constraints of the limb. -/
theorem C51_state (env : KinEnv N K) (s : State N K) (hs : s.contacts.WF) (Ab : Ineq K) (h : constraintsForState env s = some Ab)
    (hR : ∀ n, Orthogonal (env.effector n s.configuration).rot) (x : Vec3 K) :
    verify Ab x = true ↔ ∀ n, s.contacts.find? n = some true → ∃ faces, env.limbs.find? n = some faces ∧
      InFaces faces ((env.effector n s.configuration).rot.transpose.mulVec (x - (env.effector n s.configuration).trans)) := by
  obtain ⟨h1, h2⟩ := contactLoop_spec env s.configuration s.contacts Ab h x
  rw [verify_iff, h2]
  constructor
  · intro h' n hn
    have hm := AMap.find?_some_mem hn
    obtain ⟨f, hf⟩ := Option.isSome_iff_exists.1 (h1 _ hm rfl)
    exact ⟨f, hf, (C51_inverse f _ (hR n) x).1 (h' _ hm rfl f hf)⟩
  · rintro h' ⟨n, c⟩ hm hc faces hf
    simp only at hc hf ⊢
    subst hc
    obtain ⟨f, hf', h3⟩ := h' n (AMap.mem_find? hs hm)
    rw [hf] at hf'
    cases hf'
    exact (C51_inverse _ _ (hR n) x).2 h3

/-- the constraints of a state exist iff all limbs in contact are known -/
theorem C51_defined (env : KinEnv N K) (s : State N K) (hs : s.contacts.WF) :
    (constraintsForState env s).isSome ↔ ∀ n, s.contacts.find? n = some true → (env.limbs.find? n).isSome := by
  rw [Option.isSome_iff_exists]
  constructor
  · rintro ⟨Ab, h⟩ n hn
    exact (contactLoop_spec env s.configuration s.contacts Ab h ⟨0, 0, 0⟩).1 _ (AMap.find?_some_mem hn) rfl
  · intro h
    exact contactLoop_def env s.configuration s.contacts fun p hp hc => h p.1 (AMap.mem_find? hs (by rw [← hc]; exact hp))

/-- **C51** (the tests of a point that users call).  A point is accepted by the test of a set of constraints placed at a frame iff it satisfies them in that
frame; it is accepted by the test of a state iff it satisfies the constraints of every limb in contact, in the frame of its effector, and the test of a state is
defined (does not throw) iff every limb in contact is registered. -/
theorem C51_verify (env : KinEnv N K) (s : State N K) (hs : s.contacts.WF) (NV : Faces K) (M : Transform K) (hM : Orthogonal M.rot)
    (hR : ∀ n, Orthogonal (env.effector n s.configuration).rot) (x : Vec3 K) :
    (verifyAt NV M x = true ↔ InFaces NV (M.rot.transpose.mulVec (x - M.trans))) ∧
    ((verifyState env s x).isSome ↔ ∀ n, s.contacts.find? n = some true → (env.limbs.find? n).isSome) ∧
    (verifyState env s x = some true ↔ ∀ n, s.contacts.find? n = some true → ∃ faces, env.limbs.find? n = some faces ∧
      InFaces faces ((env.effector n s.configuration).rot.transpose.mulVec (x - (env.effector n s.configuration).trans))) := by
  refine ⟨?_, ?_, ?_⟩
  · unfold verifyAt
    rw [verify_iff, C51_inverse NV M hM]
  · rw [← C51_defined env s hs]
    simp [verifyState]
  · cases h : constraintsForState env s with
    | none =>
      simp only [verifyState, h, Option.map_none, reduceCtorEq, false_iff]
      intro h'
      have := (C51_defined env s hs).2 fun n hn => by
        obtain ⟨f, hf, -⟩ := h' n hn
        simp [hf]
      simp [h] at this
    | some Ab =>
      simp only [verifyState, h, Option.map_some, Option.some.injEq]
      exact C51_state env s hs Ab h hR x

/-- **C51**, monotony.  A state with more contacts, in which the effectors of the common contacts are placed in the same way, has stronger constraints; in
particular states with the same contacts have the same constraints, whatever the order in which the contacts were created. -/
theorem C51_monotone (env : KinEnv N K) (s t : State N K) (hs : s.contacts.WF) (ht : t.contacts.WF) (A B : Ineq K)
    (hA : constraintsForState env s = some A) (hB : constraintsForState env t = some B)
    (hsub : ∀ n, s.contacts.find? n = some true → t.contacts.find? n = some true ∧ env.effector n s.configuration = env.effector n t.configuration)
    (x : Vec3 K) (hx : verify B x = true) : verify A x = true := by
  obtain ⟨a1, a2⟩ := contactLoop_spec env s.configuration s.contacts A hA x
  obtain ⟨b1, b2⟩ := contactLoop_spec env t.configuration t.contacts B hB x
  rw [verify_iff, a2]
  rw [verify_iff, b2] at hx
  rintro ⟨n, c⟩ hm hc faces hf
  simp only at hc hf ⊢
  subst hc
  obtain ⟨h1, h2⟩ := hsub n (AMap.mem_find? hs hm)
  rw [h2]
  exact hx (n, true) (AMap.find?_some_mem h1) rfl faces hf

/-- **C51**, one limb: `computeKinematicsConstraintsForLimb` gives the constraints of that limb if it is in contact and none otherwise. -/
theorem C51_limb (env : KinEnv N K) (s : State N K) (n : N) (Ab : Ineq K) (h : constraintsForLimb env s n = some Ab)
    (hR : Orthogonal (env.effector n s.configuration).rot) (x : Vec3 K) :
    verify Ab x = true ↔ (s.contacts.find? n = some true → ∃ faces, env.limbs.find? n = some faces ∧
      InFaces faces ((env.effector n s.configuration).rot.transpose.mulVec (x - (env.effector n s.configuration).trans))) := by
  rw [verify_iff]
  unfold constraintsForLimb at h
  cases hc : s.contacts.find? n with
  | none => simp [hc] at h; subst h; simp [Sat]
  | some c =>
    cases c with
    | false => simp [hc] at h; subst h; simp [Sat]
    | true =>
      simp only [hc] at h
      cases hf : env.limbs.find? n with
      | none => simp [hf] at h
      | some faces =>
        simp only [hf, Option.some.injEq] at h
        subst h
        simp only [true_imp_iff, Option.some.injEq, exists_eq_left']
        exact C51_inverse _ _ hR x

/-- **C51**, all limbs: `computeAllKinematicsConstraints` is the conjunction over all the limbs. -/
theorem C51_all (env : KinEnv N K) (q : List K) (x : Vec3 K) (hR : ∀ n, Orthogonal (env.effector n q).rot) :
    verify (allConstraints env q) x = true ↔ ∀ p ∈ env.limbs, InFaces p.2 ((env.effector p.1 q).rot.transpose.mulVec (x - (env.effector p.1 q).trans)) := by
  rw [verify_iff]
  unfold allConstraints Sat
  simp only [List.mem_flatMap, forall_exists_index, and_imp]
  constructor
  · intro h p hp
    rw [← C51_inverse _ _ (hR p.1)]
    intro r hr
    refine h r p hp ?_
    rw [if_pos]
    · exact hr
    · rcases hp2 : p.2 with _ | _
      · rw [hp2] at hr; simp [inequalitiesAt] at hr
      · simp
  · intro h r p hp hr
    have := (C51_inverse _ _ (hR p.1) x).2 (h p hp)
    by_cases hl : p.2.length > 0
    · rw [if_pos hl] at hr; exact this r hr
    · rw [if_neg hl] at hr; simp at hr

/-! ## C92: constraints of a mesh -/

/-- `normalize` divides by a positive number (the vector is not zero) -/
def Normalizes (normalize : Vec3 K → Vec3 K) (v : Vec3 K) : Prop := ∃ c : K, 0 < c ∧ normalize v = Vec3.smul c v

/-- the plane of an oriented triangle separates the points for which this is positive (outside) from the others -/
def orient (a b c x : Vec3 K) : K := Vec3.dot (Vec3.cross (b - a) (c - a)) (x - a)

/-- **C92**.  The constraints that are read in a mesh are satisfied by the points that are not strictly outside of any of the oriented faces and, if a minimal distance is
given, are at least that high above the effector. -/
theorem C92_mesh (normalize : Vec3 K → Vec3 K) (triangles : List (Vec3 K × Vec3 K × Vec3 K)) (d : K)
    (hn : ∀ t ∈ triangles, Normalizes normalize (Vec3.cross (t.2.1 - t.1) (t.2.2 - t.1))) (x : Vec3 K) :
    InFaces (loadConstraints normalize triangles d) x ↔
      (∀ t ∈ triangles, orient t.1 t.2.1 t.2.2 x ≤ 0) ∧ (0 < d → d ≤ x.z) := by
  have hface : InFaces (triangles.map fun t => (triangleNormal normalize t, t.1)) x ↔ ∀ t ∈ triangles, orient t.1 t.2.1 t.2.2 x ≤ 0 := by
    unfold InFaces
    simp only [List.mem_map, forall_exists_index, and_imp, forall_apply_eq_imp_iff₂]
    refine forall₂_congr fun t ht => ?_
    obtain ⟨c, hc, e⟩ := hn t ht
    unfold triangleNormal orient
    rw [e]
    generalize Vec3.cross (t.2.1 - t.1) (t.2.2 - t.1) = w
    have h1 : Vec3.dot (Vec3.smul c w) x = c * Vec3.dot w x := by simp only [Vec3.dot, Vec3.smul_x, Vec3.smul_y, Vec3.smul_z]; ring
    have h2 : Vec3.dot (Vec3.smul c w) t.1 = c * Vec3.dot w t.1 := by simp only [Vec3.dot, Vec3.smul_x, Vec3.smul_y, Vec3.smul_z]; ring
    have h3 : Vec3.dot w (x - t.1) = Vec3.dot w x - Vec3.dot w t.1 := by simp only [Vec3.dot, Vec3.sub_x, Vec3.sub_y, Vec3.sub_z]; ring
    rw [h1, h2, h3, sub_nonpos, mul_le_mul_iff_right₀ hc]
  unfold loadConstraints
  by_cases hd : d > 0
  · simp only [hd, if_true, true_imp_iff]
    rw [← hface]
    unfold InFaces
    simp only [List.mem_append, List.mem_singleton]
    constructor
    · intro h
      refine ⟨fun r hr => h r (Or.inl hr), ?_⟩
      have := h _ (Or.inr rfl)
      simp only [Vec3.dot] at this
      linarith
    · rintro ⟨h1, h2⟩ r (hr | rfl)
      · exact h1 r hr
      · simp only [Vec3.dot]; linarith
  · simp only [hd, if_false, false_imp_iff, and_true]
    exact hface

/-- the faces of the mesh may as well be moved first: the normal of a moved triangle is the moved normal (up to the length), for a rotation -/
theorem C92_transform (normalize : Vec3 K → Vec3 K) (t : Vec3 K × Vec3 K × Vec3 K) (M : Transform K)
    (hM : ∀ u v, Vec3.cross (M.rot.mulVec u) (M.rot.mulVec v) = M.rot.mulVec (Vec3.cross u v))
    (hn : ∀ v, normalize (M.rot.mulVec v) = M.rot.mulVec (normalize v)) :
    triangleNormalTransform normalize t M = M.rot.mulVec (triangleNormal normalize t) := by
  unfold triangleNormalTransform triangleNormal
  have e : ∀ a b, M.apply a - M.apply b = M.rot.mulVec (a - b) := by
    intro a b
    ext <;> simp [Transform.apply, Mat3.mulVec, Vec3.dot] <;> ring
  simp only [e, hM, hn]

/-! ## Examples -/

/-- a quarter turn about the vertical axis, and a translation -/
def demoT : Transform ℚ := ⟨⟨⟨0, -1, 0⟩, ⟨1, 0, 0⟩, ⟨0, 0, 1⟩⟩, ⟨1, 2, 3⟩⟩

theorem demoT_orthogonal : Orthogonal demoT.rot := by
  intro u v
  simp [demoT, Mat3.mulVec, Vec3.dot]; ring

/-- a limb with a half space, at the foot of which the centre of mass has to stay -/
def demoKin : KinEnv ℕ ℚ := ⟨[(0, [(⟨1, 0, 0⟩, ⟨1, 0, 0⟩)]), (1, [(⟨0, 1, 0⟩, ⟨0, 1, 0⟩), (⟨0, 0, -1⟩, ⟨0, 0, 2⟩)])], fun _ _ => demoT⟩

example : verify (inequalitiesAt [((⟨1, 0, 0⟩ : Vec3 ℚ), ⟨1, 0, 0⟩)] demoT) ⟨5, 3, 0⟩ = true ∧
    verify (inequalitiesAt [((⟨1, 0, 0⟩ : Vec3 ℚ), ⟨1, 0, 0⟩)] demoT) ⟨5, 4, 0⟩ = false := by decide +kernel

/-- two contacts: the first alone accepts a point that both together refuse -/
example : ∃ A B : Ineq ℚ,
    constraintsForState demoKin { (State.init 0 : State ℕ ℚ) with contacts := [(0, true), (1, false)] } = some A ∧
    constraintsForState demoKin { (State.init 0 : State ℕ ℚ) with contacts := [(0, true), (1, true)] } = some B ∧
    verify A ⟨0, 2, 0⟩ = true ∧ verify B ⟨0, 2, 0⟩ = false ∧ verify B ⟨0, 2, 5⟩ = true := by
  refine ⟨_, _, rfl, rfl, ?_⟩
  decide +kernel

/-- a tetrahedron with outward faces -/
example : ∀ t ∈ ([(⟨0, 0, 0⟩, ⟨0, 1, 0⟩, ⟨1, 0, 0⟩), (⟨1, 0, 0⟩, ⟨0, 1, 0⟩, ⟨0, 0, 1⟩)] : List (Vec3 ℚ × Vec3 ℚ × Vec3 ℚ)),
    Normalizes id (Vec3.cross (t.2.1 - t.1) (t.2.2 - t.1)) := by
  intro t _
  exact ⟨1, one_pos, by ext <;> simp⟩

example : verify (inequalitiesAt (loadConstraints id ([(⟨0, 0, 0⟩, ⟨0, 1, 0⟩, ⟨1, 0, 0⟩), (⟨1, 0, 0⟩, ⟨0, 1, 0⟩, ⟨0, 0, 1⟩)] : List (Vec3 ℚ × Vec3 ℚ × Vec3 ℚ)) (1/2))
    ⟨⟨⟨1, 0, 0⟩, ⟨0, 1, 0⟩, ⟨0, 0, 1⟩⟩, ⟨0, 0, 0⟩⟩) ⟨1/10, 1/10, 3/5⟩ = true := by decide +kernel

end Reach
end Rbprm
