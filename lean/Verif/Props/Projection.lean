import Verif.Model.Projection
import Verif.Props.Joints
import Verif.Props.Interp
import Verif.Props.Triangle
import Mathlib.Tactic.LinearCombination
import Mathlib.Tactic.FieldSimp
set_option linter.unusedSectionVars false
/-!
# C131–C134: projections of `projection.cc`
-/
namespace Rbprm
namespace Proj
variable {N : Type _} [LinearOrder N] {Smp : Type _}
open Joints (Joint Below)

/-! ### specification -/

/-- a rotation matrix -/
def Rotation (R : Mat3 ℝ) : Prop := Interp.Orthogonal R ∧ Vec3.dot R.r0 (Vec3.cross R.r1 R.r2) = 1

/-- two vectors have opposite directions -/
def Opposite (a b : Vec3 ℝ) : Prop := ∃ k, 0 < k ∧ b = Vec3.smul (-k) a

/-- the contract of the singular value decomposition for opposite unit vectors: a unit vector orthogonal to them -/
def Perpendicular (axis : Vec3 ℝ → Vec3 ℝ → Vec3 ℝ) : Prop := ∀ u, Vec3.normSq u = 1 → Vec3.normSq (axis u (Vec3.smul (-1) u)) = 1 ∧ Vec3.dot (axis u (Vec3.smul (-1) u)) u = 0

/-- the contract of the projector: when it answers true the constraints hold -/
def Robot.Exact (rob : Robot N Smp) : Prop := ∀ cs q, (rob.apply cs q).1 = true → ∀ c ∈ cs, c.holds rob (rob.apply cs q).2

/-- the frames of the effectors are rotated in their joints by rotations -/
def Robot.Frames (rob : Robot N Smp) : Prop := ∀ n l, rob.limbs.find? n = some l → Interp.Orthogonal l.contact.placement

/-- in configuration `q` the effectors are at the contacts of the state, and have their orientations for surface contacts -/
def Kept (rob : Robot N Smp) (s : State N ℝ) (q : List ℝ) : Prop :=
  ∀ n p, State.TouchesAt s n p → rob.kin.pos n q = p ∧
    ∀ l, rob.limbs.find? n = some l → l.contact.sixDof = true → ∀ r, s.contactRotation.find? n = some r → rob.frameRot n l q = r

/-- two states have the same contacts -/
def SameContacts (s s' : State N ℝ) : Prop :=
  s'.contacts = s.contacts ∧ s'.contactPositions = s.contactPositions ∧ s'.contactNormals = s.contactNormals ∧ s'.contactRotation = s.contactRotation ∧ s'.contactOrder = s.contactOrder ∧
    s'.nbContacts = s.nbContacts ∧ s'.stable = s.stable

/-! ### rotations -/

theorem normSq_nonneg (v : Vec3 ℝ) : 0 ≤ Vec3.normSq v := by
  simp only [Vec3.normSq, Vec3.dot]
  nlinarith [mul_self_nonneg v.x, mul_self_nonneg v.y, mul_self_nonneg v.z]

theorem normSq_pos {v : Vec3 ℝ} (h : v ≠ 0) : 0 < Vec3.normSq v := by
  rcases lt_or_eq_of_le (normSq_nonneg v) with h' | h'
  · exact h'
  · exfalso
    apply h
    simp only [Vec3.normSq, Vec3.dot] at h'
    have hx : v.x = 0 := by nlinarith [mul_self_nonneg v.x, mul_self_nonneg v.y, mul_self_nonneg v.z]
    have hy : v.y = 0 := by nlinarith [mul_self_nonneg v.x, mul_self_nonneg v.y, mul_self_nonneg v.z]
    have hz : v.z = 0 := by nlinarith [mul_self_nonneg v.x, mul_self_nonneg v.y, mul_self_nonneg v.z]
    ext <;> assumption

theorem norm_pos {v : Vec3 ℝ} (h : v ≠ 0) : 0 < norm v := Real.sqrt_pos.2 (normSq_pos h)

theorem norm_sq (v : Vec3 ℝ) : norm v * norm v = Vec3.normSq v := Real.mul_self_sqrt (normSq_nonneg v)

theorem normSq_normalized {v : Vec3 ℝ} (h : v ≠ 0) : Vec3.normSq (normalized v) = 1 := by
  unfold normalized
  rw [if_pos (normSq_pos h)]
  have h1 := norm_sq v
  have h2 := norm_pos h
  simp only [Vec3.normSq, Vec3.dot, Vec3.smul] at h1 ⊢
  field_simp
  linarith

theorem toMatrix_mulVec (q : Quat) (v : Vec3 ℝ) : q.toMatrix.mulVec v = v + Vec3.smul (2 * q.w) (Vec3.cross ⟨q.x, q.y, q.z⟩ v) +
    Vec3.smul 2 (Vec3.cross ⟨q.x, q.y, q.z⟩ (Vec3.cross ⟨q.x, q.y, q.z⟩ v)) := by
  ext <;> simp [Quat.toMatrix, Mat3.mulVec, Vec3.dot, Vec3.cross, Vec3.smul] <;> ring

/-- the matrix of a unit quaternion is a rotation -/
theorem toMatrix_rotation (q : Quat) (h : q.w * q.w + q.x * q.x + q.y * q.y + q.z * q.z = 1) : Rotation q.toMatrix := by
  obtain ⟨w, x, y, z⟩ := q
  simp only at h
  refine ⟨⟨?_, ?_⟩, ?_⟩
  · ext <;> simp only [Stability.mulMat, Mat3.transpose, Quat.toMatrix, Vec3.dot, Mat3.one]
    · linear_combination 4 * (y * y + z * z) * h
    · linear_combination -4 * x * y * h
    · linear_combination -4 * x * z * h
    · linear_combination -4 * x * y * h
    · linear_combination 4 * (x * x + z * z) * h
    · linear_combination -4 * y * z * h
    · linear_combination -4 * x * z * h
    · linear_combination -4 * y * z * h
    · linear_combination 4 * (x * x + y * y) * h
  · ext <;> simp only [Stability.mulMat, Mat3.transpose, Quat.toMatrix, Vec3.dot, Mat3.one]
    · linear_combination 4 * (y * y + z * z) * h
    · linear_combination -4 * x * y * h
    · linear_combination -4 * x * z * h
    · linear_combination -4 * x * y * h
    · linear_combination 4 * (x * x + z * z) * h
    · linear_combination -4 * y * z * h
    · linear_combination -4 * x * z * h
    · linear_combination -4 * y * z * h
    · linear_combination 4 * (x * x + y * y) * h
  · simp only [Quat.toMatrix, Vec3.dot, Vec3.cross]
    linear_combination 4 * (x * x + y * y + z * z) * h

theorem dot_normalized_gt {a b : Vec3 ℝ} (ha : a ≠ 0) (hb : b ≠ 0) (h : ¬ Opposite a b) : -1 < Vec3.dot (normalized b) (normalized a) := by
  by_contra hle
  push Not at hle
  have h1 := normSq_normalized ha
  have h2 := normSq_normalized hb
  have hs : Vec3.normSq (normalized a + normalized b) ≤ 0 := by
    simp only [Vec3.normSq, Vec3.dot, Vec3.add_x, Vec3.add_y, Vec3.add_z] at *
    linarith
  have hz : normalized a + normalized b = 0 := by
    by_contra hne
    exact absurd (normSq_pos hne) (not_lt.2 hs)
  apply h
  refine ⟨norm b / norm a, div_pos (norm_pos hb) (norm_pos ha), ?_⟩
  have hna := norm_pos ha
  have hnb := norm_pos hb
  unfold normalized at hz
  rw [if_pos (normSq_pos ha), if_pos (normSq_pos hb)] at hz
  have hx := congrArg Vec3.x hz
  have hy := congrArg Vec3.y hz
  have hzz := congrArg Vec3.z hz
  simp only [Vec3.add_x, Vec3.add_y, Vec3.add_z, Vec3.smul, Vec3.zero_x, Vec3.zero_y, Vec3.zero_z] at hx hy hzz
  field_simp at hx hy hzz
  ext <;> simp only [Vec3.smul] <;> field_simp <;> linarith

theorem rotation_of_not_opposite (axis : Vec3 ℝ → Vec3 ℝ → Vec3 ℝ) (a b : Vec3 ℝ) (ha : a ≠ 0) (hb : b ≠ 0) (h : ¬ Opposite a b) :
    Rotation (rotationBetween axis a b) ∧ (rotationBetween axis a b).mulVec (normalized a) = normalized b := by
  have hc := dot_normalized_gt ha hb h
  have h1 := normSq_normalized ha
  have h2 := normSq_normalized hb
  unfold rotationBetween fromTwoVectors
  simp only
  rw [if_neg (not_le.2 hc)]
  generalize normalized a = u at *
  generalize normalized b = v at *
  set c := Vec3.dot v u with hcd
  have hpos : 0 < (1 + c) * 2 := by linarith
  have hs := Real.sqrt_pos.2 hpos
  have hss := Real.mul_self_sqrt hpos.le
  set s := Real.sqrt ((1 + c) * 2)
  have hi : s * (1 / s) = 1 := by field_simp
  generalize 1 / s = i at *
  have hii : i * i * ((1 + c) * 2) = 1 := by rw [← hss]; linear_combination (s * i + 1) * hi
  have hcr : Vec3.normSq (Vec3.cross u v) = 1 - c * c := by
    rw [hcd]
    simp only [Vec3.normSq, Vec3.dot, Vec3.cross] at h1 h2 ⊢
    linear_combination (v.x * v.x + v.y * v.y + v.z * v.z) * h1 + h2
  constructor
  · apply toMatrix_rotation
    simp only
    simp only [Vec3.normSq, Vec3.dot] at hcr
    linear_combination i * i * hcr + (1 / 4) * hss + ((1 - c) / 2) * hii
  · rw [toMatrix_mulVec]
    simp only
    have e1 : Vec3.cross (⟨(Vec3.cross u v).x * i, (Vec3.cross u v).y * i, (Vec3.cross u v).z * i⟩ : Vec3 ℝ) u = Vec3.smul i (v - Vec3.smul c u) := by
      rw [hcd]
      ext <;> simp only [Vec3.cross, Vec3.smul, Vec3.sub_x, Vec3.sub_y, Vec3.sub_z, Vec3.dot, Vec3.normSq] at h1 ⊢
      · linear_combination i * v.x * h1
      · linear_combination i * v.y * h1
      · linear_combination i * v.z * h1
    have e2 : Vec3.cross (⟨(Vec3.cross u v).x * i, (Vec3.cross u v).y * i, (Vec3.cross u v).z * i⟩ : Vec3 ℝ) (Vec3.smul i (v - Vec3.smul c u)) =
        Vec3.smul (i * i * (c * c - 1)) u := by
      have hc' : v.x * u.x + v.y * u.y + v.z * u.z = c := by rw [hcd]; rfl
      simp only [Vec3.dot, Vec3.normSq] at h1 h2
      ext <;> simp only [Vec3.cross, Vec3.smul, Vec3.sub_x, Vec3.sub_y, Vec3.sub_z]
      · linear_combination (-(i * i) * u.x) * h2 + (i * i * (v.x + c * u.x)) * hc' - i * i * c * v.x * h1
      · linear_combination (-(i * i) * u.y) * h2 + (i * i * (v.y + c * u.y)) * hc' - i * i * c * v.y * h1
      · linear_combination (-(i * i) * u.z) * h2 + (i * i * (v.z + c * u.z)) * hc' - i * i * c * v.z * h1
    rw [e1, e2]
    ext <;> simp only [Vec3.add_x, Vec3.add_y, Vec3.add_z, Vec3.smul, Vec3.sub_x, Vec3.sub_y, Vec3.sub_z]
    · linear_combination (v.x - c * u.x) * hi + (c - 1) * u.x * hii
    · linear_combination (v.y - c * u.y) * hi + (c - 1) * u.y * hii
    · linear_combination (v.z - c * u.z) * hi + (c - 1) * u.z * hii

theorem normalized_opposite {a b : Vec3 ℝ} (ha : a ≠ 0) (h : Opposite a b) : normalized b = Vec3.smul (-1) (normalized a) := by
  obtain ⟨k, hk, rfl⟩ := h
  have hn := norm_pos ha
  have hb : Vec3.normSq (Vec3.smul (-k) a) = k ^ 2 * Vec3.normSq a := by simp only [Vec3.normSq, Vec3.dot, Vec3.smul]; ring
  have hpos : 0 < Vec3.normSq (Vec3.smul (-k) a) := by rw [hb]; exact mul_pos (pow_pos hk 2) (normSq_pos ha)
  have hnb : norm (Vec3.smul (-k) a) = k * norm a := by
    unfold norm
    rw [hb, Real.sqrt_mul (sq_nonneg k), Real.sqrt_sq hk.le]
  unfold normalized
  rw [if_pos hpos, if_pos (normSq_pos ha), hnb]
  ext <;> simp only [Vec3.smul] <;> field_simp

/-- C131: the rotation between two vectors is a rotation and maps the direction of the first to that of the second -/
theorem C131_rotation (axis : Vec3 ℝ → Vec3 ℝ → Vec3 ℝ) (hax : Perpendicular axis) (a b : Vec3 ℝ) (ha : a ≠ 0) (hb : b ≠ 0) :
    Rotation (rotationBetween axis a b) ∧ (rotationBetween axis a b).mulVec (normalized a) = normalized b := by
  by_cases h : Opposite a b
  · have h1 := normSq_normalized ha
    have h2 := normalized_opposite ha h
    obtain ⟨h3, h4⟩ := hax _ h1
    unfold rotationBetween fromTwoVectors
    simp only
    rw [h2]
    generalize normalized a = u at *
    have hc : Vec3.dot (Vec3.smul (-1) u) u = -1 := by
      simp only [Vec3.normSq, Vec3.dot, Vec3.smul] at h1 ⊢
      linarith
    rw [hc, if_pos le_rfl]
    generalize axis u (Vec3.smul (-1) u) = k at *
    have e1 : Real.sqrt ((1 + max (-1) (-1)) * (1 / 2)) = 0 := by simp
    have e2 : Real.sqrt (1 - (1 + max (-1) (-1)) * (1 / 2)) = 1 := by simp
    rw [e1, e2]
    constructor
    · apply toMatrix_rotation
      simp only [Vec3.normSq, Vec3.dot] at h3 ⊢
      linarith
    · rw [toMatrix_mulVec]
      simp only [Vec3.normSq, Vec3.dot] at h3 h4
      ext <;> simp only [Vec3.smul, Vec3.cross, Vec3.add_x, Vec3.add_y, Vec3.add_z, mul_one, mul_zero, zero_mul, add_zero]
      · linear_combination 2 * k.x * h4 - 2 * u.x * h3
      · linear_combination 2 * k.y * h4 - 2 * u.y * h3
      · linear_combination 2 * k.z * h4 - 2 * u.z * h3
  · exact rotation_of_not_opposite axis a b ha hb h

/-! ### contacts -/

theorem find_map {V W : Type _} (f : V → W) (m : AMap N V) (n : N) : AMap.find? (m.map fun e => (e.1, f e.2)) n = (m.find? n).map f := by
  induction m with
  | nil => rfl
  | cons e m ih =>
    obtain ⟨k, v⟩ := e
    simp only [List.map_cons, AMap.find?_cons, ih]
    split_ifs <;> rfl

theorem contactConstraints_iff (rob : Robot N Smp) (hf : rob.Frames) (s : State N ℝ) (hm : s.MapsOk) (cs : List (Constraint N)) (h : rob.contactConstraints s = some cs) (q : List ℝ) :
    (∀ c ∈ cs, c.holds rob q) ↔ Kept rob s q := by
  unfold Robot.contactConstraints at h
  obtain ⟨ics, hi, rfl⟩ := Option.map_eq_some_iff.1 h
  have hfind : ∀ n, rob.contactLimbs.find? n = (rob.limbs.find? n).map (·.contact) := fun n => find_map _ _ n
  have hl : ∀ n l, rob.contactLimbs.find? n = some l → Interp.Orthogonal l.placement := by
    intro n l hn
    rw [hfind] at hn
    obtain ⟨l', hl', rfl⟩ := Option.map_eq_some_iff.1 hn
    exact hf n l' hl'
  have key := Interp.addContactConstraints_iff rob.kin rob.contactLimbs hl s 0 q _ ics hi
  simp only [List.forall_mem_map, Constraint.holds]
  rw [key]
  have hself : ∀ n, n ∈ State.fixedContacts s s ↔ ∃ p, State.TouchesAt s n p := by
    intro n
    rw [(State.C06_fixed hm hm).2]
    constructor
    · rintro ⟨p, _, hp, _⟩
      exact ⟨p, hp⟩
    · rintro ⟨p, hp⟩
      refine ⟨p, p, hp, hp, ?_⟩
      simp [State.FarApart, Vec3.distSq, Vec3.normSq, Vec3.dot]
  constructor
  · intro h' n p hp
    obtain ⟨h1, h2⟩ := h' n ((hself n).2 ⟨p, hp⟩)
    refine ⟨h1 p hp, fun l hl' h6 r hr => ?_⟩
    exact h2 l.contact (by rw [hfind, hl']; rfl) h6 r hr
  · intro h' n hn
    obtain ⟨p, hp⟩ := (hself n).1 hn
    refine ⟨fun p' hp' => (h' n p' hp').1, fun l hl' h6 r hr => ?_⟩
    rw [hfind] at hl'
    obtain ⟨l', hl'', rfl⟩ := Option.map_eq_some_iff.1 hl'
    exact (h' n p hp).2 l' hl'' h6 r hr

theorem projectWith_some {rob : Robot N Smp} {cs : Option (List (Constraint N))} {extra : List (Constraint N)} {s : State N ℝ} {rep : Report N} (h : rob.projectWith cs extra s = some rep) :
    ∃ cs', cs = some cs' ∧ rep.success = (rob.apply (cs' ++ extra) s.configuration).1 ∧ rep.result.configuration = (rob.apply (cs' ++ extra) s.configuration).2 ∧
      SameContacts s rep.result := by
  unfold Robot.projectWith at h
  obtain ⟨cs', rfl, rfl⟩ := Option.map_eq_some_iff.1 h
  exact ⟨cs', rfl, rfl, rfl, rfl, rfl, rfl, rfl, rfl, rfl, rfl⟩

theorem projectWith_success {rob : Robot N Smp} (he : rob.Exact) (hf : rob.Frames) {extra : List (Constraint N)} {s : State N ℝ} (hm : s.MapsOk) {rep : Report N}
    (h : rob.projectWith (rob.contactConstraints s) extra s = some rep) (hs : rep.success = true) :
    Kept rob s rep.result.configuration ∧ ∀ c ∈ extra, c.holds rob rep.result.configuration := by
  obtain ⟨cs, hcs, h1, h2, _⟩ := projectWith_some h
  have := he (cs ++ extra) s.configuration (h1 ▸ hs)
  rw [h2]
  exact ⟨(contactConstraints_iff rob hf s hm cs hcs _).1 fun c hc => this c (List.mem_append_left _ hc), fun c hc => this c (List.mem_append_right _ hc)⟩

/-! ### C132 -/

/-- C132: a successful projection to a root position keeps all the contacts of the state and puts the root at the target -/
theorem C132_rootPosition (rob : Robot N Smp) (he : rob.Exact) (hf : rob.Frames) (target : Vec3 ℝ) (s : State N ℝ) (hm : s.MapsOk) (rep : Report N)
    (h : rob.toRootPosition target s = some rep) (hs : rep.success = true) : Kept rob s rep.result.configuration ∧ rob.rootPos rep.result.configuration = target := by
  obtain ⟨h1, h2⟩ := projectWith_success he hf hm h hs
  refine ⟨h1, ?_⟩
  have := h2 _ (List.mem_singleton.2 rfl)
  simp only [Constraint.holds, Interp.sub_eq_zero'] at this
  rw [← this]
  ext <;> simp [Mat3.mulVec, Vec3.dot]

/-- C132: a successful projection to a root configuration keeps all the contacts and gives every joint that is in no limb its coordinates in the target -/
theorem C132_rootConfiguration (rob : Robot N Smp) (he : rob.Exact) (hf : rob.Frames) (conf : List ℝ) (head : Vec3 ℝ) (s : State N ℝ) (hm : s.MapsOk) (rep : Report N)
    (h : rob.toRootConfiguration conf head s 0 = some rep) (hs : rep.success = true) :
    Kept rob s rep.result.configuration ∧ ∀ k, Below rob.root k → (∀ l, Below rob.root l → (∃ e ∈ rob.limbs, l.name = e.2.joint) → ¬ Below l k) → k.rank + k.size ≤ conf.length →
      ∀ i, k.rank ≤ i → i < k.rank + k.size → rep.result.configuration[i]? = conf[i]? := by
  unfold Robot.toRootConfiguration at h
  rw [if_pos rfl] at h
  obtain ⟨h1, h2⟩ := projectWith_success he hf hm h hs
  refine ⟨h1, fun k hk hout hlen i hi1 hi2 => ?_⟩
  have hl := Joints.C128_locked (rob.limbs.map fun e => e.2.joint) conf rob.root k hk (by
    intro l hl hn
    obtain ⟨e, he, hn⟩ := List.mem_map.1 hn
    exact hout l hl ⟨e, he, hn.symm⟩)
  have := h2 _ (List.mem_map.2 ⟨_, hl, rfl⟩)
  simp only [Constraint.holds] at this
  have hsz : (Joints.segment conf k.rank k.size).length = k.size := by
    simp only [Joints.segment, List.length_take, List.length_drop]
    omega
  rw [hsz] at this
  have h' := congrArg (fun l => l[i - k.rank]?) this
  simp only [Joints.segment, List.getElem?_take, List.getElem?_drop] at h'
  rw [if_pos (by omega), if_pos (by omega)] at h'
  have e : k.rank + (i - k.rank) = i := by omega
  rwa [e] at h'

/-- C132: with an offset, the point of the root at this offset is at the position of the target; the orientation of the root is free -/
theorem C132_offset (rob : Robot N Smp) (he : rob.Exact) (hf : rob.Frames) (conf : List ℝ) (head offset : Vec3 ℝ) (ho : offset ≠ 0) (s : State N ℝ) (hm : s.MapsOk) (rep : Report N)
    (h : rob.toRootConfiguration conf head s offset = some rep) (hs : rep.success = true) :
    Kept rob s rep.result.configuration ∧ rob.rootPos rep.result.configuration + (rob.rootRot rep.result.configuration).mulVec offset = head := by
  unfold Robot.toRootConfiguration at h
  rw [if_neg ho] at h
  obtain ⟨h1, h2⟩ := projectWith_success he hf hm h hs
  refine ⟨h1, ?_⟩
  have := h2 _ (List.mem_singleton.2 rfl)
  simpa only [Constraint.holds, Interp.sub_eq_zero'] using this

/-- C132: a successful projection to a position of the centre of mass keeps all the contacts and puts it at the target -/
theorem C132_com (rob : Robot N Smp) (he : rob.Exact) (hf : rob.Frames) (target : Vec3 ℝ) (s : State N ℝ) (hm : s.MapsOk) (rep : Report N)
    (h : rob.toComPosition target s = some rep) (hs : rep.success = true) : Kept rob s rep.result.configuration ∧ rob.kin.com rep.result.configuration = target := by
  obtain ⟨h1, h2⟩ := projectWith_success he hf hm h hs
  exact ⟨h1, h2 _ (List.mem_singleton.2 rfl)⟩

/-- C132: whether it succeeds or not, a projection returns a state with the contacts of the given state -/
theorem C132_contacts (rob : Robot N Smp) (s : State N ℝ) (rep : Report N)
    (h : (∃ t, rob.toRootPosition t s = some rep) ∨ (∃ c h o, rob.toRootConfiguration c h s o = some rep) ∨ ∃ t, rob.toComPosition t s = some rep) : SameContacts s rep.result := by
  rcases h with ⟨t, h⟩ | ⟨c, hd, o, h⟩ | ⟨t, h⟩
  · exact (projectWith_some h).choose_spec.2.2.2
  · unfold Robot.toRootConfiguration at h
    split_ifs at h <;> exact (projectWith_some h).choose_spec.2.2.2
  · exact (projectWith_some h).choose_spec.2.2.2

/-- C132, violated for the robustness: it is not copied -/
theorem C132_robustness_violated (rob : Robot N Smp) (s : State N ℝ) (t : Vec3 ℝ) (rep : Report N) (h : rob.toComPosition t s = some rep) : rep.result.robustness = rob.junk := by
  unfold Robot.toComPosition Robot.projectWith at h
  obtain ⟨cs, _, rfl⟩ := Option.map_eq_some_iff.1 h
  rfl

/-- C132: the projections do not throw for a state whose contacts are those of limbs of the robot and have rotations -/
theorem C132_defined (rob : Robot N Smp) (s : State N ℝ) (hm : s.MapsOk) (hl : ∀ n p, State.TouchesAt s n p → (rob.limbs.find? n).isSome ∧ (s.contactRotation.find? n).isSome) :
    (∀ t, ∃ rep, rob.toRootPosition t s = some rep) ∧ (∀ t, ∃ rep, rob.toComPosition t s = some rep) ∧ ∀ c h o, ∃ rep, rob.toRootConfiguration c h s o = some rep := by
  have hfind : ∀ n, rob.contactLimbs.find? n = (rob.limbs.find? n).map (·.contact) := fun n => find_map _ _ n
  have hall : ∀ ns : List N, (∀ n ∈ ns, ∃ p, State.TouchesAt s n p) → ∃ cs, Interp.addContactConstraints (C := List ℝ) rob.contactLimbs s ns = some cs := by
    intro ns
    induction ns with
    | nil => intro _; exact ⟨[], rfl⟩
    | cons n ns ih =>
      intro h
      obtain ⟨p, hp⟩ := h n (List.mem_cons_self ..)
      obtain ⟨cs, hcs⟩ := ih fun m hm => h m (List.mem_cons_of_mem _ hm)
      obtain ⟨hl1, hl2⟩ := hl n p hp
      obtain ⟨l, hl1⟩ := Option.isSome_iff_exists.1 hl1
      obtain ⟨r, hr⟩ := Option.isSome_iff_exists.1 hl2
      have h1 : ∃ c, Interp.contactConstraint (C := List ℝ) rob.contactLimbs s n = some c := by
        have e1 : rob.contactLimbs.find? n = some l.contact := by rw [hfind, hl1]; rfl
        have e2 : s.contactPositions.find? n = some p := hp
        unfold Interp.contactConstraint
        simp only [e1, e2, hr]
        split_ifs
        · exact ⟨_, rfl⟩
        · exact ⟨_, rfl⟩
      obtain ⟨c, hc⟩ := h1
      exact ⟨c ++ cs, by simp only [Interp.addContactConstraints, hc, hcs]⟩
  have hcs : ∃ cs, rob.contactConstraints s = some cs := by
    obtain ⟨cs, hcs⟩ := hall (State.fixedContacts s s) (fun n hn => by
      obtain ⟨p, _, hp, _⟩ := ((State.C06_fixed hm hm).2 n).1 hn
      exact ⟨p, hp⟩)
    exact ⟨_, by unfold Robot.contactConstraints; rw [hcs]; rfl⟩
  obtain ⟨cs, hcs⟩ := hcs
  refine ⟨fun t => ?_, fun t => ?_, fun c h o => ?_⟩
  · unfold Robot.toRootPosition Robot.projectWith
    rw [hcs]
    exact ⟨_, rfl⟩
  · unfold Robot.toComPosition Robot.projectWith
    rw [hcs]
    exact ⟨_, rfl⟩
  · unfold Robot.toRootConfiguration Robot.projectWith
    rw [hcs]
    split_ifs <;> exact ⟨_, rfl⟩

/-! ### C133 -/

/-- C133: a successful projection to a position of the centre of mass without collision keeps the contacts, puts the centre of mass at the target, and passes the whole-body collision test -/
theorem C133_success (rob : Robot N Smp) (he : rob.Exact) (hf : rob.Frames) (target : Vec3 ℝ) (s : State N ℝ) (hm : s.MapsOk) (rep : Report N)
    (h : rob.toColFreeCom target s = some rep) (hs : rep.success = true) :
    Kept rob s rep.result.configuration ∧ rob.kin.com rep.result.configuration = target ∧ rob.valid rep.result.configuration = true := by
  unfold Robot.toColFreeCom at h
  obtain ⟨cs, hcs, rfl⟩ := Option.map_eq_some_iff.1 h
  simp only at hs ⊢
  by_cases hc : ((rob.apply (cs ++ [.com target, .posture]) s.configuration).1 && rob.freeLimbsOk (s.freeEffectors (rob.limbs.map (·.1)))
      (rob.resultOf s (rob.apply (cs ++ [.com target, .posture]) s.configuration).2)) = true
  · rw [if_pos hc] at hs ⊢
    simp only [Bool.and_eq_true] at hs
    have := he _ _ hs.1
    exact ⟨(contactConstraints_iff rob hf s hm cs hcs _).1 fun c hc => this c (List.mem_append_left _ hc), this (.com target) (by simp), hs.2⟩
  · rw [if_neg hc] at hs
    cases hs

/-- C133: whether it succeeds or not, it returns a state with the contacts of the given state -/
theorem C133_contacts (rob : Robot N Smp) (target : Vec3 ℝ) (s : State N ℝ) (rep : Report N) (h : rob.toColFreeCom target s = some rep) : SameContacts s rep.result := by
  unfold Robot.toColFreeCom at h
  obtain ⟨cs, _, rfl⟩ := Option.map_eq_some_iff.1 h
  simp only
  split_ifs <;> exact ⟨rfl, rfl, rfl, rfl, rfl, rfl, rfl⟩

/-- C133, violated: the collision free configurations found for the free limbs are not used: when the projector leaves a configuration that satisfies the constraints as it is, the
returned configuration is that of the first projection, so that success means that it was free of collision already -/
theorem C133_discarded_violated (rob : Robot N Smp) (target : Vec3 ℝ) (s : State N ℝ) (rep : Report N) (h : rob.toColFreeCom target s = some rep)
    (hidem : ∀ cs q, (rob.apply cs q).1 = true → rob.apply cs (rob.apply cs q).2 = (true, (rob.apply cs q).2)) :
    ∃ cs, rob.contactConstraints s = some cs ∧ rep.result.configuration = (rob.apply (cs ++ [.com target, .posture]) s.configuration).2 := by
  unfold Robot.toColFreeCom at h
  obtain ⟨cs, hcs, rfl⟩ := Option.map_eq_some_iff.1 h
  refine ⟨cs, hcs, ?_⟩
  simp only
  by_cases hc : ((rob.apply (cs ++ [.com target, .posture]) s.configuration).1 && rob.freeLimbsOk (s.freeEffectors (rob.limbs.map (·.1)))
      (rob.resultOf s (rob.apply (cs ++ [.com target, .posture]) s.configuration).2)) = true
  · rw [if_pos hc]
    simp only [Bool.and_eq_true] at hc
    simp only [hidem _ _ hc.1]
  · rw [if_neg hc]
    rfl

/-! ### C131 -/

theorem mulMat_mulVec (A B : Mat3 ℝ) (v : Vec3 ℝ) : (Stability.mulMat A B).mulVec v = A.mulVec (B.mulVec v) := by
  ext <;> simp only [Stability.mulMat, Mat3.transpose, Mat3.mulVec, Vec3.dot] <;> ring

theorem mulVec_smul (A : Mat3 ℝ) (k : ℝ) (v : Vec3 ℝ) : A.mulVec (Vec3.smul k v) = Vec3.smul k (A.mulVec v) := by
  ext <;> simp only [Mat3.mulVec, Vec3.dot, Vec3.smul] <;> ring

theorem one_mulVec (v : Vec3 ℝ) : Mat3.one.mulVec v = v := by
  ext <;> simp [Mat3.mulVec, Vec3.dot, Mat3.one]

theorem orthogonal_normSq {R : Mat3 ℝ} (h : Interp.Orthogonal R) (v : Vec3 ℝ) : Vec3.normSq (R.mulVec v) = Vec3.normSq v := by
  have h1 : Vec3.normSq (R.mulVec v) = Vec3.dot v (R.transpose.mulVec (R.mulVec v)) := by
    simp only [Vec3.normSq, Vec3.dot, Mat3.mulVec, Mat3.transpose]
    ring
  rw [h1, ← mulMat_mulVec, h.2, one_mulVec]
  rfl

theorem orthogonal_normalized {R : Mat3 ℝ} (h : Interp.Orthogonal R) (v : Vec3 ℝ) : normalized (R.mulVec v) = R.mulVec (normalized v) := by
  unfold normalized norm
  rw [orthogonal_normSq h]
  split_ifs
  · rw [mulVec_smul]
  · rfl

theorem projectEffector_success {rob : Robot N Smp} (he : rob.Exact) {proj : List (Constraint N)} {check : List ℝ → Bool} {limbId : N} {limb : Limb N}
    (hreg : rob.limbs.find? limbId = some limb) {q : List ℝ} {rot : Mat3 ℝ} {position normal : Vec3 ℝ} {current : State N ℝ}
    (hs : (rob.projectEffector proj check limbId limb q rot position normal current).1.success = true) :
    let q' := (rob.projectEffector proj check limbId limb q rot position normal current).1.result.configuration
    (∀ c ∈ proj, c.holds rob q') ∧ rob.kin.pos limbId q' = position ∧
    (limb.contact.sixDof = true → if rob.postural then (rob.frameRot limbId limb q').mulVec ⟨0, 0, 1⟩ = rot.mulVec ⟨0, 0, 1⟩ else rob.frameRot limbId limb q' = rot) ∧
    check q' = true ∧ (rob.projectEffector proj check limbId limb q rot position normal current).1.result =
      { current.addContact limbId position normal (rob.frameRot limbId limb q') q' with robustness := rob.junk } := by
  unfold Robot.projectEffector at hs ⊢
  simp only at hs ⊢
  set cs := proj ++ [Constraint.effectorPosition limbId position] ++ (if limb.contact.sixDof then [.effectorOrientation limbId rot rob.postural] else []) ++
    (if rob.postural then [.posture] else []) with hcs
  by_cases hc : ((rob.apply cs q).1 && check (rob.apply cs q).2) = true
  · rw [if_pos hc]
    simp only [Bool.and_eq_true] at hc
    have hh := he cs q hc.1
    have hp : rob.kin.pos limbId (rob.apply cs q).2 = position := by
      have := hh (.effectorPosition limbId position) (by simp [hcs])
      simpa only [Constraint.holds, Interp.sub_eq_zero'] using this
    refine ⟨fun c hm => hh c (by simp [hcs, hm]), hp, fun h6 => ?_, hc.2, ?_⟩
    · have := hh (.effectorOrientation limbId rot rob.postural) (by simp [hcs, h6])
      simp only [Constraint.holds, hreg] at this
      exact this
    · show ({ (State.init rob.junk).assign _ false with .. } : State N ℝ) = _
      rw [hp]
      rfl
  · rw [if_neg hc] at hs
    cases hs

theorem toObstacle_success {rob : Robot N Smp} (he : rob.Exact) {proj : List (Constraint N)} {check : List ℝ → Bool} {limbId : N} {limb : Limb N}
    (hreg : rob.limbs.find? limbId = some limb) {q : List ℝ} {rotation : Mat3 ℝ} {position normal : Vec3 ℝ} {current : State N ℝ}
    (hs : (rob.toObstacle proj check limbId limb q current normal position rotation).1.success = true) :
    let q' := (rob.toObstacle proj check limbId limb q current normal position rotation).1.result.configuration
    let m := rob.placement limbId limb q normal position rotation
    (∀ c ∈ proj, c.holds rob q') ∧ rob.kin.pos limbId q' = m.2 ∧
    (limb.contact.sixDof = true → if rob.postural then (rob.frameRot limbId limb q').mulVec ⟨0, 0, 1⟩ = m.1.mulVec ⟨0, 0, 1⟩ else rob.frameRot limbId limb q' = m.1) ∧
    check q' = true ∧ (rob.toObstacle proj check limbId limb q current normal position rotation).1.result =
      { current.addContact limbId m.2 normal (rob.frameRot limbId limb q') q' with robustness := rob.junk } :=
  projectEffector_success he hreg hs

/-- what a successful projection of an effector of a limb with rotation `R` gives: the contact point of the effector is one millimetre away from the requested position, along the normal -/
def AtPosition (rob : Robot N Smp) (limbId : N) (limb : Limb N) (q : List ℝ) (normal position : Vec3 ℝ) : Prop :=
  rob.kin.pos limbId q + (rob.frameRot limbId limb q).mulVec limb.offset = position + Vec3.smul (1 / 1000) normal

/-- the normal of the effector is the requested normal -/
def Aligned (rob : Robot N Smp) (limbId : N) (limb : Limb N) (q : List ℝ) (normal : Vec3 ℝ) : Prop :=
  (rob.frameRot limbId limb q).mulVec (normalized limb.normal) = normalized normal

theorem sub_add_cancel' (a b c : Vec3 ℝ) : a - b + c + b = a + c := by
  ext <;> simp only [Vec3.add_x, Vec3.add_y, Vec3.add_z, Vec3.sub_x, Vec3.sub_y, Vec3.sub_z] <;> ring

theorem epsilon_eq : epsilon = 1 / 1000 := by norm_num [epsilon]

/-- the given rotation, or the current one of the effector turned so that its normal is the requested one -/
theorem placement_aligned (rob : Robot N Smp) (limbId : N) (limb : Limb N) (q : List ℝ) (normal position : Vec3 ℝ) (hrot : Interp.Orthogonal (rob.frameRot limbId limb q))
    (hn : normal ≠ 0) (hln : limb.normal ≠ 0) (hax : Perpendicular rob.axis) :
    (rob.placement limbId limb q normal position ⟨0, 0, 0⟩).1.mulVec (normalized limb.normal) = normalized normal := by
  have hz : (rob.frameRot limbId limb q).mulVec limb.normal ≠ 0 := by
    intro h0
    have := orthogonal_normSq hrot limb.normal
    rw [h0] at this
    have h1 := normSq_pos hln
    rw [← this] at h1
    simp [Vec3.normSq, Vec3.dot] at h1
  have := (C131_rotation rob.axis hax _ normal hz hn).2
  unfold Robot.placement
  simp only [if_true]
  rw [mulMat_mulVec, ← orthogonal_normalized hrot]
  exact this

/-- C131: contact of a surface, no rotation given: the normal of the effector becomes that of the obstacle and its contact point is at the requested position, one millimetre above the obstacle -/
theorem C131_surface (rob : Robot N Smp) (he : rob.Exact) (proj : List (Constraint N)) (check : List ℝ → Bool) (limbId : N) (limb : Limb N) (hreg : rob.limbs.find? limbId = some limb)
    (h6 : limb.contact.sixDof = true) (hpost : rob.postural = false) (q : List ℝ) (current : State N ℝ) (normal position : Vec3 ℝ)
    (hrot : Interp.Orthogonal (rob.frameRot limbId limb q)) (hn : normal ≠ 0) (hln : limb.normal ≠ 0) (hax : Perpendicular rob.axis)
    (hs : (rob.toObstacle proj check limbId limb q current normal position ⟨0, 0, 0⟩).1.success = true) :
    let q' := (rob.toObstacle proj check limbId limb q current normal position ⟨0, 0, 0⟩).1.result.configuration
    Aligned rob limbId limb q' normal ∧ AtPosition rob limbId limb q' normal position ∧ check q' = true ∧ ∀ c ∈ proj, c.holds rob q' := by
  obtain ⟨h1, h2, h3, h4, _⟩ := toObstacle_success he hreg hs
  have h3 := h3 h6
  rw [hpost] at h3
  simp only [Bool.false_eq_true, if_false] at h3
  refine ⟨?_, ?_, h4, h1⟩
  · unfold Aligned
    show (rob.frameRot limbId limb _).mulVec _ = _
    rw [h3]
    exact placement_aligned rob limbId limb q normal position hrot hn hln hax
  · unfold AtPosition
    show rob.kin.pos limbId _ + (rob.frameRot limbId limb _).mulVec _ = _
    rw [h2, h3, ← epsilon_eq]
    exact sub_add_cancel' _ _ _

/-- C131: the same with a given rotation, which becomes that of the effector -/
theorem C131_given (rob : Robot N Smp) (he : rob.Exact) (proj : List (Constraint N)) (check : List ℝ → Bool) (limbId : N) (limb : Limb N) (hreg : rob.limbs.find? limbId = some limb)
    (h6 : limb.contact.sixDof = true) (hpost : rob.postural = false) (q : List ℝ) (current : State N ℝ) (normal position : Vec3 ℝ) (rotation : Mat3 ℝ) (hr : rotation ≠ ⟨0, 0, 0⟩)
    (hs : (rob.toObstacle proj check limbId limb q current normal position rotation).1.success = true) :
    let q' := (rob.toObstacle proj check limbId limb q current normal position rotation).1.result.configuration
    rob.frameRot limbId limb q' = rotation ∧ AtPosition rob limbId limb q' normal position := by
  obtain ⟨h1, h2, h3, h4, _⟩ := toObstacle_success he hreg hs
  have h3 := h3 h6
  rw [hpost] at h3
  simp only [Bool.false_eq_true, if_false] at h3
  have hm : (rob.placement limbId limb q normal position rotation).1 = rotation := by
    unfold Robot.placement
    simp only [if_neg hr]
  refine ⟨h3.trans hm, ?_⟩
  unfold AtPosition
  show rob.kin.pos limbId _ + (rob.frameRot limbId limb _).mulVec _ = _
  rw [h2, h3, ← epsilon_eq]
  exact sub_add_cancel' _ _ _

/-- C131: with the postural task the effector may turn about its z axis: alignment and position are still right if the normal and the offset of the limb are along this axis -/
theorem C131_postural_partial (rob : Robot N Smp) (he : rob.Exact) (proj : List (Constraint N)) (check : List ℝ → Bool) (limbId : N) (limb : Limb N)
    (hreg : rob.limbs.find? limbId = some limb) (h6 : limb.contact.sixDof = true) (q : List ℝ) (current : State N ℝ) (normal position : Vec3 ℝ)
    (hrot : Interp.Orthogonal (rob.frameRot limbId limb q)) (hn : normal ≠ 0) (hax : Perpendicular rob.axis)
    (k m : ℝ) (hln : limb.normal = ⟨0, 0, k⟩) (hk : k ≠ 0) (hoff : limb.offset = ⟨0, 0, m⟩)
    (hs : (rob.toObstacle proj check limbId limb q current normal position ⟨0, 0, 0⟩).1.success = true) :
    let q' := (rob.toObstacle proj check limbId limb q current normal position ⟨0, 0, 0⟩).1.result.configuration
    Aligned rob limbId limb q' normal ∧ AtPosition rob limbId limb q' normal position := by
  obtain ⟨h1, h2, h3, h4, _⟩ := toObstacle_success he hreg hs
  have h3 := h3 h6
  have hz : (rob.frameRot limbId limb (rob.toObstacle proj check limbId limb q current normal position ⟨0, 0, 0⟩).1.result.configuration).mulVec ⟨0, 0, 1⟩ =
      (rob.placement limbId limb q normal position ⟨0, 0, 0⟩).1.mulVec ⟨0, 0, 1⟩ := by
    split_ifs at h3
    · exact h3
    · exact congrArg (fun M => Mat3.mulVec M ⟨0, 0, 1⟩) h3
  have hev : ∀ (A B : Mat3 ℝ) (t : ℝ), A.mulVec ⟨0, 0, 1⟩ = B.mulVec ⟨0, 0, 1⟩ → A.mulVec ⟨0, 0, t⟩ = B.mulVec ⟨0, 0, t⟩ := by
    intro A B t h
    have e : (⟨0, 0, t⟩ : Vec3 ℝ) = Vec3.smul t ⟨0, 0, 1⟩ := by ext <;> simp [Vec3.smul]
    rw [e, mulVec_smul, mulVec_smul, h]
  have hnz : limb.normal ≠ 0 := by
    rw [hln]
    intro h
    exact hk (congrArg Vec3.z h)
  obtain ⟨t, ht⟩ : ∃ t, normalized limb.normal = ⟨0, 0, t⟩ := by
    unfold normalized
    rw [if_pos (normSq_pos hnz), hln]
    exact ⟨1 / norm ⟨0, 0, k⟩ * k, by ext <;> simp [Vec3.smul]⟩
  refine ⟨?_, ?_⟩
  · unfold Aligned
    show (rob.frameRot limbId limb _).mulVec _ = _
    rw [← placement_aligned rob limbId limb q normal position hrot hn hnz hax, ht]
    exact hev _ _ _ hz
  · unfold AtPosition
    show rob.kin.pos limbId _ + (rob.frameRot limbId limb _).mulVec _ = _
    rw [hoff, hev _ _ m hz, ← hoff, ← epsilon_eq]
    have h2' : rob.kin.pos limbId (rob.toObstacle proj check limbId limb q current normal position ⟨0, 0, 0⟩).1.result.configuration =
      (rob.placement limbId limb q normal position ⟨0, 0, 0⟩).2 := h2
    rw [h2']
    exact sub_add_cancel' _ _ _

/-- C131: contact of a point without offset -/
theorem C131_point_partial (rob : Robot N Smp) (he : rob.Exact) (proj : List (Constraint N)) (check : List ℝ → Bool) (limbId : N) (limb : Limb N)
    (hreg : rob.limbs.find? limbId = some limb) (hoff : limb.offset = 0) (q : List ℝ) (current : State N ℝ) (normal position : Vec3 ℝ) (rotation : Mat3 ℝ)
    (hs : (rob.toObstacle proj check limbId limb q current normal position rotation).1.success = true) :
    AtPosition rob limbId limb (rob.toObstacle proj check limbId limb q current normal position rotation).1.result.configuration normal position := by
  obtain ⟨h1, h2, h3, h4, _⟩ := toObstacle_success he hreg hs
  unfold AtPosition
  have h2' : rob.kin.pos limbId (rob.toObstacle proj check limbId limb q current normal position rotation).1.result.configuration =
      (rob.placement limbId limb q normal position rotation).2 := h2
  rw [h2', ← epsilon_eq]
  unfold Robot.placement
  rw [hoff]
  ext <;> simp [Mat3.mulVec, Vec3.dot]

/-- C131: a contact with a triangle of the environment: the contact point is one millimetre above a point of the triangle -/
theorem C131_triangle (rob : Robot N Smp) (he : rob.Exact) (device : List ℝ) (check : List ℝ → Bool) (limbId : N) (limb : Limb N) (hreg : rob.limbs.find? limbId = some limb)
    (h6 : limb.contact.sixDof = true) (hpost : rob.postural = false) (t : Target) (q : List ℝ) (current : State N ℝ)
    (hrot : Interp.Orthogonal (rob.frameRot limbId limb q)) (hn : t.normal ≠ 0) (hln : limb.normal ≠ 0) (hax : Perpendicular rob.axis)
    (hs : (rob.sampleToObstacle device check limbId limb t q current).1.success = true) :
    let q' := (rob.sampleToObstacle device check limbId limb t q current).1.result.configuration
    Aligned rob limbId limb q' (normalized t.normal) ∧ check q' = true ∧
      ∃ p, Triangle.InTriangle t.v1 t.v2 t.v3 p ∧ rob.kin.pos limbId q' + (rob.frameRot limbId limb q').mulVec limb.offset = p + Vec3.smul (1 / 1000) (normalized t.normal) := by
  have hnn : normalized t.normal ≠ 0 := by
    intro h
    have := normSq_normalized hn
    rw [h] at this
    simp [Vec3.normSq, Vec3.dot] at this
  obtain ⟨h1, h2, h3, _⟩ := C131_surface rob he _ check limbId limb hreg h6 hpost q current (normalized t.normal) _ hrot hnn hln hax hs
  exact ⟨h1, h3, _, Triangle.C47_inside t.effector t.v1 t.v2 t.v3, h2⟩

/-! ### C134 -/

/-- C134: a successful projection of a state to an obstacle puts the contact of the limb last, records its position, orientation and normal, keeps all the other contacts, and satisfies the given
collision test -/
theorem C134_success (rob : Robot N Smp) (he : rob.Exact) (hf : rob.Frames) (device : List ℝ) (check : List ℝ → Bool) (limbId : N) (limb : Limb N)
    (hreg : rob.limbs.find? limbId = some limb) (s : State N ℝ) (hc : s.Consistent) (normal position : Vec3 ℝ) (lockOthers : Bool) (rotation : Mat3 ℝ) (rep : Report N)
    (h : rob.stateToObstacle device check limbId limb s normal position lockOthers rotation = some rep) (hs : rep.success = true) :
    rep.result.contactOrder = s.contactOrder.filter (· ≠ limbId) ++ [limbId] ∧ rep.result.Consistent ∧
    rep.result.contactPositions.find? limbId = some (rob.kin.pos limbId rep.result.configuration) ∧
    rep.result.contactRotation.find? limbId = some (rob.frameRot limbId limb rep.result.configuration) ∧ rep.result.contactNormals.find? limbId = some normal ∧
    (∀ n, n ≠ limbId → rep.result.contactPositions.find? n = s.contactPositions.find? n ∧ rep.result.contactRotation.find? n = s.contactRotation.find? n ∧
      rep.result.contactNormals.find? n = s.contactNormals.find? n) ∧
    (∀ n p, n ≠ limbId → State.TouchesAt s n p → rob.kin.pos n rep.result.configuration = p ∧
      ∀ l, rob.limbs.find? n = some l → l.contact.sixDof = true → ∀ r, s.contactRotation.find? n = some r → rob.frameRot n l rep.result.configuration = r) ∧
    check rep.result.configuration = true := by
  unfold Robot.stateToObstacle at h
  obtain ⟨cs, hcs, rfl⟩ := Option.map_eq_some_iff.1 h
  have hcr := hc.removeContact limbId
  obtain ⟨h1, h2, h3, h4, h5⟩ := toObstacle_success he hreg hs
  have hnot : limbId ∉ (s.removeContact limbId).1.contacts.keys := by
    unfold State.removeContact
    split_ifs with hh
    · simp [AMap.keys_erase]
    · exact fun hm => hh (AMap.has_iff.2 hm)
  have hfind : ∀ n, n ≠ limbId → (s.removeContact limbId).1.contactPositions.find? n = s.contactPositions.find? n ∧
      (s.removeContact limbId).1.contactRotation.find? n = s.contactRotation.find? n ∧ (s.removeContact limbId).1.contactNormals.find? n = s.contactNormals.find? n := by
    intro n hn
    unfold State.removeContact
    split_ifs with hh
    · simp [AMap.find?_erase, hn]
    · exact ⟨rfl, rfl, rfl⟩
  have hord : (s.removeContact limbId).1.contactOrder = s.contactOrder.filter (· ≠ limbId) := by
    unfold State.removeContact
    split_ifs with hh
    · exact State.requeueWithout_eq _ _
    · symm
      rw [List.filter_eq_self]
      intro a ha
      have : a ∈ s.contacts.keys := hc.orderPerm.mem_iff.1 ha
      simp only [ne_eq, decide_eq_true_eq]
      rintro rfl
      exact hh (AMap.has_iff.2 this)
  have hkept : Kept rob (s.removeContact limbId).1 (rob.toObstacle _ check limbId limb s.configuration (s.removeContact limbId).1 normal position rotation).1.result.configuration :=
    (contactConstraints_iff rob hf _ hcr.toMapsOk cs hcs _).1 fun c hm => h1 c (List.mem_append_left _ hm)
  have h5' : (rob.toObstacle (cs ++ (if lockOthers then lockConstraints (Joints.lockJointRec limb.joint device rob.root) else [])) check limbId limb s.configuration
      (s.removeContact limbId).1 normal position rotation).1.result = _ := h5
  have hcons := State.Consistent.addContact hcr hnot
  refine ⟨?_, ?_, ?_, ?_, ?_, ?_, ?_, h4⟩
  · rw [h5']
    simp [State.addContact, hord]
  · rw [h5']
    have := hcons (rob.placement limbId limb s.configuration normal position rotation).2 normal (rob.frameRot limbId limb
      (rob.toObstacle (cs ++ (if lockOthers then lockConstraints (Joints.lockJointRec limb.joint device rob.root) else [])) check limbId limb s.configuration
      (s.removeContact limbId).1 normal position rotation).1.result.configuration) (rob.toObstacle (cs ++ (if lockOthers then lockConstraints (Joints.lockJointRec limb.joint device rob.root) else [])) check limbId limb s.configuration
      (s.removeContact limbId).1 normal position rotation).1.result.configuration
    exact ⟨⟨this.contacts, this.normals, this.positions, this.rotations⟩, this.normalsKeys, this.positionsKeys, this.rotationsKeys, this.orderPerm, this.counter, this.active⟩
  · have h2' : rob.kin.pos limbId (rob.toObstacle (cs ++ (if lockOthers then lockConstraints (Joints.lockJointRec limb.joint device rob.root) else [])) check limbId limb s.configuration
      (s.removeContact limbId).1 normal position rotation).1.result.configuration = _ := h2
    rw [h2', h5']
    simp [State.addContact, AMap.find?_set]
  · conv_lhs => rw [h5']
    simp only [State.addContact, AMap.find?_set, if_true]
  · rw [h5']
    simp [State.addContact, AMap.find?_set]
  · intro n hn
    rw [h5']
    simp only [State.addContact, AMap.find?_set, if_neg hn]
    exact hfind n hn
  · intro n p hn hp
    obtain ⟨e1, e2, _⟩ := hfind n hn
    obtain ⟨k1, k2⟩ := hkept n p (by unfold State.TouchesAt at hp ⊢; rw [e1]; exact hp)
    exact ⟨k1, fun l hl h6 r hr => k2 l hl h6 r (by rw [e2]; exact hr)⟩

/-- C134: when it fails, the returned state has lost the contact of the limb and is otherwise the given state -/
theorem C134_failure (rob : Robot N Smp) (device : List ℝ) (check : List ℝ → Bool) (limbId : N) (limb : Limb N) (s : State N ℝ) (normal position : Vec3 ℝ) (lockOthers : Bool)
    (rotation : Mat3 ℝ) (rep : Report N) (h : rob.stateToObstacle device check limbId limb s normal position lockOthers rotation = some rep) (hs : rep.success = false) :
    SameContacts (s.removeContact limbId).1 rep.result ∧ rep.result.configuration = s.configuration := by
  unfold Robot.stateToObstacle at h
  obtain ⟨cs, hcs, rfl⟩ := Option.map_eq_some_iff.1 h
  have hcf : (s.removeContact limbId).1.configuration = s.configuration := by
    unfold State.removeContact
    split_ifs <;> rfl
  unfold Robot.toObstacle Robot.projectEffector at hs ⊢
  simp only at hs ⊢
  split_ifs at hs ⊢ <;> first | exact ⟨⟨rfl, rfl, rfl, rfl, rfl, rfl, rfl⟩, hcf⟩ | cases hs

theorem lock_holds {rob : Robot N Smp} {q conf : List ℝ} {joint : N} (hd : rob.root.names.Nodup)
    (h : ∀ c ∈ lockConstraints (Joints.lockJointRec joint conf rob.root), c.holds rob q) (k : Joint N) (hk : Below rob.root k)
    (hout : ∀ l, Below rob.root l → l.name = joint → ¬ Below l k) (hlen : k.rank + k.size ≤ conf.length) (i : ℕ) (hi1 : k.rank ≤ i) (hi2 : i < k.rank + k.size) : q[i]? = conf[i]? := by
  have hl := (Joints.C128_spared joint conf rob.root hd ⟨k.name, k.rank, Joints.segment conf k.rank k.size⟩).2 ⟨k, hk, rfl, hout⟩
  have := h _ (List.mem_map.2 ⟨_, hl, rfl⟩)
  simp only [Constraint.holds] at this
  have hsz : (Joints.segment conf k.rank k.size).length = k.size := by
    simp only [Joints.segment, List.length_take, List.length_drop]
    omega
  rw [hsz] at this
  have h' := congrArg (fun l => l[i - k.rank]?) this
  simp only [Joints.segment, List.getElem?_take, List.getElem?_drop] at h'
  rw [if_pos (by omega), if_pos (by omega)] at h'
  have e : k.rank + (i - k.rank) = i := by omega
  rwa [e] at h'

/-- C134: with the other joints locked, they are where the current configuration of the device has them -/
theorem C134_locked (rob : Robot N Smp) (he : rob.Exact) (hd : rob.root.names.Nodup) (device : List ℝ) (check : List ℝ → Bool) (limbId : N) (limb : Limb N)
    (hreg : rob.limbs.find? limbId = some limb) (s : State N ℝ) (normal position : Vec3 ℝ) (rotation : Mat3 ℝ) (rep : Report N)
    (h : rob.stateToObstacle device check limbId limb s normal position true rotation = some rep) (hs : rep.success = true) (k : Joint N) (hk : Below rob.root k)
    (hout : ∀ l, Below rob.root l → l.name = limb.joint → ¬ Below l k) (hlen : k.rank + k.size ≤ device.length) (i : ℕ) (hi1 : k.rank ≤ i) (hi2 : i < k.rank + k.size) :
    rep.result.configuration[i]? = device[i]? := by
  unfold Robot.stateToObstacle at h
  obtain ⟨cs, hcs, rfl⟩ := Option.map_eq_some_iff.1 h
  obtain ⟨h1, _⟩ := toObstacle_success he hreg hs
  exact lock_holds hd (fun c hc => h1 c (List.mem_append_right _ (by simpa using hc))) k hk hout hlen i hi1 hi2

/-- C134, violated: they are not where the state has them if the device is in another configuration -/
theorem C134_locked_violated (rob : Robot N Smp) (he : rob.Exact) (hd : rob.root.names.Nodup) (device : List ℝ) (check : List ℝ → Bool) (limbId : N) (limb : Limb N)
    (hreg : rob.limbs.find? limbId = some limb) (s : State N ℝ) (normal position : Vec3 ℝ) (rotation : Mat3 ℝ) (rep : Report N)
    (h : rob.stateToObstacle device check limbId limb s normal position true rotation = some rep) (hs : rep.success = true) (k : Joint N) (hk : Below rob.root k)
    (hout : ∀ l, Below rob.root l → l.name = limb.joint → ¬ Below l k) (hlen : k.rank + k.size ≤ device.length) (i : ℕ) (hi1 : k.rank ≤ i) (hi2 : i < k.rank + k.size)
    (hne : device[i]? ≠ s.configuration[i]?) : rep.result.configuration[i]? ≠ s.configuration[i]? := by
  rw [C134_locked rob he hd device check limbId limb hreg s normal position rotation rep h hs k hk hout hlen i hi1 hi2]
  exact hne

/-- C134: the contact created from a sample of a limb moves the joints of this limb only, from where the device is -/
theorem C134_sample (rob : Robot N Smp) (he : rob.Exact) (hd : rob.root.names.Nodup) (device : List ℝ) (check : List ℝ → Bool) (limbId : N) (limb : Limb N)
    (hreg : rob.limbs.find? limbId = some limb) (t : Target) (q : List ℝ) (s : State N ℝ) (hs : (rob.sampleToObstacle device check limbId limb t q s).1.success = true)
    (k : Joint N) (hk : Below rob.root k) (hout : ∀ l, Below rob.root l → l.name = limb.joint → ¬ Below l k) (hlen : k.rank + k.size ≤ device.length) (i : ℕ) (hi1 : k.rank ≤ i)
    (hi2 : i < k.rank + k.size) : (rob.sampleToObstacle device check limbId limb t q s).1.result.configuration[i]? = device[i]? := by
  obtain ⟨h1, _⟩ := toObstacle_success he hreg hs
  exact lock_holds hd h1 k hk hout hlen i hi1 hi2

/-! ### a robot -/

open Classical in
/-- the robot with a projector that tries one configuration -/
noncomputable def Robot.solving (rob : Robot N Smp) (sol : List ℝ) : Robot N Smp :=
  { rob with apply := fun cs q => if ∀ c ∈ cs, Constraint.holds { rob with apply := fun _ q => (false, q) } sol c then (true, sol) else (false, q) }

theorem holds_solving (rob : Robot N Smp) (sol q : List ℝ) (c : Constraint N) :
    c.holds (rob.solving sol) q ↔ Constraint.holds { rob with apply := fun _ q => (false, q) } q c := by
  cases c <;> exact Iff.rfl

theorem solving_exact (rob : Robot N Smp) (sol : List ℝ) : (rob.solving sol).Exact := by
  intro cs q h c hc
  by_cases hh : ∀ c ∈ cs, Constraint.holds { rob with apply := fun _ q => (false, q) } sol c
  · have e : (rob.solving sol).apply cs q = (true, sol) := if_pos hh
    rw [e]
    exact (holds_solving rob sol sol c).2 (hh c hc)
  · have e : (rob.solving sol).apply cs q = (false, q) := if_neg hh
    rw [e] at h
    cases h

theorem solving_apply (rob : Robot N Smp) (sol : List ℝ) (cs : List (Constraint N)) (q : List ℝ) (h : ∀ c ∈ cs, c.holds (rob.solving sol) sol) :
    (rob.solving sol).apply cs q = (true, sol) := if_pos fun c hc => (holds_solving rob sol sol c).1 (h c hc)

/-- rotation by a quarter turn about z -/
def quarter : Mat3 ℝ := ⟨⟨0, -1, 0⟩, ⟨1, 0, 0⟩, ⟨0, 0, 1⟩⟩

theorem quarter_orthogonal : Interp.Orthogonal quarter := by
  constructor <;> ext <;> simp [quarter, Stability.mulMat, Mat3.transpose, Vec3.dot, Mat3.one]

theorem one_orthogonal : Interp.Orthogonal (Mat3.one : Mat3 ℝ) := by
  constructor <;> ext <;> simp [Stability.mulMat, Mat3.transpose, Vec3.dot, Mat3.one]

open Classical in
/-- a unit vector orthogonal to the first argument -/
noncomputable def perpAxis (u _v : Vec3 ℝ) : Vec3 ℝ := if u.x = 0 ∧ u.y = 0 then ⟨1, 0, 0⟩ else normalized ⟨-u.y, u.x, 0⟩

theorem perpAxis_perpendicular : Perpendicular perpAxis := by
  intro u _
  unfold perpAxis
  split_ifs with h
  · simp [Vec3.normSq, Vec3.dot, h.1]
  · have hne : (⟨-u.y, u.x, 0⟩ : Vec3 ℝ) ≠ 0 := by
      intro h0
      exact h ⟨congrArg Vec3.y h0, by simpa using congrArg Vec3.x h0⟩
    refine ⟨normSq_normalized hne, ?_⟩
    unfold normalized
    rw [if_pos (normSq_pos hne)]
    simp only [Vec3.dot, Vec3.smul]
    ring

/-- a limb whose contact point is at `offset` from its frame -/
def demoLimb (six : Bool) (offset : Vec3 ℝ) : Limb ℕ := ⟨⟨six, Mat3.one⟩, offset, ⟨0, 0, 1⟩, 1⟩

open Classical in
/-- a robot with one limb (joint 1 under the root 0), which is where it is needed in the configuration `[1, 1]`, with rotation `rot`, and at the origin, not rotated, in the other ones -/
noncomputable def demoRobot (six postural : Bool) (offset pos : Vec3 ℝ) (rot : Mat3 ℝ) : Robot ℕ ℕ :=
  { kin := ⟨fun _ q => if q = [1, 1] then pos else 0, fun _ q => if q = [1, 1] then rot else Mat3.one, fun _ => 0⟩
    rootPos := fun _ => 0, rootRot := fun _ => Mat3.one, limbs := [(1, demoLimb six offset)], root := .mk 0 0 1 [.mk 1 1 1 []]
    apply := fun _ q => (false, q), valid := fun _ => true, limbValid := fun _ _ => true, samples := fun _ => [], load := fun _ q => q, postural := postural, axis := perpAxis, junk := 0 }

/-- no contact, all coordinates 0 -/
noncomputable def demoState : State ℕ ℝ := { (State.init 0) with configuration := [0, 0] }

theorem demo_frame (six postural : Bool) (offset pos : Vec3 ℝ) (rot : Mat3 ℝ) (sol : List ℝ) (q : List ℝ) :
    ((demoRobot six postural offset pos rot).solving sol).frameRot 1 (demoLimb six offset) q = if q = [1, 1] then rot else Mat3.one := by
  show Stability.mulMat (if q = [1, 1] then rot else Mat3.one) Mat3.one = _
  rw [Interp.mulMat_one]

theorem normalized_z : normalized ⟨0, 0, 1⟩ = ⟨0, 0, 1⟩ := by
  unfold normalized norm
  simp [Vec3.normSq, Vec3.dot, Vec3.smul]

theorem rotation_z (opp : Vec3 ℝ → Vec3 ℝ → Vec3 ℝ) : rotationBetween opp ⟨0, 0, 1⟩ ⟨0, 0, 1⟩ = Mat3.one := by
  unfold rotationBetween fromTwoVectors
  simp only [normalized_z]
  rw [if_neg (by norm_num [Vec3.dot])]
  ext <;> simp [Quat.toMatrix, Vec3.cross, Mat3.one]

theorem demo_placement (six postural : Bool) (offset pos : Vec3 ℝ) (rot : Mat3 ℝ) :
    ((demoRobot six postural offset pos rot).solving [1, 1]).placement 1 (demoLimb six offset) [0, 0] ⟨0, 0, 1⟩ 0 ⟨0, 0, 0⟩ = (Mat3.one, (0 - offset) + Vec3.smul epsilon ⟨0, 0, 1⟩) := by
  unfold Robot.placement
  simp only [if_true]
  rw [demo_frame, if_neg (by simp)]
  have : (Mat3.one : Mat3 ℝ).mulVec (demoLimb six offset).normal = ⟨0, 0, 1⟩ := one_mulVec _
  rw [this, rotation_z, Interp.mulMat_one, one_mulVec]
  rfl

/-- the projection of the limb of the robot to the origin, on the ground, succeeds if the robot can reach the computed position -/
theorem demo_success (six postural : Bool) (offset : Vec3 ℝ) (rot : Mat3 ℝ) (hrot : six = true → if postural then rot.mulVec ⟨0, 0, 1⟩ = ⟨0, 0, 1⟩ else rot = Mat3.one) :
    let rob := (demoRobot six postural offset ((0 - offset) + Vec3.smul epsilon ⟨0, 0, 1⟩) rot).solving [1, 1]
    (rob.toObstacle [] (fun _ => true) 1 (demoLimb six offset) [0, 0] demoState ⟨0, 0, 1⟩ 0 ⟨0, 0, 0⟩).1.success = true ∧
    (rob.toObstacle [] (fun _ => true) 1 (demoLimb six offset) [0, 0] demoState ⟨0, 0, 1⟩ 0 ⟨0, 0, 0⟩).1.result.configuration = [1, 1] := by
  intro rob
  have hp : rob.postural = postural := rfl
  unfold Robot.toObstacle Robot.projectEffector
  rw [demo_placement]
  simp only
  rw [solving_apply]
  · exact ⟨rfl, rfl⟩
  · intro c hc
    simp only [List.nil_append, List.mem_append, List.mem_singleton] at hc
    rcases hc with (hc | hc) | hc
    · subst hc
      simp only [Constraint.holds, Interp.sub_eq_zero']
      show (if ([1, 1] : List ℝ) = [1, 1] then _ else _) = _
      rw [if_pos rfl]
    · cases hsix : six with
      | false => simp [demoLimb, hsix] at hc
      | true =>
        simp only [demoLimb, hsix, if_true, List.mem_singleton] at hc
        subst hc
        have hl : rob.limbs.find? 1 = some (demoLimb six offset) := rfl
        simp only [Constraint.holds]
        show (match rob.limbs.find? 1 with | none => True | some l => _)
        rw [hl]
        simp only
        have hr := hrot hsix
        have hfr := demo_frame six postural offset ((0 - offset) + Vec3.smul epsilon ⟨0, 0, 1⟩) rot [1, 1] [1, 1]
        rw [if_pos rfl] at hfr
        show (if postural = true then (rob.frameRot 1 (demoLimb six offset) [1, 1]).mulVec _ = _ else rob.frameRot 1 (demoLimb six offset) [1, 1] = _)
        rw [show rob.frameRot 1 (demoLimb six offset) [1, 1] = rot from hfr]
        split_ifs at hr ⊢ with h
        · rw [hr]
          exact (one_mulVec _).symm
        · exact hr
    · cases postural with
      | false => simp [hp] at hc
      | true =>
        simp only [hp, if_true, List.mem_singleton] at hc
        subst hc
        trivial

/-- C131: the hypotheses are met -/
theorem C131_example : ∃ (rob : Robot ℕ ℕ) (limb : Limb ℕ), rob.Exact ∧ rob.limbs.find? 1 = some limb ∧ limb.contact.sixDof = true ∧ rob.postural = false ∧ limb.offset ≠ 0 ∧
    (rob.toObstacle [] (fun _ => true) 1 limb [0, 0] demoState ⟨0, 0, 1⟩ 0 ⟨0, 0, 0⟩).1.success = true ∧
    Perpendicular rob.axis := by
  refine ⟨_, _, solving_exact _ _, rfl, rfl, rfl, ?_, (demo_success true false ⟨1, 0, 0⟩ Mat3.one (fun _ => by simp)).1, perpAxis_perpendicular⟩
  · intro h
    have := congrArg Vec3.x h
    simp [demoLimb] at this

theorem epsilon_pos : 0 < epsilon := by norm_num [epsilon]

/-- C131, violated: the contact point of a limb with a point contact is not where it was requested if it has an offset, since its rotation is free -/
theorem C131_point_violated : ∃ (rob : Robot ℕ ℕ) (limb : Limb ℕ), rob.Exact ∧ rob.limbs.find? 1 = some limb ∧ limb.contact.sixDof = false ∧
    (rob.toObstacle [] (fun _ => true) 1 limb [0, 0] demoState ⟨0, 0, 1⟩ 0 ⟨0, 0, 0⟩).1.success = true ∧
    ¬ AtPosition rob 1 limb (rob.toObstacle [] (fun _ => true) 1 limb [0, 0] demoState ⟨0, 0, 1⟩ 0 ⟨0, 0, 0⟩).1.result.configuration ⟨0, 0, 1⟩ 0 := by
  obtain ⟨h1, h2⟩ := demo_success false false ⟨1, 0, 0⟩ quarter (fun h => by cases h)
  refine ⟨_, _, solving_exact _ _, rfl, rfl, h1, ?_⟩
  rw [h2]
  unfold AtPosition
  rw [demo_frame, if_pos rfl]
  intro h
  have := congrArg Vec3.x h
  have hpos : ∀ p, ((demoRobot false false ⟨1, 0, 0⟩ p quarter).solving [1, 1]).kin.pos 1 [1, 1] = p := fun p => if_pos rfl
  rw [hpos] at this
  simp [demoLimb, quarter, Mat3.mulVec, Vec3.dot, Vec3.smul] at this

/-- C131, violated: the same for a surface contact with the postural task, if the offset is not along the axis of the effector -/
theorem C131_postural_violated : ∃ (rob : Robot ℕ ℕ) (limb : Limb ℕ), rob.Exact ∧ rob.limbs.find? 1 = some limb ∧ limb.contact.sixDof = true ∧ rob.postural = true ∧
    (rob.toObstacle [] (fun _ => true) 1 limb [0, 0] demoState ⟨0, 0, 1⟩ 0 ⟨0, 0, 0⟩).1.success = true ∧
    ¬ AtPosition rob 1 limb (rob.toObstacle [] (fun _ => true) 1 limb [0, 0] demoState ⟨0, 0, 1⟩ 0 ⟨0, 0, 0⟩).1.result.configuration ⟨0, 0, 1⟩ 0 := by
  obtain ⟨h1, h2⟩ := demo_success true true ⟨1, 0, 0⟩ quarter (fun _ => by simp [quarter, Mat3.mulVec, Vec3.dot])
  refine ⟨_, _, solving_exact _ _, rfl, rfl, rfl, h1, ?_⟩
  rw [h2]
  unfold AtPosition
  rw [demo_frame, if_pos rfl]
  intro h
  have := congrArg Vec3.x h
  have hpos : ∀ p, ((demoRobot true true ⟨1, 0, 0⟩ p quarter).solving [1, 1]).kin.pos 1 [1, 1] = p := fun p => if_pos rfl
  rw [hpos] at this
  simp [demoLimb, quarter, Mat3.mulVec, Vec3.dot, Vec3.smul] at this

/-! ### a robot with a contact -/

open Classical in
/-- a robot with two limbs (joints 1 and 2 under the root 0); the first coordinate moves the root and the centre of mass along x, and limb 1 stays at the origin; limb 2 collides unless the third
coordinate is 1. The projector leaves a configuration that satisfies the constraints as it is, and otherwise tries `[1, 1, 0]`. -/
noncomputable def walker : Robot ℕ ℕ :=
  let rob : Robot ℕ ℕ :=
    { kin := ⟨fun _ _ => 0, fun _ _ => Mat3.one, fun q => ⟨q.headD 0, 0, 0⟩⟩, rootPos := fun q => ⟨q.headD 0, 0, 0⟩, rootRot := fun _ => Mat3.one
      limbs := [(1, demoLimb true 0), (2, ⟨⟨false, Mat3.one⟩, 0, ⟨0, 0, 1⟩, 2⟩)], root := .mk 0 0 1 [.mk 1 1 1 [], .mk 2 2 1 []], apply := fun _ q => (false, q)
      valid := fun q => decide (q[2]? = some 1), limbValid := fun n q => decide (n = 2 → q[2]? = some 1), samples := fun _ => [0], load := fun _ q => q.set 2 1, postural := false
      axis := perpAxis, junk := 0 }
  { rob with apply := fun cs q => if ∀ c ∈ cs, c.holds rob q then (true, q) else if ∀ c ∈ cs, c.holds rob [1, 1, 0] then (true, [1, 1, 0]) else (false, q) }

/-- limb 1 is in contact at the origin -/
noncomputable def standing : State ℕ ℝ := ({ (State.init 0) with configuration := [0, 0, 0] } : State ℕ ℝ).addContact 1 0 ⟨0, 0, 1⟩ Mat3.one [0, 0, 0]

theorem walker_apply (cs : List (Constraint ℕ)) (q : List ℝ) :
    ((∀ c ∈ cs, c.holds walker q) → walker.apply cs q = (true, q)) ∧
    ((¬ ∀ c ∈ cs, c.holds walker q) → (∀ c ∈ cs, c.holds walker [1, 1, 0]) → walker.apply cs q = (true, [1, 1, 0])) ∧
    ((¬ ∀ c ∈ cs, c.holds walker q) → (¬ ∀ c ∈ cs, c.holds walker [1, 1, 0]) → walker.apply cs q = (false, q)) := by
  have e : ∀ (c : Constraint ℕ) q, c.holds walker q ↔ Constraint.holds { walker with apply := fun _ q => (false, q) } q c := by
    intro c q
    cases c <;> exact Iff.rfl
  refine ⟨fun h => ?_, fun h h' => ?_, fun h h' => ?_⟩
  · exact if_pos fun c hc => (e c q).1 (h c hc)
  · exact (if_neg fun hh => h fun c hc => (e c q).2 (hh c hc)).trans (if_pos fun c hc => (e c _).1 (h' c hc))
  · exact (if_neg fun hh => h fun c hc => (e c q).2 (hh c hc)).trans (if_neg fun hh => h' fun c hc => (e c _).2 (hh c hc))

theorem walker_exact : walker.Exact := by
  intro cs q h
  obtain ⟨h1, h2, h3⟩ := walker_apply cs q
  by_cases c1 : ∀ c ∈ cs, c.holds walker q
  · rw [h1 c1]
    exact c1
  · by_cases c2 : ∀ c ∈ cs, c.holds walker [1, 1, 0]
    · rw [h2 c1 c2]
      exact c2
    · rw [h3 c1 c2] at h
      cases h

theorem walker_frames : walker.Frames := by
  intro n l h
  have : l.contact.placement = Mat3.one := by
    by_cases h1 : 1 = n
    · have e : walker.limbs.find? n = some (demoLimb true 0) := if_pos h1
      rw [e] at h
      injection h with h
      rw [← h]
      rfl
    · by_cases h2 : 2 = n
      · have e : walker.limbs.find? n = some ⟨⟨false, Mat3.one⟩, 0, ⟨0, 0, 1⟩, 2⟩ := (if_neg h1).trans (if_pos h2)
        rw [e] at h
        injection h with h
        rw [← h]
      · have e : walker.limbs.find? n = none := (if_neg h1).trans (if_neg h2)
        rw [e] at h
        cases h
  rw [this]
  exact one_orthogonal

theorem standing_consistent : standing.Consistent := by
  have h0 : ({ (State.init 0) with configuration := [0, 0, 0] } : State ℕ ℝ).Consistent := by
    have h : (State.init 0 : State ℕ ℝ).Consistent := State.Consistent.init _
    exact ⟨⟨h.contacts, h.normals, h.positions, h.rotations⟩, h.normalsKeys, h.positionsKeys, h.rotationsKeys, h.orderPerm, h.counter, h.active⟩
  exact h0.addContact (by simp [State.init, AMap.keys]) _ _ _ _

/-- the contact constraints of the state hold in all configurations -/
theorem standing_constraints : ∃ cs, walker.contactConstraints standing = some cs ∧ ∀ q, ∀ c ∈ cs, c.holds walker q := by
  have hm := standing_consistent.toMapsOk
  obtain ⟨h, _⟩ := C132_defined walker standing hm (by
    intro n p hp
    have : n = 1 := by
      have hp' : AMap.find? [((1 : ℕ), (0 : Vec3 ℝ))] n = some p := hp
      rw [AMap.find?_cons] at hp'
      split_ifs at hp' with h
      · exact h.symm
      · cases hp'
    subst this
    exact ⟨rfl, rfl⟩)
  obtain ⟨rep, hr⟩ := h 0
  obtain ⟨cs, hcs, _⟩ := projectWith_some hr
  refine ⟨cs, hcs, fun q => (contactConstraints_iff walker walker_frames standing hm cs hcs q).2 ?_⟩
  intro n p hp
  have hp' : AMap.find? [((1 : ℕ), (0 : Vec3 ℝ))] n = some p := hp
  rw [AMap.find?_cons] at hp'
  split_ifs at hp' with h
  · subst h
    injection hp' with hp'
    subst hp'
    refine ⟨rfl, fun l hl _ r hr => ?_⟩
    have e1 : walker.limbs.find? 1 = some (demoLimb true 0) := rfl
    have e2 : standing.contactRotation.find? 1 = some Mat3.one := rfl
    rw [e1] at hl
    rw [e2] at hr
    injection hl with hl
    injection hr with hr
    subst hl hr
    show Stability.mulMat Mat3.one Mat3.one = _
    rw [Interp.mulMat_one]
  · cases hp'

/-- C132: the hypotheses are met: the robot stands on limb 1 and moves its root and its centre of mass by one metre -/
theorem C132_example : walker.Exact ∧ walker.Frames ∧ standing.Consistent ∧ State.TouchesAt standing 1 0 ∧
    (∃ rep, walker.toRootPosition ⟨1, 0, 0⟩ standing = some rep ∧ rep.success = true ∧ rep.result.configuration ≠ standing.configuration) ∧
    (∃ rep, walker.toComPosition ⟨1, 0, 0⟩ standing = some rep ∧ rep.success = true ∧ rep.result.configuration ≠ standing.configuration) ∧
    (∃ rep, walker.toComPosition ⟨2, 0, 0⟩ standing = some rep ∧ rep.success = false) := by
  obtain ⟨cs, hcs, hall⟩ := standing_constraints
  have hq : standing.configuration = [0, 0, 0] := rfl
  refine ⟨walker_exact, walker_frames, standing_consistent, rfl, ?_, ?_, ?_⟩
  · refine ⟨_, by unfold Robot.toRootPosition Robot.projectWith; rw [hcs]; rfl, ?_⟩
    simp only [Robot.resultOf, hq]
    rw [(walker_apply _ _).2.1]
    · exact ⟨rfl, by simp⟩
    · intro h
      have := h (.root 0 ⟨1, 0, 0⟩) (by simp)
      have := congrArg Vec3.x this
      simp [walker, Mat3.mulVec, Vec3.dot] at this
    · intro c hc
      rcases List.mem_append.1 hc with hc | hc
      · exact hall _ c hc
      · rw [List.mem_singleton.1 hc]
        ext <;> simp [walker, Mat3.mulVec, Vec3.dot]
  · refine ⟨_, by unfold Robot.toComPosition Robot.projectWith; rw [hcs]; rfl, ?_⟩
    simp only [Robot.resultOf, hq]
    rw [(walker_apply _ _).2.1]
    · exact ⟨rfl, by simp⟩
    · intro h
      have := h (.com ⟨1, 0, 0⟩) (by simp)
      have := congrArg Vec3.x this
      simp [walker] at this
    · intro c hc
      rcases List.mem_append.1 hc with hc | hc
      · exact hall _ c hc
      · rw [List.mem_singleton.1 hc]
        rfl
  · refine ⟨_, by unfold Robot.toComPosition Robot.projectWith; rw [hcs]; rfl, ?_⟩
    simp only [hq]
    rw [(walker_apply _ _).2.2]
    · intro h
      have := congrArg Vec3.x (h (.com ⟨2, 0, 0⟩) (by simp))
      simp [walker] at this
    · intro h
      have := congrArg Vec3.x (h (.com ⟨2, 0, 0⟩) (by simp))
      simp [walker] at this

theorem firstFree_walker : walker.firstFree 2 (walker.samples 2) [1, 1, 0] = some [1, 1, 1] := by
  have e : walker.samples 2 = [0] := rfl
  have e2 : walker.load 0 [1, 1, 0] = [1, 1, 1] := rfl
  rw [e]
  simp only [Robot.firstFree, e2]
  rw [if_pos (by simp [walker])]

/-- C133, violated: the projection fails although the sample found for the free limb gives a configuration that keeps the contact, has the requested centre of mass and is free of collision -/
theorem C133_free_violated : ∃ rep, walker.toColFreeCom ⟨1, 0, 0⟩ standing = some rep ∧ rep.success = false ∧ rep.result.configuration = [1, 1, 0] ∧
    walker.setCollisionFree 2 rep.result = ⟨true, { rep.result with configuration := [1, 1, 1] }⟩ ∧
    Kept walker standing [1, 1, 1] ∧ walker.kin.com [1, 1, 1] = ⟨1, 0, 0⟩ ∧ walker.valid [1, 1, 1] = true := by
  obtain ⟨cs, hcs, hall⟩ := standing_constraints
  have hq : standing.configuration = [0, 0, 0] := rfl
  have hhold : ∀ c ∈ cs ++ [Constraint.com ⟨1, 0, 0⟩, .posture], c.holds walker [1, 1, 0] := by
    intro c hc
    rcases List.mem_append.1 hc with hc | hc
    · exact hall _ c hc
    · simp only [List.mem_cons, List.not_mem_nil, or_false] at hc
      rcases hc with rfl | rfl
      · rfl
      · trivial
  have h1 : walker.apply (cs ++ [.com ⟨1, 0, 0⟩, .posture]) [0, 0, 0] = (true, [1, 1, 0]) := by
    rw [(walker_apply _ _).2.1]
    · intro h
      have := congrArg Vec3.x (h (.com ⟨1, 0, 0⟩) (by simp))
      simp [walker] at this
    · exact hhold
  have h2 : walker.apply (cs ++ [.com ⟨1, 0, 0⟩, .posture]) [1, 1, 0] = (true, [1, 1, 0]) := (walker_apply _ _).1 hhold
  have hv : walker.valid [1, 1, 0] = false := by simp [walker]
  have hset : ∀ s : State ℕ ℝ, s.configuration = [1, 1, 0] → s.robustness = 0 → walker.setCollisionFree 2 s = ⟨true, { s with configuration := [1, 1, 1] }⟩ := by
    intro s hs hr
    unfold Robot.setCollisionFree
    rw [hs, if_neg (by simp [walker]), firstFree_walker]
    obtain ⟨⟩ := s
    simp only at hr
    subst hr
    rfl
  have hcond : walker.freeLimbsOk (standing.freeEffectors (walker.limbs.map (·.1))) (walker.resultOf standing [1, 1, 0]) = true := by
    have e : standing.freeEffectors (walker.limbs.map (·.1)) = [2] := rfl
    rw [e]
    unfold Robot.freeLimbsOk
    simp only [List.all_cons, List.all_nil, Bool.and_true]
    rw [hset _ rfl rfl]
  refine ⟨⟨false, walker.resultOf standing [1, 1, 0]⟩, ?_, rfl, rfl, hset _ rfl rfl, ?_, rfl, by simp [walker]⟩
  · unfold Robot.toColFreeCom
    rw [hcs]
    simp only [Option.map_some, hq, h1, h2, hcond, hv, Bool.and_self, if_true, Bool.and_false]
    rfl
  · exact (contactConstraints_iff walker walker_frames standing standing_consistent.toMapsOk cs hcs _).1 (hall _)

/-- limb 2 of the robot -/
noncomputable def limb2 : Limb ℕ := ⟨⟨false, Mat3.one⟩, 0, ⟨0, 0, 1⟩, 2⟩

/-- C134: the hypotheses are met: the robot standing on limb 1 puts limb 2 on the ground as well -/
theorem C134_example : walker.limbs.find? 2 = some limb2 ∧ ∃ rep, walker.stateToObstacle [0, 0, 0] (fun _ => true) 2 limb2 standing ⟨0, 0, 1⟩ ⟨0, 0, -(1 / 1000)⟩ true ⟨0, 0, 0⟩ = some rep ∧
    rep.success = true ∧ rep.result.contactOrder = [1, 2] := by
  have hreg : walker.limbs.find? 2 = some limb2 := rfl
  obtain ⟨cs, hcs, hall⟩ := standing_constraints
  have hrm : (standing.removeContact 2).1 = standing := rfl
  have hpl : walker.placement 2 limb2 standing.configuration ⟨0, 0, 1⟩ ⟨0, 0, -(1 / 1000)⟩ ⟨0, 0, 0⟩ = (Mat3.one, 0) := by
    have e : walker.frameRot 2 limb2 standing.configuration = Mat3.one := Interp.mulMat_one _
    unfold Robot.placement
    simp only [if_true, e]
    rw [show limb2.normal = ⟨0, 0, 1⟩ from rfl, one_mulVec, rotation_z, Interp.mulMat_one, one_mulVec]
    refine Prod.ext rfl ?_
    ext <;> norm_num [limb2, Vec3.smul, epsilon]
  have hsucc : ∃ rep, walker.stateToObstacle [0, 0, 0] (fun _ => true) 2 limb2 standing ⟨0, 0, 1⟩ ⟨0, 0, -(1 / 1000)⟩ true ⟨0, 0, 0⟩ = some rep ∧ rep.success = true := by
    unfold Robot.stateToObstacle
    simp only
    rw [hrm, hcs]
    refine ⟨_, rfl, ?_⟩
    unfold Robot.toObstacle Robot.projectEffector
    rw [hpl]
    simp only
    rw [(walker_apply _ _).1]
    · rfl
    · intro c hc
      have e1 : limb2.contact.sixDof = false := rfl
      have e2 : walker.postural = false := rfl
      simp only [e1, e2, Bool.false_eq_true, if_false, List.append_nil, if_true, List.mem_append, List.mem_singleton] at hc
      rcases hc with (hc | hc) | hc
      · exact hall _ c hc
      · obtain ⟨l, hl, rfl⟩ := List.mem_map.1 hc
        have hl' : l ∈ [(⟨0, 0, [0]⟩ : Joints.Lock ℕ ℝ), ⟨1, 1, [0]⟩] := hl
        simp only [List.mem_cons, List.not_mem_nil, or_false] at hl'
        rcases hl' with rfl | rfl <;> rfl
      · subst hc
        ext <;> simp [walker]
  obtain ⟨rep, h, hs⟩ := hsucc
  refine ⟨hreg, rep, h, hs, ?_⟩
  rw [(C134_success walker walker_exact walker_frames _ _ 2 limb2 hreg standing standing_consistent _ _ true _ rep h hs).1]
  rfl

end Proj
end Rbprm
