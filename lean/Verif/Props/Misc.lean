import Verif.Model.Misc
import Verif.Props.ShooterMore
import Verif.Props.Surfaces
import Verif.Props.Stopwatch
import Mathlib.Data.String.Basic
set_option linter.unusedSectionVars false
/-!
# C157 (the shooter pushes the trunk out of an obstacle), C158 (the postural task), C159 (reports of the stop watch)
-/
namespace Rbprm
namespace Shoot

/-- the corners, in the world, of a triangle of an obstacle -/
def WorldTriangle {K : Type _} [Field K] (o : Obstacle K) (i : ℕ) (a b c : Vec3 K) : Prop :=
  ∃ m t u v w, o.mesh = some m ∧ m.tris[i]? = some t ∧ m.vertices[t.1]? = some u ∧ m.vertices[t.2.1]? = some v ∧ m.vertices[t.2.2]? = some w ∧
    a = o.placement.apply u ∧ b = o.placement.apply v ∧ c = o.placement.apply w

theorem normal_eq {K : Type _} [Field K] [LinearOrder K] {o : Obstacle K} {i : ℕ} {a b c : Vec3 K} (h : WorldTriangle o i a b c) : triangleContactNormal o i = some (Vec3.cross (b - a) (c - a)) := by
  obtain ⟨m, t, u, v, w, hm, ht, hu, hv, hw, rfl, rfl, rfl⟩ := h
  unfold triangleContactNormal
  rw [hm]
  simp only [ht, Surface.Mesh.corners, hu, hv, hw, Option.map_some]

theorem normalize_real (v : Vec3 ℝ) : normalize Real.sqrt v = Proj.normalized v := rfl

/-- **C157** (normal).  For a triangle with an area, the direction is a unit vector orthogonal to the triangle in the world, on the side from which its corners turn counter-clockwise; it is the vertical for an
obstacle without mesh. -/
theorem C157_normal (o : Obstacle ℝ) (i : ℕ) :
    (∀ a b c, WorldTriangle o i a b c → Vec3.cross (b - a) (c - a) ≠ 0 → ∃ n, normalFromTriangleContact Real.sqrt o i = some n ∧ Vec3.normSq n = 1 ∧ Vec3.dot n (b - a) = 0 ∧
      Vec3.dot n (c - a) = 0 ∧ 0 < Vec3.dot n (Vec3.cross (b - a) (c - a))) ∧
    (o.mesh = none → normalFromTriangleContact Real.sqrt o i = some ⟨0, 0, 1⟩) := by
  constructor
  · intro a b c h hne
    refine ⟨_, by rw [normalFromTriangleContact, normal_eq h]; rfl, ?_⟩
    rw [normalize_real]
    obtain ⟨h1, k, hk, he⟩ := Surface.normalized_normalises.2 _ hne
    refine ⟨h1, ?_, ?_, ?_⟩
    · rw [he]; simp only [Vec3.dot, Vec3.cross, Vec3.smul_x, Vec3.smul_y, Vec3.smul_z]; ring
    · rw [he]; simp only [Vec3.dot, Vec3.cross, Vec3.smul_x, Vec3.smul_y, Vec3.smul_z]; ring
    · rw [he]
      have hp := Proj.normSq_pos hne
      have e : Vec3.dot (Vec3.smul k (Vec3.cross (b - a) (c - a))) (Vec3.cross (b - a) (c - a)) = k * Vec3.normSq (Vec3.cross (b - a) (c - a)) := by
        simp only [Vec3.dot, Vec3.normSq, Vec3.smul_x, Vec3.smul_y, Vec3.smul_z]; ring
      rw [e]
      exact mul_pos hk hp
  · intro h
    unfold normalFromTriangleContact triangleContactNormal
    rw [h]
    simp only [Option.map_some, normalize]
    rw [if_pos (by simp [Vec3.normSq, Vec3.dot])]
    simp [Vec3.normSq, Vec3.dot, Vec3.smul]

/-- the translation bounds let the root move by the vector -/
def Free {K : Type _} [Field K] [LinearOrder K] (b : Bounds K) (config : Config K) (t : Vec3 K) : Prop :=
  Within b.x (config.trans.x + t.x) ∧ Within b.y (config.trans.y + t.y) ∧ Within b.z (config.trans.z + t.z)

theorem clamp_of_within {K : Type _} [Field K] [LinearOrder K] {b : Option (K × K)} {x : K} (h : Within b x) : clamp b x = x := by
  unfold clamp
  cases b with
  | none => rfl
  | some p =>
    obtain ⟨h1, h2⟩ := h p.1 p.2 rfl
    simp only
    rw [max_eq_right h1, min_eq_right h2]

/-- **C157, partial** (push).  Where the bounds of the root let it move, the displacement moves the root along the normal of the triangle in contact, changing nothing else, such that a point of the trunk that was at
most as deep under the plane of the triangle as the reported depth is at least 3 cm above it.
Missing: bounds, triangles seen from the wrong side or without area (`C157_violated`). -/
theorem C157_push_partial (b : Bounds ℝ) (config : Config ℝ) (contact : TrunkContact ℝ) (p1 p2 p3 : Vec3 ℝ) (h : WorldTriangle contact.object2 contact.b2 p1 p2 p3) (hne : Vec3.cross (p2 - p1) (p3 - p1) ≠ 0) :
    ∃ n, normalFromTriangleContact Real.sqrt contact.object2 contact.b2 = some n ∧ Vec3.normSq n = 1 ∧
      (Free b config (Vec3.smul (|contact.depth| + 3 / 100) n) → ∃ config', pushOut Real.sqrt b config contact = some config' ∧ config'.rot = config.rot ∧ config'.rest = config.rest ∧
        ∀ x : Vec3 ℝ, -|contact.depth| ≤ Vec3.dot n (x - p1) → 3 / 100 ≤ Vec3.dot n (x + (config'.trans - config.trans) - p1)) := by
  obtain ⟨n, h1, h2, -⟩ := (C157_normal contact.object2 contact.b2).1 p1 p2 p3 h hne
  refine ⟨n, h1, h2, ?_⟩
  rintro ⟨f1, f2, f3⟩
  refine ⟨translate b config (Vec3.smul (|contact.depth| + 3 / 100) n), by rw [pushOut, h1]; rfl, rfl, rfl, ?_⟩
  intro x hx
  have e : (translate b config (Vec3.smul (|contact.depth| + 3 / 100) n)).trans - config.trans = Vec3.smul (|contact.depth| + 3 / 100) n := by
    simp only [translate, clamp_of_within f1, clamp_of_within f2, clamp_of_within f3]
    ext <;> simp
  rw [e]
  have e2 : Vec3.dot n (x + Vec3.smul (|contact.depth| + 3 / 100) n - p1) = Vec3.dot n (x - p1) + (|contact.depth| + 3 / 100) * Vec3.normSq n := by
    simp only [Vec3.dot, Vec3.normSq, Vec3.sub_x, Vec3.sub_y, Vec3.sub_z, Vec3.add_x, Vec3.add_y, Vec3.add_z, Vec3.smul_x, Vec3.smul_y, Vec3.smul_z]; ring
  rw [e2, h2]
  linarith

/-- **C157** (loop).  When the validation finds the trunk in collision, the shooter goes on from the configuration pushed out of the obstacle, one displacement less. -/
theorem C157_loop {K ω : Type _} [Field K] [LinearOrder K] (env : ShootEnv K ω) (s : Shooter K) (p d : Vec3 K) (k : ℕ) (w : ω) (config : Config K) (contact : TrunkContact K) (v : Verdict K)
    (hv : collisionVerdict contact = some v) (hw : (env.validate w config).2 = v) :
    ∃ n config', normalFromTriangleContact env.sqrt contact.object2 contact.b2 = some n ∧ pushOut env.sqrt s.bounds config contact = some config' ∧
      displaceLoop env s p (k + 1) d w config = displaceLoop env s p k n (env.validate w config).1 config' := by
  unfold collisionVerdict at hv
  cases hn : triangleContactNormal contact.object2 contact.b2 with
  | none => rw [hn] at hv; simp at hv
  | some n =>
    rw [hn] at hv
    simp only [Option.map_some, Option.some.injEq] at hv
    subst hv
    refine ⟨normalize env.sqrt n, _, by rw [normalFromTriangleContact, hn]; rfl, by rw [pushOut, normalFromTriangleContact, hn]; rfl, ?_⟩
    rw [displaceLoop, hw]
    rfl

/-- a floor: a triangle in the plane z = 0, seen from above, and the same one with two corners exchanged -/
def floorMesh : Surface.Mesh ℝ := ⟨[⟨0, 0, 0⟩, ⟨2, 0, 0⟩, ⟨0, 2, 0⟩], [(0, 1, 2), (0, 2, 1), (0, 1, 1)]⟩
noncomputable def floorObstacle : Obstacle ℝ := ⟨some floorMesh, ⟨Mat3.one, 0⟩⟩

theorem floor_corners (i : ℕ) (t : ℕ × ℕ × ℕ) (u v w : Vec3 ℝ) (ht : floorMesh.tris[i]? = some t) (hu : floorMesh.vertices[t.1]? = some u) (hv : floorMesh.vertices[t.2.1]? = some v)
    (hw : floorMesh.vertices[t.2.2]? = some w) : WorldTriangle floorObstacle i u v w := by
  have e : ∀ x : Vec3 ℝ, x = floorObstacle.placement.apply x := by
    intro x
    ext <;> simp [floorObstacle, Reach.Transform.apply, Mat3.one, Mat3.mulVec, Vec3.dot]
  exact ⟨floorMesh, t, u, v, w, rfl, ht, hu, hv, hw, e u, e v, e w⟩

theorem floor_normals : normalFromTriangleContact Real.sqrt floorObstacle 0 = some ⟨0, 0, 1⟩ ∧ normalFromTriangleContact Real.sqrt floorObstacle 1 = some ⟨0, 0, -1⟩ ∧
    normalFromTriangleContact Real.sqrt floorObstacle 2 = some 0 := by
  have h16 : Real.sqrt 16 = 4 := by rw [show (16 : ℝ) = 4 ^ 2 by norm_num]; exact Real.sqrt_sq (by norm_num)
  have h0 := normal_eq (floor_corners 0 (0, 1, 2) _ _ _ rfl rfl rfl rfl)
  have h1 := normal_eq (floor_corners 1 (0, 2, 1) _ _ _ rfl rfl rfl rfl)
  have h2 := normal_eq (floor_corners 2 (0, 1, 1) _ _ _ rfl rfl rfl rfl)
  have e0 : Vec3.cross ((⟨2, 0, 0⟩ : Vec3 ℝ) - ⟨0, 0, 0⟩) (⟨0, 2, 0⟩ - ⟨0, 0, 0⟩) = ⟨0, 0, 4⟩ := by
    ext <;> simp [Vec3.cross] <;> norm_num
  have e1 : Vec3.cross ((⟨0, 2, 0⟩ : Vec3 ℝ) - ⟨0, 0, 0⟩) (⟨2, 0, 0⟩ - ⟨0, 0, 0⟩) = ⟨0, 0, -4⟩ := by
    ext <;> simp [Vec3.cross] <;> norm_num
  have e2 : Vec3.cross ((⟨2, 0, 0⟩ : Vec3 ℝ) - ⟨0, 0, 0⟩) (⟨2, 0, 0⟩ - ⟨0, 0, 0⟩) = ⟨0, 0, 0⟩ := by
    ext <;> simp [Vec3.cross]
  rw [e0] at h0
  rw [e1] at h1
  rw [e2] at h2
  have n0 : Vec3.normSq (⟨0, 0, 4⟩ : Vec3 ℝ) = 16 := by simp [Vec3.normSq, Vec3.dot]; norm_num
  have n1 : Vec3.normSq (⟨0, 0, -4⟩ : Vec3 ℝ) = 16 := by simp [Vec3.normSq, Vec3.dot]; norm_num
  refine ⟨?_, ?_, ?_⟩
  · rw [normalFromTriangleContact, h0, Option.map_some, normalize, n0, if_pos (by norm_num), h16]
    congr 1
    ext <;> simp
  · rw [normalFromTriangleContact, h1, Option.map_some, normalize, n1, if_pos (by norm_num), h16]
    congr 1
    ext <;> simp
  · rw [normalFromTriangleContact, h2, Option.map_some, normalize, if_neg (by simp [Vec3.normSq, Vec3.dot])]
    rfl

/-- **C157 is violated**: with the corners of the triangle in the other order the trunk is pushed further into the obstacle; a triangle without area does not move it at all; and at the bounds of the root it does
not move either. -/
theorem C157_violated (config : Config ℝ) (depth : ℝ) :
    ((pushOut Real.sqrt ⟨none, none, none⟩ config ⟨floorObstacle, 1, depth⟩).map fun c => c.trans) = some ⟨config.trans.x, config.trans.y, config.trans.z - (|depth| + 3 / 100)⟩ ∧
    ((pushOut Real.sqrt ⟨none, none, none⟩ config ⟨floorObstacle, 2, depth⟩).map fun c => c.trans) = some config.trans ∧
    ((pushOut Real.sqrt ⟨none, none, some (config.trans.z, config.trans.z)⟩ config ⟨floorObstacle, 0, depth⟩).map fun c => c.trans) = some config.trans := by
  obtain ⟨h0, h1, h2⟩ := floor_normals
  refine ⟨?_, ?_, ?_⟩
  · simp only [pushOut, h1, Option.map_some, translate, clamp]
    congr 1
    ext <;> simp
    ring
  · simp only [pushOut, h2, Option.map_some, translate, clamp]
    congr 1
    ext <;> simp
  · simp only [pushOut, h0, Option.map_some, translate, clamp]
    congr 1
    have hz : config.trans.z ≤ config.trans.z + (|depth| + 3 / 100) := by
      have := abs_nonneg depth
      linarith
    ext
    · simp
    · simp
    · simp only [Vec3.smul_z, mul_one]
      rw [max_eq_right hz, min_eq_left hz]

/-- non-vacuity: the trunk under the floor is pushed to 3 cm above it -/
example (config : Config ℝ) : WorldTriangle floorObstacle 0 ⟨0, 0, 0⟩ ⟨2, 0, 0⟩ ⟨0, 2, 0⟩ ∧ Vec3.cross ((⟨2, 0, 0⟩ : Vec3 ℝ) - ⟨0, 0, 0⟩) (⟨0, 2, 0⟩ - ⟨0, 0, 0⟩) ≠ 0 ∧
    Free ⟨none, none, none⟩ config (Vec3.smul (|(-1 : ℝ)| + 3 / 100) ⟨0, 0, 1⟩) ∧
    ((pushOut Real.sqrt ⟨none, none, none⟩ config ⟨floorObstacle, 0, -1⟩).map fun c => c.trans) = some ⟨config.trans.x, config.trans.y, config.trans.z + 103 / 100⟩ := by
  refine ⟨floor_corners 0 (0, 1, 2) _ _ _ rfl rfl rfl rfl, ?_, ⟨(by simp [Within]), (by simp [Within]), (by simp [Within])⟩, ?_⟩
  · intro h
    have := congrArg Vec3.z h
    simp [Vec3.cross] at this
  · simp only [pushOut, floor_normals.1, Option.map_some, translate, clamp]
    congr 1
    ext <;> simp <;> norm_num

end Shoot

/-! ### C158 -/
namespace Posture
variable {K : Type _} [Field K] [LinearOrder K] [IsStrictOrderedRing K]

theorem zip_nonneg (ws ds : List K) (h : ∀ w ∈ ws, 0 ≤ w) : 0 ≤ (List.zipWith (fun w d => w * (d * d)) ws ds).sum := by
  induction ws generalizing ds with
  | nil => simp
  | cons w ws ih =>
    cases ds with
    | nil => simp
    | cons d ds =>
      simp only [List.zipWith_cons_cons, List.sum_cons]
      exact add_nonneg (mul_nonneg (h w (by simp)) (mul_self_nonneg d)) (ih ds fun x hx => h x (by simp [hx]))

theorem zip_zero (ws ds : List K) (h : ∀ w ∈ ws, 0 ≤ w) : (List.zipWith (fun w d => w * (d * d)) ws ds).sum = 0 ↔ ∀ (i : ℕ) w d, ws[i]? = some w → ds[i]? = some d → w = 0 ∨ d = 0 := by
  induction ws generalizing ds with
  | nil => simp
  | cons w ws ih =>
    cases ds with
    | nil => simp
    | cons d ds =>
      have hw := h w (by simp)
      have h' : ∀ x ∈ ws, 0 ≤ x := fun x hx => h x (by simp [hx])
      have hn := zip_nonneg ws ds h'
      have hm := mul_nonneg hw (mul_self_nonneg d)
      simp only [List.zipWith_cons_cons, List.sum_cons]
      constructor
      · intro h0
        have h1 : w * (d * d) = 0 := by linarith
        have h2 : (List.zipWith (fun w d => w * (d * d)) ws ds).sum = 0 := by linarith
        intro i w' d' hi hj
        cases i with
        | zero =>
          simp only [List.getElem?_cons_zero, Option.some.injEq] at hi hj
          subst hi hj
          rcases mul_eq_zero.1 h1 with h3 | h3
          · exact Or.inl h3
          · exact Or.inr (mul_self_eq_zero.1 h3)
        | succ i =>
          simp only [List.getElem?_cons_succ] at hi hj
          exact (ih ds h').1 h2 i w' d' hi hj
      · intro h0
        have h1 : w * (d * d) = 0 := by
          rcases h0 0 w d (by simp) (by simp) with h3 | h3 <;> rw [h3] <;> ring
        rw [h1, (ih ds h').2 (fun i w' d' hi hj => h0 (i + 1) w' d' (by simpa using hi) (by simpa using hj)), add_zero]

/-- **C158** (weights).  The setter without assertions takes any vector; the task uses the weights given by the user if there is one per degree of freedom, and otherwise 1 for each degree of freedom. -/
theorem C158_weights (numberDof : ℕ) (user : List K) :
    setWeights false numberDof user = some user ∧ (setWeights true numberDof user = some user ↔ user.length = numberDof) ∧ (weights numberDof user).length = numberDof ∧
    (user.length = numberDof → weights numberDof user = user) ∧ (user.length ≠ numberDof → ∀ w ∈ weights numberDof user, w = 1) := by
  refine ⟨by simp [setWeights], ?_, ?_, fun h => by simp [weights, h], ?_⟩
  · unfold setWeights
    by_cases h : user.length = numberDof <;> simp [h]
  · unfold weights
    by_cases h : user.length = numberDof
    · rw [if_pos h, h]
    · rw [if_neg h]; simp
  · intro h w hw
    unfold weights at hw
    rw [if_neg h] at hw
    exact List.eq_of_mem_replicate hw

/-- **C158, partial** (cost).  With weights that are not negative the cost of the postural task is never negative, and is zero exactly if every coordinate with a non-zero weight is that of the reference; a coordinate with weight
zero does not count.  Missing: the root and the extra degrees of freedom count like the others (`C158_violated`). -/
theorem C158_cost_partial (numberDof : ℕ) (h7 : 7 ≤ numberDof) (user difference : List K) (hd : difference.length = numberDof) (hu : ∀ w ∈ user, 0 ≤ w) :
    ∃ c, task numberDof user difference = some c ∧ 0 ≤ c ∧
      (c = 0 ↔ ∀ (i : ℕ) w d, (weights numberDof user)[i]? = some w → difference[i]? = some d → w = 0 ∨ d = 0) ∧
      ∀ (i : ℕ) x, (weights numberDof user)[i]? = some 0 → task numberDof user (difference.set i x) = some c := by
  have hw : ∀ w ∈ weights numberDof user, 0 ≤ w := by
    intro w hw
    unfold weights at hw
    by_cases h : user.length = numberDof
    · rw [if_pos h] at hw; exact hu w hw
    · rw [if_neg h] at hw; rw [List.eq_of_mem_replicate hw]; exact zero_le_one
  refine ⟨cost (weights numberDof user) difference, by rw [task, if_neg (by omega)], ?_, ?_, ?_⟩
  · unfold cost
    have := zip_nonneg (weights numberDof user) difference hw
    linarith
  · rw [← zip_zero _ _ hw]
    unfold cost
    constructor <;> intro h <;> linarith
  · intro i x hi
    rw [task, if_neg (by omega)]
    congr 1
    unfold cost
    congr 2
    apply List.ext_getElem?
    intro j
    simp only [List.getElem?_zipWith, List.getElem?_set]
    by_cases hj : i = j
    · subst hj
      rw [hi, if_pos rfl]
      have hlt : i < difference.length := by
        rw [hd, ← (C158_weights numberDof user).2.2.1]
        exact (List.getElem?_eq_some_iff.1 hi).1
      rw [if_pos hlt, List.getElem?_eq_getElem hlt]
      simp
    · rw [if_neg hj]

theorem cost_replicate_zero (n : ℕ) (ws : List K) : cost ws (List.replicate n 0) = 0 := by
  unfold cost
  have : (List.zipWith (fun w d => w * (d * d)) ws (List.replicate n 0)).sum = 0 := by
    induction ws generalizing n with
    | nil => simp
    | cons w ws ih =>
      cases n with
      | zero => simp
      | succ n => simp only [List.replicate_succ, List.zipWith_cons_cons, List.sum_cons, ih]; ring
  rw [this]; ring

/-- **C158 is violated** for the root and the extra degrees of freedom, which the mask of the code is meant to leave out: with the default weights, a robot in its reference posture at another place costs half the square of
its distance along x, without bound. -/
theorem C158_violated (numberDof : ℕ) (h7 : 7 ≤ numberDof) (d : K) :
    task numberDof [] (d :: List.replicate (numberDof - 1) 0) = some (d * d / 2) ∧ task numberDof [] (List.replicate (numberDof - 1) 0 ++ [d]) = some (d * d / 2) := by
  have hw : weights numberDof ([] : List K) = List.replicate numberDof 1 := by
    unfold weights
    rw [if_neg (by simp; omega)]
  constructor
  · rw [task, if_neg (by omega), hw]
    congr 1
    obtain ⟨n, rfl⟩ : ∃ n, numberDof = n + 1 := ⟨numberDof - 1, by omega⟩
    have := cost_replicate_zero n (List.replicate n (1 : K))
    unfold cost at this ⊢
    simp only [List.replicate_succ, List.zipWith_cons_cons, List.sum_cons, Nat.add_sub_cancel]
    linear_combination this
  · rw [task, if_neg (by omega), hw]
    congr 1
    obtain ⟨n, rfl⟩ : ∃ n, numberDof = n + 1 := ⟨numberDof - 1, by omega⟩
    have := cost_replicate_zero n (List.replicate n (1 : K))
    unfold cost at this ⊢
    rw [List.replicate_succ', Nat.add_sub_cancel, List.zipWith_append (by simp)]
    simp only [List.sum_append, List.zipWith_cons_cons, List.zipWith_nil_left, List.sum_cons, List.sum_nil]
    linear_combination this

/-- **C158 is violated** for small robots: with less than seven degrees of freedom the computation of the unused mask writes outside of its memory. -/
theorem C158_small_violated (numberDof : ℕ) (h : numberDof < 7) (user difference : List K) : task numberDof user difference = none := by
  rw [task, if_pos h]

/-- non-vacuity: seven joints, weight 0 for the first one, 2 for the last one -/
example : task 7 [0, 1, 1, 1, 1, 1, 2] [5, 0, 0, 0, 0, 0, 3] = some (9 : ℚ) ∧ task 7 [0, 1] [5, 0, 0, 0, 0, 0, 3] = some (17 : ℚ) := by
  constructor <;> decide +kernel

end Posture

/-! ### C159 -/
namespace Watch
variable {N K : Type _} [LinearOrder N] [Field K] [LinearOrder K] [IsStrictOrderedRing K]

/-- **C159** (one report).  An inactive watch prints nothing; an active one throws for a name that was never started and otherwise prints the figures that the accessors return, in milliseconds. -/
theorem C159_report (w : Stopwatch N K) (name : N) :
    (w.active = false → w.report name = some []) ∧ (w.active = true → (w.report name = none ↔ w.total name = none)) ∧
    (w.active = true → ∀ ls, w.report name = some ls → ∃ l, ls = [l] ∧ l.name = name ∧ (w.min name).map (1000 * ·) = some l.min ∧ (w.max name).map (1000 * ·) = some l.max ∧
      (w.total name).map (1000 * ·) = some l.total ∧ (w.average name).map (Option.map (1000 * ·)) = some l.avg) := by
  refine ⟨fun h => by simp [Stopwatch.report, h], fun h => ?_, fun h ls hl => ?_⟩
  · simp only [Stopwatch.report, h, Stopwatch.total]
    cases w.records.find? name <;> simp
  · simp only [Stopwatch.report, h, Bool.not_true, Bool.false_eq_true, if_false] at hl
    cases hf : w.records.find? name with
    | none => rw [hf] at hl; simp at hl
    | some p =>
      rw [hf] at hl
      simp only [Option.some.injEq] at hl
      refine ⟨_, hl.symm, rfl, ?_, ?_, ?_, ?_⟩
      · simp [Stopwatch.min, hf, lineOf, mul_comm]
      · simp [Stopwatch.max, hf, lineOf, mul_comm]
      · simp [Stopwatch.total, hf, lineOf, mul_comm]
      · simp only [Stopwatch.average, hf, lineOf, Option.map_some, Option.some.injEq]
        by_cases h0 : p.stops = 0
        · simp [h0]
        · rw [if_neg h0, if_neg h0, Option.map_some]
          congr 1
          ring

theorem mapM_report (w : Stopwatch N K) (ha : w.active = true) (l : AMap N (Perf K)) (h : ∀ r ∈ l, w.records.find? r.1 = some r.2) :
    l.mapM (fun r => w.report r.1) = some (l.map fun r => [lineOf r.1 r.2]) := by
  induction l with
  | nil => rfl
  | cons r l ih =>
    have h1 : w.report r.1 = some [lineOf r.1 r.2] := by
      simp [Stopwatch.report, ha, h r (by simp)]
    rw [List.mapM_cons, h1, ih fun x hx => h x (by simp [hx])]
    rfl

/-- **C159** (all reports).  After any history, an active watch reports, without exception, one line for each name that was ever started, in increasing order of the names, and each line is the report of its name. -/
theorem C159_reportAll (w : Stopwatch N K) (hw : AMap.WF w.records) :
    (w.active = false → w.reportAll = some []) ∧
    (w.active = true → ∃ ls, w.reportAll = some ls ∧ (ls.map (·.name)).Pairwise (· < ·) ∧ (∀ n, n ∈ ls.map (·.name) ↔ w.total n ≠ none) ∧ ∀ l ∈ ls, w.report l.name = some [l]) := by
  refine ⟨fun h => by simp [Stopwatch.reportAll, h], fun h => ?_⟩
  have hm := mapM_report w h w.records (fun r hr => AMap.mem_find? hw hr)
  have hn : (w.records.map fun r => [lineOf r.1 r.2]).flatten = w.records.map fun r => lineOf r.1 r.2 := by
    generalize w.records = l
    induction l with
    | nil => rfl
    | cons r l ih => simp only [List.map_cons, List.flatten_cons, ih]; rfl
  have hk : (w.records.map fun r => lineOf r.1 r.2).map (·.name) = AMap.keys w.records := by
    simp only [List.map_map, AMap.keys]
    rfl
  refine ⟨w.records.map fun r => lineOf r.1 r.2, ?_, ?_, ?_, ?_⟩
  · simp only [Stopwatch.reportAll, h, hm, Option.map_some, hn, Bool.not_true, Bool.false_eq_true, if_false]
  · rw [hk]; exact hw
  · intro n
    rw [hk, ← AMap.find?_isSome]
    simp only [Stopwatch.total]
    cases w.records.find? n <;> simp
  · intro l hl
    obtain ⟨r, hr, rfl⟩ := List.mem_map.1 hl
    simp [Stopwatch.report, h, lineOf, AMap.mem_find? hw hr]

theorem run_WF (perSec : K) (ops : List (Op N K)) (w : Stopwatch N K) (hw : AMap.WF w.records) : AMap.WF (run perSec w ops).records := by
  induction ops generalizing w with
  | nil => exact hw
  | cons o ops ih =>
    refine ih (step perSec w o).1 ?_
    cases o with
    | start name time =>
      simp only [step]
      split_ifs
      · exact hw
      · exact AMap.WF_insertNew hw _ _
      · split
        · exact AMap.WF_set (AMap.WF_insertNew hw _ _) _ _
        · exact AMap.WF_insertNew hw _ _
    | stop name time =>
      simp only [step]
      split_ifs
      · exact hw
      · exact hw
      · split
        · exact hw
        · exact AMap.WF_set hw _ _
    | pause name clock =>
      simp only [step]
      split_ifs
      · exact hw
      · split
        · exact hw
        · exact AMap.WF_set hw _ _
    | reset name =>
      simp only [step]
      split_ifs
      · exact hw
      · split
        · exact hw
        · exact AMap.WF_set hw _ _
    | resetAll =>
      simp only [step]
      split_ifs
      · exact hw
      · have e : AMap.keys (w.records.map fun r => (r.1, (Perf.init : Perf K))) = AMap.keys w.records := by
          simp [AMap.keys, Function.comp_def]
        unfold AMap.WF at hw ⊢
        rw [e]
        exact hw
    | turnOn => exact hw
    | turnOff => exact hw
    | setMode m => exact hw

/-- **C159** (histories).  After any history of calls, pauses included, an active watch reports without exception one line per name that was ever started (and only those), in increasing order. -/
theorem C159_history (perSec : K) (m : Mode) (ops : List (Op N K)) (ha : (run perSec (Stopwatch.new m) ops).active = true) :
    ∃ ls, (run perSec (Stopwatch.new m) ops).reportAll = some ls ∧ (ls.map (·.name)).Pairwise (· < ·) ∧
      (∀ n, n ∈ ls.map (·.name) ↔ (run perSec (Stopwatch.new m) ops).total n ≠ none) ∧ ∀ l ∈ ls, (run perSec (Stopwatch.new m) ops).report l.name = some [l] :=
  (C159_reportAll _ (run_WF perSec ops _ AMap.WF_nil)).2 ha

/-- **C159, partial** (figures).  Without pauses, the line of a name is: least, mean and greatest of the lapses measured since its last reset, their sum, in milliseconds, and their number.  For positive lapses
`min ≤ avg ≤ max`.  Missing: lapses of zero (`C159_violated`). -/
theorem C159_figures_partial (perSec : K) (m : Mode) (ops : List (Op N K)) (ho : ∀ o ∈ ops, ∀ n c, o ≠ .pause n c) (ha : (run perSec (Stopwatch.new m) ops).active = true) (name : N)
    {start : K} {lapses : List K} (he : (Log.after perSec m ops).entry name = some (start, lapses)) (h0 : lapses ≠ []) (hp : ∀ x ∈ lapses, 0 < x) :
    ∃ l, (run perSec (Stopwatch.new m) ops).report name = some [l] ∧ l.stops = lapses.length ∧ l.total = 1000 * lapses.sum ∧ l.avg = some (1000 * (lapses.sum / lapses.length)) ∧
      IsMin lapses (l.min / 1000) ∧ IsMax lapses (l.max / 1000) ∧ ∀ a, l.avg = some a → l.min ≤ a ∧ a ≤ l.max := by
  have h := rel_run perSec m ops ho
  have hk := h.known name
  cases hf : (run perSec (Stopwatch.new m) ops).records.find? name with
  | none => rw [hf, he] at hk; cases hk
  | some p =>
    obtain ⟨-, hA⟩ := h.agrees name p _ hf he
    have hl : (0 : K) < lapses.length := by exact_mod_cast List.length_pos_of_ne_nil h0
    have hne : p.stops ≠ 0 := by rw [hA.stops]; exact (List.length_pos_of_ne_nil h0).ne'
    have hmin := hA.min h0 hp
    have hmax := hA.max h0 fun x hx => (hp x hx).le
    have e1 : p.minTime * 1000 / 1000 = p.minTime := by field_simp
    have e2 : p.maxTime * 1000 / 1000 = p.maxTime := by field_simp
    have hav : (lineOf name p).avg = some (1000 * (lapses.sum / lapses.length)) := by
      simp only [lineOf]
      rw [if_neg hne, hA.stops, hA.total]
      congr 1
      ring
    refine ⟨lineOf name p, by simp [Stopwatch.report, ha, hf], hA.stops, by simp only [lineOf, hA.total]; ring, hav, by simp only [lineOf]; rw [e1]; exact hmin, by simp only [lineOf]; rw [e2]; exact hmax, ?_⟩
    intro a haa
    rw [hav] at haa
    simp only [Option.some.injEq] at haa
    subst haa
    have h1 : p.minTime ≤ lapses.sum / lapses.length := by
      rw [le_div_iff₀ hl, mul_comm]; exact le_sum_of_le _ _ hmin.2
    have h2 : lapses.sum / lapses.length ≤ p.maxTime := by
      rw [div_le_iff₀ hl, mul_comm]; exact sum_le_of_le _ _ hmax.2
    simp only [lineOf]
    constructor <;> linarith

/-- **C159 is violated** after a lapse of zero: lapses of 0 and 10 s are reported with a minimum of 10 s and an average of 5 s; and a name that was started and not stopped is reported with the average 0/0. -/
theorem C159_violated :
    (run 1 (Stopwatch.new .realTime) [.start 7 1, .stop 7 1, .start 7 1, .stop 7 11] : Stopwatch ℕ ℚ).report 7 = some [⟨7, 10000, some 5000, 10000, 10000, 2⟩] ∧
    (run 1 (Stopwatch.new .realTime) [.start 7 1] : Stopwatch ℕ ℚ).report 7 = some [⟨7, 0, none, 0, 0, 0⟩] := by
  constructor <;> decide +kernel

/-- non-vacuity: the history of C63 -/
example : (run 1 (Stopwatch.new .realTime) demoOps).reportAll = some [⟨7, 2000, some (10000 / 3), 5000, 10000, 3⟩, ⟨8, 15000, some 15000, 15000, 15000, 1⟩] ∧
    (run 1 (Stopwatch.new .realTime) demoOps).active = true := by
  constructor <;> decide +kernel

end Watch
end Rbprm
