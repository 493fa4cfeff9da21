import Verif.Model.Surfaces
import Verif.Props.GeomHull
import Verif.Props.GeomClip
import Verif.Props.Node
import Verif.Props.Kinematics
import Verif.Props.Projection
set_option linter.unusedSectionVars false
/-!
# Contact surfaces from the meshes of the objects (C153), clipping with iterators (C154), centre of a planar polygon (C155)
-/
namespace Rbprm
namespace Surface
open Support Geom

section spec
variable {K : Type _} [Field K] [LinearOrder K] [IsStrictOrderedRing K]

/-- the triangles only use vertices of the mesh, and there is one -/
def WellFormed (m : Mesh K) : Prop := m.tris ≠ [] ∧ ∀ t ∈ m.tris, t.1 < m.vertices.length ∧ t.2.1 < m.vertices.length ∧ t.2.2 < m.vertices.length

/-- all the vertices are in one plane -/
def Planar (m : Mesh K) : Prop := ∃ n : Vec3 K, n ≠ 0 ∧ ∀ u ∈ m.vertices, ∀ v ∈ m.vertices, Vec3.dot n (u - v) = 0

/-- the first triangle has an area -/
def FirstTriangle (m : Mesh K) : Prop := ∀ t, m.tris.head? = some t → ∀ c, m.corners t = some c → Vec3.cross (c.2.1 - c.1) (c.2.2 - c.1) ≠ 0

/-- `normalize` of Eigen: unit vectors of the same direction; the null vector is left as it is -/
def Normalises (f : Vec3 K → Vec3 K) : Prop := f 0 = 0 ∧ ∀ v, v ≠ 0 → Vec3.normSq (f v) = 1 ∧ ∃ k, 0 < k ∧ f v = Vec3.smul k v

/-- the vertices of the object in the world -/
def world (placement : Reach.Transform K) (m : Mesh K) : List (Vec3 K) := m.vertices.map placement.apply
end spec

theorem normalized_normalises : Normalises Proj.normalized := by
  refine ⟨?_, fun v hv => ⟨Proj.normSq_normalized hv, ?_⟩⟩
  · unfold Proj.normalized
    rw [if_neg (by simp [Vec3.normSq, Vec3.dot])]
  · have hp := Proj.normSq_pos hv
    refine ⟨1 / Proj.norm v, ?_, by unfold Proj.normalized; rw [if_pos hp]⟩
    exact one_div_pos.2 (Real.sqrt_pos.2 hp)

section lemmas
variable {K : Type _} [Field K] [LinearOrder K] [IsStrictOrderedRing K]

theorem corners_some {m : Mesh K} {t : ℕ × ℕ × ℕ} {c : Vec3 K × Vec3 K × Vec3 K} (h : m.corners t = some c) : c.1 ∈ m.vertices ∧ c.2.1 ∈ m.vertices ∧ c.2.2 ∈ m.vertices := by
  unfold Mesh.corners at h
  cases h1 : m.vertices[t.1]? <;> cases h2 : m.vertices[t.2.1]? <;> cases h3 : m.vertices[t.2.2]? <;> rw [h1, h2, h3] at h <;> simp at h
  subst h
  exact ⟨List.mem_of_getElem? h1, List.mem_of_getElem? h2, List.mem_of_getElem? h3⟩

theorem corners_isSome {m : Mesh K} {t : ℕ × ℕ × ℕ} (h : t.1 < m.vertices.length ∧ t.2.1 < m.vertices.length ∧ t.2.2 < m.vertices.length) : ∃ c, m.corners t = some c := by
  obtain ⟨h1, h2, h3⟩ := h
  unfold Mesh.corners
  rw [List.getElem?_eq_getElem h1, List.getElem?_eq_getElem h2, List.getElem?_eq_getElem h3]
  exact ⟨_, rfl⟩

theorem corners_getModel (p : Reach.Transform K) (m : Mesh K) (t : ℕ × ℕ × ℕ) :
    (getModel p m).corners t = (m.corners t).map fun c => (p.apply c.1, p.apply c.2.1, p.apply c.2.2) := by
  unfold Mesh.corners getModel
  simp only [List.getElem?_map]
  cases h1 : m.vertices[t.1]? <;> cases h2 : m.vertices[t.2.1]? <;> cases h3 : m.vertices[t.2.2]? <;> simp

theorem mapM_some {α β : Type _} (f : α → Option β) (l : List α) (h : ∀ a ∈ l, ∃ b, f a = some b) : ∃ out, l.mapM f = some out ∧ (∀ b ∈ out, ∃ a ∈ l, f a = some b) ∧ ∀ a ∈ l, ∃ b ∈ out, f a = some b := by
  induction l with
  | nil => exact ⟨[], by simp, by simp, by simp⟩
  | cons a l ih =>
    obtain ⟨b, hb⟩ := h a (by simp)
    obtain ⟨out, h1, h2, h3⟩ := ih (fun x hx => h x (List.mem_cons_of_mem _ hx))
    refine ⟨b :: out, by simp [List.mapM_cons, hb, h1], ?_, ?_⟩
    · intro x hx
      rcases List.mem_cons.1 hx with rfl | hx
      · exact ⟨a, by simp, hb⟩
      · obtain ⟨y, hy, hy'⟩ := h2 x hx
        exact ⟨y, List.mem_cons_of_mem _ hy, hy'⟩
    · intro x hx
      rcases List.mem_cons.1 hx with rfl | hx
      · exact ⟨b, by simp, hb⟩
      · obtain ⟨y, hy, hy'⟩ := h3 x hx
        exact ⟨y, List.mem_cons_of_mem _ hy, hy'⟩

theorem triple (n a b w : Vec3 K) (hn : n ≠ 0) (ha : Vec3.dot n a = 0) (hb : Vec3.dot n b = 0) (hw : Vec3.dot n w = 0) : Vec3.dot (Vec3.cross a b) w = 0 := by
  have hx : Vec3.dot (Vec3.cross a b) w * n.x = Vec3.dot n w * (Vec3.cross a b).x + Vec3.dot n a * (Vec3.cross b w).x + Vec3.dot n b * (Vec3.cross w a).x := by
    simp only [Vec3.dot, Vec3.cross]; ring
  have hy : Vec3.dot (Vec3.cross a b) w * n.y = Vec3.dot n w * (Vec3.cross a b).y + Vec3.dot n a * (Vec3.cross b w).y + Vec3.dot n b * (Vec3.cross w a).y := by
    simp only [Vec3.dot, Vec3.cross]; ring
  have hz : Vec3.dot (Vec3.cross a b) w * n.z = Vec3.dot n w * (Vec3.cross a b).z + Vec3.dot n a * (Vec3.cross b w).z + Vec3.dot n b * (Vec3.cross w a).z := by
    simp only [Vec3.dot, Vec3.cross]; ring
  rw [ha, hb, hw] at hx hy hz
  by_contra h
  apply hn
  ext
  · exact (mul_eq_zero.1 (by linarith : Vec3.dot (Vec3.cross a b) w * n.x = 0)).resolve_left h
  · exact (mul_eq_zero.1 (by linarith : Vec3.dot (Vec3.cross a b) w * n.y = 0)).resolve_left h
  · exact (mul_eq_zero.1 (by linarith : Vec3.dot (Vec3.cross a b) w * n.z = 0)).resolve_left h

theorem gram (a b w : Vec3 K) : Vec3.dot (Vec3.cross a b) w * Vec3.dot (Vec3.cross a b) w =
    Vec3.dot w w * (Vec3.dot a a * Vec3.dot b b - Vec3.dot a b * Vec3.dot a b) - Vec3.dot w a * (Vec3.dot w a * Vec3.dot b b - Vec3.dot a b * Vec3.dot w b) +
      Vec3.dot w b * (Vec3.dot w a * Vec3.dot a b - Vec3.dot a a * Vec3.dot w b) := by
  simp only [Vec3.dot, Vec3.cross]; ring

theorem apply_sub (p : Reach.Transform K) (u v : Vec3 K) : p.apply u - p.apply v = p.rot.mulVec (u - v) := by
  ext <;> simp only [Reach.Transform.apply, Mat3.mulVec, Vec3.dot, Vec3.sub_x, Vec3.sub_y, Vec3.sub_z, Vec3.add_x, Vec3.add_y, Vec3.add_z] <;> ring

theorem cross_normSq' (a b : Vec3 K) : Vec3.normSq (Vec3.cross a b) = Vec3.dot a a * Vec3.dot b b - Vec3.dot a b * Vec3.dot a b := by
  simp only [Vec3.normSq, Vec3.dot, Vec3.cross]; ring

theorem normSq_eq_zero {v : Vec3 K} (h : Vec3.normSq v = 0) : v = 0 := by
  simp only [Vec3.normSq, Vec3.dot] at h
  ext
  · exact mul_self_eq_zero.1 (by nlinarith [mul_self_nonneg v.x, mul_self_nonneg v.y, mul_self_nonneg v.z] : v.x * v.x = 0)
  · exact mul_self_eq_zero.1 (by nlinarith [mul_self_nonneg v.x, mul_self_nonneg v.y, mul_self_nonneg v.z] : v.y * v.y = 0)
  · exact mul_self_eq_zero.1 (by nlinarith [mul_self_nonneg v.x, mul_self_nonneg v.y, mul_self_nonneg v.z] : v.z * v.z = 0)

/-- C153, the plane: for a planar mesh whose first triangle has an area, moved rigidly, `computePlanEquation` gives a unit vector, orthogonal to the differences of any two
vertices in the world, and a vertex. -/
theorem C153_plane (normalize : Vec3 K → Vec3 K) (hN : Normalises normalize) (m : Mesh K) (hm : WellFormed m) (hp : Planar m) (hf : FirstTriangle m) (p : Reach.Transform K) (ho : Reach.Orthogonal p.rot) :
    ∃ pn p0, computePlanEquation normalize (getModel p m) = some (pn, p0) ∧ Vec3.normSq pn = 1 ∧ p0 ∈ world p m ∧
      ∀ u ∈ world p m, ∀ v ∈ world p m, Vec3.dot pn (u - v) = 0 := by
  obtain ⟨hne, hr⟩ := hm
  cases ht : m.tris with
  | nil => exact absurd ht hne
  | cons t l =>
    obtain ⟨c, hc⟩ := corners_isSome (hr t (by rw [ht]; simp))
    have hcr := hf t (by rw [ht]; rfl) c hc
    obtain ⟨c1, c2, c3⟩ := corners_some hc
    have hcw : Vec3.cross (p.apply c.2.1 - p.apply c.1) (p.apply c.2.2 - p.apply c.1) ≠ 0 := by
      intro h0
      apply hcr
      apply normSq_eq_zero
      have := cross_normSq' (p.apply c.2.1 - p.apply c.1) (p.apply c.2.2 - p.apply c.1)
      rw [h0, apply_sub, apply_sub, ho, ho, ho] at this
      rw [cross_normSq', ← this]
      simp [Vec3.normSq, Vec3.dot]
    obtain ⟨hu, k, hk, hkn⟩ := hN.2 _ hcw
    refine ⟨normalize (Vec3.cross (p.apply c.2.1 - p.apply c.1) (p.apply c.2.2 - p.apply c.1)), p.apply c.1, ?_, hu, List.mem_map_of_mem c1, ?_⟩
    · unfold computePlanEquation
      have : (getModel p m).tris = t :: l := ht
      rw [this]
      simp only [corners_getModel, hc, Option.map_some]
      rfl
    · intro u hu v hv
      obtain ⟨u', hu', rfl⟩ := List.mem_map.1 hu
      obtain ⟨v', hv', rfl⟩ := List.mem_map.1 hv
      obtain ⟨n, hn, hpl⟩ := hp
      have h0 := triple n (c.2.1 - c.1) (c.2.2 - c.1) (u' - v') hn (hpl _ c2 _ c1) (hpl _ c3 _ c1) (hpl _ hu' _ hv')
      have h1 : Vec3.dot (Vec3.cross (p.apply c.2.1 - p.apply c.1) (p.apply c.2.2 - p.apply c.1)) (p.apply u' - p.apply v') = 0 := by
        apply mul_self_eq_zero.1
        rw [gram]
        simp only [apply_sub, ho _ _]
        rw [← gram, h0, mul_zero]
      rw [hkn]
      have : ∀ a b : Vec3 K, Vec3.dot (Vec3.smul k a) b = k * Vec3.dot a b := fun a b => by simp only [Vec3.dot, Vec3.smul]; ring
      rw [this, h1, mul_zero]
end lemmas

/-- rows of a rotation matrix -/
theorem rotation_rows {R : Mat3 ℝ} (h : Proj.Rotation R) : Vec3.cross R.r1 R.r2 = R.r0 ∧ Vec3.cross R.r2 R.r0 = R.r1 ∧ Vec3.cross R.r0 R.r1 = R.r2 := by
  obtain ⟨⟨h1, -⟩, hd⟩ := h
  obtain ⟨r0, r1, r2⟩ := R
  have e := congrArg Mat3.r0 h1
  have f := congrArg Mat3.r1 h1
  have g := congrArg Mat3.r2 h1
  have e0 := congrArg Vec3.x e
  have e1 := congrArg Vec3.y e
  have e2 := congrArg Vec3.z e
  have f1 := congrArg Vec3.y f
  have f2 := congrArg Vec3.z f
  have g2 := congrArg Vec3.z g
  simp only [Stability.mulMat, Mat3.transpose, Mat3.one, Vec3.dot] at e0 e1 e2 f1 f2 g2
  simp only at hd
  have key : ∀ a b c : Vec3 ℝ, Vec3.dot a a = 1 → Vec3.dot b b = 1 → Vec3.dot c c = 1 → Vec3.dot b c = 0 → Vec3.dot a (Vec3.cross b c) = 1 → Vec3.cross b c = a := by
    intro a b c ha hb hc hbc habc
    have h2 := cross_normSq' b c
    rw [hb, hc, hbc] at h2
    have h3 : Vec3.normSq (Vec3.cross b c - a) = Vec3.normSq (Vec3.cross b c) - 2 * Vec3.dot a (Vec3.cross b c) + Vec3.dot a a := by
      simp only [Vec3.normSq, Vec3.dot, Vec3.sub_x, Vec3.sub_y, Vec3.sub_z]; ring
    have h4 : Vec3.cross b c - a = 0 := normSq_eq_zero (by rw [h3, h2, habc, ha]; norm_num)
    have hx := congrArg Vec3.x h4
    have hy := congrArg Vec3.y h4
    have hz := congrArg Vec3.z h4
    simp only [Vec3.sub_x, Vec3.sub_y, Vec3.sub_z, Vec3.zero_x, Vec3.zero_y, Vec3.zero_z] at hx hy hz
    ext <;> linarith
  refine ⟨key r0 r1 r2 ?_ ?_ ?_ ?_ hd, key r1 r2 r0 ?_ ?_ ?_ ?_ ?_, key r2 r0 r1 ?_ ?_ ?_ ?_ ?_⟩ <;> first
    | (simp only [Vec3.dot]; linarith)
    | (rw [← hd]; simp only [Vec3.dot, Vec3.cross]; ring)

/-- C153, orientation: the normal turns with the object -/
theorem C153_normal (t : Vec3 ℝ × Vec3 ℝ × Vec3 ℝ) (p : Reach.Transform ℝ) (hr : Proj.Rotation p.rot) :
    triangleNormal Proj.normalized (p.apply t.1, p.apply t.2.1, p.apply t.2.2) = p.rot.mulVec (triangleNormal Proj.normalized t) := by
  obtain ⟨h0, h1, h2⟩ := rotation_rows hr
  have key : ∀ a b : Vec3 ℝ, Vec3.cross (p.rot.mulVec a) (p.rot.mulVec b) = p.rot.mulVec (Vec3.cross a b) := by
    intro a b
    have e : ∀ u v : Vec3 ℝ, Vec3.dot u a * Vec3.dot v b - Vec3.dot v a * Vec3.dot u b = Vec3.dot (Vec3.cross u v) (Vec3.cross a b) := by
      intro u v; simp only [Vec3.dot, Vec3.cross]; ring
    ext
    · show Vec3.dot p.rot.r1 a * Vec3.dot p.rot.r2 b - Vec3.dot p.rot.r2 a * Vec3.dot p.rot.r1 b = Vec3.dot p.rot.r0 (Vec3.cross a b)
      rw [e, h0]
    · show Vec3.dot p.rot.r2 a * Vec3.dot p.rot.r0 b - Vec3.dot p.rot.r0 a * Vec3.dot p.rot.r2 b = Vec3.dot p.rot.r1 (Vec3.cross a b)
      rw [e, h1]
    · show Vec3.dot p.rot.r0 a * Vec3.dot p.rot.r1 b - Vec3.dot p.rot.r1 a * Vec3.dot p.rot.r0 b = Vec3.dot p.rot.r2 (Vec3.cross a b)
      rw [e, h2]
  unfold triangleNormal
  simp only [apply_sub, key]
  exact Proj.orthogonal_normalized hr.1 _

theorem hullLoop_fuel {K : Type _} [Field K] [LinearOrder K] [IsStrictOrderedRing K] (p0 : Vec3 K) (ps : List (Vec3 K)) (f g : ℕ) (res : List (Vec3 K)) (p : Vec3 K) (out : List (Vec3 K)) (h : Geom.hullLoop p0 ps f res p = some out) (hfg : f ≤ g) :
    Geom.hullLoop p0 ps g res p = some out := by
  induction f generalizing g res p with
  | zero => simp [Geom.hullLoop] at h
  | succ f ih =>
    cases g with
    | zero => omega
    | succ g =>
      simp only [Geom.hullLoop] at h ⊢
      split_ifs at h ⊢ with hc
      · exact ih g _ _ h (by omega)
      · exact h

theorem convexHull_fuel {K : Type _} [Field K] [LinearOrder K] [IsStrictOrderedRing K] {l : List (Vec3 K)} {f g : ℕ} {out : List (Vec3 K)} (h : Geom.convexHull f l = some out) (hfg : f ≤ g) : Geom.convexHull g l = some out := by
  cases l with
  | nil => exact h
  | cons p0 ps => exact hullLoop_fuel p0 ps f g _ _ out h hfg

/-- C153: the intersection of a ROM with a planar surface, both moved rigidly.  The function ends and is defined unless the clipping is (see C50); the normal is a unit vector orthogonal to the surface in the world; every
vertex of the intersection is, seen from above, on the surface; it is nearer to the plane of the surface than 2e-5; and it is in the convex hull of the ROM.
Missing for the full property: surfaces that have three aligned corners seen from above (in particular vertical ones), whose first triangle is degenerate or that are not planar. -/
theorem C153_surface_partial (rom env : Mesh ℝ) (rp ep : Reach.Transform ℝ) (hr : WellFormed rom) (he : WellFormed env) (ho : Reach.Orthogonal ep.rot) (hpl : Planar env) (hft : FirstTriangle env)
    (gp : GeneralBorder (world ep env)) :
    ∃ bound, ∀ fuel, bound ≤ fuel → ∀ pn inter, surfaceOf Proj.normalized fuel rom env rp ep = some (pn, some inter) →
      Vec3.normSq pn = 1 ∧ (∀ u ∈ world ep env, ∀ v ∈ world ep env, Vec3.dot pn (u - v) = 0) ∧ inter ≠ [] ∧
      ∀ v ∈ inter, (v.x, v.y) ∈ _root_.convexHull ℝ (xySet (world ep env)) ∧ (∀ u ∈ world ep env, |Vec3.dot pn (v - u)| < 2 / 100000) ∧
        (v.x, v.y, v.z) ∈ _root_.convexHull ℝ (xyzSet (world rp rom)) := by
  obtain ⟨pn, p0, hplane, hunit, hp0, horth⟩ := C153_plane Proj.normalized normalized_normalises env he hpl hft ep ho
  have hcr : ∀ t ∈ rom.tris, ∃ c, (getModel rp rom).corners t = some c := by
    intro t ht
    apply corners_isSome
    have := hr.2 t ht
    simpa [getModel] using this
  obtain ⟨tris, htris, hmem, -⟩ := mapM_some (getModel rp rom).corners rom.tris hcr
  obtain ⟨hull, h1, -, h3, -⟩ := C86_hull_partial (world ep env).length (world ep env) gp le_rfl
  obtain ⟨bound, hb⟩ := Node.C114_surface tris hull pn p0
  refine ⟨max bound (world ep env).length, fun fuel hf pn' inter h => ?_⟩
  have hfull := convexHull_fuel h1 (le_trans (le_max_right _ _) hf)
  have e : surfaceOf Proj.normalized fuel rom env rp ep = (Node.intersectionSurface fuel tris hull pn p0).map fun r => (pn, r) := by
    unfold surfaceOf
    have e2 : (getModel rp rom).triangles = some tris := htris
    have e3 : convertBVH fuel (getModel ep env) = some hull := hfull
    simp only [hplane, e2, e3]
  rw [e, Option.map_eq_some_iff] at h
  obtain ⟨r, hr', heq⟩ := h
  simp only [Prod.mk.injEq] at heq
  obtain ⟨rfl, rfl⟩ := heq
  obtain ⟨hne, hv⟩ := (hb fuel (le_trans (le_max_left _ _) hf)).1 inter hr'
  refine ⟨hunit, horth, hne, fun v hvm => ?_⟩
  obtain ⟨i1, i2, i3⟩ := hv v hvm
  refine ⟨?_, fun u hu => ?_, ?_⟩
  · obtain ⟨r, hc, hiff⟩ := C86_contains_partial (world ep env).length (world ep env) gp le_rfl v 1
    apply hiff.1
    have : contains (world ep env).length (world ep env) v 1 = some (containsHull hull v 1) := by rw [Geom.contains, h1]; rfl
    rw [this, Option.some.injEq] at hc
    rw [← hc]
    exact (containsHull_iff hull v 1 h3).2 i1
  · have hsplit : Vec3.dot pn (v - u) = Vec3.dot pn (v - p0) + Vec3.dot pn (p0 - u) := by
      simp only [Vec3.dot, Vec3.sub_x, Vec3.sub_y, Vec3.sub_z]; ring
    rw [hsplit, horth p0 hp0 u hu, add_zero]
    have : (2 : ℝ) * Geom.epsilon = 2 / 100000 := by unfold Geom.epsilon; ring
    rw [← this]
    exact i2
  · refine convexHull_min ?_ (convex_convexHull ℝ _) i3
    rintro ⟨qx, qy, qz⟩ ⟨t, ht, hedge⟩
    obtain ⟨a, ha, hac⟩ := hmem t ht
    obtain ⟨c1, c2, c3⟩ := corners_some hac
    have sub : ∀ w, w ∈ (getModel rp rom).vertices → (w.x, w.y, w.z) ∈ _root_.convexHull ℝ (xyzSet (world rp rom)) := fun w hw => subset_convexHull ℝ _ (by
      simp only [xyzSet, Set.mem_ofPred_eq]; exact ⟨w, hw, rfl⟩)
    have seg : ∀ a b : Vec3 ℝ, a ∈ (getModel rp rom).vertices → b ∈ (getModel rp rom).vertices → OnSegment a b ⟨qx, qy, qz⟩ → (qx, qy, qz) ∈ _root_.convexHull ℝ (xyzSet (world rp rom)) := by
      rintro a b ha hb ⟨s, s0, s1, hs⟩
      have := combo_mem (xyzSet (world rp rom)) _ _ s (sub a ha) (sub b hb) s0 s1
      have hx := congrArg Vec3.x hs
      have hy := congrArg Vec3.y hs
      have hz := congrArg Vec3.z hs
      simp only [Vec3.add_x, Vec3.add_y, Vec3.add_z, Vec3.smul_x, Vec3.smul_y, Vec3.smul_z, Vec3.sub_x, Vec3.sub_y, Vec3.sub_z] at hx hy hz
      have e : (qx, qy, qz) = (1 - s) • (a.x, a.y, a.z) + s • (b.x, b.y, b.z) := by
        simp only [Prod.smul_mk, Prod.mk_add_mk, smul_eq_mul, Prod.mk.injEq]
        refine ⟨?_, ?_, ?_⟩ <;> linarith
      rw [e]
      exact this
    rcases hedge with hedge | hedge | hedge
    · exact seg _ _ c1 c2 hedge
    · exact seg _ _ c2 c3 hedge
    · exact seg _ _ c3 c1 hedge

/-! ### examples for C153 -/

/-- a triangular step -/
def demoStep {K : Type _} [Field K] : Mesh K := ⟨[⟨0, 0, 0⟩, ⟨4, 0, 0⟩, ⟨0, 4, 0⟩], [(0, 1, 2)]⟩
/-- a tetrahedron standing on its tip -/
def demoRom {K : Type _} [Field K] : Mesh K := ⟨[⟨1, 1, -1⟩, ⟨2, 1, 1⟩, ⟨1, 2, 1⟩, ⟨0, 0, 1⟩], [(0, 1, 2), (0, 2, 3), (0, 3, 1), (1, 3, 2)]⟩
/-- the identity placement, at a height -/
def lifted {K : Type _} [Field K] (h : K) : Reach.Transform K := ⟨Mat3.one, ⟨0, 0, h⟩⟩

theorem lifted_orthogonal (h : ℝ) : Reach.Orthogonal (lifted h).rot := by
  intro u v
  simp [lifted, Mat3.one, Mat3.mulVec, Vec3.dot]

/-- the hypotheses of C153_surface_partial hold for the step, at any height (`GeneralPosition.border` gives the last one) -/
example (h : ℝ) : WellFormed (demoRom (K := ℝ)) ∧ WellFormed (demoStep (K := ℝ)) ∧ Planar (demoStep (K := ℝ)) ∧ FirstTriangle (demoStep (K := ℝ)) ∧ GeneralPosition (world (lifted h) demoStep) := by
  refine ⟨⟨by simp [demoRom], by simp [demoRom]⟩, ⟨by simp [demoStep], by simp [demoStep]⟩, ⟨⟨0, 0, 1⟩, by simp [Vec3.ext_iff], by simp [demoStep, Vec3.dot]⟩, ?_, ?_⟩
  · intro t ht c hc
    simp only [demoStep, List.head?_cons, Option.some.injEq] at ht
    subst ht
    simp only [Mesh.corners, demoStep, List.getElem?_cons_zero, List.getElem?_cons_succ, Option.some.injEq] at hc
    subst hc
    simp [Vec3.cross, Vec3.ext_iff]
  · have e : world (lifted h) (demoStep (K := ℝ)) = [⟨0, 0, h⟩, ⟨4, 0, h⟩, ⟨0, 4, h⟩] := by
      simp [world, demoStep, lifted, Reach.Transform.apply, Mat3.mulVec, Mat3.one, Vec3.dot, Vec3.ext_iff]
    rw [e]
    refine ⟨⟨⟨0, 0, h⟩, by simp, ⟨4, 0, h⟩, by simp, ⟨0, 4, h⟩, by simp, ?_, ?_, ?_⟩, ?_⟩
    · simp [Vec3.ext_iff]
    · simp [Vec3.ext_iff]
    · simp [Vec3.ext_iff]
    · intro a ha b hb c hc
      simp only [List.mem_cons, List.not_mem_nil, or_false] at ha hb hc
      unfold OnLine
      rcases ha with rfl | rfl | rfl <;> rcases hb with rfl | rfl | rfl <;> rcases hc with rfl | rfl | rfl <;>
      first
      | (intro h; exact absurd rfl h)
      | (intro _ h; exact absurd rfl h)
      | (intro _ _ h; exact absurd rfl h)
      | (intro _ _ _; norm_num)

/-- the intersection of the tetrahedron with the step, with rational numbers -/
example (normalize : Vec3 ℚ → Vec3 ℚ) (h : normalize ⟨0, 0, 16⟩ = ⟨0, 0, 1⟩) :
    surfaceOf normalize 50 demoRom demoStep (lifted 0) (lifted 0) = some (⟨0, 0, 1⟩, some [⟨1 / 2, 1 / 2, 0⟩, ⟨1, 3 / 2, 0⟩, ⟨3 / 2, 1, 0⟩, ⟨1 / 2, 1 / 2, 0⟩]) := by
  have e : computePlanEquation normalize (getModel (lifted 0) (demoStep (K := ℚ))) = some (⟨0, 0, 1⟩, ⟨0, 0, 0⟩) := by
    rw [← h]
    show some (normalize _, _) = _
    congr 2
    · congr 1
      decide +kernel
    · decide +kernel
  unfold surfaceOf
  simp only [e]
  decide +kernel

/-- the step with a degenerate triangle in front of its list of triangles -/
def degenerateStep {K : Type _} [Field K] : Mesh K := ⟨[⟨0, 0, 0⟩, ⟨4, 0, 0⟩, ⟨0, 4, 0⟩], [(0, 0, 1), (0, 1, 2)]⟩

/-- C153 is violated: if the first triangle of a (planar) surface is degenerate, the normal is null and the surface touches a ROM that is ten metres above it -/
theorem C153_degenerate_violated (normalize : Vec3 ℚ → Vec3 ℚ) (h : normalize 0 = 0) :
    WellFormed (degenerateStep (K := ℚ)) ∧ Planar (degenerateStep (K := ℚ)) ∧ ∃ inter, surfaceOf normalize 50 demoRom degenerateStep (lifted 10) (lifted 0) = some (0, some inter) ∧ inter ≠ [] ∧
      (∀ v ∈ inter, 9 ≤ v.z) ∧ ∀ v ∈ world (lifted 0) (degenerateStep (K := ℚ)), v.z = 0 := by
  refine ⟨⟨by simp [degenerateStep], by simp [degenerateStep]⟩, ⟨⟨0, 0, 1⟩, by simp [Vec3.ext_iff], by simp [degenerateStep, Vec3.dot]⟩, ?_⟩
  have e : computePlanEquation normalize (getModel (lifted 0) (degenerateStep (K := ℚ))) = some (0, ⟨0, 0, 0⟩) := by
    conv_rhs => rw [← h]
    show some (normalize _, _) = _
    congr 2
    · congr 1
      decide +kernel
    · decide +kernel
  unfold surfaceOf
  simp only [e]
  refine ⟨[⟨0, 0, 11⟩, ⟨1, 2, 11⟩, ⟨2, 1, 11⟩, ⟨0, 0, 11⟩], ?_, ?_, ?_, ?_⟩ <;> decide +kernel

/-- two steps in one mesh, the second one five metres higher -/
def twoSteps {K : Type _} [Field K] : Mesh K := ⟨[⟨0, 0, 0⟩, ⟨4, 0, 0⟩, ⟨0, 4, 0⟩, ⟨10, 0, 5⟩, ⟨14, 0, 5⟩, ⟨10, 4, 5⟩], [(0, 1, 2), (3, 4, 5)]⟩

/-- C153 is violated: only the plane of the first triangle counts.  The ROM crosses the second surface, five metres above the first one, but the intersection that is returned is empty;
five metres below it, where there is nothing, an intersection is found. -/
theorem C153_mesh_violated (normalize : Vec3 ℚ → Vec3 ℚ) (h : normalize ⟨0, 0, 16⟩ = ⟨0, 0, 1⟩) :
    surfaceOf normalize 50 demoRom twoSteps ⟨Mat3.one, ⟨10, 0, 5⟩⟩ (lifted 0) = some (⟨0, 0, 1⟩, none) ∧
    ∃ inter, surfaceOf normalize 50 demoRom twoSteps ⟨Mat3.one, ⟨10, 0, 0⟩⟩ (lifted 0) = some (⟨0, 0, 1⟩, some inter) ∧ inter ≠ [] ∧ ∀ v ∈ inter, v.z = 0 ∧ 10 ≤ v.x := by
  have e : computePlanEquation normalize (getModel (lifted 0) (twoSteps (K := ℚ))) = some (⟨0, 0, 1⟩, ⟨0, 0, 0⟩) := by
    rw [← h]
    show some (normalize _, _) = _
    congr 2
    · congr 1
      decide +kernel
    · decide +kernel
  unfold surfaceOf
  simp only [e]
  refine ⟨by decide +kernel, [⟨10 + 1 / 2, 1 / 2, 0⟩, ⟨11, 3 / 2, 0⟩, ⟨11 + 1 / 2, 1, 0⟩, ⟨10 + 1 / 2, 1 / 2, 0⟩], ?_, ?_, ?_⟩ <;> decide +kernel

/-! ### C154 -/

section clip
variable {K : Type _} [Field K] [LinearOrder K] [IsStrictOrderedRing K]

theorem lineSect_between (junk : K) (s e a b : Vec3 K) (h : (Geom.isLeft a b s < 0 ∧ 0 ≤ Geom.isLeft a b e) ∨ (0 ≤ Geom.isLeft a b s ∧ Geom.isLeft a b e < 0)) :
    ∃ τ : K, 0 ≤ τ ∧ τ ≤ 1 ∧ (Geom.lineSect junk s e a b).x = (1 - τ) * s.x + τ * e.x ∧ (Geom.lineSect junk s e a b).y = (1 - τ) * s.y + τ * e.y ∧ Geom.isLeft a b (Geom.lineSect junk s e a b) = 0 := by
  have hd : Geom.isLeft a b s - Geom.isLeft a b e ≠ 0 := by
    rcases h with ⟨h1, h2⟩ | ⟨h1, h2⟩
    · exact ne_of_lt (by linarith)
    · exact ne_of_gt (by linarith)
  obtain ⟨hx, hy⟩ := sect_xy s e a b hd
  refine ⟨_, ?_, ?_, hx, hy, ?_⟩
  · rcases h with ⟨h1, h2⟩ | ⟨h1, h2⟩
    · exact div_nonneg_of_nonpos h1.le (by linarith)
    · exact div_nonneg h1 (by linarith)
  · rcases h with ⟨h1, h2⟩ | ⟨h1, h2⟩
    · rw [div_le_one_of_neg (by linarith)]; linarith
    · rw [div_le_one (by linarith)]; linarith
  · rw [isLeft_combo a b s e _ _ hx hy]
    field_simp
    ring

/-- closed under points of segments (seen from above) -/
def Mixes (Q : Vec3 K → Prop) : Prop := ∀ s e p : Vec3 K, ∀ τ : K, Q s → Q e → 0 ≤ τ → τ ≤ 1 → p.x = (1 - τ) * s.x + τ * e.x → p.y = (1 - τ) * s.y + τ * e.y → Q p

theorem walk_spec (junk : K) (Q : Vec3 K → Prop) (hQ : Mixes Q) (a b e : Vec3 K) (l : List (Vec3 K)) (he : Q e) (hl : ∀ v ∈ l, Q v) : ∀ v ∈ walk junk a b e l, Q v ∧ Geom.isLeft a b v ≤ 0 := by
  induction l generalizing e with
  | nil => simp [walk]
  | cons s l ih =>
    have hs := hl s (by simp)
    have ih' := ih s hs (fun v hv => hl v (List.mem_cons_of_mem _ hv))
    intro v hv
    rw [walk] at hv
    split_ifs at hv with h1 h2 h3
    · rcases List.mem_cons.1 hv with rfl | hv
      · exact ⟨hs, h2.le⟩
      · exact ih' v hv
    · rcases List.mem_cons.1 hv with rfl | hv
      · obtain ⟨τ, t0, t1, tx, ty, tl⟩ := lineSect_between junk s e a b (Or.inr ⟨not_lt.1 h2, h1⟩)
        exact ⟨hQ s e _ τ hs he t0 t1 tx ty, tl.le⟩
      · exact ih' v hv
    · rcases List.mem_cons.1 hv with rfl | hv
      · obtain ⟨τ, t0, t1, tx, ty, tl⟩ := lineSect_between junk s e a b (Or.inl ⟨h3, not_lt.1 h1⟩)
        exact ⟨hQ s e _ τ hs he t0 t1 tx ty, tl.le⟩
      rcases List.mem_cons.1 hv with rfl | hv
      · exact ⟨hs, h3.le⟩
      · exact ih' v hv
    · exact ih' v hv

theorem mem_nextInput (out : List (Vec3 K)) (v : Vec3 K) : v ∈ nextInput out ↔ v ∈ out := by
  unfold nextInput
  split_ifs
  · rw [List.mem_append]
    constructor
    · rintro (h | h)
      · exact h
      · rw [Option.mem_toList] at h
        exact List.mem_of_head? h
    · exact Or.inl
  · rfl

theorem clipIterators_spec (junk : K) (clip poly input out : List (Vec3 K)) (Q : Vec3 K → Prop) (hQ : Mixes Q) (hp : ∀ v ∈ poly, Q v) (hi : ∀ v ∈ input, Q v) (h : clipIterators junk clip poly input = some out) :
    ∀ v ∈ out, Q v ∧ InsideCW clip v := by
  induction clip generalizing poly input Q with
  | nil =>
    simp only [clipIterators, Option.some.injEq] at h
    subst h
    exact fun v hv => ⟨hi v hv, fun a b hab => by obtain ⟨i, h, -⟩ := hab; simp at h⟩
  | cons a clip ih =>
    cases clip with
    | nil =>
      simp only [clipIterators, Option.some.injEq] at h
      subst h
      exact fun v hv => ⟨hi v hv, fun c d hcd => absurd hcd (edge_singleton _ _ _)⟩
    | cons b clip =>
      cases poly with
      | nil => simp [clipIterators] at h
      | cons e l =>
        rw [clipIterators] at h
        have hw := walk_spec junk Q hQ a b e l (hp e (by simp)) (fun v hv => hp v (List.mem_cons_of_mem _ hv))
        by_cases ho : walk junk a b e l = []
        · rw [if_pos ho, Option.some.injEq] at h
          subst h
          simp
        · rw [if_neg ho] at h
          have hn : ∀ v ∈ nextInput (walk junk a b e l), Q v ∧ Geom.isLeft a b v ≤ 0 := fun v hv => hw v ((mem_nextInput _ _).1 hv)
          have := ih _ _ (fun v => Q v ∧ Geom.isLeft a b v ≤ 0) (by
            intro u w p τ hu hw' h0 h1 hx hy
            refine ⟨hQ u w p τ hu.1 hw'.1 h0 h1 hx hy, ?_⟩
            rw [isLeft_combo a b u w p τ hx hy]
            have e1 := mul_nonneg (sub_nonneg.2 h1) (neg_nonneg.2 hu.2)
            have e2 := mul_nonneg h0 (neg_nonneg.2 hw'.2)
            linarith) hn hn h
          intro v hv
          obtain ⟨⟨q1, q2⟩, q3⟩ := this v hv
          refine ⟨q1, fun c d hcd => ?_⟩
          rcases (edge_cons _ _ _ _ _).1 hcd with ⟨rfl, rfl⟩ | hcd
          · rw [not_left_iff]; exact q2
          · exact q3 c d hcd

/-- C154, soundness: every vertex that the version with iterators returns is inside the (clockwise) clipping polygon and in the convex hull of the other one -/
theorem C154_sound (junk : K) (sub clip out : List (Vec3 K)) (h : compute2DIntersectionIt junk sub clip = some out) :
    ∀ v ∈ out, InsideCW clip v ∧ (v.x, v.y) ∈ _root_.convexHull K (xySet sub) := by
  unfold compute2DIntersectionIt at h
  split_ifs at h
  intro v hv
  have := clipIterators_spec junk clip sub [] out (fun v => (v.x, v.y) ∈ _root_.convexHull K (xySet sub)) (by
    intro s e p τ hs he h0 h1 hx hy
    have := combo_mem (xySet sub) _ _ τ hs he h0 h1
    simpa [hx, hy] using this) (fun v hv => subset_convexHull K _ (by simp only [xySet, Set.mem_ofPred_eq]; exact ⟨v, hv, rfl⟩)) (by simp) h v hv
  exact ⟨this.2, this.1⟩

theorem nextInput_ne {out : List (Vec3 K)} (h : out ≠ []) : nextInput out ≠ [] := by
  unfold nextInput
  split_ifs
  · intro h'; exact h (List.append_eq_nil_iff.1 h').1
  · exact h

/-- C154, definedness: unlike the version with vectors (C50) it is defined for all polygons that are not empty -/
theorem C154_defined (junk : K) (sub clip : List (Vec3 K)) (hs : sub ≠ []) (hc : clip ≠ []) : ∃ out, compute2DIntersectionIt junk sub clip = some out := by
  unfold compute2DIntersectionIt
  rw [if_neg hc]
  have key : ∀ (clip poly input : List (Vec3 K)), poly ≠ [] → ∃ out, clipIterators junk clip poly input = some out := by
    intro clip
    induction clip with
    | nil => exact fun poly input _ => ⟨input, by simp [clipIterators]⟩
    | cons a clip ih =>
      intro poly input hp
      cases clip with
      | nil => exact ⟨input, by simp [clipIterators]⟩
      | cons b clip =>
        cases poly with
        | nil => exact absurd rfl hp
        | cons e l =>
          rw [clipIterators]
          by_cases ho : walk junk a b e l = []
          · exact ⟨[], by rw [if_pos ho]⟩
          · rw [if_neg ho]
            exact ih _ _ (nextInput_ne ho)
  exact key clip sub [] hs

theorem walk_inside (junk : K) (a b e : Vec3 K) (l : List (Vec3 K)) (he : Geom.isLeft a b e < 0) (hl : ∀ v ∈ l, Geom.isLeft a b v < 0) : walk junk a b e l = l := by
  induction l generalizing e with
  | nil => rfl
  | cons s l ih =>
    have hs := hl s (by simp)
    rw [walk]
    rw [if_pos he, if_pos hs, ih s hs (fun v hv => hl v (List.mem_cons_of_mem _ hv))]

/-- C154: a closed polygon with at least four corners that is strictly inside of the clipping polygon is returned (from another corner on).
Missing for the full property: triangles, for which it is false (`C154_violated`), and polygons that are cut. -/
theorem C154_inside_partial (junk : K) (p0 : Vec3 K) (l clip : List (Vec3 K)) (hlast : l.getLast? = some p0) (hlen : 4 ≤ l.length) (hc : 2 ≤ clip.length)
    (hin : ∀ a b, Edge clip a b → ∀ v ∈ p0 :: l, StrictlyRight a b v) :
    ∃ out, compute2DIntersectionIt junk (p0 :: l) clip = some out ∧ Closed out ∧ out.length = l.length + 1 ∧ ∀ v, v ∈ out ↔ v ∈ p0 :: l := by
  unfold compute2DIntersectionIt
  rw [if_neg (by intro h; rw [h] at hc; simp at hc)]
  have key : ∀ (clip : List (Vec3 K)) (p0 : Vec3 K) (l input : List (Vec3 K)), l.getLast? = some p0 → 4 ≤ l.length → (∀ a b, Edge clip a b → ∀ v ∈ p0 :: l, StrictlyRight a b v) →
      (2 ≤ clip.length ∨ input = p0 :: l) → ∃ out, clipIterators junk clip (p0 :: l) input = some out ∧ Closed out ∧ out.length = l.length + 1 ∧ ∀ v, v ∈ out ↔ v ∈ p0 :: l := by
    intro clip
    induction clip with
    | nil =>
      intro p0 l input hlast hlen _ h
      rcases h with h | rfl
      · simp at h
      · refine ⟨_, by simp [clipIterators], ?_, by simp, fun v => Iff.rfl⟩
        unfold Closed
        cases l with
        | nil => simp at hlast
        | cons a l => rw [List.getLast?_cons_cons, hlast]; rfl
    | cons a clip ih =>
      intro p0 l input hlast hlen hin h
      cases clip with
      | nil =>
        rcases h with h | rfl
        · simp at h
        · refine ⟨_, by simp [clipIterators], ?_, by simp, fun v => Iff.rfl⟩
          unfold Closed
          cases l with
          | nil => simp at hlast
          | cons a l => rw [List.getLast?_cons_cons, hlast]; rfl
      | cons b clip =>
        have hright : ∀ v ∈ p0 :: l, Geom.isLeft a b v < 0 := by
          intro v hv
          have := hin a b ((edge_cons _ _ _ _ _).2 (Or.inl ⟨rfl, rfl⟩)) v hv
          unfold StrictlyRight at this
          unfold Geom.isLeft
          linarith
        have hw := walk_inside junk a b p0 l (hright p0 (by simp)) (fun v hv => hright v (List.mem_cons_of_mem _ hv))
        rw [clipIterators]
        simp only [hw]
        have hne : l ≠ [] := by intro h; rw [h] at hlen; simp at hlen
        rw [if_neg hne]
        cases l with
        | nil => exact absurd rfl hne
        | cons p1 l' =>
          have hnext : nextInput (p1 :: l') = p1 :: (l' ++ [p1]) := by
            unfold nextInput
            rw [if_pos (by simpa using hlen)]
            simp
          have hmem : ∀ v, v ∈ p1 :: (l' ++ [p1]) ↔ v ∈ p0 :: p1 :: l' := by
            intro v
            have h0 : p0 ∈ p1 :: l' := List.mem_of_getLast? hlast
            simp only [List.mem_cons, List.mem_append, List.not_mem_nil, or_false] at h0 ⊢
            constructor
            · tauto
            · rintro (rfl | h | h)
              · tauto
              · tauto
              · tauto
          rw [hnext]
          obtain ⟨out, h1, h2, h3, h4⟩ := ih p1 (l' ++ [p1]) (p1 :: (l' ++ [p1])) (by simp) (by simpa using hlen)
            (fun c d hcd v hv => hin c d ((edge_cons _ _ _ _ _).2 (Or.inr hcd)) v ((hmem v).1 hv)) (Or.inr rfl)
          refine ⟨out, h1, h2, by simpa using h3, fun v => (h4 v).trans (hmem v)⟩
  exact key clip p0 l [] hlast hlen hin (Or.inl hc)

/-- the hypotheses hold for a square inside of a square -/
example : compute2DIntersectionIt (0 : ℚ) [⟨1, 1, 0⟩, ⟨1, 2, 0⟩, ⟨2, 2, 0⟩, ⟨2, 1, 0⟩, ⟨1, 1, 0⟩] [⟨0, 0, 0⟩, ⟨0, 3, 0⟩, ⟨3, 3, 0⟩, ⟨3, 0, 0⟩, ⟨0, 0, 0⟩] =
    some [⟨1, 1, 0⟩, ⟨1, 2, 0⟩, ⟨2, 2, 0⟩, ⟨2, 1, 0⟩, ⟨1, 1, 0⟩] := by decide +kernel

/-- C154 is violated: a triangle inside of a square has no intersection with it, although the version with vectors finds the triangle -/
theorem C154_violated : compute2DIntersectionIt (0 : ℚ) [⟨1, 1, 0⟩, ⟨1, 2, 0⟩, ⟨2, 1, 0⟩, ⟨1, 1, 0⟩] [⟨0, 0, 0⟩, ⟨0, 3, 0⟩, ⟨3, 3, 0⟩, ⟨3, 0, 0⟩, ⟨0, 0, 0⟩] = some [] ∧
    Geom.compute2DIntersection (0 : ℚ) [⟨1, 1, 0⟩, ⟨1, 2, 0⟩, ⟨2, 1, 0⟩, ⟨1, 1, 0⟩] [⟨0, 0, 0⟩, ⟨0, 3, 0⟩, ⟨3, 3, 0⟩, ⟨3, 0, 0⟩, ⟨0, 0, 0⟩] =
      some [⟨1, 1, 0⟩, ⟨1, 2, 0⟩, ⟨2, 1, 0⟩, ⟨1, 1, 0⟩] := by decide +kernel

/-! ### C155 -/

/-- C155: for a polygon that turns counter-clockwise, and if the memory behind the normal holds its third coordinate, `centerPlanar` is the point of the plane `n · p + t = 0` above or below the
centroid (C87) of the polygon -/
theorem C155_partial (n3 : K) (points : List (Vec3 K)) (n : Vec3 K) (t : K) (hc : Closed points) (o : Vec3 K) (ha : 0 < fanArea o points) (h3 : n3 = n.z) (hz : n.z ≠ 0) :
    ∃ c, centerPlanar n3 points n t = some c ∧ c.x = fanMomentX o points / fanArea o points ∧ c.y = fanMomentY o points / fanArea o points ∧ Vec3.dot n c + t = 0 := by
  have hne : points ≠ [] := by intro h; rw [h] at ha; simp [fanArea] at ha
  obtain ⟨hx, hy, -⟩ := C87_centroid points hc o ha.ne'
  obtain ⟨a1, a2⟩ := C87_area points hc o
  have hA : Geom.area points = (centroid points).2 := by rw [a1, a2, abs_of_pos ha]
  refine ⟨_, by unfold centerPlanar; rw [if_neg hne], ?_, ?_, ?_⟩
  · rw [← hx, hA]; rfl
  · rw [← hy, hA]; rfl
  · simp only [Vec3.dot, h3]
    field_simp
    ring

/-- C155: for a polygon that turns clockwise, as those of `convexHull` do, both horizontal coordinates have the wrong sign -/
theorem C155_clockwise (n3 : K) (points : List (Vec3 K)) (n : Vec3 K) (t : K) (hc : Closed points) (o : Vec3 K) (ha : fanArea o points < 0) :
    ∃ c, centerPlanar n3 points n t = some c ∧ c.x = -(fanMomentX o points / fanArea o points) ∧ c.y = -(fanMomentY o points / fanArea o points) := by
  have hne : points ≠ [] := by intro h; rw [h] at ha; simp [fanArea] at ha
  obtain ⟨hx, hy, -⟩ := C87_centroid points hc o ha.ne
  obtain ⟨a1, a2⟩ := C87_area points hc o
  have hA : Geom.area points = -(centroid points).2 := by rw [a1, a2, abs_of_neg ha]
  refine ⟨_, by unfold centerPlanar; rw [if_neg hne], ?_, ?_⟩
  · rw [← hx, hA]
    show _ / (6 * -(centroid points).2) = -(_ / (6 * (centroid points).2))
    rw [mul_neg, div_neg]
  · rw [← hy, hA]
    show _ / (6 * -(centroid points).2) = -(_ / (6 * (centroid points).2))
    rw [mul_neg, div_neg]

/-- the hypotheses of C155_partial hold for a square -/
example : Closed [(⟨0, 0, 0⟩ : Vec3 ℚ), ⟨2, 0, 0⟩, ⟨2, 2, 0⟩, ⟨0, 2, 0⟩, ⟨0, 0, 0⟩] ∧ 0 < fanArea ⟨0, 0, 0⟩ [(⟨0, 0, 0⟩ : Vec3 ℚ), ⟨2, 0, 0⟩, ⟨2, 2, 0⟩, ⟨0, 2, 0⟩, ⟨0, 0, 0⟩] ∧
    centerPlanar 1 [(⟨0, 0, 0⟩ : Vec3 ℚ), ⟨2, 0, 0⟩, ⟨2, 2, 0⟩, ⟨0, 2, 0⟩, ⟨0, 0, 0⟩] ⟨0, 0, 1⟩ (-3) = some ⟨1, 1, 3⟩ := by
  unfold Closed
  decide +kernel

/-- C155 is violated: the hull of the corners of the square turns clockwise, the centre of the square [0, 2] x [0, 2] is then (-1, -1); and the height depends on the memory behind the normal -/
theorem C155_violated : ∃ hull : List (Vec3 ℚ), Geom.convexHull 20 [⟨0, 0, 0⟩, ⟨2, 0, 0⟩, ⟨2, 2, 0⟩, ⟨0, 2, 0⟩] = some hull ∧ centerPlanar 1 hull ⟨0, 0, 1⟩ 0 = some ⟨-1, -1, 0⟩ ∧
    ∀ n3 : ℚ, centerPlanar n3 [(⟨0, 0, 0⟩ : Vec3 ℚ), ⟨2, 0, 0⟩, ⟨2, 2, 0⟩, ⟨0, 2, 0⟩, ⟨0, 0, 0⟩] ⟨0, 0, 1⟩ (-3) = some ⟨1, 1, 3 / n3⟩ := by
  refine ⟨[⟨0, 0, 0⟩, ⟨0, 2, 0⟩, ⟨2, 2, 0⟩, ⟨2, 0, 0⟩, ⟨0, 0, 0⟩], by decide +kernel, by decide +kernel, fun n3 => ?_⟩
  have e : (centroidSums [(⟨0, 0, 0⟩ : Vec3 ℚ), ⟨2, 0, 0⟩, ⟨2, 2, 0⟩, ⟨0, 2, 0⟩, ⟨0, 0, 0⟩]) = (8, 24, 24) := by decide +kernel
  have e' : Geom.area [(⟨0, 0, 0⟩ : Vec3 ℚ), ⟨2, 0, 0⟩, ⟨2, 2, 0⟩, ⟨0, 2, 0⟩, ⟨0, 0, 0⟩] = 4 := by decide +kernel
  unfold centerPlanar
  rw [if_neg (by simp)]
  simp only [e, e']
  norm_num

/-- `projectZ` keeps what is seen from above and puts all points on the ground -/
theorem C155_projectZ (points : List (Vec3 K)) : (projectZ points).length = points.length ∧ ∀ i : ℕ, (projectZ points)[i]? = points[i]?.map fun p => (⟨p.x, p.y, 0⟩ : Vec3 K) := by
  refine ⟨by simp [projectZ], fun i => by simp [projectZ]⟩
end clip

end Surface
end Rbprm
