import Verif.Props.GeomHull
set_option linter.unusedSectionVars false
/-! # C87–C90: areas, centroids, sections by a plane, projection inside a polygon -/
namespace Rbprm
namespace Geom
open Support (Edge StrictlyLeft StrictlyRight Closed edge_cons edge_singleton edge_mem)
variable {K : Type _} [Field K] [LinearOrder K] [IsStrictOrderedRing K]

/-! ## Specification -/

/-- twice the signed area of the triangle `o a b`, seen from above -/
def twiceSigned (o a b : Vec3 K) : K := (a.x - o.x) * (b.y - o.y) - (b.x - o.x) * (a.y - o.y)
/-- the sum, over the edges of a polygon, of the signed areas of the triangles they make with `o` -/
def fanArea (o : Vec3 K) : List (Vec3 K) → K
  | a :: b :: l => twiceSigned o a b / 2 + fanArea o (b :: l)
  | _ => 0
/-- the sum of the first coordinates of the centroids of these triangles, weighted by their signed areas -/
def fanMomentX (o : Vec3 K) : List (Vec3 K) → K
  | a :: b :: l => twiceSigned o a b / 2 * ((o.x + a.x + b.x) / 3) + fanMomentX o (b :: l)
  | _ => 0
/-- the same for the second coordinates -/
def fanMomentY (o : Vec3 K) : List (Vec3 K) → K
  | a :: b :: l => twiceSigned o a b / 2 * ((o.y + a.y + b.y) / 3) + fanMomentY o (b :: l)
  | _ => 0
/-- the point is on the segment between `a` and `b` -/
def OnSegment (a b p : Vec3 K) : Prop := ∃ t : K, 0 ≤ t ∧ t ≤ 1 ∧ p = a + Vec3.smul t (b - a)

/-! ## C87 -/

theorem fanArea_shift (o : Vec3 K) (a : Vec3 K) (l : List (Vec3 K)) :
    2 * fanArea o (a :: l) = (centroidSums (a :: l)).1 - (o.x * ((a :: l).getLast (by simp)).y - o.y * ((a :: l).getLast (by simp)).x)
      + (o.x * a.y - o.y * a.x) := by
  induction l generalizing a with
  | nil => simp [fanArea, centroidSums]
  | cons b l ih =>
    have := ih b
    rw [fanArea, centroidSums, List.getLast_cons (by simp)]
    simp only [twiceSigned]
    linear_combination this

theorem momentX_shift (o : Vec3 K) (a : Vec3 K) (l : List (Vec3 K)) :
    6 * fanMomentX o (a :: l) = (centroidSums (a :: l)).2.1
      - (o.x * ((a :: l).getLast (by simp)).x * ((a :: l).getLast (by simp)).y - o.y * ((a :: l).getLast (by simp)).x * ((a :: l).getLast (by simp)).x
          + o.x * (o.x * ((a :: l).getLast (by simp)).y - o.y * ((a :: l).getLast (by simp)).x))
      + (o.x * a.x * a.y - o.y * a.x * a.x + o.x * (o.x * a.y - o.y * a.x)) := by
  induction l generalizing a with
  | nil => simp [fanMomentX, centroidSums]; ring
  | cons b l ih =>
    have := ih b
    rw [fanMomentX, centroidSums, List.getLast_cons (by simp)]
    simp only [twiceSigned]
    linear_combination this

theorem momentY_shift (o : Vec3 K) (a : Vec3 K) (l : List (Vec3 K)) :
    6 * fanMomentY o (a :: l) = (centroidSums (a :: l)).2.2
      - (o.x * ((a :: l).getLast (by simp)).y * ((a :: l).getLast (by simp)).y - o.y * ((a :: l).getLast (by simp)).x * ((a :: l).getLast (by simp)).y
          + o.y * (o.x * ((a :: l).getLast (by simp)).y - o.y * ((a :: l).getLast (by simp)).x))
      + (o.x * a.y * a.y - o.y * a.x * a.y + o.y * (o.x * a.y - o.y * a.x)) := by
  induction l generalizing a with
  | nil => simp [fanMomentY, centroidSums]; ring
  | cons b l ih =>
    have := ih b
    rw [fanMomentY, centroidSums, List.getLast_cons (by simp)]
    simp only [twiceSigned]
    linear_combination this

theorem closed_cons {a : Vec3 K} {l : List (Vec3 K)} (h : Closed (a :: l)) : (a :: l).getLast (by simp) = a := by
  unfold Closed at h
  rw [List.head?_cons, List.getLast?_eq_getLast_of_ne_nil (by simp), Option.some.injEq] at h
  exact h.symm

/-- the sum of `area` is the shoelace sum up to the two ends -/
theorem areaSum_eq (a b : Vec3 K) (l : List (Vec3 K)) :
    areaSum a (b :: l) = (centroidSums (a :: b :: l)).1 - a.x * b.y +
      ((b :: l).getLast (by simp)).x * (((a :: b :: l).dropLast).getLast (by simp)).y := by
  induction l generalizing a b with
  | nil => simp [areaSum, centroidSums]
  | cons c l ih =>
    have := ih b c
    have h1 : ((a :: b :: c :: l).dropLast).getLast (by simp) = ((b :: c :: l).dropLast).getLast (by simp) := by
      simp only [List.dropLast_cons_cons]
      rw [List.getLast_cons (by simp)]
    rw [areaSum, centroidSums, List.getLast_cons (by simp), h1]
    linear_combination this

/-- **C87**, area.  For a closed polygon, `area` is the absolute value of the sum of the signed areas of the triangles that its edges make with any point `o`, and
the area that `centroid` returns is that sum with its sign. -/
theorem C87_area (poly : List (Vec3 K)) (hc : Closed poly) (o : Vec3 K) :
    area poly = |fanArea o poly| ∧ (centroid poly).2 = fanArea o poly := by
  cases poly with
  | nil => simp [area, fanArea, centroid, centroidSums]
  | cons a l =>
    have hl := closed_cons hc
    have h1 := fanArea_shift o a l
    rw [hl] at h1
    have h2 : (centroidSums (a :: l)).1 / 2 = fanArea o (a :: l) := by linarith
    refine ⟨?_, h2⟩
    cases l with
    | nil => simp [area, fanArea]
    | cons b l =>
      rw [← h2]
      simp only [area]
      rw [List.getLast_cons (by simp)] at hl
      rw [areaSum_eq, hl]
      congr 1
      ring

/-- **C87**, centroid.  For a closed polygon whose area is not zero, `centroid` is the mean of the centroids of the triangles that the edges make with any point
`o`, weighted by their signed areas; its height is 0. -/
theorem C87_centroid (poly : List (Vec3 K)) (hc : Closed poly) (o : Vec3 K) (ha : fanArea o poly ≠ 0) :
    (centroid poly).1.x = fanMomentX o poly / fanArea o poly ∧ (centroid poly).1.y = fanMomentY o poly / fanArea o poly ∧ (centroid poly).1.z = 0 := by
  cases poly with
  | nil => simp [fanArea] at ha
  | cons a l =>
    have hl := closed_cons hc
    have h1 := (C87_area (a :: l) hc o).2
    have hx := momentX_shift o a l
    have hy := momentY_shift o a l
    rw [hl] at hx hy
    simp only [centroid] at h1 ⊢
    rw [h1]
    have hx' : (centroidSums (a :: l)).2.1 = 6 * fanMomentX o (a :: l) := by linarith
    have hy' : (centroidSums (a :: l)).2.2 = 6 * fanMomentY o (a :: l) := by linarith
    refine ⟨?_, ?_, trivial⟩
    · rw [hx', mul_div_mul_left _ _ (by norm_num)]
    · rw [hy', mul_div_mul_left _ _ (by norm_num)]

/-- weights of one sign: the moments are the area times a point of the convex set -/
theorem fan_combo (S : Set (K × K)) (hS : Convex K S) (o : Vec3 K) (a : Vec3 K) (l : List (Vec3 K))
    (hw : ∀ c d, Edge (a :: l) c d → twiceSigned o c d ≤ 0) (ho : (o.x, o.y) ∈ S) (hl : ∀ v ∈ a :: l, (v.x, v.y) ∈ S) :
    fanArea o (a :: l) ≤ 0 ∧ ∃ q ∈ S, fanMomentX o (a :: l) = fanArea o (a :: l) * q.1 ∧ fanMomentY o (a :: l) = fanArea o (a :: l) * q.2 := by
  induction l generalizing a with
  | nil => exact ⟨le_refl _, _, ho, by simp [fanMomentX, fanArea], by simp [fanMomentY, fanArea]⟩
  | cons b l ih =>
    obtain ⟨h0, q, hq, hx, hy⟩ := ih b (fun c d h => hw c d ((edge_cons _ _ _ _ _).2 (Or.inr h))) (fun v hv => hl v (List.mem_cons_of_mem _ hv))
    have hab := hw a b ((edge_cons _ _ _ _ _).2 (Or.inl ⟨rfl, rfl⟩))
    have ha := hl a (by simp)
    have hb := hl b (by simp)
    have hcen : ((o.x + a.x + b.x) / 3, (o.y + a.y + b.y) / 3) ∈ S := by
      have h1 : ((1 / 2 : K) • (o.x, o.y) + (1 / 2 : K) • (a.x, a.y)) ∈ S := hS ho ha (by norm_num) (by norm_num) (by norm_num)
      have h2 := hS h1 hb (show (0 : K) ≤ 2 / 3 by norm_num) (show (0 : K) ≤ 1 / 3 by norm_num) (by norm_num)
      convert h2 using 1
      ext <;> simp <;> ring
    simp only [fanArea, fanMomentX, fanMomentY]
    refine ⟨by linarith, ?_⟩
    by_cases hz : twiceSigned o a b / 2 + fanArea o (b :: l) = 0
    · have h1 : twiceSigned o a b = 0 := by linarith
      have h2 : fanArea o (b :: l) = 0 := by linarith
      refine ⟨q, hq, ?_, ?_⟩
      · rw [hx, h1, h2]; ring
      · rw [hy, h1, h2]; ring
    · have hneg : twiceSigned o a b / 2 + fanArea o (b :: l) < 0 := lt_of_le_of_ne (by linarith) hz
      have hmem := hS hcen hq (a := (twiceSigned o a b / 2) / (twiceSigned o a b / 2 + fanArea o (b :: l)))
        (b := fanArea o (b :: l) / (twiceSigned o a b / 2 + fanArea o (b :: l)))
        (div_nonneg_of_nonpos (by linarith) hneg.le) (div_nonneg_of_nonpos h0 hneg.le) (by rw [← add_div, div_self hz])
      refine ⟨_, hmem, ?_, ?_⟩
      · rw [hx]
        simp only [Prod.smul_mk, Prod.fst_add, Prod.smul_fst, smul_eq_mul]
        rw [mul_add, ← mul_assoc, ← mul_assoc, mul_div_cancel₀ _ hz, mul_div_cancel₀ _ hz]
      · rw [hy]
        simp only [Prod.smul_mk, Prod.snd_add, Prod.smul_snd, smul_eq_mul]
        rw [mul_add, ← mul_assoc, ← mul_assoc, mul_div_cancel₀ _ hz, mul_div_cancel₀ _ hz]

/-- **C87**, position.  For a closed polygon that is convex and traversed clockwise (what `convexHull` yields) and has an area, the centroid is in the convex hull of
the vertices, seen from above. -/
theorem C87_centroid_inside (poly : List (Vec3 K)) (hc : Closed poly) (hcw : ∀ v ∈ poly, InsideCW poly v) (ha : area poly ≠ 0) :
    ((centroid poly).1.x, (centroid poly).1.y) ∈ _root_.convexHull K (xySet poly) := by
  cases poly with
  | nil => simp [area] at ha
  | cons a l =>
    have hne : fanArea a (a :: l) ≠ 0 := by
      rw [(C87_area _ hc a).1] at ha
      exact abs_ne_zero.1 ha
    obtain ⟨hx, hy, -⟩ := C87_centroid (a :: l) hc a hne
    have hmem : ∀ v ∈ a :: l, (v.x, v.y) ∈ _root_.convexHull K (xySet (a :: l)) := fun v hv =>
      subset_convexHull K _ (by simp only [xySet, Set.mem_ofPred_eq]; exact ⟨v, hv, rfl⟩)
    obtain ⟨-, q, hq, h1, h2⟩ := fan_combo _ (convex_convexHull K (xySet (a :: l))) a a l (by
      intro c d hcd
      have := hcw a (by simp) c d hcd
      rw [not_left_iff] at this
      unfold isLeft at this
      unfold twiceSigned
      linarith) (hmem a (by simp)) hmem
    rw [hx, hy, h1, h2, mul_div_cancel_left₀ _ hne, mul_div_cancel_left₀ _ hne]
    exact hq

theorem sumPoints_mem (S : Set (K × K × K)) (hS : Convex K S) (l : List (Vec3 K)) (hl : ∀ v ∈ l, (v.x, v.y, v.z) ∈ S) (h : l ≠ []) :
    ((sumPoints l).x / l.length, (sumPoints l).y / l.length, (sumPoints l).z / l.length) ∈ S := by
  induction l with
  | nil => exact absurd rfl h
  | cons a l ih =>
    by_cases hn : l = []
    · subst hn
      simpa [sumPoints] using hl a (by simp)
    · have h1 := ih (fun v hv => hl v (List.mem_cons_of_mem _ hv)) hn
      have hpos : (0 : K) < l.length := by
        have := List.length_pos_of_ne_nil hn
        exact_mod_cast this
      have h2 := hS (hl a (by simp)) h1 (show (0 : K) ≤ 1 / (l.length + 1) by positivity) (show (0 : K) ≤ l.length / (l.length + 1) by positivity) (by field_simp; ring)
      convert h2 using 1
      simp only [sumPoints, List.length_cons, Nat.cast_add, Nat.cast_one, Prod.smul_mk, Prod.mk_add_mk, smul_eq_mul, Vec3.add_x, Vec3.add_y, Vec3.add_z]
      refine Prod.ext ?_ (Prod.ext ?_ ?_)
      all_goals
        simp only
        field_simp

/-- **C87**, `center`.  With at least two points, it is in the convex hull of the points without the last one (for a closed polygon: of its vertices). -/
theorem C87_center (l : List (Vec3 K)) (h : 2 ≤ l.length) :
    ((center l).x, (center l).y, (center l).z) ∈ _root_.convexHull K (xyzSet l.dropLast) := by
  have hne : l.dropLast ≠ [] := by
    intro h'
    have := congrArg List.length h'
    simp at this
    omega
  exact sumPoints_mem _ (convex_convexHull K _) l.dropLast (fun v hv =>
      subset_convexHull K _ (by simp only [xyzSet, Set.mem_ofPred_eq]; exact ⟨v, hv, rfl⟩)) hne

/-- a clockwise square of side 2: the hypotheses of C87 hold -/
def demoSquare : List (Vec3 ℚ) := [⟨0, 0, 0⟩, ⟨0, 2, 0⟩, ⟨2, 2, 0⟩, ⟨2, 0, 0⟩, ⟨0, 0, 0⟩]
example : Closed demoSquare ∧ area demoSquare = 4 ∧ centroid demoSquare = (⟨1, 1, 0⟩, -4) ∧ center demoSquare = ⟨1, 1, 0⟩ ∧ fanArea ⟨5, 7, 0⟩ demoSquare = -4 :=
  ⟨by simp [Closed, demoSquare], by decide +kernel, by decide +kernel, by decide +kernel, by decide +kernel⟩
example : ∀ v ∈ demoSquare, InsideCW demoSquare v := by
  intro v hv
  rw [← rightOfEdges_iff]
  revert v
  decide +kernel

/-! ## C88: sections by a plane -/

/-- **C88**, one segment.  Every returned point is on the segment and nearer to the plane (signed distances are multiplied by the length of the normal) than twice the
tolerance, and exactly on the plane when the segment is not almost parallel to it; and when the segment meets the plane the result is not empty. -/
theorem C88_segment (s0 s1 n p0 : Vec3 K) :
    (∀ p ∈ intersectSegmentPlane s0 s1 n p0, OnSegment s0 s1 p ∧ |Vec3.dot n (p - p0)| < 2 * epsilon ∧
      (epsilon ≤ |Vec3.dot n (s1 - s0)| → OnPlane n p0 p)) ∧
    ((∃ p, OnSegment s0 s1 p ∧ OnPlane n p0 p) → intersectSegmentPlane s0 s1 n p0 ≠ []) := by
  have heps : (0 : K) < epsilon := by unfold epsilon; norm_num
  have e1 : Vec3.dot n (s1 - p0) = Vec3.dot n (s1 - s0) + Vec3.dot n (s0 - p0) := by
    simp only [Vec3.dot, Vec3.sub_x, Vec3.sub_y, Vec3.sub_z]; ring
  have e2 : ∀ t : K, Vec3.dot n (s0 + Vec3.smul t (s1 - s0) - p0) = Vec3.dot n (s0 - p0) + t * Vec3.dot n (s1 - s0) := by
    intro t
    simp only [Vec3.dot, Vec3.sub_x, Vec3.sub_y, Vec3.sub_z, Vec3.add_x, Vec3.add_y, Vec3.add_z, Vec3.smul_x, Vec3.smul_y, Vec3.smul_z]; ring
  constructor
  · intro p hp
    unfold intersectSegmentPlane at hp
    simp only at hp
    split_ifs at hp with hd hn hdi
    · rw [abs_neg] at hn
      simp only [List.mem_cons, List.not_mem_nil, or_false] at hp
      rcases hp with rfl | rfl
      · refine ⟨⟨0, le_refl _, zero_le_one, ?_⟩, by linarith, fun h => absurd h (not_le.2 hd)⟩
        ext <;> simp
      · refine ⟨⟨1, zero_le_one, le_refl _, ?_⟩, ?_, fun h => absurd h (not_le.2 hd)⟩
        · ext <;> simp
        · rw [e1]
          have := abs_add_le (Vec3.dot n (p - s0)) (Vec3.dot n (s0 - p0))
          linarith
    · simp at hp
    · simp at hp
    · rw [List.mem_singleton] at hp
      push Not at hdi
      have hne : Vec3.dot n (s1 - s0) ≠ 0 := by
        intro h; rw [h, abs_zero] at hd; exact hd heps
      have hz : Vec3.dot n (p - p0) = 0 := by
        rw [hp, e2, div_mul_cancel₀ _ hne]; ring
      refine ⟨⟨_, hdi.1, hdi.2, hp⟩, ?_, fun _ => hz⟩
      rw [hz, abs_zero]; linarith
  · rintro ⟨p, ⟨t, h0, h1, rfl⟩, hp⟩
    unfold OnPlane at hp
    rw [e2] at hp
    unfold intersectSegmentPlane
    simp only
    split_ifs with hd hn hdi
    · simp
    · exfalso
      apply hn
      have : - Vec3.dot n (s0 - p0) = t * Vec3.dot n (s1 - s0) := by linarith
      rw [this, abs_mul, abs_of_nonneg h0]
      have := mul_le_mul_of_nonneg_right h1 (abs_nonneg (Vec3.dot n (s1 - s0)))
      linarith
    · exfalso
      have hne : Vec3.dot n (s1 - s0) ≠ 0 := by
        intro h; rw [h, abs_zero] at hd; exact hd heps
      have : - Vec3.dot n (s0 - p0) / Vec3.dot n (s1 - s0) = t := by
        rw [div_eq_iff hne]; linarith
      rw [this] at hdi
      rcases hdi with h | h <;> linarith
    · simp

/-- the point is on one of the edges of the triangle -/
def OnTriangleEdge (t : Vec3 K × Vec3 K × Vec3 K) (p : Vec3 K) : Prop :=
  OnSegment t.1 t.2.1 p ∨ OnSegment t.2.1 t.2.2 p ∨ OnSegment t.2.2 t.1 p

theorem mem_intersectTriPlane (t : Vec3 K × Vec3 K × Vec3 K) (n p0 p : Vec3 K) (h : p ∈ intersectTriPlane t n p0) :
    OnTriangleEdge t p ∧ |Vec3.dot n (p - p0)| < 2 * epsilon := by
  simp only [intersectTriPlane, List.mem_append] at h
  rcases h with (h | h) | h
  · obtain ⟨h1, h2, -⟩ := (C88_segment _ _ _ _).1 p h; exact ⟨Or.inl h1, h2⟩
  · obtain ⟨h1, h2, -⟩ := (C88_segment _ _ _ _).1 p h; exact ⟨Or.inr (Or.inl h1), h2⟩
  · obtain ⟨h1, h2, -⟩ := (C88_segment _ _ _ _).1 p h; exact ⟨Or.inr (Or.inr h1), h2⟩

/-- **C88**, a mesh.  `intersectPolygonePlane` ends; every vertex of the polygon it returns is on an edge of a triangle of the mesh and nearer to the plane than twice
the tolerance; the polygon is closed; and it is not empty when an edge of the mesh meets the plane. -/
theorem C88_mesh (tris : List (Vec3 K × Vec3 K × Vec3 K)) (n p0 : Vec3 K) :
    ∃ bound, ∀ fuel, bound ≤ fuel → ∃ out, intersectPolygonePlane fuel tris n p0 = some out ∧ Closed out ∧
      (∀ p ∈ out, (∃ t ∈ tris, OnTriangleEdge t p) ∧ |Vec3.dot n (p - p0)| < 2 * epsilon) ∧
      ((∃ t ∈ tris, ∃ p, OnTriangleEdge t p ∧ OnPlane n p0 p) → out ≠ []) := by
  refine ⟨2 * (tris.flatMap (fun t => intersectTriPlane t n p0)).length + 2, fun fuel hf => ?_⟩
  obtain ⟨out, h1, h2, h3, h4, h5⟩ := C85_hull fuel (tris.flatMap (fun t => intersectTriPlane t n p0)) hf
  have key : intersectPolygonePlane fuel tris n p0 = some out := by
    unfold intersectPolygonePlane
    simp only
    split_ifs with h
    · rw [h4 h]
    · exact h1
  refine ⟨out, key, h3, fun p hp => ?_, ?_⟩
  · obtain ⟨t, ht, hpt⟩ := List.mem_flatMap.1 (h2 p hp)
    obtain ⟨h, h'⟩ := mem_intersectTriPlane t n p0 p hpt
    exact ⟨⟨t, ht, h⟩, h'⟩
  · rintro ⟨t, ht, p, hp, hpl⟩ hout
    have hne : tris.flatMap (fun t => intersectTriPlane t n p0) ≠ [] := by
      intro h
      have := List.flatMap_eq_nil_iff.1 h t ht
      simp only [intersectTriPlane, List.append_eq_nil_iff] at this
      rcases hp with hp | hp | hp
      · exact (C88_segment _ _ _ _).2 ⟨p, hp, hpl⟩ this.1.1
      · exact (C88_segment _ _ _ _).2 ⟨p, hp, hpl⟩ this.1.2
      · exact (C88_segment _ _ _ _).2 ⟨p, hp, hpl⟩ this.2
    have := (h5 hne).1
    rw [hout] at this
    simp at this

/-- a triangle crossing the plane `z = 0` -/
example : intersectPolygonePlane 10 [((⟨0, 0, -1⟩ : Vec3 ℚ), ⟨2, 0, 1⟩, ⟨0, 2, 1⟩)] ⟨0, 0, 1⟩ ⟨0, 0, 0⟩ = some [⟨0, 1, 0⟩, ⟨1, 0, 0⟩, ⟨0, 1, 0⟩] := by
  decide +kernel

/-! ## C89: intersection of two triangles -/

/-- `insideTriangle` on a point of the plane of the triangle compares the three weights of the point, times the squared length of the normal, with the tolerance -/
theorem C89_inside (a b c p : Vec3 K) (α β γ : K) (hs : α + β + γ = 1)
    (hp : p = Vec3.smul α a + Vec3.smul β b + Vec3.smul γ c) :
    insideTriangle a b c p = true ↔
      -epsilon ≤ α * Vec3.normSq (Vec3.cross (b - a) (c - a)) ∧ -epsilon ≤ β * Vec3.normSq (Vec3.cross (b - a) (c - a)) ∧
        -epsilon ≤ γ * Vec3.normSq (Vec3.cross (b - a) (c - a)) := by
  have hα : α = 1 - β - γ := by linarith
  have h1 : Vec3.dot (Vec3.cross (b - p) (c - p)) (Vec3.cross (b - a) (c - a)) = α * Vec3.normSq (Vec3.cross (b - a) (c - a)) := by
    subst hp; subst hα
    simp only [Vec3.dot, Vec3.cross, Vec3.normSq, Vec3.sub_x, Vec3.sub_y, Vec3.sub_z, Vec3.add_x, Vec3.add_y, Vec3.add_z, Vec3.smul_x, Vec3.smul_y, Vec3.smul_z]
    ring
  have h2 : Vec3.dot (Vec3.cross (c - p) (a - p)) (Vec3.cross (b - a) (c - a)) = β * Vec3.normSq (Vec3.cross (b - a) (c - a)) := by
    subst hp; subst hα
    simp only [Vec3.dot, Vec3.cross, Vec3.normSq, Vec3.sub_x, Vec3.sub_y, Vec3.sub_z, Vec3.add_x, Vec3.add_y, Vec3.add_z, Vec3.smul_x, Vec3.smul_y, Vec3.smul_z]
    ring
  have h3 : Vec3.dot (Vec3.cross (a - p) (b - p)) (Vec3.cross (b - a) (c - a)) = γ * Vec3.normSq (Vec3.cross (b - a) (c - a)) := by
    subst hp; subst hα
    simp only [Vec3.dot, Vec3.cross, Vec3.normSq, Vec3.sub_x, Vec3.sub_y, Vec3.sub_z, Vec3.add_x, Vec3.add_y, Vec3.add_z, Vec3.smul_x, Vec3.smul_y, Vec3.smul_z]
    ring
  unfold insideTriangle
  simp only [h1, h2, h3]
  split_ifs with g1 g2 g3
  · simp only [Bool.false_eq_true, false_iff]; rintro ⟨h, -, -⟩; linarith
  · simp only [Bool.false_eq_true, false_iff]; rintro ⟨-, h, -⟩; linarith
  · simp only [Bool.false_eq_true, false_iff]; rintro ⟨-, -, h⟩; linarith
  · simp only [true_iff]; exact ⟨not_lt.1 g1, not_lt.1 g2, not_lt.1 g3⟩

/-- the crossing point of an edge whose ends are on both sides of the plane -/
theorem cross_edge (n2 : Vec3 K) (t2 sg : K) (hsg : sg = 1 ∨ sg = -1) (u v : Vec3 K) (hu : sg * distanceToPlaneOffset n2 t2 u < 0) (hv : 0 ≤ sg * distanceToPlaneOffset n2 t2 v) :
    let s := sg * distanceToPlaneOffset n2 t2 u / (sg * distanceToPlaneOffset n2 t2 u - sg * distanceToPlaneOffset n2 t2 v)
    OnSegment u v (u + Vec3.smul s (v - u)) ∧ Vec3.dot n2 (u + Vec3.smul s (v - u)) = t2 := by
  intro s
  have hd : sg * distanceToPlaneOffset n2 t2 u - sg * distanceToPlaneOffset n2 t2 v < 0 := by linarith
  have hs : s * (sg * distanceToPlaneOffset n2 t2 u - sg * distanceToPlaneOffset n2 t2 v) = sg * distanceToPlaneOffset n2 t2 u := div_mul_cancel₀ _ hd.ne
  refine ⟨⟨s, div_nonneg_of_nonpos hu.le hd.le, ?_, rfl⟩, ?_⟩
  · rw [div_le_one_of_neg hd]; linarith
  · have hs2 : s * (distanceToPlaneOffset n2 t2 u - distanceToPlaneOffset n2 t2 v) = distanceToPlaneOffset n2 t2 u := by
      rcases hsg with rfl | rfl <;> linarith
    simp only [distanceToPlaneOffset, Vec3.dot] at hs2
    simp only [Vec3.dot, Vec3.add_x, Vec3.add_y, Vec3.add_z, Vec3.smul_x, Vec3.smul_y, Vec3.smul_z, Vec3.sub_x, Vec3.sub_y, Vec3.sub_z]
    linarith

theorem OnSegment.symm {a b p : Vec3 K} (h : OnSegment a b p) : OnSegment b a p := by
  obtain ⟨t, h0, h1, rfl⟩ := h
  refine ⟨1 - t, by linarith, by linarith, ?_⟩
  ext <;> simp <;> ring

/-- the vertices `u` (on one side) and `v`, `w` (on the other side, or on the plane), in any order -/
def Split (tri : Vec3 K × Vec3 K × Vec3 K) (u v w : Vec3 K) : Prop :=
  tri = (u, v, w) ∨ tri = (v, u, w) ∨ tri = (v, w, u)

theorem edge_split {tri : Vec3 K × Vec3 K × Vec3 K} {u v w : Vec3 K} (h : Split tri u v w) (p : Vec3 K) :
    OnTriangleEdge tri p ↔ OnSegment u v p ∨ OnSegment u w p ∨ OnSegment v w p := by
  unfold OnTriangleEdge
  rcases h with rfl | rfl | rfl
  · simp only
    exact ⟨fun h => h.elim Or.inl (fun h => h.elim (fun h => Or.inr (Or.inr h)) (fun h => Or.inr (Or.inl h.symm))),
      fun h => h.elim Or.inl (fun h => h.elim (fun h => Or.inr (Or.inr h.symm)) (fun h => Or.inr (Or.inl h)))⟩
  · simp only
    exact ⟨fun h => h.elim (fun h => Or.inl h.symm) (fun h => h.elim (fun h => Or.inr (Or.inl h)) (fun h => Or.inr (Or.inr h.symm))),
      fun h => h.elim (fun h => Or.inl h.symm) (fun h => h.elim (fun h => Or.inr (Or.inl h)) (fun h => Or.inr (Or.inr h.symm)))⟩
  · simp only
    exact ⟨fun h => h.elim (fun h => Or.inr (Or.inr h)) (fun h => h.elim (fun h => Or.inr (Or.inl h.symm)) (fun h => Or.inl h)),
      fun h => h.elim (fun h => Or.inr (Or.inr h)) (fun h => h.elim (fun h => Or.inr (Or.inl h.symm)) (fun h => Or.inl h))⟩

/-- what the sorting of the vertices yields -/
theorem sort_eq (tri : Vec3 K × Vec3 K × Vec3 K) (d0 d1 d2 : K) (dneg dp0 dp1 : K) (pneg pp0 pp1 : Vec3 K)
    (h : [(d0, tri.1), (d1, tri.2.1), (d2, tri.2.2)].foldl sortVertex (some ((0, 0), [])) = some ((dneg, pneg), [(dp0, pp0), (dp1, pp1)])) :
    dneg < 0 ∧ 0 ≤ dp0 ∧ 0 ≤ dp1 ∧
      ((tri = (pneg, pp0, pp1) ∧ (d0, d1, d2) = (dneg, dp0, dp1)) ∨ (tri = (pp0, pneg, pp1) ∧ (d0, d1, d2) = (dp0, dneg, dp1)) ∨
        (tri = (pp0, pp1, pneg) ∧ (d0, d1, d2) = (dp0, dp1, dneg))) := by
  obtain ⟨a, b, c⟩ := tri
  simp only [List.foldl_cons, List.foldl_nil] at h
  by_cases h0 : d0 < 0 <;> by_cases h1 : d1 < 0 <;> by_cases h2 : d2 < 0 <;> simp [sortVertex, h0, h1, h2] at h
  · obtain ⟨⟨rfl, rfl⟩, ⟨rfl, rfl⟩, rfl, rfl⟩ := h
    exact ⟨h0, not_lt.1 h1, not_lt.1 h2, Or.inl ⟨rfl, rfl⟩⟩
  · obtain ⟨⟨rfl, rfl⟩, ⟨rfl, rfl⟩, rfl, rfl⟩ := h
    exact ⟨h1, not_lt.1 h0, not_lt.1 h2, Or.inr (Or.inl ⟨rfl, rfl⟩)⟩
  · obtain ⟨⟨rfl, rfl⟩, ⟨rfl, rfl⟩, rfl, rfl⟩ := h
    exact ⟨h2, not_lt.1 h0, not_lt.1 h1, Or.inr (Or.inr ⟨rfl, rfl⟩)⟩

/-- the two points are the crossings of the plane with the edges -/
theorem crossing_points (n2 : Vec3 K) (t2 sg : K) (hsg : sg = 1 ∨ sg = -1) {tri : Vec3 K × Vec3 K × Vec3 K} {u v w : Vec3 K} (hs : Split tri u v w)
    (hu : sg * distanceToPlaneOffset n2 t2 u < 0) (hv : 0 ≤ sg * distanceToPlaneOffset n2 t2 v) (hw : 0 ≤ sg * distanceToPlaneOffset n2 t2 w) :
    let i1 := u + Vec3.smul (sg * distanceToPlaneOffset n2 t2 u / (sg * distanceToPlaneOffset n2 t2 u - sg * distanceToPlaneOffset n2 t2 v)) (v - u)
    let i2 := u + Vec3.smul (sg * distanceToPlaneOffset n2 t2 u / (sg * distanceToPlaneOffset n2 t2 u - sg * distanceToPlaneOffset n2 t2 w)) (w - u)
    (∀ p, (p = i1 ∨ p = i2) → OnTriangleEdge tri p ∧ Vec3.dot n2 p = t2) ∧
      (0 < sg * distanceToPlaneOffset n2 t2 v → 0 < sg * distanceToPlaneOffset n2 t2 w → ∀ p, OnTriangleEdge tri p → Vec3.dot n2 p = t2 → p = i1 ∨ p = i2) := by
  intro i1 i2
  obtain ⟨a1, a2⟩ := cross_edge n2 t2 sg hsg u v hu hv
  obtain ⟨b1, b2⟩ := cross_edge n2 t2 sg hsg u w hu hw
  constructor
  · rintro p (rfl | rfl)
    · exact ⟨(edge_split hs _).2 (Or.inl a1), a2⟩
    · exact ⟨(edge_split hs _).2 (Or.inr (Or.inl b1)), b2⟩
  · intro hv' hw' p hp hpl
    have hdot : ∀ (a b : Vec3 K) (t : K), sg * (Vec3.dot n2 (a + Vec3.smul t (b - a)) - t2) =
        (1 - t) * (sg * distanceToPlaneOffset n2 t2 a) + t * (sg * distanceToPlaneOffset n2 t2 b) := by
      intro a b t
      simp only [distanceToPlaneOffset, Vec3.dot, Vec3.add_x, Vec3.add_y, Vec3.add_z, Vec3.smul_x, Vec3.smul_y, Vec3.smul_z, Vec3.sub_x, Vec3.sub_y, Vec3.sub_z]
      ring
    rcases (edge_split hs p).1 hp with ⟨t, h0, h1, rfl⟩ | ⟨t, h0, h1, rfl⟩ | ⟨t, h0, h1, rfl⟩
    · left
      have := hdot u v t
      rw [hpl, sub_self, mul_zero] at this
      have ht : t = sg * distanceToPlaneOffset n2 t2 u / (sg * distanceToPlaneOffset n2 t2 u - sg * distanceToPlaneOffset n2 t2 v) := by
        rw [eq_div_iff (by linarith)]; linarith
      simp only [i1, ← ht]
    · right
      have := hdot u w t
      rw [hpl, sub_self, mul_zero] at this
      have ht : t = sg * distanceToPlaneOffset n2 t2 u / (sg * distanceToPlaneOffset n2 t2 u - sg * distanceToPlaneOffset n2 t2 w) := by
        rw [eq_div_iff (by linarith)]; linarith
      simp only [i2, ← ht]
    · exfalso
      have := hdot v w t
      rw [hpl, sub_self, mul_zero] at this
      rcases eq_or_lt_of_le h0 with rfl | h0
      · linarith
      · have h3 := mul_pos h0 hw'
        have h4 := mul_nonneg (show 0 ≤ 1 - t by linarith) hv
        linarith

/-- **C89**, soundness.  Whenever the intersection of two triangles is defined, every point it returns is on an edge of the first triangle, on the plane of the second
one, and accepted by `insideTriangle` for the second one.
Missing from the full property: the function is not defined for every pair of triangles (`C89_violated`). -/
theorem C89_sound_partial (tri tri2 : Vec3 K × Vec3 K × Vec3 K) (n2 : Vec3 K) (t2 : K) (out : List (Vec3 K)) (h : intersectTriangles tri tri2 n2 t2 = some out) :
    ∀ p ∈ out, OnTriangleEdge tri p ∧ Vec3.dot n2 p = t2 ∧ insideTriangle tri2.1 tri2.2.1 tri2.2.2 p = true := by
  unfold intersectTriangles at h
  simp only at h
  generalize ((if distanceToPlaneOffset n2 t2 tri.1 < epsilon then 1 else 0) + (if distanceToPlaneOffset n2 t2 tri.2.1 < epsilon then 1 else 0) +
    (if distanceToPlaneOffset n2 t2 tri.2.2 < epsilon then 1 else 0)) = num at h
  obtain ⟨sg, hsg, hor1⟩ : ∃ sg : K, (if num = 2 then -1 else 1) = sg ∧ (sg = 1 ∨ sg = -1) := by
    by_cases hn : num = 2
    · exact ⟨-1, if_pos hn, Or.inr rfl⟩
    · exact ⟨1, if_neg hn, Or.inl rfl⟩
  rw [hsg] at h
  by_cases hnum : num > 2
  · rw [if_pos hnum] at h
    simp only [Option.some.injEq] at h; subst h; simp
  · rw [if_neg hnum] at h
    split at h
    · rename_i dneg pneg dp0 pp0 dp1 pp1 heq
      simp only [Option.some.injEq] at h
      obtain ⟨g1, g2, g3, g4⟩ := sort_eq tri _ _ _ _ _ _ _ _ _ heq
      intro p hp
      have hp' : insideTriangle tri2.1 tri2.2.1 tri2.2.2 p = true ∧
          (p = pneg + Vec3.smul (dneg / (dneg - dp0)) (pp0 - pneg) ∨ p = pneg + Vec3.smul (dneg / (dneg - dp1)) (pp1 - pneg)) := by
        rw [← h, List.mem_append] at hp
        rcases hp with hp | hp <;> split_ifs at hp with hi
        · rw [List.mem_singleton] at hp; rw [hp]; exact ⟨hi, Or.inl rfl⟩
        · simp at hp
        · rw [List.mem_singleton] at hp; rw [hp]; exact ⟨hi, Or.inr rfl⟩
        · simp at hp
      obtain ⟨hin, hor⟩ := hp'
      rcases g4 with ⟨rfl, hd⟩ | ⟨rfl, hd⟩ | ⟨rfl, hd⟩
      · simp only [Prod.mk.injEq] at hd
        obtain ⟨rfl, rfl, rfl⟩ := hd
        have := (crossing_points n2 t2 sg hor1 (tri := (pneg, pp0, pp1)) (Or.inl rfl) g1 g2 g3).1 p hor
        exact ⟨this.1, this.2, hin⟩
      · simp only [Prod.mk.injEq] at hd
        obtain ⟨rfl, rfl, rfl⟩ := hd
        have := (crossing_points n2 t2 sg hor1 (tri := (pp0, pneg, pp1)) (Or.inr (Or.inl rfl)) g1 g2 g3).1 p hor
        exact ⟨this.1, this.2, hin⟩
      · simp only [Prod.mk.injEq] at hd
        obtain ⟨rfl, rfl, rfl⟩ := hd
        have := (crossing_points n2 t2 sg hor1 (tri := (pp0, pp1, pneg)) (Or.inr (Or.inr rfl)) g1 g2 g3).1 p hor
        exact ⟨this.1, this.2, hin⟩
    · simp at h

/-- **C89**, completeness.  When the three vertices are at least the tolerance away from the plane, on both sides, the intersection is defined and consists exactly of
the points of the edges that are on the plane and accepted by `insideTriangle`. -/
theorem C89_complete_partial (tri tri2 : Vec3 K × Vec3 K × Vec3 K) (n2 : Vec3 K) (t2 : K)
    (h0 : epsilon ≤ |Vec3.dot n2 tri.1 - t2|) (h1 : epsilon ≤ |Vec3.dot n2 tri.2.1 - t2|) (h2 : epsilon ≤ |Vec3.dot n2 tri.2.2 - t2|)
    (hpos : t2 < Vec3.dot n2 tri.1 ∨ t2 < Vec3.dot n2 tri.2.1 ∨ t2 < Vec3.dot n2 tri.2.2)
    (hneg : Vec3.dot n2 tri.1 < t2 ∨ Vec3.dot n2 tri.2.1 < t2 ∨ Vec3.dot n2 tri.2.2 < t2) :
    ∃ out, intersectTriangles tri tri2 n2 t2 = some out ∧
      ∀ p, p ∈ out ↔ OnTriangleEdge tri p ∧ Vec3.dot n2 p = t2 ∧ insideTriangle tri2.1 tri2.2.1 tri2.2.2 p = true := by
  have heps : (0 : K) < epsilon := by unfold epsilon; norm_num
  obtain ⟨a, b, c⟩ := tri
  simp only at h0 h1 h2 hpos hneg
  have key : ∀ (d : K), epsilon ≤ |d| → (0 ≤ d ∧ epsilon ≤ d ∧ 0 < d ∧ ¬ d < epsilon ∧ ¬ d < 0 ∧ - d < 0) ∨ (d < 0 ∧ d < epsilon ∧ 0 < - d ∧ ¬ -d < 0) := by
    intro d hd
    rcases le_or_gt 0 d with h | h
    · rw [abs_of_nonneg h] at hd; exact Or.inl ⟨h, hd, by linarith, by linarith, by linarith, by linarith⟩
    · exact Or.inr ⟨h, by linarith, by linarith, by linarith⟩
  -- the sorted vertices and the points
  have fin : ∀ (sg : K) (hsg : sg = 1 ∨ sg = -1) (u v w : Vec3 K), Split (a, b, c) u v w →
      sg * distanceToPlaneOffset n2 t2 u < 0 → 0 < sg * distanceToPlaneOffset n2 t2 v → 0 < sg * distanceToPlaneOffset n2 t2 w →
      ∀ p, p ∈ ((if insideTriangle tri2.1 tri2.2.1 tri2.2.2 (u + Vec3.smul (sg * distanceToPlaneOffset n2 t2 u / (sg * distanceToPlaneOffset n2 t2 u - sg * distanceToPlaneOffset n2 t2 v)) (v - u)) then [u + Vec3.smul (sg * distanceToPlaneOffset n2 t2 u / (sg * distanceToPlaneOffset n2 t2 u - sg * distanceToPlaneOffset n2 t2 v)) (v - u)] else []) ++
        (if insideTriangle tri2.1 tri2.2.1 tri2.2.2 (u + Vec3.smul (sg * distanceToPlaneOffset n2 t2 u / (sg * distanceToPlaneOffset n2 t2 u - sg * distanceToPlaneOffset n2 t2 w)) (w - u)) then [u + Vec3.smul (sg * distanceToPlaneOffset n2 t2 u / (sg * distanceToPlaneOffset n2 t2 u - sg * distanceToPlaneOffset n2 t2 w)) (w - u)] else [])) ↔
        OnTriangleEdge (a, b, c) p ∧ Vec3.dot n2 p = t2 ∧ insideTriangle tri2.1 tri2.2.1 tri2.2.2 p = true := by
    intro sg hsg u v w hs hu hv hw p
    obtain ⟨c1, c2⟩ := crossing_points n2 t2 sg hsg hs hu hv.le hw.le
    rw [List.mem_append]
    constructor
    · rintro (hp | hp) <;> split_ifs at hp with hi
      · rw [List.mem_singleton] at hp
        have := c1 p (Or.inl hp)
        rw [← hp] at hi
        exact ⟨this.1, this.2, hi⟩
      · simp at hp
      · rw [List.mem_singleton] at hp
        have := c1 p (Or.inr hp)
        rw [← hp] at hi
        exact ⟨this.1, this.2, hi⟩
      · simp at hp
    · rintro ⟨hp, hpl, hi⟩
      rcases c2 hv hw p hp hpl with h | h
      · left; rw [← h, if_pos hi]; simp
      · right; rw [← h, if_pos hi]; simp
  have d0 := key _ h0
  have d1 := key _ h1
  have d2 := key _ h2
  change (0 ≤ distanceToPlaneOffset n2 t2 a ∧ _) ∨ (distanceToPlaneOffset n2 t2 a < 0 ∧ _) at d0
  change (0 ≤ distanceToPlaneOffset n2 t2 b ∧ _) ∨ (distanceToPlaneOffset n2 t2 b < 0 ∧ _) at d1
  change (0 ≤ distanceToPlaneOffset n2 t2 c ∧ _) ∨ (distanceToPlaneOffset n2 t2 c < 0 ∧ _) at d2
  have ea : Vec3.dot n2 a - t2 = distanceToPlaneOffset n2 t2 a := rfl
  have eb : Vec3.dot n2 b - t2 = distanceToPlaneOffset n2 t2 b := rfl
  have ec : Vec3.dot n2 c - t2 = distanceToPlaneOffset n2 t2 c := rfl
  rw [ea] at d0; rw [eb] at d1; rw [ec] at d2
  rcases d0 with ⟨a1, a2, a3, a4, a5, a6⟩ | ⟨a1, a2, a3, a4⟩ <;> rcases d1 with ⟨b1, b2, b3, b4, b5, b6⟩ | ⟨b1, b2, b3, b4⟩ <;>
    rcases d2 with ⟨c1, c2, c3, c4, c5, c6⟩ | ⟨c1, c2, c3, c4⟩
  · exfalso; rcases hneg with h | h | h <;> linarith
  · refine ⟨_, ?_, fin 1 (Or.inl rfl) c a b (Or.inr (Or.inr rfl)) (by linarith) (by linarith) (by linarith)⟩
    simp [intersectTriangles, sortVertex, a4, b4, c2, a5, b5, c1]
  · refine ⟨_, ?_, fin 1 (Or.inl rfl) b a c (Or.inr (Or.inl rfl)) (by linarith) (by linarith) (by linarith)⟩
    simp [intersectTriangles, sortVertex, a4, b2, c4, a5, b1, c5]
  · refine ⟨_, ?_, fin (-1) (Or.inr rfl) a b c (Or.inl rfl) (by linarith) (by linarith) (by linarith)⟩
    simp [intersectTriangles, sortVertex, a4, b2, c2, a3, not_lt.2 b1.le, not_lt.2 c1.le]
  · refine ⟨_, ?_, fin 1 (Or.inl rfl) a b c (Or.inl rfl) (by linarith) (by linarith) (by linarith)⟩
    simp [intersectTriangles, sortVertex, a2, b4, c4, a1, b5, c5]
  · refine ⟨_, ?_, fin (-1) (Or.inr rfl) b a c (Or.inr (Or.inl rfl)) (by linarith) (by linarith) (by linarith)⟩
    simp [intersectTriangles, sortVertex, a2, b4, c2, b3, not_lt.2 a1.le, not_lt.2 c1.le]
  · refine ⟨_, ?_, fin (-1) (Or.inr rfl) c a b (Or.inr (Or.inr rfl)) (by linarith) (by linarith) (by linarith)⟩
    simp [intersectTriangles, sortVertex, a2, b2, c4, c3, not_lt.2 a1.le, not_lt.2 b1.le]
  · exfalso; rcases hpos with h | h | h <;> linarith

/-- **C89 is violated**: a triangle wholly on the positive side of the plane, or with one vertex on it and the others on the positive side, makes the function write
after the end of a two-element array. -/
theorem C89_violated :
    intersectTriangles ((⟨0, 0, 1⟩ : Vec3 ℚ), ⟨1, 0, 1⟩, ⟨0, 1, 1⟩) (⟨0, 0, 0⟩, ⟨1, 0, 0⟩, ⟨0, 1, 0⟩) ⟨0, 0, 1⟩ 0 = none ∧
      intersectTriangles ((⟨0, 0, 0⟩ : Vec3 ℚ), ⟨1, 0, 1⟩, ⟨0, 1, 1⟩) (⟨0, 0, 0⟩, ⟨1, 0, 0⟩, ⟨0, 1, 0⟩) ⟨0, 0, 1⟩ 0 = none :=
  ⟨by decide +kernel, by decide +kernel⟩

/-- a defined case, with one of the two crossing points inside the second triangle -/
example : intersectTriangles ((⟨1/4, 1/4, -1⟩ : Vec3 ℚ), ⟨1/4, 1/4, 1⟩, ⟨5, 5, 1⟩) (⟨0, 0, 0⟩, ⟨1, 0, 0⟩, ⟨0, 1, 0⟩) ⟨0, 0, 1⟩ 0 = some [⟨1/4, 1/4, 0⟩] := by
  decide +kernel

/-- **C89**, exact domain.  The intersection of two triangles is defined exactly when the three vertices of the first triangle are below the plane of the second one
(within the tolerance), or one vertex is above by the tolerance and the two others are not above the plane at all, or one vertex is strictly below and the two
others are above by the tolerance.  Every other position, including a triangle that lies above the plane and never meets it, is undefined behaviour. -/
theorem C89_defined (tri tri2 : Vec3 K × Vec3 K × Vec3 K) (n2 : Vec3 K) (t2 : K) :
    (∃ out, intersectTriangles tri tri2 n2 t2 = some out) ↔
      (Vec3.dot n2 tri.1 - t2 < epsilon ∧ Vec3.dot n2 tri.2.1 - t2 < epsilon ∧ Vec3.dot n2 tri.2.2 - t2 < epsilon) ∨
      ∃ u v w, Split tri u v w ∧
        ((epsilon ≤ Vec3.dot n2 u - t2 ∧ Vec3.dot n2 v ≤ t2 ∧ Vec3.dot n2 w ≤ t2) ∨
          (Vec3.dot n2 u < t2 ∧ epsilon ≤ Vec3.dot n2 v - t2 ∧ epsilon ≤ Vec3.dot n2 w - t2)) := by
  have heps : (0 : K) < epsilon := by unfold epsilon; norm_num
  obtain ⟨a, b, c⟩ := tri
  have ea : ∀ a : Vec3 K, Vec3.dot n2 a - t2 = distanceToPlaneOffset n2 t2 a := fun _ => rfl
  have el : ∀ a : Vec3 K, Vec3.dot n2 a ≤ t2 ↔ distanceToPlaneOffset n2 t2 a ≤ 0 := fun _ => by rw [← ea, sub_nonpos]
  have eg : ∀ a : Vec3 K, Vec3.dot n2 a < t2 ↔ distanceToPlaneOffset n2 t2 a < 0 := fun _ => by rw [← ea, sub_neg]
  have hsp : ∀ P : Vec3 K → Vec3 K → Vec3 K → Prop, (∃ u v w, Split (a, b, c) u v w ∧ P u v w) ↔ P a b c ∨ P b a c ∨ P c a b := by
    intro P
    constructor
    · rintro ⟨u, v, w, h | h | h, hP⟩ <;> simp only [Prod.mk.injEq] at h <;> obtain ⟨rfl, rfl, rfl⟩ := h <;> tauto
    · rintro (h | h | h)
      · exact ⟨_, _, _, Or.inl rfl, h⟩
      · exact ⟨_, _, _, Or.inr (Or.inl rfl), h⟩
      · exact ⟨_, _, _, Or.inr (Or.inr rfl), h⟩
  rw [hsp]
  simp only [ea, el, eg]
  unfold intersectTriangles
  simp only
  generalize distanceToPlaneOffset n2 t2 a = x
  generalize distanceToPlaneOffset n2 t2 b = y
  generalize distanceToPlaneOffset n2 t2 c = z
  have key : ∀ d : K, (d < 0 ∧ d < epsilon ∧ ¬ 0 < d ∧ ¬ epsilon ≤ d ∧ d ≤ 0) ∨ (¬ d < 0 ∧ d < epsilon ∧ ¬ 0 < d ∧ ¬ epsilon ≤ d ∧ d ≤ 0) ∨
      (¬ d < 0 ∧ d < epsilon ∧ 0 < d ∧ ¬ epsilon ≤ d ∧ ¬ d ≤ 0) ∨ (¬ d < 0 ∧ ¬ d < epsilon ∧ 0 < d ∧ epsilon ≤ d ∧ ¬ d ≤ 0) := by
    intro d
    rcases lt_trichotomy d 0 with h | h | h
    · left; exact ⟨h, by linarith, by linarith, by linarith, h.le⟩
    · right; left; exact ⟨by linarith, by linarith, by linarith, by linarith, h.le⟩
    · rcases lt_or_ge d epsilon with g | g
      · right; right; left; exact ⟨by linarith, g, h, by linarith, by linarith⟩
      · right; right; right; exact ⟨by linarith, by linarith, h, g, by linarith⟩
  rcases key x with ⟨x1, x2, x3, x4, x5⟩ | ⟨x1, x2, x3, x4, x5⟩ | ⟨x1, x2, x3, x4, x5⟩ | ⟨x1, x2, x3, x4, x5⟩ <;>
  rcases key y with ⟨y1, y2, y3, y4, y5⟩ | ⟨y1, y2, y3, y4, y5⟩ | ⟨y1, y2, y3, y4, y5⟩ | ⟨y1, y2, y3, y4, y5⟩ <;>
  rcases key z with ⟨z1, z2, z3, z4, z5⟩ | ⟨z1, z2, z3, z4, z5⟩ | ⟨z1, z2, z3, z4, z5⟩ | ⟨z1, z2, z3, z4, z5⟩ <;>
  simp [sortVertex, x1, x2, x3, x4, x5, y1, y2, y3, y4, y5, z1, z2, z3, z4, z5]

/-- both sides of the domain: a triangle with one vertex below and two above, and one wholly above -/
example : (∃ out, intersectTriangles ((⟨1/4, 1/4, -1⟩ : Vec3 ℚ), ⟨1/4, 1/4, 1⟩, ⟨5, 5, 1⟩) (⟨0, 0, 0⟩, ⟨1, 0, 0⟩, ⟨0, 1, 0⟩) ⟨0, 0, 1⟩ 0 = some out) ∧
    ¬ ∃ out, intersectTriangles ((⟨0, 0, 1⟩ : Vec3 ℚ), ⟨1, 0, 1⟩, ⟨0, 1, 1⟩) (⟨0, 0, 0⟩, ⟨1, 0, 0⟩, ⟨0, 1, 0⟩) ⟨0, 0, 1⟩ 0 = some out := by
  refine ⟨⟨[⟨1/4, 1/4, 0⟩], by decide +kernel⟩, ?_⟩
  rw [C89_violated.1]; simp

/-! ## C90: projection inside a polygon -/

/-- seen from above, the point is on the line through `a` and `b` -/
def OnLineXY (a b p : Vec3 K) : Prop := (b.x - a.x) * (p.y - a.y) = (p.x - a.x) * (b.y - a.y)
/-- seen from above, the lines are parallel -/
def ParallelXY (a b c d : Vec3 K) : Prop := (b.x - a.x) * (d.y - c.y) = (b.y - a.y) * (d.x - c.x)
/-- the point is on the line through `a` and `b` -/
def OnLine3 (a b p : Vec3 K) : Prop := ∃ t : K, p = a + Vec3.smul t (b - a)

theorem lineSect3D_spec (s e a b : Vec3 K) (h : (s.x - e.x) * (a.y - b.y) - (s.y - e.y) * (a.x - b.x) ≠ 0) :
    OnLine3 s e (lineSect3D s e a b) ∧ OnLineXY a b (lineSect3D s e a b) := by
  have h3 : isLeft a b s - isLeft a b e ≠ 0 := by
    intro h'
    apply h
    unfold isLeft at h'
    linarith
  obtain ⟨hx, hy⟩ := sect_xy s e a b h3
  have hx' : (lineSect3D s e a b).x = (1 - isLeft a b s / (isLeft a b s - isLeft a b e)) * s.x + isLeft a b s / (isLeft a b s - isLeft a b e) * e.x := hx
  have hy' : (lineSect3D s e a b).y = (1 - isLeft a b s / (isLeft a b s - isLeft a b e)) * s.y + isLeft a b s / (isLeft a b s - isLeft a b e) * e.y := hy
  have hz' : (lineSect3D s e a b).z = (1 - isLeft a b s / (isLeft a b s - isLeft a b e)) * s.z + isLeft a b s / (isLeft a b s - isLeft a b e) * e.z := by
    unfold lineSect3D
    simp only [Vec3.sub_x, Vec3.sub_y, Vec3.sub_z, hx, hy]
    set τ := isLeft a b s / (isLeft a b s - isLeft a b e)
    split_ifs with g1 g2
    · have : ((1 - τ) * s.x + τ * e.x - s.x) / (e.x - s.x) = τ := by rw [div_eq_iff g1]; ring
      rw [this]; ring
    · have : ((1 - τ) * s.y + τ * e.y - s.y) / (e.y - s.y) = τ := by rw [div_eq_iff g2]; ring
      rw [this]; ring
    · exfalso
      apply h3
      rw [not_not] at g1 g2
      have hx : e.x = s.x := by linarith
      have hy : e.y = s.y := by linarith
      unfold isLeft; rw [hx, hy]; ring
  set τ := isLeft a b s / (isLeft a b s - isLeft a b e) with hτ
  refine ⟨⟨τ, ?_⟩, ?_⟩
  · ext
    · rw [hx']; simp; ring
    · rw [hy']; simp; ring
    · rw [hz']; simp; ring
  · have hz := isLeft_combo a b s e (lineSect3D s e a b) τ hx' hy'
    have h0 : τ * (isLeft a b s - isLeft a b e) = isLeft a b s := div_mul_cancel₀ _ h3
    have : isLeft a b (lineSect3D s e a b) = 0 := by rw [hz]; linarith
    unfold isLeft at this
    unfold OnLineXY
    linarith

theorem insideLoop_spec (q c point : Vec3 K) (l : List (Vec3 K)) (best : Option (Vec3 K × K))
    (r : Vec3 K) (d : K) (h : insideLoop q c point l best = some (r, d)) :
    (best = some (r, d) ∨ d = Vec3.distSq r point ∧ ∃ a b, Edge l a b ∧ ¬ ParallelXY q c a b ∧ r = lineSect3D q c a b) ∧
      (∀ r' d', best = some (r', d') → d ≤ d') ∧ ∀ a b, Edge l a b → ¬ ParallelXY q c a b → d ≤ Vec3.distSq (lineSect3D q c a b) point := by
  have hpar : ∀ e e' : Vec3 K, (q.x - c.x) * (e.y - e'.y) - (q.y - c.y) * (e.x - e'.x) = 0 ↔ ParallelXY q c e e' := by
    intro e e'
    unfold ParallelXY
    constructor <;> intro h <;> linarith
  induction l generalizing best with
  | nil =>
    simp only [insideLoop] at h
    subst h
    refine ⟨Or.inl rfl, fun r' d' h => ?_, fun a b h => ?_⟩
    · simp only [Option.some.injEq, Prod.mk.injEq] at h; exact h.2.le
    · obtain ⟨i, hi, -⟩ := h; simp at hi
  | cons e l ih =>
    cases l with
    | nil =>
      simp only [insideLoop] at h
      subst h
      refine ⟨Or.inl rfl, fun r' d' h => ?_, fun a b h => ?_⟩
      · simp only [Option.some.injEq, Prod.mk.injEq] at h; exact h.2.le
      · exact absurd h (edge_singleton _ _ _)
    | cons e' l =>
      simp only [insideLoop] at h
      by_cases hp : (q.x - c.x) * (e.y - e'.y) - (q.y - c.y) * (e.x - e'.x) = 0
      · rw [if_pos hp] at h
        obtain ⟨h1, h2, h3⟩ := ih _ h
        refine ⟨h1.imp_right fun ⟨h, a, b, h', h''⟩ => ⟨h, a, b, (edge_cons _ _ _ _ _).2 (Or.inr h'), h''⟩, h2, fun a b hab hn => ?_⟩
        rcases (edge_cons _ _ _ _ _).1 hab with ⟨rfl, rfl⟩ | hab
        · exact absurd ((hpar _ _).1 hp) hn
        · exact h3 a b hab hn
      · rw [if_neg hp] at h
        have hp' : ¬ ParallelXY q c e e' := fun h => hp ((hpar _ _).2 h)
        obtain ⟨h1, h2, h3⟩ := ih _ h
        cases best with
        | none =>
          simp only [Option.some.injEq, Prod.mk.injEq] at h1 h2
          refine ⟨Or.inr ?_, by simp, fun a b hab hn => ?_⟩
          · rcases h1 with ⟨h1, h4⟩ | ⟨h, a, b, h', h''⟩
            · rw [← h4, ← h1]; exact ⟨rfl, e, e', (edge_cons _ _ _ _ _).2 (Or.inl ⟨rfl, rfl⟩), hp', rfl⟩
            · exact ⟨h, a, b, (edge_cons _ _ _ _ _).2 (Or.inr h'), h''⟩
          · rcases (edge_cons _ _ _ _ _).1 hab with ⟨rfl, rfl⟩ | hab
            · exact h2 _ _ ⟨rfl, rfl⟩
            · exact h3 a b hab hn
        | some b0 =>
          obtain ⟨r0, d0⟩ := b0
          simp only at h1 h2
          by_cases hlt : Vec3.distSq (lineSect3D q c e e') point < d0
          · rw [if_pos hlt] at h1 h2
            simp only [Option.some.injEq, Prod.mk.injEq] at h1 h2 ⊢
            have hle := h2 _ _ ⟨rfl, rfl⟩
            refine ⟨Or.inr ?_, ?_, fun a b hab hn => ?_⟩
            · rcases h1 with ⟨h1, h4⟩ | ⟨h, a, b, h', h''⟩
              · rw [← h4, ← h1]; exact ⟨rfl, e, e', (edge_cons _ _ _ _ _).2 (Or.inl ⟨rfl, rfl⟩), hp', rfl⟩
              · exact ⟨h, a, b, (edge_cons _ _ _ _ _).2 (Or.inr h'), h''⟩
            · rintro r' d' ⟨rfl, rfl⟩; linarith
            · rcases (edge_cons _ _ _ _ _).1 hab with ⟨rfl, rfl⟩ | hab
              · exact hle
              · exact h3 a b hab hn
          · rw [if_neg hlt] at h1 h2
            simp only [Option.some.injEq, Prod.mk.injEq] at h1 h2 ⊢
            have hle := h2 _ _ ⟨rfl, rfl⟩
            refine ⟨?_, ?_, fun a b hab hn => ?_⟩
            · rcases h1 with h1 | ⟨h, a, b, h', h''⟩
              · exact Or.inl h1
              · exact Or.inr ⟨h, a, b, (edge_cons _ _ _ _ _).2 (Or.inr h'), h''⟩
            · rintro r' d' ⟨rfl, rfl⟩; exact hle
            · rcases (edge_cons _ _ _ _ _).1 hab with ⟨rfl, rfl⟩ | hab
              · linarith
              · exact h3 a b hab hn

theorem onPlane_line {n p0 a b p : Vec3 K} (ha : OnPlane n p0 a) (hb : OnPlane n p0 b) (h : OnLine3 a b p) : OnPlane n p0 p := by
  obtain ⟨t, rfl⟩ := h
  simp only [OnPlane, Vec3.dot, Vec3.add_x, Vec3.add_y, Vec3.add_z, Vec3.smul_x, Vec3.smul_y, Vec3.smul_z, Vec3.sub_x, Vec3.sub_y, Vec3.sub_z] at *
  linear_combination (1 - t) * ha + t * hb

theorem onPlane_center (n p0 : Vec3 K) (l : List (Vec3 K)) (h : 2 ≤ l.length) (hl : ∀ v ∈ l, OnPlane n p0 v) : OnPlane n p0 (center l) := by
  have hmem := C87_center l h
  have hconv : Convex K {q : K × K × K | n.x * (q.1 - p0.x) + n.y * (q.2.1 - p0.y) + n.z * (q.2.2 - p0.z) = 0} := by
    intro u hu v hv a b ha hb hab
    simp only [Set.mem_ofPred_eq, Prod.fst_add, Prod.snd_add, Prod.smul_fst, Prod.smul_snd, smul_eq_mul] at *
    have hb' : b = 1 - a := by linarith
    subst hb'
    linear_combination a * hu + (1 - a) * hv
  have := convexHull_min (s := xyzSet l.dropLast) (by
    rintro q ⟨v, hv, rfl⟩
    exact hl v (List.dropLast_subset _ hv)) hconv hmem
  exact this

/-- **C90**.  For a polygon of the plane and a unit normal, when `projectPointInsidePlan` yields a result: the distance it returns is the distance from the point to the
result; the result is on the plane; if the orthogonal projection is inside the polygon, the result is that projection; otherwise the result is where the line from the
projection to the centre of the polygon meets the line through an edge, and it is the nearest of these meeting points.
Missing from the full property: the result is not always inside the polygon (`C90_violated`). -/
theorem C90_project_partial (plan : List (Vec3 K)) (point n p0 r : Vec3 K) (d : K) (hn : Vec3.normSq n = 1) (hlen : 3 ≤ plan.length) (hplan : ∀ v ∈ plan, OnPlane n p0 v)
    (h : projectPointInsidePlan plan point n p0 = some (r, d)) :
    d = Vec3.distSq r point ∧ OnPlane n p0 r ∧
      (InsideCW plan (projectPointOnPlane point n p0) → r = projectPointOnPlane point n p0) ∧
      (¬ InsideCW plan (projectPointOnPlane point n p0) →
        (∃ a b, Edge plan a b ∧ OnLineXY a b r ∧ OnLine3 (projectPointOnPlane point n p0) (center plan) r) ∧
        ∀ a b q, Edge plan a b → ¬ ParallelXY (projectPointOnPlane point n p0) (center plan) a b →
          OnLineXY a b q → OnLine3 (projectPointOnPlane point n p0) (center plan) q → Vec3.distSq r point ≤ Vec3.distSq q point) := by
  have hproj := (C49_project point n p0 hn).1
  have hcen := onPlane_center n p0 plan (by omega) hplan
  unfold projectPointInsidePlan at h
  simp only at h
  by_cases hin : containsHull plan (projectPointOnPlane point n p0) (1 / 10000) = true
  · rw [if_pos hin] at h
    simp only [Option.some.injEq, Prod.mk.injEq] at h
    obtain ⟨rfl, rfl⟩ := h
    refine ⟨rfl, hproj, fun _ => rfl, fun h => absurd ((containsHull_iff _ _ _ hlen).1 hin) h⟩
  · rw [if_neg hin] at h
    obtain ⟨h1, -, h3⟩ := insideLoop_spec _ _ _ _ _ _ _ h
    rcases h1 with h1 | ⟨hd, a, b, hab, hnp, hr⟩
    · simp at h1
    · have hdet : ((projectPointOnPlane point n p0).x - (center plan).x) * (a.y - b.y) - ((projectPointOnPlane point n p0).y - (center plan).y) * (a.x - b.x) ≠ 0 := by
        intro h'; apply hnp; unfold ParallelXY; linarith
      obtain ⟨l1, l2⟩ := lineSect3D_spec _ _ _ _ hdet
      rw [← hr] at l1 l2
      refine ⟨hd, onPlane_line hproj hcen l1, fun h => absurd ((containsHull_iff _ _ _ hlen).2 h) hin, fun _ => ⟨⟨a, b, hab, l2, l1⟩, ?_⟩⟩
      intro a' b' q hab' hnp' hq1 hq2
      have hdet' : ((projectPointOnPlane point n p0).x - (center plan).x) * (a'.y - b'.y) - ((projectPointOnPlane point n p0).y - (center plan).y) * (a'.x - b'.x) ≠ 0 := by
        intro h'; apply hnp'; unfold ParallelXY; linarith
      obtain ⟨m1, m2⟩ := lineSect3D_spec _ _ _ _ hdet'
      have : q = lineSect3D (projectPointOnPlane point n p0) (center plan) a' b' := by
        obtain ⟨t, rfl⟩ := hq2
        obtain ⟨t', ht'⟩ := m1
        rw [ht'] at m2 ⊢
        have : t = t' := by
          unfold OnLineXY at hq1 m2
          simp only [Vec3.add_x, Vec3.add_y, Vec3.smul_x, Vec3.smul_y, Vec3.sub_x, Vec3.sub_y] at hq1 m2
          have hz : (t - t') * (((projectPointOnPlane point n p0).x - (center plan).x) * (a'.y - b'.y) - ((projectPointOnPlane point n p0).y - (center plan).y) * (a'.x - b'.x)) = 0 := by
            linear_combination m2 - hq1
          rcases mul_eq_zero.1 hz with h | h
          · linarith
          · exact absurd h hdet'
        rw [this]
      rw [this, ← hd]
      exact h3 a' b' hab' hnp'

/-- **C90 is violated**: for the square of corners (0,0) and (2,2) and the point (5, 24/5) of its plane, the result is not in the square. -/
theorem C90_violated :
    ∃ r d, projectPointInsidePlan demoSquare ⟨5, 24/5, 0⟩ ⟨0, 0, 1⟩ ⟨0, 0, 0⟩ = some (r, d) ∧ ¬ InsideCW demoSquare r := by
  refine ⟨⟨39/19, 2, 0⟩, 149156 / 9025, ?_, ?_⟩
  · decide +kernel
  · rw [← rightOfEdges_iff]; decide +kernel

/-- a point beside the square is projected on its boundary -/
example : projectPointInsidePlan demoSquare ⟨5, 1, 3⟩ ⟨0, 0, 1⟩ ⟨0, 0, 0⟩ = some (⟨2, 1, 0⟩, 18) := by decide +kernel

end Geom
end Rbprm
