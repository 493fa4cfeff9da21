import Verif.Model.Geom
import Verif.Props.Hull
import Mathlib.Analysis.Convex.Hull
import Mathlib.Tactic.Linarith
import Mathlib.Tactic.LinearCombination
import Mathlib.Tactic.Positivity
import Mathlib.Tactic.SplitIfs
import Mathlib.Tactic.NormNum
import Mathlib.Tactic.FieldSimp
set_option linter.unusedSectionVars false
/-! # C49, C50: planes and clipping -/
namespace Rbprm
namespace Geom
open Support (Edge StrictlyLeft StrictlyRight Closed edge_cons edge_singleton edge_mem)
variable {K : Type _} [Field K] [LinearOrder K] [IsStrictOrderedRing K]

/-! ## Specification -/

/-- the point is on the plane through `p0` with normal `n` -/
def OnPlane (n p0 p : Vec3 K) : Prop := Vec3.dot n (p - p0) = 0

/-- the horizontal positions of a list of points -/
def xySet (l : List (Vec3 K)) : Set (K × K) := {q | ∃ v ∈ l, q = (v.x, v.y)}
/-- the positions of a list of points -/
def xyzSet (l : List (Vec3 K)) : Set (K × K × K) := {q | ∃ v ∈ l, q = (v.x, v.y, v.z)}
/-- the point is inside a polygon that is traversed clockwise: right of every edge, or on it -/
def InsideCW (poly : List (Vec3 K)) (v : Vec3 K) : Prop := ∀ a b, Edge poly a b → ¬ StrictlyLeft a b v

/-! ## C49 -/

/-- **C49**.  With a unit normal, the projection is on the plane, no point of the plane is closer to the original point, and `distanceToPlane` returns its
distance. -/
theorem C49_project (point n p0 : Vec3 K) (hn : Vec3.normSq n = 1) :
    OnPlane n p0 (projectPointOnPlane point n p0) ∧
      (∀ q, OnPlane n p0 q → Vec3.distSq (projectPointOnPlane point n p0) point ≤ Vec3.distSq q point) ∧
      Vec3.distSq (projectPointOnPlane point n p0) point = distanceToPlane point n p0 * distanceToPlane point n p0 ∧
      0 ≤ distanceToPlane point n p0 := by
  simp only [Vec3.normSq, Vec3.dot] at hn
  have hd : Vec3.distSq (projectPointOnPlane point n p0) point = Vec3.dot (point - p0) n * Vec3.dot (point - p0) n := by
    simp only [projectPointOnPlane, Vec3.distSq, Vec3.normSq, Vec3.dot, Vec3.sub_x, Vec3.sub_y, Vec3.sub_z, Vec3.smul_x, Vec3.smul_y, Vec3.smul_z]
    linear_combination ((point.x - p0.x) * n.x + (point.y - p0.y) * n.y + (point.z - p0.z) * n.z) ^ 2 * hn
  refine ⟨?_, fun q hq => ?_, ?_, abs_nonneg _⟩
  · simp only [OnPlane, projectPointOnPlane, Vec3.dot, Vec3.sub_x, Vec3.sub_y, Vec3.sub_z, Vec3.smul_x, Vec3.smul_y, Vec3.smul_z]
    linear_combination (-((point.x - p0.x) * n.x + (point.y - p0.y) * n.y + (point.z - p0.z) * n.z)) * hn
  · rw [hd]
    simp only [OnPlane, Vec3.dot, Vec3.sub_x, Vec3.sub_y, Vec3.sub_z] at hq
    simp only [Vec3.distSq, Vec3.normSq, Vec3.dot, Vec3.sub_x, Vec3.sub_y, Vec3.sub_z]
    -- Cauchy–Schwarz with the unit normal
    have e : (point.x - p0.x) * n.x + (point.y - p0.y) * n.y + (point.z - p0.z) * n.z =
        -(n.x * (q.x - point.x) + n.y * (q.y - point.y) + n.z * (q.z - point.z)) := by linarith
    rw [e]
    have h1 := mul_self_nonneg (n.x * (q.y - point.y) - n.y * (q.x - point.x))
    have h2 := mul_self_nonneg (n.y * (q.z - point.z) - n.z * (q.y - point.y))
    have h3 := mul_self_nonneg (n.z * (q.x - point.x) - n.x * (q.z - point.z))
    have h4 : ((q.x - point.x) * (q.x - point.x) + (q.y - point.y) * (q.y - point.y) + (q.z - point.z) * (q.z - point.z)) *
        (n.x * n.x + n.y * n.y + n.z * n.z) = (q.x - point.x) * (q.x - point.x) + (q.y - point.y) * (q.y - point.y) + (q.z - point.z) * (q.z - point.z) := by
      rw [hn, mul_one]
    nlinarith
  · rw [hd, distanceToPlane, abs_mul_abs_self]

/-- **C49** (offset form).  `distanceToPlane(n, t, v)` is the signed distance to the plane `n · x = t`: its absolute value is the distance of C49. -/
theorem C49_signed (v n p0 : Vec3 K) :
    |distanceToPlaneOffset n (Vec3.dot n p0) v| = distanceToPlane v n p0 ∧
      (distanceToPlaneOffset n (Vec3.dot n p0) v = 0 ↔ OnPlane n p0 v) := by
  have : distanceToPlaneOffset n (Vec3.dot n p0) v = Vec3.dot (v - p0) n := by
    simp only [distanceToPlaneOffset, Vec3.dot, Vec3.sub_x, Vec3.sub_y, Vec3.sub_z]; ring
  refine ⟨by rw [this, distanceToPlane], ?_⟩
  rw [this, OnPlane]
  have : Vec3.dot (v - p0) n = Vec3.dot n (v - p0) := by simp only [Vec3.dot]; ring
  rw [this]

example : Vec3.normSq (⟨0, 3/5, 4/5⟩ : Vec3 ℚ) = 1 ∧ projectPointOnPlane (⟨1, 0, 5⟩ : Vec3 ℚ) ⟨0, 3/5, 4/5⟩ ⟨0, 0, 0⟩ = ⟨1, -12/5, 9/5⟩ :=
  ⟨by decide +kernel, by decide +kernel⟩

/-! ## C50 -/

theorem isLeft_eq (a b p : Vec3 K) : isLeft a b p = Support.isLeft a b p := rfl

theorem not_left_iff (a b p : Vec3 K) : ¬ StrictlyLeft a b p ↔ isLeft a b p ≤ 0 := by
  rw [Support.left_iff, not_lt, isLeft_eq]

/-- what the two intersection functions must satisfy: the result is on the segment, and on the line `a b` -/
def GoodSect (sect : Vec3 K → Vec3 K → Vec3 K → Vec3 K → Vec3 K) (full : Bool) : Prop :=
  ∀ s e a b : Vec3 K, ((isLeft a b s > 0 ∧ isLeft a b e ≤ 0) ∨ (isLeft a b s ≤ 0 ∧ isLeft a b e > 0)) →
    ∃ τ : K, 0 ≤ τ ∧ τ ≤ 1 ∧ (sect s e a b).x = (1 - τ) * s.x + τ * e.x ∧ (sect s e a b).y = (1 - τ) * s.y + τ * e.y ∧
      (full = true → (sect s e a b).z = (1 - τ) * s.z + τ * e.z) ∧ isLeft a b (sect s e a b) = 0

theorem sect_xy (s e a b : Vec3 K) (hd : isLeft a b s - isLeft a b e ≠ 0) :
    let d := (s.x - e.x) * (a.y - b.y) - (s.y - e.y) * (a.x - b.x)
    let pre := s.x * e.y - s.y * e.x
    let post := a.x * b.y - a.y * b.x
    let τ := isLeft a b s / (isLeft a b s - isLeft a b e)
    (pre * (a.x - b.x) - (s.x - e.x) * post) / d = (1 - τ) * s.x + τ * e.x ∧
      (pre * (a.y - b.y) - (s.y - e.y) * post) / d = (1 - τ) * s.y + τ * e.y := by
  have hdd : (s.x - e.x) * (a.y - b.y) - (s.y - e.y) * (a.x - b.x) = isLeft a b s - isLeft a b e := by
    unfold isLeft; ring
  simp only [hdd]
  set D := isLeft a b s - isLeft a b e with hD
  have hτ : isLeft a b s / D * D = isLeft a b s := div_mul_cancel₀ _ hd
  constructor
  · rw [div_eq_iff hd]
    have : ((1 - isLeft a b s / D) * s.x + isLeft a b s / D * e.x) * D = s.x * D - (s.x - e.x) * (isLeft a b s / D * D) := by ring
    rw [this, hτ, hD]; unfold isLeft; ring
  · rw [div_eq_iff hd]
    have : ((1 - isLeft a b s / D) * s.y + isLeft a b s / D * e.y) * D = s.y * D - (s.y - e.y) * (isLeft a b s / D * D) := by ring
    rw [this, hτ, hD]; unfold isLeft; ring

theorem isLeft_combo (a b s e p : Vec3 K) (τ : K) (hx : p.x = (1 - τ) * s.x + τ * e.x) (hy : p.y = (1 - τ) * s.y + τ * e.y) :
    isLeft a b p = (1 - τ) * isLeft a b s + τ * isLeft a b e := by
  unfold isLeft; rw [hx, hy]; ring

theorem tau_range {l r : K} (h : (l > 0 ∧ r ≤ 0) ∨ (l ≤ 0 ∧ r > 0)) : 0 ≤ l / (l - r) ∧ l / (l - r) ≤ 1 ∧ l - r ≠ 0 ∧ (1 - l / (l - r)) * l + l / (l - r) * r = 0 := by
  have hne : l - r ≠ 0 := by rcases h with h | h <;> intro h0 <;> linarith [h.1, h.2]
  refine ⟨?_, ?_, hne, ?_⟩
  · rcases h with h | h
    · exact div_nonneg h.1.le (by linarith [h.1, h.2])
    · exact div_nonneg_of_nonpos h.1 (by linarith [h.1, h.2])
  · rcases h with h | h
    · rw [div_le_one (by linarith [h.1, h.2])]; linarith [h.2]
    · rw [div_le_one_of_neg (by linarith [h.1, h.2])]; linarith [h.2]
  · have : l / (l - r) * (l - r) = l := div_mul_cancel₀ _ hne
    linear_combination -this

theorem lineSect_good (junk : K) : GoodSect (lineSect junk) false := by
  intro s e a b h
  obtain ⟨h1, h2, h3, h4⟩ := tau_range h
  obtain ⟨hx, hy⟩ := sect_xy s e a b h3
  refine ⟨_, h1, h2, hx, hy, by simp, ?_⟩
  rw [isLeft_combo a b s e _ _ hx hy, h4]

theorem lineSect3D_good : GoodSect (K := K) lineSect3D true := by
  intro s e a b h
  obtain ⟨h1, h2, h3, h4⟩ := tau_range h
  obtain ⟨hx, hy⟩ := sect_xy s e a b h3
  refine ⟨_, h1, h2, hx, hy, fun _ => ?_, ?_⟩
  · unfold lineSect3D
    simp only [Vec3.sub_x, Vec3.sub_y, Vec3.sub_z, hx, hy]
    set τ := isLeft a b s / (isLeft a b s - isLeft a b e)
    split_ifs with g1 g2
    · have : ((1 - τ) * s.x + τ * e.x - s.x) / (e.x - s.x) = τ := by rw [div_eq_iff g1]; ring
      rw [this]; ring
    · have : ((1 - τ) * s.y + τ * e.y - s.y) / (e.y - s.y) = τ := by rw [div_eq_iff g2]; ring
      rw [this]; ring
    · exfalso
      apply h3
      rw [not_not] at g1 g2
      have hx : e.x = s.x := by linarith
      have hy : e.y = s.y := by linarith
      unfold isLeft; rw [hx, hy]; ring
  · rw [isLeft_combo a b s e _ _ hx hy, h4]

/-- one clipping edge: every output vertex is right of the edge, and a property that holds for the vertices and passes to points of segments holds for it -/
theorem clipEdge_spec (sect : Vec3 K → Vec3 K → Vec3 K → Vec3 K → Vec3 K) (full : Bool) (hg : GoodSect sect full) (Q : Vec3 K → Prop)
    (hQ : ∀ s e p : Vec3 K, ∀ τ : K, Q s → Q e → 0 ≤ τ → τ ≤ 1 → p.x = (1 - τ) * s.x + τ * e.x → p.y = (1 - τ) * s.y + τ * e.y →
      (full = true → p.z = (1 - τ) * s.z + τ * e.z) → Q p)
    (a b : Vec3 K) (s : Vec3 K) (l : List (Vec3 K)) (hs : Q s) (hl : ∀ v ∈ l, Q v) :
    ∀ v ∈ clipEdge sect a b s l, Q v ∧ isLeft a b v ≤ 0 := by
  induction l generalizing s with
  | nil => simp [clipEdge]
  | cons e l ih =>
    have he := hl e (by simp)
    have ih' := ih e he (fun v hv => hl v (List.mem_cons_of_mem _ hv))
    intro v hv
    rw [clipEdge] at hv
    split_ifs at hv with h1 h2 h3
    · rcases List.mem_cons.1 hv with rfl | hv
      · obtain ⟨τ, t1, t2, t3, t4, t5, t6⟩ := hg s e a b (Or.inl ⟨h2, h1⟩)
        exact ⟨hQ s e _ τ hs he t1 t2 t3 t4 t5, t6.le⟩
      rcases List.mem_cons.1 hv with rfl | hv
      · exact ⟨he, h1⟩
      · exact ih' v hv
    · rcases List.mem_cons.1 hv with rfl | hv
      · exact ⟨he, h1⟩
      · exact ih' v hv
    · rcases List.mem_cons.1 hv with rfl | hv
      · obtain ⟨τ, t1, t2, t3, t4, t5, t6⟩ := hg s e a b (Or.inr ⟨h3, not_le.1 h1⟩)
        exact ⟨hQ s e _ τ hs he t1 t2 t3 t4 t5, t6.le⟩
      · exact ih' v hv
    · exact ih' v hv

theorem clipLoop_spec (sect : Vec3 K → Vec3 K → Vec3 K → Vec3 K → Vec3 K) (full : Bool) (hg : GoodSect sect full) (Q : Vec3 K → Prop)
    (hQ : ∀ s e p : Vec3 K, ∀ τ : K, Q s → Q e → 0 ≤ τ → τ ≤ 1 → p.x = (1 - τ) * s.x + τ * e.x → p.y = (1 - τ) * s.y + τ * e.y →
      (full = true → p.z = (1 - τ) * s.z + τ * e.z) → Q p)
    (clip input out : List (Vec3 K)) (hin : ∀ v ∈ input, Q v) (h : clipLoop sect clip input = some out) :
    ∀ v ∈ out, Q v ∧ InsideCW clip v := by
  induction clip generalizing input Q with
  | nil =>
    simp only [clipLoop, Option.some.injEq] at h
    subst h
    exact fun v hv => ⟨hin v hv, fun a b hab => by obtain ⟨i, h, -⟩ := hab; simp at h⟩
  | cons a clip ih =>
    cases clip with
    | nil =>
      simp only [clipLoop, Option.some.injEq] at h
      subst h
      exact fun v hv => ⟨hin v hv, fun c d hcd => absurd hcd (edge_singleton _ _ _)⟩
    | cons b clip =>
      rw [clipLoop] at h
      cases hlast : input.getLast? with
      | none => rw [hlast] at h; simp at h
      | some s =>
        rw [hlast] at h
        simp only at h
        have hs : Q s := hin s (List.mem_of_getLast? hlast)
        have hstep := clipEdge_spec sect full hg Q hQ a b s input hs hin
        have := ih (fun v => Q v ∧ isLeft a b v ≤ 0) (by
          intro u e p τ hu he h0 h1 hx hy hz
          refine ⟨hQ u e p τ hu.1 he.1 h0 h1 hx hy hz, ?_⟩
          rw [isLeft_combo a b u e p τ hx hy]
          have e1 := mul_nonneg (sub_nonneg.2 h1) (neg_nonneg.2 hu.2)
          have e2 := mul_nonneg h0 (neg_nonneg.2 he.2)
          linarith) _ hstep h
        intro v hv
        obtain ⟨⟨q1, q2⟩, q3⟩ := this v hv
        refine ⟨q1, fun c d hcd => ?_⟩
        rcases (edge_cons _ _ _ _ _).1 hcd with ⟨rfl, rfl⟩ | hcd
        · rw [not_left_iff]; exact q2
        · exact q3 c d hcd

theorem combo_mem {E : Type _} [AddCommGroup E] [Module K E] (S : Set E) (s e : E) (τ : K) (hs : s ∈ _root_.convexHull K S) (he : e ∈ _root_.convexHull K S)
    (h0 : 0 ≤ τ) (h1 : τ ≤ 1) : (1 - τ) • s + τ • e ∈ _root_.convexHull K S :=
  (convex_convexHull K S) hs he (by linarith) h0 (by ring)

/-- **C50** (two dimensions).  Every vertex that is returned is inside the (clockwise) clipping polygon and inside the convex hull of the other polygon. -/
theorem C50_clip2D (junk : K) (sub clip out : List (Vec3 K)) (h : compute2DIntersection junk sub clip = some out) :
    ∀ v ∈ out, InsideCW clip v ∧ (v.x, v.y) ∈ _root_.convexHull K (xySet sub) := by
  unfold compute2DIntersection at h
  split_ifs at h
  intro v hv
  have := clipLoop_spec (lineSect junk) false (lineSect_good junk) (fun v => (v.x, v.y) ∈ _root_.convexHull K (xySet sub)) (by
    intro s e p τ hs he h0 h1 hx hy _
    have := combo_mem (xySet sub) _ _ τ hs he h0 h1
    simpa [hx, hy] using this) clip sub out (fun v hv => subset_convexHull K _ (by simp only [xySet, Set.mem_ofPred_eq]; exact ⟨v, hv, rfl⟩)) h v hv
  exact ⟨this.2, this.1⟩

theorem hullLoop_mem (p0 : Vec3 K) (ps : List (Vec3 K)) (fuel : ℕ) (res : List (Vec3 K)) (p : Vec3 K) (out : List (Vec3 K))
    (h : hullLoop p0 ps fuel res p = some out) (hres : ∀ v ∈ res ++ [p], v ∈ p0 :: ps) : ∀ v ∈ out, v ∈ p0 :: ps := by
  have hwrap : ∀ (res : List (Vec3 K)) (p e : Vec3 K) (l : List (Vec3 K)), wrapFrom res p e l ∈ e :: l := by
    intro res p e l
    induction l generalizing e with
    | nil => simp [wrapFrom]
    | cons c l ih =>
      rw [wrapFrom]
      have h1 := ih c
      have h2 := ih e
      have h2' : wrapFrom res p e l ∈ e :: c :: l := by
        rcases List.mem_cons.1 h2 with h | h
        · rw [h]; simp
        · exact List.mem_cons_of_mem _ (List.mem_cons_of_mem _ h)
      split_ifs
      · exact List.mem_cons_of_mem _ h1
      · exact h2'
      · exact h2'
  induction fuel generalizing res p with
  | zero => simp [hullLoop] at h
  | succ fuel ih =>
    rw [hullLoop] at h
    have hs : ∀ v ∈ res ++ [p] ++ [wrapFrom res p p0 ps], v ∈ p0 :: ps := by
      intro v hv
      rcases List.mem_append.1 hv with hv | hv
      · exact hres v hv
      · simp at hv; subst hv; exact hwrap _ _ _ _
    split_ifs at h with hc
    · exact ih _ _ h hs
    · cases h; exact hs

/-- **C50** (three dimensions).  Every vertex that is returned is, seen from above, inside the clipping polygon, and is in the convex hull of the other polygon. -/
theorem C50_clip3D (fuel : ℕ) (sub clip out : List (Vec3 K)) (h : compute3DIntersection fuel sub clip = some out) :
    ∀ v ∈ out, InsideCW clip v ∧ (v.x, v.y, v.z) ∈ _root_.convexHull K (xyzSet sub) := by
  unfold compute3DIntersection at h
  split_ifs at h
  obtain ⟨mid, h1, h2⟩ := Option.bind_eq_some_iff.1 h
  have hmid := clipLoop_spec lineSect3D true lineSect3D_good (fun v => (v.x, v.y, v.z) ∈ _root_.convexHull K (xyzSet sub)) (by
    intro s e p τ hs he h0 h1 hx hy hz
    have := combo_mem (xyzSet sub) _ _ τ hs he h0 h1
    simpa [hx, hy, hz rfl] using this) clip sub mid (fun v hv => subset_convexHull K _ (by simp only [xyzSet, Set.mem_ofPred_eq]; exact ⟨v, hv, rfl⟩)) h1
  intro v hv
  have : v ∈ mid := by
    cases mid with
    | nil => simp only [convexHull, Option.some.injEq] at h2; subst h2; simp at hv
    | cons p0 ps =>
      refine hullLoop_mem p0 ps fuel [] _ out h2 ?_ v hv
      have : ∀ (i : Vec3 K) (l : List (Vec3 K)), leftMostFrom i l ∈ i :: l := by
        intro i l
        induction l generalizing i with
        | nil => simp [leftMostFrom]
        | cons p l ih =>
          rw [leftMostFrom]
          have := ih (if p.x < i.x then p else i)
          split_ifs at this ⊢
          · exact List.mem_cons_of_mem _ this
          · rcases List.mem_cons.1 this with h | h
            · rw [h]; simp
            · exact List.mem_cons_of_mem _ (List.mem_cons_of_mem _ h)
      simpa using this p0 ps
  exact ⟨(hmid v this).2, (hmid v this).1⟩

/-- a clockwise square and a clockwise triangle that overlap, a triangle far away -/
def demoClip : List (Vec3 ℚ) := [⟨0, 0, 0⟩, ⟨0, 2, 0⟩, ⟨2, 2, 0⟩, ⟨2, 0, 0⟩, ⟨0, 0, 0⟩]
def demoSub : List (Vec3 ℚ) := [⟨1, 1, 0⟩, ⟨1, 3, 2⟩, ⟨3, 1, 0⟩, ⟨1, 1, 0⟩]
def demoFar : List (Vec3 ℚ) := [⟨-5, 0, 0⟩, ⟨-5, 1, 0⟩, ⟨-4, 0, 0⟩, ⟨-5, 0, 0⟩]

/-- C50 applies to overlapping polygons -/
example : compute3DIntersection 10 demoSub demoClip = some [⟨1, 1, 0⟩, ⟨1, 2, 1⟩, ⟨2, 2, 1⟩, ⟨2, 1, 0⟩, ⟨1, 1, 0⟩] := by decide +kernel

/-- **C50, emptiness**: when an edge of the clipping polygon leaves nothing and is not the last one, the next round reads the element before the first one of an
empty vector; two polygons that do not meet are enough. -/
theorem C50_violated : compute2DIntersection 0 demoFar demoClip = none ∧ compute3DIntersection 10 demoFar demoClip = none :=
  ⟨by decide +kernel, by decide +kernel⟩

end Geom
end Rbprm
