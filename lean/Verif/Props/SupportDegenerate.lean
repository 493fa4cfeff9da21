import Verif.Props.Support
import Mathlib.Tactic.Linarith
import Mathlib.Tactic.LinearCombination
import Mathlib.Tactic.SplitIfs
import Mathlib.Tactic.NormNum
import Mathlib.Algebra.Order.Field.Rat
set_option linter.unusedSectionVars false
/-! # C91: support reduced to a point or a segment -/
namespace Rbprm
namespace Support
variable {K : Type _} [Field K] [LinearOrder K] [IsStrictOrderedRing K]

/-- seen from above, `q` is on the segment from `A` to `B` -/
def OnSegmentXY (A B q : Vec3 K) : Prop := ∃ t : K, 0 ≤ t ∧ t ≤ 1 ∧ q.x = A.x + t * (B.x - A.x) ∧ q.y = A.y + t * (B.y - A.y)
/-- seen from above, the points are nearer than `r` -/
def NearXY (p q : Vec3 K) (r : K) : Prop := (p.x - q.x) * (p.x - q.x) + (p.y - q.y) * (p.y - q.y) < r * r

/-- what `DistancePointSegment` returns is the distance to some point of the segment -/
theorem distancePointSegment_attained (P A B : Vec3 K) : ∃ q, OnSegmentXY A B q ∧ distancePointSegmentSq P A B = distSq2 P q := by
  have hA : OnSegmentXY A B A := ⟨0, le_refl _, zero_le_one, by simp, by simp⟩
  have hB : OnSegmentXY A B B := ⟨1, zero_le_one, le_refl _, by simp, by simp⟩
  have hends : ∃ q, OnSegmentXY A B q ∧ min (distSq2 P A) (distSq2 P B) = distSq2 P q := by
    rcases min_choice (distSq2 P A) (distSq2 P B) with h | h
    · exact ⟨A, hA, h⟩
    · exact ⟨B, hB, h⟩
  unfold distancePointSegmentSq
  simp only
  by_cases hxy : A.x = B.x ∨ A.y = B.y
  · rw [if_pos hxy]; exact hends
  rw [if_neg hxy]
  push Not at hxy
  obtain ⟨hx, hy⟩ := hxy
  have hux : B.x - A.x ≠ 0 := sub_ne_zero.2 hx.symm
  have hL : 0 < (B.x - A.x) * (B.x - A.x) + (B.y - A.y) * (B.y - A.y) := by
    have := mul_self_pos.2 hux
    have := mul_self_nonneg (B.y - A.y)
    linarith
  have hau : (A.y - B.y) / (A.x - B.x) * (A.x - B.x) = A.y - B.y := div_mul_cancel₀ _ (sub_ne_zero.2 hx)
  generalize (A.y - B.y) / (A.x - B.x) = a at hau ⊢
  generalize (P.y - P.x * -(1 / a) - (B.y - a * B.x)) / (-(1 / a) - a) = xi
  split_ifs with hc
  · obtain ⟨hc1, hc2⟩ := hc
    obtain ⟨σ, hσ⟩ : ∃ σ : K, σ * (B.x - A.x) = xi - A.x := ⟨_, div_mul_cancel₀ _ hux⟩
    have hyi : a * xi + (B.y - a * B.x) - A.y = σ * (B.y - A.y) := by linear_combination (-a) * hσ + (1 - σ) * hau
    have h1 : 0 < σ * ((B.x - A.x) * (B.x - A.x) + (B.y - A.y) * (B.y - A.y)) := by
      rw [hyi, ← hσ] at hc1
      linarith
    have hpos : 0 < σ := pos_of_mul_pos_left h1 hL.le
    have h2 : σ * σ * ((B.x - A.x) * (B.x - A.x) + (B.y - A.y) * (B.y - A.y)) < 1 * ((B.x - A.x) * (B.x - A.x) + (B.y - A.y) * (B.y - A.y)) := by
      unfold distSq2 at hc2
      simp only [hyi, ← hσ] at hc2
      linarith
    have h3 : σ * σ < 1 := lt_of_mul_lt_mul_right h2 hL.le
    have h4 : σ ≤ 1 := by
      by_contra hgt
      rw [not_le] at hgt
      have := mul_lt_mul'' hgt hgt zero_le_one zero_le_one
      linarith
    exact ⟨_, ⟨σ, hpos.le, h4, by simp only; linarith, by simp only; linarith⟩, rfl⟩
  · exact hends

/-- **C91**, soundness.  A point that is reported inside a polygon of one or two vertices is nearer than the tolerance to the point or the segment; for one vertex this
is an equivalence. -/
theorem C91_segment_partial (A B P : Vec3 K) :
    (inPolygon [A] P = true ↔ NearXY P A (1 / 1000)) ∧ (inPolygon [A, B] P = true → ∃ q, OnSegmentXY A B q ∧ NearXY P q (1 / 1000)) ∧
      (inPolygon [A, A] P = true ↔ NearXY P A (1 / 1000)) := by
  refine ⟨?_, ?_, ?_⟩
  · unfold inPolygon; simp only [decide_eq_true_eq]; rfl
  · intro h
    unfold inPolygon at h
    simp only [decide_eq_true_eq] at h
    obtain ⟨q, hq, he⟩ := distancePointSegment_attained P A B
    rw [he] at h
    exact ⟨q, hq, h⟩
  · unfold inPolygon
    simp only [decide_eq_true_eq]
    have : distancePointSegmentSq P A A = distSq2 P A := by unfold distancePointSegmentSq; simp
    rw [this]; rfl

/-- **C91**, one point contact.  The support of one contact without extent contains exactly the points nearer than the tolerance. -/
theorem C91_point_partial (fuel : ℕ) (p P : Vec3 K) :
    ∃ b, contains (fuel + 1) [⟨p, 0, 0⟩] P = some b ∧ (b = true ↔ NearXY P p (1 / 1000)) := by
  have hp : p + (⟨0, 0, 0⟩ : Vec3 K) = p := by ext <;> simp
  have hc : allCorners [(⟨p, 0, 0⟩ : Foot K)] = [p, p, p, p] := by
    simp [allCorners, corners, hp]
  have hh : convexHull (fuel + 1) p [p, p, p] = some [p, p] := by
    rw [convexHull, hullLoop]
    simp [wrap, wrapFrom, leftMost, leftMostFrom]
  refine ⟨inPolygon [p, p] P, ?_, (C91_segment_partial p p P).2.2⟩
  rw [contains, hc]
  simp only [hh, Option.map_some]

/-- **C91** (no support).  Without feet no point is inside. -/
theorem C91_empty (fuel : ℕ) (P : Vec3 K) : contains fuel [] P = some false := rfl

/-- **C91 is violated** for a segment: the middle of the segment between two point contacts is not reported inside, and `DistancePointSegment`, whose formula has a
wrong sign (line 72), does not find that a point is on the segment. -/
theorem C91_violated :
    contains 10 [(⟨⟨0, 0, 0⟩, 0, 0⟩ : Foot ℚ), ⟨⟨2, 2, 0⟩, 0, 0⟩] ⟨1, 1, 0⟩ = some false ∧
      inPolygon [(⟨0, 0, 0⟩ : Vec3 ℚ), ⟨2, 2, 0⟩] ⟨1, 1, 0⟩ = false ∧ inPolygon [(⟨0, 0, 0⟩ : Vec3 ℚ), ⟨2, 0, 0⟩] ⟨1, 0, 0⟩ = false :=
  ⟨by decide +kernel, by decide +kernel, by decide +kernel⟩

example : inPolygon [(⟨0, 0, 0⟩ : Vec3 ℚ), ⟨2, 2, 0⟩] ⟨2, 2, 5⟩ = true := by decide +kernel
end Support
end Rbprm
