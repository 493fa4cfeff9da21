import Verif.Model.Heuristic
import Verif.Props.HeuristicTools
set_option linter.unusedSectionVars false
/-!
# The heuristics (C110–C112)
-/
namespace Rbprm
namespace Heur
variable {N : Type _} [LinearOrder N]

/-! ### C110: the dynamic heuristic -/

theorem growLoop_spec (speed bound : ℝ) (fuel : ℕ) (w w' : ℝ) (h : growLoop speed bound fuel w = some w') :
    (∃ k : ℕ, w' = w * (3 / 2) ^ k) ∧ bound < |w' * speed| := by
  induction fuel generalizing w with
  | zero => simp [growLoop] at h
  | succ n ih =>
    rw [growLoop] at h
    split_ifs at h with hc
    · obtain ⟨⟨k, hk⟩, hb⟩ := ih _ h
      exact ⟨⟨k + 1, by rw [hk]; ring⟩, hb⟩
    · cases h
      exact ⟨⟨0, by simp⟩, not_le.1 hc⟩

theorem growLoop_ends (speed bound w : ℝ) (hw : w * speed ≠ 0) : ∃ fuel0, ∀ fuel, fuel0 ≤ fuel → ∃ w', growLoop speed bound fuel w = some w' := by
  obtain ⟨k, hk⟩ := pow_unbounded_of_one_lt (bound / |w * speed|) (show (1 : ℝ) < 3 / 2 by norm_num)
  have hpos : 0 < |w * speed| := abs_pos.2 hw
  rw [div_lt_iff₀ hpos] at hk
  refine ⟨k + 1, fun fuel hf => ?_⟩
  clear hw
  induction k generalizing w fuel with
  | zero =>
    obtain ⟨m, rfl⟩ : ∃ m, fuel = m + 1 := ⟨fuel - 1, by omega⟩
    exact ⟨w, by rw [growLoop, if_neg]; simpa using hk⟩
  | succ k ih =>
    obtain ⟨m, rfl⟩ : ∃ m, fuel = m + 1 := ⟨fuel - 1, by omega⟩
    by_cases hc : |w * speed| ≤ bound
    · rw [growLoop, if_pos hc]
      have e : |w * (3 / 2) * speed| = |w * speed| * (3 / 2) := by
        rw [show w * (3 / 2) * speed = w * speed * (3 / 2) by ring, abs_mul, abs_of_pos (show (0 : ℝ) < 3 / 2 by norm_num)]
      refine ih (w * (3 / 2)) ?_ ?_ m (by omega)
      · rw [e]; refine lt_of_lt_of_eq hk ?_; ring
      · rw [e]; positivity
    · exact ⟨w, by rw [growLoop, if_neg hc]⟩

theorem growLoop_mono (speed bound : ℝ) {fuel fuel' : ℕ} (hf : fuel ≤ fuel') {w w' : ℝ} (h : growLoop speed bound fuel w = some w') : growLoop speed bound fuel' w = some w' := by
  induction fuel generalizing w fuel' with
  | zero => simp [growLoop] at h
  | succ n ih =>
    obtain ⟨m, rfl⟩ : ∃ m, fuel' = m + 1 := ⟨fuel' - 1, by omega⟩
    rw [growLoop] at h ⊢
    by_cases hc : |w * speed| ≤ bound
    · rw [if_pos hc] at h ⊢; exact ih (by omega) h
    · rw [if_neg hc] at h ⊢; exact h

theorem weights_mono (params : Params N) {fuel fuel' : ℕ} (hf : fuel ≤ fuel') {r} (h : weights fuel params = some r) : weights fuel' params = some r := by
  unfold weights at h ⊢
  dsimp only at h ⊢
  have key : ∀ (P : Prop) [Decidable P] (s b w w' : ℝ), (if P then growLoop s b fuel w else some w) = some w' → (if P then growLoop s b fuel' w else some w) = some w' := by
    intro P _ s b w w' h
    by_cases hP : P
    · rw [if_pos hP] at h ⊢; exact growLoop_mono s b hf h
    · rw [if_neg hP] at h ⊢; exact h
  split at h
  · next wx wy hx hy =>
    rw [key _ _ _ _ _ hx, key _ _ _ _ _ hy]; exact h
  · cases h

theorem shiftLoop_mono (thr : ℝ) {fuel fuel' : ℕ} (hf : fuel ≤ fuel') {a : V2} {l : List V2} {r} (h : shiftLoop thr fuel a l = some r) : shiftLoop thr fuel' a l = some r := by
  induction fuel generalizing a l fuel' with
  | zero => simp [shiftLoop] at h
  | succ n ih =>
    obtain ⟨m, rfl⟩ : ∃ m, fuel' = m + 1 := ⟨fuel' - 1, by omega⟩
    by_cases hc : dist2 (l.getLastD a) a ≤ thr
    · cases l with
      | nil => rw [shiftLoop, if_pos hc] at h ⊢; exact ih (by omega) h
      | cons b l => rw [shiftLoop_step _ _ _ _ _ hc] at h ⊢; exact ih (by omega) h
    · rw [shiftLoop_stop _ _ _ _ hc] at h ⊢; exact h

theorem weightedCentroid_mono {fuel fuel' : ℕ} (hf : fuel ≤ fuel') {l : List V2} {c : V2} (h : weightedCentroid fuel l = some (some c)) : weightedCentroid fuel' l = some (some c) := by
  match l with
  | [] => exact h
  | [p] => exact h
  | [p, q] => exact h
  | a :: b :: d :: l =>
    simp only [weightedCentroid] at h ⊢
    cases hs : shiftLoop (maxEdge a (b :: d :: l) / 10) fuel a (b :: d :: l) with
    | none => rw [hs] at h; cases h
    | some r => rw [shiftLoop_mono _ hf hs]; rw [hs] at h; exact h

/-- the weights of the speed are positive multiples of the height of the centre of mass -/
def WeightsOk (params : Params N) (wx wy w2 : ℝ) : Prop :=
  w2 = -(params.comPosition.z / (980665 / 100000)) ∧ (∃ k : ℕ, wx = 100 * params.comPosition.z / (980665 / 100000) * (3 / 2) ^ k) ∧
    (∃ k : ℕ, wy = 100 * params.comPosition.z / (980665 / 100000) * (3 / 2) ^ k) ∧
    (params.comSpeed.x ≠ 0 → w2 * params.comAcceleration.x ≠ 0 → |w2 * params.comAcceleration.x| < |wx * params.comSpeed.x|) ∧
    (params.comSpeed.y ≠ 0 → w2 * params.comAcceleration.x ≠ 0 → |w2 * params.comAcceleration.y| < |wy * params.comSpeed.y|)

theorem weights_spec (params : Params N) : ∃ fuel0, ∀ fuel, fuel0 ≤ fuel → ∃ wx wy w2, weights fuel params = some (wx, wy, w2) ∧ WeightsOk params wx wy w2 := by
  have hw2 : params.comPosition.z / (-(980665 / 100000)) = -(params.comPosition.z / (980665 / 100000)) := by rw [div_neg]
  set w2 := params.comPosition.z / (-(980665 / 100000)) with hw2d
  have hw1 : -100 * w2 = 100 * params.comPosition.z / (980665 / 100000) := by rw [hw2]; ring
  have branch : ∀ (P : Prop) [Decidable P] (s b : ℝ), (P → (-100 * w2) * s ≠ 0) → ∃ fuel0, ∀ fuel, fuel0 ≤ fuel →
      ∃ w', (if P then growLoop s b fuel (-100 * w2) else some (-100 * w2)) = some w' ∧ (∃ k : ℕ, w' = 100 * params.comPosition.z / (980665 / 100000) * (3 / 2) ^ k) ∧ (P → b < |w' * s|) := by
    intro P _ s b hP
    by_cases h : P
    · obtain ⟨f0, hf0⟩ := growLoop_ends s b (-100 * w2) (hP h)
      refine ⟨f0, fun fuel hf => ?_⟩
      obtain ⟨w', hw'⟩ := hf0 fuel hf
      obtain ⟨hk, hb⟩ := growLoop_spec s b fuel _ _ hw'
      refine ⟨w', by rw [if_pos h]; exact hw', ?_, fun _ => hb⟩
      rw [← hw1]; exact hk
    · exact ⟨0, fun fuel _ => ⟨_, by rw [if_neg h], ⟨0, by rw [← hw1]; simp⟩, fun h' => absurd h' h⟩⟩
  have hne : ∀ s : ℝ, s ≠ 0 → w2 * params.comAcceleration.x ≠ 0 → (-100 * w2) * s ≠ 0 := by
    intro s hs h
    have : w2 ≠ 0 := left_ne_zero_of_mul h
    exact mul_ne_zero (mul_ne_zero (by norm_num) this) hs
  obtain ⟨fx, hx⟩ := branch (params.comSpeed.x ≠ 0 ∧ w2 * params.comAcceleration.x ≠ 0) params.comSpeed.x |w2 * params.comAcceleration.x| (fun h => hne _ h.1 h.2)
  obtain ⟨fy, hy⟩ := branch (params.comSpeed.y ≠ 0 ∧ w2 * params.comAcceleration.x ≠ 0) params.comSpeed.y |w2 * params.comAcceleration.y| (fun h => hne _ h.1 h.2)
  refine ⟨max fx fy, fun fuel hf => ?_⟩
  obtain ⟨wx, ex, kx, bx⟩ := hx fuel (le_trans (le_max_left _ _) hf)
  obtain ⟨wy, ey, ky, byy⟩ := hy fuel (le_trans (le_max_right _ _) hf)
  refine ⟨wx, wy, w2, ?_, hw2, kx, ky, fun h1 h2 => bx ⟨h1, h2⟩, fun h1 h2 => byy ⟨h1, h2⟩⟩
  unfold weights
  dsimp only
  rw [← hw2d, ex, ey]

/-- the contacts with the sample: where the limb of the sample is not in contact yet, its effector is added -/
def WithSample (sample : Sample) (params : Params N) (contacts : AMap N (Vec3 ℝ)) : Prop :=
  ∀ n, contacts.find? n = (params.contactPositions.find? n).or (if n = params.sampleLimbName then some (params.tfWorldRoot.apply sample.effectorPosition) else none)

/-- the contacts that are at most 25 cm above the lowest one -/
def Ground (contacts ground : AMap N (Vec3 ℝ)) : Prop :=
  ground ≠ [] ∧ ∀ n p, ground.find? n = some p ↔ contacts.find? n = some p ∧ ∀ m q, contacts.find? m = some q → p.z - q.z ≤ 1 / 4

/-- the horizontal positions of the contacts -/
def footprint (contacts : AMap N (Vec3 ℝ)) : List V2 := contacts.map fun e => (e.2.x, e.2.y)

theorem Tidy.sub {eps : ℝ} {l m : List V2} (h : Tidy eps l) (hs : ∀ p ∈ m, p ∈ l) : Tidy eps m :=
  ⟨h.eps_pos, h.eps_lt, fun p hp q hq => h.equal p (hs p hp) q (hs q hq), fun p hp q hq => h.unit p (hs p hp) q (hs q hq)⟩

theorem find?_contactsWith (sample : Sample) (params : Params N) : WithSample sample params (contactsWith sample params) := by
  intro n
  unfold contactsWith
  rw [AMap.find?_insertNew, (C107_transform sample.effectorPosition 0 params.tfWorldRoot.trans params.tfWorldRoot.rot).1]
  by_cases h : n = params.sampleLimbName
  · subst h
    rw [if_pos rfl, if_pos rfl]
    cases params.contactPositions.find? params.sampleLimbName <;> rfl
  · rw [if_neg h, if_neg h]
    simp

theorem contactsWith_ne (sample : Sample) (params : Params N) : contactsWith sample params ≠ [] := by
  intro h
  have := find?_contactsWith sample params params.sampleLimbName
  rw [h, if_pos rfl] at this
  cases hf : params.contactPositions.find? params.sampleLimbName <;> rw [hf] at this <;> cases this

/-- C110 (part): with contact positions that the tolerance of the hull tells apart the heuristic terminates; its value is minus the distance of the point of interest to a point of the convex hull of the contacts on the ground, among which those of the sample; the point of interest is the position of the centre of mass moved by its speed and its acceleration, with weights proportional to the height and such that (along x) the speed dominates. -/
theorem C110_partial (eps big : ℝ) (sample : Sample) (params : Params N) (hwf : params.contactPositions.WF)
    (ht : ∀ contacts : AMap N (Vec3 ℝ), WithSample sample params contacts → contacts.WF → Tidy eps (footprint contacts)) :
    ∃ contacts ground c wx wy w2, contacts.WF ∧ WithSample sample params contacts ∧ Ground contacts ground ∧ c ∈ convexHull ℝ {p | p ∈ footprint ground} ∧
      WeightsOk params wx wy w2 ∧
      ∃ fuel0, ∀ fuel, fuel0 ≤ fuel → dynamicHeuristic eps big fuel sample params =
        some (-dist2 (params.comPosition.x + wx * params.comSpeed.x + w2 * params.comAcceleration.x,
                      params.comPosition.y + wy * params.comSpeed.y + w2 * params.comAcceleration.y) c) := by
  have hwf' : (contactsWith sample params).WF := AMap.WF_insertNew hwf _ _
  have hw := find?_contactsWith sample params
  obtain ⟨res, low, n0, p0, hres, hrwf, h0, hlow, hmin, hr0, hiff⟩ := C106_ground (contactsWith sample params) hwf' (contactsWith_ne sample params) (1 / 4)
  rw [abs_of_pos (show (0 : ℝ) < 1 / 4 by norm_num)] at hiff
  have hground : Ground (contactsWith sample params) res := by
    constructor
    · rintro rfl; cases hr0
    · intro n p
      rw [hiff]
      refine and_congr_right fun hp => ⟨fun h m q hq => by linarith [hmin m q hq], fun h => by rw [← hlow]; exact h n0 p0 h0⟩
  have htidy : Tidy eps (supportPolygon res) := by
    rw [C107_support]
    refine (ht _ hw hwf').sub fun p hp => ?_
    obtain ⟨⟨n, q⟩, he, rfl⟩ := List.mem_map.1 hp
    exact List.mem_map.2 ⟨(n, q), AMap.find?_some_mem ((hiff n q).1 (AMap.mem_find? hrwf he)).1, rfl⟩
  have hne : supportPolygon res ≠ [] := by
    rw [C107_support]
    simpa using hground.1
  obtain ⟨c, hc, hin⟩ := C109_of_hull htidy hne ((convexHull2 eps (supportPolygon res)).length + 1) le_rfl
  obtain ⟨f0, hf0⟩ := weights_spec params
  obtain ⟨wx, wy, w2, he0, hwo⟩ := hf0 f0 le_rfl
  refine ⟨contactsWith sample params, res, c, wx, wy, w2, hwf', hw, hground, ?_, hwo, max f0 ((convexHull2 eps (supportPolygon res)).length + 1), fun fuel hf => ?_⟩
  · rw [C107_support] at hin; exact hin
  · unfold dynamicHeuristic
    rw [hres]
    dsimp only
    rw [weights_mono params (le_trans (le_max_left _ _) hf) he0]
    dsimp only
    rw [weightedCentroid_mono (le_trans (le_max_right _ _) hf) hc]
    rfl

/-- a robot that stands still on one foot and moves along y -/
def demoParams : Params ℕ := ⟨[(1, ⟨0, 0, 0⟩)], ⟨0, 0, 1⟩, ⟨0, 1, 0⟩, ⟨0, 1000, 0⟩, 2, ⟨⟨⟨1, 0, 0⟩, ⟨0, 1, 0⟩, ⟨0, 0, 1⟩⟩, 0⟩, none, 0, 0⟩

def demoSample : Sample := ⟨1, ⟨3, 0, 0⟩, ⟨3, -1, 0⟩, ⟨⟨1, 0, 0⟩, ⟨0, 1, 0⟩, ⟨0, 0, 1⟩⟩, []⟩

/-- non-vacuity of C110 -/
example : demoParams.contactPositions.WF ∧
    ∀ contacts : AMap ℕ (Vec3 ℝ), WithSample demoSample demoParams contacts → contacts.WF → Tidy (1 / 1000000000) (footprint contacts) := by
  refine ⟨by unfold demoParams AMap.WF; decide, fun contacts h hwf => ?_⟩
  have hp : ∀ p ∈ footprint contacts, p = (0, 0) ∨ p = (3, 0) := by
    intro p hp
    obtain ⟨⟨n, q⟩, he, rfl⟩ := List.mem_map.1 hp
    have hf := h n
    rw [AMap.mem_find? hwf he] at hf
    by_cases h1 : n = 1
    · subst h1
      left
      simp [demoParams, AMap.find?] at hf
      subst hf; simp
    · by_cases h2 : n = 2
      · subst h2
        right
        simp [demoParams, AMap.find?, Tf.apply, Mat3.mulVec, Vec3.dot, demoSample] at hf
        subst hf; simp
      · exfalso
        simp [demoParams, AMap.find?, h1, h2] at hf
        omega
  refine ⟨by norm_num, by norm_num, ?_, ?_⟩
  · intro p hp' q hq h
    rcases hp p hp' with rfl | rfl <;> rcases hp q hq with rfl | rfl <;> first | rfl | (exfalso; revert h; norm_num [Near, abs_of_pos, abs_of_neg])
  · intro p hp' q hq d hd h
    rcases hd with rfl | rfl <;> rcases hp p hp' with rfl | rfl <;> rcases hp q hq with rfl | rfl <;> first | rfl | (exfalso; revert h; norm_num [Near, abs_of_pos, abs_of_neg])

/-- **C110 is violated** along y: the guard of the second loop tests the acceleration along x.  With speed (0, 1) and acceleration (0, 1000) the speed does not dominate. -/
theorem C110_violated (fuel : ℕ) (hf : 0 < fuel) : ∃ wx wy w2, weights fuel demoParams = some (wx, wy, w2) ∧ demoParams.comSpeed.y ≠ 0 ∧ w2 * demoParams.comAcceleration.y ≠ 0 ∧
    |wy * demoParams.comSpeed.y| < |w2 * demoParams.comAcceleration.y| := by
  refine ⟨100 / (980665 / 100000), 100 / (980665 / 100000), -(1 / (980665 / 100000)), ?_, ?_, ?_, ?_⟩
  · simp [weights, demoParams]; norm_num
  · simp [demoParams]
  · norm_num [demoParams]
  · norm_num [demoParams, abs_of_pos, abs_of_neg]

/-- **C110 is violated** for a limb that is in contact already: the value does not depend on the sample. -/
theorem C110_limb_violated (eps big : ℝ) (fuel : ℕ) (s s' : Sample) (params : Params N) (h : params.contactPositions.has params.sampleLimbName = true) :
    dynamicHeuristic eps big fuel s params = dynamicHeuristic eps big fuel s' params := by
  have : ∀ s, contactsWith s params = params.contactPositions := fun s => by unfold contactsWith AMap.insertNew; rw [if_pos h]
  unfold dynamicHeuristic
  rw [this, this]

example : ({ demoParams with sampleLimbName := 1 } : Params ℕ).contactPositions.has ({ demoParams with sampleLimbName := 1 } : Params ℕ).sampleLimbName = true := by
  simp [demoParams, AMap.has, AMap.find?]

/-! ### C111: the other heuristics -/

/-- C111: with the product of a jacobian with its transpose (a positive semi-definite matrix), EFORT is not negative on surfaces that face upwards, is not changed by reversing the direction, and EFORT_Normal changes its sign with the direction. -/
theorem C111_efort (s : Sample) (hp : ∀ v : Vec3 ℝ, 0 ≤ Vec3.dot v (s.jacobianProduct.mulVec v)) (d n : Vec3 ℝ) :
    efort s d n = Vec3.dot d (s.jacobianProduct.mulVec d) * n.z ∧ (0 ≤ n.z → 0 ≤ efort s d n) ∧ efort s (-d) n = efort s d n ∧
    efortNormal s d n = Vec3.dot d (s.jacobianProduct.mulVec d) * Vec3.dot d n ∧ (0 ≤ Vec3.dot d n → 0 ≤ efortNormal s d n) ∧ efortNormal s (-d) n = -efortNormal s d n := by
  have e : effort s d = Vec3.dot d (s.jacobianProduct.mulVec d) := by
    simp [effort, Vec3.dot, Mat3.mulVec]; ring
  have e' : effort s (-d) = effort s d := by
    simp [effort, Vec3.dot, Mat3.mulVec]; ring
  refine ⟨by rw [efort, e], fun h => mul_nonneg (e ▸ hp d) h, by rw [efort, efort, e'], by rw [efortNormal, e], fun h => mul_nonneg (e ▸ hp d) h, ?_⟩
  rw [efortNormal, efortNormal, e']
  simp [Vec3.dot]; ring

example : ∀ v : Vec3 ℝ, 0 ≤ Vec3.dot v (demoSample.jacobianProduct.mulVec v) := by
  intro v
  simp [demoSample, Mat3.mulVec, Vec3.dot]
  nlinarith [mul_self_nonneg v.x, mul_self_nonneg v.y, mul_self_nonneg v.z]

/-- C111: whatever the random draws, a sample with a static value that is not negative on a surface of slope at most `acos 0.7` is preferred by "manipulability" to every sample on a steeper one, and of two samples on such a surface the one whose static value is better by more than 1.5 · 10⁻⁹ is preferred. -/
theorem C111_manipulability (r r' : ℝ) (hr : 0 ≤ r ∧ r ≤ 1) (hr' : 0 ≤ r' ∧ r' ≤ 1) (s s' : Sample) (n n' : Vec3 ℝ) (hn : 7 / 10 ≤ n.z) (hs : 0 ≤ s.staticValue) :
    (n'.z < 7 / 10 → manipulabilityHeuristic r' s' n' < manipulabilityHeuristic r s n) ∧
    (s'.staticValue + 3 / 2000000000 < s.staticValue → manipulabilityHeuristic r' s' n < manipulabilityHeuristic r s n) := by
  unfold manipulabilityHeuristic
  rw [if_neg (not_lt.2 hn)]
  constructor
  · intro h
    rw [if_pos h]
    have : 0 ≤ s.staticValue * 10000 * n.z * 100000 := by positivity
    linarith [hr.1]
  · intro h
    rw [if_neg (not_lt.2 hn)]
    nlinarith [mul_lt_mul_of_pos_right h (show 0 < n.z by linarith), hr.1, hr'.2]

/-- C111: whatever the random draws, of two samples with the same static value and height, "forward" prefers the one that is more than 1 cm further in the direction (in the frame of the limb), "backward" the one that is more than 1 cm less far (in the frame of the root). -/
theorem C111_directions (r r' : ℝ) (hr : 0 ≤ r ∧ r ≤ 1) (hr' : 0 ≤ r' ∧ r' ≤ 1) (s s' : Sample) (d n : Vec3 ℝ) (hs : s.staticValue = s'.staticValue) :
    (s.effectorPositionInLimbFrame.z = s'.effectorPositionInLimbFrame.z →
      d.x * s'.effectorPositionInLimbFrame.x + d.y * s'.effectorPositionInLimbFrame.y + 1 / 100 < d.x * s.effectorPositionInLimbFrame.x + d.y * s.effectorPositionInLimbFrame.y →
      forwardHeuristic r' s' d n < forwardHeuristic r s d n) ∧
    (Vec3.dot d s.effectorPosition + 1 / 100 < Vec3.dot d s'.effectorPosition → backwardHeuristic r' s' d n < backwardHeuristic r s d n) := by
  constructor
  · intro hz hlt
    simp only [forwardHeuristic, Vec3.dot, hs, hz]
    nlinarith [hr.1, hr'.2]
  · intro hlt
    simp only [Vec3.dot] at hlt
    simp only [backwardHeuristic, Vec3.dot, hs]
    nlinarith [hr.1, hr'.2]

/-- **C111 is violated** for samples of different heights: "forward" adds the square of the height, so that a sample 60 cm below the limb's root is preferred to one that is 30 cm further in the direction of motion, level with the root. -/
theorem C111_forward_violated : ∃ s s' : Sample, s.staticValue = s'.staticValue ∧ s.effectorPositionInLimbFrame.x + 3 / 10 = s'.effectorPositionInLimbFrame.x ∧
    forwardHeuristic 0 s' ⟨1, 0, 0⟩ ⟨0, 0, 1⟩ < forwardHeuristic 0 s ⟨1, 0, 0⟩ ⟨0, 0, 1⟩ := by
  refine ⟨⟨0, 0, ⟨0, 0, -(6 / 10)⟩, Mat3.one, []⟩, ⟨0, 0, ⟨3 / 10, 0, 0⟩, Mat3.one, []⟩, rfl, by norm_num, ?_⟩
  norm_num [forwardHeuristic, Vec3.dot]

/-- C111: the "fixedStep" heuristics are the static value without a path of the centre of mass; with one, of two samples with the same static value the one whose effector is nearer to the reference position of the limb, at the place of the root a step ahead on the path, is preferred, and a better static value makes up for at most a tenth of it. -/
theorem C111_fixedStep (tStep : ℝ) (s s' : Sample) (params : Params N) :
    (params.comPath = none → fixedStep tStep s params = s.staticValue) ∧
    ∀ path, params.comPath = some path →
      let place := fun (t : Tf) (v : Vec3 ℝ) => t.rot.mulVec v + t.trans
      let target := place (path (params.currentPathId + tStep)) params.limbReferenceOffset
      let d := Vec3.distSq (place params.tfWorldRoot s.effectorPosition) target
      let d' := Vec3.distSq (place params.tfWorldRoot s'.effectorPosition) target
      (s.staticValue = s'.staticValue → (fixedStep tStep s params < fixedStep tStep s' params ↔ d' < d)) ∧
      (d' + (s.staticValue - s'.staticValue) / 10 < d ↔ fixedStep tStep s params < fixedStep tStep s' params) := by
  constructor
  · intro h; simp [fixedStep, h, staticHeuristic]
  · intro path h
    simp only [fixedStep, h, Vec3.distSq, Tf.apply]
    refine ⟨fun hs => ?_, ?_⟩
    · rw [hs]; constructor <;> intro h <;> linarith
    · constructor <;> intro h <;> linarith

/-! ### C112: dynamic walk -/

/-- C112: for a null direction (or one that is not a number) the value does not depend on the direction, the normal nor the side of the limb. -/
theorem C112_null (r : ℝ) (s : Sample) (n : Vec3 ℝ) (params : Params N) :
    dynamicWalk r s none n params = dynamicWalk r s (some 0) n params ∧
    dynamicWalk r s none n params = 100 * s.staticValue + s.effectorPositionInLimbFrame.x * params.comAcceleration.x + s.effectorPositionInLimbFrame.y * params.comAcceleration.y +
      s.effectorPositionInLimbFrame.z + r := by
  constructor
  · simp [dynamicWalk, Vec3.normSq, Vec3.dot]
  · simp [dynamicWalk, Vec3.dot]; ring

/-- the limb is on the left of the root -/
def OnLeft (s : Sample) : Prop := s.effectorPositionInLimbFrame.y < s.effectorPosition.y

/-- position of the effector relatively to the root of the limb, in the world frame, on the ground -/
def groundPos (s : Sample) (params : Params N) : Vec3 ℝ :=
  ⟨(params.tfWorldRoot.rot.mulVec s.effectorPositionInLimbFrame).x, (params.tfWorldRoot.rot.mulVec s.effectorPositionInLimbFrame).y, 0⟩

open Classical in
/-- the effector is on the other side of the direction than the limb (for a horizontal surface) -/
def Crossed (s : Sample) (d : Vec3 ℝ) (params : Params N) : Prop :=
  if OnLeft s then d.x * (groundPos s params).y - d.y * (groundPos s params).x < 0 else 0 < d.x * (groundPos s params).y - d.y * (groundPos s params).x

/-- distance in the horizontal direction `d`, which need not be a unit vector -/
noncomputable def advance (s : Sample) (d : Vec3 ℝ) (params : Params N) : ℝ :=
  (d.x * (groundPos s params).x + d.y * (groundPos s params).y) / Real.sqrt (d.x ^ 2 + d.y ^ 2)

theorem sqrt_pos_of {d : Vec3 ℝ} (hd : d.x ≠ 0 ∨ d.y ≠ 0) : 0 < d.x * d.x + d.y * d.y := by
  rcases hd with h | h
  · have := mul_self_pos.2 h; have := mul_self_nonneg d.y; linarith
  · have := mul_self_pos.2 h; have := mul_self_nonneg d.x; linarith

theorem normalize_flat {d : Vec3 ℝ} (hd : d.x ≠ 0 ∨ d.y ≠ 0) : normalize ⟨d.x, d.y, 0⟩ = ⟨d.x / Real.sqrt (d.x ^ 2 + d.y ^ 2), d.y / Real.sqrt (d.x ^ 2 + d.y ^ 2), 0⟩ := by
  have h := sqrt_pos_of hd
  have e : (⟨d.x, d.y, 0⟩ : Vec3 ℝ).normSq = d.x ^ 2 + d.y ^ 2 := by simp [Vec3.normSq, Vec3.dot]; ring
  unfold normalize
  rw [e, if_pos (by nlinarith)]
  ext <;> simp <;> ring

open Classical in
/-- C112: on a horizontal surface, with a direction that is not vertical, the value is the sum of the static value (weight 100), of the progression in the direction with weight 100 — or minus 10 if the effector is on the wrong side of the direction —, of the product of the position with the acceleration, and of the random number.  For an effector straight behind a limb of the right side the weight is minus 10 too. -/
theorem C112_value (r : ℝ) (s : Sample) (d : Vec3 ℝ) (hd : d.x ≠ 0 ∨ d.y ≠ 0) (params : Params N) :
    dynamicWalk r s (some d) ⟨0, 0, 1⟩ params =
      100 * s.staticValue +
      (if Crossed s d params ∨ (¬ OnLeft s ∧ d.x * (groundPos s params).y = d.y * (groundPos s params).x ∧ advance s d params < 0) then -10 else 100) * advance s d params +
      ((groundPos s params).x * params.comAcceleration.x + (groundPos s params).y * params.comAcceleration.y) + r := by
  have hpos : 0 < d.x ^ 2 + d.y ^ 2 := by nlinarith [sqrt_pos_of hd]
  have hs : 0 < Real.sqrt (d.x ^ 2 + d.y ^ 2) := Real.sqrt_pos.2 hpos
  have hn : normalize (⟨0, 0, 1⟩ : Vec3 ℝ) = ⟨0, 0, 1⟩ := by
    unfold normalize
    rw [if_pos (by simp [Vec3.normSq, Vec3.dot])]
    ext <;> simp [Vec3.normSq, Vec3.dot]
  have hnz : ¬ Real.sqrt d.normSq = 0 := by
    rw [Real.sqrt_eq_zero']
    simp only [Vec3.normSq, Vec3.dot, not_le]
    nlinarith [sqrt_pos_of hd, mul_self_nonneg d.z]
  simp only [dynamicWalk]
  rw [if_neg hnz, hn, normalize_flat hd]
  set q := Real.sqrt (d.x ^ 2 + d.y ^ 2) with hq
  have hg : (⟨(params.tfWorldRoot.rot.mulVec s.effectorPositionInLimbFrame).x, (params.tfWorldRoot.rot.mulVec s.effectorPositionInLimbFrame).y, 0⟩ : Vec3 ℝ) = groundPos s params := rfl
  rw [hg]
  have hgz : (groundPos s params).z = 0 := rfl
  set g := groundPos s params with hgd
  have hadv : advance s d params = (d.x * g.x + d.y * g.y) / q := rfl
  have hre : Vec3.dot (⟨d.x / q, d.y / q, 0⟩ : Vec3 ℝ) g = advance s d params := by
    rw [hadv]; simp only [Vec3.dot]; ring
  have him : Vec3.dot (Vec3.cross (⟨d.x / q, d.y / q, 0⟩ : Vec3 ℝ) g) ⟨0, 0, 1⟩ = (d.x * g.y - d.y * g.x) / q := by
    simp only [Vec3.dot, Vec3.cross]; ring
  have hleft : ((s.effectorPosition - s.effectorPositionInLimbFrame).y > 0) ↔ OnLeft s := by
    simp only [OnLeft, Vec3.sub_y, gt_iff_lt, sub_pos]
  have hdot : Vec3.dot g ⟨d.x / q, d.y / q, 0⟩ = advance s d params := by rw [← hre]; simp only [Vec3.dot]; ring
  have hndot : Vec3.dot g (-⟨d.x / q, d.y / q, 0⟩) = -advance s d params := by rw [← hre]; simp only [Vec3.dot, Vec3.neg_x, Vec3.neg_y, Vec3.neg_z]; ring
  have hneg : (d.x * g.y - d.y * g.x) / q < 0 ↔ d.x * g.y - d.y * g.x < 0 := by
    rw [div_lt_iff₀ hs, zero_mul]
  have hpos' : 0 < (d.x * g.y - d.y * g.x) / q ↔ 0 < d.x * g.y - d.y * g.x := by
    rw [lt_div_iff₀ hs, zero_mul]
  have hzero : (d.x * g.y - d.y * g.x) / q = 0 ↔ d.x * g.y = d.y * g.x := by
    rw [div_eq_zero_iff, sub_eq_zero]; simp [hs.ne']
  have argpos : ∀ z : ℂ, 0 < Complex.arg z ↔ 0 < z.im ∨ (z.im = 0 ∧ z.re < 0) := by
    intro z
    constructor
    · intro h
      have h1 := Complex.arg_nonneg_iff.1 h.le
      rcases h1.lt_or_eq with h2 | h2
      · exact Or.inl h2
      · right
        refine ⟨h2.symm, ?_⟩
        by_contra hc
        exact h.ne' (Complex.arg_eq_zero_iff.2 ⟨not_lt.1 hc, h2.symm⟩)
    · intro h
      refine lt_of_le_of_ne (Complex.arg_nonneg_iff.2 ?_) fun h0 => ?_
      · rcases h with h | h
        · exact h.le
        · exact h.1.ge
      · obtain ⟨h1, h2⟩ := Complex.arg_eq_zero_iff.1 h0.symm
        rcases h with h | h
        · exact h.ne' h2
        · exact absurd h.2 (not_lt.2 h1)
  unfold sideWeight
  dsimp only
  rw [hre, him]
  unfold Crossed
  rw [← hgd]
  by_cases hl : OnLeft s
  · rw [if_pos (hleft.2 hl), if_pos hl]
    have harg : Complex.arg ⟨advance s d params, (d.x * g.y - d.y * g.x) / q⟩ < 0 ↔ d.x * g.y - d.y * g.x < 0 := Complex.arg_neg_iff.trans hneg
    by_cases hc : d.x * g.y - d.y * g.x < 0
    · rw [if_pos (harg.2 hc), if_pos (Or.inl hc)]
      dsimp only
      rw [hndot]
      simp only [Vec3.dot, hgz, Vec3.neg_z]
      ring
    · rw [if_neg (fun h => hc (harg.1 h)), if_neg (by rintro (h | h); exacts [hc h, h.1 hl])]
      dsimp only
      rw [hdot]
      simp only [Vec3.dot, hgz]
      ring
  · rw [if_neg (fun h => hl (hleft.1 h)), if_neg hl]
    have harg : Complex.arg ⟨advance s d params, (d.x * g.y - d.y * g.x) / q⟩ > 0 ↔ 0 < d.x * g.y - d.y * g.x ∨ (d.x * g.y = d.y * g.x ∧ advance s d params < 0) := by
      rw [gt_iff_lt, argpos]
      exact or_congr hpos' (and_congr_left fun _ => hzero)
    by_cases hc : 0 < d.x * g.y - d.y * g.x ∨ (d.x * g.y = d.y * g.x ∧ advance s d params < 0)
    · rw [if_pos (harg.2 hc), if_pos (hc.imp id fun h => ⟨hl, h⟩)]
      dsimp only
      rw [hndot]
      simp only [Vec3.dot, hgz, Vec3.neg_z]
      ring
    · rw [if_neg (fun h => hc (harg.1 h)), if_neg (fun h => hc (h.imp id fun h => h.2))]
      dsimp only
      rw [hdot]
      simp only [Vec3.dot, hgz]
      ring

/-- C112 (part): without acceleration, a position in front of the limb on the wrong side of the direction is not preferred to a position as far in front on the right side (up to the random numbers). -/
theorem C112_partial (r : ℝ) (s s' : Sample) (d : Vec3 ℝ) (hd : d.x ≠ 0 ∨ d.y ≠ 0) (params : Params N) (hs : s.staticValue = s'.staticValue)
    (ha : params.comAcceleration.x = 0 ∧ params.comAcceleration.y = 0) (hc : Crossed s d params) (hc' : ¬ Crossed s' d params)
    (heq : advance s d params = advance s' d params) (hf : 0 ≤ advance s d params) :
    dynamicWalk r s (some d) ⟨0, 0, 1⟩ params ≤ dynamicWalk r s' (some d) ⟨0, 0, 1⟩ params := by
  rw [C112_value r s d hd, C112_value r s' d hd, if_pos (Or.inl hc), if_neg, ha.1, ha.2, hs, ← heq]
  · linarith
  · rintro (h | ⟨_, _, h⟩)
    · exact hc' h
    · rw [← heq] at h; exact absurd h (not_lt.2 hf)

/-- **C112 is violated** behind the limb: a crossed position is preferred to its mirror image, for every limb. -/
theorem C112_violated (r : ℝ) (s s' : Sample) (d : Vec3 ℝ) (hd : d.x ≠ 0 ∨ d.y ≠ 0) (params : Params N) (hs : s.staticValue = s'.staticValue)
    (ha : params.comAcceleration.x = 0 ∧ params.comAcceleration.y = 0) (hc : Crossed s d params) (hc' : ¬ Crossed s' d params)
    (hne : d.x * (groundPos s' params).y ≠ d.y * (groundPos s' params).x) (heq : advance s d params = advance s' d params) (hf : advance s d params < 0) :
    dynamicWalk r s' (some d) ⟨0, 0, 1⟩ params < dynamicWalk r s (some d) ⟨0, 0, 1⟩ params := by
  rw [C112_value r s d hd, C112_value r s' d hd, if_pos (Or.inl hc), if_neg, ha.1, ha.2, hs, ← heq]
  · linarith
  · rintro (h | ⟨_, h, _⟩)
    · exact hc' h
    · exact hne h

/-- non-vacuity of C112_partial and C112_violated: a left leg, the mirrored positions (±1, -1) and (±1, 1), direction x -/
example : ∃ (s s' : Sample) (params : Params ℕ), s.staticValue = s'.staticValue ∧ Crossed s ⟨1, 0, 0⟩ params ∧ ¬ Crossed s' ⟨1, 0, 0⟩ params ∧
    (params.comAcceleration.x = 0 ∧ params.comAcceleration.y = 0) ∧ advance s ⟨1, 0, 0⟩ params = advance s' ⟨1, 0, 0⟩ params ∧ advance s ⟨1, 0, 0⟩ params < 0 := by
  refine ⟨⟨0, ⟨-1, 0, 0⟩, ⟨-1, -1, 0⟩, Mat3.one, []⟩, ⟨0, ⟨-1, 2, 0⟩, ⟨-1, 1, 0⟩, Mat3.one, []⟩, ⟨[], 0, 0, 0, 1, ⟨Mat3.one, 0⟩, none, 0, 0⟩, rfl, ?_, ?_, ?_, ?_, ?_⟩ <;>
    norm_num [Crossed, OnLeft, groundPos, advance, Mat3.mulVec, Mat3.one, Vec3.dot]

end Heur
end Rbprm
