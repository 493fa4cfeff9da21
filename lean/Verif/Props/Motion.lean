import Verif.Model.Motion
import Verif.Props.Heuristic
import Verif.Props.Goal
set_option linter.unusedSectionVars false
/-!
# Properties C185, C186: what contact generation is told about the motion of the robot

The heuristics rank the contacts of a limb by the direction of motion, the speed and the acceleration of the centre of mass, and the place of the robot on its path.
-/
namespace Rbprm
namespace Motion
open Heur
variable {N : Type _}

/-- the extra degrees of freedom of a configuration -/
def extra (extraDim : ℕ) (q : List ℝ) : List ℝ := q.drop (q.length - extraDim)

/-- the three entries of a vector -/
def entries (v : Vec3 ℝ) : List ℝ := [v.x, v.y, v.z]

theorem segment_some {q : List ℝ} {i : ℕ} (h : i + 3 ≤ q.length) : ∃ v, segment q i = some v ∧ entries v = (q.drop i).take 3 := by
  have h0 : i < q.length := by omega
  have h1 : i + 1 < q.length := by omega
  have h2 : i + 2 < q.length := by omega
  refine ⟨⟨q[i], q[i + 1], q[i + 2]⟩, ?_, ?_⟩
  · unfold segment
    rw [List.getElem?_eq_getElem h0, List.getElem?_eq_getElem h1, List.getElem?_eq_getElem h2]
  · unfold entries
    rw [List.drop_eq_getElem_cons h0, List.drop_eq_getElem_cons h1, List.drop_eq_getElem_cons h2]
    rfl

theorem segment_none {q : List ℝ} {i : ℕ} (h : q.length < i + 3) : segment q i = none := by
  unfold segment
  rw [List.getElem?_eq_none (show q.length ≤ i + 2 by omega)]
  split <;> simp_all

theorem segment_entries {q : List ℝ} {i : ℕ} {v : Vec3 ℝ} (h : segment q i = some v) : entries v = (q.drop i).take 3 := by
  by_cases hi : i + 3 ≤ q.length
  · obtain ⟨w, h1, h2⟩ := segment_some hi
    rw [h1] at h
    cases h
    exact h2
  · rw [segment_none (by omega)] at h
    cases h

/-! ### C185 -/

/-- the motion of the root: the velocity among the extra degrees of freedom if there are at least six of them (velocity and acceleration), the displacement of the root since the last state otherwise -/
def IsMotion (extraDim : ℕ) (configuration previous : List ℝ) (m : Vec3 ℝ) : Prop :=
  if 6 ≤ extraDim then entries m = (extra extraDim configuration).take 3
  else ∃ p p' : Vec3 ℝ, entries p = configuration.take 3 ∧ entries p' = previous.take 3 ∧ m = p - p'

/-- The code computes the motion of the root, then forgets it. -/
theorem given_motion {configSize extraDim : ℕ} {acc : Vec3 ℝ} {configuration previous : List ℝ} {g : Given} (hn : configuration.length = configSize) (he : extraDim ≤ configSize)
    (h : given configSize extraDim acc configuration previous = some g) : IsMotion extraDim configuration previous g.dir := by
  unfold given at h
  unfold IsMotion
  split_ifs at h with hi
  · cases ha : segment configuration (accIndex configSize extraDim) with
    | none => rw [ha] at h; cases h
    | some a =>
      have h6 : 6 ≤ extraDim := by
        by_contra hc
        unfold accIndex at ha hi
        rw [segment_none (by omega)] at ha
        cases ha
      rw [if_pos h6]
      rw [ha] at h
      cases hd : segment configuration (accIndex configSize extraDim - 3) with
      | none => rw [hd] at h; cases h
      | some d =>
        rw [hd] at h
        cases h
        rw [segment_entries hd]
        unfold extra accIndex
        rw [hn, Nat.add_sub_cancel]
  · have h6 : ¬ 6 ≤ extraDim := by
      unfold accIndex at hi
      omega
    rw [if_neg h6]
    cases hp : segment configuration 0 with
    | none => rw [hp] at h; cases h
    | some p =>
      rw [hp] at h
      cases hp' : segment previous 0 with
      | none => rw [hp'] at h; cases h
      | some p' =>
        rw [hp'] at h
        cases h
        exact ⟨p, p', by simpa using segment_entries hp, by simpa using segment_entries hp', rfl⟩

/-- **C185** (partial: for motions straight up).  The direction given to contact generation is the unit direction of the motion. -/
theorem C185_upward_partial {configSize extraDim : ℕ} {acc : Vec3 ℝ} {configuration previous : List ℝ} {g : Given} (hn : configuration.length = configSize) (he : extraDim ≤ configSize)
    (h : given configSize extraDim acc configuration previous = some g) (k : ℝ) (hk : 0 < k) (hm : ∀ m, IsMotion extraDim configuration previous m → m = ⟨0, 0, k⟩) : g.direction = Heur.normalize g.dir ∧ IsMotion extraDim configuration previous g.dir := by
  have hi := given_motion hn he h
  refine ⟨?_, hi⟩
  have hd := hm _ hi
  have hdir : g.direction = directionOf g.dir := by
    unfold given at h
    split_ifs at h <;> split at h <;> cases h <;> rfl
  have hsq : Real.sqrt (Vec3.normSq (⟨0, 0, k⟩ : Vec3 ℝ)) = k := by
    rw [show Vec3.normSq (⟨0, 0, k⟩ : Vec3 ℝ) = k * k by simp [Vec3.normSq, Vec3.dot]]
    exact Real.sqrt_mul_self hk.le
  have hpos : Vec3.normSq (⟨0, 0, k⟩ : Vec3 ℝ) > 0 := by
    rw [show Vec3.normSq (⟨0, 0, k⟩ : Vec3 ℝ) = k * k by simp [Vec3.normSq, Vec3.dot]]
    positivity
  have hnorm : Heur.normalize (⟨0, 0, k⟩ : Vec3 ℝ) = ⟨0, 0, 1⟩ := by
    unfold Heur.normalize
    rw [if_pos hpos, hsq]
    ext <;> simp [Vec3.smul, hk.ne']
  rw [hdir, hd, hnorm]
  rfl

/-- **C185 is violated**: whatever the motion, the direction given to contact generation is straight up. -/
theorem C185_violated {configSize extraDim : ℕ} {acc : Vec3 ℝ} {configuration previous : List ℝ} {g : Given} (h : given configSize extraDim acc configuration previous = some g) :
    g.direction = ⟨0, 0, 1⟩ := by
  unfold given at h
  split_ifs at h <;> split at h <;> cases h <;> rfl

theorem sideWeight_zero (y : ℝ) (pos n : Vec3 ℝ) : ∃ w, sideWeight (y > 0) ⟨0, 0, 0⟩ pos n = (w, ⟨0, 0, 0⟩) := by
  have hz : -(⟨0, 0, 0⟩ : Vec3 ℝ) = ⟨0, 0, 0⟩ := by ext <;> simp
  unfold sideWeight
  dsimp only
  split_ifs
  · exact ⟨_, by rw [hz]⟩
  · exact ⟨_, rfl⟩
  · exact ⟨_, by rw [hz]⟩
  · exact ⟨_, rfl⟩

/-- **C185 is violated**, for the heuristics: of two samples with the same static value and height, during an interpolation "forward" and "backward" prefer neither, up to the random number; the dynamic walk heuristic does not depend on the motion but for the acceleration;
the EFORT heuristics evaluate the vertical effort. -/
theorem C185_heuristics_violated [LinearOrder N] {configSize extraDim : ℕ} {acc : Vec3 ℝ} {configuration previous : List ℝ} {g : Given} (h : given configSize extraDim acc configuration previous = some g)
    (r r' : ℝ) (s s' : Sample) (n : Vec3 ℝ) (hs : s.staticValue = s'.staticValue) :
    (s.effectorPositionInLimbFrame.z = s'.effectorPositionInLimbFrame.z → forwardHeuristic r s g.direction n - r = forwardHeuristic r' s' g.direction n - r') ∧
    (s.effectorPosition.z = s'.effectorPosition.z → backwardHeuristic r s g.direction n - r = backwardHeuristic r' s' g.direction n - r') ∧
    (∀ params : Params N, dynamicWalk r s (some g.direction) n params = 100 * n.z * s.staticValue +
      ((groundPos s params).x * params.comAcceleration.x + (groundPos s params).y * params.comAcceleration.y) + r) ∧
    efort s g.direction n = s.jacobianProduct.r2.z * n.z := by
  rw [C185_violated h]
  refine ⟨?_, ?_, ?_, ?_⟩
  · intro hz
    simp [forwardHeuristic, Vec3.dot, hs, hz]
  · intro hz
    simp [backwardHeuristic, Vec3.dot, hs, hz]
  · intro params
    have hz : Heur.normalize (⟨0, 0, 0⟩ : Vec3 ℝ) = ⟨0, 0, 0⟩ := by
      unfold Heur.normalize
      rw [if_neg (by simp [Vec3.normSq, Vec3.dot])]
    have hsq : Real.sqrt (Vec3.normSq (⟨0, 0, 1⟩ : Vec3 ℝ)) ≠ 0 := by
      simp [Vec3.normSq, Vec3.dot]
    unfold dynamicWalk
    simp only [hsq, if_false, hz]
    obtain ⟨w, hw⟩ := sideWeight_zero (s.effectorPosition - s.effectorPositionInLimbFrame).y (groundPos s params) (Heur.normalize n)
    have hw' : sideWeight ((s.effectorPosition - s.effectorPositionInLimbFrame).y > 0) ⟨0, 0, 0⟩
        (⟨(params.tfWorldRoot.rot.mulVec s.effectorPositionInLimbFrame).x, (params.tfWorldRoot.rot.mulVec s.effectorPositionInLimbFrame).y, 0⟩ : Vec3 ℝ) (Heur.normalize n) = (w, ⟨0, 0, 0⟩) := hw
    rw [hw']
    simp only [groundPos, Vec3.dot]
    ring
  · simp [efort, effort, Vec3.dot, Mat3.mulVec]

/-- a walk of 30 cm forwards, without extra degrees of freedom: the direction is up -/
example : ∃ g, given 7 0 0 [3 / 10, 0, 1, 0, 0, 0, 1] [0, 0, 1, 0, 0, 0, 1] = some g ∧ g.dir = ⟨3 / 10, 0, 0⟩ ∧ g.direction = ⟨0, 0, 1⟩ := by
  refine ⟨⟨⟨3 / 10, 0, 0⟩, ⟨0, 0, 1⟩, 0⟩, ?_, rfl, rfl⟩
  have hi : ¬ accIndex 7 0 < [(3 / 10 : ℝ), 0, 1, 0, 0, 0, 1].length := by simp [accIndex]
  unfold given
  rw [if_neg hi]
  simp [segment, directionOf, Vec3.ext_iff]

/-- a robot lifted by 20 cm meets the hypotheses of the partial theorem -/
example : ∃ g, given 7 0 0 [0, 0, 6 / 5, 0, 0, 0, 1] [0, 0, 1, 0, 0, 0, 1] = some g ∧ ∀ m, IsMotion 0 [0, 0, 6 / 5, 0, 0, 0, 1] [0, 0, 1, 0, 0, 0, 1] m → m = ⟨0, 0, 1 / 5⟩ := by
  refine ⟨⟨⟨0, 0, 6 / 5⟩ - ⟨0, 0, 1⟩, ⟨0, 0, 1⟩, 0⟩, ?_, ?_⟩
  · have hi : ¬ accIndex 7 0 < [(0 : ℝ), 0, 6 / 5, 0, 0, 0, 1].length := by simp [accIndex]
    unfold given
    rw [if_neg hi]
    simp [segment, directionOf]
  · intro m hm
    unfold IsMotion at hm
    rw [if_neg (by decide)] at hm
    obtain ⟨p, p', h1, h2, rfl⟩ := hm
    simp [entries] at h1 h2
    ext <;> simp [h1, h2]
    norm_num

/-! ### C186 -/

theorem rootOf_some {q : List ℝ} (h : 7 ≤ q.length) : ∃ root, rootOf q = some root ∧ entries root.trans = q.take 3 := by
  obtain ⟨v, hv, ev⟩ := segment_some (q := q) (i := 0) (by omega)
  refine ⟨⟨Proj.Quat.toMatrix ⟨q[6], q[3], q[4], q[5]⟩, v⟩, ?_, ev⟩
  unfold rootOf
  rw [hv, List.getElem?_eq_getElem (show 3 < q.length by omega), List.getElem?_eq_getElem (show 4 < q.length by omega), List.getElem?_eq_getElem (show 5 < q.length by omega),
    List.getElem?_eq_getElem (show 6 < q.length by omega)]

/-- **C186 (speed and acceleration)** (partial: with exactly six extra degrees of freedom, velocity and acceleration).  Contact generation gets the acceleration of the configuration, and the heuristics the speed and the acceleration of the configuration of the state. -/
theorem C186_dynamics_partial {configSize : ℕ} (acc : Vec3 ℝ) (configuration previous : List ℝ) (hn : configuration.length = configSize) (he : 13 ≤ configSize) (com : List ℝ → Vec3 ℝ) (path : Option (ℝ → Tf))
    (t : ℝ) (offset : Vec3 ℝ) (limb : N) (s : State N ℝ) (hs : s.configuration.length = configSize) :
    ∃ g p, given configSize 6 acc configuration previous = some g ∧ paramsOf com g.acceleration path t offset limb s = some p ∧
      entries g.acceleration = (extra 6 configuration).drop 3 ∧ p.comAcceleration = g.acceleration ∧ entries p.comSpeed = (extra 6 s.configuration).take 3 ∧
      p.comPosition = com s.configuration ∧ p.contactPositions = s.contactPositions ∧ p.sampleLimbName = limb ∧ p.comPath = path ∧ p.currentPathId = t ∧ p.limbReferenceOffset = offset ∧
      entries p.tfWorldRoot.trans = s.configuration.take 3 := by
  have hidx : accIndex configSize 6 = configSize - 3 := by unfold accIndex; omega
  obtain ⟨a, ha, ea⟩ := segment_some (q := configuration) (i := configSize - 3) (by omega)
  obtain ⟨d, hd, _⟩ := segment_some (q := configuration) (i := configSize - 3 - 3) (by omega)
  obtain ⟨v, hv, ev⟩ := segment_some (q := s.configuration) (i := s.configuration.length - 6) (by omega)
  obtain ⟨root, hr, er⟩ := rootOf_some (q := s.configuration) (by omega)
  refine ⟨⟨d, directionOf d, a⟩, ⟨s.contactPositions, com s.configuration, v, a, limb, root, path, t, offset⟩, ?_, ?_, ?_, rfl, ?_, rfl, rfl, rfl, rfl, rfl, rfl, er⟩
  · unfold given
    rw [if_pos (by rw [hidx]; omega), hidx, ha, hd]
  · unfold paramsOf
    rw [hv, hr]
  · rw [ea]
    unfold extra
    rw [hn, List.drop_drop, show configSize - 6 + 3 = configSize - 3 by omega, List.take_of_length_le (by simp; omega)]
  · exact ev

/-- **C186 (static)**.  With at most three extra degrees of freedom the acceleration given to contact generation is zero for every configuration of the path. -/
theorem C186_static (configSize extraDim : ℕ) (he : extraDim ≤ 3) (he' : extraDim ≤ configSize) (l : List (List ℝ × List ℝ)) (hl : ∀ c ∈ l, c.1.length = configSize) (gs : List Given)
    (h : givenAll configSize extraDim 0 l = some gs) : ∀ g ∈ gs, g.acceleration = 0 := by
  induction l generalizing gs with
  | nil =>
    simp only [givenAll, Option.some.injEq] at h
    subst h
    simp
  | cons c l ih =>
    obtain ⟨q, q'⟩ := c
    simp only [givenAll] at h
    cases hg : given configSize extraDim 0 q q' with
    | none => rw [hg] at h; cases h
    | some g =>
      have ha : g.acceleration = 0 := by
        have hq := hl (q, q') (by simp)
        unfold given at hg
        rw [if_neg (by unfold accIndex; simp only at hq; omega)] at hg
        split at hg <;> cases hg
        rfl
      rw [hg] at h
      simp only [ha] at h
      cases hr : givenAll configSize extraDim 0 l with
      | none => rw [hr] at h; cases h
      | some gs' =>
        rw [hr] at h
        cases h
        intro g' hg'
        rcases List.mem_cons.1 hg' with rfl | hg'
        · exact ha
        · exact ih (fun c hc => hl c (List.mem_cons_of_mem _ hc)) gs' hr g' hg'

/-- **C186 is violated** with four or five extra degrees of freedom: the acceleration is read beyond the end of the configuration. -/
theorem C186_outside_violated (configSize extraDim : ℕ) (he : extraDim = 4 ∨ extraDim = 5) (he' : extraDim ≤ configSize) (acc : Vec3 ℝ) (configuration previous : List ℝ) (hn : configuration.length = configSize) :
    given configSize extraDim acc configuration previous = none := by
  unfold given
  rw [if_pos (by unfold accIndex; omega), segment_none (by unfold accIndex; omega)]

/-- **C186 is violated** without extra degrees of freedom: the speed of the centre of mass that the heuristics get is made of the values of the joints before the last three. -/
theorem C186_speed_violated (com : List ℝ → Vec3 ℝ) (a : Vec3 ℝ) (path : Option (ℝ → Tf)) (t : ℝ) (offset : Vec3 ℝ) (limb : N) (s : State N ℝ) (joints : List ℝ) (x y z u v w : ℝ)
    (hs : s.configuration = joints ++ [x, y, z, u, v, w]) (p : Params N) (h : paramsOf com a path t offset limb s = some p) : p.comSpeed = ⟨x, y, z⟩ := by
  unfold paramsOf at h
  split at h
  · rename_i vv root hv hr
    cases h
    have e := segment_entries hv
    rw [hs] at e
    simp [entries] at e
    ext
    · exact e.1
    · exact e.2.1
    · exact e.2.2
  · cases h

/-- **C186 (root)**.  The placement of the root given to the heuristics turns by the angle around the vertical that the configuration has. -/
theorem C186_root (x y z θ : ℝ) (joints : List ℝ) (p : Vec3 ℝ) : ∃ root, rootOf ([x, y, z, 0, 0, Real.sin (θ / 2), Real.cos (θ / 2)] ++ joints) = some root ∧
    root.apply p = ⟨x + (Real.cos θ * p.x - Real.sin θ * p.y), y + (Real.sin θ * p.x + Real.cos θ * p.y), z + p.z⟩ := by
  refine ⟨_, rfl, ?_⟩
  have hc : Real.cos θ = 1 - 2 * Real.sin (θ / 2) * Real.sin (θ / 2) := by
    have h1 := Real.cos_two_mul (θ / 2)
    have h2 := Real.sin_sq_add_cos_sq (θ / 2)
    rw [show 2 * (θ / 2) = θ by ring] at h1
    linear_combination h1 + 2 * h2
  have hs : Real.sin θ = 2 * Real.sin (θ / 2) * Real.cos (θ / 2) := by
    have h1 := Real.sin_two_mul (θ / 2)
    rwa [show 2 * (θ / 2) = θ by ring] at h1
  rw [hc, hs]
  unfold Tf.apply Mat3.mulVec Proj.Quat.toMatrix
  ext <;> simp [Vec3.dot] <;> ring

/-- a root (7 entries), velocity `(4, 5, 6)` and acceleration `(7, 8, 9)`: both are read -/
example : ∃ g, given 13 6 0 [0, 0, 1, 0, 0, 0, 1, 4, 5, 6, 7, 8, 9] [] = some g ∧ g.dir = ⟨4, 5, 6⟩ ∧ g.acceleration = ⟨7, 8, 9⟩ := by
  have hi : accIndex 13 6 < [(0 : ℝ), 0, 1, 0, 0, 0, 1, 4, 5, 6, 7, 8, 9].length := by simp [accIndex]
  unfold given
  rw [if_pos hi]
  exact ⟨_, rfl, rfl, rfl⟩

/-- a robot with six joints at `0.1, …, 0.6` and no extra degree of freedom: the heuristics are told that the centre of mass moves at `(0.1, 0.2, 0.3)` -/
example (s : State ℕ ℝ) (hs : s.configuration = [0, 0, 1, 0, 0, 0, 1] ++ [0.1, 0.2, 0.3, 0.4, 0.5, 0.6]) :
    ∃ p, paramsOf (fun _ => 0) 0 none 0 0 1 s = some p ∧ p.comSpeed = ⟨0.1, 0.2, 0.3⟩ := by
  unfold paramsOf
  rw [hs]
  exact ⟨_, rfl, rfl⟩

end Motion
end Rbprm
