import Verif.Props.DeepContacts
import Verif.Props.Device
/-!
# Property C181: a contact placed again by deep filtering stays where it was

`tryReplaceStates`, `trySkipStates` (rbprm-path-interpolation.cc:656-798) and `projectStateToObstacle` (projection.cc:458-504, 661-683): a user relies on the limb coming back to the place of the contact that is copied.
-/
set_option linter.unusedSectionVars false
namespace Rbprm
namespace Interp
open State Contact
variable {N Smp : Type _} [LinearOrder N]

/-! ## Specification -/

/-- the filter projects with the function of the library, without imposed rotation, and knows the offsets of the limbs -/
structure UsesProjection (rob : Proj.Robot N Smp) (sv : Solvers N ℝ) : Prop where
  state : ∀ limb s n p s', sv.projectState limb s n p = (true, s') → ∃ device check l lock rep, rob.limbs.find? limb = some l ∧
    rob.stateToObstacle device check limb l s n p lock ⟨0, 0, 0⟩ = some rep ∧ rep.success = true ∧ rep.result = s'
  offset : ∀ limb l, rob.limbs.find? limb = some l → sv.limbOffset limb = l.offset
  centi : sv.centi = 1 / 100

/-- where the sole of the limb touches: the offset of the limb is given in the frame of its effector -/
def sole (l : Proj.Limb N) (d : ContactData ℝ) : Vec3 ℝ := d.1 + d.2.2.mulVec l.offset

/-! ## Proofs -/

/-- where a projection of the library puts the sole -/
theorem projected_sole (rob : Proj.Robot N Smp) (he : rob.Exact) (hpost : rob.postural = false) {device : List ℝ} {check : List ℝ → Bool} {limb : N} {l : Proj.Limb N} (hreg : rob.limbs.find? limb = some l)
    (h6 : l.contact.sixDof = true) {s : State N ℝ} {n p : Vec3 ℝ} {lock : Bool} {rep : Proj.Report N} (h : rob.stateToObstacle device check limb l s n p lock ⟨0, 0, 0⟩ = some rep) (hs : rep.success = true)
    {d : ContactData ℝ} (hd : HasContact rep.result limb d) : sole l d = p + Vec3.smul (1 / 1000) n ∧ d.2.1 = n ∧ d.2.2 = (rob.placement limb l s.configuration n p ⟨0, 0, 0⟩).1 := by
  unfold Proj.Robot.stateToObstacle at h
  obtain ⟨cs, _, rfl⟩ := Option.map_eq_some_iff.1 h
  obtain ⟨_, h2, h3, _, h5⟩ := Proj.toObstacle_success he hreg hs
  have h3 := h3 h6
  rw [hpost] at h3
  simp only [Bool.false_eq_true, if_false] at h3
  obtain ⟨k1, k2, k3⟩ := hd
  rw [h5] at k1 k2 k3
  simp only [State.addContact, AMap.find?_set, if_true] at k1 k2 k3
  have e1 := Option.some.inj k1
  have e2 := Option.some.inj k2
  have e3 := (Option.some.inj k3).symm.trans h3
  refine ⟨?_, e2.symm, e3⟩
  unfold sole
  rw [← e1, e3, ← Proj.epsilon_eq]
  exact Proj.sub_add_cancel' _ _ _

/-- **C181 (where it lands)** With an exact solver, without postural task, for a limb with a surface contact: when the contact `d` of a limb is placed again, giving `d'`, the sole of the limb is moved by the difference between the
offset in the frame of the world and the offset in the frame of the effector, and by one millimetre along the normal (replacement) or nine millimetres into the surface (skipping); the normal is kept. -/
theorem C181_shift (rob : Proj.Robot N Smp) (he : rob.Exact) (hpost : rob.postural = false) (sv : Solvers N ℝ) (hu : UsesProjection rob sv) (limb : N) (l : Proj.Limb N) (hreg : rob.limbs.find? limb = some l)
    (h6 : l.contact.sixDof = true) (d d' : ContactData ℝ) (h : PlacedAgain sv limb d d') :
    d'.2.1 = d.2.1 ∧ ∃ depth ∈ [(1 / 1000 : ℝ), -(9 / 1000)], sole l d' = sole l d + (l.offset - d.2.2.mulVec l.offset) + Vec3.smul depth d.2.1 := by
  obtain ⟨h0, base, aim, mid, haim, hp, hd⟩ := h
  refine ⟨h0, ?_⟩
  obtain ⟨device, check, l', lock, rep, hreg', hrep, hs, rfl⟩ := hu.state _ _ _ _ _ hp
  cases hreg.symm.trans hreg'
  obtain ⟨h1, _, _⟩ := projected_sole rob he hpost hreg h6 hrep hs hd
  rw [hu.offset limb l hreg, hu.centi] at haim
  rcases haim with rfl | rfl
  · refine ⟨1 / 1000, by simp, ?_⟩
    rw [h1]
    ext <;> simp only [sole, Vec3.add_x, Vec3.add_y, Vec3.add_z, Vec3.sub_x, Vec3.sub_y, Vec3.sub_z, Vec3.smul] <;> ring
  · refine ⟨-(9 / 1000), by simp, ?_⟩
    rw [h1]
    ext <;> simp only [sole, Vec3.add_x, Vec3.add_y, Vec3.add_z, Vec3.sub_x, Vec3.sub_y, Vec3.sub_z, Vec3.smul] <;> ring

/-- **C181 (same place)** (partial: the contact must be one whose rotation leaves the offset of the limb unchanged, for example a foot flat on a horizontal ground; with an exact solver, without postural task, for a surface contact.)
Then the sole comes back at most nine millimetres from where it was, if the normal is a unit vector. -/
theorem C181_place_partial (rob : Proj.Robot N Smp) (he : rob.Exact) (hpost : rob.postural = false) (sv : Solvers N ℝ) (hu : UsesProjection rob sv) (limb : N) (l : Proj.Limb N)
    (hreg : rob.limbs.find? limb = some l) (h6 : l.contact.sixDof = true) (d d' : ContactData ℝ) (hn : Vec3.normSq d.2.1 = 1) (hflat : d.2.2.mulVec l.offset = l.offset) (h : PlacedAgain sv limb d d') :
    Vec3.distSq (sole l d') (sole l d) ≤ (9 / 1000) ^ 2 := by
  obtain ⟨_, depth, hdep, e⟩ := C181_shift rob he hpost sv hu limb l hreg h6 d d' h
  have e' : Vec3.distSq (sole l d') (sole l d) = depth ^ 2 * Vec3.normSq d.2.1 := by
    rw [e, hflat]
    simp only [Vec3.distSq, Vec3.normSq, Vec3.dot, Vec3.add_x, Vec3.add_y, Vec3.add_z, Vec3.sub_x, Vec3.sub_y, Vec3.sub_z, Vec3.smul]
    ring
  rw [e', hn]
  simp only [List.mem_cons, List.not_mem_nil, or_false] at hdep
  rcases hdep with rfl | rfl <;> norm_num

/-- **C181 (orientation)** The effector is turned so that its normal is that of the surface. -/
theorem C181_aligned (rob : Proj.Robot N Smp) (he : rob.Exact) (hpost : rob.postural = false) (hax : Proj.Perpendicular rob.axis) (sv : Solvers N ℝ) (hu : UsesProjection rob sv) (limb : N) (l : Proj.Limb N)
    (hreg : rob.limbs.find? limb = some l) (h6 : l.contact.sixDof = true) (hrot : ∀ q, Orthogonal (rob.frameRot limb l q)) (hln : l.normal ≠ 0) (d d' : ContactData ℝ) (hn : d.2.1 ≠ 0)
    (h : PlacedAgain sv limb d d') : d'.2.2.mulVec (Proj.normalized l.normal) = Proj.normalized d.2.1 := by
  obtain ⟨h0, base, aim, mid, _, hp, hd⟩ := h
  obtain ⟨device, check, l', lock, rep, hreg', hrep, hs, rfl⟩ := hu.state _ _ _ _ _ hp
  cases hreg.symm.trans hreg'
  obtain ⟨_, _, h2⟩ := projected_sole rob he hpost hreg h6 hrep hs hd
  rw [h2]
  exact Proj.placement_aligned rob limb l base.configuration d.2.1 _ (hrot _) hn hln hax

/-! ## A foot on a wall -/

/-- the foot of a robot, whose sole is one metre away from its effector, along its axis -/
def soleLimb : Proj.Limb ℕ := Proj.demoLimb true ⟨0, 0, 1⟩

/-- the rotation of the effector which puts the sole on a wall orthogonal to the x axis: the vertical axis becomes the normal of the wall -/
def wallRot : Mat3 ℝ := ⟨⟨0, 0, 1⟩, ⟨0, 1, 0⟩, ⟨-1, 0, 0⟩⟩

open Classical in
/-- a robot whose effector has always the rotation `rot`, and can be put at `pos` -/
noncomputable def fixedRobot (rot : Mat3 ℝ) (pos : Vec3 ℝ) : Proj.Robot ℕ ℕ :=
  ({ kin := ⟨fun _ q => if q = [1, 1] then pos else 0, fun _ _ => rot, fun _ => 0⟩
     rootPos := fun _ => 0, rootRot := fun _ => Mat3.one, limbs := [(1, soleLimb)], root := .mk 0 0 1 [.mk 1 1 1 []]
     apply := fun _ q => (false, q), valid := fun _ => true, limbValid := fun _ _ => true, samples := fun _ => [], load := fun _ q => q, postural := false, axis := Proj.perpAxis, junk := 0 } :
    Proj.Robot ℕ ℕ).solving [1, 1]

/-- the solvers of the library for this robot -/
noncomputable def fixedSv (rob : Proj.Robot ℕ ℕ) : Solvers ℕ ℝ where
  reach := fun _ _ => true
  projectState := fun limb s n p =>
    if limb = 1 then
      match rob.stateToObstacle [] (fun _ => true) 1 soleLimb s n p false ⟨0, 0, 0⟩ with
      | some rep => (rep.success, rep.result)
      | none => (false, s)
    else (false, s)
  projectRoot := fun _ s => (true, s)
  fullValid := fun _ => true
  limbOffset := fun _ => ⟨0, 0, 1⟩
  projectEffector := fun _ _ _ _ _ _ => none
  epsilonSq := 0
  centi := 1 / 100
  extraDim := 0

theorem fixedSv_uses (rob : Proj.Robot ℕ ℕ) (hl : rob.limbs = [(1, soleLimb)]) : UsesProjection rob (fixedSv rob) := by
  refine ⟨fun limb s n p s' h => ?_, fun limb l h => ?_, rfl⟩
  · simp only [fixedSv] at h
    split_ifs at h with h1
    · subst h1
      cases hrep : rob.stateToObstacle [] (fun _ => true) 1 soleLimb s n p false ⟨0, 0, 0⟩ with
      | none => rw [hrep] at h; cases h
      | some rep =>
        rw [hrep] at h
        exact ⟨[], fun _ => true, soleLimb, false, rep, by rw [hl]; rfl, hrep, (Prod.mk.inj h).1, (Prod.mk.inj h).2⟩
    · cases h
  · rw [hl, AMap.find?_cons] at h
    split_ifs at h
    · cases h; rfl
    · cases h

/-- the state of the robot with its foot at the origin -/
noncomputable def footState (rot : Mat3 ℝ) (n : Vec3 ℝ) : State ℕ ℝ := (State.init 0).addContact 1 0 n rot [0, 0]

theorem rotation_self (opp : Vec3 ℝ → Vec3 ℝ → Vec3 ℝ) (n : Vec3 ℝ) (hn : Vec3.normSq n = 1) : Proj.rotationBetween opp n n = Mat3.one := by
  have e : Proj.normalized n = n := by
    unfold Proj.normalized Proj.norm
    rw [hn]
    simp [Vec3.smul]
  unfold Proj.rotationBetween Proj.fromTwoVectors
  simp only [e]
  have hd : Vec3.dot n n = 1 := hn
  rw [hd, if_neg (by norm_num)]
  ext <;> simp [Proj.Quat.toMatrix, Vec3.cross, Mat3.one, mul_comm]

/-- placing again the contact of the foot succeeds, and puts the effector where it is computed -/
theorem foot_placedAgain (rot : Mat3 ℝ) (n : Vec3 ℝ) (hn : Vec3.normSq n = 1) (hz : rot.mulVec ⟨0, 0, 1⟩ = n) :
    let pos := (⟨0, 0, 1⟩ - n : Vec3 ℝ) + Vec3.smul Proj.epsilon n
    PlacedAgain (fixedSv (fixedRobot rot pos)) 1 (0, n, rot) (pos, n, rot) := by
  intro pos
  set rob := fixedRobot rot pos with hrob
  have hfr : ∀ q, rob.frameRot 1 soleLimb q = rot := fun q => mulMat_one _
  have hpl : rob.placement 1 soleLimb [0, 0] n ⟨0, 0, 1⟩ ⟨0, 0, 0⟩ = (rot, pos) := by
    unfold Proj.Robot.placement
    simp only [if_true, hfr]
    rw [show soleLimb.normal = ⟨0, 0, 1⟩ from rfl, hz, rotation_self _ n hn, Dev.one_mulMat]
    refine Prod.ext rfl ?_
    rw [show soleLimb.offset = ⟨0, 0, 1⟩ from rfl, hz]
  have hcs : rob.contactConstraints ((footState rot n).removeContact 1).1 = some [] := rfl
  have hap : ∀ cs q, (∀ c ∈ cs, c.holds rob [1, 1]) → rob.apply cs q = (true, [1, 1]) := fun cs q h => Proj.solving_apply _ _ cs q h
  have hpos : rob.kin.pos 1 [1, 1] = pos := if_pos rfl
  have hlimb : rob.limbs.find? 1 = some soleLimb := rfl
  have hsucc : rob.stateToObstacle [] (fun _ => true) 1 soleLimb (footState rot n) n ⟨0, 0, 1⟩ false ⟨0, 0, 0⟩ =
      some ⟨true, (State.init rob.junk).assign (((footState rot n).removeContact 1).1.addContact 1 pos n rot [1, 1]) false⟩ := by
    unfold Proj.Robot.stateToObstacle
    simp only [hcs, Option.map_some]
    unfold Proj.Robot.toObstacle Proj.Robot.projectEffector
    rw [show (footState rot n).configuration = [0, 0] from rfl, hpl]
    simp only
    rw [hap]
    · simp only [Bool.and_self, if_true, hpos, hfr]
    · intro c hc
      simp only [Bool.false_eq_true, if_false, List.append_nil, List.nil_append, List.mem_append, List.mem_singleton, show soleLimb.contact.sixDof = true from rfl, if_true,
        show rob.postural = false from rfl] at hc
      rcases hc with rfl | rfl
      · simp only [Proj.Constraint.holds, sub_eq_zero', hpos]
      · simp only [Proj.Constraint.holds, hlimb, Bool.false_eq_true, if_false, hfr]
  refine ⟨rfl, footState rot n, ⟨0, 0, 1⟩, (State.init rob.junk).assign (((footState rot n).removeContact 1).1.addContact 1 pos n rot [1, 1]) false, Or.inl ?_, ?_, ?_⟩
  · ext <;> simp [fixedSv]
  · simp only [fixedSv, if_true, hsucc]
  · exact ⟨rfl, rfl, rfl⟩

/-- the hypotheses of C181 are met: on the ground the foot comes back -/
example : ∃ (rob : Proj.Robot ℕ ℕ) (sv : Solvers ℕ ℝ) (d d' : ContactData ℝ), rob.Exact ∧ rob.postural = false ∧ Proj.Perpendicular rob.axis ∧ UsesProjection rob sv ∧ rob.limbs.find? 1 = some soleLimb ∧
    soleLimb.contact.sixDof = true ∧ soleLimb.normal ≠ 0 ∧ (∀ q, Orthogonal (rob.frameRot 1 soleLimb q)) ∧ Vec3.normSq d.2.1 = 1 ∧ d.2.2.mulVec soleLimb.offset = soleLimb.offset ∧ soleLimb.offset ≠ 0 ∧
    PlacedAgain sv 1 d d' := by
  refine ⟨fixedRobot Mat3.one ((⟨0, 0, 1⟩ - ⟨0, 0, 1⟩ : Vec3 ℝ) + Vec3.smul Proj.epsilon ⟨0, 0, 1⟩), _, _, _, Proj.solving_exact _ _, rfl, Proj.perpAxis_perpendicular, fixedSv_uses _ rfl, rfl, rfl, ?_, ?_, ?_, ?_, ?_,
    foot_placedAgain Mat3.one ⟨0, 0, 1⟩ (by simp [Vec3.normSq, Vec3.dot]) (Proj.one_mulVec _)⟩
  · intro h
    have := congrArg Vec3.z h
    simp [soleLimb, Proj.demoLimb] at this
  · intro q
    have : (fixedRobot Mat3.one ((⟨0, 0, 1⟩ - ⟨0, 0, 1⟩ : Vec3 ℝ) + Vec3.smul Proj.epsilon ⟨0, 0, 1⟩)).frameRot 1 soleLimb q = Mat3.one := mulMat_one _
    rw [this]
    exact Proj.one_orthogonal
  · simp [Vec3.normSq, Vec3.dot]
  · exact Proj.one_mulVec _
  · intro h
    have := congrArg Vec3.z h
    simp [soleLimb, Proj.demoLimb] at this

/-- **C181 is violated** by a foot on a wall: the rotation of the effector is forgotten when the contact is placed again, and the sole, one metre away from the effector, lands more than one metre away, off the wall `x = 1`. -/
theorem C181_violated : ∃ (rob : Proj.Robot ℕ ℕ) (sv : Solvers ℕ ℝ) (d d' : ContactData ℝ), rob.Exact ∧ rob.postural = false ∧ UsesProjection rob sv ∧ rob.limbs.find? 1 = some soleLimb ∧
    soleLimb.contact.sixDof = true ∧ PlacedAgain sv 1 d d' ∧ d.2.1 = ⟨1, 0, 0⟩ ∧ d'.2 = d.2 ∧ (sole soleLimb d).x = 1 ∧ (sole soleLimb d').x = 1 / 1000 ∧ 1 < Vec3.distSq (sole soleLimb d') (sole soleLimb d) := by
  refine ⟨_, _, _, _, Proj.solving_exact _ _, rfl, fixedSv_uses _ rfl, rfl, rfl,
    foot_placedAgain wallRot ⟨1, 0, 0⟩ (by simp [Vec3.normSq, Vec3.dot]) (by simp [wallRot, Mat3.mulVec, Vec3.dot]), rfl, rfl, ?_, ?_, ?_⟩
  · simp [sole, soleLimb, Proj.demoLimb, wallRot, Mat3.mulVec, Vec3.dot]
  · norm_num [sole, soleLimb, Proj.demoLimb, wallRot, Mat3.mulVec, Vec3.dot, Proj.epsilon, Vec3.smul]
  · norm_num [sole, soleLimb, Proj.demoLimb, wallRot, Mat3.mulVec, Vec3.dot, Proj.epsilon, Vec3.smul, Vec3.distSq, Vec3.normSq]

end Interp
end Rbprm
