import Verif.Model.Device
import Verif.Props.Projection
import Mathlib.Tactic.LinearCombination
import Mathlib.Tactic.NormNum
import Mathlib.Tactic.Positivity
import Mathlib.Tactic.FieldSimp
set_option linter.unusedSectionVars false
/-!
# C137–C140: `RbPrmDevice`, frames of limbs, reference configuration, positions of samples
-/
namespace Rbprm
namespace Dev
variable {N : Type _} [LinearOrder N]
open Proj (mulMat_mulVec one_mulVec)

/-! ### C137 -/

/-- C137: setting a configuration gives it to the robot and to all its ROMs -/
theorem C137_config (d : RbDevice N) (q : List ℝ) : (d.set q).1.body.configuration = q ∧ (d.set q).1.roms.keys = d.roms.keys ∧
    (∀ n b, (d.set q).1.roms.find? n = some b → b.configuration = q ∧ ∃ b0, d.roms.find? n = some b0 ∧ b.extra = b0.extra) ∧
    (d.set q).1.body.extra = d.body.extra ∧ ∀ n, (d.set q).1.getReference n = d.getReference n := by
  refine ⟨rfl, ?_, ?_, rfl, fun n => rfl⟩
  · show AMap.keys (List.map _ _) = _
    simp [AMap.keys, Function.comp_def]
  · intro n b h
    have : AMap.find? (d.roms.map fun e => (e.1, (e.2.set q).1)) n = some b := h
    rw [Proj.find_map (fun b => (Body.set b q).1)] at this
    obtain ⟨b0, h0, rfl⟩ := Option.map_eq_some_iff.1 this
    exact ⟨rfl, b0, h0, rfl⟩

/-- C137: the answer tells whether the configuration of the robot changed -/
theorem C137_answer (d : RbDevice N) (q : List ℝ) : (d.set q).2 = true ↔ d.body.configuration ≠ q := by
  show decide _ = true ↔ _
  simp

/-- C137, violated: the answer may be false although a ROM moved -/
theorem C137_answer_violated : ∃ (d : RbDevice ℕ) (q : List ℝ) (b b' : Body), (d.set q).2 = false ∧ d.roms.find? 0 = some b ∧ (d.set q).1.roms.find? 0 = some b' ∧ b.configuration ≠ b'.configuration := by
  refine ⟨⟨⟨[1], [0], 0⟩, [(0, ⟨[0], [0], 0⟩)], [], 0⟩, [1], _, _, ?_, rfl, rfl, ?_⟩
  · show decide _ = false
    simp
  · simp [Body.set]

/-- C137: the number of extra degrees of freedom is that of the robot and of all its ROMs, and their configurations have the new size -/
theorem C137_extra (d : RbDevice N) (m : ℕ) : (d.setExtra m).body.extra = m ∧ (d.setExtra m).body.configuration.length = d.body.neutral.length + m ∧ (d.setExtra m).roms.keys = d.roms.keys ∧
    (∀ n b, (d.setExtra m).roms.find? n = some b → b.extra = m ∧ b.configuration.length = b.neutral.length + m) ∧ ∀ n, (d.setExtra m).getReference n = d.getReference n := by
  refine ⟨rfl, by simp [RbDevice.setExtra, Body.setExtra], ?_, ?_, fun n => rfl⟩
  · show AMap.keys (List.map _ _) = _
    simp [AMap.keys, Function.comp_def]
  · intro n b h
    have : AMap.find? (d.roms.map fun e => (e.1, e.2.setExtra m)) n = some b := h
    rw [Proj.find_map (fun b => Body.setExtra b m)] at this
    obtain ⟨b0, _, rfl⟩ := Option.map_eq_some_iff.1 this
    exact ⟨rfl, by simp [Body.setExtra]⟩

/-- C137: in the new configuration the joints are neutral and the extra degrees of freedom 0 -/
theorem C137_extra_values (d : RbDevice N) (m : ℕ) : ((d.setExtra m).body.configuration.take d.body.neutral.length = d.body.neutral ∧ ∀ x ∈ (d.setExtra m).body.configuration.drop d.body.neutral.length, x = 0) ∧
    ∀ n b, (d.setExtra m).roms.find? n = some b → b.configuration.take b.neutral.length = b.neutral ∧ ∀ x ∈ b.configuration.drop b.neutral.length, x = 0 := by
  refine ⟨?_, ?_⟩
  · simp [RbDevice.setExtra, Body.setExtra]
  · intro n b h
    have : AMap.find? (d.roms.map fun e => (e.1, e.2.setExtra m)) n = some b := h
    rw [Proj.find_map (fun b => Body.setExtra b m)] at this
    obtain ⟨b0, _, rfl⟩ := Option.map_eq_some_iff.1 this
    simp [Body.setExtra]

theorem getReference_set (d : RbDevice N) (n m : N) (v : Vec3 ℝ) : (d.setReference n v).getReference m = if m = n then v else d.getReference m := by
  unfold RbDevice.setReference
  cases h : d.references.find? n with
  | none =>
    simp only [RbDevice.getReference, AMap.find?_insertNew]
    split_ifs with hm
    · simp [h]
    · rfl
  | some w =>
    simp only [RbDevice.getReference, AMap.find?_set]
    split_ifs <;> rfl

/-- C137: the reference of a ROM is the last one that was set for it, whatever was set for the others -/
theorem C137_reference (body : Body) (roms : AMap N Body) (junk : Vec3 ℝ) (sets : List (N × Vec3 ℝ)) (n : N) :
    (sets.foldl (fun d s => d.setReference s.1 s.2) (RbDevice.create body roms junk)).getReference n = ((sets.reverse.find? fun s => s.1 = n).map (·.2)).getD junk := by
  induction sets using List.reverseRecOn with
  | nil => rfl
  | append_singleton l s ih =>
    rw [List.foldl_append, List.foldl_cons, List.foldl_nil, getReference_set, ih, List.reverse_append]
    simp only [List.reverse_cons, List.reverse_nil, List.nil_append, List.singleton_append, List.find?_cons]
    by_cases h : n = s.1
    · rw [if_pos h]
      simp [h]
    · rw [if_neg h, decide_eq_false (fun h' => h h'.symm)]

/-- C137, violated: without a reference, the result is not the null vector of the documentation but what was in memory -/
theorem C137_unset_violated (body : Body) (roms : AMap N Body) (junk : Vec3 ℝ) (n : N) : (RbDevice.create body roms junk).getReference n = junk := rfl

/-! ### placements -/

theorem inv_mul_trans (a b : Placement) : (a.inv.mul b).trans = a.rot.transpose.mulVec (b.trans - a.trans) := by
  simp only [Placement.mul, Placement.inv]
  ext <;> simp [Mat3.mulVec, Vec3.dot] <;> ring

theorem act_inv {a : Placement} (h : Interp.Orthogonal a.rot) (v : Vec3 ℝ) : a.act (a.rot.transpose.mulVec (v - a.trans)) = v := by
  unfold Placement.act
  rw [← mulMat_mulVec, h.1, one_mulVec]
  ext <;> simp

theorem inv_act {a : Placement} (h : Interp.Orthogonal a.rot) (v : Vec3 ℝ) : a.inv.act (a.act v) = v := by
  unfold Placement.act Placement.inv
  simp only
  have e : a.rot.transpose.mulVec (a.rot.mulVec v + a.trans) = a.rot.transpose.mulVec (a.rot.mulVec v) + a.rot.transpose.mulVec a.trans := by
    ext <;> simp [Mat3.mulVec, Vec3.dot] <;> ring
  rw [e, ← mulMat_mulVec, h.2, one_mulVec]
  ext <;> simp

/-! ### C138: specification -/

/-- the quaternion of a configuration (coordinates 3 to 6: x, y, z, w) has norm 1 -/
def UnitQuat (q : List ℝ) : Prop := q.getD 3 0 ^ 2 + q.getD 4 0 ^ 2 + q.getD 5 0 ^ 2 + q.getD 6 0 ^ 2 = 1

/-- the reference position of a limb is the position of its effector in configuration `q`, expressed in the frame of the root -/
def Refers (k : Kin N) (l : Limb N) (q : List ℝ) : Prop := (rootPlacement q).act l.reference = (k.frame l.effector q).trans

theorem root_orthogonal {q : List ℝ} (h : UnitQuat q) : Interp.Orthogonal (rootPlacement q).rot := by
  refine (Proj.toMatrix_rotation _ ?_).1
  simp only [UnitQuat] at h
  simp only
  linarith

variable (k : Kin N)

/-- C138: the reference position of a new limb is that of the neutral configuration -/
theorem C138_create (hu : UnitQuat k.neutral) (d : Device) (e : N) (o n : Vec3 ℝ) : Refers k (createLimb k d e o n).2 k.neutral ∧ (createLimb k d e o n).2.effector = e := by
  refine ⟨?_, rfl⟩
  show (rootPlacement k.neutral).act ((rootPlacement k.neutral).inv.mul (k.frame e k.neutral)).trans = _
  rw [inv_mul_trans]
  exact act_inv (root_orthogonal hu) _

/-- C138: the normal and the offset of a new limb are, in the frame of its effector, the given ones in the neutral configuration, if the transforms of the device were computed for it -/
theorem C138_axes_partial (d : Device) (hd : d.computed = k.neutral) (e : N) (ho : Interp.Orthogonal (k.frame e k.neutral).rot) (o n : Vec3 ℝ) :
    (k.frame e k.neutral).rot.mulVec (createLimb k d e o n).2.normal = n ∧ (k.frame e k.neutral).rot.mulVec (createLimb k d e o n).2.offset = o := by
  show (k.frame e k.neutral).rot.mulVec ((k.frame e d.computed).rot.transpose.mulVec n) = n ∧ (k.frame e k.neutral).rot.mulVec ((k.frame e d.computed).rot.transpose.mulVec o) = o
  rw [hd, ← mulMat_mulVec, ← mulMat_mulVec, ho.1, one_mulVec, one_mulVec]
  exact ⟨rfl, rfl⟩

/-- C138: so they are for every limb that is added right after another one -/
theorem C138_axes_next (d : Device) (e e' : N) (o n o' n' : Vec3 ℝ) (ho : Interp.Orthogonal (k.frame e' k.neutral).rot) :
    (k.frame e' k.neutral).rot.mulVec (createLimb k (createLimb k d e o n).1 e' o' n').2.normal = n' :=
  (C138_axes_partial k _ rfl e' ho o' n').1

/-- C138: a limb is added, with the axes of its effector in the configuration of the transforms, unless its name is taken, and then nothing changes; the other limbs are kept -/
theorem C138_added (fb : FullBody N) (id e : N) (o n : Vec3 ℝ) :
    (fb.limbs.find? id = none → (fb.addLimb k id e o n).2 = true ∧ (fb.addLimb k id e o n).1 = fb.step k (.addLimb id e o n) ∧ (fb.addLimb k id e o n).1.device = ⟨k.neutral, k.neutral⟩ ∧
      (∃ l, (fb.addLimb k id e o n).1.limbs.find? id = some l ∧ l.effector = e ∧ l.offset = (k.frame e fb.device.computed).rot.transpose.mulVec o ∧
        l.normal = (k.frame e fb.device.computed).rot.transpose.mulVec n) ∧
      ∀ id', id' ≠ id → (fb.addLimb k id e o n).1.limbs.find? id' = fb.limbs.find? id') ∧
    (fb.limbs.find? id ≠ none → fb.addLimb k id e o n = (fb, false)) := by
  constructor
  · intro h
    unfold FullBody.addLimb FullBody.step FullBody.addLimb
    simp only
    rw [h]
    refine ⟨rfl, trivial, rfl, ⟨(createLimb k fb.device e o n).2, ?_, rfl, rfl, rfl⟩, fun id' hne => ?_⟩
    · simp only [AMap.find?_insertNew, h]
      simp
    · simp only [AMap.find?_insertNew]
      simp [hne]
  · intro h
    unfold FullBody.addLimb
    cases h' : fb.limbs.find? id with
    | none => exact absurd h' h
    | some l => rfl

/-- C138: the same for a limb without contact, whose offset is 0 and whose normal is the z axis -/
theorem C138_added_nonContacting (fb : FullBody N) (id e : N) :
    (fb.nonContacting.find? id = none → (fb.addNonContacting k id e).2 = true ∧ (fb.addNonContacting k id e).1 = fb.step k (.addNonContacting id e) ∧
      (fb.addNonContacting k id e).1.device = ⟨k.neutral, k.neutral⟩ ∧
      (∃ l, (fb.addNonContacting k id e).1.nonContacting.find? id = some l ∧ l.effector = e ∧ l.offset = 0 ∧ l.normal = (k.frame e fb.device.computed).rot.transpose.mulVec ⟨0, 0, 1⟩) ∧
      ∀ id', id' ≠ id → (fb.addNonContacting k id e).1.nonContacting.find? id' = fb.nonContacting.find? id') ∧
    (fb.nonContacting.find? id ≠ none → fb.addNonContacting k id e = (fb, false)) := by
  constructor
  · intro h
    unfold FullBody.addNonContacting FullBody.step FullBody.addNonContacting
    simp only
    rw [h]
    refine ⟨rfl, trivial, rfl, ⟨(createLimb k fb.device e 0 ⟨0, 0, 1⟩).2, ?_, rfl, ?_, rfl⟩, fun id' hne => ?_⟩
    · simp only [AMap.find?_insertNew, h]
      simp
    · show Mat3.mulVec _ 0 = 0
      ext <;> simp [Mat3.mulVec, Vec3.dot]
    · simp only [AMap.find?_insertNew]
      simp [hne]
  · intro h
    unfold FullBody.addNonContacting
    cases h' : fb.nonContacting.find? id with
    | none => exact absurd h' h
    | some l => rfl

/-- C138: a toggle answers whether the limb is known, and does nothing otherwise -/
theorem C138_toggle_answer (fb : FullBody N) (id : N) : ((fb.toggle id).2 = true ↔ fb.limbs.find? id ≠ none ∨ fb.nonContacting.find? id ≠ none) ∧ ((fb.toggle id).2 = false → (fb.toggle id).1 = fb) := by
  unfold FullBody.toggle
  cases h : fb.limbs.find? id with
  | some l => simp
  | none =>
    cases h' : fb.nonContacting.find? id with
    | some l => simp
    | none => simp

/-- C138, violated: a limb that is added when the transforms were computed for another configuration has another normal, although the device is set to its neutral configuration first -/
theorem C138_axes_violated : ∃ (k : Kin ℕ) (d : Device), UnitQuat k.neutral ∧ (∀ e q, Interp.Orthogonal (k.frame e q).rot) ∧ d.current = k.neutral ∧
    (k.frame 0 k.neutral).rot.mulVec (createLimb k d 0 0 ⟨1, 0, 0⟩).2.normal ≠ ⟨1, 0, 0⟩ := by
  classical
  refine ⟨⟨[0, 0, 0, 0, 0, 0, 1], fun _ q => ⟨if q = [0, 0, 0, 0, 0, 0, 1] then Mat3.one else Proj.quarter, 0⟩⟩, ⟨[0, 0, 0, 0, 0, 0, 1], []⟩, ?_, ?_, rfl, ?_⟩
  · simp [UnitQuat]
  · intro e q
    simp only
    split_ifs
    · exact Proj.one_orthogonal
    · exact Proj.quarter_orthogonal
  · intro h
    have := congrArg Vec3.x h
    simp [createLimb, effectorTransform, Device.set, Mat3.mulVec, Vec3.dot, Mat3.one, Proj.quarter, Mat3.transpose] at this

/-- C138, violated: adding a limb moves the device to its neutral configuration -/
theorem C138_moves_violated (d : Device) (e : N) (o n : Vec3 ℝ) : (createLimb k d e o n).1 = ⟨k.neutral, k.neutral⟩ := rfl

/-- C138: setting the reference configuration gives all contacting limbs the position of their effectors in it, and changes nothing else of them -/
theorem C138_reference (fb : FullBody N) (q : List ℝ) (hu : UnitQuat q) (id : N) (l : Limb N) (h : (fb.setReference k q).limbs.find? id = some l) :
    Refers k l q ∧ ∃ l0, fb.limbs.find? id = some l0 ∧ l = { l0 with reference := l.reference } := by
  have h' := (Proj.find_map (fun (l : Limb N) => ({ l with reference := ((rootPlacement q).inv.mul (k.frame l.effector q)).trans } : Limb N)) fb.limbs id).symm.trans h
  obtain ⟨l0, h0, rfl⟩ := Option.map_eq_some_iff.1 h'
  refine ⟨?_, l0, h0, rfl⟩
  show (rootPlacement q).act ((rootPlacement q).inv.mul (k.frame l0.effector q)).trans = _
  rw [inv_mul_trans]
  exact act_inv (root_orthogonal hu) _

/-- C138: it is the reference configuration from then on, the limbs are the same, and the device is in it -/
theorem C138_set (fb : FullBody N) (q : List ℝ) : (fb.setReference k q).reference = q ∧ (fb.setReference k q).limbs.keys = fb.limbs.keys ∧
    (fb.setReference k q).nonContacting = fb.nonContacting ∧ (fb.setReference k q).device = ⟨q, q⟩ := by
  refine ⟨rfl, ?_, rfl, rfl⟩
  show AMap.keys (List.map _ _) = _
  simp [AMap.keys, Function.comp_def]

/-- a call that does not add or toggle limbs -/
def Keeps : Op N → Prop
  | .move _ => True
  | _ => False

/-- C138: after all limbs were added and toggled, the contacting limbs refer to the last reference configuration that was set -/
theorem C138_last_partial (fb : FullBody N) (pre post : List (Op N)) (q : List ℝ) (hu : UnitQuat q) (hp : ∀ o ∈ post, Keeps o) (id : N) (l : Limb N)
    (h : ((pre ++ .setReference q :: post).foldl (FullBody.step k) fb).limbs.find? id = some l) :
    Refers k l q ∧ ((pre ++ .setReference q :: post).foldl (FullBody.step k) fb).reference = q := by
  have hkeep : ∀ (post : List (Op N)) (fb : FullBody N), (∀ o ∈ post, Keeps o) → (post.foldl (FullBody.step k) fb).limbs = fb.limbs ∧ (post.foldl (FullBody.step k) fb).reference = fb.reference := by
    intro post
    induction post with
    | nil => intro fb _; exact ⟨rfl, rfl⟩
    | cons o post ih =>
      intro fb ho
      have h1 := ho o (List.mem_cons_self ..)
      obtain ⟨i1, i2⟩ := ih (FullBody.step k fb o) fun o ho' => ho o (List.mem_cons_of_mem _ ho')
      rw [List.foldl_cons, i1, i2]
      cases o with
      | move q => exact ⟨rfl, rfl⟩
      | addLimb => exact h1.elim
      | addNonContacting => exact h1.elim
      | toggle => exact h1.elim
      | setReference => exact h1.elim
  rw [List.foldl_append, List.foldl_cons] at h ⊢
  obtain ⟨i1, i2⟩ := hkeep post (FullBody.step k (pre.foldl (FullBody.step k) fb) (.setReference q)) hp
  rw [i1] at h
  rw [i2]
  exact ⟨(C138_reference k _ q hu id l h).1, rfl⟩

/-- the configurations given as reference so far, and the neutral one -/
def references (k : Kin N) : List (Op N) → List (List ℝ)
  | [] => [k.neutral]
  | .setReference q :: os => q :: references k os
  | _ :: os => references k os

theorem neutral_mem (os : List (Op N)) : k.neutral ∈ references k os := by
  induction os with
  | nil => exact List.mem_singleton.2 rfl
  | cons o os ih => cases o <;> first | exact List.mem_cons_of_mem _ ih | exact ih

/-- C138: at any time every limb, contacting or not, refers to the neutral configuration or to one that was set as reference -/
theorem C138_history (d : Device) (os : List (Op N)) (hu : ∀ q ∈ references k os, UnitQuat q) (id : N) (l : Limb N)
    (h : (os.foldl (FullBody.step k) (FullBody.create k d)).limbs.find? id = some l ∨ (os.foldl (FullBody.step k) (FullBody.create k d)).nonContacting.find? id = some l) :
    ∃ q ∈ references k os, Refers k l q := by
  have hn : UnitQuat k.neutral := hu _ (neutral_mem k os)
  have key : ∀ (os : List (Op N)) (fb : FullBody N) (S : List ℝ → Prop), S k.neutral → (∀ q ∈ references k os, S q) → (∀ q ∈ references k os, UnitQuat q) →
      (∀ id l, fb.limbs.find? id = some l ∨ fb.nonContacting.find? id = some l → ∃ q, S q ∧ Refers k l q) →
      ∀ id l, (os.foldl (FullBody.step k) fb).limbs.find? id = some l ∨ (os.foldl (FullBody.step k) fb).nonContacting.find? id = some l → ∃ q, S q ∧ Refers k l q := by
    intro os
    induction os with
    | nil => intro fb S _ _ _ h; exact h
    | cons o os ih =>
      intro fb S hS hall hunit h0
      rw [List.foldl_cons]
      have hall' : ∀ q ∈ references k os, S q := by
        intro q hq
        cases o <;> exact hall q (by first | exact List.mem_cons_of_mem _ hq | exact hq)
      have hunit' : ∀ q ∈ references k os, UnitQuat q := by
        intro q hq
        cases o <;> exact hunit q (by first | exact List.mem_cons_of_mem _ hq | exact hq)
      apply ih _ S hS hall' hunit'
      intro id l hl
      cases o with
      | move q => exact h0 id l hl
      | setReference q =>
        rcases hl with hl | hl
        · exact ⟨q, hall q (List.mem_cons_self ..), (C138_reference k fb q (hunit q (List.mem_cons_self ..)) id l hl).1⟩
        · exact h0 id l (Or.inr hl)
      | addLimb id' e o n =>
        simp only [FullBody.step, FullBody.addLimb] at hl
        split at hl
        · exact h0 id l hl
        · rename_i hf
          rcases hl with hl | hl
          · rw [AMap.find?_insertNew] at hl
            split_ifs at hl with hid
            · rw [hf] at hl
              injection hl with hl
              subst hl
              exact ⟨_, hS, (C138_create k hn fb.device e o n).1⟩
            · exact h0 id l (Or.inl hl)
          · exact h0 id l (Or.inr hl)
      | addNonContacting id' e =>
        simp only [FullBody.step, FullBody.addNonContacting] at hl
        split at hl
        · exact h0 id l hl
        · rename_i hf
          rcases hl with hl | hl
          · exact h0 id l (Or.inl hl)
          · rw [AMap.find?_insertNew] at hl
            split_ifs at hl with hid
            · rw [hf] at hl
              injection hl with hl
              subst hl
              exact ⟨_, hS, (C138_create k hn fb.device e 0 _).1⟩
            · exact h0 id l (Or.inr hl)
      | toggle id' =>
        simp only [FullBody.step, FullBody.toggle] at hl
        have hins : ∀ (m : AMap N (Limb N)) (l' : Limb N), (m.insertNew id' l').find? id = some l → (m.find? id = some l ∨ l' = l) := by
          intro m l' hm
          rw [AMap.find?_insertNew] at hm
          split_ifs at hm with hid
          · subst hid
            injection hm with hm
            cases hf : m.find? id with
            | none => right; rw [hf] at hm; exact hm
            | some w => left; rw [hf] at hm; rw [← hm]; rfl
          · exact Or.inl hm
        have hera : ∀ m : AMap N (Limb N), (m.erase id').find? id = some l → m.find? id = some l := by
          intro m hm
          rw [AMap.find?_erase] at hm
          split_ifs at hm
          all_goals first | exact hm | cases hm
        split at hl
        · rename_i l' hf
          rcases hl with hl | hl
          · exact h0 id l (Or.inl (hera _ hl))
          · rcases hins _ _ hl with hl | rfl
            · exact h0 id l (Or.inr hl)
            · exact h0 id' l' (Or.inl hf)
        · split at hl
          · rename_i l' hf
            rcases hl with hl | hl
            · rcases hins _ _ hl with hl | rfl
              · exact h0 id l (Or.inl hl)
              · exact h0 id' l' (Or.inr hf)
            · exact h0 id l (Or.inr (hera _ hl))
          · exact h0 id l hl
  obtain ⟨q, hq, hr⟩ := key os (FullBody.create k d) (fun q => q ∈ references k os) (neutral_mem k os) (fun q hq => hq) hu (by
    intro id l hl
    rcases hl with hl | hl <;> cases hl) id l h
  exact ⟨q, hq, hr⟩

/-- a robot whose only effector is where the last coordinate says, along x -/
noncomputable def slider : Kin ℕ := ⟨[0, 0, 0, 0, 0, 0, 1, 0], fun _ q => ⟨Mat3.one, ⟨q.getD 7 0, 0, 0⟩⟩⟩

/-- a reference configuration with the effector at 1 -/
noncomputable def outstretched : List ℝ := [0, 0, 0, 0, 0, 0, 1, 1]

theorem root_identity (q : List ℝ) (h : q.getD 0 0 = 0 ∧ q.getD 1 0 = 0 ∧ q.getD 2 0 = 0 ∧ q.getD 3 0 = 0 ∧ q.getD 4 0 = 0 ∧ q.getD 5 0 = 0 ∧ q.getD 6 0 = 1) (v : Vec3 ℝ) :
    (rootPlacement q).act v = v := by
  obtain ⟨h0, h1, h2, h3, h4, h5, h6⟩ := h
  unfold rootPlacement Placement.act
  rw [h0, h1, h2, h3, h4, h5, h6]
  ext <;> simp [Mat3.mulVec, Vec3.dot, Proj.Quat.toMatrix]

theorem refers_slider (l : Limb ℕ) (q : List ℝ) (h : q.getD 0 0 = 0 ∧ q.getD 1 0 = 0 ∧ q.getD 2 0 = 0 ∧ q.getD 3 0 = 0 ∧ q.getD 4 0 = 0 ∧ q.getD 5 0 = 0 ∧ q.getD 6 0 = 1) :
    Refers slider l q ↔ l.reference = ⟨q.getD 7 0, 0, 0⟩ := by
  unfold Refers
  rw [root_identity q h]
  rfl

theorem unit_slider : UnitQuat slider.neutral ∧ UnitQuat outstretched := by
  constructor <;> simp [UnitQuat, slider, outstretched]

/-- C138, violated: a limb that is added after the reference configuration was set does not refer to it -/
theorem C138_order_violated (d : Device) : let fb := [Op.setReference outstretched, .addLimb 1 1 0 ⟨0, 0, 1⟩].foldl (FullBody.step slider) (FullBody.create slider d)
    fb.reference = outstretched ∧ ∃ l, fb.limbs.find? 1 = some l ∧ ¬ Refers slider l fb.reference := by
  refine ⟨rfl, _, rfl, ?_⟩
  have h1 : Refers slider (createLimb slider (FullBody.create slider d |>.setReference slider outstretched).device 1 0 ⟨0, 0, 1⟩).2 slider.neutral := (C138_create slider unit_slider.1 _ _ _ _).1
  rw [refers_slider _ _ (by simp [slider])] at h1
  show ¬ Refers slider (createLimb slider _ 1 0 ⟨0, 0, 1⟩).2 outstretched
  rw [refers_slider _ _ (by simp [outstretched])]
  intro h
  have h' := h1.symm.trans h
  have := congrArg Vec3.x h'
  simp [slider, outstretched] at this

/-- C138, violated: neither does a limb that was not contacting when it was set, after it becomes contacting -/
theorem C138_toggle_violated (d : Device) : let fb := [Op.addNonContacting 1 1, .setReference outstretched, .toggle 1].foldl (FullBody.step slider) (FullBody.create slider d)
    fb.reference = outstretched ∧ ∃ l, fb.limbs.find? 1 = some l ∧ ¬ Refers slider l fb.reference := by
  refine ⟨rfl, _, rfl, ?_⟩
  have h1 : Refers slider (createLimb slider d 1 0 ⟨0, 0, 1⟩).2 slider.neutral := (C138_create slider unit_slider.1 _ _ _ _).1
  rw [refers_slider _ _ (by simp [slider])] at h1
  show ¬ Refers slider (createLimb slider d 1 0 ⟨0, 0, 1⟩).2 outstretched
  rw [refers_slider _ _ (by simp [outstretched])]
  intro h
  have h' := h1.symm.trans h
  have := congrArg Vec3.x h'
  simp [slider, outstretched] at this

/-! ### C139 -/

theorem mul_act (g t : Placement) (v : Vec3 ℝ) : (g.mul t).act v = g.act (t.act v) := by
  unfold Placement.act Placement.mul
  simp only
  rw [mulMat_mulVec]
  ext <;> simp [Mat3.mulVec, Vec3.dot] <;> ring

theorem mul_trans (g t : Placement) : (g.mul t).trans = g.act t.trans := rfl

theorem one_mulMat (A : Mat3 ℝ) : Stability.mulMat Mat3.one A = A := by
  ext <;> simp [Stability.mulMat, Mat3.transpose, Vec3.dot, Mat3.one]

theorem mul_orthogonal {A B : Mat3 ℝ} (ha : Interp.Orthogonal A) (hb : Interp.Orthogonal B) : Interp.Orthogonal (Stability.mulMat A B) := by
  have ht : (Stability.mulMat A B).transpose = Stability.mulMat B.transpose A.transpose := by
    ext <;> simp [Stability.mulMat, Mat3.transpose, Vec3.dot] <;> ring
  constructor
  · rw [ht, Interp.mulMat_assoc, ← Interp.mulMat_assoc B, hb.1, one_mulMat, ha.1]
  · rw [ht, Interp.mulMat_assoc, ← Interp.mulMat_assoc A.transpose, ha.2, one_mulMat, hb.2]

/-- C139: the position stored in a sample is that of the effector, moved by the offset along the axes of the world, in the frame of the parent of the limb -/
theorem C139_position (parent effector : Placement) (h : Interp.Orthogonal parent.rot) (offset : Vec3 ℝ) : parent.act (effectorPosition parent effector offset) = effector.trans + offset := by
  unfold effectorPosition
  have : parent.inv.act (effector.trans + offset) = parent.rot.transpose.mulVec (effector.trans + offset - parent.trans) := by
    unfold Placement.act Placement.inv
    ext <;> simp [Mat3.mulVec, Vec3.dot] <;> ring
  rw [this]
  exact act_inv h _

/-- C139: without offset, wherever the root is (`g`: its displacement since the sample was made) the sample predicts the position that the effector has once the sample is loaded -/
theorem C139_predicted_partial (parent effector g : Placement) (h : Interp.Orthogonal parent.rot) :
    predicted (g.mul parent) (effectorPosition parent effector 0) = (g.mul effector).trans := by
  unfold predicted
  rw [mul_act, C139_position parent effector h, mul_trans]
  congr 1
  ext <;> simp

/-- C139, violated: with an offset the prediction is right only if the rotation of the displacement does not change the offset -/
theorem C139_predicted_violated (parent effector g : Placement) (h : Interp.Orthogonal parent.rot) (offset : Vec3 ℝ) :
    predicted (g.mul parent) (effectorPosition parent effector offset) = (g.mul effector).trans + offset ↔ g.rot.mulVec offset = offset := by
  unfold predicted
  rw [mul_act, C139_position parent effector h, mul_trans]
  unfold Placement.act
  have e : g.rot.mulVec (effector.trans + offset) = g.rot.mulVec effector.trans + g.rot.mulVec offset := by
    ext <;> simp [Mat3.mulVec, Vec3.dot] <;> ring
  rw [e]
  constructor
  · intro hh
    rw [Vec3.ext_iff] at hh ⊢
    simp only [Vec3.add_x, Vec3.add_y, Vec3.add_z] at hh
    exact ⟨by linarith [hh.1], by linarith [hh.2.1], by linarith [hh.2.2]⟩
  · intro hh
    rw [hh]
    ext <;> simp only [Vec3.add_x, Vec3.add_y, Vec3.add_z] <;> ring

/-- C139, violated: the offset is that of the contact point in the frame of the effector, but the stored position is that of the contact point only if the effector has the orientation of the
world -/
theorem C139_contact_violated (parent effector : Placement) (h : Interp.Orthogonal parent.rot) (offset : Vec3 ℝ) :
    parent.act (effectorPosition parent effector offset) = effector.act offset ↔ effector.rot.mulVec offset = offset := by
  rw [C139_position parent effector h]
  unfold Placement.act
  constructor
  · intro hh
    rw [Vec3.ext_iff] at hh ⊢
    simp only [Vec3.add_x, Vec3.add_y, Vec3.add_z] at hh
    exact ⟨by linarith [hh.1], by linarith [hh.2.1], by linarith [hh.2.2]⟩
  · intro hh
    rw [hh]
    ext <;> simp only [Vec3.add_x, Vec3.add_y, Vec3.add_z] <;> ring

/-- C139, violated: two samples with the same joints of the limb, made with different orientations of the root, store different positions if the limb has an offset -/
theorem C139_orientation_violated (parent effector g : Placement) (h : Interp.Orthogonal parent.rot) (hg : Interp.Orthogonal g.rot) (offset : Vec3 ℝ) :
    effectorPosition (g.mul parent) (g.mul effector) offset = effectorPosition parent effector offset ↔ g.rot.mulVec offset = offset := by
  have ho : Interp.Orthogonal (g.mul parent).rot := mul_orthogonal hg h
  have h1 := C139_position (g.mul parent) (g.mul effector) ho offset
  rw [← C139_predicted_violated parent effector g h offset]
  unfold predicted
  constructor
  · intro hh
    rw [← hh, h1]
  · intro hh
    have := congrArg (fun v => (g.mul parent).inv.act v) (h1.trans hh.symm)
    simpa only [inv_act ho] using this

/-- C139: the position in the frame of the limb is that of the effector from the limb, in the axes of the world; it does not change with the position of the root and turns with it -/
theorem C139_limb_frame (limb effector g : Placement) (limbOffset : Vec3 ℝ) :
    (∀ offset, limb.act limbOffset + effectorPositionInLimbFrame limb effector offset limbOffset = effector.trans + offset) ∧
    effectorPositionInLimbFrame (g.mul limb) (g.mul effector) 0 limbOffset = g.rot.mulVec (effectorPositionInLimbFrame limb effector 0 limbOffset) := by
  constructor
  · intro offset
    unfold effectorPositionInLimbFrame
    ext <;> simp
  · unfold effectorPositionInLimbFrame
    rw [mul_act, mul_trans]
    unfold Placement.act
    ext <;> simp [Mat3.mulVec, Vec3.dot] <;> ring

/-- joints of a chain, as ranks and sizes: each starts where the previous one ends -/
def Chain : List (ℕ × ℕ) → Prop
  | a :: b :: l => b.1 = a.1 + a.2 ∧ Chain (b :: l)
  | _ => True

/-- C139: the sample holds the coordinates of all joints from the limb to the effector -/
theorem C139_length (j : ℕ × ℕ) (js : List (ℕ × ℕ)) (h : Chain (j :: js)) :
    computeLength j.1 ((j :: js).getLast (List.cons_ne_nil _ _)).1 ((j :: js).getLast (List.cons_ne_nil _ _)).2 = ((j :: js).map (·.2)).sum := by
  have key : ∀ (js : List (ℕ × ℕ)) (j : ℕ × ℕ), Chain (j :: js) →
      ((j :: js).getLast (List.cons_ne_nil _ _)).1 + ((j :: js).getLast (List.cons_ne_nil _ _)).2 = j.1 + ((j :: js).map (·.2)).sum := by
    intro js
    induction js with
    | nil => intro j _; simp
    | cons b js ih =>
      intro j h
      rw [List.getLast_cons (List.cons_ne_nil _ _), ih b h.2, h.1]
      simp only [List.map_cons, List.sum_cons]
      omega
  have := key js j h
  unfold computeLength
  omega

/-- a displacement that turns about z by a quarter turn, and an offset that it changes -/
theorem C139_example : ∃ (g : Placement) (offset : Vec3 ℝ), Interp.Orthogonal g.rot ∧ g.rot.mulVec offset ≠ offset := by
  refine ⟨⟨Proj.quarter, 0⟩, ⟨1, 0, 0⟩, Proj.quarter_orthogonal, ?_⟩
  intro h
  have := congrArg Vec3.x h
  simp [Proj.quarter, Mat3.mulVec, Vec3.dot] at this

/-! ### C140 -/

/-- the triangle of an obstacle in the world -/
def InWorldTriangle (placement : Placement) (v1 v2 v3 p : Vec3 ℝ) : Prop := Triangle.InTriangle (placement.act v1) (placement.act v2) (placement.act v3) p

/-- C140: the position chosen for a contact (the point of the reported triangle that is nearest to the effector) is on the obstacle, if the obstacle is at the identity placement -/
theorem C140_partial (placement : Placement) (hp : ∀ v, placement.act v = v) (effector v1 v2 v3 : Vec3 ℝ) :
    let t := (reportedTriangle placement v1 v2 v3).1
    InWorldTriangle placement v1 v2 v3 (Triangle.closestPointInTriangle effector t.1 t.2.1 t.2.2) := by
  unfold InWorldTriangle
  rw [hp, hp, hp]
  exact Triangle.C47_inside _ _ _ _

/-- C140: the reported normal is the unit normal of the obstacle, on the side from which its vertices turn counter-clockwise, if the obstacle is at the identity placement -/
theorem C140_normal_partial (placement : Placement) (hp : ∀ v, placement.act v = v) (v1 v2 v3 : Vec3 ℝ) (hd : Vec3.cross (placement.act v2 - placement.act v1) (placement.act v3 - placement.act v1) ≠ 0) :
    let n := (reportedTriangle placement v1 v2 v3).2
    Vec3.dot n n = 1 ∧ Vec3.dot n (placement.act v2 - placement.act v1) = 0 ∧ Vec3.dot n (placement.act v3 - placement.act v1) = 0 ∧
      0 < Vec3.dot n (Vec3.cross (placement.act v2 - placement.act v1) (placement.act v3 - placement.act v1)) := by
  rw [hp, hp, hp] at *
  intro n
  have hpos : 0 < Vec3.normSq (Vec3.cross (v2 - v1) (v3 - v1)) := by
    generalize Vec3.cross (v2 - v1) (v3 - v1) = c at hd
    rcases lt_or_eq_of_le (show 0 ≤ Vec3.normSq c by simp only [Vec3.normSq, Vec3.dot]; nlinarith [mul_self_nonneg c.x, mul_self_nonneg c.y, mul_self_nonneg c.z]) with h | h
    · exact h
    · exfalso
      apply hd
      simp only [Vec3.normSq, Vec3.dot] at h
      ext
      · show c.x = 0
        nlinarith [mul_self_nonneg c.x, mul_self_nonneg c.y, mul_self_nonneg c.z]
      · show c.y = 0
        nlinarith [mul_self_nonneg c.x, mul_self_nonneg c.y, mul_self_nonneg c.z]
      · show c.z = 0
        nlinarith [mul_self_nonneg c.x, mul_self_nonneg c.y, mul_self_nonneg c.z]
  have e1 : Vec3.dot (Vec3.cross (v2 - v1) (v3 - v1)) (v2 - v1) = 0 := by simp only [Vec3.dot, Vec3.cross]; ring
  have e2 : Vec3.dot (Vec3.cross (v2 - v1) (v3 - v1)) (v3 - v1) = 0 := by simp only [Vec3.dot, Vec3.cross]; ring
  have hn : n = Proj.normalized (Vec3.cross (v2 - v1) (v3 - v1)) := rfl
  generalize Vec3.cross (v2 - v1) (v3 - v1) = c at *
  obtain ⟨s, hs, hss, hns⟩ : ∃ s : ℝ, 0 < s ∧ s * s * Vec3.normSq c = 1 ∧ n = Vec3.smul s c := by
    have hr : 0 < Real.sqrt (Vec3.normSq c) := Real.sqrt_pos.2 hpos
    refine ⟨1 / Real.sqrt (Vec3.normSq c), one_div_pos.2 hr, ?_, ?_⟩
    · have h2 := Real.mul_self_sqrt hpos.le
      generalize Real.sqrt (Vec3.normSq c) = s at *
      rw [← h2]
      field_simp
    · rw [hn]
      unfold Proj.normalized
      rw [if_pos hpos]
      rfl
  rw [hns]
  have d : ∀ w, Vec3.dot (Vec3.smul s c) w = s * Vec3.dot c w := fun w => by simp only [Vec3.dot, Vec3.smul]; ring
  refine ⟨?_, ?_, ?_, ?_⟩
  · have : Vec3.dot (Vec3.smul s c) (Vec3.smul s c) = s * s * Vec3.normSq c := by simp only [Vec3.dot, Vec3.smul, Vec3.normSq]; ring
    rw [this, hss]
  · rw [d, e1, mul_zero]
  · rw [d, e2, mul_zero]
  · rw [d]
    exact mul_pos hs hpos

theorem inTriangle_plane {a b c p n : Vec3 ℝ} {h : ℝ} (ha : Vec3.dot n a = h) (hb : Vec3.dot n b = h) (hc : Vec3.dot n c = h) (hp : Triangle.InTriangle a b c p) : Vec3.dot n p = h := by
  obtain ⟨x, y, z, _, _, _, hsum, rfl⟩ := hp
  simp only [Vec3.dot, Vec3.smul, Vec3.add_x, Vec3.add_y, Vec3.add_z] at *
  linear_combination x * ha + y * hb + z * hc + h * hsum

/-- C140, violated: if the obstacle was moved off its plane, the chosen position is not on the obstacle, wherever the effector is -/
theorem C140_violated (placement : Placement) (effector v1 v2 v3 n : Vec3 ℝ) (h h' : ℝ) (h1 : Vec3.dot n v1 = h) (h2 : Vec3.dot n v2 = h) (h3 : Vec3.dot n v3 = h)
    (w1 : Vec3.dot n (placement.act v1) = h') (w2 : Vec3.dot n (placement.act v2) = h') (w3 : Vec3.dot n (placement.act v3) = h') (hne : h ≠ h') :
    let t := (reportedTriangle placement v1 v2 v3).1
    ¬ InWorldTriangle placement v1 v2 v3 (Triangle.closestPointInTriangle effector t.1 t.2.1 t.2.2) := by
  intro t hin
  have e1 : Vec3.dot n (Triangle.closestPointInTriangle effector t.1 t.2.1 t.2.2) = h := inTriangle_plane h1 h2 h3 (Triangle.C47_inside effector v1 v2 v3)
  have e2 : Vec3.dot n (Triangle.closestPointInTriangle effector t.1 t.2.1 t.2.2) = h' := inTriangle_plane w1 w2 w3 hin
  exact hne (e1.symm.trans e2)

/-- C140, violated: the reported normal is not that of the obstacle if the obstacle was turned -/
theorem C140_normal_violated : ∃ (placement : Placement) (v1 v2 v3 : Vec3 ℝ), Interp.Orthogonal placement.rot ∧
    (reportedTriangle placement v1 v2 v3).2 ≠ Proj.normalized (Vec3.cross (placement.act v2 - placement.act v1) (placement.act v3 - placement.act v1)) := by
  refine ⟨⟨Proj.quarter, 0⟩, 0, ⟨0, 1, 0⟩, ⟨0, 0, 1⟩, Proj.quarter_orthogonal, ?_⟩
  intro h
  have := congrArg Vec3.x h
  simp [reportedTriangle, Placement.act, Proj.quarter, Mat3.mulVec, Vec3.dot, Vec3.cross, Proj.normalized, Proj.norm, Vec3.normSq, Vec3.smul] at this

/-- C140: an obstacle that was lifted by one metre -/
theorem C140_example : ∃ (placement : Placement) (v1 v2 v3 n : Vec3 ℝ), Interp.Orthogonal placement.rot ∧ Vec3.dot n v1 = 0 ∧ Vec3.dot n v2 = 0 ∧ Vec3.dot n v3 = 0 ∧
    Vec3.dot n (placement.act v1) = 1 ∧ Vec3.dot n (placement.act v2) = 1 ∧ Vec3.dot n (placement.act v3) = 1 ∧ Vec3.cross (v2 - v1) (v3 - v1) ≠ 0 := by
  refine ⟨⟨Mat3.one, ⟨0, 0, 1⟩⟩, 0, ⟨1, 0, 0⟩, ⟨0, 1, 0⟩, ⟨0, 0, 1⟩, Proj.one_orthogonal, ?_, ?_, ?_, ?_, ?_, ?_, ?_⟩
  all_goals try simp [Vec3.dot, Placement.act, Mat3.mulVec, Mat3.one]
  intro h
  have := congrArg Vec3.z h
  simp [Vec3.cross] at this

end Dev
end Rbprm
