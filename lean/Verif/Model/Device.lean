import Verif.Base.AMap
import Verif.Model.Projection
set_option linter.unusedSectionVars false
/-!
# Model of `rbprm-device.cc`, of the frames computed by `rbprm-limb.cc`, `RbPrmFullBody::referenceConfig` and of the positions stored by `sample.cc`

Numbers are reals. A device has a current configuration, and the configuration for which its transforms were last computed: `currentConfiguration` changes the first, `computeForwardKinematics`
makes them equal, and `currentTransformation` of a joint or frame reads the second (hpp-pinocchio).
-/
namespace Rbprm
namespace Dev
variable {N : Type _} [LinearOrder N]

/-! ### RbPrmDevice -/

/-- a device of hpp-pinocchio: configuration, neutral configuration of the joints, number of extra degrees of freedom [hpp-pinocchio, base class of rbprm-device.hh:43] -/
structure Body where
  configuration : List ℝ
  neutral : List ℝ
  extra : ℕ

open Classical in
/-- `Device::currentConfiguration (q)` of hpp-pinocchio: answers whether the configuration changed [called in rbprm-device.cc:51-57] -/
noncomputable def Body.set (b : Body) (q : List ℝ) : Body × Bool := ({ b with configuration := q }, decide (b.configuration ≠ q))

/-- `Device::setDimensionExtraConfigSpace` of hpp-pinocchio: the configuration becomes neutral [called in rbprm-device.cc:59-66] -/
noncomputable def Body.setExtra (b : Body) (n : ℕ) : Body := { b with extra := n, configuration := b.neutral ++ List.replicate n 0 }

/-- rbprm-device.hh:43-99 `RbPrmDevice`; `junk`: content of a default constructed vector -/
structure RbDevice (N : Type _) where
  body : Body
  roms : AMap N Body
  references : AMap N (Vec3 ℝ)
  junk : Vec3 ℝ

/-- rbprm-device.cc:86-90 constructor -/
def RbDevice.create (body : Body) (roms : AMap N Body) (junk : Vec3 ℝ) : RbDevice N := ⟨body, roms, [], junk⟩

/-- rbprm-device.cc:50-56 `currentConfiguration` -/
noncomputable def RbDevice.set (d : RbDevice N) (q : List ℝ) : RbDevice N × Bool :=
  let r := d.body.set q
  ({ d with roms := d.roms.map fun e => (e.1, (e.2.set q).1), body := r.1 }, r.2)

/-- rbprm-device.cc:58-66 `setDimensionExtraConfigSpace` -/
noncomputable def RbDevice.setExtra (d : RbDevice N) (n : ℕ) : RbDevice N := { d with body := d.body.setExtra n, roms := d.roms.map fun e => (e.1, e.2.setExtra n) }

/-- rbprm-device.cc:68-75 `getEffectorReference` -/
def RbDevice.getReference (d : RbDevice N) (rom : N) : Vec3 ℝ :=
  match d.references.find? rom with
  | none => d.junk
  | some v => v

/-- rbprm-device.cc:77-84 `setEffectorReference` -/
def RbDevice.setReference (d : RbDevice N) (rom : N) (v : Vec3 ℝ) : RbDevice N :=
  match d.references.find? rom with
  | none => { d with references := d.references.insertNew rom v }
  | some _ => { d with references := d.references.set rom v }

/-! ### placements -/

/-- a rigid transform (`Transform3f` of pinocchio, `currentTransformation`) [rbprm-limb.cc:86-106] -/
@[ext] structure Placement where
  rot : Mat3 ℝ
  trans : Vec3 ℝ

/-- image of a point [rbprm-limb.cc:86-106] -/
noncomputable def Placement.act (t : Placement) (v : Vec3 ℝ) : Vec3 ℝ := t.rot.mulVec v + t.trans

/-- `inverse`: of a rotation matrix, its transpose [rbprm-limb.cc:86-106] -/
noncomputable def Placement.inv (t : Placement) : Placement := ⟨t.rot.transpose, 0 - t.rot.transpose.mulVec t.trans⟩

/-- product [rbprm-limb.cc:86-106] -/
noncomputable def Placement.mul (a b : Placement) : Placement := ⟨Stability.mulMat a.rot b.rot, a.rot.mulVec b.trans + a.trans⟩

/-- rbprm-fullbody.cc:316-319, rbprm-limb.cc:91-95: placement of the root from the first coordinates; the quaternion is stored as x, y, z, w -/
noncomputable def rootPlacement (q : List ℝ) : Placement :=
  ⟨(Proj.Quat.mk (q.getD 6 0) (q.getD 3 0) (q.getD 4 0) (q.getD 5 0)).toMatrix, ⟨q.getD 0 0, q.getD 1 0, q.getD 2 0⟩⟩

/-- the robot: neutral configuration, placement of the frames in the world [rbprm-limb.cc:86-153] -/
structure Kin (N : Type _) where
  neutral : List ℝ
  frame : N → List ℝ → Placement

/-- current configuration of the device and configuration of its transforms [rbprm-limb.cc:86-106, rbprm-fullbody.cc:310-341] -/
structure Device where
  current : List ℝ
  computed : List ℝ

/-- `currentConfiguration (q)` [rbprm-limb.cc:86-106] -/
def Device.set (d : Device) (q : List ℝ) : Device := { d with current := q }

/-- `computeForwardKinematics ()` [rbprm-limb.cc:86-106] -/
def Device.forward (d : Device) : Device := { d with computed := d.current }

/-! ### limbs -/

/-- rbprm-limb.hh:121-139: the attributes that depend on frames -/
structure Limb (N : Type _) where
  effector : N
  defaultRotation : Mat3 ℝ
  offset : Vec3 ℝ
  normal : Vec3 ℝ
  reference : Vec3 ℝ

variable (k : Kin N)

/-- rbprm-limb.cc:77-84 `GetEffectorTransform`: sets the neutral configuration, reads the transform of the frame (without computing it), restores the configuration. The reference to a member
of a temporary is taken to be still valid. -/
noncomputable def effectorTransform (d : Device) (e : N) : Device × Mat3 ℝ :=
  let d' := d.set k.neutral
  let rot := (k.frame e d'.computed).rot
  (d'.set d.current, rot.transpose)

/-- rbprm-limb.cc:86-108 `computeEffectorReferencePosition` -/
noncomputable def effectorReference (d : Device) (e : N) : Device × Vec3 ℝ :=
  let tRoot := rootPlacement k.neutral
  let d' := (d.set k.neutral).forward
  let tJoint := k.frame e d'.computed
  (d', (tRoot.inv.mul tJoint).trans)

/-- rbprm-limb.cc:110-147 constructor; the samples (l.131) are made with a clone of the device -/
noncomputable def createLimb (d : Device) (e : N) (offset normal : Vec3 ℝ) : Device × Limb N :=
  let r := effectorTransform k d e
  let s := effectorReference k r.1 e
  (s.1, { effector := e, defaultRotation := r.2, offset := r.2.mulVec offset, normal := r.2.mulVec normal, reference := s.2 })

/-! ### RbPrmFullBody -/

/-- the attributes of the full body that depend on frames [rbprm-fullbody.hh:51-225] -/
structure FullBody (N : Type _) where
  device : Device
  limbs : AMap N (Limb N)
  nonContacting : AMap N (Limb N)
  reference : List ℝ

/-- rbprm-fullbody.cc:353-365 constructor -/
def FullBody.create (d : Device) : FullBody N := ⟨d, [], [], k.neutral⟩

/-- rbprm-fullbody.cc:142-160 `AddLimb`; `false`: throws, the limb exists (l.125-140; the heuristic is found) -/
noncomputable def FullBody.addLimb (fb : FullBody N) (id e : N) (offset normal : Vec3 ℝ) : FullBody N × Bool :=
  match fb.limbs.find? id with
  | some _ => (fb, false)
  | none =>
    let r := createLimb k fb.device e offset normal
    ({ fb with device := r.1, limbs := fb.limbs.insertNew id r.2 }, true)

/-- rbprm-fullbody.cc:162-174 `AddNonContactingLimb` -/
noncomputable def FullBody.addNonContacting (fb : FullBody N) (id e : N) : FullBody N × Bool :=
  match fb.nonContacting.find? id with
  | some _ => (fb, false)
  | none =>
    let r := createLimb k fb.device e 0 ⟨0, 0, 1⟩
    ({ fb with device := r.1, nonContacting := fb.nonContacting.insertNew id r.2 }, true)

/-- rbprm-fullbody.cc:292-308 `toggleNonContactingLimb` -/
def FullBody.toggle (fb : FullBody N) (id : N) : FullBody N × Bool :=
  match fb.limbs.find? id with
  | some l => ({ fb with nonContacting := fb.nonContacting.insertNew id l, limbs := fb.limbs.erase id }, true)
  | none =>
    match fb.nonContacting.find? id with
    | some l => ({ fb with limbs := fb.limbs.insertNew id l, nonContacting := fb.nonContacting.erase id }, true)
    | none => (fb, false)

/-- rbprm-fullbody.cc:310-341 `referenceConfig (q)` -/
noncomputable def FullBody.setReference (fb : FullBody N) (q : List ℝ) : FullBody N :=
  let tRoot := rootPlacement q
  let d := (fb.device.set q).forward
  { fb with
    reference := q
    device := d
    limbs := fb.limbs.map fun e => (e.1, { e.2 with reference := (tRoot.inv.mul (k.frame e.2.effector d.computed)).trans }) }

/-- the calls; `move`: the user sets a configuration and computes the transforms [rbprm-fullbody.cc:142-192, 310-341] -/
inductive Op (N : Type _) where
  | addLimb (id e : N) (offset normal : Vec3 ℝ)
  | addNonContacting (id e : N)
  | toggle (id : N)
  | setReference (q : List ℝ)
  | move (q : List ℝ)

/-- effect of a call [rbprm-fullbody.cc:142-192, 310-341] -/
noncomputable def FullBody.step (fb : FullBody N) : Op N → FullBody N
  | .addLimb id e o n => (fb.addLimb k id e o n).1
  | .addNonContacting id e => (fb.addNonContacting k id e).1
  | .toggle id => (fb.toggle id).1
  | .setReference q => fb.setReference k q
  | .move q => { fb with device := (fb.device.set q).forward }

/-! ### positions of samples -/

/-- sample.cc:39-55 `ComputeEffectorPosition`: from the placements of the parent of the limb and of the effector -/
noncomputable def effectorPosition (parent effector : Placement) (offset : Vec3 ℝ) : Vec3 ℝ := parent.inv.act (effector.trans + offset)

/-- sample.cc:66-83 `ComputeEffectorPositionInLimbFrame` -/
noncomputable def effectorPositionInLimbFrame (limb effector : Placement) (offset limbOffset : Vec3 ℝ) : Vec3 ℝ := (effector.trans + offset) - limb.act limbOffset

/-- projection.cc:614-624: the position of the effector predicted by a sample, when the parent of the limb (`octreeRoot`, rbprm-limb.cc:149-153) is at `parent` -/
noncomputable def predicted (parent : Placement) (samplePosition : Vec3 ℝ) : Vec3 ℝ := parent.act samplePosition

/-- sample-db.cc:253-268: vertices and normal of the triangle of an obstacle at `placement` that are reported: those of the mesh, the placement is only used for the collision test (l.231-232) -/
noncomputable def reportedTriangle (_placement : Placement) (v1 v2 v3 : Vec3 ℝ) : (Vec3 ℝ × Vec3 ℝ × Vec3 ℝ) × Vec3 ℝ :=
  ((v1, v2, v3), Proj.normalized (Vec3.cross (v2 - v1) (v3 - v1)))

/-- sample.cc:30-37 `ComputeLength`: ranks and sizes of the joint of the limb and of the effector -/
def computeLength (limbRank effectorRank effectorSize : ℕ) : ℕ := effectorRank + effectorSize - limbRank

end Dev
end Rbprm
