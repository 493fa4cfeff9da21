import Verif.Props.Provenance
import Verif.Props.Projection
import Verif.Props.Candidates
/-!
# Property C171: contacts lie on the obstacles

The oracles of `Model/ContactGen` for the candidates and the projection of an effector are realised by `CollideOctree` (`Model/SampleDB`, sample-db.cc) and `projectSampleToObstacle` (`Model/Projection`, projection.cc): a user relies on each
contact found by contact generation being on the surface of an affordance object given for its limb, with the normal of this surface, and the effector being turned to it.
-/
set_option linter.unusedSectionVars false
namespace Rbprm
namespace Interp
open State Contact
variable {N S : Type _} [LinearOrder N]

/-! ## Specification -/

/-- the environment of contact generation is the one of the library, for the robot, the databases of its limbs and the affordance objects of the limbs; in this model the sample of a candidate is its report -/
structure UsesLibrary (env : Env N ℝ (Sampling.OctreeReport ℝ)) (rob : Proj.Robot N S) (db : N → Sampling.SampleDB N ℝ) (objects : N → State N ℝ → List (Sampling.Affordance ℝ)) : Prop where
  candidates : ∀ n params base, env.octree n params base = [] ∨
    ∃ limbEval eval, Sampling.collideOctree (db n) Proj.normalized limbEval eval (objects n base) = some (env.octree n params base)
  project : ∀ postural n limb r q s, rob.limbs.find? n = some limb → ∃ device effector,
    let o := ({ rob with postural := postural } : Proj.Robot N S).sampleToObstacle device (fun _ => true) n limb ⟨r.triangle.1, r.triangle.2.1, r.triangle.2.2, r.normal, effector⟩ q s
    env.applyEffector postural n r q s = (o.1.success, o.2)
  position : ∀ n q, env.effectorPosition n q = rob.kin.pos n q
  rotation : ∀ n limb q, rob.limbs.find? n = some limb → env.effectorRotation n q = rob.frameRot n limb q
  normal : ∀ r, env.normal r = Proj.normalized r.normal

/-- the contact is on the triangle: one millimetre above one of its points, along its unit normal, which is the recorded normal, and the normal of the effector is along it -/
structure OnTriangle (limb : Proj.Limb N) (t : Vec3 ℝ × Vec3 ℝ × Vec3 ℝ) (d : ContactData ℝ) : Prop where
  normal : d.2.1 = Proj.normalized (Vec3.cross (t.2.1 - t.1) (t.2.2 - t.1))
  point : ∃ p, Triangle.InTriangle t.1 t.2.1 t.2.2 p ∧ d.1 + d.2.2.mulVec limb.offset = p + Vec3.smul (1 / 1000) d.2.1
  aligned : d.2.2.mulVec (Proj.normalized limb.normal) = d.2.1

/-- the contact comes from a triangle of one of these objects that meets a voxel of the limb's octree, and from a sample of the limb's database in that voxel -/
def FromObject (db : Sampling.SampleDB N ℝ) (objects : List (Sampling.Affordance ℝ)) (limb : Proj.Limb N) (d : ContactData ℝ) : Prop :=
  ∃ object ∈ objects, ∃ c ∈ object.contacts, (∃ s ∈ db.samples, db.voxelOf s.effectorPosition = c.b1) ∧ OnTriangle limb (object.surface c.b2) d

/-- the triangles of the objects are not flat -/
def Solid (a : Sampling.Affordance ℝ) : Prop :=
  ∀ c ∈ a.contacts, Vec3.cross ((a.surface c.b2).2.1 - (a.surface c.b2).1) ((a.surface c.b2).2.2 - (a.surface c.b2).1) ≠ 0

/-! ## Proofs -/

theorem normalized_normalized {v : Vec3 ℝ} (h : v ≠ 0) : Proj.normalized (Proj.normalized v) = Proj.normalized v := by
  have h1 := Proj.normSq_normalized h
  have : Proj.norm (Proj.normalized v) = 1 := by unfold Proj.norm; rw [h1, Real.sqrt_one]
  have hdef : ∀ w : Vec3 ℝ, 0 < Vec3.normSq w → Proj.normalized w = Vec3.smul (1 / Proj.norm w) w := fun w hw => if_pos hw
  rw [hdef (Proj.normalized v) (by rw [h1]; norm_num), this]
  ext <;> simp [Vec3.smul]

theorem candidate_origin {env : Env N ℝ (Sampling.OctreeReport ℝ)} {rob : Proj.Robot N S} {db : N → Sampling.SampleDB N ℝ} {objects : N → State N ℝ → List (Sampling.Affordance ℝ)} (hr : UsesLibrary env rob db objects)
    (hdb : ∀ n, Sampling.Indexed (db n)) {n : N} {params base : State N ℝ} {r : Sampling.OctreeReport ℝ} (h : r ∈ env.octree n params base) :
    ∃ object ∈ objects n base, ∃ c ∈ object.contacts, (∃ s ∈ (db n).samples, (db n).voxelOf s.effectorPosition = c.b1) ∧ r.triangle = object.surface c.b2 ∧
      r.normal = Proj.normalized (Vec3.cross (r.triangle.2.1 - r.triangle.1) (r.triangle.2.2 - r.triangle.1)) := by
  rcases hr.candidates n params base with h0 | ⟨limbEval, eval, h0⟩
  · rw [h0] at h; cases h
  · have hk := ((Sampling.C33_collide (hdb n) Proj.normalized limbEval eval (objects n base)).2 _ h0).perm.mem_iff.1 h
    obtain ⟨object, ho, hk⟩ := List.mem_flatMap.1 hk
    obtain ⟨c, hc, hk⟩ := List.mem_flatMap.1 hk
    unfold Sampling.dueReports at hk
    obtain ⟨⟨s, i⟩, hs, rfl⟩ := List.mem_map.1 hk
    obtain ⟨hs, hv⟩ := List.mem_filter.1 hs
    refine ⟨object, ho, c, hc, ⟨s, ?_, by simpa using hv⟩, rfl, rfl⟩
    exact List.mem_of_getElem? ((List.mk_mem_zipIdx_iff_getElem? ..).1 hs)

theorem exact_postural {rob : Proj.Robot N S} (he : rob.Exact) (p : Bool) : ({ rob with postural := p } : Proj.Robot N S).Exact := by
  intro cs q h c hc
  have := he cs q h c hc
  cases c <;> exact this

theorem success_configuration (rob : Proj.Robot N S) (proj : List (Proj.Constraint N)) (check : List ℝ → Bool) (n : N) (limb : Proj.Limb N) (q : List ℝ) (s : State N ℝ) (normal position : Vec3 ℝ) (rotation : Mat3 ℝ)
    (h : (rob.toObstacle proj check n limb q s normal position rotation).1.success = true) :
    (rob.toObstacle proj check n limb q s normal position rotation).1.result.configuration = (rob.toObstacle proj check n limb q s normal position rotation).2 := by
  unfold Proj.Robot.toObstacle Proj.Robot.projectEffector at h ⊢
  dsimp only at h ⊢
  generalize rob.apply _ q = r at h ⊢
  by_cases hc : (r.1 && check r.2) = true
  · rw [if_pos hc]
    rfl
  · rw [if_neg hc] at h
    cases h

/-- **C171** A contact found by contact generation for a limb with a surface contact is on a triangle of one of the affordance objects of the limb, with the normal of the triangle, the effector being turned to it; the triangle meets the voxel of
a sample of the limb.  Assumed: the solver only answers true if the constraints hold, frames are rotations, triangles are not flat, and with the postural task the normal and the offset of the limb are along the axis of its
effector (without this it is false, `C131_postural_violated`). -/
theorem C171_contact_partial (env : Env N ℝ (Sampling.OctreeReport ℝ)) (rob : Proj.Robot N S) (db : N → Sampling.SampleDB N ℝ) (objects : N → State N ℝ → List (Sampling.Affordance ℝ)) (hr : UsesLibrary env rob db objects)
    (he : rob.Exact) (hax : Proj.Perpendicular rob.axis) (hdb : ∀ n, Sampling.Indexed (db n)) (n : N) (limb : Proj.Limb N) (hreg : rob.limbs.find? n = some limb) (h6 : limb.contact.sixDof = true)
    (hrot : ∀ q, Orthogonal (rob.frameRot n limb q)) (hln : limb.normal ≠ 0) (hsolid : ∀ s, ∀ a ∈ objects n s, Solid a) (d : ContactData ℝ)
    (hz : (∃ k m, limb.normal = ⟨0, 0, k⟩ ∧ limb.offset = ⟨0, 0, m⟩) ∨ ∀ r q s, (env.applyEffector true n r q s).1 = false)
    (h : Found env n d) : ∃ base, FromObject (db n) (objects n base) limb d := by
  obtain ⟨params, base, r, postural, q, cfg, hmem, happ, _, hd⟩ := h
  obtain ⟨object, ho, c, hc, hs, htri, hnorm⟩ := candidate_origin hr hdb hmem
  refine ⟨base, object, ho, c, hc, hs, ?_⟩
  have hne := hsolid base object ho c hc
  rw [← htri] at hne ⊢
  obtain ⟨device, effector, hp⟩ := hr.project postural n limb r (env.load r q) { base with stable := false } hreg
  simp only at hp
  rw [happ] at hp
  obtain ⟨hp1, hp2⟩ := Prod.mk.inj hp
  set rob' : Proj.Robot N S := { rob with postural := postural } with hrob'
  set t : Proj.Target := ⟨r.triangle.1, r.triangle.2.1, r.triangle.2.2, r.normal, effector⟩ with ht
  have hrn : r.normal ≠ 0 := by
    intro h0
    have := Proj.normSq_normalized hne
    rw [← hnorm, h0] at this
    simp [Vec3.normSq, Vec3.dot] at this
  have hnn : Proj.normalized r.normal = r.normal := by rw [hnorm]; exact normalized_normalized hne
  have hcfg : (rob'.sampleToObstacle device (fun _ => true) n limb t (env.load r q) { base with stable := false }).1.result.configuration = cfg := by
    rw [hp2]
    exact success_configuration rob' _ _ n limb _ _ _ _ _ hp1.symm
  have key : Proj.Aligned rob' n limb cfg (Proj.normalized t.normal) ∧
      ∃ p, Triangle.InTriangle t.v1 t.v2 t.v3 p ∧ rob'.kin.pos n cfg + (rob'.frameRot n limb cfg).mulVec limb.offset = p + Vec3.smul (1 / 1000) (Proj.normalized t.normal) := by
    rw [← hcfg]
    cases postural with
    | false =>
      obtain ⟨k1, _, k2⟩ := Proj.C131_triangle rob' (exact_postural he false) device (fun _ => true) n limb hreg h6 rfl t (env.load r q) { base with stable := false } (hrot _) hrn hln hax hp1.symm
      exact ⟨k1, k2⟩
    | true =>
      obtain ⟨k, m, e1, e2⟩ := hz.resolve_right (fun hc => by have := hc r (env.load r q) { base with stable := false }; rw [happ] at this; cases this)
      have hk : k ≠ 0 := by rintro rfl; exact hln (by rw [e1]; rfl)
      have htn : Proj.normalized t.normal ≠ 0 := by
        show Proj.normalized r.normal ≠ 0
        rw [hnn]
        exact hrn
      obtain ⟨k1, k2⟩ := Proj.C131_postural_partial rob' (exact_postural he true) _ (fun _ => true) n limb hreg h6 (env.load r q) { base with stable := false } (Proj.normalized t.normal)
        (Triangle.closestPointInTriangle t.effector t.v1 t.v2 t.v3) (hrot _) htn hax k m e1 hk e2 hp1.symm
      exact ⟨k1, _, Triangle.C47_inside t.effector t.v1 t.v2 t.v3, k2⟩
  obtain ⟨k1, k2⟩ := key
  have e1 : d = (rob.kin.pos n cfg, r.normal, rob.frameRot n limb cfg) := by rw [hd, hr.position, hr.rotation n limb cfg hreg, hr.normal, hnn]
  have e2 : Proj.normalized t.normal = r.normal := hnn
  rw [e2] at k1 k2
  rw [e1]
  refine ⟨hnorm, k2, ?_⟩
  have : Proj.Aligned rob' n limb cfg r.normal := k1
  unfold Proj.Aligned at this
  rw [hnn] at this
  exact this

/-- **C171 (initial states)** Each contact of a state computed without previous state is on a triangle of one of the affordance objects of its limb. -/
theorem C171_initial_partial (env : Env N ℝ (Sampling.OctreeReport ℝ)) (rob : Proj.Robot N S) (db : N → Sampling.SampleDB N ℝ) (objects : N → State N ℝ → List (Sampling.Affordance ℝ)) (hr : UsesLibrary env rob db objects)
    (he : rob.Exact) (hax : Proj.Perpendicular rob.axis) (hdb : ∀ n, Sampling.Indexed (db n)) (n : N) (limb : Proj.Limb N) (hreg : rob.limbs.find? n = some limb) (h6 : limb.contact.sixDof = true)
    (hrot : ∀ q, Orthogonal (rob.frameRot n limb q)) (hln : limb.normal ≠ 0) (hsolid : ∀ s, ∀ a ∈ objects n s, Solid a) (hz : ∃ k m, limb.normal = ⟨0, 0, k⟩ ∧ limb.offset = ⟨0, 0, m⟩)
    (postural : Bool) (configuration : List ℝ) (thr : ℝ) (d : ContactData ℝ) (h : HasContact (computeContactsInitial env postural configuration thr) n d) :
    ∃ base, FromObject (db n) (objects n base) limb d :=
  C171_contact_partial env rob db objects hr he hax hdb n limb hreg h6 hrot hln hsolid d (Or.inl hz) (C170_initial env postural configuration thr n d h)

/-- **C171 (plans)** Each contact of each state of a plan is a contact of the start, a contact on a triangle of one of the affordance objects of its limb, a contact of the goal, or one found by projecting the limb to its contact in the goal; the states
rebuilt by deep filtering are excluded, as are those of a robot with postural task and test of reachability. -/
theorem C171_plan_partial (env : Env N ℝ (Sampling.OctreeReport ℝ)) (rob : Proj.Robot N S) (db : N → Sampling.SampleDB N ℝ) (objects : N → State N ℝ → List (Sampling.Affordance ℝ)) (hr : UsesLibrary env rob db objects)
    (he : rob.Exact) (hax : Proj.Perpendicular rob.axis) (hdb : ∀ n, Sampling.Indexed (db n)) (n : N) (limb : Proj.Limb N) (hreg : rob.limbs.find? n = some limb) (h6 : limb.contact.sixDof = true)
    (hrot : ∀ q, Orthogonal (rob.frameRot n limb q)) (hln : limb.normal ≠ 0) (hsolid : ∀ s, ∀ a ∈ objects n s, Solid a) (hz : ∃ k m, limb.normal = ⟨0, 0, k⟩ ∧ limb.offset = ⟨0, 0, m⟩)
    (hl : env.limbs.Nodup) (thr : ℝ) (extraDim : Nat) (tr qs : Bool) (compute : Compute N ℝ) (postural : Bool) (hpost : postural = false ∨ tr = false) (hc : IsComputeContacts env postural thr extraDim tr qs compute)
    (sv : Solvers N ℝ) (configs : List (List ℝ)) (hne : configs ≠ []) (ts init : ℝ) (hts : 0 ≤ ts) (start goal : State N ℝ) (hs : Sound start) (pathEnd : Option ℝ) (deep p : Bool) (fuel : Nat) (plan : List (Frame N ℝ))
    (h : interpolate sv compute postural start goal pathEnd configs ts init deep fuel = (.done plan, p)) :
    ∀ f ∈ plan, (deep = true ∧ Rebuilt sv f.2) ∨ ∀ d, HasContact f.2 n d → HasContact start n d ∨ (∃ base, FromObject (db n) (objects n base) limb d) ∨ Reached sv goal n d := by
  intro f hf
  refine (C170_plan_partial env hl thr extraDim tr qs compute postural hpost hc sv configs hne ts init hts start goal hs pathEnd deep p fuel plan h f hf).imp id fun hk d hd => ?_
  exact (hk n d hd).imp id (Or.imp (fun hf => C171_contact_partial env rob db objects hr he hax hdb n limb hreg h6 hrot hln hsolid d (Or.inl hz) hf) id)

/-! ## The hypotheses are met -/

/-- an environment of contact generation made of the functions of the library; the rest is that of `rest` -/
noncomputable def library (rest : Env N ℝ (Sampling.OctreeReport ℝ)) (rob : Proj.Robot N S) (db : N → Sampling.SampleDB N ℝ) (objects : N → State N ℝ → List (Sampling.Affordance ℝ)) (device : List ℝ)
    (effector : Sampling.OctreeReport ℝ → Vec3 ℝ) : Env N ℝ (Sampling.OctreeReport ℝ) :=
  { rest with
    octree := fun n _ s => (Sampling.collideOctree (db n) Proj.normalized none none (objects n s)).getD []
    applyEffector := fun p n r q s =>
      match rob.limbs.find? n with
      | none => (false, q)
      | some limb =>
        let o := ({ rob with postural := p } : Proj.Robot N S).sampleToObstacle device (fun _ => true) n limb ⟨r.triangle.1, r.triangle.2.1, r.triangle.2.2, r.normal, effector r⟩ q s
        (o.1.success, o.2)
    effectorPosition := rob.kin.pos
    effectorRotation := fun n q =>
      match rob.limbs.find? n with
      | none => Mat3.one
      | some limb => rob.frameRot n limb q
    normal := fun r => Proj.normalized r.normal }

theorem library_uses (rest : Env N ℝ (Sampling.OctreeReport ℝ)) (rob : Proj.Robot N S) (db : N → Sampling.SampleDB N ℝ) (objects : N → State N ℝ → List (Sampling.Affordance ℝ)) (device : List ℝ)
    (effector : Sampling.OctreeReport ℝ → Vec3 ℝ) : UsesLibrary (library rest rob db objects device effector) rob db objects where
  candidates := by
    intro n params base
    unfold library
    dsimp only
    cases h : Sampling.collideOctree (db n) Proj.normalized none none (objects n base) with
    | none => exact Or.inl rfl
    | some l => exact Or.inr ⟨none, none, by rw [h]; rfl⟩
  project := by
    intro p n limb r q s h
    refine ⟨device, effector r, ?_⟩
    unfold library
    dsimp only
    rw [h]
  position := fun _ _ => rfl
  rotation := by
    intro n limb q h
    unfold library
    dsimp only
    rw [h]
  normal := fun _ => rfl

/-- the only sample of the limb, its effector is at the origin -/
noncomputable def oneSample : Sampling.Sample ℝ := ⟨0, 1, [0], 0, 0, ⟨0, 0, []⟩, ⟨0, 0, []⟩, 0, 0⟩

/-- its database -/
noncomputable def oneDB : Sampling.SampleDB ℕ ℝ := ⟨1, [oneSample], fun _ => 0, [], [], [(0, (0, 1))]⟩

theorem oneDB_indexed : Sampling.Indexed oneDB := by
  have one : ∀ i (s : Sampling.Sample ℝ), oneDB.samples[i]? = some s → i = 0 ∧ s = oneSample := by
    intro i s h
    cases i with
    | zero => exact ⟨rfl, (Option.some.inj h).symm⟩
    | succ i => cases h
  have vox : ∀ v a n, AMap.find? oneDB.samplesInVoxels v = some (a, n) → v = 0 ∧ a = 0 ∧ n = 1 := by
    intro v a n h
    simp only [oneDB, AMap.find?_cons] at h
    split_ifs at h with hv
    · simp only [Option.some.injEq, Prod.mk.injEq] at h; exact ⟨hv.symm, h.1.symm, h.2.symm⟩
    · cases h
  refine ⟨[oneSample], List.Perm.refl _, ?_, ?_, ?_, ?_, ?_⟩
  · intro i s h
    obtain ⟨rfl, rfl⟩ := one i s h
    rfl
  · intro v a n h
    obtain ⟨rfl, rfl, rfl⟩ := vox v a n h
    refine ⟨by norm_num, le_refl _, fun i s hi => ?_⟩
    obtain ⟨rfl, rfl⟩ := one i s hi
    exact ⟨fun _ => rfl, fun _ => ⟨le_refl _, Nat.one_pos⟩⟩
  · intro i s h
    obtain ⟨rfl, rfl⟩ := one i s h
    exact ⟨0, 1, rfl, le_refl _, Nat.one_pos⟩
  · intro v w a n b m hne h1 h2
    exact absurd ((vox _ _ _ h1).1.trans (vox _ _ _ h2).1.symm) hne
  · intro v
    rfl

/-- a triangle of the ground that meets the voxel -/
def ground : Sampling.Affordance ℝ := ⟨fun _ => (⟨-1, -1, 0⟩, ⟨1, -1, 0⟩, ⟨0, 1, 0⟩), [⟨0, 0⟩]⟩

theorem ground_cross : Vec3.cross ((⟨1, -1, 0⟩ : Vec3 ℝ) - ⟨-1, -1, 0⟩) (⟨0, 1, 0⟩ - ⟨-1, -1, 0⟩) = ⟨0, 0, 4⟩ := by
  ext <;> norm_num [Vec3.cross]

theorem ground_normal : Proj.normalized (Vec3.cross ((⟨1, -1, 0⟩ : Vec3 ℝ) - ⟨-1, -1, 0⟩) (⟨0, 1, 0⟩ - ⟨-1, -1, 0⟩)) = ⟨0, 0, 1⟩ := by
  rw [ground_cross]
  have h16 : Real.sqrt 16 = 4 := by rw [show (16 : ℝ) = 4 ^ 2 by norm_num]; exact Real.sqrt_sq (by norm_num)
  have hn : Vec3.normSq (⟨0, 0, 4⟩ : Vec3 ℝ) = 16 := by norm_num [Vec3.normSq, Vec3.dot]
  unfold Proj.normalized Proj.norm
  rw [hn, h16, if_pos (by norm_num)]
  ext <;> norm_num [Vec3.smul]

theorem ground_solid : Solid ground := by
  intro c _ h
  have h' : (⟨0, 0, 4⟩ : Vec3 ℝ) = 0 := ground_cross.symm.trans h
  have := congrArg Vec3.z h'
  norm_num at this

/-- the point of the ground the foot is projected to -/
noncomputable def groundPoint : Vec3 ℝ := Triangle.closestPointInTriangle 0 ⟨-1, -1, 0⟩ ⟨1, -1, 0⟩ ⟨0, 1, 0⟩

/-- a leg whose foot has its sole one metre under its joint, and can be put on the ground in the configuration `[1, 1]` -/
noncomputable def legged : Proj.Robot ℕ ℕ :=
  (Proj.demoRobot true false ⟨0, 0, -1⟩ ((groundPoint - ⟨0, 0, -1⟩) + Vec3.smul Proj.epsilon ⟨0, 0, 1⟩) Mat3.one).solving [1, 1]

/-- the candidate: the only sample of the leg with the ground -/
noncomputable def onGround : Sampling.OctreeReport ℝ := Sampling.mkReport ground.surface Proj.normalized none ⟨0, 0⟩ 0 oneSample

/-- the contact generator of this robot on this ground -/
noncomputable def groundEnv : Env ℕ ℝ (Sampling.OctreeReport ℝ) :=
  library { limbs := [1], nonContacting := [], group := fun n => [n], applyRoot := fun _ s => (true, s.configuration), limbValid := fun _ _ => true, fullValid := fun _ => true, limbSamples := fun _ => [onGround],
            load := fun _ q => q, reachable := fun _ _ => true, reachableDyn := fun _ _ => true, robustness := fun _ => (1 : ℝ), octree := fun _ _ _ => [], applyEffector := fun _ _ _ q _ => (false, q), effectorPosition := fun _ _ => 0,
            effectorRotation := fun _ _ => Mat3.one, normal := fun r => r.normal, junkVec := 0, junkMat := Mat3.one, junkRob := 0 }
    legged (fun _ => oneDB) (fun _ _ => [ground]) [1, 1] (fun _ => 0)

theorem legged_frame (q : List ℝ) : legged.frameRot 1 (Proj.demoLimb true ⟨0, 0, -1⟩) q = Mat3.one := by
  unfold legged
  rw [Proj.demo_frame, ite_self]

theorem onGround_mem (params base : State ℕ ℝ) : onGround ∈ groundEnv.octree 1 params base := by
  show onGround ∈ (Sampling.collideOctree oneDB Proj.normalized none none [ground]).getD []
  have h := Sampling.C33_collide oneDB_indexed Proj.normalized none none [ground]
  cases hc : Sampling.collideOctree oneDB Proj.normalized none none [ground] with
  | none => exact absurd (h.1.1 hc) (by simp)
  | some r =>
    refine (h.2 r hc).perm.mem_iff.2 (List.mem_flatMap.2 ⟨ground, by simp, List.mem_flatMap.2 ⟨⟨0, 0⟩, by simp [ground], ?_⟩⟩)
    unfold Sampling.dueReports
    refine List.mem_map.2 ⟨(oneSample, 0), List.mem_filter.2 ⟨by simp [oneDB], by simp [oneDB]⟩, rfl⟩

theorem groundEnv_apply (s : State ℕ ℝ) : groundEnv.applyEffector false 1 onGround [0, 0] s = (true, [1, 1]) := by
  have hpl : legged.placement 1 (Proj.demoLimb true ⟨0, 0, -1⟩) [0, 0] ⟨0, 0, 1⟩ groundPoint ⟨0, 0, 0⟩ = (Mat3.one, (groundPoint - ⟨0, 0, -1⟩) + Vec3.smul Proj.epsilon ⟨0, 0, 1⟩) := by
    unfold Proj.Robot.placement
    simp only [if_true]
    rw [legged_frame]
    have : (Mat3.one : Mat3 ℝ).mulVec (Proj.demoLimb true ⟨0, 0, -1⟩).normal = ⟨0, 0, 1⟩ := Proj.one_mulVec _
    rw [this, Proj.rotation_z, Interp.mulMat_one, Proj.one_mulVec]
    rfl
  have key : ∀ o, o = legged.sampleToObstacle [1, 1] (fun _ => true) 1 (Proj.demoLimb true ⟨0, 0, -1⟩) ⟨⟨-1, -1, 0⟩, ⟨1, -1, 0⟩, ⟨0, 1, 0⟩, ⟨0, 0, 1⟩, 0⟩ [0, 0] s → (o.1.success, o.2) = (true, [1, 1]) := by
    rintro o rfl
    unfold Proj.Robot.sampleToObstacle Proj.Robot.toObstacle
    simp only [Proj.normalized_z]
    rw [show Triangle.closestPointInTriangle 0 (⟨-1, -1, 0⟩ : Vec3 ℝ) ⟨1, -1, 0⟩ ⟨0, 1, 0⟩ = groundPoint from rfl, hpl]
    unfold Proj.Robot.projectEffector
    simp only
    have ha := Proj.solving_apply (Proj.demoRobot true false ⟨0, 0, -1⟩ ((groundPoint - ⟨0, 0, -1⟩) + Vec3.smul Proj.epsilon ⟨0, 0, 1⟩) Mat3.one) [1, 1]
      (Proj.lockConstraints (Joints.lockJointRec (Proj.demoLimb true ⟨0, 0, -1⟩).joint [1, 1] legged.root) ++ [.effectorPosition 1 ((groundPoint - ⟨0, 0, -1⟩) + Vec3.smul Proj.epsilon ⟨0, 0, 1⟩)] ++
        [.effectorOrientation 1 Mat3.one false]) [0, 0] ?_
    · have hap : legged.apply (Proj.lockConstraints (Joints.lockJointRec (Proj.demoLimb true ⟨0, 0, -1⟩).joint [1, 1] legged.root) ++ [.effectorPosition 1 ((groundPoint - ⟨0, 0, -1⟩) + Vec3.smul Proj.epsilon ⟨0, 0, 1⟩)] ++
        (if (Proj.demoLimb true ⟨0, 0, -1⟩).contact.sixDof = true then [.effectorOrientation 1 Mat3.one legged.postural] else []) ++ (if legged.postural = true then [.posture] else [])) [0, 0] = (true, [1, 1]) := by
        have e1 : (Proj.demoLimb true ⟨0, 0, -1⟩).contact.sixDof = true := rfl
        have e2 : legged.postural = false := rfl
        rw [e1, e2]
        simp only [if_true, Bool.false_eq_true, if_false, List.append_nil]
        exact ha
      rw [hap]
      rfl
    · intro c hc
      rcases List.mem_append.1 hc with hc | hc
      · rcases List.mem_append.1 hc with hc | hc
        · have hl : Proj.lockConstraints (Joints.lockJointRec (Proj.demoLimb true ⟨0, 0, -1⟩).joint [1, 1] legged.root) = [.lock ⟨0, 0, [(1 : ℝ)]⟩ 1] := rfl
          rw [hl] at hc
          rw [List.mem_singleton.1 hc]
          rfl
        · rw [List.mem_singleton.1 hc]
          simp only [Proj.Constraint.holds, Interp.sub_eq_zero']
          show (if ([1, 1] : List ℝ) = [1, 1] then _ else _) = _
          rw [if_pos rfl]
      · rw [List.mem_singleton.1 hc]
        exact legged_frame [1, 1]
  have hn : onGround.normal = ⟨0, 0, 1⟩ := ground_normal
  have hgo : ∀ m, m = onGround.normal → (fun o : Proj.Report ℕ × List ℝ => (o.1.success, o.2))
      (legged.sampleToObstacle [1, 1] (fun _ => true) 1 (Proj.demoLimb true ⟨0, 0, -1⟩) ⟨⟨-1, -1, 0⟩, ⟨1, -1, 0⟩, ⟨0, 1, 0⟩, m, 0⟩ [0, 0] s) = (true, [1, 1]) := by
    intro m hm
    rw [hm, hn]
    exact key _ rfl
  exact hgo _ rfl

/-- **C171 (example)** All the hypotheses are met by this robot on this ground: a contact is found, on the ground. -/
theorem C171_example : UsesLibrary groundEnv legged (fun _ => oneDB) (fun _ _ => [ground]) ∧ legged.Exact ∧ Proj.Perpendicular legged.axis ∧ Sampling.Indexed oneDB ∧
    legged.limbs.find? 1 = some (Proj.demoLimb true ⟨0, 0, -1⟩) ∧ (∀ q, Orthogonal (legged.frameRot 1 (Proj.demoLimb true ⟨0, 0, -1⟩) q)) ∧ Solid ground ∧ groundEnv.limbs.Nodup ∧
    Found groundEnv 1 (groundPoint - ⟨0, 0, -1⟩ + Vec3.smul Proj.epsilon ⟨0, 0, 1⟩, ⟨0, 0, 1⟩, Mat3.one) ∧
    FromObject oneDB [ground] (Proj.demoLimb true ⟨0, 0, -1⟩) (groundPoint - ⟨0, 0, -1⟩ + Vec3.smul Proj.epsilon ⟨0, 0, 1⟩, ⟨0, 0, 1⟩, Mat3.one) := by
  have hu : UsesLibrary groundEnv legged (fun _ => oneDB) (fun _ _ => [ground]) := library_uses _ _ _ _ _ _
  have hex : legged.Exact := Proj.solving_exact _ _
  have hor : ∀ q, Orthogonal (legged.frameRot 1 (Proj.demoLimb true ⟨0, 0, -1⟩) q) := fun q => by rw [legged_frame]; exact Proj.one_orthogonal
  have hf : Found groundEnv 1 (groundPoint - ⟨0, 0, -1⟩ + Vec3.smul Proj.epsilon ⟨0, 0, 1⟩, ⟨0, 0, 1⟩, Mat3.one) := by
    refine ⟨Proj.demoState, Proj.demoState, onGround, false, [0, 0], [1, 1], onGround_mem _ _, groundEnv_apply _, rfl, ?_⟩
    refine Prod.ext ?_ (Prod.ext ?_ ?_)
    · show _ = (if ([1, 1] : List ℝ) = [1, 1] then _ else _)
      rw [if_pos rfl]
    · show _ = Proj.normalized (Proj.normalized _)
      exact (by rw [ground_normal, Proj.normalized_z] : (⟨0, 0, 1⟩ : Vec3 ℝ) = Proj.normalized (Proj.normalized (Vec3.cross ((⟨1, -1, 0⟩ : Vec3 ℝ) - ⟨-1, -1, 0⟩) (⟨0, 1, 0⟩ - ⟨-1, -1, 0⟩))))
    · exact (legged_frame [1, 1]).symm
  refine ⟨hu, hex, Proj.perpAxis_perpendicular, oneDB_indexed, rfl, hor, ground_solid, by decide, hf, ?_⟩
  obtain ⟨base, hb⟩ := C171_contact_partial groundEnv legged (fun _ => oneDB) (fun _ _ => [ground]) hu hex Proj.perpAxis_perpendicular (fun _ => oneDB_indexed) 1 (Proj.demoLimb true ⟨0, 0, -1⟩) rfl rfl hor
    (fun h => by have := congrArg Vec3.z h; norm_num [Proj.demoLimb] at this) (fun _ a ha => by rw [List.mem_singleton.1 ha]; exact ground_solid) _ (Or.inl ⟨1, -1, rfl, rfl⟩) hf
  exact hb

end Interp
end Rbprm
