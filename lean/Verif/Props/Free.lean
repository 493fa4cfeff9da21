import Verif.Props.Balance
import Verif.Props.Locked
/-!
# Property C174: the states of a plan are free of collision

The validations used by contact generation are those of the robot and of its limbs (`AddLimbPrivate`, `addLimbCollisionRec`: `Model/Joints`), and a limb is projected with the other joints locked (`Model/Locked`): a user relies
on the whole robot being free of collision in the states of a plan, although only the moving limb is tested after its projection.
-/
set_option linter.unusedSectionVars false
namespace Rbprm
namespace Interp
open State Contact
variable {N K Smp O : Type _} [LinearOrder N] [CommRing K] [LinearOrder K] [DecidableEq O]

/-! ## Specification -/

/-- a robot among obstacles: the tree of its joints, its limbs in the order in which they were added, the obstacles; which joint hits which obstacle in a configuration, and whether the robot hits itself; the size of its
configurations, and the number of extra coordinates -/
structure Bodies (N K O : Type _) where
  root : Joints.Joint N
  limbs : List (N × Joints.Limb N)
  objects : List O
  hits : List K → N → O → Bool
  selfHits : List K → Bool
  size : ℕ
  extra : ℕ

/-- the pairs (joint, obstacle) that the validation of the robot tests -/
def Bodies.tested (B : Bodies N K O) : List (N × O) := Joints.bodyPairs B.root B.objects (B.limbs.map (·.2))

/-- forward kinematics: the place of a joint only depends on the coordinates of the joints on the way from the root; coordinates of joints come before the extra ones; joints and limbs have different names -/
structure Bodies.Kinematic (B : Bodies N K O) : Prop where
  joint : ∀ q q' k o, Joints.Below B.root k → (∀ j, Joints.Below B.root j → Joints.Below j k → Joints.segment q j.rank j.size = Joints.segment q' j.rank j.size) → B.hits q k.name o = B.hits q' k.name o
  self : ∀ q q', (∀ j, Joints.Below B.root j → Joints.segment q j.rank j.size = Joints.segment q' j.rank j.size) → B.selfHits q = B.selfHits q'
  ranks : ∀ j, Joints.Below B.root j → j.rank + j.size + B.extra ≤ B.size
  distinct : B.root.names.Nodup
  limbs : ∀ x ∈ B.limbs, Joints.Below B.root x.2.joint

/-- the oracles of contact generation are those of this robot: the validation of the robot and that of a limb test the pairs that were added when the limb was, and the pairs of bodies of the robot; the samples of a limb
are loaded in the limb; the projection keeps the locks of the joints that are not in the limb (`C173_device`: these are the locks) -/
structure UsesBodies (env : Env N K Smp) (B : Bodies N K O) : Prop where
  full : ∀ c, env.fullValid c = true → c.length = B.size ∧ B.selfHits c = false ∧ ∀ p ∈ B.tested, B.hits c p.1 p.2 = false
  limb : ∀ x ∈ B.limbs, ∀ c, env.limbValid x.1 c = true → c.length = B.size ∧ B.selfHits c = false ∧
    ∀ p ∈ Joints.addLimbCollision x.2.effector x.2.disable B.objects x.2.joint, B.hits c p.1 p.2 = false
  known : ∀ id ∈ env.limbs, ∃ l, (id, l) ∈ B.limbs
  load : ∀ x ∈ B.limbs, ∀ params base, ∀ smp ∈ env.octree x.1 params base, ∀ q, Joints.AgreeOutside B.root x.2.joint (env.load smp q) q
  locks : ∀ x ∈ B.limbs, ∀ p smp q s, Joints.KeepsLocks B.root (Joints.lockJointRec x.2.joint.name q B.root) (env.applyEffector p x.1 smp q s).2

/-- the projections of the interpolation use the validation of the robot (rbprm-path-interpolation.cc:115, 692, 776) -/
structure SharesValidation (env : Env N K Smp) (sv : Solvers N K) : Prop where
  full : ∀ c, sv.fullValid c = true → env.fullValid c = true
  effector : ∀ p limb s r pos n cfg p' r', sv.projectEffector p limb s r pos n = some (cfg, p', r') → env.fullValid cfg = true

/-- the joints of a limb that the user asked not to test because they touch the obstacles, or that are not tested as they are leaves of the tree (C129): none if the collisions of its effector are not disabled -/
def Spared (l : Joints.Limb N) (n : N) : Prop :=
  l.disable = true ∧ ∃ k, Joints.Below l.joint k ∧ k.name = n ∧ (k.children = [] ∨ ∃ s, Joints.Below l.joint s ∧ Joints.IsEffector l.effector s ∧ Joints.Below s k)

/-- the robot does not hit itself, and no tested joint but the excused ones hits an obstacle -/
structure FreeExcept (B : Bodies N K O) (excused : N → Prop) (c : List K) : Prop where
  self : B.selfHits c = false
  obstacles : ∀ n o, (n, o) ∈ B.tested → ¬ excused n → B.hits c n o = false

/-- free of collision in all that is tested, or in all of it but the end of a limb that is in contact -/
def Free (B : Bodies N K O) (s : State N K) : Prop :=
  FreeExcept B (fun _ => False) s.configuration ∨ ∃ x ∈ B.limbs, Touches s x.1 ∧ FreeExcept B (Spared x.2) s.configuration

/-! ## Proofs -/

theorem segment_copyTail (n : Nat) (v w : List K) (r s : ℕ) (h : r + s + n ≤ v.length) : Joints.segment (copyTail n v w) r s = Joints.segment v r s := by
  unfold Joints.segment copyTail
  apply List.ext_getElem?
  intro i
  rw [List.getElem?_take, List.getElem?_take]
  split_ifs with hi
  · rw [List.getElem?_drop, List.getElem?_drop, List.getElem?_append_left (by rw [List.length_take]; omega), List.getElem?_take, if_pos (by omega)]
  · rfl

theorem tested_joint {B : Bodies N K O} {n : N} {o : O} (h : (n, o) ∈ B.tested) : o ∈ B.objects ∧ ∃ k, Joints.Below B.root k ∧ k.name = n := by
  unfold Bodies.tested at h
  cases hl : B.limbs.map (·.2) with
  | nil => rw [hl] at h; cases h
  | cons l ls =>
    rw [hl, Joints.C129_body, Joints.mem_addLimbCollision] at h
    obtain ⟨h1, k, h2, h3⟩ := h
    exact ⟨h1, k, h2.toBelow, h3⟩

theorem free_copyTail {B : Bodies N K O} (hk : B.Kinematic) {ex : N → Prop} {c : List K} (h : FreeExcept B ex c) (hc : c.length = B.size) (extraDim : Nat) (he : extraDim ≤ B.extra) (w : List K) :
    FreeExcept B ex (copyTail extraDim c w) := by
  have hseg : ∀ j, Joints.Below B.root j → Joints.segment (copyTail extraDim c w) j.rank j.size = Joints.segment c j.rank j.size := fun j hj =>
    segment_copyTail extraDim c w j.rank j.size (by have := hk.ranks j hj; omega)
  refine ⟨by rw [hk.self _ c hseg]; exact h.self, fun n o hm hx => ?_⟩
  rw [← h.obstacles n o hm hx]
  obtain ⟨_, k, h1, rfl⟩ := tested_joint hm
  exact hk.joint _ _ k o h1 (fun j hj _ => hseg j hj)

theorem tried_agree {env : Env N K Smp} {B : Bodies N K O} (hu : UsesBodies env B) (hk : B.Kinematic) {base : State N K} {x : N × Joints.Limb N} (hx : x ∈ B.limbs) {c : List K}
    (h : Tried env base x.1 c) : Joints.AgreeOutside B.root x.2.joint c base.configuration := by
  induction h with
  | here => exact Joints.AgreeOutside.refl _ _ _
  | next p params smp c hs _ ih =>
    exact ((Joints.keepsLocks_agree hk.distinct (hk.limbs x hx) (hu.locks x hx p smp _ base)).trans (hu.load x hx params base smp hs c)).trans ih

/-- after a limb has been placed, the validation of this limb and that of the whole robot before are enough -/
theorem placed_free {env : Env N K Smp} {B : Bodies N K O} (hu : UsesBodies env B) (hk : B.Kinematic) {base : State N K} {x : N × Joints.Limb N} (hx : x ∈ B.limbs) {cfg : List K}
    (hb : env.fullValid base.configuration = true) (ht : Tried env base x.1 cfg) (hv : env.limbValid x.1 cfg = true) : FreeExcept B (Spared x.2) cfg := by
  obtain ⟨_, h1, h2⟩ := hu.limb x hx cfg hv
  obtain ⟨_, _, h3⟩ := hu.full _ hb
  have ha := tried_agree hu hk hx ht
  refine ⟨h1, fun n o hm hsp => ?_⟩
  obtain ⟨ho, k, hkb, rfl⟩ := tested_joint hm
  by_cases hin : Joints.Below x.2.joint k
  · refine h2 (k.name, o) ?_
    cases hdis : x.2.disable with
    | false => exact (Joints.C129_all _ _ _ _ _).2 ⟨ho, k, hin, rfl⟩
    | true =>
      refine (Joints.C129_disabled _ _ _ (Joints.below_nodup (hk.limbs x hx) hk.distinct) _ _).2 ⟨ho, k, hin, rfl, fun hc => hsp ⟨hdis, k, hin, rfl, Or.inl hc⟩, fun s s1 s2 s3 => ?_⟩
      exact hsp ⟨hdis, k, hin, rfl, Or.inr ⟨s, s1, s2, s3⟩⟩
  · rw [← h3 _ hm]
    exact hk.joint _ _ k o hkb (fun j hj hjk => ha j hj (fun hlj => hin (hlj.trans hjk)))

theorem Checked.free {env : Env N K Smp} {B : Bodies N K O} (hu : UsesBodies env B) (hk : B.Kinematic) {thr : K} {tr qs : Bool} {extraDim : Nat} (he : extraDim ≤ B.extra) {previous s : State N K}
    (h : Checked env thr tr qs extraDim previous s) : Free B s := by
  obtain ⟨base, t, h1, -, -, -, h2, -, h4, root, h5⟩ := h.history
  rcases h2 with rfl | ⟨limb, smp, cfg, hp, rfl⟩
  · obtain ⟨k1, k2, k3⟩ := hu.full _ h1
    refine Or.inl ?_
    rw [h5]
    exact free_copyTail hk ⟨k2, fun n o hm _ => k3 _ hm⟩ k1 extraDim he root
  · obtain ⟨l, hl⟩ := hu.known limb hp.known
    obtain ⟨p, params, c, g1, g2, g3⟩ := hp.projected
    have ht : Tried env base limb cfg := by
      have := Tried.next p params smp c g1 g2
      rwa [g3] at this
    refine Or.inr ⟨(limb, l), hl, ?_, ?_⟩
    · unfold Touches TouchesAt
      rw [h4.2.1]
      exact ⟨env.effectorPosition limb cfg, by simp [withContact, State.addContact, AMap.find?_set]⟩
    · rw [h5]
      exact free_copyTail hk (placed_free hu hk hl h1 ht hp.valid) (hu.limb _ hl cfg hp.valid).1 extraDim he root

/-- **C174 (one step)**: when the call of contact generation does not reposition the robot, the returned state is free of collision: all that the validation of the robot tests, but the end of the limb that was placed if its
collisions were disabled. -/
theorem C174_step (env : Env N K Smp) (B : Bodies N K O) (hu : UsesBodies env B) (hk : B.Kinematic) (hl : env.limbs.Nodup) (postural : Bool) (fuel : Nat) (previous : State N K)
    (hp : WellFormed env.limbs previous) (configuration : List K) (thr : K) (extraDim : Nat) (he : extraDim ≤ B.extra) (tr qs : Bool) (rep : ContactReport N K)
    (hr : computeContacts env postural fuel previous configuration thr extraDim tr qs = some rep) (hnr : rep.repositionedInPlace = false) : rep.success = true ∧ Free B rep.result := by
  obtain ⟨h1, h2⟩ := C168_step env hl postural fuel previous hp configuration thr extraDim tr qs rep hr hnr
  exact ⟨h1, h2.free hu hk he⟩

/-- **C174 (whole plan; partial)**: each state of a plan is the start, the goal, a state after a repositioning, or is free of collision, also those in which a limb is moved to its place in the goal and those that are rebuilt by
deep filtering.  What is missing is that all of them are: `C168_reposition_violated` shows that nothing is checked after a repositioning; the start and the goal are given by the user. -/
theorem C174_plan_partial [IsStrictOrderedRing K] (env : Env N K Smp) (B : Bodies N K O) (hu : UsesBodies env B) (hk : B.Kinematic)
    (hl : env.limbs.Nodup) (hgr : ∀ n, ∀ m ∈ env.group n, m ∈ env.limbs)
    (thr : K) (extraDim : Nat) (he : extraDim ≤ B.extra) (tr qs : Bool) (compute : Compute N K) (postural : Bool)
    (hc : IsComputeContacts env postural thr extraDim tr qs compute)
    (sv : Solvers N K) (hsv : SharesValidation env sv) (configs : List (List K)) (hne : configs ≠ [])
    (ts init : K) (hts : 0 ≤ ts) (start goal : State N K) (hs : WellFormed env.limbs start)
    (pathEnd : Option K) (deep p : Bool) (fuel : Nat) (plan : List (Frame N K))
    (h : interpolate sv compute postural start goal pathEnd configs ts init deep fuel = (.done plan, p)) :
    ∀ f ∈ plan, f = (init, start) ∨ f.2 = goal ∨
      (∃ (prev : Frame N K) (rep : ContactReport N K), WellFormed env.limbs prev.2 ∧ Produces sv compute configs ts init prev rep f ∧ rep.repositionedInPlace = true) ∨
      Free B f.2 := by
  intro f hf
  have hfull : ∀ c, env.fullValid c = true → FreeExcept B (fun _ => False) c := fun c hc => ⟨(hu.full c hc).2.1, fun n o hm _ => (hu.full c hc).2.2 _ hm⟩
  rcases C168_plan_partial env hl hgr thr extraDim tr qs compute postural hc sv configs hne ts init hts start goal hs pathEnd deep p fuel plan h f hf with
    h | h | ⟨s, limb, h⟩ | ⟨-, h⟩ | ⟨prev, hw, ⟨rep, h1, h2⟩ | h⟩
  · exact Or.inl h
  · exact Or.inr (Or.inl h)
  · obtain ⟨_, _, _, cfg, _, _, _, _, _, h4, h5⟩ := h
    refine Or.inr (Or.inr (Or.inr (Or.inl ?_)))
    rw [h5]
    exact hfull cfg (hsv.effector _ _ _ _ _ _ _ _ _ h4)
  · obtain ⟨_, _, _, _, _, _, _, _, h3⟩ := h
    exact Or.inr (Or.inr (Or.inr (Or.inl (hfull _ (hsv.full _ h3)))))
  · exact Or.inr (Or.inr (Or.inl ⟨prev, rep, hw, h1, h2⟩))
  · exact Or.inr (Or.inr (Or.inr (h.free hu hk he)))

/-! ## Non-vacuity -/

/-- a trunk with three legs, each with a foot; one coordinate each -/
def tripod : Joints.Joint ℕ := .mk 0 0 1 [.mk 10 1 1 [.mk 11 2 1 []], .mk 20 3 1 [.mk 21 4 1 []], .mk 30 5 1 [.mk 31 6 1 []]]

/-- its legs; the collisions of the feet are disabled -/
def tripodLeg : ℕ → Joints.Limb ℕ
  | 1 => ⟨.mk 10 1 1 [.mk 11 2 1 []], ⟨11, 11⟩, true⟩
  | 2 => ⟨.mk 20 3 1 [.mk 21 4 1 []], ⟨21, 21⟩, true⟩
  | _ => ⟨.mk 30 5 1 [.mk 31 6 1 []], ⟨31, 31⟩, true⟩

/-- where the coordinate of a joint is -/
def tripodRank : ℕ → ℕ
  | 0 => 0
  | 10 => 1
  | 11 => 2
  | 20 => 3
  | 21 => 4
  | 30 => 5
  | 31 => 6
  | _ => 7

/-- there is one obstacle; a joint hits it when its coordinate is nine, and the robot hits itself when that of the trunk is eight; there is one extra coordinate -/
def tripodBodies : Bodies ℕ ℤ Unit where
  root := tripod
  limbs := [(1, tripodLeg 1), (2, tripodLeg 2), (3, tripodLeg 3)]
  objects := [()]
  hits := fun q n _ => decide (tripodRank n < 7 ∧ Joints.segment q (tripodRank n) 1 = [9])
  selfHits := fun q => decide (Joints.segment q 0 1 = [8])
  size := 8
  extra := 1

theorem tripod_joints (j : Joints.Joint ℕ) (h : Joints.Below tripod j) : (j.name, j.rank, j.size) ∈ [(0, 0, 1), (10, 1, 1), (11, 2, 1), (20, 3, 1), (21, 4, 1), (30, 5, 1), (31, 6, 1)] := by
  rcases ((Joints.reach_mk _ _ _ _ _ _).1 h).2 with rfl | ⟨c, hc, hj⟩
  · decide
  · simp only [List.mem_cons, List.not_mem_nil, or_false] at hc
    rcases hc with rfl | rfl | rfl <;>
    · rcases ((Joints.reach_mk _ _ _ _ _ _).1 hj).2 with rfl | ⟨c, hc, hj⟩
      · decide
      · rw [List.mem_singleton] at hc
        subst hc
        rcases ((Joints.reach_mk _ _ _ _ _ _).1 hj).2 with rfl | ⟨c, hc, hj⟩
        · decide
        · cases hc

theorem tripod_kinematic : tripodBodies.Kinematic where
  joint := by
    intro q q' k o hk h
    have h1 := h k hk (Joints.Below.refl _)
    have h2 : tripodRank k.name = k.rank ∧ k.size = 1 := by
      have := tripod_joints k hk
      simp only [List.mem_cons, Prod.mk.injEq, List.not_mem_nil, or_false] at this
      rcases this with ⟨e1, e2, e3⟩ | ⟨e1, e2, e3⟩ | ⟨e1, e2, e3⟩ | ⟨e1, e2, e3⟩ | ⟨e1, e2, e3⟩ | ⟨e1, e2, e3⟩ | ⟨e1, e2, e3⟩ <;> rw [e1, e2, e3] <;> exact ⟨rfl, rfl⟩
    show decide _ = decide _
    rw [h2.1, ← h2.2, h1]
  self := by
    intro q q' h
    have := h tripod (Joints.Below.refl _)
    show decide _ = decide _
    have e : Joints.segment q 0 1 = Joints.segment q' 0 1 := this
    rw [e]
  ranks := by
    intro j hj
    have := tripod_joints j hj
    simp only [List.mem_cons, Prod.mk.injEq, List.not_mem_nil, or_false] at this
    show j.rank + j.size + 1 ≤ 8
    omega
  distinct := by decide
  limbs := by
    intro x hx
    simp only [tripodBodies, List.mem_cons, List.not_mem_nil, or_false] at hx
    rcases hx with rfl | rfl | rfl
    · exact .child (fun h => h) (List.mem_cons_self ..) (Joints.Below.refl _)
    · exact .child (fun h => h) (List.mem_cons_of_mem _ (List.mem_cons_self ..)) (Joints.Below.refl _)
    · exact .child (fun h => h) (List.mem_cons_of_mem _ (List.mem_cons_of_mem _ (List.mem_cons_self ..))) (Joints.Below.refl _)

/-- contact generation for it: a sample is a leg and the coordinates of this leg; the first one hits the obstacle -/
def tripodEnv : Env ℕ ℤ (ℕ × ℤ) where
  limbs := [1, 2, 3]
  nonContacting := []
  group n := if n ∈ [1, 2, 3] then [n] else []
  applyRoot t _ := (true, t)
  limbValid l c := decide (c.length = 8) && !tripodBodies.selfHits c &&
    (Joints.addLimbCollision (tripodLeg l).effector (tripodLeg l).disable [()] (tripodLeg l).joint).all fun p => !tripodBodies.hits c p.1 p.2
  fullValid c := decide (c.length = 8) && !tripodBodies.selfHits c && tripodBodies.tested.all fun p => !tripodBodies.hits c p.1 p.2
  limbSamples l := [(l, 5)]
  load smp q := (q.set (2 * smp.1 - 1) smp.2).set (2 * smp.1) smp.2
  reachable _ _ := true
  reachableDyn _ _ := true
  robustness _ := ((5 : ℤ) : WithBot ℤ)
  octree l _ _ := if l ∈ [1, 2, 3] then [(l, 9), (l, 5)] else []
  applyEffector _ l smp q _ := (true, q.set (2 * l) (smp.2 + 4))
  effectorPosition l c := ⟨l, c.headD 0, 0⟩
  effectorRotation _ _ := Mat3.one
  normal _ := ⟨0, 0, 1⟩
  junkVec := ⟨-99, -99, -99⟩
  junkMat := Mat3.one
  junkRob := 0

theorem segment_set (q : List ℤ) (i r : ℕ) (v : ℤ) (h : r ≠ i) : Joints.segment (q.set i v) r 1 = Joints.segment q r 1 := by
  unfold Joints.segment
  apply List.ext_getElem?
  intro k
  rw [List.getElem?_take, List.getElem?_take]
  split_ifs with hk
  · rw [List.getElem?_drop, List.getElem?_drop, List.getElem?_set_ne (by omega)]
  · rfl

theorem tripod_outside (l : ℕ) (hl : l ∈ [1, 2, 3]) (j : Joints.Joint ℕ) (h1 : Joints.Below tripod j) (h2 : ¬ Joints.Below (tripodLeg l).joint j) : j.size = 1 ∧ j.rank ≠ 2 * l - 1 ∧ j.rank ≠ 2 * l := by
  simp only [List.mem_cons, List.not_mem_nil, or_false] at hl
  rcases ((Joints.reach_mk _ _ _ _ _ _).1 h1).2 with rfl | ⟨c, hc, hj⟩
  · rcases hl with rfl | rfl | rfl <;> decide
  · simp only [List.mem_cons, List.not_mem_nil, or_false] at hc
    rcases hc with rfl | rfl | rfl <;> rcases hl with rfl | rfl | rfl <;> first
      | exact absurd hj h2
      | (rcases ((Joints.reach_mk _ _ _ _ _ _).1 hj).2 with rfl | ⟨c, hc, hj⟩
         · decide
         · rw [List.mem_singleton] at hc
           subst hc
           rcases ((Joints.reach_mk _ _ _ _ _ _).1 hj).2 with rfl | ⟨c, hc, hj⟩
           · decide
           · cases hc)

theorem tripod_uses : UsesBodies tripodEnv tripodBodies where
  full := by
    intro c h
    simp only [tripodEnv, Bool.and_eq_true, decide_eq_true_eq, Bool.not_eq_true', List.all_eq_true] at h
    exact ⟨h.1.1, h.1.2, h.2⟩
  limb := by
    intro x hx c h
    have hx' : x = (x.1, tripodLeg x.1) := by
      simp only [tripodBodies, List.mem_cons, List.not_mem_nil, or_false] at hx
      rcases hx with rfl | rfl | rfl <;> rfl
    simp only [tripodEnv, Bool.and_eq_true, decide_eq_true_eq, Bool.not_eq_true', List.all_eq_true] at h
    rw [hx']
    exact ⟨h.1.1, h.1.2, h.2⟩
  known := by
    intro id h
    simp only [tripodEnv, List.mem_cons, List.not_mem_nil, or_false] at h
    rcases h with rfl | rfl | rfl
    · exact ⟨tripodLeg 1, by simp [tripodBodies]⟩
    · exact ⟨tripodLeg 2, by simp [tripodBodies]⟩
    · exact ⟨tripodLeg 3, by simp [tripodBodies]⟩
  load := by
    intro x hx params base smp hs q j h1 h2
    have hx' : x.1 ∈ [1, 2, 3] ∧ x.2 = tripodLeg x.1 := by
      simp only [tripodBodies, List.mem_cons, List.not_mem_nil, or_false] at hx
      rcases hx with rfl | rfl | rfl <;> exact ⟨by decide, rfl⟩
    rw [hx'.2] at h2
    obtain ⟨e1, e2, e3⟩ := tripod_outside x.1 hx'.1 j h1 h2
    have hsm : smp.1 = x.1 := by
      change smp ∈ (if x.1 ∈ [1, 2, 3] then [(x.1, 9), (x.1, 5)] else []) at hs
      rw [if_pos hx'.1] at hs
      simp only [List.mem_cons, List.not_mem_nil, or_false] at hs
      rcases hs with rfl | rfl <;> rfl
    rw [e1]
    show Joints.segment ((q.set (2 * smp.1 - 1) smp.2).set (2 * smp.1) smp.2) j.rank 1 = _
    rw [hsm, segment_set _ _ _ _ e3, segment_set _ _ _ _ e2]
  locks := by
    intro x hx p smp q s j hj lk hlk e1 e2
    have hx' : x.1 ∈ [1, 2, 3] ∧ x.2 = tripodLeg x.1 := by
      simp only [tripodBodies, List.mem_cons, List.not_mem_nil, or_false] at hx
      rcases hx with rfl | rfl | rfl <;> exact ⟨by decide, rfl⟩
    obtain ⟨k, k1, k2, k3⟩ := (Joints.C128_spared _ _ _ tripod_kinematic.distinct _).1 hlk
    have hkj : k = j := Joints.below_unique tripod_kinematic.distinct k j k1 hj (by rw [← e1, k2])
    subst hkj
    have hout := k3 x.2.joint (tripod_kinematic.limbs x hx) rfl
    rw [hx'.2] at hout
    obtain ⟨e1, e2, e3⟩ := tripod_outside x.1 hx'.1 k k1 hout
    rw [k2]
    show Joints.segment (q.set (2 * x.1) (smp.2 + 4)) k.rank k.size = Joints.segment q k.rank k.size
    rw [e1, segment_set _ _ _ _ e3]

/-- the tripod stands on two legs -/
def tripodState : State ℕ ℤ :=
  (({ (State.init 0 : State ℕ ℤ) with configuration := [0, 1, 9, 1, 9, 1, 1, 0] }).addContact 1 ⟨1, 0, 0⟩ ⟨0, 0, 1⟩ Mat3.one [0, 1, 9, 1, 9, 1, 1, 0]).addContact 2 ⟨2, 0, 0⟩ ⟨0, 0, 1⟩ Mat3.one
    [0, 1, 9, 1, 9, 1, 1, 0]

/-- the hypotheses of `C174_step` are met: the third leg is placed, its foot (31) hits the obstacle (nine) -/
example : UsesBodies tripodEnv tripodBodies ∧ tripodBodies.Kinematic ∧ tripodEnv.limbs.Nodup ∧ WellFormed tripodEnv.limbs tripodState ∧
    ((computeContacts tripodEnv false 10 tripodState [1, 1, 1, 1, 9, 1, 1, 4] 3 1 true true).map fun r => (r.repositionedInPlace, r.result.contacts.keys, r.result.configuration)) =
      some (false, [1, 2, 3], [1, 1, 1, 1, 9, 5, 9, 4]) := by
  refine ⟨tripod_uses, tripod_kinematic, by decide, ?_, by decide⟩
  refine ⟨⟨⟨?_, ?_, ?_, ?_⟩, ?_, ?_, ?_, ?_⟩, ?_, ?_⟩
  any_goals (first | decide | (unfold AMap.WF; decide))
  intro n b h
  have := AMap.find?_some_mem h
  simp [tripodState, State.addContact, State.init, AMap.set] at this
  tauto

end Interp
end Rbprm
