import Verif.Props.Balance
import Verif.Props.Reachability
/-!
# Property C175: the steps of a plan can be made at rest

The test of reachability of contact generation is realised by `isReachable` (`Model/Reachability`): in quasi-static mode, a user relies on the robot being able to release and to create the contacts of a plan one after the
other without losing its balance, some position of its centre of mass being right before and after each of them.
-/
set_option linter.unusedSectionVars false
namespace Rbprm
namespace Interp
open State Contact
variable {N K Smp : Type _} [LinearOrder N] [Field K] [LinearOrder K] [IsStrictOrderedRing K]

/-! ## Specification -/

/-- the test of reachability of contact generation is `isReachable`, with its default arguments (contact_generation.cc:446, 579) -/
def UsesIsReachable (env : Env N K Smp) (robot : Reach.ReachEnv N K) : Prop :=
  ∀ s t, env.reachable s t = true → ∃ r, Reach.isReachable robot s t 0 false = some r ∧ r.success = true

/-- with its centre of mass at rest at `x` the robot can stand on the contacts of the state: `x` satisfies the constraints that were computed from the contact cone of the state -/
def Stands (robot : Reach.ReachEnv N K) (s : State N K) (x : Vec3 K) : Prop :=
  ∃ A, Reach.stabilityForState robot s 0 = some (some A) ∧ ∀ r ∈ A, Vec3.dot r.1 x ≤ r.2

/-- every limb in contact can follow: `x`, in the frame of its effector, is on the inner side of all faces of its kinematic constraints -/
def Follows (robot : Reach.ReachEnv N K) (s : State N K) (x : Vec3 K) : Prop :=
  ∀ n, Touches s n → ∃ faces, robot.kin.limbs.find? n = some faces ∧
    Reach.InFaces faces ((robot.kin.effector n s.configuration).rot.transpose.mulVec (x - (robot.kin.effector n s.configuration).trans))

/-- One can go from `s` to `t` at rest: no contact changes, or only that of one limb, and at some position of the centre of mass the robot stands without the limb, and the limbs in contact, with the limb, can follow.  When the
limb is in contact in both states, this holds for both. -/
def Passes (robot : Reach.ReachEnv N K) (s t : State N K) : Prop :=
  (∀ n, ¬ Reach.Changes s t n) ∨ ∃ n x, (∀ m, Reach.Changes s t m ↔ m = n) ∧
    (Touches t n → Stands robot s x ∧ Follows robot t x) ∧ (Touches s n → Stands robot t x ∧ Follows robot s x)

/-- What reachability says of a state `s` placed after `previous`: it has the contacts and the configuration (but for the extra coordinates) of a state `t`; a state `base` with the contacts of `previous`, but for one at most, can
be reached at rest from the state `w` from which this was tested, and `t` is `base` or has one more contact, that can be created at rest. -/
def Crossed (env : Env N K Smp) (robot : Reach.ReachEnv N K) (extraDim : Nat) (previous s : State N K) : Prop :=
  ∃ configuration w base t, TestedFrom env previous configuration w ∧ LostAtMost 1 previous base ∧ Passes robot w base ∧
    (t = base ∨ ∃ limb x, ¬ Touches base limb ∧ Touches t limb ∧ (∀ m, m ≠ limb → ¬ Reach.Changes base t m) ∧ Stands robot base x ∧ Follows robot t x) ∧
    SameContactData s t ∧ ∃ root, s.configuration = copyTail extraDim t.configuration root

/-! ## Proofs -/

theorem follows_of_sat {robot : Reach.ReachEnv N K} (hR : ∀ n q, Reach.Orthogonal (robot.kin.effector n q).rot) {s : State N K} (hs : Sound s) {A : Reach.Ineq K}
    (h : Reach.constraintsForState robot.kin s = some A) {x : Vec3 K} (hx : Reach.Sat A x) : Follows robot s x := by
  intro n hn
  have hk : n ∈ s.contacts.keys := by
    rw [← hs.positionsKeys, ← AMap.find?_isSome, Option.isSome_iff_exists]
    exact hn
  obtain ⟨b, hb⟩ := Option.isSome_iff_exists.1 (AMap.find?_isSome.2 hk)
  rw [hs.active n b hb] at hb
  exact (Reach.C51_state robot.kin s hs.contacts A h (fun n => hR n _) x).1 (Reach.verify_iff _ _ |>.2 hx) n hb

theorem passes_of_success {robot : Reach.ReachEnv N K} (hR : ∀ n q, Reach.Orthogonal (robot.kin.effector n q).rot) (hsol : ∀ Ab c, (robot.solve Ab c).1 = true → Reach.Sat Ab (robot.solve Ab c).2)
    {s t : State N K} (hs : Sound s) (ht : Sound t) {r : Reach.Result K} (h : Reach.isReachable robot s t 0 false = some r) (hr : r.success = true) : Passes robot s t := by
  simp only [Reach.isReachable, Bool.false_and, Bool.false_eq_true, if_false] at h
  have hmp := hs.toMapsOk
  have hmn := ht.toMapsOk
  rw [Reach.C52_success] at hr
  rcases Reach.direct_cases robot 0 hmp hmn r h with ⟨h1, -⟩ | ⟨-, h1⟩ | ⟨⟨n, hn, huniq⟩, h3⟩
  · exact Or.inl h1
  · rw [h1] at hr; simp [Reach.Result.of] at hr
  · rcases h3 with ⟨-, h1⟩ | ⟨Ab, c, h4, h5, h6, h7⟩
    · rw [h1] at hr; simp [Reach.Result.of] at hr
    have hok : (robot.solve Ab c).1 = true := by
      by_contra hcon
      rw [if_neg hcon] at h5
      rw [h5] at hr; simp at hr
    have hsat := hsol Ab c hok
    refine Or.inr ⟨n, (robot.solve Ab c).2, fun m => ⟨huniq m, fun e => e ▸ hn⟩, ?_⟩
    generalize (robot.solve Ab c).2 = x at hsat
    have ub : ∀ m, m ∈ t.contactBreaks s → m = n := fun m hm => huniq m (by rw [State.C05_breaks hmp] at hm; exact Or.inr hm)
    have uc : ∀ m, m ∈ t.contactCreations s → m = n := fun m hm => huniq m (by rw [State.C05_creations hmn] at hm; unfold Reach.Changes; tauto)
    have lb : n ∈ t.contactBreaks s → (t.contactBreaks s).length = 1 := fun hm => by
      have h0 := List.length_pos_of_mem hm
      by_contra hne
      obtain ⟨a, ha, b, hb, hab⟩ := (Reach.two_of_length (Reach.nodup_breaks t s)).1 (by omega)
      exact hab ((ub a ha).trans (ub b hb).symm)
    have lc : n ∈ t.contactCreations s → (t.contactCreations s).length = 1 := fun hm => by
      have h0 := List.length_pos_of_mem hm
      by_contra hne
      obtain ⟨a, ha, b, hb, hab⟩ := (Reach.two_of_length (Reach.nodup_creations t s)).1 (by omega)
      exact hab ((uc a ha).trans (uc b hb).symm)
    have mb : Touches s n → n ∈ t.contactBreaks s := fun hm => by
      rw [State.C05_breaks hmp]; unfold Reach.Changes at hn; tauto
    have mc : Touches t n → n ∈ t.contactCreations s := fun hm => by
      rw [State.C05_creations hmn]; unfold Reach.Changes at hn; tauto
    unfold Reach.transitionConstraints at h4
    have both : ∀ {u : State N K} {B : Reach.Ineq K}, Sound u → Reach.constraintsForStateAcc robot u 0 = some (some B) → Reach.Sat B x → Stands robot u x ∧ Follows robot u x := by
      intro u B hu hB hxB
      unfold Reach.constraintsForStateAcc at hB
      cases e1 : Reach.stabilityForState robot u 0 with
      | none => simp [e1] at hB
      | some o =>
        cases o with
        | none => simp [e1] at hB
        | some A =>
          cases e2 : Reach.constraintsForState robot.kin u with
          | none => simp [e1, e2] at hB
          | some C =>
            simp only [e1, e2, Option.some.injEq] at hB
            rw [← hB, Reach.sat_stack] at hxB
            exact ⟨⟨A, e1, hxB.2⟩, follows_of_sat hR hu e2 hxB.1⟩
    by_cases hbc : (t.contactBreaks s).length = 1 ∧ (t.contactCreations s).length = 1
    · rw [if_pos hbc] at h4
      split at h4
      · cases h4
      · cases h4
      · rename_i Ap e1
        split at h4
        · cases h4
        · cases h4
        · rename_i An e2
          simp only [Option.some.injEq] at h4
          rw [← h4, Reach.sat_stack] at hsat
          have p1 := both hs e1 hsat.1
          have p2 := both ht e2 hsat.2
          exact ⟨fun _ => ⟨p1.1, p2.2⟩, fun _ => ⟨p2.1, p1.2⟩⟩
    · rw [if_neg hbc] at h4
      by_cases hb : (t.contactBreaks s).length > 0
      · rw [if_pos hb] at h4
        obtain ⟨m, hm⟩ := List.exists_mem_of_length_pos hb
        have hnb : n ∈ t.contactBreaks s := (ub m hm) ▸ hm
        have hnc : ¬ Touches t n := fun hh => hbc ⟨lb hnb, lc (mc hh)⟩
        split at h4
        · cases h4
        · cases h4
        · rename_i An e1
          split at h4
          · cases h4
          · rename_i Kp e2
            simp only [Option.some.injEq] at h4
            rw [← h4, Reach.sat_stack] at hsat
            exact ⟨fun hh => absurd hh hnc, fun _ => ⟨⟨An, e1, hsat.1⟩, follows_of_sat hR hs e2 hsat.2⟩⟩
      · rw [if_neg hb] at h4
        have hns : ¬ Touches s n := fun hh => hb (List.length_pos_of_mem (mb hh))
        split at h4
        · cases h4
        · cases h4
        · rename_i Ap e1
          split at h4
          · cases h4
          · rename_i Kn e2
            simp only [Option.some.injEq] at h4
            rw [← h4, Reach.sat_stack] at hsat
            exact ⟨fun _ => ⟨⟨Ap, e1, hsat.1⟩, follows_of_sat hR ht e2 hsat.2⟩, fun hh => absurd hh hns⟩

theorem changes_withContact (env : Env N K Smp) (base : State N K) (limb : N) (smp : Smp) (cfg : List K) (m : N) (hm : m ≠ limb) : ¬ Reach.Changes base (withContact env base limb smp cfg) m := by
  have e : ∀ p, TouchesAt (withContact env base limb smp cfg) m p ↔ TouchesAt base m p := fun p => by
    unfold TouchesAt withContact State.addContact
    simp only
    rw [AMap.find?_set, if_neg (by exact hm)]
  have e' : Touches (withContact env base limb smp cfg) m ↔ Touches base m := exists_congr e
  rintro (⟨h1, h2⟩ | ⟨h1, h2⟩ | ⟨p, q, h1, h2, h3⟩)
  · exact h2 (e'.1 h1)
  · exact h2 (e'.2 h1)
  · rw [e] at h2
    have : p = q := Option.some.inj (h1.symm.trans h2)
    subst this
    rw [show FarApart p p ↔ 1 < 10000 * Vec3.distSq p p from Iff.rfl, Vec3.distSq_self] at h3
    linarith

theorem Checked.crossed {env : Env N K Smp} {robot : Reach.ReachEnv N K} (hu : UsesIsReachable env robot) (hR : ∀ n q, Reach.Orthogonal (robot.kin.effector n q).rot)
    (hsol : ∀ Ab c, (robot.solve Ab c).1 = true → Reach.Sat Ab (robot.solve Ab c).2) {thr : K} {extraDim : Nat} {previous s : State N K} (hp : WellFormed env.limbs previous)
    (h : Checked env thr true true extraDim previous s) : Crossed env robot extraDim previous s := by
  obtain ⟨base, t, -, hw, h1, h2, h3, -, h4, h5⟩ := h.history
  obtain ⟨configuration, w, hf, hre⟩ := h2 rfl rfl
  have hww : Sound w := by
    rcases hf with rfl | ⟨-, -, hf⟩
    · exact hp.sound.same_maps rfl rfl rfl rfl
    · exact hf.sound
  obtain ⟨r, hr, hr'⟩ := hu w base hre
  refine ⟨configuration, w, base, t, hf, h1, passes_of_success hR hsol hww hw.sound hr hr', ?_, h4, h5⟩
  rcases h3 with h3 | ⟨limb, smp, cfg, g, rfl⟩
  · exact Or.inl h3
  · have hk : limb ∉ base.contacts.keys := fun hk => by
      obtain ⟨v, hv⟩ := Option.isSome_iff_exists.1 (AMap.find?_isSome.2 hk)
      exact g.free (by rw [hv, hw.sound.active limb v hv])
    have hn : 1 ≤ base.nbContacts := by
      have h2 := h.twoContacts
      rw [h4.1] at h2
      have e : (withContact env base limb smp cfg).contacts = base.contacts.set limb true := rfl
      rw [e, AMap.length_set_of_not_mem true hk] at h2
      rw [hw.counter]
      omega
    have g1 := g.reachable hn rfl
    rw [if_pos rfl] at g1
    obtain ⟨r, hr, hr'⟩ := hu _ _ g1
    have hwt : WellFormed env.limbs (withContact env base limb smp cfg) := hw.addContact g.known hk _ _ _ _
    have hnt : ¬ Touches base limb := fun ⟨p, hp⟩ => hk (by rw [← hw.sound.positionsKeys]; exact AMap.find?_isSome.1 (by unfold TouchesAt at hp; rw [hp]; rfl))
    have htt : Touches (withContact env base limb smp cfg) limb := ⟨_, by
      unfold TouchesAt withContact State.addContact
      simp only
      rw [AMap.find?_set, if_pos rfl]⟩
    rcases passes_of_success hR hsol hw.sound hwt.sound hr hr' with hno | ⟨n, x, e1, e2, -⟩
    · exact absurd (Or.inl ⟨htt, hnt⟩) (hno limb)
    · have : limb = n := (e1 limb).1 (Or.inl ⟨htt, hnt⟩)
      subst this
      exact Or.inr ⟨limb, x, hnt, htt, fun m hm => changes_withContact env base limb smp cfg m hm, e2 htt⟩

/-- **C175 (one step)** Whatever the robot, the obstacles and the solvers answer, if reachability is tested in quasi-static mode, a state given by contact generation from a state with complete contact data, not by repositioning
the robot in place, is crossed to as above. -/
theorem C175_step (env : Env N K Smp) (robot : Reach.ReachEnv N K) (hu : UsesIsReachable env robot) (hR : ∀ n q, Reach.Orthogonal (robot.kin.effector n q).rot)
    (hsol : ∀ Ab c, (robot.solve Ab c).1 = true → Reach.Sat Ab (robot.solve Ab c).2)
    (hl : env.limbs.Nodup) (postural : Bool) (fuel : Nat) (previous : State N K) (hp : WellFormed env.limbs previous)
    (configuration : List K) (thr : K) (extraDim : Nat) (rep : ContactReport N K)
    (hr : computeContacts env postural fuel previous configuration thr extraDim true true = some rep) (hnr : rep.repositionedInPlace = false) :
    rep.success = true ∧ Crossed env robot extraDim previous rep.result := by
  obtain ⟨h1, h2⟩ := C168_step env hl postural fuel previous hp configuration thr extraDim true true rep hr hnr
  exact ⟨h1, h2.crossed hu hR hsol hp⟩

/-- **C175 (whole plan; partial)**: each state of a plan is the start, the goal, a move of one limb to its place in the goal, a state rebuilt by deep filtering, a state after a repositioning, or is crossed to from a state with
complete contact data.  What is missing: the other states are not tested (`C168_reposition_violated`, `C168_goal_violated`), and the contact is not released from the state before (`C175_violated`). -/
theorem C175_plan_partial (env : Env N K Smp) (robot : Reach.ReachEnv N K) (hu : UsesIsReachable env robot) (hR : ∀ n q, Reach.Orthogonal (robot.kin.effector n q).rot)
    (hsol : ∀ Ab c, (robot.solve Ab c).1 = true → Reach.Sat Ab (robot.solve Ab c).2)
    (hl : env.limbs.Nodup) (hgr : ∀ n, ∀ m ∈ env.group n, m ∈ env.limbs)
    (thr : K) (extraDim : Nat) (compute : Compute N K) (postural : Bool)
    (hc : IsComputeContacts env postural thr extraDim true true compute)
    (sv : Solvers N K) (configs : List (List K)) (hne : configs ≠ [])
    (ts init : K) (hts : 0 ≤ ts) (start goal : State N K) (hs : WellFormed env.limbs start)
    (pathEnd : Option K) (deep p : Bool) (fuel : Nat) (plan : List (Frame N K))
    (h : interpolate sv compute postural start goal pathEnd configs ts init deep fuel = (.done plan, p)) :
    ∀ f ∈ plan, f = (init, start) ∨ f.2 = goal ∨ (∃ s limb, MovesLimb sv goal s limb f.2) ∨ (deep = true ∧ Rebuilt sv f.2) ∨
      ∃ prev : Frame N K, WellFormed env.limbs prev.2 ∧
        ((∃ rep, Produces sv compute configs ts init prev rep f ∧ rep.repositionedInPlace = true) ∨ Crossed env robot extraDim prev.2 f.2) := by
  intro f hf
  rcases C168_plan_partial env hl hgr thr extraDim true true compute postural hc sv configs hne ts init hts start goal hs pathEnd deep p fuel plan h f hf with
    h | h | h | h | ⟨prev, hw, h | h⟩
  · exact Or.inl h
  · exact Or.inr (Or.inl h)
  · exact Or.inr (Or.inr (Or.inl h))
  · exact Or.inr (Or.inr (Or.inr (Or.inl h)))
  · exact Or.inr (Or.inr (Or.inr (Or.inr ⟨prev, hw, Or.inl h⟩)))
  · exact Or.inr (Or.inr (Or.inr (Or.inr ⟨prev, hw, Or.inr (h.crossed hu hR hsol hw)⟩)))

/-! ## A robot on a line -/

/-- three feet on a line; a configuration is the place of the robot and those of the feet with respect to it; a foot can be at most 3 away from the centre of mass, which has to be at most 1 away from the first of the feet
in contact -/
def lineRobot : Reach.ReachEnv ℕ ℚ where
  kin := ⟨[1, 2, 3].map fun n => (n, [(⟨1, 0, 0⟩, ⟨3, 0, 0⟩), (⟨-1, 0, 0⟩, ⟨-3, 0, 0⟩)]), fun n q => ⟨Mat3.one, ⟨q.headD 0 + q.getD n 0, 0, 0⟩⟩⟩
  stab := { limbs := [1, 2, 3].map fun n => (n, ⟨true, false, 0, 0, ⟨0, 0, 1⟩, 0⟩), friction := 1 / 2, staticStability := true, extraDim := 0, effectorRotation := fun _ _ => Mat3.one,
            centerOfMass := fun c => ⟨c.headD 0, 0, 1⟩, rotationBetween := fun _ _ => Mat3.one, normalize := fun v => v, maxDouble := 1000 }
  solver := ⟨fun _ => true, fun _ _ _ => (.optimal, true), fun _ _ _ => (.optimal, 5)⟩
  gravity := ⟨0, 0, -10⟩
  mass := 1
  polytope := fun pb => let m := (pb.positions.headD 0).x
    some [((0, ⟨0, 1 / 10, 0⟩), m + 1), ((0, ⟨0, -1 / 10, 0⟩), 1 - m)]
  norm6 := fun _ => 1
  qp := fun Ab _ _ => match [(⟨0, 0, 0⟩ : Vec3 ℚ), ⟨5 / 2, 0, 0⟩, ⟨9 / 2, 0, 0⟩, ⟨6, 0, 0⟩].find? (Reach.verify Ab) with
    | some x => (true, x)
    | none => (false, 0)
  offset := fun _ => 0

/-- its contact generation: feet in contact stay where they are; the first foot cannot be 2 behind the robot, and can be put at the given distances from it -/
def lineEnv (places : List ℚ) : Env ℕ ℚ ℚ where
  limbs := [1, 2, 3]
  nonContacting := []
  group n := [n]
  applyRoot t s := (true, t.headD 0 :: [1, 2, 3].map fun n => match s.contactPositions.find? n with
    | some p => p.x - t.headD 0
    | none => t.getD n 0)
  limbValid _ _ := true
  fullValid c := decide (c.getD 1 0 ≠ -2)
  limbSamples _ := []
  load smp c := c.set 1 smp
  reachable s t := match Reach.isReachable lineRobot s t 0 false with
    | some r => r.success
    | none => false
  reachableDyn _ _ := false
  robustness s := ((s.contacts.length : ℚ) : WithBot ℚ)
  octree n _ _ := if n = 1 then places else []
  applyEffector _ _ _ c _ := (true, c)
  effectorPosition n c := ⟨c.headD 0 + c.getD n 0, 0, 0⟩
  effectorRotation _ _ := Mat3.one
  normal _ := ⟨0, 0, 1⟩
  junkVec := ⟨-99, -99, -99⟩
  junkMat := Mat3.one
  junkRob := 0

/-- the first foot at 0, the others at 5 -/
def lineState : State ℕ ℚ :=
  (((({ (State.init 0 : State ℕ ℚ) with configuration := [0, 0, 5, 5] }).addContact 1 ⟨0, 0, 0⟩ ⟨0, 0, 1⟩ Mat3.one [0, 0, 5, 5]).addContact 2 ⟨5, 0, 0⟩ ⟨0, 0, 1⟩ Mat3.one [0, 0, 5, 5])).addContact 3 ⟨5, 0, 0⟩ ⟨0, 0, 1⟩ Mat3.one [0, 0, 5, 5]

theorem line_uses (places : List ℚ) : UsesIsReachable (lineEnv places) lineRobot := by
  intro s t h
  simp only [lineEnv] at h
  split at h
  · rename_i r hr; exact ⟨r, hr, h⟩
  · cases h

theorem line_solver (Ab : Reach.Ineq ℚ) (c : Option (Vec3 ℚ)) (h : (lineRobot.solve Ab c).1 = true) : Reach.Sat Ab (lineRobot.solve Ab c).2 := by
  unfold Reach.ReachEnv.solve at h ⊢
  simp only [lineRobot] at h ⊢
  split at h
  · rename_i x hx
    have := List.find?_some hx
    rw [Reach.verify_iff] at this
    exact this
  · cases h

theorem line_rotation (n : ℕ) (q : List ℚ) : Reach.Orthogonal (lineRobot.kin.effector n q).rot := by
  intro u v
  simp [lineRobot, Mat3.one, Mat3.mulVec, Vec3.dot]

theorem line_wellFormed (places : List ℚ) : WellFormed (lineEnv places).limbs lineState := by
  refine ⟨⟨⟨?_, ?_, ?_, ?_⟩, ?_, ?_, ?_, ?_⟩, ?_, ?_⟩
  any_goals (first | decide | (unfold AMap.WF; decide))
  · intro n b h
    have := AMap.find?_some_mem h
    simp [lineState, State.addContact, State.init, AMap.set] at this
    tauto
  · exact (by decide : ∀ n ∈ [1, 2, 3], n ∈ [1, 2, 3])

/-- the hypotheses of `C175_step` are met: when the robot moves by 2 the first foot is released, and put down at 6 if it can be 4 away from the robot -/
example : UsesIsReachable (lineEnv [4]) lineRobot ∧ (lineEnv [4]).limbs.Nodup ∧ WellFormed (lineEnv [4]).limbs lineState ∧ (∀ n q, Reach.Orthogonal (lineRobot.kin.effector n q).rot) ∧
    (∀ Ab c, (lineRobot.solve Ab c).1 = true → Reach.Sat Ab (lineRobot.solve Ab c).2) ∧
    ((computeContacts (lineEnv [4]) false 10 lineState [2, 0, 5, 5] 2 0 true true).map fun r => (r.repositionedInPlace, r.result.contactPositions.find? 1)) = some (false, some ⟨6, 0, 0⟩) :=
  ⟨line_uses _, by decide, line_wellFormed _, line_rotation, line_solver, by decide +kernel⟩

/-- **C175 is violated**: the release of a contact is tested from the configuration given by the planner, in which the feet are not where the contacts are.  The first foot is released although nowhere can the centre of mass be
above the other feet and near enough to the first one: the robot has to fall. -/
theorem C175_violated : ∃ rep, computeContacts (lineEnv []) false 10 lineState [2, 0, 5, 5] 2 0 true true = some rep ∧ rep.success = true ∧ rep.repositionedInPlace = false ∧
    rep.result.contacts.keys = [2, 3] ∧ ¬ Passes lineRobot lineState rep.result := by
  have hs : (computeContacts (lineEnv []) false 10 lineState [2, 0, 5, 5] 2 0 true true).isSome = true := by decide +kernel
  obtain ⟨rep, hrep⟩ := Option.isSome_iff_exists.1 hs
  have hv : ((computeContacts (lineEnv []) false 10 lineState [2, 0, 5, 5] 2 0 true true).map fun r => (r.success, r.repositionedInPlace, r.result.contacts.keys, r.result.contactPositions.find? 1)) = some (true, false, [2, 3], none) := by decide +kernel
  have h5 : ((computeContacts (lineEnv []) false 10 lineState [2, 0, 5, 5] 2 0 true true).map fun r => Reach.stabilityForState lineRobot r.result 0) =
      some (some (some [(⟨1, 0, 0⟩, 6), (⟨-1, 0, 0⟩, -4)])) := by decide +kernel
  rw [hrep] at hv h5
  rw [Option.map_some, Option.some.injEq] at h5
  simp only [Option.map_some, Option.some.injEq, Prod.mk.injEq] at hv
  obtain ⟨h1, h2, h3, h4⟩ := hv
  refine ⟨rep, hrep, h1, h2, h3, ?_⟩
  have t1 : Touches lineState 1 := ⟨⟨0, 0, 0⟩, by unfold TouchesAt; decide +kernel⟩
  have t2 : ¬ Touches rep.result 1 := fun ⟨p, hp⟩ => by
    unfold TouchesAt at hp
    rw [h4] at hp
    cases hp
  rintro (h | ⟨n, x, e1, -, e2⟩)
  · exact h 1 (Or.inr (Or.inl ⟨t1, t2⟩))
  · obtain rfl : 1 = n := (e1 1).1 (Or.inr (Or.inl ⟨t1, t2⟩))
    obtain ⟨⟨A, hA, hx⟩, hf⟩ := e2 t1
    rw [h5] at hA
    simp only [Option.some.injEq] at hA
    subst hA
    have a1 := hx (⟨-1, 0, 0⟩, -4) (by simp)
    obtain ⟨faces, f1, f2⟩ := hf 1 t1
    have e : lineRobot.kin.limbs.find? 1 = some [(⟨1, 0, 0⟩, ⟨3, 0, 0⟩), (⟨-1, 0, 0⟩, ⟨-3, 0, 0⟩)] := by decide +kernel
    rw [e] at f1
    obtain rfl := Option.some.inj f1
    have a2 := f2 (⟨1, 0, 0⟩, ⟨3, 0, 0⟩) (by simp)
    simp [Vec3.dot, lineRobot, lineState, State.addContact, Mat3.one, Mat3.transpose, Mat3.mulVec] at a1 a2
    linarith
end Interp
end Rbprm
