import Verif.Props.Balance
import Verif.Props.Stability
/-!
# Property C172: the equilibrium of the states of a plan is that of their contacts

The oracle of `Model/ContactGen` for the robustness of a state is realised by `IsStable` (`Model/Stability`, stability.cc), as called in contact_generation.cc:165, 569 and 785: a user relies on the states of a plan being in
equilibrium on the contacts that are recorded in them, with the friction of the robot, for the centre of mass of their configuration.
-/
set_option linter.unusedSectionVars false
namespace Rbprm
namespace Interp
open State Contact
variable {N K Smp : Type _} [LinearOrder N] [Field K] [LinearOrder K] [IsStrictOrderedRing K]

/-! ## Specification -/

/-- the robustness asked for by contact generation is the answer of `IsStable`, for the default algorithm, the centre of mass of the robot, and some acceleration; `⊥` is a call without answer (an exception, or a
configuration that lacks the extra coordinates) -/
def UsesIsStable (env : Env N K Smp) (stab : Stability.StabEnv N K) (sv : Stability.Solver K) : Prop :=
  ∀ s, env.robustness s ≠ ⊥ → stab.extraDim ≤ s.configuration.length ∧ ∃ acc r, Stability.isStable stab sv s acc 0 .DLP = some r ∧ env.robustness s = (r : WithBot K)

/-- the equilibrium problem of a robot in the configuration `q` with the contacts of `s`: the support points of each contact (one or four, around the recorded place), its recorded normal (normalised, unless it is a grasp) for each of
them, the contacts that grasp at the end, and the friction of the robot -/
structure ProblemOf (stab : Stability.StabEnv N K) (s : State N K) (q : List K) (pb : Stability.Problem K) : Prop where
  points : ∃ (pts : N → List (Vec3 K)) (nrm : N → Vec3 K),
    (∀ n, Touches s n → Stability.SupportOf stab { s with configuration := q } n (pts n)) ∧
    (∀ n, Touches s n → ∃ limb v, stab.limbs.find? n = some limb ∧ s.contactNormals.find? n = some v ∧ nrm n = if limb.grasps then v else stab.normalize v) ∧
    pb.positions = (Stability.contactsWith stab s false).flatMap pts ++ (Stability.contactsWith stab s true).flatMap pts ∧
    pb.normals = (Stability.contactsWith stab s false).flatMap (fun n => List.replicate (pts n).length (nrm n)) ++
      (Stability.contactsWith stab s true).flatMap (fun n => List.replicate (pts n).length (nrm n))
  friction : pb.friction = stab.friction

/-- the solver found the state in equilibrium on its contacts: robust enough, or, if a contact grasps, just in equilibrium (this test gives no robustness), without acceleration iff the robot is set to static equilibrium.  The configuration of the test is that of the state but for the last
`extraDim` coordinates -/
def Balanced (stab : Stability.StabEnv N K) (sv : Stability.Solver K) (thr : K) (extraDim : Nat) (s : State N K) : Prop :=
  ∃ (q : List K) (pb : Stability.Problem K) (acc : Option (Vec3 K)), (∃ root, s.configuration = copyTail extraDim q root) ∧ ProblemOf stab s q pb ∧ sv.setNewContacts pb = true ∧
    (acc = none ↔ stab.staticStability = true) ∧
    ((∃ n limb, Touches s n ∧ stab.limbs.find? n = some limb ∧ limb.grasps = true) ∧ sv.check pb (stab.centerOfMass q) acc = (.optimal, true) ∨
     (∀ n limb, Touches s n → stab.limbs.find? n = some limb → limb.grasps = false) ∧
      ∃ r, thr ≤ r ∧ sv.robustness pb (stab.centerOfMass q) acc = (.optimal, r))

/-! ## Proofs -/

theorem contactsWith_congr (stab : Stability.StabEnv N K) {s t : State N K} (h : s.contactPositions = t.contactPositions) (g : Bool) :
    Stability.contactsWith stab s g = Stability.contactsWith stab t g := by
  unfold Stability.contactsWith; rw [h]

theorem touches_iff {s : State N K} {n : N} : Touches s n ↔ n ∈ s.contactPositions.keys := by
  rw [← AMap.has_iff]
  unfold Touches TouchesAt AMap.has
  rw [Option.isSome_iff_exists]

theorem mem_contactsWith {stab : Stability.StabEnv N K} {s : State N K} {g : Bool} {n : N} :
    n ∈ Stability.contactsWith stab s g ↔ Touches s n ∧ ∃ l, stab.limbs.find? n = some l ∧ l.grasps = g := by
  unfold Stability.contactsWith
  rw [List.mem_filter, decide_eq_true_eq, touches_iff]

/-- a state accepted by `IsStable` with a threshold that is not negative is in equilibrium on its contacts -/
theorem isStable_balanced (stab : Stability.StabEnv N K) (sv : Stability.Solver K) (hmax : 0 < stab.maxDouble) (thr : K) (hthr : 0 ≤ thr) (extraDim : Nat) (s t : State N K) (hst : SameContactData s t)
    (hcfg : ∃ root, s.configuration = copyTail extraDim t.configuration root) (hlen : stab.extraDim ≤ t.configuration.length) (acc : Vec3 K) (r : K) (hr : thr ≤ r)
    (h : Stability.isStable stab sv t acc 0 .DLP = some r) : Balanced stab sv thr extraDim s := by
  obtain ⟨c, pb, a, used, h1, -, h3, hv⟩ := Stability.C48_verdict stab sv t acc 0 .DLP r hmax hlen h
  obtain ⟨pts, nrm, g1, g2, g3, g4, g5, g6, g7⟩ := Stability.C48_rows stab sv t .DLP 0 0 c pb h1
  have hused : used = stab.centerOfMass t.configuration := by
    rw [← g6]
    exact h3.2 (by simp only [show (0 : Vec3 K).x = 0 from rfl, show (0 : Vec3 K).y = 0 from rfl, show (0 : Vec3 K).z = 0 from rfl, abs_zero]; norm_num)
  subst hused
  have hkey : ∀ n, Touches s n → n ∈ t.contactPositions.keys := fun n hn => by rw [← hst.2.1]; exact touches_iff.1 hn
  refine ⟨t.configuration, pb, if stab.staticStability then none else some a, hcfg, ⟨⟨pts, nrm, ?_, ?_, ?_, ?_⟩, g4⟩, g7, by cases stab.staticStability <;> simp, ?_⟩
  · intro n hn
    obtain ⟨⟨limb, p, M, k1, k2, k3, k4, k5, k6⟩⟩ := (g1 n (hkey n hn)).1
    exact ⟨⟨limb, p, M, k1, hst.2.1 ▸ k2, k3, fun e => hst.2.2.2 ▸ k4 e, fun e => by obtain ⟨v, j1, j2⟩ := k5 e; exact ⟨v, hst.2.2.1 ▸ j1, j2⟩, k6⟩⟩
  · intro n hn
    obtain ⟨limb, v, k1, k2, k3⟩ := (g1 n (hkey n hn)).2
    exact ⟨limb, v, k1, hst.2.2.1 ▸ k2, k3⟩
  · rw [g2, contactsWith_congr stab hst.2.1, contactsWith_congr stab hst.2.1]
  · rw [g3, contactsWith_congr stab hst.2.1, contactsWith_congr stab hst.2.1]
  · rw [← contactsWith_congr stab hst.2.1] at g5
    have hpp : pb.alg = .PP → ∃ n limb, Touches s n ∧ stab.limbs.find? n = some limb ∧ limb.grasps = true := by
      intro e
      by_cases hg : Stability.contactsWith stab s true = []
      · rw [if_neg (not_not.2 hg), e] at g5
        cases g5
      · obtain ⟨n, hn⟩ := List.exists_mem_of_ne_nil _ hg
        obtain ⟨k1, limb, k2, k3⟩ := mem_contactsWith.1 hn
        exact ⟨n, limb, k1, k2, k3⟩
    have hnpp : pb.alg ≠ .PP → ∀ n limb, Touches s n → stab.limbs.find? n = some limb → limb.grasps = false := by
      intro e n limb k1 k2
      by_contra k3
      have : n ∈ Stability.contactsWith stab s true := mem_contactsWith.2 ⟨k1, limb, k2, by simpa using k3⟩
      rw [if_pos (List.ne_nil_of_mem this)] at g5
      exact e g5
    cases hv with
    | stable k1 k2 => exact Or.inl ⟨hpp k1, k2⟩
    | unstable k1 k2 => linarith
    | robust r k1 k2 => exact Or.inr ⟨hnpp k1, r, hr, k2⟩
    | failedPP r k1 k2 k3 => linarith
    | failed r k1 k2 k3 => linarith

/-- a state that was checked (C168) is in equilibrium on its contacts -/
theorem Checked.balanced {env : Env N K Smp} {stab : Stability.StabEnv N K} {sv : Stability.Solver K} (hu : UsesIsStable env stab sv) (hmax : 0 < stab.maxDouble)
    {thr : K} (hthr : 0 ≤ thr) {tr qs : Bool} {extraDim : Nat} {previous s : State N K} (h : Checked env thr tr qs extraDim previous s) : Balanced stab sv thr extraDim s := by
  obtain ⟨base, t, -, -, -, -, -, h3, h4, h5⟩ := h.history
  obtain ⟨hlen, acc, r, k1, k2⟩ := hu t (fun e => by rw [e] at h3; exact absurd h3 (by simp))
  rw [k2] at h3
  exact isStable_balanced stab sv hmax thr hthr extraDim s t h4 h5 hlen acc r (WithBot.coe_le_coe.1 h3) k1

/-- **C172 (one step)**: when the call of contact generation does not reposition the robot, the linear-programming library has found the returned state to be in equilibrium, for the problem made of the contacts of that state. -/
theorem C172_step (env : Env N K Smp) (stab : Stability.StabEnv N K) (sv : Stability.Solver K) (hu : UsesIsStable env stab sv) (hmax : 0 < stab.maxDouble)
    (hl : env.limbs.Nodup) (postural : Bool) (fuel : Nat) (previous : State N K) (hp : WellFormed env.limbs previous)
    (configuration : List K) (thr : K) (hthr : 0 ≤ thr) (extraDim : Nat) (tr qs : Bool) (rep : ContactReport N K)
    (hr : computeContacts env postural fuel previous configuration thr extraDim tr qs = some rep) (hnr : rep.repositionedInPlace = false) :
    rep.success = true ∧ Balanced stab sv thr extraDim rep.result := by
  obtain ⟨h1, h2⟩ := C168_step env hl postural fuel previous hp configuration thr extraDim tr qs rep hr hnr
  exact ⟨h1, h2.balanced hu hmax hthr⟩

/-- **C172 (whole plan; partial)**: each state of a plan is the start, the goal, a move of one limb to its place in the goal, a state rebuilt by deep filtering, a state after a repositioning, or is in equilibrium on its contacts.
What is missing is that all of them are: `C168_reposition_violated`, `C168_goal_violated` and `C168_deep_violated` show that the others are not checked. -/
theorem C172_plan_partial (env : Env N K Smp) (stab : Stability.StabEnv N K) (lp : Stability.Solver K) (hu : UsesIsStable env stab lp) (hmax : 0 < stab.maxDouble)
    (hl : env.limbs.Nodup) (hgr : ∀ n, ∀ m ∈ env.group n, m ∈ env.limbs)
    (thr : K) (hthr : 0 ≤ thr) (extraDim : Nat) (tr qs : Bool) (compute : Compute N K) (postural : Bool)
    (hc : IsComputeContacts env postural thr extraDim tr qs compute)
    (sv : Solvers N K) (configs : List (List K)) (hne : configs ≠ [])
    (ts init : K) (hts : 0 ≤ ts) (start goal : State N K) (hs : WellFormed env.limbs start)
    (pathEnd : Option K) (deep p : Bool) (fuel : Nat) (plan : List (Frame N K))
    (h : interpolate sv compute postural start goal pathEnd configs ts init deep fuel = (.done plan, p)) :
    ∀ f ∈ plan, f = (init, start) ∨ f.2 = goal ∨ (∃ s limb, MovesLimb sv goal s limb f.2) ∨ (deep = true ∧ Rebuilt sv f.2) ∨
      (∃ (prev : Frame N K) (rep : ContactReport N K), WellFormed env.limbs prev.2 ∧ Produces sv compute configs ts init prev rep f ∧ rep.repositionedInPlace = true) ∨
      Balanced stab lp thr extraDim f.2 := by
  intro f hf
  rcases C168_plan_partial env hl hgr thr extraDim tr qs compute postural hc sv configs hne ts init hts start goal hs pathEnd deep p fuel plan h f hf with
    h | h | h | h | ⟨prev, hw, ⟨rep, h1, h2⟩ | h⟩
  · exact Or.inl h
  · exact Or.inr (Or.inl h)
  · exact Or.inr (Or.inr (Or.inl h))
  · exact Or.inr (Or.inr (Or.inr (Or.inl h)))
  · exact Or.inr (Or.inr (Or.inr (Or.inr (Or.inl ⟨prev, rep, hw, h1, h2⟩))))
  · exact Or.inr (Or.inr (Or.inr (Or.inr (Or.inr (h.balanced hu hmax hthr)))))

/-! ## Non-vacuity -/

/-- a robot with four feet; the second one is a point -/
def standing : Stability.StabEnv ℕ ℚ where
  limbs := [(1, ⟨false, false, 1, 2, ⟨0, 0, 1⟩, 0⟩), (2, ⟨true, false, 0, 0, ⟨0, 0, 1⟩, ⟨0, 0, 1⟩⟩), (3, ⟨true, false, 0, 0, ⟨0, 0, 1⟩, 0⟩), (4, ⟨true, false, 0, 0, ⟨0, 0, 1⟩, 0⟩)]
  friction := 1 / 2
  staticStability := true
  extraDim := 0
  effectorRotation := fun _ _ => Mat3.one
  centerOfMass := fun c => ⟨c.headD 0, 0, 1⟩
  rotationBetween := fun _ _ => Mat3.one
  normalize := fun v => v
  maxDouble := 1000

/-- the robot is in equilibrium when it has many support points -/
def counting : Stability.Solver ℚ where
  setNewContacts := fun _ => true
  check := fun pb _ _ => (.optimal, decide (pb.positions.length > 2))
  robustness := fun pb _ _ => if pb.positions.length = 0 then (.infeasible, 0) else (.optimal, pb.positions.length)

/-- its contact generation asks `IsStable` -/
def standingEnv : Env ℕ ℚ ℚ where
  limbs := [1, 2, 3, 4]
  nonContacting := []
  group n := [n]
  applyRoot t _ := (true, t)
  limbValid _ c := decide (0 ≤ c.headD 0)
  fullValid c := decide (c.headD 0 ≠ 7)
  limbSamples _ := [-5, 3]
  load smp _ := [smp]
  reachable _ _ := true
  reachableDyn _ _ := true
  robustness s := match Stability.isStable standing counting s 0 0 .DLP with
    | some r => (r : WithBot ℚ)
    | none => ⊥
  octree _ _ _ := [-2, 2, 4]
  applyEffector postural _ smp _ _ := (!postural || decide (smp ≠ 2), [smp])
  effectorPosition l c := ⟨l, c.headD 0, 0⟩
  effectorRotation _ _ := Mat3.one
  normal _ := ⟨0, 0, 1⟩
  junkVec := ⟨-99, -99, -99⟩
  junkMat := Mat3.one
  junkRob := 0

/-- a state with two contacts, a foot and a point -/
def twoFeet : State ℕ ℚ :=
  (({ (State.init 0 : State ℕ ℚ) with configuration := [0] }).addContact 1 ⟨1, 0, 0⟩ ⟨0, 0, 1⟩ Mat3.one [0]).addContact 2 ⟨2, 0, 0⟩ ⟨0, 0, 1⟩ Mat3.one [0]

/-- the hypotheses of `C172_step` are met: with a threshold of 6 the two contacts, five points, are not enough, and a third one is made; without any candidate, and with a threshold of 5, they are kept -/
example : UsesIsStable standingEnv standing counting ∧ 0 < standing.maxDouble ∧ standingEnv.limbs.Nodup ∧ WellFormed standingEnv.limbs twoFeet ∧
    ((computeContacts standingEnv false 10 twoFeet [1] 6 0 true true).map fun r => (r.repositionedInPlace, r.result.contacts.keys)) = some (false, [1, 2, 3]) ∧
    ((computeContacts { standingEnv with octree := fun _ _ _ => [] } false 10 twoFeet [1] 5 0 true true).map fun r => (r.repositionedInPlace, r.result.contacts.keys)) = some (false, [1, 2]) := by
  refine ⟨?_, by decide +kernel, by decide, ?_, by decide +kernel, by decide +kernel⟩
  · intro s hs
    refine ⟨Nat.zero_le _, 0, ?_⟩
    simp only [standingEnv] at hs ⊢
    cases h : Stability.isStable standing counting s 0 0 .DLP with
    | none => rw [h] at hs; exact absurd rfl hs
    | some r => exact ⟨r, rfl, rfl⟩
  · refine ⟨⟨⟨?_, ?_, ?_, ?_⟩, ?_, ?_, ?_, ?_⟩, ?_, ?_⟩
    any_goals (first | decide | (unfold AMap.WF; decide))
    intro n b h
    have := AMap.find?_some_mem h
    simp [twoFeet, State.addContact, State.init, AMap.set] at this
    tauto

end Interp
end Rbprm
