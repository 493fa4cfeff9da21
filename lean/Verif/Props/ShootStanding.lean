import Verif.Props.Guide
import Verif.Props.Shooter
set_option linter.unusedSectionVars false
/-! # C191: the configurations that are shot

`RbPrmShooter::impl_shoot` composed with `RbPrmValidation::validate`, and what the path validation then says of them. -/
namespace Rbprm
namespace Shoot
open PathValidation (Scene Standing After pathCheck)
variable {K ω : Type _} [Field K] [LinearOrder K] [IsStrictOrderedRing K]
variable {N O R : Type _} [LinearOrder N] [DecidableEq O]

/-- the random generators and the libraries of a shooter, without the validator [rbprm-shooter.cc:353-477] -/
structure Draws (K ω : Type _) where
  uniform : ω → Config K → ω × Config K
  rand : ω → ω × K
  randInt : ω → ω × Nat
  sqrt : K → K
  cos : K → K
  sin : K → K

/-- the normal and the depth of the contact that a collision library reports for the trunk [rbprm-shooter.cc:377-398, 461-467] -/
structure Touch (K : Type _) where
  normal : Config K → Vec3 K
  depth : Config K → K

/-- rbprm-shooter.cc:432-436, 445, 451-452 `validator_->validate(config, reportShPtr, filter_)`: the shooter with its
validator, which is a part of the state (the roms reorder their pairs at each call) -/
def sceneEnv (sc : Scene (Config K) O) (filter : List N) (touch : Touch K) (draws : Draws K ω) :
    ShootEnv K (ω × Validation.Validator N O R) where
  uniform w c := let u := draws.uniform w.1 c; ((u.1, w.2), u.2)
  rand w := let u := draws.rand w.1; ((u.1, w.2), u.2)
  randInt w := let u := draws.randInt w.1; ((u.1, w.2), u.2)
  validate w c := match Validation.validate (sc.collides c) (sc.bounds c) w.2 filter with
    | none => (w, ⟨false, false, touch.normal c, touch.depth c⟩)
    | some (b, v', r) => ((w.1, v'), ⟨b, r.trunkInCollision.getD false, touch.normal c, touch.depth c⟩)
  sqrt := draws.sqrt
  cos := draws.cos
  sin := draws.sin

/-! ## The loops -/

section loops
variable {env : ShootEnv K ω} {Inv : ω → Prop} {P : Config K → Prop}

/-- everything keeps the invariant, and what is accepted has the property -/
structure Sound (env : ShootEnv K ω) (Inv : ω → Prop) (P : Config K → Prop) : Prop where
  uniform : ∀ w c, Inv w → Inv (env.uniform w c).1
  rand : ∀ w, Inv w → Inv (env.rand w).1
  randInt : ∀ w, Inv w → Inv (env.randInt w).1
  validate : ∀ w c, Inv w → Inv (env.validate w c).1
  accepted : ∀ w c, Inv w → ((env.validate w c).2.accepted = true ↔ P c)

theorem Sound.randConfig (h : Sound env Inv P) (s : Shooter K) (p : Vec3 K) (w : ω) (config : Config K) (hw : Inv w) :
    Inv (randConfigAtPos env s p w config).1 := by
  unfold randConfigAtPos sampleRotation
  dsimp only
  split
  · exact h.uniform _ _ hw
  · exact h.rand _ (h.rand _ (h.rand _ (h.uniform _ _ hw)))

theorem Sound.reachLoop (h : Sound env Inv P) (s : Shooter K) (p d : Vec3 K) (n : Nat) (w : ω) (config : Config K) (hw : Inv w) :
    Inv (reachLoop env s p d n w config).1 ∧
    ((reachLoop env s p d n w config).2.2 = true → P (reachLoop env s p d n w config).2.1) := by
  induction n generalizing w config with
  | zero => simp [Shoot.reachLoop, hw]
  | succ n ih =>
    have hc := h.randConfig s p w config hw
    rw [Shoot.reachLoop]
    dsimp only
    generalize hm : (if (env.validate (randConfigAtPos env s p w config).1 (randConfigAtPos env s p w config).2).2.accepted then _ else _ : ω × Config K) = m
    have hmI : Inv m.1 := by
      rw [← hm]
      split_ifs
      · exact h.validate _ _ hc
      · exact h.rand _ (h.validate _ _ hc)
    split_ifs with h1 h2
    · exact ⟨h.validate _ _ hmI, fun _ => (h.accepted _ _ hmI).1 h1⟩
    · exact ⟨h.validate _ _ hmI, by simp⟩
    · exact ih _ _ (h.validate _ _ hmI)

theorem Sound.displaceLoop (h : Sound env Inv P) (s : Shooter K) (p d : Vec3 K) (n : Nat) (w : ω) (config : Config K) (hw : Inv w) :
    Inv (displaceLoop env s p n d w config).1 ∧
    ((displaceLoop env s p n d w config).2.2 = true → P (displaceLoop env s p n d w config).2.1) := by
  induction n generalizing w config d with
  | zero => simp [Shoot.displaceLoop, hw]
  | succ n ih =>
    rw [Shoot.displaceLoop]
    dsimp only
    split_ifs with h1 h2
    · exact ⟨h.validate _ _ hw, fun _ => (h.accepted _ _ hw).1 h1⟩
    · exact h.reachLoop _ _ _ _ _ _ (h.validate _ _ hw)
    · exact ih _ _ _ (h.validate _ _ hw)

theorem Sound.shootOnce (h : Sound env Inv P) (s : Shooter K) (w : ω) (config : Config K) (hw : Inv w)
    (r : ω × Config K × Bool) (hr : shootOnce env s w config = some r) : Inv r.1 ∧ (r.2.2 = true → P r.2.1) := by
  unfold Shoot.shootOnce at hr
  dsimp only at hr
  split at hr
  · simp at hr
  · simp only [Option.some.injEq] at hr
    subst hr
    apply h.displaceLoop
    apply h.randConfig
    apply h.rand
    apply h.rand
    split_ifs
    · exact h.randInt _ (h.rand _ hw)
    · exact h.rand _ (h.rand _ hw)

theorem Sound.implShoot (h : Sound env Inv P) (s : Shooter K) (w : ω) (config : Config K) (hw : Inv w)
    (r : ω × Config K × Bool) (hr : implShoot env s w config = some r) : Inv r.1 ∧ (r.2.2 = true → P r.2.1) := by
  have key : ∀ n w config, Inv w → shootLoop env s n w config = some r → Inv r.1 ∧ (r.2.2 = true → P r.2.1) := by
    intro n
    induction n with
    | zero =>
      intro w config hw h
      simp only [shootLoop, Option.some.injEq] at h
      subst h
      simp [hw]
    | succ n ih =>
      intro w config hw hr
      rw [shootLoop] at hr
      split at hr
      · simp at hr
      · rename_i w' c' f hs
        have := h.shootOnce s w config hw _ hs
        split_ifs at hr with hf
        · simp only [Option.some.injEq] at hr; subst hr
          exact ⟨this.1, fun _ => this.2 hf⟩
        · exact ih _ _ this.1 hr
  unfold Shoot.implShoot at hr
  exact key _ _ _ (h.uniform _ _ hw) hr

end loops

theorem scene_sound (sc : Scene (Config K) O) (filter : List N) (touch : Touch K) (draws : Draws K ω)
    (v0 : Validation.Validator N O R) (hw : AMap.WF v0.roms) (hp : ∀ p ∈ v0.roms, Validation.Paired p.2) :
    Sound (sceneEnv sc filter touch draws) (fun w : ω × Validation.Validator N O R => After v0 w.2) (Standing sc v0 filter) where
  uniform w c h := h
  rand w h := h
  randInt w h := h
  validate w c h := by
    have := (PathValidation.check_spec sc filter v0 w.2 hw hp h c).2
    unfold pathCheck at this
    unfold sceneEnv
    dsimp only
    split <;> simp_all
  accepted w c h := by
    rw [← (PathValidation.check_spec sc filter v0 w.2 hw hp h c).1]
    unfold pathCheck sceneEnv
    dsimp only
    split <;> simp_all

/-- **C191 (partial).**  For every scene, every history of the validator, every sequence of random numbers: a
configuration that the shooter reports as found is standing (the trunk touches nothing and each range of motion of the
filter reaches an obstacle or is optional) and its translation is within the bounds; and the validator is then as
before.  Missing: a shooter that does not find returns a configuration all the same, see `C191_violated`. -/
theorem C191_partial (sc : Scene (Config K) O) (filter : List N) (touch : Touch K) (draws : Draws K ω)
    (v0 v : Validation.Validator N O R) (hw : AMap.WF v0.roms) (hp : ∀ p ∈ v0.roms, Validation.Paired p.2) (hv : After v0 v)
    (s : Shooter K) (hb : s.bounds.Ok) (hl : 0 < s.shootLimit) (w w' : ω) (v' : Validation.Validator N O R)
    (config q : Config K) (found : Bool)
    (h : implShoot (sceneEnv sc filter touch draws) s (w, v) config = some ((w', v'), q, found)) :
    After v0 v' ∧ InBounds s.bounds q.trans ∧ (found = true → Standing sc v0 filter q) := by
  have := (scene_sound sc filter touch draws v0 hw hp).implShoot s (w, v) config hv _ h
  exact ⟨this.1, C42_shoot _ s hb _ _ (Or.inl hl) _ h, this.2⟩

/-- **C191, consequence.**  A configuration that is found is accepted by the path validation with the same filter,
whatever either validator did in between: the path reduced to that configuration is valid. -/
theorem C191_path {F : Type _} [Field F] [LinearOrder F] [IsStrictOrderedRing F]
    (sc : Scene (Config K) O) (filter : List N) (touch : Touch K) (draws : Draws K ω)
    (v0 v v1 : Validation.Validator N O R) (hw : AMap.WF v0.roms) (hp : ∀ p ∈ v0.roms, Validation.Paired p.2) (hv : After v0 v)
    (hv1 : After v0 v1)
    (s : Shooter K) (w w' : ω) (v' : Validation.Validator N O R) (config q : Config K)
    (h : implShoot (sceneEnv sc filter touch draws) s (w, v) config = some ((w', v'), q, true)) :
    (pathCheck sc filter v1 q).1 = true :=
  (PathValidation.check_spec sc filter v0 v1 hw hp hv1 q).1.2
    (((scene_sound sc filter touch draws v0 hw hp).implShoot s (w, v) config hv _ h).2 rfl)

/-! ## Concrete cases -/

/-- the trunk (object 0) meets the wall (object 2) when its height is below 1/2; the range of motion 10 reaches the floor
(object 1) when the height is at most `reach` -/
def roomScene (reach : ℚ) : Scene (Config ℚ) ℕ where
  collides q p := match p with
    | (0, 2) => decide (q.trans.z < 1/2)
    | (10, 1) => decide (q.trans.z ≤ reach)
    | _ => false
  bounds _ := true

def roomDraws : Draws ℚ Nat where
  uniform w c := (w + 1, { c with rest := [1] })
  rand w := (w + 1, 1)
  randInt w := (w + 1, w)
  sqrt x := x
  cos _ := 1
  sin _ := 0

def upward : Touch ℚ where
  normal _ := ⟨0, 0, 1⟩
  depth _ := 2

/-- the trunk is in collision at the sampled point: it is moved out of it along the normal, up to the bound, and stands -/
theorem C191_example : AMap.WF PathValidation.lineRobot.roms ∧ (∀ p ∈ PathValidation.lineRobot.roms, Validation.Paired p.2) ∧
    (demoShooter 3).bounds.Ok ∧
    ((implShoot (sceneEnv (roomScene 1) [7] upward roomDraws) (demoShooter 3) (0, PathValidation.lineRobot) ⟨0, ⟨0, 0, 0, 1⟩, []⟩).map
      (fun r => (r.2.1.trans, r.2.2))) = some (⟨0, 1, 1⟩, true) := by
  refine ⟨PathValidation.C190_example.1, PathValidation.C190_example.2.1, ?_, by decide +kernel⟩
  refine ⟨?_, ?_, ?_⟩ <;> (intro lo hi h; simp only [demoShooter, Option.some.injEq, Prod.mk.injEq] at h; rw [← h.1, ← h.2]; norm_num)

/-- **C191 is violated** when the limits are exhausted: where nothing can stand (the floor is out of reach wherever the
trunk is free), the caller gets a configuration in which the trunk is in collision or nothing is reached. -/
theorem C191_violated : ∃ r, implShoot (sceneEnv (roomScene (1/4)) [7] upward roomDraws) (demoShooter 3)
      (0, PathValidation.lineRobot) ⟨0, ⟨0, 0, 0, 1⟩, []⟩ = some r ∧
    (∀ q, ¬ Standing (roomScene (1/4)) PathValidation.lineRobot [7] q) ∧
    (pathCheck (roomScene (1/4)) [7] PathValidation.lineRobot r.2.1).1 = false := by
  have hn : ∀ q, ¬ Standing (roomScene (1/4)) PathValidation.lineRobot [7] q := by
    rintro q ⟨h1, -, -, h3⟩
    have h1 := h1 (0, 2) (by simp [PathValidation.lineRobot])
    obtain ⟨rom, hr, h | h⟩ := h3 7 (by simp)
    · simp [PathValidation.lineRobot, AMap.find?] at hr
      subst hr
      obtain ⟨p, hp, hc⟩ := h
      simp at hp
      rcases hp with rfl | rfl
      · simp [roomScene] at hc
      · simp only [roomScene, decide_eq_true_eq, decide_eq_false_iff_not, not_lt] at hc h1
        linarith
    · simp [PathValidation.lineRobot, AMap.find?] at hr
      subst hr
      simp at h
  have e : (implShoot (sceneEnv (roomScene (1/4)) [7] upward roomDraws) (demoShooter 3)
      (0, PathValidation.lineRobot) ⟨0, ⟨0, 0, 0, 1⟩, []⟩).isSome = true := by decide +kernel
  obtain ⟨r, hr⟩ := Option.isSome_iff_exists.1 e
  refine ⟨r, hr, hn, ?_⟩
  have := (PathValidation.check_spec (roomScene (1/4)) [7] PathValidation.lineRobot PathValidation.lineRobot
    PathValidation.C190_example.1 PathValidation.C190_example.2.1 (After.refl _) r.2.1).1
  rw [← Bool.not_eq_true, this]
  exact hn _

end Shoot
end Rbprm
