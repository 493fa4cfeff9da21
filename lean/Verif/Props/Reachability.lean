import Verif.Model.Reachability
import Verif.Props.Kinematics
import Verif.Props.Stability
import Mathlib.Tactic.FieldSimp
import Mathlib.Tactic.Tauto
set_option linter.unusedSectionVars false
/-! # Reachability (C52), dynamic reachability (C53), stability constraints (C93) and what the code misses (C94–C97) -/
namespace Rbprm
namespace Reach
open Stability State
variable {N K : Type _} [LinearOrder N] [Field K] [LinearOrder K] [IsStrictOrderedRing K]

/-! ## Specification -/

/-- the contact of that limb changes between the two states -/
def Changes (previous next : State N K) (n : N) : Prop :=
  (Touches next n ∧ ¬ Touches previous n) ∨ (Touches previous n ∧ ¬ Touches next n) ∨ Moved previous next n

/-- the solver is right: it answers yes iff the constraints have a solution, and then gives one -/
structure SolverOk (solve : Ineq K → Option (Vec3 K) → Bool × Vec3 K) : Prop where
  sound : ∀ Ab c, (solve Ab c).1 = true → Sat Ab (solve Ab c).2
  complete : ∀ Ab c x, Sat Ab x → (solve Ab c).1 = true

/-! ## Stacking -/

theorem sat_stack (A B : Ineq K) (x : Vec3 K) : Sat (stackConstraints A B) x ↔ Sat A x ∧ Sat B x := by
  unfold Sat stackConstraints
  simp only [List.mem_append]
  exact ⟨fun h => ⟨fun r hr => h r (Or.inl hr), fun r hr => h r (Or.inr hr)⟩, fun h r hr => hr.elim (h.1 r) (h.2 r)⟩

/-! ## C52: statuses -/

theorem two_of_length {l : List N} (hl : l.Nodup) : 1 < l.length ↔ ∃ a ∈ l, ∃ b ∈ l, a ≠ b := by
  constructor
  · intro h
    match l, hl, h with
    | a :: b :: t, hl, _ =>
      refine ⟨a, by simp, b, by simp, ?_⟩
      rintro rfl
      simp at hl
  · rintro ⟨a, ha, b, hb, hab⟩
    match l, ha, hb with
    | [c], ha, hb => simp at ha hb; exact absurd (ha.trans hb.symm) hab
    | c :: d :: t, _, _ => simp

theorem mem_of_length_one {l : List N} (h : l.length = 1) : ∃ a, l = [a] := by
  match l, h with
  | [a], _ => exact ⟨a, rfl⟩

section
variable {previous next : State N K}

theorem mem_variations (hp : previous.MapsOk) (hn : next.MapsOk) (n : N) :
    n ∈ next.contactVariations previous ↔ n ∈ next.contactCreations previous ∨ n ∈ next.contactBreaks previous :=
  (C05_classification hn hp n).2

theorem nodup_creations (a b : State N K) : (a.contactCreations b).Nodup := nodup_creationsLoop _ _ _ List.nodup_nil

theorem nodup_breaks (a b : State N K) : (a.contactBreaks b).Nodup := nodup_creationsLoop _ _ _ List.nodup_nil

/-- the three guards of `isReachable` -/
theorem guards (hp : previous.MapsOk) (hn : next.MapsOk) :
    ((next.contactCreations previous).length ≤ 0 ∧ (next.contactBreaks previous).length ≤ 0 ↔ ∀ n, ¬ Changes previous next n) ∧
    (((next.contactCreations previous).length > 1 ∨ (next.contactBreaks previous).length > 1 ∨
      ((next.contactBreaks previous).length = 1 ∧ (next.contactCreations previous).length = 1 ∧ ¬ (next.contactVariations previous).length = 1)) ↔
      ∃ a b, a ≠ b ∧ Changes previous next a ∧ Changes previous next b) := by
  have hch : ∀ n, Changes previous next n ↔ n ∈ next.contactCreations previous ∨ n ∈ next.contactBreaks previous := fun n => by
    rw [← mem_variations hp hn, (C04_variations hn hp).2]; rfl
  have hnd := (C04_variations hn hp).1
  constructor
  · simp only [hch]
    constructor
    · rintro ⟨h1, h2⟩ n
      rw [List.eq_nil_of_length_eq_zero (Nat.le_zero.1 h1), List.eq_nil_of_length_eq_zero (Nat.le_zero.1 h2)]
      simp
    · intro h
      constructor
      · rw [List.eq_nil_iff_forall_not_mem.2 fun n hn' => h n (Or.inl hn')]; simp
      · rw [List.eq_nil_iff_forall_not_mem.2 fun n hn' => h n (Or.inr hn')]; simp
  · constructor
    · rintro (h | h | ⟨h1, h2, h3⟩)
      · obtain ⟨a, ha, b, hb, hab⟩ := (two_of_length (nodup_creations _ _)).1 h
        exact ⟨a, b, hab, (hch a).2 (Or.inl ha), (hch b).2 (Or.inl hb)⟩
      · obtain ⟨a, ha, b, hb, hab⟩ := (two_of_length (nodup_breaks _ _)).1 h
        exact ⟨a, b, hab, (hch a).2 (Or.inr ha), (hch b).2 (Or.inr hb)⟩
      · obtain ⟨a, ha⟩ := mem_of_length_one h1
        obtain ⟨b, hb⟩ := mem_of_length_one h2
        refine ⟨b, a, ?_, (hch b).2 (Or.inl (by rw [hb]; simp)), (hch a).2 (Or.inr (by rw [ha]; simp))⟩
        rintro rfl
        apply h3
        have hv : ∀ n, n ∈ next.contactVariations previous ↔ n = b := fun n => by
          rw [mem_variations hp hn, ha, hb]; simp
        have : (next.contactVariations previous).Perm [b] := by
          rw [List.perm_ext_iff_of_nodup hnd (by simp)]
          intro n; rw [hv]; simp
        exact this.length_eq
    · rintro ⟨a, b, hab, ha, hb⟩
      rw [hch] at ha hb
      by_contra hcon
      push Not at hcon
      obtain ⟨h1, h2, h3⟩ := hcon
      have c1 : ∀ x y, x ∈ next.contactCreations previous → y ∈ next.contactCreations previous → x = y := fun x y hx hy => by
        by_contra hxy
        exact absurd ((two_of_length (nodup_creations _ _)).2 ⟨x, hx, y, hy, hxy⟩) (not_lt.2 h1)
      have c2 : ∀ x y, x ∈ next.contactBreaks previous → y ∈ next.contactBreaks previous → x = y := fun x y hx hy => by
        by_contra hxy
        exact absurd ((two_of_length (nodup_breaks _ _)).2 ⟨x, hx, y, hy, hxy⟩) (not_lt.2 h2)
      have hvar : 1 < (next.contactVariations previous).length :=
        (two_of_length hnd).2 ⟨a, (mem_variations hp hn a).2 ha, b, (mem_variations hp hn b).2 hb, hab⟩
      have hpos : ∀ {l : List N} {x}, x ∈ l → 0 < l.length := fun h => List.length_pos_of_mem h
      rcases ha with ha | ha <;> rcases hb with hb | hb
      · exact hab (c1 _ _ ha hb)
      · have := h3 (by have := hpos hb; omega) (by have := hpos ha; omega)
        omega
      · have := h3 (by have := hpos ha; omega) (by have := hpos hb; omega)
        omega
      · exact hab (c2 _ _ ha hb)

theorem direct_cases (env : ReachEnv N K) (acc : Vec3 K) (hp : previous.MapsOk) (hn : next.MapsOk) (r : Result K)
    (h : isReachableDirect env previous next acc = some r) :
    ((∀ n, ¬ Changes previous next n) ∧ r = .of .noContactVariation) ∨
    ((∃ a b, a ≠ b ∧ Changes previous next a ∧ Changes previous next b) ∧ r = .of .tooManyContactsVariation) ∨
    ((∃ n, Changes previous next n ∧ ∀ m, Changes previous next m → m = n) ∧
      (transitionConstraints env previous next acc (next.contactBreaks previous).length (next.contactCreations previous).length = some none ∧ r = .of .unableToCompute ∨
       ∃ Ab t, transitionConstraints env previous next acc (next.contactBreaks previous).length (next.contactCreations previous).length = some (some Ab) ∧
        r.status = (if (env.solve Ab t).1 then .reachable else .unreachable) ∧ r.x = (env.solve Ab t).2 ∧ r.constraints = Ab)) := by
  obtain ⟨g1, g2⟩ := guards hp hn
  unfold isReachableDirect at h
  simp only at h
  by_cases c1 : (next.contactCreations previous).length ≤ 0 ∧ (next.contactBreaks previous).length ≤ 0
  · rw [if_pos c1] at h
    exact Or.inl ⟨g1.1 c1, (Option.some.inj h).symm⟩
  · rw [if_neg c1] at h
    by_cases c2 : ∃ a b, a ≠ b ∧ Changes previous next a ∧ Changes previous next b
    · refine Or.inr (Or.inl ⟨c2, ?_⟩)
      have := g2.2 c2
      by_cases c3 : (next.contactCreations previous).length > 1 ∨ (next.contactBreaks previous).length > 1
      · rw [if_pos c3] at h; exact (Option.some.inj h).symm
      · rw [if_neg c3, if_pos (by tauto)] at h; exact (Option.some.inj h).symm
    · have c3 : ¬ _ := fun hh => c2 (g2.1 hh)
      rw [if_neg (by tauto), if_neg (by tauto)] at h
      have hex : ∃ n, Changes previous next n := by
        by_contra hno; push Not at hno; exact c1 (g1.2 hno)
      obtain ⟨n, hnc⟩ := hex
      refine Or.inr (Or.inr ⟨⟨n, hnc, fun m hm => by by_contra hmn; exact c2 ⟨m, n, hmn, hm, hnc⟩⟩, ?_⟩)
      cases ht : transitionConstraints env previous next acc (next.contactBreaks previous).length (next.contactCreations previous).length with
      | none => simp [ht] at h
      | some o =>
        cases o with
        | none => simp only [ht] at h; exact Or.inl ⟨rfl, (Option.some.inj h).symm⟩
        | some Ab =>
          simp only [ht] at h
          split at h
          · cases h
          · rename_i target _
            refine Or.inr ⟨Ab, target, rfl, ?_⟩
            rw [← Option.some.inj h]
            exact ⟨rfl, rfl, rfl⟩

/-- **C52**, statuses.  When `isReachable` answers: 'no contact variation' iff no limb changes its contact, 'too many variations' iff two different limbs do; otherwise exactly one limb
changes.  With or without intermediate state. -/
theorem C52_status (env : ReachEnv N K) (acc : Vec3 K) (use : Bool) (hp : previous.MapsOk) (hn : next.MapsOk) (r : Result K)
    (h : isReachable env previous next acc use = some r) :
    (r.status = .noContactVariation ↔ ∀ n, ¬ Changes previous next n) ∧
    (r.status = .tooManyContactsVariation ↔ ∃ a b, a ≠ b ∧ Changes previous next a ∧ Changes previous next b) := by
  unfold isReachable at h
  by_cases hc : (use && repositioning previous next) = true
  · rw [if_pos hc] at h
    obtain ⟨g1, g2⟩ := guards hp hn
    have hrep : repositioning previous next = true := by simp at hc; exact hc.2
    unfold repositioning at hrep
    simp at hrep
    obtain ⟨⟨hb, hcr⟩, hv⟩ := hrep
    have n1 : ¬ ∀ n, ¬ Changes previous next n := fun hh => by have := g1.2 hh; omega
    have n2 : ¬ ∃ a b, a ≠ b ∧ Changes previous next a ∧ Changes previous next b := fun hh => by have := g2.2 hh; omega
    unfold isReachableIntermediate at h
    split at h
    · split_ifs at h <;> rw [← Option.some.inj h] <;> simp [Result.of, n1] <;> (intro a b hab ha hb; exact n2 ⟨a, b, hab, ha, hb⟩)
    · cases h
  · rw [if_neg hc] at h
    rcases direct_cases env acc hp hn r h with ⟨h1, rfl⟩ | ⟨h1, rfl⟩ | ⟨⟨n, h1, h2⟩, h3⟩
    · refine ⟨by simp [Result.of]; exact h1, ?_⟩
      simp only [Result.of, reduceCtorEq, false_iff]
      rintro ⟨a, -, -, ha, -⟩
      exact h1 a ha
    · refine ⟨?_, by simp only [Result.of, true_iff]; exact h1⟩
      simp only [Result.of, reduceCtorEq, false_iff]
      obtain ⟨a, -, -, ha, -⟩ := h1
      exact fun hh => hh a ha
    · have n1 : ¬ ∀ n, ¬ Changes previous next n := fun hh => hh n h1
      have n2 : ¬ ∃ a b, a ≠ b ∧ Changes previous next a ∧ Changes previous next b := fun ⟨a, b, hab, ha, hb⟩ => hab ((h2 a ha).trans (h2 b hb).symm)
      have hst : r.status = .unableToCompute ∨ r.status = .reachable ∨ r.status = .unreachable := by
        rcases h3 with ⟨-, rfl⟩ | ⟨Ab, t, -, hs, -⟩
        · exact Or.inl rfl
        · rw [hs]; split_ifs <;> simp
      constructor
      · constructor
        · intro hh; rw [hh] at hst; simp at hst
        · exact fun hh => absurd hh n1
      · constructor
        · intro hh; rw [hh] at hst; simp at hst
        · exact fun hh => absurd hh n2

/-- **C52**, `success()` holds for exactly the four statuses that mean that the transition is possible -/
theorem C52_success (r : Result K) : r.success = true ↔
    r.status = .reachable ∨ r.status = .noContactVariation ∨ r.status = .sameRootPosition ∨ r.status = .quasiStatic := by
  unfold Result.success
  simp [or_assoc]

/-- a contact that is neither created nor broken: it is in both states -/
theorem unchanged_touch (n : N) (h : ¬ Changes previous next n) : Touches next n ↔ Touches previous n := by
  unfold Changes at h
  tauto

theorem touches_contacts {s : State N K} (hs : Consistent s) (n : N) : s.contacts.find? n = some true ↔ Touches s n := by
  have hk : Touches s n ↔ n ∈ s.contacts.keys := by
    rw [← hs.positionsKeys, ← AMap.find?_isSome, Option.isSome_iff_exists]
    rfl
  rw [hk, ← AMap.find?_isSome]
  constructor
  · intro h; rw [h]; rfl
  · intro h
    obtain ⟨b, hb⟩ := Option.isSome_iff_exists.1 h
    rw [hb, hs.active n b hb]

/-- **C52**, feasibility.  One limb changes its contact.  If the four sets of constraints (stability and kinematics of both states) can be computed, the effectors of the contacts
that stay are placed in the same way in both states, and the state with less contacts has the stronger stability constraints (as is true of the friction cones), then the answer is success iff
some position of the centre of mass satisfies all four sets; the reported point is one. -/
theorem C52_feasible (env : ReachEnv N K) (acc : Vec3 K) (hp : Consistent previous) (hn : Consistent next) (hsol : SolverOk env.solve)
    (r : Result K) (h : isReachable env previous next acc false = some r)
    (hone : ∃ n, Changes previous next n ∧ ∀ m, Changes previous next m → m = n)
    (Ap An Kp Kn : Ineq K) (hAp : stabilityForState env previous acc = some (some Ap)) (hAn : stabilityForState env next acc = some (some An))
    (hKp : constraintsForState env.kin previous = some Kp) (hKn : constraintsForState env.kin next = some Kn)
    (heff : ∀ n, Touches previous n → Touches next n → ¬ Moved previous next n → env.kin.effector n previous.configuration = env.kin.effector n next.configuration)
    (hcone : ∀ x, ((∀ n, Touches next n → Touches previous n ∧ ¬ Moved previous next n) → Sat An x → Sat Ap x) ∧
      ((∀ n, Touches previous n → Touches next n ∧ ¬ Moved previous next n) → Sat Ap x → Sat An x)) :
    (r.success = true ↔ ∃ x, Sat Ap x ∧ Sat An x ∧ Sat Kp x ∧ Sat Kn x) ∧
    (r.success = true → Sat Ap r.x ∧ Sat An r.x ∧ Sat Kp r.x ∧ Sat Kn r.x) ∧
    (r.success = true → Sat r.constraints r.x) := by
  have hmp := hp.toMapsOk
  have hmn := hn.toMapsOk
  simp only [isReachable, Bool.false_and, Bool.false_eq_true, if_false] at h
  obtain ⟨n, hnc, huniq⟩ := hone
  rcases direct_cases env acc hmp hmn r h with ⟨h1, -⟩ | ⟨⟨a, b, hab, ha, hb⟩, -⟩ | ⟨-, h3⟩
  · exact absurd hnc (h1 n)
  · exact absurd ((huniq a ha).trans (huniq b hb).symm) hab
  · -- the constraints
    have key : ∃ Ab, transitionConstraints env previous next acc (next.contactBreaks previous).length (next.contactCreations previous).length = some (some Ab) ∧
        ∀ x, Sat Ab x ↔ Sat Ap x ∧ Sat An x ∧ Sat Kp x ∧ Sat Kn x := by
      unfold transitionConstraints
      by_cases hbc : (next.contactBreaks previous).length = 1 ∧ (next.contactCreations previous).length = 1
      · rw [if_pos hbc]
        unfold constraintsForStateAcc
        simp only [hAp, hAn, hKp, hKn]
        refine ⟨_, rfl, fun x => ?_⟩
        simp only [sat_stack]; tauto
      · rw [if_neg hbc]
        by_cases hb : (next.contactBreaks previous).length > 0
        · rw [if_pos hb]
          simp only [hAn, hKp]
          refine ⟨_, rfl, fun x => ?_⟩
          -- no creation
          have hcr : next.contactCreations previous = [] := by
            obtain ⟨b, hbm⟩ := List.exists_mem_of_length_pos hb
            refine List.eq_nil_iff_forall_not_mem.2 fun c hc => hbc ?_
            obtain ⟨g1, g2⟩ := guards hmp hmn
            have hno : ¬ ∃ a b, a ≠ b ∧ Changes previous next a ∧ Changes previous next b := fun ⟨a, b, hab, ha, hb⟩ => hab ((huniq a ha).trans (huniq b hb).symm)
            have : ¬ _ := fun hh => hno (g2.1 hh)
            have hc' := List.length_pos_of_mem hc
            omega
          have hsub : ∀ m, Touches next m → Touches previous m ∧ ¬ Moved previous next m := by
            intro m hm
            have : ¬ m ∈ next.contactCreations previous := by rw [hcr]; simp
            rw [C05_creations hmn] at this
            tauto
          have hk : Sat Kp x → Sat Kn x := by
            intro hx
            rw [← verify_iff] at hx ⊢
            refine C51_monotone env.kin next previous hn.contacts hp.contacts Kn Kp hKn hKp ?_ x hx
            intro m hm
            rw [touches_contacts hn] at hm
            obtain ⟨a, b⟩ := hsub m hm
            exact ⟨(touches_contacts hp m).2 a, (heff m a hm b).symm⟩
          have ha := (hcone x).1 hsub
          rw [sat_stack]
          tauto
        · rw [if_neg hb]
          simp only [hAp, hKn]
          refine ⟨_, rfl, fun x => ?_⟩
          have hbr : next.contactBreaks previous = [] := List.eq_nil_of_length_eq_zero (by omega)
          have hsub : ∀ m, Touches previous m → Touches next m ∧ ¬ Moved previous next m := by
            intro m hm
            have : ¬ m ∈ next.contactBreaks previous := by rw [hbr]; simp
            rw [C05_breaks hmp] at this
            tauto
          have hk : Sat Kn x → Sat Kp x := by
            intro hx
            rw [← verify_iff] at hx ⊢
            refine C51_monotone env.kin previous next hp.contacts hn.contacts Kp Kn hKp hKn ?_ x hx
            intro m hm
            rw [touches_contacts hp] at hm
            obtain ⟨a, b⟩ := hsub m hm
            exact ⟨(touches_contacts hn m).2 a, heff m hm a b⟩
          have ha := (hcone x).2 hsub
          rw [sat_stack]
          tauto
    obtain ⟨Ab, hAb, hsat⟩ := key
    rcases h3 with ⟨h4, -⟩ | ⟨Ab', t, h4, h5, h6, h7⟩
    · rw [hAb] at h4; simp at h4
    · rw [hAb] at h4
      obtain rfl : Ab = Ab' := by simpa using h4
      have hs : r.success = true ↔ (env.solve Ab t).1 = true := by
        rw [C52_success, h5]
        split_ifs with hh <;> simp [hh]
      refine ⟨?_, ?_, ?_⟩
      · rw [hs]
        constructor
        · intro hh; exact ⟨_, (hsat _).1 (hsol.sound Ab t hh)⟩
        · rintro ⟨x, hx⟩; exact hsol.complete Ab t x ((hsat x).2 hx)
      · intro hh
        rw [h6]
        exact (hsat _).1 (hsol.sound Ab t (hs.1 hh))
      · intro hh
        rw [h6, h7]
        exact hsol.sound Ab t (hs.1 hh)

/-- the library gives the stability constraints of the state: the contacts are accepted, and the polytope is found and not empty -/
def Computable (env : ReachEnv N K) (s : State N K) : Prop :=
  ∃ pb rows, contactCone env s = some pb ∧ env.polytope pb = some rows ∧ rows ≠ []

theorem stability_computable (env : ReachEnv N K) (s : State N K) (acc : Vec3 K) (o : Option (Ineq K)) (h : stabilityForState env s acc = some o) :
    o.isSome ↔ Computable env s := by
  unfold stabilityForState at h
  unfold Computable
  cases hc : contactCone env s with
  | none => simp only [hc] at h; rw [← Option.some.inj h]; simp
  | some pb =>
    simp only [hc] at h
    split at h
    · cases h
    · split at h
      · cases h
      · unfold stabilityConstraints at h
        cases hp : env.polytope pb with
        | none => simp [hp] at h; rw [← h]; simp [hp]
        | some rows =>
          simp only [hp, List.length_map] at h
          by_cases hr : rows.length = 0
          · rw [if_pos hr] at h
            rw [← Option.some.inj h]
            have := List.eq_nil_of_length_eq_zero hr
            simp [hp, this]
          · rw [if_neg hr] at h
            rw [← Option.some.inj h]
            have : rows ≠ [] := fun h0 => hr (by rw [h0]; rfl)
            simp [hp, this]

/-- **C52**, failures of the library.  One limb changes its contact.  'Unable to compute' is answered only if the stability constraints of one of the states cannot be computed; an answer of
the solver is given only if those of the state with less contacts (of both, for a repositioning) can. -/
theorem C52_unable (env : ReachEnv N K) (acc : Vec3 K) (hp : previous.MapsOk) (hn : next.MapsOk) (r : Result K)
    (h : isReachable env previous next acc false = some r) :
    (r.status = .unableToCompute → ¬ Computable env previous ∨ ¬ Computable env next) ∧
    (r.status = .reachable ∨ r.status = .unreachable →
      (next.contactBreaks previous ≠ [] → Computable env next) ∧ (next.contactCreations previous ≠ [] → Computable env previous)) := by
  simp only [isReachable, Bool.false_and, Bool.false_eq_true, if_false] at h
  rcases direct_cases env acc hp hn r h with ⟨-, rfl⟩ | ⟨-, rfl⟩ | ⟨⟨n, hnc, huniq⟩, h3⟩
  · simp [Result.of]
  · simp [Result.of]
  · have hno : ¬ ∃ a b, a ≠ b ∧ Changes previous next a ∧ Changes previous next b := fun ⟨a, b, hab, ha, hb⟩ => hab ((huniq a ha).trans (huniq b hb).symm)
    have g2 : ¬ _ := fun hh => hno ((guards hp hn).2.1 hh)
    have hlen : (next.contactBreaks previous).length = 1 ∧ (next.contactCreations previous).length = 1 ∨
        (next.contactBreaks previous).length > 0 ∧ next.contactCreations previous = [] ∨
        next.contactBreaks previous = [] ∧ (next.contactCreations previous).length > 0 := by
      have g1 : ¬ _ := fun hh => (guards hp hn).1.1 hh n hnc
      rw [← List.length_eq_zero_iff, ← List.length_eq_zero_iff]
      omega
    have spec : ∀ o, transitionConstraints env previous next acc (next.contactBreaks previous).length (next.contactCreations previous).length = some o →
        (o = none → ¬ Computable env previous ∨ ¬ Computable env next) ∧
        (o.isSome → (next.contactBreaks previous ≠ [] → Computable env next) ∧ (next.contactCreations previous ≠ [] → Computable env previous)) := by
      intro o ho
      unfold transitionConstraints constraintsForStateAcc at ho
      cases hsp : stabilityForState env previous acc with
      | none =>
        cases hsn : stabilityForState env next acc with
        | none => simp [hsp, hsn] at ho
        | some on =>
          have cn := stability_computable env next acc on hsn
          rcases hlen with ⟨l1, l2⟩ | ⟨l1, l2⟩ | ⟨l1, l2⟩
          · simp [hsp, l1, l2] at ho
          · simp only [l2, List.length_nil, hsn, hsp] at ho
            rw [if_neg (by omega), if_pos l1] at ho
            cases on with
            | none => simp at ho; rw [← ho]; simp at cn; simp [cn]
            | some An =>
              simp at cn
              simp only at ho
              split at ho
              · cases ho
              · rw [← Option.some.inj ho]; simp [cn, l2]
          · simp [hsp, l1] at ho
      | some op =>
        have cp := stability_computable env previous acc op hsp
        cases hsn : stabilityForState env next acc with
        | none =>
          rcases hlen with ⟨l1, l2⟩ | ⟨l1, l2⟩ | ⟨l1, l2⟩
          · simp only [l1, l2, hsn, hsp] at ho
            rw [if_pos (by simp)] at ho
            cases op with
            | none => simp at ho; rw [← ho]; simp at cp; simp [cp]
            | some Ap => simp only at ho; cases hk : constraintsForState env.kin previous <;> simp [hk] at ho
          · simp only [l2, List.length_nil, hsn] at ho
            rw [if_neg (by omega), if_pos l1] at ho
            cases ho
          · simp only [l1, List.length_nil, hsp] at ho
            rw [if_neg (by omega), if_neg (by omega)] at ho
            cases op with
            | none => simp at ho; rw [← ho]; simp at cp; simp [cp]
            | some Ap =>
              simp at cp
              simp only at ho
              split at ho
              · cases ho
              · rw [← Option.some.inj ho]; simp [cp, l1]
        | some on =>
          have cn := stability_computable env next acc on hsn
          rcases hlen with ⟨l1, l2⟩ | ⟨l1, l2⟩ | ⟨l1, l2⟩
          · simp only [l1, l2, hsn, hsp] at ho
            rw [if_pos (by simp)] at ho
            cases op with
            | none => simp at ho; rw [← ho]; simp at cp; simp [cp]
            | some Ap =>
              cases hk : constraintsForState env.kin previous with
              | none => simp [hk] at ho
              | some Kp =>
                simp only [hk] at ho
                cases on with
                | none => simp at ho; rw [← ho]; simp at cn; simp [cn]
                | some An =>
                  cases hk' : constraintsForState env.kin next with
                  | none => simp [hk'] at ho
                  | some Kn =>
                    simp only [hk'] at ho
                    simp at cp cn
                    rw [← Option.some.inj ho]; simp [cp, cn]
          · simp only [l2, List.length_nil, hsn] at ho
            rw [if_neg (by omega), if_pos l1] at ho
            cases on with
            | none => simp at ho; rw [← ho]; simp at cn; simp [cn]
            | some An =>
              simp at cn
              simp only at ho
              split at ho
              · cases ho
              · rw [← Option.some.inj ho]; simp [cn, l2]
          · simp only [l1, List.length_nil, hsp] at ho
            rw [if_neg (by omega), if_neg (by omega)] at ho
            cases op with
            | none => simp at ho; rw [← ho]; simp at cp; simp [cp]
            | some Ap =>
              simp at cp
              simp only at ho
              split at ho
              · cases ho
              · rw [← Option.some.inj ho]; simp [cp, l1]
    rcases h3 with ⟨h4, rfl⟩ | ⟨Ab, t, h4, h5, -, -⟩
    · exact ⟨fun _ => (spec _ h4).1 rfl, by simp [Result.of]⟩
    · refine ⟨fun hu => ?_, fun _ => (spec _ h4).2 rfl⟩
      rw [h5] at hu
      split_ifs at hu

/-- **C52**, with an intermediate state.  For the repositioning of one contact, the answer is success iff breaking the contact and creating it again both are; the two reported points
are those of the two transitions. -/
theorem C52_intermediate (env : ReachEnv N K) (acc : Vec3 K) (hp : previous.MapsOk) (r : Result K)
    (h : isReachable env previous next acc true = some r) (n : N) (hrep : next.contactBreaks previous = [n]) (hcr : next.contactCreations previous = [n])
    (hv : (next.contactVariations previous).length = 1) :
    ∃ rb rc, isReachable env previous (previous.removeContact n).1 0 false = some rb ∧ isReachable env (previous.removeContact n).1 next 0 false = some rc ∧
      (r.success = true ↔ rb.success = true ∧ rc.success = true) ∧ (r.success = true → r.xBreak = rb.x ∧ r.xCreate = rc.x) := by
  have hr : repositioning previous next = true := by simp [repositioning, hrep, hcr, hv]
  unfold isReachable at h
  rw [hr] at h
  simp only [Bool.and_true, if_true, hrep, intermediateState] at h
  have hcopy : State.copyCtor previous = previous := rfl
  rw [hcopy] at h
  unfold isReachableIntermediate at h
  cases hb : isReachableDirect env previous (previous.removeContact n).1 0 with
  | none => simp [hb] at h
  | some rb =>
    cases hc : isReachableDirect env (previous.removeContact n).1 next 0 with
    | none => simp [hb, hc] at h
    | some rc =>
      simp only [hb, hc] at h
      refine ⟨rb, rc, by simp [isReachable, hb], by simp [isReachable, hc], ?_⟩
      by_cases hs : (rb.success && rc.success) = true
      · rw [if_pos hs] at h
        rw [← Option.some.inj h]
        simp only [Bool.and_eq_true] at hs
        exact ⟨iff_of_true rfl hs, fun _ => ⟨rfl, rfl⟩⟩
      · rw [if_neg hs] at h
        have hs' : ¬ (rb.success = true ∧ rc.success = true) := by simpa using hs
        have hnot : r.success = false := by
          split_ifs at h <;> rw [← Option.some.inj h] <;> rfl
        rw [hnot]
        simp only [Bool.false_eq_true, false_iff, false_imp_iff, and_true]
        exact hs'

end

/-! ## C93: stability constraints -/

/-- the gravito-inertial wrench of a mass `m` at `x` with acceleration `a`: force `m (a − g)`, moment `x × m (a − g)` -/
def wrench (m : K) (g a x : Vec3 K) : Vec3 K × Vec3 K := (Vec3.smul m (a - g), Vec3.cross x (Vec3.smul m (a - g)))

/-- scalar product in dimension 6 -/
def dot6 (r w : Vec3 K × Vec3 K) : K := Vec3.dot r.1 w.1 + Vec3.dot r.2 w.2

/-- one row: the constraint is the one on the wrench, for the normalised row -/
theorem stabilityRow_iff (env : ReachEnv N K) (acc : Vec3 K) (r : (Vec3 K × Vec3 K) × K) (x : Vec3 K) (hpos : 0 < env.norm6 r.1) :
    Vec3.dot (stabilityRow env acc r).1 x ≤ (stabilityRow env acc r).2 ↔
      -dot6 r.1 (wrench env.mass env.gravity acc x) ≤ env.norm6 r.1 * r.2 := by
  generalize hc : env.norm6 r.1 = c at *
  have e : Vec3.dot (stabilityRow env acc r).1 x - (stabilityRow env acc r).2 = c⁻¹ * (-dot6 r.1 (wrench env.mass env.gravity acc x)) - r.2 := by
    simp only [stabilityRow, dot6, wrench, Vec3.dot, Vec3.cross, Vec3.smul_x, Vec3.smul_y, Vec3.smul_z, Vec3.sub_x, Vec3.sub_y, Vec3.sub_z, Vec3.neg_x, Vec3.neg_y, Vec3.neg_z, hc]
    ring
  rw [← sub_nonpos, e, sub_nonpos, inv_mul_le_iff₀ hpos]

/-- **C93** (partial: the right-hand side `h` is zero, as for a cone).  The position satisfies the stability constraints iff its gravito-inertial wrench, for the given acceleration, is in the
cone of the contacts. -/
theorem C93_cone_partial (env : ReachEnv N K) (acc : Vec3 K) (pb : Problem K) (rows : List ((Vec3 K × Vec3 K) × K)) (hrows : env.polytope pb = some rows)
    (hnorm : ∀ r ∈ rows, 0 < env.norm6 r.1) (hzero : ∀ r ∈ rows, r.2 = 0) (x : Vec3 K) :
    Sat (stabilityConstraints env pb acc) x ↔ ∀ r ∈ rows, 0 ≤ dot6 r.1 (wrench env.mass env.gravity acc x) := by
  unfold stabilityConstraints Sat
  simp only [hrows, List.mem_map, forall_exists_index, and_imp, forall_apply_eq_imp_iff₂]
  refine forall₂_congr fun r hr => ?_
  rw [stabilityRow_iff env acc r x (hnorm r hr), hzero r hr, mul_zero, neg_nonpos]

/-- the rows of a polytope that is not a cone are scaled but their right-hand side is not: what is tested is `−H w ≤ ‖H‖ h` -/
theorem C93_polytope (env : ReachEnv N K) (acc : Vec3 K) (pb : Problem K) (rows : List ((Vec3 K × Vec3 K) × K)) (hrows : env.polytope pb = some rows)
    (hnorm : ∀ r ∈ rows, 0 < env.norm6 r.1) (x : Vec3 K) :
    Sat (stabilityConstraints env pb acc) x ↔ ∀ r ∈ rows, -dot6 r.1 (wrench env.mass env.gravity acc x) ≤ env.norm6 r.1 * r.2 := by
  unfold stabilityConstraints Sat
  simp only [hrows, List.mem_map, forall_exists_index, and_imp, forall_apply_eq_imp_iff₂]
  exact forall₂_congr fun r hr => stabilityRow_iff env acc r x (hnorm r hr)

/-! ## C94: the acceleration -/

/-- **C94** is violated: for the repositioning of a contact with an intermediate state the given acceleration has no influence. -/
theorem C94_violated (env : ReachEnv N K) (previous next : State N K) (acc acc' : Vec3 K) (h : repositioning previous next = true) :
    isReachable env previous next acc true = isReachable env previous next acc' true := by
  unfold isReachable
  simp [h]

/-- **C94** (partial: without intermediate state).  The constraints that are tested are those for the given acceleration: the answer depends on `acc` only through the stability constraints
of the two states. -/
theorem C94_partial (env : ReachEnv N K) (previous next : State N K) (acc acc' : Vec3 K)
    (hp : stabilityForState env previous acc = stabilityForState env previous acc') (hn : stabilityForState env next acc = stabilityForState env next acc') :
    isReachable env previous next acc false = isReachable env previous next acc' false := by
  unfold isReachable isReachableDirect transitionConstraints constraintsForStateAcc
  simp [hp, hn]

/-! ## C95: the point of a quasi-static transition -/

theorem sat_mid (A : Ineq K) (x y : Vec3 K) (hx : Sat A x) (hy : Sat A y) : Sat A (Vec3.smul (1 / 2) (x + y)) := by
  intro r hr
  have h1 := hx r hr
  have h2 := hy r hr
  have e : Vec3.dot r.1 (Vec3.smul (1 / 2) (x + y)) = (Vec3.dot r.1 x + Vec3.dot r.1 y) / 2 := by
    simp only [Vec3.dot, Vec3.smul_x, Vec3.smul_y, Vec3.smul_z, Vec3.add_x, Vec3.add_y, Vec3.add_z]; ring
  rw [e]; linarith

/-- **C95** (partial: the contact is really broken and really created).  The reported point satisfies all the constraints that both transitions have, in particular the stability
constraints of the intermediate state. -/
theorem C95_partial (env : ReachEnv N K) (hsol : SolverOk env.solve) (previous mid next : State N K) (hp : previous.MapsOk) (hm : mid.MapsOk) (hn : next.MapsOk) (r : Result K)
    (h : isReachableIntermediate env previous mid next = some r) (hs : r.success = true)
    (h1 : ∃ n, Changes previous mid n) (h2 : ∃ n, Changes mid next n) :
    ∃ rb rc, isReachable env previous mid 0 false = some rb ∧ isReachable env mid next 0 false = some rc ∧
      ∀ A : Ineq K, A ⊆ rb.constraints → A ⊆ rc.constraints → Sat A r.x := by
  unfold isReachableIntermediate at h
  cases hb : isReachableDirect env previous mid 0 with
  | none => simp [hb] at h
  | some rb =>
    cases hc : isReachableDirect env mid next 0 with
    | none => simp [hb, hc] at h
    | some rc =>
      simp only [hb, hc] at h
      refine ⟨rb, rc, by simp [isReachable, hb], by simp [isReachable, hc], fun A hA hA' => ?_⟩
      by_cases hs2 : (rb.success && rc.success) = true
      · rw [if_pos hs2] at h
        rw [← Option.some.inj h]
        simp only [Bool.and_eq_true] at hs2
        have aux : ∀ (p q : State N K) (res : Result K), p.MapsOk → q.MapsOk → isReachableDirect env p q 0 = some res → res.success = true → (∃ n, Changes p q n) → Sat res.constraints res.x := by
          intro p q res hpo hqo hres hsu ⟨n, hch⟩
          rcases direct_cases env 0 hpo hqo res hres with ⟨h1, -⟩ | ⟨-, rfl⟩ | ⟨-, ⟨-, rfl⟩ | ⟨Ab, t, -, h5, h6, h7⟩⟩
          · exact absurd hch (h1 n)
          · simp [Result.success, Result.of] at hsu
          · simp [Result.success, Result.of] at hsu
          · rw [h6, h7]
            apply hsol.sound
            by_contra hno
            rw [C52_success, h5, if_neg hno] at hsu
            simp at hsu
        exact sat_mid A _ _ (fun x hx => aux _ _ rb hp hm hb hs2.1 h1 x (hA hx)) (fun x hx => aux _ _ rc hm hn hc hs2.2 h2 x (hA' hx))
      · rw [if_neg hs2] at h
        exfalso
        have hnot : r.success = false := by
          split_ifs at h <;> rw [← Option.some.inj h] <;> rfl
        rw [hnot] at hs; cases hs

/-- when only a contact is created, the intermediate state is the first state, the 'break' is reported as a success at the origin, and the reported point is half of the point that was found -/
theorem half_point (env : ReachEnv N K) (previous next : State N K) (hp : previous.MapsOk) (rc : Result K)
    (hc : isReachable env previous next 0 false = some rc) (hs : rc.success = true) :
    ∃ r, isReachableIntermediate env previous (intermediateState previous []) next = some r ∧ r.success = true ∧ r.x = Vec3.smul (1 / 2) rc.x := by
  have e : isReachableDirect env previous previous 0 = some (.of .noContactVariation) := by
    unfold isReachableDirect
    simp only
    rw [if_pos]
    refine (guards hp hp).1.2 fun n hch => ?_
    rcases hch with h | h | ⟨a, b, ha, hb, hf⟩
    · exact h.2 h.1
    · exact h.2 h.1
    · obtain rfl : a = b := Option.some.inj (ha.symm.trans hb)
      unfold FarApart at hf
      simp only [Vec3.distSq_self, mul_zero] at hf
      exact absurd hf (not_lt.2 zero_le_one)
  have hc' : isReachableDirect env previous next 0 = some rc := by simpa [isReachable] using hc
  have h0 : isReachableIntermediate env previous (intermediateState previous []) next =
      some { (Result.of .reachable : Result K) with x := Vec3.smul (1 / 2) ((Result.of .noContactVariation : Result K).x + rc.x), xBreak := (Result.of .noContactVariation : Result K).x, xCreate := rc.x } := by
    unfold isReachableIntermediate intermediateState
    simp only [e, hc']
    rw [if_pos (by rw [hs]; rfl)]
  refine ⟨_, h0, rfl, ?_⟩
  simp only [Result.of]
  congr 1
  ext <;> simp

/-! ## C53: the timings -/

theorem timingLoop_eq {C : Type _} (solve : List K → Option (ComTraj K C)) (current : List K) (rest : List (List K)) :
    timingLoop solve current rest = (current :: rest.dropLast).findSome? fun t => (solve t).map fun r => (t, r) := by
  induction rest generalizing current with
  | nil => simp [timingLoop, List.findSome?]; cases solve current <;> rfl
  | cons row rest ih =>
    unfold timingLoop
    cases hs : solve current with
    | some r => simp [List.findSome?, hs]
    | none =>
      simp only
      by_cases hr : rest = []
      · subst hr; simp [List.findSome?, hs]
      · rw [if_neg hr, ih]
        rw [List.dropLast_cons_of_ne_nil hr]
        simp [List.findSome?, hs]

/-- the first list in `l` for which the solver succeeds -/
def FirstSuccess {C : Type _} (solve : List K → Option (ComTraj K C)) (l : List (List K)) (t : List K) (r : ComTraj K C) : Prop :=
  ∃ before after, l = before ++ t :: after ∧ solve t = some r ∧ ∀ u ∈ before, solve u = none

theorem findSome_first {C : Type _} (solve : List K → Option (ComTraj K C)) (l : List (List K)) :
    (∀ t r, (l.findSome? fun t => (solve t).map fun r => (t, r)) = some (t, r) → FirstSuccess solve l t r) ∧
    ((l.findSome? fun t => (solve t).map fun r => (t, r)) = none → ∀ t ∈ l, solve t = none) := by
  induction l with
  | nil => simp
  | cons a l ih =>
    cases hs : solve a with
    | some r =>
      simp only [List.findSome?, hs, Option.map_some, Option.some.injEq, Prod.mk.injEq, reduceCtorEq, false_imp_iff, and_true]
      rintro t r' ⟨rfl, rfl⟩
      exact ⟨[], l, rfl, hs, by simp⟩
    | none =>
      simp only [List.findSome?, hs, Option.map_none]
      constructor
      · intro t r h
        obtain ⟨b, c, e, h1, h2⟩ := ih.1 t r h
        refine ⟨a :: b, c, by rw [e]; rfl, h1, ?_⟩
        intro u hu
        rcases List.mem_cons.1 hu with rfl | hu
        · exact hs
        · exact h2 u hu
      · intro h t ht
        rcases List.mem_cons.1 ht with rfl | ht
        · exact hs
        · exact ih.2 h t ht

/-- the problem that is given to the solver of the dynamic transition: it starts and ends at the centres of mass of the two states, with their velocities, with a phase for each contact set -/
structure ProblemOf {C : Type _} (env : DynEnv N K C) (previous next : State N K) (p : PData K) : Prop where
  c0 : p.c0 = env.stab.centerOfMass previous.configuration
  c1 : p.c1 = env.stab.centerOfMass next.configuration
  dc0 : p.dc0 = segment3 previous.configuration (next.configuration.length - env.stab.extraDim)
  dc1 : p.dc1 = segment3 next.configuration (next.configuration.length - env.stab.extraDim)
  phases : ∃ Kp Kn cp cn, constraintsForState env.kin previous = some Kp ∧ constraintsForState env.kin next = some Kn ∧
    contactCone env.toReachEnv previous = some cp ∧ contactCone env.toReachEnv next = some cn ∧
    ((¬ ((next.contactBreaks previous).length = 1 ∧ (next.contactCreations previous).length = 1) ∧ p.phases = [(Kp, cp), (Kn, cn)]) ∨
     ∃ n Km cm, next.contactBreaks previous = [n] ∧ (next.contactCreations previous).length = 1 ∧
      constraintsForState env.kin (previous.removeContact n).1 = some Km ∧ contactCone env.toReachEnv (previous.removeContact n).1 = some cm ∧
      p.phases = [(Kp, cp), (Km, cm), (Kn, cn)])

/-- the timings that are tried: the given ones if their number is the number of phases, otherwise all the rows of the table but the last -/
def tried (timings : List K) (phases : ℕ) : List (List K) :=
  if timings.length = phases then [timings] else (timingTable.map (List.take phases)).dropLast

/-- what the dynamic part gives -/
theorem dynamicPart_cases {C : Type _} (env : DynEnv N K C) (previous next : State N K) (timings : List K) (np : ℕ) (d : Dynamic N K C)
    (h : dynamicPart env previous (intermediateState previous (next.contactBreaks previous)) next (next.contactBreaks previous).length (next.contactCreations previous).length timings np = some d) :
    d = plain next .unableToCompute ∨
    ∃ p, ProblemOf env previous next p ∧
      ((∃ t r, FirstSuccess (fun t => env.solveCom p t np) (tried timings p.phases.length) t r ∧
        d = wrap previous next (next.configuration.length - env.stab.extraDim) t r (p.phases.map fun _ => .automatic)) ∨
       ((∀ t ∈ tried timings p.phases.length, env.solveCom p t np = none) ∧ d = { plain next .unreachable with deleted := p.phases.map fun _ => .automatic })) := by
  unfold dynamicPart at h
  cases hKp : constraintsForState env.kin previous with
  | none => simp [hKp] at h
  | some Kp =>
  cases hKm : constraintsForState env.kin (intermediateState previous (next.contactBreaks previous)) with
  | none => simp [hKp, hKm] at h
  | some Km =>
  cases hKn : constraintsForState env.kin next with
  | none => simp [hKp, hKm, hKn] at h
  | some Kn =>
  simp only [hKp, hKm, hKn] at h
  cases hcp : contactCone env.toReachEnv previous with
  | none => simp only [hcp] at h; exact Or.inl (Option.some.inj h).symm
  | some cp =>
  cases hcm : contactCone env.toReachEnv (intermediateState previous (next.contactBreaks previous)) with
  | none => simp only [hcp, hcm] at h; exact Or.inl (Option.some.inj h).symm
  | some cm =>
  cases hcn : contactCone env.toReachEnv next with
  | none => simp only [hcp, hcm, hcn] at h; exact Or.inl (Option.some.inj h).symm
  | some cn =>
  simp only [hcp, hcm, hcn] at h
  right
  set phases := (if (next.contactBreaks previous).length = 1 ∧ (next.contactCreations previous).length = 1 then [(Kp, cp), (Km, cm), (Kn, cn)] else [(Kp, cp), (Kn, cn)]) with hph
  set p : PData K := ⟨phases, env.stab.centerOfMass previous.configuration, env.stab.centerOfMass next.configuration,
        segment3 previous.configuration (next.configuration.length - env.stab.extraDim), segment3 next.configuration (next.configuration.length - env.stab.extraDim)⟩ with hpd
  refine ⟨p, ⟨rfl, rfl, rfl, rfl, Kp, Kn, cp, cn, hKp, hKn, hcp, hcn, ?_⟩, ?_⟩
  · by_cases hb : (next.contactBreaks previous).length = 1 ∧ (next.contactCreations previous).length = 1
    · right
      obtain ⟨n, hn⟩ := mem_of_length_one hb.1
      refine ⟨n, Km, cm, hn, hb.2, ?_, ?_, ?_⟩
      · rw [hn] at hKm; exact hKm
      · rw [hn] at hcm; exact hcm
      · simp only [hpd, hph]; rw [if_pos hb]
    · left
      exact ⟨hb, by simp only [hpd, hph]; rw [if_neg hb]⟩
  · have hfound : searchTimings (fun t => env.solveCom p t np) timings phases.length =
        (tried timings phases.length).findSome? fun t => (env.solveCom p t np).map fun r => (t, r) := by
      unfold tried searchTimings
      by_cases ht : timings.length = phases.length
      · rw [if_neg (not_not.2 ht), if_pos ht, timingLoop_eq]; rfl
      · rw [if_pos ht, if_neg ht]
        simp only [timingTable, List.map_cons, List.map_nil]
        rw [timingLoop_eq]
        rfl
    rw [hfound] at h
    have hfs := findSome_first (fun t => env.solveCom p t np) (tried timings phases.length)
    cases hf : (tried timings phases.length).findSome? fun t => (env.solveCom p t np).map fun r => (t, r) with
    | none =>
      simp only [hf] at h
      exact Or.inr ⟨hfs.2 hf, (Option.some.inj h).symm⟩
    | some q =>
      obtain ⟨t, r⟩ := q
      simp only [hf] at h
      exact Or.inl ⟨t, r, hfs.1 t r hf, (Option.some.inj h).symm⟩

/-- the possible outcomes of `isReachableDynamic` -/
theorem dynamic_cases {C : Type _} (env : DynEnv N K C) (previous next : State N K) (tq : Bool) (timings : List K) (np : ℕ) (d : Dynamic N K C)
    (h : isReachableDynamic env previous next tq timings np = some d) :
    (∃ s, d = plain next s ∧ s ≠ .reachable ∧ s ≠ .unreachable ∧ s ≠ .quasiStatic) ∨
    (tq = true ∧ ∃ q, isReachableIntermediate env.toReachEnv previous (intermediateState previous (next.contactBreaks previous)) next = some q ∧ q.success = true ∧
      d = ⟨{ q with status := .quasiStatic }, some ⟨env.bezier2 (env.stab.centerOfMass previous.configuration) q.x (env.stab.centerOfMass next.configuration),
        previous.configuration, next.configuration, 0, 1⟩, [], [], next, []⟩) ∨
    ∃ p, ProblemOf env previous next p ∧
      ((∃ t r, FirstSuccess (fun t => env.solveCom p t np) (tried timings p.phases.length) t r ∧
        d = wrap previous next (next.configuration.length - env.stab.extraDim) t r (p.phases.map fun _ => .automatic)) ∨
       ((∀ t ∈ tried timings p.phases.length, env.solveCom p t np = none) ∧ d = { plain next .unreachable with deleted := p.phases.map fun _ => .automatic })) := by
  unfold isReachableDynamic at h
  simp only at h
  have dyn := fun hd => dynamicPart_cases env previous next timings np d hd
  split at h
  · exact Or.inl ⟨_, (Option.some.inj h).symm, by simp, by simp, by simp⟩
  split at h
  · exact Or.inl ⟨_, (Option.some.inj h).symm, by simp, by simp, by simp⟩
  split at h
  · exact Or.inl ⟨_, (Option.some.inj h).symm, by simp, by simp, by simp⟩
  split at h
  · exact Or.inl ⟨_, (Option.some.inj h).symm, by simp, by simp, by simp⟩
  split at h
  · exact Or.inl ⟨_, (Option.some.inj h).symm, by simp, by simp, by simp⟩
  split at h
  · rename_i htq
    split at h
    · cases h
    · rename_i q hq
      split at h
      · rename_i hs
        exact Or.inr (Or.inl ⟨htq, q, hq, hs, (Option.some.inj h).symm⟩)
      · rcases dyn h with h1 | h1
        · exact Or.inl ⟨_, h1, by simp, by simp, by simp⟩
        · exact Or.inr (Or.inr h1)
  · rcases dyn h with h1 | h1
    · exact Or.inl ⟨_, h1, by simp, by simp, by simp⟩
    · exact Or.inr (Or.inr h1)

/-- **C53** (partial: all rows but the last).  A dynamic transition that is found uses the first feasible timings in the order of the table (or the given ones, if there is one for each phase);
'unreachable' is answered only when the solver has refused the given timings, or all the rows of the table but the last one. -/
theorem C53_timings_partial {C : Type _} (env : DynEnv N K C) (previous next : State N K) (tq : Bool) (timings : List K) (np : ℕ) (d : Dynamic N K C)
    (h : isReachableDynamic env previous next tq timings np = some d) :
    (d.res.status = .reachable → ∃ p, ProblemOf env previous next p ∧
      ((timings.length = p.phases.length ∧ d.timings = timings ∧ (env.solveCom p timings np).isSome) ∨
       (timings.length ≠ p.phases.length ∧ ∃ r, FirstSuccess (fun t => env.solveCom p t np) (timingTable.map (List.take p.phases.length)) d.timings r))) ∧
    (d.res.status = .unreachable → ∃ p, ProblemOf env previous next p ∧
      ((timings.length = p.phases.length ∧ env.solveCom p timings np = none) ∨
       (timings.length ≠ p.phases.length ∧ ∀ row ∈ (timingTable : List (List K)).dropLast, env.solveCom p (row.take p.phases.length) np = none))) := by
  rcases dynamic_cases env previous next tq timings np d h with ⟨s, rfl, hs⟩ | ⟨-, q, -, -, rfl⟩ | ⟨p, hp, ⟨t, r, hf, rfl⟩ | ⟨hall, rfl⟩⟩
  · refine ⟨fun h' => absurd h' hs.1, fun h' => absurd h' hs.2.1⟩
  · exact ⟨fun h' => by simp at h', fun h' => by simp at h'⟩
  · refine ⟨fun _ => ⟨p, hp, ?_⟩, fun h' => by simp [wrap, Result.of] at h'⟩
    obtain ⟨before, after, e, hs, hb⟩ := hf
    unfold tried at e
    by_cases ht : timings.length = p.phases.length
    · rw [if_pos ht] at e
      left
      have : before = [] ∧ t = timings := by
        cases before with
        | nil => simp at e; exact ⟨rfl, e.1.symm⟩
        | cons a b => simp at e
      refine ⟨ht, this.2, ?_⟩
      have hs' : env.solveCom p t np = some r := hs
      rw [← this.2, hs']; rfl
    · rw [if_neg ht] at e
      obtain ⟨last, hl⟩ : ∃ last, (timingTable : List (List K)).map (List.take p.phases.length) = ((timingTable : List (List K)).map (List.take p.phases.length)).dropLast ++ [last] :=
        ⟨_, (List.dropLast_append_getLast (by simp [timingTable])).symm⟩
      refine Or.inr ⟨ht, r, before, after ++ [last], ?_, hs, hb⟩
      rw [hl, e]
      simp [wrap]
  · refine ⟨fun h' => by simp [plain, Result.of] at h', fun _ => ⟨p, hp, ?_⟩⟩
    unfold tried at hall
    by_cases ht : timings.length = p.phases.length
    · rw [if_pos ht] at hall
      exact Or.inl ⟨ht, hall timings (by simp)⟩
    · rw [if_neg ht] at hall
      refine Or.inr ⟨ht, fun row hr => hall _ ?_⟩
      rw [← List.map_dropLast]
      exact List.mem_map_of_mem hr

/-! ## C96: the paths and the final state -/

/-- the intervals of the paths follow each other from `a` to `b` -/
def Consecutive {C : Type _} : K → K → List (BPath K C) → Prop
  | a, b, [] => a = b
  | a, b, p :: l => p.first = a ∧ Consecutive p.last b l

theorem setSegments (A B : List K) (a b c d e f : K) (u v : Vec3 K) :
    setSegment3 (setSegment3 (A ++ [a, b, c, d, e, f] ++ B) A.length u) (A.length + 3) v = A ++ [u.x, u.y, u.z, v.x, v.y, v.z] ++ B := by
  induction A with
  | nil => rfl
  | cons x A ih =>
    unfold setSegment3 at ih ⊢
    simp only [List.cons_append, List.length_cons, Nat.add_right_comm _ 1, List.set_cons_succ] at ih ⊢
    rw [ih]

/-- **C96**.  When a dynamic transition is found, the path lasts the sum of the timings, there is one path for each phase, one after the other, each lasting the time of its phase, all on
the curve of the solver; the configuration of the second state gets the final velocity and acceleration, nothing else in it changes.  Otherwise the second state is unchanged. -/
theorem C96_paths {C : Type _} (env : DynEnv N K C) (previous next : State N K) (tq : Bool) (timings : List K) (np : ℕ) (d : Dynamic N K C)
    (h : isReachableDynamic env previous next tq timings np = some d) (hdim : 6 ≤ env.stab.extraDim) (hlen : env.stab.extraDim ≤ next.configuration.length) :
    (d.res.status = .reachable → ∃ p r path, ProblemOf env previous next p ∧ env.solveCom p d.timings np = some r ∧ d.path = some path ∧
      path.curve = r.curve ∧ path.first = 0 ∧ path.last = d.timings.sum ∧
      d.phases.length = p.phases.length ∧ Consecutive 0 d.timings.sum d.phases ∧ d.phases.map (fun f => f.last - f.first) = d.timings ∧
      (∀ f ∈ path :: d.phases, f.curve = r.curve ∧ f.init = previous.configuration ∧ f.goal = d.next.configuration) ∧
      (∃ pre post, next.configuration.length = pre.length + env.stab.extraDim ∧ pre = next.configuration.take pre.length ∧ post = next.configuration.drop (pre.length + 6) ∧
        d.next = { next with configuration := pre ++ [r.dc1.x, r.dc1.y, r.dc1.z, r.ddc1.x, r.ddc1.y, r.ddc1.z] ++ post })) ∧
    (d.res.status ≠ .reachable → d.next = next) := by
  rcases dynamic_cases env previous next tq timings np d h with ⟨s, rfl, hs⟩ | ⟨-, q, -, -, rfl⟩ | ⟨p, hp, ⟨t, r, hf, rfl⟩ | ⟨hall, rfl⟩⟩
  · exact ⟨fun h' => absurd h' hs.1, fun _ => rfl⟩
  · exact ⟨fun h' => by simp at h', fun _ => rfl⟩
  · refine ⟨fun _ => ?_, fun h' => absurd rfl h'⟩
    obtain ⟨before, after, e, hs, -⟩ := hf
    have hpl : p.phases.length = 2 ∨ p.phases.length = 3 := by
      obtain ⟨Kp, Kn, cp, cn, -, -, -, -, ⟨-, h1⟩ | ⟨n, Km, cm, -, -, -, -, h1⟩⟩ := hp.phases <;> rw [h1] <;> simp
    have htl : t.length = p.phases.length := by
      have hmem : t ∈ tried timings p.phases.length := by rw [e]; simp
      unfold tried at hmem
      by_cases ht : timings.length = p.phases.length
      · rw [if_pos ht] at hmem; rw [List.mem_singleton.1 hmem]; exact ht
      · rw [if_neg ht] at hmem
        have := (List.dropLast_sublist _).subset hmem
        simp only [timingTable, List.map_cons, List.map_nil, List.mem_cons, List.not_mem_nil, or_false] at this
        rcases hpl with h2 | h2 <;> rw [h2] at this ⊢ <;>
          (rcases this with rfl | rfl | rfl | rfl | rfl | rfl | rfl | rfl | rfl | rfl | rfl | rfl | rfl | rfl | rfl | rfl | rfl | rfl <;> rfl)
    have hcfg : ∃ pre post, next.configuration.length = pre.length + env.stab.extraDim ∧ pre = next.configuration.take pre.length ∧ post = next.configuration.drop (pre.length + 6) ∧
        setSegment3 (setSegment3 next.configuration (next.configuration.length - env.stab.extraDim) r.dc1) (next.configuration.length - env.stab.extraDim + 3) r.ddc1 =
          pre ++ [r.dc1.x, r.dc1.y, r.dc1.z, r.ddc1.x, r.ddc1.y, r.ddc1.z] ++ post := by
      set i := next.configuration.length - env.stab.extraDim with hi
      have hil : i + 6 ≤ next.configuration.length := by omega
      have hpre : (next.configuration.take i).length = i := by rw [List.length_take]; omega
      refine ⟨next.configuration.take i, next.configuration.drop (i + 6), by rw [hpre]; omega, by rw [hpre], by rw [hpre], ?_⟩
      obtain ⟨a, b, c, d, e', f, hsplit⟩ : ∃ a b c d e f, next.configuration = next.configuration.take i ++ [a, b, c, d, e, f] ++ next.configuration.drop (i + 6) := by
        refine ⟨next.configuration[i]'(by omega), next.configuration[i+1]'(by omega), next.configuration[i+2]'(by omega),
          next.configuration[i+3]'(by omega), next.configuration[i+4]'(by omega), next.configuration[i+5]'(by omega), ?_⟩
        conv_lhs => rw [← List.take_append_drop i next.configuration]
        rw [List.append_assoc]
        congr 1
        rw [List.drop_eq_getElem_cons (by omega), List.drop_eq_getElem_cons (by omega), List.drop_eq_getElem_cons (by omega), List.drop_eq_getElem_cons (by omega),
          List.drop_eq_getElem_cons (by omega), List.drop_eq_getElem_cons (by omega)]
        rfl
      have := setSegments (next.configuration.take i) (next.configuration.drop (i + 6)) a b c d e' f r.dc1 r.ddc1
      rw [← hsplit, hpre] at this
      exact this
    obtain ⟨pre, post, c1, c2, c3, c4⟩ := hcfg
    have htimes : ∃ t0 t1 l, t = t0 :: t1 :: l ∧ (l = [] ∧ p.phases.length = 2 ∨ ∃ t2, l = [t2] ∧ p.phases.length = 3) := by
      rcases hpl with h2 | h2 <;> rw [h2] at htl
      · match t, htl with
        | [a, b], _ => exact ⟨a, b, [], rfl, Or.inl ⟨rfl, h2⟩⟩
      · match t, htl with
        | [a, b, c], _ => exact ⟨a, b, [c], rfl, Or.inr ⟨c, rfl, h2⟩⟩
    obtain ⟨t0, t1, l, rfl, hl⟩ := htimes
    refine ⟨p, r, _, hp, hs, rfl, rfl, rfl, ?_, ?_, ?_, ?_, ?_, pre, post, c1, c2, c3, ?_⟩
    · rcases hl with ⟨rfl, -⟩ | ⟨t2, rfl, -⟩ <;> simp [wrap, total] <;> ring
    · rcases hl with ⟨rfl, h3⟩ | ⟨t2, rfl, h3⟩ <;> simp [wrap, h3]
    · rcases hl with ⟨rfl, h3⟩ | ⟨t2, rfl, h3⟩ <;> simp [wrap, Consecutive, total] <;> ring
    · rcases hl with ⟨rfl, h3⟩ | ⟨t2, rfl, h3⟩ <;> simp [wrap, total]
    · rcases hl with ⟨rfl, h3⟩ | ⟨t2, rfl, h3⟩ <;> simp [wrap]
    · simp only [wrap]
      rw [c4]
  · exact ⟨fun h' => by simp [plain, Result.of] at h', fun _ => rfl⟩

/-! ## C97: memory -/

/-- **C97** is violated: whenever the solver of the dynamic transition is called, objects with automatic storage are deleted before the function returns. -/
theorem C97_violated {C : Type _} (env : DynEnv N K C) (previous next : State N K) (tq : Bool) (timings : List K) (np : ℕ) (d : Dynamic N K C)
    (h : isReachableDynamic env previous next tq timings np = some d) (hs : d.res.status = .reachable ∨ d.res.status = .unreachable) :
    .automatic ∈ d.deleted := by
  rcases dynamic_cases env previous next tq timings np d h with ⟨s, rfl, h1, h2, -⟩ | ⟨-, q, -, -, rfl⟩ | ⟨p, hp, ⟨t, r, hf, rfl⟩ | ⟨hall, rfl⟩⟩
  · exact absurd hs (by simp [plain, Result.of, h1, h2])
  · simp at hs
  all_goals
    obtain ⟨Kp, Kn, cp, cn, -, -, -, -, ⟨-, h1⟩ | ⟨n, Km, cm, -, -, -, -, h1⟩⟩ := hp.phases <;> simp [wrap, plain, h1]

/-- **C97** (partial): with any other answer nothing is deleted -/
theorem C97_partial {C : Type _} (env : DynEnv N K C) (previous next : State N K) (tq : Bool) (timings : List K) (np : ℕ) (d : Dynamic N K C)
    (h : isReachableDynamic env previous next tq timings np = some d) (hs : d.res.status ≠ .reachable ∧ d.res.status ≠ .unreachable) : d.deleted = [] := by
  rcases dynamic_cases env previous next tq timings np d h with ⟨s, rfl, -⟩ | ⟨-, q, -, -, rfl⟩ | ⟨p, hp, ⟨t, r, hf, rfl⟩ | ⟨hall, rfl⟩⟩
  · rfl
  · rfl
  · exact absurd rfl hs.1
  · exact absurd rfl hs.2

/-! ## Concrete robots -/

/-- two contacts with the points of `demoState`, at a configuration -/
def demoS (q : List ℚ) (l : List ℕ) : State ℕ ℚ :=
  { demoState l with
    configuration := q
    contacts := l.map fun n => (n, true)
    contactOrder := l
    nbContacts := l.length }

/-- the centre of mass has to stay at height at least one over each foot (and below two, for foot 2) -/
def demoFaces : AMap ℕ (Faces ℚ) := [(0, [(⟨0, 0, -1⟩, ⟨0, 0, 1⟩)]), (1, []), (2, [(⟨0, 0, 1⟩, ⟨0, 0, 2⟩)])]

/-- a solver that only knows one candidate -/
def demoReach : ReachEnv ℕ ℚ where
  kin := ⟨demoFaces, fun _ _ => ⟨Mat3.one, 0⟩⟩
  stab := demoStabEnv
  solver := demoSolver
  gravity := ⟨0, 0, -10⟩
  mass := 1
  polytope := fun _ => some [((⟨0, 0, 1⟩, 0), 0)]
  norm6 := fun _ => 1
  qp := fun Ab _ _ => (verify Ab ⟨0, 0, 1⟩, ⟨0, 0, 1⟩)
  offset := fun _ => 0

/-- creation, break, repositioning, nothing and too much -/
example :
    (isReachable demoReach (demoS [] [0]) (demoS [] [0, 2]) 0 false).map (·.status) = some .reachable ∧
    (isReachable demoReach (demoS [] [0, 2]) (demoS [] [0]) 0 false).map (·.status) = some .reachable ∧
    (isReachable demoReach (demoS [] [0, 2]) (demoS [] [0, 2]) 0 false).map (·.status) = some .noContactVariation ∧
    (isReachable demoReach (demoS [] [0]) (demoS [] [2]) 0 false).map (·.status) = some .tooManyContactsVariation ∧
    (isReachable demoReach (demoS [] [0]) (demoS [] [0, 2]) ⟨0, 0, -20⟩ false).map (·.status) = some .unreachable :=
  ⟨by decide +kernel, by decide +kernel, by decide +kernel, by decide +kernel, by decide +kernel⟩

theorem demoS_consistent : Consistent (demoS [] [0]) ∧ Consistent (demoS [] [0, 2]) := by
  constructor
  · refine ⟨⟨?_, ?_, ?_, ?_⟩, ?_, ?_, ?_, ?_, ?_, ?_⟩
    iterate 4 (unfold AMap.WF; decide +kernel)
    iterate 3 (decide +kernel)
    · exact List.Perm.refl _
    · rfl
    · intro n b h
      have := AMap.find?_some_mem h
      simp [demoS] at this
      exact this.2
  · refine ⟨⟨?_, ?_, ?_, ?_⟩, ?_, ?_, ?_, ?_, ?_, ?_⟩
    iterate 4 (unfold AMap.WF; decide +kernel)
    iterate 3 (decide +kernel)
    · exact List.Perm.refl _
    · rfl
    · intro n b h
      have := AMap.find?_some_mem h
      simp [demoS] at this
      rcases this with h | h <;> exact h.2

/-- the four sets of constraints of `C52_feasible` exist in that case -/
example : (stabilityForState demoReach (demoS [] [0]) 0).isSome ∧ stabilityForState demoReach (demoS [] [0]) 0 = stabilityForState demoReach (demoS [] [0, 2]) 0 ∧
    (constraintsForState demoReach.kin (demoS [] [0])).isSome ∧ (constraintsForState demoReach.kin (demoS [] [0, 2])).isSome :=
  ⟨by decide +kernel, by decide +kernel, by decide +kernel, by decide +kernel⟩

/-- a correct solver exists: one that decides feasibility -/
theorem exists_solver : ∃ solve : Ineq ℚ → Option (Vec3 ℚ) → Bool × Vec3 ℚ, SolverOk solve := by
  classical
  refine ⟨fun Ab _ => if h : ∃ x, Sat Ab x then (true, h.choose) else (false, 0), ?_, ?_⟩
  · intro Ab c h
    by_cases hx : ∃ x, Sat Ab x
    · simp only [hx, dite_true]; exact hx.choose_spec
    · simp [hx] at h
  · intro Ab c x hx
    have : ∃ x, Sat Ab x := ⟨x, hx⟩
    simp [this]

/-- a state with the second contact somewhere else -/
def demoMoved : State ℕ ℚ := { demoS [1] [0, 2] with contactPositions := [(0, ⟨0, 0, 0⟩), (2, ⟨5, 0, 0⟩)] }

/-- **C94** is violated in a case where it matters: falling faster than gravity allows is refused, but not with the intermediate state -/
theorem C94_violated_case : repositioning (demoS [] [0, 2]) demoMoved = true ∧
    (isReachable demoReach (demoS [] [0, 2]) demoMoved ⟨0, 0, -20⟩ false).map Result.success = some false ∧
    (isReachable demoReach (demoS [] [0, 2]) demoMoved ⟨0, 0, -20⟩ true).map Result.success = some true := by
  refine ⟨by decide +kernel, by decide +kernel, by decide +kernel⟩

/-- the dynamic solver accepts only some timings -/
def demoDyn (ok : List ℚ → Bool) : DynEnv ℕ ℚ (List (Vec3 ℚ)) where
  toReachEnv := { demoReach with stab := { demoStabEnv with extraDim := 6 } }
  solveCom := fun p t _ => if ok t then some ⟨⟨1, 0, 0⟩, ⟨2, 0, 0⟩, [p.c0, p.c1]⟩ else none
  bezier2 := fun a b c => [a, b, c]

/-- **C95** is violated: only a contact is created, the transition is found quasi-statically, and the control point of the path is below the minimal height of the foot -/
theorem C95_violated : ∃ d K0 prev next, isReachableDynamic (demoDyn fun _ => true) prev next true [] 0 = some d ∧ d.res.status = .quasiStatic ∧
    d.path.map (·.curve) = some [⟨0, 0, 1⟩, d.res.x, ⟨0, 0, 1⟩] ∧ constraintsForState (demoDyn fun _ => true).kin prev = some K0 ∧ ¬ Sat K0 d.res.x := by
  have h1 : (isReachableDynamic (demoDyn fun _ => true) (demoS [0, 0, 0, 0, 0, 0, 0, 0, 0] [0, 1]) (demoS [1, 0, 0, 0, 0, 0, 0, 0, 0] [0, 1, 2]) true [] 0).map
      (fun d => (d.res.status, d.res.x, d.path.map (·.curve))) = some (.quasiStatic, ⟨0, 0, 1 / 2⟩, some [⟨0, 0, 1⟩, ⟨0, 0, 1 / 2⟩, ⟨0, 0, 1⟩]) := by decide +kernel
  have h2 : (constraintsForState (demoDyn fun _ => true).kin (demoS [0, 0, 0, 0, 0, 0, 0, 0, 0] [0, 1])).map (fun A => verify A ⟨0, 0, 1 / 2⟩) = some false := by decide +kernel
  obtain ⟨d, hd, e⟩ := Option.map_eq_some_iff.1 h1
  obtain ⟨K0, hK, e'⟩ := Option.map_eq_some_iff.1 h2
  simp only [Prod.mk.injEq] at e
  refine ⟨d, K0, _, _, hd, e.1, by rw [e.2.1]; exact e.2.2, hK, ?_⟩
  rw [← verify_iff, e.2.1, e']
  simp

/-- the configurations of the examples -/
def demoPrev : State ℕ ℚ := demoS [0, 0, 0, 0, 0, 0, 0, 0, 0] [0, 1, 2]
def demoNext : State ℕ ℚ := { demoMoved with configuration := [1, 0, 0, 0, 0, 0, 0, 0, 0], contactPositions := [(0, ⟨0, 0, 0⟩), (1, ⟨1, 0, 0⟩), (2, ⟨5, 0, 0⟩)],
                                             contactNormals := demoPrev.contactNormals, contactRotation := demoPrev.contactRotation, contacts := demoPrev.contacts }

/-- **C53** is violated: the last row of the table is the only feasible one; the answer is 'unreachable', although with these timings as an argument the transition is found -/
theorem C53_violated : [2/10, 3/10, 2/10] ∈ (timingTable : List (List ℚ)) ∧
    (isReachableDynamic (demoDyn fun t => t = [2/10, 3/10, 2/10]) demoPrev demoNext false [] 0).map (·.res.status) = some .unreachable ∧
    (isReachableDynamic (demoDyn fun t => t = [2/10, 3/10, 2/10]) demoPrev demoNext false [2/10, 3/10, 2/10] 0).map (·.res.status) = some .reachable := by
  refine ⟨by decide +kernel, by decide +kernel, by decide +kernel⟩

/-- the fourth row is the first feasible one; two phases when a contact is only created; the second state gets the final velocity and acceleration -/
example : (isReachableDynamic (demoDyn fun t => t.sum ≤ 3/2) demoPrev demoNext false [] 0).map
      (fun d => (d.res.status, d.timings, d.phases.map (fun f => (f.first, f.last)), d.next.configuration)) =
      some (.reachable, [3/10, 6/10, 3/10], [(0, 3/10), (3/10, 9/10), (9/10, 12/10)], [1, 0, 0, 1, 0, 0, 2, 0, 0]) ∧
    (isReachableDynamic (demoDyn fun t => t.sum ≤ 3/2) (demoS [0, 0, 0, 0, 0, 0, 0, 0, 0] [0, 1]) (demoS [1, 0, 0, 0, 0, 0, 0, 0, 0] [0, 1, 2]) false [] 0).map
      (fun d => (d.timings, d.phases.length, d.deleted)) = some ([8/10, 7/10], 2, [.automatic, .automatic]) :=
  ⟨by decide +kernel, by decide +kernel⟩

/-- **C93** is violated for polytopes that are not cones: the wrench satisfies `−H w ≤ h`, the position is refused (`H` has norm 2) -/
theorem C93_violated : ∃ (env : ReachEnv ℕ ℚ) (pb : Problem ℚ) (x : Vec3 ℚ) (r : (Vec3 ℚ × Vec3 ℚ) × ℚ),
    env.polytope pb = some [r] ∧ env.norm6 r.1 * env.norm6 r.1 = dot6 r.1 r.1 ∧ 0 < env.norm6 r.1 ∧
    -dot6 r.1 (wrench env.mass env.gravity 0 x) ≤ r.2 ∧ ¬ Sat (stabilityConstraints env pb 0) x := by
  refine ⟨{ demoReach with polytope := fun _ => some [((⟨0, 0, 2⟩, 0), -15)], norm6 := fun _ => 2 }, ⟨[], [], 0, .PP⟩, 0, ((⟨0, 0, 2⟩, 0), -15), rfl, ?_, ?_, ?_, ?_⟩
  · decide +kernel
  · decide +kernel
  · decide +kernel
  · rw [← verify_iff]
    decide +kernel

end Reach
end Rbprm
