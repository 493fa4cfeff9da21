import Verif.Props.Reachability
set_option linter.unusedSectionVars false
/-!
# More about reachability: verdicts of the dynamic test (C144), the point that is looked for (C145), tables and segments (C53, C96)
-/
namespace Rbprm
namespace Reach
open Stability State
variable {N K : Type _} [LinearOrder N] [Field K] [LinearOrder K] [IsStrictOrderedRing K]

/-! ### tables and segments -/

/-- C53: the table of timings, in tenths of a second: 18 rows with three phases each, all positive. -/
theorem C53_table : (timingTable (K := ℚ)).map (List.map (10 * ·)) =
      [[6, 12, 6], [10, 12, 10], [8, 7, 8], [3, 6, 3], [5, 6, 5], [6, 6, 6], [8, 6, 8], [3, 8, 3], [3, 7, 3], [6, 8, 6], [10, 7, 10], [15, 7, 10], [8, 8, 8], [10, 6, 10], [12, 6, 12], [15, 6, 15], [1, 2, 1], [2, 3, 2]] ∧
    ∀ row ∈ timingTable (K := K), row.length = 3 ∧ ∀ t ∈ row, 0 < t := by
  constructor
  · norm_num [timingTable]
  · intro row hrow
    simp only [timingTable, List.mem_cons, List.not_mem_nil, or_false] at hrow
    rcases hrow with h | h | h | h | h | h | h | h | h | h | h | h | h | h | h | h | h | h <;> subst h <;> refine ⟨rfl, fun t ht => ?_⟩ <;>
      simp only [List.mem_cons, List.not_mem_nil, or_false] at ht <;> rcases ht with h | h | h <;> subst h <;> norm_num

/-- C96: the velocities that are given to the solver are the three numbers of the configurations that start at the extra degrees of freedom. -/
theorem C96_velocities {C : Type _} (env : DynEnv N K C) (previous next : State N K) (p : PData K) (h : ProblemOf env previous next p)
    (A B A' B' : List K) (u v : Vec3 K) (hp : previous.configuration = A ++ [u.x, u.y, u.z] ++ B) (hn : next.configuration = A' ++ [v.x, v.y, v.z] ++ B')
    (hA : A.length = next.configuration.length - env.stab.extraDim) (hA' : A'.length = next.configuration.length - env.stab.extraDim) : p.dc0 = u ∧ p.dc1 = v := by
  have key : ∀ (A B : List K) (u : Vec3 K), segment3 (A ++ [u.x, u.y, u.z] ++ B) A.length = u := by
    intro A B u
    unfold segment3
    ext
    · simp [List.getD]
    · simp [List.getD]
    · simp [List.getD]
  refine ⟨?_, ?_⟩
  · rw [h.dc0, hp, ← hA, key]
  · rw [h.dc1, ← hA']
    conv_lhs => rw [hn]
    rw [key]

/-! ### C144: verdicts of the dynamic test -/

/-- the contact of the limb is created: it is new, or in another place -/
def Created (previous next : State N K) (n : N) : Prop := (Touches next n ∧ ¬ Touches previous n) ∨ Moved previous next n

/-- the contact of the limb is broken: it is gone, or in another place -/
def Broken (previous next : State N K) (n : N) : Prop := (Touches previous n ∧ ¬ Touches next n) ∨ Moved previous next n

theorem mem_created {previous next : State N K} (hn : next.MapsOk) (n : N) : n ∈ next.contactCreations previous ↔ Created previous next n := C05_creations hn n

theorem mem_broken {previous next : State N K} (hp : previous.MapsOk) (n : N) : n ∈ next.contactBreaks previous ↔ Broken previous next n := C05_breaks hp n

theorem length_le_zero {l : List N} : l.length ≤ 0 ↔ ∀ n, n ∉ l := by
  constructor
  · intro h n hn
    have := List.length_eq_zero_iff.1 (Nat.le_zero.1 h)
    rw [this] at hn; cases hn
  · intro h
    rw [List.eq_nil_iff_forall_not_mem.2 h]; rfl

/-- the answers of the last part -/
theorem dynamicPart_status {C : Type _} (env : DynEnv N K C) (previous next : State N K) (timings : List K) (np : ℕ) (d : Dynamic N K C)
    (h : dynamicPart env previous (intermediateState previous (next.contactBreaks previous)) next (next.contactBreaks previous).length (next.contactCreations previous).length timings np = some d) :
    d.res.status = .unableToCompute ∨ d.res.status = .reachable ∨ d.res.status = .unreachable := by
  rcases dynamicPart_cases env previous next timings np d h with rfl | ⟨p, -, ⟨t, r, -, rfl⟩ | ⟨-, rfl⟩⟩
  · exact Or.inl rfl
  · exact Or.inr (Or.inl rfl)
  · exact Or.inr (Or.inr rfl)

/-- C144 (part).  'Same root position' is answered exactly when the first three coordinates agree.  Otherwise 'no contact variation' exactly when no limb changes its contact, and 'too many variations'
exactly when the contacts of two limbs are created or those of two limbs are broken; when contacts are only created (only broken) and the first (the second) state has not more than one, 'unable to
compute'; in all other cases one of 'quasi-static' (only if it is to be tried), 'reachable', 'unreachable' and 'unable to compute'.
Missing (violated below): 'too many variations' when the contact of one limb is broken and that of another one is created. -/
theorem C144_partial {C : Type _} (env : DynEnv N K C) (previous next : State N K) (tq : Bool) (timings : List K) (np : ℕ) (hp : previous.MapsOk) (hn : next.MapsOk) (d : Dynamic N K C)
    (h : isReachableDynamic env previous next tq timings np = some d) :
    (d.res.status = .sameRootPosition ↔ previous.configuration.take 3 = next.configuration.take 3) ∧
    (previous.configuration.take 3 ≠ next.configuration.take 3 →
      (d.res.status = .noContactVariation ↔ ∀ n, ¬ Changes previous next n) ∧
      (d.res.status = .tooManyContactsVariation ↔ ∃ a b, a ≠ b ∧ ((Created previous next a ∧ Created previous next b) ∨ (Broken previous next a ∧ Broken previous next b))) ∧
      ((∃ n, Created previous next n) → (∀ n, ¬ Broken previous next n) → (∀ a b, Created previous next a → Created previous next b → a = b) → previous.nbContacts ≤ 1 → d.res.status = .unableToCompute) ∧
      ((∃ n, Broken previous next n) → (∀ n, ¬ Created previous next n) → (∀ a b, Broken previous next a → Broken previous next b → a = b) → next.nbContacts ≤ 1 → d.res.status = .unableToCompute) ∧
      (d.res.status = .quasiStatic → tq = true)) ∧
    d.res.status ≠ .contactBreakFailed ∧ d.res.status ≠ .contactCreationFailed := by
  have hc0 : (next.contactCreations previous).length ≤ 0 ↔ ∀ n, ¬ Created previous next n := by
    rw [length_le_zero]; simp only [mem_created hn]
  have hb0 : (next.contactBreaks previous).length ≤ 0 ↔ ∀ n, ¬ Broken previous next n := by
    rw [length_le_zero]; simp only [mem_broken hp]
  have hc2 : 1 < (next.contactCreations previous).length ↔ ∃ a b, a ≠ b ∧ Created previous next a ∧ Created previous next b := by
    rw [two_of_length (nodup_creations _ _)]
    simp only [mem_created hn]
    constructor
    · rintro ⟨a, ha, b, hb, hab⟩; exact ⟨a, b, hab, ha, hb⟩
    · rintro ⟨a, b, hab, ha, hb⟩; exact ⟨a, ha, b, hb, hab⟩
  have hb2 : 1 < (next.contactBreaks previous).length ↔ ∃ a b, a ≠ b ∧ Broken previous next a ∧ Broken previous next b := by
    rw [two_of_length (nodup_breaks _ _)]
    simp only [mem_broken hp]
    constructor
    · rintro ⟨a, ha, b, hb, hab⟩; exact ⟨a, b, hab, ha, hb⟩
    · rintro ⟨a, b, hab, ha, hb⟩; exact ⟨a, ha, b, hb, hab⟩
  have hch : (∀ n, ¬ Changes previous next n) ↔ (∀ n, ¬ Created previous next n) ∧ ∀ n, ¬ Broken previous next n := by
    rw [← forall_and]
    refine forall_congr' fun n => ?_
    simp only [Changes, Created, Broken]; tauto
  have hmany : (∃ a b, a ≠ b ∧ ((Created previous next a ∧ Created previous next b) ∨ (Broken previous next a ∧ Broken previous next b))) ↔
      1 < (next.contactCreations previous).length ∨ 1 < (next.contactBreaks previous).length := by
    rw [hc2, hb2]
    constructor
    · rintro ⟨a, b, hab, h | h⟩
      · exact Or.inl ⟨a, b, hab, h⟩
      · exact Or.inr ⟨a, b, hab, h⟩
    · rintro (⟨a, b, hab, h⟩ | ⟨a, b, hab, h⟩)
      · exact ⟨a, b, hab, Or.inl h⟩
      · exact ⟨a, b, hab, Or.inr h⟩
  rw [hch, hmany]
  unfold isReachableDynamic at h
  simp only at h
  by_cases h1 : previous.configuration.take 3 = next.configuration.take 3
  · rw [if_pos h1] at h
    cases h
    exact ⟨⟨fun _ => h1, fun _ => rfl⟩, fun hne => absurd h1 hne, by simp [plain, Result.of], by simp [plain, Result.of]⟩
  rw [if_neg h1] at h
  by_cases h2 : (next.contactCreations previous).length ≤ 0 ∧ (next.contactBreaks previous).length ≤ 0
  · rw [if_pos h2] at h
    cases h
    have h2' := h2
    rw [hc0, hb0] at h2'
    refine ⟨⟨fun hs => by simp [plain, Result.of] at hs, fun hs => absurd hs h1⟩, fun _ => ⟨⟨fun _ => h2', fun _ => rfl⟩, ⟨fun hs => by simp [plain, Result.of] at hs, fun hs => by omega⟩, ?_, ?_, ?_⟩,
      by simp [plain, Result.of], by simp [plain, Result.of]⟩
    · rintro ⟨n, hcn⟩; exact absurd hcn (h2'.1 n)
    · rintro ⟨n, hbn⟩; exact absurd hbn (h2'.2 n)
    · intro hs; simp [plain, Result.of] at hs
  rw [if_neg h2] at h
  have h2' := h2
  rw [hc0, hb0] at h2'
  by_cases h3 : (next.contactBreaks previous).length + (next.contactCreations previous).length > 2 ∨ (next.contactBreaks previous).length > 1 ∨ (next.contactCreations previous).length > 1
  · rw [if_pos h3] at h
    cases h
    have h3' : 1 < (next.contactCreations previous).length ∨ 1 < (next.contactBreaks previous).length := by omega
    refine ⟨⟨fun hs => by simp [plain, Result.of] at hs, fun hs => absurd hs h1⟩, fun _ => ⟨⟨fun hs => by simp [plain, Result.of] at hs, fun hs => absurd hs h2'⟩, ⟨fun _ => h3', fun _ => rfl⟩, ?_, ?_, ?_⟩,
      by simp [plain, Result.of], by simp [plain, Result.of]⟩
    · intro hex hnb huniq
      rcases h3' with h3' | h3'
      · obtain ⟨a, b, hab, ha, hb⟩ := hc2.1 h3'
        exact absurd (huniq a b ha hb) hab
      · obtain ⟨a, b, hab, ha, hb⟩ := hb2.1 h3'
        exact absurd ha (hnb a)
    · intro hex hnb huniq
      rcases h3' with h3' | h3'
      · obtain ⟨a, b, hab, ha, hb⟩ := hc2.1 h3'
        exact absurd ha (hnb a)
      · obtain ⟨a, b, hab, ha, hb⟩ := hb2.1 h3'
        exact absurd (huniq a b ha hb) hab
    · intro hs; simp [plain, Result.of] at hs
  rw [if_neg h3] at h
  have h3' : ¬ (1 < (next.contactCreations previous).length ∨ 1 < (next.contactBreaks previous).length) := by omega
  have fin : ∀ st, d.res.status = st → (st = .unableToCompute ∨ ((st = .quasiStatic ∧ tq = true) ∨ st = .reachable ∨ st = .unreachable) ∧
        ¬ ((next.contactBreaks previous).length = 0 ∧ previous.nbContacts ≤ 1) ∧ ¬ ((next.contactCreations previous).length = 0 ∧ next.nbContacts ≤ 1)) →
      (d.res.status = .sameRootPosition ↔ previous.configuration.take 3 = next.configuration.take 3) ∧
      (previous.configuration.take 3 ≠ next.configuration.take 3 →
        (d.res.status = .noContactVariation ↔ (∀ n, ¬ Created previous next n) ∧ ∀ n, ¬ Broken previous next n) ∧
        (d.res.status = .tooManyContactsVariation ↔ 1 < (next.contactCreations previous).length ∨ 1 < (next.contactBreaks previous).length) ∧
        ((∃ n, Created previous next n) → (∀ n, ¬ Broken previous next n) → (∀ a b, Created previous next a → Created previous next b → a = b) → previous.nbContacts ≤ 1 → d.res.status = .unableToCompute) ∧
        ((∃ n, Broken previous next n) → (∀ n, ¬ Created previous next n) → (∀ a b, Broken previous next a → Broken previous next b → a = b) → next.nbContacts ≤ 1 → d.res.status = .unableToCompute) ∧
        (d.res.status = .quasiStatic → tq = true)) ∧
      d.res.status ≠ .contactBreakFailed ∧ d.res.status ≠ .contactCreationFailed := by
    intro st hst hcase
    have n1 : st ≠ .sameRootPosition := by rcases hcase with rfl | ⟨⟨rfl, -⟩ | rfl | rfl, -⟩ <;> simp
    have n2 : st ≠ .noContactVariation := by rcases hcase with rfl | ⟨⟨rfl, -⟩ | rfl | rfl, -⟩ <;> simp
    have n3 : st ≠ .tooManyContactsVariation := by rcases hcase with rfl | ⟨⟨rfl, -⟩ | rfl | rfl, -⟩ <;> simp
    have n4 : st ≠ .contactBreakFailed := by rcases hcase with rfl | ⟨⟨rfl, -⟩ | rfl | rfl, -⟩ <;> simp
    have n5 : st ≠ .contactCreationFailed := by rcases hcase with rfl | ⟨⟨rfl, -⟩ | rfl | rfl, -⟩ <;> simp
    rw [hst]
    refine ⟨⟨fun hs => absurd hs n1, fun hs => absurd hs h1⟩, fun _ => ⟨⟨fun hs => absurd hs n2, fun hs => absurd hs h2'⟩, ⟨fun hs => absurd hs n3, fun hs => absurd hs h3'⟩, ?_, ?_, ?_⟩, n4, n5⟩
    · intro _ hnb _ hle
      rcases hcase with hcase | ⟨-, hc, -⟩
      · exact hcase
      · exact absurd ⟨Nat.le_zero.1 (hb0.2 hnb), hle⟩ hc
    · intro _ hnc _ hle
      rcases hcase with hcase | ⟨-, -, hc⟩
      · exact hcase
      · exact absurd ⟨Nat.le_zero.1 (hc0.2 hnc), hle⟩ hc
    · intro hs
      rcases hcase with rfl | ⟨⟨-, htq⟩ | rfl | rfl, -⟩
      · cases hs
      · exact htq
      · cases hs
      · cases hs
  by_cases h4 : (next.contactBreaks previous).length = 0 ∧ previous.nbContacts ≤ 1
  · rw [if_pos h4] at h
    cases h
    exact fin .unableToCompute rfl (Or.inl rfl)
  rw [if_neg h4] at h
  by_cases h5 : (next.contactCreations previous).length = 0 ∧ next.nbContacts ≤ 1
  · rw [if_pos h5] at h
    cases h
    exact fin .unableToCompute rfl (Or.inl rfl)
  rw [if_neg h5] at h
  have dyn : dynamicPart env previous (intermediateState previous (next.contactBreaks previous)) next (next.contactBreaks previous).length (next.contactCreations previous).length timings np = some d → _ :=
    fun hd => dynamicPart_status env previous next timings np d hd
  have fin2 : (d.res.status = .unableToCompute ∨ d.res.status = .reachable ∨ d.res.status = .unreachable) → _ := fun hs => fin d.res.status rfl (by
    rcases hs with hs | hs | hs
    · exact Or.inl hs
    · exact Or.inr ⟨Or.inr (Or.inl hs), h4, h5⟩
    · exact Or.inr ⟨Or.inr (Or.inr hs), h4, h5⟩)
  by_cases h6 : tq = true
  · rw [if_pos h6] at h
    cases hq : isReachableIntermediate env.toReachEnv previous (intermediateState previous (next.contactBreaks previous)) next with
    | none => rw [hq] at h; cases h
    | some q =>
      rw [hq] at h
      dsimp only at h
      by_cases h7 : q.success = true
      · rw [if_pos h7] at h
        cases h
        exact fin .quasiStatic rfl (Or.inr ⟨Or.inl ⟨rfl, h6⟩, h4, h5⟩)
      · rw [if_neg h7] at h
        exact fin2 (dyn h)
  · rw [if_neg h6] at h
    exact fin2 (dyn h)

/-- **C144 is violated**: the contact of limb 1 is broken and that of limb 2 is created, and the transition is found; `isReachable` answers 'too many variations'. -/
theorem C144_violated : let a := demoS [0, 0, 0, 0, 0, 0, 0, 0, 0] [0, 1]; let b := demoS [1, 0, 0, 0, 0, 0, 0, 0, 0] [0, 2]
    Changes a b 1 ∧ Changes a b 2 ∧
    (isReachableDynamic (demoDyn fun _ => true) a b false [] 0).map (·.res.status) = some .reachable ∧
    (isReachable (demoDyn fun _ => true).toReachEnv a b 0 false).map (·.status) = some .tooManyContactsVariation := by
  refine ⟨Or.inr (Or.inl ⟨⟨_, rfl⟩, ?_⟩), Or.inl ⟨⟨_, rfl⟩, ?_⟩, by decide +kernel, by decide +kernel⟩
  · rintro ⟨p, hp⟩
    have : (demoS ([1, 0, 0, 0, 0, 0, 0, 0, 0] : List ℚ) [0, 2]).contactPositions.find? 1 = none := by decide +kernel
    rw [TouchesAt, this] at hp; cases hp
  · rintro ⟨p, hp⟩
    have : (demoS ([0, 0, 0, 0, 0, 0, 0, 0, 0] : List ℚ) [0, 1]).contactPositions.find? 2 = none := by decide +kernel
    rw [TouchesAt, this] at hp; cases hp

/-- **C144 is violated**: if the root stays in its place the answer is a success, whatever the contacts: here every contact moves. -/
theorem C144_root_violated {C : Type _} (env : DynEnv N K C) (previous next : State N K) (tq : Bool) (timings : List K) (np : ℕ) (h : previous.configuration.take 3 = next.configuration.take 3) :
    (isReachableDynamic env previous next tq timings np).map (·.res.success) = some true := by
  unfold isReachableDynamic
  simp only
  rw [if_pos h]
  rfl

/-! ### C145: the point that is looked for -/

/-- the contact points of a state in the world: the position and orientation of the contact applied to the offset of the limb -/
def ContactPoints (env : ReachEnv N K) (s : State N K) (pts : List (Vec3 K)) : Prop :=
  List.Forall₂ (fun e q => ∃ R, s.contactRotation.find? e.1 = some R ∧ q = R.mulVec (env.offset e.1) + e.2) s.contactPositions pts

/-- the target is above (or below) the mean of the points, at height `z`; it is not a number if there is no point -/
def Target (pts : List (Vec3 K)) (z : K) : Option (Vec3 K) → Prop
  | none => pts = []
  | some t => pts ≠ [] ∧ (pts.length : K) * t.x = (pts.map Vec3.x).sum ∧ (pts.length : K) * t.y = (pts.map Vec3.y).sum ∧ t.z = z

theorem contactSum_spec (env : ReachEnv N K) (s : State N K) (l : AMap N (Vec3 K)) (c0 c : Vec3 K) (h : contactSum env s l c0 = some c) :
    ∃ pts, List.Forall₂ (fun e q => ∃ R, s.contactRotation.find? e.1 = some R ∧ q = R.mulVec (env.offset e.1) + e.2) l pts ∧
      c.x = c0.x + (pts.map Vec3.x).sum ∧ c.y = c0.y + (pts.map Vec3.y).sum := by
  induction l generalizing c0 with
  | nil =>
    simp only [contactSum, Option.some.injEq] at h
    subst h
    exact ⟨[], List.Forall₂.nil, by simp, by simp⟩
  | cons e l ih =>
    obtain ⟨name, p⟩ := e
    rw [contactSum] at h
    cases hR : s.contactRotation.find? name with
    | none => simp [hR] at h
    | some R =>
      cases hL : env.kin.limbs.find? name with
      | none => simp [hR, hL] at h
      | some f =>
        simp only [hR, hL] at h
        obtain ⟨pts, h1, h2, h3⟩ := ih _ h
        refine ⟨(R.mulVec (env.offset name) + p) :: pts, List.Forall₂.cons ⟨R, hR, rfl⟩ h1, ?_, ?_⟩
        · rw [h2]; simp only [Transform.apply, Vec3.add_x, List.map_cons, List.sum_cons]; ring
        · rw [h3]; simp only [Transform.apply, Vec3.add_y, List.map_cons, List.sum_cons]; ring

theorem robustTarget_spec (env : ReachEnv N K) (s : State N K) (z : K) (t : Option (Vec3 K)) (h : robustTarget env s z = some t) :
    ∃ pts, ContactPoints env s pts ∧ Target pts z t := by
  unfold robustTarget at h
  cases hc : contactSum env s s.contactPositions 0 with
  | none => rw [hc] at h; cases h
  | some c =>
    rw [hc] at h
    dsimp only at h
    obtain ⟨pts, h1, h2, h3⟩ := contactSum_spec env s _ _ _ hc
    have hl : s.contactPositions.length = pts.length := h1.length_eq
    refine ⟨pts, h1, ?_⟩
    by_cases h0 : s.contactPositions.length = 0
    · rw [if_pos h0] at h
      cases h
      rw [hl] at h0
      exact List.length_eq_zero_iff.1 h0
    · rw [if_neg h0] at h
      cases h
      rw [hl] at h0
      have hne : (pts.length : K) ≠ 0 := by exact_mod_cast h0
      simp only [Vec3.zero_x, Vec3.zero_y, zero_add] at h2 h3
      refine ⟨fun he => h0 (by rw [he]; rfl), ?_, ?_, rfl⟩
      · rw [hl]; simp only [Vec3.smul_x]; rw [← mul_assoc, mul_inv_cancel₀ hne, one_mul, h2]
      · rw [hl]; simp only [Vec3.smul_y]; rw [← mul_assoc, mul_inv_cancel₀ hne, one_mul, h3]

/-- C145 (part).  When the constraints of a transition could be computed, the answer is that of the solver for these constraints and the point above the mean of the contact points that both states have (the state
with less contacts; for a repositioning the first state without the moved contact), at the mean height of the two centres of mass.  Missing (violated below): there is no such contact point. -/
theorem C145_target_partial (env : ReachEnv N K) (previous next : State N K) (acc : Vec3 K) (r : Result K)
    (h : isReachable env previous next acc false = some r) (hs : r.status = .reachable ∨ r.status = .unreachable) :
    ∃ smaller pts target,
      (((∃ n, next.contactBreaks previous = [n] ∧ (next.contactCreations previous).length = 1 ∧ smaller = (previous.removeContact n).1) ∨
        (next.contactBreaks previous ≠ [] ∧ next.contactCreations previous = [] ∧ smaller = next) ∨
        (next.contactBreaks previous = [] ∧ next.contactCreations previous ≠ [] ∧ smaller = previous)) ∧
       ContactPoints env smaller pts ∧
       Target pts (((env.stab.centerOfMass previous.configuration).z + (env.stab.centerOfMass next.configuration).z) / 2) target) ∧
      (r.status = .reachable ↔ (env.solve r.constraints target).1 = true) ∧ r.x = (env.solve r.constraints target).2 := by
  unfold isReachable at h
  simp only [Bool.false_and, Bool.false_eq_true, if_false] at h
  unfold isReachableDirect at h
  simp only at h
  by_cases c1 : (next.contactCreations previous).length ≤ 0 ∧ (next.contactBreaks previous).length ≤ 0
  · rw [if_pos c1] at h; cases h; simp [Result.of] at hs
  rw [if_neg c1] at h
  by_cases c2 : (next.contactCreations previous).length > 1 ∨ (next.contactBreaks previous).length > 1
  · rw [if_pos c2] at h; cases h; simp [Result.of] at hs
  rw [if_neg c2] at h
  by_cases c3 : (next.contactBreaks previous).length = 1 ∧ (next.contactCreations previous).length = 1 ∧ ¬ (next.contactVariations previous).length = 1
  · rw [if_pos c3] at h; cases h; simp [Result.of] at hs
  rw [if_neg c3] at h
  cases ht : transitionConstraints env previous next acc (next.contactBreaks previous).length (next.contactCreations previous).length with
  | none => rw [ht] at h; cases h
  | some o =>
  rw [ht] at h
  cases o with
  | none => dsimp only at h; cases h; simp [Result.of] at hs
  | some Ab =>
  dsimp only at h
  set smaller := (if (next.contactBreaks previous).length = 1 ∧ (next.contactCreations previous).length = 1 then intermediateState previous (next.contactBreaks previous)
        else if (next.contactBreaks previous).length > 0 then next else previous) with hsm
  cases hr : robustTarget env smaller (((env.stab.centerOfMass previous.configuration).z + (env.stab.centerOfMass next.configuration).z) / 2) with
  | none => rw [hr] at h; cases h
  | some target =>
  rw [hr] at h
  dsimp only at h
  obtain ⟨pts, h1, h2⟩ := robustTarget_spec env smaller _ target hr
  refine ⟨smaller, pts, target, ⟨?_, h1, h2⟩, ?_, ?_⟩
  · by_cases c4 : (next.contactBreaks previous).length = 1 ∧ (next.contactCreations previous).length = 1
    · obtain ⟨n, hn⟩ := mem_of_length_one c4.1
      refine Or.inl ⟨n, hn, c4.2, ?_⟩
      rw [hsm, if_pos c4, hn]
      rfl
    · by_cases c5 : (next.contactBreaks previous).length > 0
      · refine Or.inr (Or.inl ⟨List.length_pos_iff.1 c5, List.length_eq_zero_iff.1 (by omega), ?_⟩)
        rw [hsm, if_neg c4, if_pos c5]
      · refine Or.inr (Or.inr ⟨List.length_eq_zero_iff.1 (by omega), ?_, ?_⟩)
        · intro he; rw [he] at c1; exact c1 ⟨le_refl _, by omega⟩
        · rw [hsm, if_neg c4, if_neg c5]
  · cases h
    dsimp only [Result.of]
    cases (env.solve Ab target).1 <;> simp
  · cases h
    rfl

/-- C145_target_partial applies: a contact of the demonstration is created -/
example : (isReachable demoReach (demoS [] [0]) (demoS [] [0, 2]) 0 false).map (·.status) = some .reachable := by decide +kernel

/-- the cost that is given to the solver -/
def Cost (H : Mat3 K) (g x : Vec3 K) : K := Vec3.dot x (H.mulVec x) / 2 + Vec3.dot g x

/-- the solver is right: the point of a success satisfies the constraints, and no other one that does is cheaper -/
def QpOk (qp : Ineq K → Mat3 K × Option (Vec3 K) → Option (Vec3 K) → Bool × Vec3 K) : Prop :=
  ∀ Ab H g c, (qp Ab (H, some g) c).1 = true → Sat Ab (qp Ab (H, some g) c).2 ∧ ∀ y, Sat Ab y → Cost H g (qp Ab (H, some g) c).2 ≤ Cost H g y

/-- the cost of the code is, up to a constant, half the square of the distance -/
theorem cost_distance (c x : Vec3 K) : Cost Mat3.one (-c) x = (Vec3.distSq x c - Vec3.normSq c) / 2 := by
  simp only [Cost, Vec3.dot, Mat3.mulVec, Mat3.one, Vec3.distSq, Vec3.normSq, Vec3.sub_x, Vec3.sub_y, Vec3.sub_z, Vec3.neg_x, Vec3.neg_y, Vec3.neg_z]
  ring

/-- C145 (part).  With a solver that is right, the point of a positive answer satisfies the constraints, and no other point that does is nearer to the target: above the mean of the contact points of the state
with less contacts, at the mean height of the two centres of mass.  Missing: see `C145_violated`. -/
theorem C145_nearest_partial (env : ReachEnv N K) (hq : QpOk env.qp) (previous next : State N K) (acc : Vec3 K) (r : Result K)
    (h : isReachable env previous next acc false = some r) (hs : r.status = .reachable) :
    ∃ smaller pts,
      ((∃ n, next.contactBreaks previous = [n] ∧ (next.contactCreations previous).length = 1 ∧ smaller = (previous.removeContact n).1) ∨
        (next.contactBreaks previous ≠ [] ∧ next.contactCreations previous = [] ∧ smaller = next) ∨
        (next.contactBreaks previous = [] ∧ next.contactCreations previous ≠ [] ∧ smaller = previous)) ∧
      ContactPoints env smaller pts ∧
      (pts ≠ [] → ∃ target : Vec3 K, (pts.length : K) * target.x = (pts.map Vec3.x).sum ∧ (pts.length : K) * target.y = (pts.map Vec3.y).sum ∧
        target.z = ((env.stab.centerOfMass previous.configuration).z + (env.stab.centerOfMass next.configuration).z) / 2 ∧
        Sat r.constraints r.x ∧ ∀ y, Sat r.constraints y → Vec3.distSq r.x target ≤ Vec3.distSq y target) := by
  obtain ⟨smaller, pts, target, ⟨h1, h2, h3⟩, h4, h5⟩ := C145_target_partial env previous next acc r h (Or.inl hs)
  refine ⟨smaller, pts, h1, h2, fun hne => ?_⟩
  cases target with
  | none => exact absurd h3 hne
  | some t =>
    obtain ⟨_, e1, e2, e3⟩ := h3
    refine ⟨t, e1, e2, e3, ?_⟩
    have hx : r.x = (env.qp r.constraints (Mat3.one, some (-t)) (some t)).2 := h5
    have hok : (env.qp r.constraints (Mat3.one, some (-t)) (some t)).1 = true := h4.1 hs
    obtain ⟨g1, g2⟩ := hq _ _ _ _ hok
    rw [← hx] at g1 g2
    refine ⟨g1, fun y hy => ?_⟩
    have := g2 y hy
    rw [cost_distance, cost_distance] at this
    linarith

/-- a solver that only answers when its initial guess is free of cost and satisfies the constraints -/
def guessQp (Ab : Ineq ℚ) (cost : Mat3 ℚ × Option (Vec3 ℚ)) (c : Option (Vec3 ℚ)) : Bool × Vec3 ℚ :=
  match c with
  | some t => (decide (cost = distanceCost (some t)) && verify Ab t, t)
  | none => (false, 0)

theorem guessQp_ok : QpOk guessQp := by
  intro Ab H g c h
  cases c with
  | none => exact absurd h (by simp [guessQp])
  | some t =>
    simp only [guessQp, Bool.and_eq_true, decide_eq_true_eq, distanceCost, Option.map_some, Prod.mk.injEq, Option.some.injEq] at h ⊢
    obtain ⟨⟨rfl, rfl⟩, hv⟩ := h
    refine ⟨(verify_iff _ _).1 hv, fun y _ => ?_⟩
    rw [cost_distance, cost_distance]
    have h0 : Vec3.distSq t t = 0 := by simp [Vec3.distSq, Vec3.normSq, Vec3.dot]
    have h1 : 0 ≤ Vec3.distSq y t := by
      exact add_nonneg (add_nonneg (mul_self_nonneg _) (mul_self_nonneg _)) (mul_self_nonneg _)
    rw [h0]
    linarith

/-- C145_nearest_partial applies: a contact is created, and the point is the target itself -/
example : (isReachable { demoReach with qp := guessQp } (demoS [] [0]) (demoS [] [0, 2]) 0 false).map (fun r => (r.status, r.x)) = some (.reachable, ⟨0, 0, 1⟩) := by decide +kernel

/-- the only contact, before and after it was moved by one metre -/
def demoOne : State ℕ ℚ := demoS [] [0]
def demoOneMoved : State ℕ ℚ := { demoOne with contactPositions := [(0, ⟨1, 0, 0⟩)] }

/-- **C145 is violated**: the only contact is repositioned; the mean of no points is computed (0/0) and given to the solver. -/
theorem C145_violated : ∃ r, isReachable demoReach demoOne demoOneMoved 0 false = some r ∧ demoOneMoved.contactBreaks demoOne = [0] ∧ demoOneMoved.contactCreations demoOne = [0] ∧
    (r.status = .reachable ∨ r.status = .unreachable) ∧ robustTarget demoReach (demoOne.removeContact 0).1 1 = some none := by
  have h : (isReachable demoReach demoOne demoOneMoved 0 false).map (fun r => decide (r.status = .reachable ∨ r.status = .unreachable)) = some true := by decide +kernel
  obtain ⟨r, h1, h2⟩ := Option.map_eq_some_iff.1 h
  exact ⟨r, h1, by decide +kernel, by decide +kernel, of_decide_eq_true h2, by decide +kernel⟩

/-- C93: the cones are those of the library for feet of 10 by 10 centimetres (half sizes 0.05). -/
theorem C93_feet (env : ReachEnv N K) (s : State N K) : contactCone env s = (setupLibrary env.stab env.solver s Alg.PP 0.05 0.05).map Prod.snd := by
  unfold contactCone
  norm_num

end Reach
end Rbprm
