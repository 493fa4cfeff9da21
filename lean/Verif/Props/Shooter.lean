import Verif.Model.Shooter
import Mathlib.Analysis.SpecialFunctions.Trigonometric.Basic
import Mathlib.Analysis.SpecialFunctions.Pow.NNReal
import Mathlib.Tactic.LinearCombination
import Mathlib.Tactic.FieldSimp
import Mathlib.Tactic.Positivity
import Mathlib.Tactic.SplitIfs
set_option linter.unusedSectionVars false
/-! # C42, C43, C44, C45, C81, C82: the configuration shooter -/
namespace Rbprm
namespace Shoot
variable {K ω : Type _} [Field K] [LinearOrder K] [IsStrictOrderedRing K]

/-! ## Specification -/

/-- a number is within bounds -/
def Within (b : Option (K × K)) (x : K) : Prop := ∀ lo hi, b = some (lo, hi) → lo ≤ x ∧ x ≤ hi
/-- bounds are not empty -/
def BoundsOk (b : Option (K × K)) : Prop := ∀ lo hi, b = some (lo, hi) → lo ≤ hi
/-- the root translation is within the bounds of the device -/
def InBounds (b : Bounds K) (t : Vec3 K) : Prop := Within b.x t.x ∧ Within b.y t.y ∧ Within b.z t.z
/-- the bounds of the device are not empty -/
def Bounds.Ok (b : Bounds K) : Prop := BoundsOk b.x ∧ BoundsOk b.y ∧ BoundsOk b.z

/-- `y` is the number of the interval closest to `x` -/
def Closest (b : Option (K × K)) (x y : K) : Prop := Within b y ∧ ∀ z, Within b z → |y - x| ≤ |z - x|

/-- `p` is a convex combination of the vertices -/
def InTriangle (tri : Tri K) (p : Vec3 K) : Prop :=
  ∃ a b c : K, 0 ≤ a ∧ 0 ≤ b ∧ 0 ≤ c ∧ a + b + c = 1 ∧ p = Vec3.smul a tri.p1 + Vec3.smul b tri.p2 + Vec3.smul c tri.p3

/-! ## C42: bounds -/

theorem clamp_within (b : Option (K × K)) (hb : BoundsOk b) (x : K) : Within b (clamp b x) := by
  rintro lo hi rfl
  have := hb lo hi rfl
  exact ⟨le_min this (le_max_left _ _), min_le_left _ _⟩

theorem clamp_closest (b : Option (K × K)) (hb : BoundsOk b) (x : K) : Closest b x (clamp b x) := by
  refine ⟨clamp_within b hb x, fun z hz => ?_⟩
  cases b with
  | none => simp [clamp]
  | some p =>
    obtain ⟨lo, hi⟩ := p
    obtain ⟨h1, h2⟩ := hz lo hi rfl
    have h3 := hb lo hi rfl
    simp only [clamp]
    rcases le_total x lo with h | h
    · rw [max_eq_left h, min_eq_right h3, abs_of_nonneg (by linarith), abs_of_nonneg (by linarith)]; linarith
    · rw [max_eq_right h]
      rcases le_total x hi with h' | h'
      · rw [min_eq_right h']; simp
      · rw [min_eq_left h', abs_of_nonpos (by linarith), abs_of_nonpos (by linarith)]; linarith

/-- **C42** (placing).  The translation becomes, coordinate by coordinate, the closest admissible one; nothing else changes. -/
theorem C42_set (b : Bounds K) (hb : b.Ok) (config : Config K) (t : Vec3 K) :
    let c := setConfigTranslation b config t
    InBounds b c.trans ∧ Closest b.x t.x c.trans.x ∧ Closest b.y t.y c.trans.y ∧ Closest b.z t.z c.trans.z ∧
      c.rot = config.rot ∧ c.rest = config.rest :=
  ⟨⟨clamp_within _ hb.1 _, clamp_within _ hb.2.1 _, clamp_within _ hb.2.2 _⟩, clamp_closest _ hb.1 _,
    clamp_closest _ hb.2.1 _, clamp_closest _ hb.2.2 _, rfl, rfl⟩

/-- **C42** (moving).  After a displacement the translation is, coordinate by coordinate, the admissible one closest to the
sum; nothing else changes. -/
theorem C42_translate (b : Bounds K) (hb : b.Ok) (config : Config K) (t : Vec3 K) :
    let c := translate b config t
    InBounds b c.trans ∧ Closest b.x (config.trans.x + t.x) c.trans.x ∧ Closest b.y (config.trans.y + t.y) c.trans.y ∧
      Closest b.z (config.trans.z + t.z) c.trans.z ∧ c.rot = config.rot ∧ c.rest = config.rest :=
  ⟨⟨clamp_within _ hb.1 _, clamp_within _ hb.2.1 _, clamp_within _ hb.2.2 _⟩, clamp_closest _ hb.1 _,
    clamp_closest _ hb.2.1 _, clamp_closest _ hb.2.2 _, rfl, rfl⟩

theorem sampleRotation_trans (env : ShootEnv K ω) (so3 : Option (Euler K)) (w : ω) (config : Config K) :
    (sampleRotation env so3 w config).2.trans = config.trans ∧ (sampleRotation env so3 w config).2.rest = config.rest := by
  unfold sampleRotation; cases so3 <;> exact ⟨rfl, rfl⟩

theorem randConfigAtPos_bounds (env : ShootEnv K ω) (s : Shooter K) (hb : s.bounds.Ok) (p : Vec3 K) (w : ω)
    (config : Config K) : InBounds s.bounds (randConfigAtPos env s p w config).2.trans := by
  unfold randConfigAtPos
  simp only
  rw [(sampleRotation_trans _ _ _ _).1]
  exact (C42_set _ hb _ _).1

theorem reachLoop_bounds (env : ShootEnv K ω) (s : Shooter K) (hb : s.bounds.Ok) (p d : Vec3 K) (n : Nat) (w : ω)
    (config : Config K) (h : InBounds s.bounds config.trans) :
    InBounds s.bounds (reachLoop env s p d n w config).2.1.trans := by
  induction n generalizing w config with
  | zero => exact h
  | succ n ih =>
    rw [reachLoop]
    simp only
    have hm : InBounds s.bounds (if (env.validate (randConfigAtPos env s p w config).1
        (randConfigAtPos env s p w config).2).2.accepted = true then
        ((env.validate (randConfigAtPos env s p w config).1 (randConfigAtPos env s p w config).2).1,
          (randConfigAtPos env s p w config).2) else
        ((env.rand (env.validate (randConfigAtPos env s p w config).1 (randConfigAtPos env s p w config).2).1).1,
          translate s.bounds (randConfigAtPos env s p w config).2 (Vec3.smul (1 / 5 * (env.rand (env.validate
            (randConfigAtPos env s p w config).1 (randConfigAtPos env s p w config).2).1).2) (-d)))).2.trans := by
      split_ifs
      · exact randConfigAtPos_bounds env s hb p w config
      · exact (C42_translate _ hb _ _).1
    generalize (if (env.validate (randConfigAtPos env s p w config).1
        (randConfigAtPos env s p w config).2).2.accepted = true then _ else _ : ω × Config K) = m at hm ⊢
    split_ifs
    · exact hm
    · exact hm
    · exact ih _ _ hm

theorem displaceLoop_bounds (env : ShootEnv K ω) (s : Shooter K) (hb : s.bounds.Ok) (p d : Vec3 K) (n : Nat) (w : ω)
    (config : Config K) (h : InBounds s.bounds config.trans) :
    InBounds s.bounds (displaceLoop env s p n d w config).2.1.trans := by
  induction n generalizing w config d with
  | zero => exact h
  | succ n ih =>
    rw [displaceLoop]
    simp only
    split_ifs
    · exact h
    · exact reachLoop_bounds env s hb p d _ _ _ h
    · exact ih _ _ _ (C42_translate _ hb _ _).1

theorem shootOnce_bounds (env : ShootEnv K ω) (s : Shooter K) (hb : s.bounds.Ok) (w : ω) (config : Config K)
    (r : ω × Config K × Bool) (h : shootOnce env s w config = some r) : InBounds s.bounds r.2.1.trans := by
  unfold shootOnce at h
  simp only at h
  split at h
  · simp at h
  · simp only [Option.some.injEq] at h
    subst h
    exact displaceLoop_bounds env s hb _ _ _ _ _ (randConfigAtPos_bounds env s hb _ _ _)

/-- **C42.**  Whatever the random numbers and the answers of the validator, the configuration returned by the shooter has
its root translation within the bounds (at least one shot, or a uniform shooter that respects them). -/
theorem C42_shoot (env : ShootEnv K ω) (s : Shooter K) (hb : s.bounds.Ok) (w : ω) (config : Config K)
    (hu : 0 < s.shootLimit ∨ ∀ w c, InBounds s.bounds (env.uniform w c).2.trans)
    (r : ω × Config K × Bool) (h : implShoot env s w config = some r) : InBounds s.bounds r.2.1.trans := by
  have key : ∀ n w config, (0 < n ∨ InBounds s.bounds config.trans) → shootLoop env s n w config = some r →
      InBounds s.bounds r.2.1.trans := by
    intro n
    induction n with
    | zero =>
      intro w config hc h
      simp only [shootLoop, Option.some.injEq] at h
      subst h
      rcases hc with hc | hc
      · omega
      · exact hc
    | succ n ih =>
      intro w config _ h
      rw [shootLoop] at h
      split at h
      · simp at h
      · rename_i w' c' f hs
        have := shootOnce_bounds env s hb w config _ hs
        split_ifs at h
        · simp only [Option.some.injEq] at h; subst h; exact this
        · exact ih _ _ (Or.inr this) h
  unfold implShoot at h
  exact key _ _ _ (hu.imp_right (fun hu => hu _ _)) h

/-! ## C43: weights -/

theorem cumulate_length (sum p : K) (ws : List K) : (cumulate sum p ws).length = ws.length := by
  induction ws generalizing p with
  | nil => rfl
  | cons w ws ih => simp [cumulate, ih]

theorem cumulate_get (sum p : K) (ws : List K) (i : Nat) (hi : i < ws.length) :
    (cumulate sum p ws)[i]? = some (p + (ws.take (i + 1)).sum / sum) := by
  induction ws generalizing p i with
  | nil => simp at hi
  | cons w ws ih =>
    cases i with
    | zero => simp [cumulate]
    | succ i =>
      simp only [cumulate, List.getElem?_cons_succ]
      rw [ih _ _ (by simpa using hi), List.take_succ_cons, List.sum_cons]
      congr 1; ring

theorem foldl_add_eq (l : List K) (a : K) : l.foldl (· + ·) a = a + l.sum := by
  induction l generalizing a with
  | nil => simp
  | cons x l ih => rw [List.foldl_cons, ih, List.sum_cons, add_assoc]

/-- the triangles of all surfaces -/
def allTriangles (geometries : List (Option (List (Tri K)))) : List (Tri K) :=
  geometries.flatMap (fun g => g.getD [])

theorem collect_spec (sqrt : K → K) (geometries : List (Option (List (Tri K)))) (hg : ∀ g ∈ geometries, g.isSome) :
    ∃ l, collectTriangles sqrt geometries = some l ∧ l.map (fun x => x.2.2) = allTriangles geometries ∧
      ∀ x ∈ l, x.1 = triangleArea sqrt x.2.2 ∧
        x.2.1 = normalize sqrt (Vec3.cross (x.2.2.p2 - x.2.2.p1) (x.2.2.p3 - x.2.2.p1)) := by
  induction geometries with
  | nil => exact ⟨[], rfl, rfl, by simp⟩
  | cons g gs ih =>
    obtain ⟨tris, rfl⟩ := Option.isSome_iff_exists.1 (hg g List.mem_cons_self)
    obtain ⟨l, h1, h2, h3⟩ := ih (fun g h => hg g (List.mem_cons_of_mem _ h))
    refine ⟨_, by rw [collectTriangles, h1]; rfl, ?_, ?_⟩
    · simp [allTriangles, List.map_map, Function.comp_def, h2]
    · intro x hx
      rcases List.mem_append.1 hx with hx | hx
      · obtain ⟨tri, -, rfl⟩ := List.mem_map.1 hx
        exact ⟨rfl, rfl⟩
      · exact h3 x hx

/-- **C43** (weights).  For surfaces with triangle models, one triangle (with its unit normal) and one weight per triangle, in
order; the i-th weight is the area of the first i+1 triangles divided by the total area. -/
theorem C43_weights (sqrt : K → K) (geometries : List (Option (List (Tri K)))) (hg : ∀ g ∈ geometries, g.isSome) :
    ∃ weights triangles, initWeightedTriangles sqrt geometries = some (weights, triangles) ∧
      triangles.map Prod.snd = allTriangles geometries ∧ weights.length = triangles.length ∧
      (∀ x ∈ triangles, x.1 = normalize sqrt (Vec3.cross (x.2.p2 - x.2.p1) (x.2.p3 - x.2.p1))) ∧
      ∀ (i : Nat), i < triangles.length → weights[i]? =
        some ((((allTriangles geometries).take (i + 1)).map (triangleArea sqrt)).sum /
          ((allTriangles geometries).map (triangleArea sqrt)).sum) := by
  obtain ⟨l, h1, h2, h3⟩ := collect_spec sqrt geometries hg
  have ha : l.map Prod.fst = (allTriangles geometries).map (triangleArea sqrt) := by
    rw [← h2, List.map_map]
    exact List.map_congr_left (fun x hx => (h3 x hx).1)
  refine ⟨_, _, by unfold initWeightedTriangles; rw [h1]; rfl, ?_, ?_, ?_, ?_⟩
  · rw [List.map_map]; exact h2
  · simp [cumulate_length]
  · intro x hx
    obtain ⟨y, hy, rfl⟩ := List.mem_map.1 hx
    exact (h3 y hy).2
  · intro i hi
    rw [cumulate_get _ _ _ _ (by simpa using hi), foldl_add_eq, zero_add, zero_add, ha, ← List.map_take]

theorem sum_nonneg' {l : List K} (h : ∀ x ∈ l, 0 ≤ x) : 0 ≤ l.sum := by
  induction l with
  | nil => simp
  | cons a l ih =>
    rw [List.sum_cons]
    exact add_nonneg (h a List.mem_cons_self) (ih (fun x hx => h x (List.mem_cons_of_mem _ hx)))

/-- **C43** (order).  With non-negative areas and a positive total area the weights are non-decreasing, in [0, 1], and the
last one is 1. -/
theorem C43_monotone (sqrt : K → K) (hs : ∀ x, 0 ≤ sqrt x) (geometries : List (Option (List (Tri K))))
    (weights : List K) (triangles : List (Vec3 K × Tri K)) (hg : ∀ g ∈ geometries, g.isSome)
    (h : initWeightedTriangles sqrt geometries = some (weights, triangles))
    (hpos : 0 < ((allTriangles geometries).map (triangleArea sqrt)).sum) :
    (∀ (i j : Nat) (a b : K), i ≤ j → weights[i]? = some a → weights[j]? = some b → a ≤ b) ∧
    (∀ a ∈ weights, 0 ≤ a ∧ a ≤ 1) ∧ weights.getLast? = some 1 := by
  obtain ⟨w, t, h1, h2, h3, -, h5⟩ := C43_weights sqrt geometries hg
  rw [h] at h1
  simp only [Option.some.injEq, Prod.mk.injEq] at h1
  obtain ⟨rfl, rfl⟩ := h1
  generalize hA : allTriangles geometries = A at *
  have hlen : triangles.length = A.length := by rw [← h2, List.length_map]
  have harea : ∀ B : List (Tri K), 0 ≤ (B.map (triangleArea sqrt)).sum := by
    intro B
    refine sum_nonneg' (fun x hx => ?_)
    obtain ⟨tri, -, rfl⟩ := List.mem_map.1 hx
    exact hs _
  have hmono : ∀ i j : Nat, i ≤ j → ((A.take (i + 1)).map (triangleArea sqrt)).sum ≤
      ((A.take (j + 1)).map (triangleArea sqrt)).sum := by
    intro i j hij
    obtain ⟨k, hk⟩ : ∃ k, j + 1 = (i + 1) + k := ⟨j - i, by omega⟩
    have e : A.take (j + 1) = A.take (i + 1) ++ (A.drop (i + 1)).take k := by rw [hk, List.take_add]
    rw [e, List.map_append, List.sum_append]
    linarith [harea (List.take k (List.drop (i + 1) A))]
  have hmon : ∀ (i j : Nat) (a b : K), i ≤ j → weights[i]? = some a → weights[j]? = some b → a ≤ b := by
    intro i j a b hij ha hb
    have hj : j < weights.length := (List.getElem?_eq_some_iff.1 hb).1
    rw [h5 i (by omega)] at ha
    rw [h5 j (by omega)] at hb
    rw [← Option.some.inj ha, ← Option.some.inj hb]
    exact div_le_div_of_nonneg_right (hmono i j hij) hpos.le
  have hlast : weights.getLast? = some 1 := by
    have hne : A ≠ [] := by intro e; rw [e] at hpos; simp at hpos
    have hl : 0 < A.length := List.length_pos_of_ne_nil hne
    rw [List.getLast?_eq_getElem?, h5 _ (by omega), h3, hlen, Nat.sub_add_cancel hl, List.take_length, div_self hpos.ne']
  refine ⟨hmon, ?_, hlast⟩
  intro a ha
  obtain ⟨i, hi, rfl⟩ := List.getElem_of_mem ha
  constructor
  · have := h5 i (by omega)
    rw [List.getElem?_eq_getElem hi] at this
    rw [Option.some.inj this]
    exact div_nonneg (harea _) hpos.le
  · rw [List.getLast?_eq_getElem?] at hlast
    exact hmon i (weights.length - 1) _ _ (by omega) (List.getElem?_eq_getElem hi) hlast

/-- the weighted draw returns the first triangle whose weight is at least r -/
theorem weightedLoop_spec (r : K) (weights : List K) (triangles : List (Vec3 K × Tri K))
    (hl : weights.length = triangles.length) (hr : ∃ w ∈ weights, r ≤ w) :
    ∃ (i : Nat) (a : K) (t : Vec3 K × Tri K), weightedLoop r weights triangles = some t ∧ triangles[i]? = some t ∧ weights[i]? = some a ∧ r ≤ a ∧
      ∀ (j : Nat) (b : K), j < i → weights[j]? = some b → b < r := by
  induction weights generalizing triangles with
  | nil => simp at hr
  | cons w ws ih =>
    cases triangles with
    | nil => simp at hl
    | cons t ts =>
      rw [weightedLoop]
      split_ifs with h
      · exact ⟨0, w, t, rfl, rfl, rfl, h, by omega⟩
      · obtain ⟨i, a, u, h1, h2, h3, h4, h5⟩ := ih ts (by simpa using hl) (by
          obtain ⟨v, hv, hrv⟩ := hr
          rcases List.mem_cons.1 hv with rfl | hv
          · exact absurd hrv h
          · exact ⟨v, hv, hrv⟩)
        refine ⟨i + 1, a, u, h1, by simpa using h2, by simpa using h3, h4, ?_⟩
        intro j b hj hb
        cases j with
        | zero => simp at hb; subst hb; exact not_le.1 h
        | succ j => exact h5 j b (by omega) (by simpa using hb)

/-- **C43** (draw).  After initialisation a weighted draw `r ≤ 1` gives the triangle whose cumulative interval contains `r`:
the area before it is less than `r` times the total, the area up to it at least `r` times the total. -/
theorem C43_draw (sqrt : K → K) (hs : ∀ x, 0 ≤ sqrt x) (geometries : List (Option (List (Tri K))))
    (weights : List K) (triangles : List (Vec3 K × Tri K)) (hg : ∀ g ∈ geometries, g.isSome)
    (h : initWeightedTriangles sqrt geometries = some (weights, triangles))
    (hpos : 0 < ((allTriangles geometries).map (triangleArea sqrt)).sum) (r : K) (hr0 : 0 < r) (hr1 : r ≤ 1) :
    ∃ (i : Nat) (t : Vec3 K × Tri K), weightedTriangle weights triangles r = some t ∧ triangles[i]? = some t ∧
      (allTriangles geometries)[i]? = some t.2 ∧
      (((allTriangles geometries).take i).map (triangleArea sqrt)).sum <
        r * ((allTriangles geometries).map (triangleArea sqrt)).sum ∧
      r * ((allTriangles geometries).map (triangleArea sqrt)).sum ≤
        (((allTriangles geometries).take (i + 1)).map (triangleArea sqrt)).sum := by
  obtain ⟨-, -, hlast⟩ := C43_monotone sqrt hs geometries weights triangles hg h hpos
  obtain ⟨w, t, h1, h2, h3, -, h5⟩ := C43_weights sqrt geometries hg
  rw [h] at h1
  simp only [Option.some.injEq, Prod.mk.injEq] at h1
  obtain ⟨rfl, rfl⟩ := h1
  obtain ⟨i, a, u, e1, e2, e3, e4, e5⟩ := weightedLoop_spec r weights triangles h3
    ⟨1, List.mem_of_getLast? hlast, hr1⟩
  have hi : i < triangles.length := (List.getElem?_eq_some_iff.1 e2).1
  refine ⟨i, u, by unfold weightedTriangle; rw [e1], e2, by rw [← h2, List.getElem?_map, e2]; rfl, ?_, ?_⟩
  · cases i with
    | zero => simpa using mul_pos hr0 hpos
    | succ i =>
      have := e5 i _ (by omega) (h5 i (by omega))
      rwa [div_lt_iff₀ hpos] at this
  · rw [h5 i hi] at e3
    rw [← Option.some.inj e3, le_div_iff₀ hpos] at e4
    exact e4

/-- **C43** (uniform draw).  The uniform draw gives the triangle of index `rand() % n`. -/
theorem C43_uniform (triangles : List (Vec3 K × Tri K)) (hne : triangles ≠ []) (draw : Nat) :
    ∃ (i : Nat) (t : Vec3 K × Tri K), i < triangles.length ∧ i = draw % triangles.length ∧ triangles[i]? = some t ∧
      randomTriangle triangles draw = some t := by
  have hl := List.length_pos_of_ne_nil hne
  have hi := Nat.mod_lt draw hl
  exact ⟨_, _, hi, rfl, List.getElem?_eq_getElem hi, by
    unfold randomTriangle; rw [if_neg (by omega), List.getElem?_eq_getElem hi]⟩

/-- **C43** (area).  Over the reals, `TriangleArea` is half the norm of the cross product of two sides. -/
theorem C43_area (tri : Tri ℝ) : triangleArea Real.sqrt tri =
    Real.sqrt (Vec3.normSq (Vec3.cross (tri.p2 - tri.p1) (tri.p3 - tri.p1))) / 2 := by
  have hn : ∀ v : Vec3 ℝ, 0 ≤ Vec3.normSq v := by
    intro v
    simp only [Vec3.normSq, Vec3.dot]
    nlinarith [mul_self_nonneg v.x, mul_self_nonneg v.y, mul_self_nonneg v.z]
  unfold triangleArea
  simp only
  have ha := Real.mul_self_sqrt (hn (tri.p1 - tri.p2))
  have hb := Real.mul_self_sqrt (hn (tri.p2 - tri.p3))
  have hc := Real.mul_self_sqrt (hn (tri.p3 - tri.p1))
  generalize Real.sqrt (Vec3.normSq (tri.p1 - tri.p2)) = a at *
  generalize Real.sqrt (Vec3.normSq (tri.p2 - tri.p3)) = b at *
  generalize Real.sqrt (Vec3.normSq (tri.p3 - tri.p1)) = c at *
  have key : 1 / 2 * (a + b + c) * (1 / 2 * (a + b + c) - a) * (1 / 2 * (a + b + c) - b) * (1 / 2 * (a + b + c) - c) =
      Vec3.normSq (Vec3.cross (tri.p2 - tri.p1) (tri.p3 - tri.p1)) / 2 ^ 2 := by
    have e : 1 / 2 * (a + b + c) * (1 / 2 * (a + b + c) - a) * (1 / 2 * (a + b + c) - b) * (1 / 2 * (a + b + c) - c) =
        (2 * ((a * a) * (b * b) + (b * b) * (c * c) + (c * c) * (a * a)) -
          ((a * a) * (a * a) + (b * b) * (b * b) + (c * c) * (c * c))) / 16 := by ring
    rw [e, ha, hb, hc]
    simp only [Vec3.normSq, Vec3.dot, Vec3.cross, Vec3.sub_x, Vec3.sub_y, Vec3.sub_z]
    ring
  rw [key, Real.sqrt_div (hn _), Real.sqrt_sq (by norm_num)]

/-- non-vacuity: areas 1 and 3 give weights 1/4 and 1 (exact square roots, tabulated) -/
example : cumulate (4 : ℚ) 0 [1, 3] = [1/4, 1] ∧
    weightedTriangle [1/4, (1 : ℚ)] [(0, ⟨0, 0, 0⟩), (0, ⟨0, 0, ⟨1, 1, 1⟩⟩)] (1/2) = some (0, ⟨0, 0, ⟨1, 1, 1⟩⟩) := by
  decide +kernel

/-- the right triangle with legs 3 and 4 has area 6 -/
example : triangleArea Real.sqrt ⟨⟨0, 0, 0⟩, ⟨3, 0, 0⟩, ⟨0, 4, 0⟩⟩ = 6 := by
  rw [C43_area]
  have : Vec3.normSq (Vec3.cross ((⟨3, 0, 0⟩ : Vec3 ℝ) - ⟨0, 0, 0⟩) (⟨0, 4, 0⟩ - ⟨0, 0, 0⟩)) = 12 ^ 2 := by
    simp only [Vec3.normSq, Vec3.dot, Vec3.cross, Vec3.sub_x, Vec3.sub_y, Vec3.sub_z]; norm_num
  rw [this, Real.sqrt_sq (by norm_num)]; norm_num

/-- the hypotheses of `C43_draw` hold for that triangle -/
example : (0 : ℝ) < ((allTriangles [some [(⟨⟨0, 0, 0⟩, ⟨3, 0, 0⟩, ⟨0, 4, 0⟩⟩ : Tri ℝ)]]).map (triangleArea Real.sqrt)).sum := by
  simp only [allTriangles, List.flatMap_cons, List.flatMap_nil, Option.getD_some, List.append_nil, List.map_cons, List.map_nil,
    List.sum_cons, List.sum_nil, add_zero]
  rw [C43_area]
  have : Vec3.normSq (Vec3.cross ((⟨3, 0, 0⟩ : Vec3 ℝ) - ⟨0, 0, 0⟩) (⟨0, 4, 0⟩ - ⟨0, 0, 0⟩)) = 12 ^ 2 := by
    simp only [Vec3.normSq, Vec3.dot, Vec3.cross, Vec3.sub_x, Vec3.sub_y, Vec3.sub_z]; norm_num
  rw [this, Real.sqrt_sq (by norm_num)]; norm_num

/-! ## C44 -/

/-- **C44.**  For draws in [0, 1] the point is a convex combination of the vertices, and every point of the
triangle is reached by some draws. -/
theorem C44_point (tri : Tri ℝ) :
    (∀ r1 r2 : ℝ, 0 ≤ r1 → r1 ≤ 1 → 0 ≤ r2 → r2 ≤ 1 → InTriangle tri (pointInTriangle Real.sqrt tri r1 r2)) ∧
    (∀ p, InTriangle tri p → ∃ r1 r2 : ℝ, 0 ≤ r1 ∧ r1 ≤ 1 ∧ 0 ≤ r2 ∧ r2 ≤ 1 ∧
      pointInTriangle Real.sqrt tri r1 r2 = p) := by
  constructor
  · intro r1 r2 h1 h2 h3 h4
    have hs := Real.sqrt_nonneg r1
    have hs1 : Real.sqrt r1 ≤ 1 := by rw [← Real.sqrt_one]; exact Real.sqrt_le_sqrt h2
    exact ⟨1 - Real.sqrt r1, Real.sqrt r1 * (1 - r2), Real.sqrt r1 * r2, by linarith,
      mul_nonneg hs (by linarith), mul_nonneg hs h3, by ring, rfl⟩
  · rintro p ⟨a, b, c, ha, hb, hc, hsum, rfl⟩
    refine ⟨(b + c) ^ 2, c / (b + c), by positivity, by nlinarith, by positivity, div_le_one_of_le₀ (by linarith) (by linarith), ?_⟩
    unfold pointInTriangle
    rw [Real.sqrt_sq (by linarith)]
    have e1 : 1 - (b + c) = a := by linarith
    rcases eq_or_lt_of_le (add_nonneg hb hc) with h0 | h0
    · have hb0 : b = 0 := by linarith
      have hc0 : c = 0 := by linarith
      subst hb0; subst hc0
      have ha1 : a = 1 := by linarith
      subst ha1
      simp
    · have e2 : (b + c) * (1 - c / (b + c)) = b := by field_simp; ring
      have e3 : (b + c) * (c / (b + c)) = c := by field_simp
      rw [e1, e2, e3]

/-- the vertices are such points -/
example (tri : Tri ℝ) : pointInTriangle Real.sqrt tri 0 0 = tri.p1 ∧ pointInTriangle Real.sqrt tri 1 0 = tri.p2 ∧
    pointInTriangle Real.sqrt tri 1 1 = tri.p3 := by
  refine ⟨?_, ?_, ?_⟩ <;> ext <;> simp [pointInTriangle]

/-! ## C45 -/

/-- the same environment, keeping a log of the validations -/
def ShootEnv.logged (env : ShootEnv K ω) : ShootEnv K (ω × List (Config K × Bool)) where
  uniform w c := (((env.uniform w.1 c).1, w.2), (env.uniform w.1 c).2)
  rand w := (((env.rand w.1).1, w.2), (env.rand w.1).2)
  randInt w := (((env.randInt w.1).1, w.2), (env.randInt w.1).2)
  validate w c := (((env.validate w.1 c).1, w.2 ++ [(c, (env.validate w.1 c).2.accepted)]), (env.validate w.1 c).2)
  sqrt := env.sqrt
  cos := env.cos
  sin := env.sin

/-- what a part of the search did to the log: at most `n` more validations, and if it says `found`, the last one accepted the
configuration it returns -/
def Logged (log : List (Config K × Bool)) (n : Nat) (r : (ω × List (Config K × Bool)) × Config K × Bool) : Prop :=
  ∃ more, r.1.2 = log ++ more ∧ more.length ≤ n ∧ (r.2.2 = true → more.getLast? = some (r.2.1, true)) ∧
    (r.2.2 = false → ∀ x, more.getLast? = some x → x.2 = false)

theorem randConfig_log (env : ShootEnv K ω) (s : Shooter K) (p : Vec3 K) (w : ω × List (Config K × Bool))
    (config : Config K) : (randConfigAtPos env.logged s p w config).1.2 = w.2 := by
  unfold randConfigAtPos sampleRotation
  cases s.eulerSo3 <;> rfl

theorem reachLoop_log (env : ShootEnv K ω) (s : Shooter K) (p d : Vec3 K) (n : Nat)
    (w : ω × List (Config K × Bool)) (config : Config K) :
    Logged w.2 (2 * n) (reachLoop env.logged s p d n w config) := by
  induction n generalizing w config with
  | zero => exact ⟨[], by simp [reachLoop], by simp, by simp [reachLoop], by simp⟩
  | succ n ih =>
    rw [reachLoop]
    simp only
    have hm : ∀ b, ∃ m : (ω × List (Config K × Bool)) × Config K, (if b = true then
        ((env.logged.validate (randConfigAtPos env.logged s p w config).1 (randConfigAtPos env.logged s p w config).2).1,
          (randConfigAtPos env.logged s p w config).2) else
        ((env.logged.rand (env.logged.validate (randConfigAtPos env.logged s p w config).1
          (randConfigAtPos env.logged s p w config).2).1).1,
          translate s.bounds (randConfigAtPos env.logged s p w config).2 (Vec3.smul (1 / 5 * (env.logged.rand
            (env.logged.validate (randConfigAtPos env.logged s p w config).1
              (randConfigAtPos env.logged s p w config).2).1).2) (-d)))) = m ∧ ∃ x, m.1.2 = w.2 ++ [x] := by
      intro b
      refine ⟨_, rfl, ?_⟩
      split_ifs
      · exact ⟨_, congrArg (· ++ [_]) (randConfig_log env s p w config)⟩
      · exact ⟨_, congrArg (· ++ [_]) (randConfig_log env s p w config)⟩
    obtain ⟨m, hm1, x, hm2⟩ := hm (env.logged.validate (randConfigAtPos env.logged s p w config).1
        (randConfigAtPos env.logged s p w config).2).2.accepted
    rw [hm1]
    have hv : (env.logged.validate m.1 m.2).1.2 = w.2 ++ [x] ++ [(m.2, (env.logged.validate m.1 m.2).2.accepted)] := by
      rw [← hm2]; rfl
    split_ifs with h1 h2
    · exact ⟨[x, (m.2, true)], by rw [hv, h1]; simp, by simp only [List.length_cons, List.length_nil]; omega, by simp, by simp⟩
    · rw [Bool.not_eq_true] at h1
      exact ⟨[x, (m.2, false)], by rw [hv, h1]; simp, by simp only [List.length_cons, List.length_nil]; omega, by simp, by simp⟩
    · rw [Bool.not_eq_true] at h1
      obtain ⟨more, e1, e2, e3, e4⟩ := ih (env.logged.validate m.1 m.2).1 m.2
      rw [hv, h1] at e1
      refine ⟨[x, (m.2, false)] ++ more, by rw [e1]; simp, by simp only [List.length_append, List.length_cons, List.length_nil]; omega,
        ?_, ?_⟩
      · intro hf
        rw [List.getLast?_append, e3 hf]; rfl
      · intro hf y hy
        rw [List.getLast?_append] at hy
        cases hmore : more.getLast? with
        | none => rw [hmore] at hy; simp at hy; rw [← hy]
        | some z => rw [hmore] at hy; simp at hy; subst hy; exact e4 hf z hmore

theorem displaceLoop_log (env : ShootEnv K ω) (s : Shooter K) (p d : Vec3 K) (n : Nat)
    (w : ω × List (Config K × Bool)) (config : Config K) :
    Logged w.2 (2 * n + 1) (displaceLoop env.logged s p n d w config) := by
  induction n generalizing w config d with
  | zero => exact ⟨[], by simp [displaceLoop], by simp, by simp [displaceLoop], by simp⟩
  | succ n ih =>
    rw [displaceLoop]
    simp only
    have hv : (env.logged.validate w config).1.2 = w.2 ++ [(config, (env.logged.validate w config).2.accepted)] := rfl
    have glue : ∀ (m : Nat) (r : (ω × List (Config K × Bool)) × Config K × Bool), (env.logged.validate w config).2.accepted = false →
        Logged (env.logged.validate w config).1.2 m r → m + 1 ≤ 2 * (n + 1) + 1 → Logged w.2 (2 * (n + 1) + 1) r := by
      rintro m r h1 ⟨more, e1, e2, e3, e4⟩ hm
      rw [hv, h1] at e1
      refine ⟨[(config, false)] ++ more, by rw [e1]; simp, by
        simp only [List.length_append, List.length_cons, List.length_nil]; omega, ?_, ?_⟩
      · intro hf
        rw [List.getLast?_append, e3 hf]; rfl
      · intro hf y hy
        rw [List.getLast?_append] at hy
        cases hmore : more.getLast? with
        | none => rw [hmore] at hy; simp at hy; rw [← hy]
        | some z => rw [hmore] at hy; simp at hy; subst hy; exact e4 hf z hmore
    split_ifs with h1 h2
    · exact ⟨[(config, true)], by rw [hv, h1], by simp, by simp, by simp⟩
    · exact glue _ _ (by simpa using h1) (reachLoop_log env s p d _ _ _) (by omega)
    · exact glue _ _ (by simpa using h1) (ih _ _ _) (by omega)

theorem shootOnce_log (env : ShootEnv K ω) (s : Shooter K) (w : ω × List (Config K × Bool)) (config : Config K)
    (r : (ω × List (Config K × Bool)) × Config K × Bool) (h : shootOnce env.logged s w config = some r) :
    Logged w.2 (2 * s.displacementLimit + 1) r := by
  unfold shootOnce at h
  simp only at h
  split at h
  · simp at h
  · simp only [Option.some.injEq] at h
    subst h
    have := displaceLoop_log env s
    refine (congrArg (fun l => Logged l _ _) ?_).mp (displaceLoop_log env s _ _ _ _ _)
    rw [randConfig_log]
    split_ifs <;> rfl

/-- the random draws cannot run out of triangles -/
theorem shootOnce_isSome (env : ShootEnv K ω) (s : Shooter K) (hne : s.triangles ≠ []) (w : ω) (config : Config K) :
    (shootOnce env s w config).isSome := by
  unfold shootOnce
  simp only
  have : ∀ d r, (randomTriangle s.triangles d).isSome ∧ (weightedTriangle s.weights s.triangles r).isSome := by
    intro d r
    refine ⟨?_, ?_⟩
    · obtain ⟨i, t, -, -, -, h⟩ := C43_uniform s.triangles hne d
      rw [h]; rfl
    · unfold weightedTriangle
      split
      · rfl
      · rw [List.getLast?_isSome]; exact hne
  split
  · rename_i hs
    split_ifs at hs
    · have := (this (env.randInt (env.rand w).1).2 0).1; simp only at hs; rw [hs] at this; simp at this
    · have := (this 0 (env.rand (env.rand w).1).2).2; simp only at hs; rw [hs] at this; simp at this
  · rfl

/-- **C45, partial**: with at least one triangle the shooter always returns, after at most
`shootLimit * (2 * displacementLimit + 1)` validations, and if it found a configuration (flag `found`) the last validation
accepted the configuration it returns.  Missing: when none is found a refused or never validated configuration is
returned, see `C45_violated`; without surfaces the behaviour is undefined, see `C45_no_surface_violated`. -/
theorem C45_shoot_partial (env : ShootEnv K ω) (s : Shooter K) (hne : s.triangles ≠ []) (w : ω) (config : Config K) :
    ∃ w' q found log, implShoot env.logged s (w, []) config = some ((w', log), q, found) ∧
      log.length ≤ s.shootLimit * (2 * s.displacementLimit + 1) ∧
      (found = true → log.getLast? = some (q, true)) ∧
      (found = false → ∀ x, log.getLast? = some x → x.2 = false) := by
  have key : ∀ n (w : ω × List (Config K × Bool)) config, ∃ r, shootLoop env.logged s n w config = some r ∧
      Logged w.2 (n * (2 * s.displacementLimit + 1)) r := by
    intro n
    induction n with
    | zero => intro w config; exact ⟨_, rfl, [], by simp, by simp, by simp, by simp⟩
    | succ n ih =>
      intro w config
      obtain ⟨r1, h1⟩ := Option.isSome_iff_exists.1 (shootOnce_isSome env.logged s hne w config)
      obtain ⟨more, e1, e2, e3, e4⟩ := shootOnce_log env s w config r1 h1
      obtain ⟨w1, c1, f1⟩ := r1
      have hmul : (n + 1) * (2 * s.displacementLimit + 1) = n * (2 * s.displacementLimit + 1) + (2 * s.displacementLimit + 1) :=
        Nat.succ_mul _ _
      rw [shootLoop, h1]
      simp only
      split_ifs with hf
      · subst hf
        exact ⟨_, rfl, more, e1, by omega, e3, e4⟩
      · obtain ⟨r2, h2, more2, g1, g2, g3, g4⟩ := ih w1 c1
        simp only at e1
        rw [e1] at g1
        refine ⟨r2, h2, more ++ more2, by rw [g1, List.append_assoc], by rw [List.length_append]; omega, ?_, ?_⟩
        · intro hf2; rw [List.getLast?_append, g3 hf2]; rfl
        · intro hf2 y hy
          rw [List.getLast?_append] at hy
          cases hmore : more2.getLast? with
          | none =>
            rw [hmore] at hy
            exact e4 (by simpa using hf) y (by simpa using hy)
          | some z => rw [hmore] at hy; simp at hy; subst hy; exact g4 hf2 z hmore
  unfold implShoot
  simp only
  obtain ⟨r, h1, more, e1, e2, e3, e4⟩ := key s.shootLimit (env.logged.uniform (w, []) config).1 (env.logged.uniform (w, []) config).2
  obtain ⟨⟨w', log⟩, q, f⟩ := r
  simp only [ShootEnv.logged, List.nil_append] at e1
  subst e1
  exact ⟨w', q, f, _, h1, e2, e3, e4⟩

/-- a triangle of the plane z = 0 and a validator that accepts configurations whose height is 1 -/
def demoShooter (limit : Nat) : Shooter ℚ where
  shootLimit := limit
  displacementLimit := 2
  weights := [1]
  triangles := [(⟨0, 0, 1⟩, ⟨⟨0, 0, 0⟩, ⟨1, 0, 0⟩, ⟨0, 1, 0⟩⟩)]
  ratioWeighted := 3 / 10
  eulerSo3 := none
  bounds := ⟨some (0, 1), some (0, 1), some (0, 1)⟩

def demoEnv (accept : Config ℚ → Bool) : ShootEnv ℚ Nat where
  uniform w c := (w + 1, { c with rest := [1] })
  rand w := (w + 1, 1)
  randInt w := (w + 1, w)
  validate w c := (w, ⟨accept c, decide (c.trans.z = 0), ⟨0, 0, 1⟩, 2⟩)
  sqrt x := x
  cos _ := 1
  sin _ := 0

/-- non-vacuity: the trunk collides at the sampled point and is moved out along the normal -/
example : ((implShoot (demoEnv (fun c => decide (c.trans.z = 1))).logged (demoShooter 3) (0, []) ⟨0, ⟨0, 0, 0, 1⟩, []⟩).map
    (fun r => (r.2.1.trans, r.2.2, r.1.2.length))) = some (⟨0, 1, 1⟩, true, 2) := by decide +kernel

/-- its bounds are not empty (hypothesis of `C42_shoot`) -/
example : (demoShooter 3).bounds.Ok := by
  refine ⟨?_, ?_, ?_⟩ <;> (intro lo hi h; simp only [demoShooter, Option.some.injEq, Prod.mk.injEq] at h; rw [← h.1, ← h.2]; norm_num)

/-- **C45 is violated** when the limits are exhausted: a configuration that the validator refused is returned. -/
theorem C45_violated : ((implShoot (demoEnv (fun _ => false)).logged (demoShooter 3) (0, []) ⟨0, ⟨0, 0, 0, 1⟩, []⟩).map
    (fun r => (r.2.2, decide (r.1.2.all (fun x => !x.2)), r.1.2.length))) = some (false, true, 12) := by decide +kernel

/-- the first validation of the displacements is that of the configuration they start from -/
theorem displaceLoop_first (env : ShootEnv K ω) (s : Shooter K) (p d : Vec3 K) (n : Nat)
    (w : ω × List (Config K × Bool)) (config : Config K) (hn : 0 < n) :
    ∃ b more, (displaceLoop env.logged s p n d w config).1.2 = w.2 ++ (config, b) :: more := by
  obtain ⟨m, rfl⟩ := Nat.exists_eq_succ_of_ne_zero (by omega : n ≠ 0)
  rw [displaceLoop]
  simp only
  have hv : (env.logged.validate w config).1.2 = w.2 ++ [(config, (env.logged.validate w config).2.accepted)] := rfl
  split_ifs
  · exact ⟨_, [], hv⟩
  · obtain ⟨more, e, -⟩ := reachLoop_log env s p d (m + 1) (env.logged.validate w config).1 config
    exact ⟨(env.logged.validate w config).2.accepted, more, by rw [e, hv]; simp⟩
  · obtain ⟨more, e, -⟩ := displaceLoop_log env s p (normalize env.logged.sqrt (env.logged.validate w config).2.normal) m (env.logged.validate w config).1
      (translate s.bounds config (Vec3.smul (|(env.logged.validate w config).2.depth| + 3 / 100) (normalize env.logged.sqrt (env.logged.validate w config).2.normal)))
    exact ⟨(env.logged.validate w config).2.accepted, more, by rw [e, hv]; simp⟩

/-- **C43** (shot).  The first configuration that a shot validates has its root at a random point of a triangle (within the translation bounds); the triangle is drawn
uniformly if the first random number is above the weighted ratio, and according to the areas otherwise. -/
theorem C43_shot (env : ShootEnv K ω) (s : Shooter K) (hne : s.triangles ≠ []) (hd : 0 < s.displacementLimit) (w : ω) (config : Config K) :
    ∃ (t : Vec3 K × Tri K) (r1 r2 : K) (w' : ω) (q c : Config K) (found b : Bool) (rest : List (Config K × Bool)),
      (s.ratioWeighted < (env.rand w).2 → s.triangles[(env.randInt (env.rand w).1).2 % s.triangles.length]? = some t) ∧
      ((env.rand w).2 ≤ s.ratioWeighted → weightedTriangle s.weights s.triangles (env.rand (env.rand w).1).2 = some t) ∧
      shootOnce env.logged s (w, []) config = some ((w', (c, b) :: rest), q, found) ∧
      let p := pointInTriangle env.sqrt t.2 r1 r2
      c.trans = ⟨clamp s.bounds.x p.x, clamp s.bounds.y p.y, clamp s.bounds.z p.z⟩ := by
  have hsome := shootOnce_isSome env.logged s hne (w, []) config
  unfold shootOnce at hsome ⊢
  simp only at hsome ⊢
  split at hsome
  · simp at hsome
  rename_i n tri hs
  set W := (if (env.logged.rand (w, [])).2 > s.ratioWeighted then
      ((env.logged.randInt (env.logged.rand (w, [])).1).1, randomTriangle s.triangles (env.logged.randInt (env.logged.rand (w, [])).1).2)
    else ((env.logged.rand (env.logged.rand (w, [])).1).1, weightedTriangle s.weights s.triangles (env.logged.rand (env.logged.rand (w, [])).1).2)) with hW
  have hlog : W.1.2 = [] := by
    rw [hW]; split_ifs <;> rfl
  set r1 := env.logged.rand W.1
  set r2 := env.logged.rand r1.1
  have hlog2 : r2.1.2 = [] := hlog
  set p := pointInTriangle env.logged.sqrt tri r1.2 r2.2
  obtain ⟨b, more, hb⟩ := displaceLoop_first env s p n s.displacementLimit (randConfigAtPos env.logged s p r2.1 config).1
    (randConfigAtPos env.logged s p r2.1 config).2 hd
  rw [randConfig_log, hlog2, List.nil_append] at hb
  obtain ⟨⟨⟨w', log⟩, q, found⟩, hD⟩ : ∃ D, D = displaceLoop env.logged s p s.displacementLimit n (randConfigAtPos env.logged s p r2.1 config).1
    (randConfigAtPos env.logged s p r2.1 config).2 := ⟨_, rfl⟩
  rw [← hD] at hb ⊢
  refine ⟨(n, tri), r1.2, r2.2, w', q, (randConfigAtPos env.logged s p r2.1 config).2, found, b, more, ?_, ?_, ?_, ?_⟩
  · intro h
    rw [hW, if_pos (by exact h)] at hs
    obtain ⟨i, t, -, hi, h1, h2⟩ := C43_uniform s.triangles hne (env.randInt (env.rand w).1).2
    rw [← hi, h1, ← h2]
    exact hs
  · intro h
    rw [hW, if_neg (by exact not_lt.2 h)] at hs
    exact hs
  · simp only at hb
    rw [hb]
  · simp only
    unfold randConfigAtPos sampleRotation
    cases s.eulerSo3 <;> rfl

/-- the demonstration shooter draws 1: above its ratio, the triangle is drawn uniformly -/
example : (demoShooter 3).triangles ≠ [] ∧ 0 < (demoShooter 3).displacementLimit ∧
    (demoShooter 3).ratioWeighted < ((demoEnv fun _ => true).rand 0).2 := by decide +kernel

/-- **C45 is violated** for a shooter without surfaces: the first shot is undefined (an index modulo 0, or -1). -/
theorem C45_no_surface_violated (env : ShootEnv K ω) (s : Shooter K) (ht : s.triangles = []) (hl : 0 < s.shootLimit)
    (w : ω) (config : Config K) : implShoot env s w config = none := by
  have : ∀ w config, shootOnce env s w config = none := by
    intro w config
    unfold shootOnce
    have hw : ∀ r, weightedTriangle s.weights [] r = none := by
      intro r; unfold weightedTriangle
      cases s.weights <;> rfl
    simp only [ht, randomTriangle, hw]
    split
    · rfl
    · rename_i hs
      split_ifs at hs <;> simp at hs
  unfold implShoot
  obtain ⟨n, hn⟩ : ∃ n, s.shootLimit = n + 1 := ⟨s.shootLimit - 1, by omega⟩
  rw [hn]
  simp only [shootLoop, this]

/-! ## C81: orientation -/

/-- **C81** (angles).  For draws in [0, 1] the Euler angles are within the limits given to `BoundSO3`, and each angle of the
limits is reached by some draw. -/
theorem C81_angles (e : Euler K) (hz : e.z.1 ≤ e.z.2) (hy : e.y.1 ≤ e.y.2) (hx : e.x.1 ≤ e.x.2) :
    (∀ r : Vec3 K, 0 ≤ r.x ∧ r.x ≤ 1 → 0 ≤ r.y ∧ r.y ≤ 1 → 0 ≤ r.z ∧ r.z ≤ 1 →
      let a := eulerAngles e r
      (e.z.1 ≤ a.x ∧ a.x ≤ e.z.2) ∧ (e.y.1 ≤ a.y ∧ a.y ≤ e.y.2) ∧ (e.x.1 ≤ a.z ∧ a.z ≤ e.x.2)) ∧
    (∀ a : Vec3 K, e.z.1 ≤ a.x ∧ a.x ≤ e.z.2 → e.y.1 ≤ a.y ∧ a.y ≤ e.y.2 → e.x.1 ≤ a.z ∧ a.z ≤ e.x.2 →
      ∃ r : Vec3 K, (0 ≤ r.x ∧ r.x ≤ 1) ∧ (0 ≤ r.y ∧ r.y ≤ 1) ∧ (0 ≤ r.z ∧ r.z ≤ 1) ∧ eulerAngles e r = a) := by
  constructor
  · intro r h1 h2 h3
    have key : ∀ lo hi t : K, lo ≤ hi → 0 ≤ t ∧ t ≤ 1 → lo ≤ lo + (hi - lo) * t ∧ lo + (hi - lo) * t ≤ hi := by
      intro lo hi t hl ht
      have := mul_nonneg (sub_nonneg.2 hl) ht.1
      have := mul_nonneg (sub_nonneg.2 hl) (sub_nonneg.2 ht.2)
      constructor <;> nlinarith
    exact ⟨key _ _ _ hz h1, key _ _ _ hy h2, key _ _ _ hx h3⟩
  · intro a h1 h2 h3
    have key : ∀ lo hi x : K, lo ≤ x ∧ x ≤ hi → ∃ t, (0 ≤ t ∧ t ≤ 1) ∧ lo + (hi - lo) * t = x := by
      intro lo hi x hx
      rcases eq_or_lt_of_le (hx.1.trans hx.2) with h | h
      · exact ⟨0, ⟨le_refl _, zero_le_one⟩, by rw [mul_zero, add_zero]; exact le_antisymm hx.1 (h ▸ hx.2)⟩
      · have hp : 0 < hi - lo := sub_pos.2 h
        refine ⟨(x - lo) / (hi - lo), ⟨div_nonneg (sub_nonneg.2 hx.1) hp.le, (div_le_one hp).2 (by linarith [hx.2])⟩, ?_⟩
        rw [mul_div_cancel₀ _ hp.ne']; ring
    obtain ⟨t1, g1, e1⟩ := key _ _ _ h1
    obtain ⟨t2, g2, e2⟩ := key _ _ _ h2
    obtain ⟨t3, g3, e3⟩ := key _ _ _ h3
    refine ⟨⟨t1, t2, t3⟩, g1, g2, g3, ?_⟩
    simp only [eulerAngles, e1, e2, e3]

/-- **C81** (unit quaternion).  With functions satisfying cos² + sin² = 1 the root rotation written is a unit
quaternion, and nothing else of the configuration changes. -/
theorem C81_unit (env : ShootEnv K ω) (ht : ∀ x, env.cos x * env.cos x + env.sin x * env.sin x = 1) (e : Euler K) (w : ω)
    (config : Config K) : let c := (sampleRotation env (some e) w config).2
    c.rot.x * c.rot.x + c.rot.y * c.rot.y + c.rot.z * c.rot.z + c.rot.w * c.rot.w = 1 ∧
    c.trans = config.trans ∧ c.rest = config.rest := by
  refine ⟨?_, rfl, rfl⟩
  simp only [sampleRotation, eulerQuat]
  generalize (eulerAngles e ⟨(env.rand w).2, (env.rand (env.rand w).1).2, (env.rand (env.rand (env.rand w).1).1).2⟩) = a
  have h1 := ht (a.x / 2)
  have h2 := ht (a.y / 2)
  have h3 := ht (a.z / 2)
  simp only [Quat.mul, angleAxis]
  generalize env.cos (a.x / 2) = c1 at *
  generalize env.sin (a.x / 2) = s1 at *
  generalize env.cos (a.y / 2) = c2 at *
  generalize env.sin (a.y / 2) = s2 at *
  generalize env.cos (a.z / 2) = c3 at *
  generalize env.sin (a.z / 2) = s3 at *
  have : (c1 * c1 + s1 * s1) * (c2 * c2 + s2 * s2) * (c3 * c3 + s3 * s3) = 1 := by rw [h1, h2, h3]; ring
  linear_combination this

/-- the real functions -/
example (x : ℝ) : Real.cos x * Real.cos x + Real.sin x * Real.sin x = 1 := by
  have := Real.cos_sq_add_sin_sq x; nlinarith

/-! ## C82: surfaces -/

section surfaces
variable {N O : Type _} [LinearOrder N]

theorem usedLoop_mem (affordances : AMap N (List O)) (types added : List N) (o : O) :
    o ∈ usedSurfacesLoop affordances types added ↔
      ∃ t ∈ types, t ∉ added ∧ ∃ objs, AMap.find? affordances t = some objs ∧ o ∈ objs := by
  induction types generalizing added with
  | nil => simp [usedSurfacesLoop]
  | cons t ts ih =>
    rw [usedSurfacesLoop]
    split_ifs with h
    · rw [ih]
      constructor
      · rintro ⟨u, hu, h1⟩; exact ⟨u, List.mem_cons_of_mem _ hu, h1⟩
      · rintro ⟨u, hu, h1, h2⟩
        rcases List.mem_cons.1 hu with rfl | hu
        · exact absurd h h1
        · exact ⟨u, hu, h1, h2⟩
    · rw [List.mem_append, ih]
      constructor
      · rintro (h1 | ⟨u, hu, h1, h2⟩)
        · cases hf : AMap.find? affordances t with
          | none => rw [hf] at h1; simp at h1
          | some objs => rw [hf] at h1; exact ⟨t, List.mem_cons_self, h, objs, hf, h1⟩
        · exact ⟨u, List.mem_cons_of_mem _ hu, fun hc => h1 (List.mem_cons_of_mem _ hc), h2⟩
      · rintro ⟨u, hu, h1, objs, h2, h3⟩
        by_cases e : u = t
        · subst e; left; rw [h2]; exact h3
        · right
          rcases List.mem_cons.1 hu with rfl | hu
          · exact absurd rfl e
          · refine ⟨u, hu, ?_, objs, h2, h3⟩
            intro hc
            rcases List.mem_cons.1 hc with rfl | hc
            · exact e rfl
            · exact h1 hc

/-- **C82.**  The surfaces used for shooting are exactly the objects of the affordance types named in some affordance filter. -/
theorem C82_surfaces (affordances : AMap N (List O)) (affFilters : AMap N (List N)) (o : O) :
    o ∈ getUsedSurfaces affordances affFilters ↔
      ∃ rom types, (rom, types) ∈ affFilters ∧ ∃ t ∈ types, ∃ objs, AMap.find? affordances t = some objs ∧ o ∈ objs := by
  unfold getUsedSurfaces
  rw [usedLoop_mem]
  constructor
  · rintro ⟨t, ht, -, h⟩
    obtain ⟨⟨rom, types⟩, hm, ht⟩ := List.mem_flatMap.1 ht
    exact ⟨rom, types, hm, t, ht, h⟩
  · rintro ⟨rom, types, hm, t, ht, h⟩
    exact ⟨t, List.mem_flatMap.2 ⟨_, hm, ht⟩, by simp, h⟩

theorem usedLoop_nodup (affordances : AMap N (List O)) (types added : List N)
    (hn : ∀ t objs, AMap.find? affordances t = some objs → objs.Nodup)
    (hd : ∀ t u objs objs', t ≠ u → AMap.find? affordances t = some objs → AMap.find? affordances u = some objs' →
      ∀ o ∈ objs, o ∉ objs') : (usedSurfacesLoop affordances types added).Nodup := by
  induction types generalizing added with
  | nil => exact List.nodup_nil
  | cons t ts ih =>
    rw [usedSurfacesLoop]
    split_ifs with h
    · exact ih added
    · refine List.nodup_append.2 ⟨?_, ih _, ?_⟩
      · cases hf : AMap.find? affordances t with
        | none => exact List.nodup_nil
        | some objs => exact hn t objs hf
      · intro o ho o' ho' e
        subst e
        rw [usedLoop_mem] at ho'
        obtain ⟨u, -, h1, objs', h2, h3⟩ := ho'
        cases hf : AMap.find? affordances t with
        | none => rw [hf] at ho; simp at ho
        | some objs =>
          rw [hf] at ho
          exact hd t u objs objs' (fun e => h1 (by simp [e])) hf h2 o ho h3

/-- **C82** (no bias).  If the objects of the affordance types are distinct, no surface is counted twice, even when several
ROMs share an affordance type. -/
theorem C82_once (affordances : AMap N (List O)) (affFilters : AMap N (List N))
    (hn : ∀ t objs, AMap.find? affordances t = some objs → objs.Nodup)
    (hd : ∀ t u objs objs', t ≠ u → AMap.find? affordances t = some objs → AMap.find? affordances u = some objs' →
      ∀ o ∈ objs, o ∉ objs') : (getUsedSurfaces affordances affFilters).Nodup :=
  usedLoop_nodup affordances _ _ hn hd

/-- **C82** (creation).  A shooter is created iff every used surface has a triangle mesh (otherwise an exception is thrown); it has the limits and the bounds it was
given, no bounds of the rotations, the triangles of exactly the used surfaces, in their order, and as many weights. -/
theorem C82_create {K : Type _} [Field K] [LinearOrder K] [IsStrictOrderedRing K] (sqrt : K → K) (bounds : Bounds K) (mesh : O → Option (List (Tri K)))
    (affordances : AMap N (List O)) (affFilters : AMap N (List N)) (shootLimit displacementLimit : Nat)
    (hm : ∀ o ∈ getUsedSurfaces affordances affFilters, (mesh o).isSome) :
    ∃ s, Shooter.create sqrt bounds mesh affordances affFilters shootLimit displacementLimit = some s ∧
      s.shootLimit = shootLimit ∧ s.displacementLimit = displacementLimit ∧ s.bounds = bounds ∧ s.eulerSo3 = none ∧ s.ratioWeighted = 3 / 10 ∧
      s.triangles.map Prod.snd = (getUsedSurfaces affordances affFilters).flatMap (fun o => (mesh o).getD []) ∧
      s.weights.length = s.triangles.length := by
  obtain ⟨w, t, h1, h2, h3, -⟩ := C43_weights sqrt ((getUsedSurfaces affordances affFilters).map mesh) (by simpa using hm)
  refine ⟨⟨shootLimit, displacementLimit, w, t, 3 / 10, none, bounds⟩, ?_, rfl, rfl, rfl, rfl, rfl, ?_, h3⟩
  · unfold Shooter.create; rw [h1]; rfl
  · simp only [h2, allTriangles]
    rw [List.flatMap_map]

/-- two ROMs share type 1 -/
example : getUsedSurfaces [(1, [10, 11]), (2, [20]), (3, [30])] [(100, [1, 2]), (101, [1])] = [10, 11, 20] := by decide

end surfaces
end Shoot
end Rbprm
