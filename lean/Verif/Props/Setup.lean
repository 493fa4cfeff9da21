import Verif.Model.Setup
import Verif.Props.Validation
import Verif.Props.Node
import Verif.Props.Planner
set_option linter.unusedSectionVars false
/-! # C147 (parameters), C148 (given roadmap), C149 (contact surfaces of a node) -/
namespace Rbprm
namespace Setup
open Validation

/-! ## C147 -/

/-- the four objects that read the parameters of the feet -/
inductive Reader where
  | planner | plannerOnRoadmap | oriented | shortcut

/-- the settings of an object built on a problem -/
noncomputable def Reader.settings : Reader → Params → Settings
  | .planner => plannerSettings
  | .plannerOnRoadmap => plannerOnRoadmapSettings
  | .oriented => orientedSettings
  | .shortcut => shortcutSettings

/-- the four points at half the lengths `lx`, `ly` of a foot from its centre, along the horizontal unit vector `u` and across -/
def FootCorner (center u : Vec3 ℝ) (lx ly : ℝ) (p : Vec3 ℝ) : Prop :=
  ∃ a b : ℝ, (a = 1 / 2 ∨ a = -(1 / 2)) ∧ (b = 1 / 2 ∨ b = -(1 / 2)) ∧ p = center + Vec3.smul (a * lx) u + Vec3.smul (b * ly) ⟨-u.y, u.x, 0⟩

theorem settings_eq (rd : Reader) (p : Params) : (rd.settings p).sizeX = p.sizeFootX.getD 0 / 2 ∧ (rd.settings p).sizeY = p.sizeFootY.getD 0 / 2 ∧
    ((rd.settings p).rectangular = true ↔ 0 < p.sizeFootX.getD 0 ∧ 0 < p.sizeFootY.getD 0) ∧ (rd.settings p).mu = p.friction.getD (1 / 2) ∧
    (rd.settings p).tryJump = p.tryJump.getD false := by
  have h : ∀ x : ℝ, 0 < x / 2 ↔ 0 < x := fun x => by constructor <;> intro h <;> linarith
  cases rd <;> refine ⟨rfl, rfl, ?_, rfl, rfl⟩ <;>
    simp only [Reader.settings, plannerSettings, plannerOnRoadmapSettings, orientedSettings, shortcutSettings, getSizeFootX, getSizeFootY, gt_iff_lt, h] <;>
    split_ifs with hc <;> simp [hc]

theorem getElem?_flatMap {α β : Type _} (f : α → List β) (n : ℕ) (hf : ∀ a, (f a).length = n) (l : List α) (i k : ℕ) (hk : k < n) :
    (l.flatMap f)[n * i + k]? = l[i]?.bind fun a => (f a)[k]? := by
  induction l generalizing i with
  | nil => simp
  | cons a l ih =>
    rw [List.flatMap_cons]
    cases i with
    | zero => rw [List.getElem?_append_left (by rw [hf]; omega)]; simp
    | succ i =>
      rw [List.getElem?_append_right (by rw [hf]; nlinarith), hf, show n * (i + 1) + k - n = n * i + k by rw [Nat.mul_succ]; omega, ih]; simp

theorem corner_lt (pn center head : Vec3 ℝ) (sx sy : ℝ) (i : ℕ) : ∃ k, k < 4 ∧ Node.corner pn center head sx sy k = Node.corner pn center head sx sy i := by
  by_cases h : i < 2
  · exact ⟨i, by omega, rfl⟩
  · refine ⟨2 + i % 2, by omega, ?_⟩
    unfold Node.corner
    dsimp only
    rw [if_neg h, if_neg (by omega : ¬ 2 + i % 2 < 2), show (2 + i % 2) % 2 = i % 2 by omega]

/-- C147 (part): planner and optimisers read the parameters alike.  On horizontal surfaces the contacts of a node built by any of
them are, for each ROM in contact, the four corners of a rectangle whose sides are the lengths the user gave, centred in the contact
point and along the direction of the root, if both lengths are positive, and the contact point alone otherwise (the default); the
generators of the forces have the slope given as friction (0.5 if not set). -/
theorem C147_feet_partial (rd : Reader) (p : Params) (roms : List Node.RomContact) (hflat : ∀ r ∈ roms, r.pn = ⟨0, 0, 1⟩) (head c : Vec3 ℝ)
    (hh : head.x ≠ 0 ∨ head.y ≠ 0) (mass : ℝ) :
    ∃ node pts, fill (rd.settings p) roms head c mass = some node ∧ node.numberOfContacts = pts.length ∧ node.G.cols = 4 * pts.length ∧
      (∀ k q, pts[k]? = some q → ∀ j, j < 4 → ∃ f : Vec3 ℝ, Node.column6 node.G (4 * k + j) = (f, Vec3.cross q f) ∧
        f.x ^ 2 + f.y ^ 2 = (p.friction.getD (1 / 2)) ^ 2 * f.z ^ 2 ∧ f.normSq = 1 ∧ 0 < f.z) ∧
      (0 < p.sizeFootX.getD 0 ∧ 0 < p.sizeFootY.getD 0 → ∃ u : Vec3 ℝ, u.normSq = 1 ∧ u.z = 0 ∧ (∃ s, 0 < s ∧ head.x = s * u.x ∧ head.y = s * u.y) ∧
        pts.length = 4 * roms.length ∧ ∀ i r, roms[i]? = some r → ∀ q, (∃ k, k < 4 ∧ pts[4 * i + k]? = some q) ↔ FootCorner r.contactPoint u (p.sizeFootX.getD 0) (p.sizeFootY.getD 0) q) ∧
      (¬ (0 < p.sizeFootX.getD 0 ∧ 0 < p.sizeFootY.getD 0) → pts = roms.map fun r => r.contactPoint) := by
  obtain ⟨h1, h2, h3, h4, -⟩ := settings_eq rd p
  generalize rd.settings p = s at *
  obtain ⟨node, hn, hn1, hn2, hn3, hn4, hn5⟩ := Node.C65_blocks roms head c s.rectangular s.sizeX s.sizeY mass s.mu
  refine ⟨node, (Node.contactPoints roms head s.rectangular s.sizeX s.sizeY).map Prod.fst, hn, by rw [List.length_map, hn1], by rw [List.length_map, hn4, hn1], ?_, ?_, ?_⟩
  · intro k q hq j hj
    rw [List.getElem?_map, Option.map_eq_some_iff] at hq
    obtain ⟨⟨q', pn⟩, hq, rfl⟩ := hq
    have hpn : pn = ⟨0, 0, 1⟩ := by
      have := List.mem_of_getElem? hq
      unfold Node.contactPoints at this
      obtain ⟨r, hr, hm⟩ := List.mem_flatMap.1 this
      rw [← hflat r hr]
      split_ifs at hm
      · obtain ⟨_, _, e⟩ := List.mem_map.1 hm
        exact (congrArg Prod.snd e).symm
      · exact congrArg Prod.snd (List.mem_singleton.1 hm)
    subst hpn
    refine ⟨_, hn5 k q' _ hq j hj, ?_⟩
    obtain ⟨g1, -⟩ := Node.C113_flat_partial head c hh s.mu 0 0
    obtain ⟨g2, -⟩ := Node.C113_partial ⟨0, 0, 1⟩ head c (by simp [Vec3.normSq, Vec3.dot]) s.mu 0 0
    obtain ⟨g3, g4⟩ := g2 j
    have g1 := g1 j
    rw [← h4]
    refine ⟨?_, g3, by simpa [Vec3.dot] using g4.1⟩
    simp only [Vec3.normSq, Vec3.dot, Vec3.sub_x, Vec3.sub_y, Vec3.sub_z, Vec3.smul_x, Vec3.smul_y, Vec3.smul_z] at g1
    linarith
  · intro hs
    have hr := h3.2 hs
    obtain ⟨u, hu, hu1, -⟩ := (Node.C113_flat_partial head c hh s.mu s.sizeX s.sizeY).2
    have hpos : 0 < (⟨head.x, head.y, 0⟩ : Vec3 ℝ).normSq := by
      simp only [Vec3.normSq, Vec3.dot]
      rcases hh with h | h
      · nlinarith [mul_self_pos.2 h, mul_self_nonneg head.y]
      · nlinarith [mul_self_pos.2 h, mul_self_nonneg head.x]
    have hsq := Real.sqrt_pos.2 hpos
    have hu2 : u = Vec3.smul (1 / Real.sqrt (⟨head.x, head.y, 0⟩ : Vec3 ℝ).normSq) ⟨head.x, head.y, 0⟩ := by
      rw [hu]; unfold Node.normalize; rw [if_pos hpos]
    refine ⟨u, hu1, by rw [hu2]; simp, ⟨Real.sqrt (⟨head.x, head.y, 0⟩ : Vec3 ℝ).normSq, hsq, ?_, ?_⟩, ?_, ?_⟩
    · rw [hu2]; simp only [Vec3.smul_x]; rw [← mul_assoc, mul_one_div_cancel (ne_of_gt hsq), one_mul]
    · rw [hu2]; simp only [Vec3.smul_y]; rw [← mul_assoc, mul_one_div_cancel (ne_of_gt hsq), one_mul]
    · rw [List.length_map, Node.length_contactPoints, if_pos hr]
    · intro i r hi q
      have hpn := hflat r (List.mem_of_getElem? hi)
      have hidx : ∀ k, k < 4 → ((Node.contactPoints roms head s.rectangular s.sizeX s.sizeY).map Prod.fst)[4 * i + k]? = some (Node.corner r.pn r.contactPoint head s.sizeX s.sizeY k) := by
        intro k hk
        unfold Node.contactPoints
        rw [List.getElem?_map, getElem?_flatMap _ 4 (by intro a; rw [if_pos hr]; simp) _ _ _ hk, hi]
        simp [hr, hk]
      obtain ⟨u', hu', -, hcor⟩ := (Node.C113_flat_partial head r.contactPoint hh s.mu s.sizeX s.sizeY).2
      rw [← hu] at hu'
      subst hu'
      rw [← hpn] at hcor
      have e1 : (∃ k, k < 4 ∧ ((Node.contactPoints roms head s.rectangular s.sizeX s.sizeY).map Prod.fst)[4 * i + k]? = some q) ↔ ∃ k, q = Node.corner r.pn r.contactPoint head s.sizeX s.sizeY k := by
        constructor
        · rintro ⟨k, hk, e⟩
          rw [hidx k hk] at e
          exact ⟨k, (Option.some.inj e).symm⟩
        · rintro ⟨k, rfl⟩
          obtain ⟨k', hk', e⟩ := corner_lt r.pn r.contactPoint head s.sizeX s.sizeY k
          exact ⟨k', hk', by rw [hidx k' hk', e]⟩
      rw [e1, hcor, h1, h2]
      unfold FootCorner
      constructor
      · rintro ⟨a, b, ha, hb, rfl⟩
        rcases ha with rfl | rfl <;> rcases hb with rfl | rfl
        · exact ⟨1 / 2, 1 / 2, Or.inl rfl, Or.inl rfl, by ext <;> simp only [Vec3.add_x, Vec3.add_y, Vec3.add_z, Vec3.smul_x, Vec3.smul_y, Vec3.smul_z] <;> ring⟩
        · exact ⟨1 / 2, -(1 / 2), Or.inl rfl, Or.inr rfl, by ext <;> simp only [Vec3.add_x, Vec3.add_y, Vec3.add_z, Vec3.smul_x, Vec3.smul_y, Vec3.smul_z] <;> ring⟩
        · exact ⟨-(1 / 2), 1 / 2, Or.inr rfl, Or.inl rfl, by ext <;> simp only [Vec3.add_x, Vec3.add_y, Vec3.add_z, Vec3.smul_x, Vec3.smul_y, Vec3.smul_z] <;> ring⟩
        · exact ⟨-(1 / 2), -(1 / 2), Or.inr rfl, Or.inr rfl, by ext <;> simp only [Vec3.add_x, Vec3.add_y, Vec3.add_z, Vec3.smul_x, Vec3.smul_y, Vec3.smul_z] <;> ring⟩
      · rintro ⟨a, b, ha, hb, rfl⟩
        refine ⟨a * p.sizeFootX.getD 0, b * p.sizeFootY.getD 0, ?_, ?_, rfl⟩
        · rcases ha with rfl | rfl
          · left; ring
          · right; ring
        · rcases hb with rfl | rfl
          · left; ring
          · right; ring
  · intro hs
    have hr : s.rectangular = false := by
      cases h : s.rectangular with
      | false => rfl
      | true => exact absurd (h3.1 h) hs
    unfold Node.contactPoints
    rw [hr]
    rw [List.map_flatMap]
    induction roms with
    | nil => rfl
    | cons r roms ih => rw [List.flatMap_cons]; simp at ih ⊢; exact List.flatMap_pure_eq_map _ _

example : ∃ node, fill (Reader.oriented.settings ⟨some (1 / 5), some (1 / 10), none, none, 1⟩) [⟨true, ⟨0, 0, 1⟩, ⟨1, 0, 0⟩⟩] ⟨1, 0, 0⟩ ⟨0, 0, 1⟩ 50 = some node ∧
    node.numberOfContacts = 4 := by
  obtain ⟨node, pts, h1, h2, -, -, h3, -⟩ := C147_feet_partial .oriented ⟨some (1 / 5), some (1 / 10), none, none, 1⟩ [⟨true, ⟨0, 0, 1⟩, ⟨1, 0, 0⟩⟩] (by simp) ⟨1, 0, 0⟩ ⟨0, 0, 1⟩ (by simp) 50
  obtain ⟨u, -, -, -, h4, -⟩ := h3 (by norm_num)
  exact ⟨node, h1, by rw [h2, h4]; rfl⟩

/-- C147: whether jumps are tried is the user's choice, `false` by default; the bound on the velocity of a jump is that of the problem. -/
theorem C147_jump_partial (rd : Reader) (p : Params) : (rd.settings p).tryJump = p.tryJump.getD false ∧ (jumpSettings p).V0max = p.velocityBound ∧ (jumpSettings p).Vimpmax = p.velocityBound :=
  ⟨(settings_eq rd p).2.2.2.2, rfl, rfl⟩

/-- **C147 is violated** for jumps: whatever friction the user gives, the friction used for the jumps is 0.5, also when the one used for the contacts of the nodes is not. -/
theorem C147_friction_violated (p : Params) (f : ℝ) (hf : f ≠ 1 / 2) :
    (jumpSettings { p with friction := some f }).mu = 1 / 2 ∧ (plannerSettings { p with friction := some f }).mu = f ∧
    (plannerSettings { p with friction := some f }).mu ≠ (jumpSettings { p with friction := some f }).mu :=
  ⟨rfl, rfl, hf⟩

/-! ## C148 -/

section roadmap
variable {C P : Type _} [DecidableEq C]
open Planner

/-- **C148 is violated**: a planner created on a roadmap works on a new, empty one; of a roadmap with nodes it has none, its edges are lost. -/
theorem C148_violated (rm : Roadmap C P) : (createWithRoadmap rm).roadmap = (create : DynamicPlanner C P).roadmap ∧ (createWithRoadmap rm).roadmap = ⟨[], []⟩ := ⟨rfl, rfl⟩

/-- C148 (part): what is missing is only the initial content: if a planner starts on a roadmap whose edges are accepted paths between nodes, then after any number of steps all that was in the roadmap is still there and its edges are accepted paths. -/
theorem C148_steps_partial {K : Type _} [DecidableEq K] (env : Env C P K) (Valid : P → Prop) (ct : Contract env Valid) (planner : DynamicPlanner C P) (n k : ℕ)
    (hne : planner.roadmap.nodes ≠ []) (h : EdgesOk env Valid planner.roadmap) :
    ∃ rm', steps env n k planner.roadmap = some rm' ∧ EdgesOk env Valid rm' ∧ Grows planner.roadmap rm' := by
  obtain ⟨rm', h1, h2, h3⟩ := C56_partial env Valid ct n k planner.roadmap hne h
  exact ⟨rm', h1, h2, h3⟩

end roadmap

/-! ## C149 -/

section contacts
variable {N O R : Type _} [LinearOrder N] [DecidableEq O]

/-- what holds for a validator made by its constructor: ROMs with distinct names, each pair with its request, and no pair if no ROM has an affordance filter -/
structure Ready (v : Validator N O R) : Prop where
  wf : AMap.WF v.roms
  paired : ∀ e ∈ v.roms, Paired e.2
  unfiltered : v.defaultFilter = [] → ∀ e ∈ v.roms, e.2.pairs = []

/-- the ROM `n` (with an affordance filter) is in contact with the surface of the pair `p` -/
def InContact (collides : O × O → Bool) (v : Validator N O R) (n : N) (p : O × O) : Prop :=
  n ∈ v.defaultFilter ∧ ∃ rom, AMap.find? v.roms n = some rom ∧ p ∈ rom.pairs ∧ collides p = true

/-- `p` is a nearest one of the surfaces in contact with `n` -/
def Nearest (collides : O × O → Bool) (dist : N → O × O → Option ℝ) (v : Validator N O R) (n : N) (p : O × O) : Prop :=
  (∀ q, InContact collides v n q → dist n q = none) ∨ ∃ d, dist n p = some d ∧ ∀ q, InContact collides v n q → ∀ d', dist n q = some d' → d ≤ d'

/-- the same ROM up to the order of the pairs and the flag `computeAllContacts` -/
structure Alike (rom rom' : Rom O R) : Prop where
  pairs : (rom'.pairs.zip rom'.requests).Perm (rom.pairs.zip rom.requests)
  length : rom'.pairs.length = rom.pairs.length ∧ rom'.requests.length = rom.requests.length
  optional : rom'.optional = rom.optional

theorem Alike.trans {a b c : Rom O R} (h : Alike a b) (h' : Alike b c) : Alike a c :=
  ⟨h'.pairs.trans h.pairs, ⟨h'.length.1.trans h.length.1, h'.length.2.trans h.length.2⟩, h'.optional.trans h.optional⟩

theorem Alike.flag (rom : Rom O R) (b : Bool) : Alike rom { rom with computeAllContacts := b } := ⟨List.Perm.refl _, ⟨rfl, rfl⟩, rfl⟩
theorem Alike.of (rom rom' : Rom O R) (h : Shuffled rom rom') : Alike rom rom' := ⟨h.pairs, h.length, h.flags.1⟩

theorem Alike.perm {a b : Rom O R} (h : Alike a b) (hp : Paired a) : b.pairs.Perm a.pairs :=
  Shuffled.pairs_perm (a := { a with computeAllContacts := true }) (b := { b with computeAllContacts := true }) ⟨h.pairs, h.length, h.optional, rfl⟩ hp

theorem Alike.paired {a b : Rom O R} (h : Alike a b) (hp : Paired a) : Paired b := by
  unfold Paired at *; rw [h.length.1, h.length.2, hp]

/-- the same ROMs up to the order of the pairs and the flags -/
abbrev AlikeRoms (roms roms' : AMap N (Rom O R)) : Prop := List.Forall₂ (fun p q => p.1 = q.1 ∧ Alike p.2 q.2) roms roms'

theorem AlikeRoms.trans {a b c : AMap N (Rom O R)} (hab : AlikeRoms a b) (hbc : AlikeRoms b c) : AlikeRoms a c := by
  induction hab generalizing c with
  | nil => cases hbc; exact .nil
  | cons h _ ih =>
    cases hbc with
    | cons h' hbc => exact .cons ⟨h.1.trans h'.1, h.2.trans h'.2⟩ (ih hbc)

theorem AlikeRoms.of_same {a b : AMap N (Rom O R)} (h : SameRoms a b) : AlikeRoms a b := h.imp fun _ _ h => ⟨h.1, .of _ _ h.2⟩

theorem AlikeRoms.flags (a : AMap N (Rom O R)) (b : Bool) : AlikeRoms a (computeAllContacts b a) := by
  induction a with
  | nil => exact .nil
  | cons e a ih => exact .cons ⟨rfl, .flag _ _⟩ ih

theorem AlikeRoms.find? {roms roms' : AMap N (Rom O R)} (h : AlikeRoms roms roms') :
    AMap.keys roms' = AMap.keys roms ∧ ∀ n, Option.Rel Alike (AMap.find? roms n) (AMap.find? roms' n) := by
  induction h with
  | nil => exact ⟨rfl, fun _ => .none⟩
  | cons hpq _ ih =>
    rename_i p q l l' _
    obtain ⟨n1, r1⟩ := p; obtain ⟨n2, r2⟩ := q
    obtain ⟨e, hs⟩ := hpq
    simp only at e hs
    subst e
    refine ⟨by simp [ih.1], fun n => ?_⟩
    rw [AMap.find?_cons, AMap.find?_cons]
    split_ifs
    · exact .some hs
    · exact ih.2 n

/-- validators with the same ROMs up to order and flags, and the same trunk and default filter -/
structure Similar (v v' : Validator N O R) : Prop where
  roms : AlikeRoms v.roms v'.roms
  trunk : v'.trunkPairs = v.trunkPairs
  filter : v'.defaultFilter = v.defaultFilter

theorem Similar.trans {a b c : Validator N O R} (h : Similar a b) (h' : Similar b c) : Similar a c :=
  ⟨h.roms.trans h'.roms, h'.trunk.trans h.trunk, h'.filter.trans h.filter⟩

theorem Similar.ready {v v' : Validator N O R} (h : Similar v v') (hr : Ready v) : Ready v' := by
  have hw : AMap.WF v'.roms := by unfold AMap.WF; rw [h.roms.find?.1]; exact hr.wf
  have key : ∀ e ∈ v'.roms, ∃ rom, (e.1, rom) ∈ v.roms ∧ Alike rom e.2 := by
    intro e he
    have h1 := h.roms.find?.2 e.1
    rw [AMap.mem_find? hw (v := e.2) he] at h1
    generalize hf : AMap.find? v.roms e.1 = o at h1
    cases h1 with
    | some h1 => exact ⟨_, AMap.find?_some_mem hf, h1⟩
  refine ⟨hw, fun e he => ?_, fun hf e he => ?_⟩
  · obtain ⟨rom, h1, h2⟩ := key e he
    exact h2.paired (hr.paired _ h1)
  · obtain ⟨rom, h1, h2⟩ := key e he
    rw [h.filter] at hf
    have := hr.unfiltered hf _ h1
    exact List.length_eq_zero_iff.1 (by rw [h2.length.1]; simp only at this; rw [this]; rfl)

theorem Similar.inContact {v v' : Validator N O R} (h : Similar v v') (hr : Ready v) (collides : O × O → Bool) (n : N) (p : O × O) :
    InContact collides v' n p ↔ InContact collides v n p := by
  unfold InContact
  rw [h.filter]
  have h1 := h.roms.find?.2 n
  have hmem : ∀ rom, AMap.find? v.roms n = some rom → Paired rom := fun rom hf => hr.paired _ (AMap.find?_some_mem hf)
  generalize AMap.find? v.roms n = o at *
  generalize AMap.find? v'.roms n = o' at *
  cases h1 with
  | none => simp
  | some h1 =>
    rename_i a b
    have hm := (h1.perm (hmem a rfl)).mem_iff (a := p)
    simp [hm]

/-- the answers are the same -/
theorem Similar.answers {v v' : Validator N O R} (h : Similar v v') (hr : Ready v) (collides : O × O → Bool) (boundsOk : Bool) (filter : List N) :
    (validate collides boundsOk v' filter).map Prod.fst = (validate collides boundsOk v filter).map Prod.fst := by
  have hr' := h.ready hr
  obtain ⟨b, w, r, e1, e2, -⟩ := C39_validate_partial collides boundsOk v hr.wf hr.paired filter
  obtain ⟨b', w', r', e1', e2', -⟩ := C39_validate_partial collides boundsOk v' hr'.wf hr'.paired filter
  rw [e1, e1', Option.map_some, Option.map_some]
  congr 1
  rw [Bool.eq_iff_iff, e2, e2', h.trunk]
  refine and_congr_right fun _ => and_congr_right fun _ => ?_
  unfold FilterSatisfied
  refine and_congr_right fun _ => forall_congr' fun n => imp_congr_right fun _ => ?_
  have h1 := h.roms.find?.2 n
  have hmem : ∀ rom, AMap.find? v.roms n = some rom → Paired rom := fun rom hf => hr.paired _ (AMap.find?_some_mem hf)
  generalize AMap.find? v.roms n = o at *
  generalize AMap.find? v'.roms n = o' at *
  cases h1 with
  | none => simp
  | some h1 =>
    rename_i a b
    have hm := fun p => (h1.perm (hmem a rfl)).mem_iff (a := p)
    simp [Satisfied, Touches, hm, h1.optional]

/-! ### the report -/

theorem romsLoop_wf (collides : O × O → Bool) (filter : List N) (todo : AMap N (Rom O R)) (m : ℕ) (r : Report N O) (hr : AMap.WF r.ROMReports)
    (todo' : AMap N (Rom O R)) (m' : ℕ) (r' : Report N O) (h : romsLoop collides filter todo m (some r) = some (todo', m', some r')) : AMap.WF r'.ROMReports := by
  induction todo generalizing m r todo' m' r' with
  | nil => simp only [romsLoop, Option.some.injEq, Prod.mk.injEq] at h; obtain ⟨-, -, rfl⟩ := h; exact hr
  | cons p rest ih =>
    obtain ⟨name, rom⟩ := p
    simp only [romsLoop, Option.isSome_some, Option.map_some] at h
    split_ifs at h with h1 h2
    · cases hv : romValidate collides rom true with
      | none => rw [hv] at h; simp at h
      | some v =>
        rw [hv] at h
        obtain ⟨x, hx, he⟩ := Option.map_eq_some_iff.1 h
        obtain ⟨x1, x2, x3⟩ := x
        simp only [Prod.mk.injEq] at he
        obtain ⟨-, -, rfl⟩ := he
        refine ih _ _ ?_ _ _ _ hx
        unfold Report.record
        cases v.collision with
        | none => exact hr
        | some c => exact AMap.WF_insertNew hr _ _
    · obtain ⟨x, hx, he⟩ := Option.map_eq_some_iff.1 h
      obtain ⟨x1, x2, x3⟩ := x
      simp only [Prod.mk.injEq] at he
      obtain ⟨-, -, rfl⟩ := he
      exact ih _ _ hr _ _ _ hx
    · simp only [Option.some.injEq, Prod.mk.injEq] at h; obtain ⟨-, -, rfl⟩ := h; exact hr

theorem romsLoop_nopairs (collides : O × O → Bool) (filter : List N) (todo : AMap N (Rom O R)) (hp : ∀ e ∈ todo, e.2.pairs = []) (m : ℕ) (r : Report N O)
    (todo' : AMap N (Rom O R)) (m' : ℕ) (r' : Report N O) (h : romsLoop collides filter todo m (some r) = some (todo', m', some r')) : r'.ROMReports = r.ROMReports := by
  induction todo generalizing m r todo' m' r' with
  | nil => simp only [romsLoop, Option.some.injEq, Prod.mk.injEq] at h; obtain ⟨-, -, rfl⟩ := h; rfl
  | cons p rest ih =>
    obtain ⟨name, rom⟩ := p
    have ih := ih fun e he => hp e (List.mem_cons_of_mem _ he)
    have h0 : rom.pairs = [] := hp _ List.mem_cons_self
    simp only [romsLoop, Option.isSome_some, Option.map_some] at h
    split_ifs at h with h1 h2
    · have hv : romValidate collides rom true = some ⟨rom.optional, rom, none⟩ := by
        unfold romValidate coreValidate; rw [h0]; rfl
      rw [hv] at h
      obtain ⟨x, hx, he⟩ := Option.map_eq_some_iff.1 h
      obtain ⟨x1, x2, x3⟩ := x
      simp only [Prod.mk.injEq] at he
      obtain ⟨-, -, rfl⟩ := he
      exact (ih _ _ _ _ _ hx).trans rfl
    · obtain ⟨x, hx, he⟩ := Option.map_eq_some_iff.1 h
      obtain ⟨x1, x2, x3⟩ := x
      simp only [Prod.mk.injEq] at he
      obtain ⟨-, -, rfl⟩ := he
      exact ih _ _ _ _ _ hx
    · simp only [Option.some.injEq, Prod.mk.injEq] at h; obtain ⟨-, -, rfl⟩ := h; rfl

/-- the reports of the ROMs after a validation with the default filter -/
theorem reports_spec (collides : O × O → Bool) (boundsOk : Bool) (v : Validator N O R) (hr : Ready v) :
    ∃ b v' r, validateDefault collides boundsOk v = some (b, v', r) ∧ AMap.WF r.ROMReports ∧
      (∀ n, AMap.find? r.ROMReports n = if n ∈ v.defaultFilter then (AMap.find? v.roms n).bind
        (fun rom => coreValidate collides rom.pairs rom.computeAllContacts) else none) ∧ Similar v v' := by
  unfold validateDefault validate
  dsimp only
  have h0 : (trunkRecord (coreValidate collides v.trunkPairs v.trunkAll) : Report N O).ROMReports = [] := by
    cases coreValidate collides v.trunkPairs v.trunkAll <;> rfl
  generalize (trunkRecord (coreValidate collides v.trunkPairs v.trunkAll) : Report N O) = r0 at *
  obtain ⟨t', m', r', h1, h2, -, -⟩ := romsLoop_defined collides v.defaultFilter v.roms hr.paired 0 r0
  have hval : validateRoms collides v.defaultFilter v.roms r0 =
      some (decide (v.defaultFilter.length ≤ m'), t', { r' with romsValid := some (decide (v.defaultFilter.length ≤ m')) }) := by
    unfold validateRoms validateRomsPtr; rw [h1]
  rw [hval]
  refine ⟨_, _, _, rfl, (romsLoop_wf _ _ _ _ _ (by rw [h0]; exact AMap.WF_nil) _ _ r' h1 : AMap.WF r'.ROMReports), fun n => ?_, ⟨AlikeRoms.of_same h2, rfl, rfl⟩⟩
  dsimp only
  by_cases hne : v.defaultFilter = []
  · rw [romsLoop_nopairs _ _ _ (hr.unfiltered hne) _ _ _ _ _ h1, h0, hne]; rfl
  · obtain ⟨-, -, e3⟩ := romsLoop_spec collides v.defaultFilter hne v.roms hr.paired hr.wf.nodup [] List.nodup_nil (by simp) (by simp) r0 _ _ _ h1
    have := e3 n
    rw [h0] at this
    simpa using this

theorem find?_map {V W : Type _} (f : N → V → W) (m : AMap N V) (n : N) : AMap.find? (m.map fun e => (e.1, f e.1 e.2)) n = (AMap.find? m n).map (f n) := by
  induction m with
  | nil => rfl
  | cons e m ih =>
    obtain ⟨k, x⟩ := e
    rw [List.map_cons, AMap.find?_cons, AMap.find?_cons, ih]
    split_ifs with h
    · subst h; rfl
    · rfl

theorem keys_map {V W : Type _} (f : N → V → W) (m : AMap N V) : AMap.keys (m.map fun e => (e.1, f e.1 e.2)) = AMap.keys m := by
  simp [AMap.keys, Function.comp_def]

theorem surfaces_reports (r : Report N O) : surfaces (romReports r) = r.ROMReports.map fun e => (e.1, (e.2.object1, e.2.object2)) := by
  unfold surfaces romReports
  rw [List.filterMap_map]
  exact congrFun List.filterMap_eq_map' _

theorem surfaces_best (dist : N → O × O → Option ℝ) (r : Report N O) : surfaces (Node.chooseAll dist (romReports r)) =
    r.ROMReports.map fun e => (e.1, Node.chooseBest (dist e.1) (e.2.object1, e.2.object2) e.2.all) := by
  rw [Node.C114_all dist (romReports r) (by
    intro e he
    unfold romReports at he
    obtain ⟨x, -, rfl⟩ := List.mem_map.1 he
    simp)]
  unfold surfaces romReports
  rw [List.map_map, List.filterMap_map]
  exact congrFun List.filterMap_eq_map' _

theorem Similar.flags (v : Validator N O R) (b : Bool) : Similar v { v with roms := computeAllContacts b v.roms } := ⟨.flags _ _, rfl, rfl⟩

/-- the best of the collisions of a ROM -/
theorem chooseBest_spec {A : Type _} (dist : A → Option ℝ) (current : A) (reports : List A) (hc : current ∈ reports) :
    Node.chooseBest dist current reports ∈ reports ∧ ((∀ q ∈ reports, dist q = none) ∨
      ∃ d, dist (Node.chooseBest dist current reports) = some d ∧ ∀ q ∈ reports, ∀ d', dist q = some d' → d ≤ d') := by
  match reports, hc with
  | [a], hc =>
    obtain rfl := List.mem_singleton.1 hc
    refine ⟨by simp [Node.chooseBest], ?_⟩
    cases hd : dist current with
    | none => left; simp [hd]
    | some d => right; exact ⟨d, hd, by simp [hd]⟩
  | a :: b :: rest, _ =>
    rcases Node.C114_best dist current a b rest with ⟨h1, h2⟩ | ⟨pre, post, d, h1, h2, h3, h4⟩
    · exact ⟨by rw [h2]; simp, Or.inl h1⟩
    · generalize Node.chooseBest dist current (a :: b :: rest) = p at *
      rw [h1]
      refine ⟨by simp, Or.inr ⟨d, h2, fun q hq d' hd' => ?_⟩⟩
      rcases List.mem_append.1 hq with hq | hq
      · exact le_of_lt (h3 q hq d' hd')
      · rcases List.mem_cons.1 hq with rfl | hq
        · rw [h2] at hd'; exact le_of_eq (Option.some.inj hd')
        · exact h4 q hq d' hd'

/-- C149: for every stream of random numbers the contacts of a node of the planner are defined; the ROMs in contact are exactly those (with an affordance filter) that touch some surface of their affordances;
the surface used for each of them is one that it touches, and a nearest one to the reference position of the limb; the validator keeps its ROMs up to the order of the pairs. -/
theorem C149_node (draw : N → ℕ → ℕ) (collides : O × O → Bool) (boundsOk : Bool) (dist : N → O × O → Option ℝ) (v : Validator N O R) (hr : Ready v) :
    ∃ cs v', computeGIWC draw collides boundsOk dist true v = some (cs, v') ∧ AMap.WF cs ∧
      (∀ n, (AMap.find? cs n).isSome ↔ ∃ p, InContact collides v n p) ∧
      (∀ n p, AMap.find? cs n = some p → InContact collides v n p ∧ Nearest collides dist v n p) ∧ Similar v v' := by
  obtain ⟨roms, h1, h2⟩ := C40_shuffle_all draw v.roms hr.paired
  have hs1 : Similar v { v with roms := roms } := ⟨h2.imp fun _ _ h => ⟨h.1.symm, .of _ _ h.2⟩, rfl, rfl⟩
  have hs : Similar v { v with roms := computeAllContacts true roms } := hs1.trans (Similar.flags _ true)
  have hr' := hs.ready hr
  obtain ⟨b, v', r, h3, h4, h5, h6⟩ := reports_spec collides boundsOk _ hr'
  have hall : ∀ n rom, AMap.find? (computeAllContacts true roms) n = some rom → rom.computeAllContacts = true := by
    intro n rom hf
    unfold computeAllContacts at hf
    obtain ⟨x, -, e⟩ := List.mem_map.1 (AMap.find?_some_mem hf)
    have e2 : _ = rom := congrArg Prod.snd e
    rw [← e2]
  have hIn := fun n p => hs.inContact hr collides n p
  have h7 := fun n => h5 n
  simp only at h7
  refine ⟨_, _, by unfold computeGIWC; rw [h1]; dsimp only; rw [h3], ?_, ?_, ?_, (hs.trans h6).trans (Similar.flags _ false)⟩
  · rw [if_pos rfl, surfaces_best]
    unfold AMap.WF
    rw [keys_map (fun n (c : CollisionReport O) => Node.chooseBest (dist n) (c.object1, c.object2) c.all)]
    exact h4
  · intro n
    rw [if_pos rfl, surfaces_best, find?_map (fun n (c : CollisionReport O) => Node.chooseBest (dist n) (c.object1, c.object2) c.all), Option.isSome_map, h7]
    simp only [← hIn]
    unfold InContact
    split_ifs with hin
    · cases hf : AMap.find? (computeAllContacts true roms) n with
      | none => simp
      | some rom =>
        rw [Option.bind_some, coreValidate_isSome collides rom]
        simp [hin, Touches]
    · simp [hin]
  · intro n p
    rw [if_pos rfl, surfaces_best, find?_map (fun n (c : CollisionReport O) => Node.chooseBest (dist n) (c.object1, c.object2) c.all), h7]
    unfold Nearest
    simp only [← hIn]
    unfold InContact
    split_ifs with hin
    · cases hf : AMap.find? (computeAllContacts true roms) n with
      | none => simp
      | some rom =>
        rw [Option.bind_some]
        intro h
        obtain ⟨c, hc, rfl⟩ := Option.map_eq_some_iff.1 h
        have hfl := hall n rom hf
        rw [hfl] at hc
        obtain ⟨-, -, g1, g2⟩ := coreValidate_pair hc
        have g3 : ∀ q, q ∈ c.all ↔ q ∈ rom.pairs ∧ collides q = true := by
          intro q
          refine ⟨g1 q, fun hq => ?_⟩
          unfold coreValidate at hc
          cases hfi : rom.pairs.find? collides with
          | none => rw [hfi] at hc; simp at hc
          | some p =>
            rw [hfi] at hc
            simp only [Option.some.injEq] at hc
            rw [← hc]
            simp only [if_true]
            exact List.mem_filter.2 hq
        obtain ⟨k1, k2⟩ := chooseBest_spec (dist n) (c.object1, c.object2) c.all g2
        refine ⟨⟨hin, rom, rfl, (g3 _).1 k1⟩, ?_⟩
        rcases k2 with k2 | ⟨d, k2, k3⟩
        · left
          rintro q ⟨-, rom', hf', hq⟩
          obtain rfl := Option.some.inj hf'
          exact k2 q ((g3 q).2 hq)
        · right
          refine ⟨d, k2, ?_⟩
          rintro q ⟨-, rom', hf', hq⟩
          obtain rfl := Option.some.inj hf'
          exact k3 q ((g3 q).2 hq)
    · simp

/-- C149: the contacts that `steer` of an optimiser uses: defined, exactly the ROMs in contact, each with a surface it touches. -/
theorem C149_steer_partial (collides : O × O → Bool) (boundsOk : Bool) (v : Validator N O R) (hr : Ready v) :
    ∃ cs v', steerContacts collides boundsOk v = some (cs, v') ∧ AMap.WF cs ∧
      (∀ n, (AMap.find? cs n).isSome ↔ ∃ p, InContact collides v n p) ∧
      (∀ n p, AMap.find? cs n = some p → InContact collides v n p) ∧ Similar v v' := by
  have hs : Similar v { v with roms := computeAllContacts true v.roms } := Similar.flags _ true
  have hr' := hs.ready hr
  obtain ⟨b, v', r, h3, h4, h5, h6⟩ := reports_spec collides boundsOk _ hr'
  have hIn := fun n p => hs.inContact hr collides n p
  have h7 := fun n => h5 n
  simp only at h7
  refine ⟨_, _, by unfold steerContacts; rw [h3], ?_, ?_, ?_, (hs.trans h6).trans (Similar.flags _ false)⟩
  · rw [surfaces_reports]
    unfold AMap.WF
    rw [keys_map (fun n (c : CollisionReport O) => (c.object1, c.object2))]
    exact h4
  · intro n
    rw [surfaces_reports, find?_map (fun n (c : CollisionReport O) => (c.object1, c.object2)), Option.isSome_map, h7]
    simp only [← hIn]
    unfold InContact
    split_ifs with hin
    · cases hf : AMap.find? (computeAllContacts true v.roms) n with
      | none => simp
      | some rom =>
        rw [Option.bind_some, coreValidate_isSome collides rom]
        simp [hin, Touches]
    · simp [hin]
  · intro n p
    rw [surfaces_reports, find?_map (fun n (c : CollisionReport O) => (c.object1, c.object2)), h7]
    simp only [← hIn]
    unfold InContact
    split_ifs with hin
    · cases hf : AMap.find? (computeAllContacts true v.roms) n with
      | none => simp
      | some rom =>
        rw [Option.bind_some]
        intro h
        obtain ⟨c, hc, rfl⟩ := Option.map_eq_some_iff.1 h
        obtain ⟨g1, g2, -⟩ := coreValidate_pair hc
        exact ⟨hin, rom, rfl, g1, g2⟩
    · simp

/-- one call leaves the same ROMs, up to the order of the pairs and the flags -/
theorem run_similar (v : Validator N O R) (hr : Ready v) (c : Call N O) : ∃ v', c.run v = some v' ∧ Similar v v' := by
  cases c with
  | validate collides boundsOk filter =>
    obtain ⟨b, w, r, h1, -, -, -, -, -, -, h2, h3, h4⟩ := C39_validate_partial collides boundsOk v hr.wf hr.paired filter
    exact ⟨w, by simp [Call.run, h1], ⟨.of_same h2, h3, h4⟩⟩
  | node draw collides boundsOk dist =>
    obtain ⟨cs, v', h1, -, -, -, h2⟩ := C149_node draw collides boundsOk dist v hr
    exact ⟨v', by simp [Call.run, h1], h2⟩
  | steer collides boundsOk =>
    obtain ⟨cs, v', h1, -, -, -, h2⟩ := C149_steer_partial collides boundsOk v hr
    exact ⟨v', by simp [Call.run, h1], h2⟩
  | allContacts b => exact ⟨_, rfl, Similar.flags _ b⟩

/-- C149: after any history of validations, contacts of nodes and of optimisers, every validation answers as on the new validator, and the surfaces used for a node of the planner are the same as on the new
validator, whatever the random numbers of the two calls, provided that of the surfaces in contact with a ROM one has a distance and no two have the same. -/
theorem C149_history (v : Validator N O R) (hr : Ready v) (calls : List (Call N O)) :
    ∃ v', calls.foldlM Call.run v = some v' ∧
      (∀ collides boundsOk filter, (validate collides boundsOk v' filter).map Prod.fst = (validate collides boundsOk v filter).map Prod.fst) ∧
      ∀ draw draw' collides boundsOk boundsOk' dist,
        (∀ n p q, InContact collides v n p → InContact collides v n q → dist n p = dist n q → p = q) →
        (∀ n p, InContact collides v n p → ∃ q d, InContact collides v n q ∧ dist n q = some d) →
        (computeGIWC draw' collides boundsOk' dist true v').map Prod.fst = (computeGIWC draw collides boundsOk dist true v).map Prod.fst := by
  have key : ∃ v', calls.foldlM Call.run v = some v' ∧ Similar v v' := by
    induction calls generalizing v with
    | nil => exact ⟨v, rfl, ⟨List.forall₂_same.2 fun e _ => ⟨rfl, .of _ _ (Shuffled.refl _)⟩, rfl, rfl⟩⟩
    | cons c calls ih =>
      obtain ⟨w, h1, h2⟩ := run_similar v hr c
      obtain ⟨v', h3, h4⟩ := ih w (h2.ready hr)
      exact ⟨v', by rw [List.foldlM_cons, h1]; exact h3, h2.trans h4⟩
  obtain ⟨v', h1, h2⟩ := key
  have hr' := h2.ready hr
  refine ⟨v', h1, fun collides boundsOk filter => h2.answers hr collides boundsOk filter, ?_⟩
  intro draw draw' collides boundsOk boundsOk' dist hinj hex
  obtain ⟨cs, w, e1, e2, e3, e4, -⟩ := C149_node draw collides boundsOk dist v hr
  obtain ⟨cs', w', e1', e2', e3', e4', -⟩ := C149_node draw' collides boundsOk' dist v' hr'
  have hIn := h2.inContact hr collides
  rw [e1, e1', Option.map_some, Option.map_some]
  congr 1
  refine AMap.ext_find? e2' e2 fun n => ?_
  have f1 := e3 n; have f1' := e3' n
  simp only [hIn] at f1'
  cases hc : AMap.find? cs n with
  | none =>
    rw [hc] at f1
    have : ¬ ∃ p, InContact collides v n p := fun h => by simpa using f1.2 h
    cases hc' : AMap.find? cs' n with
    | none => rfl
    | some p => rw [hc'] at f1'; exact absurd (f1'.1 rfl) this
  | some p =>
    rw [hc] at f1
    have hne := f1.1 rfl
    obtain ⟨p', hc'⟩ := Option.isSome_iff_exists.1 (f1'.2 hne)
    rw [hc']
    obtain ⟨g1, g2⟩ := e4 n p hc
    obtain ⟨g1', g2'⟩ := e4' n p' hc'
    unfold Nearest at g2 g2'
    rw [hIn] at g1'
    simp only [hIn] at g2'
    obtain ⟨q, d, k1, k2⟩ := hex n p g1
    have a2 : ∃ d, dist n p = some d ∧ ∀ q, InContact collides v n q → ∀ d', dist n q = some d' → d ≤ d' := by
      rcases g2 with g2 | g2
      · rw [g2 q k1] at k2; simp at k2
      · exact g2
    have a2' : ∃ d, dist n p' = some d ∧ ∀ q, InContact collides v n q → ∀ d', dist n q = some d' → d ≤ d' := by
      rcases g2' with g2 | g2
      · rw [g2 q k1] at k2; simp at k2
      · exact g2
    obtain ⟨d1, b1, b2⟩ := a2
    obtain ⟨d2, c1, c2⟩ := a2'
    congr 1
    refine hinj n p' p g1' g1 ?_
    rw [b1, c1, le_antisymm (c2 p g1 d1 b1) (b2 p' g1' d2 c1)]

/-- a validator made by the constructor is ready -/
theorem C149_create (trunkBodies : List O) (roms : AMap N (List O)) (hw : AMap.WF roms) (request : R) (filter : List N) (affFilters : AMap N (List N)) (affordances : AMap N (List O)) (geometries : List O) :
    Ready (Validator.create trunkBodies roms request filter affFilters affordances geometries) := by
  refine ⟨?_, fun e he => ?_, fun hf e he => ?_⟩
  · unfold AMap.WF
    have : AMap.keys (Validator.create trunkBodies roms request filter affFilters affordances geometries).roms = AMap.keys roms := by simp [Validator.create, AMap.keys, Function.comp_def]
    rw [this]; exact hw
  · obtain ⟨x, -, rfl⟩ := List.mem_map.1 he
    unfold Paired createRom
    dsimp only
    cases AMap.find? affFilters x.1 <;> simp
  · obtain ⟨x, hx, rfl⟩ := List.mem_map.1 he
    simp only [Validator.create, List.map_eq_nil_iff, List.filter_eq_nil_iff] at hf
    have := hf x hx
    unfold AMap.has at this
    unfold createRom
    dsimp only
    cases h : AMap.find? affFilters x.1 with
    | none => rfl
    | some t => rw [h] at this; simp at this

end contacts

/-- a robot with one ROM that may touch the surfaces 1 and 2 -/
def oneRom : Validator ℕ ℕ ℕ := Validator.create [9] [(0, [7])] 0 [0] [(0, [5])] [(5, [1, 2])] []

example : Ready oneRom ∧ InContact (fun _ => true) oneRom 0 (7, 1) ∧ InContact (fun _ => true) oneRom 0 (7, 2) :=
  ⟨C149_create _ _ (by unfold AMap.WF AMap.keys; decide) _ _ _ _ _, ⟨by decide, ⟨[(7, 1), (7, 2)], [0, 0], false, false⟩, rfl, by decide, rfl⟩, ⟨by decide, ⟨[(7, 1), (7, 2)], [0, 0], false, false⟩, rfl, by decide, rfl⟩⟩

/-- the hypotheses of `C149_history` hold for this robot with the distances 1 and 2 -/
example : ∃ dist : ℕ → ℕ × ℕ → Option ℝ, (∀ n p q, InContact (fun _ => true) oneRom n p → InContact (fun _ => true) oneRom n q → dist n p = dist n q → p = q) ∧
    ∀ n p, InContact (fun _ => true) oneRom n p → ∃ q d, InContact (fun _ => true) oneRom n q ∧ dist n q = some d := by
  have h : ∀ n p, InContact (fun _ => true) oneRom n p → p.1 = 7 := by
    rintro n p ⟨-, rom, h1, h2, -⟩
    have h3 : (n, rom) ∈ oneRom.roms := AMap.find?_some_mem h1
    obtain ⟨x, hx, e⟩ := List.mem_map.1 h3
    obtain rfl : x = (0, [7]) := List.mem_singleton.1 hx
    have e2 := congrArg Prod.snd e
    simp only at e2
    rw [← e2] at h2
    revert h2
    show p ∈ [(7, 1), (7, 2)] → _
    simp only [List.mem_cons, List.not_mem_nil, or_false]
    rintro (rfl | rfl) <;> rfl
  refine ⟨fun _ p => some p.2, fun n p q hp hq e => ?_, fun n p hp => ⟨p, p.2, hp, rfl⟩⟩
  have e' : p.2 = q.2 := by simpa using e
  exact Prod.ext ((h n p hp).trans (h n q hq).symm) e'

/-- **C149 is violated** by the optimisers: they do not choose the surface.  At a configuration where the ROM touches both surfaces, `steer` uses the surface 1; after a validation of a configuration where only the surface 2 is touched, the same `steer` uses the surface 2. -/
theorem C149_steer_violated : (steerContacts (fun _ => true) true oneRom).map Prod.fst = some [(0, (7, 1))] ∧
    ((validate (fun p => p.2 == 2) true oneRom [0]).bind fun x => (steerContacts (fun _ => true) true x.2.1).map Prod.fst) = some [(0, (7, 2))] := by
  constructor <;> decide +kernel

/-- **C149 is violated** for the setting of the user: having asked for all contacts, after one `steer` a validation reports only one of them. -/
theorem C149_flag_violated : ((validate (fun _ => true) true { oneRom with roms := computeAllContacts true oneRom.roms } [0]).map fun x => (AMap.find? x.2.2.ROMReports 0).map fun c => c.all) = some (some [(7, 1), (7, 2)]) ∧
    ((steerContacts (fun _ => true) true { oneRom with roms := computeAllContacts true oneRom.roms }).bind fun x => (validate (fun _ => true) true x.2 [0]).map fun x => (AMap.find? x.2.2.ROMReports 0).map fun c => c.all) = some (some [(7, 1)]) := by
  constructor <;> decide +kernel

end Setup
end Rbprm
