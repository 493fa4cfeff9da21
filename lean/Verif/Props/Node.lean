import Verif.Model.Node
import Verif.Props.GeomMisc
import Mathlib.Algebra.BigOperators.Intervals
import Mathlib.Tactic.IntervalCases
import Mathlib.Algebra.Quaternion
set_option linter.unusedSectionVars false
/-!
# The matrices of a roadmap node (C65, C113, C114)
-/
namespace Rbprm
namespace Node

/-! ### specification -/

/-- the wrench at the origin of a force applied in a point -/
def wrench (p f : Vec3 ℝ) : Vec3 ℝ × Vec3 ℝ := (f, Vec3.cross p f)

/-- the column `j` of a matrix with 6 rows -/
def column6 (M : Mx) (j : ℕ) : Vec3 ℝ × Vec3 ℝ := (⟨M.entry 0 j, M.entry 1 j, M.entry 2 j⟩, ⟨M.entry 3 j, M.entry 4 j, M.entry 5 j⟩)

/-- the contact points of a node, with the normal of their surface: the contact point of each ROM, or the four corners around it -/
noncomputable def contactPoints (roms : List RomContact) (head : Vec3 ℝ) (rectangular : Bool) (sizeX sizeY : ℝ) : List (Vec3 ℝ × Vec3 ℝ) :=
  roms.flatMap fun r => if rectangular then (List.range 4).map fun i => (corner r.pn r.contactPoint head sizeX sizeY i, r.pn) else [(r.contactPoint, r.pn)]

/-! ### blocks -/

/-- the matrices hold the blocks of the points `pts`, and zeros elsewhere -/
structure Inv (head : Vec3 ℝ) (mu : ℝ) (n : ℕ) (pts : List (Vec3 ℝ × Vec3 ℝ)) (V IP : Mx) : Prop where
  vRows : V.rows = 3 * n
  vCols : V.cols = 4 * n
  iRows : IP.rows = 6
  iCols : IP.cols = 3 * n
  vIn : ∀ k p pn, pts[k]? = some (p, pn) → ∀ i, i < 3 → ∀ j, j < 4 → V.entry (3 * k + i) (4 * k + j) = coord (ray pn head mu j) i
  vOut : ∀ k i k' j, i < 3 → j < 4 → k ≠ k' ∨ pts.length ≤ k → V.entry (3 * k + i) (4 * k' + j) = 0
  iIn : ∀ k p pn, pts[k]? = some (p, pn) → ∀ i j, j < 3 → i < 3 → IP.entry i (3 * k + j) = identity i j ∧ IP.entry (3 + i) (3 * k + j) = crossMatrix p i j
  iOut : ∀ k i j, j < 3 → pts.length ≤ k → IP.entry i (3 * k + j) = 0

theorem Inv.zero (head : Vec3 ℝ) (mu : ℝ) (n : ℕ) : Inv head mu n [] (Mx.zero (3 * n) (4 * n)) (Mx.zero 6 (3 * n)) :=
  ⟨rfl, rfl, rfl, rfl, by simp, fun _ _ _ _ _ _ _ => rfl, by simp, fun _ _ _ _ _ => rfl⟩

theorem Inv.write {head : Vec3 ℝ} {mu : ℝ} {n : ℕ} {pts : List (Vec3 ℝ × Vec3 ℝ)} {V IP : Mx} (h : Inv head mu n pts V IP) (p pn : Vec3 ℝ) (hn : pts.length < n) :
    ∃ V' IP', writePoint pn head mu pts.length p V IP = some (V', IP') ∧ Inv head mu n (pts ++ [(p, pn)]) V' IP' := by
  obtain ⟨h1, h2, h3, h4, h5, h6, h7, h8⟩ := h
  unfold writePoint
  simp only [Mx.setBlock, h1, h2, h3, h4]
  rw [if_pos (by omega)]
  simp only [Option.bind_eq_bind, Option.bind_some, h3, h4]
  rw [if_pos (by omega)]
  simp only [Option.bind_some]
  rw [if_pos (by omega)]
  refine ⟨_, _, rfl, rfl, rfl, rfl, rfl, ?_, ?_, ?_, ?_⟩
  · intro k q qn hk i hi j hj
    dsimp only
    by_cases hkl : k = pts.length
    · subst hkl
      rw [if_pos (by omega)]
      simp at hk
      obtain ⟨rfl, rfl⟩ := hk
      rw [show 3 * pts.length + i - 3 * pts.length = i by omega, show 4 * pts.length + j - 4 * pts.length = j by omega]
    · have hlt : k < pts.length := by
        have := (List.getElem?_eq_some_iff.1 hk).1
        simp at this; omega
      rw [if_neg (by omega)]
      rw [List.getElem?_append_left hlt] at hk
      exact h5 k q qn hk i hi j hj
  · intro k i k' j hi hj hk
    dsimp only
    rw [if_neg (by simp at hk; omega)]
    exact h6 k i k' j hi hj (by simp at hk; omega)
  · intro k q qn hk i j hj hi
    dsimp only
    by_cases hkl : k = pts.length
    · subst hkl
      simp at hk
      obtain ⟨rfl, rfl⟩ := hk
      constructor
      · rw [if_neg (by omega), if_pos (by omega)]
        rw [show 3 * pts.length + j - 3 * pts.length = j by omega, Nat.sub_zero]
      · rw [if_pos (by omega)]
        rw [show 3 * pts.length + j - 3 * pts.length = j by omega, show 3 + i - 3 = i by omega]
    · have hlt : k < pts.length := by
        have := (List.getElem?_eq_some_iff.1 hk).1
        simp at this; omega
      rw [List.getElem?_append_left hlt] at hk
      have := h7 k q qn hk i j hj hi
      constructor
      · rw [if_neg (by omega), if_neg (by omega)]; exact this.1
      · rw [if_neg (by omega), if_neg (by omega)]; exact this.2
  · intro k i j hj hk
    simp at hk
    dsimp only
    rw [if_neg (by omega), if_neg (by omega)]
    exact h8 k i j hj (by omega)

theorem Inv.onePoint {head : Vec3 ℝ} {mu : ℝ} {n : ℕ} {pts : List (Vec3 ℝ × Vec3 ℝ)} {V IP : Mx} (h : Inv head mu n pts V IP) (r : RomContact) (rectangular : Bool) (sx sy : ℝ)
    (hn : pts.length + (if rectangular then 4 else 1) ≤ n) :
    ∃ V' IP', Node.onePoint r.pn r.contactPoint head sx sy rectangular mu ⟨pts.length, V, IP⟩ = some ⟨(pts ++ contactPoints [r] head rectangular sx sy).length, V', IP'⟩ ∧
      Inv head mu n (pts ++ contactPoints [r] head rectangular sx sy) V' IP' := by
  cases rectangular with
  | false =>
    simp only [Bool.false_eq_true, if_false] at hn
    obtain ⟨V', IP', e, h'⟩ := h.write r.contactPoint r.pn (by omega)
    refine ⟨V', IP', ?_, by simpa [contactPoints] using h'⟩
    simp [Node.onePoint, e, contactPoints]
  | true =>
    simp only [if_true] at hn
    obtain ⟨V0, I0, e0, h0⟩ := h.write (corner r.pn r.contactPoint head sx sy 0) r.pn (by omega)
    obtain ⟨V1, I1, e1, h1⟩ := h0.write (corner r.pn r.contactPoint head sx sy 1) r.pn (by simp; omega)
    obtain ⟨V2, I2, e2, h2⟩ := h1.write (corner r.pn r.contactPoint head sx sy 2) r.pn (by simp; omega)
    obtain ⟨V3, I3, e3, h3⟩ := h2.write (corner r.pn r.contactPoint head sx sy 3) r.pn (by simp; omega)
    simp only [List.length_append, List.length_singleton] at e1 e2 e3
    refine ⟨V3, I3, ?_, by simpa [contactPoints, List.range_succ] using h3⟩
    simp only [Node.onePoint, if_true, show List.range 4 = [0, 1, 2, 3] from rfl, List.foldlM_cons, List.foldlM_nil, Nat.add_zero, e0, Option.bind_eq_bind, Option.bind_some, e1, e2, e3]
    simp [contactPoints]

theorem sum_blocks (n : ℕ) (f : ℕ → ℝ) : ∑ k ∈ Finset.range (3 * n), f k = ∑ b ∈ Finset.range n, (f (3 * b) + f (3 * b + 1) + f (3 * b + 2)) := by
  induction n with
  | zero => simp
  | succ n ih =>
    rw [show 3 * (n + 1) = 3 * n + 1 + 1 + 1 by ring, Finset.sum_range_succ, Finset.sum_range_succ, Finset.sum_range_succ, ih, Finset.sum_range_succ]
    ring

theorem Inv.fold {head : Vec3 ℝ} {mu : ℝ} {n : ℕ} {rectangular : Bool} {sx sy : ℝ} (roms : List RomContact) {pts : List (Vec3 ℝ × Vec3 ℝ)} {V IP : Mx} (h : Inv head mu n pts V IP)
    (hn : pts.length + (if rectangular then 4 else 1) * roms.length ≤ n) :
    ∃ V' IP', roms.foldlM (fun st r => Node.onePoint r.pn r.contactPoint head sx sy rectangular mu st) ⟨pts.length, V, IP⟩ =
        some ⟨(pts ++ contactPoints roms head rectangular sx sy).length, V', IP'⟩ ∧ Inv head mu n (pts ++ contactPoints roms head rectangular sx sy) V' IP' := by
  induction roms generalizing pts V IP with
  | nil => exact ⟨V, IP, by simp [contactPoints], by simpa [contactPoints] using h⟩
  | cons r roms ih =>
    simp only [List.length_cons] at hn
    obtain ⟨V1, I1, e1, h1⟩ := h.onePoint r rectangular sx sy (by cases rectangular <;> simp at hn ⊢ <;> omega)
    have hl : (contactPoints [r] head rectangular sx sy).length = if rectangular then 4 else 1 := by cases rectangular <;> simp [contactPoints]
    obtain ⟨V2, I2, e2, h2⟩ := ih h1 (by rw [List.length_append, hl]; cases rectangular <;> simp at hn ⊢ <;> omega)
    have hc : contactPoints (r :: roms) head rectangular sx sy = contactPoints [r] head rectangular sx sy ++ contactPoints roms head rectangular sx sy := by
      simp [contactPoints]
    rw [List.append_assoc, ← hc] at e2 h2
    refine ⟨V2, I2, ?_, h2⟩
    rw [List.foldlM_cons, e1]
    exact e2

theorem length_contactPoints (roms : List RomContact) (head : Vec3 ℝ) (rectangular : Bool) (sx sy : ℝ) :
    (contactPoints roms head rectangular sx sy).length = (if rectangular then 4 else 1) * roms.length := by
  induction roms with
  | nil => cases rectangular <;> rfl
  | cons r roms ih =>
    have hc : contactPoints (r :: roms) head rectangular sx sy = contactPoints [r] head rectangular sx sy ++ contactPoints roms head rectangular sx sy := by
      simp [contactPoints]
    have hl : (contactPoints [r] head rectangular sx sy).length = if rectangular then 4 else 1 := by cases rectangular <;> simp [contactPoints]
    rw [hc, List.length_append, ih, hl, List.length_cons]; ring

/-- C65: no block is written out of the matrices; the number of contacts is the number of contact points (one or four for each ROM), and for each of them, in order, the four columns of `G` are the wrenches of the four rays applied in the point. -/
theorem C65_blocks (roms : List RomContact) (head c : Vec3 ℝ) (rectangular : Bool) (sx sy m mu : ℝ) :
    ∃ node, fillNodeMatrices roms head c rectangular sx sy m mu = some node ∧
      node.numberOfContacts = (contactPoints roms head rectangular sx sy).length ∧
      node.numberOfContacts = (if rectangular then 4 else 1) * roms.length ∧
      node.G.rows = 6 ∧ node.G.cols = 4 * node.numberOfContacts ∧
      ∀ k p pn, (contactPoints roms head rectangular sx sy)[k]? = some (p, pn) → ∀ j, j < 4 → column6 node.G (4 * k + j) = wrench p (ray pn head mu j) := by
  set n := roms.length + 3 * (if rectangular then 1 else 0) * roms.length with hn
  have hn' : n = (if rectangular then 4 else 1) * roms.length := by cases rectangular <;> simp [hn] <;> ring
  obtain ⟨V, IP, e, h⟩ := (Inv.zero head mu n).fold (rectangular := rectangular) (sx := sx) (sy := sy) roms (by simp [hn'])
  simp only [List.nil_append, List.length_nil] at e h
  refine ⟨_, by unfold fillNodeMatrices; dsimp only; rw [← hn, e]; rfl, ?_, ?_, ?_, ?_, ?_⟩
  · rw [length_contactPoints]; exact hn'
  · exact hn'
  · exact h.iRows
  · exact h.vCols
  · intro k p pn hk j hj
    have hkn : k < n := by
      have := (List.getElem?_eq_some_iff.1 hk).1
      rw [length_contactPoints, ← hn'] at this; exact this
    have entry : ∀ i, (IP.mul V).entry i (4 * k + j) = IP.entry i (3 * k) * coord (ray pn head mu j) 0 + IP.entry i (3 * k + 1) * coord (ray pn head mu j) 1 + IP.entry i (3 * k + 2) * coord (ray pn head mu j) 2 := by
      intro i
      simp only [Mx.mul]
      rw [h.iCols, sum_blocks, Finset.sum_eq_single k]
      · have a0 := h.vIn k p pn hk 0 (by omega) j hj
        have a1 := h.vIn k p pn hk 1 (by omega) j hj
        have a2 := h.vIn k p pn hk 2 (by omega) j hj
        rw [Nat.add_zero] at a0
        rw [a0, a1, a2]
      · intro b _ hb
        have a0 := h.vOut b 0 k j (by omega) hj (Or.inl hb)
        have a1 := h.vOut b 1 k j (by omega) hj (Or.inl hb)
        have a2 := h.vOut b 2 k j (by omega) hj (Or.inl hb)
        rw [Nat.add_zero] at a0
        rw [a0, a1, a2]; simp
      · intro hnot; exact absurd (Finset.mem_range.2 hkn) hnot
    have e0 := fun i hi => h.iIn k p pn hk i 0 (by omega) hi
    have e1 := fun i hi => h.iIn k p pn hk i 1 (by omega) hi
    have e2 := fun i hi => h.iIn k p pn hk i 2 (by omega) hi
    simp only [Nat.add_zero] at e0
    have t0 := e0 0 (by omega); have t1 := e0 1 (by omega); have t2 := e0 2 (by omega)
    have u0 := e1 0 (by omega); have u1 := e1 1 (by omega); have u2 := e1 2 (by omega)
    have w0 := e2 0 (by omega); have w1 := e2 1 (by omega); have w2 := e2 2 (by omega)
    simp only [show 3 + 0 = 3 from rfl, show 3 + 1 = 4 from rfl, show 3 + 2 = 5 from rfl] at t0 t1 t2 u0 u1 u2 w0 w1 w2
    simp only [column6, wrench, entry, t0.1, t0.2, t1.1, t1.2, t2.1, t2.2, u0.1, u0.2, u1.1, u1.2, u2.1, u2.2, w0.1, w0.2, w1.1, w1.2, w2.1, w2.2]
    simp only [identity, crossMatrix, coord, Vec3.cross]
    ext <;> simp
    all_goals ring

/-- non-vacuity: two feet with rectangular contacts have eight contact points -/
example : (contactPoints [⟨true, ⟨0, 0, 1⟩, ⟨0, 1, 0⟩⟩, ⟨true, ⟨0, 0, 1⟩, ⟨0, -1, 0⟩⟩] ⟨1, 0, 0⟩ true (1/10) (1/20)).length = 8 := by
  rw [length_contactPoints]; rfl

/-- C65: for every acceleration `a`, `H a + h` is the gravito-inertial wrench: the force `m (a - g)` and its moment in the position of the root. -/
theorem C65_dynamics (roms : List RomContact) (head c : Vec3 ℝ) (rectangular : Bool) (sx sy m mu : ℝ) (a : Vec3 ℝ) :
    ∃ node, fillNodeMatrices roms head c rectangular sx sy m mu = some node ∧
      let row := fun i => node.H i 0 * a.x + node.H i 1 * a.y + node.H i 2 * a.z + node.h i
      ((⟨row 0, row 1, row 2⟩, ⟨row 3, row 4, row 5⟩) : Vec3 ℝ × Vec3 ℝ) = wrench c (Vec3.smul m (a - ⟨0, 0, -(981 / 100)⟩)) := by
  obtain ⟨node, h, _⟩ := C65_blocks roms head c rectangular sx sy m mu
  refine ⟨node, h, ?_⟩
  unfold fillNodeMatrices at h
  dsimp only at h
  rw [Option.map_eq_some_iff] at h
  obtain ⟨st, _, rfl⟩ := h
  simp only [wrench, dynH, dynh, identity, crossMatrix, coord, Vec3.cross]
  ext <;> simp <;> ring

/-- C65: the corners of a rectangular contact have the contact point as mean and lie in the plane of the contact. -/
theorem C65_rectangle (pn center head : Vec3 ℝ) (sx sy : ℝ) :
    Vec3.smul (1 / 4) (corner pn center head sx sy 0 + corner pn center head sx sy 1 + corner pn center head sx sy 2 + corner pn center head sx sy 3) = center ∧
    ∀ i, Vec3.dot pn (corner pn center head sx sy i - center) = 0 := by
  constructor
  · ext <;> simp [corner] <;> ring
  · intro i
    have h1 : Vec3.dot pn (tangents pn head).1 = 0 := by
      unfold tangents
      dsimp only
      split_ifs <;> simp [Vec3.dot, Vec3.cross] <;> ring
    have h2 : Vec3.dot pn (tangents pn head).2 = 0 := by
      rw [show (tangents pn head).2 = Vec3.cross pn (tangents pn head).1 from rfl]
      simp only [Vec3.dot, Vec3.cross]; ring
    simp only [Vec3.dot] at h1 h2 ⊢
    unfold corner
    dsimp only
    split_ifs <;> simp <;> first
      | linear_combination sx * h2 + sy * h1
      | linear_combination sx * h2 - sy * h1
      | linear_combination (-sx) * h2 + sy * h1
      | linear_combination (-sx) * h2 - sy * h1

/-- **C65 is violated** if no contact point could be computed for a ROM: the failure is not taken into account, and the values of the variables that were not initialised are used as normal and contact point. -/
theorem C65_violated (roms roms' : List RomContact) (pn p : Vec3 ℝ) (head c : Vec3 ℝ) (rectangular : Bool) (sx sy m mu : ℝ) :
    fillNodeMatrices (roms ++ ⟨false, pn, p⟩ :: roms') head c rectangular sx sy m mu = fillNodeMatrices (roms ++ ⟨true, pn, p⟩ :: roms') head c rectangular sx sy m mu := by
  simp [fillNodeMatrices]

/-! ### C113: friction cones and feet -/

theorem cross_normSq (a b : Vec3 ℝ) : Vec3.normSq (Vec3.cross a b) = Vec3.normSq a * Vec3.normSq b - Vec3.dot a b ^ 2 := by
  simp only [Vec3.normSq, Vec3.dot, Vec3.cross]; ring

theorem normalize_normSq_le (v : Vec3 ℝ) : (normalize v).normSq = 1 ∨ (normalize v = 0 ∧ v = 0) := by
  unfold normalize
  split_ifs with h
  · left
    have hs : Real.sqrt v.normSq * Real.sqrt v.normSq = v.normSq := Real.mul_self_sqrt (le_of_lt h)
    have hp : 0 < Real.sqrt v.normSq := Real.sqrt_pos.2 h
    have e : (Vec3.smul (1 / Real.sqrt v.normSq) v).normSq = (1 / Real.sqrt v.normSq) * (1 / Real.sqrt v.normSq) * v.normSq := by
      simp [Vec3.normSq, Vec3.dot]; ring
    rw [e]
    generalize Real.sqrt v.normSq = q at *
    rw [← hs]; field_simp
  · right
    have h0 : v.normSq = 0 := le_antisymm (not_lt.1 h) (by simp only [Vec3.normSq, Vec3.dot]; nlinarith [mul_self_nonneg v.x, mul_self_nonneg v.y, mul_self_nonneg v.z])
    simp only [Vec3.normSq, Vec3.dot] at h0
    have hx : v.x = 0 := by nlinarith [mul_self_nonneg v.x, mul_self_nonneg v.y, mul_self_nonneg v.z]
    have hy : v.y = 0 := by nlinarith [mul_self_nonneg v.x, mul_self_nonneg v.y, mul_self_nonneg v.z]
    have hz : v.z = 0 := by nlinarith [mul_self_nonneg v.x, mul_self_nonneg v.y, mul_self_nonneg v.z]
    have : v = 0 := by ext <;> assumption
    exact ⟨this, this⟩

/-- the tangents are orthogonal to the normal and to each other, have the same length, which is at most 1 and not 0 -/
theorem tangents_spec (pn head : Vec3 ℝ) (hn : pn.normSq = 1) :
    Vec3.dot pn (tangents pn head).1 = 0 ∧ Vec3.dot pn (tangents pn head).2 = 0 ∧ Vec3.dot (tangents pn head).1 (tangents pn head).2 = 0 ∧
    (tangents pn head).2.normSq = (tangents pn head).1.normSq ∧ (tangents pn head).1.normSq ≤ 1 ∧ 1 / 1000 ≤ (tangents pn head).1.normSq := by
  have key : ∃ t u : Vec3 ℝ, tangents pn head = (t, Vec3.cross pn t) ∧ t = Vec3.cross pn u ∧ u.normSq ≤ 1 ∧ 1 / 1000 ≤ t.normSq := by
    unfold tangents
    dsimp only
    by_cases h1 : Vec3.dot (Vec3.cross pn (normalize ⟨head.x, head.y, 0⟩)) (Vec3.cross pn (normalize ⟨head.x, head.y, 0⟩)) < 1 / 1000
    · rw [if_pos h1]
      by_cases h2 : Vec3.dot (Vec3.cross pn (⟨1, 0, 0⟩ : Vec3 ℝ)) (Vec3.cross pn ⟨1, 0, 0⟩) < 1 / 1000
      · rw [if_pos h2]
        refine ⟨_, ⟨0, 1, 0⟩, rfl, rfl, by simp [Vec3.normSq, Vec3.dot], ?_⟩
        simp only [Vec3.normSq, Vec3.dot] at hn
        simp only [Vec3.dot, Vec3.cross] at h2
        simp only [Vec3.normSq, Vec3.dot, Vec3.cross]
        nlinarith
      · rw [if_neg h2]
        exact ⟨_, ⟨1, 0, 0⟩, rfl, rfl, by simp [Vec3.normSq, Vec3.dot], not_lt.1 h2⟩
    · rw [if_neg h1, if_neg h1]
      refine ⟨_, normalize ⟨head.x, head.y, 0⟩, rfl, rfl, ?_, not_lt.1 h1⟩
      rcases normalize_normSq_le ⟨head.x, head.y, 0⟩ with h | h
      · exact h.le
      · rw [h.1]; simp [Vec3.normSq, Vec3.dot]
  obtain ⟨t, u, ht, htu, hu, hlow⟩ := key
  have hpt : Vec3.dot pn t = 0 := by rw [htu]; simp only [Vec3.dot, Vec3.cross]; ring
  rw [ht]
  refine ⟨hpt, by simp only [Vec3.dot, Vec3.cross]; ring, by simp only [Vec3.dot, Vec3.cross]; ring, ?_, ?_, hlow⟩
  · dsimp only; rw [cross_normSq, hn, hpt]; ring
  · dsimp only; rw [htu, cross_normSq, hn]; nlinarith [sq_nonneg (Vec3.dot pn u)]

/-- the force is in the friction cone of the normal -/
def InCone (pn : Vec3 ℝ) (mu : ℝ) (f : Vec3 ℝ) : Prop :=
  0 < Vec3.dot f pn ∧ (f - Vec3.smul (Vec3.dot f pn) pn).normSq ≤ mu ^ 2 * Vec3.dot f pn ^ 2

theorem ray_form (pn head : Vec3 ℝ) (mu : ℝ) (j : ℕ) : ∃ t : Vec3 ℝ, (t = (tangents pn head).1 ∨ t = (tangents pn head).2) ∧ ∃ s : ℝ, (s = 1 ∨ s = -1) ∧ ray pn head mu j = normalize (pn + Vec3.smul (s * mu) t) := by
  have e : ∀ t : Vec3 ℝ, pn - Vec3.smul mu t = pn + Vec3.smul (-1 * mu) t := fun t => by ext <;> simp <;> ring
  have e' : ∀ t : Vec3 ℝ, pn + Vec3.smul mu t = pn + Vec3.smul (1 * mu) t := fun t => by ext <;> simp
  match j with
  | 0 => exact ⟨_, Or.inl rfl, 1, Or.inl rfl, by rw [ray, e']⟩
  | 1 => exact ⟨_, Or.inl rfl, -1, Or.inr rfl, by rw [ray, e]⟩
  | 2 => exact ⟨_, Or.inr rfl, 1, Or.inl rfl, by rw [ray, e']⟩
  | j + 3 => exact ⟨_, Or.inr rfl, -1, Or.inr rfl, by rw [← e]; rfl⟩

/-- C113 (part): for a unit normal the four rays are unit vectors of the friction cone, their sum is along the normal, and the corners of the rectangle are at most as far from the contact point, along two orthogonal directions of the plane, as the sizes of the foot. -/
theorem C113_partial (pn head center : Vec3 ℝ) (hn : pn.normSq = 1) (mu sx sy : ℝ) :
    (∀ j, (ray pn head mu j).normSq = 1 ∧ InCone pn mu (ray pn head mu j)) ∧
    (∃ l, 0 < l ∧ ray pn head mu 0 + ray pn head mu 1 + ray pn head mu 2 + ray pn head mu 3 = Vec3.smul l pn) ∧
    ∀ i, ((corner pn center head sx sy i) - center).normSq ≤ sx ^ 2 + sy ^ 2 := by
  obtain ⟨h1, h2, h3, h4, h5, h6⟩ := tangents_spec pn head hn
  have hnorm : ∀ (t : Vec3 ℝ) (s : ℝ), Vec3.dot pn t = 0 → (pn + Vec3.smul s t).normSq = 1 + s ^ 2 * t.normSq := by
    intro t s ht
    simp only [Vec3.normSq, Vec3.dot] at hn ht ⊢
    simp only [Vec3.add_x, Vec3.add_y, Vec3.add_z, Vec3.smul_x, Vec3.smul_y, Vec3.smul_z]
    linear_combination hn + 2 * s * ht
  have hnn : ∀ v : Vec3 ℝ, 0 ≤ v.normSq := fun v => by simp only [Vec3.normSq, Vec3.dot]; nlinarith [mul_self_nonneg v.x, mul_self_nonneg v.y, mul_self_nonneg v.z]
  have hnz : ∀ (t : Vec3 ℝ) (s : ℝ), Vec3.dot pn t = 0 → normalize (pn + Vec3.smul s t) = Vec3.smul (1 / Real.sqrt (1 + s ^ 2 * t.normSq)) (pn + Vec3.smul s t) := by
    intro t s ht
    unfold normalize
    rw [if_pos (by rw [hnorm t s ht]; nlinarith [hnn t, sq_nonneg s, mul_nonneg (sq_nonneg s) (hnn t)]), hnorm t s ht]
  refine ⟨fun j => ?_, ?_, fun i => ?_⟩
  · obtain ⟨t, ht, s, hs, e⟩ := ray_form pn head mu j
    have hpt : Vec3.dot pn t = 0 := by rcases ht with rfl | rfl; exacts [h1, h2]
    have htn : t.normSq ≤ 1 := by rcases ht with rfl | rfl; exacts [h5, by rw [h4]; exact h5]
    have hs2 : (s * mu) ^ 2 = mu ^ 2 := by rcases hs with rfl | rfl <;> ring
    rw [e]
    constructor
    · rcases normalize_normSq_le (pn + Vec3.smul (s * mu) t) with h | h
      · exact h
      · exfalso
        have := hnorm t (s * mu) hpt
        rw [h.2] at this
        simp only [Vec3.normSq, Vec3.dot, Vec3.zero_x, Vec3.zero_y, Vec3.zero_z] at this
        have hh := mul_nonneg (sq_nonneg (s * mu)) (hnn t)
        simp only [Vec3.normSq, Vec3.dot] at hh
        linarith
    · rw [hnz t (s * mu) hpt]
      have hq : 0 < 1 / Real.sqrt (1 + (s * mu) ^ 2 * t.normSq) := by
        refine one_div_pos.2 (Real.sqrt_pos.2 ?_)
        nlinarith [mul_nonneg (sq_nonneg (s * mu)) (hnn t)]
      generalize 1 / Real.sqrt (1 + (s * mu) ^ 2 * t.normSq) = q at hq
      have hdot : Vec3.dot (Vec3.smul q (pn + Vec3.smul (s * mu) t)) pn = q := by
        simp only [Vec3.normSq, Vec3.dot] at hn hpt ⊢
        simp only [Vec3.add_x, Vec3.add_y, Vec3.add_z, Vec3.smul_x, Vec3.smul_y, Vec3.smul_z]
        linear_combination q * hn + q * (s * mu) * hpt
      refine ⟨by rw [hdot]; exact hq, ?_⟩
      rw [hdot]
      have e2 : Vec3.smul q (pn + Vec3.smul (s * mu) t) - Vec3.smul q pn = Vec3.smul (q * (s * mu)) t := by
        ext <;> simp <;> ring
      have e3 : (Vec3.smul (q * (s * mu)) t).normSq = q ^ 2 * (s * mu) ^ 2 * t.normSq := by simp only [Vec3.normSq, Vec3.dot, Vec3.smul_x, Vec3.smul_y, Vec3.smul_z]; ring
      rw [e2, e3, hs2]
      nlinarith [mul_nonneg (sq_nonneg q) (sq_nonneg mu), mul_le_mul_of_nonneg_left htn (mul_nonneg (sq_nonneg q) (sq_nonneg mu))]
  · have hq : ∀ t : Vec3 ℝ, 0 < 1 / Real.sqrt (1 + mu ^ 2 * t.normSq) := fun t => by
      refine one_div_pos.2 (Real.sqrt_pos.2 ?_)
      nlinarith [mul_nonneg (sq_nonneg mu) (hnn t)]
    have e : ∀ t : Vec3 ℝ, pn - Vec3.smul mu t = pn + Vec3.smul (-mu) t := fun t => by ext <;> simp <;> ring
    have hsq : (-mu) ^ 2 = mu ^ 2 := by ring
    have a0 := hnz _ mu h1
    have a1 := hnz _ (-mu) h1
    have a2 := hnz _ mu h2
    have a3 := hnz _ (-mu) h2
    refine ⟨2 * (1 / Real.sqrt (1 + mu ^ 2 * (tangents pn head).1.normSq)) + 2 * (1 / Real.sqrt (1 + mu ^ 2 * (tangents pn head).2.normSq)), ?_, ?_⟩
    · have := hq (tangents pn head).1; have := hq (tangents pn head).2; positivity
    · simp only [ray]
      rw [e, e, a0, a1, a2, a3, hsq]
      generalize 1 / Real.sqrt (1 + mu ^ 2 * (tangents pn head).1.normSq) = q1
      generalize 1 / Real.sqrt (1 + mu ^ 2 * (tangents pn head).2.normSq) = q2
      ext <;> simp <;> ring
  · have hc : ((corner pn center head sx sy i) - center).normSq = sx ^ 2 * (tangents pn head).2.normSq + sy ^ 2 * (tangents pn head).1.normSq := by
      simp only [Vec3.normSq, Vec3.dot] at h3 ⊢
      unfold corner
      dsimp only
      split_ifs <;> simp only [Vec3.add_x, Vec3.add_y, Vec3.add_z, Vec3.sub_x, Vec3.sub_y, Vec3.sub_z, Vec3.smul_x, Vec3.smul_y, Vec3.smul_z] <;>
        first | linear_combination 2 * sx * sy * h3 | linear_combination (-2) * sx * sy * h3
    rw [hc, h4]
    nlinarith [mul_le_mul_of_nonneg_left h5 (sq_nonneg sx), mul_le_mul_of_nonneg_left h5 (sq_nonneg sy)]

/-- C113 (part): on a horizontal surface the rays are exactly on the friction cone and the corners are those of the foot's rectangle, along the direction of the head. -/
theorem C113_flat_partial (head center : Vec3 ℝ) (hh : head.x ≠ 0 ∨ head.y ≠ 0) (mu sx sy : ℝ) :
    (∀ j, (ray ⟨0, 0, 1⟩ head mu j - Vec3.smul (Vec3.dot (ray ⟨0, 0, 1⟩ head mu j) ⟨0, 0, 1⟩) ⟨0, 0, 1⟩).normSq = mu ^ 2 * Vec3.dot (ray ⟨0, 0, 1⟩ head mu j) ⟨0, 0, 1⟩ ^ 2) ∧
    ∃ u : Vec3 ℝ, u = normalize ⟨head.x, head.y, 0⟩ ∧ u.normSq = 1 ∧
      ∀ p, (∃ i, p = corner ⟨0, 0, 1⟩ center head sx sy i) ↔ ∃ a b : ℝ, (a = sx ∨ a = -sx) ∧ (b = sy ∨ b = -sy) ∧ p = center + Vec3.smul a u + Vec3.smul b ⟨-u.y, u.x, 0⟩ := by
  set u := normalize ⟨head.x, head.y, 0⟩ with hu
  have hu1 : u.normSq = 1 := by
    rcases normalize_normSq_le ⟨head.x, head.y, 0⟩ with h | h
    · exact h
    · exfalso
      have hx := congrArg Vec3.x h.2; have hy := congrArg Vec3.y h.2
      simp at hx hy
      rcases hh with h | h
      · exact h hx
      · exact h hy
  have hz : u.z = 0 := by
    rw [hu]; unfold normalize; split_ifs <;> simp
  have hsq : u.x * u.x + u.y * u.y = 1 := by
    simp only [Vec3.normSq, Vec3.dot, hz] at hu1; linarith
  have ht : tangents ⟨0, 0, 1⟩ head = (⟨-u.y, u.x, 0⟩, ⟨-u.x, -u.y, 0⟩) := by
    unfold tangents
    dsimp only
    rw [← hu]
    have e : Vec3.cross (⟨0, 0, 1⟩ : Vec3 ℝ) u = ⟨-u.y, u.x, 0⟩ := by
      ext <;> simp [Vec3.cross]
    rw [e]
    have hge : ¬ Vec3.dot (⟨-u.y, u.x, 0⟩ : Vec3 ℝ) ⟨-u.y, u.x, 0⟩ < 1 / 1000 := by
      simp only [Vec3.dot]; nlinarith
    rw [if_neg hge, if_neg hge]
    ext <;> simp [Vec3.cross]
  refine ⟨fun j => ?_, u, rfl, hu1, fun p => ?_⟩
  · obtain ⟨t, htt, s, hs, e⟩ := ray_form ⟨0, 0, 1⟩ head mu j
    rw [ht] at htt
    have hs2 : s ^ 2 = 1 := by rcases hs with rfl | rfl <;> norm_num
    have h1 : t.z = 0 ∧ t.x * t.x + t.y * t.y = 1 := by
      rcases htt with rfl | rfl
      · exact ⟨rfl, by simp only; linarith⟩
      · exact ⟨rfl, by simp only; linarith⟩
    rw [e]
    unfold normalize
    split_ifs with hc
    · generalize 1 / Real.sqrt (Vec3.normSq (⟨0, 0, 1⟩ + Vec3.smul (s * mu) t)) = q
      simp [Vec3.normSq, Vec3.dot, h1.1]
      linear_combination (q ^ 2 * mu ^ 2) * hs2 + q ^ 2 * (s * mu) ^ 2 * h1.2
    · simp [Vec3.normSq, Vec3.dot, h1.1]
      linear_combination (mu ^ 2) * hs2 + (s * mu) ^ 2 * h1.2
  · unfold corner
    rw [ht]
    dsimp only
    constructor
    · rintro ⟨i, rfl⟩
      by_cases h1 : i < 2 <;> by_cases h2 : i % 2 = 0
      · rw [if_pos h1, if_pos h2]
        exact ⟨-sx, sy, Or.inr rfl, Or.inl rfl, by ext <;> simp [hz]⟩
      · rw [if_pos h1, if_neg h2]
        exact ⟨-sx, -sy, Or.inr rfl, Or.inr rfl, by ext <;> simp [hz] <;> ring⟩
      · rw [if_neg h1, if_pos h2]
        exact ⟨sx, sy, Or.inl rfl, Or.inl rfl, by ext <;> simp [hz] <;> ring⟩
      · rw [if_neg h1, if_neg h2]
        exact ⟨sx, -sy, Or.inl rfl, Or.inr rfl, by ext <;> simp [hz] <;> ring⟩
    · rintro ⟨a, b, ha, hb, rfl⟩
      rcases ha with rfl | rfl <;> rcases hb with rfl | rfl
      · exact ⟨2, by ext <;> simp [hz]⟩
      · exact ⟨3, by ext <;> simp [hz] <;> ring⟩
      · exact ⟨0, by ext <;> simp [hz]⟩
      · exact ⟨1, by ext <;> simp [hz] <;> ring⟩

/-- **C113 is violated** on a slope: the tangents are not normalised.  With the normal (3/5, 0, 4/5) and the head along x, the first ray has the slope 4/5 mu instead of mu, and the corners are at 4/5 of the foot's sizes. -/
theorem C113_violated (center : Vec3 ℝ) (sx sy mu : ℝ) :
    ((tangents ⟨3 / 5, 0, 4 / 5⟩ ⟨1, 0, 0⟩).1.normSq = (4 / 5) ^ 2 ∧ (tangents ⟨3 / 5, 0, 4 / 5⟩ ⟨1, 0, 0⟩).2.normSq = (4 / 5) ^ 2) ∧
    (corner ⟨3 / 5, 0, 4 / 5⟩ center ⟨1, 0, 0⟩ sx sy 0 - center).normSq = (4 / 5) ^ 2 * (sx ^ 2 + sy ^ 2) := by
  have hnorm : normalize (⟨1, 0, 0⟩ : Vec3 ℝ) = ⟨1, 0, 0⟩ := by
    unfold normalize; rw [if_pos (by simp [Vec3.normSq, Vec3.dot])]; ext <;> simp [Vec3.normSq, Vec3.dot]
  have ht : tangents ⟨3 / 5, 0, 4 / 5⟩ ⟨1, 0, 0⟩ = (⟨0, 4 / 5, 0⟩, ⟨-(4 / 5 * (4 / 5)), 0, 3 / 5 * (4 / 5)⟩) := by
    unfold tangents
    dsimp only
    rw [hnorm]
    have e : Vec3.cross (⟨3 / 5, 0, 4 / 5⟩ : Vec3 ℝ) ⟨1, 0, 0⟩ = ⟨0, 4 / 5, 0⟩ := by ext <;> simp [Vec3.cross]
    rw [e]
    have hge : ¬ Vec3.dot (⟨0, 4 / 5, 0⟩ : Vec3 ℝ) ⟨0, 4 / 5, 0⟩ < 1 / 1000 := by norm_num [Vec3.dot]
    rw [if_neg hge, if_neg hge]
    ext <;> simp [Vec3.cross]
  refine ⟨⟨?_, ?_⟩, ?_⟩
  · rw [ht]; norm_num [Vec3.normSq, Vec3.dot]
  · rw [ht]; norm_num [Vec3.normSq, Vec3.dot]
  · unfold corner; rw [ht]; simp [Vec3.normSq, Vec3.dot]; ring

/-! ### C114: the contact surface of a ROM -/

theorem bestLoop_spec {R : Type _} (dist : R → Option ℝ) (l : List R) (st : Option ℝ × R) :
    (l.foldl (bestLoop dist) st = st ∧ (∀ r ∈ l, ∀ d, dist r = some d → ∃ m, st.1 = some m ∧ m ≤ d)) ∨
    ∃ pre r post d, l = pre ++ r :: post ∧ dist r = some d ∧ l.foldl (bestLoop dist) st = (some d, r) ∧
      (∀ m, st.1 = some m → d < m) ∧ (∀ r' ∈ pre, ∀ d', dist r' = some d' → d < d') ∧ ∀ r' ∈ post, ∀ d', dist r' = some d' → d ≤ d' := by
  induction l generalizing st with
  | nil => left; simp
  | cons a l ih =>
    simp only [List.foldl_cons]
    rcases ih (bestLoop dist st a) with ⟨e, h⟩ | ⟨pre, r, post, d, hl, hd, e, h1, h2, h3⟩
    · cases ha : dist a with
      | none =>
        have hb : bestLoop dist st a = st := by simp [bestLoop, ha]
        rw [hb] at e h ⊢
        left
        refine ⟨e, fun r hr d hd => ?_⟩
        rcases List.mem_cons.1 hr with rfl | hr
        · rw [ha] at hd; cases hd
        · exact h r hr d hd
      | some d =>
        by_cases hlt : ∀ m, st.1 = some m → d < m
        · have hb : bestLoop dist st a = (some d, a) := by
            unfold bestLoop
            rw [ha]
            cases hs : st.1 with
            | none => rfl
            | some m => exact if_pos (hlt m hs)
          rw [hb] at e h ⊢
          right
          refine ⟨[], a, l, d, rfl, ha, e, hlt, by simp, fun r' hr' d' hd' => ?_⟩
          obtain ⟨m, hm, hle⟩ := h r' hr' d' hd'
          simp only [Option.some.injEq] at hm
          subst hm; exact hle
        · push Not at hlt
          obtain ⟨m, hm, hle⟩ := hlt
          have hb : bestLoop dist st a = st := by
            unfold bestLoop
            rw [ha, hm]
            exact if_neg (not_lt.2 hle)
          rw [hb] at e h ⊢
          left
          refine ⟨e, fun r hr d' hd' => ?_⟩
          rcases List.mem_cons.1 hr with rfl | hr
          · rw [ha] at hd'; cases hd'; exact ⟨m, hm, hle⟩
          · exact h r hr d' hd'
    · right
      refine ⟨a :: pre, r, post, d, by rw [hl]; rfl, hd, e, ?_, ?_, h3⟩
      · intro m hm
        cases ha : dist a with
        | none =>
          have hb : bestLoop dist st a = st := by simp [bestLoop, ha]
          rw [hb] at h1; exact h1 m hm
        | some da =>
          by_cases hlt : da < m
          · have hb : bestLoop dist st a = (some da, a) := by unfold bestLoop; rw [ha, hm]; exact if_pos hlt
            rw [hb] at h1; exact (h1 da rfl).trans hlt
          · have hb : bestLoop dist st a = st := by unfold bestLoop; rw [ha, hm]; exact if_neg hlt
            rw [hb] at h1; exact h1 m hm
      · intro r' hr' d' hd'
        rcases List.mem_cons.1 hr' with rfl | hr'
        · cases hs : st.1 with
          | none =>
            have hb : bestLoop dist st r' = (some d', r') := by unfold bestLoop; rw [hd', hs]
            rw [hb] at h1; exact h1 d' rfl
          | some m =>
            by_cases hlt : d' < m
            · have hb : bestLoop dist st r' = (some d', r') := by unfold bestLoop; rw [hd', hs]; exact if_pos hlt
              rw [hb] at h1; exact h1 d' rfl
            · have hb : bestLoop dist st r' = st := by unfold bestLoop; rw [hd', hs]; exact if_neg hlt
              rw [hb] at h1; exact (h1 m hs).trans_le (not_lt.1 hlt)
        · exact h2 r' hr' d' hd'

/-- C114: of several surfaces in collision with a ROM the first one whose intersection is nearest to the reference is chosen; if none intersects, the first one of the list. -/
theorem C114_best {R : Type _} (dist : R → Option ℝ) (current r0 r1 : R) (rest : List R) :
    ((∀ r ∈ r0 :: r1 :: rest, dist r = none) ∧ chooseBest dist current (r0 :: r1 :: rest) = r0) ∨
    ∃ pre post d, r0 :: r1 :: rest = pre ++ chooseBest dist current (r0 :: r1 :: rest) :: post ∧ dist (chooseBest dist current (r0 :: r1 :: rest)) = some d ∧
      (∀ r ∈ pre, ∀ d', dist r = some d' → d < d') ∧ ∀ r ∈ post, ∀ d', dist r = some d' → d ≤ d' := by
  have hc : chooseBest dist current (r0 :: r1 :: rest) = ((r0 :: r1 :: rest).foldl (bestLoop dist) (none, r0)).2 := rfl
  rw [hc]
  rcases bestLoop_spec dist (r0 :: r1 :: rest) (none, r0) with ⟨e, h⟩ | ⟨pre, r, post, d, hl, hd, e, _, h2, h3⟩
  · left
    refine ⟨fun r hr => ?_, by rw [e]⟩
    cases hd : dist r with
    | none => rfl
    | some d => obtain ⟨m, hm, _⟩ := h r hr d hd; cases hm
  · right
    rw [e]
    exact ⟨pre, post, d, hl, hd, h2, h3⟩

/-- C114: a ROM with at most one surface keeps its report. -/
theorem C114_single {R : Type _} (dist : R → Option ℝ) (current : R) (reports : List R) (h : reports.length ≤ 1) : chooseBest dist current reports = current := by
  match reports, h with
  | [], _ => rfl
  | [_], _ => rfl

/-- C114: if all reports can be cast, each ROM gets the best of its own surfaces. -/
theorem C114_all {N R : Type _} (dist : N → R → Option ℝ) (roms : List (N × Option (R × List R))) (h : ∀ e ∈ roms, e.2 ≠ none) :
    chooseAll dist roms = roms.map fun e => (e.1, e.2.map fun cr => (chooseBest (dist e.1) cr.1 cr.2, cr.2)) := by
  induction roms with
  | nil => rfl
  | cons e roms ih =>
    obtain ⟨n, o⟩ := e
    cases o with
    | none => exact absurd rfl (h (n, none) (by simp))
    | some cr =>
      obtain ⟨c, r⟩ := cr
      simp only [chooseAll, List.map_cons, Option.map_some]
      rw [ih fun e he => h e (by simp [he])]

/-- **C114 is violated** behind a ROM whose report cannot be cast: the ROMs after it keep their first surface. -/
theorem C114_violated {N R : Type _} (dist : N → R → Option ℝ) (n : N) (roms : List (N × Option (R × List R))) : chooseAll dist ((n, none) :: roms) = (n, none) :: roms := rfl

/-- C114: without reference position, the contact point is the mean of the vertices of the intersection, which is in their convex hull; with one, it is on the plane of the surface; when the intersection is empty there is none. -/
theorem C114_point (hull : List (Vec3 ℝ)) (pn reference : Vec3 ℝ) (root : Vec3 ℝ → Vec3 ℝ) :
    (approximateContactPoint none pn reference root = none ∧ approximateContactPoint (some []) pn reference root = none) ∧
    (2 ≤ hull.length → reference = 0 → ∃ p, approximateContactPoint (some hull) pn reference root = some (some p) ∧ (p.x, p.y, p.z) ∈ _root_.convexHull ℝ (Geom.xyzSet hull.dropLast)) ∧
    (3 ≤ hull.length → reference ≠ 0 → pn.normSq = 1 → ∀ p0, hull.head? = some p0 → (∀ v ∈ hull, Geom.OnPlane pn p0 v) → ∀ p, approximateContactPoint (some hull) pn reference root = some (some p) →
      Geom.OnPlane pn p0 p ∧ (Geom.InsideCW hull (Geom.projectPointOnPlane (root reference) pn p0) → p = Geom.projectPointOnPlane (root reference) pn p0)) := by
  refine ⟨⟨rfl, rfl⟩, ?_, ?_⟩
  · intro hlen href
    match hull, hlen with
    | a :: l, hlen =>
      refine ⟨Geom.center (a :: l), ?_, Geom.C87_center _ hlen⟩
      simp [approximateContactPoint, href, Vec3.normSq, Vec3.dot]
  · intro hlen href hpn p0 hp0 hplane p hp
    match hull, hlen with
    | a :: l, hlen =>
      simp only [List.head?_cons, Option.some.injEq] at hp0
      subst hp0
      have hne : Real.sqrt reference.normSq ≠ 0 := by
        intro h0
        apply href
        rw [Real.sqrt_eq_zero'] at h0
        simp only [Vec3.normSq, Vec3.dot] at h0
        ext
        · simp; nlinarith [mul_self_nonneg reference.x, mul_self_nonneg reference.y, mul_self_nonneg reference.z]
        · simp; nlinarith [mul_self_nonneg reference.x, mul_self_nonneg reference.y, mul_self_nonneg reference.z]
        · simp; nlinarith [mul_self_nonneg reference.x, mul_self_nonneg reference.y, mul_self_nonneg reference.z]
      simp only [approximateContactPoint] at hp
      rw [if_pos hne, Option.some.injEq, Option.map_eq_some_iff] at hp
      obtain ⟨⟨r, d⟩, hr, rfl⟩ := hp
      obtain ⟨_, h2, h3, _⟩ := Geom.C90_project_partial (a :: l) (root reference) pn a r d hpn hlen hplane hr
      exact ⟨h2, h3⟩

/-- C114: what is known of the surface that is used.  It is not empty; seen from above its vertices are inside the surface of the environment; and they are in the convex hull of points that are on edges of the
ROM, nearer to the plane of that surface than twice the tolerance, hence they are that near themselves.  A failure means that no edge of the ROM meets the plane, or that the clipping left nothing. -/
theorem C114_surface {K : Type _} [Field K] [LinearOrder K] [IsStrictOrderedRing K] (rom : List (Vec3 K × Vec3 K × Vec3 K)) (env : List (Vec3 K)) (pn p0 : Vec3 K) : ∃ bound, ∀ fuel, bound ≤ fuel →
    (∀ inter, intersectionSurface fuel rom env pn p0 = some (some inter) → inter ≠ [] ∧ ∀ v ∈ inter, Geom.InsideCW env v ∧ |Vec3.dot pn (v - p0)| < 2 * Geom.epsilon ∧
      (v.x, v.y, v.z) ∈ _root_.convexHull K {q : K × K × K | ∃ t ∈ rom, Geom.OnTriangleEdge t ⟨q.1, q.2.1, q.2.2⟩}) ∧
    (intersectionSurface fuel rom env pn p0 = some none →
      (¬ ∃ t ∈ rom, ∃ p, Geom.OnTriangleEdge t p ∧ Geom.OnPlane pn p0 p) ∨
      ∃ plane, plane ≠ [] ∧ Geom.intersectPolygonePlane fuel rom pn p0 = some plane ∧ Geom.compute3DIntersection fuel plane env = some []) := by
  obtain ⟨bound, hb⟩ := Geom.C88_mesh rom pn p0
  refine ⟨bound, fun fuel hf => ?_⟩
  obtain ⟨plane, h1, -, h3, h4⟩ := hb fuel hf
  have e : intersectionSurface fuel rom env pn p0 = if plane.length > 0 then (match Geom.compute3DIntersection fuel plane env with
      | none => none
      | some inter => if inter.length = 0 then some none else some (some inter)) else some none := by
    unfold intersectionSurface
    rw [h1]
    rfl
  rw [e]
  by_cases hp : plane.length > 0
  · rw [if_pos hp]
    cases hc : Geom.compute3DIntersection fuel plane env with
    | none => exact ⟨fun inter h => by simp at h, fun h => by simp at h⟩
    | some out =>
      dsimp only
      by_cases ho : out.length = 0
      · rw [if_pos ho]
        refine ⟨fun inter h => by simp at h, fun _ => Or.inr ⟨plane, ?_, h1, ?_⟩⟩
        · intro h; rw [h] at hp; simp at hp
        · rw [List.length_eq_zero_iff.1 ho] at hc; exact hc
      · rw [if_neg ho]
        refine ⟨fun inter h => ?_, fun h => by simp at h⟩
        simp only [Option.some.injEq] at h
        subst h
        refine ⟨fun h => ho (by rw [h]; rfl), fun v hv => ?_⟩
        obtain ⟨c1, c2⟩ := Geom.C50_clip3D fuel plane env out hc v hv
        refine ⟨c1, ?_, ?_⟩
        · have hconv : Convex K {q : K × K × K | |Vec3.dot pn ((⟨q.1, q.2.1, q.2.2⟩ : Vec3 K) - p0)| < 2 * Geom.epsilon} := by
            intro a ha b hb s t hs ht hst
            simp only [Set.mem_ofPred_eq] at ha hb ⊢
            have key : Vec3.dot pn ((⟨(s • a + t • b).1, (s • a + t • b).2.1, (s • a + t • b).2.2⟩ : Vec3 K) - p0) =
                s * Vec3.dot pn ((⟨a.1, a.2.1, a.2.2⟩ : Vec3 K) - p0) + t * Vec3.dot pn ((⟨b.1, b.2.1, b.2.2⟩ : Vec3 K) - p0) := by
              have ht' : t = 1 - s := by linarith
              subst ht'
              simp only [Vec3.dot, Vec3.sub_x, Vec3.sub_y, Vec3.sub_z, Prod.fst_add, Prod.snd_add, Prod.smul_fst, Prod.smul_snd, smul_eq_mul]
              ring
            rw [key]
            rw [abs_lt] at ha hb ⊢
            exact (convex_Ioo (-(2 * Geom.epsilon)) (2 * Geom.epsilon)) ha hb hs ht hst
          have := convexHull_min (s := Geom.xyzSet plane) (t := {q : K × K × K | |Vec3.dot pn ((⟨q.1, q.2.1, q.2.2⟩ : Vec3 K) - p0)| < 2 * Geom.epsilon}) (by
            rintro q ⟨w, hw, rfl⟩
            exact (h3 w hw).2) hconv c2
          exact this
        · refine convexHull_mono ?_ c2
          rintro q ⟨w, hw, rfl⟩
          exact (h3 w hw).1
  · rw [if_neg hp]
    refine ⟨fun inter h => by simp at h, fun _ => Or.inl fun h => ?_⟩
    have := h4 h
    exact hp (List.length_pos_iff.2 this)

/-- C114_surface applies: a pyramid standing on its tip crosses the ground, on a square surface -/
example : intersectionSurface 20 [((⟨0, 0, -1⟩ : Vec3 ℚ), ⟨2, 0, 1⟩, ⟨0, 2, 1⟩), (⟨0, 0, -1⟩, ⟨0, 2, 1⟩, ⟨-2, 0, 1⟩), (⟨0, 0, -1⟩, ⟨-2, 0, 1⟩, ⟨0, -2, 1⟩), (⟨0, 0, -1⟩, ⟨0, -2, 1⟩, ⟨2, 0, 1⟩)]
    [⟨0, 0, 0⟩, ⟨0, 2, 0⟩, ⟨2, 2, 0⟩, ⟨2, 0, 0⟩, ⟨0, 0, 0⟩] ⟨0, 0, 1⟩ ⟨0, 0, 0⟩ = some (some [⟨0, 0, 0⟩, ⟨0, 1, 0⟩, ⟨1, 0, 0⟩, ⟨0, 0, 0⟩]) := by decide +kernel

/-- C113: the direction of the head is the first axis turned by the orientation of the root (quaternion product `q i q*`). -/
theorem C113_head (w x y z : ℝ) (h : w * w + x * x + y * y + z * z = 1) :
    (⟨w, x, y, z⟩ : Quaternion ℝ) * ⟨0, 1, 0, 0⟩ * star (⟨w, x, y, z⟩ : Quaternion ℝ) = ⟨0, (headOf w x y z).x, (headOf w x y z).y, (headOf w x y z).z⟩ := by
  ext <;> simp [headOf] <;> linarith

/-- non-vacuity: a quarter turn about the vertical axis sends the head from x to y -/
example : headOf (Real.sqrt 2 / 2) 0 0 (Real.sqrt 2 / 2) = ⟨0, 1, 0⟩ := by
  have h : Real.sqrt 2 * Real.sqrt 2 = 2 := Real.mul_self_sqrt (by norm_num)
  ext
  · simp only [headOf]; linarith
  · simp only [headOf]; linarith
  · simp only [headOf]; linarith

end Node
end Rbprm
