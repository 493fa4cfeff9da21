import Verif.Model.Stability
import Mathlib.Tactic.Ring
import Mathlib.Tactic.Linarith
import Mathlib.Tactic.NormNum
import Mathlib.Tactic.SplitIfs
import Mathlib.Data.Nat.Basic
import Mathlib.Algebra.Order.Field.Rat
set_option linter.unusedSectionVars false
/-! # C48: equilibrium verdicts -/
namespace Rbprm
namespace Stability
variable {N K : Type _} [LinearOrder N] [Field K] [LinearOrder K] [IsStrictOrderedRing K]

/-! ## Specification -/

/-- the verdict for a problem: the solver's answer if it is optimal, a negative number otherwise -/
inductive Verdict (sv : Solver K) (maxDouble : K) (pb : Problem K) (com : Vec3 K) (acc : Option (Vec3 K)) : K → Prop
  | stable : pb.alg = .PP → sv.check pb com acc = (.optimal, true) → Verdict sv maxDouble pb com acc maxDouble
  | unstable : pb.alg = .PP → sv.check pb com acc = (.optimal, false) → Verdict sv maxDouble pb com acc (-1)
  | robust (r : K) : pb.alg ≠ .PP → sv.robustness pb com acc = (.optimal, r) → Verdict sv maxDouble pb com acc r
  | failedPP (r : K) : pb.alg = .PP → (sv.check pb com acc).1 ≠ .optimal → r < 0 → Verdict sv maxDouble pb com acc r
  | failed (r : K) : pb.alg ≠ .PP → (sv.robustness pb com acc).1 ≠ .optimal → r < 0 → Verdict sv maxDouble pb com acc r

/-- the acceleration of the test: the given one, or, when it is zero and the robot has at least six extra degrees of freedom, the fourth to sixth of them -/
def AccOf (env : StabEnv N K) (state : State N K) (acc a : Vec3 K) : Prop :=
  (acc ≠ 0 ∨ env.extraDim < 6) ∧ a = acc ∨
    acc = 0 ∧ ∃ q e, state.configuration = q ++ e ∧ e.length = env.extraDim ∧ e[3]? = some a.x ∧ e[4]? = some a.y ∧ e[5]? = some a.z

/-- the sum of points -/
def total : List (Vec3 K) → Vec3 K
  | [] => 0
  | p :: l => p + total l

/-- the names of the contacts of a state that grasp, or that do not -/
def contactsWith (env : StabEnv N K) (state : State N K) (g : Bool) : List N :=
  state.contactPositions.keys.filter fun n => decide (∃ l, env.limbs.find? n = some l ∧ l.grasps = g)

/-! ## The problem that is given to the library -/

/-- the points of a contact -/
structure SupportOf (env : StabEnv N K) (state : State N K) (n : N) (pts : List (Vec3 K)) : Prop where
  ex : ∃ limb p M, env.limbs.find? n = some limb ∧ state.contactPositions.find? n = some p ∧
    pts.length = (if limb.point then 1 else 4) ∧
    -- the rotation is that of the contact, or the rotation of the effector followed by the one that aligns its normal with the contact normal
    (limb.point = false → state.contactRotation.find? n = some M) ∧
    (limb.point = true → ∃ nrm, state.contactNormals.find? n = some nrm ∧ ∀ v, M.mulVec v =
      (env.rotationBetween ((env.effectorRotation n state.configuration).mulVec limb.normal) nrm).mulVec ((env.effectorRotation n state.configuration).mulVec v)) ∧
    -- the mean of the points is the position of the contact plus the rotated offset
    total pts = Vec3.smul (pts.length : K) (p + Mat3.mulVec M limb.offset)

theorem mulVec_add (M : Mat3 K) (a b : Vec3 K) : M.mulVec (a + b) = M.mulVec a + M.mulVec b := by
  ext <;> simp [Mat3.mulVec, Vec3.dot] <;> ring

theorem mulVec_neg (M : Mat3 K) (a : Vec3 K) : M.mulVec (-a) = - M.mulVec a := by
  ext <;> simp [Mat3.mulVec, Vec3.dot] <;> ring

theorem rectangle_spec (env : StabEnv N K) (state : State N K) (name : N) (limb : SLimb K) (lx ly : K) (pts : List (Vec3 K))
    (h : rectangleContact env state name limb lx ly = some pts) :
    ∃ p M, state.contactPositions.find? name = some p ∧ state.contactRotation.find? name = some M ∧ pts.length = 4 ∧
      total pts = Vec3.smul (4 : K) (p + Mat3.mulVec M limb.offset) := by
  unfold rectangleContact at h
  simp only at h
  cases hp : state.contactPositions.find? name with
  | none => simp [hp] at h
  | some p =>
    cases hr : state.contactRotation.find? name with
    | none => simp [hp, hr] at h
    | some M =>
      simp only [hp, hr, Option.some.injEq] at h
      refine ⟨p, M, rfl, rfl, by rw [← h]; rfl, ?_⟩
      rw [← h]
      ext <;> simp [total, Mat3.mulVec, Vec3.dot] <;> ring

theorem contactRows_spec (env : StabEnv N K) (state : State N K) (fx fy : K) (n : N) (r : List (Vec3 K) × List (Vec3 K))
    (h : contactRows env state fx fy n = some r) :
    SupportOf env state n r.1 ∧ ∃ limb nrm, env.limbs.find? n = some limb ∧ state.contactNormals.find? n = some nrm ∧
      r.2 = List.replicate r.1.length (if limb.grasps then nrm else env.normalize nrm) := by
  unfold contactRows at h
  cases hl : env.limbs.find? n with
  | none => simp [hl] at h
  | some limb =>
    cases hn : state.contactNormals.find? n with
    | none => simp [hl, hn] at h
    | some nrm =>
      simp only [hl, hn] at h
      unfold numContactPoints at h
      cases hp : limb.point with
      | true =>
        simp only [hp, if_true, gt_iff_lt, lt_self_iff_false, if_false] at h
        unfold pointContact at h
        cases hpos : state.contactPositions.find? n with
        | none => simp [hpos] at h
        | some p =>
          simp only [hpos, hn, Option.map_some, Option.some.injEq] at h
          subst h
          refine ⟨⟨limb, p, mulMat (env.rotationBetween ((env.effectorRotation n state.configuration).mulVec limb.normal) nrm) (env.effectorRotation n state.configuration),
            hl, hpos, by simp [hp], by simp [hp], fun _ => ⟨nrm, hn, fun v => ?_⟩, ?_⟩, limb, nrm, rfl, rfl, by simp⟩
          · ext <;> simp [mulMat, Mat3.mulVec, Mat3.transpose, Vec3.dot] <;> ring
          · ext <;> simp [total]
      | false =>
        simp only [hp, Bool.false_eq_true, if_false, gt_iff_lt, Nat.one_lt_ofNat, if_true] at h
        obtain ⟨pts, hpts, rfl⟩ : ∃ pts, (if limb.grasps then rectangleContact env state n limb 0 0 else rectangleContact env state n limb fx fy) = some pts ∧
            (pts, List.replicate 4 (if limb.grasps then nrm else env.normalize nrm)) = r := by
          simpa [Option.map_eq_some_iff] using h
        obtain ⟨p, M, h1, h2, h3, h4⟩ : ∃ p M, state.contactPositions.find? n = some p ∧ state.contactRotation.find? n = some M ∧ pts.length = 4 ∧
            total pts = Vec3.smul (4 : K) (p + Mat3.mulVec M limb.offset) := by
          split_ifs at hpts
          · exact rectangle_spec _ _ _ _ _ _ _ hpts
          · exact rectangle_spec _ _ _ _ _ _ _ hpts
        refine ⟨⟨limb, p, M, hl, h1, by simp [hp, h3], fun _ => h2, by simp [hp], ?_⟩, limb, nrm, rfl, rfl, by simp [h3]⟩
        simp only
        rw [h4, h3]; norm_num

theorem allRows_spec (env : StabEnv N K) (state : State N K) (fx fy : K) (l : List N) (r : List (Vec3 K) × List (Vec3 K))
    (h : allRows env state fx fy l = some r) :
    (∀ n ∈ l, (contactRows env state fx fy n).isSome) ∧
      r.1 = l.flatMap (fun n => ((contactRows env state fx fy n).getD ([], [])).1) ∧
      r.2 = l.flatMap (fun n => ((contactRows env state fx fy n).getD ([], [])).2) := by
  induction l generalizing r with
  | nil => simp only [allRows, Option.some.injEq] at h; subst h; simp
  | cons n l ih =>
    unfold allRows at h
    cases h1 : contactRows env state fx fy n with
    | none => simp [h1] at h
    | some a =>
      cases h2 : allRows env state fx fy l with
      | none => simp [h1, h2] at h
      | some b =>
        simp only [h1, h2, Option.some.injEq] at h
        subst h
        obtain ⟨i1, i2, i3⟩ := ih b h2
        refine ⟨?_, ?_, ?_⟩
        · intro m hm
          rcases List.mem_cons.1 hm with rfl | hm
          · simp [h1]
          · exact i1 m hm
        · simp [h1, i2]
        · simp [h1, i3]

theorem filter_grasp (env : StabEnv N K) (state : State N K) (h : state.contactPositions.keys.all (fun n => env.limbs.has n) = true) :
    state.contactPositions.keys.filter (fun n => grasping env n) = contactsWith env state true ∧
      state.contactPositions.keys.filter (fun n => !grasping env n) = contactsWith env state false := by
  rw [List.all_eq_true] at h
  constructor <;>
  · unfold contactsWith
    apply List.filter_congr
    intro n hn
    have := h n hn
    unfold AMap.has at this
    obtain ⟨l, hl⟩ := Option.isSome_iff_exists.1 this
    unfold grasping
    simp [hl]

/-- **C48**, contact points.  When the library accepts the problem: the support points of the contacts that do not grasp come first, then those of the contacts that
grasp, in each part in the order of the names; every contact contributes one point or four, whose mean is the contact position plus the rotated offset, and as many
copies of its normal, normalised unless it grasps; the algorithm is PP when a contact grasps and the given one otherwise. -/
theorem C48_rows (env : StabEnv N K) (sv : Solver K) (state : State N K) (alg : Alg) (fx fy : K) (com : Vec3 K) (pb : Problem K)
    (h : setupLibrary env sv state alg fx fy = some (com, pb)) :
    ∃ (pts : N → List (Vec3 K)) (nrm : N → Vec3 K),
      (∀ n ∈ state.contactPositions.keys, SupportOf env state n (pts n) ∧ ∃ limb v, env.limbs.find? n = some limb ∧ state.contactNormals.find? n = some v ∧
        nrm n = if limb.grasps then v else env.normalize v) ∧
      pb.positions = (contactsWith env state false).flatMap pts ++ (contactsWith env state true).flatMap pts ∧
      pb.normals = (contactsWith env state false).flatMap (fun n => List.replicate (pts n).length (nrm n)) ++
        (contactsWith env state true).flatMap (fun n => List.replicate (pts n).length (nrm n)) ∧
      pb.friction = env.friction ∧ pb.alg = (if contactsWith env state true ≠ [] then .PP else alg) ∧
      com = env.centerOfMass state.configuration ∧ sv.setNewContacts pb = true := by
  unfold setupLibrary at h
  simp only at h
  by_cases hall : (state.contactPositions.keys.all (fun n => env.limbs.has n)) = true
  case neg => rw [if_neg hall] at h; simp at h
  rw [if_pos hall] at h
  obtain ⟨f1, f2⟩ := filter_grasp env state hall
  rw [f1, f2] at h
  cases h1 : allRows env state fx fy (contactsWith env state false) with
  | none => simp [h1] at h
  | some r =>
    cases h2 : allRows env state fx fy (contactsWith env state true) with
    | none => simp [h1, h2] at h
    | some g =>
      simp only [h1, h2] at h
      by_cases hs : sv.setNewContacts ⟨r.1 ++ g.1, r.2 ++ g.2, env.friction, if contactsWith env state true ≠ [] then Alg.PP else alg⟩ = true
      · rw [if_pos hs] at h
        simp only [Option.some.injEq, Prod.mk.injEq] at h
        obtain ⟨rfl, rfl⟩ := h
        obtain ⟨a1, a2, a3⟩ := allRows_spec env state fx fy _ r h1
        obtain ⟨b1, b2, b3⟩ := allRows_spec env state fx fy _ g h2
        have hmem : ∀ n ∈ state.contactPositions.keys, (contactRows env state fx fy n).isSome := by
          intro n hn
          rw [List.all_eq_true] at hall
          have := hall n hn
          unfold AMap.has at this
          obtain ⟨l, hl⟩ := Option.isSome_iff_exists.1 this
          cases hg : l.grasps with
          | true => exact b1 n (by unfold contactsWith; rw [List.mem_filter]; exact ⟨hn, by simp [hl, hg]⟩)
          | false => exact a1 n (by unfold contactsWith; rw [List.mem_filter]; exact ⟨hn, by simp [hl, hg]⟩)
        have hsub : ∀ g, ∀ n ∈ contactsWith env state g, n ∈ state.contactPositions.keys := fun g n hn => (List.mem_filter.1 hn).1
        refine ⟨fun n => ((contactRows env state fx fy n).getD ([], [])).1,
          fun n => match env.limbs.find? n, state.contactNormals.find? n with
            | some limb, some v => if limb.grasps then v else env.normalize v
            | _, _ => 0, ?_, ?_, ?_, rfl, rfl, rfl, hs⟩
        · intro n hn
          obtain ⟨rr, hrr⟩ := Option.isSome_iff_exists.1 (hmem n hn)
          obtain ⟨c1, limb, v, c2, c3, c4⟩ := contactRows_spec env state fx fy n rr hrr
          simp only [hrr, Option.getD_some]
          exact ⟨c1, limb, v, c2, c3, by simp only [c2, c3]⟩
        · simp only; rw [a2, b2]
        · have key : ∀ g, ∀ n ∈ contactsWith env state g, ((contactRows env state fx fy n).getD ([], [])).2 =
              List.replicate ((contactRows env state fx fy n).getD ([], [])).1.length (match env.limbs.find? n, state.contactNormals.find? n with
                | some limb, some v => if limb.grasps then v else env.normalize v
                | _, _ => 0) := by
            intro g n hn
            obtain ⟨rr, hrr⟩ := Option.isSome_iff_exists.1 (hmem n (hsub g n hn))
            obtain ⟨-, limb, v, c2, c3, c4⟩ := contactRows_spec env state fx fy n rr hrr
            simp only [hrr, Option.getD_some, c2, c3, c4]
          have hfl : ∀ (l : List N) (f g : N → List (Vec3 K)), (∀ n ∈ l, f n = g n) → l.flatMap f = l.flatMap g := by
            intro l f g hfg
            induction l with
            | nil => rfl
            | cons a l ih =>
              simp only [List.flatMap_cons]
              rw [hfg a (by simp), ih (fun n hn => hfg n (List.mem_cons_of_mem _ hn))]
          simp only
          rw [a3, b3, hfl _ _ _ (key false), hfl _ _ _ (key true)]
      · rw [if_neg hs] at h; simp at h

/-- **C48**, corners.  The four points of a rectangular contact are the corners of a parallelogram; with rotation matrices (columns orthonormal) it is a rectangle
whose sides are twice the given half sizes. -/
theorem C48_corners (env : StabEnv N K) (state : State N K) (name : N) (limb : SLimb K) (lx ly : K) (pts : List (Vec3 K))
    (h : rectangleContact env state name limb lx ly = some pts)
    (hiso : ∀ v, Vec3.normSq ((env.rotationBetween ⟨0, 0, 1⟩ limb.normal).transpose.mulVec v) = Vec3.normSq v)
    (hrot : ∀ M, state.contactRotation.find? name = some M → ∀ v, Vec3.normSq (M.mulVec v) = Vec3.normSq v) :
    ∃ a b c d sx sy, pts = [a, b, c, d] ∧ sx = (if lx = 0 then limb.x else lx) ∧ sy = (if ly = 0 then limb.y else ly) ∧
      a + c = b + d ∧ Vec3.distSq a b = (2 * sy) * (2 * sy) ∧ Vec3.distSq b c = (2 * sx) * (2 * sx) ∧
      Vec3.distSq a c = (2 * sx) * (2 * sx) + (2 * sy) * (2 * sy) := by
  unfold rectangleContact at h
  simp only at h
  generalize (if lx = 0 then limb.x else lx) = sx at h ⊢
  generalize (if ly = 0 then limb.y else ly) = sy at h ⊢
  cases hp : state.contactPositions.find? name with
  | none => simp [hp] at h
  | some p =>
    cases hr : state.contactRotation.find? name with
    | none => simp [hp, hr] at h
    | some M =>
      simp only [hp, hr, Option.some.injEq, List.map_cons, List.map_nil] at h
      generalize (env.rotationBetween ⟨0, 0, 1⟩ limb.normal).transpose = L at h hiso
      have hd : ∀ u v : Vec3 K, Vec3.distSq (M.mulVec (L.mulVec u + limb.offset) + p) (M.mulVec (L.mulVec v + limb.offset) + p) = Vec3.normSq (u - v) := by
        intro u v
        rw [← hiso (u - v), ← hrot M hr]
        unfold Vec3.distSq
        congr 1
        ext <;> simp [Mat3.mulVec, Vec3.dot] <;> ring
      refine ⟨_, _, _, _, sx, sy, h.symm, rfl, rfl, ?_, ?_, ?_, ?_⟩
      · ext <;> simp [Mat3.mulVec, Vec3.dot] <;> ring
      · rw [hd]; simp [Vec3.normSq, Vec3.dot]; ring
      · rw [hd]; simp [Vec3.normSq, Vec3.dot]; ring
      · rw [hd]; simp [Vec3.normSq, Vec3.dot]; ring

/-! ## The verdict -/

theorem usedAcc_spec (env : StabEnv N K) (state : State N K) (acc : Vec3 K) (hlen : env.extraDim ≤ state.configuration.length) :
    AccOf env state acc (usedAcc env state acc) := by
  unfold usedAcc
  by_cases hc : env.extraDim ≥ 6 ∧ acc = 0
  · right
    rw [if_pos hc]
    refine ⟨hc.2, state.configuration.take (state.configuration.length - env.extraDim), state.configuration.drop (state.configuration.length - env.extraDim),
      (List.take_append_drop _ _).symm, by rw [List.length_drop]; omega, ?_, ?_, ?_⟩
    · simp only [List.getElem?_drop, List.getD_eq_getElem?_getD]
      rw [List.getElem?_eq_getElem (by omega)]; rfl
    · simp only [List.getElem?_drop, List.getD_eq_getElem?_getD, Nat.add_assoc]
      rw [List.getElem?_eq_getElem (by omega)]; rfl
    · simp only [List.getElem?_drop, List.getD_eq_getElem?_getD, Nat.add_assoc]
      rw [List.getElem?_eq_getElem (by omega)]; rfl
  · left
    rw [if_neg hc]
    refine ⟨?_, rfl⟩
    by_cases h6 : env.extraDim ≥ 6
    · exact Or.inl fun h => hc ⟨h6, h⟩
    · exact Or.inr (not_le.1 h6)

/-- the centre of mass that is used: the given one if it differs from zero by more than 1e-12 in some coordinate, the robot's otherwise -/
def ComOf (given robot used : Vec3 K) : Prop :=
  ((1 / 1000000000000 < |given.x| ∨ 1 / 1000000000000 < |given.y| ∨ 1 / 1000000000000 < |given.z|) → used = given) ∧
  ((|given.x| ≤ 1 / 1000000000000 ∧ |given.y| ≤ 1 / 1000000000000 ∧ |given.z| ≤ 1 / 1000000000000) → used = robot)

theorem isZeroVec_spec (com c : Vec3 K) : ComOf com c (if isZeroVec com then c else com) := by
  have e : (10 : K) ^ 12 = 1000000000000 := by norm_num
  unfold ComOf isZeroVec
  rw [e]
  constructor
  · intro h
    rw [if_neg]
    rw [decide_eq_true_eq, not_and_or, not_and_or]
    simpa only [not_le] using h
  · intro h
    rw [if_pos (decide_eq_true h)]

/-- **C48**, verdict.  When no exception is thrown the result is the verdict on the problem that was given to the library, for the centre of mass of the robot (or the
given one, if it is not zero), and the acceleration that was given (or read in the state; none in the static case). -/
theorem C48_verdict (env : StabEnv N K) (sv : Solver K) (state : State N K) (acc com : Vec3 K) (alg : Alg) (r : K) (hmax : 0 < env.maxDouble)
    (hlen : env.extraDim ≤ state.configuration.length) (h : isStable env sv state acc com alg = some r) :
    ∃ c pb a used, setupLibrary env sv state alg 0 0 = some (c, pb) ∧ AccOf env state acc a ∧ ComOf com c used ∧
      Verdict sv env.maxDouble pb used (if env.staticStability then none else some a) r := by
  unfold isStable at h
  simp only at h
  cases hs : setupLibrary env sv state alg 0 0 with
  | none => simp [hs] at h
  | some q =>
    obtain ⟨c, pb⟩ := q
    simp only [hs] at h
    refine ⟨c, pb, usedAcc env state acc, _, rfl, usedAcc_spec env state acc hlen, isZeroVec_spec com c, ?_⟩
    generalize (if isZeroVec com then c else com) = com' at h ⊢
    generalize (if env.staticStability then none else some (usedAcc env state acc)) = acc' at h ⊢
    by_cases hpp : pb.alg = .PP
    · simp only [hpp, if_true] at h
      by_cases ho : (sv.check pb com' acc').1 = .optimal
      · rw [if_neg (by simpa using ho)] at h
        cases hb : (sv.check pb com' acc').2 with
        | true =>
          simp only [hb, if_true, Option.some.injEq] at h
          rw [← h]
          exact .stable hpp (Prod.ext ho hb)
        | false =>
          simp only [hb, Bool.false_eq_true, if_false, Option.some.injEq] at h
          rw [← h]
          exact .unstable hpp (Prod.ext ho hb)
      · rw [if_pos ho] at h
        apply Verdict.failedPP _ hpp ho
        split_ifs at h <;> simp only [Option.some.injEq] at h <;> rw [← h]
        · norm_num
        · linarith
    · simp only [hpp, if_false] at h
      by_cases ho : (sv.robustness pb com' acc').1 = .optimal
      · rw [if_neg (by simpa using ho)] at h
        simp only [Option.some.injEq] at h
        rw [← h]
        exact .robust _ hpp (Prod.ext ho rfl)
      · rw [if_pos ho] at h
        apply Verdict.failed _ hpp ho
        split_ifs at h <;> simp only [Option.some.injEq] at h <;> rw [← h]
        · norm_num
        · linarith

/-- a state is never reported with a non-negative robustness unless the library found an optimum -/
theorem C48_negative (env : StabEnv N K) (sv : Solver K) (state : State N K) (acc com : Vec3 K) (alg : Alg) (r : K) (hmax : 0 < env.maxDouble)
    (hlen : env.extraDim ≤ state.configuration.length) (h : isStable env sv state acc com alg = some r) (hr : 0 ≤ r) :
    ∃ pb com' acc', sv.setNewContacts pb = true ∧
      (pb.alg = .PP ∧ sv.check pb com' acc' = (.optimal, true) ∨ pb.alg ≠ .PP ∧ sv.robustness pb com' acc' = (.optimal, r)) := by
  obtain ⟨c, pb, a, used, hs, -, -, hv⟩ := C48_verdict env sv state acc com alg r hmax hlen h
  obtain ⟨_, _, -, -, -, -, -, -, hset⟩ := C48_rows env sv state alg 0 0 c pb hs
  refine ⟨pb, used, (if env.staticStability then none else some a), hset, ?_⟩
  cases hv with
  | stable h1 h2 => exact Or.inl ⟨h1, h2⟩
  | unstable h1 h2 => linarith
  | robust r h1 h2 => exact Or.inr ⟨h1, h2⟩
  | failedPP r h1 h2 h3 => linarith
  | failed r h1 h2 h3 => linarith

/-- **C48**, no contact.  For a state without contact, the verdict is the library's answer to the problem without points.
Missing: that this answer is negative is a property of the library, which is not modelled; with the hypothesis that the library rejects the problem without points, or
does not report it optimal and stable, the state is not reported stable. -/
theorem C48_no_contact_partial (env : StabEnv N K) (sv : Solver K) (state : State N K) (acc com : Vec3 K) (alg : Alg) (r : K) (hmax : 0 < env.maxDouble)
    (hlen : env.extraDim ≤ state.configuration.length) (h : isStable env sv state acc com alg = some r) (hno : state.contactPositions = [])
    (hlib : ∀ a c ac, (sv.check ⟨[], [], env.friction, a⟩ c ac) ≠ (.optimal, true) ∧ ∀ x, sv.robustness ⟨[], [], env.friction, a⟩ c ac = (.optimal, x) → x < 0) :
    r < 0 := by
  obtain ⟨c, pb, a, used, hs, -, -, hv⟩ := C48_verdict env sv state acc com alg r hmax hlen h
  obtain ⟨pts, nrm, -, hp, hn, hf, -, -, -⟩ := C48_rows env sv state alg 0 0 c pb hs
  have hc : ∀ g, contactsWith env state g = [] := fun g => by unfold contactsWith; rw [hno]; rfl
  rw [hc, hc] at hp hn
  have hpb : pb = ⟨[], [], env.friction, pb.alg⟩ := by
    cases pb
    simp at hp hn hf
    simp [hp, hn, hf]
  by_contra hr
  rw [not_lt] at hr
  rw [hpb] at hv
  cases hv with
  | stable h1 h2 => exact (hlib _ _ _).1 h2
  | unstable h1 h2 => linarith
  | robust r h1 h2 => exact absurd ((hlib _ _ _).2 _ h2) (not_lt.2 hr)
  | failedPP r h1 h2 h3 => linarith
  | failed r h1 h2 h3 => linarith

/-! ## A concrete robot -/

/-- two feet, a grasping hand -/
def demoStabEnv : StabEnv ℕ ℚ where
  limbs := [(0, ⟨false, false, 1, 2, ⟨0, 0, 1⟩, 0⟩), (1, ⟨true, true, 0, 0, ⟨0, 0, 1⟩, 0⟩), (2, ⟨true, false, 0, 0, ⟨0, 0, 1⟩, ⟨0, 0, 1⟩⟩)]
  friction := 1 / 2
  staticStability := true
  extraDim := 0
  effectorRotation := fun _ _ => Mat3.one
  centerOfMass := fun _ => ⟨0, 0, 1⟩
  rotationBetween := fun _ _ => Mat3.one
  normalize := fun v => v
  maxDouble := 1000

def demoState (l : List ℕ) : State ℕ ℚ :=
  { State.init 0 with
    contactPositions := l.map fun n => (n, ⟨n, 0, 0⟩)
    contactNormals := l.map fun n => (n, ⟨0, 0, 1⟩)
    contactRotation := l.map fun n => (n, Mat3.one) }

/-- a solver that finds everything robust by the number of points -/
def demoSolver : Solver ℚ where
  setNewContacts := fun _ => true
  check := fun pb _ _ => (.optimal, decide (pb.positions.length > 2))
  robustness := fun pb _ _ => if pb.positions.length = 0 then (.infeasible, 0) else (.optimal, pb.positions.length)

/-- feet only: the robustness; with a grasp: the PP test; the hand's point is last although its name is between those of the feet; no contact: negative -/
example :
    isStable demoStabEnv demoSolver (demoState [0, 2]) 0 0 .DLP = some 5 ∧
    isStable demoStabEnv demoSolver (demoState [0, 1, 2]) 0 0 .DLP = some 1000 ∧
    isStable demoStabEnv demoSolver (demoState []) 0 0 .DLP = some (-11 / 10) ∧
    (setupLibrary demoStabEnv demoSolver (demoState [0, 1, 2]) .DLP 0 0).map (·.2.positions) =
      some [⟨1, 2, 0⟩, ⟨1, -2, 0⟩, ⟨-1, -2, 0⟩, ⟨-1, 2, 0⟩, ⟨2, 0, 1⟩, ⟨1, 0, 0⟩] :=
  ⟨by decide +kernel, by decide +kernel, by decide +kernel, by decide +kernel⟩

end Stability
end Rbprm
