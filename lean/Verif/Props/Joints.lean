import Verif.Model.Joints
import Mathlib.Tactic.Tauto
import Mathlib.Tactic.SplitIfs
import Mathlib.Data.List.Nodup
import Mathlib.Data.List.Pairwise
set_option linter.unusedSectionVars false
/-!
# C128–C130: locked joints, collision pairs of limbs, collision pairs during a motion
-/
namespace Rbprm
namespace Joints
variable {N K O : Type _} [DecidableEq N] [DecidableEq O]

/-! ### specification -/

/-- `k` is reached from `j` through children, and `stop` holds of no joint on the way, both ends included -/
inductive Reach (stop : Joint N → Prop) : Joint N → Joint N → Prop
  | self {j : Joint N} : ¬ stop j → Reach stop j j
  | child {j c k : Joint N} : ¬ stop j → c ∈ j.children → Reach stop c k → Reach stop j k

/-- `k` is `j` or below it in the tree -/
def Below (j k : Joint N) : Prop := Reach (fun _ => False) j k

/-- `q` satisfies a locked joint -/
def Lock.holds (l : Lock N K) (size : ℕ) (q : List K) : Prop := segment q l.rank size = l.value

mutual
/-- the names in a tree -/
def Joint.names : Joint N → List N
  | .mk n _ _ cs => n :: namesList cs
/-- the names in a list of trees -/
def namesList : List (Joint N) → List N
  | [] => []
  | c :: cs => c.names ++ namesList cs
end

/-! ### trees -/

/-- induction on a tree -/
theorem Joint.ind {P : Joint N → Prop} (h : ∀ n r s cs, (∀ c ∈ cs, P c) → P (.mk n r s cs)) (j : Joint N) : P j :=
  Joint.rec (motive_1 := P) (motive_2 := fun cs => ∀ c ∈ cs, P c) h (fun _ hc => (List.not_mem_nil hc).elim)
    (fun c cs hc hcs c' hm => by
      rcases List.mem_cons.1 hm with rfl | hm
      · exact hc
      · exact hcs c' hm) j

theorem reach_mk (stop : Joint N → Prop) (n : N) (r s : ℕ) (cs : List (Joint N)) (k : Joint N) :
    Reach stop (.mk n r s cs) k ↔ ¬ stop (.mk n r s cs) ∧ (k = .mk n r s cs ∨ ∃ c ∈ cs, Reach stop c k) := by
  constructor
  · intro h
    cases h with
    | self h => exact ⟨h, .inl rfl⟩
    | child h hc hk => exact ⟨h, .inr ⟨_, hc, hk⟩⟩
  · rintro ⟨h, rfl | ⟨c, hc, hk⟩⟩
    · exact .self h
    · exact .child h hc hk

theorem Reach.toBelow {stop : Joint N → Prop} {j k : Joint N} (h : Reach stop j k) : Below j k := by
  induction h with
  | self _ => exact .self (fun h => h)
  | child _ hc _ ih => exact .child (fun h => h) hc ih

theorem Reach.trans {stop : Joint N → Prop} {j k l : Joint N} (h : Reach stop j k) (h' : Reach stop k l) : Reach stop j l := by
  induction h with
  | self _ => exact h'
  | child hs hc _ ih => exact .child hs hc (ih h')

theorem Reach.last {stop : Joint N → Prop} {j k : Joint N} (h : Reach stop j k) : ¬ stop k := by
  induction h with
  | self h => exact h
  | child _ _ _ ih => exact ih

theorem Below.refl (j : Joint N) : Below j j := .self (fun h => h)
theorem Below.trans {j k l : Joint N} (h : Below j k) (h' : Below k l) : Below j l := Reach.trans h h'

theorem namesList_eq (cs : List (Joint N)) : namesList cs = cs.flatMap Joint.names := by
  induction cs with
  | nil => rfl
  | cons c cs ih => simp [namesList, ih]

theorem mem_names (j : Joint N) : ∀ n, n ∈ j.names ↔ ∃ k, Below j k ∧ k.name = n := by
  induction j using Joint.ind with
  | h m r s cs ih =>
    intro n
    simp only [Joint.names, namesList_eq, List.mem_cons, List.mem_flatMap]
    constructor
    · rintro (rfl | ⟨c, hc, hn⟩)
      · exact ⟨_, Below.refl _, rfl⟩
      · obtain ⟨k, hk, rfl⟩ := (ih c hc n).1 hn
        exact ⟨k, .child (fun h => h) hc hk, rfl⟩
    · rintro ⟨k, hk, rfl⟩
      rcases ((reach_mk _ _ _ _ _ _).1 hk).2 with rfl | ⟨c, hc, hk⟩
      · exact .inl rfl
      · exact .inr ⟨c, hc, (ih c hc _).2 ⟨k, hk, rfl⟩⟩

/-- in a tree with different names, two children with a common name below them are the same -/
theorem same_child {m : N} {r s : ℕ} {cs : List (Joint N)} (hd : (Joint.mk m r s cs).names.Nodup) {c c' : Joint N} (hc : c ∈ cs) (hc' : c' ∈ cs) {n : N}
    (hn : n ∈ c.names) (hn' : n ∈ c'.names) : c = c' := by
  by_contra hne
  simp only [Joint.names, namesList_eq, List.nodup_cons, List.nodup_flatMap] at hd
  have hs : Std.Symm (Function.onFun List.Disjoint (Joint.names (N := N))) := ⟨fun x y h a b c => h c b⟩
  exact (hd.2.2.forall hc hc' hne) hn hn'

theorem child_nodup {m : N} {r s : ℕ} {cs : List (Joint N)} (hd : (Joint.mk m r s cs).names.Nodup) {c : Joint N} (hc : c ∈ cs) : c.names.Nodup := by
  simp only [Joint.names, namesList_eq, List.nodup_cons, List.nodup_flatMap] at hd
  exact hd.2.1 c hc

theorem child_fresh {m : N} {r s : ℕ} {cs : List (Joint N)} (hd : (Joint.mk m r s cs).names.Nodup) {c : Joint N} (hc : c ∈ cs) : m ∉ c.names := by
  simp only [Joint.names, namesList_eq, List.nodup_cons, List.mem_flatMap] at hd
  exact fun h => hd.1 ⟨c, hc, h⟩

/-- a joint that is reached without passing a stop is not below a stop -/
theorem Reach.not_below (stop : Joint N → Prop) {j k : Joint N} (h : Reach stop j k) : j.names.Nodup → ∀ s, Below j s → stop s → ¬ Below s k := by
  induction h with
  | self h =>
    rename_i j
    intro hd s hjs hs hsj
    cases hjs with
    | self _ => exact h hs
    | child _ hc hcs =>
      obtain ⟨m, r, sz, cs⟩ := j
      exact child_fresh hd hc ((mem_names _ _).2 ⟨_, Below.trans hcs hsj, rfl⟩)
  | child h hc hk ih =>
    rename_i j c k
    intro hd s hjs hs hsk
    obtain ⟨m, r, sz, cs⟩ := j
    cases hjs with
    | self _ => exact h hs
    | child _ hc' hcs =>
      have : c = _ := same_child hd hc hc' ((mem_names _ _).2 ⟨k, hk.toBelow, rfl⟩) ((mem_names _ _).2 ⟨k, Below.trans hcs hsk, rfl⟩)
      subst this
      exact ih (child_nodup hd hc) s hcs hs hsk

/-- every joint is reached without passing a stop, or is below one -/
theorem reach_or_below (stop : Joint N → Prop) {j k : Joint N} (h : Below j k) : Reach stop j k ∨ ∃ s, Below j s ∧ stop s ∧ Below s k := by
  induction h with
  | self h0 =>
    rename_i j
    by_cases hs : stop j
    · exact .inr ⟨j, Below.refl _, hs, Below.refl _⟩
    · exact .inl (.self hs)
  | child h0 hc hk ih =>
    rename_i j c k
    by_cases hs : stop j
    · exact .inr ⟨j, Below.refl _, hs, .child (fun h => h) hc hk⟩
    · rcases ih with h | ⟨s, h1, h2, h3⟩
      · exact .inl (.child hs hc h)
      · exact .inr ⟨s, .child (fun h => h) hc h1, h2, h3⟩

/-! ### locked joints -/

theorem lockList_eq (stop : N → Bool) (q : List K) (cs : List (Joint N)) : lockList stop q cs = cs.flatMap (lockRec stop q) := by
  induction cs with
  | nil => simp [lockList]
  | cons c cs ih => simp [lockList, ih]

theorem mem_lockRec (stop : N → Bool) (q : List K) (j : Joint N) :
    ∀ l, l ∈ lockRec stop q j ↔ ∃ k, Reach (fun j => stop j.name = true) j k ∧ l = ⟨k.name, k.rank, segment q k.rank k.size⟩ := by
  induction j using Joint.ind with
  | h n r s cs ih =>
    intro l
    simp only [lockRec]
    by_cases hs : stop n = true
    · rw [if_pos hs]
      constructor
      · intro h; cases h
      · rintro ⟨k, hk, _⟩
        exact absurd hs ((reach_mk _ _ _ _ _ _).1 hk).1
    · rw [if_neg hs, List.mem_cons, lockList_eq, List.mem_flatMap]
      constructor
      · rintro (rfl | ⟨c, hc, hl⟩)
        · exact ⟨_, .self hs, rfl⟩
        · obtain ⟨k, hk, rfl⟩ := (ih c hc l).1 hl
          exact ⟨k, .child hs hc hk, rfl⟩
      · rintro ⟨k, hk, rfl⟩
        rcases ((reach_mk _ _ _ _ _ _).1 hk).2 with rfl | ⟨c, hc, hk⟩
        · exact .inl rfl
        · exact .inr ⟨c, hc, (ih c hc _).2 ⟨k, hk, rfl⟩⟩

/-- C128: projecting to a root configuration locks every joint of the robot that is in no limb, at its value in the target -/
theorem C128_locked (limbs : List N) (target : List K) (root k : Joint N) (hk : Below root k) (hout : ∀ s, Below root s → s.name ∈ limbs → ¬ Below s k) :
    ⟨k.name, k.rank, segment target k.rank k.size⟩ ∈ lockFromRoot limbs target root := by
  refine (mem_lockRec _ _ _ _).2 ⟨k, ?_, rfl⟩
  rcases reach_or_below (fun j => (limbs.any fun l => j.name == l) = true) hk with h | ⟨s, h1, h2, h3⟩
  · exact h
  · exact absurd h3 (hout s h1 (by simpa [List.any_eq_true] using h2))

/-- C128: and it locks nothing else: no joint of a limb is locked -/
theorem C128_free (limbs : List N) (target : List K) (root : Joint N) (hd : root.names.Nodup) (l : Lock N K) (h : l ∈ lockFromRoot limbs target root) :
    ∃ k, Below root k ∧ l = ⟨k.name, k.rank, segment target k.rank k.size⟩ ∧ ∀ s, Below root s → s.name ∈ limbs → ¬ Below s k := by
  obtain ⟨k, hk, rfl⟩ := (mem_lockRec _ _ _ _).1 h
  exact ⟨k, hk.toBelow, rfl, fun s h1 h2 => hk.not_below _ hd s h1 (by simpa [List.any_eq_true] using h2)⟩

/-- C128: when a limb is projected alone, the joints that are not in it are locked at their value in the configuration of the device, and no other -/
theorem C128_spared (spared : N) (current : List K) (root : Joint N) (hd : root.names.Nodup) (l : Lock N K) :
    l ∈ lockJointRec spared current root ↔
      ∃ k, Below root k ∧ l = ⟨k.name, k.rank, segment current k.rank k.size⟩ ∧ ∀ s, Below root s → s.name = spared → ¬ Below s k := by
  unfold lockJointRec
  rw [mem_lockRec]
  constructor
  · rintro ⟨k, hk, rfl⟩
    exact ⟨k, hk.toBelow, rfl, fun s h1 h2 => hk.not_below _ hd s h1 (by simpa using h2)⟩
  · rintro ⟨k, hk, rfl, hout⟩
    refine ⟨k, ?_, rfl⟩
    rcases reach_or_below (fun j => (j.name == spared) = true) hk with h | ⟨s, h1, h2, h3⟩
    · exact h
    · exact absurd h3 (hout s h1 (by simpa using h2))

/-- C128: the same for several limbs -/
theorem C128_spared_limbs (spared : List N) (current : List K) (root : Joint N) (hd : root.names.Nodup) (l : Lock N K) :
    l ∈ lockJointsRec spared current root ↔
      ∃ k, Below root k ∧ l = ⟨k.name, k.rank, segment current k.rank k.size⟩ ∧ ∀ s, Below root s → s.name ∈ spared → ¬ Below s k := by
  unfold lockJointsRec
  rw [mem_lockRec]
  constructor
  · rintro ⟨k, hk, rfl⟩
    exact ⟨k, hk.toBelow, rfl, fun s h1 h2 => hk.not_below _ hd s h1 (by simpa using h2)⟩
  · rintro ⟨k, hk, rfl, hout⟩
    refine ⟨k, ?_, rfl⟩
    rcases reach_or_below (fun j => (spared.contains j.name) = true) hk with h | ⟨s, h1, h2, h3⟩
    · exact h
    · exact absurd h3 (hout s h1 (by simpa using h2))

/-- C128: a configuration that satisfies the locks of a root configuration has the target's coordinates at every joint that is in no limb -/
theorem C128_coordinates (limbs : List N) (target q : List K) (root k : Joint N) (hk : Below root k) (hout : ∀ s, Below root s → s.name ∈ limbs → ¬ Below s k)
    (hq : ∀ j, Below root j → ∀ l ∈ lockFromRoot limbs target root, l.joint = j.name → l.rank = j.rank → l.holds j.size q) :
    ∀ i, k.rank ≤ i → i < k.rank + k.size → q[i]? = target[i]? := by
  have h := hq k hk _ (C128_locked limbs target root k hk hout) rfl rfl
  simp only [Lock.holds, segment] at h
  intro i h1 h2
  have h' := congrArg (fun l => l[i - k.rank]?) h
  simp only [List.getElem?_take, List.getElem?_drop] at h'
  rw [if_pos (by omega), if_pos (by omega)] at h'
  have e : k.rank + (i - k.rank) = i := by omega
  rwa [e] at h'

/-- a robot: a trunk (0) with a head (1) and a leg (2) ending in a foot (3) with a toe (4) -/
def robot : Joint ℕ := .mk 0 0 7 [.mk 1 7 1 [], .mk 2 8 2 [.mk 3 10 1 [.mk 4 11 1 []]]]

theorem robot_distinct : robot.names.Nodup := by decide

/-- C128: the hypotheses are met: with the leg as a limb, the trunk and the head are locked -/
theorem C128_example : lockFromRoot [2] [0, 1, 2, 3, 4, 5, 6, 7, 8, 9, 10, 11] robot = [⟨0, 0, [0, 1, 2, 3, 4, 5, 6]⟩, ⟨1, 7, [7]⟩] ∧
    (lockJointRec 2 [0, 1, 2, 3, 4, 5, 6, 7, 8, 9, 10, 11] robot).map (·.joint) = [0, 1] := by decide

/-! ### collision pairs -/

theorem addLimbCollisions_eq (eff : Effector N) (disable : Bool) (objects : List O) (cs : List (Joint N)) :
    addLimbCollisions eff disable objects cs = cs.flatMap (addLimbCollision eff disable objects) := by
  induction cs with
  | nil => simp [addLimbCollisions]
  | cons c cs ih => simp [addLimbCollisions, ih]

theorem mem_addLimbCollision (eff : Effector N) (disable : Bool) (objects : List O) (j : Joint N) :
    ∀ n o, (n, o) ∈ addLimbCollision eff disable objects j ↔ o ∈ objects ∧ ∃ k, Reach (fun j => stops eff disable j = true) j k ∧ k.name = n := by
  induction j using Joint.ind with
  | h m r s cs ih =>
    intro n o
    simp only [addLimbCollision]
    by_cases hs : stops eff disable (.mk m r s cs) = true
    · rw [if_pos hs]
      constructor
      · intro h; cases h
      · rintro ⟨_, k, hk, _⟩
        exact absurd hs ((reach_mk _ _ _ _ _ _).1 hk).1
    · rw [if_neg hs, List.mem_append, addLimbCollisions_eq, List.mem_flatMap, List.mem_map]
      constructor
      · rintro (⟨o', ho, h⟩ | ⟨c, hc, hl⟩)
        · cases h
          exact ⟨ho, _, .self hs, rfl⟩
        · obtain ⟨ho, k, hk, rfl⟩ := (ih c hc n o).1 hl
          exact ⟨ho, k, .child hs hc hk, rfl⟩
      · rintro ⟨ho, k, hk, rfl⟩
        rcases ((reach_mk _ _ _ _ _ _).1 hk).2 with rfl | ⟨c, hc, hk⟩
        · exact .inl ⟨o, ho, rfl⟩
        · exact .inr ⟨c, hc, (ih c hc _ o).2 ⟨ho, k, hk, rfl⟩⟩

/-- the effector of a limb is attached to `j`, or `j` has the name of its frame -/
def IsEffector (eff : Effector N) (j : Joint N) : Prop := j.name = eff.frame ∨ j.name = eff.joint

/-- C129: when the collisions of the effector are not disabled, a limb is tested against every obstacle at all its joints -/
theorem C129_all (eff : Effector N) (objects : List O) (limb : Joint N) (n : N) (o : O) :
    (n, o) ∈ addLimbCollision eff false objects limb ↔ o ∈ objects ∧ ∃ k, Below limb k ∧ k.name = n := by
  rw [mem_addLimbCollision]
  have : (fun j : Joint N => stops eff false j = true) = fun _ => False := by
    funext j
    cases j
    simp [stops]
  rw [this]
  rfl

/-- C129: when they are disabled, it is tested at the joints that are not below the effector, except the leaves of the tree -/
theorem C129_disabled (eff : Effector N) (objects : List O) (limb : Joint N) (hd : limb.names.Nodup) (n : N) (o : O) :
    (n, o) ∈ addLimbCollision eff true objects limb ↔
      o ∈ objects ∧ ∃ k, Below limb k ∧ k.name = n ∧ k.children ≠ [] ∧ ∀ s, Below limb s → IsEffector eff s → ¬ Below s k := by
  rw [mem_addLimbCollision]
  have hst : ∀ j : Joint N, stops eff true j = true ↔ IsEffector eff j ∨ j.children = [] := by
    intro j
    cases j
    simp [stops, IsEffector, Joint.name, Joint.children, or_assoc]
  constructor
  · rintro ⟨ho, k, hk, rfl⟩
    refine ⟨ho, k, hk.toBelow, rfl, fun h => hk.last ((hst k).2 (.inr h)), fun s h1 h2 => hk.not_below _ hd s h1 ((hst s).2 (.inl h2))⟩
  · rintro ⟨ho, k, hk, rfl, hl, hout⟩
    refine ⟨ho, k, ?_, rfl⟩
    rcases reach_or_below (fun j => stops eff true j = true) hk with h | ⟨s, h1, h2, h3⟩
    · exact h
    · rcases (hst s).1 h2 with h2 | h2
      · exact absurd h3 (hout s h1 h2)
      · cases h3 with
        | self _ => exact absurd h2 hl
        | child _ hc _ => rw [h2] at hc; cases hc

/-- C129: the validation of the body is that of the first limb of the robot: the limbs added later change nothing to it -/
theorem C129_body (root : Joint N) (objects : List O) (l : Limb N) (ls : List (Limb N)) :
    bodyPairs root objects (l :: ls) = addLimbCollision l.effector l.disable objects root := by
  simp [bodyPairs, addLimb]

/-- C129, violated: with disabled collisions, the leaves of a limb that are not its effector are not tested: here the finger (3) of a hand whose palm (1) is not the effector (frame 2) -/
theorem C129_leaf_violated :
    let hand : Joint ℕ := .mk 1 0 1 [.mk 2 1 1 [], .mk 3 2 1 []]
    ∀ o ∈ ([7] : List ℕ), (3, o) ∉ addLimbCollision ⟨2, 2⟩ true [7] hand := by decide

/-- C129, violated: the collisions of the effector of the second limb are disabled, but the body is still tested at this effector; and the leaf joints of a limb with collisions enabled are not tested if the first
limb disables its own -/
theorem C129_second_violated :
    let body : Joint ℕ := .mk 0 0 7 [.mk 1 7 1 [.mk 2 8 1 []], .mk 3 9 1 [.mk 4 10 1 [.mk 5 11 1 []]]]
    let first : Limb ℕ := ⟨.mk 1 7 1 [.mk 2 8 1 []], ⟨2, 2⟩, true⟩
    let second : Limb ℕ := ⟨.mk 3 9 1 [.mk 4 10 1 [.mk 5 11 1 []]], ⟨4, 4⟩, true⟩
    let third : Limb ℕ := ⟨.mk 3 9 1 [.mk 4 10 1 [.mk 5 11 1 []]], ⟨4, 4⟩, false⟩
    (4, 7) ∈ bodyPairs body [7] [first, second] ∧ (4, 7) ∉ (addLimb body [7] false [] second).1 ∧
      (5, 7) ∉ bodyPairs body [7] [first, third] ∧ (5, 7) ∈ (addLimb body [7] false [] third).1 := by decide

/-- C129: the hypotheses are met -/
theorem C129_example : addLimbCollision ⟨3, 3⟩ true [7, 8] robot = [(0, 7), (0, 8), (2, 7), (2, 8)] ∧ (robot.names.Nodup) := by decide

/-! ### collisions during a motion -/

/-- no pair of a joint of the tree with `o` is missing unless all the pairs below are missing -/
def Closed (o : O) (j : Joint N) (pairs : List (N × O)) : Prop :=
  ∀ k, Below j k → (k.name, o) ∉ pairs → ∀ k', Below k k' → (k'.name, o) ∉ pairs

theorem removePair_mem {pairs pairs' : List (N × O)} {n : N} {o : O} (h : removePair pairs n o = some pairs') (p : N × O) :
    p ∈ pairs' ↔ p ∈ pairs ∧ p ≠ (n, o) := by
  unfold removePair at h
  split_ifs at h with h1
  cases h
  simp [List.mem_filter]

theorem Closed.congr {o : O} {j : Joint N} {p p' : List (N × O)} (h : Closed o j p) (he : ∀ n ∈ j.names, ((n, o) ∈ p' ↔ (n, o) ∈ p)) : Closed o j p' := by
  intro k hk hn k' hk' hm
  refine h k hk (fun hh => hn ((he _ ((mem_names _ _).2 ⟨k, hk, rfl⟩)).2 hh)) k' hk' ?_
  exact (he _ ((mem_names _ _).2 ⟨k', hk.trans hk', rfl⟩)).1 hm

theorem removeEffector_mem (o : O) (j : Joint N) : j.names.Nodup → ∀ pairs, Closed o j pairs →
    ∀ p, p ∈ removeEffector o j pairs ↔ p ∈ pairs ∧ ¬ (p.1 ∈ j.names ∧ p.2 = o) := by
  induction j using Joint.ind with
  | h n r s cs ih =>
    intro hd pairs hcl p
    have hlist : ∀ ds : List (Joint N), (∀ c ∈ ds, c ∈ cs) → (namesList ds).Nodup → ∀ ps, (∀ c ∈ ds, Closed o c ps) →
        ∀ p, p ∈ removeEffectors o ds ps ↔ p ∈ ps ∧ ¬ (p.1 ∈ namesList ds ∧ p.2 = o) := by
      intro ds
      induction ds with
      | nil => intro _ _ ps _ p; simp [removeEffectors, namesList]
      | cons d ds ihd =>
        intro hsub hnd ps hc p
        simp only [namesList, List.nodup_append] at hnd
        have hdm := ih d (hsub d (List.mem_cons_self ..)) hnd.1 ps (hc d (List.mem_cons_self ..))
        simp only [removeEffectors]
        rw [ihd (fun c hm => hsub c (List.mem_cons_of_mem _ hm)) hnd.2.1 _ ?_ p, hdm]
        · simp only [namesList, List.mem_append]
          tauto
        · intro c hm
          refine (hc c (List.mem_cons_of_mem _ hm)).congr ?_
          intro m hmn
          rw [hdm]
          constructor
          · exact fun h => h.1
          · refine fun h => ⟨h, fun hh => hnd.2.2 m hh.1 m ?_ rfl⟩
            rw [namesList_eq, List.mem_flatMap]
            exact ⟨c, hm, hmn⟩
    simp only [removeEffector]
    cases hr : removePair pairs n o with
    | none =>
      have hno : (n, o) ∉ pairs := by
        unfold removePair at hr
        split_ifs at hr with h1
        exact h1
      have := hcl _ (Below.refl _) hno
      constructor
      · intro hp
        refine ⟨hp, ?_⟩
        rintro ⟨h1, h2⟩
        obtain ⟨k, hk, hk'⟩ := (mem_names _ _).1 h1
        refine this k hk ?_
        rw [hk', ← h2]
        exact hp
      · exact fun h => h.1
    | some pairs' =>
      have hp' := removePair_mem hr
      simp only
      have hnl : (namesList cs).Nodup := by
        simp only [Joint.names, List.nodup_cons] at hd
        exact hd.2
      rw [hlist cs (fun _ h => h) hnl pairs' ?_ p, hp']
      · simp only [Joint.names, List.mem_cons]
        obtain ⟨p1, p2⟩ := p
        simp only [ne_eq, Prod.mk.injEq]
        tauto
      · intro c hc
        have hcc : Closed o c pairs := fun k hk => hcl k (.child (fun h => h) hc hk)
        refine hcc.congr ?_
        intro m hm
        rw [hp']
        constructor
        · exact fun h => h.1
        · refine fun h => ⟨h, ?_⟩
          intro e
          cases e
          exact child_fresh hd hc hm

theorem Closed.remove {o o' : O} {j k : Joint N} {p p' : List (N × O)} (h : Closed o j p)
    (he : ∀ q, q ∈ p' ↔ q ∈ p ∧ ¬ (q.1 ∈ k.names ∧ q.2 = o')) (hjk : ∀ l, Below j l → l.name ∈ k.names → ∀ l', Below l l' → l'.name ∈ k.names) : Closed o j p' := by
  intro l hl hn l' hl' hm
  rw [he] at hn hm
  by_cases hp : (l.name, o) ∈ p
  · simp only [hp, true_and, not_not] at hn
    exact hm.2 ⟨hjk l hl hn.1 l' hl', hn.2⟩
  · exact h l hl hp l' hl' hm.1

/-- in a tree with different names the name gives the joint -/
theorem same_joint (root : Joint N) : root.names.Nodup → ∀ a b, Below root a → Below root b → a.name = b.name → a = b := by
  induction root using Joint.ind with
  | h n r s cs ih =>
    intro hd a b ha hb he
    rcases ((reach_mk _ _ _ _ _ _).1 ha).2 with rfl | ⟨c, hc, ha⟩ <;> rcases ((reach_mk _ _ _ _ _ _).1 hb).2 with rfl | ⟨c', hc', hb⟩
    · rfl
    · exact absurd ((mem_names _ _).2 ⟨b, hb, he.symm⟩) (child_fresh hd hc')
    · exact absurd ((mem_names _ _).2 ⟨a, ha, he⟩) (child_fresh hd hc)
    · have : c = c' := same_child hd hc hc' ((mem_names _ _).2 ⟨a, ha, rfl⟩) ((mem_names _ _).2 ⟨b, hb, he.symm⟩)
      subst this
      exact ih c hc (child_nodup hd hc) a b ha hb he

theorem below_nodup {j k : Joint N} (h : Below j k) : j.names.Nodup → k.names.Nodup := by
  induction h with
  | self _ => exact fun h => h
  | child h0 hc hk ih =>
    rename_i j c k
    obtain ⟨m, r, s, cs⟩ := j
    exact fun hd => ih (child_nodup hd hc)

theorem findJoint_some (n : N) (j : Joint N) : ∀ k, findJoint n j = some k → Below j k ∧ k.name = n := by
  induction j using Joint.ind with
  | h m r s cs ih =>
    intro k
    simp only [findJoint]
    split_ifs with hm
    · rintro h
      cases h
      exact ⟨Below.refl _, hm⟩
    · intro h
      have : ∀ ds : List (Joint N), (∀ d ∈ ds, d ∈ cs) → findJoints n ds = some k → ∃ c ∈ ds, Below c k ∧ k.name = n := by
        intro ds
        induction ds with
        | nil => intro _ h; simp [findJoints] at h
        | cons d ds ihd =>
          intro hs h
          simp only [findJoints] at h
          cases hf : findJoint n d with
          | none =>
            rw [hf] at h
            obtain ⟨c, hc, hk⟩ := ihd (fun x hx => hs x (List.mem_cons_of_mem _ hx)) h
            exact ⟨c, List.mem_cons_of_mem _ hc, hk⟩
          | some k' =>
            rw [hf] at h
            cases h
            exact ⟨d, List.mem_cons_self .., ih d (hs d (List.mem_cons_self ..)) k hf⟩
      obtain ⟨c, hc, hk, hn⟩ := this cs (fun _ h => h) h
      exact ⟨.child (fun h => h) hc hk, hn⟩

theorem findJoint_complete (n : N) (j : Joint N) : ∀ k, Below j k → k.name = n → (findJoint n j).isSome := by
  induction j using Joint.ind with
  | h m r s cs ih =>
    intro k hk hn
    simp only [findJoint]
    split_ifs with hm
    · rfl
    · rcases ((reach_mk _ _ _ _ _ _).1 hk).2 with rfl | ⟨c, hc, hk⟩
      · exact absurd hn hm
      · have : ∀ ds : List (Joint N), c ∈ ds → (findJoints n ds).isSome := by
          intro ds
          induction ds with
          | nil => intro h; cases h
          | cons d ds ihd =>
            intro h
            simp only [findJoints]
            cases hf : findJoint n d with
            | some k' => rfl
            | none =>
              rcases List.mem_cons.1 h with rfl | h
              · have := ih c hc k hk hn
                rw [hf] at this
                cases this
              · exact ihd h
        exact this cs hc

theorem removeEffectorAll_mem (j : Joint N) (hd : j.names.Nodup) : ∀ (objects : List O) (pairs : List (N × O)), (∀ o ∈ objects, Closed o j pairs) →
    ∀ p, p ∈ removeEffectorAll objects j pairs ↔ p ∈ pairs ∧ ¬ (p.1 ∈ j.names ∧ p.2 ∈ objects) := by
  intro objects
  induction objects with
  | nil => intro pairs _ p; simp [removeEffectorAll]
  | cons o os ih =>
    intro pairs hc p
    have hm := removeEffector_mem o j hd pairs (hc o (List.mem_cons_self ..))
    have := ih (removeEffector o j pairs) (fun o' ho' => (hc o' (List.mem_cons_of_mem _ ho')).remove hm
      (fun l hl _ l' hl' => (mem_names _ _).2 ⟨l', hl.trans hl', rfl⟩)) p
    simp only [removeEffectorAll, List.foldl_cons] at this ⊢
    rw [this, hm]
    simp only [List.mem_cons]
    tauto

/-- `p` is a pair of a joint of the subtree of the effector of a limb whose collisions are disabled -/
def OfEffector (root : Joint N) (objects : List O) (moving : List (Limb N)) (p : N × O) : Prop :=
  p.2 ∈ objects ∧ ∃ l ∈ moving, l.disable = true ∧ ∃ e, Below root e ∧ e.name = l.effector.frame ∧ p.1 ∈ e.names

theorem removeMoving_mem (root : Joint N) (hd : root.names.Nodup) (objects : List O) : ∀ (moving : List (Limb N)) (pairs : List (N × O)),
    (∀ o ∈ objects, Closed o root pairs) → (∀ l ∈ moving, l.disable = true → l.effector.frame ∈ root.names) →
    ∃ r, removeMoving root objects moving pairs = some r ∧ ∀ p, p ∈ r ↔ p ∈ pairs ∧ ¬ OfEffector root objects moving p := by
  intro moving
  induction moving with
  | nil => intro pairs _ _; exact ⟨pairs, rfl, by simp [OfEffector]⟩
  | cons l ls ih =>
    intro pairs hc hf
    have hf' := fun l' h' => hf l' (List.mem_cons_of_mem l h')
    simp only [removeMoving]
    by_cases hdis : l.disable = true
    · rw [if_pos hdis]
      obtain ⟨k, hk, hkn⟩ := (mem_names _ _).1 (hf l (List.mem_cons_self ..) hdis)
      obtain ⟨j, hj⟩ := Option.isSome_iff_exists.1 (findJoint_complete l.effector.frame root k hk hkn)
      obtain ⟨hjb, hjn⟩ := findJoint_some _ _ _ hj
      have hsub : ∀ l, Below root l → l.name ∈ j.names → ∀ l', Below l l' → l'.name ∈ j.names := by
        intro l hl hn l' hl'
        obtain ⟨m, hm, hmn⟩ := (mem_names _ _).1 hn
        have := same_joint root hd m l (hjb.trans hm) hl hmn
        subst this
        exact (mem_names _ _).2 ⟨l', hm.trans hl', rfl⟩
      have hcj : ∀ o ∈ objects, Closed o j pairs := fun o ho k hk => hc o ho k (hjb.trans hk)
      have hm := removeEffectorAll_mem j (below_nodup hjb hd) objects pairs hcj
      obtain ⟨r, hr, hr'⟩ := ih (removeEffectorAll objects j pairs) (by
        intro o ho l hl hn l' hl' hp
        rw [hm] at hn hp
        by_cases h0 : (l.name, o) ∈ pairs
        · refine hn ⟨h0, fun hh => hp.2 ⟨hsub l hl hh.1 l' hl', ho⟩⟩
        · exact hc o ho l hl h0 l' hl' hp.1) hf'
      refine ⟨r, ?_, ?_⟩
      · rw [hj]; exact hr
      · intro p
        rw [hr', hm]
        unfold OfEffector
        constructor
        · rintro ⟨⟨h1, h2⟩, h3⟩
          refine ⟨h1, ?_⟩
          rintro ⟨ho, l', hl', hd', e, he, hen, hep⟩
          rcases List.mem_cons.1 hl' with rfl | hl'
          · have := same_joint root hd e j he hjb (hen.trans hjn.symm)
            subst this
            exact h2 ⟨hep, ho⟩
          · exact h3 ⟨ho, l', hl', hd', e, he, hen, hep⟩
        · rintro ⟨h1, h2⟩
          refine ⟨⟨h1, fun hh => h2 ⟨hh.2, l, List.mem_cons_self .., hdis, j, hjb, hjn, hh.1⟩⟩, ?_⟩
          rintro ⟨ho, l', hl', hd', e, he, hen, hep⟩
          exact h2 ⟨ho, l', List.mem_cons_of_mem _ hl', hd', e, he, hen, hep⟩
    · rw [if_neg hdis]
      obtain ⟨r, hr, hr'⟩ := ih pairs hc hf'
      refine ⟨r, hr, fun p => ?_⟩
      rw [hr']
      unfold OfEffector
      constructor
      · rintro ⟨h1, h3⟩
        refine ⟨h1, ?_⟩
        rintro ⟨ho, l', hl', hd', e⟩
        rcases List.mem_cons.1 hl' with rfl | hl'
        · exact hdis hd'
        · exact h3 ⟨ho, l', hl', hd', e⟩
      · rintro ⟨h1, h3⟩
        refine ⟨h1, ?_⟩
        rintro ⟨ho, l', hl', hd', e⟩
        exact h3 ⟨ho, l', List.mem_cons_of_mem _ hl', hd', e⟩

theorem removeObjects_mem (n : N) : ∀ (objects : List O) (pairs : List (N × O)), objects.Nodup → (∀ o ∈ objects, (n, o) ∈ pairs) →
    ∃ r, removeObjects n objects pairs = (r, true) ∧ ∀ p, p ∈ r ↔ p ∈ pairs ∧ ¬ (p.1 = n ∧ p.2 ∈ objects) := by
  intro objects
  induction objects with
  | nil => intro pairs _ _; exact ⟨pairs, rfl, by simp⟩
  | cons o os ih =>
    intro pairs hn hp
    obtain ⟨hno, hnd⟩ := List.nodup_cons.1 hn
    have h1 : removePair pairs n o = some (pairs.filter fun p => p ≠ (n, o)) := by
      unfold removePair
      rw [if_pos (hp o (List.mem_cons_self ..))]
    have hm := removePair_mem h1
    obtain ⟨r, hr, hr'⟩ := ih (pairs.filter fun p => p ≠ (n, o)) hnd (by
      intro o' ho'
      rw [hm]
      refine ⟨hp o' (List.mem_cons_of_mem _ ho'), ?_⟩
      intro e
      cases e
      exact hno ho')
    refine ⟨r, ?_, ?_⟩
    · simp only [removeObjects, h1, hr]
    · intro p
      rw [hr', hm]
      obtain ⟨p1, p2⟩ := p
      simp only [ne_eq, Prod.mk.injEq, List.mem_cons]
      tauto

theorem removeNonLimb_mem (keepers : List N) (objects : List O) (hn : objects.Nodup) (j : Joint N) : j.names.Nodup → ∀ pairs,
    (∀ k, Reach (fun j => j.name ∈ keepers) j k → ∀ o ∈ objects, (k.name, o) ∈ pairs) →
    ∀ p, p ∈ removeNonLimb keepers objects j pairs ↔ p ∈ pairs ∧ ¬ (p.2 ∈ objects ∧ ∃ k, Reach (fun j => j.name ∈ keepers) j k ∧ k.name = p.1) := by
  induction j using Joint.ind with
  | h n r s cs ih =>
    intro hd pairs hfull p
    simp only [removeNonLimb]
    by_cases hk : keepers.contains n = true
    · rw [if_pos hk]
      constructor
      · refine fun h => ⟨h, ?_⟩
        rintro ⟨_, k, hr, _⟩
        exact ((reach_mk _ _ _ _ _ _).1 hr).1 (by simpa [Joint.name] using hk)
      · exact fun h => h.1
    · rw [if_neg hk]
      have hk' : ¬ (Joint.mk n r s cs).name ∈ keepers := by simpa [Joint.name] using hk
      obtain ⟨ps, hps, hps'⟩ := removeObjects_mem n objects pairs hn (fun o ho => hfull _ (.self hk') o ho)
      rw [hps]
      simp only
      have hlist : ∀ ds : List (Joint N), (∀ c ∈ ds, c ∈ cs) → (namesList ds).Nodup → ∀ qs,
          (∀ c ∈ ds, ∀ k, Reach (fun j => j.name ∈ keepers) c k → ∀ o ∈ objects, (k.name, o) ∈ qs) →
          ∀ p, p ∈ removeNonLimbs keepers objects ds qs ↔ p ∈ qs ∧ ¬ (p.2 ∈ objects ∧ ∃ c ∈ ds, ∃ k, Reach (fun j => j.name ∈ keepers) c k ∧ k.name = p.1) := by
        intro ds
        induction ds with
        | nil => intro _ _ qs _ p; simp [removeNonLimbs]
        | cons d ds ihd =>
          intro hsub hnd qs hf p
          simp only [namesList, List.nodup_append] at hnd
          have hdm := ih d (hsub d (List.mem_cons_self ..)) hnd.1 qs (hf d (List.mem_cons_self ..))
          simp only [removeNonLimbs]
          rw [ihd (fun c hm => hsub c (List.mem_cons_of_mem _ hm)) hnd.2.1 _ ?_ p, hdm]
          · constructor
            · rintro ⟨⟨h1, h2⟩, h3⟩
              refine ⟨h1, ?_⟩
              rintro ⟨ho, c, hc, h⟩
              rcases List.mem_cons.1 hc with rfl | hc
              · exact h2 ⟨ho, h⟩
              · exact h3 ⟨ho, c, hc, h⟩
            · rintro ⟨h1, h2⟩
              exact ⟨⟨h1, fun h => h2 ⟨h.1, d, List.mem_cons_self .., h.2⟩⟩, fun ⟨ho, c, hc, h⟩ => h2 ⟨ho, c, List.mem_cons_of_mem _ hc, h⟩⟩
          · intro c hm k hr o ho
            rw [hdm]
            refine ⟨hf c (List.mem_cons_of_mem _ hm) k hr o ho, ?_⟩
            rintro ⟨_, k', hk1, hk2⟩
            refine hnd.2.2 k.name ((mem_names _ _).2 ⟨k', hk1.toBelow, hk2⟩) k.name ?_ rfl
            rw [namesList_eq, List.mem_flatMap]
            exact ⟨c, hm, (mem_names _ _).2 ⟨k, hr.toBelow, rfl⟩⟩
      have hnl : (namesList cs).Nodup := by
        simp only [Joint.names, List.nodup_cons] at hd
        exact hd.2
      rw [hlist cs (fun _ h => h) hnl ps ?_ p, hps']
      · constructor
        · rintro ⟨⟨h1, h2⟩, h3⟩
          refine ⟨h1, ?_⟩
          rintro ⟨ho, k, hr, hkn⟩
          rcases ((reach_mk _ _ _ _ _ _).1 hr).2 with rfl | ⟨c, hc, hr⟩
          · exact h2 ⟨hkn.symm, ho⟩
          · exact h3 ⟨ho, c, hc, k, hr, hkn⟩
        · rintro ⟨h1, h2⟩
          exact ⟨⟨h1, fun h => h2 ⟨h.2, _, .self hk', h.1.symm⟩⟩, fun ⟨ho, c, hc, k, hr, hkn⟩ => h2 ⟨ho, k, .child hk' hc hr, hkn⟩⟩
      · intro c hc k hr o ho
        rw [hps']
        refine ⟨hfull k (.child hk' hc hr) o ho, ?_⟩
        rintro ⟨h, _⟩
        exact child_fresh hd hc ((mem_names _ _).2 ⟨k, hr.toBelow, h⟩)

/-- C130: the collisions that are tested while limbs move, when all joints were tested: those of the joints of the limbs that move, except the joints below the effectors of limbs whose effector collisions are disabled -/
theorem C130_exact (root : Joint N) (hd : root.names.Nodup) (objects : List O) (hn : objects.Nodup) (moving : List (Limb N)) (hmv : moving ≠ []) (pairs : List (N × O))
    (hfull : ∀ k, Below root k → ∀ o ∈ objects, (k.name, o) ∈ pairs) (hlimb : ∀ l ∈ moving, Below root l.joint)
    (heff : ∀ l ∈ moving, l.disable = true → ∃ e, Below l.joint e ∧ e.name = l.effector.frame) :
    ∃ r, disableCollisions root objects moving pairs = some r ∧ ∀ k, Below root k → ∀ o ∈ objects,
      ((k.name, o) ∈ r ↔ (∃ l ∈ moving, Below l.joint k) ∧ ¬ ∃ l ∈ moving, l.disable = true ∧ ∃ e, Below l.joint e ∧ e.name = l.effector.frame ∧ Below e k) := by
  have hclosed : ∀ o ∈ objects, Closed o root pairs := fun o ho k hk h => absurd (hfull k hk o ho) h
  obtain ⟨r, hr, hr'⟩ := removeMoving_mem root hd objects moving pairs hclosed (by
    intro l hl hdis
    obtain ⟨e, he, hen⟩ := heff l hl hdis
    exact (mem_names _ _).2 ⟨e, (hlimb l hl).trans he, hen⟩)
  have hstop : ∀ s, Below root s → (s.name ∈ moving.map (fun l => l.joint.name) ↔ ∃ l ∈ moving, s = l.joint) := by
    intro s hs
    simp only [List.mem_map]
    constructor
    · rintro ⟨l, hl, h⟩
      exact ⟨l, hl, (same_joint root hd _ _ (hlimb l hl) hs h).symm⟩
    · rintro ⟨l, hl, rfl⟩
      exact ⟨l, hl, rfl⟩
  have hin : ∀ k, Below root k → (Reach (fun j => j.name ∈ moving.map (fun l => l.joint.name)) root k ↔ ¬ ∃ l ∈ moving, Below l.joint k) := by
    intro k hk
    constructor
    · rintro h ⟨l, hl, hlk⟩
      exact h.not_below _ hd l.joint (hlimb l hl) (List.mem_map.2 ⟨l, hl, rfl⟩) hlk
    · intro h
      rcases reach_or_below (fun j => j.name ∈ moving.map (fun l => l.joint.name)) hk with h' | ⟨s, h1, h2, h3⟩
      · exact h'
      · obtain ⟨l, hl, rfl⟩ := (hstop s h1).1 h2
        exact absurd ⟨l, hl, h3⟩ h
  have hoe : ∀ k, Below root k → ∀ o ∈ objects, (OfEffector root objects moving (k.name, o) ↔
      ∃ l ∈ moving, l.disable = true ∧ ∃ e, Below l.joint e ∧ e.name = l.effector.frame ∧ Below e k) := by
    intro k hk o ho
    constructor
    · rintro ⟨_, l, hl, hdis, e, he, hen, hk'⟩
      obtain ⟨e', he', hen'⟩ := heff l hl hdis
      have := same_joint root hd e e' he ((hlimb l hl).trans he') (hen.trans hen'.symm)
      subst this
      obtain ⟨k', hk1, hk2⟩ := (mem_names _ _).1 hk'
      have := same_joint root hd k' k (he.trans hk1) hk hk2
      subst this
      exact ⟨l, hl, hdis, e, he', hen, hk1⟩
    · rintro ⟨l, hl, hdis, e, he, hen, hk'⟩
      exact ⟨ho, l, hl, hdis, e, (hlimb l hl).trans he, hen, (mem_names _ _).2 ⟨k, hk', rfl⟩⟩
  have hmem := removeNonLimb_mem (moving.map fun l => l.joint.name) objects hn root hd r (by
    intro k hk o ho
    rw [hr']
    refine ⟨hfull k hk.toBelow o ho, fun h => ?_⟩
    obtain ⟨l, hl, _, e, he, _, hek⟩ := (hoe k hk.toBelow o ho).1 h
    exact (hin k hk.toBelow).1 hk ⟨l, hl, he.trans hek⟩)
  refine ⟨removeNonLimb (moving.map fun l => l.joint.name) objects root r, ?_, ?_⟩
  · unfold disableCollisions
    rw [if_neg (by simpa using hmv), hr]
    rfl
  · intro k hk o ho
    rw [hmem, hr', hoe k hk o ho]
    constructor
    · rintro ⟨⟨_, h2⟩, h3⟩
      refine ⟨?_, h2⟩
      by_contra hh
      exact h3 ⟨ho, k, (hin k hk).2 hh, rfl⟩
    · rintro ⟨h1, h2⟩
      refine ⟨⟨hfull k hk o ho, h2⟩, ?_⟩
      rintro ⟨_, k', hk1, hk2⟩
      have := same_joint root hd k' k hk1.toBelow hk hk2
      subst this
      exact (hin k' hk).1 hk1 h1

/-- C130, violated: the joints outside the limbs that move (the trunk, the other limbs) are not tested any more -/
theorem C130_trunk_violated (root : Joint N) (hd : root.names.Nodup) (objects : List O) (hn : objects.Nodup) (moving : List (Limb N)) (hmv : moving ≠ []) (pairs : List (N × O))
    (hfull : ∀ k, Below root k → ∀ o ∈ objects, (k.name, o) ∈ pairs) (hlimb : ∀ l ∈ moving, Below root l.joint)
    (heff : ∀ l ∈ moving, l.disable = true → ∃ e, Below l.joint e ∧ e.name = l.effector.frame) (k : Joint N) (hk : Below root k) (hout : ∀ l ∈ moving, ¬ Below l.joint k) :
    ∃ r, disableCollisions root objects moving pairs = some r ∧ ∀ o ∈ objects, (k.name, o) ∉ r := by
  obtain ⟨r, hr, hm⟩ := C130_exact root hd objects hn moving hmv pairs hfull hlimb heff
  refine ⟨r, hr, fun o ho h => ?_⟩
  obtain ⟨l, hl, hlk⟩ := ((hm k hk o ho).1 h).1
  exact hout l hl hlk

/-- C130: nothing changes if no limb moves -/
theorem C130_still (root : Joint N) (objects : List O) (pairs : List (N × O)) : disableCollisions root objects [] pairs = some pairs := rfl

theorem removeEffector_sub (o : O) (j : Joint N) : ∀ pairs p, p ∈ removeEffector o j pairs → p ∈ pairs := by
  induction j using Joint.ind with
  | h n r s cs ih =>
    intro pairs p
    simp only [removeEffector]
    have hl : ∀ ds : List (Joint N), (∀ d ∈ ds, d ∈ cs) → ∀ ps p, p ∈ removeEffectors o ds ps → p ∈ ps := by
      intro ds
      induction ds with
      | nil => intro _ ps p h; exact h
      | cons d ds ihd =>
        intro hs ps p h
        exact ih d (hs d (List.mem_cons_self ..)) ps p (ihd (fun x hx => hs x (List.mem_cons_of_mem _ hx)) _ p h)
    cases hr : removePair pairs n o with
    | none => exact fun h => h
    | some ps => exact fun h => ((removePair_mem hr p).1 (hl cs (fun _ h => h) ps p h)).1

theorem removeObjects_sub (n : N) : ∀ (objects : List O) (pairs : List (N × O)) p, p ∈ (removeObjects n objects pairs).1 → p ∈ pairs := by
  intro objects
  induction objects with
  | nil => intro pairs p h; exact h
  | cons o os ih =>
    intro pairs p h
    simp only [removeObjects] at h
    cases hr : removePair pairs n o with
    | none => rw [hr] at h; exact h
    | some ps => rw [hr] at h; exact ((removePair_mem hr p).1 (ih ps p h)).1

theorem removeNonLimb_sub (keepers : List N) (objects : List O) (j : Joint N) : ∀ pairs p, p ∈ removeNonLimb keepers objects j pairs → p ∈ pairs := by
  induction j using Joint.ind with
  | h n r s cs ih =>
    intro pairs p
    have hl : ∀ ds : List (Joint N), (∀ d ∈ ds, d ∈ cs) → ∀ ps p, p ∈ removeNonLimbs keepers objects ds ps → p ∈ ps := by
      intro ds
      induction ds with
      | nil => intro _ ps p h; exact h
      | cons d ds ihd =>
        intro hs ps p h
        exact ih d (hs d (List.mem_cons_self ..)) ps p (ihd (fun x hx => hs x (List.mem_cons_of_mem _ hx)) _ p h)
    have ho := removeObjects_sub n objects pairs
    simp only [removeNonLimb]
    split_ifs
    · exact fun h => h
    · cases hr : removeObjects n objects pairs with
      | mk ps b =>
        rw [hr] at ho
        cases b with
        | false => exact fun h => ho p h
        | true => exact fun h => ho p (hl cs (fun _ h => h) ps p h)

theorem removeMoving_sub (root : Joint N) (objects : List O) : ∀ (ms : List (Limb N)) (ps r : List (N × O)), removeMoving root objects ms ps = some r → ∀ p ∈ r, p ∈ ps := by
  have hall : ∀ (os : List O) (j : Joint N) (ps : List (N × O)) p, p ∈ removeEffectorAll os j ps → p ∈ ps := by
    intro os j
    induction os with
    | nil => intro ps p h; exact h
    | cons o os ih =>
      intro ps p h
      exact removeEffector_sub o j ps p (ih _ p h)
  intro ms
  induction ms with
  | nil => intro ps r h p hp; cases h; exact hp
  | cons l ls ih =>
    intro ps r h p hp
    simp only [removeMoving] at h
    by_cases hdis : l.disable = true
    · rw [if_pos hdis] at h
      cases hf : findJoint l.effector.frame root with
      | none => rw [hf] at h; cases h
      | some j =>
        rw [hf] at h
        exact hall objects j ps p (ih _ r h p hp)
    · rw [if_neg hdis] at h
      exact ih ps r h p hp

/-- C130: whatever the pairs were, no pair is added -/
theorem C130_subset (root : Joint N) (objects : List O) (moving : List (Limb N)) (pairs r : List (N × O)) (h : disableCollisions root objects moving pairs = some r) :
    ∀ p ∈ r, p ∈ pairs := by
  intro p hp
  unfold disableCollisions at h
  split_ifs at h with he
  · cases h; exact hp
  · obtain ⟨q, hq, rfl⟩ := Option.map_eq_some_iff.1 h
    exact removeMoving_sub _ _ moving pairs q hq p (removeNonLimb_sub _ _ _ _ _ hp)

/-- C130, violated: if the root of the robot has no collision pair with the first obstacle, all joints outside the moving limbs are still tested -/
theorem C130_root_violated (n : N) (r s : ℕ) (cs : List (Joint N)) (o : O) (os : List O) (moving : List (Limb N)) (pairs ps : List (N × O))
    (hm : removeMoving (.mk n r s cs) (o :: os) moving pairs = some ps) (hroot : (n, o) ∉ pairs) (hmv : moving ≠ []) :
    disableCollisions (.mk n r s cs) (o :: os) moving pairs = some ps := by
  have : (n, o) ∉ ps := fun h => hroot (removeMoving_sub _ _ _ _ _ hm _ h)
  unfold disableCollisions
  rw [if_neg (by simpa using hmv), hm]
  simp only [Option.map_some, removeNonLimb, removeObjects, removePair, if_neg this]
  split_ifs <;> rfl

/-- C130, violated: if the effector of a moving limb is a frame that is not a joint, the interpolation throws -/
theorem C130_frame_violated (root : Joint N) (objects : List O) (l : Limb N) (ls : List (Limb N)) (pairs : List (N × O)) (hdis : l.disable = true) (hf : l.effector.frame ∉ root.names) :
    disableCollisions root objects (l :: ls) pairs = none := by
  have : findJoint l.effector.frame root = none := by
    cases h : findJoint l.effector.frame root with
    | none => rfl
    | some k =>
      obtain ⟨h1, h2⟩ := findJoint_some _ _ _ h
      exact absurd ((mem_names _ _).2 ⟨k, h1, h2⟩) hf
  simp [disableCollisions, removeMoving, hdis, this]

/-- C130: the hypotheses are met: the leg of the robot moves and its foot may touch the obstacles; only the leg is tested, neither the foot and the toe nor the trunk and the head. If the trunk has no geometry, the head is still tested -/
theorem C130_example :
    let leg : Limb ℕ := ⟨.mk 2 8 2 [.mk 3 10 1 [.mk 4 11 1 []]], ⟨3, 3⟩, true⟩
    let all := robot.names.flatMap fun n => [(n, 7), (n, 8)]
    disableCollisions robot [7, 8] [leg] all = some [(2, 7), (2, 8)] ∧
      disableCollisions robot [7, 8] [leg] (all.filter fun p => p.1 ≠ 0) = some [(1, 7), (1, 8), (2, 7), (2, 8)] ∧
      disableCollisions robot [7, 8] [⟨leg.joint, ⟨9, 3⟩, true⟩] all = none := by decide

/-! ### the effector of a limb -/

/-- C128: without a name, the effector of a limb is the end of its chain of first children: a joint of the limb without children -/
theorem C128_effector (j : Joint N) : ∃ k, Below j k ∧ k.name = lastJoint j ∧ k.children = [] := by
  induction j using Joint.ind with
  | h n r s cs ih =>
    cases cs with
    | nil => exact ⟨_, Below.refl _, by simp [lastJoint, Joint.name], rfl⟩
    | cons c cs =>
      obtain ⟨k, h1, h2, h3⟩ := ih c (List.mem_cons_self ..)
      exact ⟨k, .child (fun h => h) (List.mem_cons_self ..) h1, by rw [h2, lastJoint], h3⟩

/-- C128: and when the limb is a chain, that joint is the only one without children -/
theorem C128_effector_chain (j : Joint N) (hch : ∀ k, Below j k → k.children.length ≤ 1) : ∀ k, Below j k → k.children = [] → k.name = lastJoint j := by
  induction j using Joint.ind with
  | h n r s cs ih =>
    intro k hk hl
    cases cs with
    | nil =>
      rcases ((reach_mk _ _ _ _ _ _).1 hk).2 with rfl | ⟨c, hc, _⟩
      · simp [lastJoint, Joint.name]
      · cases hc
    | cons c cs =>
      have h1 := hch _ (Below.refl _)
      simp only [Joint.children, List.length_cons] at h1
      have : cs = [] := List.length_eq_zero_iff.1 (by omega)
      subst this
      rcases ((reach_mk _ _ _ _ _ _).1 hk).2 with rfl | ⟨c', hc', hk'⟩
      · cases hl
      · rw [List.mem_singleton] at hc'
        subst hc'
        rw [lastJoint]
        exact ih c' (List.mem_cons_self ..) (fun k hk => hch k (.child (fun h => h) (List.mem_cons_self ..) hk)) k hk' hl

end Joints
end Rbprm
