import Verif.Model.Locked
import Verif.Props.Joints
import Verif.Model.SampleDB
set_option linter.unusedSectionVars false
/-!
# Property C173: the joints that are not in the limb do not move when a contact is tried

`generate_contact`, `findValidCandidate` and `projectSampleToObstacle`: a user relies on the rest of the robot staying where it is while the configurations of a limb are tried, whatever was tried before.
-/
namespace Rbprm
namespace Joints
variable {N K Smp : Type _} [DecidableEq N]

/-! ## Specification -/

/-- two configurations agree at every joint of the robot that is not in the limb -/
def AgreeOutside (root limb : Joint N) (q q' : List K) : Prop :=
  ∀ j, Below root j → ¬ Below limb j → segment q j.rank j.size = segment q' j.rank j.size

/-- what the projection of the effector of a limb is asked to respect: the given locks hold in the result (also when the projection fails: locked joints are explicit constraints) -/
def KeepsLocks (root : Joint N) (locks : List (Lock N K)) (q : List K) : Prop :=
  ∀ j, Below root j → ∀ l ∈ locks, l.joint = j.name → l.rank = j.rank → l.holds j.size q

/-! ## Proofs -/

theorem AgreeOutside.symm {root limb : Joint N} {q q' : List K} (h : AgreeOutside root limb q q') : AgreeOutside root limb q' q := fun j h1 h2 => (h j h1 h2).symm
theorem AgreeOutside.trans {root limb : Joint N} {q q' q'' : List K} (h : AgreeOutside root limb q q') (h' : AgreeOutside root limb q' q'') : AgreeOutside root limb q q'' :=
  fun j h1 h2 => (h j h1 h2).trans (h' j h1 h2)
theorem AgreeOutside.refl (root limb : Joint N) (q : List K) : AgreeOutside root limb q q := fun _ _ _ => rfl

/-- names tell the joints apart -/
theorem below_unique {root : Joint N} : root.names.Nodup → ∀ s l : Joint N, Below root s → Below root l → s.name = l.name → s = l := by
  induction root using Joint.ind with
  | h m r sz cs ih =>
    intro hd s l hs hl e
    rcases ((reach_mk _ _ _ _ _ _).1 hs).2 with rfl | ⟨c, hc, hs⟩ <;> rcases ((reach_mk _ _ _ _ _ _).1 hl).2 with rfl | ⟨c', hc', hl⟩
    · rfl
    · exact absurd ((mem_names _ _).2 ⟨l, hl, e.symm⟩) (child_fresh hd hc')
    · exact absurd ((mem_names _ _).2 ⟨s, hs, e⟩) (child_fresh hd hc)
    · have : c = c' := same_child hd hc hc' ((mem_names _ _).2 ⟨s, hs, e⟩) ((mem_names _ _).2 ⟨l, hl, rfl⟩)
      subst this
      exact ih c hc (child_nodup hd hc) s l hs hl e

/-- a configuration that keeps the locks read in `dev` agrees with `dev` outside the limb -/
theorem keepsLocks_agree {root limb : Joint N} (hd : root.names.Nodup) (hl : Below root limb) {dev q : List K} (h : KeepsLocks root (lockJointRec limb.name dev root) q) :
    AgreeOutside root limb q dev := by
  intro j h1 h2
  have hm : (⟨j.name, j.rank, segment dev j.rank j.size⟩ : Lock N K) ∈ lockJointRec limb.name dev root := by
    refine (C128_spared limb.name dev root hd _).2 ⟨j, h1, rfl, fun s k1 k2 => ?_⟩
    rw [below_unique hd s limb k1 hl k2]
    exact h2
  exact h j h1 _ hm rfl rfl

mutual
/-- the locks only depend on the coordinates of the joints that are locked -/
theorem lockRec_congr (stop : N → Bool) (q q' : List K) : ∀ j : Joint N, (∀ k, Reach (fun j => stop j.name = true) j k → segment q k.rank k.size = segment q' k.rank k.size) →
    lockRec stop q j = lockRec stop q' j
  | .mk n r s cs, h => by
    unfold lockRec
    by_cases hs : stop n = true
    · rw [if_pos hs, if_pos hs]
    · have e : segment q r s = segment q' r s := h (.mk n r s cs) (.self hs)
      rw [if_neg hs, if_neg hs, e, lockList_congr stop q q' cs (fun c hc k hk => h k (.child hs hc hk))]
theorem lockList_congr (stop : N → Bool) (q q' : List K) : ∀ cs : List (Joint N),
    (∀ c ∈ cs, ∀ k, Reach (fun j => stop j.name = true) c k → segment q k.rank k.size = segment q' k.rank k.size) → lockList stop q cs = lockList stop q' cs
  | [], _ => rfl
  | c :: cs, h => by
    unfold lockList
    rw [lockRec_congr stop q q' c (h c (List.mem_cons_self ..)), lockList_congr stop q q' cs (fun c' hc => h c' (List.mem_cons_of_mem _ hc))]
end

/-- configurations that agree outside the limb give the same locks -/
theorem locks_congr {root limb : Joint N} (hd : root.names.Nodup) (hl : Below root limb) {q q' : List K} (h : AgreeOutside root limb q q') :
    lockJointRec limb.name q root = lockJointRec limb.name q' root := by
  refine lockRec_congr _ _ _ _ (fun k hk => h k hk.toBelow (fun hb => ?_))
  exact hk.not_below _ hd limb hl (by simp) hb

theorem deviceLoop_agree (root limb : Joint N) (hd : root.names.Nodup) (hl : Below root limb) (load : Smp → List K → List K)
    (solve : List (Lock N K) → Smp → List K → Bool × List K) (valid : List K → Bool) (left : Smp → List K → Left) (working : List K) (candidates : List Smp)
    (hload : ∀ smp ∈ candidates, ∀ q, AgreeOutside root limb (load smp q) q)
    (hsolve : ∀ smp q, KeepsLocks root (lockJointRec limb.name working root) (solve (lockJointRec limb.name working root) smp q).2) (c dev : List K) (hc : AgreeOutside root limb c working) (hdev : AgreeOutside root limb dev working) :
    (∀ a ∈ (deviceLoop root limb.name load solve valid left working candidates c dev).1,
      AgreeOutside root limb a.device working ∧ a.locks = lockJointRec limb.name working root ∧ AgreeOutside root limb a.config working ∧
      ∃ smp ∈ candidates, ∃ q, AgreeOutside root limb q working ∧ a.config = (solve a.locks smp q).2 ∧ (a.ok = true ↔ (solve a.locks smp q).1 = true ∧ valid a.config = true)) ∧
    AgreeOutside root limb (deviceLoop root limb.name load solve valid left working candidates c dev).2 working := by
  induction candidates generalizing c dev with
  | nil => exact ⟨(fun a ha => by cases ha), hdev⟩
  | cons smp rest ih =>
    unfold deviceLoop
    simp only
    rw [locks_congr hd hl hdev]
    have hk := hsolve smp (load smp c)
    generalize hr : solve (lockJointRec limb.name working root) smp (load smp c) = r at hk
    obtain ⟨ok, c'⟩ := r
    simp only
    have hc' : AgreeOutside root limb c' working := keepsLocks_agree hd hl hk
    have hdev' : AgreeOutside root limb (if (ok && valid c') = true then (match left smp c' with
        | .alone => c'
        | .working => working
        | .candidate => c') else load smp c) working := by
      split_ifs
      · split
        · exact hc'
        · exact AgreeOutside.refl _ _ _
        · exact hc'
      · exact (hload smp (List.mem_cons_self ..) c).trans hc
    have key := ih (fun s hs => hload s (List.mem_cons_of_mem _ hs)) c' _ hc' hdev'
    refine ⟨fun a ha => ?_, key.2⟩
    rcases List.mem_cons.1 ha with rfl | ha
    · refine ⟨hdev, rfl, hc', smp, List.mem_cons_self .., load smp c, (hload smp (List.mem_cons_self ..) c).trans hc, ?_, ?_⟩
      · show c' = (solve (lockJointRec limb.name working root) smp (load smp c)).2
        rw [hr]
      · show (ok && valid c') = true ↔ (solve (lockJointRec limb.name working root) smp (load smp c)).1 = true ∧ valid c' = true
        rw [hr, Bool.and_eq_true]
    · obtain ⟨x1, x2, x3, t, ht, x4⟩ := key.1 a ha
      exact ⟨x1, x2, x3, t, List.mem_cons_of_mem _ ht, x4⟩

/-- **C173 (the joints that are locked)**: whatever is tried, wherever the tests of the earlier candidates left the device, the joints locked for a candidate are those that are not in the limb, at their values in the working
state; the device agrees with that state outside the limb when a candidate is placed; and so does the configuration that comes out, whether the projection succeeds or not.  A candidate is
said to be good exactly if it was projected and is free of collision. -/
theorem C173_device (root limb : Joint N) (hd : root.names.Nodup) (hl : Below root limb) (load : Smp → List K → List K)
    (solve : Bool → List (Lock N K) → Smp → List K → Bool × List K) (valid : List K → Bool) (left : Smp → List K → Left) (postural : Bool) (working : List K) (candidates : List Smp)
    (hload : ∀ smp ∈ candidates, ∀ q, AgreeOutside root limb (load smp q) q)
    (hsolve : ∀ p smp q, KeepsLocks root (lockJointRec limb.name working root) (solve p (lockJointRec limb.name working root) smp q).2) :
    ∀ a ∈ generateDevice root limb.name load solve valid left postural working candidates,
      (∀ l, l ∈ a.locks ↔ ∃ k, Below root k ∧ ¬ Below limb k ∧ l = ⟨k.name, k.rank, segment working k.rank k.size⟩) ∧
      AgreeOutside root limb a.device working ∧ AgreeOutside root limb a.config working ∧
      ∃ p, ∃ smp ∈ candidates, ∃ q, AgreeOutside root limb q working ∧ a.config = (solve p a.locks smp q).2 ∧ (a.ok = true ↔ (solve p a.locks smp q).1 = true ∧ valid a.config = true) := by
  intro a ha
  have k1 := deviceLoop_agree root limb hd hl load (solve postural) valid left working candidates hload (hsolve _) working working (AgreeOutside.refl _ _ _) (AgreeOutside.refl _ _ _)
  have k2 := deviceLoop_agree root limb hd hl load (solve false) valid left working candidates hload (hsolve _) working _ (AgreeOutside.refl _ _ _) k1.2
  obtain ⟨h1, h2, h3, h4⟩ : AgreeOutside root limb a.device working ∧ a.locks = lockJointRec limb.name working root ∧ AgreeOutside root limb a.config working ∧
      ∃ p, ∃ smp ∈ candidates, ∃ q, AgreeOutside root limb q working ∧ a.config = (solve p a.locks smp q).2 ∧ (a.ok = true ↔ (solve p a.locks smp q).1 = true ∧ valid a.config = true) := by
    have push : ∀ p, (AgreeOutside root limb a.device working ∧ a.locks = lockJointRec limb.name working root ∧ AgreeOutside root limb a.config working ∧
        ∃ smp ∈ candidates, ∃ q, AgreeOutside root limb q working ∧ a.config = (solve p a.locks smp q).2 ∧ (a.ok = true ↔ (solve p a.locks smp q).1 = true ∧ valid a.config = true)) →
        AgreeOutside root limb a.device working ∧ a.locks = lockJointRec limb.name working root ∧ AgreeOutside root limb a.config working ∧
        ∃ p, ∃ smp ∈ candidates, ∃ q, AgreeOutside root limb q working ∧ a.config = (solve p a.locks smp q).2 ∧ (a.ok = true ↔ (solve p a.locks smp q).1 = true ∧ valid a.config = true) :=
      fun p ⟨x1, x2, x3, x4⟩ => ⟨x1, x2, x3, p, x4⟩
    unfold generateDevice at ha
    simp only at ha
    split_ifs at ha
    · rcases List.mem_append.1 ha with ha | ha
      · exact push _ (k1.1 a ha)
      · exact push _ (k2.1 a ha)
    · exact push _ (k1.1 a ha)
  refine ⟨fun l => ?_, h1, h3, h4⟩
  rw [h2, C128_spared limb.name working root hd]
  constructor
  · rintro ⟨k, k1, k2, k3⟩
    exact ⟨k, k1, k3 limb hl rfl, k2⟩
  · rintro ⟨k, k1, k2, k3⟩
    refine ⟨k, k1, k3, fun s g1 g2 => ?_⟩
    rw [below_unique hd s limb g1 hl g2]
    exact k2

/-- **C173 (all candidates)**: every candidate is tried, once, or twice with a postural task, the second time without it; the device being set to the working state before, the first one is placed from there -/
theorem C173_all (root : Joint N) (limb : N) (load : Smp → List K → List K) (solve : Bool → List (Lock N K) → Smp → List K → Bool × List K) (valid : List K → Bool) (left : Smp → List K → Left)
    (postural : Bool) (working : List K) (candidates : List Smp) :
    (generateDevice root limb load solve valid left postural working candidates).length = (if postural then 2 else 1) * candidates.length ∧
    ∀ smp rest, candidates = smp :: rest → ∃ a more, generateDevice root limb load solve valid left postural working candidates = a :: more ∧ a.device = working ∧
      a.locks = lockJointRec limb working root ∧ a.config = (solve postural a.locks smp (load smp working)).2 := by
  have hlen : ∀ (solve : List (Lock N K) → Smp → List K → Bool × List K) (l : List Smp) (c dev : List K), (deviceLoop root limb load solve valid left working l c dev).1.length = l.length := by
    intro solve l
    induction l with
    | nil => exact fun _ _ => rfl
    | cons a l ih =>
      intro c dev
      unfold deviceLoop
      simp only [List.length_cons, ih]
  constructor
  · unfold generateDevice
    simp only
    split_ifs
    · rw [List.length_append, hlen, hlen]; omega
    · rw [hlen]; omega
  · rintro smp rest rfl
    have hd : ∃ a more, (deviceLoop root limb load (solve postural) valid left working (smp :: rest) working working).1 = a :: more ∧ a.device = working ∧
        a.locks = lockJointRec limb working root ∧ a.config = (solve postural a.locks smp (load smp working)).2 := by
      unfold deviceLoop
      exact ⟨_, _, rfl, rfl, rfl, rfl⟩
    obtain ⟨a, more, e, h⟩ := hd
    unfold generateDevice
    simp only [e]
    split_ifs
    · exact ⟨a, _, rfl, h⟩
    · exact ⟨a, more, rfl, h⟩

/-- **C173 (samples)**: loading a sample whose coordinates are those of the limb changes no coordinate of another joint -/
theorem C173_load (root limb : Joint N) (smp : Sampling.Sample K)
    (hout : ∀ j, Below root j → ¬ Below limb j → j.rank + j.size ≤ smp.startRank ∨ smp.startRank + smp.length ≤ j.rank)
    (q q' : List K) (h : Sampling.load smp q = some q') : AgreeOutside root limb q' q := by
  intro j h1 h2
  unfold Sampling.load at h
  split_ifs at h with hlen
  cases h
  unfold segment
  apply List.ext_getElem?
  intro i
  rw [List.getElem?_take, List.getElem?_take]
  split_ifs with hi
  · rw [List.getElem?_drop, List.getElem?_drop]
    rcases hout j h1 h2 with h | h
    · rw [List.append_assoc, List.getElem?_append_left (by rw [List.length_take]; omega), List.getElem?_take, if_pos (by omega)]
    · rw [List.getElem?_append_right (by rw [List.length_append, List.length_take]; omega), List.getElem?_drop, List.length_append, List.length_take]
      congr 1
      omega
  · rfl

/-! ## Non-vacuity -/

/-- the leg of the robot -/
def leg : Joint ℕ := .mk 2 8 2 [.mk 3 10 1 [.mk 4 11 1 []]]

/-- a projection that keeps the locks: the coordinates of the leg are those asked for, plus one -/
def stepSolve (locks : List (Lock ℕ ℤ)) (smp : ℤ) (q : List ℤ) : Bool × List ℤ :=
  (decide (smp ≠ 0), (locks.foldr (fun l acc => l.value ++ acc) []) ++ (q.drop 8).map (· + 1))

/-- a sample of the leg -/
def legSample (x : ℤ) : Sampling.Sample ℤ where
  startRank := 8
  length := 4
  configuration := [x, x, x, x]
  effectorPosition := 0
  effectorPositionInLimbFrame := 0
  jacobian := ⟨0, 0, []⟩
  jacobianProduct := ⟨0, 0, []⟩
  id := 0
  staticValue := 0

/-- the joints that are not in the leg: the trunk and the head -/
theorem leg_outside (j : Joint ℕ) (h1 : Below robot j) (h2 : ¬ Below leg j) : j.rank + j.size ≤ 8 := by
  rcases ((reach_mk _ _ _ _ _ _).1 h1).2 with rfl | ⟨c, hc, hj⟩
  · decide
  · simp only [List.mem_cons, List.not_mem_nil, or_false] at hc
    rcases hc with rfl | rfl
    · rcases ((reach_mk _ _ _ _ _ _).1 hj).2 with rfl | ⟨c, hc, hj⟩
      · decide
      · cases hc
    · exact absurd hj h2

/-- the hypotheses of `C173_device` on the tree, the limb and the samples are met; the first candidate is tried again after tests that leave the device elsewhere -/
theorem C173_example : robot.names.Nodup ∧ Below robot leg ∧
    (∀ (smp : ℤ) (q : List ℤ), KeepsLocks robot (lockJointRec leg.name [0, 1, 2, 3, 4, 5, 6, 7, 20, 21, 22, 23] robot)
      (stepSolve (lockJointRec leg.name [0, 1, 2, 3, 4, 5, 6, 7, 20, 21, 22, 23] robot) smp q).2) ∧
    (∀ smp ∈ [(5 : ℤ), 0], ∀ q : List ℤ, AgreeOutside robot leg ((Sampling.load (legSample smp) q).getD q) q) ∧
    (generateDevice robot 2 (fun (smp : ℤ) (q : List ℤ) => (Sampling.load (legSample smp) q).getD q) (fun _ => stepSolve) (fun q => decide (q.length = 12)) (fun _ _ => .working) true
      [0, 1, 2, 3, 4, 5, 6, 7, 20, 21, 22, 23] [5, 0]).map (fun a => (a.device, a.ok, a.config)) =
      [([0, 1, 2, 3, 4, 5, 6, 7, 20, 21, 22, 23], true, [0, 1, 2, 3, 4, 5, 6, 7, 6, 6, 6, 6]),
       ([0, 1, 2, 3, 4, 5, 6, 7, 20, 21, 22, 23], false, [0, 1, 2, 3, 4, 5, 6, 7, 1, 1, 1, 1]),
       ([0, 1, 2, 3, 4, 5, 6, 7, 0, 0, 0, 0], true, [0, 1, 2, 3, 4, 5, 6, 7, 6, 6, 6, 6]),
       ([0, 1, 2, 3, 4, 5, 6, 7, 20, 21, 22, 23], false, [0, 1, 2, 3, 4, 5, 6, 7, 1, 1, 1, 1])] := by
  refine ⟨by decide, .child (fun h => h) (List.mem_cons_of_mem _ (List.mem_cons_self ..)) (Below.refl _), ?_, ?_, by decide⟩
  · intro smp q j hj l hl e1 e2
    have hlk : lockJointRec leg.name ([0, 1, 2, 3, 4, 5, 6, 7, 20, 21, 22, 23] : List ℤ) robot = [⟨0, 0, [0, 1, 2, 3, 4, 5, 6]⟩, ⟨1, 7, [7]⟩] := by decide
    rw [hlk] at hl ⊢
    simp only [List.mem_cons, List.not_mem_nil, or_false] at hl
    rcases hl with rfl | rfl
    · obtain rfl := below_unique robot_distinct j robot hj (Below.refl _) e1.symm
      rfl
    · obtain rfl := below_unique robot_distinct j (.mk 1 7 1 []) hj (.child (fun h => h) (List.mem_cons_self ..) (Below.refl _)) e1.symm
      rfl
  intro smp _ q
  cases h : Sampling.load (legSample smp) q with
  | none => exact AgreeOutside.refl _ _ _
  | some q' => exact C173_load robot leg (legSample smp) (fun j h1 h2 => Or.inl (leg_outside j h1 h2)) q q' h

end Joints
end Rbprm
