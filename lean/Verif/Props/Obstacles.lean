import Verif.Props.Validation
import Verif.Model.Obstacles
set_option linter.unusedSectionVars false
/-!
# C150: obstacles added to and removed from a validation

The specification is in terms of the history of operations: a pair of a body and an obstacle is watched by the trunk iff it
was registered at construction or added later, and not removed since; a ROM only loses pairs.
-/
namespace Rbprm
namespace Validation
variable {N O R J : Type _} [LinearOrder N] [DecidableEq O] [DecidableEq J]

/-- the pair was removed by one of the operations -/
def Removed (joint : O → J) (ops : List (Op N O J)) (p : O × O) : Prop := Op.remove (joint p.1) p.2 ∈ ops

/-- the trunk watches the pair after the operations: it did at the beginning or its obstacle was added, and it was not
removed since. -/
def TrunkWatches (joint : O → J) (bodies : List O) (initial : List (O × O)) (ops : List (Op N O J)) (p : O × O) : Prop :=
  (p ∈ initial ∧ ¬ Removed joint ops p) ∨
  ∃ pre post, ops = pre ++ Op.add p.2 :: post ∧ p.1 ∈ bodies ∧ ¬ Removed joint post p

/-- the ROM is in contact through a pair that was not removed, or optional -/
def StillSatisfied (joint : O → J) (ops : List (Op N O J)) (collides : O × O → Bool) (rom : Rom O R) : Prop :=
  (∃ p ∈ rom.pairs, ¬ Removed joint ops p ∧ collides p = true) ∨ rom.optional = true

/-! ## one ROM, one map of ROMs -/

/-- `b` is `a` without the pairs that are not kept -/
structure Kept (keep : O × O → Prop) (a b : Rom O R) : Prop where
  mem : ∀ p, p ∈ b.pairs ↔ p ∈ a.pairs ∧ keep p
  paired : Paired b
  optional : b.optional = a.optional

theorem erasePairs_mem (drop : O × O → Bool) (ps : List (O × O)) (rs : List R) (h : rs.length = ps.length) :
    (∀ p, p ∈ (erasePairs drop ps rs).1 ↔ p ∈ ps ∧ drop p = false) ∧
      (erasePairs drop ps rs).2.length = (erasePairs drop ps rs).1.length := by
  induction ps generalizing rs with
  | nil => cases rs with
    | nil => simp [erasePairs]
    | cons => simp at h
  | cons q ps ih => cases rs with
    | nil => simp at h
    | cons r rs =>
      obtain ⟨h1, h2⟩ := ih rs (by simpa using h)
      rw [erasePairs]
      cases hq : drop q
      · refine ⟨fun p => ?_, by simpa using h2⟩
        rw [if_neg (by simp)]
        simp only [List.mem_cons, h1]
        constructor
        · rintro (rfl | h3)
          · exact ⟨.inl rfl, hq⟩
          · exact ⟨.inr h3.1, h3.2⟩
        · rintro ⟨rfl | h3, h4⟩
          · exact .inl rfl
          · exact .inr ⟨h3, h4⟩
      · refine ⟨fun p => ?_, by simpa using h2⟩
        rw [if_pos rfl]
        simp only [List.mem_cons, h1]
        constructor
        · exact fun h3 => ⟨.inr h3.1, h3.2⟩
        · rintro ⟨rfl | h3, h4⟩
          · rw [hq] at h4; cases h4
          · exact ⟨h3, h4⟩

/-- the map of ROMs lost the pairs that are not kept, and nothing else -/
def KeptAll (keep : O × O → Prop) (roms roms' : AMap N (Rom O R)) : Prop :=
  List.Forall₂ (fun p q => p.1 = q.1 ∧ Kept keep p.2 q.2) roms roms'

theorem KeptAll.find? {keep : O × O → Prop} {roms roms' : AMap N (Rom O R)} (h : KeptAll keep roms roms') (n : N) :
    (∀ rom, AMap.find? roms n = some rom → ∃ rom', AMap.find? roms' n = some rom' ∧ Kept keep rom rom') ∧
    (∀ rom', AMap.find? roms' n = some rom' → ∃ rom, AMap.find? roms n = some rom ∧ Kept keep rom rom') ∧
    AMap.keys roms' = AMap.keys roms := by
  induction h with
  | nil => simp
  | cons hpq _ ih =>
    rename_i p q l l' _
    obtain ⟨n1, r1⟩ := p; obtain ⟨n2, r2⟩ := q
    obtain ⟨e, hs⟩ := hpq
    simp only at e hs
    subst e
    refine ⟨fun rom => ?_, fun rom => ?_, ?_⟩
    · rw [AMap.find?_cons, AMap.find?_cons]
      split_ifs
      · rintro ⟨⟩; exact ⟨_, rfl, hs⟩
      · exact ih.1 rom
    · rw [AMap.find?_cons, AMap.find?_cons]
      split_ifs
      · rintro ⟨⟩; exact ⟨_, rfl, hs⟩
      · exact ih.2.1 rom
    · simp [ih.2.2]

theorem KeptAll.ok {keep : O × O → Prop} {roms roms' : AMap N (Rom O R)} (h : KeptAll keep roms roms')
    (hw : AMap.WF roms) : AMap.WF roms' ∧ ∀ p ∈ roms', Paired p.2 := by
  have hw' : AMap.WF roms' := by
    cases hr : roms' with
    | nil => exact AMap.WF_nil
    | cons p l =>
      have := (h.find? p.1).2.2
      rw [hr] at this
      unfold AMap.WF; rw [this]; exact hw
  refine ⟨hw', fun p hp => ?_⟩
  obtain ⟨rom, h1, h2⟩ := (h.find? p.1).2.1 p.2 (AMap.mem_find? hw' hp)
  exact h2.paired

theorem keptAll_of_same {roms roms' : AMap N (Rom O R)} (hp : ∀ p ∈ roms, Paired p.2)
    (h : SameRoms roms roms') : KeptAll (fun _ => True) roms roms' := by
  induction h with
  | nil => exact .nil
  | cons hpq _ ih =>
    rename_i p q _ _ _
    have hpp := hp p List.mem_cons_self
    refine .cons ⟨hpq.1, ⟨fun x => ?_, hpq.2.paired hpp, hpq.2.flags.1⟩⟩
      (ih (fun p h => hp p (List.mem_cons_of_mem _ h)))
    rw [(hpq.2.pairs_perm hpp).mem_iff]
    exact ⟨fun h => ⟨h, trivial⟩, fun h => h.1⟩

theorem keptAll_remove (drop : O × O → Bool) (roms : AMap N (Rom O R)) (hp : ∀ p ∈ roms, Paired p.2) :
    (romsRemove false drop roms).1 = false ∧
      KeptAll (fun p => drop p = false) roms (romsRemove false drop roms).2 := by
  induction roms with
  | nil => exact ⟨rfl, .nil⟩
  | cons e roms ih =>
    obtain ⟨n, rom⟩ := e
    obtain ⟨h1, h2⟩ := erasePairs_mem drop rom.pairs rom.requests (hp _ List.mem_cons_self)
    obtain ⟨h3, h4⟩ := ih (fun p h => hp p (List.mem_cons_of_mem _ h))
    have e : romRemove false drop rom = some ({ rom with
        pairs := (erasePairs drop rom.pairs rom.requests).1
        requests := (erasePairs drop rom.pairs rom.requests).2 } : Rom O R) := by simp [romRemove]
    rw [romsRemove, e]
    exact ⟨h3, .cons ⟨rfl, ⟨h1, h2, rfl⟩⟩ h4⟩

theorem keptAll_allContacts (b : Bool) (roms : AMap N (Rom O R)) (hp : ∀ p ∈ roms, Paired p.2) :
    KeptAll (fun _ => True) roms (computeAllContacts b roms) := by
  induction roms with
  | nil => exact .nil
  | cons e roms ih =>
    exact .cons ⟨rfl, ⟨fun p => ⟨fun h => ⟨h, trivial⟩, fun h => h.1⟩, hp e List.mem_cons_self, rfl⟩⟩
      (ih (fun p h => hp p (List.mem_cons_of_mem _ h)))

/-! ## one operation -/

/-- what one operation does to the pairs watched -/
theorem step_spec (bodies : List O) (joint : O → J) (v : Validator N O R) (hw : AMap.WF v.roms)
    (hp : ∀ p ∈ v.roms, Paired p.2) (op : Op N O J) :
    ∃ v', step false bodies joint v op = some v' ∧
      (∀ p, p ∈ v'.trunkPairs ↔ (p ∈ v.trunkPairs ∧ op ≠ Op.remove (joint p.1) p.2) ∨
        (op = Op.add p.2 ∧ p.1 ∈ bodies)) ∧
      KeptAll (fun p => op ≠ Op.remove (joint p.1) p.2) v.roms v'.roms ∧ v'.defaultFilter = v.defaultFilter := by
  have imp : ∀ {k k' : O × O → Prop} {a b : AMap N (Rom O R)}, (∀ p, k p ↔ k' p) → KeptAll k a b → KeptAll k' a b := by
    intro k k' a b hk h
    exact h.imp (fun _ _ ⟨h1, h2⟩ => ⟨h1, ⟨fun p => by rw [h2.mem p, hk p], h2.paired, h2.optional⟩⟩)
  cases op with
  | add o =>
    refine ⟨_, rfl, fun p => ?_, imp (k := fun _ => True) (fun p => by simp)
      (keptAll_of_same hp (SameRoms.refl _)), rfl⟩
    obtain ⟨b, o'⟩ := p
    simp only [addObstacle, List.mem_append, List.mem_map, Prod.mk.injEq, ne_eq, reduceCtorEq, not_false_eq_true,
      and_true, Op.add.injEq]
    constructor
    · rintro (h | ⟨b', h1, rfl, rfl⟩)
      · exact .inl h
      · exact .inr ⟨rfl, h1⟩
    · rintro (h | ⟨rfl, h⟩)
      · exact .inl h
      · exact .inr ⟨b, h, rfl, rfl⟩
  | remove j o =>
    have hc : ∀ p : O × O, concerned joint j o p = false ↔ (Op.remove j o : Op N O J) ≠ Op.remove (joint p.1) p.2 := by
      intro p
      simp only [concerned, decide_eq_false_iff_not, ne_eq, Op.remove.injEq]
      tauto
    refine ⟨_, rfl, fun p => ?_, imp hc ?_, ?_⟩
    · simp [removeObstacle, hc]
    · simpa [removeObstacle] using (keptAll_remove (concerned joint j o) v.roms hp).2
    · simp [removeObstacle]
  | shuffle draw =>
    obtain ⟨roms', h1, h2⟩ := C40_shuffle_all draw v.roms hp
    refine ⟨{ v with roms := roms' }, by simp [step, h1], fun p => by simp, imp (k := fun _ => True) (fun p => by simp)
      (keptAll_of_same hp (h2.imp (fun _ _ h => ⟨h.1.symm, h.2⟩))), rfl⟩
  | allContacts b =>
    exact ⟨_, rfl, fun p => by simp, imp (k := fun _ => True) (fun p => by simp) (keptAll_allContacts b v.roms hp), rfl⟩
  | validate collides boundsOk filter =>
    obtain ⟨b, w, r, h1, -, -, -, -, -, -, h2, h3, h4⟩ := C39_validate_partial collides boundsOk v hw hp filter
    exact ⟨w, by simp [step, h1], fun p => by simp [h3], imp (k := fun _ => True) (fun p => by simp)
      (keptAll_of_same hp h2), h4⟩

theorem KeptAll.trans {k k' : O × O → Prop} {a b c : AMap N (Rom O R)} (h : KeptAll k a b) (h' : KeptAll k' b c) :
    KeptAll (fun p => k p ∧ k' p) a c := by
  unfold KeptAll at *
  induction h generalizing c with
  | nil => cases h'; exact .nil
  | cons hpq _ ih =>
    cases h' with
    | cons hqr h' =>
      refine .cons ⟨hpq.1.trans hqr.1, ⟨fun p => ?_, hqr.2.paired, hqr.2.optional.trans hpq.2.optional⟩⟩ (ih h')
      rw [hqr.2.mem, hpq.2.mem, and_assoc]

theorem history_spec (bodies : List O) (joint : O → J) (ops : List (Op N O J)) (v : Validator N O R)
    (hw : AMap.WF v.roms) (hp : ∀ p ∈ v.roms, Paired p.2) :
    ∃ v', ops.foldlM (step false bodies joint) v = some v' ∧
      (∀ p, p ∈ v'.trunkPairs ↔ TrunkWatches joint bodies v.trunkPairs ops p) ∧
      KeptAll (fun p => ¬ Removed joint ops p) v.roms v'.roms ∧ v'.defaultFilter = v.defaultFilter := by
  induction ops generalizing v with
  | nil =>
    refine ⟨v, rfl, fun p => ?_, ?_, rfl⟩
    · simp [TrunkWatches, Removed]
    · refine (keptAll_of_same hp (SameRoms.refl _)).imp (fun _ _ ⟨h1, h2⟩ => ⟨h1, ⟨fun p => ?_, h2.paired, h2.optional⟩⟩)
      rw [h2.mem]; simp [Removed]
  | cons op ops ih =>
    obtain ⟨w, h1, h2, h3, h4⟩ := step_spec bodies joint v hw hp op
    obtain ⟨v', g1, g2, g3, g4⟩ := ih w (h3.ok hw).1 (h3.ok hw).2
    refine ⟨v', by rw [List.foldlM_cons, h1]; exact g1, fun p => ?_, ?_, g4.trans h4⟩
    · rw [g2 p]
      unfold TrunkWatches
      rw [h2 p]
      have hr : Removed joint (op :: ops) p ↔ op = Op.remove (joint p.1) p.2 ∨ Removed joint ops p := by
        unfold Removed; rw [List.mem_cons]; exact or_congr_left eq_comm
      rw [hr]
      constructor
      · rintro (⟨h | ⟨h5, h6⟩, h'⟩ | ⟨pre, post, rfl, h5, h6⟩)
        · exact .inl ⟨h.1, by tauto⟩
        · exact .inr ⟨[], ops, by rw [h5]; rfl, h6, h'⟩
        · exact .inr ⟨op :: pre, post, rfl, h5, h6⟩
      · rintro (⟨h5, h6⟩ | ⟨pre, post, h5, h6, h7⟩)
        · exact .inl ⟨.inl ⟨h5, by tauto⟩, by tauto⟩
        · cases pre with
          | nil =>
            simp only [List.nil_append, List.cons.injEq] at h5
            obtain ⟨h8, rfl⟩ := h5
            exact .inl ⟨.inr ⟨h8, h6⟩, h7⟩
          | cons q pre =>
            simp only [List.cons_append, List.cons.injEq] at h5
            exact .inr ⟨pre, post, h5.2, h6, h7⟩
    · refine (h3.trans g3).imp (fun _ _ ⟨e1, e2⟩ => ⟨e1, ⟨fun p => ?_, e2.paired, e2.optional⟩⟩)
      rw [e2.mem]
      unfold Removed
      rw [List.mem_cons]
      constructor
      · rintro ⟨h5, h6, h7⟩; exact ⟨h5, by rintro (h | h); exacts [h6 h.symm, h7 h]⟩
      · rintro ⟨h5, h6⟩; exact ⟨h5, fun h => h6 (.inl h.symm), fun h => h6 (.inr h)⟩

/-! ## C150 -/

/-- **C150, partial**: after every history of additions, removals, shuffles, switches and validations, a configuration is
accepted iff no pair watched by the trunk collides, the bounds hold, and every ROM of the filter (known, not repeated) still
touches through a pair that was not removed or is optional.  In particular an added obstacle never serves as contact surface.
Assumes that the removal of an obstacle that is not registered is not an error in hpp-core; otherwise see
`C150_exception_violated`. -/
theorem C150_history_partial (bodies : List O) (joint : O → J) (v : Validator N O R) (hw : AMap.WF v.roms)
    (hp : ∀ p ∈ v.roms, Paired p.2) (ops : List (Op N O J)) :
    ∃ v', ops.foldlM (step false bodies joint) v = some v' ∧ v'.defaultFilter = v.defaultFilter ∧
      ∀ collides boundsOk filter, ∃ b, (validate collides boundsOk v' filter).map Prod.fst = some b ∧
        (b = true ↔ (∀ p, TrunkWatches joint bodies v.trunkPairs ops p → collides p = false) ∧ boundsOk = true ∧
          filter.Nodup ∧ ∀ n ∈ filter, ∃ rom, AMap.find? v.roms n = some rom ∧
            StillSatisfied joint ops collides rom) := by
  obtain ⟨v', h1, h2, h3, h4⟩ := history_spec bodies joint ops v hw hp
  refine ⟨v', h1, h4, fun collides boundsOk filter => ?_⟩
  obtain ⟨hw', hp'⟩ := h3.ok hw
  obtain ⟨b, w, r, e1, e2, -⟩ := C39_validate_partial collides boundsOk v' hw' hp' filter
  refine ⟨b, by rw [e1]; rfl, ?_⟩
  rw [e2]
  refine and_congr (forall_congr' (fun p => by rw [h2 p])) (and_congr_right (fun _ => and_congr_right (fun _ => ?_)))
  have hsat : ∀ {rom rom' : Rom O R}, Kept (fun p => ¬ Removed joint ops p) rom rom' →
      (Satisfied collides rom' ↔ StillSatisfied joint ops collides rom) := by
    intro rom rom' hk
    unfold Satisfied StillSatisfied Touches
    rw [hk.optional]
    refine or_congr_left ⟨?_, ?_⟩
    · rintro ⟨p, h5, h6⟩; exact ⟨p, ((hk.mem p).1 h5).1, ((hk.mem p).1 h5).2, h6⟩
    · rintro ⟨p, h5, h6, h7⟩; exact ⟨p, (hk.mem p).2 ⟨h5, h6⟩, h7⟩
  refine forall_congr' (fun n => forall_congr' (fun _ => ⟨?_, ?_⟩))
  · rintro ⟨rom', h5, h6⟩
    obtain ⟨rom, h7, h8⟩ := (h3.find? n).2.1 rom' h5
    exact ⟨rom, h7, (hsat h8).1 h6⟩
  · rintro ⟨rom, h5, h6⟩
    obtain ⟨rom', h7, h8⟩ := (h3.find? n).1 rom h5
    exact ⟨rom', h7, (hsat h8).2 h6⟩

/-- **C150 (addition)** Adding an obstacle rejects exactly the configurations in which a body of the trunk collides with it;
the answers of `validateRoms` are those before. -/
theorem C150_add (bodies : List O) (object : O) (v : Validator N O R) (hw : AMap.WF v.roms)
    (hp : ∀ p ∈ v.roms, Paired p.2) (collides : O × O → Bool) (boundsOk : Bool) (filter : List N) :
    ((validate collides boundsOk (addObstacle bodies object v) filter).map Prod.fst = some true ↔
      (validate collides boundsOk v filter).map Prod.fst = some true ∧ ∀ b ∈ bodies, collides (b, object) = false) ∧
    (∀ r, validateRoms collides filter (addObstacle bodies object v).roms r = validateRoms collides filter v.roms r) := by
  refine ⟨?_, fun r => rfl⟩
  obtain ⟨b, w, r, e1, e2, -⟩ := C39_validate_partial collides boundsOk v hw hp filter
  obtain ⟨b', w', r', e1', e2', -⟩ := C39_validate_partial collides boundsOk (addObstacle bodies object v) hw hp filter
  rw [e1, e1']
  simp only [Option.map_some, Option.some.injEq]
  rw [e2, e2']
  simp only [addObstacle, List.mem_append, List.mem_map]
  constructor
  · rintro ⟨h1, h2⟩
    exact ⟨⟨fun p hp => h1 p (.inl hp), h2⟩, fun b hb => h1 _ (.inr ⟨b, hb, rfl⟩)⟩
  · rintro ⟨⟨h1, h2⟩, h3⟩
    refine ⟨?_, h2⟩
    rintro p (hp | ⟨b, hb, rfl⟩)
    · exact h1 p hp
    · exact h3 b hb

/-- **C150 is violated** when hpp-core raises an exception for an obstacle that is not registered for the joint: the trunk
and the ROMs are different devices, so that with at least one ROM every call of `removeObstacleFromJoint` raises an
exception, and no surface is ever removed from a ROM. -/
theorem C150_exception_violated (joint : O → J) (v : Validator N O R) (hr : v.roms ≠ [])
    (hdiff : ∀ p ∈ v.trunkPairs, ∀ e ∈ v.roms, ∀ q ∈ e.2.pairs, joint p.1 ≠ joint q.1) (j : J) (object : O) :
    (removeObstacle true joint j object v).1 = true ∧ (removeObstacle true joint j object v).2.roms = v.roms := by
  unfold removeObstacle
  dsimp only
  cases ha : v.trunkPairs.any (concerned joint j object)
  · simp
  · rw [if_neg (by simp)]
    obtain ⟨p, hp, hc⟩ := List.any_eq_true.1 ha
    simp only [concerned, decide_eq_true_eq] at hc
    obtain ⟨e, l, he⟩ := List.exists_cons_of_ne_nil hr
    have : e.2.pairs.any (concerned joint j object) = false := by
      rw [List.any_eq_false]
      intro q hq
      have := hdiff p hp e (by rw [he]; exact List.mem_cons_self) q hq
      simp only [concerned, decide_eq_true_eq, not_and]
      intro hj
      exact absurd (hc.1.trans hj.symm) this
    rw [he, romsRemove]
    simp [romRemove, this]

/-- a validator with one body `0` of the trunk (joint 0), ROMs of bodies `10`, `11` (joints 1, 2), surfaces `20`, `21` -/
def demoObst : Validator Nat Nat Nat where
  trunkPairs := [(0, 20)]
  trunkAll := false
  roms := [(1, ⟨[(10, 20), (10, 21)], [7, 8], false, false⟩), (2, ⟨[(11, 20)], [9], true, false⟩)]
  defaultFilter := [1, 2]

/-- the joint of a body of `demoObst` -/
def demoJoint : Nat → Nat := fun b => if b = 10 then 1 else if b = 11 then 2 else 0

/-- the hypotheses are met; a removal makes the ROM lose its surface, an added obstacle is no surface, and re-adding an
obstacle brings back the trunk pair only -/
example : (AMap.WF demoObst.roms ∧ ∀ p ∈ demoObst.roms, Paired p.2) ∧
    (∀ p ∈ demoObst.trunkPairs, ∀ e ∈ demoObst.roms, ∀ q ∈ e.2.pairs, demoJoint p.1 ≠ demoJoint q.1) ∧
    (([Op.remove 1 20, .add 22, .remove 0 20, .shuffle (fun _ i => i), .add 20] : List (Op Nat Nat Nat)).foldlM
      (step false [0] demoJoint) demoObst).map (fun v => (v.trunkPairs, v.roms.map (fun e => e.2.pairs))) =
      some ([(0, 22), (0, 20)], [[(10, 21)], [(11, 20)]]) ∧
    (([Op.remove 1 20] : List (Op Nat Nat Nat)).foldlM (step false [0] demoJoint) demoObst).bind (fun v =>
      (validate (fun p => decide (p = (10, 20))) true v [1]).map Prod.fst) = some false ∧
    (validate (fun p => decide (p = (10, 20))) true demoObst [1]).map Prod.fst = some true := by
  unfold AMap.WF Paired; decide

end Validation
end Rbprm
