import Verif.Model.FullBody
import Mathlib.Tactic.SplitIfs
import Mathlib.Data.List.Nodup
set_option linter.unusedSectionVars false
/-! # C36, C37, C76, C77: limb registries, effector trajectories, factories -/
namespace Rbprm
namespace Registry
variable {N L C F T : Type _} [LinearOrder N]

/-! ## Specification of the limb registry (C36) -/

/-- what a user knows: the registered limbs, each with the flag "may create contacts", and the heuristics -/
structure Known (N L F : Type _) where
  limb : N → Option (L × Bool)
  heuristic : N → Option F

def Known.register (k : Known N L F) (id : N) (l : L) (contacting : Bool) : Known N L F :=
  { k with limb := fun j => if j = id then some (l, contacting) else k.limb j }

/-- the effect a user expects from a call -/
def expected (static : N) (k : Known N L F) : Op N L C F T → Outcome × Known N L F
  | .addLimb id _ h create _ =>
    match k.limb id, (k.heuristic h).bind create with
    | none, some l => (.returned true, k.register id l true)
    | _, _ => (.threw, k)
  | .addLimbDatabase id h file _ =>
    match k.limb id, k.heuristic h, file with
    | none, some f, some (_, l) => (.returned true, k.register id (l f) true)
    | _, _, _ => (.threw, k)
  | .addNonContactingLimb id _ create _ =>
    match k.limb id, (k.heuristic static).bind create with
    | none, some l => (.returned true, k.register id l false)
    | _, _ => (.threw, k)
  | .toggle id =>
    match k.limb id with
    | some (l, b) => (.returned true, k.register id l (!b))
    | none => (.returned false, k)
  | .addHeuristic n f =>
    match k.heuristic n with
    | some _ => (.returned false, k)
    | none => (.returned true, { k with heuristic := fun j => if j = n then some f else k.heuristic j })
  | .addTrajectories _ _ _ => (.returned true, k)
  | .addTrajectory _ _ _ => (.returned true, k)

/-- is the return value of the call determined by the limb registry? -/
def Op.aboutLimbs : Op N L C F T → Bool
  | .addTrajectories _ _ _ => false
  | _ => true

/-- the call re-uses, for one registry, an id registered in the other one -/
def Crosses (k : Known N L F) : Op N L C F T → Prop
  | .addLimb id _ _ _ _ => ∃ l, k.limb id = some (l, false)
  | .addLimbDatabase id _ _ _ => ∃ l, k.limb id = some (l, false)
  | .addNonContactingLimb id _ _ _ => ∃ l, k.limb id = some (l, true)
  | _ => False

def NoCrossing (static : N) : Known N L F → List (Op N L C F T) → Prop
  | _, [] => True
  | k, op :: ops => ¬ Crosses k op ∧ NoCrossing static (expected static k op).2 ops

def expectedRun (static : N) : Known N L F → List (Op N L C F T) → List Outcome × Known N L F
  | k, [] => ([], k)
  | k, op :: ops => ((expected static k op).1 :: (expectedRun static (expected static k op).2 ops).1,
      (expectedRun static (expected static k op).2 ops).2)

/-- the object holds exactly what the user knows: each limb in exactly one registry -/
structure Represents (fb : FullBody N L C F T) (k : Known N L F) : Prop where
  contacting : ∀ id l, k.limb id = some (l, true) ↔ AMap.find? fb.limbs id = some l
  nonContacting : ∀ id l, k.limb id = some (l, false) ↔ AMap.find? fb.nonContactingLimbs id = some l
  heuristic : ∀ n, AMap.find? fb.heuristics n = k.heuristic n
  wf : AMap.WF fb.limbs ∧ AMap.WF fb.nonContactingLimbs

/-- the ids given to the add calls of a history -/
def addedIds : List (Op N L C F T) → List N
  | [] => []
  | .addLimb id _ _ _ _ :: ops => id :: addedIds ops
  | .addLimbDatabase id _ _ _ :: ops => id :: addedIds ops
  | .addNonContactingLimb id _ _ _ :: ops => id :: addedIds ops
  | _ :: ops => addedIds ops

/-! ## Proofs -/

theorem Represents.none_iff {fb : FullBody N L C F T} {k : Known N L F} (h : Represents fb k) (id : N) :
    k.limb id = none ↔ AMap.find? fb.limbs id = none ∧ AMap.find? fb.nonContactingLimbs id = none := by
  constructor
  · intro hn
    constructor
    · cases hf : AMap.find? fb.limbs id with
      | none => rfl
      | some l => rw [(h.contacting id l).2 hf] at hn; simp at hn
    · cases hf : AMap.find? fb.nonContactingLimbs id with
      | none => rfl
      | some l => rw [(h.nonContacting id l).2 hf] at hn; simp at hn
  · rintro ⟨h1, h2⟩
    rcases hk : k.limb id with _ | ⟨l, b⟩
    · rfl
    · cases b
      · rw [(h.nonContacting id l).1 hk] at h2; simp at h2
      · rw [(h.contacting id l).1 hk] at h1; simp at h1

theorem represents_add {fb : FullBody N L C F T} {k : Known N L F} (h : Represents fb k) {id : N}
    (hn : k.limb id = none) (l : L) (name : N) (objs : List C) (non : Bool) :
    Represents (addLimbPrivate fb l id name objs non) (k.register id l (!non)) := by
  obtain ⟨h1, h2⟩ := (h.none_iff id).1 hn
  cases non
  · refine ⟨fun j m => ?_, fun j m => ?_, h.heuristic, ?_, h.wf.2⟩
    · simp only [Known.register, addLimbPrivate, Bool.not_false, Bool.false_eq_true, if_false, AMap.find?_insertNew, h1,
        Option.getD_none]
      split_ifs <;> simp [h.contacting]
    · simp only [Known.register, addLimbPrivate, Bool.not_false, Bool.false_eq_true, if_false]
      split_ifs with e
      · subst e; simp [h2]
      · exact h.nonContacting j m
    · exact AMap.WF_insertNew h.wf.1 _ _
  · refine ⟨fun j m => ?_, fun j m => ?_, h.heuristic, h.wf.1, ?_⟩
    · simp only [Known.register, addLimbPrivate, Bool.not_true, if_true]
      split_ifs with e
      · subst e; simp [h1]
      · exact h.contacting j m
    · simp only [Known.register, addLimbPrivate, Bool.not_true, if_true, AMap.find?_insertNew, h2, Option.getD_none]
      split_ifs <;> simp [h.nonContacting]
    · exact AMap.WF_insertNew h.wf.2 _ _

theorem represents_toggle {fb : FullBody N L C F T} {k : Known N L F} (h : Represents fb k) (id : N) (static : N) :
    (toggleNonContactingLimb fb id).1 = (expected (C := C) (T := T) static k (.toggle id)).1 ∧
    Represents (toggleNonContactingLimb fb id).2 (expected (C := C) (T := T) static k (.toggle id)).2 := by
  simp only [toggleNonContactingLimb, expected]
  rcases hk : k.limb id with _ | ⟨l, b⟩
  · obtain ⟨h1, h2⟩ := (h.none_iff id).1 hk
    simp only [h1, h2]; exact ⟨trivial, h⟩
  · cases b
    · have h2 := (h.nonContacting id l).1 hk
      have h1 : AMap.find? fb.limbs id = none := by
        cases hf : AMap.find? fb.limbs id with
        | none => rfl
        | some m => have := (h.contacting id m).2 hf; rw [hk] at this; simp at this
      simp only [h1, h2]
      refine ⟨trivial, fun j m => ?_, fun j m => ?_, h.heuristic, AMap.WF_insertNew h.wf.1 _ _, AMap.WF_erase h.wf.2 _⟩
      · simp only [Known.register, Bool.not_false, AMap.find?_insertNew, h1, Option.getD_none]
        split_ifs <;> simp [h.contacting]
      · simp only [Known.register, Bool.not_false, AMap.find?_erase]
        split_ifs with e
        · simp
        · exact h.nonContacting j m
    · have h1 := (h.contacting id l).1 hk
      have h2 : AMap.find? fb.nonContactingLimbs id = none := by
        cases hf : AMap.find? fb.nonContactingLimbs id with
        | none => rfl
        | some m => have := (h.nonContacting id m).2 hf; rw [hk] at this; simp at this
      simp only [h1]
      refine ⟨trivial, fun j m => ?_, fun j m => ?_, h.heuristic, AMap.WF_erase h.wf.1 _, AMap.WF_insertNew h.wf.2 _ _⟩
      · simp only [Known.register, Bool.not_true, AMap.find?_erase]
        split_ifs with e
        · simp
        · exact h.contacting j m
      · simp only [Known.register, Bool.not_true, AMap.find?_insertNew, h2, Option.getD_none]
        split_ifs <;> simp [h.nonContacting]

theorem represents_step {fb : FullBody N L C F T} {k : Known N L F} (h : Represents fb k) (static : N)
    (op : Op N L C F T) (hx : ¬ Crosses k op) :
    (op.aboutLimbs = true → (step static fb op).1 = (expected static k op).1) ∧
    Represents (step static fb op).2 (expected static k op).2 := by
  cases op with
  | addLimb id name hn create objs =>
    simp only [step, addLimb, checkLimbData, h.heuristic, expected]
    rcases hk : k.limb id with _ | ⟨l, b⟩
    · obtain ⟨h1, -⟩ := (h.none_iff id).1 hk
      rw [h1]
      simp only
      cases k.heuristic hn with
      | none => exact ⟨fun _ => rfl, h⟩
      | some f =>
        simp only [Option.bind_some]
        cases hc : create f with
        | none => exact ⟨fun _ => rfl, h⟩
        | some l => exact ⟨fun _ => rfl, represents_add h hk l name objs false⟩
    · cases b
      · exact absurd ⟨l, hk⟩ hx
      · rw [(h.contacting id l).1 hk]; exact ⟨fun _ => rfl, h⟩
  | addLimbDatabase id hn file objs =>
    simp only [step, addLimbDatabase, checkLimbData, h.heuristic, expected]
    rcases hk : k.limb id with _ | ⟨l, b⟩
    · obtain ⟨h1, -⟩ := (h.none_iff id).1 hk
      rw [h1]
      simp only
      cases k.heuristic hn with
      | none => exact ⟨fun _ => rfl, h⟩
      | some f =>
        cases file with
        | none => exact ⟨fun _ => rfl, h⟩
        | some p => exact ⟨fun _ => rfl, represents_add h hk (p.2 f) p.1 objs false⟩
    · cases b
      · exact absurd ⟨l, hk⟩ hx
      · rw [(h.contacting id l).1 hk]; exact ⟨fun _ => rfl, h⟩
  | addNonContactingLimb id name create objs =>
    simp only [step, addNonContactingLimb, checkLimbData, h.heuristic, expected]
    rcases hk : k.limb id with _ | ⟨l, b⟩
    · obtain ⟨-, h2⟩ := (h.none_iff id).1 hk
      rw [h2]
      simp only
      cases k.heuristic static with
      | none => exact ⟨fun _ => rfl, h⟩
      | some f =>
        simp only [Option.bind_some]
        cases hc : create f with
        | none => exact ⟨fun _ => rfl, h⟩
        | some l => exact ⟨fun _ => rfl, represents_add h hk l name objs true⟩
    · cases b
      · rw [(h.nonContacting id l).1 hk]; exact ⟨fun _ => rfl, h⟩
      · exact absurd ⟨l, hk⟩ hx
  | toggle id => exact ⟨fun _ => (represents_toggle h id static).1, (represents_toggle h id static).2⟩
  | addHeuristic n f =>
    simp only [step, addHeuristic, addNamed, h.heuristic, expected]
    cases hn : k.heuristic n with
    | some g => exact ⟨fun _ => rfl, h.contacting, h.nonContacting, h.heuristic, h.wf⟩
    | none =>
      refine ⟨fun _ => rfl, h.contacting, h.nonContacting, fun j => ?_, h.wf⟩
      simp only [AMap.find?_insertNew, h.heuristic, hn, Option.getD_none]
  | addTrajectories p e l =>
    refine ⟨fun hc => by simp [Op.aboutLimbs] at hc, ?_⟩
    simp only [step, addEffectorTrajectories, expected]
    split <;> exact ⟨h.contacting, h.nonContacting, h.heuristic, h.wf⟩
  | addTrajectory p e t =>
    simp only [step, addEffectorTrajectory, expected, insertFlag]
    split
    · next hp =>
      refine ⟨fun _ => ?_, h.contacting, h.nonContacting, h.heuristic, h.wf⟩
      rw [AMap.has, hp]; rfl
    · split
      · next hp =>
        refine ⟨fun _ => ?_, h.contacting, h.nonContacting, h.heuristic, h.wf⟩
        rw [AMap.has, hp]; rfl
      · exact ⟨fun _ => rfl, h.contacting, h.nonContacting, h.heuristic, h.wf⟩

/-- **C36, partial**: as long as no call re-uses in one registry an id of the other one, every call returns or throws as
expected and the object holds exactly the expected limbs, each in exactly one registry; in particular adding a used id
throws and changes nothing.  Missing: ids shared by the two registries, see `C36_violated`. -/
theorem C36_history_partial (static : N) (ops : List (Op N L C F T)) (fb : FullBody N L C F T) (k : Known N L F)
    (h : Represents fb k) (hx : NoCrossing static k ops) :
    Represents (run static fb ops).2 (expectedRun static k ops).2 ∧
    ∀ (i : Nat) (op : Op N L C F T), ops[i]? = some op → op.aboutLimbs = true →
      (run static fb ops).1[i]? = (expectedRun static k ops).1[i]? := by
  induction ops generalizing fb k with
  | nil => exact ⟨h, by simp⟩
  | cons op ops ih =>
    obtain ⟨h1, h2⟩ := represents_step h static op hx.1
    obtain ⟨h3, h4⟩ := ih _ _ h2 hx.2
    refine ⟨h3, fun i o hi ho => ?_⟩
    cases i with
    | zero =>
      simp only [List.getElem?_cons_zero, Option.some.injEq] at hi
      subst hi
      simp only [run, expectedRun, List.getElem?_cons_zero, h1 ho]
    | succ i =>
      simp only [run, expectedRun, List.getElem?_cons_succ]
      exact h4 i o (by simpa using hi) ho

theorem expected_limb (static : N) (k : Known N L F) (op : Op N L C F T) (j : N)
    (h : ((expected static k op).2.limb j).isSome) : (k.limb j).isSome ∨ j ∈ addedIds [op] := by
  revert h
  cases op with
  | addLimb id _ hn create _ =>
    simp only [expected]; split <;> intro h
    · simp only [Known.register] at h
      split_ifs at h with e
      · right; simp [addedIds, e]
      · exact Or.inl h
    · exact Or.inl h
  | addLimbDatabase id _ hn create =>
    simp only [expected]; split <;> intro h
    · simp only [Known.register] at h
      split_ifs at h with e
      · right; simp [addedIds, e]
      · exact Or.inl h
    · exact Or.inl h
  | addNonContactingLimb id _ hn create =>
    simp only [expected]; split <;> intro h
    · simp only [Known.register] at h
      split_ifs at h with e
      · right; simp [addedIds, e]
      · exact Or.inl h
    · exact Or.inl h
  | toggle id =>
    simp only [expected]; split
    · next l b hk =>
      intro h
      simp only [Known.register] at h
      split_ifs at h with e
      · left; rw [e, hk]; rfl
      · exact Or.inl h
    · exact fun h => Or.inl h
  | addHeuristic n f => simp only [expected]; split <;> exact fun h => Or.inl h
  | addTrajectories _ _ _ => exact fun h => Or.inl h
  | addTrajectory _ _ _ => exact fun h => Or.inl h

theorem addedIds_cons (op : Op N L C F T) (ops : List (Op N L C F T)) :
    addedIds (op :: ops) = addedIds [op] ++ addedIds ops := by
  cases op <;> rfl

theorem noCrossing_of_distinct (static : N) (ops : List (Op N L C F T)) (k : Known N L F)
    (hd : (addedIds ops).Nodup) (hk : ∀ j ∈ addedIds ops, k.limb j = none) : NoCrossing static k ops := by
  induction ops generalizing k with
  | nil => trivial
  | cons op ops ih =>
    rw [addedIds_cons] at hd hk
    refine ⟨fun hc => ?_, ih _ (List.nodup_append.1 hd).2.1 (fun j hj => ?_)⟩
    · cases op <;> simp only [Crosses] at hc <;> obtain ⟨l, hl⟩ := hc <;>
        rw [hk _ (by simp [addedIds])] at hl <;> simp at hl
    · cases hf : (expected static k op).2.limb j with
      | none => rfl
      | some p =>
        rcases expected_limb static k op j (by rw [hf]; rfl) with h1 | h1
        · rw [hk j (List.mem_append_right _ hj)] at h1; simp at h1
        · exact absurd rfl ((List.nodup_append.1 hd).2.2 j h1 j hj)

/-- a new full body: no limb, the heuristics of the factory -/
def nothing (heuristics : AMap N F) : Known N L F := ⟨fun _ => none, AMap.find? heuristics⟩

theorem represents_create (heuristics : AMap N F) :
    Represents (FullBody.create (L := L) (C := C) (T := T) heuristics) (nothing heuristics) :=
  ⟨fun _ _ => by simp [nothing, FullBody.create], fun _ _ => by simp [nothing, FullBody.create], fun _ => rfl,
    AMap.WF_nil, AMap.WF_nil⟩

/-- **C36** for histories whose add calls use distinct ids, from a new full body: the object holds exactly the expected
limbs and each call ends as expected; `GetLimb` finds exactly these limbs. -/
theorem C36_distinct (static : N) (heuristics : AMap N F) (ops : List (Op N L C F T)) (hd : (addedIds ops).Nodup) :
    let fb := (run static (FullBody.create heuristics) ops).2
    let k := (expectedRun static (nothing heuristics) ops).2
    (∀ id, getLimb fb id false = (k.limb id).map Prod.fst) ∧
    (∀ id l, getLimb fb id true = some l ↔ k.limb id = some (l, true)) ∧
    (∀ id, ¬ (id ∈ AMap.keys fb.limbs ∧ id ∈ AMap.keys fb.nonContactingLimbs)) ∧
    ∀ (i : Nat) (op : Op N L C F T), ops[i]? = some op → op.aboutLimbs = true →
      (run static (FullBody.create heuristics) ops).1[i]? =
        (expectedRun static (nothing (L := L) heuristics) ops).1[i]? := by
  obtain ⟨h1, h2⟩ := C36_history_partial static ops (FullBody.create heuristics) (nothing heuristics)
    (represents_create heuristics) (noCrossing_of_distinct static ops _ hd (fun _ _ => rfl))
  refine ⟨fun id => ?_, fun id l => ?_, fun id hc => ?_, h2⟩
  · unfold getLimb
    rcases hk : (expectedRun static (nothing (L := L) heuristics) ops).2.limb id with _ | ⟨l, b⟩
    · obtain ⟨e1, e2⟩ := (h1.none_iff id).1 hk
      simp [e1, e2]
    · cases b
      · have e2 := (h1.nonContacting id l).1 hk
        cases hf : AMap.find? (run static (FullBody.create heuristics) ops).2.limbs id with
        | none => simp [e2]
        | some m => have := (h1.contacting id m).2 hf; rw [hk] at this; simp at this
      · rw [(h1.contacting id l).1 hk]; rfl
  · rw [h1.contacting, getLimb]
    split <;> rename_i e <;> simp [e]
  · obtain ⟨h3, h4⟩ := hc
    obtain ⟨l, hl⟩ := Option.isSome_iff_exists.1 (AMap.find?_isSome.2 h3)
    obtain ⟨m, hm⟩ := Option.isSome_iff_exists.1 (AMap.find?_isSome.2 h4)
    have e1 := (h1.contacting id l).2 hl
    have e2 := (h1.nonContacting id m).2 hm
    rw [e1] at e2; simp at e2

/-- **C36** (toggling): twice is the identity on the whole object; an unknown id reports failure and changes nothing. -/
theorem C36_toggle (fb : FullBody N L C F T) (k : Known N L F) (h : Represents fb k) (id : N) :
    (toggleNonContactingLimb (toggleNonContactingLimb fb id).2 id).2 = fb ∧
    (k.limb id = none → toggleNonContactingLimb fb id = (.returned false, fb)) ∧
    ((k.limb id).isSome → (toggleNonContactingLimb fb id).1 = .returned true) := by
  have ht := represents_toggle h id id
  have ht2 := represents_toggle ht.2 id id
  refine ⟨?_, ?_, ?_⟩
  · have e : ∀ j, (expected (C := C) (T := T) id (expected (C := C) (T := T) id k (.toggle id)).2 (.toggle id)).2.limb j =
        k.limb j := by
      intro j
      simp only [expected]
      rcases hk : k.limb id with _ | ⟨l, b⟩
      · simp [hk]
      · simp only [Known.register, if_true, Bool.not_not]
        split_ifs with e
        · rw [e, hk]
        · rfl
    have el : (toggleNonContactingLimb (toggleNonContactingLimb fb id).2 id).2.limbs = fb.limbs := by
      refine AMap.ext_find? ht2.2.wf.1 h.wf.1 (fun j => Option.ext (fun l => ?_))
      rw [← ht2.2.contacting, ← h.contacting, e]
    have en : (toggleNonContactingLimb (toggleNonContactingLimb fb id).2 id).2.nonContactingLimbs =
        fb.nonContactingLimbs := by
      refine AMap.ext_find? ht2.2.wf.2 h.wf.2 (fun j => Option.ext (fun l => ?_))
      rw [← ht2.2.nonContacting, ← h.nonContacting, e]
    have ho : ∀ g : FullBody N L C F T, ∃ a b, (toggleNonContactingLimb g id).2 =
        { g with limbs := a, nonContactingLimbs := b } := by
      intro g; unfold toggleNonContactingLimb
      split
      · exact ⟨_, _, rfl⟩
      · split
        · exact ⟨_, _, rfl⟩
        · exact ⟨_, _, rfl⟩
    obtain ⟨a, b, hab⟩ := ho fb
    obtain ⟨c, d, hcd⟩ := ho (toggleNonContactingLimb fb id).2
    rw [hcd] at el en ⊢
    rw [hab] at el en ⊢
    simp only at el en
    rw [el, en]
  · intro hn
    obtain ⟨h1, h2⟩ := (h.none_iff id).1 hn
    simp [toggleNonContactingLimb, h1, h2]
  · intro hs
    rw [ht.1]
    obtain ⟨p, hp⟩ := Option.isSome_iff_exists.1 hs
    simp [expected, hp]

/-- non-vacuity: two limbs with distinct ids and a toggle -/
def demoOps : List (Op Nat Nat Nat Nat Nat) :=
  [.addLimb 10 0 5 (fun f => some (f + 1)) [7], .addNonContactingLimb 11 0 (fun f => some (f + 2)) [7], .toggle 11,
   .addLimb 10 1 5 (fun f => some f) []]

example : (addedIds (demoOps.take 3)).Nodup ∧
    (run 5 (FullBody.create [(5, 100)]) (demoOps.take 3)).2.limbs = [(10, 101), (11, 102)] := by decide
/-- non-vacuity of `C36_history_partial` beyond distinct ids: the last call throws -/
example : NoCrossing 5 (nothing [(5, 100)]) demoOps ∧ (run 5 (FullBody.create [(5, 100)]) demoOps).1 =
    [.returned true, .returned true, .returned true, .threw] := by
  refine ⟨⟨?_, ?_, ?_, ?_, trivial⟩, by decide⟩ <;>
    simp [Crosses, expected, nothing, Known.register, AMap.find?]

/-- **C36 is violated** across the registries: an id used by a non contacting limb is accepted by `AddLimb`, the limb is
then in both registries, and toggling it loses one of the two limbs. -/
theorem C36_violated : ∃ ops : List (Op Nat Nat Nat Nat Nat),
    (run 5 (FullBody.create [(5, 100)]) ops).1 = [.returned true, .returned true, .returned true] ∧
    ops.map (fun o => addedIds [o]) = [[10], [10], []] ∧
    10 ∈ AMap.keys (run 5 (FullBody.create [(5, 100)]) (ops.take 2)).2.limbs ∧
    10 ∈ AMap.keys (run 5 (FullBody.create [(5, 100)]) (ops.take 2)).2.nonContactingLimbs ∧
    (run 5 (FullBody.create [(5, 100)]) ops).2.limbs = [] ∧
    (run 5 (FullBody.create [(5, 100)]) ops).2.nonContactingLimbs = [(10, 101)] :=
  ⟨[.addNonContactingLimb 10 0 (fun f => some (f + 1)) [], .addLimb 10 0 5 (fun f => some (f + 2)) [], .toggle 10],
    by decide⟩

/-! ## C76: groups and collision validations -/

/-- an add call that returned: id, name of its joint, objects -/
structure Registration (N C : Type _) where
  id : N
  name : N
  objects : List C

/-- the add calls of a history that returned -/
def registrations : List (Op N L C F T) → List Outcome → List (Registration N C)
  | .addLimb id name _ _ objs :: ops, .returned _ :: os => ⟨id, name, objs⟩ :: registrations ops os
  | .addLimbDatabase id _ (some (name, _)) objs :: ops, .returned _ :: os => ⟨id, name, objs⟩ :: registrations ops os
  | .addNonContactingLimb id name _ objs :: ops, .returned _ :: os => ⟨id, name, objs⟩ :: registrations ops os
  | _ :: ops, _ :: os => registrations ops os
  | _, _ => []

/-- what groups, validations and the body's obstacles are for a list of registrations -/
structure Tracks (fb : FullBody N L C F T) (regs : List (Registration N C)) : Prop where
  groups : ∀ name, AMap.find? fb.limbGroups name =
    let ids := (regs.filter (fun r => decide (r.name = name))).map Registration.id
    if ids = [] then none else some ids
  validations : ∀ id, AMap.find? fb.limbCollisionValidations id =
    (regs.find? (fun r => decide (r.id = id))).map Registration.objects
  first : ∀ r rs, regs = r :: rs → r.objects <+: fb.bodyObstacles
  empty : regs = [] → fb.limbs = [] ∧ fb.nonContactingLimbs = [] ∧ fb.bodyObstacles = []
  known : ∀ o ∈ fb.bodyObstacles, ∃ r ∈ regs, o ∈ r.objects

theorem tracks_add {fb : FullBody N L C F T} {regs : List (Registration N C)} (h : Tracks fb regs) (l : L) (id name : N)
    (objs : List C) (non : Bool) : Tracks (addLimbPrivate fb l id name objs non) (regs ++ [⟨id, name, objs⟩]) := by
  refine ⟨fun n => ?_, fun j => ?_, ?_, ?_, ?_⟩
  · have hg := h.groups
    simp only [addLimbPrivate, List.filter_append, List.filter_cons, List.filter_nil, List.map_append]
    rw [hg name]
    by_cases e : n = name
    · subst e
      simp only [decide_true, if_true, List.map_cons, List.map_nil, List.append_eq_nil_iff, List.cons_ne_self, and_false,
        if_false]
      split
      · next group he =>
        split_ifs at he with hi
        simp only [Option.some.injEq] at he
        simp only [AMap.find?_set, if_true, he]
      · next he =>
        split_ifs at he with hi
        simp only [AMap.find?_insertNew, if_true, hg n, hi, Option.getD_none, List.nil_append]
    · simp only [show ¬ name = n from fun hc => e hc.symm, decide_false, Bool.false_eq_true, if_false, List.map_nil,
        List.append_nil]
      split
      · rw [AMap.find?_set, if_neg e, hg n]
      · rw [AMap.find?_insertNew, if_neg e, hg n]
  · simp only [addLimbPrivate, AMap.find?_insertNew, List.find?_append, h.validations]
    by_cases e : j = id
    · subst e
      cases hf : regs.find? (fun r => decide (r.id = j)) with
      | none => simp
      | some r => simp
    · rw [if_neg e]
      cases hf : regs.find? (fun r => decide (r.id = j)) with
      | none => simp [show ¬ id = j from fun hc => e hc.symm]
      | some r => simp
  · intro r rs hr
    simp only [addLimbPrivate]
    cases regs with
    | nil =>
      obtain ⟨h1, h2, h3⟩ := h.empty rfl
      simp only [List.nil_append, List.cons.injEq] at hr
      obtain ⟨rfl, -⟩ := hr
      cases non <;> simp [h1, h2, h3]
    | cons r0 regs =>
      simp only [List.cons_append, List.cons.injEq] at hr
      obtain ⟨rfl, -⟩ := hr
      have := h.first r0 regs rfl
      cases non <;> simp only [Bool.false_eq_true, if_true, if_false] <;> split_ifs <;>
        first | exact this | exact this.trans (List.prefix_append _ _)
  · intro hc; simp at hc
  · intro o ho
    simp only [addLimbPrivate] at ho
    have : o ∈ fb.bodyObstacles ∨ o ∈ objs := by
      revert ho; cases non <;> simp only [Bool.false_eq_true, if_true, if_false] <;> split_ifs <;> intro ho <;>
        first | exact Or.inl ho | exact List.mem_append.1 ho
    rcases this with h1 | h1
    · obtain ⟨r, hr, hro⟩ := h.known o h1
      exact ⟨r, List.mem_append_left _ hr, hro⟩
    · exact ⟨_, List.mem_append_right _ (List.mem_singleton.2 rfl), h1⟩

theorem tracks_step {fb : FullBody N L C F T} {regs : List (Registration N C)} (h : Tracks fb regs) (static : N)
    (op : Op N L C F T) : Tracks (step static fb op).2 (regs ++ registrations [op] [(step static fb op).1]) := by
  cases op with
  | addLimb id name hn create objs =>
    simp only [step, addLimb]
    split
    · simpa [registrations] using h
    · split
      · simpa [registrations] using h
      · simpa [registrations] using tracks_add h _ id name objs false
  | addLimbDatabase id hn file objs =>
    simp only [step, addLimbDatabase]
    split
    · cases file <;> simpa [registrations] using h
    · cases file with
      | none => simpa [registrations] using h
      | some p => simpa [registrations] using tracks_add h _ id p.1 objs false
  | addNonContactingLimb id name create objs =>
    simp only [step, addNonContactingLimb]
    split
    · simpa [registrations] using h
    · split
      · simpa [registrations] using h
      · simpa [registrations] using tracks_add h _ id name objs true
  | toggle id =>
    simp only [step, toggleNonContactingLimb, registrations, List.append_nil]
    split
    · next l hl =>
      refine ⟨h.groups, h.validations, h.first, fun hc => ?_, h.known⟩
      rw [(h.empty hc).1] at hl; simp at hl
    · split
      · next l hl =>
        refine ⟨h.groups, h.validations, h.first, fun hc => ?_, h.known⟩
        rw [(h.empty hc).2.1] at hl; simp at hl
      · exact h
  | addHeuristic n f =>
    simp only [step, registrations, List.append_nil, addHeuristic]
    exact ⟨h.groups, h.validations, h.first, h.empty, h.known⟩
  | addTrajectories p e l =>
    simp only [step, registrations, List.append_nil, addEffectorTrajectories]
    split <;> exact ⟨h.groups, h.validations, h.first, h.empty, h.known⟩
  | addTrajectory p e t =>
    simp only [step, registrations, List.append_nil, addEffectorTrajectory]
    split
    · exact ⟨h.groups, h.validations, h.first, h.empty, h.known⟩
    · split <;> exact ⟨h.groups, h.validations, h.first, h.empty, h.known⟩

theorem registrations_cons (op : Op N L C F T) (ops : List (Op N L C F T)) (o : Outcome) (os : List Outcome) :
    registrations (op :: ops) (o :: os) = registrations [op] [o] ++ registrations ops os := by
  cases op with
  | addLimb => cases o <;> rfl
  | addLimbDatabase id h file objs => cases o <;> cases file <;> rfl
  | addNonContactingLimb => cases o <;> rfl
  | _ => rfl

theorem tracks_run (static : N) (ops : List (Op N L C F T)) (fb : FullBody N L C F T) (regs : List (Registration N C))
    (h : Tracks fb regs) : Tracks (run static fb ops).2 (regs ++ registrations ops (run static fb ops).1) := by
  induction ops generalizing fb regs with
  | nil => simpa [run, registrations] using h
  | cons op ops ih =>
    have := ih _ _ (tracks_step h static op)
    simp only [run]
    rw [registrations_cons, ← List.append_assoc]
    exact this

/-- **C76**.  After any history on a new full body, the group of a joint name lists, in order, the ids of the limbs
registered with that name (no group if there is none), each id has the collision validation built by its first
registration, and the validation of the whole body knows the objects of the first limb and only given objects. -/
theorem C76_groups (static : N) (heuristics : AMap N F) (ops : List (Op N L C F T)) :
    Tracks (run static (FullBody.create heuristics) ops).2
      (registrations ops (run static (FullBody.create heuristics) ops).1) := by
  have h0 : Tracks (FullBody.create (L := L) (C := C) (T := T) heuristics) [] :=
    ⟨fun _ => rfl, fun _ => rfl, fun _ _ h => by simp at h, fun _ => ⟨rfl, rfl, rfl⟩,
      fun _ h => by simp [FullBody.create] at h⟩
  simpa using tracks_run static ops (FullBody.create heuristics) [] h0

example : registrations demoOps (run 5 (FullBody.create [(5, 100)]) demoOps).1 = [⟨10, 0, [7]⟩, ⟨11, 0, [7]⟩] ∧
    (run 5 (FullBody.create [(5, 100)]) demoOps).2.limbGroups = [(0, [10, 11])] := ⟨rfl, by decide⟩

/-! ## C77: factories -/

/-- the functions registered under a name, in order -/
def registered (name : N) : List (Op N L C F T) → List F
  | [] => []
  | .addHeuristic n f :: ops => if n = name then f :: registered name ops else registered name ops
  | _ :: ops => registered name ops

theorem heuristics_other (static : N) (fb : FullBody N L C F T) (op : Op N L C F T) (h : ∀ n f, op ≠ .addHeuristic n f) :
    (step static fb op).2.heuristics = fb.heuristics := by
  cases op with
  | addLimb => simp only [step, addLimb]; split <;> [rfl; (split <;> rfl)]
  | addLimbDatabase => simp only [step, addLimbDatabase]; split <;> [rfl; (split <;> rfl)]
  | addNonContactingLimb => simp only [step, addNonContactingLimb]; split <;> [rfl; (split <;> rfl)]
  | toggle => simp only [step, toggleNonContactingLimb]; split <;> [rfl; (split <;> rfl)]
  | addHeuristic n f => exact absurd rfl (h n f)
  | addTrajectories => simp only [step, addEffectorTrajectories]; split <;> rfl
  | addTrajectory => simp only [step, addEffectorTrajectory]; split <;> [rfl; (split <;> rfl)]

/-- **C77**.  `AddHeuristic` returns true iff the name was unknown; after any history, a name denotes the built-in
function if there is one, otherwise the function of its first registration. -/
theorem C77_factory (static : N) (ops : List (Op N L C F T)) (fb : FullBody N L C F T) (name : N) :
    AMap.find? (run static fb ops).2.heuristics name =
      (AMap.find? fb.heuristics name).or (registered name ops).head? ∧
    ∀ f, (addHeuristic fb name f).1 = (AMap.find? fb.heuristics name).isNone := by
  refine ⟨?_, fun f => ?_⟩
  · induction ops generalizing fb with
    | nil => simp [run, registered]
    | cons op ops ih =>
      simp only [run, ih]
      by_cases hop : ∃ n f, op = .addHeuristic n f
      · obtain ⟨n, f, rfl⟩ := hop
        simp only [step, addHeuristic, addNamed, registered]
        by_cases e : n = name
        · subst e
          cases hf : AMap.find? fb.heuristics n with
          | some g => simp [hf]
          | none => simp [AMap.find?_insertNew, hf]
        · rw [if_neg e]
          cases hf : AMap.find? fb.heuristics n with
          | some g => rfl
          | none => simp only [AMap.find?_insertNew, if_neg (fun hc => e (Eq.symm hc))]
      · rw [heuristics_other static fb op (fun n f hc => hop ⟨n, f, hc⟩)]
        cases op <;> first | rfl | exact absurd ⟨_, _, rfl⟩ hop
  · simp only [addHeuristic, addNamed]
    split <;> rename_i e <;> rw [e] <;> rfl

/-- **C77** (analyses): `AddAnalysis` keeps an existing function and reports it. -/
theorem C77_analysis (m : AMap N F) (name : N) (f : F) :
    ((addNamed m name f).1 = true ↔ name ∉ AMap.keys m) ∧
    AMap.find? (addNamed m name f).2 name = some ((AMap.find? m name).getD f) ∧
    ∀ n, n ≠ name → AMap.find? (addNamed m name f).2 n = AMap.find? m n := by
  unfold addNamed
  cases hf : AMap.find? m name with
  | some g =>
    refine ⟨?_, by simpa using hf, fun _ _ => rfl⟩
    simp only [Bool.false_eq_true, false_iff, not_not]
    exact AMap.find?_isSome.1 (by rw [hf]; rfl)
  | none =>
    refine ⟨?_, ?_, fun n hn => ?_⟩
    · simp only [true_iff]; exact AMap.find?_eq_none.1 hf
    · simp [AMap.find?_insertNew, hf]
    · simp only [AMap.find?_insertNew, if_neg hn]

example : (addHeuristic (FullBody.create (N := Nat) (L := Nat) (C := Nat) (T := Nat) [(5, 100)]) 5 7).1 = false ∧
    (addHeuristic (FullBody.create (N := Nat) (L := Nat) (C := Nat) (T := Nat) [(5, 100)]) 6 7).2.heuristics =
      [(5, 100), (6, 7)] := by decide

/-! ## C37: effector trajectories -/

/-- what a pair (path, effector) reads after a call, as a function of what it read before -/
def trajAfter (p : Nat) (e : N) (old : Option (List T)) : Op N L C F T → Option (List T)
  | .addTrajectory p' e' t => if p' = p ∧ e' = e then some (old.getD [] ++ [t]) else old
  | .addTrajectories p' e' l => if p' = p ∧ e' = e then some (old.getD l) else old
  | _ => old

theorem traj_other (static : N) (fb : FullBody N L C F T) (op : Op N L C F T)
    (h : ∀ p e t, op ≠ .addTrajectory p e t) (h' : ∀ p e l, op ≠ .addTrajectories p e l) :
    (step static fb op).2.effectorsTrajectories = fb.effectorsTrajectories := by
  cases op with
  | addLimb => simp only [step, addLimb]; split <;> [rfl; (split <;> rfl)]
  | addLimbDatabase => simp only [step, addLimbDatabase]; split <;> [rfl; (split <;> rfl)]
  | addNonContactingLimb => simp only [step, addNonContactingLimb]; split <;> [rfl; (split <;> rfl)]
  | toggle => simp only [step, toggleNonContactingLimb]; split <;> [rfl; (split <;> rfl)]
  | addHeuristic n f => rfl
  | addTrajectories p e l => exact absurd rfl (h' p e l)
  | addTrajectory p e t => exact absurd rfl (h p e t)

theorem traj_step (static : N) (fb : FullBody N L C F T) (op : Op N L C F T) (p : Nat) (e : N) :
    getEffectorTrajectory (step static fb op).2 p e = trajAfter p e (getEffectorTrajectory fb p e) op := by
  cases op with
  | addTrajectory p' e' t =>
    simp only [step, addEffectorTrajectory, getEffectorTrajectory, trajAfter, insertFlag]
    cases hp : AMap.find? fb.effectorsTrajectories p' with
    | none =>
      simp only [AMap.find?_insertNew, hp, Option.getD_none]
      by_cases h1 : p = p'
      · subst h1
        simp only [if_true, hp, Option.getD_none, List.nil_append, true_and]
        simp only [AMap.find?_insertNew, AMap.find?_nil, Option.getD_none, eq_comm (a := e)]
      · simp only [if_neg h1, show ¬ (p' = p ∧ e' = e) from fun hc => h1 hc.1.symm, if_false]
    | some map =>
      simp only
      cases he : AMap.find? map e' with
      | none =>
        simp only [AMap.find?_set]
        by_cases h1 : p = p'
        · subst h1
          simp only [if_true, hp, AMap.find?_insertNew, he, Option.getD_none, true_and]
          by_cases h2 : e = e'
          · subst h2; simp [he]
          · simp [h2, Ne.symm h2]
        · simp only [if_neg h1, show ¬ (p' = p ∧ e' = e) from fun hc => h1 hc.1.symm, if_false]
      | some l =>
        simp only [AMap.find?_set]
        by_cases h1 : p = p'
        · subst h1
          simp only [if_true, hp, true_and]
          by_cases h2 : e = e'
          · subst h2; simp [AMap.find?_set, he]
          · simp [AMap.find?_set, h2, Ne.symm h2]
        · simp only [if_neg h1, show ¬ (p' = p ∧ e' = e) from fun hc => h1 hc.1.symm, if_false]
  | addTrajectories p' e' l =>
    simp only [step, addEffectorTrajectories, getEffectorTrajectory, trajAfter, insertFlag]
    cases hp : AMap.find? fb.effectorsTrajectories p' with
    | none =>
      simp only [AMap.find?_insertNew, hp, Option.getD_none]
      by_cases h1 : p = p'
      · subst h1
        simp only [if_true, hp, Option.getD_none, true_and]
        simp only [AMap.find?_insertNew, AMap.find?_nil, Option.getD_none, eq_comm (a := e)]
      · simp only [if_neg h1, show ¬ (p' = p ∧ e' = e) from fun hc => h1 hc.1.symm, if_false]
    | some map =>
      simp only [AMap.find?_set]
      by_cases h1 : p = p'
      · subst h1
        simp only [if_true, hp, AMap.find?_insertNew, true_and]
        by_cases h2 : e = e'
        · subst h2; simp
        · simp [h2, Ne.symm h2]
      · simp only [if_neg h1, show ¬ (p' = p ∧ e' = e) from fun hc => h1 hc.1.symm, if_false]
  | addLimb => simp only [getEffectorTrajectory, trajAfter]; rw [traj_other] <;> simp
  | addLimbDatabase => simp only [getEffectorTrajectory, trajAfter]; rw [traj_other] <;> simp
  | addNonContactingLimb => simp only [getEffectorTrajectory, trajAfter]; rw [traj_other] <;> simp
  | toggle => simp only [getEffectorTrajectory, trajAfter]; rw [traj_other] <;> simp
  | addHeuristic => simp only [getEffectorTrajectory, trajAfter]; rw [traj_other] <;> simp

/-- **C37**.  After any history the pair (path, effector) reads the trajectories added to it, in order (the bulk call
counts only when nothing was there); a pair never written reports failure. -/
theorem C37_history (static : N) (fb : FullBody N L C F T) (ops : List (Op N L C F T)) (p : Nat) (e : N) :
    getEffectorTrajectory (run static fb ops).2 p e = ops.foldl (trajAfter p e) (getEffectorTrajectory fb p e) := by
  induction ops generalizing fb with
  | nil => rfl
  | cons op ops ih => simp only [run, List.foldl_cons, ← traj_step static]; exact ih _

/-- a call that writes the pair -/
def Writes (p : Nat) (e : N) : Op N L C F T → Prop
  | .addTrajectory p' e' _ => p' = p ∧ e' = e
  | .addTrajectories p' e' _ => p' = p ∧ e' = e
  | _ => False

/-- **C37** (never written): reading fails iff no call wrote the pair. -/
theorem C37_never_written (static : N) (heuristics : AMap N F) (ops : List (Op N L C F T)) (p : Nat) (e : N) :
    getEffectorTrajectory (run static (FullBody.create heuristics) ops).2 p e = none ↔ ∀ op ∈ ops, ¬ Writes p e op := by
  rw [C37_history]
  have h0 : getEffectorTrajectory (FullBody.create (N := N) (L := L) (C := C) (T := T) heuristics) p e = none := rfl
  rw [h0]
  have hs : ∀ (l : List (Op N L C F T)) (x : List T), l.foldl (trajAfter p e) (some x) ≠ none := by
    intro l
    induction l with
    | nil => simp
    | cons op l ih =>
      intro x
      rw [List.foldl_cons]
      have : ∃ y, trajAfter p e (some x) op = some y := by
        cases op <;> simp only [trajAfter] <;> first | exact ⟨_, rfl⟩ | (split_ifs <;> exact ⟨_, rfl⟩)
      obtain ⟨y, hy⟩ := this
      rw [hy]; exact ih y
  induction ops with
  | nil => simp
  | cons op ops ih =>
    rw [List.foldl_cons, List.forall_mem_cons]
    by_cases hw : Writes p e op
    · have : ∃ y, trajAfter p e none op = some y := by
        cases op <;> simp only [Writes] at hw <;> simp [trajAfter, hw]
      obtain ⟨y, hy⟩ := this
      rw [hy]
      simp only [hw, not_true, false_and, iff_false]
      exact hs ops y
    · have : trajAfter p e (none : Option (List T)) op = none := by
        cases op <;> simp only [Writes] at hw <;> simp [trajAfter, hw]
      rw [this]; exact ⟨fun h => ⟨hw, ih.1 h⟩, fun h => ih.2 h.2⟩

/-- **C37** (return values).  Adding one trajectory always succeeds; the bulk call returns true iff the pair was never
written; the map of a path exists iff one of its pairs does, and agrees with the pairs. -/
theorem C37_returns (fb : FullBody N L C F T) (p : Nat) (e : N) (t : T) (l : List T) :
    (addEffectorTrajectory fb p e t).1 = true ∧
    (addEffectorTrajectories fb p e l).1 = (getEffectorTrajectory fb p e).isNone ∧
    (getEffectorsTrajectories fb p).bind (fun m => AMap.find? m e) = getEffectorTrajectory fb p e := by
  refine ⟨?_, ?_, ?_⟩
  · simp only [addEffectorTrajectory, insertFlag]
    split
    · next h => simp [AMap.has, h]
    · split
      · next h => simp [AMap.has, h]
      · rfl
  · simp only [addEffectorTrajectories, insertFlag, getEffectorTrajectory]
    split
    · next h => simp [AMap.has, h]
    · next h => simp only [AMap.has]; cases AMap.find? _ e <;> rfl
  · simp only [getEffectorsTrajectories, getEffectorTrajectory]
    cases AMap.find? fb.effectorsTrajectories p <;> rfl

example : getEffectorTrajectory (run 5 (FullBody.create (F := Nat) [])
    ([.addTrajectory 0 1 7, .addTrajectories 0 1 [1, 2], .addTrajectories 0 2 [3], .addTrajectory 0 1 8] :
      List (Op Nat Nat Nat Nat Nat))).2 0 1 = some [7, 8] := by decide

end Registry
end Rbprm
