import Mathlib.Data.List.Nodup
import Verif.Model.Ownership
import Mathlib.Data.List.Range
import Mathlib.Tactic.SplitIfs
import Mathlib.Tactic.Tauto
/-!
# Property C182: the memory of sample databases

A user relies on databases that can be passed around: each box is deleted once, when its database goes out of scope, the octree of a database in scope is there, and nothing remains when no database is left.
-/
set_option linter.unusedSectionVars false
namespace Rbprm
namespace Own

/-! ## Specification -/

/-- no database is copied or assigned in the program -/
def NoCopy (ops : List Op) : Prop := ∀ op ∈ ops, (∃ x ids, op = .create x ids) ∨ ∃ x, op = .destroy x

/-- the boxes of each octree belong to different voxels -/
def Distinct (ops : List Op) : Prop := ∀ x ids, Op.create x ids ∈ ops → ids.Nodup

/-- the box at the address belongs to a database in scope -/
def Owned (w : World) (a : ℕ) : Prop := ∃ x d v, w.dbs.find? x = some d ∧ d.boxes.find? v = some a

/-- the number of databases in scope which use the octree -/
def users (w : World) (g : ℕ) : ℕ := (w.dbs.filter fun e => decide (e.2.geometry = g)).length

/-! ## Proofs -/

theorem set_perm {V : Type _} (m : AMap ℕ V) (k : ℕ) (v : V) (h : k ∉ m.keys) : (m.set k v).Perm ((k, v) :: m) := by
  induction m with
  | nil => exact List.Perm.refl _
  | cons p m ih =>
    obtain ⟨k', v'⟩ := p
    simp only [AMap.keys_cons, List.mem_cons, not_or] at h
    unfold AMap.set
    split_ifs with h1 h2
    · exact List.Perm.refl _
    · exact absurd h2 h.1
    · exact ((ih h.2).cons _).trans (List.Perm.swap _ _ _)

theorem erase_perm {V : Type _} {m : AMap ℕ V} (hw : m.WF) {k : ℕ} {v : V} (h : m.find? k = some v) : m.Perm ((k, v) :: m.erase k) := by
  induction m with
  | nil => cases h
  | cons p m ih =>
    obtain ⟨k', v'⟩ := p
    rw [AMap.find?_cons] at h
    have hw' := AMap.WF_cons.1 hw
    by_cases hk : k' = k
    · subst hk
      rw [if_pos rfl] at h
      cases h
      have e : AMap.erase ((k', v) :: m) k' = m := by
        have : AMap.erase ((k', v) :: m) k' = AMap.erase m k' := by simp [AMap.erase]
        rw [this]
        exact AMap.erase_of_not_mem fun hm => lt_irrefl _ (hw'.1 _ hm)
      rw [e]
    · rw [if_neg hk] at h
      have e : AMap.erase ((k', v') :: m) k = (k', v') :: AMap.erase m k := by simp [AMap.erase, hk]
      rw [e]
      exact ((ih hw'.2 h).cons _).trans (List.Perm.swap _ _ _)

theorem set_eq_erase_set {V : Type _} {m : AMap ℕ V} (hw : m.WF) (k : ℕ) (v : V) : m.set k v = (m.erase k).set k v := by
  refine AMap.ext_find? (AMap.WF_set hw k v) (AMap.WF_set (AMap.WF_erase hw k) k v) fun j => ?_
  simp only [AMap.find?_set, AMap.find?_erase]
  split_ifs <;> rfl

theorem users_set {w w' : World} {x : ℕ} {d : Db} (hx : x ∉ w.dbs.keys) (e : w'.dbs = w.dbs.set x d) (g : ℕ) : users w' g = users w g + if d.geometry = g then 1 else 0 := by
  unfold users
  rw [e, ((set_perm w.dbs x d hx).filter _).length_eq]
  by_cases h : d.geometry = g
  · simp [h]
  · simp [h]

theorem users_erase {w w' : World} (hw : w.dbs.WF) {x : ℕ} {d : Db} (hx : w.dbs.find? x = some d) (e : w'.dbs = w.dbs.erase x) (g : ℕ) :
    users w g = users w' g + if d.geometry = g then 1 else 0 := by
  unfold users
  rw [e, ((erase_perm hw hx).filter _).length_eq]
  by_cases h : d.geometry = g
  · simp [h]
  · simp [h]

/-- what holds of the octrees in any program -/
structure Counted (w : World) : Prop where
  wf : w.dbs.WF
  uses : ∀ g, (w.uses.find? g).getD 0 = 2 * users w g
  live : ∀ g, w.uses.find? g ≠ some 0
  fresh : ∀ g, w.next ≤ g → w.uses.find? g = none
  known : ∀ x d, w.dbs.find? x = some d → d.geometry < w.next

theorem find_retain (uses : AMap ℕ ℕ) (g h : ℕ) : (retain uses g).find? h = if h = g then some ((uses.find? g).getD 0 + 2) else uses.find? h := by
  unfold retain
  rw [AMap.find?_set]

theorem find_release (uses : AMap ℕ ℕ) (g h : ℕ) : (release uses g).find? h =
    if h = g then (if (uses.find? g).getD 0 ≤ 2 then none else some ((uses.find? g).getD 0 - 2)) else uses.find? h := by
  unfold release
  cases hu : uses.find? g with
  | none =>
    simp only [Option.getD_none, Nat.zero_le, if_true]
    split_ifs with h1
    · rw [h1, hu]
    · rfl
  | some c =>
    simp only [Option.getD_some]
    split_ifs with h1 h2 h2
    · rw [AMap.find?_erase, if_pos h2]
    · rw [AMap.find?_erase, if_neg h2]
    · rw [AMap.find?_set, if_pos h2]
    · rw [AMap.find?_set, if_neg h2]

theorem deleteBoxes_same (l : List ℕ) (w : World) : (deleteBoxes l w).dbs = w.dbs ∧ (deleteBoxes l w).uses = w.uses ∧ (deleteBoxes l w).next = w.next := by
  induction l generalizing w with
  | nil => exact ⟨rfl, rfl, rfl⟩
  | cons a l ih =>
    unfold deleteBoxes
    obtain ⟨h1, h2, h3⟩ := ih (if a ∈ w.boxes then { w with boxes := w.boxes.erase a } else { w with fault := true })
    refine ⟨h1.trans ?_, h2.trans ?_, h3.trans ?_⟩ <;> split_ifs <;> rfl

theorem Counted.create {w : World} (h : Counted w) (x : ℕ) (ids : List ℕ) : Counted (step w (.create x ids)) := by
  simp only [step]
  split_ifs with hx
  · exact h
  have hx' : x ∉ w.dbs.keys := fun hm => hx (AMap.has_iff.2 hm)
  set g0 := w.next + ids.length with hg0
  have hu := h.uses
  have hnone : w.uses.find? g0 = none := h.fresh g0 (by omega)
  constructor
  · exact AMap.WF_set h.wf _ _
  · intro g
    rw [users_set (w := w) hx' rfl g]
    show ((retain w.uses g0).find? g).getD 0 = _
    rw [find_retain]
    by_cases hg : g = g0
    · subst hg
      have := hu g0
      rw [hnone] at this
      simp only [Option.getD_none] at this
      simp [hnone]
      omega
    · rw [if_neg hg, if_neg (fun he => hg he.symm), hu g]
      rfl
  · intro g
    show (retain w.uses g0).find? g ≠ _
    rw [find_retain]
    split_ifs
    · simp
    · exact h.live g
  · intro g hg
    show (retain w.uses g0).find? g = _
    have hg' : g0 + 1 ≤ g := hg
    rw [find_retain, if_neg (by omega)]
    exact h.fresh g (by omega)
  · intro y d hy
    show d.geometry < g0 + 1
    have hy' : (w.dbs.set x ⟨allocBoxes ids w.next [], g0⟩).find? y = some d := hy
    rw [AMap.find?_set] at hy'
    split_ifs at hy' with hyx
    · cases hy'
      exact Nat.lt_succ_self _
    · have := h.known y d hy'
      omega

theorem Counted.copy {w : World} (h : Counted w) (x y : ℕ) : Counted (step w (.copy x y)) := by
  simp only [step]
  split
  · rename_i d hd
    split_ifs with hx
    · exact h
    have hx' : x ∉ w.dbs.keys := fun hm => hx (AMap.has_iff.2 hm)
    constructor
    · exact AMap.WF_set h.wf _ _
    · intro g
      rw [users_set (w := w) hx' rfl g]
      show ((retain w.uses d.geometry).find? g).getD 0 = _
      rw [find_retain]
      by_cases hg : g = d.geometry
      · subst hg
        simp only [if_true, Option.getD_some]
        rw [h.uses]
        omega
      · rw [if_neg hg, if_neg (fun he => hg he.symm), h.uses g]
        rfl
    · intro g
      show (retain w.uses d.geometry).find? g ≠ _
      rw [find_retain]
      split_ifs
      · simp
      · exact h.live g
    · intro g hg
      show (retain w.uses d.geometry).find? g = _
      have := h.known y d hd
      have hg' : w.next ≤ g := hg
      rw [find_retain, if_neg (by omega)]
      exact h.fresh g hg'
    · intro z e hz
      have hz' : (w.dbs.set x d).find? z = some e := hz
      rw [AMap.find?_set] at hz'
      split_ifs at hz'
      · cases hz'
        exact h.known y d hd
      · exact h.known z e hz'
  · exact h

theorem Counted.erase {w : World} (h : Counted w) {x : ℕ} {d : Db} (hd : w.dbs.find? x = some d) : Counted { w with dbs := w.dbs.erase x, uses := release w.uses d.geometry } := by
  have hpos : ∀ c, w.uses.find? d.geometry = some c → c = 2 * users w d.geometry := by
    intro c hc
    have := h.uses d.geometry
    rw [hc] at this
    exact this
  have hus := fun g => users_erase (w := w) (w' := { w with dbs := w.dbs.erase x, uses := release w.uses d.geometry }) h.wf hd rfl g
  constructor
  · exact AMap.WF_erase h.wf _
  · intro g
    show ((release w.uses d.geometry).find? g).getD 0 = _
    rw [find_release, h.uses]
    have := hus g
    by_cases hg : g = d.geometry
    · subst hg
      rw [if_pos rfl] at this
      rw [if_pos rfl]
      split_ifs with hc
      · simp only [Option.getD_none]
        omega
      · simp only [Option.getD_some]
        omega
    · rw [if_neg hg, h.uses g]
      rw [if_neg (fun he => hg he.symm)] at this
      omega
  · intro g
    show (release w.uses d.geometry).find? g ≠ _
    rw [find_release]
    split_ifs with hg hc
    · simp
    · intro h0
      have := Option.some.inj h0
      omega
    · exact h.live g
  · intro g hg
    show (release w.uses d.geometry).find? g = _
    have := h.known x d hd
    have hg' : w.next ≤ g := hg
    rw [find_release, if_neg (by omega)]
    exact h.fresh g hg'
  · intro z e hz
    have hz' : (w.dbs.erase x).find? z = some e := hz
    rw [AMap.find?_erase] at hz'
    split_ifs at hz'
    exact h.known z e hz'

theorem Counted.same {w w' : World} (h : Counted w) (e1 : w'.dbs = w.dbs) (e2 : w'.uses = w.uses) (e3 : w'.next = w.next) : Counted w' := by
  have hu : ∀ g, users w' g = users w g := fun g => by unfold users; rw [e1]
  exact ⟨by rw [e1]; exact h.wf, fun g => by rw [e2, hu]; exact h.uses g, fun g => by rw [e2]; exact h.live g, fun g hg => by rw [e2]; exact h.fresh g (by rw [← e3]; exact hg),
    fun x d hd => by rw [e3]; exact h.known x d (by rw [← e1]; exact hd)⟩

theorem Counted.assign {w : World} (h : Counted w) (x y : ℕ) : Counted (step w (.assign x y)) := by
  simp only [step]
  split
  · rename_i old d hx hy
    have hn : x ∉ (w.dbs.erase x).keys := by rw [AMap.keys_erase]; simp
    have hu : ∀ g, users { w with dbs := w.dbs.set x d, uses := release (retain w.uses d.geometry) old.geometry } g + (if old.geometry = g then 1 else 0) =
        users w g + if d.geometry = g then 1 else 0 := by
      intro g
      have h1 := users_erase (w := w) (w' := { w with dbs := w.dbs.erase x }) h.wf hx rfl g
      have h2 := users_set (w := { w with dbs := w.dbs.erase x }) (w' := { w with dbs := w.dbs.set x d, uses := release (retain w.uses d.geometry) old.geometry }) (x := x) (d := d) hn
        (set_eq_erase_set h.wf x d) g
      omega
    have hold := h.known x old hx
    have hnew := h.known y d hy
    constructor
    · exact AMap.WF_set h.wf _ _
    · intro g
      show ((release (retain w.uses d.geometry) old.geometry).find? g).getD 0 = _
      have hug := hu g
      have huo := hu old.geometry
      rw [if_pos rfl] at huo
      rw [find_release, find_retain, find_retain]
      by_cases hg : g = old.geometry
      · subst hg
        rw [if_pos rfl]
        by_cases hd : old.geometry = d.geometry
        · have e2 : (w.uses.find? d.geometry).getD 0 = 2 * users w old.geometry := by rw [h.uses, hd]
          rw [if_pos hd, Option.getD_some, e2]
          rw [if_pos hd.symm] at huo
          split_ifs with hc
          · rw [Option.getD_none]; omega
          · rw [Option.getD_some]; omega
        · rw [if_neg hd, h.uses]
          rw [if_neg (fun he => hd he.symm)] at huo
          split_ifs with hc
          · rw [Option.getD_none]; omega
          · rw [Option.getD_some]; omega
      · rw [if_neg hg]
        rw [if_neg (fun he => hg he.symm)] at hug
        by_cases hd : g = d.geometry
        · subst hd
          rw [if_pos rfl, Option.getD_some, h.uses]
          rw [if_pos rfl] at hug
          omega
        · rw [if_neg hd, h.uses]
          rw [if_neg (fun he => hd he.symm)] at hug
          omega
    · intro g
      show (release (retain w.uses d.geometry) old.geometry).find? g ≠ _
      rw [find_release, find_retain, find_retain]
      by_cases hg : g = old.geometry
      · rw [if_pos hg]
        split_ifs with h1 h2 h2
        · simp
        · simp only [ne_eq, Option.some.injEq, Option.getD_some] at h2 ⊢
          omega
        · simp
        · simp only [ne_eq, Option.some.injEq]
          omega
      · rw [if_neg hg]
        split_ifs
        · simp
        · exact h.live g
    · intro g hg
      show (release (retain w.uses d.geometry) old.geometry).find? g = _
      have hg' : w.next ≤ g := hg
      rw [find_release, find_retain, find_retain, if_neg (by omega), if_neg (by omega)]
      exact h.fresh g hg'
    · intro z e hz
      have hz' : (w.dbs.set x d).find? z = some e := hz
      rw [AMap.find?_set] at hz'
      split_ifs at hz'
      · cases hz'
        exact hnew
      · exact h.known z e hz'
  · exact h

theorem Counted.step {w : World} (h : Counted w) (op : Op) : Counted (step w op) := by
  cases op with
  | create x ids => exact h.create x ids
  | copy x y => exact h.copy x y
  | assign x y => exact h.assign x y
  | destroy x =>
    simp only [Own.step]
    split
    · rename_i d hd
      exact (h.erase hd).same rfl rfl (deleteBoxes_same _ _).2.2
    · exact h

theorem counted_run (ops : List Op) {w : World} (h : Counted w) : Counted (run w ops) := by
  induction ops generalizing w with
  | nil => exact h
  | cons op ops ih => exact ih (h.step op)

theorem counted_start : Counted World.start := by
  refine ⟨AMap.WF_nil, fun g => rfl, fun g => by simp [World.start], fun g _ => rfl, fun x d h => by simp [World.start] at h⟩

/-- **C182 (octree)** Whatever a program does with databases, copies and assignments included: the octree of each database in scope has not been deleted, and an octree which is used by no database in scope has been. -/
theorem C182_octree (ops : List Op) :
    (∀ x d, (run World.start ops).dbs.find? x = some d → ((run World.start ops).uses.find? d.geometry).isSome = true) ∧
    ∀ g, ((run World.start ops).uses.find? g).isSome = true → ∃ x d, (run World.start ops).dbs.find? x = some d ∧ d.geometry = g := by
  have h := counted_run ops counted_start
  set w := run World.start ops
  have key : ∀ g, (w.uses.find? g).isSome = true ↔ 0 < users w g := by
    intro g
    have h1 := h.uses g
    have h2 := h.live g
    cases hu : w.uses.find? g with
    | none =>
      rw [hu] at h1
      simp only [Option.getD_none] at h1
      simp
      omega
    | some c =>
      rw [hu] at h1 h2
      simp only [Option.getD_some] at h1
      simp only [ne_eq, Option.some.injEq] at h2
      simp
      omega
  constructor
  · intro x d hd
    rw [key]
    unfold users
    exact List.length_pos_of_mem (List.mem_filter.2 ⟨AMap.find?_some_mem hd, by simp⟩)
  · intro g hg
    rw [key] at hg
    unfold users at hg
    obtain ⟨e, he⟩ := List.exists_mem_of_length_pos hg
    obtain ⟨h1, h2⟩ := List.mem_filter.1 he
    exact ⟨e.1, e.2, AMap.mem_find? h.wf h1, of_decide_eq_true h2⟩

/-! ### boxes -/

theorem allocBoxes_wf (ids : List ℕ) (n : ℕ) (m : AMap ℕ ℕ) (h : m.WF) : (allocBoxes ids n m).WF := by
  induction ids generalizing n m with
  | nil => exact h
  | cons id ids ih => exact ih _ _ (AMap.WF_insertNew h _ _)

theorem allocBoxes_find (ids : List ℕ) (n : ℕ) (m : AMap ℕ ℕ) (v a : ℕ) (h : (allocBoxes ids n m).find? v = some a) : m.find? v = some a ∨ ∃ i, ids[i]? = some v ∧ a = n + i := by
  induction ids generalizing n m with
  | nil => exact Or.inl h
  | cons id ids ih =>
    rcases ih _ _ h with h | ⟨i, h1, h2⟩
    · rw [AMap.find?_insertNew] at h
      split_ifs at h with hk
      · subst hk
        cases hf : m.find? v with
        | some b =>
          rw [hf] at h
          exact Or.inl h
        | none =>
          rw [hf] at h
          exact Or.inr ⟨0, rfl, (Option.some.inj h).symm⟩
      · exact Or.inl h
    · exact Or.inr ⟨i + 1, by simpa using h1, by omega⟩

theorem allocBoxes_all (ids : List ℕ) (n : ℕ) (m : AMap ℕ ℕ) (hd : ids.Nodup) (hm : ∀ v ∈ ids, m.find? v = none) :
    (∀ v a, m.find? v = some a → (allocBoxes ids n m).find? v = some a) ∧ ∀ i v, ids[i]? = some v → (allocBoxes ids n m).find? v = some (n + i) := by
  induction ids generalizing n m with
  | nil => exact ⟨fun _ _ h => h, fun i v h => by simp at h⟩
  | cons id ids ih =>
    rw [List.nodup_cons] at hd
    have hm' : ∀ v ∈ ids, (m.insertNew id n).find? v = none := by
      intro v hv
      rw [AMap.find?_insertNew, if_neg (fun e : v = id => hd.1 (e ▸ hv))]
      exact hm v (List.mem_cons_of_mem _ hv)
    obtain ⟨i1, i2⟩ := ih (n + 1) _ hd.2 hm'
    constructor
    · intro v a h
      refine i1 v a ?_
      rw [AMap.find?_insertNew]
      split_ifs with hv
      · subst hv
        rw [h]
        rfl
      · exact h
    · intro i v h
      cases i with
      | zero =>
        have hv : id = v := by simpa using h
        subst hv
        refine i1 id _ ?_
        rw [AMap.find?_insertNew, if_pos rfl, hm id (by simp)]
        rfl
      | succ i =>
        have := i2 i v (by simpa using h)
        show (allocBoxes ids (n + 1) (m.insertNew id n)).find? v = _
        rw [this]
        congr 1
        omega

/-- what holds of the boxes in a program without copies -/
structure Clean (w : World) : Prop where
  fault : w.fault = false
  nodup : w.boxes.Nodup
  fresh : ∀ a ∈ w.boxes, a < w.next
  wf : ∀ x d, w.dbs.find? x = some d → d.boxes.WF
  live : ∀ a, Owned w a → a ∈ w.boxes
  once : ∀ x d v x' d' v' a, w.dbs.find? x = some d → d.boxes.find? v = some a → w.dbs.find? x' = some d' → d'.boxes.find? v' = some a → x = x' ∧ v = v'

theorem deleteBoxes_all (l : List ℕ) (w : World) (hl : l.Nodup) (hw : w.boxes.Nodup) (h : ∀ a ∈ l, a ∈ w.boxes) :
    (deleteBoxes l w).fault = w.fault ∧ (deleteBoxes l w).boxes.Nodup ∧ ∀ a, a ∈ (deleteBoxes l w).boxes ↔ a ∈ w.boxes ∧ a ∉ l := by
  induction l generalizing w with
  | nil => exact ⟨rfl, hw, fun a => by simp [deleteBoxes]⟩
  | cons b l ih =>
    rw [List.nodup_cons] at hl
    unfold deleteBoxes
    rw [if_pos (h b (by simp))]
    obtain ⟨h1, h2, h3⟩ := ih { w with boxes := w.boxes.erase b } hl.2 (hw.erase b) (fun a ha => (hw.mem_erase_iff).2 ⟨fun e => hl.1 (e ▸ ha), h a (List.mem_cons_of_mem _ ha)⟩)
    refine ⟨h1, h2, fun a => ?_⟩
    rw [h3 a]
    show a ∈ w.boxes.erase b ∧ _ ↔ _
    rw [hw.mem_erase_iff, List.mem_cons]
    tauto

theorem Clean.create {w : World} (h : Clean w) (x : ℕ) (ids : List ℕ) : Clean (step w (.create x ids)) := by
  simp only [step]
  split_ifs with hx
  · exact h
  have hnone : w.dbs.find? x = none := AMap.find?_eq_none.2 fun hm => hx (AMap.has_iff.2 hm)
  have hfind : ∀ y d, (w.dbs.set x ⟨allocBoxes ids w.next [], w.next + ids.length⟩).find? y = some d → (y = x ∧ d = ⟨allocBoxes ids w.next [], w.next + ids.length⟩) ∨ (y ≠ x ∧ w.dbs.find? y = some d) := by
    intro y d hy
    rw [AMap.find?_set] at hy
    split_ifs at hy with hyx
    · cases hy
      exact Or.inl ⟨hyx, rfl⟩
    · exact Or.inr ⟨hyx, hy⟩
  have hnew : ∀ v a, (allocBoxes ids w.next []).find? v = some a → ∃ i, ids[i]? = some v ∧ a = w.next + i ∧ i < ids.length := by
    intro v a hv
    rcases allocBoxes_find ids w.next [] v a hv with h0 | ⟨i, h1, h2⟩
    · cases h0
    · exact ⟨i, h1, h2, (List.getElem?_eq_some_iff.1 h1).1⟩
  have hold : ∀ y d v a, w.dbs.find? y = some d → d.boxes.find? v = some a → a < w.next := fun y d v a h1 h2 => h.fresh a (h.live a ⟨y, d, v, h1, h2⟩)
  constructor
  · exact h.fault
  · show (w.boxes ++ List.range' w.next ids.length).Nodup
    rw [List.nodup_append]
    refine ⟨h.nodup, List.nodup_range', ?_⟩
    intro a ha b hb e
    have := h.fresh a ha
    rw [List.mem_range'_1] at hb
    omega
  · intro a ha
    show a < w.next + ids.length + 1
    rcases List.mem_append.1 ha with ha | ha
    · have := h.fresh a ha
      omega
    · rw [List.mem_range'_1] at ha
      omega
  · intro y d hy
    rcases hfind y d hy with ⟨_, rfl⟩ | ⟨_, hy⟩
    · exact allocBoxes_wf _ _ _ AMap.WF_nil
    · exact h.wf y d hy
  · rintro a ⟨y, d, v, hy, hv⟩
    show a ∈ w.boxes ++ List.range' w.next ids.length
    rcases hfind y d hy with ⟨_, rfl⟩ | ⟨_, hy⟩
    · obtain ⟨i, _, rfl, hi⟩ := hnew v a hv
      exact List.mem_append_right _ (List.mem_range'_1.2 ⟨by omega, by omega⟩)
    · exact List.mem_append_left _ (h.live a ⟨y, d, v, hy, hv⟩)
  · intro y d v y' d' v' a hy hv hy' hv'
    rcases hfind y d hy with ⟨e1, rfl⟩ | ⟨_, hy⟩ <;> rcases hfind y' d' hy' with ⟨e2, rfl⟩ | ⟨_, hy'⟩
    · obtain ⟨i, h1, h2, _⟩ := hnew v a hv
      obtain ⟨j, h3, h4, _⟩ := hnew v' a hv'
      have : i = j := by omega
      subst this
      exact ⟨e1.trans e2.symm, Option.some.inj (h1.symm.trans h3)⟩
    · obtain ⟨i, _, h2, _⟩ := hnew v a hv
      have := hold y' d' v' a hy' hv'
      omega
    · obtain ⟨i, _, h2, _⟩ := hnew v' a hv'
      have := hold y d v a hy hv
      omega
    · exact h.once y d v y' d' v' a hy hv hy' hv'

theorem Clean.destroy {w : World} (h : Clean w) (x : ℕ) : Clean (step w (.destroy x)) ∧
    ∀ d, w.dbs.find? x = some d → ∀ a, a ∈ (step w (.destroy x)).boxes ↔ a ∈ w.boxes ∧ ¬ ∃ v, d.boxes.find? v = some a := by
  simp only [step]
  split
  · rename_i d hd
    have hwf := h.wf x d hd
    have hmem : ∀ a, a ∈ d.boxes.map Prod.snd ↔ ∃ v, d.boxes.find? v = some a := by
      intro a
      rw [List.mem_map]
      constructor
      · rintro ⟨e, he, rfl⟩
        exact ⟨e.1, AMap.mem_find? hwf he⟩
      · rintro ⟨v, hv⟩
        exact ⟨_, AMap.find?_some_mem hv, rfl⟩
    have hnd : (d.boxes.map Prod.snd).Nodup := by
      have hk := hwf.nodup
      unfold AMap.keys at hk
      have hd' : d.boxes.Nodup := List.Pairwise.of_map Prod.fst (fun a b hab e => hab (congrArg Prod.fst e)) hk
      refine List.Nodup.map_on ?_ hd'
      intro e he f hf hef
      have h1 := AMap.mem_find? hwf (show (e.1, e.2) ∈ d.boxes from he)
      have h2 := AMap.mem_find? hwf (show (f.1, f.2) ∈ d.boxes from hf)
      rw [hef] at h1
      exact Prod.ext (h.once x d _ x d _ _ hd h1 hd h2).2 hef
    obtain ⟨k1, k2, k3⟩ := deleteBoxes_all (d.boxes.map Prod.snd) w hnd h.nodup (fun a ha => h.live a (by
      obtain ⟨v, hv⟩ := (hmem a).1 ha
      exact ⟨x, d, v, hd, hv⟩))
    have hfind : ∀ y e, (w.dbs.erase x).find? y = some e → y ≠ x ∧ w.dbs.find? y = some e := by
      intro y e hy
      rw [AMap.find?_erase] at hy
      split_ifs at hy with hyx
      exact ⟨hyx, hy⟩
    refine ⟨⟨k1.trans h.fault, k2, ?_, ?_, ?_, ?_⟩, ?_⟩
    · intro a ha
      show a < (deleteBoxes _ w).next
      rw [(deleteBoxes_same _ _).2.2]
      exact h.fresh a ((k3 a).1 ha).1
    · intro y e hy
      exact h.wf y e (hfind y e hy).2
    · rintro a ⟨y, e, v, hy, hv⟩
      obtain ⟨hne, hy⟩ := hfind y e hy
      refine (k3 a).2 ⟨h.live a ⟨y, e, v, hy, hv⟩, fun hm => ?_⟩
      obtain ⟨v', hv'⟩ := (hmem a).1 hm
      exact hne (h.once y e v x d v' a hy hv hd hv').1
    · intro y e v y' e' v' a hy hv hy' hv'
      exact h.once y e v y' e' v' a (hfind y e hy).2 hv (hfind y' e' hy').2 hv'
    · intro d' hd' a
      cases hd.symm.trans hd'
      show a ∈ (deleteBoxes _ w).boxes ↔ _
      rw [k3 a, hmem a]
  · rename_i hd
    exact ⟨h, fun d hd' => by rw [hd] at hd'; cases hd'⟩

theorem clean_start : Clean World.start :=
  ⟨rfl, List.nodup_nil, fun a h => by simp [World.start] at h, fun x d h => by simp [World.start] at h, fun a ⟨x, d, v, h, _⟩ => by simp [World.start] at h,
    fun x d v x' d' v' a h => by simp [World.start] at h⟩

theorem clean_run (ops : List Op) (hn : NoCopy ops) {w : World} (h : Clean w) : Clean (run w ops) := by
  induction ops generalizing w with
  | nil => exact h
  | cons op ops ih =>
    refine ih (fun o ho => hn o (List.mem_cons_of_mem _ ho)) ?_
    rcases hn op (by simp) with ⟨x, ids, rfl⟩ | ⟨x, rfl⟩
    · exact h.create x ids
    · exact (h.destroy x).1

/-- **C182 (boxes)** (partial: databases must not be copied or assigned, see `C182_copy_violated`, `C182_assign_violated`).  Whatever the program, no box is deleted twice and the boxes of a database in scope have not been deleted. -/
theorem C182_boxes_partial (ops : List Op) (hn : NoCopy ops) :
    (run World.start ops).fault = false ∧ ∀ a, Owned (run World.start ops) a → a ∈ (run World.start ops).boxes :=
  ⟨(clean_run ops hn clean_start).fault, (clean_run ops hn clean_start).live⟩

/-- **C182 (leaks)** (partial: without copies, and for octrees with one box per voxel, see C160).  All boxes that have not been deleted belong to a database in scope; in particular none is left when no database is in scope. -/
theorem C182_leak_partial (ops : List Op) (hn : NoCopy ops) (hd : Distinct ops) :
    (∀ a ∈ (run World.start ops).boxes, Owned (run World.start ops) a) ∧ ((run World.start ops).dbs = [] → (run World.start ops).boxes = []) := by
  have key : ∀ (ops : List Op) (w : World), NoCopy ops → Distinct ops → Clean w → (∀ a ∈ w.boxes, Owned w a) → ∀ a ∈ (run w ops).boxes, Owned (run w ops) a := by
    intro ops
    induction ops with
    | nil => exact fun w _ _ _ h => h
    | cons op ops ih =>
      intro w hn hd hc h
      have hn' : NoCopy ops := fun o ho => hn o (List.mem_cons_of_mem _ ho)
      have hd' : Distinct ops := fun x ids ho => hd x ids (List.mem_cons_of_mem _ ho)
      rcases hn op (by simp) with ⟨x, ids, rfl⟩ | ⟨x, rfl⟩
      · refine ih _ hn' hd' (hc.create x ids) ?_
        simp only [step]
        split_ifs with hx
        · exact h
        have hnone : w.dbs.find? x = none := AMap.find?_eq_none.2 fun hm => hx (AMap.has_iff.2 hm)
        intro a ha
        rcases List.mem_append.1 ha with ha | ha
        · obtain ⟨y, d, v, hy, hv⟩ := h a ha
          refine ⟨y, d, v, ?_, hv⟩
          show (w.dbs.set x _).find? y = _
          rw [AMap.find?_set, if_neg (fun e => by rw [e, hnone] at hy; cases hy)]
          exact hy
        · obtain ⟨h1, h2⟩ := List.mem_range'_1.1 ha
          have hlt : a - w.next < ids.length := by omega
          refine ⟨x, ⟨allocBoxes ids w.next [], w.next + ids.length⟩, ids[a - w.next], ?_, ?_⟩
          · show (w.dbs.set x _).find? x = _
            rw [AMap.find?_set, if_pos rfl]
          · have := (allocBoxes_all ids w.next [] (hd x ids (by simp)) (fun v _ => rfl)).2 (a - w.next) ids[a - w.next] (List.getElem?_eq_getElem hlt)
            show (allocBoxes ids w.next []).find? _ = _
            rw [this]
            congr 1
            omega
      · obtain ⟨hc', hb⟩ := hc.destroy x
        refine ih _ hn' hd' hc' ?_
        intro a ha
        cases hx : w.dbs.find? x with
        | none =>
          simp only [step, hx] at ha ⊢
          exact h a ha
        | some d =>
          obtain ⟨h1, h2⟩ := (hb d hx a).1 ha
          obtain ⟨y, e, v, hy, hv⟩ := h a h1
          refine ⟨y, e, v, ?_, hv⟩
          simp only [step, hx]
          rw [AMap.find?_erase, if_neg]
          · exact hy
          · rintro rfl
            cases hx.symm.trans hy
            exact h2 ⟨v, hv⟩
  have h := key ops World.start hn hd clean_start (fun a ha => by simp [World.start] at ha)
  refine ⟨h, fun h0 => List.eq_nil_iff_forall_not_mem.2 fun a ha => ?_⟩
  obtain ⟨x, d, v, hx, _⟩ := h a ha
  rw [h0] at hx
  cases hx

/-! ## Examples and violations -/

/-- the hypotheses are met, by a program which creates two databases and destroys the first one -/
example : NoCopy [.create 1 [5, 6, 7], .create 2 [5, 8], .destroy 1] ∧ Distinct [.create 1 [5, 6, 7], .create 2 [5, 8], .destroy 1] ∧
    run World.start [.create 1 [5, 6, 7], .create 2 [5, 8], .destroy 1] = ⟨[(2, ⟨[(5, 4), (8, 5)], 6⟩)], [4, 5], [(6, 2)], 7, false⟩ := by
  refine ⟨?_, ?_, by decide⟩
  · intro op h
    simp only [List.mem_cons, List.not_mem_nil, or_false] at h
    rcases h with rfl | rfl | rfl
    · exact Or.inl ⟨_, _, rfl⟩
    · exact Or.inl ⟨_, _, rfl⟩
    · exact Or.inr ⟨_, rfl⟩
  · intro x ids h
    simp only [List.mem_cons, Op.create.injEq, List.not_mem_nil, or_false, reduceCtorEq] at h
    rcases h with ⟨_, rfl⟩ | ⟨_, rfl⟩ <;> decide

/-- **C182 is violated** by a copy: when the copy goes out of scope the boxes of the original are deleted, and they are deleted again with the original. -/
theorem C182_copy_violated : (run World.start [.create 1 [5, 6], .copy 2 1, .destroy 2]).boxes = [] ∧ Owned (run World.start [.create 1 [5, 6], .copy 2 1, .destroy 2]) 0 ∧
    (run World.start [.create 1 [5, 6], .copy 2 1, .destroy 2, .destroy 1]).fault = true :=
  ⟨by decide, ⟨1, ⟨[(5, 0), (6, 1)], 2⟩, 5, by decide, by decide⟩, by decide⟩

/-- **C182 is violated** by an assignment: the boxes that the database had are never deleted, and the others are deleted twice. -/
theorem C182_assign_violated : (run World.start [.create 1 [5, 6], .create 2 [7], .assign 1 2, .destroy 1]).fault = false ∧
    (run World.start [.create 1 [5, 6], .create 2 [7], .assign 1 2, .destroy 1, .destroy 2]).fault = true ∧
    (run World.start [.create 1 [5, 6], .create 2 [7], .assign 1 2, .destroy 1, .destroy 2]).dbs = [] ∧
    (run World.start [.create 1 [5, 6], .create 2 [7], .assign 1 2, .destroy 1, .destroy 2]).boxes = [0, 1] := by decide

end Own
end Rbprm
