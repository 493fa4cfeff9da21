import Verif.Lemmas.State
/-!
# Properties C01–C10: contact bookkeeping of `State`

Specification vocabulary (independent of the model's helpers) comes first.
-/
set_option linter.unusedSectionVars false
namespace Rbprm
namespace State
variable {N K : Type _} [LinearOrder N]

/-! ## Specification -/

/-- Name `n` is touching the environment at `p`. -/
def TouchesAt (s : State N K) (n : N) (p : Vec3 K) : Prop := s.contactPositions.find? n = some p

/-- Name `n` is touching the environment. -/
def Touches (s : State N K) (n : N) : Prop := ∃ p, TouchesAt s n p

/-- More than one centimetre apart: `‖p - q‖² > 0.01²`. -/
def FarApart [CommRing K] [LinearOrder K] (p q : Vec3 K) : Prop := 1 < 10000 * Vec3.distSq p q

/-- The contact moved by more than one centimetre. -/
def Moved [CommRing K] [LinearOrder K] (a b : State N K) (n : N) : Prop :=
  ∃ p q, TouchesAt a n p ∧ TouchesAt b n q ∧ FarApart p q

/-- The four maps are genuine maps. -/
structure MapsOk (s : State N K) : Prop where
  contacts : s.contacts.WF
  normals : s.contactNormals.WF
  positions : s.contactPositions.WF
  rotations : s.contactRotation.WF

/-- The five containers and the counter agree. -/
structure Consistent (s : State N K) : Prop extends MapsOk s where
  normalsKeys : s.contactNormals.keys = s.contacts.keys
  positionsKeys : s.contactPositions.keys = s.contacts.keys
  rotationsKeys : s.contactRotation.keys = s.contacts.keys
  orderPerm : s.contactOrder.Perm s.contacts.keys
  counter : s.nbContacts = s.contacts.length
  active : ∀ n b, s.contacts.find? n = some b → b = true

/-- A concrete two-contact state used in the non-vacuity checks. -/
def demo : State ℕ ℤ :=
  { configuration := [0, 0, 0]
    contacts := [(1, true), (2, true)]
    contactNormals := [(1, ⟨0, 0, 1⟩), (2, ⟨0, 0, 1⟩)]
    contactPositions := [(1, ⟨0, 0, 0⟩), (2, ⟨3, 4, 0⟩)]
    contactRotation := [(1, Mat3.one), (2, Mat3.one)]
    contactOrder := [2, 1]
    nbContacts := 2
    stable := true
    robustness := 5 }

/-- Same as `demo` with contact 2 moved, contact 1 broken and 3 created. -/
def demo' : State ℕ ℤ :=
  { demo with
    contacts := [(2, true), (3, true)]
    contactNormals := [(2, ⟨0, 0, 1⟩), (3, ⟨0, 0, 1⟩)]
    contactPositions := [(2, ⟨5, 4, 0⟩), (3, ⟨1, 1, 1⟩)]
    contactRotation := [(2, Mat3.one), (3, Mat3.one)]
    contactOrder := [2, 3] }

theorem demo_consistent : Consistent demo where
  contacts := by simp [AMap.WF, demo]
  normals := by simp [AMap.WF, demo]
  positions := by simp [AMap.WF, demo]
  rotations := by simp [AMap.WF, demo]
  normalsKeys := by simp [demo]
  positionsKeys := by simp [demo]
  rotationsKeys := by simp [demo]
  orderPerm := by simpa [demo] using List.Perm.swap 1 2 []
  counter := by simp [demo]
  active := by
    intro n b h
    have := AMap.find?_some_mem h
    simp [demo] at this
    rcases this with h | h <;> exact h.2

theorem demo'_consistent : Consistent demo' where
  contacts := by simp [AMap.WF, demo']
  normals := by simp [AMap.WF, demo']
  positions := by simp [AMap.WF, demo']
  rotations := by simp [AMap.WF, demo']
  normalsKeys := by simp [demo']
  positionsKeys := by simp [demo']
  rotationsKeys := by simp [demo']
  orderPerm := by simp [demo']
  counter := by simp [demo', demo]
  active := by
    intro n b h
    have := AMap.find?_some_mem h
    simp [demo'] at this
    rcases this with h | h <;> exact h.2

/-! ## C01 -/

/-- **C01** `RemoveContact` is true iff the name is a contact; then exactly that name disappears from
all containers (others untouched, order preserved), the counter is decremented and the state is no
longer flagged stable; otherwise nothing changes. -/
theorem C01_removeContact (s : State N K) (id : N) :
    ((s.removeContact id).2 = true ↔ id ∈ s.contacts.keys) ∧
    ((s.removeContact id).2 = false → (s.removeContact id).1 = s) ∧
    ((s.removeContact id).2 = true →
      let s' := (s.removeContact id).1
      (∀ n, s'.contacts.find? n = if n = id then none else s.contacts.find? n) ∧
      (∀ n, s'.contactNormals.find? n = if n = id then none else s.contactNormals.find? n) ∧
      (∀ n, s'.contactPositions.find? n = if n = id then none else s.contactPositions.find? n) ∧
      (∀ n, s'.contactRotation.find? n = if n = id then none else s.contactRotation.find? n) ∧
      s'.contactOrder = s.contactOrder.filter (· ≠ id) ∧
      (0 < s.nbContacts → s'.nbContacts + 1 = s.nbContacts) ∧
      s'.stable = false ∧
      s'.configuration = s.configuration ∧ s'.robustness = s.robustness) := by
  unfold removeContact
  by_cases h : s.contacts.has id = true
  · rw [if_pos h]
    refine ⟨by simpa using AMap.has_iff.1 h, by simp, fun _ => ?_⟩
    refine ⟨AMap.find?_erase _ _, AMap.find?_erase _ _, AMap.find?_erase _ _, AMap.find?_erase _ _,
      requeueWithout_eq _ _, ?_, rfl, rfl, rfl⟩
    intro hp
    show sizeDec s.nbContacts + 1 = s.nbContacts
    unfold sizeDec
    rw [if_neg (by omega)]; omega
  · rw [if_neg h]
    refine ⟨by simpa using fun hm => h (AMap.has_iff.2 hm), by simp, by simp⟩

example : (demo.removeContact 1).2 = true ∧ (demo.removeContact 1).1.contactOrder = [2] ∧
    (demo.removeContact 7).2 = false := by decide

/-! ## C02: histories -/

/-- The user-level operations of a history. -/
inductive Op (N K : Type _) where
  | create (n : N) (position normal : Vec3 K) (rotation : Mat3 K) (configuration : List K)
  | remove (n : N)
  | removeFirst

/-- Effect of one operation on a state; `create` is only legal when the limb is not in contact
(the callers remove the limb from the set of free limbs, or call `RemoveContact` first). -/
def Op.legal (s : State N K) : Op N K → Prop
  | .create n _ _ _ _ => n ∉ s.contacts.keys
  | _ => True

/-- run one operation -/
def Op.run (s : State N K) : Op N K → State N K
  | .create n p nn r c => s.addContact n p nn r c
  | .remove n => (s.removeContact n).1
  | .removeFirst => s.removeFirstContact.1

/-- The same operation on the specification: the list of active contacts, oldest first. -/
def Op.spec (active : List N) : Op N K → List N
  | .create n _ _ _ _ => active ++ [n]
  | .remove n => active.filter (· ≠ n)
  | .removeFirst => active.tail

/-- `History ops s l`: from an empty state the legal history `ops` (oldest first) leads to `s`, and
the specification to `l`. -/
inductive History (r : K) : List (Op N K) → State N K → List N → Prop
  | nil : History r [] (init r) []
  | snoc {ops s l} (o : Op N K) : History r ops s l → o.legal s →
      History r (ops ++ [o]) (o.run s) (o.spec l)

theorem filter_ne_length_of_nodup {l : List N} (h : l.Nodup) {n : N} (hm : n ∈ l) :
    (l.filter (· ≠ n)).length + 1 = l.length := by
  induction l with
  | nil => simp at hm
  | cons a l ih =>
    have hc := List.nodup_cons.1 h
    by_cases ha : a = n
    · subst ha
      have : l.filter (· ≠ a) = l := List.filter_eq_self.2 (by
        intro x hx; simpa using fun e : x = a => hc.1 (e ▸ hx))
      rw [List.filter_cons_of_neg (by simp), this]; simp
    · rw [List.filter_cons_of_pos (by simpa using ha)]
      have := ih hc.2 (by simpa [Ne.symm ha] using hm)
      simp only [List.length_cons]; omega

theorem keys_set_perm {V : Type _} {m : AMap N V} {k : N} (v : V) (h : k ∉ m.keys) :
    (m.set k v).keys.Perm (m.keys ++ [k]) := by
  induction m with
  | nil => simp [AMap.set]
  | cons p m ih =>
    obtain ⟨a, b⟩ := p
    simp only [AMap.keys_cons, List.mem_cons, not_or] at h
    unfold AMap.set
    split_ifs with h1 h2
    · simpa using (List.perm_append_comm (l₁ := [k]) (l₂ := a :: AMap.keys m))
    · exact absurd h2 h.1
    · simpa using ih h.2

theorem wf_keys_ext {V W : Type _} {m : AMap N V} {m' : AMap N W} (h : m.WF) (h' : m'.WF)
    (e : ∀ n, n ∈ m.keys ↔ n ∈ m'.keys) : m.keys = m'.keys := by
  have hp : m.keys.Perm m'.keys := (List.perm_ext_iff_of_nodup h.nodup h'.nodup).2 e
  exact hp.eq_of_pairwise (fun a b _ _ h1 h2 => absurd (lt_trans h1 h2) (lt_irrefl _)) h h'

theorem Consistent.init (r : K) : Consistent (State.init r : State N K) where
  contacts := List.Pairwise.nil
  normals := List.Pairwise.nil
  positions := List.Pairwise.nil
  rotations := List.Pairwise.nil
  normalsKeys := rfl
  positionsKeys := rfl
  rotationsKeys := rfl
  orderPerm := List.Perm.refl _
  counter := rfl
  active := by intro n b h; simp [State.init] at h

theorem Consistent.addContact {s : State N K} (h : Consistent s) {n : N} (hn : n ∉ s.contacts.keys)
    (p nn : Vec3 K) (r : Mat3 K) (c : List K) : Consistent (s.addContact n p nn r c) := by
  have hc : (s.contacts.set n true).WF := AMap.WF_set h.contacts _ _
  refine ⟨⟨hc, AMap.WF_set h.normals _ _, AMap.WF_set h.positions _ _,
    AMap.WF_set h.rotations _ _⟩, ?_, ?_, ?_, ?_, ?_, ?_⟩
  · refine wf_keys_ext (AMap.WF_set h.normals _ _) hc fun j => ?_
    simp only [State.addContact]; rw [AMap.mem_keys_set, AMap.mem_keys_set, h.normalsKeys]
  · refine wf_keys_ext (AMap.WF_set h.positions _ _) hc fun j => ?_
    simp only [State.addContact]; rw [AMap.mem_keys_set, AMap.mem_keys_set, h.positionsKeys]
  · refine wf_keys_ext (AMap.WF_set h.rotations _ _) hc fun j => ?_
    simp only [State.addContact]; rw [AMap.mem_keys_set, AMap.mem_keys_set, h.rotationsKeys]
  · exact (h.orderPerm.append_right [n]).trans (keys_set_perm true hn).symm
  · show s.nbContacts + 1 = (s.contacts.set n true).length
    rw [AMap.length_set_of_not_mem _ hn, h.counter]
  · intro j b hj
    change AMap.find? (s.contacts.set n true) j = some b at hj
    rw [AMap.find?_set] at hj
    split_ifs at hj with e
    · simpa using hj.symm
    · exact h.active j b hj

/-- erasing a present key from every container of a consistent state -/
theorem Consistent.eraseAll {s s' : State N K} (h : Consistent s) {n : N} (hn : n ∈ s.contacts.keys)
    (e1 : s'.contacts = s.contacts.erase n) (e2 : s'.contactNormals = s.contactNormals.erase n)
    (e3 : s'.contactPositions = s.contactPositions.erase n)
    (e4 : s'.contactRotation = s.contactRotation.erase n)
    (e5 : s'.contactOrder = s.contactOrder.filter (· ≠ n))
    (e6 : s'.nbContacts = sizeDec s.nbContacts) : Consistent s' := by
  have hlen : (s.contacts.erase n).length + 1 = s.contacts.length := by
    have := filter_ne_length_of_nodup h.contacts.nodup hn
    rw [← AMap.keys_erase] at this
    simpa [AMap.keys] using this
  refine ⟨⟨e1 ▸ AMap.WF_erase h.contacts _, e2 ▸ AMap.WF_erase h.normals _,
    e3 ▸ AMap.WF_erase h.positions _, e4 ▸ AMap.WF_erase h.rotations _⟩, ?_, ?_, ?_, ?_, ?_, ?_⟩
  · rw [e1, e2, AMap.keys_erase, AMap.keys_erase, h.normalsKeys]
  · rw [e1, e3, AMap.keys_erase, AMap.keys_erase, h.positionsKeys]
  · rw [e1, e4, AMap.keys_erase, AMap.keys_erase, h.rotationsKeys]
  · rw [e1, e5, AMap.keys_erase]; exact h.orderPerm.filter _
  · rw [e1, e6, h.counter]; unfold sizeDec; rw [if_neg (by omega)]; omega
  · intro j b hj
    rw [e1, AMap.find?_erase] at hj
    split_ifs at hj
    exact h.active j b hj

theorem Consistent.removeContact {s : State N K} (h : Consistent s) (n : N) :
    Consistent (s.removeContact n).1 := by
  unfold State.removeContact
  split_ifs with hn
  · exact h.eraseAll (AMap.has_iff.1 hn) rfl rfl rfl rfl (requeueWithout_eq _ _) rfl
  · exact h

theorem Consistent.order_nodup {s : State N K} (h : Consistent s) : s.contactOrder.Nodup :=
  h.orderPerm.nodup_iff.2 h.contacts.nodup

theorem Consistent.removeFirst {s : State N K} (h : Consistent s) :
    Consistent s.removeFirstContact.1 := by
  unfold State.removeFirstContact
  split
  · exact h
  · rename_i a rest ho
    have hnd := h.order_nodup
    rw [ho] at hnd
    refine h.eraseAll (n := a) (h.orderPerm.mem_iff.1 (by simp [ho])) rfl rfl rfl rfl ?_ rfl
    show rest = s.contactOrder.filter (· ≠ a)
    rw [ho, List.filter_cons_of_neg (by simp)]
    refine (List.filter_eq_self.2 ?_).symm
    intro x hx; simpa using fun e : x = a => (List.nodup_cons.1 hnd).1 (e ▸ hx)

/-- **C02** Every history of legal operations keeps the five containers and the counter consistent,
and the contact order is exactly the specification list (oldest active contact first). -/
theorem C02_history_consistent {r : K} {ops : List (Op N K)} {s : State N K} {l : List N}
    (h : History r ops s l) :
    Consistent s ∧ s.contactOrder = l ∧ s.nbContacts = l.length ∧
      (∀ n, n ∈ s.contacts.keys ↔ n ∈ l) := by
  have key : Consistent s ∧ s.contactOrder = l := by
    induction h with
    | nil => exact ⟨Consistent.init r, rfl⟩
    | @snoc ops s l o _ hl ih =>
      obtain ⟨hc, ho⟩ := ih
      cases o with
      | create n p nn r c => exact ⟨hc.addContact hl p nn r c, by simp [Op.run, Op.spec, addContact, ho]⟩
      | remove n =>
        refine ⟨hc.removeContact n, ?_⟩
        simp only [Op.run, Op.spec, State.removeContact]
        split_ifs with hn
        · simp [requeueWithout_eq, ho]
        · have : n ∉ l := fun hm => hn (AMap.has_iff.2 (hc.orderPerm.mem_iff.1 (ho ▸ hm)))
          rw [ho]
          refine (List.filter_eq_self.2 ?_).symm
          intro x hx; simpa using fun e : x = n => this (e ▸ hx)
      | removeFirst =>
        refine ⟨hc.removeFirst, ?_⟩
        simp only [Op.run, Op.spec, State.removeFirstContact]
        cases hco : s.contactOrder with
        | nil => simp [← ho, hco]
        | cons a rest => simp [← ho, hco]
  obtain ⟨hc, ho⟩ := key
  refine ⟨hc, ho, ?_, fun n => ?_⟩
  · rw [hc.counter, ← ho]
    have := hc.orderPerm.length_eq
    simpa [AMap.keys] using this.symm
  · rw [← hc.orderPerm.mem_iff, ho]

/-- a history with a creation, a removal and a first-removal -/
example : ∃ s l, History (N := ℕ) (K := ℤ) 0
    [.create 4 ⟨0,0,0⟩ ⟨0,0,1⟩ Mat3.one [], .create 2 ⟨1,0,0⟩ ⟨0,0,1⟩ Mat3.one [], .removeFirst] s l ∧
    l = [2] := by
  have h0 := History.nil (N := ℕ) (K := ℤ) (r := 0)
  have h1 := h0.snoc (.create 4 ⟨0,0,0⟩ ⟨0,0,1⟩ Mat3.one []) (by simp [Op.legal, init])
  have h2 := h1.snoc (.create 2 ⟨1,0,0⟩ ⟨0,0,1⟩ Mat3.one [])
    (by simp [Op.legal, Op.run, init, addContact, AMap.set])
  have h3 := h2.snoc .removeFirst trivial
  exact ⟨_, _, h3, rfl⟩

/-- The legality hypothesis is needed: creating a contact on a limb already in contact
desynchronises the counter and the order from the maps. -/
theorem C02_duplicate_creation_breaks (s : State N K) (h : Consistent s) (n : N)
    (hn : n ∈ s.contacts.keys) (p nn : Vec3 K) (r : Mat3 K) (c : List K) :
    ¬ Consistent (s.addContact n p nn r c) := by
  intro hc
  have h1 := hc.counter
  have h2 : (AMap.set s.contacts n true).length = s.contacts.length := by
    have := AMap.keys_set_of_mem h.contacts true hn
    simpa [AMap.keys] using congrArg List.length this
  simp only [State.addContact, h2] at h1
  have := h.counter
  omega

example : Consistent demo ∧ 1 ∈ demo.contacts.keys := ⟨demo_consistent, by decide⟩

/-! ## C03 -/

/-- `n` successive calls of `RemoveFirstContact`: final state and returned names. -/
def popMany : Nat → State N K → State N K × List (Option N)
  | 0, s => (s, [])
  | n + 1, s =>
    let r := s.removeFirstContact
    let q := popMany n r.1
    (q.1, r.2 :: q.2)

/-- **C03** One call. -/
theorem C03_removeFirst (s : State N K) (h : Consistent s) :
    (s.removeFirstContact.2 = none ↔ s.contacts = []) ∧
    (s.removeFirstContact.2 = none → s.removeFirstContact.1 = s) ∧
    (∀ n, s.removeFirstContact.2 = some n →
      s.contactOrder.head? = some n ∧
      (∀ j, s.removeFirstContact.1.contacts.find? j =
        if j = n then none else s.contacts.find? j) ∧
      (∀ j, s.removeFirstContact.1.contactPositions.find? j =
        if j = n then none else s.contactPositions.find? j) ∧
      (∀ j, s.removeFirstContact.1.contactNormals.find? j =
        if j = n then none else s.contactNormals.find? j) ∧
      (∀ j, s.removeFirstContact.1.contactRotation.find? j =
        if j = n then none else s.contactRotation.find? j) ∧
      s.removeFirstContact.1.contactOrder = s.contactOrder.tail ∧
      s.removeFirstContact.1.nbContacts + 1 = s.nbContacts ∧
      s.removeFirstContact.1.stable = false ∧
      Consistent s.removeFirstContact.1) := by
  refine ⟨?_, ?_, ?_⟩
  · unfold removeFirstContact
    have hl := h.orderPerm.length_eq
    cases ho : s.contactOrder with
    | nil =>
      rw [ho] at hl
      simp only [true_iff]
      exact List.eq_nil_of_length_eq_zero (by simpa [AMap.keys] using hl.symm)
    | cons a rest =>
      simp only [reduceCtorEq, false_iff]
      intro e
      rw [ho, e] at hl
      simp at hl
  · unfold removeFirstContact
    cases s.contactOrder <;> simp
  · intro n hn
    have hcons := h.removeFirst
    have hcnt := h.counter
    have hl := h.orderPerm.length_eq
    unfold removeFirstContact at hn hcons ⊢
    cases ho : s.contactOrder with
    | nil => simp [ho] at hn
    | cons a rest =>
      simp only [ho, Option.some.injEq] at hn hcons ⊢
      subst hn
      refine ⟨rfl, AMap.find?_erase _ _, AMap.find?_erase _ _, AMap.find?_erase _ _,
        AMap.find?_erase _ _, rfl, ?_, trivial, hcons⟩
      unfold sizeDec
      rw [ho] at hl
      simp only [List.length_cons, AMap.keys, List.length_map] at hl
      rw [if_neg (by omega)]; omega

/-- **C03** `n` calls return the `n` oldest contacts in creation order (then empty strings), and the
contacts still active are the remaining ones in order. -/
theorem C03_fifo (n : Nat) (s : State N K) (h : Consistent s) :
    (popMany n s).2 = (s.contactOrder.take n).map some ++
        List.replicate (n - s.contactOrder.length) none ∧
    (popMany n s).1.contactOrder = s.contactOrder.drop n ∧
    Consistent (popMany n s).1 := by
  induction n generalizing s with
  | zero => simp [popMany, h]
  | succ n ih =>
    have hi := ih _ h.removeFirst
    simp only [popMany]
    refine ⟨?_, ?_, hi.2.2⟩
    · rw [hi.1]
      unfold removeFirstContact
      cases ho : s.contactOrder with
      | nil => simp [ho, List.replicate_succ]
      | cons a rest => simp
    · rw [hi.2.1]
      unfold removeFirstContact
      cases ho : s.contactOrder with
      | nil => simp [ho]
      | cons a rest => simp

example : Consistent demo ∧ (popMany 3 demo).2 = [some 2, some 1, none] :=
  ⟨demo_consistent, by decide⟩

/-! ## C04, C05, C06 -/
section variations
variable [CommRing K] [LinearOrder K]

theorem farApart_comm (p q : Vec3 K) : FarApart p q ↔ FarApart q p := by
  unfold FarApart; rw [Vec3.distSq_comm]

/-- **C05** creations: touching now and (not touching before, or moved by more than 1 cm). -/
theorem C05_creations {next prev : State N K} (h : next.MapsOk) (n : N) :
    n ∈ next.contactCreations prev ↔
      (Touches next n ∧ ¬ Touches prev n) ∨ Moved prev next n := by
  rw [mem_contactCreations h.positions]
  constructor
  · rintro ⟨q, hq, hf⟩
    by_cases ht : Touches prev n
    · obtain ⟨p, hp⟩ := ht
      exact Or.inr ⟨p, q, hp, hq, hf p hp⟩
    · exact Or.inl ⟨⟨q, hq⟩, ht⟩
  · rintro (⟨⟨q, hq⟩, ht⟩ | ⟨p, q, hp, hq, hf⟩)
    · exact ⟨q, hq, fun p hp => absurd ⟨p, hp⟩ ht⟩
    · refine ⟨q, hq, fun p' hp' => ?_⟩
      have : p' = p := Option.some.inj (hp'.symm.trans hp)
      exact this ▸ hf

theorem moved_comm (a b : State N K) (n : N) : Moved a b n ↔ Moved b a n := by
  constructor
  · rintro ⟨p, q, hp, hq, hf⟩; exact ⟨q, p, hq, hp, (farApart_comm p q).1 hf⟩
  · rintro ⟨p, q, hp, hq, hf⟩; exact ⟨q, p, hq, hp, (farApart_comm p q).1 hf⟩

/-- **C05** breaks: touching before and (not touching now, or moved by more than 1 cm). -/
theorem C05_breaks {next prev : State N K} (h : prev.MapsOk) (n : N) :
    n ∈ next.contactBreaks prev ↔
      (Touches prev n ∧ ¬ Touches next n) ∨ Moved prev next n := by
  have : next.contactBreaks prev = prev.contactCreations next := rfl
  rw [this, C05_creations h, moved_comm]

/-- **C05** in both lists iff moved; variations are the union. -/
theorem C05_classification {next prev : State N K} (h : next.MapsOk) (hp : prev.MapsOk) (n : N) :
    (n ∈ next.contactCreations prev ∧ n ∈ next.contactBreaks prev ↔ Moved prev next n) ∧
    (n ∈ next.contactVariations prev ↔
      n ∈ next.contactCreations prev ∨ n ∈ next.contactBreaks prev) := by
  refine ⟨?_, mem_contactVariations h.positions hp.positions n⟩
  rw [C05_creations h, C05_breaks hp]
  constructor
  · rintro ⟨⟨_, h2⟩ | h1, ⟨h3, _⟩ | h4⟩
    · exact absurd h3 h2
    · exact h4
    · exact h1
    · exact h1
  · exact fun hm => ⟨Or.inr hm, Or.inr hm⟩

example : demo.MapsOk ∧ demo'.MapsOk ∧ demo'.contactCreations demo = [2, 3] ∧
    demo'.contactBreaks demo = [1, 2] :=
  ⟨demo_consistent.toMapsOk, demo'_consistent.toMapsOk, by decide, by decide⟩

/-- **C04** `contactVariations` lists, without duplicates, exactly the contacts active in exactly one
of the states, or active in both more than 1 cm apart. -/
theorem C04_variations {next prev : State N K} (h : next.MapsOk) (hp : prev.MapsOk) :
    (next.contactVariations prev).Nodup ∧
    ∀ n, n ∈ next.contactVariations prev ↔
      (Touches next n ∧ ¬ Touches prev n) ∨ (Touches prev n ∧ ¬ Touches next n) ∨
        Moved prev next n := by
  refine ⟨?_, fun n => ?_⟩
  · exact nodup_creationsLoop _ _ _ (nodup_creationsLoop _ _ _ List.nodup_nil)
  · rw [(C05_classification h hp n).2, C05_creations h, C05_breaks hp]; tauto

/-- **C04** symmetry: swapping the two states gives the same contacts. -/
theorem C04_symmetric {a b : State N K} (ha : a.MapsOk) (hb : b.MapsOk) (n : N) :
    n ∈ a.contactVariations b ↔ n ∈ b.contactVariations a := by
  rw [(C04_variations ha hb).2, (C04_variations hb ha).2, moved_comm]; tauto

/-- **C04** a state has no variation with itself. -/
theorem C04_self [IsStrictOrderedRing K] {s : State N K} (h : s.MapsOk) : s.contactVariations s = [] := by
  refine List.eq_nil_iff_forall_not_mem.2 fun n hn => ?_
  rcases ((C04_variations h h).2 n).1 hn with h' | h' | ⟨p, q, hp, hq, hf⟩
  · exact h'.2 h'.1
  · exact h'.2 h'.1
  · have : p = q := Option.some.inj (hp.symm.trans hq)
    subst this
    unfold FarApart at hf
    simp only [Vec3.distSq_self, mul_zero] at hf
    exact absurd hf (not_lt.2 zero_le_one)

example : demo'.contactVariations demo = [2, 3, 1] ∧ demo.contactVariations demo = [] := by decide

/-- **C06** fixed contacts: active in both, within 1 cm, listed once. -/
theorem C06_fixed {next prev : State N K} (h : next.MapsOk) (hp : prev.MapsOk) :
    (next.fixedContacts prev).Nodup ∧
    ∀ n, n ∈ next.fixedContacts prev ↔
      ∃ p q, TouchesAt prev n p ∧ TouchesAt next n q ∧ ¬ FarApart p q := by
  refine ⟨(h.positions.nodup).filter _, fun n => ?_⟩
  unfold fixedContacts
  simp only [List.mem_filter, List.contains_eq_mem, Bool.not_eq_true', decide_eq_false_iff_not]
  rw [(C04_variations h hp).2]
  constructor
  · rintro ⟨hk, hn⟩
    obtain ⟨q, hq⟩ := Option.isSome_iff_exists.1 (AMap.find?_isSome.2 hk)
    have htp : Touches prev n := by
      by_contra hc; exact hn (Or.inl ⟨⟨q, hq⟩, hc⟩)
    obtain ⟨p, hp'⟩ := htp
    exact ⟨p, q, hp', hq, fun hf => hn (Or.inr (Or.inr ⟨p, q, hp', hq, hf⟩))⟩
  · rintro ⟨p, q, hp', hq, hf⟩
    refine ⟨AMap.find?_isSome.1 (by unfold TouchesAt at hq; simp [hq]), ?_⟩
    rintro (h' | h' | ⟨p1, q1, h1, h2, h3⟩)
    · exact h'.2 ⟨p, hp'⟩
    · exact h'.2 ⟨q, hq⟩
    · have e1 : p1 = p := Option.some.inj (h1.symm.trans hp')
      have e2 : q1 = q := Option.some.inj (h2.symm.trans hq)
      exact hf (e1 ▸ e2 ▸ h3)

/-- **C06** fixed contacts and variations are disjoint and cover the contacts of `next`; the set of
fixed contacts is symmetric. -/
theorem C06_partition {next prev : State N K} (h : next.MapsOk) (hp : prev.MapsOk) (n : N) :
    ¬ (n ∈ next.fixedContacts prev ∧ n ∈ next.contactVariations prev) ∧
    (Touches next n → n ∈ next.fixedContacts prev ∨ n ∈ next.contactVariations prev) ∧
    (n ∈ next.fixedContacts prev → Touches next n) ∧
    (n ∈ next.fixedContacts prev ↔ n ∈ prev.fixedContacts next) := by
  refine ⟨?_, ?_, ?_, ?_⟩
  · unfold fixedContacts
    simp only [List.mem_filter, List.contains_eq_mem, Bool.not_eq_true', decide_eq_false_iff_not]
    exact fun h => h.1.2 h.2
  · rintro ⟨q, hq⟩
    unfold fixedContacts
    simp only [List.mem_filter, List.contains_eq_mem, Bool.not_eq_true', decide_eq_false_iff_not]
    by_cases hv : n ∈ next.contactVariations prev
    · exact Or.inr hv
    · exact Or.inl ⟨AMap.find?_isSome.1 (by unfold TouchesAt at hq; simp [hq]), hv⟩
  · intro hm
    obtain ⟨_, q, _, hq, _⟩ := ((C06_fixed h hp).2 n).1 hm
    exact ⟨q, hq⟩
  · rw [(C06_fixed h hp).2, (C06_fixed hp h).2]
    constructor
    · rintro ⟨p, q, h1, h2, h3⟩; exact ⟨q, p, h2, h1, fun hf => h3 ((farApart_comm p q).2 hf)⟩
    · rintro ⟨p, q, h1, h2, h3⟩; exact ⟨q, p, h2, h1, fun hf => h3 ((farApart_comm p q).2 hf)⟩

/-- **C06** `allVariations` is the effector list minus the fixed contacts, in the given order. -/
theorem C06_allVariations {next prev : State N K} (h : next.MapsOk) (hp : prev.MapsOk) (effs : List N) :
    (next.allVariations prev effs).Sublist effs ∧
    ∀ n, n ∈ next.allVariations prev effs ↔ n ∈ effs ∧
      ¬ ∃ p q, TouchesAt prev n p ∧ TouchesAt next n q ∧ ¬ FarApart p q := by
  unfold allVariations
  refine ⟨List.filter_sublist, fun n => ?_⟩
  simp only [List.mem_filter, List.contains_eq_mem, Bool.not_eq_true', decide_eq_false_iff_not]
  rw [(C06_fixed h hp).2]

example : demo'.fixedContacts { demo' with nbContacts := 0 } = [2, 3] ∧
    demo'.allVariations demo [1, 2, 3, 4] = [1, 2, 3, 4] := by decide

/-! ## C07 -/

/-- What `freeVariations` does on consistent states: it throws as soon as some listed
effector is in contact in neither state, and otherwise returns the empty list. -/
theorem freeLimbMotions_consistent (s : State N K) (h : Consistent s) (vars effs : List N) :
    freeLimbMotions s vars effs =
      if ∃ e ∈ effs, e ∉ vars ∧ e ∉ s.contacts.keys then none else some [] := by
  induction effs with
  | nil => simp [freeLimbMotions]
  | cons e effs ih =>
    unfold freeLimbMotions
    simp only [List.contains_eq_mem, decide_eq_true_eq, List.mem_cons, exists_eq_or_imp]
    by_cases hv : e ∈ vars
    · rw [if_pos hv, ih]; simp [hv]
    · rw [if_neg hv]
      cases hf : s.contacts.find? e with
      | none => rw [if_pos (Or.inl ⟨hv, AMap.find?_eq_none.1 hf⟩)]
      | some b =>
        have := h.active e b hf
        subst this
        have hk : e ∈ s.contacts.keys := AMap.find?_isSome.1 (by simp [hf])
        simp [ih, hk]

/-- **C07 is violated by the code**: with the intended meaning `freeVariations prev effs` lists the
effectors free in both states; here effector 4 is free in both and the call throws. -/
theorem C07_violated : demo'.freeVariations demo [4] = none := by decide

/-- **C07** (partial): for consistent states the call never returns a wrong effector, and it does not
throw iff no listed effector is free in both states (then the correct answer, the empty list,
is returned).  Missing: the case of an effector free in both states, in which the code throws
`std::out_of_range` instead of listing it (see `C07_violated`). -/
theorem C07_freeVariations_partial {next prev : State N K} (h : Consistent next) (hp : Consistent prev)
    (effs : List N) :
    (next.freeVariations prev effs = none ↔ ∃ e ∈ effs, ¬ Touches next e ∧ ¬ Touches prev e) ∧
    (∀ l, next.freeVariations prev effs = some l → l = []) := by
  unfold freeVariations
  rw [freeLimbMotions_consistent _ h]
  have key : (∃ e ∈ effs, e ∉ next.contactVariations prev ∧ e ∉ next.contacts.keys) ↔
      ∃ e ∈ effs, ¬ Touches next e ∧ ¬ Touches prev e := by
    refine exists_congr fun e => and_congr_right fun _ => ?_
    rw [(C04_variations h.toMapsOk hp.toMapsOk).2]
    have e1 : Touches next e ↔ e ∈ next.contacts.keys := by
      rw [← h.positionsKeys, ← AMap.find?_isSome, Option.isSome_iff_exists]; rfl
    rw [← e1]
    constructor
    · rintro ⟨h1, h2⟩; exact ⟨h2, fun h3 => h1 (Or.inr (Or.inl ⟨h3, h2⟩))⟩
    · rintro ⟨h1, h2⟩
      refine ⟨?_, h1⟩
      rintro (h' | h' | ⟨p, q, h3, h4, _⟩)
      · exact h1 h'.1
      · exact h2 h'.1
      · exact h1 ⟨q, h4⟩
  rw [← key]
  constructor
  · split_ifs with hc <;> simp [hc]
  · intro l hl
    split_ifs at hl with hc
    simpa using hl.symm

/-- **C07 (exact behaviour on every pair of states)** the call throws iff some listed effector is no variation
and has no entry in the contact map; otherwise it returns, in the given order, the listed effectors that are no
variation and whose contact flag is off. -/
theorem C07_exact (next prev : State N K) (effs : List N) :
    (next.freeVariations prev effs = none ↔
      ∃ e ∈ effs, e ∉ next.contactVariations prev ∧ next.contacts.find? e = none) ∧
    (∀ l, next.freeVariations prev effs = some l →
      l = effs.filter (fun e => decide (e ∉ next.contactVariations prev ∧
        next.contacts.find? e = some false))) := by
  unfold freeVariations
  generalize next.contactVariations prev = vars
  induction effs with
  | nil => simp [freeLimbMotions]
  | cons e effs ih =>
    unfold freeLimbMotions
    simp only [List.contains_eq_mem, decide_eq_true_eq, List.mem_cons, exists_eq_or_imp]
    by_cases hv : e ∈ vars
    · rw [if_pos hv]
      refine ⟨by rw [ih.1]; simp [hv], fun l hl => ?_⟩
      rw [List.filter_cons, if_neg (by simp [hv])]
      exact ih.2 l hl
    · rw [if_neg hv]
      cases hf : next.contacts.find? e with
      | none => simp [hv]
      | some b =>
        cases b with
        | true =>
          refine ⟨by simp [ih.1], fun l hl => ?_⟩
          rw [List.filter_cons, if_neg (by simp [hf])]
          exact ih.2 l hl
        | false =>
          refine ⟨by simp [ih.1], fun l hl => ?_⟩
          rw [List.filter_cons, if_pos (by simp [hv, hf])]
          simp only [Option.map_eq_some_iff] at hl
          obtain ⟨l', hl', rfl⟩ := hl
          rw [← ih.2 l' hl']

example : ({ demo' with contacts := demo'.contacts.set 5 false }).freeVariations demo [5, 2] = some [5] := by
  decide

example : Consistent demo' ∧ Consistent demo ∧ demo'.freeVariations demo [1, 2, 3] = some [] :=
  ⟨demo'_consistent, demo_consistent, by decide⟩

end variations

/-! ## C08 -/

/-- **C08 is violated for assignment**: `operator=` leaves `robustness` unchanged. -/
theorem C08_assign_violated :
    ∃ a b : State ℕ ℤ, (a.assign b false).robustness ≠ b.robustness := by
  refine ⟨{ demo with robustness := 0 }, demo, by decide⟩

/-- **C08** (partial): copy construction copies everything; assignment copies every field except
`robustness` (which keeps its old value); assigning the same object is harmless.  Missing: `robustness`
under assignment (see `C08_assign_violated`). -/
theorem C08_copy_partial (this other : State N K) :
    copyCtor other = other ∧
    { this.assign other false with robustness := other.robustness } = other ∧
    (this.assign other false).robustness = this.robustness ∧
    this.assign this true = this := by
  refine ⟨rfl, ?_, ?_, ?_⟩
  · simp [assign]
  · simp [assign]
  · simp [assign]

/-! ## C09 -/

/-- **C09** printing a consistent state visits every contact once and is safe. -/
theorem C09_print_consistent (s prev : State N K) (h : Consistent s) :
    s.print = .ok s.contacts.keys ∧ s.printPrev prev = .ok s.contacts.keys := by
  have hlen : s.nbContacts = s.contactNormals.length := by
    have := congrArg List.length h.normalsKeys
    simp only [AMap.keys, List.length_map] at this
    rw [h.counter, this]
  have h2 : s.printInternal = .ok s.contacts.keys := by
    unfold printInternal
    rw [hlen, printLoop_ok, h.normalsKeys]
    · intro n hn; rw [h.positionsKeys, ← h.normalsKeys]; exact hn
    · intro n hn; rw [h.rotationsKeys, ← h.normalsKeys]; exact hn
  refine ⟨?_, h2⟩
  unfold print
  rw [hlen, printNames_ok]
  exact h2

/-- **C09** a counter larger than the number of stored normals makes `print` read past the end. -/
theorem C09_print_overrun (s : State N K) (h : s.contactNormals.length < s.nbContacts) :
    s.print = .undefinedBehaviour := by
  unfold print
  rw [printNames_ub _ _ h]

/-- **C09 (counter too small)** whenever every stored normal has a position and a rotation and the counter does
not exceed their number, printing is safe and visits the first `nbContacts` contacts. -/
theorem C09_print_prefix (s : State N K) (h : s.nbContacts ≤ s.contactNormals.length)
    (h1 : ∀ n ∈ s.contactNormals.keys, n ∈ s.contactPositions.keys)
    (h2 : ∀ n ∈ s.contactNormals.keys, n ∈ s.contactRotation.keys) :
    s.print = .ok (s.contactNormals.keys.take s.nbContacts) := by
  have key : ∀ (m : AMap N (Vec3 K)) (c : Nat), c ≤ m.length → (∀ n ∈ m.keys, n ∈ s.contactPositions.keys) →
      (∀ n ∈ m.keys, n ∈ s.contactRotation.keys) →
      printNames c m = .ok (m.keys.take c) ∧
      printLoop s.contactPositions s.contactRotation c m = .ok (m.keys.take c) := by
    intro m
    induction m with
    | nil => intro c hc _ _; simp only [List.length_nil, Nat.le_zero_eq] at hc; subst hc; exact ⟨rfl, rfl⟩
    | cons p m ih =>
      intro c hc g1 g2
      obtain ⟨a, b⟩ := p
      cases c with
      | zero => exact ⟨rfl, rfl⟩
      | succ c =>
        obtain ⟨v, hv⟩ := Option.isSome_iff_exists.1 (AMap.find?_isSome.2 (g1 a (by simp)))
        obtain ⟨w, hw⟩ := Option.isSome_iff_exists.1 (AMap.find?_isSome.2 (g2 a (by simp)))
        have := ih c (by simpa using hc) (fun n hn => g1 n (by simp [hn])) (fun n hn => g2 n (by simp [hn]))
        simp [printNames, printLoop, hv, hw, this.1, this.2]
  have := key s.contactNormals s.nbContacts h h1 h2
  unfold print printInternal
  rw [this.1]; exact this.2

example : ({ demo with nbContacts := 1 }).print = .ok [1] := by decide
example : Consistent demo ∧ demo.print = .ok [1, 2] := ⟨demo_consistent, by decide⟩
example : ({ demo with nbContacts := 3 }).print = .undefinedBehaviour := by decide

/-! ## C10 -/
section dist
variable [CommRing K] [LinearOrder K]

theorem foldl_ge (f : K → N → K) (hf : ∀ a n, a ≤ f a n) (l : List N) (a : K) : a ≤ l.foldl f a := by
  induction l generalizing a with
  | nil => simp
  | cons x l ih => exact le_trans (hf a x) (ih _)

/-- **C10** upper bound, attainment, zero case. -/
theorem C10_effectorDistance [IsStrictOrderedRing K] (frm dest : State N K) (h : dest.MapsOk) :
    (∀ n p q, TouchesAt frm n p → TouchesAt dest n q → FarApart p q →
      Vec3.distSq p q ≤ effectorDistanceSq frm dest) ∧
    (effectorDistanceSq frm dest = 0 ∨
      ∃ n p q, TouchesAt frm n p ∧ TouchesAt dest n q ∧ FarApart p q ∧
        effectorDistanceSq frm dest = Vec3.distSq p q) ∧
    (effectorDistanceSq frm dest = 0 ↔ ∀ n, ¬ Moved frm dest n) := by
  set f : K → N → K := fun norm name =>
    match frm.contactPositions.find? name, dest.contactPositions.find? name with
    | some p, some q => max norm (Vec3.distSq p q)
    | _, _ => norm with hf
  have hge : ∀ a n, a ≤ f a n := by
    intro a n
    simp only [hf]
    cases frm.contactPositions.find? n <;> cases dest.contactPositions.find? n <;> simp
  have hub : ∀ (l : List N) (a : K) (n : N) (p q : Vec3 K), n ∈ l → TouchesAt frm n p → TouchesAt dest n q →
      Vec3.distSq p q ≤ l.foldl f a := by
    intro l
    induction l with
    | nil => intro a n p q hn; simp at hn
    | cons x l ih =>
      intro a n p q hn hp hq
      rw [List.foldl_cons]
      rcases List.mem_cons.1 hn with e | e
      · subst e
        refine le_trans ?_ (foldl_ge f hge l _)
        unfold TouchesAt at hp hq
        simp [hf, hp, hq]
      · exact ih _ n p q e hp hq
  have hatt : ∀ (l : List N) (a : K), (∀ n ∈ l, n ∈ dest.contactCreations frm) →
      l.foldl f a = a ∨ ∃ n p q, TouchesAt frm n p ∧ TouchesAt dest n q ∧ FarApart p q ∧
        l.foldl f a = Vec3.distSq p q := by
    intro l
    induction l with
    | nil => intro a _; exact Or.inl rfl
    | cons x l ih =>
      intro a hl
      rw [List.foldl_cons]
      rcases ih (f a x) (fun n hn => hl n (List.mem_cons_of_mem _ hn)) with h1 | h1
      · rw [h1]
        cases hp : frm.contactPositions.find? x with
        | none => left; simp [hf, hp]
        | some p =>
          cases hq : dest.contactPositions.find? x with
          | none => left; simp [hf, hp, hq]
          | some q =>
            rcases le_total a (Vec3.distSq p q) with hle | hle
            · right
              refine ⟨x, p, q, hp, hq, ?_, by simp [hf, hp, hq, hle]⟩
              rcases (C05_creations h x).1 (hl x (by simp)) with ⟨_, h3⟩ | ⟨p', q', h1, h2, h3⟩
              · exact absurd ⟨p, hp⟩ h3
              · have e1 : p' = p := Option.some.inj (h1.symm.trans hp)
                have e2 : q' = q := Option.some.inj (h2.symm.trans hq)
                exact e1 ▸ e2 ▸ h3
            · left; simp [hf, hp, hq, hle]
      · exact Or.inr h1
  have hdef : effectorDistanceSq frm dest = (dest.contactCreations frm).foldl f 0 := rfl
  have A : ∀ n p q, TouchesAt frm n p → TouchesAt dest n q → FarApart p q →
      Vec3.distSq p q ≤ effectorDistanceSq frm dest := by
    intro n p q hp hq hfar
    rw [hdef]
    exact hub _ 0 n p q ((C05_creations h n).2 (Or.inr ⟨p, q, hp, hq, hfar⟩)) hp hq
  have B := hatt (dest.contactCreations frm) 0 (fun _ hn => hn)
  rw [← hdef] at B
  have pos : ∀ p q : Vec3 K, FarApart p q → 0 < Vec3.distSq p q := by
    intro p q hfar
    rcases lt_or_eq_of_le (Vec3.distSq_nonneg p q) with h' | h'
    · exact h'
    · unfold FarApart at hfar
      rw [← h', mul_zero] at hfar
      exact absurd hfar (not_lt.2 zero_le_one)
  refine ⟨A, B, ?_⟩
  constructor
  · rintro h0 n ⟨p, q, hp, hq, hfar⟩
    have := A n p q hp hq hfar
    rw [h0] at this
    exact absurd (pos p q hfar) (not_lt.2 this)
  · intro hm
    rcases B with h' | ⟨n, p, q, hp, hq, hfar, _⟩
    · exact h'
    · exact absurd ⟨p, q, hp, hq, hfar⟩ (hm n)

/-- **C10** symmetry. -/
theorem C10_symmetric [IsStrictOrderedRing K] (a b : State N K) (ha : a.MapsOk) (hb : b.MapsOk) :
    effectorDistanceSq a b = effectorDistanceSq b a := by
  have key : ∀ a b : State N K, a.MapsOk → b.MapsOk → effectorDistanceSq a b ≤ effectorDistanceSq b a := by
    intro a b ha hb
    rcases (C10_effectorDistance a b hb).2.1 with h | ⟨n, p, q, hp, hq, hfar, h⟩
    · rw [h]
      rcases (C10_effectorDistance b a ha).2.1 with h' | ⟨_, _, _, _, _, _, h'⟩
      · rw [h']
      · rw [h']; exact Vec3.distSq_nonneg _ _
    · rw [h, Vec3.distSq_comm]
      exact (C10_effectorDistance b a ha).1 n q p hq hp ((farApart_comm p q).1 hfar)
  exact le_antisymm (key a b ha hb) (key b a hb ha)

example : effectorDistanceSq demo demo' = 4 ∧ effectorDistanceSq demo' demo = 4 := by decide
end dist

end State
end Rbprm
