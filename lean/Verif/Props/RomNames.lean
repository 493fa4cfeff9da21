import Verif.Model.RomNames
import Verif.Props.Setup
set_option linter.unusedSectionVars false
/-!
# C164: the ROMs recorded in a jump
-/
namespace Rbprm
namespace RomNames
open Validation Setup
variable {N O R : Type _} [LinearOrder N] [DecidableEq O]

/-- the list has the names of the ROMs in contact, each once and in order -/
def ListsContacts (collides : O × O → Bool) (v : Validator N O R) (names : List N) : Prop :=
  names.Pairwise (· < ·) ∧ ∀ n, n ∈ names ↔ ∃ p, InContact collides v n p

theorem ListsContacts.unique {collides : O × O → Bool} {v : Validator N O R} {a b : List N} (ha : ListsContacts collides v a) (hb : ListsContacts collides v b) : a = b :=
  List.Perm.eq_of_pairwise (le := (· < ·)) (fun _ _ _ _ h h' => absurd (lt_trans h h') (lt_irrefl _)) ha.1 hb.1
    ((List.perm_ext_iff_of_nodup (ha.1.imp ne_of_lt) (hb.1.imp ne_of_lt)).2 fun n => (ha.2 n).trans (hb.2 n).symm)

theorem ListsContacts.similar {collides : O × O → Bool} {v v' : Validator N O R} (hr : Ready v) (h : Similar v v') {l : List N} (hl : ListsContacts collides v' l) : ListsContacts collides v l :=
  ⟨hl.1, fun n => (hl.2 n).trans ⟨fun ⟨p, hp⟩ => ⟨p, (h.inContact hr _ _ _).1 hp⟩, fun ⟨p, hp⟩ => ⟨p, (h.inContact hr _ _ _).2 hp⟩⟩⟩

theorem ListsContacts.forward {collides : O × O → Bool} {v v' : Validator N O R} (hr : Ready v) (h : Similar v v') {l : List N} (hl : ListsContacts collides v l) : ListsContacts collides v' l :=
  ⟨hl.1, fun n => (hl.2 n).trans ⟨fun ⟨p, hp⟩ => ⟨p, (h.inContact hr _ _ _).2 hp⟩, fun ⟨p, hp⟩ => ⟨p, (h.inContact hr _ _ _).1 hp⟩⟩⟩

theorem romReport (q : Seen O) (v : Validator N O R) (hr : Ready v) :
    ∃ b v' r, validateDefault q.collides q.boundsOk v = some (b, v', r) ∧ ListsContacts q.collides v r.ROMReports.keys ∧ Similar v v' := by
  obtain ⟨b, v', r, h1, h2, h3, h4⟩ := reports_spec q.collides q.boundsOk v hr
  refine ⟨b, v', r, h1, ⟨h2, fun n => ?_⟩, h4⟩
  have hk : n ∈ r.ROMReports.keys ↔ (AMap.find? r.ROMReports n).isSome := AMap.find?_isSome.symm
  rw [hk, h3 n]
  unfold InContact
  by_cases hn : n ∈ v.defaultFilter
  · rw [if_pos hn]
    cases hf : AMap.find? v.roms n with
    | none => simp
    | some rom =>
      show (coreValidate q.collides rom.pairs rom.computeAllContacts).isSome ↔ _
      rw [coreValidate_isSome]
      constructor
      · rintro ⟨p, hp, hc⟩
        exact ⟨p, hn, rom, rfl, hp, hc⟩
      · rintro ⟨p, -, rom', h, hp, hc⟩
        obtain rfl : rom = rom' := by simpa using h
        exact ⟨p, hp, hc⟩
  · rw [if_neg hn]
    simp [hn]

theorem validateAll_spec (q : Seen O) (kinds : List Kind) (hk : ∀ i, Kind.other i ∈ kinds → q.others i = true) (v : Validator N O R) (hr : Ready v) (r : Option (Report N O)) :
    ∃ v' r', validateAll q kinds v r = some (v', r') ∧ Similar v v' ∧ (Kind.rom ∈ kinds → ∃ r'', r' = some r'' ∧ ListsContacts q.collides v r''.ROMReports.keys) ∧
      ((∃ r'', r = some r'' ∧ ListsContacts q.collides v r''.ROMReports.keys) → ∃ r'', r' = some r'' ∧ ListsContacts q.collides v r''.ROMReports.keys) := by
  induction kinds generalizing v r with
  | nil => exact ⟨v, r, rfl, ⟨.of_same (.refl _), rfl, rfl⟩, by simp, id⟩
  | cons k ks ih =>
    cases k with
    | rom =>
      obtain ⟨b, v1, r1, h1, h2, h3⟩ := romReport q v hr
      cases b with
      | true =>
        obtain ⟨v', r', e, s, -, keep⟩ := ih (fun i hi => hk i (List.mem_cons_of_mem _ hi)) v1 (h3.ready hr) (some r1)
        obtain ⟨r'', e2, l⟩ := keep ⟨r1, rfl, h2.forward hr h3⟩
        refine ⟨v', r', by simp only [validateAll, h1, e], h3.trans s, fun _ => ⟨r'', e2, .similar hr h3 l⟩, fun _ => ⟨r'', e2, .similar hr h3 l⟩⟩
      | false => exact ⟨v1, some r1, by simp only [validateAll, h1], h3, fun _ => ⟨r1, rfl, h2⟩, fun _ => ⟨r1, rfl, h2⟩⟩
    | other i =>
      obtain ⟨v', r', e, s, a, b⟩ := ih (fun i hi => hk i (List.mem_cons_of_mem _ hi)) v hr r
      exact ⟨v', r', by simp only [validateAll, hk i List.mem_cons_self, if_true, e], s, fun h => a (by simpa using h), b⟩

/-- C164: at a configuration that the other validations accept, the names of all the ROMs in contact with a surface are appended, each once and in order; and the validator still
answers as before -/
theorem C164_fill_partial (q : Seen O) (kinds : List Kind) (hrom : Kind.rom ∈ kinds) (hk : ∀ i, Kind.other i ∈ kinds → q.others i = true) (v : Validator N O R) (hr : Ready v)
    (names : List N) : ∃ v' l, fillROMnames kinds q v names = some (v', names ++ l) ∧ ListsContacts q.collides v l ∧ Similar v v' := by
  obtain ⟨v', r', h1, h2, h3, -⟩ := validateAll_spec q kinds hk v hr none
  obtain ⟨r'', rfl, h4⟩ := h3 hrom
  exact ⟨v', _, by simp only [fillROMnames, h1], h4, h2⟩

/-- C164: whatever names the steering method had, and whatever was validated before, a jump between two configurations that the other validations accept records the ROMs in contact at
take-off and those in contact at landing -/
theorem C164_partial (v0 v : Validator N O R) (hr : Ready v0) (hist : Similar v0 v) (kinds : List Kind) (hrom : Kind.rom ∈ kinds) (q1 q2 : Seen O)
    (h1 : ∀ i, Kind.other i ∈ kinds → q1.others i = true) (h2 : ∀ i, Kind.other i ∈ kinds → q2.others i = true) (old : Names N) :
    ∃ v' names, steerNames kinds q1 q2 v old = some (v', names) ∧ ListsContacts q1.collides v0 names.initial ∧ ListsContacts q2.collides v0 names.final ∧ Similar v0 v' := by
  have hr' := hist.ready hr
  obtain ⟨va, la, e1, c1, s1⟩ := C164_fill_partial q1 kinds hrom h1 v hr' []
  obtain ⟨vb, lb, e2, c2, s2⟩ := C164_fill_partial q2 kinds hrom h2 va (s1.ready hr') []
  refine ⟨vb, ⟨la, lb⟩, ?_, c1.similar hr hist, (c2.similar hr' s1).similar hr hist, (hist.trans s1).trans s2⟩
  simp only [steerNames, e1, e2, List.nil_append, Option.map_some]

/-- C164: the reverse of a jump has the names of the other end, and reversed twice its own; a copy or a part has the names of the jump -/
theorem C164_reverse (n : Names N) : n.reverse.initial = n.final ∧ n.reverse.final = n.initial ∧ n.reverse.reverse = n ∧ n.extract = n := ⟨rfl, rfl, rfl, rfl⟩

/-- C164: a jump there and the jump back, asked at any later time, record the same ROMs with the roles exchanged -/
theorem C164_back (v0 v v2 : Validator N O R) (hr : Ready v0) (hist : Similar v0 v) (hist2 : Similar v0 v2) (kinds : List Kind) (hrom : Kind.rom ∈ kinds) (q1 q2 : Seen O)
    (h1 : ∀ i, Kind.other i ∈ kinds → q1.others i = true) (h2 : ∀ i, Kind.other i ∈ kinds → q2.others i = true) (old old' : Names N) {v' v'' : Validator N O R} {n n' : Names N}
    (hn : steerNames kinds q1 q2 v old = some (v', n)) (hn' : steerNames kinds q2 q1 v2 old' = some (v'', n')) : n' = n.reverse := by
  obtain ⟨_, m, e, a, b, -⟩ := C164_partial v0 v hr hist kinds hrom q1 q2 h1 h2 old
  obtain ⟨_, m', e', a', b', -⟩ := C164_partial v0 v2 hr hist2 kinds hrom q2 q1 h2 h1 old'
  rw [hn] at e
  rw [hn'] at e'
  obtain ⟨-, rfl⟩ := Prod.mk.inj (Option.some.inj e)
  obtain ⟨-, rfl⟩ := Prod.mk.inj (Option.some.inj e')
  exact Names.ext (a'.unique b) (b'.unique a)

/-- the ROM touches the surfaces; accepted by the other validations -/
def touching : Seen ℕ := ⟨fun p => decide (p.1 = 7), true, fun _ => true⟩

/-- nothing is touched -/
def inTheAir : Seen ℕ := ⟨fun _ => false, true, fun _ => true⟩

/-- the hypotheses hold: a jump from a contact into the air records the ROM at take-off and none at landing -/
example : Ready oneRom ∧ Similar oneRom oneRom ∧ (steerNames [.other 0, .rom] touching inTheAir oneRom ⟨[5], [6]⟩).map (fun x => (x.2.initial, x.2.final)) = some ([0], []) :=
  ⟨C149_create _ _ (by unfold AMap.WF AMap.keys; decide) _ _ _ _ _, ⟨.of_same (.refl _), rfl, rfl⟩, by decide +kernel⟩

/-- C164, violation: another validation that refuses the landing configuration hides its contacts, whether it is asked before or after that of the ROMs -/
theorem C164_hidden_violation : (∃ p, InContact touching.collides oneRom 0 p) ∧
    (∀ kinds ∈ [[Kind.other 0, .rom], [.rom, .other 0]], (steerNames kinds touching { touching with others := fun _ => false } oneRom ⟨[], []⟩).map (fun x => (x.2.initial, x.2.final)) = some ([0], [])) :=
  ⟨⟨(7, 1), by decide, ⟨[(7, 1), (7, 2)], [0, 0], false, false⟩, rfl, by decide, rfl⟩, by decide +kernel⟩

end RomNames
end Rbprm
