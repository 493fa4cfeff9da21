import Verif.Model.DynamicPath
import Verif.Props.PathValidation
import Verif.Props.Dynamic
set_option linter.unusedSectionVars false
/-!
# C156: what a path accepted by the dynamic path validation satisfies
-/
namespace Rbprm
namespace DynPath
variable {K Q A M Rom Obj : Type _} [Field K] [LinearOrder K] [IsStrictOrderedRing K] [LinearOrder Rom] [DecidableEq Obj] [DecidableEq A]
open Dynamic (DynEnv DynState Report)

/-- the path validation after calls of `add` and `addDynamicValidator` -/
def after (ops : List (Op Q)) : Registry Q := ops.foldl Registry.add Registry.new

/-- a validation of the ROMs or the dynamic one -/
def Kind.core : Kind Q → Bool
  | .other _ => false
  | _ => true

/-- a call of `add` -/
def Kind.isAdd : Kind Q → Bool
  | .dynamic => false
  | _ => true

/-- **C156** (registration).  After any sequence of registrations: the discretised validation has all of them in order; the ROM validation that the path validation itself uses is set exactly if the
last call of `add` was with a validation of the ROMs; the dynamic one is set exactly if one was registered. -/
theorem C156_registry (ops : List (Op Q)) : (after ops).kinds = ops ∧
    ((after ops).romSet = true ↔ (ops.filter Kind.isAdd).getLast? = some .rom) ∧ ((after ops).dynSet = true ↔ .dynamic ∈ ops) := by
  induction ops using List.reverseRecOn with
  | nil => simp [after, Registry.new]
  | append_singleton ops o ih =>
    obtain ⟨h1, h2, h3⟩ := ih
    have hf : after (ops ++ [o]) = (after ops).add o := by simp [after]
    rw [hf]
    cases o with
    | rom => simp [Registry.add, h1, h3, Kind.isAdd, List.filter_append]
    | dynamic => simp [Registry.add, h1, h2, Kind.isAdd, List.filter_append]
    | other p => simp [Registry.add, h1, h3, Kind.isAdd, List.filter_append]

theorem execAll_iff (env : Env Q A (Report Rom Obj) M) (q : Q) (ks : List (Kind Q)) (st st' : St A (Report Rom Obj) M) :
    execAll env q ks st = (true, st') ↔ (∀ p, Kind.other p ∈ ks → p q = true) ∧ execAll env q (ks.filter Kind.core) st = (true, st') := by
  have step : ∀ (k : Kind Q) (ks : List (Kind Q)) (st : St A (Report Rom Obj) M), execAll env q (k :: ks) st =
      match exec env st q k with
      | (true, st') => execAll env q ks st'
      | (false, st') => (false, st') := fun _ _ _ => rfl
  induction ks generalizing st with
  | nil => simp [execAll]
  | cons k ks ih =>
    by_cases hc : k.core = true
    · rw [List.filter_cons_of_pos hc, step, step]
      have hm : ∀ p, Kind.other p ∈ k :: ks ↔ Kind.other p ∈ ks := by
        intro p
        rw [List.mem_cons]
        constructor
        · rintro (rfl | h)
          · simp [Kind.core] at hc
          · exact h
        · exact Or.inr
      simp only [hm]
      rcases he : exec env st q k with ⟨b, s1⟩
      cases b with
      | true => exact ih s1
      | false => simp
    · rw [List.filter_cons_of_neg (by simpa using hc), step]
      cases k with
      | rom => simp [Kind.core] at hc
      | dynamic => simp [Kind.core] at hc
      | other p =>
        simp only [exec]
        cases hp : p q with
        | true =>
          simp only [if_true, ih, List.mem_cons, Kind.other.injEq]
          constructor
          · rintro ⟨h1, h2⟩
            exact ⟨fun p' h => h.elim (fun e => e ▸ hp) (h1 p'), h2⟩
          · rintro ⟨h1, h2⟩
            exact ⟨fun p' h => h1 p' (Or.inr h), h2⟩
        | false =>
          constructor
          · intro h; simp at h
          · rintro ⟨h1, -⟩; rw [h1 p (by simp)] at hp; simp at hp

/-- what an accepted configuration satisfies, for the usual order of registration -/
theorem execAll_usual (env : Env Q A (Report Rom Obj) M) (q : Q) (ks : List (Kind Q)) (hks : ks.filter Kind.core = [.rom, .dynamic]) (st st' : St A (Report Rom Obj) M)
    (h : execAll env q ks st = (true, st')) :
    (∀ p, Kind.other p ∈ ks → p q = true) ∧ (env.rom q).1 = true ∧ Dynamic.validate env.dyn st.dyn q (some (env.rom q).2) = some (true, st'.dyn) := by
  obtain ⟨h1, h2⟩ := (execAll_iff env q ks st st').1 h
  rw [hks] at h2
  simp only [execAll, exec] at h2
  refine ⟨h1, ?_⟩
  cases hr : (env.rom q).1 with
  | false => rw [hr] at h2; simp at h2
  | true =>
    rw [hr] at h2
    simp only at h2
    refine ⟨rfl, ?_⟩
    cases hv : Dynamic.validate env.dyn st.dyn q (some (env.rom q).2) with
    | none => rw [hv] at h2; simp at h2
    | some x =>
      obtain ⟨b, d⟩ := x
      rw [hv] at h2
      cases b with
      | false => simp at h2
      | true =>
        simp only [Prod.mk.injEq, true_and] at h2
        rw [← h2]

theorem accepted_calls {env : Env Q A (Report Rom Obj) M} {ks : List (Kind Q)} (hks : ks.filter Kind.core = [.rom, .dynamic]) {path : K → Option Q}
    {s s' : St A (Report Rom Obj) M} {ts : List K} (h : PathValidation.Accepted path (check env ks) s ts s') :
    ∃ qs : List Q, List.Forall₂ (fun t q => path t = some q) ts qs ∧ (∀ q ∈ qs, (env.rom q).1 = true ∧ ∀ p, Kind.other p ∈ ks → p q = true) ∧
      Dynamic.accepts env.dyn s.dyn (qs.map fun q => (q, (env.rom q).2)) = some s'.dyn := by
  induction h with
  | nil s => exact ⟨[], .nil, by simp, rfl⟩
  | @cons s s' t q ts hq ha h ih =>
    obtain ⟨qs, h1, h2, h3⟩ := ih
    have he : execAll env q ks s = (true, (execAll env q ks s).2) := Prod.ext ha rfl
    obtain ⟨g1, g2, g3⟩ := execAll_usual env q ks hks s _ he
    refine ⟨q :: qs, .cons hq h1, ?_, ?_⟩
    · intro q' hq'
      rcases List.mem_cons.1 hq' with rfl | hq'
      · exact ⟨g2, g1⟩
      · exact h2 q' hq'
    · simp only [List.map_cons, Dynamic.accepts]
      rw [g3]
      exact h3

theorem accepts_append {env : DynEnv Q A (Report Rom Obj) M} (a b : List (Q × Report Rom Obj)) {s s' : DynState A (Report Rom Obj) M}
    (h : Dynamic.accepts env s (a ++ b) = some s') : ∃ s1, Dynamic.accepts env s a = some s1 ∧ Dynamic.accepts env s1 b = some s' := by
  induction a generalizing s with
  | nil => exact ⟨s, rfl, h⟩
  | cons c a ih =>
    obtain ⟨q, r⟩ := c
    simp only [List.cons_append, Dynamic.accepts] at h ⊢
    split at h
    · rename_i st1 hv
      exact ih h
    · simp at h

/-- the contacts of a configuration: the object in contact with each ROM -/
def contacts (env : Env Q A (Report Rom Obj) M) (q : Q) (rom : Rom) : Option Obj := (env.rom q).2.find? rom

/-- **C156, partial** (paths).  When the validation of the ROMs was registered before the dynamic one (one of each, among any other validations, the last call of `add` being that of the ROMs), and if
configurations with as many ROMs in contact have the same ROMs in contact, then a path that is accepted was tested at times at most one step apart from one end to the other, and each
tested configuration is accepted by the validation of the ROMs and by all the other validations, and either the contacts have been those of the initial end since the beginning, or the acceleration of the
configuration is admissible for the matrices of a configuration tested before (or this one) with the same contacts.
Missing: the admissibility for the matrices of the configuration itself, and the other orders (`C156_order_violated`). -/
theorem C156_path_partial (env : Env Q A (Report Rom Obj) M) (reg : Registry Q) (hks : reg.kinds.filter Kind.core = [.rom, .dynamic])
    (hk : ∀ q q', (env.rom q).2.length = (env.rom q').2.length → ∀ rom, contacts env q rom ≠ none ↔ contacts env q' rom ≠ none)
    (fuel : ℕ) (path : K → Option Q) (tmin tmax : K) (hle : tmin ≤ tmax) (reverse : Bool) (step : K) (hstep : 0 < step) (garbage : Q) (d : DynState A (Report Rom Obj) M)
    (r : PathValidation.Result K (Option (Report Rom Obj)) (St A (Report Rom Obj) M)) (h : validate env reg fuel path tmin tmax reverse step garbage d = some (some r)) (hv : r.valid = true) :
    ∃ (ts : List K) (qs : List Q), PathValidation.Spaced reverse step ts ∧ ts.head? = some (PathValidation.start reverse tmin tmax) ∧ ts.getLast? = some (PathValidation.finish reverse tmin tmax) ∧
      List.Forall₂ (fun t q => path t = some q) ts qs ∧
      ∀ a q b, qs = a ++ q :: b → (env.rom q).1 = true ∧ (∀ p, Kind.other p ∈ reg.kinds → p q = true) ∧
        ((∀ q' ∈ a ++ [q], ∀ q0, qs.head? = some q0 → ∀ rom, contacts env q' rom = contacts env q0 rom) ∨
          ∃ q' ∈ a ++ [q], (∀ rom, contacts env q' rom = contacts env q rom) ∧ env.dyn.admissible (env.dyn.fill (env.rom q').2 q') (env.dyn.acceleration q) = true) := by
  unfold validate at h
  by_cases hset : reg.romSet = false ∨ reg.dynSet = false
  · rw [if_pos hset] at h; simp at h
  rw [if_neg hset] at h
  simp only [Option.some.injEq] at h
  obtain ⟨-, -, ts, hacc, hsp, hhd, hls⟩ := (PathValidation.C41_validate path tmin tmax hle reverse _ step hstep _ fuel r h).valid hv
  obtain ⟨qs, f1, f2, f3⟩ := accepted_calls hks hacc
  refine ⟨ts, qs, hsp, hhd, hls, f1, ?_⟩
  intro a q b hqs
  obtain ⟨g1, g2⟩ := f2 q (by rw [hqs]; simp)
  refine ⟨g1, g2, ?_⟩
  -- the first tested configuration is the one of the initial report
  have hq0 : ∀ q0, qs.head? = some q0 → (path (if reverse then tmax else tmin)).getD garbage = q0 := by
    intro q0 hq0
    cases f1 with
    | nil => simp at hq0
    | cons hp _ =>
      simp only [List.head?_cons, Option.some.injEq] at hq0 hhd
      rw [hhd] at hp
      unfold PathValidation.start at hp
      rw [hp, ← hq0]; rfl
  generalize (path (if reverse then tmax else tmin)).getD garbage = qi at *
  have f4 : Dynamic.accepts env.dyn (Dynamic.setInitialReport d (some (env.rom qi).2)) ((a.map fun q => (q, (env.rom q).2)) ++ ((q, (env.rom q).2) :: b.map fun q => (q, (env.rom q).2))) =
      some r.state.dyn := by
    rw [hqs] at f3; simpa using f3
  obtain ⟨s1, k1, k2⟩ := accepts_append _ _ f4
  simp only [Dynamic.accepts] at k2
  split at k2
  · rename_i s2 hval
    have hmem : ∀ x ∈ (env.rom qi).2 :: (env.rom q).2 :: (a.map fun q => (q, (env.rom q).2)).map Prod.snd, ∃ q', x = (env.rom q').2 := by
      intro x hx
      rcases List.mem_cons.1 hx with rfl | hx
      · exact ⟨_, rfl⟩
      rcases List.mem_cons.1 hx with rfl | hx
      · exact ⟨_, rfl⟩
      simp only [List.map_map, List.mem_map, Function.comp_apply] at hx
      obtain ⟨q', -, rfl⟩ := hx
      exact ⟨q', rfl⟩
    rcases Dynamic.C57_partial env.dyn d s1 (env.rom qi).2 (a.map fun q => (q, (env.rom q).2)) q (env.rom q).2 (by
        intro x hx y hy hl rom
        obtain ⟨q1, rfl⟩ := hmem x hx
        obtain ⟨q2, rfl⟩ := hmem y hy
        exact hk q1 q2 hl rom) k1 s2 hval with ⟨e1, e2⟩ | ⟨c, hc, e1, e2⟩
    · left
      intro q' hq' q0 hh rom
      have := hq0 q0 hh
      subst this
      rcases List.mem_append.1 hq' with hq' | hq'
      · exact (e2 (q', (env.rom q').2) (List.mem_map.2 ⟨q', hq', rfl⟩) rom).symm
      · rw [List.mem_singleton.1 hq']; exact (e1 rom).symm
    · right
      rcases List.mem_append.1 hc with hc | hc
      · obtain ⟨q', hq', rfl⟩ := List.mem_map.1 hc
        exact ⟨q', by simp [hq'], e1, e2⟩
      · rw [List.mem_singleton.1 hc] at e1 e2
        exact ⟨q, by simp, e1, e2⟩
  · simp at k2

/-- an instance: a configuration is a position and an acceleration; one ROM, in contact with object 5 before position 2 and with object 3 after; accelerations up to the number of the object are admissible -/
def demo : Env (ℚ × ℤ) ℤ (Report ℕ ℤ) ℤ := ⟨fun q => (decide (q.1 ≤ 10), [(0, if q.1 < 2 then 5 else 3)]), ⟨fun q => q.2, fun r _ => (r.map Prod.snd).sum, fun m a => decide (a ≤ m)⟩⟩

/-- the dynamic validation at its creation -/
def fresh : DynState ℤ (Report ℕ ℤ) ℤ := ⟨none, false, none, none⟩

/-- bounds, ROMs, dynamic validation -/
def demoRegistry : Registry (ℚ × ℤ) := after [.other fun q => decide (0 ≤ q.1), .rom, .dynamic]

/-- non-vacuity: a path that changes its contact at position 2, with acceleration 3 (accepted) and 4 (refused at 2) -/
example : (validate demo demoRegistry 9 (fun t : ℚ => some (t, 3)) 0 4 false 1 (0, 0) fresh).map (Option.map fun r => (r.valid, r.validPart, r.state.ub)) = some (some (true, .whole, false)) ∧
    (validate demo demoRegistry 9 (fun t : ℚ => some (t, 4)) 0 4 false 1 (0, 0) fresh).map (Option.map fun r => (r.valid, r.validPart, r.state.ub)) = some (some (false, .extract 0 1, false)) ∧
    demoRegistry.kinds.filter Kind.core = [.rom, .dynamic] := by
  refine ⟨by decide +kernel, by decide +kernel, rfl⟩

/-- the dynamic validation can be called without undefined behaviour -/
def Usable (d : DynState A (Report Rom Obj) M) : Prop := d.lastReport.isSome ∧ (d.initContacts = false → d.lastAcc.isSome ∧ d.matrices.isSome)

theorem usable_validate (env : DynEnv Q A (Report Rom Obj) M) (d : DynState A (Report Rom Obj) M) (hd : Usable d) (q : Q) (r : Option (Report Rom Obj)) :
    ∃ b d', Dynamic.validate env d q r = some (b, d') ∧ Usable d' := by
  obtain ⟨h1, h2⟩ := hd
  obtain ⟨last, hl⟩ := Option.isSome_iff_exists.1 h1
  unfold Dynamic.validate
  cases r with
  | none => exact ⟨_, _, rfl, h1, h2⟩
  | some r =>
    rw [hl]
    simp only
    by_cases c1 : last.length ≠ r.length
    · rw [if_pos c1]; exact ⟨_, _, rfl, h1, h2⟩
    rw [if_neg c1]
    by_cases c2 : Dynamic.sameContacts last r = true ∧ d.initContacts = true
    · rw [if_pos c2]; exact ⟨_, _, rfl, h1, h2⟩
    rw [if_neg c2]
    by_cases c3 : Dynamic.sameContacts last r = true
    · rw [if_pos c3]
      have hi : d.initContacts = false := by
        cases hi : d.initContacts with
        | false => rfl
        | true => exact absurd ⟨c3, hi⟩ c2
      obtain ⟨ha, hm⟩ := h2 hi
      obtain ⟨a, ha⟩ := Option.isSome_iff_exists.1 ha
      obtain ⟨m, hm⟩ := Option.isSome_iff_exists.1 hm
      rw [ha, hm]
      simp only
      by_cases c4 : env.acceleration q = a
      · rw [if_pos c4]; exact ⟨_, _, rfl, h1, h2⟩
      · rw [if_neg c4]; exact ⟨_, _, rfl, by simp [hl], fun _ => ⟨rfl, by simp [hm]⟩⟩
    · rw [if_neg c3]
      exact ⟨_, _, rfl, rfl, fun _ => ⟨rfl, rfl⟩⟩

theorem usable_execAll (env : Env Q A (Report Rom Obj) M) (q : Q) (ks : List (Kind Q)) (st : St A (Report Rom Obj) M) (h : Usable st.dyn ∧ st.ub = false) :
    Usable (execAll env q ks st).2.dyn ∧ (execAll env q ks st).2.ub = false := by
  induction ks generalizing st with
  | nil => exact h
  | cons k ks ih =>
    have hk : Usable (exec env st q k).2.dyn ∧ (exec env st q k).2.ub = false := by
      cases k with
      | rom => exact h
      | dynamic =>
        obtain ⟨b, d', e, hu⟩ := usable_validate env.dyn st.dyn h.1 q st.report
        simp only [exec, e]
        exact ⟨hu, h.2⟩
      | other p =>
        simp only [exec]
        by_cases hp : p q = true
        · rw [if_pos hp]; exact h
        · rw [if_neg hp]; exact h
    simp only [execAll]
    rcases he : exec env st q k with ⟨b, s1⟩
    rw [he] at hk
    cases b with
    | true => exact ih s1 hk
    | false => exact hk

theorem usable_accepted {env : Env Q A (Report Rom Obj) M} {ks : List (Kind Q)} {path : K → Option Q} {s s' : St A (Report Rom Obj) M} {ts : List K}
    (h : PathValidation.Accepted path (check env ks) s ts s') (hs : Usable s.dyn ∧ s.ub = false) : Usable s'.dyn ∧ s'.ub = false := by
  induction h with
  | nil => exact hs
  | cons hq ha _ ih => exact ih (usable_execAll env _ ks _ hs)

/-- **C156** (definedness).  After any registrations, the validation of a path that can be evaluated everywhere is defined exactly if a dynamic validation was registered and the last call of `add` was with
a validation of the ROMs: then no null pointer and no uninitialised value is ever used, whatever was validated before. -/
theorem C156_defined (env : Env Q A (Report Rom Obj) M) (ops : List (Op Q)) (fuel : ℕ) (path : K → Option Q) (hpath : ∀ t, (path t).isSome) (tmin tmax : K) (hle : tmin ≤ tmax) (reverse : Bool)
    (step : K) (hstep : 0 < step) (garbage : Q) (d : DynState A (Report Rom Obj) M) :
    (validate env (after ops) fuel path tmin tmax reverse step garbage d ≠ none ↔ (ops.filter Kind.isAdd).getLast? = some .rom ∧ .dynamic ∈ ops) ∧
    ∀ r, validate env (after ops) fuel path tmin tmax reverse step garbage d = some (some r) → r.state.ub = false := by
  obtain ⟨-, h2, h3⟩ := C156_registry ops
  constructor
  · rw [← h2, ← h3]
    unfold validate
    by_cases hset : (after ops).romSet = false ∨ (after ops).dynSet = false
    · rw [if_pos hset]
      simp only [ne_eq, not_true, false_iff, not_and_or, Bool.not_eq_true]
      exact hset
    · rw [if_neg hset]
      simp only [not_or, Bool.not_eq_false] at hset
      simp [hset]
  · intro r h
    unfold validate at h
    by_cases hset : (after ops).romSet = false ∨ (after ops).dynSet = false
    · rw [if_pos hset] at h; simp at h
    rw [if_neg hset] at h
    simp only [Option.some.injEq] at h
    have hu : Usable (Dynamic.setInitialReport d (some (env.rom ((path (if reverse then tmax else tmin)).getD garbage)).2)) := ⟨rfl, fun h => by simp [Dynamic.setInitialReport] at h⟩
    have hval := PathValidation.C41_validate path tmin tmax hle reverse _ step hstep _ fuel r h
    cases hv : r.valid with
    | true =>
      obtain ⟨-, -, ts, hacc, -⟩ := hval.valid hv
      exact (usable_accepted hacc ⟨hu, rfl⟩).2
    | false =>
      obtain ⟨ts, s', t, rep, hacc, -, -, -, -, hst, -⟩ := hval.invalid hv
      obtain ⟨q, hq⟩ := Option.isSome_iff_exists.1 (hpath t)
      rw [(hst q hq).2]
      exact (usable_execAll env q _ s' (usable_accepted hacc ⟨hu, rfl⟩)).2

/-- **C156 is violated** when the dynamic validation is registered before the one of the ROMs: it is asked before there is a report, and every path is refused at its first configuration. -/
theorem C156_order_violated (env : Env Q A (Report Rom Obj) M) (ops : List (Op Q)) (fuel : ℕ) (path : K → Option Q) (q : Q) (tmin tmax : K) (reverse : Bool)
    (hq : path (PathValidation.start reverse tmin tmax) = some q) (step : K) (garbage : Q) (d : DynState A (Report Rom Obj) M) (hops : (ops.filter Kind.isAdd).getLast? = some .rom) :
    ∃ r, validate env (after (.dynamic :: ops)) (fuel + 1) path tmin tmax reverse step garbage d = some (some r) ∧ r.valid = false ∧
      (r.report.map fun x => x.parameter) = some (PathValidation.start reverse tmin tmax) := by
  obtain ⟨h1, h2, h3⟩ := C156_registry (.dynamic :: ops)
  have h2' : (after (.dynamic :: ops)).romSet = true := h2.2 (by simpa [Kind.isAdd] using hops)
  have h3' : (after (.dynamic :: ops)).dynSet = true := h3.2 (by simp)
  unfold validate
  rw [if_neg (by simp [h2', h3']), h1]
  simp only
  unfold PathValidation.validate PathValidation.validateFrom
  have hc : ∀ st : DynState A (Report Rom Obj) M, (PathValidation.checkAt path (check env (.dynamic :: ops)) ⟨st, none, false⟩ none (PathValidation.start reverse tmin tmax)).1 = false := by
    intro st
    simp [PathValidation.checkAt, hq, check, execAll, exec, Dynamic.validate]
  cases reverse with
  | true =>
    simp only [PathValidation.start, if_true] at hc ⊢
    rw [PathValidation.backwardLoop, if_pos (by omega)]
    simp only [hc, if_true, Option.map_some, Bool.false_eq_true, if_false]
    exact ⟨_, rfl, rfl, rfl⟩
  | false =>
    simp only [PathValidation.start, Bool.false_eq_true, if_false] at hc ⊢
    rw [PathValidation.forwardLoop, if_pos (by omega)]
    simp only [hc, if_true, Option.map_some, Bool.false_eq_true, if_false]
    exact ⟨_, rfl, rfl, rfl⟩

/-- **C156 is violated** with a filter: the other registered validations are not asked, and a path outside of the bounds is accepted; and if one was added after the validation of the ROMs, a null pointer is used. -/
theorem C156_filter_violated :
    (validateFiltered demo.rom demoRegistry 9 (fun t : ℚ => some (t - 4, (0 : ℤ))) 0 2 false 1).map (Option.map fun r => r.valid) = some (some true) ∧
    (validate demo demoRegistry 9 (fun t : ℚ => some (t - 4, 0)) 0 2 false 1 (0, 0) fresh).map (Option.map fun r => r.valid) = some (some false) ∧
    (validateFiltered demo.rom (after [.rom, .dynamic, .other fun q => decide (0 ≤ q.1)]) 9 (fun t : ℚ => some (t, (0 : ℤ))) 0 2 false 1).isNone = true := by
  refine ⟨by decide +kernel, by decide +kernel, rfl⟩

/-- **C156** (filter).  With a filter, an accepted path is accepted by the filtered validation of the ROMs at every tested time. -/
theorem C156_filtered {Rep : Type _} (filtered : Q → Bool × Rep) (ops : List (Op Q)) (fuel : ℕ) (path : K → Option Q) (tmin tmax : K) (hle : tmin ≤ tmax) (reverse : Bool) (step : K) (hstep : 0 < step)
    (r : PathValidation.Result K Rep Unit) (h : validateFiltered filtered (after ops) fuel path tmin tmax reverse step = some (some r)) (hv : r.valid = true) :
    (ops.filter Kind.isAdd).getLast? = some .rom ∧ ∃ ts : List K, PathValidation.Spaced reverse step ts ∧ ts.head? = some (PathValidation.start reverse tmin tmax) ∧
      ts.getLast? = some (PathValidation.finish reverse tmin tmax) ∧ ∀ t ∈ ts, ∃ q, path t = some q ∧ (filtered q).1 = true := by
  unfold validateFiltered at h
  by_cases hset : (after ops).romSet = false
  · rw [if_pos hset] at h; simp at h
  rw [if_neg hset] at h
  simp only [Option.some.injEq] at h
  obtain ⟨-, -, ts, hacc, hsp, hhd, hls⟩ := (PathValidation.C41_validate path tmin tmax hle reverse _ step hstep _ fuel r h).valid hv
  refine ⟨(C156_registry ops).2.1.1 (by simpa using hset), ts, hsp, hhd, hls, ?_⟩
  intro t ht
  obtain ⟨-, q, hq, ha⟩ := hacc.mem ht
  exact ⟨q, hq, ha⟩

end DynPath
end Rbprm
