import Verif.Model.Optimise
import Mathlib.Algebra.Order.Field.Rat
import Mathlib.Algebra.Order.Archimedean.Basic
import Mathlib.Tactic.Linarith
import Mathlib.Tactic.NormNum
import Mathlib.Tactic.Ring
import Mathlib.Tactic.SplitIfs
set_option linter.unusedSectionVars false
/-!
# Path optimisers (C54, C115)
-/
namespace Rbprm
namespace Optimise
variable {K C P : Type _} [Field K] [LinearOrder K] [IsStrictOrderedRing K]

/-! ### specification -/

/-- the elementary paths follow each other, from `c` to `d` -/
def Joins (env : PathEnv K C P) : C → List P → C → Prop
  | c, [], d => c = d
  | c, p :: l, d => env.initial p = c ∧ Joins env (env.final p) l d

/-- what is expected of hpp-core: lengths are not negative; a (not empty) path vector from `c` to `d` has a configuration `pos p t` at
every time, evaluation (if it succeeds) gives it, and the part extracted between two times joins theirs and has the
right length; the projector keeps the ends -/
structure Ok (env : PathEnv K C P) (pos : List P → K → C) : Prop where
  len : ∀ p, 0 ≤ env.len p
  eval : ∀ k p t q, env.eval k p t = some q → q = pos p t
  first : ∀ c p d, p ≠ [] → Joins env c p d → pos p 0 = c
  last : ∀ c p d, p ≠ [] → Joins env c p d → pos p (total env p) = d
  extract : ∀ k c p d a b e, p ≠ [] → Joins env c p d → 0 ≤ a → a ≤ b → b ≤ total env p → env.extract k p a b = some e →
    Joins env (pos p a) e (pos p b) ∧ total env e = b - a ∧ e ≠ []
  projector : ∀ f, env.projector = some f → ∀ p p', f p = some p' → env.initial p' = env.initial p ∧ env.final p' = env.final p

/-- no extraction fails -/
def Total (env : PathEnv K C P) : Prop := ∀ k p a b, (env.extract k p a b).isSome

/-! ### lemmas -/

theorem Joins.append {env : PathEnv K C P} {c d e : C} {p q : List P} (h1 : Joins env c p d) (h2 : Joins env d q e) :
    Joins env c (p ++ q) e := by
  induction p generalizing c with
  | nil => cases h1; exact h2
  | cons a p ih => exact ⟨h1.1, ih h1.2⟩

theorem Joins.single (env : PathEnv K C P) (s : P) : Joins env (env.initial s) [s] (env.final s) := ⟨rfl, rfl⟩

theorem Joins.ends {env : PathEnv K C P} {c d : C} {p : List P} (h : Joins env c p d) :
    (∀ a, p.head? = some a → env.initial a = c) ∧ ∀ b, p.getLast? = some b → env.final b = d := by
  induction p generalizing c with
  | nil => simp
  | cons a p ih =>
    refine ⟨fun x hx => by simp at hx; subst hx; exact h.1, fun b hb => ?_⟩
    cases p with
    | nil => simp at hb; subst hb; exact h.2
    | cons a' p => exact (ih h.2).2 b (by simpa [List.getLast?_cons_cons] using hb)

theorem total_append (env : PathEnv K C P) (p q : List P) : total env (p ++ q) = total env p + total env q := by
  simp [total]

theorem total_nonneg {env : PathEnv K C P} {pos : List P → K → C} (ok : Ok env pos) (p : List P) : 0 ≤ total env p := by
  induction p with
  | nil => simp [total]
  | cons a p ih => simp only [total, List.map_cons, List.sum_cons] at *; linarith [ok.len a]

theorem steer_ends [DecidableEq C] {env : PathEnv K C P} {pos : List P → K → C} (ok : Ok env pos) {k : ℕ} {q q' : C} {s : P}
    (h : steer env k q q' = some s) : env.initial s = q ∧ env.final s = q' := by
  unfold steer at h
  cases h1 : env.sm k q q' with
  | none => simp [h1] at h
  | some dp =>
    rw [h1] at h
    simp only at h
    by_cases h2 : env.initial dp ≠ q ∨ env.final dp ≠ q'
    · rw [if_pos h2] at h; cases h
    · rw [if_neg h2] at h
      push Not at h2
      by_cases h3 : env.len dp ≤ 1 / 1000
      · rw [if_pos h3] at h; cases h
      · rw [if_neg h3] at h
        cases h4 : env.projector with
        | none => rw [h4] at h; simp only [Option.some.injEq] at h; subst h; exact h2
        | some f => rw [h4] at h; have := ok.projector f h4 dp s h; rw [this.1, this.2]; exact h2

/-- what `draw` gives -/
theorem draw_spec {m t3 : K} {rand : ℕ → K} {f pos : ℕ} {t1 t2 : K} {pos' : ℕ} (h : draw m t3 rand f pos = some (t1, t2, pos')) :
    m ≤ t1 ∧ t1 + m ≤ t2 ∧ t2 + m ≤ t3 := by
  induction f generalizing pos with
  | zero => simp [draw] at h
  | succ f ih =>
    unfold draw at h
    dsimp only at h
    by_cases h1 : (if 0 + m + (t3 - 0 - 2 * m) * rand (pos + 1) < 0 + m + (t3 - 0 - 2 * m) * rand pos then (0 + m + (t3 - 0 - 2 * m) * rand (pos + 1), 0 + m + (t3 - 0 - 2 * m) * rand pos) else (0 + m + (t3 - 0 - 2 * m) * rand pos, 0 + m + (t3 - 0 - 2 * m) * rand (pos + 1))).1 - 0 < m ∨
        t3 - (if 0 + m + (t3 - 0 - 2 * m) * rand (pos + 1) < 0 + m + (t3 - 0 - 2 * m) * rand pos then (0 + m + (t3 - 0 - 2 * m) * rand (pos + 1), 0 + m + (t3 - 0 - 2 * m) * rand pos) else (0 + m + (t3 - 0 - 2 * m) * rand pos, 0 + m + (t3 - 0 - 2 * m) * rand (pos + 1))).2 < m ∨
        (if 0 + m + (t3 - 0 - 2 * m) * rand (pos + 1) < 0 + m + (t3 - 0 - 2 * m) * rand pos then (0 + m + (t3 - 0 - 2 * m) * rand (pos + 1), 0 + m + (t3 - 0 - 2 * m) * rand pos) else (0 + m + (t3 - 0 - 2 * m) * rand pos, 0 + m + (t3 - 0 - 2 * m) * rand (pos + 1))).2 -
        (if 0 + m + (t3 - 0 - 2 * m) * rand (pos + 1) < 0 + m + (t3 - 0 - 2 * m) * rand pos then (0 + m + (t3 - 0 - 2 * m) * rand (pos + 1), 0 + m + (t3 - 0 - 2 * m) * rand pos) else (0 + m + (t3 - 0 - 2 * m) * rand pos, 0 + m + (t3 - 0 - 2 * m) * rand (pos + 1))).1 < m
    · rw [if_pos h1] at h; exact ih h
    · rw [if_neg h1] at h
      push Not at h1
      simp only [Option.some.injEq, Prod.mk.injEq] at h
      rw [h.1, h.2.1] at h1
      exact ⟨by linarith [h1.1], by linarith [h1.2.2], by linarith [h1.2.1]⟩

/-- a replaced segment is shorter than the extracted one, valid, and joins its ends -/
theorem candidate_spec [DecidableEq C] {env : PathEnv K C P} {pos : List P → K → C} (ok : Ok env pos) {k : ℕ} {tmp : List P} {c d q q' : C}
    {t t' : K} {s : P} (hne : tmp ≠ []) (hj : Joins env c tmp d) (h0 : 0 ≤ t) (h1 : t ≤ t') (h2 : t' ≤ total env tmp)
    (h : candidate env k tmp q q' t t' = .ok (some s)) :
    env.initial s = q ∧ env.final s = q' ∧ env.len s < t' - t ∧ env.valid k s = true := by
  unfold candidate at h
  cases hs : steer env k q q' with
  | none => simp [hs] at h
  | some s' =>
    rw [hs] at h
    simp only at h
    cases he : env.extract k tmp t t' with
    | none => simp [he] at h
    | some e =>
      rw [he] at h
      simp only [Outcome.ok.injEq] at h
      by_cases hc : env.len s' < total env e ∧ env.valid k s' = true
      · rw [if_pos hc] at h
        simp only [Option.some.injEq] at h
        subst h
        obtain ⟨-, e2, -⟩ := ok.extract k c tmp d t t' e hne hj h0 h1 h2 he
        exact ⟨(steer_ends ok hs).1, (steer_ends ok hs).2, by rw [← e2]; exact hc.1, hc.2⟩
      · rw [if_neg hc] at h; cases h

theorem Outcome.bind_ok {α β : Type _} {o : Outcome α} {f : α → Outcome β} {b : β} (h : o.bind f = .ok b) : ∃ a, o = .ok a ∧ f a = .ok b := by
  cases o with
  | ok a => exact ⟨a, rfl, h⟩
  | thrown => cases h
  | undefined => cases h
  | timeout => cases h

/-- one segment of the new path: a valid straight one, or the extracted one -/
structure Segment (env : PathEnv K C P) (good : P → Prop) (q q' : C) (l : K) (e : List P) : Prop where
  joins : Joins env q e q'
  short : total env e ≤ l
  good : ∀ p ∈ e, good p
  ne : e ≠ []

/-- a property of elementary paths that extraction keeps and that the validated ones have -/
structure Kept (env : PathEnv K C P) (good : P → Prop) : Prop where
  extract : ∀ k p a b e, env.extract k p a b = some e → (∀ x ∈ p, good x) → ∀ x ∈ e, good x
  valid : ∀ k p, env.valid k p = true → good p

theorem segment [DecidableEq C] {env : PathEnv K C P} {pos : List P → K → C} (ok : Ok env pos) (tot : Total env) {good : P → Prop} (kept : Kept env good) {k : ℕ} {tmp : List P} {c d : C}
    {t t' : K} {v : Option P} (hne : tmp ≠ []) (hj : Joins env c tmp d) (hg : ∀ p ∈ tmp, good p) (h0 : 0 ≤ t) (h1 : t ≤ t') (h2 : t' ≤ total env tmp)
    (h : candidate env k tmp (pos tmp t) (pos tmp t') t t' = .ok v) (pe : ℕ) (res : List P) :
    ∃ e, Segment env good (pos tmp t) (pos tmp t') (t' - t) e ∧ replace env k ⟨res, tmp, false, pe⟩ (v, t, t') = ⟨res ++ e, tmp, false, pe⟩ := by
  cases v with
  | some s =>
    obtain ⟨a, b, l, hv⟩ := candidate_spec ok hne hj h0 h1 h2 h
    refine ⟨[s], ⟨⟨a, b⟩, by simpa [total] using l.le, by simpa using kept.valid k s hv, by simp⟩, ?_⟩
    simp [replace, Repl.append]
  | none =>
    obtain ⟨e, he⟩ := Option.isSome_iff_exists.1 (tot k tmp t t')
    obtain ⟨a, l, ne⟩ := ok.extract k c tmp d t t' e hne hj h0 h1 h2 he
    refine ⟨e, ⟨a, l.le, kept.extract k tmp t t' e he hg, ne⟩, ?_⟩
    simp [replace, he, Repl.append]

/-- the invariant of the loop -/
structure Inv (env : PathEnv K C P) (good : P → Prop) (n : ℕ) (c d : C) (l : K) (st : St K P) : Prop where
  ne : st.tmp ≠ []
  joins : Joins env c st.tmp d
  short : total env st.tmp ≤ l
  good : ∀ p ∈ st.tmp, good p
  result : ∀ r, st.result = some r → r = st.tmp
  last : st.length.getLast? = some (some (total env st.tmp))
  proj : st.projectionError ≤ n

theorem body_spec [DecidableEq C] {env : PathEnv K C P} {pos : List P → K → C} (ok : Ok env pos) (tot : Total env) {good : P → Prop} (kept : Kept env good) {n k : ℕ} {c d : C} {l m : K} {st st' : St K P}
    (inv : Inv env good n c d l st) (hm : 0 ≤ m) {t1 t2 : K} (ht : m ≤ t1 ∧ t1 + m ≤ t2 ∧ t2 + m ≤ total env st.tmp) (hpe : st.projectionError ≠ 0)
    (h : body env n k c d (total env st.tmp) st t1 t2 = .ok st') :
    Inv env good n c d l st' ∧
    ((total env st'.tmp = total env st.tmp ∧ st'.tmp = st.tmp ∧ st'.projectionError + 1 = st.projectionError) ∨
      total env st'.tmp + 10 * (1 / 2 ^ 52) < total env st.tmp) ∧
    ((env.eval k st.tmp t1).isSome → (env.eval k st.tmp t2).isSome → st'.result.isSome) := by
  have hdec : dec st.projectionError + 1 = st.projectionError := by unfold dec; rw [if_neg hpe]; omega
  obtain ⟨ht1, ht2, ht3⟩ := ht
  unfold body at h
  have same : Inv env good n c d l { st with projectionError := dec st.projectionError } :=
    ⟨inv.ne, inv.joins, inv.short, inv.good, inv.result, inv.last, by have := inv.proj; simp only; omega⟩
  cases h1 : env.eval k st.tmp t1 with
  | none =>
    rw [h1] at h
    simp only [Outcome.ok.injEq] at h
    subst h
    exact ⟨same, Or.inl ⟨rfl, rfl, hdec⟩, by simp⟩
  | some q1 =>
    rw [h1] at h
    simp only at h
    cases h2 : env.eval k st.tmp t2 with
    | none =>
      rw [h2] at h
      simp only [Outcome.ok.injEq] at h
      subst h
      exact ⟨same, Or.inl ⟨rfl, rfl, hdec⟩, by simp⟩
    | some q2 =>
      rw [h2] at h
      simp only at h
      obtain ⟨v0, e0, h'⟩ := Outcome.bind_ok h
      obtain ⟨v1, e1, h''⟩ := Outcome.bind_ok h'
      obtain ⟨v2, e2, h3⟩ := Outcome.bind_ok h''
      clear h h' h''
      rename' h3 => h
      have hq1 := ok.eval k _ _ _ h1
      have hq2 := ok.eval k _ _ _ h2
      have hc := ok.first c st.tmp d inv.ne inv.joins
      have hd := ok.last c st.tmp d inv.ne inv.joins
      subst hq1 hq2
      have e0' : candidate env k st.tmp (pos st.tmp 0) (pos st.tmp t1) 0 t1 = .ok v0 := by rw [hc]; exact e0
      have e2' : candidate env k st.tmp (pos st.tmp t2) (pos st.tmp (total env st.tmp)) t2 (total env st.tmp) = .ok v2 := by rw [hd]; exact e2
      obtain ⟨s0, g0, r0⟩ := segment ok tot kept inv.ne inv.joins inv.good le_rfl (by linarith) (by linarith) e0' st.projectionError []
      obtain ⟨s1, g1, r1⟩ := segment ok tot kept inv.ne inv.joins inv.good (by linarith) (by linarith) (by linarith) e1 st.projectionError ([] ++ s0)
      obtain ⟨s2, g2, r2⟩ := segment ok tot kept inv.ne inv.joins inv.good (by linarith) (by linarith) le_rfl e2' st.projectionError ([] ++ s0 ++ s1)
      simp only [List.nil_append] at r0 r1 r2
      simp only [List.foldl_cons, List.foldl_nil, r0, r1, r2, Outcome.ok.injEq, List.nil_append] at h
      rw [hc] at g0
      rw [hd] at g2
      have hj : Joins env c (s0 ++ s1 ++ s2) d := (g0.joins.append g1.joins).append g2.joins
      have hl : total env (s0 ++ s1 ++ s2) ≤ total env st.tmp := by
        rw [total_append, total_append]; linarith [g0.short, g1.short, g2.short]
      have hgood : ∀ p ∈ s0 ++ s1 ++ s2, good p := by
        intro p hp
        rcases List.mem_append.1 hp with hp | hp
        · rcases List.mem_append.1 hp with hp | hp
          · exact g0.good p hp
          · exact g1.good p hp
        · exact g2.good p hp
      unfold accept at h
      dsimp only at h
      by_cases hacc : total env st.tmp - total env (s0 ++ s1 ++ s2) ≤ 10 * (1 / 2 ^ 52)
      · rw [if_pos hacc] at h
        subst h
        refine ⟨⟨inv.ne, inv.joins, inv.short, inv.good, by simp, inv.last, ?_⟩, Or.inl ⟨rfl, rfl, hdec⟩, by simp⟩
        have := inv.proj; simp only; omega
      · rw [if_neg hacc] at h
        subst h
        refine ⟨⟨by simp [g0.ne], hj, hl.trans inv.short, hgood, by simp, ?_, le_rfl⟩, Or.inr ?_, by simp⟩
        · have hlast := inv.last
          cases hL : st.length with
          | nil => rw [hL] at hlast; simp at hlast
          | cons x L => simp
        · simp only; linarith

theorem loop_spec [DecidableEq C] {env : PathEnv K C P} {pos : List P → K → C} (ok : Ok env pos) (tot : Total env) {good : P → Prop} (kept : Kept env good) {n : ℕ} {c d : C} {l m : K} (hm : 0 ≤ m)
    (rand : ℕ → K) (df f k p : ℕ) (st : St K P) (inv : Inv env good n c d l st) (r : List P)
    (h : loop env n c d m rand df f k p st = .ok r) : Joins env c r d ∧ total env r ≤ l ∧ ∀ x ∈ r, good x := by
  induction f generalizing k p st with
  | zero => simp [loop] at h
  | succ f ih =>
    unfold loop at h
    by_cases h1 : st.finished = true ∨ st.projectionError = 0
    · rw [if_pos h1] at h
      cases hr : st.result with
      | none => rw [hr] at h; cases h
      | some r' =>
        rw [hr] at h
        simp only [Outcome.ok.injEq] at h
        subst h
        rw [inv.result _ hr]
        exact ⟨inv.joins, inv.short, inv.good⟩
    · rw [if_neg h1] at h
      cases hd : draw m (total env st.tmp) rand df p with
      | none => rw [hd] at h; cases h
      | some t =>
        obtain ⟨t1, t2, p'⟩ := t
        rw [hd, inv.last] at h
        simp only at h
        obtain ⟨st', hb, h⟩ := Outcome.bind_ok h
        exact ih _ _ _ (body_spec ok tot kept inv hm (draw_spec hd) (fun e => h1 (Or.inr e)) hb).1 h

theorem start_inv [DecidableEq C] {env : PathEnv K C P} {good : P → Prop} {n : ℕ} {c d : C} {path : List P} (hne : path ≠ []) (hj : Joins env c path d) (hg : ∀ p ∈ path, good p) :
    Inv env good n c d (total env path) ⟨path, none, List.replicate (n - 1) none ++ [some (total env path)], n, false⟩ :=
  ⟨hne, hj, le_rfl, hg, by simp, by simp, le_rfl⟩

theorem optimise_eq [DecidableEq C] {env : PathEnv K C P} {c d : C} {path : List P} (hne : path ≠ []) (hj : Joins env c path d) (n : ℕ) (hn : n ≠ 0) (rand : ℕ → K) (df f : ℕ) :
    optimise env n path rand df f = loop env n c d (min 1 (total env path * (1 / 5))) rand df f 0 0
      ⟨path, none, List.replicate (n - 1) none ++ [some (total env path)], n, false⟩ := by
  unfold optimise
  obtain ⟨a, ha⟩ : ∃ a, path.head? = some a := by cases path with
    | nil => exact absurd rfl hne
    | cons a _ => exact ⟨a, rfl⟩
  obtain ⟨b, hb⟩ : ∃ b, path.getLast? = some b := ⟨path.getLast hne, List.getLast?_eq_some_getLast hne⟩
  rw [ha, hb]
  simp only
  rw [if_neg hn, hj.ends.1 a ha, hj.ends.2 b hb]

/-- C54 (part): if no extraction throws, the result joins the ends of the input, is not longer, and every property of elementary paths that extraction keeps and validation implies holds along the result if it held along the input. -/
theorem C54_partial [DecidableEq C] (env : PathEnv K C P) (pos : List P → K → C) (ok : Ok env pos) (tot : Total env) (n : ℕ) (path : List P) (c d : C)
    (hj : Joins env c path d) (rand : ℕ → K) (df f : ℕ) (r : List P) (h : optimise env n path rand df f = .ok r) :
    Joins env c r d ∧ total env r ≤ total env path ∧ ∀ good : P → Prop, Kept env good → (∀ x ∈ path, good x) → ∀ x ∈ r, good x := by
  have hne : path ≠ [] := by rintro rfl; simp [optimise] at h
  have hn : n ≠ 0 := by
    rintro rfl
    unfold optimise at h
    split at h
    · simp at h
    · cases h
  have hm : 0 ≤ min 1 (total env path * (1 / 5)) := le_min zero_le_one (by have := total_nonneg ok path; linarith)
  have key := fun (good : P → Prop) (kept : Kept env good) (hg : ∀ x ∈ path, good x) =>
    loop_spec ok tot kept hm rand df f 0 0 _ (start_inv (n := n) hne hj hg) r (by rw [← optimise_eq hne hj n hn]; exact h)
  refine ⟨(key (fun _ => True) ⟨by simp, by simp⟩ (by simp)).1, (key (fun _ => True) ⟨by simp, by simp⟩ (by simp)).2.1, fun good kept hg => (key good kept hg).2.2⟩

theorem body_cases [DecidableEq C] (env : PathEnv K C P) (n k : ℕ) (c d : C) (last : K) (st : St K P) (t1 t2 : K) :
    (∃ st', body env n k c d last st t1 t2 = .ok st') ∨ body env n k c d last st t1 t2 = .thrown := by
  have nc : ∀ (q q' : C) (t t' : K), (∃ v, candidate env k st.tmp q q' t t' = .ok v) ∨ candidate env k st.tmp q q' t t' = .thrown := by
    intro q q' t t'
    unfold candidate
    cases steer env k q q' with
    | none => exact Or.inl ⟨_, rfl⟩
    | some s =>
      simp only
      cases env.extract k st.tmp t t' with
      | none => exact Or.inr rfl
      | some e => exact Or.inl ⟨_, rfl⟩
  unfold body
  cases env.eval k st.tmp t1 with
  | none => exact Or.inl ⟨_, rfl⟩
  | some q1 =>
    simp only
    cases env.eval k st.tmp t2 with
    | none => exact Or.inl ⟨_, rfl⟩
    | some q2 =>
      simp only
      rcases nc c q1 0 t1 with ⟨v0, h⟩ | h <;> rw [h]
      · rcases nc q1 q2 t1 t2 with ⟨v1, h⟩ | h <;> simp only [Outcome.bind, h]
        · rcases nc q2 d t2 (total env st.tmp) with ⟨v2, h⟩ | h <;> simp only [h]
          · exact Or.inl ⟨_, rfl⟩
          · exact Or.inr trivial
        · exact Or.inr trivial
      · exact Or.inr rfl

/-- the loop ends: by induction on the number of possible improvements, then on the number of failures left -/
theorem loop_ends [DecidableEq C] {env : PathEnv K C P} {pos : List P → K → C} (ok : Ok env pos) (tot : Total env) {n : ℕ} {c d : C} {l m : K} (hm : 0 ≤ m)
    (rand : ℕ → K) (df : ℕ) (hdraw : ∀ t p, 3 * m ≤ t → t ≤ l → (draw m t rand df p).isSome) (hlong : ∀ p, Joins env c p d → 3 * m ≤ total env p)
    (B : ℕ) : ∀ (pe k p : ℕ) (st : St K P), Inv env (fun _ => True) n c d l st → st.projectionError = pe → total env st.tmp < B * (10 * (1 / 2 ^ 52)) →
      ∃ f, loop env n c d m rand df f k p st ≠ .timeout := by
  induction B with
  | zero => intro pe k p st inv _ hB; have := total_nonneg ok st.tmp; simp at hB; exact absurd hB (not_lt.2 this)
  | succ B ihB =>
    intro pe
    induction pe with
    | zero =>
      intro k p st inv hpe hB
      refine ⟨1, ?_⟩
      unfold loop
      rw [if_pos (Or.inr hpe)]
      cases st.result <;> simp
    | succ pe ihp =>
      intro k p st inv hpe hB
      by_cases h1 : st.finished = true
      · refine ⟨1, ?_⟩
        unfold loop
        rw [if_pos (Or.inl h1)]
        cases st.result <;> simp
      · have hnot : ¬ (st.finished = true ∨ st.projectionError = 0) := by rw [hpe]; simp [h1]
        obtain ⟨⟨t1, t2, p'⟩, hd⟩ := Option.isSome_iff_exists.1 (hdraw (total env st.tmp) p (hlong _ inv.joins) inv.short)
        cases hb : body env n k c d (total env st.tmp) st t1 t2 with
        | ok st' =>
          obtain ⟨inv', hcase, -⟩ := body_spec ok tot (good := fun _ => True) ⟨by simp, by simp⟩ inv hm (draw_spec hd) (by omega) hb
          have : ∃ f, loop env n c d m rand df f (k + 1) p' st' ≠ .timeout := by
            rcases hcase with ⟨hl, -, hpe'⟩ | hl
            · exact ihp (k + 1) p' st' inv' (by omega) (by rw [hl]; exact hB)
            · refine ihB _ (k + 1) p' st' inv' rfl ?_
              push_cast at hB
              linarith
          obtain ⟨f, hf⟩ := this
          refine ⟨f + 1, ?_⟩
          unfold loop
          rw [if_neg hnot, hd, inv.last]
          simp only [hb, Outcome.bind]
          exact hf
        | thrown =>
          refine ⟨1, ?_⟩
          unfold loop
          rw [if_neg hnot, hd, inv.last]
          simp [hb, Outcome.bind]
        | undefined =>
          refine ⟨1, ?_⟩
          unfold loop
          rw [if_neg hnot, hd, inv.last]
          simp [hb, Outcome.bind]
        | timeout => rcases body_cases env n k c d (total env st.tmp) st t1 t2 with ⟨x, hx⟩ | hx <;> rw [hb] at hx <;> cases hx

/-- C54 (part): if no extraction throws, every path between the ends is at least three times as long as the minimal distance of the drawn points, and the random numbers always end the loop that draws them for such lengths, then the optimisation ends. -/
theorem C54_terminates_partial [Archimedean K] [DecidableEq C] (env : PathEnv K C P) (pos : List P → K → C) (ok : Ok env pos) (tot : Total env) (n : ℕ) (path : List P) (c d : C) (hne : path ≠ [])
    (hj : Joins env c path d) (hlong : ∀ p, Joins env c p d → 3 * min 1 (total env path * (1 / 5)) ≤ total env p)
    (rand : ℕ → K) (df : ℕ)
    (hdraw : ∀ t p, 3 * min 1 (total env path * (1 / 5)) ≤ t → t ≤ total env path → (draw (min 1 (total env path * (1 / 5))) t rand df p).isSome) :
    ∃ f, optimise env n path rand df f ≠ .timeout := by
  by_cases hn : n = 0
  · subst hn
    refine ⟨0, ?_⟩
    unfold optimise
    split <;> simp
  · have hm : 0 ≤ min 1 (total env path * (1 / 5)) := le_min zero_le_one (by have := total_nonneg ok path; linarith)
    have heps : (0 : K) < 10 * (1 / 2 ^ 52) := by norm_num
    obtain ⟨B, hB⟩ := Archimedean.arch (total env path + 10 * (1 / 2 ^ 52)) heps
    obtain ⟨f, hf⟩ := loop_ends ok tot hm rand df hdraw hlong B n 0 0 _ (start_inv (n := n) (good := fun _ => True) hne hj (by simp)) rfl
      (by rw [nsmul_eq_mul] at hB; simp only; linarith)
    exact ⟨f, by rw [optimise_eq hne hj n hn]; exact hf⟩

/-- C54 (part): if no evaluation fails, no null pointer is dereferenced. -/
theorem C54_defined_partial [DecidableEq C] (env : PathEnv K C P) (pos : List P → K → C) (ok : Ok env pos) (tot : Total env) (heval : ∀ k p t, (env.eval k p t).isSome) (n : ℕ) (path : List P) (c d : C) (hne : path ≠ [])
    (hj : Joins env c path d) (rand : ℕ → K) (df f : ℕ) : optimise env n path rand df f ≠ .undefined := by
  by_cases hn : n = 0
  · subst hn
    unfold optimise
    obtain ⟨b, hb⟩ : ∃ b, path.getLast? = some b := ⟨path.getLast hne, List.getLast?_eq_some_getLast hne⟩
    cases path with
    | nil => exact absurd rfl hne
    | cons a l => rw [hb]; simp
  rw [optimise_eq hne hj n hn]
  have hm : 0 ≤ min 1 (total env path * (1 / 5)) := le_min zero_le_one (by have := total_nonneg ok path; linarith)
  have key : ∀ (f k p : ℕ) (st : St K P), Inv env (fun _ => True) n c d (total env path) st → ((st.finished = true ∨ st.projectionError = 0) → st.result.isSome) →
      loop env n c d (min 1 (total env path * (1 / 5))) rand df f k p st ≠ .undefined := by
    intro f
    induction f with
    | zero => intro k p st _ _; simp [loop]
    | succ f ih =>
      intro k p st inv hres
      unfold loop
      by_cases h1 : st.finished = true ∨ st.projectionError = 0
      · rw [if_pos h1]
        obtain ⟨r, hr⟩ := Option.isSome_iff_exists.1 (hres h1)
        rw [hr]; simp
      · rw [if_neg h1]
        cases hd : draw (min 1 (total env path * (1 / 5))) (total env st.tmp) rand df p with
        | none => simp
        | some t =>
          obtain ⟨t1, t2, p'⟩ := t
          rw [inv.last]
          simp only
          cases hb : body env n k c d (total env st.tmp) st t1 t2 with
          | ok st' =>
            obtain ⟨inv', -, hr⟩ := body_spec ok tot (good := fun _ => True) ⟨by simp, by simp⟩ inv hm (draw_spec hd) (fun e => h1 (Or.inr e)) hb
            exact ih _ _ _ inv' fun _ => hr (heval _ _ _) (heval _ _ _)
          | thrown => simp [Outcome.bind]
          | timeout => simp [Outcome.bind]
          | undefined => rcases body_cases env n k c d (total env st.tmp) st t1 t2 with ⟨x, hx⟩ | hx <;> rw [hb] at hx <;> cases hx
  exact key f 0 0 _ (start_inv hne hj (by simp)) (by simp [hn])

/-- once the path is shorter than three times the minimal distance no random numbers are accepted -/
theorem draw_short (m t3 : K) (h : t3 < 3 * m) (rand : ℕ → K) (f pos : ℕ) : draw m t3 rand f pos = none := by
  cases hd : draw m t3 rand f pos with
  | none => rfl
  | some t =>
    obtain ⟨t1, t2, p⟩ := t
    have := draw_spec hd
    exfalso; linarith [this.1, this.2.1, this.2.2]

/-! ### an instance: paths on a line at unit speed -/

/-- a segment of the line -/
abbrev Seg := ℚ × ℚ

/-- the position at a time -/
def linePos : List Seg → ℚ → ℚ
  | [], _ => 0
  | (c, d) :: l, t => if t ≤ |d - c| then (if c ≤ d then c + t else c - t) else linePos l (t - |d - c|)

/-- the parts of the segments between two times -/
def lineExtract : List Seg → ℚ → ℚ → List Seg
  | [], _, _ => []
  | [(c, d)], a, b => [(linePos [(c, d)] a, linePos [(c, d)] b)]
  | (c, d) :: s :: l, a, b =>
    if b ≤ |d - c| then [(linePos [(c, d)] a, linePos [(c, d)] b)]
    else if |d - c| < a then lineExtract (s :: l) (a - |d - c|) (b - |d - c|)
    else (linePos [(c, d)] a, d) :: lineExtract (s :: l) 0 (b - |d - c|)

/-- paths on a line: the steering method gives the segment, everything is valid -/
def lineEnv : PathEnv ℚ ℚ Seg where
  len s := |s.2 - s.1|
  initial s := s.1
  final s := s.2
  eval _ p t := some (linePos p t)
  extract _ p a b := some (lineExtract p a b)
  sm _ c d := some (c, d)
  projector := none
  valid _ _ := true

theorem line_total_nil : total lineEnv [] = 0 := rfl
theorem line_total_cons (c d : ℚ) (l : List Seg) : total lineEnv ((c, d) :: l) = |d - c| + total lineEnv l := by simp [total, lineEnv]
theorem line_total_nonneg (l : List Seg) : 0 ≤ total lineEnv l := by
  induction l with
  | nil => exact le_rfl
  | cons a l ih => obtain ⟨c, d⟩ := a; rw [line_total_cons]; linarith [abs_nonneg (d - c)]

theorem line_distance {c d : ℚ} {p : List Seg} (h : Joins lineEnv c p d) : |d - c| ≤ total lineEnv p := by
  induction p generalizing c with
  | nil => cases h; simp [total]
  | cons a p ih =>
    obtain ⟨x, y⟩ := a
    rw [line_total_cons]
    obtain ⟨h1, h2⟩ := h
    have := ih h2
    have h1' : x = c := h1
    have this : |d - y| ≤ total lineEnv p := this
    subst h1'
    have e : d - x = (d - y) + (y - x) := by ring
    rw [e]
    linarith [abs_add_le (d - y) (y - x)]

theorem linePos_zero (c d : ℚ) (l : List Seg) : linePos ((c, d) :: l) 0 = c := by
  unfold linePos; rw [if_pos (abs_nonneg _)]; split_ifs <;> simp

theorem linePos_end (c d : ℚ) (l : List Seg) : linePos ((c, d) :: l) |d - c| = d := by
  unfold linePos
  rw [if_pos le_rfl]
  split_ifs with h
  · rw [abs_of_nonneg (by linarith)]; ring
  · rw [abs_of_neg (by linarith)]; ring

theorem linePos_single (c d : ℚ) (l : List Seg) (t : ℚ) (h : t ≤ |d - c|) : linePos ((c, d) :: l) t = linePos [(c, d)] t := by
  simp [linePos, h]

theorem linePos_dist (c d a b : ℚ) (hab : a ≤ b) (h : b ≤ |d - c|) : |linePos [(c, d)] b - linePos [(c, d)] a| = b - a := by
  unfold linePos
  rw [if_pos h, if_pos (hab.trans h)]
  split_ifs
  · rw [show c + b - (c + a) = b - a by ring, abs_of_nonneg (by linarith)]
  · rw [show c - b - (c - a) = -(b - a) by ring, abs_neg, abs_of_nonneg (by linarith)]

theorem line_last (c : ℚ) (p : List Seg) (d : ℚ) (hne : p ≠ []) (h : Joins lineEnv c p d) : linePos p (total lineEnv p) = d := by
  induction p generalizing c with
  | nil => exact absurd rfl hne
  | cons a p ih =>
    obtain ⟨x, y⟩ := a
    rw [line_total_cons]
    by_cases h0 : total lineEnv p = 0
    · rw [h0, add_zero, linePos_end]
      have := line_distance h.2
      rw [h0] at this
      have h3 : d - y = 0 := abs_eq_zero.1 (le_antisymm this (abs_nonneg _))
      linarith
    · have hpos : 0 < total lineEnv p := lt_of_le_of_ne (line_total_nonneg p) (Ne.symm h0)
      unfold linePos
      rw [if_neg (by linarith), add_sub_cancel_left]
      exact ih _ (by rintro rfl; exact h0 rfl) h.2

theorem line_first (c : ℚ) (p : List Seg) (d : ℚ) (hne : p ≠ []) (h : Joins lineEnv c p d) : linePos p 0 = c := by
  cases p with
  | nil => exact absurd rfl hne
  | cons a p => obtain ⟨x, y⟩ := a; rw [linePos_zero]; exact h.1

theorem line_extract (c : ℚ) (p : List Seg) (d a b : ℚ) (hne : p ≠ []) (h : Joins lineEnv c p d) (h0 : 0 ≤ a) (hab : a ≤ b) (hb : b ≤ total lineEnv p) :
    Joins lineEnv (linePos p a) (lineExtract p a b) (linePos p b) ∧ total lineEnv (lineExtract p a b) = b - a ∧ lineExtract p a b ≠ [] := by
  induction p generalizing c a b with
  | nil => exact absurd rfl hne
  | cons s p ih =>
    obtain ⟨x, y⟩ := s
    rw [line_total_cons] at hb
    by_cases hp : p = []
    · subst hp
      rw [line_total_nil] at hb
      rw [lineExtract]
      refine ⟨⟨by simp [lineEnv], by simp [Joins, lineEnv]⟩, ?_, by simp⟩
      rw [line_total_cons, line_total_nil, linePos_dist x y a b hab (by linarith), add_zero]
    · obtain ⟨s, p', rfl⟩ := List.exists_cons_of_ne_nil hp
      unfold lineExtract
      by_cases h1 : b ≤ |y - x|
      · rw [if_pos h1]
        refine ⟨⟨?_, ?_⟩, ?_, by simp⟩
        · rw [linePos_single x y (s :: p') a (hab.trans h1)]; simp [lineEnv]
        · rw [linePos_single x y (s :: p') b h1]; simp [Joins, lineEnv]
        · rw [line_total_cons, line_total_nil, linePos_dist x y a b hab h1, add_zero]
      · rw [if_neg h1]
        by_cases h2 : |y - x| < a
        · rw [if_pos h2]
          have := ih _ (a - |y - x|) (b - |y - x|) hp h.2 (by linarith) (by linarith) (by linarith)
          rw [show linePos ((x, y) :: s :: p') a = linePos (s :: p') (a - |y - x|) by rw [linePos, if_neg (by linarith)],
            show linePos ((x, y) :: s :: p') b = linePos (s :: p') (b - |y - x|) by rw [linePos, if_neg (by linarith)]]
          exact ⟨this.1, by rw [this.2.1]; ring, this.2.2⟩
        · rw [if_neg h2]
          push Not at h1 h2
          have := ih _ 0 (b - |y - x|) hp h.2 le_rfl (by linarith) (by linarith)
          rw [line_first _ _ _ hp h.2] at this
          refine ⟨⟨?_, ?_⟩, ?_, by simp⟩
          · rw [linePos_single x y (s :: p') a h2]; simp [lineEnv]
          · rw [show linePos ((x, y) :: s :: p') b = linePos (s :: p') (b - |y - x|) by rw [linePos, if_neg (by linarith)]]
            exact this.1
          · rw [line_total_cons, this.2.1]
            have e := linePos_dist x y a |y - x| h2 le_rfl
            rw [linePos_end] at e
            rw [e]; ring

theorem line_ok : Ok lineEnv linePos where
  len s := abs_nonneg _
  eval k p t q h := by simp [lineEnv] at h; exact h.symm
  first := line_first
  last := line_last
  extract k c p d a b e hne hj h0 hab hb he := by
    simp only [lineEnv, Option.some.injEq] at he
    subst he
    exact line_extract c p d a b hne hj h0 hab hb
  projector f h := by simp [lineEnv] at h

theorem line_total : Total lineEnv := fun _ _ _ _ => rfl

/-- the random numbers 0, 1, 0, 1, ... -/
def alternate (i : ℕ) : ℚ := if i % 2 = 0 then 0 else 1

/-- non-vacuity of C54_partial, C54_terminates_partial and C54_defined_partial: a path of length 16 from 0 over 10 to 4 -/
example : Ok lineEnv linePos ∧ Total lineEnv ∧ Joins lineEnv 0 [(0, 10), (10, 4)] 4 ∧
    (∀ p, Joins lineEnv 0 p 4 → 3 * min 1 (total lineEnv [(0, 10), (10, 4)] * (1 / 5)) ≤ total lineEnv p) ∧
    optimise lineEnv 2 [(0, 10), (10, 4)] alternate 1 9 = .ok [(0, 1), (1, 5), (5, 4)] := by
  refine ⟨line_ok, line_total, ⟨rfl, rfl, rfl⟩, fun p hp => ?_, by decide +kernel⟩
  have := line_distance hp
  have e : total lineEnv [(0, 10), (10, 4)] = 16 := by decide +kernel
  rw [e]; norm_num at *; linarith

/-- with the random numbers 0, 1, 0, 1, ... the loop that draws always ends -/
example (t : ℚ) (p : ℕ) (h : 3 * 1 ≤ t) : (draw 1 t (fun _ => 0) 1 p).isSome = false ∧ (draw 1 t alternate 1 (2 * p)).isSome := by
  constructor
  · norm_num [draw]
  · have h1 : (2 * p + 1) % 2 = 1 := by omega
    unfold draw
    simp only [alternate, Nat.mul_mod_right, if_true, h1]
    rw [if_neg (show ¬ ((1 : ℕ) = 0) by omega), if_neg (by rw [if_neg (by simp; linarith)]; simp; exact ⟨by linarith, by linarith⟩)]
    rfl

/-! ### violations -/

/-- **C54 is violated** when the path becomes short: the minimal distance between the drawn points stays that of the initial path.  Here the path 0, 10, 0, 2 of length 22 is shortened to length 11/5, and no random number ever ends the next draw, whatever numbers of iterations are granted. -/
theorem C54_hang_violated (df f : ℕ) : optimise lineEnv 2 [(0, 10), (10, 0), (0, 2)] (fun i => if i = 0 then 1 / 200 else 1) df f = .timeout := by
  have hj : Joins lineEnv 0 [(0, 10), (10, 0), (0, 2)] 2 := ⟨rfl, rfl, rfl, rfl⟩
  rw [optimise_eq (by simp) hj 2 (by simp)]
  cases f with
  | zero => rfl
  | succ f =>
    cases df with
    | zero => rfl
    | succ df =>
      have hd : draw (min 1 (total lineEnv [(0, 10), (10, 0), (0, 2)] * (1 / 5))) (total lineEnv [(0, 10), (10, 0), (0, 2)]) (fun i => if i = 0 then 1 / 200 else 1) (df + 1) 0 = some (11 / 10, 21, 2) := by
        have : min 1 (total lineEnv [(0, 10), (10, 0), (0, 2)] * (1 / 5)) = 1 ∧ total lineEnv [(0, 10), (10, 0), (0, 2)] = 22 := by constructor <;> decide +kernel
        rw [this.1, this.2]
        unfold draw
        norm_num
      unfold loop
      rw [if_neg (by simp), hd]
      have hb : body lineEnv 2 0 0 2 (total lineEnv [(0, 10), (10, 0), (0, 2)]) ⟨[(0, 10), (10, 0), (0, 2)], none, List.replicate (2 - 1) none ++ [some (total lineEnv [(0, 10), (10, 0), (0, 2)])], 2, false⟩ (11 / 10) 21 =
          .ok ⟨[(0, 11 / 10), (11 / 10, 1), (1, 2)], some [(0, 11 / 10), (11 / 10, 1), (1, 2)], [some 22, some (11 / 5)], 2, false⟩ := by decide +kernel
      simp only [List.getLast?_append, List.getLast?_singleton, Option.some_or, hb, Outcome.bind]
      cases f with
      | zero => rfl
      | succ f =>
        unfold loop
        rw [if_neg (by simp), draw_short]
        decide +kernel

/-- **C54 is violated** if no evaluation succeeds: the result is a null pointer, which is dereferenced. -/
theorem C54_null_violated (path : List P) (a b : P) (ha : path.head? = some a) (hb : path.getLast? = some b) [DecidableEq C] (env : PathEnv K C P) (heval : ∀ k p t, env.eval k p t = none)
    (rand : ℕ → K) (df : ℕ) (hd : ∀ pos, (draw (min 1 (total env path * (1 / 5))) (total env path) rand df pos).isSome) (n : ℕ) (hn : n ≠ 0) (f : ℕ) (hf : n < f) :
    optimise env n path rand df f = .undefined := by
  unfold optimise
  rw [ha, hb]
  simp only
  rw [if_neg hn]
  have key : ∀ (pe f k p : ℕ), pe < f → ∀ L : List (Option K), L.getLast? = some (some (total env path)) →
      loop env n (env.initial a) (env.final b) (min 1 (total env path * (1 / 5))) rand df f k p ⟨path, none, L, pe, false⟩ = .undefined := by
    intro pe
    induction pe with
    | zero =>
      intro f k p hf L _
      obtain ⟨f, rfl⟩ : ∃ g, f = g + 1 := ⟨f - 1, by omega⟩
      unfold loop
      rw [if_pos (by simp)]
    | succ pe ih =>
      intro f k p hf L hL
      obtain ⟨f, rfl⟩ : ∃ g, f = g + 1 := ⟨f - 1, by omega⟩
      unfold loop
      rw [if_neg (by simp)]
      obtain ⟨⟨t1, t2, p'⟩, hdd⟩ := Option.isSome_iff_exists.1 (hd p)
      simp only [hdd, hL, body, heval, Outcome.bind, dec, Nat.add_sub_cancel, if_neg (Nat.succ_ne_zero pe)]
      exact ih f _ _ (by omega) L hL
  exact key n f 0 0 hf _ (by simp)

/-- a variant in which the first part cannot be extracted, and the steering method fails -/
def throwEnv : PathEnv ℚ ℚ Seg := { lineEnv with sm := fun _ _ _ => none, extract := fun k p a b => if a = 0 then none else lineEnv.extract k p a b }

/-- **C54 is violated** when an extraction throws: the exception is caught by making the result the current path, to which the following parts are then appended.  The path from 0 to 4 becomes one that passes from 4 to 1 without motion and is longer; the counter of failures is decremented twice, below 0 if it is odd. -/
theorem C54_alias_violated :
    optimise throwEnv 2 [(0, 10), (10, 4)] alternate 1 9 = .ok [(0, 10), (10, 4), (1, 10), (10, 5), (5, 4)] ∧
    ¬ Joins throwEnv 0 [(0, 10), (10, 4), (1, 10), (10, 5), (5, 4)] 4 ∧
    body throwEnv 1 0 0 4 16 ⟨[(0, 10), (10, 4)], none, [some 16], 1, false⟩ 1 15 =
      .ok ⟨[(0, 10), (10, 4), (1, 10), (10, 5), (5, 4)], some [(0, 10), (10, 4), (1, 10), (10, 5), (5, 4)], [some 16], 2 ^ 64 - 1, false⟩ := by
  refine ⟨by decide +kernel, ?_, by decide +kernel⟩
  rintro ⟨-, -, h, -⟩
  norm_num [throwEnv, lineEnv] at h

/-- **C54 is violated** if the parameter NumberOfLoops is 0: an exception is thrown. -/
theorem C54_zero_violated [DecidableEq C] (env : PathEnv K C P) (a : P) (l : List P) (rand : ℕ → K) (df f : ℕ) : optimise env 0 (a :: l) rand df f = .thrown := by
  unfold optimise
  rw [List.head?_cons, List.getLast?_eq_some_getLast (List.cons_ne_nil a l)]
  simp

/-! ### C115: orientation -/

/-- C115 (part): a path of kinodynamic elements is returned as it is: its ends, its joints and its validity are kept. -/
theorem C115_partial (oe : OrientEnv C P) (path : List P) (h : ∀ p ∈ path, oe.kinodynamic p = true) : orientOptimise oe path = some path := by
  have hres : path.map (resultPathOf oe) = path.map some := List.map_congr_left fun p hp => by simp [resultPathOf, h p hp]
  have hcheck : ∀ d index rv, index + d = path.length → 0 < d → (checkReplace oe d index rv (path.map (orientedValidOf oe)) (path.map (orientedPathOf oe)) (path.map (resultPathOf oe))).isSome := by
    intro d
    induction d with
    | zero => intro _ _ _ h0; omega
    | succ d ih =>
      intro index rv hi _
      have hlt : index < path.length := by omega
      unfold checkReplace
      simp only [List.getElem?_map, List.getElem?_eq_getElem hlt, Option.map_some, Option.join_some]
      cases hv : orientedValidOf oe path[index] with
      | false => simp
      | true =>
        have ho : ∃ o, orientedPathOf oe path[index] = some o := by
          unfold orientedValidOf at hv
          cases ho : orientedPathOf oe path[index] with
          | none => simp [ho] at hv
          | some o => exact ⟨o, rfl⟩
        obtain ⟨o, ho⟩ := ho
        rw [ho]
        simp only
        have hprev : (if 0 < index then
            if (path[index - 1]?.map (orientedValidOf oe)) = some true ∧ rv[index - 1]? = some true then some true
            else (path[index - 1]?.map (resultPathOf oe)).join.map fun p => oe.valid (oe.withEnd p (oe.initial o))
          else some true).isSome := by
          by_cases h0 : 0 < index
          · rw [if_pos h0]
            split
            · rfl
            · have hl : index - 1 < path.length := by omega
              rw [List.getElem?_eq_getElem hl]
              simp [resultPathOf, h _ (List.getElem_mem hl)]
          · rw [if_neg h0]; rfl
        obtain ⟨b, hb⟩ := Option.isSome_iff_exists.1 hprev
        rw [hb]
        cases b with
        | false => rfl
        | true =>
          simp only
          by_cases hd : d = 0
          · rw [if_pos hd]; rfl
          · rw [if_neg hd]
            split
            · exact ih (index + 1) _ (by omega) (by omega)
            · have hl : index + 1 < path.length := by omega
              rw [List.getElem?_eq_getElem hl]
              simp [resultPathOf, h _ (List.getElem_mem hl)]
  have hloop : ∀ d rv, d ≤ path.length → (orientLoop oe path d rv).isSome := by
    intro d
    induction d with
    | zero => intro rv _; rfl
    | succ d ih =>
      intro rv hd
      unfold orientLoop
      dsimp only
      split
      · exact ih _ (by omega)
      · obtain ⟨b, hb⟩ := Option.isSome_iff_exists.1 (hcheck (d + 1) (path.length - (d + 1)) rv (by omega) (by omega))
        rw [hb]
        exact ih _ (by omega)
  unfold orientOptimise
  obtain ⟨rv, hrv⟩ := Option.isSome_iff_exists.1 (hloop path.length (List.replicate path.length false) le_rfl)
  rw [hrv, hres]
  simp only
  clear hrv hloop hcheck hres h rv
  induction path with
  | nil => rfl
  | cons p l ih => rw [List.map_cons, List.foldr_cons, ih]

/-- an instance: elements with an orientation (0: free, 1: oriented); everything is valid -/
def orientDemo : OrientEnv ℕ (ℕ × ℕ × ℕ) := ⟨fun p => p.1, fun p => p.2.1, fun _ => true, fun p => some (p.1, p.2.1, 1), fun _ => true, fun p c => (p.1, c, p.2.2), fun p c => (c, p.2.1, p.2.2)⟩

/-- **C115 is violated**: even if all oriented paths are valid with their neighbours, none replaces its element (the vectors are passed by value). -/
theorem C115_violated : orientLoop orientDemo [(0, 1, 0), (1, 2, 0)] 2 [false, false] = some [true, true] ∧
    orientDemo.orient (0, 1, 0) = some (0, 1, 1) ∧ orientOptimise orientDemo [(0, 1, 0), (1, 2, 0)] = some [(0, 1, 0), (1, 2, 0)] := by
  decide

/-- **C115 is violated** for a path with an element that is not kinodynamic: a null pointer is appended. -/
theorem C115_null_violated (oe : OrientEnv C P) (p : P) (h : oe.kinodynamic p = false) : orientOptimise oe [p] = none := by
  simp [orientOptimise, orientLoop, checkReplace, resultPathOf, orientedValidOf, orientedPathOf, h]

end Optimise
end Rbprm
