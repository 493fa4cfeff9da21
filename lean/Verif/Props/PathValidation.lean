import Verif.Model.PathValidation
import Mathlib.Algebra.Order.Archimedean.Basic
import Mathlib.Tactic.Linarith
import Mathlib.Tactic.SplitIfs
import Mathlib.Data.List.Chain
set_option linter.unusedSectionVars false
/-! # C41, C80: discretised path validation -/
namespace Rbprm
namespace PathValidation
variable {K Q Rep σ : Type _} [Field K] [LinearOrder K] [IsStrictOrderedRing K]

/-! ## Specification -/

/-- the configurations of the path at these times, validated in this order from state `s`, are all accepted; `s'` is
the state afterwards -/
inductive Accepted (path : K → Option Q) (check : Check Q Rep σ) : σ → List K → σ → Prop where
  | nil (s : σ) : Accepted path check s [] s
  | cons {s s' : σ} {t : K} {q : Q} {ts : List K} (hq : path t = some q) (ha : (check s q).1 = true)
      (h : Accepted path check (check s q).2.2 ts s') : Accepted path check s (t :: ts) s'

/-- the path cannot be evaluated at `t`, or its configuration is refused in state `s` -/
def RejectedAt (path : K → Option Q) (check : Check Q Rep σ) (s : σ) (t : K) : Prop :=
  ∀ q, path t = some q → (check s q).1 = false

/-- consecutive times are at most one step apart, in the direction of the validation -/
def Spaced (reverse : Bool) (step : K) (ts : List K) : Prop :=
  ts.IsChain (fun a b => if reverse then b ≤ a ∧ a ≤ b + step else a ≤ b ∧ b ≤ a + step)

/-- the end of the path where the validation begins -/
def start (reverse : Bool) (tmin tmax : K) : K := if reverse then tmax else tmin
/-- the other end -/
def finish (reverse : Bool) (tmin tmax : K) : K := if reverse then tmin else tmax

/-! ## the loops, abstractly -/

/-- both loops -/
def loop (path : K → Option Q) (check : Check Q Rep σ) (next : K → K) (beyond : K → Prop) [DecidablePred beyond] (stop : K) :
    Nat → K → K → Nat → Option Rep → σ → Option (LoopResult K Rep σ)
  | 0, _, _, _, _, _ => none
  | n + 1, t, lastValidTime, finished, configReport, s =>
    if finished < 2 then
      let c := checkAt path check s configReport t
      if c.1 = false then some ⟨false, lastValidTime, some ⟨t, c.2.1⟩, c.2.2⟩
      else if beyond (next t) then loop path check next beyond stop n stop t (finished + 1) c.2.1 c.2.2
      else loop path check next beyond stop n (next t) t finished c.2.1 c.2.2
    else some ⟨true, lastValidTime, none, s⟩

theorem forwardLoop_eq (path : K → Option Q) (check : Check Q Rep σ) (step tmax : K) (n : Nat) (t l : K) (f : Nat)
    (c : Option Rep) (s : σ) : forwardLoop path check step tmax n t l f c s =
      loop path check (· + step) (· > tmax) tmax n t l f c s := by
  induction n generalizing t l f c s with
  | zero => rfl
  | succ n ih => simp only [forwardLoop, loop, ih]

theorem backwardLoop_eq (path : K → Option Q) (check : Check Q Rep σ) (step tmin : K) (n : Nat) (t l : K) (f : Nat)
    (c : Option Rep) (s : σ) : backwardLoop path check step tmin n t l f c s =
      loop path check (· - step) (· < tmin) tmin n t l f c s := by
  induction n generalizing t l f c s with
  | zero => rfl
  | succ n ih => simp only [backwardLoop, loop, ih]

/-- the outcome of a loop started at `t` -/
structure Outcome (path : K → Option Q) (check : Check Q Rep σ) (rel : K → K → Prop) (stop t last : K)
    (c : Option Rep) (s : σ) (r : LoopResult K Rep σ) : Prop where
  valid : r.valid = true → ∃ ts, Accepted path check s ts r.state ∧ ts.IsChain rel ∧ ts.head? = some t ∧
    ts.getLast? = some stop ∧ r.report = none
  invalid : r.valid = false → ∃ ts s' t' rep, Accepted path check s ts s' ∧ (ts ++ [t']).IsChain rel ∧
    (ts ++ [t']).head? = some t ∧ RejectedAt path check s' t' ∧ r.lastValidTime = ts.getLast?.getD last ∧
    r.report = some ⟨t', rep⟩ ∧ (∀ q, path t' = some q → rep = some (check s' q).2.1 ∧ r.state = (check s' q).2.2)

theorem checkAt_true {path : K → Option Q} {check : Check Q Rep σ} {s : σ} {c : Option Rep} {t : K}
    (h : (checkAt path check s c t).1 ≠ false) : ∃ q, path t = some q ∧ (check s q).1 = true ∧
      (checkAt path check s c t).2.2 = (check s q).2.2 := by
  unfold checkAt at *
  cases hq : path t with
  | none => simp [hq] at h
  | some q => rw [hq] at h; exact ⟨q, rfl, by simpa using h, rfl⟩

theorem checkAt_false {path : K → Option Q} {check : Check Q Rep σ} {s : σ} {c : Option Rep} {t : K}
    (h : (checkAt path check s c t).1 = false) : RejectedAt path check s t ∧
      ∀ q, path t = some q → (checkAt path check s c t).2.1 = some (check s q).2.1 ∧
        (checkAt path check s c t).2.2 = (check s q).2.2 := by
  unfold RejectedAt checkAt at *
  cases hq : path t with
  | none => simp
  | some q =>
    rw [hq] at h
    refine ⟨?_, ?_⟩
    · rintro q' ⟨⟩; exact h
    · rintro q' ⟨⟩; exact ⟨rfl, rfl⟩

theorem outcome_cons {path : K → Option Q} {check : Check Q Rep σ} {rel : K → K → Prop} {stop t last t2 : K}
    {c c2 : Option Rep} {s : σ} {q : Q} {r : LoopResult K Rep σ} (hq : path t = some q) (ha : (check s q).1 = true)
    (hr : rel t t2) (h : Outcome path check rel stop t2 t c2 (check s q).2.2 r) :
    Outcome path check rel stop t last c s r := by
  constructor
  · intro hv
    obtain ⟨ts, h1, h2, h3, h4, h5⟩ := h.valid hv
    cases ts with
    | nil => simp at h3
    | cons a ts =>
      simp only [List.head?_cons, Option.some.injEq] at h3
      subst h3
      exact ⟨t :: a :: ts, Accepted.cons hq ha h1, List.isChain_cons_cons.2 ⟨hr, h2⟩, rfl,
        by rw [List.getLast?_cons_cons]; exact h4, h5⟩
  · intro hv
    obtain ⟨ts, s', t', rep, h1, h2, h3, h4, h5, h6, h7⟩ := h.invalid hv
    refine ⟨t :: ts, s', t', rep, Accepted.cons hq ha h1, ?_, rfl, h4, ?_, h6, h7⟩
    · cases ts with
      | nil =>
        simp only [List.nil_append, List.head?_cons, Option.some.injEq] at h3
        subst h3
        exact List.isChain_cons_cons.2 ⟨hr, h2⟩
      | cons a ts =>
        simp only [List.cons_append, List.head?_cons, Option.some.injEq] at h3
        subst h3
        exact List.isChain_cons_cons.2 ⟨hr, h2⟩
    · rw [h5]
      cases ts with
      | nil => rfl
      | cons a ts =>
        rw [List.getLast?_cons_cons]
        cases hl : (a :: ts).getLast? with
        | none => simp at hl
        | some x => rfl

theorem loop_outcome (path : K → Option Q) (check : Check Q Rep σ) (next : K → K) (beyond : K → Prop)
    [DecidablePred beyond] (rel : K → K → Prop) (stop : K) (hrel : ∀ t, ¬ beyond t → ¬ beyond (next t) → rel t (next t))
    (hstop : ∀ t, ¬ beyond t → beyond (next t) → rel t stop) (hb : ¬ beyond stop) (hbn : beyond (next stop))
    (n : Nat) (t last : K) (f : Nat) (c : Option Rep) (s : σ) (hf : f = 0 ∧ ¬ beyond t ∨ f = 1 ∧ t = stop)
    (r : LoopResult K Rep σ) (h : loop path check next beyond stop n t last f c s = some r) :
    Outcome path check rel stop t last c s r := by
  induction n generalizing t last f c s with
  | zero => simp [loop] at h
  | succ n ih =>
    rw [loop] at h
    rw [if_pos (by omega)] at h
    simp only at h
    split_ifs at h with h1 h2
    · -- rejected
      simp only [Option.some.injEq] at h
      subst h
      obtain ⟨h3, h4⟩ := checkAt_false h1
      exact ⟨fun hc => by simp at hc, fun _ => ⟨[], s, t, (checkAt path check s c t).2.1, Accepted.nil s,
        List.isChain_singleton t, rfl, h3, rfl, rfl, h4⟩⟩
    · -- the end is beyond
      obtain ⟨q, hq, ha, hs⟩ := checkAt_true h1
      rw [hs] at h
      rcases hf with ⟨rfl, hnb⟩ | ⟨rfl, rfl⟩
      · exact outcome_cons hq ha (hstop t hnb h2) (ih stop t 1 _ _ (Or.inr ⟨rfl, rfl⟩) h)
      · -- finished
        cases n with
        | zero => simp [loop] at h
        | succ n =>
          rw [loop, if_neg (by omega)] at h
          simp only [Option.some.injEq] at h
          subst h
          exact ⟨fun _ => ⟨[t], Accepted.cons hq ha (Accepted.nil _), List.isChain_singleton t, rfl, rfl, rfl⟩,
            fun hc => by simp at hc⟩
    · obtain ⟨q, hq, ha, hs⟩ := checkAt_true h1
      rw [hs] at h
      rcases hf with ⟨rfl, hnb⟩ | ⟨rfl, rfl⟩
      · exact outcome_cons hq ha (hrel t hnb h2) (ih (next t) t 0 _ _ (Or.inl ⟨rfl, h2⟩) h)
      · exact absurd hbn h2

theorem loop_terminates (path : K → Option Q) (check : Check Q Rep σ) (next : K → K) (beyond : K → Prop)
    [DecidablePred beyond] (stop : K) (hbn : beyond (next stop)) (m : Nat) (t last : K) (c : Option Rep) (s : σ)
    (hm : beyond (next^[m + 1] t)) (n : Nat) (hn : m + 3 ≤ n) :
    (loop path check next beyond stop n t last 0 c s).isSome := by
  have h1 : ∀ n, 2 ≤ n → ∀ last c s, (loop path check next beyond stop n stop last 1 c s).isSome := by
    intro n hn last c s
    obtain ⟨n, rfl⟩ : ∃ k, n = k + 2 := ⟨n - 2, by omega⟩
    rw [loop, if_pos (by omega)]
    simp only
    split_ifs
    · rfl
    · rw [loop, if_neg (by omega)]; rfl
  induction m generalizing t last c s n with
  | zero =>
    obtain ⟨n, rfl⟩ : ∃ k, n = k + 3 := ⟨n - 3, by omega⟩
    rw [loop, if_pos (by omega)]
    simp only [Function.iterate_one, zero_add] at hm
    simp only
    rw [if_pos hm]
    split_ifs
    · rfl
    · exact h1 (n + 2) (by omega) _ _ _
  | succ m ih =>
    obtain ⟨n, rfl⟩ : ∃ k, n = k + 1 := ⟨n - 1, by omega⟩
    rw [loop, if_pos (by omega)]
    simp only
    split_ifs
    · rfl
    · exact h1 n (by omega) _ _ _
    · exact ih (next t) _ _ _ (by rw [← Function.iterate_succ_apply]; exact hm) n (by omega)

/-! ## C41 -/

/-- **C41** (termination).  With a positive step the validation ends, after at most about (length / step) checks. -/
theorem C41_terminates [Archimedean K] (path : K → Option Q) (tmin tmax : K) (reverse : Bool) (check : Check Q Rep σ)
    (step : K) (hstep : 0 < step) (s : σ) (n : Nat) (hn : tmax - tmin < n • step) (fuel : Nat) (hf : n + 3 ≤ fuel) :
    (validate fuel path tmin tmax reverse check step s).isSome := by
  unfold validate validateFrom
  have hn1 : tmax - tmin < (n + 1) * step := by
    rw [nsmul_eq_mul] at hn; linarith
  cases reverse with
  | true =>
    simp only [if_true, Option.isSome_map, backwardLoop_eq]
    refine loop_terminates path check _ _ tmin (by simpa using hstep) n _ _ _ _ ?_ fuel hf
    have : ∀ (m : Nat) (x : K), (fun t => t - step)^[m] x = x - m * step := by
      intro m
      induction m with
      | zero => intro x; simp
      | succ m ih => intro x; rw [Function.iterate_succ_apply, ih]; push_cast; ring
    rw [this]; push_cast; linarith
  | false =>
    simp only [Bool.false_eq_true, if_false, Option.isSome_map, forwardLoop_eq]
    refine loop_terminates path check _ _ tmax (by simpa using hstep) n _ _ _ _ ?_ fuel hf
    have : ∀ (m : Nat) (x : K), (fun t => t + step)^[m] x = x + m * step := by
      intro m
      induction m with
      | zero => intro x; simp
      | succ m ih => intro x; rw [Function.iterate_succ_apply, ih]; push_cast; ring
    rw [this]; push_cast; linarith

/-- such a number of checks exists -/
theorem C41_bound_exists [Archimedean K] (tmin tmax step : K) (hstep : 0 < step) : ∃ n : Nat, tmax - tmin < n • step := by
  obtain ⟨n, hn⟩ := Archimedean.arch (tmax - tmin + step) hstep
  exact ⟨n, by linarith⟩

/-- what a call that returned `r` did -/
structure Validated (path : K → Option Q) (tmin tmax : K) (reverse : Bool) (check : Check Q Rep σ) (step : K) (s : σ)
    (r : Result K Rep σ) : Prop where
  /-- accepted: every checked time accepted, from one end to the other, at most a step apart -/
  valid : r.valid = true → r.validPart = .whole ∧ r.report = none ∧ ∃ ts, Accepted path check s ts r.state ∧
    Spaced reverse step ts ∧ ts.head? = some (start reverse tmin tmax) ∧
    ts.getLast? = some (finish reverse tmin tmax)
  /-- refused: the times before `t` were accepted, `t` is refused, and `validPart` ends at the last accepted time
  (at the starting end, if there is none) -/
  invalid : r.valid = false → ∃ ts s' t rep, Accepted path check s ts s' ∧ RejectedAt path check s' t ∧
    Spaced reverse step (ts ++ [t]) ∧ (ts ++ [t]).head? = some (start reverse tmin tmax) ∧
    r.report = some ⟨t, rep⟩ ∧
    (∀ q, path t = some q → rep = some (check s' q).2.1 ∧ r.state = (check s' q).2.2) ∧
    r.validPart = (if reverse then .extract (ts.getLast?.getD tmax) tmax else .extract tmin (ts.getLast?.getD tmin))

theorem validateFrom_spec (c : Option Rep) (path : K → Option Q) (tmin tmax : K) (hle : tmin ≤ tmax) (reverse : Bool)
    (check : Check Q Rep σ) (step : K) (hstep : 0 < step) (s : σ) (fuel : Nat) (r : Result K Rep σ)
    (h : validateFrom c fuel path tmin tmax reverse check step s = some r) :
    Validated path tmin tmax reverse check step s r := by
  unfold validateFrom at h
  cases reverse with
  | true =>
    simp only [if_true, backwardLoop_eq] at h
    obtain ⟨x, hx, he⟩ := Option.map_eq_some_iff.1 h
    have ho := loop_outcome path check (· - step) (· < tmin) (fun a b => b ≤ a ∧ a ≤ b + step) tmin
      (fun t _ _ => ⟨by linarith, by linarith⟩)
      (fun t h1 h2 => ⟨not_lt.1 h1, by have : t - step < tmin := h2; linarith⟩) (by simp) (by simpa using hstep) fuel tmax
      tmax 0 c s (Or.inl ⟨rfl, not_lt.2 hle⟩) x hx
    split_ifs at he with hv
    · subst he
      obtain ⟨ts, h1, h2, h3, h4, h5⟩ := ho.valid hv
      exact ⟨fun _ => ⟨rfl, h5, ts, h1, by simpa [Spaced] using h2, h3, h4⟩, fun hc => by simp at hc⟩
    · subst he
      obtain ⟨ts, s', t', rep, h1, h2, h3, h4, h5, h6, h7⟩ := ho.invalid (by simpa using hv)
      exact ⟨fun hc => by simp at hc,
        fun _ => ⟨ts, s', t', rep, h1, h4, by simpa [Spaced] using h2, h3, h6, h7, by simp [h5]⟩⟩
  | false =>
    simp only [Bool.false_eq_true, if_false, forwardLoop_eq] at h
    obtain ⟨x, hx, he⟩ := Option.map_eq_some_iff.1 h
    have ho := loop_outcome path check (· + step) (· > tmax) (fun a b => a ≤ b ∧ b ≤ a + step) tmax
      (fun t _ _ => ⟨by linarith, by linarith⟩)
      (fun t h1 h2 => ⟨not_lt.1 h1, by have : t + step > tmax := h2; linarith⟩) (by simp) (by simpa using hstep) fuel tmin
      tmin 0 c s (Or.inl ⟨rfl, not_lt.2 hle⟩) x hx
    split_ifs at he with hv
    · subst he
      obtain ⟨ts, h1, h2, h3, h4, h5⟩ := ho.valid hv
      exact ⟨fun _ => ⟨rfl, h5, ts, h1, by simpa [Spaced] using h2, h3, h4⟩, fun hc => by simp at hc⟩
    · subst he
      obtain ⟨ts, s', t', rep, h1, h2, h3, h4, h5, h6, h7⟩ := ho.invalid (by simpa using hv)
      exact ⟨fun hc => by simp at hc,
        fun _ => ⟨ts, s', t', rep, h1, h4, by simpa [Spaced] using h2, h3, h6, h7, by simp [h5]⟩⟩

/-- **C41.**  `RbPrmPathValidation::validate`: see `Validated`. -/
theorem C41_validate (path : K → Option Q) (tmin tmax : K) (hle : tmin ≤ tmax) (reverse : Bool) (check : Check Q Rep σ)
    (step : K) (hstep : 0 < step) (s : σ) (fuel : Nat) (r : Result K Rep σ)
    (h : validate fuel path tmin tmax reverse check step s = some r) :
    Validated path tmin tmax reverse check step s r := validateFrom_spec none path tmin tmax hle reverse check step hstep s fuel r h

theorem Accepted.mem {path : K → Option Q} {check : Check Q Rep σ} {s s' : σ} {ts : List K}
    (h : Accepted path check s ts s') {t : K} (ht : t ∈ ts) : ∃ s1 q, path t = some q ∧ (check s1 q).1 = true := by
  induction h with
  | nil => simp at ht
  | cons hq ha _ ih =>
    rcases List.mem_cons.1 ht with rfl | ht
    · exact ⟨_, _, hq, ha⟩
    · exact ih ht

/-- **C41** (coverage).  If the path is accepted, every time of the range is at most one step away from an accepted time
on its side of the starting end. -/
theorem C41_coverage (path : K → Option Q) (tmin tmax : K) (hle : tmin ≤ tmax) (reverse : Bool) (check : Check Q Rep σ)
    (step : K) (hstep : 0 < step) (s : σ) (fuel : Nat) (r : Result K Rep σ)
    (h : validate fuel path tmin tmax reverse check step s = some r) (hv : r.valid = true) (u : K)
    (h1 : tmin ≤ u) (h2 : u ≤ tmax) : ∃ t s1 q, path t = some q ∧ (check s1 q).1 = true ∧
      (if reverse then u ≤ t ∧ t ≤ u + step else t ≤ u ∧ u ≤ t + step) := by
  obtain ⟨-, -, ts, ha, hc, hh, hl⟩ := (C41_validate path tmin tmax hle reverse check step hstep s fuel r h).valid hv
  have key : ∃ t ∈ ts, (if reverse then u ≤ t ∧ t ≤ u + step else t ≤ u ∧ u ≤ t + step) := by
    clear ha h hv
    cases reverse with
    | true =>
      simp only [start, finish, Spaced, if_true] at *
      have hx : ∀ x, ts.head? = some x → u ≤ x → ∃ t ∈ ts, u ≤ t ∧ t ≤ u + step := by
        clear hh
        induction ts with
        | nil => simp at hl
        | cons a ts ih =>
          intro x hx hux
          simp only [List.head?_cons, Option.some.injEq] at hx; subst hx
          cases ts with
          | nil => simp at hl; exact ⟨a, by simp, hux, by linarith⟩
          | cons b ts =>
            obtain ⟨hr, hc'⟩ := List.isChain_cons_cons.1 hc
            by_cases hub : u ≤ b
            · obtain ⟨t, ht, h3⟩ := ih hc' (by rwa [List.getLast?_cons_cons] at hl) b rfl hub
              exact ⟨t, List.mem_cons_of_mem _ ht, h3⟩
            · exact ⟨a, by simp, hux, by linarith [hr.2, not_le.1 hub]⟩
      exact hx _ hh h2
    | false =>
      simp only [start, finish, Spaced, Bool.false_eq_true, if_false] at *
      have hx : ∀ x, ts.head? = some x → x ≤ u → ∃ t ∈ ts, t ≤ u ∧ u ≤ t + step := by
        clear hh
        induction ts with
        | nil => simp at hl
        | cons a ts ih =>
          intro x hx hux
          simp only [List.head?_cons, Option.some.injEq] at hx; subst hx
          cases ts with
          | nil => simp at hl; exact ⟨a, by simp, hux, by linarith⟩
          | cons b ts =>
            obtain ⟨hr, hc'⟩ := List.isChain_cons_cons.1 hc
            by_cases hub : b ≤ u
            · obtain ⟨t, ht, h3⟩ := ih hc' (by rwa [List.getLast?_cons_cons] at hl) b rfl hub
              exact ⟨t, List.mem_cons_of_mem _ ht, h3⟩
            · exact ⟨a, by simp, hux, by linarith [hr.2, not_le.1 hub]⟩
      exact hx _ hh h1
  obtain ⟨t, ht, h3⟩ := key
  obtain ⟨s1, q, h4, h5⟩ := ha.mem ht
  exact ⟨t, s1, q, h4, h5, h3⟩

/-- non-vacuity: a path over [0, 5/2] with step 1, accepted up to time 2 and refused at the end; forward and backward -/
example : (validate 9 (fun t : ℚ => some t) 0 (5/2) false (fun (s : ℕ) q => (decide (q ≤ 2), q, s + 1)) 1 0).map
      (fun r => (r.valid, r.validPart, r.report, r.state)) =
    some (false, .extract 0 2, some ⟨5/2, some (5/2)⟩, 4) ∧
  (validate 9 (fun t : ℚ => some t) 0 (5/2) true (fun (s : ℕ) q => (decide (0 < q), q, s + 1)) 1 0).map
      (fun r => (r.valid, r.validPart, r.report, r.state)) =
    some (false, .extract (1/2) (5/2), some ⟨0, some 0⟩, 4) ∧
  (validate 9 (fun t : ℚ => some t) 0 (5/2) true (fun (s : ℕ) q => (true, q, s + 1)) 1 0).map
      (fun r => (r.valid, r.validPart, r.report, r.state)) = some (true, .whole, none, 4) :=
  ⟨by decide +kernel, by decide +kernel, by decide +kernel⟩

/-- the positive step is needed: with step 0 the loop never ends -/
theorem C41_zero_step (path : K → Option Q) (tmin tmax : K) (hle : tmin ≤ tmax) (q : Q) (hq : path tmin = some q)
    (check : Check Q Rep σ) (hc : ∀ s, (check s q).1 = true) (s : σ) (fuel : Nat) :
    (validate fuel path tmin tmax false check 0 s).isNone := by
  unfold validate validateFrom
  simp only [Bool.false_eq_true, if_false, Option.isNone_map]
  have : ∀ (n : Nat) (l : K) (c : Option Rep) (s : σ), (forwardLoop path check 0 tmax n tmin l 0 c s).isNone := by
    intro n
    induction n with
    | zero => intros; rfl
    | succ n ih =>
      intro l c s
      rw [forwardLoop, if_pos (by omega)]
      have : (checkAt path check s c tmin).1 = true := by unfold checkAt; rw [hq]; exact hc s
      simp only
      rw [if_neg (by rw [this]; simp), if_neg (by rw [add_zero]; exact not_lt.2 hle), add_zero]
      exact ih _ _ _
  exact this _ _ _ _

/-! ## C80: the report of a rejected path -/

/-- **C80, partial**: when the path could be evaluated at the rejected time, the report carries the configuration report
made for that configuration (in the state of the validator at that moment). -/
theorem C80_report_partial (path : K → Option Q) (tmin tmax : K) (hle : tmin ≤ tmax) (reverse : Bool)
    (check : Check Q Rep σ) (step : K) (hstep : 0 < step) (s : σ) (fuel : Nat) (r : Result K Rep σ)
    (h : validate fuel path tmin tmax reverse check step s = some r) (hv : r.valid = false)
    (he : ∀ t, (path t).isSome) : ∃ t q s', path t = some q ∧ (check s' q).1 = false ∧
      r.report = some ⟨t, some (check s' q).2.1⟩ := by
  obtain ⟨ts, s', t, rep, -, h2, -, -, h5, h6, -⟩ :=
    (C41_validate path tmin tmax hle reverse check step hstep s fuel r h).invalid hv
  obtain ⟨q, hq⟩ := Option.isSome_iff_exists.1 (he t)
  exact ⟨t, q, s', hq, h2 q hq, by rw [h5, (h6 q hq).1]⟩

/-- **C80 is violated** when the path cannot be evaluated (a projection of its constraints fails): the report at time 1 is
the one of the accepted configuration at time 0. -/
theorem C80_violated : (validate 9 (fun t : ℚ => if t < 1 then some t else none) 0 2 false
      (fun (s : Unit) q => (true, q, s)) 1 ()).map (fun r => (r.valid, r.report)) =
    some (false, some ⟨1, some 0⟩) := by decide +kernel

/-- **C80 is violated** by the dynamic validation with filter: it evaluates the path into an empty vector, for every path
with at least one degree of freedom. -/
theorem C80_dynamic_violated {τ : Type _} (fuel outputSize : Nat) (ho : 0 < outputSize) (path : K → Option Q)
    (tmin tmax : K) (reverse : Bool) (initialCheck rbprm : Check Q Rep σ) (dyn : τ → Q → Rep → Bool × Rep × τ)
    (setInitial : τ → Rep → τ) (step : K) (u : Q) (s : σ × τ) :
    dynamicValidate fuel outputSize path tmin tmax reverse initialCheck rbprm dyn setInitial step u s = .error () := by
  unfold dynamicValidate; rw [if_pos (by omega)]

/-- **C41** for the dynamic validation, when that evaluation is harmless: the same discretisation with both validators. -/
theorem C41_dynamic {τ : Type _} (fuel : Nat) (path : K → Option Q) (tmin tmax : K) (hle : tmin ≤ tmax) (reverse : Bool)
    (initialCheck rbprm : Check Q Rep σ) (dyn : τ → Q → Rep → Bool × Rep × τ)
    (setInitial : τ → Rep → τ) (step : K) (hstep : 0 < step) (u : Q) (s : σ × τ) (r : Result K Rep (σ × τ))
    (h : dynamicValidate fuel 0 path tmin tmax reverse initialCheck rbprm dyn setInitial step u s = .ok (some r)) :
    ∃ s0 : σ × τ, Validated path tmin tmax reverse (dynamicCheck rbprm dyn) step s0 r ∧
      ∀ q, path (start reverse tmin tmax) = some q → s0.2 = setInitial s.2 (initialCheck s.1 q).2.1 := by
  unfold dynamicValidate at h
  rw [if_neg (by omega)] at h
  simp only [Except.ok.injEq] at h
  refine ⟨_, validateFrom_spec _ path tmin tmax hle reverse _ step hstep _ fuel r h, ?_⟩
  intro q hq
  unfold start at hq
  rw [hq]; rfl

/-- both validators must accept -/
theorem C41_both {τ : Type _} (rbprm : Check Q Rep σ) (dyn : τ → Q → Rep → Bool × Rep × τ) (s : σ × τ) (q : Q) :
    (dynamicCheck rbprm dyn s q).1 = true ↔ (rbprm s.1 q).1 = true ∧ (dyn s.2 q (rbprm s.1 q).2.1).1 = true := by
  unfold dynamicCheck
  cases h : (rbprm s.1 q).1 <;> simp [h]

end PathValidation
end Rbprm
