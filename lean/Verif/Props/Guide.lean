import Verif.Props.PathValidation
import Verif.Props.Validation
import Mathlib.Algebra.Order.Field.Rat
import Mathlib.Tactic.NormNum
set_option linter.unusedSectionVars false
/-! # C190: the guide paths that are accepted

`RbPrmPathValidation::validate` composed with `RbPrmValidation::validate`. -/
namespace Rbprm
namespace PathValidation
variable {K Q N O R : Type _} [Field K] [LinearOrder K] [IsStrictOrderedRing K] [LinearOrder N] [DecidableEq O]

/-- what the configurations are: which objects collide at `q`, and whether `q` respects the joint bounds -/
structure Scene (Q O : Type _) where
  collides : Q → O × O → Bool
  bounds : Q → Bool

/-- rbprm-path-validation.cc:66, 95 `rbprmValidation_->validate(q, configReport, filter)`: the validator is the state -/
def pathCheck (sc : Scene Q O) (filter : List N) : Check Q (Option (Validation.Report N O)) (Validation.Validator N O R) :=
  fun v q => match Validation.validate (sc.collides q) (sc.bounds q) v filter with
    | none => (false, none, v)
    | some (b, v', r) => (b, some r, v')

/-! ## Specification -/

/-- the trunk can be at `q`, and each range of motion named by the filter reaches one of its obstacles or is optional -/
def Standing (sc : Scene Q O) (v : Validation.Validator N O R) (filter : List N) (q : Q) : Prop :=
  (∀ p ∈ v.trunkPairs, sc.collides q p = false) ∧ sc.bounds q = true ∧ filter.Nodup ∧
  ∀ n ∈ filter, ∃ rom, AMap.find? v.roms n = some rom ∧ ((∃ p ∈ rom.pairs, sc.collides q p = true) ∨ rom.optional = true)

/-- the path has a configuration at `t`, and it is standing -/
def StandsAt (sc : Scene Q O) (v : Validation.Validator N O R) (filter : List N) (path : K → Option Q) (t : K) : Prop :=
  ∃ q, path t = some q ∧ Standing sc v filter q

/-- the times at which a path is tested: every step from the end at which the validation begins, and the other end -/
def Tested (reverse : Bool) (tmin tmax step t : K) : Prop :=
  t = finish reverse tmin tmax ∨ ∃ k : ℕ, (if reverse then t = tmax - k * step else t = tmin + k * step) ∧ tmin ≤ t ∧ t ≤ tmax

/-! ## The validator -/

/-- `v` is what earlier calls made of `v0` -/
def After (v0 v : Validation.Validator N O R) : Prop :=
  ∃ calls : List ((O × O → Bool) × Bool × List N),
    calls.foldlM (fun w c => (Validation.validate c.1 c.2.1 w c.2.2).map (fun x => x.2.1)) v0 = some v

theorem After.refl (v0 : Validation.Validator N O R) : After v0 v0 := ⟨[], rfl⟩

theorem check_spec (sc : Scene Q O) (filter : List N) (v0 v : Validation.Validator N O R) (hw : AMap.WF v0.roms)
    (hp : ∀ p ∈ v0.roms, Validation.Paired p.2) (hv : After v0 v) (q : Q) :
    ((pathCheck sc filter v q).1 = true ↔ Standing sc v0 filter q) ∧ After v0 (pathCheck sc filter v q).2.2 := by
  obtain ⟨calls, hc⟩ := hv
  obtain ⟨v1, h1, h2, -⟩ := Validation.C79_history_partial v0 hw hp calls (sc.collides q) (sc.bounds q) filter
  rw [hc] at h1
  cases h1
  obtain ⟨b, v', r, e, hb, -⟩ := Validation.C39_validate_partial (sc.collides q) (sc.bounds q) v0 hw hp filter
  rw [e, Option.map_some, Option.map_eq_some_iff] at h2
  obtain ⟨⟨b', w, r'⟩, e', rfl⟩ := h2
  refine ⟨?_, calls ++ [(sc.collides q, sc.bounds q, filter)], ?_⟩
  · simp only [pathCheck, e']
    rw [hb]
    rfl
  · rw [List.foldlM_append, hc]
    simp [pathCheck, e', List.foldlM]

/-! ## The loops, exactly -/

section loop
variable {Rep σ : Type _} {path : K → Option Q} {check : Check Q Rep σ} {next : K → K} {beyond : K → Prop} [DecidablePred beyond] {stop : K}

theorem checkAt_ok {Inv : σ → Prop} {P : Q → Prop} (hc : ∀ s q, Inv s → ((check s q).1 = true ↔ P q) ∧ Inv (check s q).2.2)
    (s : σ) (hs : Inv s) (c : Option Rep) (t : K) :
    ((checkAt path check s c t).1 = true ↔ ∃ q, path t = some q ∧ P q) ∧ Inv (checkAt path check s c t).2.2 := by
  unfold checkAt
  cases hq : path t with
  | none => simpa using hs
  | some q => simpa using hc s q hs

theorem loop_exact {Inv : σ → Prop} {P : Q → Prop} (hc : ∀ s q, Inv s → ((check s q).1 = true ↔ P q) ∧ Inv (check s q).2.2)
    (hstop : beyond (next stop)) (n : Nat) (t l : K) (f : Nat) (c : Option Rep) (s : σ) (hs : Inv s) (r : LoopResult K Rep σ)
    (h : loop path check next beyond stop n t l f c s = some r) :
    (f = 1 → t = stop → (r.valid = true ↔ ∃ q, path stop = some q ∧ P q)) ∧
    (f = 0 → ¬ beyond t → (r.valid = true ↔ (∀ k : ℕ, (∀ j ≤ k, ¬ beyond (next^[j] t)) → ∃ q, path (next^[k] t) = some q ∧ P q) ∧
      ∃ q, path stop = some q ∧ P q)) ∧ (f = 2 → r.valid = true) ∧ (f ≤ 2 → Inv r.state) := by
  induction n generalizing t l f c s with
  | zero => simp [loop] at h
  | succ n ih =>
    rw [loop] at h
    obtain ⟨k1, k2⟩ := checkAt_ok (path := path) hc s hs c t
    by_cases hf : f < 2
    · rw [if_pos hf] at h
      simp only at h
      by_cases ha : (checkAt path check s c t).1 = false
      · rw [if_pos ha] at h
        cases h
        have hno : ¬ ∃ q, path t = some q ∧ P q := by rw [← k1, ha]; simp
        refine ⟨fun _ ht => ?_, fun _ hb => ?_, fun h2 => by omega, fun _ => k2⟩
        · rw [ht] at hno; simp [hno]
        · constructor
          · intro h; simp at h
          · intro h; exact absurd (h.1 0 (by simpa using hb)) hno
      · rw [if_neg ha] at h
        have hok : ∃ q, path t = some q ∧ P q := k1.1 (by simpa using ha)
        by_cases hb : beyond (next t)
        · rw [if_pos hb] at h
          obtain ⟨i1, i2, i3, i4⟩ := ih _ _ _ _ _ k2 h
          refine ⟨fun h1 ht => ?_, fun h0 hnb => ?_, fun h2 => by omega, fun _ => i4 (by omega)⟩
          · rw [ht] at hok
            exact ⟨fun _ => hok, fun _ => i3 (by omega)⟩
          · rw [i1 (by omega) rfl]
            refine ⟨fun hs => ⟨fun k hk => ?_, hs⟩, fun h => h.2⟩
            cases k with
            | zero => simpa using hok
            | succ k => exact absurd (hb) (by simpa using hk 1 (by omega))
        · rw [if_neg hb] at h
          obtain ⟨i1, i2, i3, i4⟩ := ih _ _ _ _ _ k2 h
          refine ⟨fun _ ht => absurd hstop (ht ▸ hb), fun h0 hnb => ?_, fun h2 => by omega, fun _ => i4 (by omega)⟩
          rw [i2 h0 hb]
          refine and_congr_left fun _ => ⟨fun h k hk => ?_, fun h k hk => ?_⟩
          · cases k with
            | zero => simpa using hok
            | succ k =>
              rw [Function.iterate_succ_apply]
              exact h k fun j hj => by
                have := hk (j + 1) (by omega)
                rwa [Function.iterate_succ_apply] at this
          · have := h (k + 1) fun j hj => by
              cases j with
              | zero => simpa using hnb
              | succ j => rw [Function.iterate_succ_apply]; exact hk j (by omega)
            rwa [Function.iterate_succ_apply] at this
    · rw [if_neg hf] at h
      cases h
      refine ⟨fun h1 => by omega, fun h0 => by omega, fun _ => rfl, fun _ => hs⟩

theorem iterate_add (step : K) (k : ℕ) (x : K) : (· + step)^[k] x = x + k * step := by
  induction k generalizing x with
  | zero => simp
  | succ k ih => rw [Function.iterate_succ_apply, ih]; push_cast; ring

theorem iterate_sub (step : K) (k : ℕ) (x : K) : (· - step)^[k] x = x - k * step := by
  induction k generalizing x with
  | zero => simp
  | succ k ih => rw [Function.iterate_succ_apply, ih]; push_cast; ring

/-- the answer of a path validation is that all tested configurations are accepted -/
theorem validate_exact {Inv : σ → Prop} {P : Q → Prop} (hc : ∀ s q, Inv s → ((check s q).1 = true ↔ P q) ∧ Inv (check s q).2.2)
    (tmin tmax : K) (hle : tmin ≤ tmax) (reverse : Bool) (step : K) (hstep : 0 < step) (s : σ) (hs : Inv s) (fuel : Nat)
    (r : Result K Rep σ) (h : validate fuel path tmin tmax reverse check step s = some r) :
    (r.valid = true ↔ ∀ t, Tested reverse tmin tmax step t → ∃ q, path t = some q ∧ P q) ∧ Inv r.state := by
  unfold validate validateFrom at h
  cases reverse with
  | true =>
    simp only [if_true, backwardLoop_eq] at h
    obtain ⟨x, hx, he⟩ := Option.map_eq_some_iff.1 h
    obtain ⟨-, e2, -, e4⟩ := loop_exact (P := P) hc (next := (· - step)) (beyond := (· < tmin)) (by simpa using hstep) fuel _ _ _ _ s hs x hx
    have hval : r.valid = x.valid := by subst he; split_ifs with hv <;> simp_all
    have hst : r.state = x.state := by subst he; split_ifs <;> rfl
    refine ⟨?_, by rw [hst]; exact e4 (by omega)⟩
    rw [hval, e2 rfl (not_lt.2 hle)]
    constructor
    · rintro ⟨h1, h2⟩ t (rfl | ⟨k, hk, ha, hb⟩)
      · exact h2
      · rw [if_pos rfl] at hk
        rw [hk, ← iterate_sub]
        refine h1 k fun j hj => ?_
        rw [iterate_sub, not_lt]
        have : (j : K) * step ≤ k * step := mul_le_mul_of_nonneg_right (by exact_mod_cast hj) hstep.le
        linarith
    · intro h
      refine ⟨fun k hk => ?_, h _ (Or.inl rfl)⟩
      have := hk k le_rfl
      rw [iterate_sub] at this ⊢
      exact h _ (Or.inr ⟨k, by simp, not_lt.1 this, by
        have : 0 ≤ (k : K) * step := mul_nonneg (Nat.cast_nonneg k) hstep.le
        linarith⟩)
  | false =>
    simp only [Bool.false_eq_true, if_false, forwardLoop_eq] at h
    obtain ⟨x, hx, he⟩ := Option.map_eq_some_iff.1 h
    obtain ⟨-, e2, -, e4⟩ := loop_exact (P := P) hc (next := (· + step)) (beyond := (· > tmax)) (by simpa using hstep) fuel _ _ _ _ s hs x hx
    have hval : r.valid = x.valid := by subst he; split_ifs with hv <;> simp_all
    have hst : r.state = x.state := by subst he; split_ifs <;> rfl
    refine ⟨?_, by rw [hst]; exact e4 (by omega)⟩
    rw [hval, e2 rfl (not_lt.2 hle)]
    constructor
    · rintro ⟨h1, h2⟩ t (rfl | ⟨k, hk, ha, hb⟩)
      · exact h2
      · simp only [Bool.false_eq_true, if_false] at hk
        rw [hk, ← iterate_add]
        refine h1 k fun j hj => ?_
        rw [iterate_add, gt_iff_lt, not_lt]
        have : (j : K) * step ≤ k * step := mul_le_mul_of_nonneg_right (by exact_mod_cast hj) hstep.le
        linarith
    · intro h
      refine ⟨fun k hk => ?_, h _ (Or.inl rfl)⟩
      have := hk k le_rfl
      rw [iterate_add] at this ⊢
      exact h _ (Or.inr ⟨k, by simp, by
        have : 0 ≤ (k : K) * step := mul_nonneg (Nat.cast_nonneg k) hstep.le
        linarith, not_lt.1 this⟩)
end loop

/-! ## The properties -/

/-- **C190 (exact)**.  A path is accepted iff the robot is standing at every tested time: every step from the end at which the
validation begins, and at the other end.  The answer does not depend on what was validated before. -/
theorem C190_exact (sc : Scene Q O) (filter : List N) (v0 v : Validation.Validator N O R) (hw : AMap.WF v0.roms)
    (hp : ∀ p ∈ v0.roms, Validation.Paired p.2) (hv : After v0 v) (path : K → Option Q) (tmin tmax : K) (hle : tmin ≤ tmax)
    (reverse : Bool) (step : K) (hstep : 0 < step) (fuel : Nat)
    (r : Result K (Option (Validation.Report N O)) (Validation.Validator N O R))
    (h : validate fuel path tmin tmax reverse (pathCheck sc filter) step v = some r) :
    (r.valid = true ↔ ∀ t, Tested reverse tmin tmax step t → StandsAt sc v0 filter path t) ∧ After v0 r.state :=
  validate_exact (Inv := After v0) (P := Standing sc v0 filter) (fun s q hs => check_spec sc filter v0 s hw hp hs q)
    tmin tmax hle reverse step hstep v hv fuel r h

/-- **C190 (accepted)**.  On an accepted path the robot is standing at both ends, and every time of the path is at most one step
away from one at which it is. -/
theorem C190_accepted (sc : Scene Q O) (filter : List N) (v0 v : Validation.Validator N O R) (hw : AMap.WF v0.roms)
    (hp : ∀ p ∈ v0.roms, Validation.Paired p.2) (hv : After v0 v) (path : K → Option Q) (tmin tmax : K) (hle : tmin ≤ tmax)
    (reverse : Bool) (step : K) (hstep : 0 < step) (fuel : Nat)
    (r : Result K (Option (Validation.Report N O)) (Validation.Validator N O R))
    (h : validate fuel path tmin tmax reverse (pathCheck sc filter) step v = some r) (hr : r.valid = true) :
    StandsAt sc v0 filter path tmin ∧ StandsAt sc v0 filter path tmax ∧
    ∀ u, tmin ≤ u → u ≤ tmax → ∃ t, tmin ≤ t ∧ t ≤ tmax ∧ |u - t| ≤ step ∧ StandsAt sc v0 filter path t := by
  have he := ((C190_exact sc filter v0 v hw hp hv path tmin tmax hle reverse step hstep fuel r h).1).1 hr
  obtain ⟨-, -, ts, ha, hc, hh, hl⟩ := (C41_validate path tmin tmax hle reverse _ step hstep v fuel r h).valid hr
  have hends : StandsAt sc v0 filter path tmin ∧ StandsAt sc v0 filter path tmax := by
    cases reverse with
    | true => exact ⟨he _ (Or.inl rfl), he _ (Or.inr ⟨0, by simp, hle, le_rfl⟩)⟩
    | false => exact ⟨he _ (Or.inr ⟨0, by simp, le_rfl, hle⟩), he _ (Or.inl rfl)⟩
  refine ⟨hends.1, hends.2, ?_⟩
  -- every checked time is in the range, and was accepted by some state of the validator
  have inv : ∀ (s s' : Validation.Validator N O R) (ts : List K), After v0 s → Accepted path (pathCheck sc filter) s ts s' →
      ∀ t ∈ ts, StandsAt sc v0 filter path t := by
    intro s s' ts hs hA
    induction hA with
    | nil => simp
    | cons hq ha _ ih =>
      intro t ht
      have := check_spec sc filter v0 _ hw hp hs
      rcases List.mem_cons.1 ht with rfl | ht
      · exact ⟨_, hq, (this _).1.1 ha⟩
      · exact ih (this _).2 t ht
  have hall := inv v r.state ts hv ha
  have rng : ∀ t ∈ ts, tmin ≤ t ∧ t ≤ tmax := by
    clear hall ha inv
    cases reverse with
    | true =>
      simp only [Spaced, start, finish, if_true] at hc hh hl
      have : ∀ (l : List K) x, l.head? = some x → l.getLast? = some tmin → l.IsChain (fun a b => b ≤ a ∧ a ≤ b + step) →
          ∀ t ∈ l, tmin ≤ t ∧ t ≤ x := by
        intro l
        induction l with
        | nil => simp
        | cons a l ih =>
          intro x hx hlast hch t ht
          simp only [List.head?_cons, Option.some.injEq] at hx; subst hx
          cases l with
          | nil => simp at hlast ht; subst ht; exact ⟨hlast.ge, le_rfl⟩
          | cons b l =>
            obtain ⟨h1, h2⟩ := List.isChain_cons_cons.1 hch
            have := ih b rfl (by rwa [List.getLast?_cons_cons] at hlast) h2
            rcases List.mem_cons.1 ht with rfl | ht
            · exact ⟨(this b (by simp)).1.trans h1.1, le_rfl⟩
            · exact ⟨(this t ht).1, (this t ht).2.trans h1.1⟩
      exact this ts _ hh hl hc
    | false =>
      simp only [Spaced, start, finish, Bool.false_eq_true, if_false] at hc hh hl
      have : ∀ (l : List K) x, l.head? = some x → l.getLast? = some tmax → l.IsChain (fun a b => a ≤ b ∧ b ≤ a + step) →
          ∀ t ∈ l, x ≤ t ∧ t ≤ tmax := by
        intro l
        induction l with
        | nil => simp
        | cons a l ih =>
          intro x hx hlast hch t ht
          simp only [List.head?_cons, Option.some.injEq] at hx; subst hx
          cases l with
          | nil => simp at hlast ht; subst ht; exact ⟨le_rfl, hlast.le⟩
          | cons b l =>
            obtain ⟨h1, h2⟩ := List.isChain_cons_cons.1 hch
            have := ih b rfl (by rwa [List.getLast?_cons_cons] at hlast) h2
            rcases List.mem_cons.1 ht with rfl | ht
            · exact ⟨le_rfl, h1.1.trans (this b (by simp)).2⟩
            · exact ⟨h1.1.trans (this t ht).1, (this t ht).2⟩
      exact this ts _ hh hl hc
  intro u h1 h2
  -- the time just before `u`
  have cov : ∃ t ∈ ts, |u - t| ≤ step := by
    clear hall rng inv ha
    cases reverse with
    | true =>
      simp only [Spaced, start, finish, if_true] at hc hh hl
      have : ∀ (l : List K) x, l.head? = some x → u ≤ x → l.getLast? = some tmin → l.IsChain (fun a b => b ≤ a ∧ a ≤ b + step) →
          ∃ t ∈ l, |u - t| ≤ step := by
        intro l
        induction l with
        | nil => simp
        | cons a l ih =>
          intro x hx hux hlast hch
          simp only [List.head?_cons, Option.some.injEq] at hx; subst hx
          cases l with
          | nil => simp at hlast; exact ⟨a, by simp, by rw [abs_le]; constructor <;> linarith⟩
          | cons b l =>
            obtain ⟨g1, g2⟩ := List.isChain_cons_cons.1 hch
            by_cases hub : u ≤ b
            · obtain ⟨t, ht, h3⟩ := ih b rfl hub (by rwa [List.getLast?_cons_cons] at hlast) g2
              exact ⟨t, List.mem_cons_of_mem _ ht, h3⟩
            · have := not_le.1 hub
              exact ⟨a, by simp, by rw [abs_le]; constructor <;> linarith [g1.2]⟩
      exact this ts _ hh h2 hl hc
    | false =>
      simp only [Spaced, start, finish, Bool.false_eq_true, if_false] at hc hh hl
      have : ∀ (l : List K) x, l.head? = some x → x ≤ u → l.getLast? = some tmax → l.IsChain (fun a b => a ≤ b ∧ b ≤ a + step) →
          ∃ t ∈ l, |u - t| ≤ step := by
        intro l
        induction l with
        | nil => simp
        | cons a l ih =>
          intro x hx hux hlast hch
          simp only [List.head?_cons, Option.some.injEq] at hx; subst hx
          cases l with
          | nil => simp at hlast; exact ⟨a, by simp, by rw [abs_le]; constructor <;> linarith⟩
          | cons b l =>
            obtain ⟨g1, g2⟩ := List.isChain_cons_cons.1 hch
            by_cases hub : b ≤ u
            · obtain ⟨t, ht, h3⟩ := ih b rfl hub (by rwa [List.getLast?_cons_cons] at hlast) g2
              exact ⟨t, List.mem_cons_of_mem _ ht, h3⟩
            · have := not_le.1 hub
              exact ⟨a, by simp, by rw [abs_le]; constructor <;> linarith [g1.2]⟩
      exact this ts _ hh h1 hl hc
  obtain ⟨t, ht, h3⟩ := cov
  exact ⟨t, (rng t ht).1, (rng t ht).2, h3, hall t ht⟩

/-- **C190 (refused)**.  On a refused path the time that is reported is one at which it has no configuration or the robot is not
standing, and the robot is standing at all tested times before it, the last of which ends the part that is returned. -/
theorem C190_refused (sc : Scene Q O) (filter : List N) (v0 v : Validation.Validator N O R) (hw : AMap.WF v0.roms)
    (hp : ∀ p ∈ v0.roms, Validation.Paired p.2) (hv : After v0 v) (path : K → Option Q) (tmin tmax : K) (hle : tmin ≤ tmax)
    (reverse : Bool) (step : K) (hstep : 0 < step) (fuel : Nat)
    (r : Result K (Option (Validation.Report N O)) (Validation.Validator N O R))
    (h : validate fuel path tmin tmax reverse (pathCheck sc filter) step v = some r) (hr : r.valid = false) :
    ∃ t rep ts, r.report = some ⟨t, rep⟩ ∧ ¬ StandsAt sc v0 filter path t ∧ (∀ u ∈ ts, StandsAt sc v0 filter path u) ∧
      Spaced reverse step (ts ++ [t]) ∧ (ts ++ [t]).head? = some (start reverse tmin tmax) ∧
      r.validPart = (if reverse then .extract (ts.getLast?.getD tmax) tmax else .extract tmin (ts.getLast?.getD tmin)) := by
  obtain ⟨ts, s', t, rep, hA, hR, hS, hH, h1, -, h2⟩ := (C41_validate path tmin tmax hle reverse _ step hstep v fuel r h).invalid hr
  have inv : ∀ (s s' : Validation.Validator N O R) (ts : List K), After v0 s → Accepted path (pathCheck sc filter) s ts s' →
      After v0 s' ∧ ∀ t ∈ ts, StandsAt sc v0 filter path t := by
    intro s s' ts hs hA
    induction hA with
    | nil => simpa using hs
    | cons hq ha _ ih =>
      have := check_spec sc filter v0 _ hw hp hs
      obtain ⟨i1, i2⟩ := ih (this _).2
      refine ⟨i1, fun t ht => ?_⟩
      rcases List.mem_cons.1 ht with rfl | ht
      · exact ⟨_, hq, (this _).1.1 ha⟩
      · exact i2 t ht
  obtain ⟨i1, i2⟩ := inv v s' ts hv hA
  refine ⟨t, rep, ts, h1, ?_, i2, hS, hH, h2⟩
  rintro ⟨q, hq, hst⟩
  have := hR q hq
  rw [((check_spec sc filter v0 s' hw hp i1 q).1).2 hst] at this
  cases this

/-- **C190 (same answer)**.  A path that is validated again, in the same direction, whatever was validated in between, is
answered in the same way. -/
theorem C190_again (sc : Scene Q O) (filter : List N) (v0 v v' : Validation.Validator N O R) (hw : AMap.WF v0.roms)
    (hp : ∀ p ∈ v0.roms, Validation.Paired p.2) (hv : After v0 v) (hv' : After v0 v') (path : K → Option Q) (tmin tmax : K)
    (hle : tmin ≤ tmax) (reverse : Bool) (step : K) (hstep : 0 < step) (fuel fuel' : Nat)
    (r r' : Result K (Option (Validation.Report N O)) (Validation.Validator N O R))
    (h : validate fuel path tmin tmax reverse (pathCheck sc filter) step v = some r)
    (h' : validate fuel' path tmin tmax reverse (pathCheck sc filter) step v' = some r') : r.valid = r'.valid := by
  rw [Bool.eq_iff_iff, (C190_exact sc filter v0 v hw hp hv path tmin tmax hle reverse step hstep fuel r h).1,
    (C190_exact sc filter v0 v' hw hp hv' path tmin tmax hle reverse step hstep fuel' r' h').1]

/-! ## A concrete case -/

/-- a robot on a line: the trunk (object 0) meets a wall (object 2) beyond 3; the range of motion 10 reaches the floor (object 1)
except between 3/2 and 2 -/
def lineScene : Scene ℚ ℕ where
  collides q p := match p with
    | (0, 2) => decide (3 < q)
    | (10, 1) => !(decide (3/2 < q) && decide (q < 2))
    | _ => false
  bounds _ := true

/-- the robot on a line -/
def lineRobot : Validation.Validator ℕ ℕ Unit where
  trunkPairs := [(0, 1), (0, 2)]
  trunkAll := false
  roms := [(7, ⟨[(10, 2), (10, 1)], [(), ()], false, false⟩)]
  defaultFilter := [7]

/-- the line of length 3 is accepted with step 1 and refused with step 2/5 (at 8/5), where 6/5 is the last time at which it stands -/
theorem C190_example : AMap.WF lineRobot.roms ∧ (∀ p ∈ lineRobot.roms, Validation.Paired p.2) ∧
    ((validate 20 (fun t : ℚ => some t) 0 3 false (pathCheck lineScene [7]) 1 lineRobot).map (·.valid) = some true) ∧
    ((validate 20 (fun t : ℚ => some t) 0 3 false (pathCheck lineScene [7]) (2/5) lineRobot).map (fun r => (r.valid, r.validPart)) =
      some (false, .extract 0 (6/5))) ∧
    ((validate 20 (fun t : ℚ => some t) 0 4 true (pathCheck lineScene [7]) 1 lineRobot).map (fun r => (r.valid, r.validPart)) =
      some (false, .extract 4 4)) := by
  refine ⟨by unfold AMap.WF; decide, by intro p hp; simp [lineRobot] at hp; subst hp; rfl, by decide +kernel, by decide +kernel, by decide +kernel⟩

end PathValidation
end Rbprm
