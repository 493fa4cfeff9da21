import Verif.Model.Profiler
import Verif.Props.Misc
import Verif.Props.ContactGen
set_option linter.unusedSectionVars false
/-!
# C200: the counters of the profiler
-/
namespace Rbprm
namespace Profile
open Watch
variable {N K : Type _} [LinearOrder N] [Field K] [LinearOrder K] [IsStrictOrderedRing K]

/-! ## Specification: from the history alone -/

/-- the numbers that a history adds to an event -/
def added (event : N) : List (Call N K) → List ℤ
  | [] => []
  | .clock _ :: cs => added event cs
  | .count e n :: cs => if e = event then n :: added event cs else added event cs

/-- the operations of the stop watch in a history -/
def clocks : List (Call N K) → List (Watch.Op N K)
  | [] => []
  | .clock op :: cs => op :: clocks cs
  | .count _ _ :: cs => clocks cs

/-! ## Counters -/

theorem count_addToCount (p : Profiler N K) (e : N) (n : ℤ) (j : N) :
    (p.addToCount e n).count.find? j = if j = e then some ((p.count.find? e).getD 0 + n) else p.count.find? j := by
  unfold Profiler.addToCount
  cases h : p.count.find? e with
  | none =>
    simp only [AMap.find?_insertNew, Option.getD_none, zero_add]
    by_cases hj : j = e
    · subst hj
      simp [h]
    · simp [hj]
  | some m =>
    simp only [AMap.find?_set, Option.getD_some]

theorem wf_addToCount {p : Profiler N K} (h : p.count.WF) (e : N) (n : ℤ) : (p.addToCount e n).count.WF := by
  unfold Profiler.addToCount
  split
  · exact AMap.WF_insertNew h _ _
  · exact AMap.WF_set h _ _

theorem run_cons (perSec : K) (p : Profiler N K) (c : Call N K) (cs : List (Call N K)) : p.run perSec (c :: cs) = (p.call perSec c).run perSec cs := rfl

theorem wf_run (perSec : K) : ∀ (cs : List (Call N K)) (p : Profiler N K), p.count.WF → (p.run perSec cs).count.WF
  | [], _, h => h
  | c :: cs, p, h => by
    rw [run_cons]
    refine wf_run perSec cs _ ?_
    cases c with
    | clock op => exact h
    | count e n => exact wf_addToCount h e n

theorem count_run (perSec : K) : ∀ (cs : List (Call N K)) (p : Profiler N K) (e : N),
    (p.run perSec cs).count.find? e = if added e cs = [] then p.count.find? e else some ((p.count.find? e).getD 0 + (added e cs).sum)
  | [], p, e => by simp [Profiler.run, added]
  | c :: cs, p, e => by
    rw [run_cons, count_run perSec cs]
    cases c with
    | clock op => rfl
    | count e' n =>
      simp only [Profiler.call, count_addToCount, added]
      by_cases h : e' = e
      · subst h
        simp only [if_true]
        by_cases h2 : added e' cs = []
        · simp [h2]
        · simp [h2, add_assoc]
      · have h' : ¬ e = e' := fun x => h x.symm
        simp [h, h']

theorem watch_addToCount (p : Profiler N K) (e : N) (n : ℤ) : (p.addToCount e n).watch = p.watch := by
  unfold Profiler.addToCount
  split <;> rfl

/-- **C200 (lines)** (partial: see `C200_reset_violated`).  The report of the counters has one line for each event that was ever counted, in the order of the names, with the sum of all that was added to it since the process began: whether the stop watch is on
or off, and whatever else is called. -/
theorem C200_lines_partial (perSec : K) (cs : List (Call N K)) :
    ((Profiler.initial.run perSec cs).reportCount.map Prod.fst).Pairwise (· < ·) ∧
    ∀ e n, (e, n) ∈ (Profiler.initial.run perSec cs).reportCount ↔ added e cs ≠ [] ∧ n = (added e cs).sum := by
  have hw : (Profiler.initial.run perSec cs).count.WF := wf_run perSec cs _ AMap.WF_nil
  have e0 : (Profiler.initial.run perSec cs).reportCount = (Profiler.initial.run perSec cs).count := by simp [Profiler.reportCount]
  rw [e0]
  refine ⟨hw, fun e n => ?_⟩
  have key := count_run perSec cs Profiler.initial e
  rw [show (Profiler.initial (N := N) (K := K)).count.find? e = none from rfl, Option.getD_none, zero_add] at key
  constructor
  · intro hm
    rw [AMap.mem_find? hw hm] at key
    split_ifs at key with h
    exact ⟨h, Option.some.inj key⟩
  · rintro ⟨h, rfl⟩
    rw [if_neg h] at key
    exact AMap.find?_some_mem key

/-- **C200 (measures)**.  Counting does not disturb the measures of the stop watch, and the common report has the lines of both: it is that of the stop watch alone, followed by the counters. -/
theorem C200_measures (perSec : K) (cs : List (Call N K)) (p : Profiler N K) :
    (p.run perSec cs).watch = Watch.run perSec p.watch (clocks cs) ∧
    (p.run perSec cs).reportAllAndCount = (Watch.run perSec p.watch (clocks cs)).reportAll.map fun l => (l, (p.run perSec cs).reportCount) := by
  have key : ∀ (cs : List (Call N K)) (p : Profiler N K), (p.run perSec cs).watch = Watch.run perSec p.watch (clocks cs) := by
    intro cs
    induction cs with
    | nil => intro p; rfl
    | cons c cs ih =>
      intro p
      rw [run_cons, ih]
      cases c with
      | clock op => rfl
      | count e n => simp only [Profiler.call, watch_addToCount, clocks]
  refine ⟨key cs p, ?_⟩
  unfold Profiler.reportAllAndCount
  rw [key]

/-- **C200 is violated** by `reset_all`, with which `Interpolate` begins: the measures are reset, but the counters go on from where they were, and the report of a planning has the contacts of all plannings before. -/
theorem C200_reset_violated (perSec : K) (before cs : List (Call N K)) (e : N) (h : added e before ≠ []) :
    (e, (added e before).sum + (added e cs).sum) ∈ (Profiler.initial.run perSec (before ++ .clock .resetAll :: cs)).reportCount := by
  refine ((C200_lines_partial perSec _).2 _ _).2 ?_
  have ha : added e (before ++ .clock .resetAll :: cs) = added e before ++ added e cs := by
    induction before with
    | nil => exact absurd rfl h
    | cons c bs ih =>
      by_cases hb : added e bs = []
      · have : ∀ (bs : List (Call N K)), added e bs = [] → added e (bs ++ .clock .resetAll :: cs) = added e cs := by
          intro bs
          induction bs with
          | nil => intro _; rfl
          | cons c bs ih =>
            intro hb
            cases c with
            | clock op => exact ih hb
            | count e' n =>
              simp only [added] at hb
              split_ifs at hb with he
              simp only [List.cons_append, added, if_neg he]
              exact ih hb
        cases c with
        | clock op => simp only [List.cons_append, added, this bs hb, hb, List.nil_append]
        | count e' n =>
          simp only [List.cons_append, added, this bs hb, hb]
          split_ifs <;> rfl
      · cases c with
        | clock op => exact ih hb
        | count e' n =>
          simp only [List.cons_append, added]
          split_ifs
          · rw [ih hb]; rfl
          · exact ih hb
  rw [ha]
  exact ⟨fun hn => h (List.append_eq_nil_iff.1 hn).1, by simp⟩

/-! ## Contact generation -/

variable {M R Smp : Type _} [LinearOrder M] [CommRing R] [LinearOrder R]

theorem event_injective {a b : Contact.Status} (h : event a = event b) : a = b := by
  cases a <;> cases b <;> first | rfl | (revert h; decide)

/-- **C200 (attempts)**.  Each call of `generate_contact` increments exactly one of four counters, that of its status, by one: after any calls, the counter of a status has increased by the number of calls with this status, other counters are unchanged; counting
does not change the results. -/
theorem C200_attempts (as : List (Attempt M R Smp)) (p : Profiler String K) :
    (attempts as p).1 = as.map (fun a => Contact.generateContact a.env a.postural a.params a.helper a.limb) ∧
    (∀ s, ((attempts as p).2.count.find? (event s)).getD 0 = (p.count.find? (event s)).getD 0 + ((attempts as p).1.countP fun r => decide (r.status = s) : ℕ)) ∧
    (∀ e, (∀ s, e ≠ event s) → (attempts as p).2.count.find? e = p.count.find? e) ∧ (attempts as p).2.watch = p.watch := by
  induction as generalizing p with
  | nil => exact ⟨rfl, fun s => by simp [attempts], fun _ _ => rfl, rfl⟩
  | cons a as ih =>
    obtain ⟨i1, i2, i3, i4⟩ := ih (generateContact a.env a.postural a.params a.helper a.limb p).2
    refine ⟨?_, fun s => ?_, fun e he => ?_, ?_⟩
    · simp only [attempts, i1, List.map_cons]
      rfl
    · simp only [attempts, i2, List.countP_cons]
      simp only [generateContact, count_addToCount]
      by_cases h : (Contact.generateContact a.env a.postural a.params a.helper a.limb).status = s
      · subst h
        simp
        ring
      · have : ¬ event s = event (Contact.generateContact a.env a.postural a.params a.helper a.limb).status := fun x => h (event_injective x).symm
        simp [h, this]
    · simp only [attempts, i3 e he]
      simp only [generateContact, count_addToCount, if_neg (he _)]
    · simp only [attempts, i4]
      exact watch_addToCount _ _ _

/-- **C200 (successes)**.  When equilibrium is required and unreachable contacts are not accepted, the counter of the reachable contacts is the number of the successful calls. -/
theorem C200_successes (as : List (Attempt M R Smp)) (h : ∀ a ∈ as, a.helper.checkStabilityGenerate = true ∧ a.helper.acceptUnreachable = false) :
    ((attempts as (Profiler.initial (K := K))).2.count.find? "reachable contact").getD 0 = ((attempts as (Profiler.initial (K := K))).1.countP fun r => r.success : ℕ) := by
  obtain ⟨h1, h2, -, -⟩ := C200_attempts as (Profiler.initial (K := K))
  have := h2 .reachable
  rw [show event .reachable = "reachable contact" from rfl, show (Profiler.initial (N := String) (K := K)).count.find? "reachable contact" = none from rfl, Option.getD_none, zero_add] at this
  rw [this]
  congr 1
  apply List.countP_congr
  intro r hr
  rw [h1] at hr
  obtain ⟨a, ha, rfl⟩ := List.mem_map.1 hr
  obtain ⟨c1, c2⟩ := h a ha
  unfold Contact.generateContact
  simp only
  split_ifs <;> simp [c1, c2]

/-- non-vacuity of `C200_successes`: equilibrium required, and a call that succeeds is counted twice if it is made twice -/
example : let a : Attempt ℕ ℤ ℤ := ⟨Contact.demoEnv, false, Contact.demoHelper.workingState, { Contact.demoHelper with checkStabilityGenerate := true, acceptUnreachable := false }, 3⟩
    (attempts [a, a] (Profiler.initial (K := ℚ))).2.reportCount = [("reachable contact", 2)] := by decide +kernel

/-- non-vacuity: two plannings, of which the second counts one contact -/
example : (Profiler.initial (N := String) (K := ℚ)).reportCount = [] ∧
    ((Profiler.initial (N := String) (K := ℚ)).run 1 [.count "reachable contact" 1, .clock (.start "complete generation" 1), .count "no contact" 1, .count "reachable contact" 1, .clock (.stop "complete generation" 3)]).reportCount =
      [("no contact", 1), ("reachable contact", 2)] := by
  refine ⟨rfl, ?_⟩
  decide +kernel

example : ((Profiler.initial (N := String) (K := ℚ)).run 1 [.count "no contact" 1, .clock .resetAll, .count "no contact" 1]).reportCount = [("no contact", 2)] := by decide +kernel

end Profile
end Rbprm
