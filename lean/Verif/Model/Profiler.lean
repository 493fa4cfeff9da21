import Verif.Model.Misc
import Verif.Model.ContactGen
import Mathlib.Data.String.Basic
set_option linter.unusedSectionVars false
/-!
# The profiler (`include/hpp/rbprm/rbprm-profiler.hh`) and the counters of contact generation

The profiler is the stop watch of `Model/Stopwatch` with named counters.  A counter (`int`) is an integer without overflow.
-/
namespace Rbprm
namespace Profile
open Watch
variable {N K : Type _} [LinearOrder N] [Field K] [LinearOrder K] [IsStrictOrderedRing K]

/-- `RbPrmProfiler` [rbprm-profiler.hh:32-64] -/
structure Profiler (N K : Type _) where
  watch : Stopwatch N K
  count : AMap N ℤ

/-- rbprm-profiler.cc:36-39 `getRbPrmProfiler`: the profiler of the process when it is first used -/
def Profiler.initial : Profiler N K := ⟨Stopwatch.new .realTime, []⟩

/-- rbprm-profiler.hh:40-47 `add_to_count` -/
def Profiler.addToCount (p : Profiler N K) (event : N) (nbOcc : ℤ) : Profiler N K :=
  match p.count.find? event with
  | none => { p with count := p.count.insertNew event nbOcc }
  | some n => { p with count := p.count.set event (n + nbOcc) }

/-- rbprm-profiler.hh:49-54 `report_count`: the lines that are printed -/
def Profiler.reportCount (p : Profiler N K) : List (N × ℤ) := p.count.map fun it => (it.1, it.2)

/-- rbprm-profiler.hh:56-60 `report_all_and_count`: the lines of the stop watch, then those of the counters; `none`: exception -/
def Profiler.reportAllAndCount (p : Profiler N K) : Option (List (Line N K) × List (N × ℤ)) := p.watch.reportAll.map fun l => (l, p.reportCount)

/-- what the users of the profiler call: an operation that is inherited from the stop watch, or `add_to_count` [rbprm-profiler.hh:32-64] -/
inductive Call (N K : Type _)
  | clock (op : Watch.Op N K)
  | count (event : N) (nbOcc : ℤ)

/-- a call [rbprm-profiler.hh:32-64]; an exception of the stop watch leaves the profiler as the operation has changed it -/
def Profiler.call (perSec : K) (p : Profiler N K) : Call N K → Profiler N K
  | .clock op => { p with watch := (step perSec p.watch op).1 }
  | .count event n => p.addToCount event n

/-- a history [rbprm-profiler.hh:32-64] -/
def Profiler.run (perSec : K) (p : Profiler N K) (calls : List (Call N K)) : Profiler N K := calls.foldl (Profiler.call perSec) p

/-- contact_generation.cc:725-759: what `generate_contact` counts, next to where it sets the status -/
def event : Contact.Status → String
  | .reachable => "reachable contact"
  | .stable => "unreachable stable contact"
  | .unstable => "unstable contact"
  | .noContact => "no contact"

/-- contact_generation.cc:693-762 `generate_contact` with `PROFILE`: the result, and the profiler after it -/
def generateContact {M R Smp : Type _} [LinearOrder M] [CommRing R] [LinearOrder R] (env : Contact.Env M R Smp) (postural : Bool) (params : State M R) (h : Contact.Helper M R) (limb : M) (p : Profiler String K) : Contact.Report M R × Profiler String K :=
  let rep := Contact.generateContact env postural params h limb
  (rep, p.addToCount (event rep.status) 1)

/-- the arguments of a call of `generate_contact` [contact_generation.cc:693-696] -/
structure Attempt (M R Smp : Type _) where
  env : Contact.Env M R Smp
  postural : Bool
  params : State M R
  helper : Contact.Helper M R
  limb : M

/-- calls of `generate_contact`, one after the other [contact_generation.cc:693-762] -/
def attempts {M R Smp : Type _} [LinearOrder M] [CommRing R] [LinearOrder R] : List (Attempt M R Smp) → Profiler String K → List (Contact.Report M R) × Profiler String K
  | [], p => ([], p)
  | a :: as, p =>
    let r := generateContact a.env a.postural a.params a.helper a.limb p
    let rs := attempts as r.2
    (r.1 :: rs.1, rs.2)

end Profile
end Rbprm
