import Verif.Base.AMap
import Mathlib.Algebra.Order.Field.Basic
set_option linter.unusedSectionVars false
/-!
# The stop watch (`src/utils/stop-watch.cc`, `include/hpp/rbprm/utils/stop-watch.hh`)

Times (`long double`) are numbers of an ordered field `K`, the counter is a natural number.  The readings of the clocks are arguments of the operations.
-/
namespace Rbprm
namespace Watch
variable {N K : Type _} [LinearOrder N] [Field K] [LinearOrder K] [IsStrictOrderedRing K]

/-- stop-watch.hh:44–49 `StopwatchMode` -/
inductive Mode | none | cpuTime | realTime
deriving DecidableEq, Repr

/-- stop-watch.hh:209–239 `PerformanceData`; `stops` (an `int`) is unbounded -/
structure Perf (K : Type _) where
  clockStart : K
  totalTime : K
  minTime : K
  maxTime : K
  lastTime : K
  paused : Bool
  stops : ℕ
deriving DecidableEq, Repr

/-- stop-watch.hh:210–217: the initial record, also what `reset` writes (stop-watch.cc:198–204) -/
def Perf.init : Perf K := ⟨0, 0, 0, 0, 0, false, 0⟩

/-- the stop watch (stop-watch.hh:241–249) -/
structure Stopwatch (N K : Type _) where
  active : Bool
  mode : Mode
  records : AMap N (Perf K)

/-- stop-watch.cc:50–52: the constructor -/
def Stopwatch.new (m : Mode) : Stopwatch N K := ⟨true, m, []⟩

/-- the operations; `time` is what `take_time` reads (stop-watch.cc:62–102, which throws if there is no mode), `clock` what `clock()` returns -/
inductive Op (N K : Type _)
  | start (name : N) (time : K)
  | stop (name : N) (time : K)
  | pause (name : N) (clock : K)
  | reset (name : N)
  | resetAll
  | turnOn
  | turnOff
  | setMode (m : Mode)

/-- stop-watch.cc:134–136: the lapse; `perSec` is `CLOCKS_PER_SEC` -/
def lapseOf (perSec : K) (mode : Mode) (clockStart time : K) : K :=
  let lapse := time - clockStart
  if mode = .cpuTime then lapse / perSec else lapse

/-- stop-watch.cc:133–147: the update of a record by `stop` -/
def Perf.stop (p : Perf K) (lapse : K) : Perf K :=
  { p with
    stops := p.stops + 1
    lastTime := lapse
    maxTime := if lapse ≥ p.maxTime then lapse else p.maxTime
    minTime := if lapse ≤ p.minTime ∨ p.minTime = 0 then lapse else p.minTime
    totalTime := p.totalTime + lapse }

/-- stop-watch.cc:56, 104–176, 189–215: one operation (`start`, `stop`, `pause`, `reset`, `reset_all`, `turn_on`, `turn_off`, `set_mode`; the reports, which only print, are left out); the flag is set if an exception is thrown -/
def step (perSec : K) (w : Stopwatch N K) : Op N K → Stopwatch N K × Bool
  | .start name time =>
    if !w.active then (w, false)
    else
      let records := w.records.insertNew name Perf.init
      if w.mode = .none then ({ w with records := records }, true)
      else
        match records.find? name with
        | some p => ({ w with records := records.set name { p with clockStart := time, paused := false } }, false)
        | none => ({ w with records := records }, false)
  | .stop name time =>
    if !w.active then (w, false)
    else if w.mode = .none then (w, true)
    else
      match w.records.find? name with
      | none => (w, true)
      | some p => ({ w with records := w.records.set name (p.stop (lapseOf perSec w.mode p.clockStart time)) }, false)
  | .pause name clock =>
    if !w.active then (w, false)
    else
      match w.records.find? name with
      | none => (w, true)
      | some p =>
        let lapse := clock - p.clockStart
        ({ w with records := w.records.set name { p with lastTime := p.lastTime + lapse, totalTime := p.totalTime + lapse } }, false)
  | .reset name =>
    if !w.active then (w, false)
    else
      match w.records.find? name with
      | none => (w, true)
      | some _ => ({ w with records := w.records.set name Perf.init }, false)
  | .resetAll => if !w.active then (w, false) else ({ w with records := w.records.map fun r => (r.1, Perf.init) }, false)
  | .turnOn => ({ w with active := true }, false)
  | .turnOff => ({ w with active := false }, false)
  | .setMode m => ({ w with mode := m }, false)

/-- a history [stop-watch.cc:104-215] -/
def run (perSec : K) (w : Stopwatch N K) (ops : List (Op N K)) : Stopwatch N K := ops.foldl (fun w o => (step perSec w o).1) w

/-- stop-watch.cc:272–280 `get_average_time`; outer `none`: exception, inner `none`: 0/0 -/
def Stopwatch.average (w : Stopwatch N K) (name : N) : Option (Option K) :=
  (w.records.find? name).map fun p => if p.stops = 0 then none else some (p.totalTime / p.stops)

/-- stop-watch.cc:262–270 `get_total_time`; `none`: exception -/
def Stopwatch.total (w : Stopwatch N K) (name : N) : Option K := (w.records.find? name).map (·.totalTime)
/-- stop-watch.cc:249–260 `get_time_so_far`, with the reading of the clock; `none`: exception -/
def Stopwatch.soFar (perSec : K) (w : Stopwatch N K) (name : N) (time : K) : Option K :=
  match w.records.find? name with
  | none => none
  | some p => if w.mode = .none then none else some (lapseOf perSec w.mode p.clockStart time)
/-- stop-watch.cc:282–290 `get_min_time` -/
def Stopwatch.min (w : Stopwatch N K) (name : N) : Option K := (w.records.find? name).map (·.minTime)
/-- stop-watch.cc:292–300 `get_max_time` -/
def Stopwatch.max (w : Stopwatch N K) (name : N) : Option K := (w.records.find? name).map (·.maxTime)
/-- stop-watch.cc:302–310 `get_last_time` -/
def Stopwatch.last (w : Stopwatch N K) (name : N) : Option K := (w.records.find? name).map (·.lastTime)

end Watch
end Rbprm
