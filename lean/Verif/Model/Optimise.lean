import Mathlib.Algebra.Order.Field.Basic
import Mathlib.Algebra.BigOperators.Group.List.Basic
set_option linter.unusedSectionVars false
/-!
# Model of the path optimisers (`random-shortcut-dynamic.cc`, `oriented-path-optimizer.cc`)

Lengths and times are an ordered field `K`.  A `core::PathVector` is the list of its elementary paths (type `P`), its time
range is `[0, length]`, its length the sum of their lengths.  What comes from hpp-core (evaluation, extraction, steering,
validation) is an oracle; the `ℕ` argument is the number of the iteration, so that an oracle may depend on a state.
-/
namespace Rbprm
namespace Optimise
variable {K C P : Type _} [Field K] [LinearOrder K]

/-- how a call can end [random-shortcut-dynamic.cc:107-284, oriented-path-optimizer.cc:92-270] -/
inductive Outcome (α : Type _) where
  | ok (a : α)
  /-- an exception leaves the function -/
  | thrown
  /-- a null pointer is dereferenced -/
  | undefined
  /-- the given number of iterations does not suffice -/
  | timeout
deriving DecidableEq

/-- sequential composition [random-shortcut-dynamic.cc:107-284] -/
def Outcome.bind {α β : Type _} : Outcome α → (α → Outcome β) → Outcome β
  | .ok a, f => f a
  | .thrown, _ => .thrown
  | .undefined, _ => .undefined
  | .timeout, _ => .timeout

/-- hpp-core: elementary paths and path vectors [random-shortcut-dynamic.cc:107-284] -/
structure PathEnv (K C P : Type _) where
  len : P → K
  initial : P → C
  final : P → C
  /-- `(*path)(q, t)`; `none`: returns false -/
  eval : ℕ → List P → K → Option C
  /-- `path->extract(make_pair(a, b))`; `none`: `projection_error` -/
  extract : ℕ → List P → K → K → Option (List P)
  /-- `(*sm_)(x1, q2)` of the node made from `q1`; `none`: null pointer -/
  sm : ℕ → C → C → Option P
  /-- `problem()->pathProjector()` (`none`: null pointer); `apply`, `none`: returns false -/
  projector : Option (P → Option P)
  /-- `problem()->pathValidation()->validate` -/
  valid : ℕ → P → Bool

variable (env : PathEnv K C P)

/-- random-shortcut-dynamic.cc:88-105 `PathLength::run` (for both values of the template argument) -/
def total (p : List P) : K := (p.map env.len).sum

/-- random-shortcut-dynamic.cc:244-281 `steer` (the contacts of the node are part of the oracle `sm`) -/
def steer [DecidableEq C] (k : ℕ) (q1 q2 : C) : Option P :=
  match env.sm k q1 q2 with
  | none => none
  | some dp =>
    if env.initial dp ≠ q1 ∨ env.final dp ≠ q2 then none
    else if env.len dp ≤ 1 / 1000 then none
    else match env.projector with
      | none => some dp
      | some f => f dp

/-- random-shortcut-dynamic.cc:137-153: the loop that draws `t[1]`, `t[2]`; `rand i` is the `i`-th value of
`rand() / RAND_MAX`; also the number of values used -/
def draw (m t3 : K) (rand : ℕ → K) : ℕ → ℕ → Option (K × K × ℕ)
  | 0, _ => none
  | f + 1, pos =>
    let u2 := 0 + m + (t3 - 0 - 2 * m) * rand pos
    let u1 := 0 + m + (t3 - 0 - 2 * m) * rand (pos + 1)
    let t := if u1 < u2 then (u1, u2) else (u2, u1)
    if t.1 - 0 < m ∨ t3 - t.2 < m ∨ t.2 - t.1 < m then draw m t3 rand f (pos + 2)
    else some (t.1, t.2, pos + 2)

/-- random-shortcut-dynamic.cc:174-189: `straight[i]` if `valid[i]`; the extraction is outside of the `try` -/
def candidate [DecidableEq C] (k : ℕ) (tmp : List P) (q q' : C) (t t' : K) : Outcome (Option P) :=
  match steer env k q q' with
  | none => .ok none
  | some s =>
    match env.extract k tmp t t' with
    | none => .thrown
    | some e => .ok (if env.len s < total env e ∧ env.valid k s = true then some s else none)

/-- `--` of a `std::size_t` [random-shortcut-dynamic.cc:107-242] -/
def dec (x : ℕ) : ℕ := if x = 0 then 2 ^ 64 - 1 else x - 1

/-- the variables of the loop 200-214: the path vector `result`, the one of `tmpPath`, whether both pointers are equal,
`projectionError` [random-shortcut-dynamic.cc:200-214] -/
structure Repl (P : Type _) where
  result : List P
  tmp : List P
  aliased : Bool
  projectionError : ℕ

/-- `result->appendPath`, `result->concatenate`: appended to `*tmpPath` as well if both pointers are equal [random-shortcut-dynamic.cc:200-214] -/
def Repl.append (r : Repl P) (e : List P) : Repl P :=
  { r with result := r.result ++ e, tmp := if r.aliased then r.result ++ e else r.tmp }

/-- random-shortcut-dynamic.cc:200-214, one iteration -/
def replace (k : ℕ) (r : Repl P) (seg : Option P × K × K) : Repl P :=
  match seg.1 with
  | some s => r.append [s]
  | none =>
    match env.extract k r.tmp seg.2.1 seg.2.2 with
    | some e => r.append e
    | none => ⟨r.tmp, r.tmp, true, dec r.projectionError⟩

/-- the variables of the loop 134-231; in the deque `length`, `none` is infinity [random-shortcut-dynamic.cc:134-231] -/
structure St (K P : Type _) where
  tmp : List P
  result : Option (List P)
  length : List (Option K)
  projectionError : ℕ
  finished : Bool
deriving DecidableEq

/-- random-shortcut-dynamic.cc:215-230; `last` is `length[n - 1]` -/
def accept (n : ℕ) (last : K) (length : List (Option K)) (r : Repl P) : St K P :=
  let newLength := total env r.result
  if last - newLength ≤ 10 * (1 / 2 ^ 52) then ⟨r.tmp, some r.tmp, length, dec r.projectionError, false⟩
  else
    let length := (length ++ [some newLength]).tail
    let finished := match length.head? with
      | some (some l0) => decide (l0 - newLength ≤ 1 / 10000 * newLength)
      | _ => false
    ⟨r.result, some r.result, length, n, finished⟩

/-- random-shortcut-dynamic.cc:154-230: the body of the loop, for the drawn `t1`, `t2` -/
def body [DecidableEq C] (n k : ℕ) (q0 q3 : C) (last : K) (st : St K P) (t1 t2 : K) : Outcome (St K P) :=
  match env.eval k st.tmp t1 with
  | none => .ok { st with projectionError := dec st.projectionError }
  | some q1 =>
    match env.eval k st.tmp t2 with
    | none => .ok { st with projectionError := dec st.projectionError }
    | some q2 =>
      let t3 := total env st.tmp
      (candidate env k st.tmp q0 q1 0 t1).bind fun v0 =>
      (candidate env k st.tmp q1 q2 t1 t2).bind fun v1 =>
      (candidate env k st.tmp q2 q3 t2 t3).bind fun v2 =>
      .ok (accept env n last st.length
        ([(v0, 0, t1), (v1, t1, t2), (v2, t2, t3)].foldl (replace env k) ⟨[], st.tmp, false, st.projectionError⟩))

/-- random-shortcut-dynamic.cc:134-231 the loop, and 232-238: the result is dereferenced.  `k` counts the iterations,
`pos` the random numbers, `last` is `length[n - 1]`, the length of `tmpPath`. -/
def loop [DecidableEq C] (n : ℕ) (q0 q3 : C) (m : K) (rand : ℕ → K) (drawFuel : ℕ) : ℕ → ℕ → ℕ → St K P → Outcome (List P)
  | 0, _, _, _ => .timeout
  | f + 1, k, pos, st =>
    if st.finished = true ∨ st.projectionError = 0 then
      match st.result with
      | none => .undefined
      | some r => .ok r
    else
      match draw m (total env st.tmp) rand drawFuel pos with
      | none => .timeout
      | some (t1, t2, pos) =>
        match st.length.getLast? with
        | some (some last) =>
          (body env n k q0 q3 last st t1 t2).bind fun st => loop n q0 q3 m rand drawFuel f (k + 1) pos st
        | _ => .undefined

/-- random-shortcut-dynamic.cc:107-242 `optimize`; `n` is the parameter NumberOfLoops (0: the deque of size
`n - 1 = 2^64 - 1` cannot be allocated); an empty path has no initial configuration. -/
def optimise [DecidableEq C] (n : ℕ) (path : List P) (rand : ℕ → K) (drawFuel fuel : ℕ) : Outcome (List P) :=
  match path.head?, path.getLast? with
  | some a, some b =>
    if n = 0 then .thrown
    else loop env n (env.initial a) (env.final b) (min 1 (total env path * (1 / 5))) rand drawFuel fuel 0 0
      ⟨path, none, List.replicate (n - 1) none ++ [some (total env path)], n, false⟩
  | _, _ => .undefined

/-! ### orientation -/

/-- hpp-core: kinodynamic paths [oriented-path-optimizer.cc:92-270] -/
structure OrientEnv (C P : Type _) where
  initial : P → C
  final : P → C
  /-- `dynamic_pointer_cast<KinodynamicPath>` is not null -/
  kinodynamic : P → Bool
  /-- `KinodynamicOrientedPath::create` -/
  orient : P → Option P
  /-- `rbprmPathValidation_->validate` -/
  valid : P → Bool
  /-- copy with another end, or another initial configuration -/
  withEnd : P → C → P
  withInitial : P → C → P

variable (oe : OrientEnv C P)

/-- oriented-path-optimizer.cc:169-230 `checkReplaceOrientation`.  The vectors are passed by value: what is written into
them is seen by the recursive call only.  The first argument is `lastIndex - index`; `none`: a null pointer is
dereferenced. -/
def checkReplace : ℕ → ℕ → List Bool → List Bool → List (Option P) → List (Option P) → Option Bool
  | 0, _, _, _, _, _ => none
  | d + 1, index, replaceValid, orientedValid, orientedPaths, resultPaths =>
    match orientedValid[index]?, (orientedPaths[index]?).join with
    | none, _ => none
    | some false, _ => some false
    | some true, none => none
    | some true, some oriented =>
      let previousValid : Option Bool :=
        if 0 < index then
          if orientedValid[index - 1]? = some true ∧ replaceValid[index - 1]? = some true then some true
          else (resultPaths[index - 1]?).join.map fun p => oe.valid (oe.withEnd p (oe.initial oriented))
        else some true
      match previousValid with
      | none => none
      | some false => some false
      | some true =>
        if d = 0 then some true
        else if orientedValid[index + 1]? = some true then
          checkReplace d (index + 1) (replaceValid.set index true) orientedValid orientedPaths resultPaths
        else (resultPaths[index + 1]?).join.map fun p => oe.valid (oe.withInitial p (oe.final oriented))

/-- oriented-path-optimizer.cc:109-124: the loop over the elements -/
def orientedPathOf (p : P) : Option P := if oe.kinodynamic p = true then oe.orient p else none
/-- oriented-path-optimizer.cc:109-124 -/
def orientedValidOf (p : P) : Bool := match orientedPathOf oe p with
  | some o => oe.valid o
  | none => false
/-- oriented-path-optimizer.cc:109-124 -/
def resultPathOf (p : P) : Option P := if oe.kinodynamic p = true then some p else none

/-- oriented-path-optimizer.cc:135-141: the loop; the vector `replaceValid` -/
def orientLoop (path : List P) : ℕ → List Bool → Option (List Bool)
  | 0, replaceValid => some replaceValid
  | d + 1, replaceValid =>
    let index := path.length - (d + 1)
    if replaceValid[index]? = some true then orientLoop path d replaceValid
    else match checkReplace oe (d + 1) index replaceValid (path.map (orientedValidOf oe)) (path.map (orientedPathOf oe)) (path.map (resultPathOf oe)) with
      | none => none
      | some b => orientLoop path d (replaceValid.set index b)

/-- oriented-path-optimizer.cc:92-155 `optimize`; `none`: a null pointer is dereferenced (149: an element that is not
kinodynamic is appended as a null pointer) -/
def orientOptimise (path : List P) : Option (List P) :=
  match orientLoop oe path path.length (List.replicate path.length false) with
  | none => none
  | some _ => (path.map (resultPathOf oe)).foldr (fun o l => match o, l with
      | some p, some l => some (p :: l)
      | _, _ => none) (some [])

end Optimise
end Rbprm
