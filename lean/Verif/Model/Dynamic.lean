import Verif.Base.Vec3
import Verif.Base.AMap
import Mathlib.Algebra.Order.Field.Basic
import Mathlib.Algebra.Order.Group.Unbundled.Abs
set_option linter.unusedSectionVars false
/-!
# Model of the kinodynamic steering method and of the dynamic validation
(`rbprm-steering-kinodynamic.cc`, `dynamic-validation.cc`)

Numbers are an ordered field `K`.  hpp-core's steering method, the acceleration along its paths and the linear programs of
`centroidal_dynamics` are oracles.
-/
namespace Rbprm
namespace Dynamic
variable {K A C N : Type _} [Field K] [LinearOrder K]

/-! ### steering -/

/-- `core::KinodynamicPath`, of time range `[0, len]`: for each axis the durations T0, T1, Tv; the acceleration at a time [hpp-core, used in rbprm-steering-kinodynamic.cc:80-319] -/
structure KPath (K A : Type _) where
  len : K
  axes : List (K × K × K)
  acc : K → A

/-- what a steering method returns: a null pointer, a path, or `path->extract(interval_t(a, b))` [rbprm-steering-kinodynamic.cc:80-319] -/
inductive Steered (K A : Type _) where
  | null
  | whole (p : KPath K A)
  | part (p : KPath K A) (a b : K)

/-- the oracles [rbprm-steering-kinodynamic.cc:80-449] -/
structure SteerEnv (K A C N : Type _) where
  config : N → C
  /-- `core::steeringMethod::Kinodynamic::impl_compute` for the given bounds on the acceleration -/
  kino : Vec3 K → C → C → Option (KPath K A)
  /-- `getA1()` after `normalize()` -/
  direction : KPath K A → Vec3 K
  /-- `findMaximumAcceleration` for the contacts of the node: the value of `alpha0` afterwards (its initial value 1 if the program could not be solved) -/
  maxAcceleration : N → Vec3 K → K
  /-- `checkAdmissibleAcceleration` for the contacts of the node -/
  admissible : N → A → Bool
  aMaxFixed : K
  aMaxFixedZ : K

variable (env : SteerEnv K A C N)

/-- what `setSteeringMethodBounds` leaves: the path, `aMax_`, `boundsUpToDate_` [rbprm-steering-kinodynamic.cc:345-449] -/
structure Bounds (K A : Type _) where
  path : Option (KPath K A)
  aMax : Vec3 K
  upToDate : Bool

/-- rbprm-steering-kinodynamic.cc:321-343 `computeDirection`: path and `lastDirection_` -/
def computeDirection (start target : C) (reverse : Bool) : Option (KPath K A) × Vec3 K :=
  let aMax : Vec3 K := ⟨env.aMaxFixed, env.aMaxFixed, env.aMaxFixedZ⟩
  let path := if reverse then env.kino aMax target start else env.kino aMax start target
  (path, match path with
    | some p => env.direction p
    | none => ⟨0, 0, 0⟩)

/-- rbprm-steering-kinodynamic.cc:345-445 `setSteeringMethodBounds`; the norm is compared with epsilon by means of squares -/
def setBounds (node : N) (target : C) (reverse : Bool) : Bounds K A :=
  let aMax : Vec3 K := ⟨env.aMaxFixed, env.aMaxFixed, env.aMaxFixedZ⟩
  let pd := computeDirection env (env.config node) target reverse
  if pd.2.normSq ≤ (1 / 2 ^ 52) ^ 2 then ⟨none, aMax, true⟩
  else
    let alpha := env.maxAcceleration node pd.2
    let b : Vec3 K × Bool :=
      if alpha ≤ env.aMaxFixed then
        let alpha := alpha - 1 / 100
        (⟨|alpha * pd.2.x|, |alpha * pd.2.y|, |alpha * pd.2.z|⟩, false)
      else (aMax, true)
    ⟨pd.1, if b.1.z < env.aMaxFixedZ then ⟨b.1.x, b.1.y, env.aMaxFixedZ⟩ else b.1, b.2⟩

/-- `epsilon` (rbprm-steering-kinodynamic.cc:135, 254) -/
def eps : K := 1 / 10000

/-- rbprm-steering-kinodynamic.cc:147-181: the times at which the acceleration is checked for one axis -/
def forwardTimes (d : K × K × K) : List K :=
  let a := if d.1 > 0 then d.1 + eps else eps
  let b := if d.2.1 > 0 then a + d.2.1 else a
  let c := if d.2.2 > 0 then b + d.2.2 else b
  (if d.1 > 0 then [a] else []) ++ (if d.2.1 > 0 then [b] else []) ++ (if d.2.2 > 0 then [c] else [])

/-- rbprm-steering-kinodynamic.cc:266-300: the same backwards -/
def backwardTimes (d : K × K × K) : List K :=
  let a := if d.1 > 0 then d.1 - eps else -eps
  let b := if d.2.1 > 0 then a + d.2.1 else a
  let c := if d.2.2 > 0 then b + d.2.2 else b
  (if d.1 > 0 then [a] else []) ++ (if d.2.1 > 0 then [b] else []) ++ (if d.2.2 > 0 then [c] else [])

/-- rbprm-steering-kinodynamic.cc:120-200: the checks of the accelerations, forward -/
def cutForward (node : N) (p : KPath K A) : Steered K A :=
  if env.admissible node (p.acc eps) = false then .null
  else
    let maxT := (p.axes.flatMap forwardTimes).foldl (fun maxT t => if env.admissible node (p.acc t) = false ∧ t < maxT then t else maxT) p.len
    if maxT < p.len then .part p 0 (0 + (maxT - eps)) else .whole p

/-- rbprm-steering-kinodynamic.cc:238-318: the same backwards -/
def cutBackward (node : N) (p : KPath K A) : Steered K A :=
  if env.admissible node (p.acc (p.len - eps)) = false then .null
  else
    let minT := (p.axes.flatMap backwardTimes).foldl (fun minT t => if env.admissible node (p.acc t) = false ∧ t > minT then t else minT) 0
    if minT > 0 then .part p (minT + eps) p.len else .whole p

/-- rbprm-steering-kinodynamic.cc:80-201 and 204-318 `impl_compute` from a node to a configuration, or (`reverse`) from a configuration to a node.  The statistics (time, directions) are left out. -/
def steer (node : N) (q : C) (reverse : Bool) : Steered K A :=
  let b := setBounds env node q reverse
  if |b.aMax.x| + |b.aMax.y| ≤ 0 then .null
  else if b.upToDate then
    match b.path with
    | none => .null
    | some p => .whole p
  else
    match (if reverse then env.kino b.aMax q (env.config node) else env.kino b.aMax (env.config node) q) with
    | none => .null
    | some p =>
      if p.len > 50 then .null
      else if reverse then cutBackward env node p else cutForward env node p

/-! ### dynamic validation -/

/-- oracles of `DynamicValidation`: the acceleration of a configuration, the matrices of a node filled from a report, the admissibility of an acceleration for them [dynamic-validation.cc:38-131] -/
structure DynEnv (C A Rep M : Type _) where
  acceleration : C → A
  fill : Rep → C → M
  admissible : M → A → Bool

/-- the members of `DynamicValidation`; `none`: null pointer, uninitialised [dynamic-validation.hh:50-88] -/
structure DynState (A Rep M : Type _) where
  lastReport : Option Rep
  initContacts : Bool
  lastAcc : Option A
  matrices : Option M

variable {Rom Obj M : Type _} [LinearOrder Rom] [DecidableEq Obj] [DecidableEq A]

/-- `RbprmValidationReport::ROMReports`: the object in contact with each ROM [rbprm-validation-report.hh:40] -/
abbrev Report (Rom Obj : Type _) := AMap Rom Obj

/-- dynamic-validation.cc:60-81: `sameContacts` -/
def sameContacts (last report : Report Rom Obj) : Bool :=
  report.all fun e => match last.find? e.1 with
    | none => true
    | some o => decide (o = e.2)

/-- dynamic-validation.cc:38-131 `validate`; `report` is `none` if it cannot be cast; the result is `none` if a null pointer or an uninitialised value is used -/
def validate (env : DynEnv C A (Report Rom Obj) M) (st : DynState A (Report Rom Obj) M) (q : C) (report : Option (Report Rom Obj)) :
    Option (Bool × DynState A (Report Rom Obj) M) :=
  match report with
  | none => some (false, st)
  | some r =>
    match st.lastReport with
    | none => none
    | some last =>
      if last.length ≠ r.length then some (false, st)
      else if sameContacts last r = true ∧ st.initContacts = true then some (true, st)
      else if sameContacts last r = true then
        match st.lastAcc, st.matrices with
        | some a, some m =>
          if env.acceleration q = a then some (true, st)
          else some (env.admissible m (env.acceleration q), { st with lastAcc := some (env.acceleration q) })
        | _, _ => none
      else
        let m := env.fill r q
        some (env.admissible m (env.acceleration q), ⟨some r, false, some (env.acceleration q), some m⟩)

/-- dynamic-validation.cc:133-142 `setInitialReport` -/
def setInitialReport (st : DynState A (Report Rom Obj) M) (report : Option (Report Rom Obj)) : DynState A (Report Rom Obj) M :=
  match report with
  | none => st
  | some r => { st with lastReport := some r, initContacts := true }

end Dynamic
end Rbprm
