import Verif.Model.Shooter
import Verif.Model.Surfaces
import Verif.Model.Stopwatch
set_option linter.unusedSectionVars false
/-!
# Model of smaller functions: the normal with which the shooter pushes the trunk out of an obstacle (`rbprm-shooter.cc`), the postural task (`projection.cc`, `rbprm-fullbody.cc`)
and the reports of the stop watch (`stop-watch.cc`)
-/
namespace Rbprm

/-! ### the shooter pushes out of collision -/
namespace Shoot
variable {K ω : Type _} [Field K] [LinearOrder K]

/-- an obstacle (`report->object2`): its mesh, if its geometry is a triangle mesh, and its placement [rbprm-shooter.cc:377-398] -/
structure Obstacle (K : Type _) where
  mesh : Option (Surface.Mesh K)
  placement : Reach.Transform K

/-- the first contact of a collision of the trunk: the obstacle, the index of its triangle (`b2`), the penetration depth [rbprm-shooter.cc:377-398, 464-466] -/
structure TrunkContact (K : Type _) where
  object2 : Obstacle K
  b2 : ℕ
  depth : K

/-- rbprm-shooter.cc:377-398 `normalFromTriangleContact` before the normalisation; `none`: an index outside of the mesh -/
def triangleContactNormal (o : Obstacle K) (i : ℕ) : Option (Vec3 K) :=
  match o.mesh with
  | none => some ⟨0, 0, 1⟩
  | some m =>
    match m.tris[i]? with
    | none => none
    | some t => (m.corners t).map fun c =>
        Vec3.cross (o.placement.apply c.2.1 - o.placement.apply c.1) (o.placement.apply c.2.2 - o.placement.apply c.1)

/-- rbprm-shooter.cc:397 `normalized` -/
def normalFromTriangleContact (sqrt : K → K) (o : Obstacle K) (i : ℕ) : Option (Vec3 K) := (triangleContactNormal o i).map (normalize sqrt)

/-- rbprm-shooter.cc:432-436, 461-462: what the validation tells the shooter of a trunk in collision -/
def collisionVerdict (c : TrunkContact K) : Option (Verdict K) := (triangleContactNormal c.object2 c.b2).map fun n => ⟨false, true, n, c.depth⟩

/-- rbprm-shooter.cc:461-467: the displacement -/
def pushOut (sqrt : K → K) (b : Bounds K) (config : Config K) (c : TrunkContact K) : Option (Config K) :=
  (normalFromTriangleContact sqrt c.object2 c.b2).map fun n => translate b config (Vec3.smul (|c.depth| + 3 / 100) n)

end Shoot

/-! ### the postural task -/
namespace Posture
variable {K : Type _} [Field K] [LinearOrder K]

/-- rbprm-fullbody.cc:343-347 `postureWeights`: the setter; `checked`: the assertion is compiled; `none`: it aborts -/
def setWeights (checked : Bool) (numberDof : ℕ) (weights : List K) : Option (List K) :=
  if checked = true ∧ weights.length ≠ numberDof then none else some weights

/-- projection.cc:161-167: the weights of the task -/
def weights (numberDof : ℕ) (user : List K) : List K := if user.length = numberDof then user else List.replicate numberDof 1

/-- `constraints::ConfigurationConstraint` of hpp-constraints: half the weighted sum of the squares of the difference to the reference (a tangent vector) [created in projection.cc:193] -/
def cost (weights difference : List K) : K := 1 / 2 * (List.zipWith (fun w d => w * (d * d)) weights difference).sum

/-- projection.cc:142-200 `CreatePosturalTaskConstraint`: the cost as a function of the difference to the reference.  The mask (l.147-155) is computed but not used; its computation accesses `mask[numberDof - 7]`,
which is outside of the vector for less than seven degrees of freedom (`none`). -/
def task (numberDof : ℕ) (user difference : List K) : Option K := if numberDof < 7 then none else some (cost (weights numberDof user) difference)

end Posture

/-! ### reports of the stop watch -/
namespace Watch
variable {N K : Type _} [LinearOrder N] [Field K] [LinearOrder K] [IsStrictOrderedRing K]

/-- one line of a report: name, minimum, average (`none`: 0/0), maximum, total, in milliseconds, number of measures [stop-watch.cc:217-247] -/
structure Line (N K : Type _) where
  name : N
  min : K
  avg : Option K
  max : K
  total : K
  stops : ℕ
deriving DecidableEq, Repr

/-- stop-watch.cc:234-242: the line of a record (formats and padding left out) -/
def lineOf (name : N) (p : Perf K) : Line N K :=
  ⟨name, p.minTime * 1000, if p.stops = 0 then none else some (p.totalTime * 1000 / p.stops), p.maxTime * 1000, p.totalTime * 1000, p.stops⟩

/-- stop-watch.cc:217-247 `report`: what is printed; `none`: exception -/
def Stopwatch.report (w : Stopwatch N K) (name : N) : Option (List (Line N K)) :=
  if !w.active then some []
  else
    match w.records.find? name with
    | none => none
    | some p => some [lineOf name p]

/-- stop-watch.cc:178-187 `report_all` without its title: the reports of the records, in the order of the map -/
def Stopwatch.reportAll (w : Stopwatch N K) : Option (List (Line N K)) :=
  if !w.active then some [] else (w.records.mapM fun r => w.report r.1).map List.flatten

end Watch

end Rbprm
