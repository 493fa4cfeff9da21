import Verif.Model.Joints
set_option linter.unusedSectionVars false
/-!
# The other joints during the generation of a contact (`generate_contact`, `findValidCandidate`, `projectSampleToObstacle`)

`LockJointRec` reads the current configuration of the device, which is a state shared by all the functions of the library: this model follows it along the loop on the candidates.
-/
namespace Rbprm
namespace Joints
variable {N K Smp : Type _} [DecidableEq N]

/-- where the tests made on a candidate that was projected leave the device: `alone`, none was made, or they return before they use it (reachability.cc:528-560); `working`: at the configuration of the state without the
contact (kinematics_constraints.cc:151 for `previous`, in quasi-static mode); `candidate`: at that of the candidate (stability.cc:162; reachability.cc:412, 586) -/
inductive Left | alone | working | candidate
deriving DecidableEq, Repr

/-- one turn of the loop: the configuration of the device when the joints are locked (it also gives the placement of the root of the limb, projection.cc:615-623), the locks, the answer of the projection -/
structure Attempt (N K : Type _) where
  device : List K
  locks : List (Lock N K)
  ok : Bool
  config : List K
deriving DecidableEq

/-- contact_generation.cc:535-650 (loop of `findValidCandidate`, without the choice of a candidate: all are tried), projection.cc:602-648 `projectSampleToObstacle`, 465 (`computeProjectionMatrix` sets the device to the
loaded configuration), 420-428 (`projectEffector` sets it to the projected one when it is valid).  `c`: the vector of the configuration, shared by all turns; `dev`: the configuration of the device. -/
def deviceLoop (root : Joint N) (limb : N) (load : Smp → List K → List K) (solve : List (Lock N K) → Smp → List K → Bool × List K) (valid : List K → Bool) (left : Smp → List K → Left)
    (working : List K) : List Smp → List K → List K → List (Attempt N K) × List K
  | [], _, dev => ([], dev)
  | smp :: rest, c, dev =>
    let loaded := load smp c
    let locks := lockJointRec limb dev root
    match solve locks smp loaded with
    | (ok, c') =>
      let dev' := if ok && valid c' then (match left smp c' with
        | .alone => c'
        | .working => working
        | .candidate => c') else loaded
      let r := deviceLoop root limb load solve valid left working rest c' dev'
      (⟨dev, locks, ok && valid c', c'⟩ :: r.1, r.2)

/-- contact_generation.cc:703-705: before the candidates are tried the device is set to the configuration of the working state; 677-688: with a postural task they are tried again without it, from the configuration of the
working state (527), but the device is where the first loop left it -/
def generateDevice (root : Joint N) (limb : N) (load : Smp → List K → List K) (solve : Bool → List (Lock N K) → Smp → List K → Bool × List K) (valid : List K → Bool) (left : Smp → List K → Left)
    (postural : Bool) (working : List K) (candidates : List Smp) : List (Attempt N K) :=
  let first := deviceLoop root limb load (solve postural) valid left working candidates working working
  if postural then first.1 ++ (deviceLoop root limb load (solve false) valid left working candidates working first.2).1 else first.1

end Joints
end Rbprm
