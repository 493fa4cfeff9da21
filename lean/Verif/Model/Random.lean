/-!
# Model of the process-wide random generator

`rand()` and `srand()` (libc) act on one generator of the process, an abstract `Gen`.  The library draws with `rand()` (rbprm-shooter.cc:123, 355, 359, 409-448; sampling/heuristic.cc:109-304; rbprm-rom-validation.cc:103;
planner/random-shortcut-dynamic.cc:141; interpolation/time-constraint-shooter.cc:63, 91; planner/steering-method-parabola.cc:381) and reseeds with `srand(time(NULL))`.  What a function of the library does with its draws is an
arbitrary program `Prog`: it may draw any number of times, and what it draws next may depend on what it has drawn.  One thread.
-/
namespace Rbprm
namespace Random

/-- the generator of the libc: `srand` and `rand` [libc, used in rbprm-shooter.cc:223-239, heuristic.cc:315-338] -/
structure Gen (G : Type _) where
  seeded : Nat → G
  next : G → G × Nat

/-- a function that calls `rand()` [libc, used in rbprm-shooter.cc:353-375, heuristic.cc:112-117] -/
inductive Prog (α : Type _) where
  | done (a : α)
  | draw (k : Nat → Prog α)

variable {G α : Type _}

/-- the run of a program that draws numbers, from a state of the generator [rbprm-shooter.cc:353-375, heuristic.cc:112-117] -/
def Prog.run (gen : Gen G) : Prog α → G → G × α
  | .done a, g => (g, a)
  | .draw k, g => (k (gen.next g).2).run gen (gen.next g).1

/-- what happens to the generator in a process: `time` is `time(NULL)` [rbprm-shooter.cc:223-239, heuristic.cc:315-338] -/
inductive Event (α : Type _) where
  /-- the user calls `srand(seed)` -/
  | userSeed (seed : Nat)
  /-- rbprm-shooter.cc:223-240 `RbPrmShooter::create` -/
  | createShooter (time : Nat)
  /-- rbprm-fullbody.cc:45-50 `RbPrmFullBody::create`: the member `factory_` (rbprm-fullbody.hh:194) is constructed -/
  | createFullBody (time : Nat)
  /-- a call that draws -/
  | use (p : Prog α)

/-- rbprm-shooter.cc:229-230, the seed is an `unsigned int` -/
def createShooter (gen : Gen G) (time : Nat) (_ : G) : G := gen.seeded (time % 4294967296)

/-- sampling/heuristic.cc:315-318 `HeuristicFactory::HeuristicFactory` -/
def heuristicFactory (gen : Gen G) (time : Nat) (_ : G) : G := gen.seeded (time % 4294967296)

/-- the generator after an event, and the result of a call that draws [rbprm-shooter.cc:223-239, heuristic.cc:315-338] -/
def step (gen : Gen G) (g : G) : Event α → G × List α
  | .userSeed s => (gen.seeded (s % 4294967296), [])
  | .createShooter t => (createShooter gen t g, [])
  | .createFullBody t => (heuristicFactory gen t g, [])
  | .use p => ((p.run gen g).1, [(p.run gen g).2])

/-- the results of the calls of a history [rbprm-shooter.cc:223-239, heuristic.cc:315-338] -/
def results (gen : Gen G) : G → List (Event α) → List α
  | _, [] => []
  | g, e :: es => (step gen g e).2 ++ results gen (step gen g e).1 es

end Random
end Rbprm
