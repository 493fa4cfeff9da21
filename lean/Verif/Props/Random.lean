import Verif.Model.Random
/-!
# Property C167: reproducibility of the random draws
-/
set_option linter.unusedSectionVars false
namespace Rbprm
namespace Random
variable {G α : Type _}

/-! ## Specification -/

/-- the events that create an object of the library in that second -/
def Creates (time : Nat) : Event α → Prop
  | .createShooter t => t = time
  | .createFullBody t => t = time
  | _ => False

/-- the `n` numbers that `rand()` returns from a state on -/
def stream (gen : Gen G) : Nat → G → List Nat
  | 0, _ => []
  | n + 1, g => (gen.next g).2 :: stream gen n (gen.next g).1

/-- the numbers drawn by a call -/
def Prog.drawn (gen : Gen G) : Prog α → G → List Nat
  | .done _, _ => []
  | .draw k, g => (gen.next g).2 :: (k (gen.next g).2).drawn gen (gen.next g).1

/-- a program fed with a list of numbers: its result if the list is exactly what it draws -/
def Prog.feed : Prog α → List Nat → Option α
  | .done a, [] => some a
  | .draw k, x :: xs => (k x).feed xs
  | _, _ => none

/-- the numbers drawn by successive calls -/
def drawnBy (gen : Gen G) : G → List (Prog α) → List (List Nat)
  | _, [] => []
  | g, p :: ps => p.drawn gen g :: drawnBy gen (p.run gen g).1 ps

/-! ## Proofs -/

theorem results_append (gen : Gen G) (g : G) (h es : List (Event α)) :
    results gen g (h ++ es) = results gen g h ++ results gen (h.foldl (fun g e => (step gen g e).1) g) es := by
  induction h generalizing g with
  | nil => rfl
  | cons e h ih => simp only [List.cons_append, results, ih, List.foldl_cons, List.append_assoc]

/-- **C167 (the past is forgotten)** Once a shooter or a full body has been created, the results of the later calls do not depend on anything done before: neither on the seed chosen by the user nor on the numbers drawn,
only on the second of the creation. -/
theorem C167_created (gen : Gen G) (g g' : G) (time : Nat) (h h' rest : List (Event α)) (e e' : Event α) (he : Creates time e) (he' : Creates time e') :
    (results gen g (h ++ e :: rest)).drop (results gen g h).length = (results gen g' (h' ++ e' :: rest)).drop (results gen g' h').length := by
  have key : ∀ (g : G) (e : Event α), Creates time e → (step gen g e) = (gen.seeded (time % 4294967296), []) := by
    intro g e he
    cases e <;> first | cases he | (cases he; rfl)
    all_goals rfl
  rw [results_append, results_append, List.drop_left, List.drop_left]
  simp only [results, key _ _ he, key _ _ he']

/-- **C167 (the user's seed)** A seed chosen after the last creation determines the results of all the later calls. -/
theorem C167_seeded (gen : Gen G) (g g' : G) (seed : Nat) (h h' rest : List (Event α)) :
    (results gen g (h ++ .userSeed seed :: rest)).drop (results gen g h).length = (results gen g' (h' ++ .userSeed seed :: rest)).drop (results gen g' h').length := by
  rw [results_append, results_append, List.drop_left, List.drop_left]
  rfl

theorem run_feed (gen : Gen G) (p : Prog α) (g : G) : p.feed (p.drawn gen g) = some (p.run gen g).2 := by
  induction p generalizing g with
  | done a => rfl
  | draw k ih => exact ih _ _

theorem drawn_stream (gen : Gen G) (p : Prog α) (g : G) : ∀ n, p.drawn gen g ++ stream gen n (p.run gen g).1 = stream gen ((p.drawn gen g).length + n) g := by
  induction p generalizing g with
  | done a => intro n; simp [Prog.drawn, Prog.run]
  | draw k ih =>
    intro n
    have := ih (gen.next g).2 (gen.next g).1 n
    simp only [Prog.drawn, Prog.run, List.cons_append, List.length_cons]
    rw [this, show ((k (gen.next g).2).drawn gen (gen.next g).1).length + 1 + n = ((k (gen.next g).2).drawn gen (gen.next g).1).length + n + 1 by omega]
    rfl

theorem drawnBy_stream (gen : Gen G) (ps : List (Prog α)) (g : G) : (drawnBy gen g ps).flatten = stream gen (drawnBy gen g ps).flatten.length g := by
  induction ps generalizing g with
  | nil => rfl
  | cons p ps ih =>
    simp only [drawnBy, List.flatten_cons, List.length_append]
    rw [← drawn_stream, ← ih]

/-- **C167 (one sequence)** The calls made after a creation draw consecutive numbers of the sequence that `rand()` returns after `srand` of that second: together they draw exactly the beginning of it, each one the part that
follows the previous call's, and nothing else decides of their results. -/
theorem C167_sequence (gen : Gen G) (g : G) (time : Nat) (e : Event α) (he : Creates time e) (calls : List (Prog α)) :
    ∃ parts : List (List Nat), parts.flatten = stream gen parts.flatten.length (gen.seeded (time % 4294967296)) ∧
      List.zipWith Prog.feed calls parts = (results gen g (e :: calls.map Event.use)).map some ∧ parts.length = calls.length := by
  have hs : step gen g e = (gen.seeded (time % 4294967296), []) := by
    cases e <;> first | cases he | (cases he; rfl)
    all_goals rfl
  refine ⟨drawnBy gen (gen.seeded (time % 4294967296)) calls, drawnBy_stream gen calls _, ?_, ?_⟩
  · simp only [results, hs, List.nil_append]
    generalize gen.seeded (time % 4294967296) = s
    induction calls generalizing s with
    | nil => rfl
    | cons p ps ih => simp only [drawnBy, List.zipWith_cons_cons, run_feed, List.map_cons, results, step, List.cons_append, List.nil_append, ih]
  · generalize gen.seeded (time % 4294967296) = s
    induction calls generalizing s with
    | nil => rfl
    | cons p ps ih => simp only [drawnBy, List.length_cons, ih]

/-- a generator of the kind of the libc's -/
def lcg : Gen Nat := ⟨fun s => s, fun g => ((1103515245 * g + 12345) % 2147483648, (1103515245 * g + 12345) % 2147483648)⟩

/-- one draw -/
def die : Prog Nat := .draw fun r => .done (r % 6)

/-- the events of the theorems: a user seed, a shooter, two draws -/
example : Creates 7 (.createShooter 7 : Event Nat) ∧ results lcg 1 [.userSeed 5, .createShooter 7, .use die, .use die] = [0, 3] := by
  exact ⟨rfl, by decide⟩

/-- **Reproducibility is violated**: the seed chosen by the user before an object is created has no effect: another second gives other draws, another seed does not. -/
theorem C167_seed_violated :
    (∀ seed seed', results lcg 1 [.userSeed seed, .createShooter 7, .use die] = results lcg 1 [.userSeed seed', .createShooter 7, .use die]) ∧
      results lcg 1 [.userSeed 5, .createShooter 7, .use die] ≠ results lcg 1 [.userSeed 5, .createShooter 8, .use die] := by
  exact ⟨fun _ _ => rfl, by decide⟩

/-- **Independence is violated**: for every generator, two objects created in the same second make the same draws. -/
theorem C167_repeat_violated (gen : Gen G) (g : G) (time : Nat) (p : Prog α) :
    ∃ x, results gen g [.createShooter time, .use p, .createFullBody time, .use p] = [x, x] := ⟨_, rfl⟩

end Random
end Rbprm
