import Verif.Model.Copies
import Mathlib.Algebra.Order.Field.Rat
import Mathlib.Tactic.Linarith
import Mathlib.Tactic.FieldSimp
import Mathlib.Tactic.Positivity
set_option linter.unusedSectionVars false
/-!
# C162, C163: copies of paths; duration of a jump
-/
namespace Rbprm
namespace Copies
open Paths
variable {K R C : Type _} [Field K] [LinearOrder K] [IsStrictOrderedRing K]

/-- two paths with the same time range and the same value at every time -/
def SameMotion {P V : Type _} (range : P → K × K) (value : P → K → V) (p q : P) : Prop := range q = range p ∧ ∀ t, value q t = value p t

/-- the time range of a path -/
def Base.range (b : Base K C) : K × K := (b.first, b.last)

/-! ### trajectories of the centre of mass -/

/-- the trajectories a program can have: created with a length ≥ 0, copied, or extracted from one on an interval of its time range, possibly backwards -/
inductive ComMade : Com K C → Prop
  | create (init fin speed acc : Vec3 K) (len : K) (h : 0 ≤ len) : ComMade (.create init fin speed acc len)
  | copy {p : Com K C} (h : ComMade p) : ComMade p.copy
  | extract {p : Com K C} (h : ComMade p) (a b : K) : ComMade (p.extract a b)

theorem comMade_base {p : Com K C} (h : ComMade p) : p.base = ⟨0, p.data.len, none⟩ ∧ 0 ≤ p.data.len := by
  induction h with
  | create init fin speed acc len h => exact ⟨rfl, h⟩
  | copy h ih => exact ⟨rfl, ih.2⟩
  | extract h a b ih => exact ⟨rfl, le_min (abs_nonneg _) ih.2⟩

/-- C162: every trajectory of the centre of mass a program can have starts at time 0; its copy has the same time range and the same value at every time; it is the trajectory of
claim C59 (`ComTraj.eval`, `ComTraj.extract`), and asking for a copy with constraints ends the program -/
theorem C162_com {p : Com K C} (h : ComMade p) :
    SameMotion (fun p => p.base.range) Com.eval p p.copy ∧ p.copy.base.constr = p.base.constr ∧ p.base.range = (0, p.data.len) ∧ (∀ t, p.eval t = p.data.eval t) ∧
      (∀ a b, (p.extract a b).data = p.data.extract a b) ∧ ∀ c, p.copyWith c = .terminates := by
  obtain ⟨hb, -⟩ := comMade_base h
  obtain ⟨b, d⟩ := p
  dsimp only at hb
  subst hb
  have he : ∀ t, Com.eval (⟨⟨0, d.len, none⟩, d⟩ : Com K C) t = d.eval t := fun t => by
    simp only [Com.eval, ComTraj.eval, Base.normalize, Paths.normalize, sub_zero]
  refine ⟨⟨rfl, fun t => rfl⟩, rfl, rfl, he, fun a b => ?_, fun c => rfl⟩
  simp only [Com.extract, Com.create, he, ComTraj.extract, Base.normalize, Paths.normalize, sub_zero]

/-- C162: extracting from a copy is extracting from the trajectory -/
theorem C162_com_extract {p : Com K C} (h : ComMade p) (a b : K) : p.copy.extract a b = p.extract a b := by
  obtain ⟨hb, -⟩ := comMade_base h
  obtain ⟨b, d⟩ := p
  dsimp only at hb
  subst hb
  rfl

example : ComMade (C := Unit) ((Com.create (K := ℚ) ⟨0, 0, 0⟩ ⟨3, 0, 0⟩ ⟨1, 0, 0⟩ ⟨1, 0, 0⟩ 2).extract 1 2).copy :=
  .copy (.extract (.create _ _ _ _ _ (by norm_num)) _ _)

/-! ### trajectories along a curve -/

/-- the trajectories a program can have: created, copied or extracted -/
inductive PolyMade : Poly K C → Prop
  | create (curve : K → Vec3 K) (start stop : K) : PolyMade (.create curve start stop)
  | copy {p : Poly K C} (h : PolyMade p) : PolyMade p.copy
  | extract {p : Poly K C} (h : PolyMade p) (a b : K) : PolyMade (p.extract a b)

/-- C162: the copy of a trajectory along a curve has the same time range, which is the part of the curve it was made for, and the same value at every time -/
theorem C162_poly {p : Poly K C} (h : PolyMade p) :
    SameMotion (fun p => p.base.range) Poly.eval p p.copy ∧ p.copy.base.constr = p.base.constr ∧ p.base.range = (p.data.start, p.data.stop) ∧
      (∀ t, p.eval t = p.data.eval t) ∧ p.copy.data.curve = p.data.curve ∧ (∀ a b, (p.extract a b).data = p.data.extract a b) ∧ ∀ c, p.copyWith c = .terminates := by
  have hb : p.base = ⟨p.data.start, p.data.stop, none⟩ := by
    induction h with
    | create curve start stop => rfl
    | copy h ih => simp only [Poly.copy, Base.ofRange, ih]
    | extract h a b ih => rfl
  obtain ⟨b, d⟩ := p
  dsimp only at hb
  subst hb
  exact ⟨⟨rfl, fun t => rfl⟩, rfl, rfl, fun t => rfl, rfl, fun a b => rfl, fun c => rfl⟩

/-- C162 (length): the length of a trajectory along a curve, and of its copy, is the duration between its ends; that of one of the centre of mass is the one it was
given; both have copies of the same length, and a part of a trajectory along a curve is as long as the interval. -/
theorem C162_length {p : Poly K C} (h : PolyMade p) {q : Com K C} (h' : ComMade q) :
    p.base.length = p.data.stop - p.data.start ∧ p.copy.base.length = p.base.length ∧ (∀ a b, (p.extract a b).base.length = b - a) ∧
      q.base.length = q.data.len ∧ q.copy.base.length = q.base.length := by
  obtain ⟨hb, -⟩ := comMade_base h'
  have hr := (C162_poly h).2.2.1
  have hp : p.base.first = p.data.start ∧ p.base.last = p.data.stop := by
    simpa [Base.range] using hr
  refine ⟨?_, rfl, fun a b => rfl, ?_, ?_⟩
  · rw [Base.length, hp.1, hp.2]
  · rw [Base.length, hb]; simp
  · rw [Base.length, Base.length, hb]; rfl

example : PolyMade (C := Unit) ((Poly.create (K := ℚ) (fun t => ⟨t, t * t, 0⟩) 0 4).extract 3 1).copy := .copy (.extract (.create _ _ _) _ _)

/-! ### paths under time dependent constraints -/

/-- the ends of a path satisfy its constraints -/
def EndsSatisfied (p : TPath R K) : Prop := ∀ c, p.constr = some c → c.sat p.init.dof p.init = true ∧ c.sat p.fin.dof p.fin = true

theorem check_iff (p : TPath R K) : p.check = true ↔ EndsSatisfied p := by
  obtain ⟨i, f, l, c⟩ := p
  cases c with
  | none => simp [TPath.check, EndsSatisfied]
  | some c => simp [TPath.check, EndsSatisfied]

/-- C162: a path under constraints can be copied exactly if its ends satisfy them, and then the copy has the same length and gives the same configuration, with the same success, at
every time -/
theorem C162_timeConstraint (p : TPath R K) :
    (EndsSatisfied p ∧ ∃ q, tcopy p = .ok q ∧ q.len = p.len ∧ q.init = p.init ∧ q.fin = p.fin ∧ ∀ interp t, q.eval interp t = p.eval interp t) ∨
      (¬ EndsSatisfied p ∧ tcopy p = .throws) := by
  by_cases h : p.check = true
  · exact .inl ⟨(check_iff p).1 h, p, by simp [tcopy, h], rfl, rfl, rfl, fun _ _ => rfl⟩
  · exact .inr ⟨fun h' => h ((check_iff p).2 h'), by simp [tcopy, h]⟩

/-- C162: copying with other constraints succeeds exactly if the ends satisfy them; the configurations of the copy are those of the path without constraints, projected on the new
constraints -/
theorem C162_timeConstraint_with (p : TPath R K) (c : Constr R K) :
    ((c.sat p.init.dof p.init = true ∧ c.sat p.fin.dof p.fin = true) ∧
      ∃ q, tcopyWith p c = .ok q ∧ q.len = p.len ∧ q.init = p.init ∧ q.fin = p.fin ∧
        ∀ interp t, q.eval interp t = c.project (p.raw interp t).dof (p.raw interp t)) ∨
      (¬ (c.sat p.init.dof p.init = true ∧ c.sat p.fin.dof p.fin = true) ∧ tcopyWith p c = .throws) := by
  by_cases h : c.sat p.init.dof p.init = true ∧ c.sat p.fin.dof p.fin = true
  · exact .inl ⟨h, ⟨p.init, p.fin, p.len, some c⟩, by simp [tcopyWith, TPath.check, h], rfl, rfl, rfl, fun _ _ => rfl⟩
  · refine .inr ⟨h, ?_⟩
    have : (c.sat p.init.dof p.init && c.sat p.fin.dof p.fin) = false := by
      rw [Bool.and_eq_false_iff]
      by_contra hc
      push Not at hc
      exact h ⟨by simpa using hc.1, by simpa using hc.2⟩
    simp [tcopyWith, TPath.check, this]

/-- the paths a program can have without changing the ends of one: created, copied, copied with constraints or extracted -/
inductive TMade (interp : R → R → K → R) : TPath R K → Prop
  | create {init fin : Conf R K} {len : K} {c : Option (Constr R K)} {p : TPath R K} (h : tcreate init fin len c = .ok p) : TMade interp p
  | copy {p q : TPath R K} (h : TMade interp p) (hq : tcopy p = .ok q) : TMade interp q
  | copyWith {p q : TPath R K} {c : Constr R K} (h : TMade interp p) (hq : tcopyWith p c = .ok q) : TMade interp q
  | extract {p q : TPath R K} {a b : K} (h : TMade interp p) (hq : p.extract interp a b = .ok q) : TMade interp q

/-- C162: a path whose ends were not changed after its creation can always be copied -/
theorem C162_timeConstraint_made {interp : R → R → K → R} {p : TPath R K} (h : TMade interp p) : EndsSatisfied p ∧ ∃ q, tcopy p = .ok q := by
  have hc : p.check = true := by
    cases h with
    | create h =>
      simp only [tcreate] at h
      split at h
      · injection h with h; subst h; assumption
      · exact absurd h (by simp)
    | copy h hq =>
      simp only [tcopy] at hq
      split at hq
      · injection hq with h; subst h; assumption
      · exact absurd hq (by simp)
    | copyWith h hq =>
      simp only [tcopyWith] at hq
      split at hq
      · injection hq with h; subst h; assumption
      · exact absurd hq (by simp)
    | extract h hq =>
      simp only [TPath.extract] at hq
      split at hq
      · exact absurd hq (by simp)
      · split at hq
        · exact absurd hq (by simp)
        · split at hq
          · exact absurd hq (by simp)
          · rename_i hne
            injection hq with h; subst h
            simpa using hne
  exact ⟨(check_iff p).1 hc, p, by simp [tcopy, hc]⟩

/-- a constraint on paths with one joint: the joint is at the value of the extra degree of freedom -/
def track : Constr ℚ ℚ := ⟨fun s q => (⟨s, q.dof⟩, true), fun s q => decide (q.rest = s)⟩

/-- a path under this constraint -/
def tracked : TPath ℚ ℚ := ⟨⟨0, 0⟩, ⟨1, 1⟩, 2, some track⟩

example : TMade (fun a b u => (1 - u) * a + u * b) tracked ∧ EndsSatisfied tracked :=
  ⟨.create (init := ⟨0, 0⟩) (fin := ⟨1, 1⟩) (len := 2) (c := some track) (if_pos (by decide +kernel : tracked.check = true)), (check_iff _).1 (by decide +kernel)⟩

/-- C162, violation: after a change of an end, a path that was made and evaluates everywhere with success can no longer be copied -/
theorem C162_changed_violation :
    ∃ q : Conf ℚ ℚ, (tcopy (tracked.endConfig q)) = .throws ∧ ∀ t, ((tracked.endConfig q).eval (fun a b u => (1 - u) * a + u * b) t).2 = true :=
  ⟨⟨5, 5⟩, by
    have h : (tracked.endConfig ⟨5, 5⟩).check = false := by decide +kernel
    simp [tcopy, h], fun t => rfl⟩

/-! ### Bezier paths -/

/-- C162: the copy of a Bezier path has the same time range and gives the same configuration at every time, whatever its constraints; a copy with constraints is made exactly if both
ends satisfy them, and then each of its configurations is that of the path without constraints, projected -/
theorem C162_bezier (interp : R → R → K → R) (p : Bez R K) (c : (Vec3 K × R → Vec3 K × R) × (Vec3 K × R → Bool)) :
    SameMotion (fun p => (p.data.first, p.data.last)) (Bez.eval interp) p p.copy ∧
    (∀ q, p.copyWith interp c = .ok q ↔
      (c.2 (p.data.initial interp) = true ∧ c.2 (p.data.end' interp) = true) ∧ q = ⟨p.data, some c⟩) ∧
    (∀ q, p.copyWith interp c = .ok q → ∀ t, q.eval interp t = c.1 (p.data.eval interp t)) ∧ p.copyWith interp c ≠ .terminates := by
  have key : ∀ q, p.copyWith interp c = .ok q ↔ (c.2 (p.data.initial interp) = true ∧ c.2 (p.data.end' interp) = true) ∧ q = ⟨p.data, some c⟩ := by
    intro q
    simp only [Bez.copyWith, Bez.check, Bool.and_eq_true]
    split
    · rename_i h
      exact ⟨fun e => ⟨h, by injection e with e; exact e.symm⟩, fun e => by rw [e.2]⟩
    · rename_i h
      exact ⟨fun e => absurd e (by simp), fun e => absurd e.1 h⟩
  refine ⟨⟨rfl, fun t => rfl⟩, key, fun q hq t => ?_, ?_⟩
  · rw [((key q).1 hq).2]
    rfl
  · simp only [Bez.copyWith]
    split <;> simp

example : (Bez.copyWith (fun (_ : Unit) _ (_ : ℚ) => ()) ⟨⟨fun t => ⟨t, 0, 0⟩, 0, 1, (), (), 0, 1⟩, none⟩ (id, fun q => decide (q.1.y = 0))) ≠ .throws := by
  rw [Bez.copyWith, if_pos (by decide +kernel)]
  simp

/-! ### jumps -/

open Real Parabola

/-- C162: the copy of a jump gives the same configuration and the same velocity at every time, with the same time range and length -/
theorem C162_jump (joints : R → R → ℝ → R) (p : Parabola.Path R) (q : Timed R) :
    (jcopy p).len = p.len ∧ (∀ t, (jcopy p).eval joints t = p.eval joints t ∧ (jcopy p).velocity joints t = p.velocity joints t) ∧ (jcopy p).V0 = p.V0 ∧ (jcopy p).Vimp = p.Vimp ∧
      (timedCopy q).range = q.range ∧ (timedCopy q).len = q.len ∧ (∀ t, (timedCopy q).eval joints t = q.eval joints t) ∧
      (timedCopy q).reverse joints = q.reverse joints :=
  ⟨rfl, fun _ => ⟨rfl, rfl⟩, rfl, rfl, rfl, rfl, fun _ => rfl, rfl⟩

/-- C162, violation: a copy of a jump with constraints is a copy without them: whatever the jump and the time, some constraints have no configuration of the copy that satisfies them -/
theorem C162_jump_constraints_violation (joints : R → R → ℝ → R) (p : Parabola.Path R) (q : Timed R) :
    ∃ c : Parabola.Conf R → Prop, (∃ x, c x) ∧ (¬ c ((jcopyWith p c).eval joints 0)) ∧ ∃ c' : Parabola.Conf R → Prop, (∃ x, c' x) ∧ ¬ c' ((timedCopyWith q c').eval joints 0) := by
  have far : ∀ x : Parabola.Conf R, ∃ y : Parabola.Conf R, y ≠ x := fun x => ⟨{ x with pos := ⟨x.pos.x + 1, 0, 0⟩ }, fun h => by
    have := congrArg (fun z : Parabola.Conf R => z.pos.x) h
    simp at this⟩
  obtain ⟨x, hx⟩ := far (p.eval joints 0)
  obtain ⟨y, hy⟩ := far (q.eval joints 0)
  exact ⟨fun z => z = x, ⟨x, rfl⟩, fun h => hx (Eq.symm h), fun z => z = y, ⟨y, rfl⟩, fun h => hy (Eq.symm h)⟩

/-- C162: no part of a timed jump can be extracted: it throws -/
theorem C162_timed_extract (q : Timed R) (a b : ℝ) : timedExtract q a b = .throws := rfl

/-! ### C163: duration of a jump -/

/-- C163: a timed jump made with its take-off velocity has the duration of the free fall: the horizontal distance at the horizontal speed; the contents of the memory does not matter -/
theorem C163_partial (init fin : Parabola.Conf R) (len : ℝ) (co : Coefs) (V0 Vimp : Vec3 ℝ) (h : Parabola.norm V0 * cos co.alpha ≠ 0) :
    (timedOfVelocities init fin len co V0 Vimp).len * (Parabola.norm V0 * cos co.alpha) =
      (fin.pos.x - init.pos.x) * cos co.theta + (fin.pos.y - init.pos.y) * sin co.theta := by
  simp only [timedOfVelocities, Timed.create, computeLength]
  exact div_mul_cancel₀ _ h

/-- C163: it begins at the first configuration, and ends at the second one after its duration -/
theorem C163_ends (joints : R → R → ℝ → R) (init fin : Parabola.Conf R) (len : ℝ) (co : Coefs) (V0 Vimp : Vec3 ℝ) :
    (timedOfVelocities init fin len co V0 Vimp).init = init ∧ (timedOfVelocities init fin len co V0 Vimp).fin = fin ∧
    (timedOfVelocities init fin len co V0 Vimp).eval joints 0 = init ∧
    ∀ t, (timedOfVelocities init fin len co V0 Vimp).len ≤ t → t ≠ 0 → init.pos.x ≠ fin.pos.x → (timedOfVelocities init fin len co V0 Vimp).eval joints t = fin := by
  refine ⟨rfl, rfl, ?_, fun t ht h0 hx => ?_⟩
  · simp [Timed.eval, timedOfVelocities, Timed.create]
  · unfold Timed.eval
    rw [if_neg (by push Not; exact ⟨h0, hx⟩), if_pos ht]
    rfl

/-- a jump between two places does have a duration -/
example : ∃ (init fin : Parabola.Conf Unit) (co : Coefs) (V0 : Vec3 ℝ), Parabola.norm V0 * cos co.alpha ≠ 0 ∧ (timedOfVelocities init fin 2 co V0 V0).len = 2 := by
  refine ⟨⟨⟨0, 0, 0⟩, (), ⟨0, 0, 0⟩, ⟨0, 0, 0⟩⟩, ⟨⟨2, 0, 0⟩, (), ⟨0, 0, 0⟩, ⟨0, 0, 0⟩⟩, ⟨0, 0, 0, 0, 0, 0, 0⟩, ⟨1, 0, 0⟩, ?_, ?_⟩
  · simp [Parabola.norm, Vec3.normSq, Vec3.dot]
  · simp [timedOfVelocities, Timed.create, computeLength, Parabola.norm, Vec3.normSq, Vec3.dot]

/-- C163, violation: a timed jump made from coefficients has any duration at all, according to the contents of uninitialised memory -/
theorem C163_uninitialised_violation (init fin : Parabola.Conf R) (len : ℝ) (co : Coefs) (hx : 0 < computeLength co.theta init fin) (ha : 0 < cos co.alpha) (duration : ℝ)
    (hd : 0 < duration) : ∃ mem, ∀ mem', (timedOfCoefs mem mem' init fin len co).len = duration := by
  have hv : 0 < computeLength co.theta init fin / (duration * cos co.alpha) := by positivity
  refine ⟨⟨computeLength co.theta init fin / (duration * cos co.alpha), 0, 0⟩, fun mem' => ?_⟩
  have hn : Parabola.norm ⟨computeLength co.theta init fin / (duration * cos co.alpha), 0, 0⟩ = computeLength co.theta init fin / (duration * cos co.alpha) := by
    simp only [Parabola.norm, Vec3.normSq, Vec3.dot]
    rw [show ∀ v : ℝ, v * v + 0 * 0 + 0 * 0 = v * v from fun v => by ring, Real.sqrt_mul_self hv.le]
  simp only [timedOfCoefs, Timed.create, jcreate, hn]
  generalize computeLength co.theta init fin = X at hx hv ⊢
  field_simp

/-- C163: what does not depend on the memory: the places of the jump, at the same fraction of the duration -/
theorem C163_shape (joints : R → R → ℝ → R) (init fin : Parabola.Conf R) (len : ℝ) (co : Coefs) (mem1 mem2 mem' : Vec3 ℝ) (h1 : 0 < Parabola.norm mem1 * cos co.alpha)
    (h2 : 0 < Parabola.norm mem2 * cos co.alpha) (hx : 0 < computeLength co.theta init fin) (s : ℝ) :
    ((timedOfCoefs mem1 mem' init fin len co).eval joints (s * (timedOfCoefs mem1 mem' init fin len co).len)).pos =
      ((timedOfCoefs mem2 mem' init fin len co).eval joints (s * (timedOfCoefs mem2 mem' init fin len co).len)).pos := by
  have key : ∀ mem : Vec3 ℝ, 0 < Parabola.norm mem * cos co.alpha →
      ((timedOfCoefs mem mem' init fin len co).eval joints (s * (timedOfCoefs mem mem' init fin len co).len)).pos =
        (open Classical in if s = 0 ∨ init.pos.x = fin.pos.x then init.pos else if s ≥ 1 then fin.pos
          else ((jcreate (0 : Vec3 ℝ) 0 init fin len co).eval joints (s * computeLength co.theta init fin)).pos) := by
    intro mem hm
    have hl : (timedOfCoefs mem mem' init fin len co).len = computeLength co.theta init fin / (Parabola.norm mem * cos co.alpha) := rfl
    have hpos : 0 < (timedOfCoefs mem mem' init fin len co).len := by rw [hl]; positivity
    unfold Timed.eval
    by_cases h0 : s = 0 ∨ init.pos.x = fin.pos.x
    · rw [if_pos h0, if_pos]
      · rfl
      · rcases h0 with h0 | h0
        · exact .inl (by rw [h0, zero_mul])
        · exact .inr h0
    · rw [if_neg h0, if_neg]
      · by_cases h1 : s ≥ 1
        · rw [if_pos h1, if_pos]
          · rfl
          · nlinarith
        · rw [if_neg h1, if_neg]
          · have : s * (timedOfCoefs mem mem' init fin len co).len * Parabola.norm (timedOfCoefs mem mem' init fin len co).para.V0 *
                cos (timedOfCoefs mem mem' init fin len co).para.co.alpha = s * computeLength co.theta init fin := by
              show s * (timedOfCoefs mem mem' init fin len co).len * Parabola.norm mem * cos co.alpha = _
              rw [hl]
              rw [mul_assoc (s * _), mul_assoc, div_mul_cancel₀ _ hm.ne']
            dsimp only
            rw [this]
            rfl
          · push Not at h1 ⊢
            nlinarith
      · push Not at h0 ⊢
        exact ⟨(mul_ne_zero h0.1 hpos.ne'), h0.2⟩
  rw [key mem1 h1, key mem2 h2]

end Copies
end Rbprm
