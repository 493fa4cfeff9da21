import Verif.Model.Interpolation
import Mathlib.Algebra.Order.Archimedean.Basic
import Mathlib.Tactic.Linarith
import Mathlib.Tactic.Ring
/-!
# Property C23: discretisation of the guide path
-/
set_option linter.unusedSectionVars false
namespace Rbprm
namespace Interp
variable {K : Type _} [CommRing K] [LinearOrder K] [IsStrictOrderedRing K]

theorem stepTimes_spec (second ts : K) (fuel : Nat) (i : K) (l : List K)
    (h : stepTimes second ts fuel i = some l) :
    (∀ k, k < l.length → l[k]? = some (i + k * ts) ∧ i + k * ts < second) ∧ second ≤ i + l.length * ts := by
  induction fuel generalizing i l with
  | zero => simp [stepTimes] at h
  | succ fuel ih =>
    unfold stepTimes at h
    split_ifs at h with hlt
    · rw [Option.map_eq_some_iff] at h
      obtain ⟨l', h', rfl⟩ := h
      obtain ⟨h1, h2⟩ := ih _ _ h'
      constructor
      · intro k hk
        cases k with
        | zero => simp [hlt]
        | succ k =>
          obtain ⟨e, hl⟩ := h1 k (by simpa using hk)
          have e2 : i + ts + k * ts = i + ((k + 1 : ℕ) : K) * ts := by push_cast; ring
          rw [e2] at e hl
          exact ⟨by simpa using e, hl⟩
      · have : i + ts + l'.length * ts = i + (((i :: l').length : ℕ) : K) * ts := by
          simp only [List.length_cons]; push_cast; ring
        rw [← this]; exact h2
    · cases h
      simp; exact not_lt.1 hlt

theorem stepTimes_terminates [Archimedean K] (second ts : K) (hts : 0 < ts) (i : K) :
    ∃ fuel0 l, ∀ fuel ≥ fuel0, stepTimes second ts fuel i = some l := by
  obtain ⟨n, hn⟩ := Archimedean.arch (second - i) hts
  rw [nsmul_eq_mul] at hn
  have key : ∀ n : ℕ, ∀ i : K, second - i ≤ n * ts →
      ∃ l, ∀ fuel ≥ n + 1, stepTimes second ts fuel i = some l := by
    intro n
    induction n with
    | zero =>
      intro i hi
      refine ⟨[], fun fuel hf => ?_⟩
      obtain ⟨f, rfl⟩ : ∃ f, fuel = f + 1 := ⟨fuel - 1, by omega⟩
      have : ¬ i < second := by
        have : second - i ≤ 0 := by simpa using hi
        exact not_lt.2 (by linarith)
      rw [stepTimes, if_neg this]
    | succ n ih =>
      intro i hi
      obtain ⟨l, hl⟩ := ih (i + ts) (by push_cast at hi; linarith)
      refine ⟨if i < second then i :: l else [], fun fuel hf => ?_⟩
      obtain ⟨f, rfl⟩ : ∃ f, fuel = f + 1 := ⟨fuel - 1, by omega⟩
      rw [stepTimes]
      split_ifs
      · rw [hl f (by omega)]; rfl
      · rfl
  obtain ⟨l, hl⟩ := key n i hn
  exact ⟨n + 1, l, hl⟩

/-- `c` is the whole-body configuration sampled from the path at time `t`: root and planned joints and the extra
degrees of freedom come from the path, the joints in between from the start configuration. -/
def SampledAt (extraDim outputSize : Nat) (path : K → List K) (start : List K) (t : K) (c : List K) : Prop :=
  c.length = start.length ∧
  (∀ i, i < outputSize - extraDim → c[i]? = (path t)[i]?) ∧
  (∀ i, outputSize - extraDim ≤ i → i < start.length - extraDim → c[i]? = start[i]?) ∧
  (∀ i, i < extraDim → c[start.length - extraDim + i]? = (path t)[outputSize - extraDim + i]?)

theorem configPosition_sampled (e o : Nat) (second : K) (path : K → List K) (start previous : List K) (t : K)
    (he : e ≤ o) (ho : o ≤ start.length) (hv : (path (min t second)).length = o)
    (hp : previous.length = start.length)
    (hmid : ∀ i, o - e ≤ i → i < start.length - e → previous[i]? = start[i]?) :
    SampledAt e o path start (min t second) (configPosition e o second path previous t) := by
  have hlen : ((path (min t second)).take (o - e) ++ previous.drop (o - e)).length = start.length := by
    simp [hv, hp]; omega
  unfold SampledAt configPosition Contact.copyTail
  simp only [hlen, hv]
  refine ⟨by simp [hv, hp]; omega, fun i hi => ?_, fun i h1 h2 => ?_, fun i hi => ?_⟩
  · rw [List.getElem?_append_left (by simp [hv, hp]; omega), List.getElem?_take, if_pos (by omega),
      List.getElem?_append_left (by simp [hv]; omega), List.getElem?_take, if_pos hi]
  · rw [List.getElem?_append_left (by simp [hv, hp]; omega), List.getElem?_take, if_pos h2,
      List.getElem?_append_right (by simp [hv]; omega), List.getElem?_drop]
    rw [← hmid i h1 h2]
    congr 1
    simp [hv]; omega
  · rw [List.getElem?_append_right (by simp [hv, hp]), List.getElem?_drop]
    congr 1
    simp [hv, hp]; omega

theorem chainConfigs_spec (e o : Nat) (second : K) (path : K → List K) (start : List K)
    (he : e ≤ o) (ho : o ≤ start.length) (hv : ∀ t, (path t).length = o) (ts : List K) (previous : List K)
    (hp : previous.length = start.length)
    (hmid : ∀ i, o - e ≤ i → i < start.length - e → previous[i]? = start[i]?) :
    let r := chainConfigs (configPosition e o second path) previous ts
    r.length = ts.length ∧
    ∀ (k : Nat) t, ts[k]? = some t → ∃ c, r[k]? = some c ∧ SampledAt e o path start (min t second) c := by
  induction ts generalizing previous with
  | nil => simp [chainConfigs]
  | cons t ts ih =>
    have hs := configPosition_sampled e o second path start previous t he ho (hv _) hp hmid
    obtain ⟨i1, i2⟩ := ih (configPosition e o second path previous t) hs.1 hs.2.2.1
    refine ⟨by simp [chainConfigs, i1], fun k t' hk => ?_⟩
    cases k with
    | zero => simp at hk; subst hk; exact ⟨_, by simp [chainConfigs], hs⟩
    | succ k => simpa [chainConfigs] using i2 k t' (by simpa using hk)

/-- **C23** `Interpolate` on a path samples it regularly: the first configuration is the one of the start state,
then come the path's configurations at `first + timeStep`, `first + 2 timeStep`, … as long as these dates are
strictly inside the range, and last the path's end.  The date following the last inner one would not be inside, so
consecutive samples are at most `timeStep` apart. -/
theorem C23_discretise (e o : Nat) (path : K → List K) (start : List K) (first second ts : K) (fuel : Nat)
    (he : e ≤ o) (ho : o ≤ start.length) (hv : ∀ t, (path t).length = o) (configs : List (List K))
    (h : discretise e o path start first second ts fuel = some configs) :
    ∃ m, configs.length = m + 2 ∧ configs[0]? = some start ∧
      (∀ k, k < m → first + (k + 1) * ts < second ∧
        ∃ c, configs[k + 1]? = some c ∧ SampledAt e o path start (first + (k + 1) * ts) c) ∧
      second ≤ first + (m + 1) * ts ∧
      ∃ c, configs[m + 1]? = some c ∧ SampledAt e o path start second c := by
  unfold discretise at h
  rw [Option.map_eq_some_iff] at h
  obtain ⟨l, hl, rfl⟩ := h
  obtain ⟨h1, h2⟩ := stepTimes_spec second ts fuel _ l hl
  obtain ⟨c1, c2⟩ := chainConfigs_spec e o second path start he ho hv (l ++ [second]) start rfl
    (fun _ _ _ => rfl)
  refine ⟨l.length, by simp [c1], rfl, fun k hk => ?_, ?_, ?_⟩
  · obtain ⟨hk1, hk2⟩ := h1 k hk
    have e1 : first + ts + k * ts = first + (k + 1) * ts := by ring
    rw [e1] at hk1 hk2
    obtain ⟨c, hc, hs⟩ := c2 k _ (by rw [List.getElem?_append_left hk]; exact hk1)
    rw [min_eq_left hk2.le] at hs
    exact ⟨hk2, c, by simpa using hc, hs⟩
  · have e1 : first + ts + l.length * ts = first + (l.length + 1) * ts := by ring
    rw [← e1]; exact h2
  · obtain ⟨c, hc, hs⟩ := c2 l.length second (by simp)
    rw [min_self] at hs
    exact ⟨c, by simpa using hc, hs⟩

/-- **C23 (termination)** with a positive time step the sampling always ends. -/
theorem C23_terminates [Archimedean K] (e o : Nat) (path : K → List K) (start : List K) (first second ts : K)
    (hts : 0 < ts) : ∃ fuel0 configs, ∀ fuel ≥ fuel0,
      discretise e o path start first second ts fuel = some configs := by
  obtain ⟨f, l, h⟩ := stepTimes_terminates second ts hts (first + ts)
  exact ⟨f, _, fun fuel hf => by rw [discretise, h fuel hf]; rfl⟩

/-- path of 2+1 coordinates (one extra dof) on [0,5], step 2, whole body of 4 coordinates: samples at 2, 4 and 5 -/
example : discretise (K := ℤ) 1 3 (fun t => [t, 10 * t, 7]) [0, 0, 42, 0] 0 5 2 10 =
    some [[0, 0, 42, 0], [2, 20, 42, 7], [4, 40, 42, 7], [5, 50, 42, 7]] := by decide
/-- an inner sample exactly at the end is not repeated -/
example : discretise (K := ℤ) 0 1 (fun t => [t]) [0] 0 4 2 10 = some [[0], [2], [4]] := by decide

end Interp
end Rbprm
