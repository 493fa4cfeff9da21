import Verif.Props.Provenance
/-!
# Property C180: where the contacts of a plan come from when the plan is filtered in depth

`FilterStates` with `deep` (rbprm-path-interpolation.cc:656-870): `tryReplaceStates` and `trySkipStates` rebuild states by projecting a limb once more.  A user relies on the contacts of such states being contacts of the plan, or
contacts of the plan placed again, on the same surface.
-/
set_option linter.unusedSectionVars false
namespace Rbprm
namespace Interp
open State Contact
variable {N K Smp : Type _} [LinearOrder N] [CommRing K] [LinearOrder K]

/-! ## Specification -/

/-- The projections used by the filter change nothing but the contact of the projected limb, which gets the given normal: what is assumed of `sv` (met by the functions of the library, `C180_projections`). -/
structure MovesOnly (sv : Solvers N K) : Prop where
  obstacle : ∀ (limb : N) (s : State N K) (n p : Vec3 K) (s' : State N K), sv.projectState limb s n p = (true, s') →
    ∃ pos rot cfg, SameContactData s' ((s.removeContact limb).1.addContact limb pos n rot cfg)
  root : ∀ (c : List K) (s s' : State N K), sv.projectRoot c s = (true, s') → SameContactData s' s

/-- the contact `d'` of the limb was obtained by projecting the limb again to the place of its contact `d` (shifted by the offset of the effector, and possibly one centimetre into the surface), with the same normal -/
def PlacedAgain (sv : Solvers N K) (n : N) (d d' : ContactData K) : Prop :=
  d'.2.1 = d.2.1 ∧ ∃ base aim mid, (aim = d.1 + sv.limbOffset n ∨ aim = d.1 + sv.limbOffset n - Vec3.smul sv.centi d.2.1) ∧ sv.projectState n base d.2.1 aim = (true, mid) ∧ HasContact mid n d'

/-- the possible contacts of a plan -/
inductive ComesFrom (env : Env N K Smp) (sv : Solvers N K) (start goal : State N K) (n : N) : ContactData K → Prop
  /-- a contact of the start -/
  | start {d} : HasContact start n d → ComesFrom env sv start goal n d
  /-- a contact found by contact generation -/
  | found {d} : Found env n d → ComesFrom env sv start goal n d
  /-- a contact of the goal, or the limb projected to it -/
  | reached {d} : Reached sv goal n d → ComesFrom env sv start goal n d
  /-- one of these contacts, placed again by deep filtering -/
  | again {d d'} : ComesFrom env sv start goal n d → PlacedAgain sv n d d' → ComesFrom env sv start goal n d'

/-! ## Proofs -/

theorem SameContactData.hasContact {s t : State N K} (h : SameContactData s t) {n : N} {d : ContactData K} : HasContact s n d ↔ HasContact t n d := by
  obtain ⟨_, h2, h3, h4⟩ := h
  unfold HasContact
  rw [h2, h3, h4]

/-- with complete data a limb with a position and a normal has a contact -/
theorem WellFormed.hasContact {limbs : List N} {s : State N K} (h : WellFormed limbs s) {n : N} {p nn : Vec3 K} (hp : s.contactPositions.find? n = some p) (hn : s.contactNormals.find? n = some nn) :
    ∃ r, HasContact s n (p, nn, r) := by
  have hk : n ∈ s.contactRotation.keys := by
    rw [h.sound.rotationsKeys, ← h.sound.positionsKeys, ← AMap.find?_isSome, hp]
    rfl
  rw [← AMap.find?_isSome, Option.isSome_iff_exists] at hk
  obtain ⟨r, hr⟩ := hk
  exact ⟨r, hp, hn, hr⟩

theorem rebuilt_legit {sv : Solvers N K} (hmv : MovesOnly sv) {P : N → ContactData K → Prop} (hP : ∀ n d d', P n d → PlacedAgain sv n d d' → P n d') {limb : N} {s mid s' : State N K} {d : ContactData K} {aim : Vec3 K}
    {root : List K} (hs : Legit P s) (hd : P limb d) (haim : aim = d.1 + sv.limbOffset limb ∨ aim = d.1 + sv.limbOffset limb - Vec3.smul sv.centi d.2.1)
    (h1 : sv.projectState limb s d.2.1 aim = (true, mid)) (h2 : sv.projectRoot root mid = (true, s')) : Legit P s' := by
  intro n e he
  obtain ⟨pos, rot, cfg, hsame⟩ := hmv.obstacle _ _ _ _ _ h1
  have hmid := (hmv.root _ _ _ h2).hasContact.1 he
  have hc := hsame.hasContact.1 hmid
  obtain ⟨k1, k2, k3⟩ := hc
  simp only [State.addContact, AMap.find?_set] at k1 k2 k3
  by_cases hn : n = limb
  · rw [if_pos hn] at k1 k2 k3
    subst hn
    exact hP n d e hd ⟨(Option.some.inj k2).symm, s, aim, mid, haim, h1, hmid⟩
  · rw [if_neg hn] at k1 k2 k3
    exact hs.removeContact limb n e ⟨k1, k2, k3⟩

theorem filterStatesRec_legit {limbs : List N} {sv : Solvers N K} (hsv : KeepsData limbs sv) (hmv : MovesOnly sv) {P : N → ContactData K → Prop} (hP : ∀ n d d', P n d → PlacedAgain sv n d d' → P n d')
    (l out : List (Frame N K)) (hl : ∀ f ∈ l, WellFormed limbs f.2) (hlP : ∀ f ∈ l, Legit P f.2) (h : filterStatesRec sv l = some out) : ∀ f ∈ out, Legit P f.2 := by
  unfold filterStatesRec at h
  split at h
  · cases h
  · rename_i m hm
    set l0 := filterObsolete sv (filterBreakCreate sv (filterRepositioning sv l)) with hl0
    have hsub : ∀ f ∈ l0, f ∈ l := fun f hf =>
      ((dropping_filters sv l).1).1.subset (((dropping_filters sv (filterRepositioning sv l)).2.1).1.subset (((dropping_filters sv (filterBreakCreate sv (filterRepositioning sv l))).2.2).1.subset hf))
    have w0 : ∀ f ∈ l0, WellFormed limbs f.2 := fun f hf => hl f (hsub f hf)
    have p0 : ∀ f ∈ l0, Legit P f.2 := fun f hf => hlP f (hsub f hf)
    have w1 := tryReplace_wellFormed hsv _ m w0 hm
    have p1 : ∀ f ∈ m, Legit P f.2 := by
      intro f hf
      rcases C27_replaced sv l0 m hm f hf with hf | ⟨a, b, c, d, limb, hw, _, _, _, _, _, _, _, ⟨n, p, q, mid, e1, e2, _, _, e4, e5⟩, _⟩
      · exact p0 f hf
      · have hb : b ∈ l0 := hw.subset (by simp)
        have hd : d ∈ l0 := hw.subset (by simp)
        obtain ⟨r, hr⟩ := (w0 d hd).hasContact e2 e1
        exact rebuilt_legit hmv hP (s := { b.2 with configuration := d.2.configuration }) (d := (p, n, r)) ((p0 b hb).congr rfl rfl rfl) (p0 d hd limb _ hr) (Or.inl rfl) e4 e5
    intro f hf
    rcases C27_skipped sv m out h f hf with hf | ⟨a, b, c, d, limb, more, hw, _, _, _, _, _, _, _, _, ⟨n, p, n1, q, mid, e1, e2, _, _, _, e4, e5⟩, _⟩
    · exact p1 f hf
    · have ha : a ∈ m := hw.subset (by simp)
      have hc : c ∈ m := hw.subset (by simp)
      obtain ⟨r, hr⟩ := (w1 a ha).hasContact e2 e1
      exact rebuilt_legit hmv hP (s := { c.2 with configuration := a.2.configuration }) (d := (p, n, r)) ((p1 c hc).congr rfl rfl rfl) (p1 a ha limb _ hr) (Or.inr rfl) e4 e5

theorem filterStates_legit {limbs : List N} {sv : Solvers N K} (hsv : KeepsData limbs sv) (hmv : MovesOnly sv) {P : N → ContactData K → Prop} (hP : ∀ n d d', P n d → PlacedAgain sv n d d' → P n d')
    (fuel : Nat) (deep : Bool) (l out : List (Frame N K)) (hl : ∀ f ∈ l, WellFormed limbs f.2) (hlP : ∀ f ∈ l, Legit P f.2) (h : filterStates sv fuel deep l = .done out) : ∀ f ∈ out, Legit P f.2 := by
  unfold filterStates at h
  split_ifs at h with h1 h2
  · cases h; exact hlP
  · clear h1
    induction fuel generalizing l with
    | zero => cases h
    | succ fuel ih =>
      unfold deepLoop at h
      split at h
      · cases h
      · rename_i r hr
        have hw := filterStatesRec_wellFormed hsv l r hl hr
        have hp := filterStatesRec_legit hsv hmv hP l r hl hlP hr
        split_ifs at h
        · cases h; exact hp
        · exact ih r hw hp h
  · cases h
    exact fun f hf => hlP f (((dropping_filters sv l).2.2).1.subset hf)

/-- **C180 (filter)** Whatever the solvers answer, each contact of each state of the filtered plan is a contact of a state of the plan, or a contact of the plan placed again, possibly several times. -/
theorem C180_filter {limbs : List N} {sv : Solvers N K} (hsv : KeepsData limbs sv) (hmv : MovesOnly sv) (fuel : Nat) (deep : Bool) (l out : List (Frame N K)) (hl : ∀ f ∈ l, WellFormed limbs f.2)
    (h : filterStates sv fuel deep l = .done out) :
    ∀ f ∈ out, ∀ n d, HasContact f.2 n d → ∃ g ∈ l, ∃ d0, HasContact g.2 n d0 ∧ Relation.ReflTransGen (PlacedAgain sv n) d0 d :=
  filterStates_legit hsv hmv (P := fun n d => ∃ g ∈ l, ∃ d0, HasContact g.2 n d0 ∧ Relation.ReflTransGen (PlacedAgain sv n) d0 d)
    (fun _ _ _ ⟨g, hg, d0, h0, h1⟩ h2 => ⟨g, hg, d0, h0, h1.tail h2⟩) fuel deep l out hl (fun f hf n d hd => ⟨f, hf, d, hd, Relation.ReflTransGen.refl⟩) h

theorem normal_of_placedAgain {sv : Solvers N K} {n : N} {d0 d : ContactData K} (h : Relation.ReflTransGen (PlacedAgain sv n) d0 d) : d.2.1 = d0.2.1 := by
  induction h with
  | refl => rfl
  | tail _ h ih => rw [h.1, ih]

/-- **C180 (normals)** The filter invents no normal: the normal of each contact of the filtered plan is the normal of a contact of the same limb in the plan. -/
theorem C180_normals {limbs : List N} {sv : Solvers N K} (hsv : KeepsData limbs sv) (hmv : MovesOnly sv) (fuel : Nat) (deep : Bool) (l out : List (Frame N K)) (hl : ∀ f ∈ l, WellFormed limbs f.2)
    (h : filterStates sv fuel deep l = .done out) :
    ∀ f ∈ out, ∀ n d, HasContact f.2 n d → ∃ g ∈ l, ∃ d0 : ContactData K, HasContact g.2 n d0 ∧ d0.2.1 = d.2.1 := by
  intro f hf n d hd
  obtain ⟨g, hg, d0, h0, h1⟩ := C180_filter hsv hmv fuel deep l out hl h f hf n d hd
  exact ⟨g, hg, d0, h0, (normal_of_placedAgain h1).symm⟩

/-- **C180 (plans)** (partial: without postural task or without test of reachability, see `C170_violated`).  Whatever the robot, the obstacles and the solvers answer, filtered in depth or not, each contact of each state of a plan is
a contact of the start, or was found by contact generation, or comes from the goal, or is such a contact placed again. -/
theorem C180_plan_partial [IsStrictOrderedRing K] (env : Env N K Smp) (hl : env.limbs.Nodup) (hg : ∀ n, ∀ m ∈ env.group n, m ∈ env.limbs)
    (thr : K) (extraDim : Nat) (tr qs : Bool) (compute : Compute N K) (postural : Bool) (hpost : postural = false ∨ tr = false)
    (hc : IsComputeContacts env postural thr extraDim tr qs compute)
    (sv : Solvers N K) (hsv : KeepsData env.limbs sv) (hmv : MovesOnly sv) (configs : List (List K)) (hne : configs ≠ [])
    (ts init : K) (hts : 0 ≤ ts) (start goal : State N K) (hs : WellFormed env.limbs start) (hgoal : WellFormed env.limbs goal)
    (pathEnd : Option K) (deep p : Bool) (fuel : Nat) (plan : List (Frame N K))
    (h : interpolate sv compute postural start goal pathEnd configs ts init deep fuel = (.done plan, p)) :
    ∀ f ∈ plan, ∀ n d, HasContact f.2 n d → ComesFrom env sv start goal n d := by
  set P : N → ContactData K → Prop := ComesFrom env sv start goal with hP
  have hagain : ∀ n d d', P n d → PlacedAgain sv n d d' → P n d' := fun _ _ _ h1 h2 => .again h1 h2
  have hstep : ∀ s c v, Sound s ∧ Legit P s → Sound (newStateOf (compute s c v)) ∧ Legit P (newStateOf (compute s c v)) := by
    intro s c v hs
    refine ⟨(computeContacts_good hl hc).1 s c v hs.1, ?_⟩
    obtain ⟨fuel, hf⟩ := hc s c v hs.1
    exact (computeContacts_legit env hl P (fun _ _ h => .found h) postural fuel s hs.1 hs.2 c thr extraDim tr qs _ hf (hpost.imp id Or.inl)).congr rfl rfl rfl
  have hloop : ∀ b w, mainLoop sv compute configs ts fuel (Loop.start start init) = some (b, w) → w.states.getLast? = some w.front ∧ ∀ f ∈ w.states, Legit P f.2 := by
    intro b w hm
    obtain ⟨_, _, _, _, _, hlast, hgood⟩ := C24_loop sv compute configs ts init hts hne start (fun s => Sound s ∧ Legit P s) ⟨hs.sound, fun n d hd => .start hd⟩ hstep
      (fun s c v hs => (computeContacts_good hl hc).2 s c v hs.1) fuel b w hm
    exact ⟨hlast, fun f hf => (hgood f hf).2⟩
  unfold interpolate at h
  split at h
  · cases h
  · rename_i w hm
    have hw := mainLoop_wellFormed env hl hg thr extraDim tr qs compute postural hc sv configs hne ts init hts start hs fuel _ w hm
    exact filterStates_legit hsv hmv hagain fuel deep _ plan hw (hloop _ w hm).2 (Prod.mk.inj h).1
  · rename_i w hm
    have hw := mainLoop_wellFormed env hl hg thr extraDim tr qs compute postural hc sv configs hne ts init hts start hs fuel _ w hm
    obtain ⟨hlast, hall⟩ := hloop _ w hm
    split_ifs at h
    · split at h
      · cases h
      · rename_i l p' hadd
        obtain ⟨_, moved, added, tail, rfl, hmv', _, _, htail⟩ := C28_goal_partial sv postural goal pathEnd _ _ l p' hadd
        refine filterStates_legit hsv hmv hagain fuel deep _ plan (fun f hf => ?_) (fun f hf => ?_) (Prod.mk.inj h).1
        · rcases List.mem_append.1 hf with hf | hf
          · rcases List.mem_append.1 hf with hf | hf
            · exact hw f hf
            · exact hmv'.wellFormed hgoal (hw w.front (by simp [Loop.states])) f hf
          · rcases htail with ⟨_, rfl⟩ | ⟨_, rfl⟩
            · rw [List.mem_singleton] at hf
              subst hf
              exact hgoal
            · cases hf
        · rcases List.mem_append.1 hf with hf | hf
          · rcases List.mem_append.1 hf with hf | hf
            · exact hall f hf
            · exact hmv'.legit (P := P) (fun n d h => .reached h) (hall _ (List.mem_of_getLast? hlast)) f hf
          · rcases htail with ⟨_, rfl⟩ | ⟨_, rfl⟩
            · rw [List.mem_singleton] at hf
              subst hf
              exact fun n d hd => .reached (Or.inl hd)
            · cases hf
    · cases (Prod.mk.inj h).1
      exact hall

/-- **C180 (projections)** The two projections of the library change nothing but the contact of the projected limb, and give it the required normal. -/
theorem C180_projections (rob : Proj.Robot N Smp) (sv : Solvers N ℝ)
    (h1 : ∀ limb s n p s', sv.projectState limb s n p = (true, s') → ∃ device check l lock rot rep,
      rob.stateToObstacle device check limb l s n p lock rot = some rep ∧ rep.success = true ∧ rep.result = s')
    (h2 : ∀ c s s', sv.projectRoot c s = (true, s') → ∃ head off rep, rob.toRootConfiguration c head s off = some rep ∧ rep.result = s') : MovesOnly sv := by
  constructor
  · intro limb s n p s' h
    obtain ⟨device, check, l, lock, rot, rep, hrep, hsuc, rfl⟩ := h1 limb s n p s' h
    unfold Proj.Robot.stateToObstacle at hrep
    obtain ⟨cs, hcs, rfl⟩ := Option.map_eq_some_iff.1 hrep
    obtain ⟨p', r', c', e⟩ := projectEffector_result hsuc
    exact ⟨p', r', c', by rw [e]; rfl, by rw [e]; rfl, by rw [e]; rfl, by rw [e]; rfl⟩
  · intro c s s' h
    obtain ⟨head, off, rep, hrep, rfl⟩ := h2 c s s' h
    obtain ⟨e1, e2, e3, e4, _⟩ := Proj.C132_contacts rob s rep (Or.inr (Or.inl ⟨c, head, off, hrep⟩))
    exact ⟨e1, e2, e3, e4⟩

/-! ## Examples -/

theorem demoSv_keeps (limbs : List ℕ) : KeepsData limbs demoSv := by
  constructor
  · intro limb hl s n p s' hs h
    cases h
    exact (hs.removeContact limb).1.addContact hl (hs.removeContact limb).2 _ _ _ _
  · intro c s s' hs h
    cases h
    exact hs.same_maps rfl rfl rfl rfl rfl

theorem demoSv_moves : MovesOnly demoSv := by
  constructor
  · intro limb s n p s' h
    cases h
    exact ⟨p, Mat3.one, [9], rfl, rfl, rfl, rfl⟩
  · intro c s s' h
    cases h
    exact ⟨rfl, rfl, rfl, rfl⟩

/-- the plan of `replPlan`, in which the second state and the fourth have the first limb at different places -/
def againPlan : List (Frame ℕ ℤ) :=
  [(0, mk [0] [(1, 0), (2, 0)]), (1, mk [1] [(1, 5), (2, 0)]), (2, mk [2] [(1, 7), (2, 3)]), (3, mk [3] [(1, 5), (2, 3)])]

/-- the hypotheses of `C180_filter` are met, by a plan in which a state is rebuilt -/
example : KeepsData [1, 2] demoSv ∧ MovesOnly demoSv ∧ (∀ f ∈ againPlan, WellFormed [1, 2] f.2) ∧
    (match filterStates demoSv 10 true againPlan with | .done l => l.map (fun f => (f.1, f.2.contactPositions)) | _ => []) =
      [(0, [(1, ⟨0, 0, 0⟩), (2, ⟨0, 0, 0⟩)]), (1, [(1, ⟨5, 0, 0⟩), (2, ⟨0, 0, 0⟩)]), (3, [(1, ⟨5, 0, 0⟩), (2, ⟨3, 0, 0⟩)])] := by
  refine ⟨demoSv_keeps _, demoSv_moves, ?_, by decide⟩
  intro f hf
  simp only [againPlan, List.mem_cons, List.not_mem_nil, or_false] at hf
  rcases hf with rfl | rfl | rfl | rfl
  all_goals
    refine ⟨⟨⟨?_, ?_, ?_, ?_⟩, ?_, ?_, ?_, ?_⟩, ?_, ?_⟩
    any_goals (first | decide | (unfold AMap.WF; decide))
    intro n b h
    have := AMap.find?_some_mem h
    simp [mk, State.addContact, State.init, AMap.set] at this
    tauto

/-- the hypotheses of `C180_plan_partial` are met, by a plan filtered in depth -/
example : groupedEnv.limbs.Nodup ∧ (∀ n, ∀ m ∈ groupedEnv.group n, m ∈ groupedEnv.limbs) ∧ (∃ compute, IsComputeContacts groupedEnv false 3 0 false true compute) ∧ KeepsData groupedEnv.limbs demoSv ∧ MovesOnly demoSv ∧
    WellFormed groupedEnv.limbs State.demo ∧ WellFormed groupedEnv.limbs (mk [1, 1] [(1, 0), (2, 0), (3, 0), (4, 0)]) ∧
    (match interpolate demoSv groupedCompute false State.demo (mk [1, 1] [(1, 0), (2, 0), (3, 0), (4, 0)]) (some 4) [[0, 0], [1, 1], [2, 2]] 1 0 true 100 with
      | (.done plan, _) => plan.length
      | _ => 0) = 4 := by
  refine ⟨by decide, ?_, isComputeContacts_exists _ (by decide) _ _ _ _ _, demoSv_keeps _, demoSv_moves, ⟨State.demo_consistent.sound, State.demo_consistent.counter, by decide⟩, mk_all, by decide⟩
  intro n m hm
  simp only [groupedEnv] at hm
  split_ifs at hm with h
  · rw [List.mem_singleton] at hm
    rw [hm]
    exact h
  · cases hm

end Interp
end Rbprm
