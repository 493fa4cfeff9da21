import Verif.Model.Combinatorics
import Verif.Props.State
import Mathlib.Data.List.Nodup
/-! Helper lemmas for the combinatorial part of contact generation. -/
set_option linter.unusedSectionVars false
namespace Rbprm
namespace Contact
open State
variable {N K : Type _} [LinearOrder N]

/-- The state left after breaking every contact that is not in `kept`. -/
def keepOnly (s : State N K) (kept : List N) : State N K :=
  { s with
    contacts := s.contacts.filter (fun p => decide (p.1 ∈ kept))
    contactNormals := s.contactNormals.filter (fun p => decide (p.1 ∈ kept))
    contactPositions := s.contactPositions.filter (fun p => decide (p.1 ∈ kept))
    contactRotation := s.contactRotation.filter (fun p => decide (p.1 ∈ kept))
    contactOrder := kept
    nbContacts := kept.length
    stable := if kept = s.contactOrder then s.stable else false }

theorem filter_mem_of_sublist {k o : List N} (h : k.Sublist o) (hn : o.Nodup) :
    o.filter (fun x => decide (x ∈ k)) = k := by
  induction h with
  | slnil => rfl
  | @cons k o a h ih =>
    have hc := List.nodup_cons.1 hn
    have : a ∉ k := fun hk => hc.1 (h.subset hk)
    rw [List.filter_cons_of_neg (by simpa using this)]
    exact ih hc.2
  | @cons_cons k o a h ih =>
    have hc := List.nodup_cons.1 hn
    rw [List.filter_cons_of_pos (by simp)]
    congr 1
    rw [← ih hc.2]
    refine List.filter_congr fun x hx => ?_
    have hne : x ≠ a := fun e => hc.1 (e ▸ hx)
    rw [ih hc.2]
    simp [hne]

theorem filter_keys_self {V W : Type _} (m : AMap N V) (c : AMap N W) (o : List N) (ho : o.Perm c.keys)
    (hk : m.keys = c.keys) : m.filter (fun p => decide (p.1 ∈ o)) = m := by
  refine List.filter_eq_self.2 fun p hp => ?_
  have : p.1 ∈ m.keys := AMap.mem_keys_of_mem (v := p.2) hp
  rw [hk, ← ho.mem_iff] at this
  simpa using this

theorem erase_filter_mem {V : Type _} (m : AMap N V) (k : List N) (a : N) :
    AMap.erase (m.filter (fun p => decide (p.1 ∈ k))) a =
      m.filter (fun p => decide (p.1 ∈ k.filter (· ≠ a))) := by
  unfold AMap.erase
  rw [List.filter_filter]
  refine List.filter_congr fun p _ => ?_
  simp only [List.mem_filter]
  by_cases h1 : p.1 ∈ k <;> by_cases h2 : p.1 = a <;> simp [h1, h2]

theorem keepOnly_order (s : State N K) (h : Consistent s) : keepOnly s s.contactOrder = s := by
  have hnb : s.contactOrder.length = s.nbContacts := by
    rw [h.counter, h.orderPerm.length_eq]; simp [AMap.keys]
  cases s
  simp only [keepOnly, State.mk.injEq, if_true, and_true, true_and]
  exact ⟨filter_keys_self _ _ _ h.orderPerm rfl, filter_keys_self _ _ _ h.orderPerm h.normalsKeys,
    filter_keys_self _ _ _ h.orderPerm h.positionsKeys,
    filter_keys_self _ _ _ h.orderPerm h.rotationsKeys, hnb⟩

theorem removeContact_keepOnly (s : State N K) (h : Consistent s) {k : List N} {a : N}
    (hs : k.Sublist s.contactOrder) (ha : a ∈ k) :
    ((keepOnly s k).removeContact a).1 = keepOnly s (k.filter (· ≠ a)) := by
  have hkn : k.Nodup := h.order_nodup.sublist hs
  have hmem : a ∈ s.contacts.keys := h.orderPerm.mem_iff.1 (hs.subset ha)
  have hhas : (keepOnly s k).contacts.has a = true := by
    rw [AMap.has_iff]
    obtain ⟨v, hv⟩ := AMap.exists_of_mem_keys hmem
    refine AMap.mem_keys_of_mem (v := v) ?_
    simp only [keepOnly, List.mem_filter]
    exact ⟨hv, by simpa using ha⟩
  have hlen := filter_ne_length_of_nodup hkn ha
  have hne : k.filter (· ≠ a) ≠ s.contactOrder := by
    intro e
    have : a ∈ k.filter (· ≠ a) := by rw [e]; exact hs.subset ha
    simp at this
  have hsz : sizeDec k.length = (k.filter (· ≠ a)).length := by
    unfold sizeDec; rw [if_neg (by omega)]; omega
  unfold State.removeContact
  rw [if_pos hhas]
  simp only [keepOnly, erase_filter_mem, requeueWithout_eq, hsz, if_neg hne]

section dfs
variable (s : State N K) (maxBroken : Nat)

/-- level `d` of the depth vector -/
def lvl (res : List (List (State N K))) (d : Nat) : List (State N K) := res.getD d []

structure LvInv (res : List (List (State N K))) : Prop where
  len : res.length = maxBroken + 1
  good : ∀ d, ∀ x ∈ lvl res d, x.contactOrder.Sublist s.contactOrder ∧
    x.contactOrder.length + d = s.contactOrder.length ∧ x = keepOnly s x.contactOrder
  nodup : ∀ d, ((lvl res d).map State.contactOrder).Nodup

/-- every state of level `d' ∈ [d, max)` has all its one-contact removals at level `d'+1` -/
def ClosedFrom (d : Nat) (res : List (List (State N K))) : Prop :=
  ∀ d', d ≤ d' → d' < maxBroken → ∀ x ∈ lvl res d', ∀ a ∈ x.contactOrder,
    x.contactOrder.filter (· ≠ a) ∈ (lvl res (d' + 1)).map State.contactOrder

theorem lvl_set {res : List (List (State N K))} {d : Nat} (h : d < res.length) (l : List (State N K))
    (d' : Nat) : lvl (res.set d l) d' = if d' = d then l else lvl res d' := by
  unfold lvl
  rw [List.getD_eq_getElem?_getD, List.getD_eq_getElem?_getD, List.getElem?_set]
  by_cases hd : d' = d
  · subst hd; simp [h]
  · simp [hd, Ne.symm hd]

theorem pushIfNew_false {states : List (State N K)} {c : State N K}
    (h : (pushIfNew states c).2 = false) :
    (pushIfNew states c).1 = states ∧ c.contactOrder ∈ states.map State.contactOrder := by
  unfold pushIfNew at h ⊢
  split_ifs at h ⊢ with hc
  refine ⟨rfl, ?_⟩
  simp only [List.any_eq_true, decide_eq_true_eq] at hc
  obtain ⟨x, hx, he⟩ := hc
  exact List.mem_map.2 ⟨x, hx, he.symm⟩

theorem pushIfNew_true {states : List (State N K)} {c : State N K}
    (h : (pushIfNew states c).2 = true) :
    (pushIfNew states c).1 = states ++ [c] ∧ c.contactOrder ∉ states.map State.contactOrder := by
  unfold pushIfNew at h ⊢
  split_ifs at h ⊢ with hc
  refine ⟨rfl, ?_⟩
  simp only [List.any_eq_true, decide_eq_true_eq, not_exists, not_and] at hc
  intro hm
  obtain ⟨x, hx, he⟩ := List.mem_map.1 hm
  exact hc x hx he.symm

/-- What one recursive visit guarantees. -/
structure Visit (d : Nat) (k : List N) (res res' : List (List (State N K))) : Prop where
  inv : LvInv s maxBroken res'
  closed : ClosedFrom maxBroken d res'
  mono : ∀ d', ∀ x ∈ lvl res d', x ∈ lvl res' d'
  here : k ∈ (lvl res' d).map State.contactOrder
  above : ∀ d', d' < d → lvl res' d' = lvl res d'

theorem visit (h : Consistent s) (fuel : Nat) : ∀ (d : Nat) (k : List N) (res : List (List (State N K))),
    maxBroken ≤ d + fuel → d ≤ maxBroken → k.Sublist s.contactOrder →
    k.length + d = s.contactOrder.length → LvInv s maxBroken res → ClosedFrom maxBroken d res →
    Visit s maxBroken d k res (maintainCombRec maxBroken fuel (keepOnly s k) d res) := by
  induction fuel with
  | zero =>
    intro d k res hf hd hk hlen hinv hcl
    have hd' : d = maxBroken := by omega
    have hlt : d < res.length := by rw [hinv.len]; omega
    unfold maintainCombRec
    have hg : (!(pushIfNew (res.getD d []) (keepOnly s k)).2 || decide (maxBroken ≤ d)) = true := by
      simp [hd']
    simp only [hg, if_true]
    cases hp : (pushIfNew (res.getD d []) (keepOnly s k)).2 with
    | false =>
      obtain ⟨h1, h2⟩ := pushIfNew_false hp
      rw [h1]
      have hl : ∀ d', lvl (res.set d (res.getD d [])) d' = lvl res d' := by
        intro d'; rw [lvl_set hlt]; split_ifs with e
        · rw [e]; rfl
        · rfl
      refine ⟨⟨by simpa using hinv.len, ?_, ?_⟩, ?_, ?_, ?_, ?_⟩
      · intro d' x hx; rw [hl] at hx; exact hinv.good d' x hx
      · intro d'; rw [hl]; exact hinv.nodup d'
      · intro d' h3 h4; omega
      · intro d' x hx; rw [hl]; exact hx
      · rw [hl]; exact h2
      · intro d' _; exact hl d'
    | true =>
      obtain ⟨h1, h2⟩ := pushIfNew_true hp
      rw [h1]
      refine ⟨⟨by simpa using hinv.len, ?_, ?_⟩, ?_, ?_, ?_, ?_⟩
      · intro d' x hx
        rw [lvl_set hlt] at hx
        split_ifs at hx with e
        · rcases List.mem_append.1 hx with hx | hx
          · exact e ▸ hinv.good d x hx
          · simp only [List.mem_singleton] at hx
            subst hx; subst e
            exact ⟨hk, hlen, rfl⟩
        · exact hinv.good d' x hx
      · intro d'
        rw [lvl_set hlt]
        split_ifs with e
        · rw [List.map_append, List.nodup_append]
          refine ⟨hinv.nodup d, by simp, ?_⟩
          intro x hx y hy
          simp only [List.map_cons, List.map_nil, List.mem_singleton] at hy
          subst hy
          exact fun e => h2 (e ▸ hx)
        · exact hinv.nodup d'
      · intro d' h3 h4; omega
      · intro d' x hx; rw [lvl_set hlt]; split_ifs with e
        · subst e; exact List.mem_append_left _ hx
        · exact hx
      · rw [lvl_set hlt, if_pos rfl]; simp [keepOnly]
      · intro d' hd'; rw [lvl_set hlt, if_neg (by omega)]
  | succ fuel ih =>
    intro d k res hf hd hk hlen hinv hcl
    have hlt : d < res.length := by rw [hinv.len]; omega
    unfold maintainCombRec
    cases hp : (pushIfNew (res.getD d []) (keepOnly s k)).2 with
    | false =>
      simp only [hp, Bool.not_false, Bool.true_or, if_true]
      obtain ⟨h1, h2⟩ := pushIfNew_false hp
      rw [h1]
      have hl : ∀ d', lvl (res.set d (res.getD d [])) d' = lvl res d' := by
        intro d'; rw [lvl_set hlt]; split_ifs with e
        · rw [e]; rfl
        · rfl
      refine ⟨⟨by simpa using hinv.len, ?_, ?_⟩, ?_, ?_, ?_, ?_⟩
      · intro d' x hx; rw [hl] at hx; exact hinv.good d' x hx
      · intro d'; rw [hl]; exact hinv.nodup d'
      · intro d' h3 h4 x hx; rw [hl] at hx ⊢; exact hcl d' h3 h4 x hx
      · intro d' x hx; rw [hl]; exact hx
      · rw [hl]; exact h2
      · intro d' _; exact hl d'
    | true =>
      obtain ⟨h1, h2⟩ := pushIfNew_true hp
      set res1 := res.set d (res.getD d [] ++ [keepOnly s k]) with hres1
      have hl1 : ∀ d', lvl res1 d' = if d' = d then res.getD d [] ++ [keepOnly s k] else lvl res d' :=
        fun d' => lvl_set hlt _ d'
      have inv1 : LvInv s maxBroken res1 := by
        refine ⟨by simpa [hres1] using hinv.len, ?_, ?_⟩
        · intro d' x hx
          rw [hl1] at hx
          split_ifs at hx with e
          · rcases List.mem_append.1 hx with hx | hx
            · exact e ▸ hinv.good d x hx
            · simp only [List.mem_singleton] at hx
              subst hx; subst e
              exact ⟨hk, hlen, rfl⟩
          · exact hinv.good d' x hx
        · intro d'
          rw [hl1]
          split_ifs with e
          · rw [List.map_append, List.nodup_append]
            refine ⟨hinv.nodup d, by simp, ?_⟩
            intro x hx y hy
            simp only [List.map_cons, List.map_nil, List.mem_singleton] at hy
            subst hy
            exact fun e => h2 (e ▸ hx)
          · exact hinv.nodup d'
      have mono1 : ∀ d', ∀ x ∈ lvl res d', x ∈ lvl res1 d' := by
        intro d' x hx; rw [hl1]; split_ifs with e
        · subst e; exact List.mem_append_left _ hx
        · exact hx
      by_cases hmax : maxBroken ≤ d
      · simp only [hp, h1, Bool.not_true, Bool.false_or, decide_eq_true_eq, hmax, if_true, ← hres1]
        refine ⟨inv1, ?_, mono1, ?_, ?_⟩
        · intro d' h3 h4; omega
        · rw [hl1, if_pos rfl]; simp [keepOnly]
        · intro d' hd'; rw [hl1, if_neg (by omega)]
      · simp only [hp, h1, Bool.not_true, Bool.false_or, decide_eq_true_eq, hmax, if_false, ← hres1]
        -- the loop over the contact order
        have loop : ∀ (cs : List N) (acc : List (List (State N K))), (∀ a ∈ cs, a ∈ k) →
            LvInv s maxBroken acc → ClosedFrom maxBroken (d + 1) acc →
            (∀ d', ∀ x ∈ lvl res1 d', x ∈ lvl acc d') → (∀ d', d' < d + 1 → lvl acc d' = lvl res1 d') →
            let out := cs.foldl (fun acc c =>
              maintainCombRec maxBroken fuel ((keepOnly s k).removeContact c).1 (d + 1) acc) acc
            LvInv s maxBroken out ∧ ClosedFrom maxBroken (d + 1) out ∧
              (∀ d', ∀ x ∈ lvl acc d', x ∈ lvl out d') ∧
              (∀ d', d' < d + 1 → lvl out d' = lvl res1 d') ∧
              (∀ a ∈ cs, k.filter (· ≠ a) ∈ (lvl out (d + 1)).map State.contactOrder) := by
          intro cs
          induction cs with
          | nil =>
            intro acc _ hi hc _ ha
            exact ⟨hi, hc, fun _ _ hx => hx, ha, by simp⟩
          | cons c cs ihc =>
            intro acc hcs hi hc hm ha
            have hck : c ∈ k := hcs c (by simp)
            have hkn : k.Nodup := h.order_nodup.sublist hk
            have hl' := filter_ne_length_of_nodup hkn hck
            have v := ih (d + 1) (k.filter (· ≠ c)) acc (by omega) (by omega)
              (List.filter_sublist.trans hk) (by omega) hi hc
            rw [← removeContact_keepOnly s h hk hck] at v
            have r := ihc _ (fun a ha => hcs a (List.mem_cons_of_mem _ ha)) v.inv v.closed
              (fun d' x hx => v.mono d' x (hm d' x hx))
              (fun d' hd' => (v.above d' hd').trans (ha d' hd'))
            simp only [List.foldl_cons]
            refine ⟨r.1, r.2.1, fun d' x hx => r.2.2.1 d' x (v.mono d' x hx), r.2.2.2.1, ?_⟩
            intro a ha'
            rcases List.mem_cons.1 ha' with e | e
            · subst e
              obtain ⟨x, hx, he⟩ := List.mem_map.1 v.here
              exact List.mem_map.2 ⟨x, r.2.2.1 _ x hx, he⟩
            · exact r.2.2.2.2 a e
        have hcl1 : ClosedFrom maxBroken (d + 1) res1 := by
          intro d' h3 h4 x hx a ha
          rw [hl1, if_neg (by omega)] at hx
          rw [hl1, if_neg (by omega)]
          exact hcl d' (by omega) h4 x hx a ha
        have r := loop k res1 (fun a ha => ha) inv1 hcl1 (fun _ _ hx => hx) (fun _ _ => rfl)
        have hko : (keepOnly s k).contactOrder = k := rfl
        rw [hko]
        obtain ⟨r1, r2, r3, r4, r5⟩ := r
        refine ⟨r1, ?_, fun d' x hx => r3 d' x (mono1 d' x hx), ?_, ?_⟩
        · intro d' h3 h4 x hx a ha
          rcases Nat.lt_or_ge d d' with hgt | hge
          · exact r2 d' hgt h4 x hx a ha
          · have hdd : d' = d := by omega
            subst hdd
            rw [r4 d' (by omega), hl1, if_pos rfl] at hx
            rcases List.mem_append.1 hx with hx | hx
            · have := hcl d' le_rfl h4 x hx a ha
              obtain ⟨y, hy, he⟩ := List.mem_map.1 this
              exact List.mem_map.2 ⟨y, r3 _ y (mono1 _ y hy), he⟩
            · simp only [List.mem_singleton] at hx
              subst hx
              exact r5 a ha
        · rw [r4 d (by omega), hl1, if_pos rfl]; simp [keepOnly]
        · intro d' hd'; rw [r4 d' (by omega), hl1, if_neg (by omega)]

theorem exists_parent {k o : List N} (hk : k.Sublist o) (hn : o.Nodup) (hl : k.length < o.length) :
    ∃ (a : N) (k' : List N), k'.Sublist o ∧ k'.length = k.length + 1 ∧ a ∈ k' ∧ k = k'.filter (· ≠ a) := by
  have hex : ∃ a ∈ o, a ∉ k := by
    by_contra hc
    simp only [not_exists, not_and, not_not] at hc
    have h1 := filter_mem_of_sublist hk hn
    have h2 : o.filter (fun x => decide (x ∈ k)) = o :=
      List.filter_eq_self.2 fun x hx => by simpa using hc x hx
    rw [h2] at h1
    rw [h1] at hl
    exact lt_irrefl _ hl
  obtain ⟨a, hao, hak⟩ := hex
  refine ⟨a, o.filter (fun x => decide (x ∈ a :: k)), List.filter_sublist, ?_, ?_, ?_⟩
  · have hf : (o.filter (fun x => decide (x ∈ a :: k))).filter (· ≠ a) = k := by
      rw [List.filter_filter]
      conv_rhs => rw [← filter_mem_of_sublist hk hn]
      refine List.filter_congr fun x _ => ?_
      by_cases e : x = a
      · subst e; simp [hak]
      · simp [e]
    have := filter_ne_length_of_nodup (n := a)
      (hn.sublist (List.filter_sublist (p := fun x => decide (x ∈ a :: k)) (l := o)))
      (by simp [hao])
    rw [hf] at this
    exact this.symm
  · simp [hao]
  · rw [List.filter_filter]
    conv_lhs => rw [← filter_mem_of_sublist hk hn]
    refine List.filter_congr fun x _ => ?_
    by_cases e : x = a
    · subst e; simp [hak]
    · simp [e]

end dfs
end Contact
end Rbprm

namespace Rbprm
namespace Contact
variable {A : Type _} [DecidableEq A]

theorem mem_extendAll (res : List (List A)) (cands : List A) (y : List A) :
    y ∈ extendAll res cands ↔ ∃ x ∈ res, ∃ c ∈ cands, c ∉ x ∧ y = x ++ [c] := by
  unfold extendAll insertIfNew
  simp only [List.mem_flatMap, List.mem_filterMap]
  refine exists_congr fun x => and_congr_right fun _ => exists_congr fun c => and_congr_right fun _ => ?_
  by_cases h : c ∈ x
  · simp [h]
  · simp [h, eq_comm]

theorem nodup_extendAll {res : List (List A)} {cands : List A} (hr : res.Nodup) (hc : cands.Nodup) :
    (extendAll res cands).Nodup := by
  induction res with
  | nil => simp [extendAll]
  | cons x res ih =>
    have hx := List.nodup_cons.1 hr
    have e : extendAll (x :: res) cands = extendAll [x] cands ++ extendAll res cands := by
      simp [extendAll]
    rw [e, List.nodup_append]
    refine ⟨?_, ih hx.2, ?_⟩
    · unfold extendAll insertIfNew
      simp only [List.flatMap_cons, List.flatMap_nil, List.append_nil]
      refine List.Nodup.filterMap ?_ hc
      intro a b l ha hb
      simp only [Option.mem_def] at ha hb
      by_cases h1 : a ∈ x
      · simp [h1] at ha
      · by_cases h2 : b ∈ x
        · simp [h2] at hb
        · simp [h1] at ha; simp [h2] at hb
          rw [← hb] at ha
          simpa using ha
    · intro a ha b hb hab
      obtain ⟨x1, hx1, c1, _, _, e1⟩ := (mem_extendAll _ _ _).1 ha
      obtain ⟨x2, hx2, c2, _, _, e2⟩ := (mem_extendAll _ _ _).1 hb
      simp only [List.mem_singleton] at hx1
      subst hx1
      rw [e1, e2] at hab
      have := List.append_inj_left' hab rfl
      exact hx.1 (this ▸ hx2)

theorem mem_stringCombRec (cands : List A) (d : Nat) (res : List (List A)) (y : List A) :
    y ∈ stringCombRec cands d res ↔ ∃ x ∈ res, ∃ ext, y = x ++ ext ∧ ext.length ≤ d ∧
      (∀ c ∈ ext, c ∈ cands ∧ c ∉ x) ∧ ext.Nodup := by
  induction d generalizing res with
  | zero =>
    simp only [stringCombRec, Nat.le_zero, List.length_eq_zero_iff]
    constructor
    · exact fun h => ⟨y, h, [], by simp⟩
    · rintro ⟨x, hx, ext, rfl, rfl, _⟩; simpa using hx
  | succ d ih =>
    simp only [stringCombRec, List.mem_append, ih]
    constructor
    · rintro (h | ⟨x', hx', ext, rfl, hl, hm, hn⟩)
      · exact ⟨y, h, [], by simp⟩
      · obtain ⟨x, hx, c, hc, hcx, rfl⟩ := (mem_extendAll _ _ _).1 hx'
        refine ⟨x, hx, c :: ext, by simp, by simpa using hl, ?_, ?_⟩
        · intro e he
          rcases List.mem_cons.1 he with rfl | he
          · exact ⟨hc, hcx⟩
          · exact ⟨(hm e he).1, fun hex => (hm e he).2 (List.mem_append_left _ hex)⟩
        · exact List.nodup_cons.2 ⟨fun he => (hm c he).2 (by simp), hn⟩
    · rintro ⟨x, hx, ext, rfl, hl, hm, hn⟩
      cases ext with
      | nil => left; simpa using hx
      | cons c ext =>
        right
        have hc := hm c (by simp)
        have hnc := List.nodup_cons.1 hn
        refine ⟨x ++ [c], (mem_extendAll _ _ _).2 ⟨x, hx, c, hc.1, hc.2, rfl⟩, ext, by simp,
          by simpa using hl, ?_, hnc.2⟩
        intro e he
        have := hm e (List.mem_cons_of_mem _ he)
        refine ⟨this.1, fun h => ?_⟩
        rcases List.mem_append.1 h with h | h
        · exact this.2 h
        · simp only [List.mem_singleton] at h
          exact hnc.1 (h ▸ he)

theorem length_mem_stringCombRec (cands : List A) (d : Nat) (res : List (List A)) (y : List A) (n : Nat)
    (h : ∀ x ∈ res, x.length = n) (hy : y ∈ stringCombRec cands d res) : n ≤ y.length := by
  obtain ⟨x, hx, ext, rfl, _⟩ := (mem_stringCombRec cands d res y).1 hy
  have := h x hx
  simp; omega

theorem nodup_stringCombRec {cands : List A} (hc : cands.Nodup) (d : Nat) (res : List (List A)) (n : Nat)
    (h : ∀ x ∈ res, x.length = n) (hr : res.Nodup) : (stringCombRec cands d res).Nodup := by
  induction d generalizing res n with
  | zero => simpa [stringCombRec] using hr
  | succ d ih =>
    have hl : ∀ x ∈ extendAll res cands, x.length = n + 1 := by
      intro x hx
      obtain ⟨x', hx', c, _, _, rfl⟩ := (mem_extendAll _ _ _).1 hx
      simp [h x' hx']
    simp only [stringCombRec]
    rw [List.nodup_append]
    refine ⟨hr, ih _ (n + 1) hl (nodup_extendAll hr hc), ?_⟩
    intro a ha b hb hab
    have := length_mem_stringCombRec cands d _ b (n + 1) hl hb
    rw [← hab, h a ha] at this
    omega

theorem stringCombRec_head (cands : List A) (d : Nat) :
    ∃ tl, stringCombRec cands d [[]] = [] :: tl := by
  cases d with
  | zero => exact ⟨[], rfl⟩
  | succ d => exact ⟨_, rfl⟩

theorem insertIfNew_fst_mem (l : List A) (x y : A) : y ∈ (insertIfNew l x).1 ↔ y ∈ l ∨ y = x := by
  unfold insertIfNew
  by_cases h : x ∈ l
  · simp only [List.contains_eq_mem, decide_eq_true_eq, h, if_true]
    constructor
    · exact Or.inl
    · rintro (h' | rfl)
      · exact h'
      · exact h
  · simp [h]

theorem insertIfNew_nodup {l : List A} (x : A) (h : l.Nodup) : (insertIfNew l x).1.Nodup := by
  unfold insertIfNew
  by_cases hx : x ∈ l
  · simpa [hx] using h
  · simp only [List.contains_eq_mem, decide_eq_true_eq, hx, if_false]
    rw [List.nodup_append]
    refine ⟨h, by simp, ?_⟩
    intro a ha b hb e
    simp only [List.mem_singleton] at hb
    exact hx (hb ▸ e ▸ ha)

end Contact
end Rbprm
