import Verif.Move.Model

/-! Property C56: moving a network. -/

namespace Verif.Move

open Verif Index

/-- The object seen after the move: the network has a new address, the others have not changed. -/
def renamed (old new : Nat) (o : Obj) : Obj := if o.uid = old then { o with uid := new } else o

theorem get?_moved {s : State} (h : Index.Inv s) {netId : String} {o : Obj} (ho : s.objs.get? netId = some o) (n : String) :
    (s.objs.set netId { o with uid := s.next }).get? n = (s.objs.get? n).map (renamed o.uid s.next) := by
  rw [AMap.get?_set]
  by_cases e : netId = n
  · subst e
    rw [if_pos rfl, ho]
    simp [renamed]
  · rw [if_neg e]
    cases hn : s.objs.get? n with
    | none => rfl
    | some o' =>
      have : o'.uid ≠ o.uid := fun hh => e (h.uidInj _ _ _ _ hn ho hh).symm
      simp [renamed, this]

/-- C56, index, partial: after the move a name that is not an alias is found as before, every alias is found no more. -/
theorem index_move_partial {s s' : State} (h : Reachable s) {netId : String} {netTy : Nat} {o : Obj}
    (ho : s.objs.get? netId = some o) (hm : moveIndex netId netTy s = .ok s') :
    (∀ n, s.alias.get? n = none → find s' n = (find s n).map (Option.map (renamed o.uid s.next))) ∧
    (∀ n, n ≠ "" → s.alias.get? n ≠ none → find s' n = .ok none ∧ ∃ o', find s n = .ok (some o')) := by
  have hi := (reachable_inv h).1
  simp only [moveIndex, ho] at hm
  have e : s'.alias = [] ∧ s'.objs = s.objs.set netId { o with uid := s.next } := by
    split at hm
    · cases hm; exact ⟨rfl, rfl⟩
    · cases hm
  obtain ⟨ea, eo⟩ := e
  have hf : ∀ n, n ≠ "" → find s' n = .ok ((s.objs.get? n).map (renamed o.uid s.next)) := by
    intro n hn
    simp only [find, resolve, ea, eo, get?_moved hi ho]
    rw [show AMap.get? ([] : AMap String String) n = none from rfl]
    simp [hn]
  constructor
  · intro n hn
    by_cases h0 : n = ""
    · subst h0
      simp [find, resolve, ea, hn, AMap.get?, Out.map]
    · rw [hf n h0]
      simp [find, resolve, hn, h0, Out.map]
  · intro n h0 hn
    cases ha : s.alias.get? n with
    | none => exact absurd ha hn
    | some id =>
      obtain ⟨h1, o', h2, _⟩ := hi.fwd n id ha
      refine ⟨by rw [hf n h0, h1]; rfl, o', ?_⟩
      have hid : id ≠ "" := (hi.key id o' h2).2.1
      simp [find, resolve, ha, hid, h2]

/-- C56, index: every name gives the same answer after the move exactly when no object has an alias. -/
theorem index_move_same_iff_partial {s s' : State} (h : Reachable s) {netId : String} {netTy : Nat} {o : Obj}
    (ho : s.objs.get? netId = some o) (hm : moveIndex netId netTy s = .ok s') (hne : s.alias.get? "" = none) :
    (∀ n, find s' n = (find s n).map (Option.map (renamed o.uid s.next))) ↔
      ∀ k o', s.objs.get? k = some o' → o'.aliases = [] := by
  have hi := (reachable_inv h).1
  obtain ⟨h1, h2⟩ := index_move_partial h ho hm
  constructor
  · intro hall k o' hk
    cases hal : o'.aliases with
    | nil => rfl
    | cons a r =>
      have ha := hi.bwd k o' hk a (by rw [hal]; exact List.mem_cons_self)
      have h0 : a ≠ "" := by rintro rfl; rw [hne] at ha; cases ha
      obtain ⟨e1, o2, e2⟩ := h2 a h0 (by rw [ha]; simp)
      have := hall a
      rw [e1, e2] at this
      cases this
  · intro hno n
    refine h1 n ?_
    cases ha : s.alias.get? n with
    | none => rfl
    | some id =>
      obtain ⟨_, o', k1, k2⟩ := hi.fwd n id ha
      rw [hno id o' k1] at k2; cases k2

/-- C56, index: the listings per type are the same, with the new address for the network. -/
theorem index_move_listing {s s' : State} (h : Reachable s) {netId : String} {netTy : Nat} {o : Obj}
    (ho : s.objs.get? netId = some o) (hm : moveIndex netId netTy s = .ok s') (hty : o.ty = netTy)
    (hone : getAll s netTy = [o.uid]) (t : Nat) :
    getAll s' t = (getAll s t).map (fun u => if u = o.uid then s.next else u) := by
  have hi := (reachable_inv h).1
  simp only [moveIndex, ho] at hm
  have ht : s.types.get? netTy = some [o.uid] := by
    unfold getAll at hone
    cases e : s.types.get? netTy with
    | none => rw [e] at hone; cases hone
    | some l => rw [e] at hone; simpa using hone
  rw [ht] at hm
  cases hm
  by_cases e : netTy = t
  · subst e
    rw [hone]
    simp [getAll, AMap.get?_set]
  · have hnot : o.uid ∉ getAll s t := by
      rw [hi.typ]
      rintro ⟨k, o', k1, k2, k3⟩
      have := hi.uidInj _ _ _ _ k1 ho k2
      subst this
      rw [ho] at k1; cases k1
      exact e (hty.symm.trans k3)
    have e1 : getAll ⟨s.objs.set netId { o with uid := s.next }, [], s.types.set netTy [s.next], s.next + 1⟩ t
        = getAll s t := by
      simp [getAll, AMap.get?_set, e]
    rw [e1]
    conv => lhs; rw [← List.map_id (getAll s t)]
    apply List.map_congr_left
    intro u hu
    rw [if_neg (by rintro rfl; exact hnot hu)]
    rfl

/-- A network (type 0) and a load, which has an alias. -/
def exOps : List Op := [.add "net" 0 false, .add "load" 1 false, .add "line" 2 false, .addAlias 1 "nick" "" false]

theorem exReach : Reachable (run init exOps) := ⟨exOps, by decide, rfl⟩

example : ∃ s', moveIndex "net" 0 (run init exOps) = .ok s' ∧ find s' "load" = find (run init exOps) "load" ∧
    (find (run init exOps) "load").isOk ∧ getAll s' 0 = [3] ∧ getAll s' 2 = [2] := ⟨_, rfl, by decide, by decide, by decide, by decide⟩

/-- Moving a network loses the aliases: the alias is found before, and not after. -/
theorem alias_lost : ∃ s', moveIndex "net" 0 (run init exOps) = .ok s' ∧
    ((find (run init exOps) "nick").map (Option.map Obj.id)) = .ok (some "load") ∧ find s' "nick" = .ok none :=
  ⟨_, rfl, by decide, by decide⟩

/-- After the move the alias of the load can be taken by another object: two objects then have it. -/
theorem alias_taken_twice : ∃ s', moveIndex "net" 0 (run init exOps) = .ok s' ∧
    (addAlias s' 2 "nick" "" false).1 = .ok () ∧
    ((addAlias s' 2 "nick" "" false).2.objs.get? "load").map Obj.aliases = some ["nick"] ∧
    ((addAlias s' 2 "nick" "" false).2.objs.get? "line").map Obj.aliases = some ["nick"] :=
  ⟨_, rfl, by decide, by decide, by decide⟩

/-! ### Variants -/

open Variants in
theorem moveSlots_ok_iff {V : Type} {l : List (Option V)} :
    (∃ l', moveSlots l = .ok l') ↔ ∀ o ∈ l, o ≠ none := by
  induction l with
  | nil => simp [moveSlots]
  | cons o l ih =>
    cases o with
    | none => simp [moveSlots]
    | some v =>
      simp only [moveSlots, List.mem_cons, forall_eq_or_imp]
      rw [← ih]
      cases moveSlots l with
      | ok l' => simp [Out.map]
      | thrown => simp [Out.map]
      | ub => simp [Out.map]

theorem moveSlots_same {V : Type} {l l' : List (Option V)} (h : moveSlots l = .ok l') : l' = l := by
  induction l generalizing l' with
  | nil => cases h; rfl
  | cons o l ih =>
    cases o with
    | none => cases h
    | some v =>
      simp only [moveSlots] at h
      cases hm : moveSlots l with
      | ok l2 => rw [hm] at h; cases h; rw [ih hm]
      | thrown => rw [hm] at h; cases h
      | ub => rw [hm] at h; cases h

theorem set_self {α : Type} {l : List α} {i : Nat} {x : α} (h : l[i]? = some x) : l.set i x = l := by
  obtain ⟨hlt, e⟩ := List.getElem?_eq_some_iff.mp h
  rw [← e]; exact List.set_getElem_self hlt

/-- C56, variants, partial: without free variant index the move succeeds, and the state is the same: every variant gives
    the same values. -/
theorem variants_move_partial {V : Type} {s : Variants.State V} (h : Variants.ReachedClean s) {a : Nat}
    (ha : a < s.arrs.length) (hu : s.bk.unused = []) : moveVariants a s = .ok s := by
  have hi := h.inv
  obtain ⟨arr, hr⟩ : ∃ arr, s.arrs[a]? = some arr := ⟨_, List.getElem?_eq_getElem ha⟩
  have hw := hi.arrs arr (List.mem_iff_getElem?.mpr ⟨a, hr⟩)
  have hok : ∀ o ∈ arr.slots, o ≠ none := by
    intro o ho
    obtain ⟨i, hi'⟩ := List.mem_iff_getElem?.mp ho
    have hlt : i < s.bk.size := by
      rw [← hw.len]; exact (List.getElem?_eq_some_iff.mp hi').1
    rcases hi.exact i hlt with h1 | ⟨x, hx⟩
    · rw [hu] at h1; cases h1
    · obtain ⟨v, hv⟩ := hw.filled x i hx
      rw [hi'] at hv; cases hv; simp
  obtain ⟨l', hl⟩ := moveSlots_ok_iff.mpr hok
  have := moveSlots_same hl
  subst this
  simp only [moveVariants, hr, hl, Out.map]
  rw [set_self hr]

/-- C56, variants: the move never changes the values: it succeeds with the same state or it is undefined. -/
theorem variants_move_cases {V : Type} {s : Variants.State V} {a : Nat} (ha : a < s.arrs.length) :
    moveVariants a s = .ok s ∨ moveVariants a s = .ub := by
  obtain ⟨arr, hr⟩ : ∃ arr, s.arrs[a]? = some arr := ⟨_, List.getElem?_eq_getElem ha⟩
  simp only [moveVariants, hr]
  cases hl : moveSlots arr.slots with
  | ok l' =>
    have := moveSlots_same hl
    subst this
    left
    simp only [Out.map]
    rw [set_self hr]
  | ub => right; rfl
  | thrown =>
    exfalso
    have : ∀ l : List (Option V), moveSlots l ≠ .thrown := by
      intro l
      induction l with
      | nil => simp [moveSlots]
      | cons o l ih =>
        cases o with
        | none => simp [moveSlots]
        | some v => 
          simp only [moveSlots]
          cases hm : moveSlots l with
          | ok l2 => simp [Out.map]
          | thrown => exact absurd hm ih
          | ub => simp [Out.map]
    exact this _ hl

/-- C56, variants: after the removal of a variant that does not have the last index, moving the network is undefined. -/
theorem variants_move_undefined {V : Type} {s : Variants.State V} (h : Variants.ReachedClean s) {a : Nat}
    {arr : Variants.Arr V} (ha : s.arrs[a]? = some arr) (hk : arr.kind.del = .reset) {id : String} {index : Nat}
    (hid : id ≠ Variants.initialId) (hx : s.bk.byId.get? id = some index) (hlast : index ≠ s.bk.size - 1)
    (t : Variants.Thread) : moveVariants a (Variants.remove s t id).2 = .ub := by
  have hi := h.inv
  have hw := hi.arrs arr (List.mem_iff_getElem?.mpr ⟨a, ha⟩)
  have hok := ((Variants.remove_keeps_others h t id).2 index hid hx).1
  have hmap : ∃ arr', (Variants.remove s t id).2.arrs[a]? = some arr' ∧ arr.delete index = .ok arr' := by
    unfold Variants.remove at hok ⊢
    rw [if_neg hid, hx] at hok ⊢
    simp only [if_neg hlast] at hok ⊢
    have gen : ∀ (l : List (Variants.Arr V)) (b : Nat), (Variants.mapArrs (fun a => a.delete index) l).1 = .ok () →
        ∀ x, l[b]? = some x →
          ∃ x', (Variants.mapArrs (fun a => a.delete index) l).2[b]? = some x' ∧ x.delete index = .ok x' := by
      intro l
      induction l with
      | nil => intro b _ x hx; cases hx
      | cons y l ih =>
        intro b hb x hx
        simp only [Variants.mapArrs] at hb ⊢
        cases hy : y.delete index with
        | ok y' =>
          rw [hy] at hb
          simp only at hb ⊢
          cases b with
          | zero => simp at hx; subst hx; exact ⟨y', rfl, hy⟩
          | succ b => exact ih b hb x (by simpa using hx)
        | thrown => rw [hy] at hb; cases hb
        | ub => rw [hy] at hb; cases hb
    generalize hg : Variants.mapArrs (fun a => a.delete index) s.arrs = p at hok ⊢
    obtain ⟨o, as⟩ := p
    cases o with
    | ok u =>
      have := gen s.arrs a (by rw [hg]) arr ha
      rw [hg] at this
      simp only [Variants.resetIf_arrs]
      exact this
    | thrown => cases hok
    | ub => cases hok
  obtain ⟨arr', h1, h2⟩ := hmap
  have hlt : index < arr.slots.length := by
    obtain ⟨v, hv⟩ := hw.filled id index hx
    exact (List.getElem?_eq_some_iff.mp hv).1
  simp only [Variants.Arr.delete, hk, if_pos hlt] at h2
  cases h2
  have hnot : ¬ ∃ l', moveSlots (arr.slots.set index none) = .ok l' := by
    rw [moveSlots_ok_iff]
    intro hall
    exact hall none (List.mem_iff_getElem?.mpr ⟨index, by simp [hlt]⟩) rfl
  have hlen : a < (Variants.remove s t id).2.arrs.length := (List.getElem?_eq_some_iff.mp h1).1
  rcases variants_move_cases hlen with hc | hc
  · exfalso
    simp only [moveVariants, h1] at hc
    cases hm : moveSlots (arr.slots.set index none) with
    | ok l => exact hnot ⟨l, hm⟩
    | thrown => rw [hm] at hc; cases hc
    | ub => rw [hm] at hc; cases hc
  · exact hc

/-- A network with its array of variants, and two variants more. -/
def exVar : Variants.State Nat :=
  Variants.run (Variants.init Nat (fun _ => none))
    [.newAttr (Variants.variantArray Nat) 7, .clone 0 Variants.initialId ["a"] false, .clone 0 Variants.initialId ["b"] false]

theorem exVar_clean : Variants.ReachedClean exVar :=
  ⟨_, _, Variants.cleanHistory_of_safe (by simp [Variants.SafeOp, Variants.variantArray]), rfl⟩

example : moveVariants 0 exVar = .ok exVar := variants_move_partial exVar_clean (by decide) (by decide)

/-- Moving a network after the removal of a variant that was not the last one: a null pointer is dereferenced. -/
theorem removed_variant_undefined : moveVariants 0 (Variants.remove exVar 0 "a").2 = .ub :=
  variants_move_undefined (index := 1) exVar_clean rfl rfl (by decide) rfl (by decide) 0

end Verif.Move
