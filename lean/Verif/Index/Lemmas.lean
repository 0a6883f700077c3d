import Verif.Index.Model
import Verif.Index.Spec

namespace Verif.Index

open Verif

/-- The tables of an object are well formed. -/
structure ObjWF (o : Obj) : Prop where
  noTypeNodup : o.noType.Nodup
  byTypeKeys : o.byType.NodupKeys
  byTypeVals : (o.byType.map Prod.snd).Nodup
  disj : ∀ a, a ∈ o.noType → a ∉ o.byType.map Prod.snd
  keysNe : o.byType.get? "" = none

/-- Invariant of the index. -/
structure Inv (s : State) : Prop where
  nodupO : s.objs.NodupKeys
  key : ∀ k o, s.objs.get? k = some o → o.id = k ∧ k ≠ "" ∧ o.uid < s.next
  uidInj : ∀ k₁ k₂ o₁ o₂, s.objs.get? k₁ = some o₁ → s.objs.get? k₂ = some o₂ → o₁.uid = o₂.uid → k₁ = k₂
  nodupA : s.alias.NodupKeys
  fwd : ∀ a id, s.alias.get? a = some id →
    s.objs.get? a = none ∧ ∃ o, s.objs.get? id = some o ∧ a ∈ o.aliases
  bwd : ∀ k o, s.objs.get? k = some o → ∀ a, a ∈ o.aliases → s.alias.get? a = some k
  wf : ∀ k o, s.objs.get? k = some o → ObjWF o
  typNodup : ∀ t, (getAll s t).Pairwise (· < ·)
  typ : ∀ t u, u ∈ getAll s t ↔ ∃ k o, s.objs.get? k = some o ∧ o.uid = u ∧ o.ty = t

/-- Abstraction map. -/
def absNames (s : State) (n : String) : Option Entry :=
  match s.objs.get? n with
  | some o => some ⟨o.uid, .id o.ty⟩
  | none =>
    match s.alias.get? n with
    | none => none
    | some id =>
      match s.objs.get? id with
      | none => none
      | some o => some ⟨o.uid, .alias (o.aliasType n)⟩

/-- Abstraction map. -/
def abs (s : State) : Spec := { names := absNames s, listing := getAll s, next := s.next }

theorem inv_init : Inv init := by
  constructor <;> simp [init, getAll]

theorem live_iff {s : State} (h : Inv s) {u : Nat} {o : Obj} :
    live s u = some o ↔ s.objs.get? o.id = some o ∧ o.uid = u := by
  unfold live
  constructor
  · intro hl
    cases hf : s.objs.find? (fun p => p.2.uid == u) with
    | none => simp [hf] at hl
    | some p =>
      simp [hf] at hl
      subst hl
      have h1 := List.find?_some hf
      have h2 := List.mem_of_find?_eq_some hf
      have h3 : s.objs.get? p.1 = some p.2 := AMap.get?_of_mem h.nodupO h2
      rw [(h.key _ _ h3).1]
      exact ⟨h3, by simpa using h1⟩
  · rintro ⟨h1, h2⟩
    cases hf : s.objs.find? (fun p => p.2.uid == u) with
    | none =>
      rw [List.find?_eq_none] at hf
      have := hf _ (AMap.mem_of_get? h1)
      simp [h2] at this
    | some p =>
      have g1 := List.find?_some hf
      have g2 := List.mem_of_find?_eq_some hf
      have g3 : s.objs.get? p.1 = some p.2 := AMap.get?_of_mem h.nodupO g2
      have : p.1 = o.id := h.uidInj _ _ _ _ g3 h1 (by simp at g1; rw [g1, h2])
      rw [this, h1] at g3
      simp at g3
      simp [← g3]

theorem live_none_iff {s : State} (h : Inv s) {u : Nat} :
    live s u = none ↔ ¬ ∃ k o, s.objs.get? k = some o ∧ o.uid = u := by
  constructor
  · rintro hl ⟨k, o, h1, h2⟩
    have := (live_iff h (u := u) (o := o)).mpr ⟨by rw [(h.key _ _ h1).1]; exact h1, h2⟩
    rw [hl] at this
    cases this
  · intro hn
    cases hl : live s u with
    | none => rfl
    | some o =>
      obtain ⟨h1, h2⟩ := (live_iff h).mp hl
      exact absurd ⟨_, _, h1, h2⟩ hn

theorem alive_iff {s : State} {u : Nat} :
    (abs s).Alive u ↔ ∃ k o, s.objs.get? k = some o ∧ o.uid = u := by
  unfold Spec.Alive abs absNames
  constructor
  · rintro ⟨n, ty, hn⟩
    cases h1 : s.objs.get? n with
    | some o =>
      simp [h1] at hn
      exact ⟨n, o, h1, hn.1⟩
    | none =>
      simp only [h1] at hn
      cases h2 : s.alias.get? n with
      | none => simp [h2] at hn
      | some id =>
        simp only [h2] at hn
        cases h3 : s.objs.get? id with
        | none => simp [h3] at hn
        | some o => simp [h3] at hn
  · rintro ⟨k, o, h1, h2⟩
    exact ⟨k, o.ty, by simp [h1, h2]⟩

theorem absNames_none_iff {s : State} (h : Inv s) (n : String) :
    absNames s n = none ↔ s.objs.get? n = none ∧ s.alias.get? n = none := by
  unfold absNames
  cases h1 : s.objs.get? n with
  | some o => simp
  | none =>
    cases h2 : s.alias.get? n with
    | none => simp
    | some id =>
      obtain ⟨_, o, h3, _⟩ := h.fwd _ _ h2
      simp [h3]

/-- Total names table of a state. -/
def usedNames (s : State) : List String := s.objs.map Prod.fst ++ s.alias.map Prod.fst

theorem mem_usedNames {s : State} (h : Inv s) (n : String) :
    n ∈ usedNames s ↔ absNames s n ≠ none := by
  unfold usedNames
  rw [List.mem_append, ne_eq, absNames_none_iff h, AMap.get?_eq_none_iff, AMap.get?_eq_none_iff]
  constructor
  · rintro (h1 | h1) ⟨h2, h3⟩
    · exact h2 h1
    · exact h3 h1
  · intro h1
    by_cases h2 : n ∈ s.objs.map Prod.fst
    · exact Or.inl h2
    · by_cases h3 : n ∈ s.alias.map Prod.fst
      · exact Or.inr h3
      · exact absurd ⟨h2, h3⟩ h1

/-- `find` in terms of the abstract table. -/
theorem find_eq {s : State} (h : Inv s) (n : String) (hn : n ≠ "" ∨ s.alias.get? n ≠ none) :
    ∃ r, find s n = .ok r ∧ r.map (·.uid) = (absNames s n).map (·.owner) := by
  unfold find resolve
  cases ha : s.alias.get? n with
  | none =>
    have hne : n ≠ "" := by
      rcases hn with hn | hn
      · exact hn
      · exact absurd ha hn
    refine ⟨s.objs.get? n, by simp [hne], ?_⟩
    unfold absNames
    cases ho : s.objs.get? n with
    | none => simp [ha]
    | some o => simp
  | some id =>
    obtain ⟨h1, o, h2, _⟩ := h.fwd _ _ ha
    have hid := (h.key _ _ h2).2.1
    refine ⟨some o, by simp [hid, h2], ?_⟩
    simp [absNames, h1, ha, h2]

theorem inUse_eq {s : State} (h : Inv s) (n : String) (hn : n ≠ "") :
    inUse s n = decide (n ∈ usedNames s) := by
  obtain ⟨r, h1, h2⟩ := find_eq h n (Or.inl hn)
  unfold inUse
  rw [h1]
  have h3 : (n ∈ usedNames s) ↔ r ≠ none := by
    rw [mem_usedNames h]
    cases r with
    | none =>
      cases h4 : absNames s n with
      | none => simp
      | some e => simp [h4] at h2
    | some o =>
      cases h4 : absNames s n with
      | none => simp [h4] at h2
      | some e => simp
  cases r with
  | none => simp [h3]
  | some o => simp [h3]

theorem searchLoop_congr (c d : String → Bool) (b : String) (h : ∀ n, n ≠ "" → c n = d n) (f i : Nat) :
    UniqueId.searchLoop c b f i = UniqueId.searchLoop d b f i := by
  induction f generalizing i with
  | zero => rfl
  | succ f ih =>
    unfold UniqueId.searchLoop
    rw [h _ (UniqueId.candidate_ne_empty b i), ih]

theorem getUniqueId_inUse {s : State} (h : Inv s) (r : String) :
    UniqueId.getUniqueId r (inUse s) = UniqueId.getUniqueId r (fun n => decide (n ∈ usedNames s)) := by
  unfold UniqueId.getUniqueId UniqueId.getUniqueIdMax
  by_cases hr : r = ""
  · subst hr
    simp only [ne_eq, not_true_eq_false, if_false]
    exact searchLoop_congr _ _ _ (fun n hn => inUse_eq h n hn) _ _
  · simp only [ne_eq, hr, not_false_eq_true, if_true, inUse_eq h r hr]
    rw [searchLoop_congr _ _ r (fun n hn => inUse_eq h n hn)]

/-- Number of names in use fits in the range of the suffix counter. -/
def Small (s : State) : Prop := (usedNames s).length < UniqueId.ulongMax

theorem chosen_ensure {s : State} (h : Inv s) (hs : Small s) (r : String) :
    (abs s).Chosen true r (UniqueId.getUniqueId r (inUse s)) := by
  unfold Spec.Chosen
  simp only [if_true]
  rw [getUniqueId_inUse h]
  have := UniqueId.getUniqueId_correct r (usedNames s) hs
  have e : (fun n => (abs s).names n ≠ none) = (fun n => n ∈ usedNames s) := by
    funext n
    exact propext (mem_usedNames h n).symm
  rw [e]
  exact this

/-! ### checkAndAdd -/

theorem getAll_set (s : State) (t t' : Nat) (l : List Nat) (f : State → State)
    (hf : (f s).types = s.types.set t l) :
    getAll (f s) t' = if t = t' then l else getAll s t' := by
  unfold getAll
  rw [hf, AMap.get?_set]
  split <;> simp

theorem checkAndAdd_spec {s : State} (h : Inv s) (id : String) (ty : Nat) (hid : id ≠ "")
    (hfree : absNames s id = none) :
    let r := checkAndAdd s id ty
    r.1 = .ok s.next ∧ Inv r.2 ∧
      (absNames r.2 = fun m => if m = id then some ⟨s.next, .id ty⟩ else absNames s m) ∧
      (getAll r.2 = fun t => if t = ty then getAll s t ++ [s.next] else getAll s t) ∧
      r.2.next = s.next + 1 ∧ (usedNames r.2).length = (usedNames s).length + 1 := by
  obtain ⟨ho, ha⟩ := (absNames_none_iff h id).mp hfree
  unfold checkAndAdd
  simp only [hid, if_false, ho]
  have hget : ∀ k, (s.objs.emplace id (Obj.mk s.next id ty [] [])).get? k =
      if id = k then some (Obj.mk s.next id ty [] []) else s.objs.get? k := by
    intro k
    rw [AMap.get?_emplace, ho]
    simp
  have hall : ∀ t, getAll { s with
          objs := s.objs.emplace id (Obj.mk s.next id ty [] [])
          types := s.types.set ty (((s.types.get? ty).getD []) ++ [s.next])
          next := s.next + 1 } t = if t = ty then getAll s t ++ [s.next] else getAll s t := by
    intro t
    unfold getAll
    simp only [AMap.get?_set]
    by_cases h2 : ty = t
    · subst h2; simp
    · simp [h2, Ne.symm h2]
  have hlt : ∀ t u, u ∈ getAll s t → u < s.next := by
    intro t u hu
    obtain ⟨k, o, h1, h2, _⟩ := (h.typ t u).mp hu
    have := (h.key _ _ h1).2.2
    omega
  refine ⟨trivial, ?_, ?_, funext hall, trivial, ?_⟩
  · constructor
    · exact AMap.nodupKeys_emplace h.nodupO _ _
    · intro k o hk
      rw [hget] at hk
      by_cases hik : id = k
      · subst hik; simp at hk; subst hk; exact ⟨rfl, hid, by simp⟩
      · simp [hik] at hk
        have := h.key _ _ hk
        exact ⟨this.1, this.2.1, by show o.uid < s.next + 1; omega⟩
    · intro k₁ k₂ o₁ o₂ h1 h2 hu
      rw [hget] at h1 h2
      by_cases e1 : id = k₁ <;> by_cases e2 : id = k₂
      · rw [← e1, ← e2]
      · simp [e1] at h1; simp [e2] at h2
        have := (h.key _ _ h2).2.2
        rw [← hu, ← h1] at this; simp at this
      · simp [e1] at h1; simp [e2] at h2
        have := (h.key _ _ h1).2.2
        rw [hu, ← h2] at this; simp at this
      · simp [e1] at h1; simp [e2] at h2
        exact h.uidInj _ _ _ _ h1 h2 hu
    · exact h.nodupA
    · intro a i hai
      obtain ⟨g1, o, g2, g3⟩ := h.fwd a i hai
      have ne1 : id ≠ a := by rintro rfl; simp only [] at hai; rw [ha] at hai; cases hai
      have ne2 : id ≠ i := by rintro rfl; rw [ho] at g2; cases g2
      refine ⟨?_, o, ?_, g3⟩
      · rw [hget]; simp [ne1, g1]
      · rw [hget]; simp [ne2, g2]
    · intro k o hk a haa
      rw [hget] at hk
      by_cases hik : id = k
      · simp [hik] at hk; subst hk; simp [Obj.aliases] at haa
      · simp [hik] at hk; exact h.bwd _ _ hk a haa
    · intro k o hk
      rw [hget] at hk
      by_cases hik : id = k
      · simp [hik] at hk; subst hk
        constructor <;> simp
      · simp [hik] at hk; exact h.wf _ _ hk
    · intro t
      rw [hall]
      by_cases ht : t = ty
      · simp only [ht, if_true]
        rw [List.pairwise_append]
        refine ⟨h.typNodup ty, by simp, ?_⟩
        intro a h1 b h2
        simp at h2; subst h2
        exact hlt _ _ h1
      · simp only [ht, if_false]; exact h.typNodup t
    · intro t u
      rw [hall]
      have hsplit : (∃ k o, (if id = k then some (Obj.mk s.next id ty [] []) else s.objs.get? k) = some o ∧
          o.uid = u ∧ o.ty = t) ↔ ((u = s.next ∧ t = ty) ∨ u ∈ getAll s t) := by
        rw [h.typ]
        constructor
        · rintro ⟨k, o, h1, h2, h3⟩
          by_cases hik : id = k
          · simp [hik] at h1; subst h1; exact Or.inl ⟨h2.symm, h3.symm⟩
          · simp [hik] at h1; exact Or.inr ⟨k, o, h1, h2, h3⟩
        · rintro (⟨h1, h2⟩ | ⟨k, o, h1, h2, h3⟩)
          · exact ⟨id, _, by simp; rfl, h1.symm, h2.symm⟩
          · have hik : id ≠ k := by rintro rfl; rw [ho] at h1; cases h1
            exact ⟨k, o, by simp [hik, h1], h2, h3⟩
      have : (∃ k o, (s.objs.emplace id (Obj.mk s.next id ty [] [])).get? k = some o ∧
          o.uid = u ∧ o.ty = t) ↔ ((u = s.next ∧ t = ty) ∨ u ∈ getAll s t) := by
        rw [← hsplit]
        simp only [hget]
      rw [this]
      by_cases ht : t = ty
      · simp [ht, or_comm]
      · simp [ht]
  · funext m
    unfold absNames
    simp only [hget]
    by_cases hm : m = id
    · subst hm; simp
    · simp only [Ne.symm hm, if_false, hm]
      cases h1 : s.objs.get? m with
      | some o => rfl
      | none =>
        cases h2 : s.alias.get? m with
        | none => rfl
        | some i =>
          obtain ⟨_, o, g2, _⟩ := h.fwd m i h2
          have ne2 : id ≠ i := by rintro rfl; rw [ho] at g2; cases g2
          simp [ne2]
  · simp [usedNames, AMap.emplace, ho]
    omega

/-! ### updates of one object -/

theorem get?_updateObj (s : State) (o : Obj) (k : String) :
    (updateObj s o).objs.get? k = if o.id = k then some o else s.objs.get? k := by
  simp [updateObj, AMap.get?_set]

theorem aliasType_noType {o : Obj} {a : String} (h : a ∈ o.noType) : o.aliasType a = "" := by
  simp [Obj.aliasType, h]

theorem eq_of_nodup_map_snd {l : List (String × String)} (h : (l.map Prod.snd).Nodup)
    {p q : String × String} (hp : p ∈ l) (hq : q ∈ l) (he : p.2 = q.2) : p = q := by
  induction l with
  | nil => cases hp
  | cons a r ih =>
    rw [List.map_cons, List.nodup_cons] at h
    rcases List.mem_cons.mp hp with hp' | hp' <;> rcases List.mem_cons.mp hq with hq' | hq'
    · rw [hp', hq']
    · subst hp'
      exact absurd (he ▸ List.mem_map_of_mem (f := Prod.snd) hq') h.1
    · subst hq'
      exact absurd (he ▸ List.mem_map_of_mem (f := Prod.snd) hp') h.1
    · exact ih h.2 hp' hq'

theorem aliasType_byType {o : Obj} (hw : ObjWF o) {a t : String} (h : o.byType.get? t = some a) :
    o.aliasType a = t := by
  have hm := AMap.mem_of_get? h
  have hn : a ∉ o.noType := fun hn => hw.disj a hn (List.mem_map_of_mem (f := Prod.snd) hm)
  unfold Obj.aliasType
  simp only [hn, if_false]
  cases hf : o.byType.find? (fun p => p.2 == a) with
  | none =>
    rw [List.find?_eq_none] at hf
    have := hf _ hm
    simp at this
  | some p =>
    have g1 := List.find?_some hf
    have g2 := List.mem_of_find?_eq_some hf
    simp at g1
    -- distinct values: same pair
    have : p = (t, a) := by
      obtain ⟨pt, pa⟩ := p
      simp at g1; subst g1
      exact eq_of_nodup_map_snd hw.byTypeVals g2 hm rfl
    rw [this]

theorem aliasType_cases {o : Obj} (hw : ObjWF o) {a : String} (h : a ∈ o.aliases) :
    (a ∈ o.noType ∧ o.aliasType a = "") ∨
    (∃ t, o.byType.get? t = some a ∧ o.aliasType a = t ∧ t ≠ "") := by
  unfold Obj.aliases at h
  rcases List.mem_append.mp h with h | h
  · exact Or.inl ⟨h, aliasType_noType h⟩
  · obtain ⟨⟨t, a'⟩, h1, h2⟩ := List.mem_map.mp h
    simp at h2; subst h2
    have h3 := AMap.get?_of_mem hw.byTypeKeys h1
    refine Or.inr ⟨t, h3, aliasType_byType hw h3, ?_⟩
    rintro rfl
    rw [hw.keysNe] at h3; cases h3

/-- Replacing one object and the part of the alias table that concerns it. -/
theorem inv_update {s : State} (h : Inv s) {o o' : Obj} (ho : s.objs.get? o.id = some o)
    (huid : o'.uid = o.uid) (hid : o'.id = o.id) (hty : o'.ty = o.ty) (hwf : ObjWF o')
    {al : AMap String String} (hal : al.NodupKeys)
    (hchar : ∀ b i, al.get? b = some i ↔
      (i ≠ o.id ∧ s.alias.get? b = some i) ∨ (i = o.id ∧ b ∈ o'.aliases))
    (hfree : ∀ b, b ∈ o'.aliases → s.objs.get? b = none) :
    Inv (updateObj { s with alias := al } o') := by
  have hget : ∀ k, (updateObj { s with alias := al } o').objs.get? k =
      if o.id = k then some o' else s.objs.get? k := by
    intro k; rw [get?_updateObj, hid]
  constructor
  · exact AMap.nodupKeys_set h.nodupO _ _
  · intro k x hk
    rw [hget] at hk
    by_cases e : o.id = k
    · simp [e] at hk; subst hk
      have := h.key _ _ ho
      exact ⟨by rw [hid, e], by rw [← e]; exact this.2.1, by rw [huid]; exact this.2.2⟩
    · simp [e] at hk; exact h.key _ _ hk
  · intro k₁ k₂ o₁ o₂ h1 h2 hu
    rw [hget] at h1 h2
    by_cases e1 : o.id = k₁ <;> by_cases e2 : o.id = k₂
    · rw [← e1, ← e2]
    · simp [e1] at h1; simp [e2] at h2
      subst h1
      have := h.uidInj _ _ _ _ ho h2 (by rw [← huid, hu])
      exact absurd this e2
    · simp [e1] at h1; simp [e2] at h2
      subst h2
      have := h.uidInj _ _ _ _ h1 ho (by rw [← huid, hu])
      exact absurd this.symm e1
    · simp [e1] at h1; simp [e2] at h2
      exact h.uidInj _ _ _ _ h1 h2 hu
  · exact hal
  · intro a i hai
    have hai' : al.get? a = some i := hai
    rcases (hchar a i).mp hai' with ⟨g1, g2⟩ | ⟨g1, g2⟩
    · obtain ⟨k1, x, k2, k3⟩ := h.fwd _ _ g2
      refine ⟨?_, x, ?_, k3⟩
      · rw [hget, if_neg]
        · exact k1
        · rintro rfl; rw [ho] at k1; cases k1
      · rw [hget, if_neg (Ne.symm g1)]; exact k2
    · refine ⟨?_, o', ?_, g2⟩
      · have := hfree _ g2
        rw [hget, if_neg]
        · exact this
        · rintro rfl; rw [ho] at this; cases this
      · rw [hget, g1]; simp
  · intro k x hk a ha
    show al.get? a = some k
    rw [hget] at hk
    rw [hchar]
    by_cases e : o.id = k
    · simp [e] at hk; subst hk; exact Or.inr ⟨e.symm, ha⟩
    · simp [e] at hk; exact Or.inl ⟨Ne.symm e, h.bwd _ _ hk a ha⟩
  · intro k x hk
    rw [hget] at hk
    by_cases e : o.id = k
    · simp [e] at hk; subst hk; exact hwf
    · simp [e] at hk; exact h.wf _ _ hk
  · exact h.typNodup
  · intro t u
    show u ∈ getAll s t ↔ _
    rw [h.typ]
    simp only [hget]
    constructor
    · rintro ⟨k, x, h1, h2, h3⟩
      by_cases e : o.id = k
      · subst e; rw [ho] at h1; cases h1
        exact ⟨o.id, o', by simp, by rw [huid]; exact h2, by rw [hty]; exact h3⟩
      · exact ⟨k, x, by simp [e, h1], h2, h3⟩
    · rintro ⟨k, x, h1, h2, h3⟩
      by_cases e : o.id = k
      · simp [e] at h1; subst h1
        exact ⟨o.id, o, ho, by rw [← huid]; exact h2, by rw [← hty]; exact h3⟩
      · simp [e] at h1; exact ⟨k, x, h1, h2, h3⟩

theorem absNames_update {s : State} {o o' : Obj} (ho : s.objs.get? o.id = some o)
    (huid : o'.uid = o.uid) (hid : o'.id = o.id) (hty : o'.ty = o.ty)
    {al : AMap String String} (n : String) :
    absNames (updateObj { s with alias := al } o') n =
      match s.objs.get? n with
      | some x => some ⟨x.uid, .id x.ty⟩
      | none => match al.get? n with
        | none => none
        | some i => if o.id = i then some ⟨o.uid, .alias (o'.aliasType n)⟩
          else match s.objs.get? i with
            | none => none
            | some x => some ⟨x.uid, .alias (x.aliasType n)⟩ := by
  unfold absNames
  simp only [get?_updateObj, hid]
  by_cases e : o.id = n
  · simp only [e, if_true]
    rw [e] at ho
    simp [ho, huid, hty]
  · simp only [e, if_false]
    cases h1 : s.objs.get? n with
    | some x => rfl
    | none =>
      have : (updateObj { s with alias := al } o').alias.get? n = al.get? n := rfl
      simp only [this]
      cases h2 : al.get? n with
      | none => rfl
      | some i =>
        by_cases e2 : o.id = i
        · simp [e2, huid]
        · simp [e2]

/-! ### addAlias -/

theorem set_of_none {m : AMap String String} {k v : String} (h : m.get? k = none) :
    m.set k v = m ++ [(k, v)] := by
  induction m with
  | nil => rfl
  | cons p r ih =>
    obtain ⟨a, b⟩ := p
    rw [AMap.get?_cons] at h
    by_cases e : a = k
    · simp [e] at h
    · simp only [e, if_false] at h
      unfold AMap.set
      simp [e, ih h]

/-- The object after an accepted new alias. -/
def withAlias (o : Obj) (t a : String) : Obj :=
  if t = "" then { o with noType := setInsert o.noType a } else { o with byType := o.byType.set t a }

theorem withAlias_wf {o : Obj} (hw : ObjWF o) {t a : String} (ha : a ∉ o.aliases)
    (ht : t = "" ∨ o.byType.get? t = none) : ObjWF (withAlias o t a) := by
  have h1 : a ∉ o.noType := fun h => ha (List.mem_append.mpr (Or.inl h))
  have h2 : a ∉ o.byType.map Prod.snd := fun h => ha (List.mem_append.mpr (Or.inr h))
  unfold withAlias
  by_cases e : t = ""
  · simp only [e, if_true, setInsert, h1, if_false]
    refine ⟨?_, hw.byTypeKeys, hw.byTypeVals, ?_, hw.keysNe⟩
    · rw [List.nodup_append]
      exact ⟨hw.noTypeNodup, by simp, by rintro x hx y hy rfl; simp at hy; subst hy; exact h1 hx⟩
    · intro x hx
      rcases List.mem_append.mp hx with hx | hx
      · exact hw.disj x hx
      · simp at hx; subst hx; exact h2
  · have ht' : o.byType.get? t = none := by rcases ht with ht | ht; exact absurd ht e; exact ht
    simp only [e, if_false]
    refine ⟨hw.noTypeNodup, AMap.nodupKeys_set hw.byTypeKeys _ _, ?_, ?_, ?_⟩
    · simp only [set_of_none ht', List.map_append]
      rw [List.nodup_append]
      exact ⟨hw.byTypeVals, by simp, by rintro x hx y hy rfl; simp at hy; subst hy; exact h2 hx⟩
    · simp only [set_of_none ht', List.map_append]
      intro x hx hx'
      rcases List.mem_append.mp hx' with hx' | hx'
      · exact hw.disj x hx hx'
      · simp at hx'; subst hx'; exact h1 hx
    · simp only [AMap.get?_set, e, if_false, hw.keysNe]

theorem mem_withAlias {o : Obj} {t a b : String} (ht : t = "" ∨ o.byType.get? t = none) :
    b ∈ (withAlias o t a).aliases ↔ b ∈ o.aliases ∨ b = a := by
  unfold withAlias Obj.aliases
  by_cases e : t = ""
  · simp only [e, if_true, setInsert]
    split
    · rename_i h1
      constructor
      · exact Or.inl
      · rintro (h | rfl)
        · exact h
        · exact List.mem_append.mpr (Or.inl h1)
    · simp only [List.mem_append, List.mem_singleton]
      constructor
      · rintro ((h | h) | h) <;> simp [h]
      · rintro ((h | h) | h) <;> simp [h]
  · have ht' : o.byType.get? t = none := by rcases ht with ht | ht; exact absurd ht e; exact ht
    simp only [e, if_false, set_of_none ht', List.map_append, List.mem_append]
    simp only [List.map_cons, List.map_nil, List.mem_singleton, or_assoc]

theorem aliasType_withAlias {o : Obj} (hw : ObjWF o) {t a : String} (ha : a ∉ o.aliases)
    (ht : t = "" ∨ o.byType.get? t = none) {b : String} (hb : b ∈ o.aliases ∨ b = a) :
    (withAlias o t a).aliasType b = if b = a then t else o.aliasType b := by
  have hw' := withAlias_wf hw ha ht
  have h1 : a ∉ o.noType := fun h => ha (List.mem_append.mpr (Or.inl h))
  by_cases hba : b = a
  · subst hba
    simp only [if_true]
    by_cases e : t = ""
    · subst e
      apply aliasType_noType
      simp [withAlias, setInsert, h1]
    · apply aliasType_byType hw'
      simp [withAlias, e, AMap.get?_set]
  · simp only [hba, if_false]
    have hb : b ∈ o.aliases := by rcases hb with hb | hb; exact hb; exact absurd hb hba
    rcases aliasType_cases hw hb with ⟨g1, g2⟩ | ⟨t', g1, g2, g3⟩
    · rw [g2]
      apply aliasType_noType
      unfold withAlias setInsert
      by_cases e : t = "" <;> simp [e, g1, h1]
    · rw [g2]
      apply aliasType_byType hw'
      unfold withAlias
      by_cases e : t = ""
      · simp [e, g1]
      · have ht' : o.byType.get? t = none := by rcases ht with ht | ht; exact absurd ht e; exact ht
        have : t ≠ t' := by rintro rfl; rw [ht'] at g1; cases g1
        simp [e, AMap.get?_set, this, g1]

theorem length_set_of_some {m : AMap String Obj} {k : String} {v w : Obj} (h : m.get? k = some w) :
    (m.set k v).length = m.length := by
  induction m with
  | nil => simp at h
  | cons p r ih =>
    obtain ⟨a, b⟩ := p
    rw [AMap.get?_cons] at h
    unfold AMap.set
    by_cases e : a = k
    · simp [e]
    · simp only [e, if_false] at h
      simp [e, ih h]

theorem freshAlias_spec {s : State} (h : Inv s) {o : Obj} (ho : s.objs.get? o.id = some o)
    {t a : String} (hfree : absNames s a = none) (ht : t = "" ∨ o.byType.get? t = none) :
    let s' := updateObj { s with alias := s.alias.emplace a o.id } (withAlias o t a)
    Inv s' ∧ (absNames s' = fun m => if m = a then some ⟨o.uid, .alias t⟩ else absNames s m) ∧
      getAll s' = getAll s ∧ s'.next = s.next ∧ (usedNames s').length = (usedNames s).length + 1 := by
  obtain ⟨h1, h2⟩ := (absNames_none_iff h a).mp hfree
  have hw := h.wf _ _ ho
  have ha : a ∉ o.aliases := fun hm => by rw [h.bwd _ _ ho a hm] at h2; cases h2
  have e1 : (withAlias o t a).uid = o.uid := by unfold withAlias; split <;> rfl
  have e2 : (withAlias o t a).id = o.id := by unfold withAlias; split <;> rfl
  have e3 : (withAlias o t a).ty = o.ty := by unfold withAlias; split <;> rfl
  have hget : ∀ b, (s.alias.emplace a o.id).get? b = if a = b then some o.id else s.alias.get? b := by
    intro b; rw [AMap.get?_emplace, h2]; simp
  have hne : o.id ≠ a := by rintro e; rw [e, h1] at ho; cases ho
  refine ⟨?_, ?_, rfl, rfl, ?_⟩
  · refine inv_update h ho e1 e2 e3 (withAlias_wf hw ha ht) (AMap.nodupKeys_emplace h.nodupA _ _) ?_ ?_
    · intro b i
      rw [hget, mem_withAlias ht]
      by_cases e : a = b
      · subst e
        simp only [if_true, h2]
        constructor
        · intro g; cases g; exact Or.inr ⟨rfl, by simp⟩
        · rintro (⟨_, g⟩ | ⟨g, _⟩)
          · cases g
          · rw [g]
      · simp only [e, if_false, Ne.symm e, or_false]
        constructor
        · intro g
          by_cases ei : i = o.id
          · subst ei
            obtain ⟨_, x, k2, k3⟩ := h.fwd _ _ g
            rw [ho] at k2; cases k2
            exact Or.inr ⟨rfl, k3⟩
          · exact Or.inl ⟨ei, g⟩
        · rintro (⟨_, g⟩ | ⟨g, g'⟩)
          · exact g
          · rw [g]; exact h.bwd _ _ ho b g'
    · intro b hb
      rw [mem_withAlias ht] at hb
      rcases hb with hb | hb
      · exact (h.fwd _ _ (h.bwd _ _ ho b hb)).1
      · rw [hb]; exact h1
  · funext m
    rw [absNames_update ho e1 e2 e3, hget]
    by_cases e : m = a
    · subst e
      simp only [h1, if_true]
      rw [aliasType_withAlias hw ha ht (Or.inr rfl)]
      simp
    · simp only [e, Ne.symm e, if_false]
      unfold absNames
      cases k1 : s.objs.get? m with
      | some x => rfl
      | none =>
        cases k2 : s.alias.get? m with
        | none => rfl
        | some i =>
          obtain ⟨_, x, k3, k4⟩ := h.fwd _ _ k2
          by_cases ei : o.id = i
          · subst ei
            rw [ho] at k3; cases k3
            simp only [if_true, ho]
            rw [aliasType_withAlias hw ha ht (Or.inl k4)]
            simp [e]
          · simp [ei]
  · simp only [usedNames, updateObj, List.length_append, List.length_map, e2]
    rw [length_set_of_some ho]
    simp [AMap.emplace, h2]
    omega

/-- An alias of type `t` (non-empty) exists in the abstract table iff it exists in the object. -/
theorem typed_alias_iff {s : State} (h : Inv s) {o : Obj} (ho : s.objs.get? o.id = some o) (t : String)
    (ht : t ≠ "") :
    (o.byType.get? t).isSome ↔ ∃ m, absNames s m = some ⟨o.uid, .alias t⟩ := by
  constructor
  · intro hs
    obtain ⟨a, ha⟩ := Option.isSome_iff_exists.mp hs
    have hmem : a ∈ o.aliases := List.mem_append.mpr (Or.inr (List.mem_map_of_mem (f := Prod.snd) (AMap.mem_of_get? ha)))
    have hal := h.bwd _ _ ho a hmem
    refine ⟨a, ?_⟩
    unfold absNames
    rw [(h.fwd _ _ hal).1]
    simp only [hal, ho]
    rw [aliasType_byType (h.wf _ _ ho) ha]
  · rintro ⟨m, hm⟩
    unfold absNames at hm
    cases k1 : s.objs.get? m with
    | some x => simp [k1] at hm
    | none =>
      simp only [k1] at hm
      cases k2 : s.alias.get? m with
      | none => simp [k2] at hm
      | some i =>
        obtain ⟨_, x, k3, k4⟩ := h.fwd _ _ k2
        simp only [k2, k3] at hm
        simp at hm
        obtain ⟨hu, hty⟩ := hm
        have := h.uidInj _ _ _ _ k3 ho hu
        subst this
        rw [ho] at k3; cases k3
        rcases aliasType_cases (h.wf _ _ ho) k4 with ⟨_, g2⟩ | ⟨t', g1, g2, _⟩
        · rw [hty] at g2; exact absurd g2 ht
        · rw [hty] at g2; subst g2; simp [g1]

theorem indexAddAlias_spec {s : State} (h : Inv s) (o : Obj) (a : String) :
    indexAddAlias s o a =
      match absNames s a with
      | some e => if e.owner = o.uid then (.ok false, s) else (.thrown, s)
      | none => (.ok true, { s with alias := s.alias.emplace a o.id }) := by
  unfold indexAddAlias absNames
  cases k1 : s.objs.get? a with
  | some x => rfl
  | none =>
    cases k2 : s.alias.get? a with
    | none => rfl
    | some i =>
      obtain ⟨_, x, k3, _⟩ := h.fwd _ _ k2
      simp [k3]

/-! ### removeAlias -/

theorem find_byType {o : Obj} (hw : ObjWF o) {t a : String} (h : o.byType.get? t = some a) :
    o.byType.find? (fun p => p.2 == a) = some (t, a) := by
  have hm := AMap.mem_of_get? h
  cases hf : o.byType.find? (fun p => p.2 == a) with
  | none =>
    rw [List.find?_eq_none] at hf
    have := hf _ hm
    simp at this
  | some p =>
    have g1 := List.find?_some hf
    have g2 := List.mem_of_find?_eq_some hf
    simp at g1
    rw [eq_of_nodup_map_snd hw.byTypeVals g2 hm g1]

/-- The object after removal of one of its aliases. -/
def withoutAlias (o : Obj) (a : String) : Obj :=
  match o.byType.find? (fun p => p.2 == a) with
  | some p => { o with byType := o.byType.erase p.1 }
  | none => { o with noType := o.noType.filter (fun b => !decide (b = a)) }

theorem mem_erase_map_snd {m : AMap String String} (hk : m.NodupKeys) (hv : (m.map Prod.snd).Nodup)
    {t a b : String} (h : m.get? t = some a) :
    b ∈ (m.erase t).map Prod.snd ↔ b ∈ m.map Prod.snd ∧ b ≠ a := by
  unfold AMap.erase
  simp only [List.mem_map, List.mem_filter]
  constructor
  · rintro ⟨p, ⟨h1, h2⟩, rfl⟩
    refine ⟨⟨p, h1, rfl⟩, ?_⟩
    intro e
    have := eq_of_nodup_map_snd hv h1 (AMap.mem_of_get? h) e
    subst this; simp at h2
  · rintro ⟨⟨p, h1, rfl⟩, h2⟩
    refine ⟨p, ⟨h1, ?_⟩, rfl⟩
    have : p.1 ≠ t := by
      intro e
      have : m.get? p.1 = some p.2 := AMap.get?_of_mem hk h1
      rw [e, h] at this; simp at this
      exact h2 this.symm
    simp [this]

theorem withoutAlias_spec {o : Obj} (hw : ObjWF o) {a : String} (ha : a ∈ o.aliases) :
    ObjWF (withoutAlias o a) ∧ (∀ b, b ∈ (withoutAlias o a).aliases ↔ b ∈ o.aliases ∧ b ≠ a) ∧
    (∀ b, b ∈ (withoutAlias o a).aliases → (withoutAlias o a).aliasType b = o.aliasType b) := by
  have key : ObjWF (withoutAlias o a) ∧ (∀ b, b ∈ (withoutAlias o a).aliases ↔ b ∈ o.aliases ∧ b ≠ a) ∧
      (∀ b, b ∈ (withoutAlias o a).noType → b ∈ o.noType) ∧
      (∀ t b, (withoutAlias o a).byType.get? t = some b → o.byType.get? t = some b) := by
    rcases aliasType_cases hw ha with ⟨g1, _⟩ | ⟨t, g1, _, _⟩
    · have hnone : o.byType.find? (fun p => p.2 == a) = none := by
        rw [List.find?_eq_none]
        intro p hp hpa
        simp at hpa
        exact hw.disj a g1 (hpa ▸ List.mem_map_of_mem (f := Prod.snd) hp)
      have hv : a ∉ o.byType.map Prod.snd := hw.disj a g1
      unfold withoutAlias
      simp only [hnone]
      refine ⟨⟨hw.noTypeNodup.filter _, hw.byTypeKeys, hw.byTypeVals, ?_, hw.keysNe⟩, ?_, ?_, ?_⟩
      · intro b hb; exact hw.disj b (List.mem_filter.mp hb).1
      · intro b
        simp only [Obj.aliases, List.mem_append, List.mem_filter]
        constructor
        · rintro (⟨k1, k2⟩ | k1)
          · exact ⟨Or.inl k1, by simpa using k2⟩
          · exact ⟨Or.inr k1, by rintro rfl; exact hv k1⟩
        · rintro ⟨k1 | k1, k2⟩
          · exact Or.inl ⟨k1, by simpa using k2⟩
          · exact Or.inr k1
      · intro b hb; exact (List.mem_filter.mp hb).1
      · intro t b hb; exact hb
    · have hnt : a ∉ o.noType := fun h' => hw.disj a h' (List.mem_map_of_mem (f := Prod.snd) (AMap.mem_of_get? g1))
      unfold withoutAlias
      simp only [find_byType hw g1]
      refine ⟨⟨hw.noTypeNodup, AMap.nodupKeys_erase hw.byTypeKeys _, ?_, ?_, ?_⟩, ?_, ?_, ?_⟩
      · exact hw.byTypeVals.sublist (List.Sublist.map _ List.filter_sublist)
      · intro b hb hb'
        exact hw.disj b hb ((mem_erase_map_snd hw.byTypeKeys hw.byTypeVals g1).mp hb').1
      · simp only [AMap.get?_erase, hw.keysNe]; simp
      · intro b
        simp only [Obj.aliases, List.mem_append, mem_erase_map_snd hw.byTypeKeys hw.byTypeVals g1]
        constructor
        · rintro (k1 | ⟨k1, k2⟩)
          · exact ⟨Or.inl k1, by rintro rfl; exact hnt k1⟩
          · exact ⟨Or.inr k1, k2⟩
        · rintro ⟨k1 | k1, k2⟩
          · exact Or.inl k1
          · exact Or.inr ⟨k1, k2⟩
      · intro b hb; exact hb
      · intro t' b hb
        simp only [AMap.get?_erase] at hb
        by_cases e : t = t'
        · simp [e] at hb
        · simpa [e] using hb
  obtain ⟨k1, k2, k3, k4⟩ := key
  refine ⟨k1, k2, ?_⟩
  intro b hb
  rcases aliasType_cases k1 hb with ⟨g1, g2⟩ | ⟨t, g1, g2, _⟩
  · rw [g2, aliasType_noType (k3 b g1)]
  · rw [g2, aliasType_byType hw (k4 t b g1)]

theorem dropAlias_spec {s : State} (h : Inv s) {o : Obj} (ho : s.objs.get? o.id = some o) {a : String}
    (ha : s.alias.get? a = some o.id) :
    let s' := updateObj { s with alias := s.alias.erase a } (withoutAlias o a)
    Inv s' ∧ (absNames s' = fun m => if m = a then none else absNames s m) ∧
      getAll s' = getAll s ∧ s'.next = s.next ∧ (usedNames s').length ≤ (usedNames s).length := by
  have hw := h.wf _ _ ho
  obtain ⟨hna, x, hx, hmem⟩ := h.fwd _ _ ha
  rw [ho] at hx; cases hx
  obtain ⟨w1, w2, w3⟩ := withoutAlias_spec hw hmem
  have e1 : (withoutAlias o a).uid = o.uid := by unfold withoutAlias; split <;> rfl
  have e2 : (withoutAlias o a).id = o.id := by unfold withoutAlias; split <;> rfl
  have e3 : (withoutAlias o a).ty = o.ty := by unfold withoutAlias; split <;> rfl
  refine ⟨?_, ?_, rfl, rfl, ?_⟩
  · refine inv_update h ho e1 e2 e3 w1 (AMap.nodupKeys_erase h.nodupA _) ?_ ?_
    · intro b i
      rw [AMap.get?_erase, w2]
      by_cases e : a = b
      · subst e
        simp only [if_true, ne_eq, not_true_eq_false, and_false, or_false]
        constructor
        · intro g; cases g
        · rintro ⟨g, g'⟩
          rw [ha] at g'; cases g'; exact absurd rfl g
      · simp only [e, if_false]
        constructor
        · intro g
          by_cases ei : i = o.id
          · subst ei
            obtain ⟨_, x, k2, k3⟩ := h.fwd _ _ g
            rw [ho] at k2; cases k2
            exact Or.inr ⟨rfl, k3, Ne.symm e⟩
          · exact Or.inl ⟨ei, g⟩
        · rintro (⟨_, g⟩ | ⟨g, g', _⟩)
          · exact g
          · rw [g]; exact h.bwd _ _ ho b g'
    · intro b hb
      exact (h.fwd _ _ (h.bwd _ _ ho b ((w2 b).mp hb).1)).1
  · funext m
    rw [absNames_update ho e1 e2 e3, AMap.get?_erase]
    by_cases e : m = a
    · subst e; simp [hna]
    · simp only [e, Ne.symm e, if_false]
      unfold absNames
      cases k1 : s.objs.get? m with
      | some x => rfl
      | none =>
        cases k2 : s.alias.get? m with
        | none => rfl
        | some i =>
          obtain ⟨_, x, k3, k4⟩ := h.fwd _ _ k2
          by_cases ei : o.id = i
          · subst ei
            rw [ho] at k3; cases k3
            simp only [if_true, ho]
            rw [w3 m ((w2 m).mpr ⟨k4, e⟩)]
          · simp [ei]
  · simp only [usedNames, updateObj, List.length_append, List.length_map, e2]
    rw [length_set_of_some ho]
    have : (s.alias.erase a).length ≤ s.alias.length := List.length_filter_le _ _
    omega

/-! ### remove -/

theorem get?_eraseAliases (l : List String) (m : AMap String String) (b : String) :
    (eraseAliases m l).get? b = if b ∈ l then none else m.get? b := by
  induction l generalizing m with
  | nil => simp [eraseAliases]
  | cons a r ih =>
    have : eraseAliases m (a :: r) = eraseAliases (m.erase a) r := rfl
    rw [this, ih, AMap.get?_erase]
    by_cases h1 : b ∈ r
    · simp [h1]
    · by_cases h2 : a = b
      · subst h2; simp
      · simp [h1, h2, Ne.symm h2]

theorem nodupKeys_eraseAliases (l : List String) (m : AMap String String) (h : m.NodupKeys) :
    (eraseAliases m l).NodupKeys := by
  induction l generalizing m with
  | nil => exact h
  | cons a r ih => exact ih _ (AMap.nodupKeys_erase h a)

theorem length_eraseAliases (l : List String) (m : AMap String String) :
    (eraseAliases m l).length ≤ m.length := by
  induction l generalizing m with
  | nil => exact Nat.le_refl _
  | cons a r ih => exact Nat.le_trans (ih _) (List.length_filter_le _ _)

theorem pairwise_lt_nodup {l : List Nat} (h : l.Pairwise (· < ·)) : l.Nodup :=
  h.imp (fun hab => Nat.ne_of_lt hab)

theorem removeObj_spec {s : State} (h : Inv s) {o : Obj} (ho : s.objs.get? o.id = some o) :
    ∃ l, s.types.get? o.ty = some l ∧ o.uid ∈ l ∧
    let s' : State := { s with
              alias := eraseAliases s.alias o.aliases
              types := s.types.set o.ty (l.erase o.uid)
              objs := s.objs.erase o.id }
    Inv s' ∧
      (absNames s' = fun m => match absNames s m with
        | some e => if e.owner = o.uid then none else some e
        | none => none) ∧
      (getAll s' = fun t => if t = o.ty then (getAll s t).erase o.uid else getAll s t) ∧
      s'.next = s.next ∧ (usedNames s').length ≤ (usedNames s).length := by
  have hmem : o.uid ∈ getAll s o.ty := (h.typ _ _).mpr ⟨_, _, ho, rfl, rfl⟩
  cases hl : s.types.get? o.ty with
  | none => simp [getAll, hl] at hmem
  | some l =>
    have hl' : getAll s o.ty = l := by simp [getAll, hl]
    refine ⟨l, rfl, by rw [← hl']; exact hmem, ?_⟩
    have hall : ∀ t, getAll { s with
              alias := eraseAliases s.alias o.aliases
              types := s.types.set o.ty (l.erase o.uid)
              objs := s.objs.erase o.id } t =
        if t = o.ty then (getAll s t).erase o.uid else getAll s t := by
      intro t
      by_cases e : t = o.ty
      · subst e; simp only [if_true, hl']; simp [getAll, AMap.get?_set]
      · simp [getAll, AMap.get?_set, Ne.symm e, e]
    have halias : ∀ b i, (eraseAliases s.alias o.aliases).get? b = some i ↔
        i ≠ o.id ∧ s.alias.get? b = some i := by
      intro b i
      rw [get?_eraseAliases]
      by_cases hb : b ∈ o.aliases
      · simp only [hb, if_true]
        constructor
        · intro g; cases g
        · rintro ⟨g1, g2⟩
          rw [h.bwd _ _ ho b hb] at g2; cases g2; exact absurd rfl g1
      · simp only [hb, if_false]
        constructor
        · intro g
          refine ⟨?_, g⟩
          rintro rfl
          obtain ⟨_, x, k2, k3⟩ := h.fwd _ _ g
          rw [ho] at k2; cases k2
          exact hb k3
        · exact fun g => g.2
    refine ⟨?_, ?_, funext hall, rfl, ?_⟩
    · constructor
      · exact AMap.nodupKeys_erase h.nodupO _
      · intro k x hk
        rw [AMap.get?_erase] at hk
        by_cases e : o.id = k
        · simp [e] at hk
        · simp [e] at hk; exact h.key _ _ hk
      · intro k₁ k₂ o₁ o₂ h1 h2 hu
        rw [AMap.get?_erase] at h1 h2
        by_cases e1 : o.id = k₁
        · simp [e1] at h1
        · by_cases e2 : o.id = k₂
          · simp [e2] at h2
          · simp [e1] at h1; simp [e2] at h2
            exact h.uidInj _ _ _ _ h1 h2 hu
      · exact nodupKeys_eraseAliases _ _ h.nodupA
      · intro a i hai
        obtain ⟨g1, g2⟩ := (halias a i).mp hai
        obtain ⟨k1, x, k2, k3⟩ := h.fwd _ _ g2
        refine ⟨?_, x, ?_, k3⟩
        · rw [AMap.get?_erase, k1]; simp
        · rw [AMap.get?_erase, if_neg (Ne.symm g1)]; exact k2
      · intro k x hk a ha
        rw [AMap.get?_erase] at hk
        by_cases e : o.id = k
        · simp [e] at hk
        · simp [e] at hk
          exact (halias a k).mpr ⟨Ne.symm e, h.bwd _ _ hk a ha⟩
      · intro k x hk
        rw [AMap.get?_erase] at hk
        by_cases e : o.id = k
        · simp [e] at hk
        · simp [e] at hk; exact h.wf _ _ hk
      · intro t
        rw [hall]
        split
        · exact (h.typNodup t).sublist List.erase_sublist
        · exact h.typNodup t
      · intro t u
        rw [hall]
        have hnd := pairwise_lt_nodup (h.typNodup t)
        have : (∃ k x, (s.objs.erase o.id).get? k = some x ∧ x.uid = u ∧ x.ty = t) ↔
            (u ∈ getAll s t ∧ u ≠ o.uid) := by
          rw [h.typ]
          constructor
          · rintro ⟨k, x, h1, h2, h3⟩
            rw [AMap.get?_erase] at h1
            by_cases e : o.id = k
            · simp [e] at h1
            · simp [e] at h1
              refine ⟨⟨k, x, h1, h2, h3⟩, ?_⟩
              intro hu
              exact e (h.uidInj _ _ _ _ ho h1 (by rw [h2, hu]))
          · rintro ⟨⟨k, x, h1, h2, h3⟩, h4⟩
            refine ⟨k, x, ?_, h2, h3⟩
            rw [AMap.get?_erase, if_neg]
            · exact h1
            · rintro rfl; rw [ho] at h1; cases h1; exact h4 h2.symm
        rw [this]
        by_cases e : t = o.ty
        · simp only [e, if_true]
          rw [e] at hnd
          rw [hnd.mem_erase_iff]
          exact And.comm
        · simp only [e, if_false]
          constructor
          · intro g
            refine ⟨g, ?_⟩
            rintro rfl
            obtain ⟨k, x, h1, h2, h3⟩ := (h.typ _ _).mp g
            have := h.uidInj _ _ _ _ h1 ho h2
            subst this
            rw [ho] at h1; cases h1
            exact e h3.symm
          · exact fun g => g.1
    · funext m
      unfold absNames
      simp only [AMap.get?_erase]
      by_cases e : o.id = m
      · subst e
        simp only [if_true, ho]
        cases k : (eraseAliases s.alias o.aliases).get? o.id with
        | none => rfl
        | some i =>
          have := (h.fwd _ _ ((halias _ _).mp k).2).1
          rw [ho] at this; cases this
      · simp only [e, if_false]
        cases k1 : s.objs.get? m with
        | some x =>
          have hne : x.uid ≠ o.uid := fun hu => e (h.uidInj _ _ _ _ ho k1 hu.symm)
          simp [hne]
        | none =>
          cases k2 : s.alias.get? m with
          | none =>
            have : (eraseAliases s.alias o.aliases).get? m = none := by
              rw [get?_eraseAliases, k2]; simp
            simp [this]
          | some i =>
            obtain ⟨_, x, k3, k4⟩ := h.fwd _ _ k2
            by_cases ei : i = o.id
            · subst ei
              rw [ho] at k3; cases k3
              have : (eraseAliases s.alias o.aliases).get? m = none := by
                rw [get?_eraseAliases]; simp [k4]
              simp [this, ho]
            · have : (eraseAliases s.alias o.aliases).get? m = some i := (halias _ _).mpr ⟨ei, k2⟩
              have hne : x.uid ≠ o.uid := fun hu => ei (h.uidInj _ _ _ _ k3 ho hu)
              simp [this, Ne.symm ei, k3, hne]
    · simp only [usedNames, List.length_append, List.length_map]
      have h1 := length_eraseAliases o.aliases s.alias
      have h2 : (s.objs.erase o.id).length ≤ s.objs.length := List.length_filter_le _ _
      omega

end Verif.Index
