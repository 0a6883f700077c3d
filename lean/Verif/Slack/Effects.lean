import Verif.Slack.Lemmas

/-! Effect of each call on networks in order (the properties are in Props.lean). -/

namespace Verif.Slack

open Verif Verif.Variants

/-! ### Variants -/

theorem exact_recycle {b : Bk} (h : Exact b) {t : String} (hnew : b.byId.get? t = none) {j : Nat} {rest : List Nat}
    (hu : b.unused = j :: rest) : Exact { b with byId := b.byId.emplace t j, unused := rest } := by
  intro i hi
  rcases h i hi with g | ⟨x, g⟩
  · rw [hu] at g
    rcases List.mem_cons.1 g with rfl | g
    · right; refine ⟨t, ?_⟩
      show (b.byId.emplace t i).get? t = _
      rw [AMap.get?_emplace]; simp [hnew]
    · exact .inl g
  · right; refine ⟨x, ?_⟩
    show (b.byId.emplace t j).get? x = _
    rw [AMap.get?_emplace]; simp only [g]; split <;> simp_all

theorem exact_extend {b : Bk} (h : Exact b) {t : String} (hnew : b.byId.get? t = none) :
    Exact { b with byId := b.byId.emplace t b.size, size := b.size + 1 } := by
  intro i hi
  by_cases e : i = b.size
  · right; refine ⟨t, ?_⟩
    show (b.byId.emplace t b.size).get? t = _
    rw [AMap.get?_emplace]; simp [hnew, e]
  · have hi' : i < b.size + 1 := hi
    rcases h i (by omega) with g | ⟨x, g⟩
    · exact .inl g
    · right; refine ⟨x, ?_⟩
      show (b.byId.emplace t b.size).get? x = _
      rw [AMap.get?_emplace]; simp only [g]; split <;> simp_all

theorem vecWF_set {b : Bk} {l : String} {a : Vec} (h : VecWF b l a) {i j : Nat} (hi : i < b.size) :
    (a.set j (a[i]?).join).length = b.size ∧
    (∀ k, k < b.size → ∃ v, (a.set j (a[i]?).join)[k]? = some (some v) ∧ fits l v = true) ∧
    (∀ k, k ≠ j → (a.set j (a[i]?).join)[k]? = a[k]?) ∧
    (j < b.size → (a.set j (a[i]?).join)[j]? = a[i]?) := by
  obtain ⟨v, hv, hf⟩ := h.filled i hi
  have hj : (a[i]?).join = some v := by rw [hv]; rfl
  rw [hj]
  refine ⟨by simp [h.len], ?_, ?_, ?_⟩
  · intro k hk
    by_cases e : j = k
    · subst e; exact ⟨v, by rw [List.getElem?_set]; simp [h.len, hk], hf⟩
    · obtain ⟨w, hw, hfw⟩ := h.filled k hk
      exact ⟨w, by rw [List.getElem?_set]; simp [e, hw], hfw⟩
  · intro k hk; rw [List.getElem?_set]; simp [Ne.symm hk]
  · intro hj'; rw [List.getElem?_set, hv]; simp [h.len, hj']

/-- The result of a clone, whatever the index it takes. -/
theorem clone_effect {s : Net} (h : Inv s) {src tgt : String} {m : Bool} {i : Nat} (hi : s.bk.byId.get? src = some i)
    (hm : m = true ∨ s.bk.byId.get? tgt = none) :
    ∃ bk' g, clone s src tgt m = (.ok (), { s with bk := bk', exts := mapVal g s.exts }) ∧ BkW bk' ∧ Exact bk' ∧
      (∀ x, (bk'.byId.get? x).isSome ↔ x = tgt ∨ (s.bk.byId.get? x).isSome) ∧
      (∀ x k, s.bk.byId.get? x = some k → bk'.byId.get? x = some k) ∧
      (∀ l a, VecWF s.bk l a → VecWF bk' l (g a) ∧
        ∀ v k, bk'.byId.get? v = some k → (g a)[k]? = if v = tgt then a[i]? else ((s.bk.byId.get? v).bind fun k => a[k]?)) := by
  have hlt := h.w.lt _ _ hi
  cases hj : s.bk.byId.get? tgt with
  | some j =>
    have hmt : m = true := by
      rcases hm with hm | hm
      · exact hm
      · rw [hj] at hm; cases hm
    subst hmt
    have hjlt := h.w.lt _ _ hj
    refine ⟨s.bk, _, clone_overwrite h hi hj, h.w, h.exact, ?_, fun _ _ g => g, ?_⟩
    · intro x
      constructor
      · exact .inr
      · rintro (rfl | g)
        · rw [hj]; rfl
        · exact g
    · intro l a ha
      obtain ⟨k1, k2, k3, k4⟩ := vecWF_set ha (j := j) hlt
      refine ⟨⟨k1, k2, ?_⟩, ?_⟩
      · intro k hk
        have : k ≠ j := by rintro rfl; exact (h.w.free _ hk).2 _ hj
        rw [k3 k this]; exact ha.free k hk
      · intro v k hk
        by_cases e : v = tgt
        · subst e
          rw [hj] at hk; cases hk
          rw [if_pos rfl]; exact k4 hjlt
        · have : k ≠ j := by rintro rfl; exact e (h.w.inj _ _ _ hk hj)
          rw [if_neg e, k3 k this, hk]; rfl
  | none =>
    cases hu : s.bk.unused with
    | nil =>
      refine ⟨_, _, clone_extend h hi hj hu, bkW_extend h.w hj, exact_extend h.exact hj, ?_, ?_, ?_⟩
      · intro x
        show ((s.bk.byId.emplace tgt s.bk.size).get? x).isSome ↔ _
        rw [AMap.get?_emplace, hj]
        by_cases e : tgt = x
        · simp [e]
        · simp [e, Ne.symm e]
      · intro x k hk
        show (s.bk.byId.emplace tgt s.bk.size).get? x = _
        rw [AMap.get?_emplace, hj]
        have : tgt ≠ x := by rintro rfl; rw [hj] at hk; cases hk
        simp [this, hk]
      · intro l a ha
        obtain ⟨v, hv, hf⟩ := ha.filled i hlt
        have hvj : (a[i]?).join = some v := by rw [hv]; rfl
        rw [hvj]
        have hlen := ha.len
        refine ⟨⟨by simp [hlen], ?_, ?_⟩, ?_⟩
        · intro k hk
          have hk' : k < s.bk.size + 1 := hk
          by_cases e : k = s.bk.size
          · exact ⟨v, by rw [List.getElem?_append, hlen]; simp [e], hf⟩
          · obtain ⟨w, hw, hfw⟩ := ha.filled k (by omega)
            exact ⟨w, by rw [List.getElem?_append, hlen]; simp [show k < s.bk.size by omega, hw], hfw⟩
        · intro k hk
          have hk' : k ∈ s.bk.unused := hk
          rw [hu] at hk'; cases hk'
        · intro x k hk
          have hk' : (s.bk.byId.emplace tgt s.bk.size).get? x = some k := hk
          rw [AMap.get?_emplace, hj] at hk'
          by_cases e : tgt = x
          · simp [e] at hk'
            subst hk'
            rw [List.getElem?_append, hlen]; simp [e, hv]
          · simp [e] at hk'
            have := h.w.lt _ _ hk'
            rw [List.getElem?_append, hlen]; simp [this, Ne.symm e, hk']
    | cons j rest =>
      have hjf := h.w.free j (by rw [hu]; simp)
      refine ⟨_, _, clone_recycle h hi hj hu, bkW_recycle h.w hj hu, exact_recycle h.exact hj hu, ?_, ?_, ?_⟩
      · intro x
        show ((s.bk.byId.emplace tgt j).get? x).isSome ↔ _
        rw [AMap.get?_emplace, hj]
        by_cases e : tgt = x
        · simp [e]
        · simp [e, Ne.symm e]
      · intro x k hk
        show (s.bk.byId.emplace tgt j).get? x = _
        rw [AMap.get?_emplace, hj]
        have : tgt ≠ x := by rintro rfl; rw [hj] at hk; cases hk
        simp [this, hk]
      · intro l a ha
        obtain ⟨k1, k2, k3, k4⟩ := vecWF_set ha (j := j) hlt
        refine ⟨⟨k1, k2, ?_⟩, ?_⟩
        · intro k hk
          have hs := h.w.sorted
          rw [hu, List.pairwise_cons] at hs
          have : k ≠ j := by rintro rfl; exact Nat.lt_irrefl _ (hs.1 _ hk)
          rw [k3 k this]
          exact ha.free k (by rw [hu]; exact List.mem_cons_of_mem _ hk)
        · intro x k hk
          have hk' : (s.bk.byId.emplace tgt j).get? x = some k := hk
          rw [AMap.get?_emplace, hj] at hk'
          by_cases e : tgt = x
          · simp [e] at hk'
            subst hk'
            rw [if_pos e.symm]; exact k4 hjf.1
          · simp [e] at hk'
            have : k ≠ j := by rintro rfl; exact hjf.2 _ hk'
            rw [if_neg (Ne.symm e), k3 k this, hk']; rfl

/-- Removals that leave the vectors in order. -/
def CleanRemove (s : Net) (id : String) : Prop :=
  s.exts = [] ∨ ∀ index, s.bk.byId.get? id = some index → index = s.bk.size - 1 →
    s.bk.size = 2 * (1 + (trim index s.bk.unused).1)

instance (s : Net) (id : String) : Decidable (CleanRemove s id) := by
  unfold CleanRemove
  cases h : s.bk.byId.get? id with
  | none => exact isTrue (.inr (by intro _ h; cases h))
  | some index =>
    exact decidable_of_iff (s.exts = [] ∨ (index = s.bk.size - 1 → s.bk.size = 2 * (1 + (trim index s.bk.unused).1)))
      ⟨fun g => g.imp (fun e => e) fun g i hi => by cases hi; exact g, fun g => g.imp (fun e => e) fun g => g index rfl⟩

theorem remove_effect {s : Net} (h : Inv s) {id : String} {index : Nat} (hid : id ≠ initialId)
    (hi : s.bk.byId.get? id = some index) (hc : CleanRemove s id) :
    ∃ bk' g, remove s id = (.ok (), { s with bk := bk', cur := curAfter s.cur index, exts := mapVal g s.exts }) ∧ BkW bk' ∧ Exact bk' ∧
      bk'.byId = s.bk.byId.erase id ∧
      (∀ l a, s.exts.get? l = some a → VecWF bk' l (g a) ∧ ∀ v k, v ≠ id → s.bk.byId.get? v = some k → (g a)[k]? = a[k]?) := by
  have hlt := h.w.lt _ _ hi
  by_cases hl : index = s.bk.size - 1
  · obtain ⟨k1, _, k3, k4, k5⟩ := remove_last_bk h.w hid hi hl
    obtain ⟨t1, t2, t3, t4, t5⟩ := trim_spec index s.bk.unused h.w.sorted
    refine ⟨_, _, remove_last hid hi hl, k1, k3 h.exact, rfl, ?_⟩
    intro l a ha
    have hne : s.exts ≠ [] := by intro e; rw [e] at ha; cases ha
    have hsz : s.bk.size = 2 * (1 + (trim index s.bk.unused).1) := by
      rcases hc with hc | hc
      · exact absurd hc hne
      · exact hc index hi hl
    generalize hn : 1 + (trim index s.bk.unused).1 = n at *
    have hw := h.vec l a ha
    have hcut : cut n a = a.take n := by
      unfold cut
      rw [show n - a.length = 0 by rw [hw.len]; omega]; simp
    have hget : ∀ k, k < n → (cut n a)[k]? = a[k]? := by
      intro k hk; rw [hcut, List.getElem?_take]; simp [hk]
    refine ⟨⟨?_, ?_, ?_⟩, ?_⟩
    · rw [hcut, List.length_take, hw.len]; show _ = s.bk.size - n; omega
    · intro k hk
      have hk' : k < s.bk.size - n := hk
      rw [hget k (by omega)]
      exact hw.filled k (by omega)
    · intro k hk
      have hk' : k ∈ (trim index s.bk.unused).2 := hk
      have := k1.free k hk
      have h2 : k < s.bk.size - n := this.1
      rw [hget k (by omega)]
      exact hw.free k ((t3 k).1 hk').1
    · intro v k hv hk
      have := k5 v k hv hk
      exact hget k (by omega)
  · obtain ⟨k1, k2⟩ := remove_mid_bk h.w hid hi
    refine ⟨_, _, remove_mid h hid hi hl, k1, k2 h.exact, rfl, ?_⟩
    intro l a ha
    have hw := h.vec l a ha
    refine ⟨⟨by simp [hw.len], ?_, ?_⟩, ?_⟩
    · intro k hk
      by_cases e : index = k
      · subst e; exact ⟨none, by rw [List.getElem?_set]; simp [hw.len, hlt], rfl⟩
      · obtain ⟨w, hw1, hw2⟩ := hw.filled k hk
        exact ⟨w, by rw [List.getElem?_set]; simp [e, hw1], hw2⟩
    · intro k hk
      rcases mem_insertSorted.1 hk with rfl | hk
      · rw [List.getElem?_set]; simp [hw.len, hlt]
      · have : index ≠ k := by rintro rfl; exact (h.w.free _ hk).2 _ hi
        rw [List.getElem?_set]; simp [this, hw.free k hk]
    · intro v k hv hk
      have : index ≠ k := by rintro rfl; exact hv (h.w.inj _ _ _ hk hi)
      rw [List.getElem?_set]; simp [this]

/-! ### Terminals -/

theorem assign_ok {cur : Option Nat} {l : String} {a : Vec} {t : Slot} (hf : fits l t = true) {i : Nat} (hi : cur = some i)
    (hlt : i < a.length) : assign cur l a t = .ok (a.set i (some t)) := by
  unfold assign
  have : t.all (fun x => x.level == l) = true := by
    cases t with
    | none => rfl
    | some x => exact hf
  simp [this, hi, hlt]

theorem assign_thrown {cur : Option Nat} {l : String} {a : Vec} {t : Slot} (h : fits l t = false ∨ cur = none) :
    assign cur l a t = .thrown := by
  unfold assign
  rcases h with h | h
  · have : t.all (fun x => x.level == l) = false := by
      cases t with
      | none => cases h
      | some x => exact h
    simp [this]
  · rw [h]; simp

theorem vecWF_assign {b : Bk} (h : BkW b) {l : String} {a : Vec} (ha : VecWF b l a) {t : Slot} (hf : fits l t = true) {i : Nat}
    {x : String} (hi : b.byId.get? x = some i) : VecWF b l (a.set i (some t)) := by
  have hlt := h.lt _ _ hi
  refine ⟨by simp [ha.len], ?_, ?_⟩
  · intro k hk
    by_cases e : i = k
    · subst e; exact ⟨t, by rw [List.getElem?_set]; simp [ha.len, hlt], hf⟩
    · obtain ⟨w, hw, hfw⟩ := ha.filled k hk
      exact ⟨w, by rw [List.getElem?_set]; simp [e, hw], hfw⟩
  · intro k hk
    have : i ≠ k := by rintro rfl; exact (h.free _ hk).2 _ hi
    rw [List.getElem?_set]; simp [this, ha.free k hk]

theorem vecWF_fresh (b : Bk) (h : BkW b) (l : String) : VecWF b l (List.replicate b.size (some none)) := by
  refine ⟨by simp, ?_, ?_⟩
  · intro k hk; exact ⟨none, by simp [hk], rfl⟩
  · intro k hk; simp [(h.free k hk).1]

theorem inv_set {s : Net} (h : Inv s) {l : String} {a : Vec} (hl : l ∈ s.levels) (ha : VecWF s.bk l a) :
    Inv { s with exts := s.exts.set l a } := by
  refine ⟨h.w, h.exact, h.cur, AMap.nodupKeys_set h.nodup _ _, ?_, ?_⟩
  · intro l' a' g
    have g' : (s.exts.set l a).get? l' = some a' := g
    rw [AMap.get?_set] at g'
    by_cases e : l = l'
    · subst e; exact hl
    · simp [e] at g'; exact h.lev _ _ g'
  · intro l' a' g
    have g' : (s.exts.set l a).get? l' = some a' := g
    rw [AMap.get?_set] at g'
    by_cases e : l = l'
    · subst e; simp at g'; subst g'; exact ha
    · simp [e] at g'; exact h.vec _ _ g'

theorem inv_erase {s : Net} (h : Inv s) (l : String) : Inv { s with exts := s.exts.erase l } := by
  have key : ∀ l' a', (s.exts.erase l).get? l' = some a' → s.exts.get? l' = some a' := by
    intro l' a' g
    rw [AMap.get?_erase] at g
    by_cases e : l = l'
    · simp [e] at g
    · simpa [e] using g
  exact ⟨h.w, h.exact, h.cur, AMap.nodupKeys_erase h.nodup _, fun l' a' g => h.lev _ _ (key l' a' g), fun l' a' g => h.vec _ _ (key l' a' g)⟩

theorem val_set {s : Net} {l : String} {a : Vec} (v l' : String) :
    val { s with exts := s.exts.set l a } v l' =
      if l = l' then (match s.bk.byId.get? v with | some i => (a[i]?).join.join | none => none) else val s v l' := by
  unfold val
  simp only [AMap.get?_set]
  by_cases e : l = l'
  · simp only [e, if_true]
    cases s.bk.byId.get? v <;> rfl
  · simp only [e, if_false]

theorem val_erase {s : Net} {l : String} (v l' : String) :
    val { s with exts := s.exts.erase l } v l' = if l = l' then none else val s v l' := by
  unfold val
  simp only [AMap.get?_erase]
  by_cases e : l = l'
  · simp only [e, if_true]
    cases s.bk.byId.get? v <;> rfl
  · simp only [e, if_false]

end Verif.Slack
