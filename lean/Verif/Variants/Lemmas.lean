import Verif.Variants.Model

namespace Verif.Variants

open Verif

variable {V : Type}

/-! ### Bookkeeping invariant -/

/-- Holds in every history, also after calls that failed half-way. -/
structure BkW (b : Bk) : Prop where
  nodup : b.byId.NodupKeys
  inj : ∀ x y i, b.byId.get? x = some i → b.byId.get? y = some i → x = y
  init : b.byId.get? initialId = some 0
  lt : ∀ x i, b.byId.get? x = some i → i < b.size
  sorted : b.unused.Pairwise (· < ·)
  free : ∀ i, i ∈ b.unused → i < b.size ∧ ∀ x, b.byId.get? x ≠ some i

/-- Every slot is either used by a variant or known to be free. -/
def Exact (b : Bk) : Prop := ∀ i, i < b.size → i ∈ b.unused ∨ ∃ x, b.byId.get? x = some i

theorem mem_insertSorted {n m : Nat} {l : List Nat} : m ∈ insertSorted n l ↔ m = n ∨ m ∈ l := by
  induction l with
  | nil => simp [insertSorted]
  | cons a r ih =>
    unfold insertSorted
    split
    · simp
    · split
      · rename_i h; subst h; simp
      · simp only [List.mem_cons, ih]
        constructor
        · rintro (h | h | h) <;> simp [h]
        · rintro (h | h | h) <;> simp [h]

theorem sorted_insertSorted {n : Nat} {l : List Nat} (h : l.Pairwise (· < ·)) :
    (insertSorted n l).Pairwise (· < ·) := by
  induction l with
  | nil => simp [insertSorted]
  | cons a r ih =>
    rw [List.pairwise_cons] at h
    unfold insertSorted
    split
    · rename_i hlt
      rw [List.pairwise_cons]
      refine ⟨?_, List.pairwise_cons.mpr h⟩
      intro b hb
      rcases List.mem_cons.mp hb with rfl | hb
      · exact hlt
      · exact Nat.lt_trans hlt (h.1 b hb)
    · split
      · exact List.pairwise_cons.mpr h
      · rw [List.pairwise_cons]
        refine ⟨?_, ih h.2⟩
        intro b hb
        rcases mem_insertSorted.mp hb with rfl | hb
        · omega
        · exact h.1 b hb

theorem bkW_init : BkW ⟨[(initialId, 0)], [], 1⟩ := by
  constructor
  · simp [AMap.NodupKeys]
  · intro x y i h1 h2
    simp only [AMap.get?_cons, AMap.get?_nil] at h1 h2
    by_cases e1 : initialId = x
    · by_cases e2 : initialId = y
      · rw [← e1, ← e2]
      · simp only [e2, if_false] at h2; cases h2
    · simp only [e1, if_false] at h1; cases h1
  · simp [AMap.get?_cons]
  · intro x i h1
    simp only [AMap.get?_cons, AMap.get?_nil] at h1
    by_cases e1 : initialId = x <;> simp [e1] at h1
    subst h1; simp
  · simp
  · simp

/-- Registering a new id on a slot that no variant uses. -/
theorem bkW_add {b : Bk} (h : BkW b) {t : String} {i size : Nat} {unused : List Nat}
    (hnew : b.byId.get? t = none) (hi : ∀ x, b.byId.get? x ≠ some i) (hsize : b.size ≤ size) (hlt : i < size)
    (hs : unused.Pairwise (· < ·)) (hu : ∀ j, j ∈ unused → j ∈ b.unused ∧ j ≠ i) :
    BkW ⟨b.byId.emplace t i, unused, size⟩ := by
  have hget : ∀ k, (b.byId.emplace t i).get? k = if t = k then some i else b.byId.get? k := by
    intro k; rw [AMap.get?_emplace, hnew]; simp
  have ht : t ≠ initialId := by rintro rfl; rw [h.init] at hnew; cases hnew
  constructor
  · exact AMap.nodupKeys_emplace h.nodup _ _
  · intro x y j h1 h2
    rw [hget] at h1 h2
    by_cases e1 : t = x <;> by_cases e2 : t = y
    · rw [← e1, ← e2]
    · simp [e1] at h1; simp [e2] at h2; subst h1; exact absurd h2 (hi y)
    · simp [e1] at h1; simp [e2] at h2; subst h2; exact absurd h1 (hi x)
    · simp [e1] at h1; simp [e2] at h2; exact h.inj _ _ _ h1 h2
  · rw [hget]; simp [ht, h.init]
  · intro x j h1
    rw [hget] at h1
    by_cases e1 : t = x
    · simp [e1] at h1; subst h1; exact hlt
    · simp [e1] at h1; exact Nat.lt_of_lt_of_le (h.lt _ _ h1) hsize
  · exact hs
  · intro j hj
    obtain ⟨h1, h2⟩ := hu j hj
    refine ⟨Nat.lt_of_lt_of_le (h.free j h1).1 hsize, ?_⟩
    intro x
    rw [hget]
    by_cases e1 : t = x
    · simp [e1]; exact Ne.symm h2
    · simp [e1]; exact (h.free j h1).2 x

theorem bkW_extend {b : Bk} (h : BkW b) {t : String} (hnew : b.byId.get? t = none) :
    BkW { b with byId := b.byId.emplace t b.size, size := b.size + 1 } := by
  refine bkW_add h hnew ?_ (Nat.le_succ _) (Nat.lt_succ_self _) h.sorted ?_
  · intro x hx; exact Nat.lt_irrefl _ (h.lt _ _ hx)
  · intro j hj
    exact ⟨hj, Nat.ne_of_lt (h.free j hj).1⟩

theorem bkW_recycle {b : Bk} (h : BkW b) {t : String} (hnew : b.byId.get? t = none) {i : Nat} {rest : List Nat}
    (hu : b.unused = i :: rest) :
    BkW { b with byId := b.byId.emplace t i, unused := rest } := by
  have hi := h.free i (by rw [hu]; simp)
  have hs := h.sorted
  rw [hu, List.pairwise_cons] at hs
  refine bkW_add h hnew hi.2 (Nat.le_refl _) hi.1 hs.2 ?_
  intro j hj
  exact ⟨by rw [hu]; simp [hj], Ne.symm (Nat.ne_of_lt (hs.1 j hj))⟩

theorem cloneLoop_weak (m : Bool) (ts : List String) (l : LoopSt) (h : BkW l.bk) :
    BkW (cloneLoop m ts l).2.bk := by
  induction ts generalizing l with
  | nil => exact h
  | cons t ts ih =>
    unfold cloneLoop
    cases h1 : l.bk.byId.get? t with
    | some i =>
      simp only []
      split
      · exact ih _ h
      · exact h
    | none =>
      cases h2 : l.bk.unused with
      | nil =>
        simp only []
        exact ih _ (bkW_extend h h1)
      | cons i rest =>
        simp only []
        exact ih _ (bkW_recycle h h1 h2)

/-- What is known at each turn of the loop of a clean clone. -/
structure LI (b0 : Bk) (done : List String) (l : LoopSt) : Prop where
  w : BkW l.bk
  exact : Exact l.bk
  size : l.bk.size = b0.size + l.ext
  other : ∀ id, id ∉ done → l.bk.byId.get? id = b0.byId.get? id
  tgt : ∀ id, id ∈ done → ∃ i, l.bk.byId.get? id = some i ∧
    (i ∈ l.recycled ∨ i ∈ l.overwritten ∨ b0.size ≤ i)
  old : ∀ id i, b0.byId.get? id = some i → l.bk.byId.get? id = some i
  rcy : ∀ i, i ∈ l.recycled → i ∈ b0.unused
  ovw : ∀ i, i ∈ l.overwritten → ∃ id, id ∈ done ∧ b0.byId.get? id = some i
  unu : ∀ i, i ∈ l.bk.unused → i ∈ b0.unused

theorem cloneLoop_clean (b0 : Bk) (m : Bool) (ts : List String) :
    ∀ (done : List String) (l : LoopSt), LI b0 done l → (done ++ ts).Nodup →
    (m = true ∨ ∀ t ∈ ts, b0.byId.get? t = none) →
    ∃ l', cloneLoop m ts l = (.ok (), l') ∧ LI b0 (done ++ ts) l' := by
  induction ts with
  | nil => intro done l h _ _; exact ⟨l, rfl, by simpa using h⟩
  | cons t ts ih =>
    intro done l h hn hm
    have hnd : t ∉ done := by
      intro ht
      rw [List.nodup_append] at hn
      exact hn.2.2 t ht t (by simp) rfl
    have hn' : ((done ++ [t]) ++ ts).Nodup := by simpa using hn
    have hm' : m = true ∨ ∀ x ∈ ts, b0.byId.get? x = none := by
      rcases hm with hm | hm
      · exact Or.inl hm
      · exact Or.inr (fun x hx => hm x (List.mem_cons_of_mem _ hx))
    have happ : done ++ t :: ts = (done ++ [t]) ++ ts := by simp
    unfold cloneLoop
    cases h1 : l.bk.byId.get? t with
    | some i =>
      have h1' : b0.byId.get? t = some i := by rw [← h.other t hnd]; exact h1
      have hmt : m = true := by
        rcases hm with hm | hm
        · exact hm
        · have := hm t (by simp); rw [h1'] at this; cases this
      simp only [hmt, if_true]
      rw [happ]
      have := ih (done ++ [t]) { l with overwritten := insertSorted i l.overwritten } ?_ hn' hm'
      · rw [hmt] at this; exact this
      · refine ⟨h.w, h.exact, h.size, ?_, ?_, h.old, h.rcy, ?_, h.unu⟩
        · intro id hid; exact h.other id (fun hh => hid (List.mem_append.mpr (Or.inl hh)))
        · intro id hid
          rcases List.mem_append.mp hid with hid | hid
          · obtain ⟨j, h2, h3⟩ := h.tgt id hid
            refine ⟨j, h2, ?_⟩
            rcases h3 with h3 | h3 | h3
            · exact Or.inl h3
            · exact Or.inr (Or.inl (mem_insertSorted.mpr (Or.inr h3)))
            · exact Or.inr (Or.inr h3)
          · simp at hid; subst hid
            exact ⟨i, h1, Or.inr (Or.inl (mem_insertSorted.mpr (Or.inl rfl)))⟩
        · intro j hj
          rcases mem_insertSorted.mp hj with rfl | hj
          · exact ⟨t, by simp, h1'⟩
          · obtain ⟨id, h2, h3⟩ := h.ovw j hj
            exact ⟨id, List.mem_append.mpr (Or.inl h2), h3⟩
    | none =>
      have h1' : b0.byId.get? t = none := by rw [← h.other t hnd]; exact h1
      have common : ∀ i, ∀ id, (l.bk.byId.emplace t i).get? id = if t = id then some i else l.bk.byId.get? id := by
        intro i id; rw [AMap.get?_emplace, h1]; simp
      cases h2 : l.bk.unused with
      | nil =>
        simp only []
        rw [happ]
        apply ih _ _ _ hn' hm'
        refine ⟨?_, ?_, ?_, ?_, ?_, ?_, h.rcy, ?_, ?_⟩
        · exact bkW_extend h.w h1
        · intro j hj
          simp only [common]
          rcases Nat.lt_succ_iff_lt_or_eq.mp hj with hj | hj
          · rcases h.exact j hj with h3 | ⟨x, h3⟩
            · rw [h2] at h3; cases h3
            · refine Or.inr ⟨x, ?_⟩
              have : t ≠ x := by rintro rfl; rw [h1] at h3; cases h3
              simp [this, h3]
          · exact Or.inr ⟨t, by simp [hj]⟩
        · show l.bk.size + 1 = b0.size + (l.ext + 1); have := h.size; omega
        · intro id hid
          have h3 : t ≠ id := by rintro rfl; exact hid (by simp)
          simp only [common, h3, if_false]
          exact h.other id (fun hh => hid (List.mem_append.mpr (Or.inl hh)))
        · intro id hid
          simp only [common]
          by_cases e : t = id
          · exact ⟨l.bk.size, by simp [e], Or.inr (Or.inr (by have := h.size; omega))⟩
          · rcases List.mem_append.mp hid with hid | hid
            · obtain ⟨j, h2, h3⟩ := h.tgt id hid
              exact ⟨j, by simp [e, h2], h3⟩
            · simp at hid; exact absurd hid.symm e
        · intro id i hi
          simp only [common]
          have : t ≠ id := by rintro rfl; rw [h1'] at hi; cases hi
          simp [this, h.old id i hi]
        · intro j hj
          obtain ⟨id, h2, h3⟩ := h.ovw j hj
          exact ⟨id, List.mem_append.mpr (Or.inl h2), h3⟩
        · exact h.unu
      | cons i rest =>
        simp only []
        rw [happ]
        apply ih _ _ _ hn' hm'
        refine ⟨bkW_recycle h.w h1 h2, ?_, h.size, ?_, ?_, ?_, ?_, ?_, ?_⟩
        · intro j hj
          simp only [common]
          rcases h.exact j hj with h3 | ⟨x, h3⟩
          · rw [h2] at h3
            rcases List.mem_cons.mp h3 with rfl | h3
            · exact Or.inr ⟨t, by simp⟩
            · exact Or.inl h3
          · refine Or.inr ⟨x, ?_⟩
            have : t ≠ x := by rintro rfl; rw [h1] at h3; cases h3
            simp [this, h3]
        · intro id hid
          have h3 : t ≠ id := by rintro rfl; exact hid (by simp)
          simp only [common, h3, if_false]
          exact h.other id (fun hh => hid (List.mem_append.mpr (Or.inl hh)))
        · intro id hid
          simp only [common]
          by_cases e : t = id
          · exact ⟨i, by simp [e], Or.inl (mem_insertSorted.mpr (Or.inl rfl))⟩
          · rcases List.mem_append.mp hid with hid | hid
            · obtain ⟨j, h2, h3⟩ := h.tgt id hid
              refine ⟨j, by simp [e, h2], ?_⟩
              rcases h3 with h3 | h3 | h3
              · exact Or.inl (mem_insertSorted.mpr (Or.inr h3))
              · exact Or.inr (Or.inl h3)
              · exact Or.inr (Or.inr h3)
            · simp at hid; exact absurd hid.symm e
        · intro id j hj
          simp only [common]
          have : t ≠ id := by rintro rfl; rw [h1'] at hj; cases hj
          simp [this, h.old id j hj]
        · intro j hj
          rcases mem_insertSorted.mp hj with rfl | hj
          · exact h.unu j (by rw [h2]; simp)
          · exact h.rcy j hj
        · intro j hj
          obtain ⟨id, h2, h3⟩ := h.ovw j hj
          exact ⟨id, List.mem_append.mpr (Or.inl h2), h3⟩
        · intro j hj
          exact h.unu j (by rw [h2]; exact List.mem_cons_of_mem _ hj)

/-! ### Trimming -/

theorem trim_spec (n : Nat) (u : List Nat) (hs : u.Pairwise (· < ·)) :
    (trim n u).1 ≤ n ∧ (∀ j, n - (trim n u).1 ≤ j → j < n → j ∈ u) ∧
    (∀ j, j ∈ (trim n u).2 ↔ j ∈ u ∧ ¬ (n - (trim n u).1 ≤ j ∧ j < n)) ∧
    (trim n u).2.Pairwise (· < ·) ∧
    (0 < n - (trim n u).1 → n - (trim n u).1 - 1 ∉ u) := by
  induction n generalizing u with
  | zero => simp [trim, hs]
  | succ n ih =>
    unfold trim
    by_cases h : n ∈ u
    · simp only [h, if_true]
      have hnd : u.Nodup := hs.imp Nat.ne_of_lt
      have hs' : (u.erase n).Pairwise (· < ·) := hs.sublist List.erase_sublist
      obtain ⟨h1, h2, h3, h4, h5⟩ := ih (u.erase n) hs'
      have hmem : ∀ j, j ∈ u.erase n ↔ j ≠ n ∧ j ∈ u := fun j => hnd.mem_erase_iff
      refine ⟨by omega, ?_, ?_, h4, ?_⟩
      · intro j hj1 hj2
        by_cases e : j = n
        · rw [e]; exact h
        · exact ((hmem j).mp (h2 j (by omega) (by omega))).2
      · intro j
        rw [h3, hmem]
        constructor
        · rintro ⟨⟨k1, k2⟩, k3⟩
          exact ⟨k2, fun hc => k3 ⟨by omega, by omega⟩⟩
        · rintro ⟨k1, k2⟩
          refine ⟨⟨?_, k1⟩, fun hc => k2 ⟨by omega, by omega⟩⟩
          rintro rfl; exact k2 ⟨by omega, by omega⟩
      · intro hpos hc
        have e1 : n + 1 - ((trim n (u.erase n)).1 + 1) = n - (trim n (u.erase n)).1 := by omega
        rw [e1] at hpos hc
        exact h5 hpos ((hmem _).mpr ⟨by omega, hc⟩)
    · simp only [h, if_false]
      refine ⟨by omega, ?_, ?_, hs, ?_⟩
      · intro j h1 h2; omega
      · intro j
        constructor
        · intro hj; exact ⟨hj, by omega⟩
        · exact fun hj => hj.1
      · intro _ hc; simp at hc; exact h hc

theorem bkW_erase {b : Bk} (h : BkW b) {id : String} (hid : id ≠ initialId)
    {unused : List Nat} {size : Nat} (hsort : unused.Pairwise (· < ·))
    (hlt : ∀ x i, x ≠ id → b.byId.get? x = some i → i < size)
    (hfree : ∀ j, j ∈ unused → j < size ∧ ((∀ x, b.byId.get? x ≠ some j) ∨ b.byId.get? id = some j)) :
    BkW ⟨b.byId.erase id, unused, size⟩ := by
  have hget : ∀ k, (b.byId.erase id).get? k = if id = k then none else b.byId.get? k :=
    fun k => AMap.get?_erase _ _ _
  constructor
  · exact AMap.nodupKeys_erase h.nodup _
  · intro x y i h1 h2
    rw [hget] at h1 h2
    by_cases e1 : id = x
    · simp [e1] at h1
    · by_cases e2 : id = y
      · simp [e2] at h2
      · simp [e1] at h1; simp [e2] at h2; exact h.inj _ _ _ h1 h2
  · rw [hget]; simp [hid, h.init]
  · intro x i h1
    rw [hget] at h1
    by_cases e1 : id = x
    · simp [e1] at h1
    · simp [e1] at h1; exact hlt x i (Ne.symm e1) h1
  · exact hsort
  · intro j hj
    obtain ⟨h1, h2⟩ := hfree j hj
    refine ⟨h1, ?_⟩
    intro x
    rw [hget]
    by_cases e1 : id = x
    · simp [e1]
    · simp [e1]
      rcases h2 with h2 | h2
      · exact h2 x
      · intro hx; exact e1 (h.inj _ _ _ h2 hx)

theorem remove_last_bk {b : Bk} (h : BkW b) {id : String} (hid : id ≠ initialId) {index : Nat}
    (hget : b.byId.get? id = some index) (hlast : index = b.size - 1) :
    let r := trim index b.unused
    BkW ⟨b.byId.erase id, r.2, b.size - (1 + r.1)⟩ ∧ BkW ⟨b.byId.erase id, r.2, b.size⟩ ∧
    (Exact b → Exact ⟨b.byId.erase id, r.2, b.size - (1 + r.1)⟩) ∧ 1 + r.1 ≤ b.size ∧
    (∀ x i, x ≠ id → b.byId.get? x = some i → i < b.size - (1 + r.1)) := by
  intro r
  obtain ⟨t1, t2, t3, t4, t5⟩ := trim_spec index b.unused h.sorted
  have hr : trim index b.unused = r := rfl
  rw [hr] at t1 t2 t3 t4 t5
  have hsz := h.lt _ _ hget
  have hlt : ∀ x i, x ≠ id → b.byId.get? x = some i → i < b.size - (1 + r.1) := by
    intro x i hx hi
    have h1 := h.lt _ _ hi
    have h2 : i ≠ index := by rintro rfl; exact hx (h.inj _ _ _ hi hget)
    by_cases hc : i < b.size - (1 + r.1)
    · exact hc
    · exact absurd hi ((h.free i (t2 i (by omega) (by omega))).2 x)
  have hfr : ∀ j, j ∈ r.2 → j < b.size - (1 + r.1) ∧ ∀ x, b.byId.get? x ≠ some j := by
    intro j hj
    obtain ⟨h1, h2⟩ := (t3 j).mp hj
    have h3 := h.free j h1
    have h4 : j ≠ index := by rintro rfl; exact h3.2 _ hget
    exact ⟨by have := h3.1; omega, h3.2⟩
  refine ⟨bkW_erase h hid t4 hlt (fun j hj => ⟨(hfr j hj).1, Or.inl (hfr j hj).2⟩),
    bkW_erase h hid t4 (fun x i _ hi => h.lt x i hi)
      (fun j hj => ⟨Nat.lt_of_lt_of_le (hfr j hj).1 (Nat.sub_le _ _), Or.inl (hfr j hj).2⟩), ?_, by omega, hlt⟩
  intro hex j hj
  have hj' : j < b.size - (1 + r.1) := hj
  rcases hex j (by show j < b.size; omega) with h1 | ⟨x, h1⟩
  · left
    exact (t3 j).mpr ⟨h1, fun hc => by have := hc.1; omega⟩
  · right
    refine ⟨x, ?_⟩
    have : id ≠ x := by
      rintro rfl; rw [hget] at h1; cases h1; omega
    show (b.byId.erase id).get? x = some j
    rw [AMap.get?_erase]; simp [this, h1]

theorem remove_mid_bk {b : Bk} (h : BkW b) {id : String} (hid : id ≠ initialId) {index : Nat}
    (hget : b.byId.get? id = some index) :
    BkW { b with byId := b.byId.erase id, unused := insertSorted index b.unused } ∧
    (Exact b → Exact { b with byId := b.byId.erase id, unused := insertSorted index b.unused }) := by
  constructor
  · refine bkW_erase h hid (sorted_insertSorted h.sorted) (fun x i _ hi => h.lt x i hi) ?_
    intro j hj
    rcases mem_insertSorted.mp hj with rfl | hj
    · exact ⟨h.lt _ _ hget, Or.inr hget⟩
    · exact ⟨(h.free j hj).1, Or.inl (h.free j hj).2⟩
  · intro hex j hj
    rcases hex j hj with h1 | ⟨x, h1⟩
    · exact Or.inl (mem_insertSorted.mpr (Or.inr h1))
    · by_cases e : id = x
      · subst e
        rw [hget] at h1; cases h1
        exact Or.inl (mem_insertSorted.mpr (Or.inl rfl))
      · right
        refine ⟨x, ?_⟩
        show (b.byId.erase id).get? x = some j
        rw [AMap.get?_erase]; simp [e, h1]

/-! ### Arrays -/

theorem mapArrs_ok {f : Arr V → Out (Arr V)} {g : Arr V → Arr V} {l : List (Arr V)}
    (h : ∀ a ∈ l, f a = .ok (g a)) : mapArrs f l = (.ok (), l.map g) := by
  induction l with
  | nil => rfl
  | cons a r ih =>
    unfold mapArrs
    rw [h a (by simp), ih (fun x hx => h x (List.mem_cons_of_mem _ hx))]
    simp

theorem getElem?_setAll (l : List (Option V)) (idxs : List Nat) (v : V) (i : Nat) :
    (setAll l idxs v)[i]? = if i ∈ idxs ∧ i < l.length then some (some v) else l[i]? := by
  induction idxs generalizing l with
  | nil => simp [setAll]
  | cons a r ih =>
    have : setAll l (a :: r) v = setAll (l.set a (some v)) r v := rfl
    rw [this, ih, List.length_set, List.getElem?_set]
    by_cases hl : i < l.length
    · by_cases h1 : i ∈ r
      · simp [h1, hl]
      · by_cases h2 : a = i
        · subst h2; simp [hl]
        · simp [h1, h2, Ne.symm h2]
    · by_cases h2 : a = i
      · subst h2; simp [hl]
      · simp [hl, h2]

theorem length_setAll (l : List (Option V)) (idxs : List Nat) (v : V) :
    (setAll l idxs v).length = l.length := by
  induction idxs generalizing l with
  | nil => rfl
  | cons a r ih =>
    have : setAll l (a :: r) v = setAll (l.set a (some v)) r v := rfl
    rw [this, ih, List.length_set]

/-- An attribute in order: one slot per index, the slots in use filled, reduced correctly. -/
structure ArrWF (b : Bk) (a : Arr V) : Prop where
  len : a.slots.length = b.size
  filled : ∀ x i, b.byId.get? x = some i → ∃ v, a.slots[i]? = some (some v)
  good : a.kind.badReduce = none

/-- Invariant of histories of clean operations. -/
structure Inv (s : State V) : Prop where
  w : BkW s.bk
  exact : Exact s.bk
  arrs : ∀ a ∈ s.arrs, ArrWF s.bk a

theorem inv_init (tls : Thread → Option Nat) : Inv (init V tls) := by
  refine ⟨bkW_init, ?_, by simp [init]⟩
  intro i hi
  right
  refine ⟨initialId, ?_⟩
  have : i = 0 := by simp [init] at hi; exact hi
  simp [init, AMap.get?_cons, this]

/-- Content of a slot. -/
def slot (a : Arr V) (i : Nat) : Option V := (a.slots[i]?).join

theorem setSel_bk (s : State V) (t : Thread) (i : Option Nat) : (s.setSel t i).bk = s.bk := by
  unfold State.setSel; split <;> rfl

theorem setSel_arrs (s : State V) (t : Thread) (i : Option Nat) : (s.setSel t i).arrs = s.arrs := by
  unfold State.setSel; split <;> rfl

theorem sel_setSel (s : State V) (t : Thread) (i : Option Nat) : (s.setSel t i).sel t = i := by
  unfold State.setSel State.sel
  cases h : s.mode <;> simp

theorem sel_setSel_ne {s : State V} {t t' : Thread} (hne : t' ≠ t) (hm : s.mode = .multi) (i : Option Nat) :
    (s.setSel t i).sel t' = s.sel t' := by
  unfold State.setSel State.sel
  simp [hm, hne]

theorem resetIf_bk (s : State V) (t : Thread) (i : Nat) : (resetIf s t i).bk = s.bk := by
  unfold resetIf; split
  · exact setSel_bk _ _ _
  · rfl

theorem resetIf_arrs (s : State V) (t : Thread) (i : Nat) : (resetIf s t i).arrs = s.arrs := by
  unfold resetIf; split
  · exact setSel_arrs _ _ _
  · rfl

theorem readIn_eq (s : State V) (id : String) (a : Nat) :
    readIn s id a = match s.bk.byId.get? id with
      | none => .thrown
      | some i => match s.arrs[a]? with
        | none => .ub
        | some arr => arr.read i := by
  unfold readIn setWorking
  cases h : s.bk.byId.get? id with
  | none => rfl
  | some i =>
    simp only [read, setSel_arrs, sel_setSel]
    cases s.arrs[a]? <;> rfl

theorem inv_readIn {s : State V} (h : Inv s) {id : String} {a : Nat} (hid : (s.bk.byId.get? id).isSome)
    (ha : a < s.arrs.length) : ∃ v, readIn s id a = .ok v := by
  rw [readIn_eq]
  obtain ⟨i, hi⟩ := Option.isSome_iff_exists.mp hid
  have hmem := List.getElem_mem ha
  obtain ⟨v, hv⟩ := (h.arrs _ hmem).filled _ _ hi
  refine ⟨v, ?_⟩
  simp only [hi, List.getElem?_eq_getElem ha]
  unfold Arr.read
  rw [hv]

end Verif.Variants
