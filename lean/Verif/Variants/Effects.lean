import Verif.Variants.Lemmas

/-!
Effect of each operation of the variant manager (helper lemmas; the properties are in Props.lean).
-/

namespace Verif.Variants

open Verif

variable {V : Type}

/-- A clone call that either fails before touching anything or cannot fail half-way: distinct targets, none of
    which exists unless overwriting is allowed.  Every single-target call is of this kind (`cleanClone_single`). -/
def CleanClone (b : Bk) (source : String) (ts : List String) (m : Bool) : Prop :=
  b.byId.get? source = none ∨ ts = [] ∨
  (ts.Nodup ∧ (m = true ∨ ∀ t ∈ ts, b.byId.get? t = none)) ∨
  (m = false ∧ ∃ t r, ts = t :: r ∧ b.byId.get? t ≠ none)

/-- Operations after which the arrays are in order (see the witnesses for the other ones). -/
def Clean (s : State V) : Op V → Prop
  | .clone _ src ts m => CleanClone s.bk src ts m
  | .newAttr k _ => k.badReduce = none
  | _ => True

/-- Histories of clean operations. -/
def CleanHistory : State V → List (Op V) → Prop
  | _, [] => True
  | s, op :: ops => Clean s op ∧ CleanHistory (step s op).2 ops

theorem cleanClone_single (b : Bk) (src t : String) (m : Bool) : CleanClone b src [t] m := by
  cases m with
  | true => exact Or.inr (Or.inr (Or.inl ⟨by simp, Or.inl rfl⟩))
  | false =>
    cases h : b.byId.get? t with
    | none => exact Or.inr (Or.inr (Or.inl ⟨by simp, Or.inr (by simp [h])⟩))
    | some i => exact Or.inr (Or.inr (Or.inr ⟨rfl, t, [], rfl, by simp [h]⟩))

/-! ### Bookkeeping, all histories -/

theorem write_bk (s : State V) (t : Thread) (a : Nat) (v : V) : (write s t a v).2.bk = s.bk := by
  unfold write
  cases s.arrs[a]? with
  | none => rfl
  | some arr =>
    cases s.sel t with
    | none => rfl
    | some i => simp only []; cases arr.write i v <;> rfl

theorem allowMT_bk (s : State V) (t : Thread) (b : Bool) : (allowMT s t b).bk = s.bk ∧ (allowMT s t b).arrs = s.arrs := by
  unfold allowMT
  split <;> try exact ⟨rfl, rfl⟩
  split <;> exact ⟨rfl, rfl⟩

theorem step_weak {s : State V} (h : BkW s.bk) (op : Op V) : BkW (step s op).2.bk := by
  cases op with
  | clone t src ts m =>
    unfold step clone
    simp only []
    split
    · exact h
    · cases h1 : s.bk.byId.get? src with
      | none => exact h
      | some i =>
        simp only []
        have hw := cloneLoop_weak m ts ⟨s.bk, 0, [], []⟩ h
        cases h2 : cloneLoop m ts ⟨s.bk, 0, [], []⟩ with
        | mk o l =>
          rw [h2] at hw
          cases o <;> exact hw
  | remove t id =>
    unfold step remove
    simp only []
    split
    · exact h
    · rename_i hid
      cases h1 : s.bk.byId.get? id with
      | none => exact h
      | some index =>
        simp only []
        split
        · rename_i hlast
          obtain ⟨k1, k2, _, _, _⟩ := remove_last_bk h hid h1 hlast
          cases h2 : mapArrs (fun a => a.reduce (1 + (trim index s.bk.unused).1)) s.arrs with
          | mk o l =>
            cases o with
            | ok _ => simp only [resetIf_bk]; exact k1
            | thrown => exact k2
            | ub => exact k2
        · obtain ⟨k1, _⟩ := remove_mid_bk h hid h1
          cases h2 : mapArrs (fun a => a.delete index) s.arrs with
          | mk o l =>
            cases o with
            | ok _ => simp only [resetIf_bk]; exact k1
            | thrown => exact k1
            | ub => exact k1
  | setWorking t id =>
    unfold step setWorking
    simp only []
    cases h1 : s.bk.byId.get? id with
    | none => exact h
    | some i => simp only [setSel_bk]; exact h
  | allowMT t b => unfold step; simp only [(allowMT_bk s t b).1]; exact h
  | write t a v => unfold step; simp only [write_bk]; exact h
  | newAttr k v => exact h
  | foreign t i => exact h

theorem run_weak {s : State V} (h : BkW s.bk) (ops : List (Op V)) : BkW (run s ops).bk := by
  induction ops generalizing s with
  | nil => exact h
  | cons op ops ih => exact ih (step_weak h op)

/-! ### Effect of the operations on a state in order -/

theorem clone_noop {s : State V} {src : String} {ts : List String} {m : Bool}
    (h : s.bk.byId.get? src = none ∨ ts = [] ∨ (m = false ∧ ∃ t r, ts = t :: r ∧ s.bk.byId.get? t ≠ none)) :
    clone s src ts m = (.thrown, s) := by
  unfold clone
  rcases h with h | h | ⟨h1, t, r, h2, h3⟩
  · by_cases e : ts = [] <;> simp [e, h]
  · simp [h]
  · subst h2; subst h1
    cases h4 : s.bk.byId.get? src with
    | none => simp
    | some i =>
      obtain ⟨j, hj⟩ := Option.ne_none_iff_exists'.mp h3
      simp [cloneLoop, hj]

/-- The attribute after a clone (closed form used in the proofs). -/
theorem clone_ok {s : State V} (h : Inv s) {src : String} {ts : List String} {m : Bool}
    (hsrc : s.bk.byId.get? src ≠ none) (hts : ts ≠ []) (hnd : ts.Nodup)
    (hm : m = true ∨ ∀ t ∈ ts, s.bk.byId.get? t = none) :
    (clone s src ts m).1 = .ok () ∧ Inv (clone s src ts m).2 ∧
    (clone s src ts m).2.mode = s.mode ∧ (clone s src ts m).2.tls = s.tls ∧
    (clone s src ts m).2.arrs.length = s.arrs.length ∧
    (∀ id i, s.bk.byId.get? id = some i → (clone s src ts m).2.bk.byId.get? id = some i) ∧
    (∀ id, ((clone s src ts m).2.bk.byId.get? id).isSome ↔ id ∈ ts ∨ (s.bk.byId.get? id).isSome) ∧
    (∀ id a, readIn (clone s src ts m).2 id a = if id ∈ ts then readIn s src a else readIn s id a) := by
  obtain ⟨srci, hsrc'⟩ := Option.ne_none_iff_exists'.mp hsrc
  have hli : LI s.bk [] ⟨s.bk, 0, [], []⟩ :=
    ⟨h.w, h.exact, rfl, fun _ _ => rfl, by simp, fun _ _ hh => hh, by simp, by simp, fun _ hh => hh⟩
  obtain ⟨l, hl, li⟩ := cloneLoop_clean s.bk m ts [] _ hli (by simpa using hnd) hm
  simp only [List.nil_append] at li
  -- bounds
  have hrlt : ∀ i, i ∈ l.recycled → i < s.bk.size := fun i hi => (h.w.free i (li.rcy i hi)).1
  have holt : ∀ i, i ∈ l.overwritten → i < s.bk.size := fun i hi => by
    obtain ⟨id, _, h2⟩ := li.ovw i hi; exact h.w.lt _ _ h2
  have hsl := h.w.lt _ _ hsrc'
  have hsrcr : srci ∉ l.recycled := fun hh => (h.w.free _ (li.rcy _ hh)).2 _ hsrc'
  -- one attribute
  have g : ∀ a ∈ s.arrs, ∃ v, a.slots[srci]? = some (some v) := fun a ha => (h.arrs a ha).filled _ _ hsrc'
  let val : Arr V → Option (Option V) := fun a => a.slots[srci]?
  let f1 : Arr V → Arr V := fun a =>
    match a.slots[srci]? with
    | some (some v) => if l.recycled = [] then a else { a with slots := setAll a.slots l.recycled v }
    | _ => a
  let f2 : Arr V → Arr V := fun a =>
    match a.slots[srci]? with
    | some (some v) => if l.overwritten = [] then a else { a with slots := setAll a.slots l.overwritten v }
    | _ => a
  let f3 : Arr V → Arr V := fun a =>
    match a.slots[srci]? with
    | some (some v) => if l.ext = 0 then a else { a with slots := a.slots ++ List.replicate l.ext (some v) }
    | _ => a
  have e1 : (if l.recycled = [] then ((.ok (), s.arrs) : Out Unit × List (Arr V))
      else mapArrs (fun a => a.allocate l.recycled srci) s.arrs) = (.ok (), s.arrs.map f1) := by
    by_cases e : l.recycled = []
    · simp only [e, if_true]
      congr 1
      symm
      rw [List.map_congr_left (g := id), List.map_id]
      intro a ha
      obtain ⟨v, hv⟩ := g a ha
      simp [f1, hv, e]
    · simp only [e, if_false]
      apply mapArrs_ok
      intro a ha
      obtain ⟨v, hv⟩ := g a ha
      have hall : l.recycled.all (fun i => decide (i < a.slots.length)) = true := by
        rw [List.all_eq_true]; intro i hi
        rw [(h.arrs a ha).len]; simpa using hrlt i hi
      simp [Arr.allocate, hv, hall, f1, e]
  have l1 : ∀ a ∈ s.arrs, (f1 a).slots.length = s.bk.size ∧ (f1 a).slots[srci]? = a.slots[srci]? ∧
      (f1 a).kind = a.kind := by
    intro a ha
    obtain ⟨v, hv⟩ := g a ha
    by_cases e : l.recycled = []
    · simp [f1, hv, e, (h.arrs a ha).len]
    · simp [f1, hv, e, length_setAll, (h.arrs a ha).len, getElem?_setAll, hsrcr]
  have e2 : (if l.overwritten = [] then ((.ok (), s.arrs.map f1) : Out Unit × List (Arr V))
      else mapArrs (fun a => a.allocate l.overwritten srci) (s.arrs.map f1)) =
      (.ok (), (s.arrs.map f1).map f2) := by
    by_cases e : l.overwritten = []
    · simp only [e, if_true]
      congr 1
      symm
      rw [List.map_congr_left (g := id), List.map_id]
      intro b hb
      obtain ⟨a, ha, rfl⟩ := List.mem_map.mp hb
      obtain ⟨v, hv⟩ := g a ha
      simp [f2, (l1 a ha).2.1, hv, e]
    · simp only [e, if_false]
      apply mapArrs_ok
      intro b hb
      obtain ⟨a, ha, rfl⟩ := List.mem_map.mp hb
      obtain ⟨v, hv⟩ := g a ha
      have hall : l.overwritten.all (fun i => decide (i < (f1 a).slots.length)) = true := by
        rw [List.all_eq_true]; intro i hi
        rw [(l1 a ha).1]; simpa using holt i hi
      simp [Arr.allocate, (l1 a ha).2.1, hv, hall, f2, e]
  have l2 : ∀ a ∈ s.arrs, (f2 (f1 a)).slots.length = s.bk.size ∧
      (f2 (f1 a)).slots[srci]? = a.slots[srci]? ∧ (f2 (f1 a)).kind = a.kind := by
    intro a ha
    obtain ⟨v, hv⟩ := g a ha
    obtain ⟨k1, k2, k3⟩ := l1 a ha
    by_cases e : l.overwritten = []
    · simp [f2, k2, hv, e, k1, k3]
    · simp only [f2, k2, hv, e, if_false, length_setAll, k1, k3, getElem?_setAll]
      simp
  have e3 : (if l.ext = 0 then ((.ok (), (s.arrs.map f1).map f2) : Out Unit × List (Arr V))
      else mapArrs (fun a => a.extend l.ext srci) ((s.arrs.map f1).map f2)) =
      (.ok (), ((s.arrs.map f1).map f2).map f3) := by
    by_cases e : l.ext = 0
    · simp only [e, if_true]
      congr 1
      symm
      rw [List.map_congr_left (g := id), List.map_id]
      intro b hb
      obtain ⟨a', ha', rfl⟩ := List.mem_map.mp hb
      obtain ⟨a, ha, rfl⟩ := List.mem_map.mp ha'
      obtain ⟨v, hv⟩ := g a ha
      simp [f3, (l2 a ha).2.1, hv, e]
    · simp only [e, if_false]
      apply mapArrs_ok
      intro b hb
      obtain ⟨a', ha', rfl⟩ := List.mem_map.mp hb
      obtain ⟨a, ha, rfl⟩ := List.mem_map.mp ha'
      obtain ⟨v, hv⟩ := g a ha
      simp [Arr.extend, (l2 a ha).2.1, hv, f3, e]
  have hres : clone s src ts m = (.ok (), { s with bk := l.bk, arrs := ((s.arrs.map f1).map f2).map f3 }) := by
    unfold clone
    simp only [hts, if_false, hsrc', hl]
    rw [e1]
    simp only [andThen]
    rw [e2]
    simp only []
    rw [e3]
  -- content of the slots afterwards
  have hslot : ∀ a ∈ s.arrs, ∀ v, a.slots[srci]? = some (some v) → ∀ i,
      (f3 (f2 (f1 a))).slots[i]? =
        if i ∈ l.recycled ∨ i ∈ l.overwritten ∨ (s.bk.size ≤ i ∧ i < s.bk.size + l.ext) then some (some v)
        else a.slots[i]? := by
    intro a ha v hv i
    obtain ⟨k1, k2, k3⟩ := l1 a ha
    obtain ⟨q1, q2, q3⟩ := l2 a ha
    have hlen := (h.arrs a ha).len
    have s1 : (f1 a).slots[i]? = if i ∈ l.recycled then some (some v) else a.slots[i]? := by
      by_cases e : l.recycled = []
      · simp [f1, hv, e]
      · simp only [f1, hv, e, if_false, getElem?_setAll, hlen]
        by_cases hi : i ∈ l.recycled
        · simp [hi, hrlt i hi]
        · simp [hi]
    have s2 : (f2 (f1 a)).slots[i]? =
        if i ∈ l.overwritten then some (some v) else (f1 a).slots[i]? := by
      by_cases e : l.overwritten = []
      · simp [f2, k2, hv, e]
      · simp only [f2, k2, hv, e, if_false, getElem?_setAll, k1]
        by_cases hi : i ∈ l.overwritten
        · simp [hi, holt i hi]
        · simp [hi]
    have s3 : (f3 (f2 (f1 a))).slots[i]? =
        if s.bk.size ≤ i ∧ i < s.bk.size + l.ext then some (some v) else (f2 (f1 a)).slots[i]? := by
      by_cases e : l.ext = 0
      · have : ¬ (s.bk.size ≤ i ∧ i < s.bk.size + l.ext) := by omega
        simp [f3, q2, hv, e, this]
        intro h1 h2; omega
      · simp only [f3, q2, hv, e, if_false]
        rw [List.getElem?_append, q1]
        by_cases hi : i < s.bk.size
        · have : ¬ (s.bk.size ≤ i ∧ i < s.bk.size + l.ext) := by omega
          simp [hi, this]
        · by_cases hi2 : i < s.bk.size + l.ext
          · have h1 : s.bk.size ≤ i := by omega
            have h2 : i - s.bk.size < l.ext := by omega
            simp only [hi, if_false, h1, hi2, and_self, if_true]
            rw [List.getElem?_replicate]; simp [h2]
          · have h2 : ¬ (i - s.bk.size < l.ext) := by omega
            have h3 : (f2 (f1 a)).slots[i]? = none := by
              rw [List.getElem?_eq_none_iff, q1]; omega
            simp only [hi, if_false, hi2, and_false, h3]
            rw [List.getElem?_replicate]; simp [h2]
    rw [s3, s2, s1]
    by_cases c1 : i ∈ l.recycled <;> by_cases c2 : i ∈ l.overwritten <;>
      by_cases c3 : s.bk.size ≤ i ∧ i < s.bk.size + l.ext <;> simp [c1, c2, c3]
  have hidx : ∀ id i, l.bk.byId.get? id = some i →
      (id ∈ ts ∧ (i ∈ l.recycled ∨ i ∈ l.overwritten ∨ (s.bk.size ≤ i ∧ i < s.bk.size + l.ext))) ∨
      (id ∉ ts ∧ s.bk.byId.get? id = some i ∧
        ¬ (i ∈ l.recycled ∨ i ∈ l.overwritten ∨ (s.bk.size ≤ i ∧ i < s.bk.size + l.ext))) := by
    intro id i hi
    by_cases hid : id ∈ ts
    · left
      obtain ⟨j, h1, h2⟩ := li.tgt id hid
      rw [hi] at h1; cases h1
      refine ⟨hid, ?_⟩
      rcases h2 with h2 | h2 | h2
      · exact Or.inl h2
      · exact Or.inr (Or.inl h2)
      · exact Or.inr (Or.inr ⟨h2, by have := li.w.lt _ _ hi; rw [li.size] at this; exact this⟩)
    · right
      have hi' : s.bk.byId.get? id = some i := by rw [← li.other id hid]; exact hi
      refine ⟨hid, hi', ?_⟩
      rintro (h1 | h1 | h1)
      · exact (h.w.free _ (li.rcy _ h1)).2 _ hi'
      · obtain ⟨id', h2, h3⟩ := li.ovw i h1
        have := h.w.inj _ _ _ hi' h3
        subst this; exact hid h2
      · have := h.w.lt _ _ hi'; omega
  rw [hres]
  refine ⟨rfl, ⟨li.w, li.exact, ?_⟩, rfl, rfl, by simp, li.old, ?_, ?_⟩
  · intro b hb
    obtain ⟨b2, hb2, rfl⟩ := List.mem_map.mp hb
    obtain ⟨b1, hb1, rfl⟩ := List.mem_map.mp hb2
    obtain ⟨a, ha, rfl⟩ := List.mem_map.mp hb1
    obtain ⟨v, hv⟩ := g a ha
    obtain ⟨q1, q2, q3⟩ := l2 a ha
    refine ⟨?_, ?_, ?_⟩
    · show (f3 (f2 (f1 a))).slots.length = l.bk.size
      rw [li.size]
      by_cases e : l.ext = 0
      · simp [f3, q2, hv, e, q1]
      · simp [f3, q2, hv, e, q1]
    · intro x i hi
      rw [hslot a ha v hv]
      rcases hidx x i hi with ⟨_, h1⟩ | ⟨_, h1, h2⟩
      · exact ⟨v, by simp [h1]⟩
      · rw [if_neg h2]
        exact (h.arrs a ha).filled _ _ h1
    · have : (f3 (f2 (f1 a))).kind = (f2 (f1 a)).kind := by
        simp only [f3, q2, hv]
        split <;> rfl
      rw [this, q3]; exact (h.arrs a ha).good
  · intro id
    constructor
    · intro hs
      obtain ⟨i, hi⟩ := Option.isSome_iff_exists.mp hs
      rcases hidx id i hi with ⟨h1, _⟩ | ⟨_, h1, _⟩
      · exact Or.inl h1
      · exact Or.inr (by simp [h1])
    · rintro (h1 | h1)
      · obtain ⟨j, h2, _⟩ := li.tgt id h1; simp [h2]
      · obtain ⟨i, hi⟩ := Option.isSome_iff_exists.mp h1
        simp [li.old _ _ hi]
  · intro id a
    rw [readIn_eq, readIn_eq, readIn_eq]
    simp only [List.map_map, List.getElem?_map, hsrc']
    cases ha : s.arrs[a]? with
    | none =>
      simp only [Option.map_none]
      by_cases hid : id ∈ ts
      · obtain ⟨j, h2, _⟩ := li.tgt id hid
        simp [hid, h2]
      · rw [li.other id hid]; simp [hid]
    | some arr =>
      have hmem := List.mem_of_getElem? ha
      obtain ⟨v, hv⟩ := g arr hmem
      simp only [Option.map_some, Function.comp]
      cases hi : l.bk.byId.get? id with
      | none =>
        have hid : id ∉ ts := fun hc => by
          obtain ⟨j, h2, _⟩ := li.tgt id hc; rw [hi] at h2; cases h2
        rw [li.other id hid] at hi
        simp [hid, hi]
      | some i =>
        rcases hidx id i hi with ⟨hid, h1⟩ | ⟨hid, h1, h2⟩
        · simp only [hid, if_true]
          unfold Arr.read
          rw [hslot arr hmem v hv, if_pos h1, hv]
        · have hk : (f3 (f2 (f1 arr))).kind = arr.kind := by
            obtain ⟨q1, q2, q3⟩ := l2 arr hmem
            simp only [f3, q2, hv]
            split <;> exact q3
          simp only [hid, if_false, h1]
          unfold Arr.read
          rw [hslot arr hmem v hv, if_neg h2, hk]

theorem remove_ok {s : State V} (h : Inv s) (t : Thread) {id : String} (hid : id ≠ initialId)
    {index : Nat} (hget : s.bk.byId.get? id = some index) :
    (remove s t id).1 = .ok () ∧ Inv (remove s t id).2 ∧
    (remove s t id).2.arrs.length = s.arrs.length ∧
    ((remove s t id).2.bk.byId = s.bk.byId.erase id) ∧
    (∀ x a, x ≠ id → readIn (remove s t id).2 x a = readIn s x a) ∧
    (∀ t', (remove s t id).2.sel t' =
      if (t' = t ∨ s.mode ≠ .multi) ∧ s.sel t' = some index then none else s.sel t') := by
  have hsel : ∀ (s' : State V), s'.mode = s.mode → s'.tls = s.tls → ∀ t', (resetIf s' t index).sel t' =
      if (t' = t ∨ s.mode ≠ .multi) ∧ s.sel t' = some index then none else s.sel t' := by
    intro s' hm ht t'
    have hss : ∀ x, s'.sel x = s.sel x := by intro x; unfold State.sel; rw [hm, ht]
    unfold resetIf
    by_cases hc : s'.sel t = some index
    · rw [if_pos hc]
      by_cases he : t' = t
      · subst he
        rw [sel_setSel, if_pos]
        exact ⟨Or.inl rfl, by rw [← hss]; exact hc⟩
      · cases hmode : s.mode with
        | multi =>
          rw [sel_setSel_ne he (by rw [hm, hmode]), hss, if_neg]
          rintro ⟨h1 | h1, _⟩
          · exact he h1
          · exact h1 rfl
        | single i =>
          have : s'.sel t = i := by unfold State.sel; rw [hm, hmode]
          rw [this] at hc
          have h2 : s.sel t' = i := by unfold State.sel; rw [hmode]
          rw [h2, if_pos ⟨Or.inr (by simp), hc⟩]
          unfold State.setSel State.sel
          rw [hm, hmode]
    · rw [if_neg hc, hss]
      have hneg : ¬ ((t' = t ∨ s.mode ≠ .multi) ∧ s.sel t' = some index) := by
        rintro ⟨h1, h2⟩
        apply hc
        rcases h1 with h1 | h1
        · rw [hss, ← h1]; exact h2
        · cases hmode : s.mode with
          | multi => exact absurd hmode h1
          | single i =>
            have e1 : s'.sel t = i := by unfold State.sel; rw [hm, hmode]
            have e2 : s.sel t' = i := by unfold State.sel; rw [hmode]
            rw [e1, ← e2]; exact h2
      rw [if_neg hneg]
  by_cases hlast : index = s.bk.size - 1
  · obtain ⟨k1, k2, k3, k4, k5⟩ := remove_last_bk h.w hid hget hlast
    have hmap : mapArrs (fun a => a.reduce (1 + (trim index s.bk.unused).1)) s.arrs =
        (.ok (), s.arrs.map (fun a => { a with slots := a.slots.take (a.slots.length - (1 + (trim index s.bk.unused).1)) })) := by
      apply mapArrs_ok
      intro a ha
      have hw := h.arrs a ha
      unfold Arr.reduce
      rw [hw.good]
      simp only []
      rw [if_pos (by rw [hw.len]; exact k4)]
    have hres : remove s t id = (.ok (), resetIf
        { s with
          bk := ⟨s.bk.byId.erase id, (trim index s.bk.unused).2, s.bk.size - (1 + (trim index s.bk.unused).1)⟩
          arrs := s.arrs.map (fun a => { a with slots := a.slots.take (a.slots.length - (1 + (trim index s.bk.unused).1)) }) }
        t index) := by
      unfold remove
      rw [if_neg hid]
      simp only [hget]
      rw [if_pos hlast]
      simp only [hmap]
    rw [hres]
    generalize hc : 1 + (trim index s.bk.unused).1 = c at *
    have hsl : ∀ a ∈ s.arrs, ∀ i, i < s.bk.size - c → (a.slots.take (a.slots.length - c))[i]? = a.slots[i]? := by
      intro a ha i hi
      rw [List.getElem?_take, (h.arrs a ha).len]
      simp [hi]
    refine ⟨rfl, ⟨?_, ?_, ?_⟩, ?_, ?_, ?_, hsel _ rfl rfl⟩
    · rw [resetIf_bk]; exact k1
    · rw [resetIf_bk]; exact k3 h.exact
    · rw [resetIf_arrs, resetIf_bk]
      intro b hb
      obtain ⟨a, ha, rfl⟩ := List.mem_map.mp hb
      have hw := h.arrs a ha
      refine ⟨?_, ?_, hw.good⟩
      · simp only [List.length_take, hw.len]; omega
      · intro x i hi
        have hi' : (s.bk.byId.erase id).get? x = some i := hi
        rw [AMap.get?_erase] at hi'
        by_cases e : id = x
        · simp [e] at hi'
        · simp [e] at hi'
          simp only [hsl a ha i (k5 x i (Ne.symm e) hi')]
          exact hw.filled _ _ hi'
    · rw [resetIf_arrs]; simp
    · rw [resetIf_bk]
    · intro x a hx
      rw [readIn_eq, readIn_eq, resetIf_bk, resetIf_arrs]
      simp only [AMap.get?_erase, Ne.symm hx, if_false, List.getElem?_map]
      cases hi : s.bk.byId.get? x with
      | none => rfl
      | some i =>
        cases ha : s.arrs[a]? with
        | none => rfl
        | some arr =>
          simp only [Option.map_some]
          unfold Arr.read
          rw [hsl arr (List.mem_of_getElem? ha) i (k5 x i hx hi)]
  · obtain ⟨k1, k2⟩ := remove_mid_bk h.w hid hget
    have hilt := h.w.lt _ _ hget
    let f : Arr V → Arr V := fun a => match a.kind.del with
      | .keep => a
      | .reset => { a with slots := a.slots.set index none }
      | .clear v => { a with slots := a.slots.set index (some v) }
    have hmap : mapArrs (fun a => a.delete index) s.arrs = (.ok (), s.arrs.map f) := by
      apply mapArrs_ok
      intro a ha
      have hw := h.arrs a ha
      have hlt : index < a.slots.length := by rw [hw.len]; exact hilt
      unfold Arr.delete
      simp only [f]
      cases hd : a.kind.del <;> simp [hlt]
    have hf : ∀ a, (f a).kind = a.kind ∧ (f a).slots.length = a.slots.length ∧
        ∀ i, i ≠ index → (f a).slots[i]? = a.slots[i]? := by
      intro a
      simp only [f]
      cases hd : a.kind.del <;> simp
      · intro i hi; rw [List.getElem?_set]; simp [Ne.symm hi]
      · intro i hi; rw [List.getElem?_set]; simp [Ne.symm hi]
    have hres : remove s t id = (.ok (), resetIf
        { s with bk := { s.bk with byId := s.bk.byId.erase id, unused := insertSorted index s.bk.unused }
                 arrs := s.arrs.map f } t index) := by
      unfold remove
      rw [if_neg hid]
      simp only [hget]
      rw [if_neg hlast]
      simp only [hmap]
    rw [hres]
    refine ⟨rfl, ⟨?_, ?_, ?_⟩, ?_, ?_, ?_, hsel _ rfl rfl⟩
    · rw [resetIf_bk]; exact k1
    · rw [resetIf_bk]; exact k2 h.exact
    · rw [resetIf_arrs, resetIf_bk]
      intro b hb
      obtain ⟨a, ha, rfl⟩ := List.mem_map.mp hb
      have hw := h.arrs a ha
      refine ⟨?_, ?_, ?_⟩
      · rw [(hf a).2.1]; exact hw.len
      · intro x i hi
        have hi' : (s.bk.byId.erase id).get? x = some i := hi
        rw [AMap.get?_erase] at hi'
        by_cases e : id = x
        · simp [e] at hi'
        · simp [e] at hi'
          have : i ≠ index := by rintro rfl; exact e (h.w.inj _ _ _ hget hi')
          rw [(hf a).2.2 i this]
          exact hw.filled _ _ hi'
      · rw [(hf a).1]; exact hw.good
    · rw [resetIf_arrs]; simp
    · rw [resetIf_bk]
    · intro x a hx
      rw [readIn_eq, readIn_eq, resetIf_bk, resetIf_arrs]
      simp only [AMap.get?_erase, Ne.symm hx, if_false, List.getElem?_map]
      cases hi : s.bk.byId.get? x with
      | none => rfl
      | some i =>
        cases ha : s.arrs[a]? with
        | none => rfl
        | some arr =>
          simp only [Option.map_some]
          have : i ≠ index := by rintro rfl; exact hx (h.w.inj _ _ _ hi hget)
          unfold Arr.read
          rw [(hf arr).2.2 i this, (hf arr).1]

end Verif.Variants
