import Verif.Variants.Effects

/-!
C05-C11: variants.

The observations are: the list of variants (`bk.byId`), the index selected by a thread (`State.sel`), and the value of
an attribute in a variant (`readIn`: select the variant, call the getter).
-/

namespace Verif.Variants

open Verif

variable {V : Type}

/-! ### Preservation of the invariant of clean histories -/

theorem write_cases (s : State V) (t : Thread) (a : Nat) (v : V) :
    (write s t a v).2 = s ∨ ∃ arr i w, s.arrs[a]? = some arr ∧ s.sel t = some i ∧ arr.slots[i]? = some (some w) ∧
      (write s t a v).1 = .ok () ∧
      (write s t a v).2 = { s with arrs := s.arrs.set a { arr with slots := arr.slots.set i (some v) } } := by
  unfold write
  cases h1 : s.arrs[a]? with
  | none => exact Or.inl rfl
  | some arr =>
    cases h2 : s.sel t with
    | none => exact Or.inl rfl
    | some i =>
      simp only []
      unfold Arr.write
      cases h3 : arr.slots[i]? with
      | none =>
        simp only []
        by_cases h4 : arr.kind.writeChecked = true <;> simp [h4]
      | some o =>
        cases o with
        | none => exact Or.inl rfl
        | some w => exact Or.inr ⟨arr, i, w, rfl, rfl, h3, rfl, rfl⟩

theorem step_inv {s : State V} (h : Inv s) {op : Op V} (hc : Clean s op) : Inv (step s op).2 := by
  cases op with
  | clone t src ts m =>
    show Inv (clone s src ts m).2
    have hc' : CleanClone s.bk src ts m := hc
    by_cases h1 : s.bk.byId.get? src = none
    · rw [clone_noop (Or.inl h1)]; exact h
    by_cases h2 : ts = []
    · rw [clone_noop (Or.inr (Or.inl h2))]; exact h
    rcases hc' with hc | hc | ⟨hc1, hc2⟩ | hc
    · exact absurd hc h1
    · exact absurd hc h2
    · exact (clone_ok h h1 h2 hc1 hc2).2.1
    · rw [clone_noop (Or.inr (Or.inr hc))]; exact h
  | remove t id =>
    show Inv (remove s t id).2
    by_cases h1 : id = initialId
    · unfold remove; rw [if_pos h1]; exact h
    · cases h2 : s.bk.byId.get? id with
      | none => unfold remove; rw [if_neg h1]; simp only [h2]; exact h
      | some i => exact (remove_ok h t h1 h2).2.1
  | setWorking t id =>
    show Inv (setWorking s t id).2
    unfold setWorking
    cases h1 : s.bk.byId.get? id with
    | none => exact h
    | some i =>
      refine ⟨?_, ?_, ?_⟩
      · simp only [setSel_bk]; exact h.w
      · simp only [setSel_bk]; exact h.exact
      · simp only [setSel_bk, setSel_arrs]; exact h.arrs
  | allowMT t b =>
    show Inv (allowMT s t b)
    obtain ⟨e1, e2⟩ := allowMT_bk s t b
    exact ⟨by rw [e1]; exact h.w, by rw [e1]; exact h.exact, by rw [e1, e2]; exact h.arrs⟩
  | write t a v =>
    show Inv (write s t a v).2
    rcases write_cases s t a v with e | ⟨arr, i, w, h1, h2, h3, _, e⟩
    · rw [e]; exact h
    · rw [e]
      refine ⟨h.w, h.exact, ?_⟩
      intro b hb
      rcases List.mem_or_eq_of_mem_set hb with hb | hb
      · exact h.arrs b hb
      · subst hb
        have hw := h.arrs arr (List.mem_of_getElem? h1)
        refine ⟨by simp [hw.len], ?_, hw.good⟩
        intro x j hj
        obtain ⟨u, hu⟩ := hw.filled x j hj
        by_cases e : i = j
        · subst e
          have hlt : i < arr.slots.length := (List.getElem?_eq_some_iff.mp h3).1
          exact ⟨v, by simp [hlt]⟩
        · exact ⟨u, by simp only []; rw [List.getElem?_set]; simp [e, hu]⟩
  | newAttr k v =>
    refine ⟨h.w, h.exact, ?_⟩
    intro b hb
    have hb' : b ∈ (newAttr s k v).arrs := hb
    unfold newAttr at hb'
    simp only [List.mem_append, List.mem_singleton] at hb'
    rcases hb' with hb' | hb'
    · exact h.arrs b hb'
    · subst hb'
      have hk : k.badReduce = none := hc
      refine ⟨?_, ?_, hk⟩
      · show List.length _ = s.bk.size
        simp only []
        split <;> simp
      · intro x i hi
        have hi' : s.bk.byId.get? x = some i := hi
        have hlt := h.w.lt _ _ hi'
        refine ⟨v, ?_⟩
        simp only []
        split
        · have hm : i ∈ s.bk.byId.map Prod.snd := List.mem_map.mpr ⟨(x, i), AMap.mem_of_get? hi', rfl⟩
          simp [List.getElem?_range hlt, hm]
        · simp [List.getElem?_replicate, hlt]
  | foreign t i => exact ⟨h.w, h.exact, h.arrs⟩

theorem run_inv {s : State V} (h : Inv s) (ops : List (Op V)) (hc : CleanHistory s ops) : Inv (run s ops) := by
  induction ops generalizing s with
  | nil => exact h
  | cons op ops ih => exact ih (step_inv h hc.1) hc.2

/-- States reached by any history of calls on a new network. -/
def Reached (s : State V) : Prop := ∃ tls ops, s = run (init V tls) ops

/-- States reached by a history of clean calls. -/
def ReachedClean (s : State V) : Prop := ∃ tls ops, CleanHistory (init V tls) ops ∧ s = run (init V tls) ops

theorem Reached.weak {s : State V} (h : Reached s) : BkW s.bk := by
  obtain ⟨tls, ops, rfl⟩ := h; exact run_weak bkW_init ops

theorem ReachedClean.inv {s : State V} (h : ReachedClean s) : Inv s := by
  obtain ⟨tls, ops, hc, rfl⟩ := h; exact run_inv (inv_init tls) ops hc

theorem ReachedClean.reached {s : State V} (h : ReachedClean s) : Reached s := by
  obtain ⟨tls, ops, _, rfl⟩ := h; exact ⟨tls, ops, rfl⟩

/-- Histories of calls each of which is clean whatever the state: single-target clones, no `SlackTerminal`.  This is a
    condition on the calls alone. -/
def SafeOp : Op V → Prop
  | .clone _ _ ts _ => ts.length ≤ 1
  | .newAttr k _ => k.badReduce = none
  | _ => True

theorem clean_of_safe {s : State V} {op : Op V} (h : SafeOp op) : Clean s op := by
  cases op with
  | clone t src ts m =>
    have h' : ts.length ≤ 1 := h
    match ts, h' with
    | [], _ => exact Or.inr (Or.inl rfl)
    | [x], _ => exact cleanClone_single _ _ _ _
  | newAttr k v => exact h
  | _ => trivial

theorem cleanHistory_of_safe {s : State V} {ops : List (Op V)} (h : ∀ op ∈ ops, SafeOp op) :
    CleanHistory s ops := by
  induction ops generalizing s with
  | nil => trivial
  | cons op ops ih =>
    exact ⟨clean_of_safe (h op (by simp)), ih (fun o ho => h o (List.mem_cons_of_mem _ ho))⟩

/-! ### C05 -/

/-- C05, first half, for *all* histories (also those with calls that fail half-way): the variant ids are distinct, two
    variants never share an index, every index is inside the declared array size, the initial variant keeps index 0
    and an index of the free list is not used by any variant. -/
theorem variant_indices_distinct {s : State V} (h : Reached s) :
    (s.bk.byId.map Prod.fst).Nodup ∧ (s.bk.byId.map Prod.snd).Nodup ∧
    (initialId, 0) ∈ s.bk.byId ∧ (∀ p ∈ s.bk.byId, p.2 < s.bk.size) ∧
    s.bk.unused.Nodup ∧ ∀ i ∈ s.bk.unused, i < s.bk.size ∧ i ∉ s.bk.byId.map Prod.snd := by
  have w := h.weak
  refine ⟨w.nodup, ?_, AMap.mem_of_get? w.init, ?_, ?_, ?_⟩
  · have aux : ∀ (l : AMap String Nat), l.NodupKeys →
        (∀ x y i, (x, i) ∈ l → (y, i) ∈ l → x = y) → (l.map Prod.snd).Nodup := by
      intro l
      induction l with
      | nil => intros; exact List.nodup_nil
      | cons p l ih =>
        intro hn hi
        unfold AMap.NodupKeys at hn
        rw [List.map_cons, List.nodup_cons] at hn ⊢
        refine ⟨?_, ih hn.2 (fun x y i h1 h2 => hi x y i (List.mem_cons_of_mem _ h1) (List.mem_cons_of_mem _ h2))⟩
        intro hm
        obtain ⟨q, hq, e⟩ := List.mem_map.mp hm
        apply hn.1
        have : p.1 = q.1 := by
          refine hi p.1 q.1 p.2 (by simp) ?_
          rw [← e]; exact List.mem_cons_of_mem _ hq
        exact List.mem_map.mpr ⟨q, hq, this.symm⟩
    exact aux _ w.nodup (fun x y i h1 h2 =>
      w.inj x y i (AMap.get?_of_mem w.nodup h1) (AMap.get?_of_mem w.nodup h2))
  · intro p hp; exact w.lt p.1 p.2 (AMap.get?_of_mem w.nodup hp)
  · exact w.sorted.imp (fun hab => Nat.ne_of_lt hab)
  · intro i hi
    refine ⟨(w.free i hi).1, ?_⟩
    intro hm
    obtain ⟨q, hq, e⟩ := List.mem_map.mp hm
    subst e
    exact (w.free _ hi).2 q.1 (AMap.get?_of_mem w.nodup hq)

/-- C05, second half: every attribute of every object has exactly one slot per index, the slots of the listed variants
    hold values, and every index is either used by a variant or in the free list.  Missing for the full claim: histories
    with a clone that fails half-way, and `SlackTerminal` (see `failed_clone_corrupts`, `slack_reduce_broken`). -/
theorem arrays_match_variants_partial {s : State V} (h : ReachedClean s) :
    (∀ a ∈ s.arrs, a.slots.length = s.bk.size ∧
      ∀ p ∈ s.bk.byId, ∃ v, a.slots[p.2]? = some (some v)) ∧
    (∀ i, i < s.bk.size ↔ (i ∈ s.bk.unused ∨ i ∈ s.bk.byId.map Prod.snd)) := by
  have hi := h.inv
  refine ⟨fun a ha => ⟨(hi.arrs a ha).len, fun p hp =>
    (hi.arrs a ha).filled p.1 p.2 (AMap.get?_of_mem hi.w.nodup hp)⟩, ?_⟩
  intro i
  constructor
  · intro hlt
    rcases hi.exact i hlt with h1 | ⟨x, hx⟩
    · exact Or.inl h1
    · exact Or.inr (List.mem_map.mpr ⟨(x, i), AMap.mem_of_get? hx, rfl⟩)
  · rintro (h1 | h1)
    · exact (hi.w.free i h1).1
    · obtain ⟨q, hq, e⟩ := List.mem_map.mp h1
      subst e
      exact hi.w.lt q.1 q.2 (AMap.get?_of_mem hi.w.nodup hq)

/-- Hence every attribute can be read in every listed variant. -/
theorem every_variant_readable_partial {s : State V} (h : ReachedClean s) {id : String}
    (hid : id ∈ s.bk.byId.map Prod.fst) {a : Nat} (ha : a < s.arrs.length) : ∃ v, readIn s id a = .ok v := by
  obtain ⟨p, hp, rfl⟩ := List.mem_map.mp hid
  exact inv_readIn h.inv (by rw [AMap.get?_of_mem h.inv.w.nodup (v := p.2) hp]; rfl) ha

/-! Sample history used by the examples: two attributes, three variants, one removed then its slot recycled. -/

def noTls : Thread → Option Nat := fun _ => none

def sampleOps : List (Op Nat) :=
  [.newAttr (plain Nat) 10, .newAttr (variantArray Nat) 20,
   .clone 0 initialId ["a"] false, .clone 0 initialId ["b"] false, .clone 0 "b" ["c"] false,
   .remove 0 "a", .setWorking 0 "b", .write 0 0 11, .write 0 1 21, .clone 0 "b" ["d"] false]

def sample : State Nat := run (init Nat noTls) sampleOps

theorem sample_clean : ReachedClean sample :=
  ⟨noTls, sampleOps, cleanHistory_of_safe (by
    intro op hop
    simp [sampleOps] at hop
    rcases hop with rfl | rfl | rfl | rfl | rfl | rfl | rfl | rfl | rfl | rfl <;> simp [SafeOp, plain, variantArray]), rfl⟩

example : sample.bk.byId = [(initialId, 0), ("b", 2), ("c", 3), ("d", 1)] ∧ sample.bk.size = 4 ∧
    sample.arrs.length = 2 ∧ readIn sample "d" 0 = .ok 11 ∧ readIn sample "c" 0 = .ok 10 := by decide

example : ∃ v, readIn sample "d" 1 = .ok v := every_variant_readable_partial sample_clean (by decide) (by decide)

/-- C05 fails without the cleanliness condition: a clone refused half-way (second target exists) leaves a listed
    variant without data: reading it throws although the variant is listed. -/
theorem failed_clone_corrupts :
    let s := run (init Nat noTls) [.newAttr (plain Nat) 10, .clone 0 initialId ["x", initialId] false]
    "x" ∈ s.bk.byId.map Prod.fst ∧ readIn s "x" 0 = .thrown ∧
    ∃ a ∈ s.arrs, a.slots.length ≠ s.bk.size := by decide

/-- ... and removing the half-created variant then destroys the data of the initial variant. -/
theorem failed_clone_then_remove_destroys :
    let s := run (init Nat noTls) [.newAttr (plain Nat) 10, .clone 0 initialId ["x", initialId] false, .remove 0 "x"]
    s.bk.byId = [(initialId, 0)] ∧ readIn s initialId 0 = .thrown := by decide

/-- C05 fails for `SlackTerminal`: removing the last of three variants leaves one slot for two variants, and the getter
    then reads out of bounds. -/
theorem slack_reduce_broken :
    let s := run (init Nat noTls) [.newAttr (slackTerminal Nat 0) 10, .clone 0 initialId ["a"] false,
      .clone 0 initialId ["b"] false, .remove 0 "b"]
    s.bk.size = 2 ∧ readIn s "a" 0 = .ub := by decide

/-! ### C06 -/

/-- The working variant is the variant with the selected index. -/
theorem getWorkingId_of {s : State V} (w : BkW s.bk) {t : Thread} {id : String} {i : Nat}
    (hid : s.bk.byId.get? id = some i) (hsel : s.sel t = some i) : getWorkingId s t = .ok id := by
  unfold getWorkingId
  rw [hsel]
  simp only []
  cases hf : s.bk.byId.find? (fun p => p.2 == i) with
  | none =>
    rw [List.find?_eq_none] at hf
    exact absurd (by simp) (hf _ (AMap.mem_of_get? hid))
  | some p =>
    have h1 := List.find?_some hf
    have h2 := List.mem_of_find?_eq_some hf
    have h3 : s.bk.byId.get? p.1 = some i := by
      have := AMap.get?_of_mem w.nodup (k := p.1) (v := p.2) h2
      rw [this]; simpa using h1
    simp only []
    rw [w.inj _ _ _ h3 hid]

theorem getWorkingId_ne {s : State V} (w : BkW s.bk) {t : Thread} {id : String} {i : Nat}
    (hid : s.bk.byId.get? id = some i) (hsel : s.sel t ≠ some i) : getWorkingId s t ≠ .ok id := by
  unfold getWorkingId
  cases hs : s.sel t with
  | none => simp
  | some j =>
    simp only []
    cases hf : s.bk.byId.find? (fun p => p.2 == j) with
    | none => simp
    | some p =>
      have h1 := List.find?_some hf
      have h2 := List.mem_of_find?_eq_some hf
      simp only [ne_eq, Out.ok.injEq]
      rintro rfl
      have := AMap.get?_of_mem w.nodup (k := p.1) (v := p.2) h2
      rw [hid] at this
      apply hsel
      rw [hs]
      have h4 : p.2 = j := by simpa using h1
      rw [← h4]; exact this.symm

/-- C06, for all histories: writing an attribute changes nothing in any variant other than the selected one, nothing in
    any other attribute, and nothing in the list of variants or in the selections. -/
theorem write_isolated {s : State V} (h : Reached s) (t : Thread) (a : Nat) (v : V) :
    (write s t a v).2.bk = s.bk ∧ (∀ t', (write s t a v).2.sel t' = s.sel t') ∧
    (∀ id b, b ≠ a → readIn (write s t a v).2 id b = readIn s id b) ∧
    (∀ id b, getWorkingId s t ≠ .ok id → readIn (write s t a v).2 id b = readIn s id b) := by
  have w := h.weak
  have key : ∀ id b, (b ≠ a ∨ ∀ i, s.sel t = some i → s.bk.byId.get? id ≠ some i) →
      readIn (write s t a v).2 id b = readIn s id b := by
    intro id b hh
    rcases write_cases s t a v with e | ⟨arr, i, u, h1, h2, h3, _, e⟩
    · rw [e]
    · rw [e, readIn_eq, readIn_eq]
      simp only []
      cases hg : s.bk.byId.get? id with
      | none => rfl
      | some j =>
        simp only []
        rw [List.getElem?_set]
        by_cases hab : a = b
        · subst hab
          rcases hh with hh | hh
          · exact absurd rfl hh
          · have hij : i ≠ j := by rintro rfl; exact hh i h2 hg
            have hlt := (List.getElem?_eq_some_iff.mp h1).1
            simp only [if_true, hlt, h1]
            unfold Arr.read
            simp only []
            rw [List.getElem?_set]
            simp [hij]
        · simp [hab]
  refine ⟨write_bk s t a v, ?_, fun id b hb => key id b (Or.inl hb), ?_⟩
  · intro t'
    rcases write_cases s t a v with e | ⟨arr, i, u, _, _, _, _, e⟩
    · rw [e]
    · rw [e]; rfl
  · intro id b hne
    apply key id b
    right
    intro i hi hid
    exact hne (getWorkingId_of w hid hi)

/-- Writing then reading, in the selected variant. -/
theorem write_then_read {s : State V} (h : ReachedClean s) {t : Thread} {a : Nat} (ha : a < s.arrs.length)
    {id : String} {i : Nat} (hid : s.bk.byId.get? id = some i) (hsel : s.sel t = some i) (v : V) :
    (write s t a v).1 = .ok () ∧ read (write s t a v).2 t a = .ok v ∧ readIn (write s t a v).2 id a = .ok v := by
  have hi := h.inv
  have harr : s.arrs[a]? = some s.arrs[a] := List.getElem?_eq_getElem ha
  obtain ⟨u, hu⟩ := (hi.arrs _ (List.getElem_mem ha)).filled _ _ hid
  have hlt : i < (s.arrs[a]).slots.length := (List.getElem?_eq_some_iff.mp hu).1
  have e : write s t a v =
      (.ok (), { s with arrs := s.arrs.set a { s.arrs[a] with slots := (s.arrs[a]).slots.set i (some v) } }) := by
    unfold write
    simp only [harr, hsel, Arr.write, hu]
  refine ⟨by rw [e], ?_, ?_⟩
  · rw [e]
    have hs : State.sel { s with arrs := s.arrs.set a { s.arrs[a] with slots := (s.arrs[a]).slots.set i (some v) } } t
        = some i := hsel
    unfold read
    rw [hs]
    simp [ha, Arr.read, hlt]
  · rw [e, readIn_eq]
    simp [hid, ha, Arr.read, hlt]

example : (write sample 0 0 99).1 = .ok () ∧ readIn (write sample 0 0 99).2 "b" 0 = .ok 99 ∧
    readIn (write sample 0 0 99).2 "d" 0 = .ok 11 := by decide

example : readIn (write sample 0 0 99).2 "d" 0 = readIn sample "d" 0 :=
  (write_isolated sample_clean.reached 0 0 99).2.2.2 "d" 0 (by decide)

/-! ### C07 -/

/-- C07: after a clone, every target holds a snapshot of the source, every other variant is unchanged, the targets and
    the old variants are exactly the variants, the selections do not move.  Conditions: the state was reached without
    half-failed calls, the targets are distinct, none exists unless overwriting is allowed; otherwise see
    `clone_may_be_half_done`. -/
theorem clone_is_snapshot_partial {s : State V} (h : ReachedClean s) {src : String} {ts : List String} {m : Bool}
    (hsrc : src ∈ s.bk.byId.map Prod.fst) (hts : ts ≠ []) (hnd : ts.Nodup)
    (hm : m = true ∨ ∀ t ∈ ts, t ∉ s.bk.byId.map Prod.fst) :
    (clone s src ts m).1 = .ok () ∧
    (∀ id, id ∈ (clone s src ts m).2.bk.byId.map Prod.fst ↔ id ∈ ts ∨ id ∈ s.bk.byId.map Prod.fst) ∧
    (∀ id ∈ ts, ∀ a, readIn (clone s src ts m).2 id a = readIn s src a) ∧
    (∀ id, id ∉ ts → ∀ a, readIn (clone s src ts m).2 id a = readIn s id a) ∧
    (∀ t, (clone s src ts m).2.sel t = s.sel t) := by
  have hi := h.inv
  have conv : ∀ (b : Bk), BkW b → ∀ id, id ∈ b.byId.map Prod.fst ↔ (b.byId.get? id).isSome := by
    intro b hb id
    constructor
    · intro hm
      obtain ⟨p, hp, rfl⟩ := List.mem_map.mp hm
      rw [AMap.get?_of_mem hb.nodup (v := p.2) hp]; rfl
    · intro hs
      obtain ⟨i, hi⟩ := Option.isSome_iff_exists.mp hs
      exact List.mem_map.mpr ⟨(id, i), AMap.mem_of_get? hi, rfl⟩
  have h1 : s.bk.byId.get? src ≠ none := by
    have := (conv _ hi.w src).mp hsrc
    intro e; rw [e] at this; cases this
  have h2 : m = true ∨ ∀ t ∈ ts, s.bk.byId.get? t = none := by
    rcases hm with hm | hm
    · exact Or.inl hm
    · right
      intro t ht
      cases hg : s.bk.byId.get? t with
      | none => rfl
      | some i => exact absurd ((conv _ hi.w t).mpr (by rw [hg]; rfl)) (hm t ht)
  obtain ⟨k1, k2, k3, k4, _, k6, k7, k8⟩ := clone_ok hi h1 hts hnd h2
  refine ⟨k1, ?_, ?_, ?_, ?_⟩
  · intro id
    rw [conv _ k2.w, conv _ hi.w]; exact k7 id
  · intro id hid a; rw [k8]; simp [hid]
  · intro id hid a; rw [k8]; simp [hid]
  · intro t; unfold State.sel; rw [k3, k4]

example : readIn (clone sample "b" ["e", "c"] true).2 "e" 1 = .ok 21 ∧
    readIn (clone sample "b" ["e", "c"] true).2 "c" 1 = .ok 21 ∧ readIn sample "c" 1 = .ok 20 ∧
    readIn (clone sample "b" ["e", "c"] true).2 initialId 1 = .ok 20 := by decide

example : (clone sample "b" ["e", "c"] true).1 = .ok () :=
  (clone_is_snapshot_partial sample_clean (src := "b") (ts := ["e", "c"]) (m := true) (by decide) (by decide)
    (by decide) (Or.inl rfl)).1

/-- The copies are independent: after the clone, a write while the source is selected leaves the targets alone and
    conversely. -/
theorem clone_is_independent {s : State V} (h : ReachedClean s) {src : String} {ts : List String} {m : Bool}
    (hsrc : src ∈ s.bk.byId.map Prod.fst) (hts : ts ≠ []) (hnd : ts.Nodup)
    (hm : m = true ∨ ∀ t ∈ ts, t ∉ s.bk.byId.map Prod.fst) (t : Thread) (a : Nat) (v : V)
    {tgt : String} (htgt : tgt ∈ ts) (hne : tgt ≠ src) :
    let c := (clone s src ts m).2
    (∀ s1, setWorking c t src = (.ok (), s1) → ∀ b, readIn (write s1 t a v).2 tgt b = readIn s src b) ∧
    (∀ s1, setWorking c t tgt = (.ok (), s1) → src ∉ ts →
      ∀ b, readIn (write s1 t a v).2 src b = readIn s src b) := by
  intro c
  obtain ⟨tls, ops, hcl, rfl⟩ := h
  have hsnap := clone_is_snapshot_partial ⟨tls, ops, hcl, rfl⟩ hsrc hts hnd hm
  have hr : ∀ cur s1, setWorking c t cur = (.ok (), s1) → Reached s1 ∧
      (∃ i, s1.bk.byId.get? cur = some i ∧ s1.sel t = some i) ∧ (∀ id b, readIn s1 id b = readIn c id b) := by
    intro cur s1 h1
    have e1 : s1 = (setWorking c t cur).2 := by rw [h1]
    refine ⟨⟨tls, ops ++ [.clone 0 src ts m, .setWorking t cur], ?_⟩, ?_, ?_⟩
    · rw [e1]; simp [run, List.foldl_append, step, c]
    · unfold setWorking at h1
      cases hg : c.bk.byId.get? cur with
      | none => rw [hg] at h1; cases h1
      | some i =>
        rw [hg] at h1
        have e2 : c.setSel t (some i) = s1 := congrArg Prod.snd h1
        exact ⟨i, by rw [← e2, setSel_bk]; exact hg, by rw [← e2, sel_setSel]⟩
    · intro id b
      rw [readIn_eq, readIn_eq]
      have e3 : s1.bk = c.bk ∧ s1.arrs = c.arrs := by
        rw [e1]; unfold setWorking
        cases c.bk.byId.get? cur with
        | none => exact ⟨rfl, rfl⟩
        | some i => exact ⟨setSel_bk _ _ _, setSel_arrs _ _ _⟩
      rw [e3.1, e3.2]
  constructor
  · intro s1 h1 b
    obtain ⟨r1, r2, r3⟩ := hr _ _ h1
    obtain ⟨i, r4, r5⟩ := r2
    rw [(write_isolated r1 t a v).2.2.2 tgt b (by
      rw [getWorkingId_of r1.weak r4 r5]; intro e; exact hne (Out.ok.inj e).symm), r3]
    exact hsnap.2.2.1 tgt htgt b
  · intro s1 h1 hnot b
    obtain ⟨r1, r2, r3⟩ := hr _ _ h1
    obtain ⟨i, r4, r5⟩ := r2
    rw [(write_isolated r1 t a v).2.2.2 src b (by
      rw [getWorkingId_of r1.weak r4 r5]; intro e; exact hne (Out.ok.inj e)), r3]
    exact hsnap.2.2.2.1 src hnot b

example : readIn (write (setWorking (clone sample "b" ["e"] false).2 0 "b").2 0 1 77).2 "e" 1 = .ok 21 ∧
    readIn (write (setWorking (clone sample "b" ["e"] false).2 0 "b").2 0 1 77).2 "b" 1 = .ok 77 := by decide

/-- C07 fails for repeated targets: `{"x", "x"}` with overwriting is accepted by the loop, then writes past the end of
    every attribute array. -/
theorem clone_repeated_target_ub :
    (clone (run (init Nat noTls) [.newAttr (plain Nat) 10]) initialId ["x", "x"] true).1 = .ub := by decide

/-! ### C08 -/

/-- C08: removing a variant removes that variant only; the data of all the others is unchanged, a thread that had it
    selected ends with no selection (the calling thread; every thread when the index is shared), the initial variant
    and unknown variants are refused without any change. -/
theorem remove_keeps_others {s : State V} (h : ReachedClean s) (t : Thread) (id : String) :
    (id = initialId ∨ id ∉ s.bk.byId.map Prod.fst → remove s t id = (.thrown, s)) ∧
    (∀ index, id ≠ initialId → s.bk.byId.get? id = some index →
      (remove s t id).1 = .ok () ∧
      (∀ x, x ∈ (remove s t id).2.bk.byId.map Prod.fst ↔ x ≠ id ∧ x ∈ s.bk.byId.map Prod.fst) ∧
      (∀ x, x ≠ id → ∀ a, readIn (remove s t id).2 x a = readIn s x a) ∧
      (∀ a, readIn (remove s t id).2 id a = .thrown) ∧
      (s.sel t = some index → (remove s t id).2.sel t = none) ∧
      (s.sel t ≠ some index → (remove s t id).2.sel t = s.sel t) ∧
      (s.mode ≠ .multi → ∀ t', s.sel t' = some index → (remove s t id).2.sel t' = none)) := by
  have hi := h.inv
  constructor
  · intro hh
    unfold remove
    by_cases h1 : id = initialId
    · rw [if_pos h1]
    · rw [if_neg h1]
      cases hg : s.bk.byId.get? id with
      | none => rfl
      | some i =>
        rcases hh with hh | hh
        · exact absurd hh h1
        · exact absurd (List.mem_map.mpr ⟨(id, i), AMap.mem_of_get? hg, rfl⟩) hh
  · intro index h1 h2
    obtain ⟨k1, k2, k3, k4, k5, k6⟩ := remove_ok hi t h1 h2
    refine ⟨k1, ?_, fun x hx a => k5 x a hx, ?_, ?_, ?_, ?_⟩
    · intro x
      rw [k4]
      constructor
      · intro hx
        obtain ⟨p, hp, rfl⟩ := List.mem_map.mp hx
        have : (s.bk.byId.erase id).get? p.1 = some p.2 :=
          AMap.get?_of_mem (by rw [← k4]; exact k2.w.nodup) hp
        rw [AMap.get?_erase] at this
        by_cases e : id = p.1
        · simp [e] at this
        · simp [e] at this
          exact ⟨Ne.symm e, List.mem_map.mpr ⟨(p.1, p.2), AMap.mem_of_get? this, rfl⟩⟩
      · rintro ⟨hx1, hx2⟩
        obtain ⟨p, hp, rfl⟩ := List.mem_map.mp hx2
        have : s.bk.byId.get? p.1 = some p.2 := AMap.get?_of_mem hi.w.nodup hp
        have h3 : (s.bk.byId.erase id).get? p.1 = some p.2 := by
          rw [AMap.get?_erase]; simp [Ne.symm hx1, this]
        exact List.mem_map.mpr ⟨(p.1, p.2), AMap.mem_of_get? h3, rfl⟩
    · intro a
      rw [readIn_eq, k4, AMap.get?_erase]; simp
    · intro hs; rw [k6, if_pos ⟨Or.inl rfl, hs⟩]
    · intro hs; rw [k6, if_neg (fun hh => hs hh.2)]
    · intro hm t' hs; rw [k6, if_pos ⟨Or.inr hm, hs⟩]

example : (remove sample 0 "c").1 = .ok () ∧ (remove sample 0 "c").2.bk.size = 3 ∧
    readIn (remove sample 0 "c").2 "d" 0 = .ok 11 ∧
    (remove sample 0 "b").2.bk.unused = [2] ∧ (remove sample 0 "b").2.sel 0 = none := by decide

example : ∀ a, readIn (remove sample 0 "b").2 "d" a = readIn sample "d" a :=
  ((remove_keeps_others sample_clean 0 "b").2 2 (by decide) (by decide)).2.2.1 "d" (by decide)

/-- C08 fails in multi-thread mode for the *other* threads: thread 1 keeps the index of the variant removed by thread 0,
    and silently works on another variant once the index is recycled. -/
theorem other_thread_keeps_removed_variant :
    let s := run (init Nat noTls) [.newAttr (plain Nat) 10, .clone 0 initialId ["a"] false, .allowMT 0 true,
      .setWorking 1 "a", .remove 0 "a", .clone 0 initialId ["b"] false, .write 1 0 55]
    getWorkingId s 1 = .ok "b" ∧ readIn s "b" 0 = .ok 55 := by decide

/-! ### C09 -/

/-- C09 is false: a refused clone leaves a new variant in the list. -/
theorem clone_may_be_half_done :
    let s := run (init Nat noTls) [.newAttr (plain Nat) 10]
    (clone s initialId ["x", initialId] false).1 = .thrown ∧
    "x" ∉ s.bk.byId.map Prod.fst ∧ "x" ∈ (clone s initialId ["x", initialId] false).2.bk.byId.map Prod.fst := by
  decide

/-- C09, what holds: every other refused call leaves everything unchanged.  For clones: a missing source, an empty list
    of targets, or a first target that already exists - hence all the refusals of the single-target form. -/
theorem refused_call_unchanged_partial {s : State V} (h : ReachedClean s) {op : Op V} (hc : Clean s op)
    (hr : (step s op).1 ≠ .ok ()) : (step s op).2 = s := by
  have hi := h.inv
  cases op with
  | clone t src ts m =>
    show (clone s src ts m).2 = s
    have hr' : (clone s src ts m).1 ≠ .ok () := hr
    have hc' : CleanClone s.bk src ts m := hc
    by_cases h1 : s.bk.byId.get? src = none
    · rw [clone_noop (Or.inl h1)]
    by_cases h2 : ts = []
    · rw [clone_noop (Or.inr (Or.inl h2))]
    rcases hc' with hc | hc | ⟨hc1, hc2⟩ | hc
    · exact absurd hc h1
    · exact absurd hc h2
    · exact absurd (clone_ok hi h1 h2 hc1 hc2).1 hr'
    · rw [clone_noop (Or.inr (Or.inr hc))]
  | remove t id =>
    have hr' : (remove s t id).1 ≠ .ok () := hr
    show (remove s t id).2 = s
    by_cases h1 : id = initialId
    · rw [(remove_keeps_others h t id).1 (Or.inl h1)]
    · cases h2 : s.bk.byId.get? id with
      | none => unfold remove; rw [if_neg h1]; simp only [h2]
      | some i => exact absurd (remove_ok hi t h1 h2).1 hr'
  | setWorking t id =>
    have hr' : (setWorking s t id).1 ≠ .ok () := hr
    show (setWorking s t id).2 = s
    unfold setWorking at hr' ⊢
    cases h2 : s.bk.byId.get? id with
    | none => rfl
    | some i => rw [h2] at hr'; exact absurd rfl hr'
  | allowMT t b => exact absurd rfl hr
  | write t a v =>
    have hr' : (write s t a v).1 ≠ .ok () := hr
    show (write s t a v).2 = s
    rcases write_cases s t a v with e | ⟨_, _, _, _, _, _, e, _⟩
    · exact e
    · exact absurd e hr'
  | newAttr k v => exact absurd rfl hr
  | foreign t i => exact absurd rfl hr

example : (step sample (.clone 0 "b" ["c"] false)).2 = sample :=
  refused_call_unchanged_partial sample_clean (cleanClone_single _ _ _ _) (by decide)

/-- Exactly when a single-target clone is refused. -/
theorem clone_single_refused_iff {s : State V} (h : ReachedClean s) (src tgt : String) (m : Bool) :
    (clone s src [tgt] m).1 = .thrown ↔
      (s.bk.byId.get? src = none ∨ (m = false ∧ s.bk.byId.get? tgt ≠ none)) := by
  have hi := h.inv
  constructor
  · intro hr
    by_cases h1 : s.bk.byId.get? src = none
    · exact Or.inl h1
    · right
      by_cases h2 : m = true ∨ ∀ t ∈ [tgt], s.bk.byId.get? t = none
      · rw [(clone_ok hi h1 (by simp) (by simp) h2).1] at hr; cases hr
      · simp only [List.mem_singleton, forall_eq, not_or] at h2
        exact ⟨by simpa using h2.1, h2.2⟩
  · rintro (h1 | ⟨h1, h2⟩)
    · rw [clone_noop (Or.inl h1)]
    · rw [clone_noop (Or.inr (Or.inr ⟨h1, tgt, [], rfl, h2⟩))]

/-! ### C10 -/

/-- Thread that makes the call. -/
def Op.thread : Op V → Option Thread
  | .clone t _ _ _ => some t
  | .remove t _ => some t
  | .setWorking t _ => some t
  | .allowMT t _ => some t
  | .write t _ _ => some t
  | .newAttr _ _ => none
  | .foreign t _ => some t

/-- Calls that change the mode. -/
def Op.isMode : Op V → Bool
  | .allowMT _ _ => true
  | _ => false

theorem clone_mode (s : State V) (src : String) (ts : List String) (m : Bool) :
    (clone s src ts m).2.mode = s.mode ∧ (clone s src ts m).2.tls = s.tls := by
  unfold clone
  split
  · exact ⟨rfl, rfl⟩
  · cases s.bk.byId.get? src with
    | none => exact ⟨rfl, rfl⟩
    | some i =>
      simp only []
      cases h2 : cloneLoop m ts ⟨s.bk, 0, [], []⟩ with
      | mk o l => cases o <;> exact ⟨rfl, rfl⟩

theorem step_sel_other {s : State V} (hm : s.mode = .multi) {op : Op V} {t : Thread}
    (hop : op.thread ≠ some t) (hmode : op.isMode = false) :
    (step s op).2.mode = .multi ∧ (step s op).2.sel t = s.sel t := by
  have hset : ∀ (s' : State V), s'.mode = .multi → ∀ t' i, t ≠ t' →
      (s'.setSel t' i).mode = .multi ∧ (s'.setSel t' i).sel t = s'.sel t := by
    intro s' h' t' i hne
    exact ⟨by unfold State.setSel; simp [h'], sel_setSel_ne hne h' i⟩
  have hres : ∀ (s' : State V), s'.mode = .multi → ∀ t' i, t ≠ t' →
      (resetIf s' t' i).mode = .multi ∧ (resetIf s' t' i).sel t = s'.sel t := by
    intro s' h' t' i hne
    unfold resetIf
    split
    · exact hset s' h' t' none hne
    · exact ⟨h', rfl⟩
  cases op with
  | clone t' src ts m =>
    obtain ⟨e1, e2⟩ := clone_mode s src ts m
    show (clone s src ts m).2.mode = .multi ∧ (clone s src ts m).2.sel t = s.sel t
    exact ⟨by rw [e1]; exact hm, by unfold State.sel; rw [e1, e2]⟩
  | remove t' id =>
    have hne : t ≠ t' := fun e => hop (by rw [e]; rfl)
    show (remove s t' id).2.mode = .multi ∧ (remove s t' id).2.sel t = s.sel t
    unfold remove
    split
    · exact ⟨hm, rfl⟩
    · cases s.bk.byId.get? id with
      | none => exact ⟨hm, rfl⟩
      | some index =>
        simp only []
        split
        · cases mapArrs (fun a => a.reduce (1 + (trim index s.bk.unused).1)) s.arrs with
          | mk o l =>
            cases o with
            | ok _ =>
              have := hres { s with
                bk := ⟨s.bk.byId.erase id, (trim index s.bk.unused).2, s.bk.size - (1 + (trim index s.bk.unused).1)⟩,
                arrs := l } hm t' index hne
              exact this
            | thrown => exact ⟨hm, rfl⟩
            | ub => exact ⟨hm, rfl⟩
        · cases mapArrs (fun a => a.delete index) s.arrs with
          | mk o l =>
            cases o with
            | ok _ =>
              have := hres { s with
                bk := { s.bk with byId := s.bk.byId.erase id, unused := insertSorted index s.bk.unused },
                arrs := l } hm t' index hne
              exact this
            | thrown => exact ⟨hm, rfl⟩
            | ub => exact ⟨hm, rfl⟩
  | setWorking t' id =>
    have hne : t ≠ t' := fun e => hop (by rw [e]; rfl)
    show (setWorking s t' id).2.mode = .multi ∧ (setWorking s t' id).2.sel t = s.sel t
    unfold setWorking
    cases s.bk.byId.get? id with
    | none => exact ⟨hm, rfl⟩
    | some i => exact hset s hm t' (some i) hne
  | allowMT t' b => cases hmode
  | write t' a v =>
    show (write s t' a v).2.mode = .multi ∧ (write s t' a v).2.sel t = s.sel t
    rcases write_cases s t' a v with e | ⟨arr, i, u, _, _, _, _, e⟩
    · rw [e]; exact ⟨hm, rfl⟩
    · rw [e]; exact ⟨hm, rfl⟩
  | newAttr k v => exact ⟨hm, rfl⟩
  | foreign t' i =>
    have hne : t ≠ t' := fun e => hop (by rw [e]; rfl)
    refine ⟨hm, ?_⟩
    show (match s.mode with | .single j => j | .multi => if t = t' then i else s.tls t) = s.sel t
    unfold State.sel
    simp [hm, hne]

/-- An existing variant keeps its index through every call but its own removal. -/
theorem step_keeps_index {s : State V} {id : String} {i : Nat} (h : s.bk.byId.get? id = some i) {op : Op V}
    (hop : ∀ t, op ≠ .remove t id) : (step s op).2.bk.byId.get? id = some i := by
  cases op with
  | clone t src ts m =>
    have aux : ∀ (ts : List String) (l : LoopSt), l.bk.byId.get? id = some i →
        (cloneLoop m ts l).2.bk.byId.get? id = some i := by
      intro ts
      induction ts with
      | nil => intro l hl; exact hl
      | cons t ts ih =>
        intro l hl
        unfold cloneLoop
        cases h1 : l.bk.byId.get? t with
        | some j =>
          simp only []
          split
          · exact ih _ hl
          · exact hl
        | none =>
          have hne : t ≠ id := by rintro rfl; rw [hl] at h1; cases h1
          simp only []
          cases h2 : l.bk.unused with
          | nil =>
            simp only []
            apply ih
            simp only [AMap.get?_emplace, hl]
            simp [hne]
          | cons j rest =>
            simp only []
            apply ih
            simp only [AMap.get?_emplace, hl]
            simp [hne]
    show (clone s src ts m).2.bk.byId.get? id = some i
    unfold clone
    split
    · exact h
    · cases s.bk.byId.get? src with
      | none => exact h
      | some k =>
        simp only []
        have := aux ts ⟨s.bk, 0, [], []⟩ h
        cases h2 : cloneLoop m ts ⟨s.bk, 0, [], []⟩ with
        | mk o l => rw [h2] at this; cases o <;> exact this
  | remove t x =>
    have hne : x ≠ id := by rintro rfl; exact hop t rfl
    have he : (s.bk.byId.erase x).get? id = some i := by rw [AMap.get?_erase]; simp [hne, h]
    show (remove s t x).2.bk.byId.get? id = some i
    unfold remove
    split
    · exact h
    · cases s.bk.byId.get? x with
      | none => exact h
      | some index =>
        simp only []
        split
        · cases mapArrs (fun a => a.reduce (1 + (trim index s.bk.unused).1)) s.arrs with
          | mk o l =>
            cases o with
            | ok _ => simp only [resetIf_bk]; exact he
            | thrown => exact he
            | ub => exact he
        · cases mapArrs (fun a => a.delete index) s.arrs with
          | mk o l =>
            cases o with
            | ok _ => simp only [resetIf_bk]; exact he
            | thrown => exact he
            | ub => exact he
  | setWorking t x =>
    show (setWorking s t x).2.bk.byId.get? id = some i
    unfold setWorking
    cases s.bk.byId.get? x with
    | none => exact h
    | some j => simp only [setSel_bk]; exact h
  | allowMT t b => show (allowMT s t b).bk.byId.get? id = some i; rw [(allowMT_bk s t b).1]; exact h
  | write t a v => show (write s t a v).2.bk.byId.get? id = some i; rw [write_bk]; exact h
  | newAttr k v => exact h
  | foreign t j => exact h

/-- C10: in multi-thread mode, whatever the other threads do (including calls that fail), a thread keeps working on the
    variant it selected: the getters called by that thread read the variant `id` and no other, as long as nobody removes
    `id` or leaves the multi-thread mode.  The interleaving is that of whole calls; data races inside the getters (that
    take no lock) are outside the model.  Other networks used by the *same* thread are excluded: see
    `foreign_network_moves_selection`. -/
theorem thread_keeps_its_variant_partial {s : State V} (hm : s.mode = .multi) {t : Thread} {id : String} {i : Nat}
    (hid : s.bk.byId.get? id = some i) (hsel : s.sel t = some i) (ops : List (Op V))
    (hops : ∀ op ∈ ops, op.thread ≠ some t ∧ op.isMode = false ∧ ∀ t', op ≠ .remove t' id) :
    (run s ops).sel t = s.sel t ∧ ∀ a, read (run s ops) t a = readIn (run s ops) id a := by
  induction ops generalizing s with
  | nil =>
    refine ⟨rfl, fun a => ?_⟩
    show read s t a = readIn s id a
    rw [readIn_eq, hid]
    unfold read
    rw [hsel]
    cases s.arrs[a]? <;> rfl
  | cons op ops ih =>
    obtain ⟨h1, h2, h3⟩ := hops op (by simp)
    obtain ⟨k1, k2⟩ := step_sel_other hm h1 h2
    have := ih (s := (step s op).2) k1 (step_keeps_index hid h3) (by rw [k2]; exact hsel)
      (fun o ho => hops o (List.mem_cons_of_mem _ ho))
    exact ⟨by rw [← k2]; exact this.1, this.2⟩

/-- ... and what the thread reads changes only by writes of threads that selected the same variant. -/
theorem other_variant_writes_invisible {s : State V} (h : Reached s) {t t' : Thread} {id : String}
    {i : Nat} (hid : s.bk.byId.get? id = some i) (hsel : s.sel t = some i) (hne : s.sel t' ≠ some i)
    (a b : Nat) (v : V) : read (write s t' a v).2 t b = read s t b := by
  have w := write_isolated h t' a v
  have e1 : read (write s t' a v).2 t b = readIn (write s t' a v).2 id b := by
    rw [readIn_eq, w.1, hid]; unfold read; rw [w.2.1, hsel]
    cases (write s t' a v).2.arrs[b]? <;> rfl
  have e2 : read s t b = readIn s id b := by
    rw [readIn_eq, hid]; unfold read; rw [hsel]
    cases s.arrs[b]? <;> rfl
  rw [e1, e2]
  exact w.2.2.2 id b (getWorkingId_ne h.weak hid hne)

def mtSample : State Nat := run sample [.allowMT 0 true, .setWorking 1 "c", .setWorking 2 "d"]

example : mtSample.mode = .multi ∧ mtSample.sel 0 = some 2 ∧ mtSample.sel 1 = some 3 ∧ mtSample.sel 2 = some 1 := by
  decide

example : (run mtSample [.write 0 0 5, .setWorking 0 "c", .remove 2 "d", .clone 0 "c" ["z"] false]).sel 1 =
    mtSample.sel 1 :=
  (thread_keeps_its_variant_partial (s := mtSample) (by decide) (t := 1) (id := "c") (i := 3) (by decide) (by decide) _
    (by
      intro op hop
      simp at hop
      rcases hop with rfl | rfl | rfl | rfl <;> simp [Op.thread, Op.isMode])).1

example : read (write mtSample 0 0 5).2 1 0 = .ok 10 ∧ read (write mtSample 0 0 5).2 0 0 = .ok 5 := by decide

/-- C10 is false across networks: the thread local index belongs to no network, so selecting a variant of another
    network in the same thread silently moves the selection in this one. -/
theorem foreign_network_moves_selection :
    let s := run mtSample [.foreign 1 (some 0)]
    mtSample.sel 1 = some 3 ∧ getWorkingId mtSample 1 = .ok "c" ∧ getWorkingId s 1 = .ok initialId := by decide

/-- ... and a thread that never selected a variant in this network can inherit one from another network. -/
theorem enabling_multithread_inherits :
    let s := run (init Nat (fun t => if t = 1 then some 0 else none)) [.allowMT 0 true]
    getWorkingId s 1 = .ok initialId ∧
    getWorkingId (run (init Nat noTls) [.allowMT 0 true]) 1 = .thrown := by decide

/-! ### C11 -/

theorem forEachLoop_spec (t : Thread) (body : State V → Out Unit × State V) (is : List Nat) (s : State V) :
    (forEachLoop t body is s).2.2 <+: is.map some ∧
    ((forEachLoop t body is s).1 = .ok () → (forEachLoop t body is s).2.2 = is.map some) := by
  induction is generalizing s with
  | nil => simp [forEachLoop]
  | cons i is ih =>
    unfold forEachLoop
    simp only [sel_setSel]
    cases hb : body (s.setSel t (some i)) with
    | mk o s2 =>
      cases o with
      | ok _ =>
        simp only [List.map_cons, List.cons_prefix_cons, List.cons.injEq, true_and]
        exact ih s2
      | thrown => simp
      | ub => simp

/-- C11, for all histories: `forEachVariant` calls the body at most once per variant, with that variant selected, exactly
    once for each when no call throws; afterwards, also when the body throws, the selection of the caller is what it was.
    Without a selection it throws before any call. -/
theorem forEachVariant_visits_and_restores {s : State V} (h : Reached s) (t : Thread)
    (body : State V → Out Unit × State V) :
    (s.sel t = none → forEachVariant s t body = (.thrown, s, [])) ∧
    (∀ saved, s.sel t = some saved →
      let r := forEachVariant s t body
      r.2.2.Nodup ∧ (∀ c ∈ r.2.2, ∃ id i, c = some i ∧ s.bk.byId.get? id = some i) ∧
      (r.1 = .ok () → ∀ id i, s.bk.byId.get? id = some i → some i ∈ r.2.2) ∧
      (r.1 ≠ .ub → r.2.1.sel t = some saved)) := by
  constructor
  · intro hs; unfold forEachVariant; rw [hs]
  · intro saved hs
    have w := h.weak
    obtain ⟨p1, p2⟩ := forEachLoop_spec t body (s.bk.byId.map Prod.snd) s
    have hnd : ((s.bk.byId.map Prod.snd).map some).Nodup :=
      List.Pairwise.map _ (fun a b hab hc => hab (Option.some.inj hc)) (variant_indices_distinct h).2.1
    have hr : (forEachVariant s t body).1 = (forEachLoop t body (s.bk.byId.map Prod.snd) s).1 ∧
        (forEachVariant s t body).2.2 = (forEachLoop t body (s.bk.byId.map Prod.snd) s).2.2 := by
      unfold forEachVariant
      rw [hs]
      cases hL : forEachLoop t body (s.bk.byId.map Prod.snd) s with
      | mk o q => cases o <;> exact ⟨rfl, rfl⟩
    intro r
    have hr1 : r.1 = _ := hr.1
    have hr2 : r.2.2 = _ := hr.2
    refine ⟨?_, ?_, ?_, ?_⟩
    · rw [hr2]; exact p1.sublist.nodup hnd
    · intro c hc
      rw [hr2] at hc
      have := p1.subset hc
      obtain ⟨i, hi, rfl⟩ := List.mem_map.mp this
      obtain ⟨p, hp, rfl⟩ := List.mem_map.mp hi
      exact ⟨p.1, p.2, rfl, AMap.get?_of_mem w.nodup hp⟩
    · intro hok id i hid
      rw [hr1] at hok
      rw [hr2, p2 hok]
      exact List.mem_map.mpr ⟨i, List.mem_map.mpr ⟨(id, i), AMap.mem_of_get? hid, rfl⟩, rfl⟩
    · intro hub
      have h' : (forEachVariant s t body).1 ≠ .ub := hub
      show (forEachVariant s t body).2.1.sel t = some saved
      rw [hr.1] at h'
      unfold forEachVariant
      rw [hs]
      cases hL : forEachLoop t body (s.bk.byId.map Prod.snd) s with
      | mk o q =>
        rw [hL] at h'
        cases o with
        | ok _ => exact sel_setSel _ _ _
        | thrown => exact sel_setSel _ _ _
        | ub => exact absurd rfl h'

example : (forEachVariant sample 0 (fun s => write s 0 0 7)).2.2 = [some 0, some 2, some 3, some 1] ∧
    (forEachVariant sample 0 (fun s => write s 0 0 7)).2.1.sel 0 = some 2 ∧
    readIn (forEachVariant sample 0 (fun s => write s 0 0 7)).2.1 "d" 0 = .ok 7 := by decide

example : (forEachVariant sample 0 (fun s => (if s.sel 0 = some 2 then .thrown else .ok (), s))).1 = .thrown ∧
    (forEachVariant sample 0 (fun s => (if s.sel 0 = some 2 then .thrown else .ok (), s))).2.1.sel 0 = some 2 := by
  decide

end Verif.Variants
