import Verif.Slack.Spec
import Verif.Variants.Effects
import Verif.Finder.Props

/-! Lemmas on the slack terminals of a network (the properties are in Props.lean). -/

namespace Verif.Slack

open Verif Verif.Variants

/-! ### Maps over the values -/

/-- Changes every value. -/
def mapVal (g : Vec → Vec) (m : AMap String Vec) : AMap String Vec := m.map fun p => (p.1, g p.2)

theorem get?_mapVal (g : Vec → Vec) (m : AMap String Vec) (k : String) : (mapVal g m).get? k = (AMap.get? m k).map g := by
  induction m with
  | nil => rfl
  | cons p r ih =>
    show AMap.get? ((p.1, g p.2) :: mapVal g r) k = _
    rw [AMap.get?_cons, show AMap.get? (p :: r) k = AMap.get? ((p.1, p.2) :: r) k from rfl, AMap.get?_cons]
    split
    · rfl
    · exact ih

theorem nodup_mapVal {g : Vec → Vec} {m : AMap String Vec} (h : m.NodupKeys) : (mapVal g m).NodupKeys := by
  unfold AMap.NodupKeys mapVal at *
  rw [List.map_map]; exact h

theorem zip_back (g : Vec → Vec) (m : AMap String Vec) :
    (m.map Prod.fst).zip ((m.map fun p => (⟨kind, p.2⟩ : Arr Slot)).map (fun a => g a.slots)) = mapVal g m := by
  induction m with
  | nil => rfl
  | cons p r ih => simp only [List.map_cons, List.zip_cons_cons, ih, mapVal]

theorem zip_back' (h : Arr Slot → Arr Slot) (g : Vec → Vec) (m : AMap String Vec)
    (hh : ∀ p ∈ m, (h ⟨kind, p.2⟩).slots = g p.2) :
    (m.map Prod.fst).zip (((m.map fun p => (⟨kind, p.2⟩ : Arr Slot)).map h).map (fun a => a.slots)) = mapVal g m := by
  induction m with
  | nil => rfl
  | cons p r ih =>
    simp only [List.map_cons, List.zip_cons_cons, mapVal]
    rw [hh p (by simp)]
    congr 1
    exact ih (fun q hq => hh q (List.mem_cons_of_mem _ hq))

theorem mapVal_id (m : AMap String Vec) : mapVal id m = m := by
  induction m with
  | nil => rfl
  | cons p r ih => show (p.1, p.2) :: mapVal id r = _; rw [ih]

theorem back_view (s : Net) : s.back s.view = s := by
  unfold Net.back Net.view
  simp only [State.sel]
  rw [show (List.map (fun a => a.slots) (List.map (fun p => (⟨kind, p.2⟩ : Arr Slot)) s.exts)) =
    (s.exts.map fun p => (⟨kind, p.2⟩ : Arr Slot)).map (fun a => id a.slots) from rfl, zip_back, mapVal_id]

/-! ### Invariant -/

/-- A vector in order: one element per index, null where no variant uses the index, terminals of the voltage level elsewhere. -/
structure VecWF (b : Bk) (level : String) (a : Vec) : Prop where
  len : a.length = b.size
  filled : ∀ i, i < b.size → ∃ v, a[i]? = some (some v) ∧ fits level v = true
  free : ∀ i, i ∈ b.unused → a[i]? = some (some none)

/-- Networks in order. -/
structure Inv (s : Net) : Prop where
  w : BkW s.bk
  exact : Exact s.bk
  cur : ∀ i, s.cur = some i → ∃ x, s.bk.byId.get? x = some i
  nodup : s.exts.NodupKeys
  lev : ∀ l a, s.exts.get? l = some a → l ∈ s.levels
  vec : ∀ l a, s.exts.get? l = some a → VecWF s.bk l a

theorem inv_init (levels : List String) : Inv (init levels) := by
  refine ⟨bkW_init, ?_, ?_, AMap.nodupKeys_nil, ?_, ?_⟩
  · exact (Variants.inv_init (V := Nat) (fun _ => none)).exact
  · intro i hi
    cases hi
    exact ⟨initialId, by simp [init, AMap.get?_cons]⟩
  · intro l a h; simp [init] at h
  · intro l a h; simp [init] at h

/-- The slack terminal stored for a variant and a voltage level. -/
def val (s : Net) (v l : String) : Slot :=
  match s.bk.byId.get? v, s.exts.get? l with
  | some i, some a => (a[i]?).join.join
  | _, _ => none

theorem getTerminal_select {s : Net} (h : Inv s) {v l : String} (hv : (s.bk.byId.get? v).isSome)
    (hl : (s.exts.get? l).isSome) : getTerminal (select s v).2 l = .ok (val s v l) := by
  obtain ⟨i, hi⟩ := Option.isSome_iff_exists.1 hv
  obtain ⟨a, ha⟩ := Option.isSome_iff_exists.1 hl
  have e : (select s v).2 = { s with cur := some i } := by
    unfold select viaVariants setWorking
    have : s.view.bk.byId.get? v = some i := hi
    simp only [this]
    have hb := back_view s
    unfold Net.back at hb ⊢
    rw [setSel_bk, setSel_arrs, sel_setSel]
    have h1 := congrArg Net.exts hb
    simp only at h1
    rw [h1]
    rfl
  rw [e]
  unfold getTerminal val
  simp only [ha, hi]
  obtain ⟨x, hx, _⟩ := (h.vec l a ha).filled i (h.w.lt _ _ hi)
  simp only [Arr.read, hx, Option.join]
  rfl

/-- What `Shows` says in terms of what is stored. -/
structure ShowsV (s : Net) (a : Abs) : Prop where
  levels : s.levels = a.levels
  vars : ∀ v, v ∈ a.vars ↔ (s.bk.byId.get? v).isSome
  cur : ∀ v, a.cur = some v ↔ ∃ i, s.cur = some i ∧ s.bk.byId.get? v = some i
  ext : ∀ l, a.ext l = (s.exts.get? l).isSome
  slack : ∀ v l, a.slack v l = val s v l

theorem shows_iff {s : Net} (h : Inv s) (a : Abs) : Shows s a ↔ ShowsV s a := by
  constructor
  · intro g
    refine ⟨g.levels, g.vars, g.cur, g.ext, ?_⟩
    intro v l
    by_cases hv : v ∈ a.vars
    · cases hl : a.ext l with
      | true =>
        have := g.slack v l hv hl
        rw [getTerminal_select h ((g.vars v).1 hv) (by rw [← g.ext]; exact hl)] at this
        exact (Out.ok.inj this).symm
      | false =>
        rw [g.none v l (.inl hl)]
        have : s.exts.get? l = none := by
          rw [g.ext] at hl; exact Option.isSome_eq_false_iff.1 hl |> Option.isNone_iff_eq_none.1
        unfold val; rw [this]; cases s.bk.byId.get? v <;> rfl
    · rw [g.none v l (.inr hv)]
      have : s.bk.byId.get? v = none := by
        rw [g.vars] at hv
        cases hh : s.bk.byId.get? v with
        | none => rfl
        | some i => rw [hh] at hv; exact absurd rfl hv
      unfold val; rw [this]
  · intro g
    refine ⟨g.levels, g.vars, g.cur, g.ext, ?_, ?_⟩
    · intro v l hv hl
      rw [getTerminal_select h ((g.vars v).1 hv) (by rw [← g.ext]; exact hl), g.slack]
    · intro v l hh
      rw [g.slack]
      unfold val
      rcases hh with hh | hh
      · have : s.exts.get? l = none := by
          rw [g.ext] at hh; exact Option.isSome_eq_false_iff.1 hh |> Option.isNone_iff_eq_none.1
        rw [this]; cases s.bk.byId.get? v <;> rfl
      · rw [g.vars] at hh
        cases hh' : s.bk.byId.get? v with
        | none => rfl
        | some i => rw [hh'] at hh; exact absurd rfl hh

/-- `isEmpty` looks at the variants only. -/
theorem isEmpty_iff {s : Net} (h : Inv s) {l : String} {a : Vec} (ha : VecWF s.bk l a) :
    isEmpty a = true ↔ ∀ v i, s.bk.byId.get? v = some i → (a[i]?).join.join = none := by
  unfold isEmpty
  simp only [Bool.not_eq_true', List.any_eq_false]
  constructor
  · intro g v i hi
    obtain ⟨x, hx, _⟩ := ha.filled i (h.w.lt _ _ hi)
    have := g _ (List.mem_of_getElem? hx)
    rw [hx]
    cases x with
    | none => rfl
    | some y => exact absurd rfl this
  · intro g o ho
    obtain ⟨i, hi, rfl⟩ := List.getElem_of_mem ho
    rcases h.exact i (by rw [← ha.len]; exact hi) with hu | ⟨v, hv⟩
    · have := ha.free i hu
      rw [List.getElem?_eq_getElem hi] at this
      rw [Option.some.inj this]
      simp [Option.join]
    · have := g v i hv
      rw [List.getElem?_eq_getElem hi] at this
      simp only [Option.join] at this ⊢
      revert this
      cases a[i] with
      | none => intro _; simp
      | some x => cases x <;> simp

theorem used_eq {s : Net} (h : Inv s) {a : Abs} (g : ShowsV s a) {l : String} {x : Vec} (hx : s.exts.get? l = some x) :
    a.used l = !isEmpty x := by
  rw [Bool.eq_iff_iff]
  rw [Bool.not_eq_true', ← Bool.not_eq_true, isEmpty_iff h (h.vec l x hx)]
  unfold Abs.used
  rw [List.any_eq_true]
  constructor
  · rintro ⟨v, hv, e⟩ c
    obtain ⟨i, hi⟩ := Option.isSome_iff_exists.1 ((g.vars v).1 hv)
    have := c v i hi
    rw [g.slack] at e
    unfold val at e
    simp only [hi, hx, this] at e
    cases e
  · intro c
    refine Classical.byContradiction fun hc => c fun v i hi => ?_
    have hv : v ∈ a.vars := (g.vars v).2 (by rw [hi]; rfl)
    cases e : (x[i]?).join.join with
    | none => rfl
    | some t =>
      refine absurd ⟨v, hv, ?_⟩ hc
      rw [g.slack]; unfold val; simp only [hi, hx, e]; rfl

/-! ### Effect of the calls of the variant manager -/

theorem clone_noop' {s : Net} {src tgt : String} {m : Bool}
    (h : s.bk.byId.get? src = none ∨ (m = false ∧ s.bk.byId.get? tgt ≠ none)) : clone s src tgt m = (.thrown, s) := by
  show ((Variants.clone s.view src [tgt] m).1, s.back (Variants.clone s.view src [tgt] m).2) = _
  rw [Variants.clone_noop (s := s.view)]
  · rw [back_view]
  · rcases h with h | ⟨h1, h2⟩
    · exact .inl h
    · exact .inr (.inr ⟨h1, tgt, [], rfl, h2⟩)

theorem allocate_all {s : Net} (h : Inv s) {i j : Nat} (hi : i < s.bk.size) (hj : j < s.bk.size) :
    mapArrs (fun a => a.allocate [j] i) (s.exts.map fun p => (⟨kind, p.2⟩ : Arr Slot)) =
      (.ok (), (s.exts.map fun p => (⟨kind, p.2⟩ : Arr Slot)).map fun a => { a with slots := a.slots.set j (a.slots[i]?).join }) := by
  apply mapArrs_ok
  intro a ha
  obtain ⟨p, hp, rfl⟩ := List.mem_map.1 ha
  have hw := h.vec p.1 p.2 (AMap.get?_of_mem h.nodup hp)
  obtain ⟨v, hv, _⟩ := hw.filled i hi
  have hlen := hw.len
  simp only [Arr.allocate, hv, List.all_cons, List.all_nil, hlen, hj, decide_true, Bool.and_true, if_true, setAll, List.foldl_cons,
    List.foldl_nil, Option.join]
  rfl

theorem extend_all {s : Net} (h : Inv s) {i : Nat} (hi : i < s.bk.size) :
    mapArrs (fun a => a.extend 1 i) (s.exts.map fun p => (⟨kind, p.2⟩ : Arr Slot)) =
      (.ok (), (s.exts.map fun p => (⟨kind, p.2⟩ : Arr Slot)).map fun a => { a with slots := a.slots ++ [(a.slots[i]?).join] }) := by
  apply mapArrs_ok
  intro a ha
  obtain ⟨p, hp, rfl⟩ := List.mem_map.1 ha
  obtain ⟨v, hv, _⟩ := (h.vec p.1 p.2 (AMap.get?_of_mem h.nodup hp)).filled i hi
  simp only [Arr.extend, hv, Option.join]
  rfl

theorem clone_overwrite {s : Net} (h : Inv s) {src tgt : String} {i j : Nat} (hi : s.bk.byId.get? src = some i)
    (hj : s.bk.byId.get? tgt = some j) :
    clone s src tgt true = (.ok (), { s with exts := mapVal (fun a => a.set j (a[i]?).join) s.exts }) := by
  have e1 : s.view.bk.byId.get? src = some i := hi
  have e2 : s.view.bk.byId.get? tgt = some j := hj
  have e3 : s.view.arrs = s.exts.map fun p => (⟨kind, p.2⟩ : Arr Slot) := rfl
  have e4 := allocate_all h (h.w.lt _ _ hi) (h.w.lt _ _ hj)
  unfold clone viaVariants Variants.clone
  simp only [List.cons_ne_nil, if_false, e1, cloneLoop, e2, if_true, insertSorted, andThen, e3, e4, Net.back]
  refine Prod.ext rfl ?_
  show Net.mk _ _ _ _ = Net.mk _ _ _ _
  rw [zip_back' _ (fun a => a.set j (a[i]?).join) _ (fun _ _ => rfl)]
  rfl

theorem clone_recycle {s : Net} (h : Inv s) {src tgt : String} {m : Bool} {i j : Nat} {rest : List Nat}
    (hi : s.bk.byId.get? src = some i) (hj : s.bk.byId.get? tgt = none) (hu : s.bk.unused = j :: rest) :
    clone s src tgt m = (.ok (), { s with
      bk := { s.bk with byId := s.bk.byId.emplace tgt j, unused := rest }
      exts := mapVal (fun a => a.set j (a[i]?).join) s.exts }) := by
  have e1 : s.view.bk.byId.get? src = some i := hi
  have e2 : s.view.bk.byId.get? tgt = none := hj
  have e3 : s.view.arrs = s.exts.map fun p => (⟨kind, p.2⟩ : Arr Slot) := rfl
  have e5 : s.view.bk.unused = j :: rest := hu
  have e4 := allocate_all h (h.w.lt _ _ hi) (h.w.free j (by rw [hu]; simp)).1
  unfold clone viaVariants Variants.clone
  simp only [List.cons_ne_nil, if_false, e1, cloneLoop, e2, e5, if_true, insertSorted, andThen, e3, e4, Net.back]
  refine Prod.ext rfl ?_
  show Net.mk _ _ _ _ = Net.mk _ _ _ _
  rw [zip_back' _ (fun a => a.set j (a[i]?).join) _ (fun _ _ => rfl)]
  rfl

theorem clone_extend {s : Net} (h : Inv s) {src tgt : String} {m : Bool} {i : Nat}
    (hi : s.bk.byId.get? src = some i) (hj : s.bk.byId.get? tgt = none) (hu : s.bk.unused = []) :
    clone s src tgt m = (.ok (), { s with
      bk := { s.bk with byId := s.bk.byId.emplace tgt s.bk.size, size := s.bk.size + 1 }
      exts := mapVal (fun a => a ++ [(a[i]?).join]) s.exts }) := by
  have e1 : s.view.bk.byId.get? src = some i := hi
  have e2 : s.view.bk.byId.get? tgt = none := hj
  have e3 : s.view.arrs = s.exts.map fun p => (⟨kind, p.2⟩ : Arr Slot) := rfl
  have e5 : s.view.bk.unused = [] := hu
  have e4 := extend_all h (h.w.lt _ _ hi)
  unfold clone viaVariants Variants.clone
  simp only [List.cons_ne_nil, if_false, e1, cloneLoop, e2, e5, if_true, andThen, e3, e4, Net.back, Nat.zero_add, Nat.one_ne_zero]
  refine Prod.ext rfl ?_
  show Net.mk _ _ _ _ = Net.mk _ _ _ _
  rw [zip_back' _ (fun a => a ++ [(a[i]?).join]) _ (fun _ _ => rfl)]
  simp only [State.sel, Net.view]
  rw [hu]

/-- The working variant after the removal of the variant with that index. -/
def curAfter (c : Option Nat) (index : Nat) : Option Nat := if c = some index then none else c

theorem sel_resetIf (s : State Slot) (index : Nat) :
    (resetIf s 0 index).sel 0 = curAfter (s.sel 0) index := by
  unfold resetIf curAfter
  split
  · rw [sel_setSel]
  · rfl

theorem remove_noop {s : Net} {id : String} (h : id = initialId ∨ s.bk.byId.get? id = none) : remove s id = (.thrown, s) := by
  have : Variants.remove s.view 0 id = (.thrown, s.view) := by
    unfold Variants.remove
    by_cases e : id = initialId
    · rw [if_pos e]
    · rcases h with h | h
      · exact absurd h e
      · have : s.view.bk.byId.get? id = none := h
        rw [if_neg e]; simp only [this]
  show ((Variants.remove s.view 0 id).1, s.back (Variants.remove s.view 0 id).2) = _
  rw [this, back_view]

theorem remove_mid {s : Net} (h : Inv s) {id : String} {index : Nat} (hid : id ≠ initialId)
    (hi : s.bk.byId.get? id = some index) (hl : index ≠ s.bk.size - 1) :
    remove s id = (.ok (), { s with
      bk := { s.bk with byId := s.bk.byId.erase id, unused := insertSorted index s.bk.unused }
      cur := curAfter s.cur index
      exts := mapVal (fun a => a.set index (some none)) s.exts }) := by
  have hlt := h.w.lt _ _ hi
  have e4 : mapArrs (fun a => a.delete index) (s.exts.map fun p => (⟨kind, p.2⟩ : Arr Slot)) =
      (.ok (), (s.exts.map fun p => (⟨kind, p.2⟩ : Arr Slot)).map fun a => { a with slots := a.slots.set index (some none) }) := by
    apply mapArrs_ok
    intro a ha
    obtain ⟨p, hp, rfl⟩ := List.mem_map.1 ha
    have hlen := (h.vec p.1 p.2 (AMap.get?_of_mem h.nodup hp)).len
    simp only [Arr.delete, kind, slackTerminal, hlen, hlt, if_true]
  have e1 : s.view.bk.byId.get? id = some index := hi
  have e2 : index ≠ s.view.bk.size - 1 := hl
  have e3 : s.view.arrs = s.exts.map fun p => (⟨kind, p.2⟩ : Arr Slot) := rfl
  unfold remove viaVariants Variants.remove
  simp only [hid, if_false, e1, e2, e3, e4, Net.back, resetIf_bk, resetIf_arrs]
  refine Prod.ext rfl ?_
  show Net.mk _ _ _ _ = Net.mk _ _ _ _
  rw [zip_back' _ (fun a => a.set index (some none)) _ (fun _ _ => rfl), sel_resetIf]
  rfl

/-- `resize(number)` on the vectors. -/
def cut (number : Nat) (a : Vec) : Vec := a.take number ++ List.replicate (number - a.length) (some none)

theorem remove_last {s : Net} {id : String} {index : Nat} (hid : id ≠ initialId)
    (hi : s.bk.byId.get? id = some index) (hl : index = s.bk.size - 1) :
    remove s id = (.ok (), { s with
      bk := ⟨s.bk.byId.erase id, (trim index s.bk.unused).2, s.bk.size - (1 + (trim index s.bk.unused).1)⟩
      cur := curAfter s.cur index
      exts := mapVal (cut (1 + (trim index s.bk.unused).1)) s.exts }) := by
  have e4 : mapArrs (fun a => a.reduce (1 + (trim index s.bk.unused).1)) (s.exts.map fun p => (⟨kind, p.2⟩ : Arr Slot)) =
      (.ok (), (s.exts.map fun p => (⟨kind, p.2⟩ : Arr Slot)).map fun a =>
        { a with slots := cut (1 + (trim index s.bk.unused).1) a.slots }) := by
    apply mapArrs_ok
    intro a ha
    obtain ⟨p, hp, rfl⟩ := List.mem_map.1 ha
    simp only [Arr.reduce, kind, slackTerminal, cut]
  have e1 : s.view.bk.byId.get? id = some index := hi
  have e2 : index = s.view.bk.size - 1 := hl
  have e3 : s.view.arrs = s.exts.map fun p => (⟨kind, p.2⟩ : Arr Slot) := rfl
  have e5 : s.view.bk.unused = s.bk.unused := rfl
  unfold remove viaVariants Variants.remove
  simp only [hid, if_false, e1]
  rw [if_pos e2]
  simp only [e3, e5, e4, Net.back, resetIf_bk, resetIf_arrs]
  refine Prod.ext rfl ?_
  show Net.mk _ _ _ _ = Net.mk _ _ _ _
  rw [zip_back' _ (cut (1 + (trim index s.bk.unused).1)) _ (fun _ _ => rfl), sel_resetIf]
  rfl

theorem select_ok {s : Net} {id : String} {i : Nat} (hi : s.bk.byId.get? id = some i) :
    select s id = (.ok (), { s with cur := some i }) := by
  unfold select viaVariants setWorking
  have : s.view.bk.byId.get? id = some i := hi
  simp only [this]
  have hb := back_view s
  unfold Net.back at hb ⊢
  rw [setSel_bk, setSel_arrs, sel_setSel]
  have h1 := congrArg Net.exts hb
  simp only at h1
  rw [h1]
  rfl

theorem select_none {s : Net} {id : String} (hi : s.bk.byId.get? id = none) : select s id = (.thrown, s) := by
  unfold select viaVariants setWorking
  have : s.view.bk.byId.get? id = none := hi
  simp only [this]
  rw [back_view]

end Verif.Slack
