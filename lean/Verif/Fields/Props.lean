import Verif.Fields.Inventory

/-!
C93: every value that an object has per variant follows the variants: the classes, array by array, do what
`Verif/Variants` says of an attribute, and a clone is a snapshot of all the values of all the objects.
-/

namespace Verif.Fields

open Verif
open Verif.Variants (Arr)

/-! ### The classes -/

/-- Allocation: every array of the object gets at the indices its element at the source, no other element changes, and
    the call fails when and only when it fails on one of the arrays. -/
theorem obj_allocate (o : Obj) {idxs : List Nat} (h : idxs ≠ []) (src : Nat) :
    (o.alloc idxs src).map Obj.cols = mapOut (fun a => a.allocate idxs src) o.cols := by
  have := Obj.alloc_cols h src o
  show _ = mapOut (opAlloc idxs src) o.cols
  rw [this]; cases o.alloc idxs src <;> rfl

/-- Extension: every array of the object gets `n` more elements, equal to the one of the source. -/
theorem obj_extend (o : Obj) {n : Nat} (h : n ≠ 0) (src : Nat) :
    (o.ext n src).map Obj.cols = mapOut (fun a => a.extend n src) o.cols := by
  have := Obj.ext_cols h src o
  show _ = mapOut (opExt n src) o.cols
  rw [this]; cases o.ext n src <;> rfl

/-- Reduction: every array of the object loses its `n` last elements (but the one of `SlackTerminal`, whose kind says
    so). -/
theorem obj_reduce (o : Obj) (n : Nat) : (o.red n).map Obj.cols = mapOut (fun a => a.reduce n) o.cols := by
  have := Obj.red_cols n o
  show _ = mapOut (opRed n) o.cols
  rw [this]; cases o.red n <;> rfl

/-- Removal of an element: what the kind of the array says. -/
theorem obj_delete (o : Obj) (i : Nat) : (o.del i).map Obj.cols = mapOut (fun a => a.delete i) o.cols := by
  have := Obj.del_cols i o
  show _ = mapOut (opDel i) o.cols
  rw [this]; cases o.del i <;> rfl

/-! ### The network -/

/-- In all the networks reached every array of every object has one element per index, those of the variants are
    there, and every variant can be read. -/
theorem values_there {s : St} (h : Reached s) :
    (∀ o ∈ s.objs, Fits s.bk o) ∧
    ∀ id, (s.bk.byId.get? id).isSome → ∀ k o, s.objs[k]? = some o → ∀ c, c < o.cols.length →
      ∃ v, value s id k c = some v := by
  have hi := reached_inv h
  have hf : ∀ o ∈ s.objs, Fits s.bk o := by
    intro o ho a ha
    have := hi.arrs a (List.mem_flatMap.mpr ⟨o, ho, ha⟩)
    exact ⟨this.len, this.filled, this.good⟩
  refine ⟨hf, ?_⟩
  intro id hid k o hk c hc
  obtain ⟨i, hi'⟩ := Option.isSome_iff_exists.mp hid
  obtain ⟨v, hv⟩ := (hf o (List.mem_of_getElem? hk) _ (List.getElem_mem hc)).2.1 _ _ hi'
  exact ⟨v, by simp [value, hi', hk, List.getElem?_eq_getElem hc, hv]⟩

/-- A clone of a variant that exists to distinct targets, which are new unless overwriting is allowed, always
    succeeds. -/
theorem clone_succeeds {s : St} (h : Reached s) {src : String} (hs : (s.bk.byId.get? src).isSome) {ts : List String}
    {m : Bool} (hc : CleanTargets s.bk ts m) : ∃ s', clone s src ts m = .ok s' := by
  have hi := reached_inv h
  have hs' : s.abs.bk.byId.get? src ≠ none := by
    intro e
    have e' : s.bk.byId.get? src = none := e
    rw [e'] at hs; cases hs
  have h1 := (Variants.clone_ok hi (src := src) (ts := ts) (m := m) hs' hc.1 hc.2.1 hc.2.2).1
  have e := clone_abs s src ts m
  cases hk : clone s src ts m with
  | ok s' => exact ⟨s', rfl⟩
  | thrown =>
    rw [hk] at e
    cases hv : Variants.clone s.abs src ts m with
    | mk r x => rw [hv] at e h1; cases h1; cases e
  | ub =>
    rw [hk] at e
    cases hv : Variants.clone s.abs src ts m with
    | mk r x => rw [hv] at e h1; cases h1; cases e

/-- After a clone every value of every object is, in the targets, the one it had in the source, and in the other
    variants what it was. -/
theorem clone_values {s s' : St} (h : Reached s) {src : String} {ts : List String} {m : Bool}
    (hc : CleanTargets s.bk ts m) (hk : clone s src ts m = .ok s') (id : String) (k c : Nat) :
    value s' id k c = if id ∈ ts then value s src k c else value s id k c := by
  have hi := reached_inv h
  have hi' := reached_inv (Reached.clone h hc hk)
  have hsz := clone_sizes hk
  by_cases hlt : c < (sizes s.objs).getD k 0
  · rw [value_readIn hi' id k c (by rw [hsz]; exact hlt), value_readIn hi src k c hlt, value_readIn hi id k c hlt]
    have e := (Variants.clone_ok hi (src := src) (clone_src hk) hc.1 hc.2.1 hc.2.2).2.2.2.2.2.2.2 id
      (offset s.objs k + c)
    rw [clone_abs_ok hk] at e
    rw [offset_sizes s'.objs, hsz, ← offset_sizes]
    rw [e]
    split <;> rfl
  · rw [value_none (by rw [hsz]; exact hlt), value_none hlt, value_none hlt]
    split <;> rfl

/-- The variants after a clone. -/
theorem clone_variants {s s' : St} (h : Reached s) {src : String} {ts : List String} {m : Bool}
    (hc : CleanTargets s.bk ts m) (hk : clone s src ts m = .ok s') (id : String) :
    (s'.bk.byId.get? id).isSome ↔ id ∈ ts ∨ (s.bk.byId.get? id).isSome := by
  have e := (Variants.clone_ok (reached_inv h) (src := src) (clone_src hk) hc.1 hc.2.1 hc.2.2).2.2.2.2.2.2.1 id
  rw [clone_abs_ok hk] at e
  exact e

/-- The removal of a variant that exists and is not the initial one always succeeds. -/
theorem remove_succeeds {s : St} (h : Reached s) (t : Variants.Thread) {id : String} (h1 : id ≠ Variants.initialId)
    (h2 : (s.bk.byId.get? id).isSome) : ∃ s', remove s t id = .ok s' := by
  obtain ⟨i, h3⟩ := Option.isSome_iff_exists.mp h2
  have h1 := (Variants.remove_ok (reached_inv h) t h1 (index := i) h3).1
  have e := remove_abs s t id
  cases hk : remove s t id with
  | ok s' => exact ⟨s', rfl⟩
  | thrown =>
    rw [hk] at e
    cases hv : Variants.remove s.abs t id with
    | mk r x => rw [hv] at e h1; cases h1; cases e
  | ub =>
    rw [hk] at e
    cases hv : Variants.remove s.abs t id with
    | mk r x => rw [hv] at e h1; cases h1; cases e

/-- After the removal of a variant, the other ones are there with all the values of all the objects. -/
theorem remove_values {s s' : St} (h : Reached s) {t : Variants.Thread} {id : String} (hk : remove s t id = .ok s') :
    (∀ x, s'.bk.byId.get? x = if x = id then none else s.bk.byId.get? x) ∧
    ∀ x, x ≠ id → ∀ k c, value s' x k c = value s x k c := by
  have hi := reached_inv h
  have hi' := reached_inv (Reached.remove h hk)
  have hsz := remove_sizes hk
  obtain ⟨h1, i, h2⟩ := remove_pre hk
  obtain ⟨-, -, -, hb, hr, -⟩ := Variants.remove_ok hi t h1 (index := i) h2
  rw [remove_abs_ok hk] at hb hr
  constructor
  · intro x
    have hb' : s'.bk.byId = s.bk.byId.erase id := hb
    rw [hb', AMap.get?_erase]
    by_cases e : x = id
    · simp [e]
    · simp [e, Ne.symm e]
  · intro x hx k c
    by_cases hlt : c < (sizes s.objs).getD k 0
    · rw [value_readIn hi' x k c (by rw [hsz]; exact hlt), value_readIn hi x k c hlt]
      rw [offset_sizes s'.objs, hsz, ← offset_sizes]
      have e := hr x (offset s.objs k + c) hx
      simp only [] at e
      rw [e]
    · rw [value_none (by rw [hsz]; exact hlt), value_none hlt]

/-! ### The caches -/

/-- The caches of the indices allocated are new and empty; those of the other ones are kept. -/
theorem alloc_caches_empty {o o' : Obj} {idxs : List Nat} {src : Nat} (h : o.alloc idxs src = .ok o') {l : Cache}
    (hl : o.caches = [l]) :
    ∃ l', o'.caches = [l'] ∧ l'.length = l.length ∧
      ∀ i, i < l.length → l'[i]? = if i ∈ idxs then some (some false) else l[i]? := by
  cases o with
  | cached x =>
    cases List.cons.inj hl |>.1
    obtain ⟨y, hy, h⟩ := Out.bind_eq_ok.mp h
    cases Out.ok.inj h
    obtain ⟨b, _, hy⟩ := Out.bind_eq_ok.mp hy
    obtain ⟨c, hc, hy⟩ := Out.bind_eq_ok.mp hy
    cases Out.ok.inj hy
    exact ⟨c, rfl, cacheAlloc_slots hc⟩
  | _ => cases hl

/-- The caches of the new indices are new and empty; those of the other ones are kept. -/
theorem ext_caches_empty {o o' : Obj} {n src : Nat} (h : o.ext n src = .ok o') {l : Cache} (hl : o.caches = [l]) :
    o'.caches = [l ++ List.replicate n (some false)] := by
  cases o with
  | cached x =>
    cases List.cons.inj hl |>.1
    obtain ⟨y, hy, h⟩ := Out.bind_eq_ok.mp h
    cases Out.ok.inj h
    obtain ⟨b, _, hy⟩ := Out.bind_eq_ok.mp hy
    obtain ⟨c, hc, hy⟩ := Out.bind_eq_ok.mp hy
    cases Out.ok.inj hy
    exact congrArg (fun x => [x]) (cacheExt_slots hc)
  | _ => cases hl

/-! ### The inventory is complete -/

/-- The values and the caches determine the object: nothing that an object has is left out of the inventory (`bare` is
    the object without any value: its class, its extensions, its terminals, which tap changers it has...). -/
theorem inventory_complete {o o' : Obj} (hb : o.bare = o'.bare) (hc : o.cols = o'.cols) (hk : o.caches = o'.caches) :
    o = o' := Obj.ext_of hb hc hk

/-! ### A network -/

/-- A load with a load detail on a bus terminal, as created in a network with one variant. -/
def exLoad : Obj :=
  .load ⟨⟨⟨[.loadDetail ⟨[1], [2], [3], [4]⟩, .other]⟩, [.bus ⟨⟨[.nan], [.nan]⟩, [true], ["B"]⟩]⟩, [10], [5]⟩

/-- A two windings transformer with a ratio tap changer. -/
def exTransformer : Obj :=
  .twoWindings ⟨⟨⟨[]⟩, [.bus ⟨⟨[.nan], [.nan]⟩, [true], ["B"]⟩, .node ⟨⟨[1], [2]⟩, [400], [some 0], [none], [0]⟩]⟩,
    some ⟨⟨[3], [true], [1]⟩, [225]⟩, none⟩

/-- A voltage level, of which the buses were computed. -/
def exLevel : Obj := .cached ⟨⟨[]⟩, [some true]⟩

/-- The network. -/
def exNet : St := { init (fun _ => none) with objs := [exLoad, exTransformer, exLevel] }

theorem exFits {o : Obj} (h : o.cols.all (fun a => a.slots.length == 1 && (a.slots[0]?).join.isSome &&
    a.kind.badReduce.isNone) = true) : Fits (init (fun _ => none)).bk o := by
  intro a ha
  have h := List.all_eq_true.mp h a ha
  simp only [Bool.and_eq_true, beq_iff_eq] at h
  refine ⟨h.1.1, ?_, by simpa using h.2⟩
  intro x i hx
  have : i = 0 := by
    simp only [init, AMap.get?_cons] at hx
    split at hx
    · exact (Option.some.inj hx).symm
    · cases hx
  subst this
  have h2 := h.1.2
  cases hs : a.slots[0]? with
  | none => rw [hs] at h2; cases h2
  | some c =>
    cases c with
    | none => rw [hs] at h2; cases h2
    | some v => exact ⟨v, rfl⟩

theorem exNet_reached : Reached exNet :=
  Reached.add (Reached.add (Reached.add (Reached.init fun _ => none) (o := exLoad) (exFits (by decide)))
    (o := exTransformer) (exFits (by decide))) (o := exLevel) (exFits (by decide))

example : CleanTargets exNet.bk ["N1", "N2"] false ∧ (exNet.bk.byId.get? "InitialVariant").isSome :=
  ⟨⟨by decide, by decide, Or.inr (by decide)⟩, by decide⟩

/-- The values of the load, of the transformer and of the level in the variant "N1" after the clone. -/
example : ∃ s', clone exNet "InitialVariant" ["N1", "N2"] false = .ok s' ∧
    value s' "N1" 0 0 = some (.num 1) ∧ value s' "N1" 0 9 = some (.num 5) ∧ value s' "N2" 1 10 = some (.pos 3) ∧
    value s' "N1" 1 13 = some (.num 225) ∧ value s' "N2" 2 0 = some .present ∧ value s' "N3" 0 0 = none :=
  ⟨_, rfl, by decide, by decide, by decide, by decide, by decide, by decide⟩

/-- A removal in the middle, then a clone to the index left. -/
example : ∃ s1 s2 s3, clone exNet "InitialVariant" ["N1", "N2"] false = .ok s1 ∧ remove s1 0 "N1" = .ok s2 ∧
    value s2 "N2" 0 9 = some (.num 5) ∧ clone s2 "N2" ["N4"] false = .ok s3 ∧ value s3 "N4" 1 4 = some (.num 1) :=
  ⟨_, _, _, rfl, rfl, by decide, rfl, by decide⟩

example : ∃ o', exLevel.ext 2 0 = .ok o' ∧ o'.caches = [[some true, some false, some false]] := ⟨_, rfl, rfl⟩

example : ∃ o', exLevel.alloc [0] 0 = .ok o' ∧ o'.caches = [[some false]] := ⟨_, rfl, rfl⟩

/-- A null cache as the source, or an index out of range, is undefined behaviour. -/
example : (Obj.cached ⟨⟨[]⟩, [none]⟩).ext 1 0 = .ub ∧ exLoad.alloc [3] 0 = .ub ∧ exLoad.red 2 = .thrown :=
  ⟨rfl, rfl, rfl⟩

/-- A load with another active power has the same class and other values. -/
example : exLoad.bare = (Obj.load ⟨⟨⟨[.loadDetail ⟨[1], [2], [3], [4]⟩, .other]⟩,
    [.bus ⟨⟨[.nan], [.nan]⟩, [true], ["B"]⟩]⟩, [11], [5]⟩).bare := rfl

end Verif.Fields
