import Verif.Fields.Lemmas
import Verif.Variants.Props

/-! The variant manager over the objects does what the manager of `Verif/Variants` does over their values (C93). -/

namespace Verif.Fields

open Verif
open Verif.Variants (Arr)

/-- The outcome of a call on the values, without what a call that fails leaves. -/
def toOut {σ : Type} (r : Out Unit × σ) : Out σ :=
  match r with
  | (.ok (), s) => .ok s
  | (.thrown, _) => .thrown
  | (.ub, _) => .ub

theorem toOut_mapArrs (f : Arr Val → Out (Arr Val)) (l : List (Arr Val)) :
    toOut (Variants.mapArrs f l) = mapOut f l := by
  induction l with
  | nil => rfl
  | cons a r ih =>
    rw [mapOut_cons, Variants.mapArrs, ← ih]
    cases f a with
    | ok a' =>
      simp only [Out.bind_ok]
      cases Variants.mapArrs f r with
      | mk x y => cases x <;> rfl
    | thrown => rfl
    | ub => rfl

theorem toOut_andThen (x : Out Unit × List (Arr Val)) (f : List (Arr Val) → Out Unit × List (Arr Val)) :
    toOut (Variants.andThen x f) = (toOut x).bind fun l => toOut (f l) := by
  obtain ⟨x, l⟩ := x
  cases x <;> rfl

theorem toOut_ite {σ : Type} (c : Prop) [Decidable c] (x y : Out Unit × σ) :
    toOut (if c then x else y) = if c then toOut x else toOut y := by
  split <;> rfl

/-- A step that is skipped when there is nothing to do. -/
theorem skip_flatMap {c : Prop} [Decidable c] {f : Arr Val → Out (Arr Val)} {g : Obj → Out Obj}
    (h : ¬ c → ∀ x, mapOut f x.cols = (g x).bind fun x' => .ok x'.cols) (l : List Obj) :
    (if c then (.ok (l.flatMap Obj.cols) : Out (List (Arr Val))) else mapOut f (l.flatMap Obj.cols)) =
      (if c then .ok l else mapOut g l).bind fun l' => .ok (l'.flatMap Obj.cols) := by
  by_cases e : c
  · simp [e]
  · simp only [e, if_false]; exact mapOut_flatMap (h e) l

theorem abs_setSel (s : St) (t : Variants.Thread) (i : Option Nat) :
    (s.withMan (s.man.setSel t i)).abs = s.abs.setSel t i := by
  unfold St.withMan St.man St.abs Variants.State.setSel
  cases s.mode <;> rfl

theorem abs_resetIf (s : St) (t : Variants.Thread) (i : Nat) :
    (s.withMan (Variants.resetIf s.man t i)).abs = Variants.resetIf s.abs t i := by
  unfold Variants.resetIf
  have : s.man.sel t = s.abs.sel t := rfl
  rw [this]
  split
  · exact abs_setSel s t none
  · rfl

theorem clone_abs (s : St) (src : String) (ts : List String) (m : Bool) :
    (clone s src ts m).bind (fun s' => .ok s'.abs) = toOut (Variants.clone s.abs src ts m) := by
  unfold clone Variants.clone
  by_cases h1 : ts = []
  · simp [h1, toOut]
  simp only [h1, if_false]
  show _ = toOut (match s.bk.byId.get? src with | none => _ | some i => _)
  cases h2 : s.bk.byId.get? src with
  | none => rfl
  | some i =>
    simp only []
    show _ = toOut (match Variants.cloneLoop m ts ⟨s.bk, 0, [], []⟩ with
      | (.ok (), l) => _ | (.thrown, l) => _ | (.ub, l) => _)
    cases h3 : Variants.cloneLoop m ts ⟨s.bk, 0, [], []⟩ with
    | mk r l =>
      cases r with
      | thrown => rfl
      | ub => rfl
      | ok u =>
        simp only [bind_eq, bind_assoc, Out.pure_eq, Out.bind_ok]
        have key : ∀ (x : Out Unit × List (Arr Val)),
            toOut (x.1, ({ s.abs with bk := l.bk, arrs := x.2 } : Variants.State Val)) =
              (toOut x).bind fun as => .ok { s.abs with bk := l.bk, arrs := as } := by
          rintro ⟨x, as⟩; cases x <;> rfl
        rw [key]
        simp only [toOut_andThen, toOut_ite, toOut_mapArrs, St.abs]
        show _ = Out.bind (Out.bind (Out.bind (if l.recycled = [] then .ok (s.objs.flatMap Obj.cols) else
          mapOut (opAlloc l.recycled i) (s.objs.flatMap Obj.cols)) fun l1 => if l.overwritten = [] then .ok l1 else
          mapOut (opAlloc l.overwritten i) l1) fun l2 => if l.ext = 0 then .ok l2 else mapOut (opExt l.ext i) l2) _
        rw [skip_flatMap (fun h => Obj.alloc_cols h i)]
        simp only [bind_assoc, Out.bind_ok]
        congr 1; funext o1
        rw [skip_flatMap (fun h => Obj.alloc_cols h i)]
        simp only [bind_assoc, Out.bind_ok]
        congr 1; funext o2
        rw [skip_flatMap (fun h => Obj.ext_cols h i)]
        simp only [bind_assoc, Out.bind_ok]

theorem remove_abs (s : St) (t : Variants.Thread) (id : String) :
    (remove s t id).bind (fun s' => .ok s'.abs) = toOut (Variants.remove s.abs t id) := by
  unfold remove Variants.remove
  by_cases h1 : id = Variants.initialId
  · simp [h1, toOut]
  simp only [h1, if_false]
  show _ = toOut (match s.bk.byId.get? id with | none => _ | some i => _)
  cases h2 : s.bk.byId.get? id with
  | none => rfl
  | some i =>
    simp only []
    show _ = toOut (if i = s.bk.size - 1 then _ else _)
    by_cases h3 : i = s.bk.size - 1
    · simp only [if_pos h3, bind_eq, bind_assoc, Out.pure_eq, Out.bind_ok, abs_resetIf]
      have := mapOut_flatMap (Obj.red_cols (1 + (Variants.trim i s.bk.unused).1)) s.objs
      rw [← toOut_mapArrs] at this
      cases hm : Variants.mapArrs (opRed (1 + (Variants.trim i s.bk.unused).1)) (s.objs.flatMap Obj.cols) with
      | mk x as =>
        rw [hm] at this
        have hm' : Variants.mapArrs (fun a => a.reduce (1 + (Variants.trim i s.abs.bk.unused).1)) s.abs.arrs = (x, as) := hm
        simp only [hm']
        cases ho : mapOut (Obj.red (1 + (Variants.trim i s.bk.unused).1)) s.objs with
        | ok o =>
          rw [ho] at this
          cases x with
          | ok u => cases Out.ok.inj this; rfl
          | thrown => cases this
          | ub => cases this
        | thrown => rw [ho] at this; cases x <;> first | rfl | cases this
        | ub => rw [ho] at this; cases x <;> first | rfl | cases this
    · simp only [if_neg h3, bind_eq, bind_assoc, Out.pure_eq, Out.bind_ok, abs_resetIf]
      have := mapOut_flatMap (Obj.del_cols i) s.objs
      rw [← toOut_mapArrs] at this
      cases hm : Variants.mapArrs (opDel i) (s.objs.flatMap Obj.cols) with
      | mk x as =>
        rw [hm] at this
        have hm' : Variants.mapArrs (fun a => a.delete i) s.abs.arrs = (x, as) := hm
        simp only [hm']
        cases ho : mapOut (Obj.del i) s.objs with
        | ok o =>
          rw [ho] at this
          cases x with
          | ok u => cases Out.ok.inj this; rfl
          | thrown => cases this
          | ub => cases this
        | thrown => rw [ho] at this; cases x <;> first | rfl | cases this
        | ub => rw [ho] at this; cases x <;> first | rfl | cases this

theorem setWorking_abs (s : St) (t : Variants.Thread) (id : String) :
    (setWorking s t id).bind (fun s' => .ok s'.abs) = toOut (Variants.setWorking s.abs t id) := by
  unfold setWorking Variants.setWorking
  have : s.man.bk.byId.get? id = s.abs.bk.byId.get? id := rfl
  rw [this]
  cases s.abs.bk.byId.get? id with
  | none => rfl
  | some i => simp only [Out.bind_ok, abs_setSel]; rfl

theorem allowMT_abs (s : St) (t : Variants.Thread) (b : Bool) : (allowMT s t b).abs = Variants.allowMT s.abs t b := by
  unfold allowMT Variants.allowMT St.withMan St.man St.abs
  cases s.mode with
  | single i => cases i <;> cases b <;> rfl
  | multi =>
    cases b
    · simp only []
      cases s.tls t <;> rfl
    · rfl

theorem toOut_ok {σ : Type} {r : Out Unit × σ} {s : σ} (h : toOut r = .ok s) : r = (.ok (), s) := by
  obtain ⟨x, y⟩ := r
  cases x with
  | ok u => cases Out.ok.inj h; rfl
  | thrown => cases h
  | ub => cases h

/-! ### Caches -/

theorem cacheCopy_ok {src : Nat} {l : Cache} {d : Option Bool} (h : cacheCopy src l = .ok d) : d = some false := by
  unfold cacheCopy at h
  split at h
  · exact (Out.ok.inj h).symm
  · cases h

theorem cacheAlloc_slots {idxs : List Nat} {src : Nat} {l c : Cache} (hc : cacheAlloc idxs src l = .ok c) :
    c.length = l.length ∧ ∀ i, i < l.length → c[i]? = if i ∈ idxs then some (some false) else l[i]? := by
  unfold cacheAlloc at hc
  induction idxs generalizing l with
  | nil => cases Out.ok.inj hc; exact ⟨rfl, by simp⟩
  | cons a r ih =>
    rw [List.foldlM_cons] at hc
    obtain ⟨l1, h1, hc⟩ := Out.bind_eq_ok.mp hc
    obtain ⟨e1, e2⟩ := ih hc
    obtain ⟨d, hd, h1⟩ := Out.bind_eq_ok.mp h1
    cases cacheCopy_ok hd
    unfold put at h1
    split at h1
    · rename_i ha
      cases Out.ok.inj h1
      rw [List.length_set] at e1 e2
      refine ⟨e1, ?_⟩
      intro i hi
      rw [e2 i hi, List.getElem?_set]
      by_cases m1 : i ∈ r
      · simp [m1]
      · by_cases m2 : a = i
        · subst m2; simp [hi]
        · simp [m1, m2, Ne.symm m2]
    · cases h1

theorem cacheExt_slots {n src : Nat} {l c : Cache} (hc : cacheExt n src l = .ok c) :
    c = l ++ List.replicate n (some false) := by
  induction n generalizing l with
  | zero => cases Out.ok.inj hc; simp
  | succ n ih =>
    obtain ⟨d, hd, hc⟩ := Out.bind_eq_ok.mp hc
    cases cacheCopy_ok hd
    rw [ih hc]
    simp [List.replicate_succ]

/-! ### Where a value is in the list of all the values -/

/-- The number of values of the objects before the object `k`. -/
def offset (l : List Obj) (k : Nat) : Nat := ((l.take k).flatMap Obj.cols).length

theorem flat_at (l : List Obj) (k c : Nat) {o : Obj} (hk : l[k]? = some o) (hc : c < o.cols.length) :
    (l.flatMap Obj.cols)[offset l k + c]? = o.cols[c]? := by
  have hlt := (List.getElem?_eq_some_iff.mp hk).1
  have ho := (List.getElem?_eq_some_iff.mp hk).2
  have key : ∀ n, n = ((l.take k).flatMap Obj.cols).length →
      ((l.take k ++ o :: l.drop (k + 1)).flatMap Obj.cols)[n + c]? = o.cols[c]? := by
    intro n hn
    rw [List.flatMap_append, List.flatMap_cons, List.getElem?_append_right (by omega),
      show n + c - ((l.take k).flatMap Obj.cols).length = c from by omega, List.getElem?_append_left hc]
  have e : l = l.take k ++ o :: l.drop (k + 1) := by
    rw [← ho, ← List.drop_eq_getElem_cons hlt]; exact (List.take_append_drop k l).symm
  have := key _ rfl
  rw [← e] at this
  exact this

/-- The numbers of values of the objects. -/
def sizes (l : List Obj) : List Nat := l.map fun o => o.cols.length

theorem offset_sizes (l : List Obj) (k : Nat) : offset l k = ((sizes l).take k).sum := by
  unfold offset sizes
  rw [List.length_flatMap, List.map_take]

theorem sizes_mapOut {f : Arr Val → Out (Arr Val)} {g : Obj → Out Obj}
    (h : ∀ x, mapOut f x.cols = (g x).bind fun x' => .ok x'.cols) {l l' : List Obj} (hl : mapOut g l = .ok l') :
    sizes l' = sizes l := by
  induction l generalizing l' with
  | nil => cases Out.ok.inj hl; rfl
  | cons a r ih =>
    rw [mapOut_cons] at hl
    obtain ⟨a', ha, hl⟩ := Out.bind_eq_ok.mp hl
    obtain ⟨r', hr, hl⟩ := Out.bind_eq_ok.mp hl
    cases Out.ok.inj hl
    have := h a
    rw [ha] at this
    have e := mapOut_length this
    simp only [sizes, List.map_cons] at ih ⊢
    rw [e, ih hr]

theorem clone_sizes {s s' : St} {src : String} {ts : List String} {m : Bool} (h : clone s src ts m = .ok s') :
    sizes s'.objs = sizes s.objs := by
  unfold clone at h
  split at h
  · cases h
  split at h
  · cases h
  split at h
  · rename_i l hl
    obtain ⟨o1, e1, h⟩ := Out.bind_eq_ok.mp h
    obtain ⟨o2, e2, h⟩ := Out.bind_eq_ok.mp h
    obtain ⟨o3, e3, h⟩ := Out.bind_eq_ok.mp h
    cases Out.ok.inj h
    have f1 : sizes o1 = sizes s.objs := by
      by_cases e : l.recycled = []
      · rw [if_pos e] at e1; cases Out.ok.inj e1; rfl
      · rw [if_neg e] at e1; exact sizes_mapOut (Obj.alloc_cols e _) e1
    have f2 : sizes o2 = sizes o1 := by
      by_cases e : l.overwritten = []
      · rw [if_pos e] at e2; cases Out.ok.inj e2; rfl
      · rw [if_neg e] at e2; exact sizes_mapOut (Obj.alloc_cols e _) e2
    have f3 : sizes o3 = sizes o2 := by
      by_cases e : l.ext = 0
      · rw [if_pos e] at e3; cases Out.ok.inj e3; rfl
      · rw [if_neg e] at e3; exact sizes_mapOut (Obj.ext_cols e _) e3
    show sizes o3 = _
    rw [f3, f2, f1]
  · cases h
  · cases h

theorem remove_sizes {s s' : St} {t : Variants.Thread} {id : String} (h : remove s t id = .ok s') :
    sizes s'.objs = sizes s.objs := by
  unfold remove at h
  split at h
  · cases h
  split at h
  · cases h
  simp only [] at h
  split at h
  · obtain ⟨o, e, h⟩ := Out.bind_eq_ok.mp h
    cases Out.ok.inj h
    exact sizes_mapOut (Obj.red_cols _) e
  · obtain ⟨o, e, h⟩ := Out.bind_eq_ok.mp h
    cases Out.ok.inj h
    exact sizes_mapOut (Obj.del_cols _) e

/-- What a reading returns. -/
def ofOut {α : Type} : Out α → Option α
  | .ok v => some v
  | _ => none

/-- A value of an object, in the list of all the values. -/
theorem value_readIn {s : St} (hi : Variants.Inv s.abs) (id : String) (k c : Nat) (hc : c < (sizes s.objs).getD k 0) :
    value s id k c = ofOut (Variants.readIn s.abs id (offset s.objs k + c)) := by
  rw [Variants.readIn_eq]
  unfold value
  have hb : s.abs.bk.byId.get? id = s.bk.byId.get? id := rfl
  rw [hb]
  cases h1 : s.bk.byId.get? id with
  | none => rfl
  | some i =>
    simp only [Option.bind_some]
    cases h2 : s.objs[k]? with
    | none =>
      have : (sizes s.objs).getD k 0 = 0 := by simp [sizes, List.getD, h2]
      omega
    | some o =>
      have hc' : c < o.cols.length := by
        have : (sizes s.objs).getD k 0 = o.cols.length := by simp [sizes, List.getD, h2]
        omega
      have hf : s.abs.arrs[offset s.objs k + c]? = o.cols[c]? := flat_at _ k c h2 hc'
      rw [hf]
      simp only [Option.bind_some, List.getElem?_eq_getElem hc']
      have hm : o.cols[c] ∈ s.abs.arrs :=
        List.mem_flatMap.mpr ⟨o, List.mem_of_getElem? h2, List.getElem_mem hc'⟩
      obtain ⟨v, hv⟩ := (hi.arrs _ hm).filled _ _ h1
      simp only [Arr.read, hv, Option.join_some, ofOut]

/-- No value outside of the objects. -/
theorem value_none {s : St} {id : String} {k c : Nat} (hc : ¬ c < (sizes s.objs).getD k 0) : value s id k c = none := by
  unfold value
  cases s.bk.byId.get? id with
  | none => rfl
  | some i =>
    cases h2 : s.objs[k]? with
    | none => rfl
    | some o =>
      have : (sizes s.objs).getD k 0 = o.cols.length := by simp [sizes, List.getD, h2]
      have h3 : o.cols[c]? = none := List.getElem?_eq_none_iff.mpr (by omega)
      simp [h3]

/-! ### Invariant -/

theorem abs_inv_of_fits {s : St} {l : List Obj} (h : Variants.Inv s.abs) (hl : ∀ o ∈ l, o ∈ s.objs ∨ Fits s.bk o) :
    Variants.Inv ({ s with objs := l } : St).abs := by
  refine ⟨h.w, h.exact, ?_⟩
  intro a ha
  obtain ⟨o, ho, hao⟩ := List.mem_flatMap.mp ha
  rcases hl o ho with h1 | h1
  · exact h.arrs a (List.mem_flatMap.mpr ⟨o, h1, hao⟩)
  · exact ⟨(h1 a hao).1, (h1 a hao).2.1, (h1 a hao).2.2⟩

theorem clone_abs_ok {s s' : St} {src : String} {ts : List String} {m : Bool} (h : clone s src ts m = .ok s') :
    Variants.clone s.abs src ts m = (.ok (), s'.abs) := by
  have := clone_abs s src ts m
  rw [h] at this
  exact toOut_ok this.symm

theorem remove_abs_ok {s s' : St} {t : Variants.Thread} {id : String} (h : remove s t id = .ok s') :
    Variants.remove s.abs t id = (.ok (), s'.abs) := by
  have := remove_abs s t id
  rw [h] at this
  exact toOut_ok this.symm

theorem clone_src {s s' : St} {src : String} {ts : List String} {m : Bool} (h : clone s src ts m = .ok s') :
    s.bk.byId.get? src ≠ none := by
  unfold clone at h
  split at h
  · cases h
  split at h
  · cases h
  · rename_i hx; rw [hx]; simp

theorem remove_pre {s s' : St} {t : Variants.Thread} {id : String} (h : remove s t id = .ok s') :
    id ≠ Variants.initialId ∧ ∃ i, s.bk.byId.get? id = some i := by
  unfold remove at h
  split at h
  · cases h
  · rename_i h1
    split at h
    · cases h
    · rename_i i hx; exact ⟨h1, i, hx⟩

theorem reached_inv {s : St} (h : Reached s) : Variants.Inv s.abs := by
  induction h with
  | init tls => exact Variants.inv_init tls
  | add _ ho ih =>
    refine abs_inv_of_fits ih ?_
    intro o hm
    rcases List.mem_append.mp hm with hm | hm
    · exact Or.inl hm
    · exact Or.inr (List.mem_singleton.mp hm ▸ ho)
  | change k o _ ho ih =>
    refine abs_inv_of_fits ih ?_
    intro o' hm
    rcases List.mem_or_eq_of_mem_set hm with hm | hm
    · exact Or.inl hm
    · exact Or.inr (hm ▸ ho)
  | drop k _ ih => exact abs_inv_of_fits ih fun o hm => Or.inl (List.mem_of_mem_eraseIdx hm)
  | @clone s s' src ts m _ hc hk ih =>
    have e := clone_abs_ok hk
    have := (Variants.clone_ok ih (src := src) (clone_src hk) hc.1 hc.2.1 hc.2.2).2.1
    rw [e] at this; exact this
  | @remove s s' t id _ hk ih =>
    obtain ⟨h1, i, h2⟩ := remove_pre hk
    have := (Variants.remove_ok ih t h1 (index := i) h2).2.1
    rw [remove_abs_ok hk] at this; exact this
  | @setWorking s s' t id _ hk ih =>
    have e := setWorking_abs s t id
    rw [hk] at e
    have e := toOut_ok e.symm
    have := Variants.step_inv ih (op := .setWorking t id) trivial
    have e' : Variants.step s.abs (.setWorking t id) = (.ok (), s'.abs) := e
    rw [e'] at this; exact this
  | allowMT t b _ ih =>
    rw [allowMT_abs]
    exact Variants.step_inv ih (op := .allowMT t b) trivial

end Verif.Fields
