import Verif.Fields.Spec
import Verif.Variants.Effects

/-! Lemmas for C93. -/

set_option linter.unusedSimpArgs false

namespace Verif.Fields

open Verif
open Verif.Variants (Arr)

/-! ### Sequencing -/

theorem bind_eq {α β : Type} (x : Out α) (f : α → Out β) : (x >>= f) = x.bind f := rfl

theorem bind_assoc {α β γ : Type} (x : Out α) (f : α → Out β) (g : β → Out γ) :
    (x.bind f).bind g = x.bind fun a => (f a).bind g := by
  cases x <;> rfl

theorem mapOut_cons {α β : Type} (f : α → Out β) (a : α) (r : List α) :
    mapOut f (a :: r) = (f a).bind fun a' => (mapOut f r).bind fun r' => .ok (a' :: r') := rfl

theorem mapOut_nil {α β : Type} (f : α → Out β) : mapOut f [] = .ok [] := rfl

theorem mapOut_append {α β : Type} (f : α → Out β) (a b : List α) :
    mapOut f (a ++ b) = (mapOut f a).bind fun a' => (mapOut f b).bind fun b' => .ok (a' ++ b') := by
  induction a with
  | nil =>
    show mapOut f b = (mapOut f b).bind fun b' => .ok b'
    cases mapOut f b <;> rfl
  | cons x r ih =>
    simp only [List.cons_append, mapOut_cons, ih, bind_assoc, Out.bind_ok]

/-- A loop over objects of which each follows the operation on its values. -/
theorem mapOut_flatMap {α V : Type} {f : V → Out V} {g : α → Out α} {c : α → List V}
    (h : ∀ x, mapOut f (c x) = (g x).bind fun x' => .ok (c x')) (l : List α) :
    mapOut f (l.flatMap c) = (mapOut g l).bind fun l' => .ok (l'.flatMap c) := by
  induction l with
  | nil => rfl
  | cons x r ih => simp only [List.flatMap_cons, mapOut_append, mapOut_cons, h, ih, bind_assoc, Out.bind_ok]

theorem mapOut_opt {α V : Type} {f : V → Out V} {g : α → Out α} {c : α → List V}
    (h : ∀ x, mapOut f (c x) = (g x).bind fun x' => .ok (c x')) (o : Option α) :
    mapOut f (o.toList.flatMap c) = (optOut g o).bind fun o' => .ok (o'.toList.flatMap c) := by
  cases o with
  | none => rfl
  | some x =>
    simp only [Option.toList_some, List.flatMap_cons, List.flatMap_nil, List.append_nil, h, optOut, bind_eq, bind_assoc,
      Out.pure_eq, Out.bind_ok]

theorem mapOut_length {α β : Type} {f : α → Out β} {l : List α} {l' : List β} (h : mapOut f l = .ok l') :
    l'.length = l.length := by
  induction l generalizing l' with
  | nil => cases Out.ok.inj h; rfl
  | cons a r ih =>
    rw [mapOut_cons] at h
    obtain ⟨a', _, h⟩ := Out.bind_eq_ok.mp h
    obtain ⟨r', hr, h⟩ := Out.bind_eq_ok.mp h
    cases Out.ok.inj h
    simp [ih hr]

/-! ### One array -/

/-- The operations on one attribute, as functions. -/
def opAlloc (idxs : List Nat) (src : Nat) (a : Arr Val) : Out (Arr Val) := a.allocate idxs src
/-- Extension. -/
def opExt (n src : Nat) (a : Arr Val) : Out (Arr Val) := a.extend n src
/-- Reduction. -/
def opRed (n : Nat) (a : Arr Val) : Out (Arr Val) := a.reduce n
/-- Removal of an element. -/
def opDel (i : Nat) (a : Arr Val) : Out (Arr Val) := a.delete i

theorem foldl_set_map {α : Type} (inj : α → Option Val) (v : α) (idxs : List Nat) (l : List α) :
    idxs.foldl (fun l i => l.set i (inj v)) (l.map inj) = (idxs.foldl (fun l i => l.set i v) l).map inj := by
  induction idxs generalizing l with
  | nil => rfl
  | cons a r ih => simp only [List.foldl_cons, ← List.map_set, ih]

/-- What an allocation leaves, in one step. -/
theorem foldlM_put {α : Type} (v : α) (idxs : List Nat) (l : List α) :
    idxs.foldlM (fun l i => put v i l) l =
      if idxs.all (fun i => decide (i < l.length)) then .ok (idxs.foldl (fun l i => l.set i v) l) else .ub := by
  induction idxs generalizing l with
  | nil => rfl
  | cons a r ih =>
    simp only [List.foldlM_cons, bind_eq, List.all_cons, List.foldl_cons]
    by_cases h : a < l.length
    · have hp : put v a l = .ok (l.set a v) := by simp [put, h]
      simp only [hp, Out.bind_ok, ih, List.length_set, h, decide_true, Bool.true_and]
    · have hp : put v a l = .ub := by simp [put, h]
      simp [hp, h]

theorem foldlM_assign {α : Type} (src : Nat) {v : α} (idxs : List Nat) (l : List α) (hv : l[src]? = some v) :
    idxs.foldlM (assign src) l = idxs.foldlM (fun l i => put v i l) l := by
  induction idxs generalizing l with
  | nil => rfl
  | cons a r ih =>
    simp only [List.foldlM_cons, bind_eq]
    by_cases h : a < l.length
    · simp only [assign, put, hv, h, if_true, Out.bind_ok]
      apply ih
      rw [List.getElem?_set]
      split
      · simp [h]
      · exact hv
    · simp only [assign, put, hv, h, if_false, Out.bind_ub]

theorem foldlM_cacheAssign (src : Nat) {b : Bool} (idxs : List Nat) (l : Cache) (hv : l[src]? = some (some b)) :
    idxs.foldlM (cacheAssign src) l = idxs.foldlM (fun l i => put (some false) i l) l := by
  induction idxs generalizing l b with
  | nil => rfl
  | cons a r ih =>
    simp only [List.foldlM_cons, bind_eq, cacheAssign, cacheCopy, hv, Out.bind_ok]
    by_cases h : a < l.length
    · simp only [put, h, if_true, Out.bind_ok]
      by_cases e : a = src
      · exact ih (b := false) _ (by rw [List.getElem?_set]; simp [e ▸ h, e])
      · exact ih (b := b) _ (by rw [List.getElem?_set]; simp [e, hv])
    · simp only [put, h, if_false, Out.bind_ub]

theorem alloc_slots {α : Type} (k : Variants.Kind Val) (inj : α → Val) {idxs : List Nat} (h : idxs ≠ []) (src : Nat)
    (l : List α) :
    Arr.allocate ⟨k, l.map (fun v => some (inj v))⟩ idxs src =
      (alloc idxs src l).bind fun l' => .ok ⟨k, l'.map (fun v => some (inj v))⟩ := by
  unfold Arr.allocate alloc
  simp only [List.getElem?_map, List.length_map]
  cases hv : l[src]? with
  | none =>
    cases idxs with
    | nil => exact absurd rfl h
    | cons a r => simp only [Option.map_none, List.foldlM_cons, bind_eq, assign, hv, Out.bind_ub]
  | some v =>
    simp only [Option.map_some, foldlM_assign src idxs l hv, foldlM_put]
    split
    · simp only [Out.bind_ok, Variants.setAll]
      rw [foldl_set_map (fun v => some (inj v)) v]
    · rfl

theorem ext_slots {α : Type} (k : Variants.Kind Val) (inj : α → Val) (n src : Nat) (l : List α) :
    Arr.extend ⟨k, l.map (fun v => some (inj v))⟩ n src =
      (ext n src l).bind fun l' => .ok ⟨k, l'.map (fun v => some (inj v))⟩ := by
  unfold Arr.extend ext
  simp only [List.getElem?_map]
  cases hv : l[src]? with
  | none => rfl
  | some v => simp

theorem red_slots {α : Type} {k : Variants.Kind Val} (hk : k.badReduce = none) (inj : α → Val) (n : Nat) (l : List α) :
    Arr.reduce ⟨k, l.map (fun v => some (inj v))⟩ n =
      (red n l).bind fun l' => .ok ⟨k, l'.map (fun v => some (inj v))⟩ := by
  unfold Arr.reduce red
  simp only [hk, List.length_map]
  split
  · simp [List.map_take]
  · rfl

theorem alloc_col {α : Type} (inj : α → Val) {idxs : List Nat} (h : idxs ≠ []) (src : Nat) (l : List α) :
    opAlloc idxs src (col inj l) = (alloc idxs src l).bind fun l' => .ok (col inj l') := alloc_slots _ inj h src l
theorem alloc_clearing {α : Type} (inj : α → Val) (d : Val) {idxs : List Nat} (h : idxs ≠ []) (src : Nat) (l : List α) :
    opAlloc idxs src (clearing inj d l) = (alloc idxs src l).bind fun l' => .ok (clearing inj d l') :=
  alloc_slots _ inj h src l
theorem ext_col {α : Type} (inj : α → Val) (n src : Nat) (l : List α) :
    opExt n src (col inj l) = (ext n src l).bind fun l' => .ok (col inj l') := ext_slots _ inj n src l
theorem ext_clearing {α : Type} (inj : α → Val) (d : Val) (n src : Nat) (l : List α) :
    opExt n src (clearing inj d l) = (ext n src l).bind fun l' => .ok (clearing inj d l') := ext_slots _ inj n src l
theorem red_col {α : Type} (inj : α → Val) (n : Nat) (l : List α) :
    opRed n (col inj l) = (red n l).bind fun l' => .ok (col inj l') := red_slots rfl inj n l
theorem red_clearing {α : Type} (inj : α → Val) (d : Val) (n : Nat) (l : List α) :
    opRed n (clearing inj d l) = (red n l).bind fun l' => .ok (clearing inj d l') := red_slots rfl inj n l
theorem del_col {α : Type} (inj : α → Val) (i : Nat) (l : List α) : opDel i (col inj l) = .ok (col inj l) := rfl
theorem del_clearing {α : Type} (inj : α → Val) (d : α) (i : Nat) (l : List α) :
    opDel i (clearing inj (inj d) l) = (put d i l).bind fun l' => .ok (clearing inj (inj d) l') := by
  unfold opDel Arr.delete clearing put
  simp only [List.length_map]
  split
  · simp [List.map_set]
  · rfl

theorem alloc_caches {idxs : List Nat} (h : idxs ≠ []) (src : Nat) (l : Cache) :
    opAlloc idxs src (caches l) = (cacheAlloc idxs src l).bind fun l' => .ok (caches l') := by
  unfold opAlloc Arr.allocate cacheAlloc caches
  simp only [List.getElem?_map, List.length_map]
  have bad : (∀ b, l[src]? ≠ some (some b)) → idxs.foldlM (cacheAssign src) l = .ub := by
    intro hb
    cases idxs with
    | nil => exact absurd rfl h
    | cons a r =>
      have : cacheCopy src l = .ub := by
        unfold cacheCopy
        split
        · exact absurd ‹_› (hb _)
        · rfl
      simp only [List.foldlM_cons, bind_eq, cacheAssign, this, Out.bind_ub]
  cases hv : l[src]? with
  | none => rw [bad (by simp [hv])]; rfl
  | some c =>
    cases c with
    | none => rw [bad (by simp [hv])]; rfl
    | some b =>
      simp only [Option.map_some, foldlM_cacheAssign src idxs l hv, foldlM_put]
      split
      · simp only [Out.bind_ok, Variants.setAll]
        have := foldl_set_map (fun c : Option Bool => c.map fun _ => Val.present) (some false) idxs l
        rw [Option.map_some] at this
        rw [this]
      · rfl

/-- What the extension of the caches leaves. -/
theorem cacheExt_eq {src : Nat} {b : Bool} (n : Nat) (l : Cache) (hv : l[src]? = some (some b)) :
    cacheExt n src l = .ok (l ++ List.replicate n (some false)) := by
  induction n generalizing l with
  | zero => simp [cacheExt]
  | succ n ih =>
    simp only [cacheExt, bind_eq, cacheCopy, hv, Out.bind_ok]
    rw [ih]
    · simp [List.replicate_succ]
    · rw [List.getElem?_append_left (List.getElem?_eq_some_iff.mp hv).1, hv]

theorem ext_caches {n : Nat} (h : n ≠ 0) (src : Nat) (l : Cache) :
    opExt n src (caches l) = (cacheExt n src l).bind fun l' => .ok (caches l') := by
  unfold opExt Arr.extend caches
  simp only [List.getElem?_map]
  have bad : (∀ b, l[src]? ≠ some (some b)) → cacheExt n src l = .ub := by
    intro hb
    cases n with
    | zero => exact absurd rfl h
    | succ n =>
      have : cacheCopy src l = .ub := by
        unfold cacheCopy
        split
        · exact absurd ‹_› (hb _)
        · rfl
      simp only [cacheExt, bind_eq, this, Out.bind_ub]
  cases hv : l[src]? with
  | none => rw [bad (by simp [hv])]; rfl
  | some c =>
    cases c with
    | none => rw [bad (by simp [hv])]; rfl
    | some b => rw [cacheExt_eq n l hv]; simp

theorem red_caches (n : Nat) (l : Cache) :
    opRed n (caches l) = (cacheRed n l).bind fun l' => .ok (caches l') := by
  unfold opRed Arr.reduce caches cacheRed red
  simp only [Variants.variantArray, List.length_map]
  split
  · simp [List.map_take]
  · rfl

theorem del_caches (i : Nat) (l : Cache) :
    opDel i (caches l) = (cacheDel i l).bind fun l' => .ok (caches l') := by
  unfold opDel Arr.delete caches cacheDel put
  simp only [Variants.variantArray, List.length_map]
  split
  · simp [List.map_set]
  · rfl

/-! ### The classes -/

theorem Slack.alloc_cols {idxs : List Nat} (h : idxs ≠ []) (src : Nat) (x : Slack) :
    mapOut (opAlloc idxs src) x.cols = (x.alloc idxs src).bind fun x' => .ok x'.cols := by
  simp only [Slack.cols, mapOut_cons, mapOut_nil, Out.bind_ok, opAlloc, slacks, alloc_slots _ Val.ref h, Slack.alloc,
    Fields.alloc]
  cases hv : x.terminals[src]? with
  | none =>
    cases idxs with
    | nil => exact absurd rfl h
    | cons a r => simp only [List.foldlM_cons, bind_eq, assign, hv, Out.bind_ub]
  | some t =>
    simp only [foldlM_assign src idxs _ hv, bind_eq, bind_assoc, Out.bind_ok, Out.pure_eq]

theorem Slack.ext_cols (n src : Nat) (x : Slack) :
    mapOut (opExt n src) x.cols = (x.ext n src).bind fun x' => .ok x'.cols := by
  simp only [Slack.cols, mapOut_cons, mapOut_nil, Out.bind_ok, opExt, slacks, ext_slots _ Val.ref, Slack.ext, bind_eq,
    bind_assoc, Out.pure_eq]

theorem Slack.red_cols (n : Nat) (x : Slack) :
    mapOut (opRed n) x.cols = (x.red n).bind fun x' => .ok x'.cols := by
  simp [Slack.cols, mapOut_cons, mapOut_nil, opRed, slacks, Slack.red, Arr.reduce, Variants.slackTerminal, List.map_take]

theorem Slack.del_cols (i : Nat) (x : Slack) :
    mapOut (opDel i) x.cols = (x.del i).bind fun x' => .ok x'.cols := by
  simp only [Slack.cols, mapOut_cons, mapOut_nil, Out.bind_ok, opDel, slacks, Slack.del, Arr.delete,
    Variants.slackTerminal, List.length_map, put, bind_eq]
  split
  · simp [List.map_set]
  · rfl

theorem LoadDetail.alloc_cols {idxs : List Nat} (h : idxs ≠ []) (src : Nat) (x : LoadDetail) :
    mapOut (opAlloc idxs src) x.cols = (x.alloc idxs src).bind fun x' => .ok x'.cols := by
  simp only [LoadDetail.cols, LoadDetail.alloc, mapOut_append, mapOut_cons, mapOut_nil, alloc_col _ h, alloc_clearing _ _ h, alloc_caches h,
    bind_eq, bind_assoc, Out.pure_eq, Out.bind_ok]

theorem LoadDetail.ext_cols {n : Nat} (h : n ≠ 0) (src : Nat) (x : LoadDetail) :
    mapOut (opExt n src) x.cols = (x.ext n src).bind fun x' => .ok x'.cols := by
  simp only [LoadDetail.cols, LoadDetail.ext, mapOut_append, mapOut_cons, mapOut_nil, ext_col, ext_clearing, ext_caches h,
    bind_eq, bind_assoc, Out.pure_eq, Out.bind_ok]

theorem LoadDetail.red_cols (n : Nat) (x : LoadDetail) :
    mapOut (opRed n) x.cols = (x.red n).bind fun x' => .ok x'.cols := by
  simp only [LoadDetail.cols, LoadDetail.red, mapOut_append, mapOut_cons, mapOut_nil, red_col, red_clearing, red_caches,
    bind_eq, bind_assoc, Out.pure_eq, Out.bind_ok]

theorem LoadDetail.del_cols (i : Nat) (x : LoadDetail) :
    mapOut (opDel i) x.cols = (x.del i).bind fun x' => .ok x'.cols := by
  simp only [LoadDetail.cols, LoadDetail.del, mapOut_append, mapOut_cons, mapOut_nil, del_col, del_clearing, del_caches,
    bind_eq, bind_assoc, Out.pure_eq, Out.bind_ok]

theorem Ext.alloc_cols {idxs : List Nat} (h : idxs ≠ []) (src : Nat) (x : Ext) :
    mapOut (opAlloc idxs src) x.cols = (x.alloc idxs src).bind fun x' => .ok x'.cols := by
  cases x with
  | loadDetail d =>
    simp only [Ext.cols, LoadDetail.alloc_cols h src, Ext.alloc, bind_eq, bind_assoc, Out.pure_eq, Out.bind_ok]
  | slack d =>
    simp only [Ext.cols, Slack.alloc_cols h src, Ext.alloc, bind_eq, bind_assoc, Out.pure_eq, Out.bind_ok]
  | other => rfl

theorem Ext.ext_cols {n : Nat} (h : n ≠ 0) (src : Nat) (x : Ext) :
    mapOut (opExt n src) x.cols = (x.ext n src).bind fun x' => .ok x'.cols := by
  cases x with
  | loadDetail d =>
    simp only [Ext.cols, LoadDetail.ext_cols h src, Ext.ext, bind_eq, bind_assoc, Out.pure_eq, Out.bind_ok]
  | slack d =>
    simp only [Ext.cols, Slack.ext_cols n src, Ext.ext, bind_eq, bind_assoc, Out.pure_eq, Out.bind_ok]
  | other => rfl

theorem Ext.red_cols (n : Nat) (x : Ext) :
    mapOut (opRed n) x.cols = (x.red n).bind fun x' => .ok x'.cols := by
  cases x with
  | loadDetail d =>
    simp only [Ext.cols, LoadDetail.red_cols n, Ext.red, bind_eq, bind_assoc, Out.pure_eq, Out.bind_ok]
  | slack d =>
    simp only [Ext.cols, Slack.red_cols n, Ext.red, bind_eq, bind_assoc, Out.pure_eq, Out.bind_ok]
  | other => rfl

theorem Ext.del_cols (i : Nat) (x : Ext) :
    mapOut (opDel i) x.cols = (x.del i).bind fun x' => .ok x'.cols := by
  cases x with
  | loadDetail d =>
    simp only [Ext.cols, LoadDetail.del_cols i, Ext.del, bind_eq, bind_assoc, Out.pure_eq, Out.bind_ok]
  | slack d =>
    simp only [Ext.cols, Slack.del_cols i, Ext.del, bind_eq, bind_assoc, Out.pure_eq, Out.bind_ok]
  | other => rfl

theorem Terminal.alloc_cols {idxs : List Nat} (h : idxs ≠ []) (src : Nat) (x : Terminal) :
    mapOut (opAlloc idxs src) x.cols = (x.alloc idxs src).bind fun x' => .ok x'.cols := by
  simp only [Terminal.cols, Terminal.alloc, mapOut_append, mapOut_cons, mapOut_nil, alloc_col _ h, alloc_clearing _ _ h, alloc_caches h,
    bind_eq, bind_assoc, Out.pure_eq, Out.bind_ok]

theorem Terminal.ext_cols {n : Nat} (h : n ≠ 0) (src : Nat) (x : Terminal) :
    mapOut (opExt n src) x.cols = (x.ext n src).bind fun x' => .ok x'.cols := by
  simp only [Terminal.cols, Terminal.ext, mapOut_append, mapOut_cons, mapOut_nil, ext_col, ext_clearing, ext_caches h,
    bind_eq, bind_assoc, Out.pure_eq, Out.bind_ok]

theorem Terminal.red_cols (n : Nat) (x : Terminal) :
    mapOut (opRed n) x.cols = (x.red n).bind fun x' => .ok x'.cols := by
  simp only [Terminal.cols, Terminal.red, mapOut_append, mapOut_cons, mapOut_nil, red_col, red_clearing, red_caches,
    bind_eq, bind_assoc, Out.pure_eq, Out.bind_ok]

theorem Terminal.del_cols (i : Nat) (x : Terminal) :
    mapOut (opDel i) x.cols = (x.del i).bind fun x' => .ok x'.cols := by
  simp only [Terminal.cols, Terminal.del, mapOut_append, mapOut_cons, mapOut_nil, del_col, del_clearing, del_caches,
    bind_eq, bind_assoc, Out.pure_eq, Out.bind_ok]

theorem NodeTerminal.alloc_cols {idxs : List Nat} (h : idxs ≠ []) (src : Nat) (x : NodeTerminal) :
    mapOut (opAlloc idxs src) x.cols = (x.alloc idxs src).bind fun x' => .ok x'.cols := by
  simp only [NodeTerminal.cols, NodeTerminal.alloc, mapOut_append, mapOut_cons, mapOut_nil, alloc_col _ h, alloc_clearing _ _ h, alloc_caches h,
    bind_eq, bind_assoc, Out.pure_eq, Out.bind_ok, Terminal.alloc_cols h src]

theorem NodeTerminal.ext_cols {n : Nat} (h : n ≠ 0) (src : Nat) (x : NodeTerminal) :
    mapOut (opExt n src) x.cols = (x.ext n src).bind fun x' => .ok x'.cols := by
  simp only [NodeTerminal.cols, NodeTerminal.ext, mapOut_append, mapOut_cons, mapOut_nil, ext_col, ext_clearing, ext_caches h,
    bind_eq, bind_assoc, Out.pure_eq, Out.bind_ok, Terminal.ext_cols h src]

theorem NodeTerminal.red_cols (n : Nat) (x : NodeTerminal) :
    mapOut (opRed n) x.cols = (x.red n).bind fun x' => .ok x'.cols := by
  simp only [NodeTerminal.cols, NodeTerminal.red, mapOut_append, mapOut_cons, mapOut_nil, red_col, red_clearing, red_caches,
    bind_eq, bind_assoc, Out.pure_eq, Out.bind_ok, Terminal.red_cols n]

theorem NodeTerminal.del_cols (i : Nat) (x : NodeTerminal) :
    mapOut (opDel i) x.cols = (x.del i).bind fun x' => .ok x'.cols := by
  simp only [NodeTerminal.cols, NodeTerminal.del, mapOut_append, mapOut_cons, mapOut_nil, del_col, del_clearing, del_caches,
    bind_eq, bind_assoc, Out.pure_eq, Out.bind_ok, Terminal.del_cols i]

theorem BusTerminal.alloc_cols {idxs : List Nat} (h : idxs ≠ []) (src : Nat) (x : BusTerminal) :
    mapOut (opAlloc idxs src) x.cols = (x.alloc idxs src).bind fun x' => .ok x'.cols := by
  simp only [BusTerminal.cols, BusTerminal.alloc, mapOut_append, mapOut_cons, mapOut_nil, alloc_col _ h, alloc_clearing _ _ h, alloc_caches h,
    bind_eq, bind_assoc, Out.pure_eq, Out.bind_ok, Terminal.alloc_cols h src]

theorem BusTerminal.ext_cols {n : Nat} (h : n ≠ 0) (src : Nat) (x : BusTerminal) :
    mapOut (opExt n src) x.cols = (x.ext n src).bind fun x' => .ok x'.cols := by
  simp only [BusTerminal.cols, BusTerminal.ext, mapOut_append, mapOut_cons, mapOut_nil, ext_col, ext_clearing, ext_caches h,
    bind_eq, bind_assoc, Out.pure_eq, Out.bind_ok, Terminal.ext_cols h src]

theorem BusTerminal.red_cols (n : Nat) (x : BusTerminal) :
    mapOut (opRed n) x.cols = (x.red n).bind fun x' => .ok x'.cols := by
  simp only [BusTerminal.cols, BusTerminal.red, mapOut_append, mapOut_cons, mapOut_nil, red_col, red_clearing, red_caches,
    bind_eq, bind_assoc, Out.pure_eq, Out.bind_ok, Terminal.red_cols n]

theorem BusTerminal.del_cols (i : Nat) (x : BusTerminal) :
    mapOut (opDel i) x.cols = (x.del i).bind fun x' => .ok x'.cols := by
  simp only [BusTerminal.cols, BusTerminal.del, mapOut_append, mapOut_cons, mapOut_nil, del_col, del_clearing, del_caches,
    bind_eq, bind_assoc, Out.pure_eq, Out.bind_ok, Terminal.del_cols i]

theorem Term.alloc_cols {idxs : List Nat} (h : idxs ≠ []) (src : Nat) (x : Term) :
    mapOut (opAlloc idxs src) x.cols = (x.alloc idxs src).bind fun x' => .ok x'.cols := by
  cases x with
  | node d =>
    simp only [Term.cols, NodeTerminal.alloc_cols h src, Term.alloc, bind_eq, bind_assoc, Out.pure_eq, Out.bind_ok]
  | bus d =>
    simp only [Term.cols, BusTerminal.alloc_cols h src, Term.alloc, bind_eq, bind_assoc, Out.pure_eq, Out.bind_ok]

theorem Term.ext_cols {n : Nat} (h : n ≠ 0) (src : Nat) (x : Term) :
    mapOut (opExt n src) x.cols = (x.ext n src).bind fun x' => .ok x'.cols := by
  cases x with
  | node d =>
    simp only [Term.cols, NodeTerminal.ext_cols h src, Term.ext, bind_eq, bind_assoc, Out.pure_eq, Out.bind_ok]
  | bus d =>
    simp only [Term.cols, BusTerminal.ext_cols h src, Term.ext, bind_eq, bind_assoc, Out.pure_eq, Out.bind_ok]

theorem Term.red_cols (n : Nat) (x : Term) :
    mapOut (opRed n) x.cols = (x.red n).bind fun x' => .ok x'.cols := by
  cases x with
  | node d =>
    simp only [Term.cols, NodeTerminal.red_cols n, Term.red, bind_eq, bind_assoc, Out.pure_eq, Out.bind_ok]
  | bus d =>
    simp only [Term.cols, BusTerminal.red_cols n, Term.red, bind_eq, bind_assoc, Out.pure_eq, Out.bind_ok]

theorem Term.del_cols (i : Nat) (x : Term) :
    mapOut (opDel i) x.cols = (x.del i).bind fun x' => .ok x'.cols := by
  cases x with
  | node d =>
    simp only [Term.cols, NodeTerminal.del_cols i, Term.del, bind_eq, bind_assoc, Out.pure_eq, Out.bind_ok]
  | bus d =>
    simp only [Term.cols, BusTerminal.del_cols i, Term.del, bind_eq, bind_assoc, Out.pure_eq, Out.bind_ok]

theorem Ident.alloc_cols {idxs : List Nat} (h : idxs ≠ []) (src : Nat) (x : Ident) :
    mapOut (opAlloc idxs src) x.cols = (x.alloc idxs src).bind fun x' => .ok x'.cols := by
  simp only [Ident.cols, Ident.alloc, mapOut_append, mapOut_cons, mapOut_nil, alloc_col _ h, alloc_clearing _ _ h, alloc_caches h,
    bind_eq, bind_assoc, Out.pure_eq, Out.bind_ok, mapOut_flatMap (Ext.alloc_cols h src)]

theorem Ident.ext_cols {n : Nat} (h : n ≠ 0) (src : Nat) (x : Ident) :
    mapOut (opExt n src) x.cols = (x.ext n src).bind fun x' => .ok x'.cols := by
  simp only [Ident.cols, Ident.ext, mapOut_append, mapOut_cons, mapOut_nil, ext_col, ext_clearing, ext_caches h,
    bind_eq, bind_assoc, Out.pure_eq, Out.bind_ok, mapOut_flatMap (Ext.ext_cols h src)]

theorem Ident.red_cols (n : Nat) (x : Ident) :
    mapOut (opRed n) x.cols = (x.red n).bind fun x' => .ok x'.cols := by
  simp only [Ident.cols, Ident.red, mapOut_append, mapOut_cons, mapOut_nil, red_col, red_clearing, red_caches,
    bind_eq, bind_assoc, Out.pure_eq, Out.bind_ok, mapOut_flatMap (Ext.red_cols n)]

theorem Ident.del_cols (i : Nat) (x : Ident) :
    mapOut (opDel i) x.cols = (x.del i).bind fun x' => .ok x'.cols := by
  simp only [Ident.cols, Ident.del, mapOut_append, mapOut_cons, mapOut_nil, del_col, del_clearing, del_caches,
    bind_eq, bind_assoc, Out.pure_eq, Out.bind_ok, mapOut_flatMap (Ext.del_cols i)]

theorem Conn.alloc_cols {idxs : List Nat} (h : idxs ≠ []) (src : Nat) (x : Conn) :
    mapOut (opAlloc idxs src) x.cols = (x.alloc idxs src).bind fun x' => .ok x'.cols := by
  simp only [Conn.cols, Conn.alloc, mapOut_append, mapOut_cons, mapOut_nil, alloc_col _ h, alloc_clearing _ _ h, alloc_caches h,
    bind_eq, bind_assoc, Out.pure_eq, Out.bind_ok, Ident.alloc_cols h src, mapOut_flatMap (Term.alloc_cols h src)]

theorem Conn.ext_cols {n : Nat} (h : n ≠ 0) (src : Nat) (x : Conn) :
    mapOut (opExt n src) x.cols = (x.ext n src).bind fun x' => .ok x'.cols := by
  simp only [Conn.cols, Conn.ext, mapOut_append, mapOut_cons, mapOut_nil, ext_col, ext_clearing, ext_caches h,
    bind_eq, bind_assoc, Out.pure_eq, Out.bind_ok, Ident.ext_cols h src, mapOut_flatMap (Term.ext_cols h src)]

theorem Conn.red_cols (n : Nat) (x : Conn) :
    mapOut (opRed n) x.cols = (x.red n).bind fun x' => .ok x'.cols := by
  simp only [Conn.cols, Conn.red, mapOut_append, mapOut_cons, mapOut_nil, red_col, red_clearing, red_caches,
    bind_eq, bind_assoc, Out.pure_eq, Out.bind_ok, Ident.red_cols n, mapOut_flatMap (Term.red_cols n)]

theorem Conn.del_cols (i : Nat) (x : Conn) :
    mapOut (opDel i) x.cols = (x.del i).bind fun x' => .ok x'.cols := by
  simp only [Conn.cols, Conn.del, mapOut_append, mapOut_cons, mapOut_nil, del_col, del_clearing, del_caches,
    bind_eq, bind_assoc, Out.pure_eq, Out.bind_ok, Ident.del_cols i, mapOut_flatMap (Term.del_cols i)]

theorem Load.alloc_cols {idxs : List Nat} (h : idxs ≠ []) (src : Nat) (x : Load) :
    mapOut (opAlloc idxs src) x.cols = (x.alloc idxs src).bind fun x' => .ok x'.cols := by
  simp only [Load.cols, Load.alloc, mapOut_append, mapOut_cons, mapOut_nil, alloc_col _ h, alloc_clearing _ _ h, alloc_caches h,
    bind_eq, bind_assoc, Out.pure_eq, Out.bind_ok, Conn.alloc_cols h src]

theorem Load.ext_cols {n : Nat} (h : n ≠ 0) (src : Nat) (x : Load) :
    mapOut (opExt n src) x.cols = (x.ext n src).bind fun x' => .ok x'.cols := by
  simp only [Load.cols, Load.ext, mapOut_append, mapOut_cons, mapOut_nil, ext_col, ext_clearing, ext_caches h,
    bind_eq, bind_assoc, Out.pure_eq, Out.bind_ok, Conn.ext_cols h src]

theorem Load.red_cols (n : Nat) (x : Load) :
    mapOut (opRed n) x.cols = (x.red n).bind fun x' => .ok x'.cols := by
  simp only [Load.cols, Load.red, mapOut_append, mapOut_cons, mapOut_nil, red_col, red_clearing, red_caches,
    bind_eq, bind_assoc, Out.pure_eq, Out.bind_ok, Conn.red_cols n]

theorem Load.del_cols (i : Nat) (x : Load) :
    mapOut (opDel i) x.cols = (x.del i).bind fun x' => .ok x'.cols := by
  simp only [Load.cols, Load.del, mapOut_append, mapOut_cons, mapOut_nil, del_col, del_clearing, del_caches,
    bind_eq, bind_assoc, Out.pure_eq, Out.bind_ok, Conn.del_cols i]

theorem Battery.alloc_cols {idxs : List Nat} (h : idxs ≠ []) (src : Nat) (x : Battery) :
    mapOut (opAlloc idxs src) x.cols = (x.alloc idxs src).bind fun x' => .ok x'.cols := by
  simp only [Battery.cols, Battery.alloc, mapOut_append, mapOut_cons, mapOut_nil, alloc_col _ h, alloc_clearing _ _ h, alloc_caches h,
    bind_eq, bind_assoc, Out.pure_eq, Out.bind_ok, Conn.alloc_cols h src]

theorem Battery.ext_cols {n : Nat} (h : n ≠ 0) (src : Nat) (x : Battery) :
    mapOut (opExt n src) x.cols = (x.ext n src).bind fun x' => .ok x'.cols := by
  simp only [Battery.cols, Battery.ext, mapOut_append, mapOut_cons, mapOut_nil, ext_col, ext_clearing, ext_caches h,
    bind_eq, bind_assoc, Out.pure_eq, Out.bind_ok, Conn.ext_cols h src]

theorem Battery.red_cols (n : Nat) (x : Battery) :
    mapOut (opRed n) x.cols = (x.red n).bind fun x' => .ok x'.cols := by
  simp only [Battery.cols, Battery.red, mapOut_append, mapOut_cons, mapOut_nil, red_col, red_clearing, red_caches,
    bind_eq, bind_assoc, Out.pure_eq, Out.bind_ok, Conn.red_cols n]

theorem Battery.del_cols (i : Nat) (x : Battery) :
    mapOut (opDel i) x.cols = (x.del i).bind fun x' => .ok x'.cols := by
  simp only [Battery.cols, Battery.del, mapOut_append, mapOut_cons, mapOut_nil, del_col, del_clearing, del_caches,
    bind_eq, bind_assoc, Out.pure_eq, Out.bind_ok, Conn.del_cols i]

theorem Generator.alloc_cols {idxs : List Nat} (h : idxs ≠ []) (src : Nat) (x : Generator) :
    mapOut (opAlloc idxs src) x.cols = (x.alloc idxs src).bind fun x' => .ok x'.cols := by
  simp only [Generator.cols, Generator.alloc, mapOut_append, mapOut_cons, mapOut_nil, alloc_col _ h, alloc_clearing _ _ h, alloc_caches h,
    bind_eq, bind_assoc, Out.pure_eq, Out.bind_ok, Conn.alloc_cols h src]

theorem Generator.ext_cols {n : Nat} (h : n ≠ 0) (src : Nat) (x : Generator) :
    mapOut (opExt n src) x.cols = (x.ext n src).bind fun x' => .ok x'.cols := by
  simp only [Generator.cols, Generator.ext, mapOut_append, mapOut_cons, mapOut_nil, ext_col, ext_clearing, ext_caches h,
    bind_eq, bind_assoc, Out.pure_eq, Out.bind_ok, Conn.ext_cols h src]

theorem Generator.red_cols (n : Nat) (x : Generator) :
    mapOut (opRed n) x.cols = (x.red n).bind fun x' => .ok x'.cols := by
  simp only [Generator.cols, Generator.red, mapOut_append, mapOut_cons, mapOut_nil, red_col, red_clearing, red_caches,
    bind_eq, bind_assoc, Out.pure_eq, Out.bind_ok, Conn.red_cols n]

theorem Generator.del_cols (i : Nat) (x : Generator) :
    mapOut (opDel i) x.cols = (x.del i).bind fun x' => .ok x'.cols := by
  simp only [Generator.cols, Generator.del, mapOut_append, mapOut_cons, mapOut_nil, del_col, del_clearing, del_caches,
    bind_eq, bind_assoc, Out.pure_eq, Out.bind_ok, Conn.del_cols i]

theorem Shunt.alloc_cols {idxs : List Nat} (h : idxs ≠ []) (src : Nat) (x : Shunt) :
    mapOut (opAlloc idxs src) x.cols = (x.alloc idxs src).bind fun x' => .ok x'.cols := by
  simp only [Shunt.cols, Shunt.alloc, mapOut_append, mapOut_cons, mapOut_nil, alloc_col _ h, alloc_clearing _ _ h, alloc_caches h,
    bind_eq, bind_assoc, Out.pure_eq, Out.bind_ok, Conn.alloc_cols h src]

theorem Shunt.ext_cols {n : Nat} (h : n ≠ 0) (src : Nat) (x : Shunt) :
    mapOut (opExt n src) x.cols = (x.ext n src).bind fun x' => .ok x'.cols := by
  simp only [Shunt.cols, Shunt.ext, mapOut_append, mapOut_cons, mapOut_nil, ext_col, ext_clearing, ext_caches h,
    bind_eq, bind_assoc, Out.pure_eq, Out.bind_ok, Conn.ext_cols h src]

theorem Shunt.red_cols (n : Nat) (x : Shunt) :
    mapOut (opRed n) x.cols = (x.red n).bind fun x' => .ok x'.cols := by
  simp only [Shunt.cols, Shunt.red, mapOut_append, mapOut_cons, mapOut_nil, red_col, red_clearing, red_caches,
    bind_eq, bind_assoc, Out.pure_eq, Out.bind_ok, Conn.red_cols n]

theorem Shunt.del_cols (i : Nat) (x : Shunt) :
    mapOut (opDel i) x.cols = (x.del i).bind fun x' => .ok x'.cols := by
  simp only [Shunt.cols, Shunt.del, mapOut_append, mapOut_cons, mapOut_nil, del_col, del_clearing, del_caches,
    bind_eq, bind_assoc, Out.pure_eq, Out.bind_ok, Conn.del_cols i]

theorem Svc.alloc_cols {idxs : List Nat} (h : idxs ≠ []) (src : Nat) (x : Svc) :
    mapOut (opAlloc idxs src) x.cols = (x.alloc idxs src).bind fun x' => .ok x'.cols := by
  simp only [Svc.cols, Svc.alloc, mapOut_append, mapOut_cons, mapOut_nil, alloc_col _ h, alloc_clearing _ _ h, alloc_caches h,
    bind_eq, bind_assoc, Out.pure_eq, Out.bind_ok, Conn.alloc_cols h src]

theorem Svc.ext_cols {n : Nat} (h : n ≠ 0) (src : Nat) (x : Svc) :
    mapOut (opExt n src) x.cols = (x.ext n src).bind fun x' => .ok x'.cols := by
  simp only [Svc.cols, Svc.ext, mapOut_append, mapOut_cons, mapOut_nil, ext_col, ext_clearing, ext_caches h,
    bind_eq, bind_assoc, Out.pure_eq, Out.bind_ok, Conn.ext_cols h src]

theorem Svc.red_cols (n : Nat) (x : Svc) :
    mapOut (opRed n) x.cols = (x.red n).bind fun x' => .ok x'.cols := by
  simp only [Svc.cols, Svc.red, mapOut_append, mapOut_cons, mapOut_nil, red_col, red_clearing, red_caches,
    bind_eq, bind_assoc, Out.pure_eq, Out.bind_ok, Conn.red_cols n]

theorem Svc.del_cols (i : Nat) (x : Svc) :
    mapOut (opDel i) x.cols = (x.del i).bind fun x' => .ok x'.cols := by
  simp only [Svc.cols, Svc.del, mapOut_append, mapOut_cons, mapOut_nil, del_col, del_clearing, del_caches,
    bind_eq, bind_assoc, Out.pure_eq, Out.bind_ok, Conn.del_cols i]

theorem Vsc.alloc_cols {idxs : List Nat} (h : idxs ≠ []) (src : Nat) (x : Vsc) :
    mapOut (opAlloc idxs src) x.cols = (x.alloc idxs src).bind fun x' => .ok x'.cols := by
  simp only [Vsc.cols, Vsc.alloc, mapOut_append, mapOut_cons, mapOut_nil, alloc_col _ h, alloc_clearing _ _ h, alloc_caches h,
    bind_eq, bind_assoc, Out.pure_eq, Out.bind_ok, Conn.alloc_cols h src]

theorem Vsc.ext_cols {n : Nat} (h : n ≠ 0) (src : Nat) (x : Vsc) :
    mapOut (opExt n src) x.cols = (x.ext n src).bind fun x' => .ok x'.cols := by
  simp only [Vsc.cols, Vsc.ext, mapOut_append, mapOut_cons, mapOut_nil, ext_col, ext_clearing, ext_caches h,
    bind_eq, bind_assoc, Out.pure_eq, Out.bind_ok, Conn.ext_cols h src]

theorem Vsc.red_cols (n : Nat) (x : Vsc) :
    mapOut (opRed n) x.cols = (x.red n).bind fun x' => .ok x'.cols := by
  simp only [Vsc.cols, Vsc.red, mapOut_append, mapOut_cons, mapOut_nil, red_col, red_clearing, red_caches,
    bind_eq, bind_assoc, Out.pure_eq, Out.bind_ok, Conn.red_cols n]

theorem Vsc.del_cols (i : Nat) (x : Vsc) :
    mapOut (opDel i) x.cols = (x.del i).bind fun x' => .ok x'.cols := by
  simp only [Vsc.cols, Vsc.del, mapOut_append, mapOut_cons, mapOut_nil, del_col, del_clearing, del_caches,
    bind_eq, bind_assoc, Out.pure_eq, Out.bind_ok, Conn.del_cols i]

theorem Generation.alloc_cols {idxs : List Nat} (h : idxs ≠ []) (src : Nat) (x : Generation) :
    mapOut (opAlloc idxs src) x.cols = (x.alloc idxs src).bind fun x' => .ok x'.cols := by
  simp only [Generation.cols, Generation.alloc, mapOut_append, mapOut_cons, mapOut_nil, alloc_col _ h, alloc_clearing _ _ h, alloc_caches h,
    bind_eq, bind_assoc, Out.pure_eq, Out.bind_ok]

theorem Generation.ext_cols {n : Nat} (h : n ≠ 0) (src : Nat) (x : Generation) :
    mapOut (opExt n src) x.cols = (x.ext n src).bind fun x' => .ok x'.cols := by
  simp only [Generation.cols, Generation.ext, mapOut_append, mapOut_cons, mapOut_nil, ext_col, ext_clearing, ext_caches h,
    bind_eq, bind_assoc, Out.pure_eq, Out.bind_ok]

theorem Generation.red_cols (n : Nat) (x : Generation) :
    mapOut (opRed n) x.cols = (x.red n).bind fun x' => .ok x'.cols := by
  simp only [Generation.cols, Generation.red, mapOut_append, mapOut_cons, mapOut_nil, red_col, red_clearing, red_caches,
    bind_eq, bind_assoc, Out.pure_eq, Out.bind_ok]

theorem Generation.del_cols (i : Nat) (x : Generation) :
    mapOut (opDel i) x.cols = (x.del i).bind fun x' => .ok x'.cols := by
  simp only [Generation.cols, Generation.del, mapOut_append, mapOut_cons, mapOut_nil, del_col, del_clearing, del_caches,
    bind_eq, bind_assoc, Out.pure_eq, Out.bind_ok]

theorem generation_del (i : Nat) (o : Option Generation) :
    mapOut (opDel i) (o.toList.flatMap Generation.cols) = .ok (o.toList.flatMap Generation.cols) := by
  cases o <;> rfl

theorem DanglingLine.alloc_cols {idxs : List Nat} (h : idxs ≠ []) (src : Nat) (x : DanglingLine) :
    mapOut (opAlloc idxs src) x.cols = (x.alloc idxs src).bind fun x' => .ok x'.cols := by
  simp only [DanglingLine.cols, DanglingLine.alloc, mapOut_append, mapOut_cons, mapOut_nil, alloc_col _ h, alloc_clearing _ _ h, alloc_caches h,
    bind_eq, bind_assoc, Out.pure_eq, Out.bind_ok, Conn.alloc_cols h src, mapOut_opt (Generation.alloc_cols h src)]

theorem DanglingLine.ext_cols {n : Nat} (h : n ≠ 0) (src : Nat) (x : DanglingLine) :
    mapOut (opExt n src) x.cols = (x.ext n src).bind fun x' => .ok x'.cols := by
  simp only [DanglingLine.cols, DanglingLine.ext, mapOut_append, mapOut_cons, mapOut_nil, ext_col, ext_clearing, ext_caches h,
    bind_eq, bind_assoc, Out.pure_eq, Out.bind_ok, Conn.ext_cols h src, mapOut_opt (Generation.ext_cols h src)]

theorem DanglingLine.red_cols (n : Nat) (x : DanglingLine) :
    mapOut (opRed n) x.cols = (x.red n).bind fun x' => .ok x'.cols := by
  simp only [DanglingLine.cols, DanglingLine.red, mapOut_append, mapOut_cons, mapOut_nil, red_col, red_clearing, red_caches,
    bind_eq, bind_assoc, Out.pure_eq, Out.bind_ok, Conn.red_cols n, mapOut_opt (Generation.red_cols n)]

theorem DanglingLine.del_cols (i : Nat) (x : DanglingLine) :
    mapOut (opDel i) x.cols = (x.del i).bind fun x' => .ok x'.cols := by
  simp only [DanglingLine.cols, DanglingLine.del, mapOut_append, mapOut_cons, mapOut_nil, del_col, del_clearing, del_caches,
    bind_eq, bind_assoc, Out.pure_eq, Out.bind_ok, Conn.del_cols i, generation_del]

theorem TapChanger.alloc_cols {idxs : List Nat} (h : idxs ≠ []) (src : Nat) (x : TapChanger) :
    mapOut (opAlloc idxs src) x.cols = (x.alloc idxs src).bind fun x' => .ok x'.cols := by
  simp only [TapChanger.cols, TapChanger.alloc, mapOut_append, mapOut_cons, mapOut_nil, alloc_col _ h, alloc_clearing _ _ h, alloc_caches h,
    bind_eq, bind_assoc, Out.pure_eq, Out.bind_ok]

theorem TapChanger.ext_cols {n : Nat} (h : n ≠ 0) (src : Nat) (x : TapChanger) :
    mapOut (opExt n src) x.cols = (x.ext n src).bind fun x' => .ok x'.cols := by
  simp only [TapChanger.cols, TapChanger.ext, mapOut_append, mapOut_cons, mapOut_nil, ext_col, ext_clearing, ext_caches h,
    bind_eq, bind_assoc, Out.pure_eq, Out.bind_ok]

theorem TapChanger.red_cols (n : Nat) (x : TapChanger) :
    mapOut (opRed n) x.cols = (x.red n).bind fun x' => .ok x'.cols := by
  simp only [TapChanger.cols, TapChanger.red, mapOut_append, mapOut_cons, mapOut_nil, red_col, red_clearing, red_caches,
    bind_eq, bind_assoc, Out.pure_eq, Out.bind_ok]

theorem TapChanger.del_cols (i : Nat) (x : TapChanger) :
    mapOut (opDel i) x.cols = (x.del i).bind fun x' => .ok x'.cols := by
  simp only [TapChanger.cols, TapChanger.del, mapOut_append, mapOut_cons, mapOut_nil, del_col, del_clearing, del_caches,
    bind_eq, bind_assoc, Out.pure_eq, Out.bind_ok]

theorem RatioTapChanger.alloc_cols {idxs : List Nat} (h : idxs ≠ []) (src : Nat) (x : RatioTapChanger) :
    mapOut (opAlloc idxs src) x.cols = (x.alloc idxs src).bind fun x' => .ok x'.cols := by
  simp only [RatioTapChanger.cols, RatioTapChanger.alloc, mapOut_append, mapOut_cons, mapOut_nil, alloc_col _ h, alloc_clearing _ _ h, alloc_caches h,
    bind_eq, bind_assoc, Out.pure_eq, Out.bind_ok, TapChanger.alloc_cols h src]

theorem RatioTapChanger.ext_cols {n : Nat} (h : n ≠ 0) (src : Nat) (x : RatioTapChanger) :
    mapOut (opExt n src) x.cols = (x.ext n src).bind fun x' => .ok x'.cols := by
  simp only [RatioTapChanger.cols, RatioTapChanger.ext, mapOut_append, mapOut_cons, mapOut_nil, ext_col, ext_clearing, ext_caches h,
    bind_eq, bind_assoc, Out.pure_eq, Out.bind_ok, TapChanger.ext_cols h src]

theorem RatioTapChanger.red_cols (n : Nat) (x : RatioTapChanger) :
    mapOut (opRed n) x.cols = (x.red n).bind fun x' => .ok x'.cols := by
  simp only [RatioTapChanger.cols, RatioTapChanger.red, mapOut_append, mapOut_cons, mapOut_nil, red_col, red_clearing, red_caches,
    bind_eq, bind_assoc, Out.pure_eq, Out.bind_ok, TapChanger.red_cols n]

theorem RatioTapChanger.del_cols (i : Nat) (x : RatioTapChanger) :
    mapOut (opDel i) x.cols = (x.del i).bind fun x' => .ok x'.cols := by
  simp only [RatioTapChanger.cols, RatioTapChanger.del, mapOut_append, mapOut_cons, mapOut_nil, del_col, del_clearing, del_caches,
    bind_eq, bind_assoc, Out.pure_eq, Out.bind_ok, TapChanger.del_cols i]

theorem PhaseTapChanger.alloc_cols {idxs : List Nat} (h : idxs ≠ []) (src : Nat) (x : PhaseTapChanger) :
    mapOut (opAlloc idxs src) x.cols = (x.alloc idxs src).bind fun x' => .ok x'.cols := by
  simp only [PhaseTapChanger.cols, PhaseTapChanger.alloc, mapOut_append, mapOut_cons, mapOut_nil, alloc_col _ h, alloc_clearing _ _ h, alloc_caches h,
    bind_eq, bind_assoc, Out.pure_eq, Out.bind_ok, TapChanger.alloc_cols h src]

theorem PhaseTapChanger.ext_cols {n : Nat} (h : n ≠ 0) (src : Nat) (x : PhaseTapChanger) :
    mapOut (opExt n src) x.cols = (x.ext n src).bind fun x' => .ok x'.cols := by
  simp only [PhaseTapChanger.cols, PhaseTapChanger.ext, mapOut_append, mapOut_cons, mapOut_nil, ext_col, ext_clearing, ext_caches h,
    bind_eq, bind_assoc, Out.pure_eq, Out.bind_ok, TapChanger.ext_cols h src]

theorem PhaseTapChanger.red_cols (n : Nat) (x : PhaseTapChanger) :
    mapOut (opRed n) x.cols = (x.red n).bind fun x' => .ok x'.cols := by
  simp only [PhaseTapChanger.cols, PhaseTapChanger.red, mapOut_append, mapOut_cons, mapOut_nil, red_col, red_clearing, red_caches,
    bind_eq, bind_assoc, Out.pure_eq, Out.bind_ok, TapChanger.red_cols n]

theorem PhaseTapChanger.del_cols (i : Nat) (x : PhaseTapChanger) :
    mapOut (opDel i) x.cols = (x.del i).bind fun x' => .ok x'.cols := by
  simp only [PhaseTapChanger.cols, PhaseTapChanger.del, mapOut_append, mapOut_cons, mapOut_nil, del_col, del_clearing, del_caches,
    bind_eq, bind_assoc, Out.pure_eq, Out.bind_ok, TapChanger.del_cols i]

theorem TwoWindings.alloc_cols {idxs : List Nat} (h : idxs ≠ []) (src : Nat) (x : TwoWindings) :
    mapOut (opAlloc idxs src) x.cols = (x.alloc idxs src).bind fun x' => .ok x'.cols := by
  simp only [TwoWindings.cols, TwoWindings.alloc, mapOut_append, mapOut_cons, mapOut_nil, alloc_col _ h, alloc_clearing _ _ h, alloc_caches h,
    bind_eq, bind_assoc, Out.pure_eq, Out.bind_ok, Conn.alloc_cols h src, mapOut_opt (RatioTapChanger.alloc_cols h src), mapOut_opt (PhaseTapChanger.alloc_cols h src)]

theorem TwoWindings.ext_cols {n : Nat} (h : n ≠ 0) (src : Nat) (x : TwoWindings) :
    mapOut (opExt n src) x.cols = (x.ext n src).bind fun x' => .ok x'.cols := by
  simp only [TwoWindings.cols, TwoWindings.ext, mapOut_append, mapOut_cons, mapOut_nil, ext_col, ext_clearing, ext_caches h,
    bind_eq, bind_assoc, Out.pure_eq, Out.bind_ok, Conn.ext_cols h src, mapOut_opt (RatioTapChanger.ext_cols h src), mapOut_opt (PhaseTapChanger.ext_cols h src)]

theorem TwoWindings.red_cols (n : Nat) (x : TwoWindings) :
    mapOut (opRed n) x.cols = (x.red n).bind fun x' => .ok x'.cols := by
  simp only [TwoWindings.cols, TwoWindings.red, mapOut_append, mapOut_cons, mapOut_nil, red_col, red_clearing, red_caches,
    bind_eq, bind_assoc, Out.pure_eq, Out.bind_ok, Conn.red_cols n, mapOut_opt (RatioTapChanger.red_cols n), mapOut_opt (PhaseTapChanger.red_cols n)]

theorem TwoWindings.del_cols (i : Nat) (x : TwoWindings) :
    mapOut (opDel i) x.cols = (x.del i).bind fun x' => .ok x'.cols := by
  simp only [TwoWindings.cols, TwoWindings.del, mapOut_append, mapOut_cons, mapOut_nil, del_col, del_clearing, del_caches,
    bind_eq, bind_assoc, Out.pure_eq, Out.bind_ok, Conn.del_cols i, mapOut_opt (RatioTapChanger.del_cols i), mapOut_opt (PhaseTapChanger.del_cols i)]

theorem Leg.alloc_cols {idxs : List Nat} (h : idxs ≠ []) (src : Nat) (x : Leg) :
    mapOut (opAlloc idxs src) x.cols = (x.alloc idxs src).bind fun x' => .ok x'.cols := by
  simp only [Leg.cols, Leg.alloc, mapOut_append, mapOut_cons, mapOut_nil, alloc_col _ h, alloc_clearing _ _ h, alloc_caches h,
    bind_eq, bind_assoc, Out.pure_eq, Out.bind_ok, mapOut_opt (RatioTapChanger.alloc_cols h src), mapOut_opt (PhaseTapChanger.alloc_cols h src)]

theorem Leg.ext_cols {n : Nat} (h : n ≠ 0) (src : Nat) (x : Leg) :
    mapOut (opExt n src) x.cols = (x.ext n src).bind fun x' => .ok x'.cols := by
  simp only [Leg.cols, Leg.ext, mapOut_append, mapOut_cons, mapOut_nil, ext_col, ext_clearing, ext_caches h,
    bind_eq, bind_assoc, Out.pure_eq, Out.bind_ok, mapOut_opt (RatioTapChanger.ext_cols h src), mapOut_opt (PhaseTapChanger.ext_cols h src)]

theorem Leg.red_cols (n : Nat) (x : Leg) :
    mapOut (opRed n) x.cols = (x.red n).bind fun x' => .ok x'.cols := by
  simp only [Leg.cols, Leg.red, mapOut_append, mapOut_cons, mapOut_nil, red_col, red_clearing, red_caches,
    bind_eq, bind_assoc, Out.pure_eq, Out.bind_ok, mapOut_opt (RatioTapChanger.red_cols n), mapOut_opt (PhaseTapChanger.red_cols n)]

theorem Leg.del_cols (i : Nat) (x : Leg) :
    mapOut (opDel i) x.cols = (x.del i).bind fun x' => .ok x'.cols := by
  simp only [Leg.cols, Leg.del, mapOut_append, mapOut_cons, mapOut_nil, del_col, del_clearing, del_caches,
    bind_eq, bind_assoc, Out.pure_eq, Out.bind_ok, mapOut_opt (RatioTapChanger.del_cols i), mapOut_opt (PhaseTapChanger.del_cols i)]

theorem ThreeWindings.alloc_cols {idxs : List Nat} (h : idxs ≠ []) (src : Nat) (x : ThreeWindings) :
    mapOut (opAlloc idxs src) x.cols = (x.alloc idxs src).bind fun x' => .ok x'.cols := by
  simp only [ThreeWindings.cols, ThreeWindings.alloc, mapOut_append, mapOut_cons, mapOut_nil, alloc_col _ h, alloc_clearing _ _ h, alloc_caches h,
    bind_eq, bind_assoc, Out.pure_eq, Out.bind_ok, Conn.alloc_cols h src, mapOut_flatMap (Leg.alloc_cols h src)]

theorem ThreeWindings.ext_cols {n : Nat} (h : n ≠ 0) (src : Nat) (x : ThreeWindings) :
    mapOut (opExt n src) x.cols = (x.ext n src).bind fun x' => .ok x'.cols := by
  simp only [ThreeWindings.cols, ThreeWindings.ext, mapOut_append, mapOut_cons, mapOut_nil, ext_col, ext_clearing, ext_caches h,
    bind_eq, bind_assoc, Out.pure_eq, Out.bind_ok, Conn.ext_cols h src, mapOut_flatMap (Leg.ext_cols h src)]

theorem ThreeWindings.red_cols (n : Nat) (x : ThreeWindings) :
    mapOut (opRed n) x.cols = (x.red n).bind fun x' => .ok x'.cols := by
  simp only [ThreeWindings.cols, ThreeWindings.red, mapOut_append, mapOut_cons, mapOut_nil, red_col, red_clearing, red_caches,
    bind_eq, bind_assoc, Out.pure_eq, Out.bind_ok, Conn.red_cols n, mapOut_flatMap (Leg.red_cols n)]

theorem ThreeWindings.del_cols (i : Nat) (x : ThreeWindings) :
    mapOut (opDel i) x.cols = (x.del i).bind fun x' => .ok x'.cols := by
  simp only [ThreeWindings.cols, ThreeWindings.del, mapOut_append, mapOut_cons, mapOut_nil, del_col, del_clearing, del_caches,
    bind_eq, bind_assoc, Out.pure_eq, Out.bind_ok, Conn.del_cols i, mapOut_flatMap (Leg.del_cols i)]

theorem HvdcLine.alloc_cols {idxs : List Nat} (h : idxs ≠ []) (src : Nat) (x : HvdcLine) :
    mapOut (opAlloc idxs src) x.cols = (x.alloc idxs src).bind fun x' => .ok x'.cols := by
  simp only [HvdcLine.cols, HvdcLine.alloc, mapOut_append, mapOut_cons, mapOut_nil, alloc_col _ h, alloc_clearing _ _ h, alloc_caches h,
    bind_eq, bind_assoc, Out.pure_eq, Out.bind_ok, Ident.alloc_cols h src]

theorem HvdcLine.ext_cols {n : Nat} (h : n ≠ 0) (src : Nat) (x : HvdcLine) :
    mapOut (opExt n src) x.cols = (x.ext n src).bind fun x' => .ok x'.cols := by
  simp only [HvdcLine.cols, HvdcLine.ext, mapOut_append, mapOut_cons, mapOut_nil, ext_col, ext_clearing, ext_caches h,
    bind_eq, bind_assoc, Out.pure_eq, Out.bind_ok, Ident.ext_cols h src]

theorem HvdcLine.red_cols (n : Nat) (x : HvdcLine) :
    mapOut (opRed n) x.cols = (x.red n).bind fun x' => .ok x'.cols := by
  simp only [HvdcLine.cols, HvdcLine.red, mapOut_append, mapOut_cons, mapOut_nil, red_col, red_clearing, red_caches,
    bind_eq, bind_assoc, Out.pure_eq, Out.bind_ok, Ident.red_cols n]

theorem HvdcLine.del_cols (i : Nat) (x : HvdcLine) :
    mapOut (opDel i) x.cols = (x.del i).bind fun x' => .ok x'.cols := by
  simp only [HvdcLine.cols, HvdcLine.del, mapOut_append, mapOut_cons, mapOut_nil, del_col, del_clearing, del_caches,
    bind_eq, bind_assoc, Out.pure_eq, Out.bind_ok, Ident.del_cols i]

theorem Switch.alloc_cols {idxs : List Nat} (h : idxs ≠ []) (src : Nat) (x : Switch) :
    mapOut (opAlloc idxs src) x.cols = (x.alloc idxs src).bind fun x' => .ok x'.cols := by
  simp only [Switch.cols, Switch.alloc, mapOut_append, mapOut_cons, mapOut_nil, alloc_col _ h, alloc_clearing _ _ h, alloc_caches h,
    bind_eq, bind_assoc, Out.pure_eq, Out.bind_ok, Ident.alloc_cols h src]

theorem Switch.ext_cols {n : Nat} (h : n ≠ 0) (src : Nat) (x : Switch) :
    mapOut (opExt n src) x.cols = (x.ext n src).bind fun x' => .ok x'.cols := by
  simp only [Switch.cols, Switch.ext, mapOut_append, mapOut_cons, mapOut_nil, ext_col, ext_clearing, ext_caches h,
    bind_eq, bind_assoc, Out.pure_eq, Out.bind_ok, Ident.ext_cols h src]

theorem Switch.red_cols (n : Nat) (x : Switch) :
    mapOut (opRed n) x.cols = (x.red n).bind fun x' => .ok x'.cols := by
  simp only [Switch.cols, Switch.red, mapOut_append, mapOut_cons, mapOut_nil, red_col, red_clearing, red_caches,
    bind_eq, bind_assoc, Out.pure_eq, Out.bind_ok, Ident.red_cols n]

theorem Switch.del_cols (i : Nat) (x : Switch) :
    mapOut (opDel i) x.cols = (x.del i).bind fun x' => .ok x'.cols := by
  simp only [Switch.cols, Switch.del, mapOut_append, mapOut_cons, mapOut_nil, del_col, del_clearing, del_caches,
    bind_eq, bind_assoc, Out.pure_eq, Out.bind_ok, Ident.del_cols i]

theorem ConfiguredBus.alloc_cols {idxs : List Nat} (h : idxs ≠ []) (src : Nat) (x : ConfiguredBus) :
    mapOut (opAlloc idxs src) x.cols = (x.alloc idxs src).bind fun x' => .ok x'.cols := by
  simp only [ConfiguredBus.cols, ConfiguredBus.alloc, mapOut_append, mapOut_cons, mapOut_nil, alloc_col _ h, alloc_clearing _ _ h, alloc_caches h,
    bind_eq, bind_assoc, Out.pure_eq, Out.bind_ok, Ident.alloc_cols h src]

theorem ConfiguredBus.ext_cols {n : Nat} (h : n ≠ 0) (src : Nat) (x : ConfiguredBus) :
    mapOut (opExt n src) x.cols = (x.ext n src).bind fun x' => .ok x'.cols := by
  simp only [ConfiguredBus.cols, ConfiguredBus.ext, mapOut_append, mapOut_cons, mapOut_nil, ext_col, ext_clearing, ext_caches h,
    bind_eq, bind_assoc, Out.pure_eq, Out.bind_ok, Ident.ext_cols h src]

theorem ConfiguredBus.red_cols (n : Nat) (x : ConfiguredBus) :
    mapOut (opRed n) x.cols = (x.red n).bind fun x' => .ok x'.cols := by
  simp only [ConfiguredBus.cols, ConfiguredBus.red, mapOut_append, mapOut_cons, mapOut_nil, red_col, red_clearing, red_caches,
    bind_eq, bind_assoc, Out.pure_eq, Out.bind_ok, Ident.red_cols n]

theorem ConfiguredBus.del_cols (i : Nat) (x : ConfiguredBus) :
    mapOut (opDel i) x.cols = (x.del i).bind fun x' => .ok x'.cols := by
  simp only [ConfiguredBus.cols, ConfiguredBus.del, mapOut_append, mapOut_cons, mapOut_nil, del_col, del_clearing, del_caches,
    bind_eq, bind_assoc, Out.pure_eq, Out.bind_ok, Ident.del_cols i]

theorem Cached.alloc_cols {idxs : List Nat} (h : idxs ≠ []) (src : Nat) (x : Cached) :
    mapOut (opAlloc idxs src) x.cols = (x.alloc idxs src).bind fun x' => .ok x'.cols := by
  simp only [Cached.cols, Cached.alloc, mapOut_append, mapOut_cons, mapOut_nil, alloc_col _ h, alloc_clearing _ _ h, alloc_caches h,
    bind_eq, bind_assoc, Out.pure_eq, Out.bind_ok, Ident.alloc_cols h src]

theorem Cached.ext_cols {n : Nat} (h : n ≠ 0) (src : Nat) (x : Cached) :
    mapOut (opExt n src) x.cols = (x.ext n src).bind fun x' => .ok x'.cols := by
  simp only [Cached.cols, Cached.ext, mapOut_append, mapOut_cons, mapOut_nil, ext_col, ext_clearing, ext_caches h,
    bind_eq, bind_assoc, Out.pure_eq, Out.bind_ok, Ident.ext_cols h src]

theorem Cached.red_cols (n : Nat) (x : Cached) :
    mapOut (opRed n) x.cols = (x.red n).bind fun x' => .ok x'.cols := by
  simp only [Cached.cols, Cached.red, mapOut_append, mapOut_cons, mapOut_nil, red_col, red_clearing, red_caches,
    bind_eq, bind_assoc, Out.pure_eq, Out.bind_ok, Ident.red_cols n]

theorem Cached.del_cols (i : Nat) (x : Cached) :
    mapOut (opDel i) x.cols = (x.del i).bind fun x' => .ok x'.cols := by
  simp only [Cached.cols, Cached.del, mapOut_append, mapOut_cons, mapOut_nil, del_col, del_clearing, del_caches,
    bind_eq, bind_assoc, Out.pure_eq, Out.bind_ok, Ident.del_cols i]

theorem Obj.alloc_cols {idxs : List Nat} (h : idxs ≠ []) (src : Nat) (x : Obj) :
    mapOut (opAlloc idxs src) x.cols = (x.alloc idxs src).bind fun x' => .ok x'.cols := by
  cases x with
  | connectable d =>
    simp only [Obj.cols, Conn.alloc_cols h src, Obj.alloc, bind_eq, bind_assoc, Out.pure_eq, Out.bind_ok]
  | load d =>
    simp only [Obj.cols, Load.alloc_cols h src, Obj.alloc, bind_eq, bind_assoc, Out.pure_eq, Out.bind_ok]
  | battery d =>
    simp only [Obj.cols, Battery.alloc_cols h src, Obj.alloc, bind_eq, bind_assoc, Out.pure_eq, Out.bind_ok]
  | generator d =>
    simp only [Obj.cols, Generator.alloc_cols h src, Obj.alloc, bind_eq, bind_assoc, Out.pure_eq, Out.bind_ok]
  | shunt d =>
    simp only [Obj.cols, Shunt.alloc_cols h src, Obj.alloc, bind_eq, bind_assoc, Out.pure_eq, Out.bind_ok]
  | svc d =>
    simp only [Obj.cols, Svc.alloc_cols h src, Obj.alloc, bind_eq, bind_assoc, Out.pure_eq, Out.bind_ok]
  | vsc d =>
    simp only [Obj.cols, Vsc.alloc_cols h src, Obj.alloc, bind_eq, bind_assoc, Out.pure_eq, Out.bind_ok]
  | danglingLine d =>
    simp only [Obj.cols, DanglingLine.alloc_cols h src, Obj.alloc, bind_eq, bind_assoc, Out.pure_eq, Out.bind_ok]
  | twoWindings d =>
    simp only [Obj.cols, TwoWindings.alloc_cols h src, Obj.alloc, bind_eq, bind_assoc, Out.pure_eq, Out.bind_ok]
  | threeWindings d =>
    simp only [Obj.cols, ThreeWindings.alloc_cols h src, Obj.alloc, bind_eq, bind_assoc, Out.pure_eq, Out.bind_ok]
  | hvdcLine d =>
    simp only [Obj.cols, HvdcLine.alloc_cols h src, Obj.alloc, bind_eq, bind_assoc, Out.pure_eq, Out.bind_ok]
  | switch d =>
    simp only [Obj.cols, Switch.alloc_cols h src, Obj.alloc, bind_eq, bind_assoc, Out.pure_eq, Out.bind_ok]
  | bus d =>
    simp only [Obj.cols, ConfiguredBus.alloc_cols h src, Obj.alloc, bind_eq, bind_assoc, Out.pure_eq, Out.bind_ok]
  | cached d =>
    simp only [Obj.cols, Cached.alloc_cols h src, Obj.alloc, bind_eq, bind_assoc, Out.pure_eq, Out.bind_ok]
  | substation d =>
    simp only [Obj.cols, Ident.alloc_cols h src, Obj.alloc, bind_eq, bind_assoc, Out.pure_eq, Out.bind_ok]

theorem Obj.ext_cols {n : Nat} (h : n ≠ 0) (src : Nat) (x : Obj) :
    mapOut (opExt n src) x.cols = (x.ext n src).bind fun x' => .ok x'.cols := by
  cases x with
  | connectable d =>
    simp only [Obj.cols, Conn.ext_cols h src, Obj.ext, bind_eq, bind_assoc, Out.pure_eq, Out.bind_ok]
  | load d =>
    simp only [Obj.cols, Load.ext_cols h src, Obj.ext, bind_eq, bind_assoc, Out.pure_eq, Out.bind_ok]
  | battery d =>
    simp only [Obj.cols, Battery.ext_cols h src, Obj.ext, bind_eq, bind_assoc, Out.pure_eq, Out.bind_ok]
  | generator d =>
    simp only [Obj.cols, Generator.ext_cols h src, Obj.ext, bind_eq, bind_assoc, Out.pure_eq, Out.bind_ok]
  | shunt d =>
    simp only [Obj.cols, Shunt.ext_cols h src, Obj.ext, bind_eq, bind_assoc, Out.pure_eq, Out.bind_ok]
  | svc d =>
    simp only [Obj.cols, Svc.ext_cols h src, Obj.ext, bind_eq, bind_assoc, Out.pure_eq, Out.bind_ok]
  | vsc d =>
    simp only [Obj.cols, Vsc.ext_cols h src, Obj.ext, bind_eq, bind_assoc, Out.pure_eq, Out.bind_ok]
  | danglingLine d =>
    simp only [Obj.cols, DanglingLine.ext_cols h src, Obj.ext, bind_eq, bind_assoc, Out.pure_eq, Out.bind_ok]
  | twoWindings d =>
    simp only [Obj.cols, TwoWindings.ext_cols h src, Obj.ext, bind_eq, bind_assoc, Out.pure_eq, Out.bind_ok]
  | threeWindings d =>
    simp only [Obj.cols, ThreeWindings.ext_cols h src, Obj.ext, bind_eq, bind_assoc, Out.pure_eq, Out.bind_ok]
  | hvdcLine d =>
    simp only [Obj.cols, HvdcLine.ext_cols h src, Obj.ext, bind_eq, bind_assoc, Out.pure_eq, Out.bind_ok]
  | switch d =>
    simp only [Obj.cols, Switch.ext_cols h src, Obj.ext, bind_eq, bind_assoc, Out.pure_eq, Out.bind_ok]
  | bus d =>
    simp only [Obj.cols, ConfiguredBus.ext_cols h src, Obj.ext, bind_eq, bind_assoc, Out.pure_eq, Out.bind_ok]
  | cached d =>
    simp only [Obj.cols, Cached.ext_cols h src, Obj.ext, bind_eq, bind_assoc, Out.pure_eq, Out.bind_ok]
  | substation d =>
    simp only [Obj.cols, Ident.ext_cols h src, Obj.ext, bind_eq, bind_assoc, Out.pure_eq, Out.bind_ok]

theorem Obj.red_cols (n : Nat) (x : Obj) :
    mapOut (opRed n) x.cols = (x.red n).bind fun x' => .ok x'.cols := by
  cases x with
  | connectable d =>
    simp only [Obj.cols, Conn.red_cols n, Obj.red, bind_eq, bind_assoc, Out.pure_eq, Out.bind_ok]
  | load d =>
    simp only [Obj.cols, Load.red_cols n, Obj.red, bind_eq, bind_assoc, Out.pure_eq, Out.bind_ok]
  | battery d =>
    simp only [Obj.cols, Battery.red_cols n, Obj.red, bind_eq, bind_assoc, Out.pure_eq, Out.bind_ok]
  | generator d =>
    simp only [Obj.cols, Generator.red_cols n, Obj.red, bind_eq, bind_assoc, Out.pure_eq, Out.bind_ok]
  | shunt d =>
    simp only [Obj.cols, Shunt.red_cols n, Obj.red, bind_eq, bind_assoc, Out.pure_eq, Out.bind_ok]
  | svc d =>
    simp only [Obj.cols, Svc.red_cols n, Obj.red, bind_eq, bind_assoc, Out.pure_eq, Out.bind_ok]
  | vsc d =>
    simp only [Obj.cols, Vsc.red_cols n, Obj.red, bind_eq, bind_assoc, Out.pure_eq, Out.bind_ok]
  | danglingLine d =>
    simp only [Obj.cols, DanglingLine.red_cols n, Obj.red, bind_eq, bind_assoc, Out.pure_eq, Out.bind_ok]
  | twoWindings d =>
    simp only [Obj.cols, TwoWindings.red_cols n, Obj.red, bind_eq, bind_assoc, Out.pure_eq, Out.bind_ok]
  | threeWindings d =>
    simp only [Obj.cols, ThreeWindings.red_cols n, Obj.red, bind_eq, bind_assoc, Out.pure_eq, Out.bind_ok]
  | hvdcLine d =>
    simp only [Obj.cols, HvdcLine.red_cols n, Obj.red, bind_eq, bind_assoc, Out.pure_eq, Out.bind_ok]
  | switch d =>
    simp only [Obj.cols, Switch.red_cols n, Obj.red, bind_eq, bind_assoc, Out.pure_eq, Out.bind_ok]
  | bus d =>
    simp only [Obj.cols, ConfiguredBus.red_cols n, Obj.red, bind_eq, bind_assoc, Out.pure_eq, Out.bind_ok]
  | cached d =>
    simp only [Obj.cols, Cached.red_cols n, Obj.red, bind_eq, bind_assoc, Out.pure_eq, Out.bind_ok]
  | substation d =>
    simp only [Obj.cols, Ident.red_cols n, Obj.red, bind_eq, bind_assoc, Out.pure_eq, Out.bind_ok]

theorem Obj.del_cols (i : Nat) (x : Obj) :
    mapOut (opDel i) x.cols = (x.del i).bind fun x' => .ok x'.cols := by
  cases x with
  | connectable d =>
    simp only [Obj.cols, Conn.del_cols i, Obj.del, bind_eq, bind_assoc, Out.pure_eq, Out.bind_ok]
  | load d =>
    simp only [Obj.cols, Load.del_cols i, Obj.del, bind_eq, bind_assoc, Out.pure_eq, Out.bind_ok]
  | battery d =>
    simp only [Obj.cols, Battery.del_cols i, Obj.del, bind_eq, bind_assoc, Out.pure_eq, Out.bind_ok]
  | generator d =>
    simp only [Obj.cols, Generator.del_cols i, Obj.del, bind_eq, bind_assoc, Out.pure_eq, Out.bind_ok]
  | shunt d =>
    simp only [Obj.cols, Shunt.del_cols i, Obj.del, bind_eq, bind_assoc, Out.pure_eq, Out.bind_ok]
  | svc d =>
    simp only [Obj.cols, Svc.del_cols i, Obj.del, bind_eq, bind_assoc, Out.pure_eq, Out.bind_ok]
  | vsc d =>
    simp only [Obj.cols, Vsc.del_cols i, Obj.del, bind_eq, bind_assoc, Out.pure_eq, Out.bind_ok]
  | danglingLine d =>
    simp only [Obj.cols, DanglingLine.del_cols i, Obj.del, bind_eq, bind_assoc, Out.pure_eq, Out.bind_ok]
  | twoWindings d =>
    simp only [Obj.cols, TwoWindings.del_cols i, Obj.del, bind_eq, bind_assoc, Out.pure_eq, Out.bind_ok]
  | threeWindings d =>
    simp only [Obj.cols, ThreeWindings.del_cols i, Obj.del, bind_eq, bind_assoc, Out.pure_eq, Out.bind_ok]
  | hvdcLine d =>
    simp only [Obj.cols, HvdcLine.del_cols i, Obj.del, bind_eq, bind_assoc, Out.pure_eq, Out.bind_ok]
  | switch d =>
    simp only [Obj.cols, Switch.del_cols i, Obj.del, bind_eq, bind_assoc, Out.pure_eq, Out.bind_ok]
  | bus d =>
    simp only [Obj.cols, ConfiguredBus.del_cols i, Obj.del, bind_eq, bind_assoc, Out.pure_eq, Out.bind_ok]
  | cached d =>
    simp only [Obj.cols, Cached.del_cols i, Obj.del, bind_eq, bind_assoc, Out.pure_eq, Out.bind_ok]
  | substation d =>
    simp only [Obj.cols, Ident.del_cols i, Obj.del, bind_eq, bind_assoc, Out.pure_eq, Out.bind_ok]

end Verif.Fields
