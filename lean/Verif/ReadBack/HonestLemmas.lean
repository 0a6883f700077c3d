import Verif.ReadBack.HonestSpec
import Verif.ReadBack.QuietProps

/-! What honest calls leave of the objects of a network: helper lemmas of C97. -/

namespace Verif.ReadBack

open Verif Verif.Xml Verif.XmlNet Verif.Setters

variable {l : List Item}

/-! ### One object -/

/-- An alias is removed, or one that nobody has is added. -/
def AliasEdit (l : List Item) (i j : Ident) : Prop :=
  j.head.id = i.head.id ∧ (List.Sublist (j.aliases.map Prod.fst) (i.aliases.map Prod.fst) ∨ ∃ n, (∀ x ∈ l, n ∉ x.names) ∧ j.aliases.map Prod.fst = i.aliases.map Prod.fst ++ [n])

/-- A terminal goes from a bus to another of its voltage level. -/
def Moved (l : List Item) (vl : String) (p q : Adders.Place) : Prop := ∃ b c b', p = .bus b c ∧ q = .bus b' c ∧ HasBus l vl b'

theorem ident_honest {o : IdentOp} {x y : Ident} (ho : o.Honest l) (h : o.set x = .ok y) : bareIdent y = bareIdent x ∨ AliasEdit l x y := by
  cases o with
  | setFictitious b => exact .inl (ident_quiet (o := .setFictitious b) trivial h)
  | setProperty k v => exact .inl (ident_quiet (o := .setProperty k v) trivial h)
  | addAlias others a t ensure =>
    simp only [IdentOp.set] at h
    generalize (if ensure = true then UniqueId.getUniqueId a fun n => own x n || others n else a) = n at h
    split at h
    · cases h
    · split at h
      · cases h; exact .inl rfl
      · split at h
        · cases h
        · cases h
          rename_i ht
          exact .inr ⟨rfl, .inr ⟨n, fun z hz hn => ht (ho z hz n hn), by simp⟩⟩
  | removeAlias a =>
    obtain ⟨_, rfl⟩ := grd_ok.1 h
    exact .inr ⟨rfl, .inl (List.filter_sublist.map _)⟩

theorem term_honest {vl : String} {o : TermOp} {t u : Term} (ho : o.Honest l vl) (h : o.set t = .ok u) : barePlace u.place = barePlace t.place ∨ Moved l vl t.place u.place := by
  cases o with
  | setConnectableBus b known =>
    obtain ⟨pl, p, q⟩ := t
    cases pl with
    | node n => cases h
    | bus c d =>
      obtain ⟨hb, rfl⟩ := grd_ok.1 h
      simp only [Bool.or_eq_false_iff, Bool.not_eq_false'] at hb
      exact .inr ⟨c, d, b, rfl, rfl, ho hb.2⟩
  | setP d => exact .inl (term_quiet (o := .setP d) trivial h)
  | setQ d => exact .inl (term_quiet (o := .setQ d) trivial h)
  | connect => exact .inl (term_quiet (o := .connect) trivial h)
  | disconnect => exact .inl (term_quiet (o := .disconnect) trivial h)

theorem shTerm_honest {vl : String} {o : TermOp} {t u : Term} (ho : o.Honest l vl) (h : shTermSet o t = .ok u) :
    barePlace u.place = barePlace t.place ∨ Moved l vl t.place u.place := by
  unfold shTermSet at h
  split at h
  · obtain ⟨_, rfl⟩ := grd_ok.1 h; exact .inl rfl
  · exact term_honest ho h

/-- What a call leaves of an injection. -/
def InjEdit (l : List Item) (vl : String) (i : Ident) (t : Term) (j : Ident) (u : Term) : Prop :=
  Same i t j u ∨ (u.place = t.place ∧ AliasEdit l i j) ∨ (j = i ∧ Moved l vl t.place u.place)

theorem inj_ident {vl : String} {o : IdentOp} {i j : Ident} {t : Term} (ho : o.Honest l) (h : o.set i = .ok j) : InjEdit l vl i t j t :=
  (ident_honest ho h).elim (fun h => .inl ⟨h, rfl⟩) fun h => .inr (.inl ⟨rfl, h⟩)

theorem inj_place {vl : String} {i : Ident} {t u : Term} (h : barePlace u.place = barePlace t.place ∨ Moved l vl t.place u.place) : InjEdit l vl i t i u :=
  h.elim (fun h => .inl ⟨rfl, h⟩) fun h => .inr (.inr ⟨rfl, h⟩)

theorem load_honest {vl : String} {o : LoadOp} {x y : Load} (ho : o.Honest l vl) (h : o.set x = .ok y) : InjEdit l vl x.ident x.term y.ident y.term := by
  cases o with
  | ident o => obtain ⟨i, hi, rfl⟩ := lift_ok h; exact inj_ident ho hi
  | term o => obtain ⟨t, ht, rfl⟩ := lift_ok h; exact inj_place (term_honest ho ht)
  | _ => exact .inl (load_quiet (by exact trivial) h)

theorem bat_honest {vl : String} {o : BatOp} {x y : Bat} (ho : o.Honest l vl) (h : o.set x = .ok y) : InjEdit l vl x.ident x.term y.ident y.term := by
  cases o with
  | ident o => obtain ⟨i, hi, rfl⟩ := lift_ok h; exact inj_ident ho hi
  | term o => obtain ⟨t, ht, rfl⟩ := lift_ok h; exact inj_place (term_honest ho ht)
  | _ => exact .inl (bat_quiet (by exact trivial) h)

theorem lcc_honest {vl : String} {o : LccOp} {x y : Lcc} (ho : o.Honest l vl) (h : o.set x = .ok y) : InjEdit l vl x.ident x.term y.ident y.term := by
  cases o with
  | ident o => obtain ⟨i, hi, rfl⟩ := lift_ok h; exact inj_ident ho hi
  | term o => obtain ⟨t, ht, rfl⟩ := lift_ok h; exact inj_place (term_honest ho ht)
  | _ => exact .inl (lcc_quiet (by exact trivial) h)

theorem vsc_honest {vl : String} {o : VscOp} {x y : Vsc} (ho : o.Honest l vl) (h : o.set x = .ok y) : InjEdit l vl x.ident x.term y.ident y.term := by
  cases o with
  | ident o => obtain ⟨i, hi, rfl⟩ := lift_ok h; exact inj_ident ho hi
  | term o => obtain ⟨t, ht, rfl⟩ := lift_ok h; exact inj_place (term_honest ho ht)
  | _ => exact .inl (vsc_quiet (by exact trivial) h)

theorem dl_honest {vl : String} {o : DlOp} {x y : Dl} (ho : o.Honest l vl) (h : o.set x = .ok y) : InjEdit l vl x.ident x.term y.ident y.term := by
  cases o with
  | ident o => obtain ⟨i, hi, rfl⟩ := lift_ok h; exact inj_ident ho hi
  | term o => obtain ⟨t, ht, rfl⟩ := lift_ok h; exact inj_place (term_honest ho ht)
  | _ => exact .inl (dl_quiet (by exact trivial) h)

theorem gen_honest {vl : String} {o : GenOp} {x y : Gen} (ho : o.Honest l vl) (h : o.set x = .ok y) :
    InjEdit l vl x.ident x.term y.ident y.term ∧ Grown (RefById l) x.reg.toList y.reg.toList := by
  cases o with
  | ident o => obtain ⟨i, hi, rfl⟩ := lift_ok h; exact ⟨inj_ident ho hi, grown_refl _⟩
  | term o => obtain ⟨t, ht, rfl⟩ := lift_ok h; exact ⟨inj_place (term_honest ho ht), grown_refl _⟩
  | setRegulatingTerminal r s => exact (gen_quiet (o := .setRegulatingTerminal r s) ho h).imp .inl id
  | _ => exact (gen_quiet (by exact trivial) h).imp .inl id

theorem svc_honest {vl : String} {o : SvcOp} {x y : Svc} (ho : o.Honest l vl) (h : o.set x = .ok y) :
    InjEdit l vl x.ident x.term y.ident y.term ∧ Grown (RefById l) x.reg.toList y.reg.toList := by
  cases o with
  | ident o => obtain ⟨i, hi, rfl⟩ := lift_ok h; exact ⟨inj_ident ho hi, grown_refl _⟩
  | term o => obtain ⟨t, ht, rfl⟩ := lift_ok h; exact ⟨inj_place (term_honest ho ht), grown_refl _⟩
  | setRegulatingTerminal r s => exact (svc_quiet (o := .setRegulatingTerminal r s) ho h).imp .inl id
  | _ => exact (svc_quiet (by exact trivial) h).imp .inl id

theorem sh_honest {vl : String} {o : ShOp} {x y : Sh} (ho : o.Honest l vl) (h : o.set x = .ok y) :
    InjEdit l vl x.ident x.term y.ident y.term ∧ Grown (RefById l) x.reg.toList y.reg.toList := by
  cases o with
  | ident o => obtain ⟨i, hi, rfl⟩ := lift_ok h; exact ⟨inj_ident ho hi, grown_refl _⟩
  | term o => obtain ⟨t, ht, rfl⟩ := lift_ok h; exact ⟨inj_place (shTerm_honest ho ht), grown_refl _⟩
  | setRegulatingTerminal r s => exact (sh_quiet (o := .setRegulatingTerminal r s) ho h).imp .inl id
  | _ => exact (sh_quiet (by exact trivial) h).imp .inl id

/-- What a call leaves of a branch. -/
def BranchEdit (l : List Item) (i : Ident) (ss : List Side) (j : Ident) (ss' : List Side) : Prop :=
  Sides i ss j ss' ∨ (ss' = ss ∧ AliasEdit l i j) ∨
    (j = i ∧ ∃ pre s s' post, ss = pre ++ s :: post ∧ ss' = pre ++ s' :: post ∧ s'.vl = s.vl ∧ Moved l s.vl s.term.place s'.term.place)

theorem branch_ident {o : IdentOp} {i j : Ident} {ss : List Side} (ho : o.Honest l) (h : o.set i = .ok j) : BranchEdit l i ss j ss :=
  (ident_honest ho h).elim (fun h => .inl ⟨h, rfl⟩) fun h => .inr (.inl ⟨rfl, h⟩)

theorem branch_side {o : TermOp} {i : Ident} {pre post : List Side} {s u : Side} (ho : o.Honest l s.vl) (h : sideSet o s = .ok u) :
    BranchEdit l i (pre ++ s :: post) i (pre ++ u :: post) := by
  obtain ⟨t, h1, rfl⟩ := lift_ok h
  rcases term_honest ho h1 with h | h
  · exact .inl ⟨rfl, by simp [h]⟩
  · exact .inr (.inr ⟨rfl, pre, s, _, post, rfl, rfl, rfl, h⟩)

theorem line_honest {o : LineOp} {x y : Line} (ho : o.Honest l x) (h : o.set x = .ok y) : BranchEdit l x.ident [x.side1, x.side2] y.ident [y.side1, y.side2] := by
  cases o with
  | ident o => obtain ⟨i, hi, rfl⟩ := lift_ok h; exact branch_ident ho hi
  | term b o =>
    cases b with
    | one => obtain ⟨s, hs, rfl⟩ := lift_ok h; exact branch_side (pre := []) ho hs
    | two => obtain ⟨s, hs, rfl⟩ := lift_ok h; exact branch_side (pre := [x.side1]) ho hs
  | _ => exact .inl (line_quiet (by exact trivial) h)

theorem tie_honest {o : TieOp} {x y : TieLine} (ho : o.Honest l x) (h : o.set x = .ok y) : BranchEdit l x.ident [x.side1, x.side2] y.ident [y.side1, y.side2] := by
  cases o with
  | ident o => obtain ⟨i, hi, rfl⟩ := lift_ok h; exact branch_ident ho hi
  | term b o =>
    cases b with
    | one => obtain ⟨s, hs, rfl⟩ := lift_ok h; exact branch_side (pre := []) ho hs
    | two => obtain ⟨s, hs, rfl⟩ := lift_ok h; exact branch_side (pre := [x.side1]) ho hs
  | _ => exact .inl (tie_quiet (by exact trivial) h)

theorem tw2_honest {o : Tw2Op} {x y : Tw2} (ho : o.Honest l x) (h : o.set x = .ok y) :
    BranchEdit l x.ident [x.side1, x.side2] y.ident [y.side1, y.side2] ∧ Grown (RefById l) (rtcRefs x.rtc ++ ptcRefs x.ptc) (rtcRefs y.rtc ++ ptcRefs y.ptc) := by
  cases o with
  | ident o => obtain ⟨i, hi, rfl⟩ := lift_ok h; exact ⟨branch_ident ho hi, grown_refl _⟩
  | term b o =>
    cases b with
    | one => obtain ⟨s, hs, rfl⟩ := lift_ok h; exact ⟨branch_side (pre := []) ho hs, grown_refl _⟩
    | two => obtain ⟨s, hs, rfl⟩ := lift_ok h; exact ⟨branch_side (pre := [x.side1]) ho hs, grown_refl _⟩
  | taps o => exact (tw2_quiet (o := .taps o) ho h).imp .inl id
  | _ => exact (tw2_quiet (by exact trivial) h).imp .inl id

theorem leg_honest {n : Nat} {o : LegOp} {x y : Leg} (ho : o.Honest l x) (h : o.set n x = .ok y) (i : Ident) (pre post : List Side) :
    BranchEdit l i (pre ++ x.side :: post) i (pre ++ y.side :: post) ∧ Grown (RefById l) (legRefs x) (legRefs y) := by
  have quiet : o.Quiet (RefById l) → BranchEdit l i (pre ++ x.side :: post) i (pre ++ y.side :: post) ∧ Grown (RefById l) (legRefs x) (legRefs y) := by
    intro hq
    obtain ⟨⟨a, b⟩, g⟩ := leg_quiet hq h
    exact ⟨.inl ⟨rfl, by simp [a, b]⟩, g⟩
  cases o with
  | term o => obtain ⟨s, hs, rfl⟩ := lift_ok h; exact ⟨branch_side ho hs, grown_refl _⟩
  | taps o => exact quiet ho
  | _ => exact quiet trivial

theorem tw3_honest {o : Tw3Op} {x y : Tw3} (ho : o.Honest l x) (h : o.set x = .ok y) :
    BranchEdit l x.ident [x.leg1.side, x.leg2.side, x.leg3.side] y.ident [y.leg1.side, y.leg2.side, y.leg3.side] ∧
      Grown (RefById l) (legRefs x.leg1 ++ legRefs x.leg2 ++ legRefs x.leg3) (legRefs y.leg1 ++ legRefs y.leg2 ++ legRefs y.leg3) := by
  cases o with
  | ident o => obtain ⟨i, hi, rfl⟩ := lift_ok h; exact ⟨branch_ident ho hi, grown_refl _⟩
  | leg1 o =>
    obtain ⟨k, hk, rfl⟩ := lift_ok h
    obtain ⟨a, g⟩ := leg_honest ho hk x.ident [] [x.leg2.side, x.leg3.side]
    exact ⟨a, grown_append (grown_append g (grown_refl _)) (grown_refl _)⟩
  | leg2 o =>
    obtain ⟨k, hk, rfl⟩ := lift_ok h
    obtain ⟨a, g⟩ := leg_honest ho hk x.ident [x.leg1.side] [x.leg3.side]
    exact ⟨a, grown_append (grown_append (grown_refl _) g) (grown_refl _)⟩
  | leg3 o =>
    obtain ⟨k, hk, rfl⟩ := lift_ok h
    obtain ⟨a, g⟩ := leg_honest ho hk x.ident [x.leg1.side, x.leg2.side] []
    exact ⟨a, grown_append (grown_refl _) g⟩

/-! ### One object of a list -/

/-- What a call may change of an object beside what `bare` leaves out. -/
structure ItemEdit (l : List Item) (a b : Item) : Prop where
  id : b.id = a.id
  obj : b.obj = a.obj
  needs : b.needs = a.needs
  stations : b.stations = a.stations
  edit : (b.ends = a.ends ∧ (List.Sublist b.names a.names ∨ ∃ n, (∀ x ∈ l, n ∉ x.names) ∧ b.names = a.names ++ [n])) ∨
    (b.names = a.names ∧ ∃ pre e e' post, a.ends = pre ++ e :: post ∧ b.ends = pre ++ e' :: post ∧ e' = { e with place := e'.place } ∧ Moved l e.vl e.place e'.place)

theorem alias_item {i j : Ident} (h : AliasEdit l i j) (o : XmlNet.Obj) (nd : List (String × String)) (es : List End) (st : Option (String × String)) :
    ItemEdit l ⟨i, o, nd, es, st⟩ ⟨j, o, nd, es, st⟩ := by
  obtain ⟨h1, h2⟩ := h
  refine ⟨h1, rfl, rfl, rfl, .inl ⟨rfl, ?_⟩⟩
  simp only [Item.names, Item.id, h1]
  rcases h2 with h2 | ⟨n, hn, h2⟩
  · exact .inl (h2.cons_cons _)
  · exact .inr ⟨n, hn, by rw [h2]; rfl⟩

def Changed (l : List Item) (a b : Item) : Prop := bare b = bare a ∨ ItemEdit l a b

theorem inj_item {vl : String} {i j : Ident} {t u : Term} {o : XmlNet.Obj} (h : InjEdit l vl i t j u) : Changed l (injection vl i o t.place) (injection vl j o u.place) := by
  rcases h with h | ⟨h1, h2⟩ | ⟨rfl, h⟩
  · exact .inl (bare_injection h)
  · rw [h1]; exact .inr (alias_item h2 ..)
  · exact .inr ⟨rfl, rfl, rfl, rfl, .inr ⟨rfl, [], ⟨vl, t.place, false, none⟩, ⟨vl, u.place, false, none⟩, [], rfl, rfl, rfl, h⟩⟩

theorem branch_item {only : Option String} {i j : Ident} {ss ss' : List Side} (h : BranchEdit l i ss j ss') : Changed l (branch only i ss) (branch only j ss') := by
  rcases h with h | ⟨rfl, h2⟩ | ⟨rfl, pre, s, s', post, rfl, rfl, hv, hm⟩
  · exact .inl (bare_branch h)
  · exact .inr (alias_item h2 ..)
  · refine .inr ⟨rfl, ?_, rfl, rfl, .inr ⟨rfl, pre.map fun s => ⟨s.vl, s.term.place, true, only⟩, ⟨s.vl, s.term.place, true, only⟩, ⟨s'.vl, s'.term.place, true, only⟩,
      post.map fun s => ⟨s.vl, s.term.place, true, only⟩, by simp [branch], by simp [branch], by simp [hv], hm⟩⟩
    simp [branch]

theorem ident_item {o : IdentOp} {i j : Ident} (ho : o.Honest l) (h : o.set i = .ok j) (ob : XmlNet.Obj) (nd : List (String × String)) (es : List End) (st : Option (String × String)) :
    Changed l ⟨i, ob, nd, es, st⟩ ⟨j, ob, nd, es, st⟩ := by
  rcases ident_honest ho h with h | h
  · exact .inl (by simp [bare, h])
  · exact .inr (alias_item h ..)

theorem hvdc_honest {o : HvdcOp} {x y : HvdcLine} (ho : o.Honest l) (h : o.set x = .ok y) : Changed l (hvdcItem x) (hvdcItem y) := by
  cases o with
  | ident o => obtain ⟨i, hi, rfl⟩ := lift_ok h; exact ident_item ho hi ..
  | _ => exact .inl (hvdc_quiet (by exact trivial) h)

theorem bus_honest {vl : String} {o : BusOp} {x y : Bus} (ho : o.Honest l) (h : o.set x = .ok y) : Changed l (busItem vl x) (busItem vl y) := by
  cases o with
  | ident o => obtain ⟨i, hi, rfl⟩ := lift_ok h; exact ident_item ho hi ..
  | _ => exact .inl (bus_quiet (by exact trivial) h)

theorem bbs_honest {vl : String} {o : IdentOp} {x y : Bbs} (ho : o.Honest l) (h : bbsSet o x = .ok y) : Changed l (bbsItem vl x) (bbsItem vl y) := by
  obtain ⟨i, hi, rfl⟩ := lift_ok h; exact ident_item ho hi ..

theorem nsw_honest {o : SwOp} {x y : NSw} (ho : o.Honest l) (h : o.setN x = .ok y) : Changed l (nswItem x) (nswItem y) := by
  cases o with
  | ident o => obtain ⟨i, hi, rfl⟩ := lift_ok h; exact ident_item ho hi ..
  | _ => exact .inl (nsw_quiet (by exact trivial) h)

theorem bsw_honest {vl : String} {o : SwOp} {x y : BSw} (ho : o.Honest l) (h : o.setB x = .ok y) : Changed l (bswItem vl x) (bswItem vl y) := by
  cases o with
  | ident o => obtain ⟨i, hi, rfl⟩ := lift_ok h; exact ident_item ho hi ..
  | _ => exact .inl (bsw_quiet (by exact trivial) h)

/-- At most one object is changed. -/
def Edited (l m m' : List Item) : Prop := m'.map bare = m.map bare ∨ ∃ pre a b post, m = pre ++ a :: post ∧ m' = pre ++ b :: post ∧ ItemEdit l a b

theorem edited_refl (m : List Item) : Edited l m m := .inl rfl

theorem edited_left {m m' : List Item} (p : List Item) (h : Edited l m m') : Edited l (p ++ m) (p ++ m') := by
  rcases h with h | ⟨pre, a, b, post, rfl, rfl, h⟩
  · exact .inl (by simp [h])
  · exact .inr ⟨p ++ pre, a, b, post, by simp, by simp, h⟩

theorem edited_right {m m' : List Item} (p : List Item) (h : Edited l m m') : Edited l (m ++ p) (m' ++ p) := by
  rcases h with h | ⟨pre, a, b, post, rfl, rfl, h⟩
  · exact .inl (by simp [h])
  · exact .inr ⟨pre, a, b, post ++ p, by simp, by simp, h⟩

theorem edited_head {a b : Item} (m : List Item) (h : Changed l a b) : Edited l (a :: m) (b :: m) := by
  rcases h with h | h
  · exact .inl (by simp [h])
  · exact .inr ⟨[], a, b, m, rfl, rfl, h⟩

theorem set_split {α : Type} {xs : List α} {i : Nat} {x y : α} (h : xs[i]? = some x) : ∃ pre post, xs = pre ++ x :: post ∧ xs.set i y = pre ++ y :: post := by
  obtain ⟨hi, rfl⟩ := List.getElem?_eq_some_iff.1 h
  exact ⟨xs.take i, xs.drop (i + 1), by simp, by rw [List.set_eq_take_append_cons_drop, if_pos hi]⟩

theorem set_edited {α : Type} {f : α → Out α} {i : Nat} {xs ys : List α} (h : setAt f i xs = .ok ys) {g : α → List Item}
    (hg : ∀ x y, xs[i]? = some x → f x = .ok y → Edited l (g x) (g y)) : Edited l (xs.flatMap g) (ys.flatMap g) := by
  obtain ⟨x, y, hx, hy, rfl⟩ := setAt_ok h
  obtain ⟨pre, post, h1, h2⟩ := set_split (y := y) hx
  rw [h2]; conv => arg 2; rw [h1]
  simp only [List.flatMap_append, List.flatMap_cons]
  exact edited_left _ (edited_right _ (hg x y hx hy))

theorem set_changed {α : Type} {f : α → Out α} {i : Nat} {xs ys : List α} (h : setAt f i xs = .ok ys) {g : α → Item}
    (hg : ∀ x y, xs[i]? = some x → f x = .ok y → Changed l (g x) (g y)) : Edited l (xs.map g) (ys.map g) := by
  obtain ⟨x, y, hx, hy, rfl⟩ := setAt_ok h
  obtain ⟨pre, post, h1, h2⟩ := set_split (y := y) hx
  rw [h2]; conv => arg 2; rw [h1]
  simp only [List.map_append, List.map_cons]
  exact edited_left _ (edited_head _ (hg x y hx hy))

/-- The references, in the same way. -/
theorem set_grown_at {α : Type} {N : Ref → Prop} {f : α → Out α} {i : Nat} {xs ys : List α} (h : setAt f i xs = .ok ys) {g : α → List Ref}
    (hg : ∀ x y, xs[i]? = some x → f x = .ok y → Grown N (g x) (g y)) : Grown N (xs.flatMap g) (ys.flatMap g) := by
  obtain ⟨x, y, hx, hy, rfl⟩ := setAt_ok h
  obtain ⟨pre, post, h1, h2⟩ := set_split (y := y) hx
  rw [h2]; conv => arg 2; rw [h1]
  simp only [List.flatMap_append, List.flatMap_cons]
  exact grown_append (grown_refl _) (grown_append (hg x y hx hy) (grown_refl _))

end Verif.ReadBack
