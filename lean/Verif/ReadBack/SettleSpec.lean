import Verif.XmlNet.AcceptSpec
import Verif.XmlNet.AcceptLemmas

/-!
Networks whose objects are referred to by their identifiers, and networks that are the same but for the names by which they refer to objects: the specification of C96.
-/

namespace Verif.ReadBack

open Verif Verif.Xml Verif.XmlNet

/-- Every reference is the identifier of an object, with a side if and only if there is a choice, and no equipment refers to itself for its regulation. -/
structure ById {T : Type} (x : Net T) : Prop where
  levels : ∀ a, x.Has a → ∀ e ∈ a.ends, ∃ v, x.Has v ∧ e.vl = v.ident.head.id
  stations : ∀ h ∈ x.hvdcs, (∃ s, x.Has s ∧ h.station1 = s.ident.head.id) ∧ ∃ s, x.Has s ∧ h.station2 = s.ident.head.id
  refs : ∀ r, x.HasRef r → ∃ a, x.Has a ∧ r.id = a.ident.head.id ∧ (a.obj.Terminals 1 → r.side = "")
  generators : ∀ s ∈ x.subs, ∀ v ∈ s.vls, ∀ g ∈ v.equip.gens, ∀ r, g.reg = some r → r.id ≠ g.ident.head.id
  shunts : ∀ s ∈ x.subs, ∀ v ∈ s.vls, ∀ g ∈ v.equip.shs, ∀ r, g.reg = some r → r.id ≠ g.ident.head.id
  svcs : ∀ s ∈ x.subs, ∀ v ∈ s.vls, ∀ g ∈ v.equip.svcs, ∀ r, g.reg = some r → r.id ≠ g.ident.head.id

/-- The terminal at which the equipment `i` regulates: its own if none is given. -/
def Regulates (l : List Item) (i : String) (o : Option Ref) (t : String × Nat) : Prop := (o = none ∧ t = (i, 0)) ∨ ∃ r, o = some r ∧ Designates l r t

/-- The same regulating terminal, for an equipment. -/
def SameReg (l : List Item) (i : String) (o o' : Option Ref) : Prop := ∀ t, Regulates l i o t ↔ Regulates l i o' t

/-- The same regulating terminal, for a tap changer, that may have none. -/
def SameRef (l : List Item) (o o' : Option Ref) : Prop := (o = none ↔ o' = none) ∧ ∀ t, (∃ r, o = some r ∧ Designates l r t) ↔ ∃ r, o' = some r ∧ Designates l r t

/-- The same object, under any of its names. -/
def SameName (l : List Item) (n n' : String) : Prop := ∀ a ∈ l, n ∈ a.names ↔ n' ∈ a.names

def SameSide (l : List Item) (s s' : Side) : Prop := SameName l s.vl s'.vl ∧ s' = { s with vl := s'.vl }

def SameOpt {α : Type} (R : α → α → Prop) : Option α → Option α → Prop
  | none, none => True
  | some a, some b => R a b
  | _, _ => False

def SameGen (l : List Item) (g g' : Gen) : Prop := SameReg l g.ident.head.id g.reg g'.reg ∧ g' = { g with reg := g'.reg }
def SameSh (l : List Item) (g g' : Sh) : Prop := SameReg l g.ident.head.id g.reg g'.reg ∧ g' = { g with reg := g'.reg }
def SameSvc (l : List Item) (g g' : Svc) : Prop := SameReg l g.ident.head.id g.reg g'.reg ∧ g' = { g with reg := g'.reg }
def SameRtc (l : List Item) (c c' : Rtc) : Prop := SameRef l c.reg c'.reg ∧ c' = { c with reg := c'.reg }
def SamePtc (l : List Item) (c c' : Ptc) : Prop := SameRef l c.reg c'.reg ∧ c' = { c with reg := c'.reg }

structure SameTw2 (l : List Item) (t t' : Tw2) : Prop where
  side1 : SameSide l t.side1 t'.side1
  side2 : SameSide l t.side2 t'.side2
  rtc : SameOpt (SameRtc l) t.rtc t'.rtc
  ptc : SameOpt (SamePtc l) t.ptc t'.ptc
  rest : t' = { t with side1 := t'.side1, side2 := t'.side2, rtc := t'.rtc, ptc := t'.ptc }

structure SameLeg (l : List Item) (t t' : Leg) : Prop where
  side : SameSide l t.side t'.side
  rtc : SameOpt (SameRtc l) t.sub.rtc t'.sub.rtc
  ptc : SameOpt (SamePtc l) t.sub.ptc t'.sub.ptc
  rest : t' = { t with side := t'.side, sub := { t.sub with rtc := t'.sub.rtc, ptc := t'.sub.ptc } }

structure SameTw3 (l : List Item) (t t' : Tw3) : Prop where
  leg1 : SameLeg l t.leg1 t'.leg1
  leg2 : SameLeg l t.leg2 t'.leg2
  leg3 : SameLeg l t.leg3 t'.leg3
  rest : t' = { t with leg1 := t'.leg1, leg2 := t'.leg2, leg3 := t'.leg3 }

inductive SameLine (l : List Item) : AnyLine → AnyLine → Prop
  | line {x : Line} {s1 s2 : Side} (h1 : SameSide l x.side1 s1) (h2 : SameSide l x.side2 s2) : SameLine l (.line x) (.line { x with side1 := s1, side2 := s2 })
  | tie {x : TieLine} {s1 s2 : Side} (h1 : SameSide l x.side1 s1) (h2 : SameSide l x.side2 s2) : SameLine l (.tie x) (.tie { x with side1 := s1, side2 := s2 })

structure SameHvdc (l : List Item) (x y : HvdcLine) : Prop where
  station1 : SameName l x.station1 y.station1
  station2 : SameName l x.station2 y.station2
  rest : y = { x with station1 := y.station1, station2 := y.station2 }

structure SameVL (l : List Item) (v w : VL) : Prop where
  gens : All2 (SameGen l) v.equip.gens w.equip.gens
  shs : All2 (SameSh l) v.equip.shs w.equip.shs
  svcs : All2 (SameSvc l) v.equip.svcs w.equip.svcs
  rest : w = { v with equip := { v.equip with gens := w.equip.gens, shs := w.equip.shs, svcs := w.equip.svcs } }

structure SameSubstation (l : List Item) (s s' : Substation) : Prop where
  vls : All2 (SameVL l) s.vls s'.vls
  tw2s : All2 (SameTw2 l) s.tw2s s'.tw2s
  tw3s : All2 (SameTw3 l) s.tw3s s'.tw3s
  rest : s' = { s with vls := s'.vls, tw2s := s'.tw2s, tw3s := s'.tw3s }

/-- The same network, but for the names by which `y` refers to the objects `l`. -/
structure SameNet {T : Type} (l : List Item) (x y : Net T) : Prop where
  subs : All2 (SameSubstation l) x.subs y.subs
  lines : All2 (SameLine l) x.lines y.lines
  hvdcs : All2 (SameHvdc l) x.hvdcs y.hvdcs
  rest : y = { x with subs := y.subs, lines := y.lines, hvdcs := y.hvdcs }

end Verif.ReadBack
