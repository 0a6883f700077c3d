import Verif.XmlNet.Accept

/-!
When the objects of a network go together, said without the operations of the import: the specification of C72.
-/

namespace Verif.XmlNet

open Verif Verif.Xml

/-- Identifier and aliases. -/
def Item.names (x : Item) : List String := x.id :: x.ident.aliases.map Prod.fst

/-- The place is of the kind of the topology of the voltage level; a bus belongs to it. -/
def Suits (l : List Item) (v : Item) (node : Bool) : Adders.Place → Prop
  | .node _ => node = true
  | .bus b _ => node = false ∧ ∃ y ∈ l, y.id = b ∧ y.obj = .bus v.id

/-- The terminal is in a voltage level that exists, that has its place, and that is in the substation of a transformer. -/
def EndValid (l : List Item) (e : End) : Prop :=
  e.vl ≠ "" ∧ ∃ v ∈ l, e.vl ∈ v.names ∧ ∃ sub node, v.obj = .level sub node ∧ Suits l v node e.place ∧ ∀ s, e.only = some s → s = sub

/-- The name of a converter station. -/
def StationNamed (l : List Item) (n : String) : Prop := n ≠ "" ∧ ∃ s ∈ l, n ∈ s.names ∧ s.obj = .station

structure Consistent (l : List Item) : Prop where
  /-- No name is used twice. -/
  names : (l.flatMap Item.names).Nodup
  ids : ∀ x ∈ l, x.id ≠ ""
  /-- The buses of a switch are in its voltage level. -/
  needs : ∀ x ∈ l, ∀ n ∈ x.needs, ∃ b ∈ l, b.id = n.2 ∧ b.obj = .bus n.1
  ends : ∀ x ∈ l, ∀ e ∈ x.ends, EndValid l e
  /-- No node of a voltage level has two terminals. -/
  nodes : (l.flatMap Item.ends).Pairwise fun e f => ∀ v ∈ l, e.vl ∈ v.names → f.vl ∈ v.names → ∀ n, e.place = .node n → f.place ≠ .node n
  stations : ∀ x ∈ l, ∀ s, x.stations = some s → StationNamed l s.1 ∧ StationNamed l s.2

/-- The terminals of an object: the equipment has them, converter stations have one. -/
inductive Obj.Terminals : Obj → Nat → Prop
  | equip (n : Nat) : Terminals (.equip n) n
  | station : Terminals .station 1

/-- A reference designates the only terminal of an equipment, or one by its side. -/
def RefNamed (l : List Item) (r : Ref) : Prop := ∃ x ∈ l, r.id ∈ x.names ∧ ∃ n, x.obj.Terminals n ∧ (n = 1 ∨ r.side ∈ ["ONE", "TWO", "THREE"].take n)

/-- The objects of a voltage level, class by class. -/
inductive VL.Has (sub : String) (v : VL) : Item → Prop
  | level : Has sub v ⟨v.ident, .level sub (v.topo.kind == 0), [], [], none⟩
  | busbar {bbs sws conns calcs x} (h : v.topo = .node bbs sws conns calcs) (hx : x ∈ bbs) : Has sub v ⟨x.ident, .equip 1, [], [⟨v.ident.head.id, .node x.node, false, none⟩], none⟩
  | nodeSwitch {bbs sws conns calcs x} (h : v.topo = .node bbs sws conns calcs) (hx : x ∈ sws) : Has sub v ⟨x.ident, .other, [], [], none⟩
  | bus {buses sws x} (h : v.topo = .bus buses sws) (hx : x ∈ buses) : Has sub v ⟨x.ident, .bus v.ident.head.id, [], [], none⟩
  | busSwitch {buses sws x} (h : v.topo = .bus buses sws) (hx : x ∈ sws) : Has sub v ⟨x.ident, .other, [(v.ident.head.id, x.bus1), (v.ident.head.id, x.bus2)], [], none⟩
  | generator {x} (hx : x ∈ v.equip.gens) : Has sub v ⟨x.ident, .equip 1, [], [⟨v.ident.head.id, x.term.place, false, none⟩], none⟩
  | battery {x} (hx : x ∈ v.equip.bats) : Has sub v ⟨x.ident, .equip 1, [], [⟨v.ident.head.id, x.term.place, false, none⟩], none⟩
  | load {x} (hx : x ∈ v.equip.loads) : Has sub v ⟨x.ident, .equip 1, [], [⟨v.ident.head.id, x.term.place, false, none⟩], none⟩
  | shunt {x} (hx : x ∈ v.equip.shs) : Has sub v ⟨x.ident, .equip 1, [], [⟨v.ident.head.id, x.term.place, false, none⟩], none⟩
  | danglingLine {x} (hx : x ∈ v.equip.dls) : Has sub v ⟨x.ident, .equip 1, [], [⟨v.ident.head.id, x.term.place, false, none⟩], none⟩
  | svc {x} (hx : x ∈ v.equip.svcs) : Has sub v ⟨x.ident, .equip 1, [], [⟨v.ident.head.id, x.term.place, false, none⟩], none⟩
  | vsc {x} (hx : x ∈ v.equip.vscs) : Has sub v ⟨x.ident, .station, [], [⟨v.ident.head.id, x.term.place, false, none⟩], none⟩
  | lcc {x} (hx : x ∈ v.equip.lccs) : Has sub v ⟨x.ident, .station, [], [⟨v.ident.head.id, x.term.place, false, none⟩], none⟩

/-- The objects of a network, class by class. -/
inductive Net.Has {T : Type} (x : Net T) : Item → Prop
  | network : Has x ⟨x.ident, .other, [], [], none⟩
  | substation {s} (hs : s ∈ x.subs) : Has x ⟨s.ident, .other, [], [], none⟩
  | inLevel {s v y} (hs : s ∈ x.subs) (hv : v ∈ s.vls) (hy : v.Has s.ident.head.id y) : Has x y
  | transformer2 {s t} (hs : s ∈ x.subs) (ht : t ∈ s.tw2s) :
    Has x ⟨t.ident, .equip 2, [], [⟨t.side1.vl, t.side1.term.place, true, some s.ident.head.id⟩, ⟨t.side2.vl, t.side2.term.place, true, some s.ident.head.id⟩], none⟩
  | transformer3 {s t} (hs : s ∈ x.subs) (ht : t ∈ s.tw3s) :
    Has x ⟨t.ident, .equip 3, [], [⟨t.leg1.side.vl, t.leg1.side.term.place, true, some s.ident.head.id⟩, ⟨t.leg2.side.vl, t.leg2.side.term.place, true, some s.ident.head.id⟩,
      ⟨t.leg3.side.vl, t.leg3.side.term.place, true, some s.ident.head.id⟩], none⟩
  | line {l} (hl : .line l ∈ x.lines) : Has x ⟨l.ident, .equip 2, [], [⟨l.side1.vl, l.side1.term.place, true, none⟩, ⟨l.side2.vl, l.side2.term.place, true, none⟩], none⟩
  | tieLine {l} (hl : .tie l ∈ x.lines) : Has x ⟨l.ident, .equip 2, [], [⟨l.side1.vl, l.side1.term.place, true, none⟩, ⟨l.side2.vl, l.side2.term.place, true, none⟩], none⟩
  | hvdc {l} (hl : l ∈ x.hvdcs) : Has x ⟨l.ident, .other, [], [], some (l.station1, l.station2)⟩

/-- The terminal that a reference designates: the identifier of the equipment and the rank of the terminal. -/
def Designates (l : List Item) (r : Ref) (t : String × Nat) : Prop :=
  ∃ x ∈ l, r.id ∈ x.names ∧ t.1 = x.id ∧ ((x.obj.Terminals 1 ∧ t.2 = 0) ∨ ∃ n, n ≠ 1 ∧ x.obj.Terminals n ∧ t.2 < n ∧ ["ONE", "TWO", "THREE"][t.2]? = some r.side)

/-- The references to terminals of a network, class by class. -/
inductive Net.HasRef {T : Type} (x : Net T) : Ref → Prop
  | generator {s v g r} (hs : s ∈ x.subs) (hv : v ∈ s.vls) (hg : g ∈ v.equip.gens) (hr : g.reg = some r) : HasRef x r
  | shunt {s v g r} (hs : s ∈ x.subs) (hv : v ∈ s.vls) (hg : g ∈ v.equip.shs) (hr : g.reg = some r) : HasRef x r
  | svc {s v g r} (hs : s ∈ x.subs) (hv : v ∈ s.vls) (hg : g ∈ v.equip.svcs) (hr : g.reg = some r) : HasRef x r
  | ratio2 {s t c r} (hs : s ∈ x.subs) (ht : t ∈ s.tw2s) (hc : t.rtc = some c) (hr : c.reg = some r) : HasRef x r
  | phase2 {s t c r} (hs : s ∈ x.subs) (ht : t ∈ s.tw2s) (hc : t.ptc = some c) (hr : c.reg = some r) : HasRef x r
  | ratio3 {s t l c r} (hs : s ∈ x.subs) (ht : t ∈ s.tw3s) (hl : l = t.leg1 ∨ l = t.leg2 ∨ l = t.leg3) (hc : l.sub.rtc = some c) (hr : c.reg = some r) : HasRef x r
  | phase3 {s t l c r} (hs : s ∈ x.subs) (ht : t ∈ s.tw3s) (hl : l = t.leg1 ∨ l = t.leg2 ∨ l = t.leg3) (hc : l.sub.ptc = some c) (hr : c.reg = some r) : HasRef x r

end Verif.XmlNet
