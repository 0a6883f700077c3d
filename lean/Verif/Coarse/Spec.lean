import Verif.Coarse.Model
import Verif.XmlNet.AcceptSpec

/-!
The network as seen at a level of topology, said without the writers: the specification of C89.
-/

namespace Verif.Coarse

open Verif Verif.Xml Verif.XmlNet

/-- Whether a voltage level is left as it is: at the finest level, or at the bus/breaker level if it has buses. -/
def Whole : Level → Bool → Prop
  | .nodeBreaker, _ => True
  | .busBreaker, node => node = false
  | .busBranch, _ => False

/-- The terminal is on the bus `c` of the view, and connected to it if it has a bus. -/
def OnView (v : View) (p : Place) (q : Place) : Prop :=
  ∃ c, v.connectable p = some c ∧ ((v.bus p = some c ∧ q = .bus c true) ∨ (v.bus p = none ∧ q = .bus c false))

/-- Where a terminal is at a level. -/
def Sits (L : Level) (W : Views) (vl : String) (p q : Place) : Prop :=
  match L, p with
  | .nodeBreaker, p => q = p
  | .busBreaker, .bus b c => q = .bus b c
  | .busBreaker, .node n => OnView (W.breaker vl) (.node n) q
  | .busBranch, p => OnView (W.branch vl) p q

/-- A switch between two buses has no kind. -/
def VSw.plain (x : VSw) : BSw := ⟨x.ident, x.opened, x.bus1, x.bus2⟩

/-- The topology at a level: the buses of the view, and its switches unless they are merged. -/
def topoAt (W : Views) (vl : String) : Level → Topo → Topo
  | .nodeBreaker, t => t
  | .busBreaker, .bus buses sws => .bus buses sws
  | .busBreaker, .node .. => .bus (W.breaker vl).buses ((W.breaker vl).sws.map VSw.plain)
  | .busBranch, _ => .bus (W.branch vl).buses []

def vlAt (L : Level) (W : Views) (f : String → Place → Place) (x : VL) : VL :=
  { x with topo := topoAt W x.ident.head.id L x.topo, equip := equipTo f x.ident.head.id x.equip }

def substationAt (L : Level) (W : Views) (f : String → Place → Place) (x : Substation) : Substation :=
  { x with vls := x.vls.map (vlAt L W f), tw2s := x.tw2s.map (tw2To f), tw3s := x.tw3s.map (tw3To f) }

/-- The network with the voltage levels of the view, its terminals where `f` puts them, and nothing else changed. -/
def netAt {T : Type} (L : Level) (W : Views) (f : String → Place → Place) (x : Net T) : Net T :=
  { x with subs := x.subs.map (substationAt L W f), lines := x.lines.map (lineTo f) }

/-- The terminals of the equipment, class by class, but for those of the busbar sections: voltage level and place. -/
inductive Sided {T : Type} (x : Net T) : String → Place → Prop
  | generator {s v g} (hs : s ∈ x.subs) (hv : v ∈ s.vls) (hg : g ∈ v.equip.gens) : Sided x v.ident.head.id g.term.place
  | battery {s v g} (hs : s ∈ x.subs) (hv : v ∈ s.vls) (hg : g ∈ v.equip.bats) : Sided x v.ident.head.id g.term.place
  | load {s v g} (hs : s ∈ x.subs) (hv : v ∈ s.vls) (hg : g ∈ v.equip.loads) : Sided x v.ident.head.id g.term.place
  | shunt {s v g} (hs : s ∈ x.subs) (hv : v ∈ s.vls) (hg : g ∈ v.equip.shs) : Sided x v.ident.head.id g.term.place
  | danglingLine {s v g} (hs : s ∈ x.subs) (hv : v ∈ s.vls) (hg : g ∈ v.equip.dls) : Sided x v.ident.head.id g.term.place
  | svc {s v g} (hs : s ∈ x.subs) (hv : v ∈ s.vls) (hg : g ∈ v.equip.svcs) : Sided x v.ident.head.id g.term.place
  | vsc {s v g} (hs : s ∈ x.subs) (hv : v ∈ s.vls) (hg : g ∈ v.equip.vscs) : Sided x v.ident.head.id g.term.place
  | lcc {s v g} (hs : s ∈ x.subs) (hv : v ∈ s.vls) (hg : g ∈ v.equip.lccs) : Sided x v.ident.head.id g.term.place
  | transformer2 {s t y} (hs : s ∈ x.subs) (ht : t ∈ s.tw2s) (hy : y = t.side1 ∨ y = t.side2) : Sided x y.vl y.term.place
  | transformer3 {s t y} (hs : s ∈ x.subs) (ht : t ∈ s.tw3s) (hy : y = t.leg1.side ∨ y = t.leg2.side ∨ y = t.leg3.side) : Sided x y.vl y.term.place
  | line {l y} (hl : AnyLine.line l ∈ x.lines) (hy : y = l.side1 ∨ y = l.side2) : Sided x y.vl y.term.place
  | tieLine {l y} (hl : AnyLine.tie l ∈ x.lines) (hy : y = l.side1 ∨ y = l.side2) : Sided x y.vl y.term.place

/-- A busbar section of the network, by one of its names. -/
def Busbar {T : Type} (x : Net T) (n : String) : Prop :=
  ∃ s ∈ x.subs, ∃ v ∈ s.vls, ∃ bbs sws conns calcs, v.topo = .node bbs sws conns calcs ∧ ∃ b ∈ bbs, n = b.ident.head.id ∨ n ∈ b.ident.aliases.map Prod.fst

/-- The view that a level shows of a voltage level, if it is not the voltage level itself; without switches when they are merged. -/
def viewAt (L : Level) (W : Views) (v : VL) : Option View :=
  match L, v.topo with
  | .nodeBreaker, _ => none
  | .busBreaker, .bus .. => none
  | .busBreaker, .node .. => some (W.breaker v.ident.head.id)
  | .busBranch, _ => some { W.branch v.ident.head.id with sws := [] }

/-- The voltage levels of a network. -/
def levels {T : Type} (x : Net T) : List VL := x.subs.flatMap Substation.vls

/-- The buses that the export makes. -/
def newBuses {T : Type} (L : Level) (W : Views) (x : Net T) : List Bus := (levels x).flatMap fun v => ((viewAt L W v).map View.buses).getD []

/-- The switches of a voltage level, of either kind of topology. -/
def switchIdents : Topo → List Ident
  | .node _ sws _ _ => sws.map NSw.ident
  | .bus _ sws => sws.map BSw.ident

/-- What the views of a network have in common. -/
structure ViewsFit {T : Type} (L : Level) (W : Views) (x : Net T) : Prop where
  /-- The switches of a view are some of those of the voltage level, in the same order. -/
  switches : ∀ v ∈ levels x, ∀ w, viewAt L W v = some w → (w.sws.map VSw.ident).Sublist (switchIdents v.topo)
  /-- The ends of the switches are buses of the view. -/
  ends : ∀ v ∈ levels x, ∀ w, viewAt L W v = some w → ∀ s ∈ w.sws, s.bus1 ∈ w.buses.map (fun b => b.ident.head.id) ∧ s.bus2 ∈ w.buses.map fun b => b.ident.head.id
  /-- The bus of a terminal is a bus of the view of its voltage level. -/
  buses : ∀ v ∈ levels x, ∀ w, viewAt L W v = some w → ∀ p c, w.connectable p = some c → c ∈ w.buses.map fun b => b.ident.head.id
  /-- The buses have distinct names. -/
  distinct : ((newBuses L W x).map fun b => b.ident.head.id).Nodup
  named : ∀ b ∈ newBuses L W x, b.ident.head.id ≠ "" ∧ b.ident.aliases = []
  /-- No other object has the name of a bus of a view, but the buses that are replaced. -/
  free : ∀ b ∈ newBuses L W x, ∀ y, x.Has y → b.ident.head.id ∈ y.names → L = .busBranch ∧ ∃ vl, y.obj = .bus vl

end Verif.Coarse
