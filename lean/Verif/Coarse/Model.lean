import Verif.XmlNet.Accept
import Verif.BusBreaker.Model

/-!
Export of a network at a level of topology that may be coarser than its own (`ExportOptions::setTopologyLevel`), in version 1.5.

Modelled code:
* `src/iidm/TopologyLevel.cpp` l. 18-35
* `include/powsybl/iidm/converter/xml/AbstractConnectableXml.hxx` l. 139-147, 188-213
* `src/iidm/converter/xml/VoltageLevelXml.cpp` l. 160-188, 265-319, `BusBreakerViewSwitchXml.cpp` l. 46-53, `AbstractSwitchXml.hxx` l. 38-45
* `src/iidm/converter/xml/TerminalRefXml.cpp` l. 61-84
* `src/iidm/BusTerminalViews.cpp` l. 23-84 (views of a terminal of a bus/breaker voltage level)
* `src/iidm/converter/BusFilter.cpp` l. 30-62

These are the only functions of the export that look at the level: every writer of an equipment calls `writeNodeOrBus` for each of its terminals, and the other
attributes are those of `Verif.XmlNet`.  The buses of the bus view, and those of the bus/breaker view of a node/breaker voltage level, are parameters: what they are
is the subject of `Verif.NodeBreaker` and `Verif.BusBreaker`.  Terminals give the identifier of their voltage level.
-/

namespace Verif.Coarse

open Verif Verif.Xml Verif.XmlNet

abbrev Place := Adders.Place

/-- `TopologyLevel`, from the finest to the coarsest. -/
inductive Level
  | nodeBreaker
  | busBreaker
  | busBranch
  deriving DecidableEq, Repr

/-- Rank in the enumeration: the order of `std::max`. -/
def Level.rank : Level → Nat
  | .nodeBreaker => 0
  | .busBreaker => 1
  | .busBranch => 2

/-- `getMinTopologyLevel`, `TopologyLevel.cpp` l. 18-21: `std::max(a, b)` is `b` when `a < b`. -/
def minLevel (node : Bool) (o : Level) : Level :=
  let own := if node then Level.nodeBreaker else .busBreaker
  if own.rank < o.rank then o else own

/-- `getTopologyKind`, l. 23-35: the rank in `TopologyKind`. -/
def kindOf : Level → Nat
  | .nodeBreaker => 0
  | .busBreaker | .busBranch => 1

/-- A switch of the bus/breaker view: a retained one, with the buses of its ends. -/
structure VSw where
  ident : Ident
  kind : Nat
  opened : Bool
  bus1 : String
  bus2 : String
  deriving DecidableEq, Repr

/-- What a view of a voltage level answers: its buses, its switches, the bus and the connectable bus of a terminal. -/
structure View where
  buses : List Bus
  sws : List VSw
  bus : Place → Option String
  connectable : Place → Option String

/-- The views of the voltage levels, by identifier: the bus/breaker view (asked here for node/breaker voltage levels only) and the bus view. -/
structure Views where
  breaker : String → View
  branch : String → View

def isNode : Place → Bool
  | .node _ => true
  | .bus .. => false

/-- `terminal.getBusBreakerView()`: of a terminal of a bus/breaker voltage level, `BusTerminalViews.cpp` l. 23-37. -/
def breakerBus (W : Views) (vl : String) : Place → Option String
  | .bus b connected => if connected then some b else none
  | .node n => (W.breaker vl).bus (.node n)

def breakerConnectable (W : Views) (vl : String) : Place → Option String
  | .bus b _ => some b
  | .node n => (W.breaker vl).connectable (.node n)

/-- `writeBus`, `AbstractConnectableXml.hxx` l. 139-147. -/
def writeBusAttrs (A : Anon) (s : String) (bus connectable : Option String) : List (String × String) :=
  (bus.map fun b => ("bus" ++ s, A.anon b)).toList ++ (connectable.map fun b => ("connectableBus" ++ s, A.anon b)).toList

/-- `writeNodeOrBus`, l. 193-208: a terminal at a node is in a node/breaker voltage level, a terminal on a bus in a bus/breaker one. -/
def nodeOrBus (K : XCodec) (A : Anon) (L : Level) (W : Views) (s vl : String) (p : Place) : List (String × String) :=
  match minLevel (isNode p) L with
  | .nodeBreaker => placeAttrs K A s p
  | .busBreaker => writeBusAttrs A s (breakerBus W vl p) (breakerConnectable W vl p)
  | .busBranch => writeBusAttrs A s ((W.branch vl).bus p) ((W.branch vl).connectable p)

/-- A terminal with these two attributes, `none` when it has neither or when they differ. -/
def onBus : Option String → Option String → Option Place
  | none, some c => some (.bus c false)
  | some b, some c => if b = c then some (.bus c true) else none
  | _, none => none

/-- The place that the attributes of `nodeOrBus` describe, if any. -/
def located (L : Level) (W : Views) (vl : String) (p : Place) : Option Place :=
  match minLevel (isNode p) L with
  | .nodeBreaker => some p
  | .busBreaker => onBus (breakerBus W vl p) (breakerConnectable W vl p)
  | .busBranch => onBus ((W.branch vl).bus p) ((W.branch vl).connectable p)

/-- The place, for a terminal that has one: `writeNetAt` looks for the others first. -/
def placed (L : Level) (W : Views) (vl : String) (p : Place) : Place := (located L W vl p).getD p

/-! ### Terminals written elsewhere -/

section moved
variable (f : String → Place → Place)

def termTo (vl : String) (t : Term) : Term := { t with place := f vl t.place }
def sideTo (s : Side) : Side := { s with term := termTo f s.vl s.term }
def legTo (y : Leg) : Leg := { y with side := sideTo f y.side }

def equipTo (vl : String) (e : Equip) : Equip :=
  ⟨e.gens.map fun x => { x with term := termTo f vl x.term }, e.bats.map fun x => { x with term := termTo f vl x.term }, e.loads.map fun x => { x with term := termTo f vl x.term },
    e.shs.map fun x => { x with term := termTo f vl x.term }, e.dls.map fun x => { x with term := termTo f vl x.term }, e.svcs.map fun x => { x with term := termTo f vl x.term },
    e.vscs.map fun x => { x with term := termTo f vl x.term }, e.lccs.map fun x => { x with term := termTo f vl x.term }⟩

def tw2To (y : Tw2) : Tw2 := { y with side1 := sideTo f y.side1, side2 := sideTo f y.side2 }
def tw3To (y : Tw3) : Tw3 := { y with leg1 := legTo f y.leg1, leg2 := legTo f y.leg2, leg3 := legTo f y.leg3 }

def lineTo : AnyLine → AnyLine
  | .line y => .line { y with side1 := sideTo f y.side1, side2 := sideTo f y.side2 }
  | .tie y => .tie { y with side1 := sideTo f y.side1, side2 := sideTo f y.side2 }

end moved

/-! ### Voltage levels -/

/-- `BusBreakerViewSwitchXml.cpp` l. 46-53 with `AbstractSwitchXml.hxx` l. 38-45: the switches of the view are the retained ones. -/
def writeVSw (A : Anon) (x : VSw) : Out (List Cmd) := do
  let k ← Enums.toString Enums.switchKind.names x.kind
  .ok (writeElem A "switch" x.ident (swAttrs k true x.opened ++ [("bus1", A.anon x.bus1), ("bus2", A.anon x.bus2)]) [])

/-- The buses of the switch are looked for with its anonymized identifier first, `VoltageLevelXml.cpp` l. 180-181, NodeBreakerVoltageLevelTopology.cpp l. 39-67. -/
def writeVSwIn (A : Anon) (ids : List String) (x : VSw) : Out (List Cmd) := do
  check (!(ids.contains (A.anon x.ident.head.id)))
  writeVSw A x

/-- `writeBusBreakerTopology`, l. 171-188, for a view. -/
def writeBreakerView (K : XCodec) (A : Anon) (v : View) : Out (List Cmd) := do
  let b ← writeList (writeBus K A) v.buses
  let s ← writeList (writeVSwIn A (v.sws.map fun x => x.ident.head.id)) v.sws
  .ok (elemCmds "busBreakerTopology" [] (b ++ s))

/-- `writeBusBranchTopology`, l. 160-169. -/
def writeBranchView (K : XCodec) (A : Anon) (v : View) : Out (List Cmd) := do
  let b ← writeList (writeBus K A) v.buses
  .ok (elemCmds "busBreakerTopology" [] b)

/-- First part of `writeSubElements`, l. 293-309. -/
def writeTopoAt (K : XCodec) (A : Anon) (L : Level) (W : Views) (vl : String) (t : Topo) : Out (List Cmd) :=
  match minLevel t.isNode L with
  | .nodeBreaker => writeTopo K A t
  | .busBreaker =>
    match t with
    | .bus .. => writeTopo K A t
    | .node .. => writeBreakerView K A (W.breaker vl)
  | .busBranch => writeBranchView K A (W.branch vl)

/-- `writeRootElementAttributes`, l. 265-272, `writeSubElements`, l. 292-319. -/
def writeVLAt (K : XCodec) (A : Anon) (L : Level) (W : Views) (x : VL) : Out (List Cmd) := do
  let k ← Enums.toString Enums.topologyKind.names (kindOf (minLevel x.topo.isNode L))
  let t ← writeTopoAt K A L W x.ident.head.id x.topo
  let e ← writeEquip K A (equipTo (placed L W) x.ident.head.id x.equip)
  .ok (writeElem A "voltageLevel" x.ident (vlAttrs K k x) (t ++ e))

/-! ### Networks -/

/-- As `writeSubstation`. -/
def writeSubstationAt (K : XCodec) (A : Anon) (L : Level) (W : Views) (x : Substation) : Out (List Cmd) := do
  let c ← countryAttrs x.country
  let v ← writeList (writeVLAt K A L W) x.vls
  let t ← writeList (writeTw2 K A) (x.tw2s.map (tw2To (placed L W)))
  let u ← writeList (writeTw3 K A) (x.tw3s.map (tw3To (placed L W)))
  .ok (writeElem A "substation" x.ident (substationAttrs A c x) (v ++ (t ++ u)))

/-- The names of the busbar sections. -/
def busbarNames {T : Type} (x : Net T) : List String :=
  x.subs.flatMap fun s => s.vls.flatMap fun v => match v.topo with
    | .node bbs _ _ _ => bbs.flatMap fun b => b.ident.head.id :: b.ident.aliases.map Prod.fst
    | .bus .. => []

/-- `TerminalRefXml.cpp` l. 66-70, 81-85: no reference to a busbar section but at the finest level. -/
def checkRefs {T : Type} (L : Level) (x : Net T) : Out Unit := check (decide (L ≠ .nodeBreaker) && (netRefs x).any fun r => (busbarNames x).contains r.id)

/-- The terminals that are written: busbar sections have no attribute of bus. -/
def netEnds {T : Type} (x : Net T) : List End :=
  (x.subs.flatMap fun s => (s.vls.flatMap fun v => (equipItems v.ident.head.id v.equip).flatMap Item.ends) ++
    ((s.tw2s.map (tw2Item s.ident.head.id)).flatMap Item.ends ++ (s.tw3s.map (tw3Item s.ident.head.id)).flatMap Item.ends)) ++ (x.lines.map lineItem).flatMap Item.ends

/-- `NetworkXml::write` at a level, as `writeNet`.  `none` when a terminal has no bus in the view: the code writes its equipment without any attribute of place, see
`nowhere_refused`, a document that this model does not describe as a whole. -/
def writeNetAt {T : Type} (K : XCodec) (A : Anon) (D : Dates T) (L : Level) (W : Views) (x : Net T) : Option (Out (List Cmd)) :=
  if (netEnds x).all fun e => (located L W e.vl e.place).isSome then
    some do
      checkRefs L x
      let s ← writeList (writeSubstationAt K A L W) x.subs
      let l ← writeList (writeAnyLine K A) (x.lines.map (lineTo (placed L W)))
      let h ← writeList (writeHvdc K A) x.hvdcs
      .ok (elemCmds "network" (netAttrs K D x) (identCmds A x.ident ++ (s ++ (l ++ h))))
  else none

/-! ### Merged buses -/

/-- The bus view of the terminals of a bus/breaker voltage level, `BusTerminalViews.cpp` l. 61-84: the merged bus of the configured bus, if it has one; `handle` gives the
address of a configured bus.  The buses and their voltages are left aside. -/
def mergedView (c : BusBreaker.Cache) (handle : String → Option Nat) : View where
  buses := []
  sws := []
  connectable
    | .bus b _ => (handle b).bind c.byBus.get?
    | .node _ => none
  bus
    | .bus b connected => if connected then (handle b).bind c.byBus.get? else none
    | .node _ => none

/-! ### Filter of buses -/

/-- `BusFilter::create`, `BusFilter.cpp` l. 32-44: the buses of the main component are not looked for. -/
def createFilter (_onlyMainCc : Bool) : List String := []

/-- `BusFilter::test` of a bus, `BusFilter.cpp` l. 46-48: no set means every bus. -/
def testBus (buses : List String) (b : String) : Bool := buses.isEmpty || buses.contains b

/-- `BusFilter::test` of an equipment, l. 50-62, with the connectable buses of its terminals. -/
def testEquip (buses : List String) (ends : List (Option String)) : Bool :=
  if buses.isEmpty then true else !(ends.any fun b => b.any fun c => buses.contains c)

end Verif.Coarse
