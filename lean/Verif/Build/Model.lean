import Verif.Setters.Model
import Verif.ReadBack.Settle

/-!
Model of the adders of a whole network: what is given to them, their checks, and the network with the new object, in one variant.

The network is that of the XML model (C71), with the calls of C94.  Adders are given by the object under construction, whose identifier, name, terminals and, for the
equipment with reactive limits or limits, those of a new object, are the ones that `add` makes; the rest is what the setters of the adder were given.  All the checks that
come before the insertion throw without having changed anything, so their order is not modelled.

An adder that throws after the object is in the index (C29: the terminal does not fit) leaves an object without its terminals, that is not represented: the outcome is `ub`,
after which nothing is said.

The order of the objects is that of the additions; the terminals of a node are looked for in the equipment rather than in the graph.
-/

namespace Verif.Build

open Verif Verif.Xml Verif.XmlNet Verif.Setters

/-! ### Identifiers -/

/-- `m_id`, `m_name`, `m_fictitious`, `m_ensureIdUnicity`, `IdentifiableAdder.hpp`. -/
structure Base where
  id : String
  name : String
  fictitious : Bool
  ensure : Bool
  deriving DecidableEq, Repr

/-- `network.find(id)` gives an object. -/
def taken (l : List Item) (n : String) : Bool := (ReadBack.called l n).isSome

/-- `checkAndGetUniqueId`, `IdentifiableAdder.hxx` l. 25-47, then the check of `NetworkIndex::checkAndAdd`, `NetworkIndex.hxx` l. 35-40; `none` when one of them throws. -/
def newId (l : List Item) (b : Base) : Option String :=
  if b.id = "" then none
  else if b.ensure then
    let n := UniqueId.getUniqueId b.id (taken l)
    if taken l n || n == "" then none else some n
  else if taken l b.id then none else some b.id

/-- A new object has neither aliases nor properties, `Identifiable.cpp` l. 30-34. -/
def Base.ident (b : Base) (n : String) : Ident := ⟨⟨n, b.name, b.fictitious⟩, [], []⟩

/-! ### Terminals -/

/-- A new terminal has no flow, `Terminal.cpp` l. 26-31. -/
def newTerm (p : Adders.Place) : Term := ⟨p, .nan, .nan⟩

/-- `checkTerminal`: NodeBreakerVoltageLevel.cpp l. 78-84, BusBreakerVoltageLevel.cpp l. 74-86. -/
def suits (l : List Item) (vl : String) (node : Bool) : Adders.Place → Bool
  | .node _ => node
  | .bus b _ => !node && l.any fun y => y.id == b && y.obj == .bus vl

/-- The node has no terminal, NodeBreakerVoltageLevel.cpp l. 62-67. -/
def vacant (es : List End) (vl : String) : Adders.Place → Bool
  | .node n => !es.any fun e => e.vl == vl && e.place == .node n
  | .bus _ _ => true

/-- The end of an injection adder, for a voltage level of this name and kind.  `first` tells whether the terminal is built before the object is in the index
(GeneratorAdder.cpp l. 35, ShuntCompensatorAdder.cpp l. 33, StaticVarCompensatorAdder.cpp l. 30) or after (LoadAdder.cpp l. 32, BatteryAdder.cpp l. 35,
DanglingLineAdder.cpp l. 39, VscConverterStationAdder.cpp l. 29, LccConverterStationAdder.cpp l. 29). -/
def attach1 (l : List Item) (vl : String) (node first : Bool) (b : Base) (a : Adders.Args) : Out (Ident × Term) :=
  match newId l b with
  | none => .thrown
  | some n =>
    match Adders.build a with
    | .ok p => if suits l vl node p && vacant (l.flatMap Item.ends) vl p then .ok (b.ident n, newTerm p) else .ub
    | _ => if first then .thrown else .ub

/-- `checkAndGetVoltageLevel`, `checkAndGetTerminal` and the attachment that is only a test: BranchAdder.hxx l. 21-65, ThreeWindingsTransformerLegAdder.cpp l. 59-79,
LineAdder.cpp l. 41-42.  The terminal keeps the voltage level, whatever the name by which it was asked for. -/
def resolveSide (l : List Item) (only : Option String) (e : String × Adders.Args) : Option Side :=
  if e.1 = "" then none
  else
    match ReadBack.called l e.1 with
    | none => none
    | some v =>
      match v.obj with
      | .level sub node =>
        if only.all fun s => s == sub then
          match Adders.build e.2 with
          | .ok p => if suits l v.id node p then some ⟨v.id, newTerm p⟩ else none
          | _ => none
        else none
      | _ => none

/-- The attachments of the sides, one after the other: LineAdder.cpp l. 49-50, ThreeWindingsTransformerAdder.cpp l. 65-67. -/
def vacantAll (es : List End) : List Side → Bool
  | [] => true
  | s :: ss => vacant es s.vl s.term.place && vacantAll (⟨s.vl, s.term.place, true, none⟩ :: es) ss

/-- The end of an adder of equipment with several terminals. -/
def attachAll (l : List Item) (b : Base) (ss : List Side) : Out Ident :=
  match newId l b with
  | none => .thrown
  | some n => if vacantAll (l.flatMap Item.ends) ss then .ok (b.ident n) else .ub

/-! ### Voltage levels -/

/-- `BatteryAdder`, ... check bounds in this way: `ValidationUtils.cpp` l. 36-40, 184-196. -/
def badRange (a b : Dbl) : Bool := a.isNan || b.isNan || Dbl.lt b a

/-- The checks of `DanglingLineGenerationAdder.cpp` l. 24-30: the bounds may be missing. -/
def badGeneration (y : DlGen) : Bool := Dbl.lt y.maxP y.minP || y.targetP.isNan || badControl y.on y.targetV y.targetQ

/-- `Generation::Generation`, `DanglingLineGeneration.cpp` l. 24-33. -/
def newGeneration (y : DlGen) : DlGen :=
  { y with minP := if y.minP.isNan then .fin (-Dbl.maxRat) else y.minP, maxP := if y.maxP.isNan then dblMax else y.maxP, limits := defaultReactive }

/-- What is given to `newLinearModel` or `newNonLinearModel`. -/
inductive ShModelArgs
  | linear (b g : Dbl) (max : Option Nat)
  | nonLinear (sections : List (Dbl × Dbl))
  deriving DecidableEq, Repr

/-- `ShuntCompensatorLinearModelAdder.cpp` l. 26-31; `ShuntCompensatorNonLinearModelAdder.cpp` l. 31-42, 58-64. -/
def ShModelArgs.model : ShModelArgs → Out Shunt.Model
  | .linear b g max => Shunt.buildLinear b g max
  | .nonLinear args => Shunt.buildNonLinear args

/-- An adder of something of a voltage level.  An option is `none` for what has to be set and is not. -/
inductive VLAdd
  | bus (b : Base)
  | busSwitch (b : Base) (bus1 bus2 : String) (opened : Bool)
  | busbar (b : Base) (node : Option Nat)
  | nodeSwitch (b : Base) (node1 node2 kind : Option Nat) (opened retained : Bool)
  | connection (node1 node2 : Option Nat)
  | gen (b : Base) (a : Adders.Args) (on : Option Bool) (sameNet : Bool) (x : Gen)
  | bat (b : Base) (a : Adders.Args) (x : Bat)
  | load (b : Base) (a : Adders.Args) (x : Load)
  | sh (b : Base) (a : Adders.Args) (count : Option Nat) (model : Option ShModelArgs) (sameNet : Bool) (x : Sh)
  | dl (b : Base) (a : Adders.Args) (x : Dl)
  | svc (b : Base) (a : Adders.Args) (mode : Option Nat) (sameNet : Bool) (x : Svc)
  | vsc (b : Base) (a : Adders.Args) (on : Option Bool) (x : Vsc)
  | lcc (b : Base) (a : Adders.Args) (x : Lcc)

/-- A value that has to be set: `checkOptional`. -/
def given {α : Type} (o : Option α) : Out α := match o with
  | some a => .ok a
  | none => .thrown

/-- `checkRegulatingTerminal`, `ValidationUtils.cpp` l. 340-344. -/
def badReg (r : Option Ref) (sameNet : Bool) : Bool := r.isSome && !sameNet

/-- `BusAdder.cpp` l. 21-28, BusBreakerVoltageLevel.cpp l. 34-42: a new bus has neither voltage nor angle.  There is no such adder in a node/breaker voltage level
(NodeBreakerVoltageLevelViews.cpp l. 88-90). -/
def addBus (l : List Item) (b : Base) : Topo → Out Topo
  | .node _ _ _ _ => .thrown
  | .bus buses sws => match newId l b with
    | none => .thrown
    | some n => .ok (.bus (buses ++ [⟨b.ident n, .nan, .nan⟩]) sws)

/-- `SwitchAdder.cpp` l. 67-77, BusBreakerVoltageLevel.cpp l. 44-53: the buses are those of the voltage level. -/
def addBusSwitch (l : List Item) (vl : String) (b : Base) (bus1 bus2 : String) (opened : Bool) : Topo → Out Topo
  | .node _ _ _ _ => .thrown
  | .bus buses sws => match newId l b with
    | none => .thrown
    | some n => grd (bus1 == "" || bus2 == "" || !suits l vl false (.bus bus1 true) || !suits l vl false (.bus bus2 true)) (.bus buses (sws ++ [⟨b.ident n, opened, bus1, bus2⟩]))

/-- `BusbarSectionAdder.cpp` l. 25-35: the section is in the index before its node is looked at. -/
def addBusbar (l : List Item) (vl : String) (b : Base) (node : Option Nat) : Topo → Out Topo
  | .bus _ _ => .thrown
  | .node bbs sws conns calcs => (given node).bind fun k => match newId l b with
    | none => .thrown
    | some n => if vacant (l.flatMap Item.ends) vl (.node k) then .ok (.node (bbs ++ [⟨b.ident n, k⟩]) sws conns calcs) else .ub

/-- `SwitchAdder.cpp` l. 26-37, NodeBreakerVoltageLevel.cpp l. 40-48: the nodes are made if they are missing. -/
def addNodeSwitch (l : List Item) (b : Base) (node1 node2 kind : Option Nat) (opened retained : Bool) : Topo → Out Topo
  | .bus _ _ => .thrown
  | .node bbs sws conns calcs => (given node1).bind fun i => (given node2).bind fun j => (given kind).bind fun k => match newId l b with
    | none => .thrown
    | some n => .ok (.node bbs (sws ++ [⟨b.ident n, k, retained, opened, i, j⟩]) conns calcs)

/-- `InternalConnectionAdder.cpp` l. 24-30, NodeBreakerVoltageLevel.cpp l. 33-38. -/
def addConnection (node1 node2 : Option Nat) : Topo → Out Topo
  | .bus _ _ => .thrown
  | .node bbs sws conns calcs => (given node1).bind fun i => (given node2).bind fun j => .ok (.node bbs sws (conns ++ [(i, j)]) calcs)

def VLAdd.add (l : List Item) (o : VLAdd) (v : VL) : Out VL :=
  let vl := v.ident.head.id
  let inj := attach1 l vl v.topo.isNode
  match o with
  | .bus b => (addBus l b v.topo).map fun t => { v with topo := t }
  | .busSwitch b b1 b2 op => (addBusSwitch l vl b b1 b2 op v.topo).map fun t => { v with topo := t }
  | .busbar b n => (addBusbar l vl b n v.topo).map fun t => { v with topo := t }
  | .nodeSwitch b i j k op r => (addNodeSwitch l b i j k op r v.topo).map fun t => { v with topo := t }
  | .connection i j => (addConnection i j v.topo).map fun t => { v with topo := t }
  -- GeneratorAdder.cpp l. 24-46
  | .gen b a on s x => (given on).bind fun on =>
    (grd (badRange x.minP x.maxP || badReg x.reg s || x.targetP.isNan || badControl on x.targetV x.targetQ || badRatedS x.ratedS) ()).bind fun _ =>
    (inj true b a).map fun y => { v with equip := { v.equip with gens := v.equip.gens ++ [{ x with ident := y.1, term := y.2, on := on, limits := defaultReactive }] } }
  -- BatteryAdder.cpp l. 25-39
  | .bat b a x => (grd (x.p0.isNan || x.q0.isNan || badRange x.minP x.maxP) ()).bind fun _ =>
    (inj false b a).map fun y => { v with equip := { v.equip with bats := v.equip.bats ++ [{ x with ident := y.1, term := y.2, limits := defaultReactive }] } }
  -- LoadAdder.cpp l. 24-36
  | .load b a x => (grd (decide (3 ≤ x.kind) || x.p0.isNan || x.q0.isNan) ()).bind fun _ =>
    (inj false b a).map fun y => { v with equip := { v.equip with loads := v.equip.loads ++ [{ x with ident := y.1, term := y.2 }] } }
  -- ShuntCompensatorAdder.cpp l. 23-43
  | .sh b a count model s x => (given model).bind fun k => k.model.bind fun m => (given count).bind fun c =>
    (grd (badReg x.reg s || badTarget x.per.on x.per.targetV || badDeadband x.per.on x.per.deadband || badSections c m.maximum) ()).bind fun _ =>
    (inj true b a).map fun y => { v with equip := { v.equip with shs := v.equip.shs ++ [{ x with ident := y.1, term := y.2, model := m, per := { x.per with count := c } }] } }
  -- DanglingLineAdder.cpp l. 25-43
  | .dl b a x => (grd (x.p0.isNan || x.q0.isNan || x.r.isNan || x.x.isNan || x.g.isNan || x.b.isNan || x.gen.any badGeneration) ()).bind fun _ =>
    (inj false b a).map fun y => { v with equip := { v.equip with
      dls := v.equip.dls ++ [{ x with ident := y.1, term := y.2, gen := x.gen.map newGeneration, active := none, apparent := none, current := none }] } }
  -- StaticVarCompensatorAdder.cpp l. 24-40
  | .svc b a mode s x => (given mode).bind fun m => (grd (x.bMin.isNan || x.bMax.isNan || badReg x.reg s || badSvc m x.voltage x.reactive) ()).bind fun _ =>
    (inj true b a).map fun y => { v with equip := { v.equip with svcs := v.equip.svcs ++ [{ x with ident := y.1, term := y.2, mode := m }] } }
  -- VscConverterStationAdder.cpp l. 23-33, 56-60
  | .vsc b a on x => (given on).bind fun on => (grd (badLoss x.lossFactor || badControl on x.voltage x.reactive) ()).bind fun _ =>
    (inj false b a).map fun y => { v with equip := { v.equip with vscs := v.equip.vscs ++ [{ x with ident := y.1, term := y.2, on := on, limits := defaultReactive }] } }
  -- LccConverterStationAdder.cpp l. 23-33, 46-49
  | .lcc b a x => (grd (badLoss x.lossFactor || badPowerFactor x.powerFactor) ()).bind fun _ =>
    (inj false b a).map fun y => { v with equip := { v.equip with lccs := v.equip.lccs ++ [{ x with ident := y.1, term := y.2 }] } }

/-! ### Substations -/

/-- A leg under construction: the values, then the voltage level and the terminal. -/
structure LegArgs where
  z : LegZ
  level : String
  args : Adders.Args

/-- `ThreeWindingsTransformerLegAdder.cpp` l. 28-34; `checkRatedS`. -/
def badLeg (z : LegZ) : Bool := z.r.isNan || z.x.isNan || z.g.isNan || z.b.isNan || z.ratedU.isNan || badRatedS z.ratedS

/-- Nothing is there before limits are added. -/
def noLims : Lims := ⟨none, none, none⟩

def newLeg (z : LegZ) (s : Side) : Leg := ⟨z, s, ⟨none, none, noLims⟩⟩

def noEquip : Equip := ⟨[], [], [], [], [], [], [], []⟩

/-- The topology of a new voltage level: node/breaker, bus/breaker, in this order (`TopologyKind.hpp`). -/
def emptyTopo : Nat → Out Topo
  | 0 => .ok (.node [] [] [] [])
  | 1 => .ok (.bus [] [])
  | _ => .thrown

inductive SubAdd
  | vl (j : Nat) (o : VLAdd)
  | level (b : Base) (nominalV low high : Dbl) (kind : Option Nat)
  | tw2 (b : Base) (side1 side2 : String × Adders.Args) (x : Tw2)
  | tw3 (b : Base) (leg1 leg2 leg3 : Option LegArgs) (ratedU0 : Dbl)

/-- `VoltageLevelAdder.cpp` l. 25-50, `TwoWindingsTransformerAdder.cpp` l. 25-56, `ThreeWindingsTransformerAdder.cpp` l. 24-71. -/
def SubAdd.add (l : List Item) (o : SubAdd) (s : Substation) : Out Substation :=
  let side := resolveSide l (some s.ident.head.id)
  match o with
  | .vl j o => (setAt (o.add l) j s.vls).map fun vs => { s with vls := vs }
  | .level b nom low high kind => (given kind).bind fun k => (grd (nom.isNan || Dbl.le nom 0 || badVoltages low high) ()).bind fun _ =>
    (emptyTopo k).bind fun t => (given (newId l b)).map fun n => { s with vls := s.vls ++ [⟨b.ident n, nom, low, high, t, noEquip⟩] }
  | .tw2 b e1 e2 x => (given (side e1)).bind fun s1 => (given (side e2)).bind fun s2 =>
    (grd (x.r.isNan || x.x.isNan || x.g.isNan || x.b.isNan || x.ratedU1.isNan || x.ratedU2.isNan || badRatedS x.ratedS) ()).bind fun _ =>
    (attachAll l b [s1, s2]).map fun i => { s with tw2s := s.tw2s ++ [{ x with ident := i, side1 := s1, side2 := s2, rtc := none, ptc := none, lims := ⟨noLims, noLims⟩ }] }
  | .tw3 b l1 l2 l3 u0 => (given l1).bind fun a1 => (given l2).bind fun a2 => (given l3).bind fun a3 =>
    (grd (badLeg a1.z || badLeg a2.z || badLeg a3.z) ()).bind fun _ =>
    (given (side (a1.level, a1.args))).bind fun s1 => (given (side (a2.level, a2.args))).bind fun s2 => (given (side (a3.level, a3.args))).bind fun s3 =>
    (attachAll l b [s1, s2, s3]).map fun i =>
      { s with tw3s := s.tw3s ++ [⟨i, newLeg a1.z s1, newLeg a2.z s2, newLeg a3.z s3, if u0.isNan then a1.z.ratedU else u0⟩] }

/-! ### The network -/

/-- The checks of `LineAdder.cpp` l. 33-38 and of `HalfLineAdder.cpp` l. 29-46. -/
def badCharac (z : Charac) : Bool := z.r.isNan || z.x.isNan || z.g1.isNan || z.b1.isNan || z.g2.isNan || z.b2.isNan

/-- `HalfLineAdder.cpp` l. 26-28: a half has an identifier. -/
def badHalf (h : Half) : Bool := h.id == "" || badCharac h.z

/-- `HalfLine::getName`, `HalfLine.cpp` l. 71-73. -/
def newHalf (h : Half) : Half := { h with name := if h.name = "" then h.id else h.name }

/-- `getConverterStation`, `HvdcLineAdder.cpp` l. 44-52. -/
def findStation (l : List Item) (n : String) : Option String :=
  if n = "" then none
  else
    match ReadBack.called l n with
    | some s => if s.obj = .station then some s.id else none
    | none => none

inductive NetAdd
  | sub (i : Nat) (o : SubAdd)
  | substation (b : Base) (country : Option Nat) (tso : String) (tags : List String)
  | line (b : Base) (side1 side2 : String × Adders.Args) (z : Charac)
  | tie (b : Base) (side1 side2 : String × Adders.Args) (ucte : String) (half1 half2 : Option Half)
  | hvdc (b : Base) (mode : Option Nat) (x : HvdcLine)

/-- `SubstationAdder.cpp` l. 22-27, `LineAdder.cpp` l. 27-53, `TieLineAdder.cpp` l. 24-55, `HvdcLineAdder.cpp` l. 25-42. -/
def NetAdd.add {T : Type} (o : NetAdd) (x : Net T) : Out (Net T) :=
  let l := netItems x
  let side := resolveSide l none
  match o with
  | .sub i o => (setAt (o.add l) i x.subs).map fun ss => { x with subs := ss }
  | .substation b c tso tags => (given (newId l b)).map fun n => { x with subs := x.subs ++ [⟨b.ident n, c, tso, tags.foldl (fun ts t => insertTag t ts) [], [], [], []⟩] }
  | .line b e1 e2 z => (given (side e1)).bind fun s1 => (given (side e2)).bind fun s2 => (grd (badCharac z) ()).bind fun _ =>
    (attachAll l b [s1, s2]).map fun i => { x with lines := x.lines ++ [.line ⟨i, z, s1, s2, ⟨noLims, noLims⟩⟩] }
  | .tie b e1 e2 u h1 h2 => (given (side e1)).bind fun s1 => (given (side e2)).bind fun s2 => (given h1).bind fun h1 => (given h2).bind fun h2 =>
    (grd (u == "" || badHalf h1 || badHalf h2) ()).bind fun _ =>
    (attachAll l b [s1, s2]).map fun i => { x with lines := x.lines ++ [.tie ⟨i, u, newHalf h1, newHalf h2, s1, s2, ⟨noLims, noLims⟩⟩] }
  | .hvdc b mode y => (given mode).bind fun m =>
    (grd (y.r.isNan || decide (2 ≤ m) || y.nominalV.isNan || Dbl.le y.nominalV 0 || y.setpoint.isNan || Dbl.lt y.setpoint 0 || y.maxP.isNan || Dbl.lt y.maxP 0) ()).bind fun _ =>
    (given (findStation l y.station1)).bind fun t1 => (given (findStation l y.station2)).bind fun t2 =>
    (given (newId l b)).map fun n => { x with hvdcs := x.hvdcs ++ [{ y with ident := b.ident n, mode := m, station1 := t1, station2 := t2 }] }

/-- `Network::Network`, `Network.cpp` l. 72-80, `Identifiable.cpp` l. 30-34. -/
def newNet {T : Type} (id format : String) (date : T) : Out (Net T) :=
  grd (id == "" || format == "") ⟨⟨⟨id, id, false⟩, [], []⟩, format, 0, date, [], [], []⟩

/-! ### Histories -/

inductive Call (T : Type)
  | add (o : NetAdd)
  | set (o : NetOp T)

def Call.run {T : Type} : Call T → Net T → Out (Net T)
  | .add o, x => o.add x
  | .set o, x => o.set x

/-- The network after calls: one that throws changes nothing. -/
def runCalls {T : Type} (x : Net T) : List (Call T) → Out (Net T)
  | [] => .ok x
  | o :: os => match o.run x with
    | .ok y => runCalls y os
    | .thrown => runCalls x os
    | .ub => .ub

end Verif.Build
