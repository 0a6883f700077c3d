import Verif.XmlOld.Model
import Verif.XmlNet.Net

/-!
Writers and readers of the rest of a network (the other equipment, switches, buses, voltage levels, substations, the document itself), in any version of
IIDM-XML from 1.0 to 1.5.

Modelled code (`src/iidm/converter/xml`):
* `LoadXml.cpp`, `GeneratorXml.cpp`, `BatteryXml.cpp`, `LccConverterStationXml.cpp`, `VscConverterStationXml.cpp`, `HvdcLineXml.cpp`, `BusXml.cpp`: only what all
  identifiables have depends on the version
* `ShuntCompensatorXml.cpp` l. 38-182
* `AbstractSwitchXml.hxx` l. 38-45, `NodeBreakerViewSwitchXml.cpp` l. 27-50, `BusBreakerViewSwitchXml.cpp` l. 32-53
* `VoltageLevelXml.cpp` l. 61-149, 171-197, 235-319
* `SubstationXml.cpp` l. 42-119
* `NetworkXml.cpp` l. 202-282, 284-351

Attributes and checks that do not depend on the version are those of `Verif.XmlNet`, as are the limits of that model: no extensions, no bus filter, the
full level of topology.  What the network computes for the writers is a parameter (`Env`).
-/

namespace Verif.XmlOld

open Verif Verif.Xml Verif.XmlNet

/-- What the writers ask the network to compute, and the subtraction of doubles. -/
structure Env where
  sub : Dbl → Dbl → Dbl
  /-- `BusbarSection::getV` and `getAngle`. -/
  busbar : Bbs → Dbl × Dbl
  /-- `getMaximumNodeIndex() + 1` of a node/breaker voltage level. -/
  nodeCount : VL → Nat
  /-- The flows at the boundary of a tie line. -/
  flow : TieLine → Xnode

/-- The writers of a list, in a row. -/
def writeAll {α : Type} (w : α → Piece Cmd) : List α → Piece Cmd
  | [] => plain []
  | x :: xs => w x >+> writeAll w xs

/-- A writer that reports nothing. -/
def quiet (d : Out (List Cmd)) : Piece Cmd := d.map fun d => ⟨d, []⟩

/-! ### Equipment that is written in the same way in all versions -/

/-- `LoadXml.cpp` l. 58-64. -/
def writeLoad (K : XCodec) (A : Anon) (c : Ctx) (x : Load) : Piece Cmd :=
  (Enums.toString Enums.loadType.names x.kind).bind fun k => writeElem A c "load" x.ident (plain (loadAttrs K A k x)) (plain [])

def readLoad (K : XCodec) (A : Anon) (v : Ver) : List Tok → Out (Load × List Tok) :=
  readElem A v "load" (readLoadRoot K A) noSub () fun x a _ => .ok ⟨x, a.1, a.2.1, a.2.2.1, a.2.2.2⟩

/-- `GeneratorXml.cpp` l. 78-96. -/
def writeGen (K : XCodec) (A : Anon) (c : Ctx) (x : Gen) : Piece Cmd :=
  (Enums.toString Enums.energySource.names x.source).bind fun s =>
    writeElem A c "generator" x.ident (plain (genAttrs K A s x)) (plain (refElems A "regulatingTerminal" x.reg ++ writeReactive K.toCodec x.limits))

def readGen (K : XCodec) (A : Anon) (v : Ver) : List Tok → Out (Gen × List Tok) :=
  readElem A v "generator" (readGenRoot K A) (genSub K A) (none, defaultReactive) fun x a s =>
    .ok ⟨x, a.source, a.minP, a.maxP, a.ratedS, a.on, a.targetP, a.targetV, a.targetQ, a.term, s.1, s.2⟩

/-- `BatteryXml.cpp` l. 59-70. -/
def writeBat (K : XCodec) (A : Anon) (c : Ctx) (x : Bat) : Piece Cmd := writeElem A c "battery" x.ident (plain (batAttrs K A x)) (plain (writeReactive K.toCodec x.limits))

def readBat (K : XCodec) (A : Anon) (v : Ver) : List Tok → Out (Bat × List Tok) :=
  readElem A v "battery" (readBatRoot K A) (holderSub K) defaultReactive fun x a s => .ok ⟨x, a.1, a.2.1, a.2.2.1, a.2.2.2.1, a.2.2.2.2, s⟩

/-- `LccConverterStationXml.cpp` l. 49-54. -/
def writeLcc (K : XCodec) (A : Anon) (c : Ctx) (x : Lcc) : Piece Cmd := writeElem A c "lccConverterStation" x.ident (plain (lccAttrs K A x)) (plain [])

def readLcc (K : XCodec) (A : Anon) (v : Ver) : List Tok → Out (Lcc × List Tok) :=
  readElem A v "lccConverterStation" (readLccRoot K A) noSub () fun x a _ => .ok ⟨x, a.1, a.2.1, a.2.2⟩

/-- `VscConverterStationXml.cpp` l. 60-71. -/
def writeVsc (K : XCodec) (A : Anon) (c : Ctx) (x : Vsc) : Piece Cmd :=
  writeElem A c "vscConverterStation" x.ident (plain (vscAttrs K A x)) (plain (writeReactive K.toCodec x.limits))

def readVsc (K : XCodec) (A : Anon) (v : Ver) : List Tok → Out (Vsc × List Tok) :=
  readElem A v "vscConverterStation" (readVscRoot K A) (holderSub K) defaultReactive fun x a s => .ok ⟨x, a.1, a.2.1, a.2.2.1, a.2.2.2.1, a.2.2.2.2, s⟩

/-- `HvdcLineXml.cpp` l. 57-65. -/
def writeHvdc (K : XCodec) (A : Anon) (c : Ctx) (x : HvdcLine) : Piece Cmd :=
  (Enums.toString Enums.hvdcLineConvertersMode.names x.mode).bind fun m => writeElem A c "hvdcLine" x.ident (plain (hvdcAttrs K m x)) (plain [])

def readHvdc (K : XCodec) (A : Anon) (v : Ver) : List Tok → Out (HvdcLine × List Tok) :=
  readElem A v "hvdcLine" (readHvdcRoot K) noSub () fun i a _ => .ok ⟨i, a.1, a.2.1, a.2.2.1, a.2.2.2.1, a.2.2.2.2.1, a.2.2.2.2.2.1, a.2.2.2.2.2.2⟩

/-- `BusXml.cpp` l. 46-49. -/
def writeBus (K : XCodec) (A : Anon) (c : Ctx) (b : Bus) : Piece Cmd := writeElem A c "bus" b.ident (plain (busAttrs K b)) (plain [])

/-- The end that is waited for is the one of the substation (l. 40-44). -/
def readBus (K : XCodec) (A : Anon) (v : Ver) : List Tok → Out (Bus × List Tok) :=
  readElem A v "substation" (readBusRoot K) noSub () fun x a _ => .ok ⟨x, a.1, a.2⟩

/-! ### Shunt compensators -/

/-- `writeRootElementAttributes`, `ShuntCompensatorXml.cpp` l. 155-174. -/
def shAttrs (K : XCodec) (A : Anon) (c : Ctx) (x : Sh) : Piece (String × String) :=
  (match x.model with
    | .nonLinear _ => assertMinimumVersion "shuntNonLinearModel" .v13 c start
    | .linear _ _ _ => .ok start) >+>
  runUntilMaximumVersion .v12 c.version (fun w => (shuntOldAttrs K.toCodec x.model x.per).map fun as => { w with doc := w.doc ++ as }) start >+>
  runFromMinimumVersion .v13 c.version (fun w => .ok { w with doc := w.doc ++ attrN K.toCodec "sectionCount" x.per.count }) start >+>
  writeAttributeFromMinimumVersion "voltageRegulatorOn" (x.per.on != false) .v12 (fun d => .ok (d ++ attrB "voltageRegulatorOn" x.per.on)) c start >+>
  attrSince K "targetV" x.per.targetV .nan .v12 c >+> attrSince K "targetDeadband" x.per.deadband .nan .v12 c >+> plain (placeAttrs K A "" x.term.place ++ pqAttrs K "" x.term)

/-- With `writeSubElements`, l. 176-182. -/
def writeSh (K : XCodec) (A : Anon) (c : Ctx) (x : Sh) : Piece Cmd :=
  writeElem A c "shunt" x.ident (shAttrs K A c x)
    (runFromMinimumVersion .v13 c.version (fun w => .ok { w with doc := w.doc ++ modelCmds K.toCodec x.model }) start >+>
      match x.reg with
      | none => plain []
      | some r => since "regulatingTerminal" .v12 c (refElem A "regulatingTerminal" r))

/-- `readElement`, l. 39-63: the attributes. -/
def readShRoot (K : XCodec) (A : Anon) (v : Ver) (toks : List Tok) : Out (ShuntArgs × Term) := do
  let a ← readRegulation K.toCodec v toks ⟨none, false, .nan, .nan, none⟩
  let a ← readOldModel K.toCodec v toks a
  let a ← readCount K.toCodec v toks a
  let place ← readPlace K A toks
  let term ← readTerm K "" toks place
  .ok (a, term)

/-- Sub elements of `readElement`, l. 68-110.  Aliases and properties are gathered, then given to the equipment once it is made (l. 119-124): as if they were
given at once, except that an alias repeated with another type would keep the last type.  The type of an alias is read in every version that has aliases:
the writer gives none before version 1.4. -/
def shSub (K : XCodec) (A : Anon) (v : Ver) : Handler (Option Shunt.Model × Option Ref) := fun n =>
  if n = "regulatingTerminal" then some (refCb A true fun s r => (s.1, some r))
  else if n = "shuntLinearModel" ∨ n = "shuntNonLinearModel" then some fun s toks => do
    let r ← shuntCb K.toCodec v s.1 toks
    .ok ((r.1, s.2), r.2)
  else none

/-- l. 112-117: the adder builds the shunt compensator, with the last model it was given. -/
def buildSh (x : Ident) (a : ShuntArgs × Term) (s : Option Shunt.Model × Option Ref) : Out Sh := do
  let b ← Shunt.build (s.1.or a.1.model) a.1.count a.1.on a.1.targetV a.1.deadband
  .ok ⟨x, b.1, b.2, a.2, s.2.filter fun r => decide (r.id ≠ "")⟩

def readSh (K : XCodec) (A : Anon) (v : Ver) : List Tok → Out (Sh × List Tok) := readElem A v "shunt" (readShRoot K A v) (shSub K A v) (none, none) buildSh

/-! ### Switches -/

/-- The flag of a switch, until version 1.1: `AbstractSwitchXml.hxx` l. 42-44. -/
def oldFlag (v : Ver) (f : Bool) : Piece (String × String) := runUntilMaximumVersion .v11 v (fun w => .ok { w with doc := w.doc ++ attrOptB "fictitious" f false }) start

/-- `NodeBreakerViewSwitchXml.cpp` l. 45-50. -/
def writeNSw (K : XCodec) (A : Anon) (c : Ctx) (x : NSw) : Piece Cmd :=
  (Enums.toString Enums.switchKind.names x.kind).bind fun k => writeElem A c "switch" x.ident
    (plain (swAttrs k x.retained x.opened) >+> oldFlag c.version x.ident.head.fictitious >+> plain (attrN K.toCodec "node1" x.node1 ++ attrN K.toCodec "node2" x.node2)) (plain [])

/-- What the adder is given until version 1.1, `NodeBreakerViewSwitchXml.cpp` l. 31-34, `BusBreakerViewSwitchXml.cpp` l. 34-37. -/
def readFlag (v : Ver) (toks : List Tok) : Out (Option Bool) := runUntilMaximumVersion .v11 v (fun _ => (optBOr "fictitious" false toks).map some) none

/-- The flag of the adder, which is that of all identifiables unless it was given again. -/
def setFlag (x : Ident) : Option Bool → Ident
  | none => x
  | some f => { x with head := { x.head with fictitious := f } }

/-- `NodeBreakerViewSwitchXml.cpp` l. 27-43. -/
def readNSw (K : XCodec) (A : Anon) (v : Ver) : List Tok → Out (NSw × List Tok) :=
  readElem A v "switch" (fun toks => do
    let a ← readNSwRoot K toks
    let f ← readFlag v toks
    .ok (a, f)) noSub () fun x a _ => .ok ⟨setFlag x a.2, a.1.2.1, a.1.2.2.1, a.1.1, a.1.2.2.2.1, a.1.2.2.2.2⟩

/-- `BusBreakerViewSwitchXml.cpp` l. 46-53; 0 is the rank of `BREAKER`. -/
def writeBSw (A : Anon) (c : Ctx) (x : BSw) : Piece Cmd :=
  (Enums.toString Enums.switchKind.names 0).bind fun k => writeElem A c "switch" x.ident
    (plain (swAttrs k true x.opened) >+> oldFlag c.version x.ident.head.fictitious >+> plain [("bus1", A.anon x.bus1), ("bus2", A.anon x.bus2)]) (plain [])

/-- Its buses are looked for with its anonymized identifier: `VoltageLevelXml.cpp` l. 180-181. -/
def writeBSwIn (A : Anon) (c : Ctx) (ids : List String) (x : BSw) : Piece Cmd := (check (!(ids.contains (A.anon x.ident.head.id)))).bind fun _ => writeBSw A c x

/-- `BusBreakerViewSwitchXml.cpp` l. 32-44. -/
def readBSw (A : Anon) (v : Ver) : List Tok → Out (BSw × List Tok) :=
  readElem A v "switch" (fun toks => do
    let a ← readBSwRoot A toks
    let f ← readFlag v toks
    .ok (a, f)) noSub () fun x a _ => .ok ⟨setFlag x a.2, a.1.1, a.1.2.1, a.1.2.2⟩

/-! ### Voltage levels -/

/-- `writeBusBreakerTopology`, `VoltageLevelXml.cpp` l. 171-188, `writeNodeBreakerTopology`, l. 235-257: the number of nodes until version 1.1, the calculated buses
from it on. -/
def writeTopo (K : XCodec) (A : Anon) (E : Env) (c : Ctx) (x : VL) : Piece Cmd :=
  match x.topo with
  | .node bbs sws conns calcs =>
    (runUntilMaximumVersion .v11 c.version (fun w => .ok { w with doc := w.doc ++ attrN K.toCodec "nodeCount" (E.nodeCount x) }) start).bind fun a =>
    (writeAll (fun b => writeBbs K A c b (E.busbar b)) bbs >+> writeAll (writeNSw K A c) sws >+> writeAll (fun y => quiet (writeConn K y)) conns >+>
      runFromMinimumVersion .v11 c.version (fun w => .ok w >+> writeAll (fun y => quiet (writeCalc K y)) calcs) start).map fun b =>
    ⟨elemCmds "nodeBreakerTopology" a.doc b.doc, b.log ++ a.log⟩
  | .bus buses sws =>
    (writeAll (writeBus K A c) buses >+> writeAll (writeBSwIn A c (sws.map fun y => y.ident.head.id)) sws).map fun b => ⟨elemCmds "busBreakerTopology" [] b.doc, b.log⟩

/-- `writeSubElements`, l. 311-318. -/
def writeEquip (K : XCodec) (A : Anon) (E : Env) (c : Ctx) (e : Equip) : Piece Cmd :=
  writeAll (writeGen K A c) e.gens >+> writeAll (writeBat K A c) e.bats >+> writeAll (writeLoad K A c) e.loads >+> writeAll (writeSh K A c) e.shs >+>
    writeAll (writeDl K A E.sub c) e.dls >+> writeAll (writeSvc K A c) e.svcs >+> writeAll (writeVsc K A c) e.vscs >+> writeAll (writeLcc K A c) e.lccs

/-- l. 265-272, 292-319. -/
def writeVL (K : XCodec) (A : Anon) (E : Env) (c : Ctx) (x : VL) : Piece Cmd :=
  (Enums.toString Enums.topologyKind.names x.topo.kind).bind fun k =>
    writeElem A c "voltageLevel" x.ident (plain (vlAttrs K k x)) (writeTopo K A E c x >+> writeEquip K A E c x.equip)

/-- What is kept of the sub elements: a busbar section comes with the voltage and angle that its end task gives to its bus. -/
structure VlSub where
  bbs : List (Bbs × Option (Dbl × Dbl))
  nsws : List NSw
  conns : List (Nat × Nat)
  calcs : List Calc
  buses : List Bus
  bsws : List BSw
  equip : Equip
  deriving DecidableEq, Repr

/-- `readBusBreakerTopology`, l. 61-71. -/
def busTopoSub (K : XCodec) (A : Anon) (v : Ver) : Handler VlSub := fun n =>
  if n = "bus" then some (pushCb (readBus K A v) fun s b => { s with buses := s.buses ++ [b] })
  else if n = "switch" then some (pushCb (readBSw A v) fun s b => { s with bsws := s.bsws ++ [b] })
  else none

/-- `readNodeBreakerTopology`, l. 95-109: calculated buses are refused before version 1.1 (l. 74). -/
def nodeTopoSub (K : XCodec) (A : Anon) (v : Ver) : Handler VlSub := fun n =>
  if n = "busbarSection" then some (pushCb (readBbs K A v) fun s b => { s with bbs := s.bbs ++ [b] })
  else if n = "switch" then some (pushCb (readNSw K A v) fun s b => { s with nsws := s.nsws ++ [b] })
  else if n = "internalConnection" then some (pushCb (readConn K) fun s b => { s with conns := s.conns ++ [b] })
  else if n = "bus" then some (onlySince .v11 v (pushCb (readCalc K) fun s b => { s with calcs := s.calcs ++ [b] }))
  else none

/-- The two topologies: their attributes are not read, their callback refuses unknown elements. -/
def topoCb (root : String) (h : Handler VlSub) : Callback VlSub := fun s toks => readPlain root (fun _ => .ok ()) h s (fun _ s => .ok s) toks

/-- `readSubElements`, l. 123-149. -/
def vlSub (K : XCodec) (A : Anon) (v : Ver) : Handler VlSub := fun n =>
  if n = "nodeBreakerTopology" then some (topoCb "nodeBreakerTopology" (nodeTopoSub K A v))
  else if n = "busBreakerTopology" then some (topoCb "busBreakerTopology" (busTopoSub K A v))
  else if n = "battery" then some (pushCb (readBat K A v) fun s x => { s with equip := { s.equip with bats := s.equip.bats ++ [x] } })
  else if n = "generator" then some (pushCb (readGen K A v) fun s x => { s with equip := { s.equip with gens := s.equip.gens ++ [x] } })
  else if n = "load" then some (pushCb (readLoad K A v) fun s x => { s with equip := { s.equip with loads := s.equip.loads ++ [x] } })
  else if n = "shunt" then some (pushCb (readSh K A v) fun s x => { s with equip := { s.equip with shs := s.equip.shs ++ [x] } })
  else if n = "danglingLine" then some (pushCb (readDl K A v) fun s x => { s with equip := { s.equip with dls := s.equip.dls ++ [x] } })
  else if n = "staticVarCompensator" then some (pushCb (readSvc K A v) fun s x => { s with equip := { s.equip with svcs := s.equip.svcs ++ [x] } })
  else if n = "vscConverterStation" then some (pushCb (readVsc K A v) fun s x => { s with equip := { s.equip with vscs := s.equip.vscs ++ [x] } })
  else if n = "lccConverterStation" then some (pushCb (readLcc K A v) fun s x => { s with equip := { s.equip with lccs := s.equip.lccs ++ [x] } })
  else none

def noVlSub : VlSub := ⟨[], [], [], [], [], [], noEquip⟩

/-- A busbar section, with the voltage and angle that the end tasks give to its bus. -/
abbrev Volt := String × Dbl × Dbl

def voltsOf (bbs : List (Bbs × Option (Dbl × Dbl))) : List Volt := bbs.filterMap fun b => b.2.map fun va => (b.1.ident.head.id, va)

/-- The voltage level that was filled, and what its end tasks do with its busbar sections. -/
def buildVL (x : Ident) (a : Dbl × Dbl × Dbl × Nat) (s : VlSub) : Out (VL × List Volt) := do
  let y ← XmlNet.buildVL x a ⟨s.bbs.map Prod.fst, s.nsws, s.conns, s.calcs, s.buses, s.bsws, s.equip⟩
  .ok (y, voltsOf s.bbs)

def readVL (K : XCodec) (A : Anon) (v : Ver) : List Tok → Out ((VL × List Volt) × List Tok) := readElem A v "voltageLevel" (readVLRoot K) (vlSub K A v) noVlSub buildVL

/-! ### Substations -/

/-- `SubstationXml.cpp` l. 82-119. -/
def writeSubstation (K : XCodec) (A : Anon) (E : Env) (c : Ctx) (x : Substation) : Piece Cmd :=
  (countryAttrs x.country).bind fun ca => writeElem A c "substation" x.ident (plain (substationAttrs A ca x))
    (writeAll (writeVL K A E c) x.vls >+> writeAll (writeTw2 K A c) x.tw2s >+> writeAll (writeTw3 K A c) x.tw3s)

structure SubstationSub where
  vls : List (VL × List Volt)
  tw2s : List Tw2
  tw3s : List Tw3
  deriving DecidableEq, Repr

/-- `readSubElements`, l. 67-79. -/
def substationSub (K : XCodec) (A : Anon) (v : Ver) : Handler SubstationSub := fun n =>
  if n = "voltageLevel" then some (pushCb (readVL K A v) fun s x => { s with vls := s.vls ++ [x] })
  else if n = "twoWindingsTransformer" then some (pushCb (readTw2 K A v) fun s x => { s with tw2s := s.tw2s ++ [x] })
  else if n = "threeWindingsTransformer" then some (pushCb (readTw3 K A v) fun s x => { s with tw3s := s.tw3s ++ [x] })
  else none

def readSubstation (K : XCodec) (A : Anon) (v : Ver) : List Tok → Out ((Substation × List Volt) × List Tok) :=
  readElem A v "substation" (readSubstationRoot A) (substationSub K A v) ⟨[], [], []⟩ fun x a s =>
    .ok (⟨x, a.1, a.2.1, a.2.2, s.vls.map Prod.fst, s.tw2s, s.tw3s⟩, s.vls.flatMap Prod.snd)

/-! ### Networks -/

/-- `AliasesXml::write`, l. 36-49, called for the network without `runFromMinimumVersion` (`NetworkXml.cpp` l. 313). -/
def writeNetAliases (A : Anon) (c : Ctx) (x : Ident) : Piece Cmd :=
  (assertMinimumVersionIfNotDefault (!x.aliases.isEmpty) "alias" .v13 c start).map fun w => { w with doc := w.doc ++ aliasesElems A c.version x.aliases }

/-- l. 322-331. -/
def writeAnyLine (K : XCodec) (A : Anon) (E : Env) (c : Ctx) : AnyLine → Piece Cmd
  | .line x => writeLine K A c x
  | .tie x => writeTie K A c x (E.flow x)

/-- `NetworkXml::write`, l. 303-343. -/
def writeNet {T : Type} (K : XCodec) (A : Anon) (D : Dates T) (E : Env) (c : Ctx) (x : Net T) : Piece Cmd :=
  (writeNetAliases A c x.ident >+> plain (propsCmds x.ident.props) >+> writeAll (writeSubstation K A E c) x.subs >+> writeAll (writeAnyLine K A E c) x.lines >+>
    writeAll (writeHvdc K A c) x.hvdcs).map fun b => ⟨elemCmds "network" (netAttrs K D x) b.doc, b.log⟩

/-- A line comes with what its end task compares with the flows at its boundary. -/
structure NetSub where
  subs : List (Substation × List Volt)
  lines : List (AnyLine × Option Xnode)
  hvdcs : List HvdcLine
  deriving DecidableEq, Repr

/-- The callback of l. 248-269, but for aliases and properties (which `elemCb` reads) and extensions. -/
def netSub (K : XCodec) (A : Anon) (v : Ver) : Handler NetSub := fun n =>
  if n = "substation" then some (pushCb (readSubstation K A v) fun s x => { s with subs := s.subs ++ [x] })
  else if n = "line" then some (pushCb (readLine K A v) fun s x => { s with lines := s.lines ++ [(.line x, none)] })
  else if n = "tieLine" then some (pushCb (readTie K A v) fun s x => { s with lines := s.lines ++ [(.tie x.1, x.2)] })
  else if n = "hvdcLine" then some (pushCb (readHvdc K A v) fun s x => { s with hvdcs := s.hvdcs ++ [x] })
  else none

/-- The network that is read, the voltages and angles that the end tasks give to the buses of busbar sections, and the flows that they compare. -/
structure ReadNet (T : Type) where
  net : Net T
  volts : List Volt
  flows : List (String × Xnode)
  deriving DecidableEq, Repr

def lineId : AnyLine → String
  | .line x => x.ident.head.id
  | .tie x => x.ident.head.id

def flowsOf (ls : List (AnyLine × Option Xnode)) : List (String × Xnode) := ls.filterMap fun l => l.2.map fun b => (lineId l.1, b)

/-- `NetworkXml::read`, l. 213-217, 248-269. -/
def readNet {T : Type} (K : XCodec) (A : Anon) (D : Dates T) (v : Ver) (toks : List Tok) : Out (ReadNet T) := do
  let id ← getS "id" toks
  let f ← getS "sourceFormat" toks
  let d ← optInt K "forecastDistance" toks
  let c ← getS "caseDate" toks
  let _ ← check (id == "" || f == "" || decide (d.getD 0 < 0))
  let t ← D.parse c
  let r ← readUntilEnd (elemCb A v (netSub K A v)) "network" (⟨⟨id, id, false⟩, [], []⟩, ⟨[], [], []⟩) toks
  .ok ⟨⟨r.1.1, f, d.getD 0, t, r.1.2.subs.map Prod.fst, r.1.2.lines.map Prod.fst, r.1.2.hvdcs⟩, r.1.2.subs.flatMap Prod.snd, flowsOf r.1.2.lines⟩

end Verif.XmlOld
