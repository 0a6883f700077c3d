import Verif.XmlNet.Branches

/-!
Writers and readers of voltage levels and substations, in version 1.5, at the full level of topology and without filter (the defaults of
`ExportOptions`; `BusFilter::create` keeps everything, BusFilter.cpp l. 51-62).

Modelled code (`src/iidm/converter/xml` and `src/iidm`):
* `BusXml.cpp` l. 31-49, `ConfiguredBus.cpp` l. 190-212
* `NodeBreakerViewSwitchXml.cpp` l. 27-50, `BusBreakerViewSwitchXml.cpp` l. 32-53, `AbstractSwitchXml.hxx` l. 31-45, `SwitchAdder.cpp` l. 26-37, 67-77
* `NodeBreakerViewInternalConnectionXml.cpp` l. 30-41
* `VoltageLevelXml.cpp` l. 61-149, 171-197, 235-319, `VoltageLevelAdder.cpp` l. 25-49, `Networks.cpp` l. 45-71 (what is made of the nodes)
* `SubstationXml.cpp` l. 42-119, `SubstationAdder.cpp` l. 22-32

Lists are in the order of iteration.  That a bus, a node or a switch belongs to the voltage level is checked by `Verif.XmlNet.Admit`.
-/

namespace Verif.XmlNet

open Verif Verif.Xml

/-- A sub element read by `read` and added to what is kept. -/
def pushCb {α σ : Type} (read : List Tok → Out (α × List Tok)) (push : σ → α → σ) : Callback σ := fun s toks => do
  let r ← read toks
  .ok (push s r.1, r.2)

/-! ### Configured buses -/

structure Bus where
  ident : Ident
  v : Dbl
  angle : Dbl
  deriving DecidableEq, Repr

/-- `writeRootElementAttributes`, `BusXml.cpp` l. 46-49. -/
def busAttrs (K : XCodec) (b : Bus) : List (String × String) := attrD K.toCodec "v" b.v ++ attrD K.toCodec "angle" b.angle

def writeBus (K : XCodec) (A : Anon) (b : Bus) : Out (List Cmd) := .ok (writeElem A "bus" b.ident (busAttrs K b) [])

/-- `checkVoltage`, `ValidationUtils.cpp` l. 400-405. -/
def checkVoltage (v : Dbl) : Out Unit := check (!v.isNan && Dbl.lt v 0)

/-- `readRootElementAttributes`, `BusXml.cpp` l. 31-38, with `ConfiguredBus::setV`. -/
def readBusRoot (K : XCodec) (toks : List Tok) : Out (Dbl × Dbl) := do
  let v ← optDOr K.toCodec "v" .nan toks
  let angle ← optDOr K.toCodec "angle" .nan toks
  checkVoltage v
  .ok (v, angle)

/-- `readSubElements`, `BusXml.cpp` l. 40-44: the end that is waited for is the one of the substation. -/
def readBus (K : XCodec) (A : Anon) : List Tok → Out (Bus × List Tok) :=
  readElem A "substation" (readBusRoot K) noSub () fun x a _ => .ok ⟨x, a.1, a.2⟩

/-! ### Switches and internal connections -/

/-- A switch between two nodes. -/
structure NSw where
  ident : Ident
  kind : Nat
  retained : Bool
  opened : Bool
  node1 : Nat
  node2 : Nat
  deriving DecidableEq, Repr

/-- A switch between two buses; it is always a retained breaker (`SwitchAdder.cpp` l. 73, `Switch.cpp` l. 101-104). -/
structure BSw where
  ident : Ident
  opened : Bool
  bus1 : String
  bus2 : String
  deriving DecidableEq, Repr

/-- `AbstractSwitchXml::writeRootElementAttributes`, `AbstractSwitchXml.hxx` l. 38-45. -/
def swAttrs (kind : String) (retained opened : Bool) : List (String × String) := ("kind", kind) :: (attrB "retained" retained ++ attrB "open" opened)

/-- `NodeBreakerViewSwitchXml.cpp` l. 45-50. -/
def nswAttrs (K : XCodec) (kind : String) (x : NSw) : List (String × String) :=
  swAttrs kind x.retained x.opened ++ (attrN K.toCodec "node1" x.node1 ++ attrN K.toCodec "node2" x.node2)

def writeNSw (K : XCodec) (A : Anon) (x : NSw) : Out (List Cmd) := do
  let k ← Enums.toString Enums.switchKind.names x.kind
  .ok (writeElem A "switch" x.ident (nswAttrs K k x) [])

/-- `NodeBreakerViewSwitchXml.cpp` l. 27-43. -/
def readNSwRoot (K : XCodec) (toks : List Tok) : Out (Bool × Nat × Bool × Nat × Nat) := do
  let opened ← getB "open" toks
  let k ← getS "kind" toks
  let kind ← Enums.fromString Enums.switchKind.names k
  let retained ← getB "retained" toks
  let node1 ← getN K.toCodec "node1" toks
  let node2 ← getN K.toCodec "node2" toks
  .ok (opened, kind, retained, node1, node2)

def readNSw (K : XCodec) (A : Anon) : List Tok → Out (NSw × List Tok) :=
  readElem A "switch" (readNSwRoot K) noSub () fun x a _ => .ok ⟨x, a.2.1, a.2.2.1, a.1, a.2.2.2.1, a.2.2.2.2⟩

/-- `BusBreakerViewSwitchXml.cpp` l. 46-53. -/
def bswAttrs (A : Anon) (kind : String) (x : BSw) : List (String × String) := swAttrs kind true x.opened ++ [("bus1", A.anon x.bus1), ("bus2", A.anon x.bus2)]

/-- 0 is the rank of `BREAKER`. -/
def writeBSw (A : Anon) (x : BSw) : Out (List Cmd) := do
  let k ← Enums.toString Enums.switchKind.names 0
  .ok (writeElem A "switch" x.ident (bswAttrs A k x) [])

/-- `BusBreakerViewSwitchXml.cpp` l. 32-44, with the checks of `SwitchAdder.cpp` l. 68-69. -/
def readBSwRoot (A : Anon) (toks : List Tok) : Out (Bool × String × String) := do
  let opened ← getB "open" toks
  let b1 ← getS "bus1" toks
  let bus1 ← A.dean b1
  let b2 ← getS "bus2" toks
  let bus2 ← A.dean b2
  check (bus1 == "")
  check (bus2 == "")
  .ok (opened, bus1, bus2)

def readBSw (A : Anon) : List Tok → Out (BSw × List Tok) :=
  readElem A "switch" (readBSwRoot A) noSub () fun x a _ => .ok ⟨x, a.1, a.2.1, a.2.2⟩

/-- `NodeBreakerViewInternalConnectionXml::read`, l. 30-34. -/
def readConn (K : XCodec) (toks : List Tok) : Out ((Nat × Nat) × List Tok) := do
  let c ← readConnection K.toCodec toks
  .ok (c, toks)

def writeConn (K : XCodec) (x : Nat × Nat) : Out (List Cmd) := .ok (writeConnection K.toCodec x)

/-! ### Calculated buses -/

/-- Concatenation with commas, `boost::algorithm::join(…, ",")`. -/
def joinComma : List String → List Char
  | [] => []
  | [s] => s.toList
  | s :: t :: ts => s.toList ++ ',' :: joinComma (t :: ts)

/-- Pieces between commas, `boost::algorithm::split`: there is always one. -/
def splitChars : List Char → List (List Char)
  | [] => [[]]
  | c :: cs =>
    if c = ',' then [] :: splitChars cs
    else match splitChars cs with
      | [] => [[c]]
      | p :: ps => (c :: p) :: ps

def splitComma (s : String) : List String := (splitChars s.toList).map String.ofList

/-- What is written of a calculated bus: its voltage, its angle, its nodes as a text. -/
structure Calc where
  v : Dbl
  angle : Dbl
  nodes : String
  deriving DecidableEq, Repr

/-- `writeCalculatedBus`, `VoltageLevelXml.cpp` l. 190-197. -/
def calcAttrs (K : XCodec) (c : Calc) : List (String × String) := attrD K.toCodec "v" c.v ++ (attrD K.toCodec "angle" c.angle ++ [("nodes", c.nodes)])

def writeCalc (K : XCodec) (c : Calc) : Out (List Cmd) := .ok (elemCmds "bus" (calcAttrs K c) [])

/-- `readCalculatedBus`, l. 73-77: what the end task keeps. -/
def readCalc (K : XCodec) (toks : List Tok) : Out (Calc × List Tok) := do
  let v ← optDOr K.toCodec "v" .nan toks
  let angle ← optDOr K.toCodec "angle" .nan toks
  let nodes ← getS "nodes" toks
  .ok (⟨v, angle, nodes⟩, toks)

/-- A bus of the bus view of a node/breaker voltage level, with its nodes (`Networks::getNodesByBus`). -/
structure ViewBus where
  id : String
  v : Dbl
  angle : Dbl
  nodes : List Nat
  deriving DecidableEq, Repr

/-- `writeNodeBreakerTopology`, l. 246-254: the buses with a voltage or an angle. -/
def calcOf (K : XCodec) (bs : List ViewBus) : List Calc :=
  (bs.filter fun b => !b.v.isNan || !b.angle.isNan).map fun b => ⟨b.v, b.angle, String.ofList (joinComma (b.nodes.map K.showN))⟩

/-- The voltages and angles of the buses of the bus view, by identifier. -/
abbrev Volts := String → Dbl × Dbl

/-- Loop of the end task, l. 81-91: `busAt` is the bus of the terminal at a node, if there are such a terminal and a bus. -/
def setAt (K : XCodec) (busAt : Nat → Option String) (v angle : Dbl) : List String → Volts → Out Volts
  | [], s => .ok s
  | t :: ts, s => do
    let n ← K.readN t
    match busAt n with
    | none => setAt K busAt v angle ts s
    | some b => do
      checkVoltage v
      .ok fun b' => if b' = b then (v, angle) else s b'

/-- The end task, l. 78-92. -/
def calcTask (K : XCodec) (busAt : Nat → Option String) (c : Calc) (s : Volts) : Out Volts := setAt K busAt c.v c.angle (splitComma c.nodes) s

/-- The end tasks of a voltage level. -/
def calcTasks (K : XCodec) (busAt : Nat → Option String) : List Calc → Volts → Out Volts
  | [], s => .ok s
  | c :: cs, s => do
    let s' ← calcTask K busAt c s
    calcTasks K busAt cs s'

/-! ### Voltage levels -/

/-- The topology of a voltage level. -/
inductive Topo
  | node (bbs : List Bbs) (sws : List NSw) (conns : List (Nat × Nat)) (calcs : List Calc)
  | bus (buses : List Bus) (sws : List BSw)
  deriving DecidableEq, Repr

/-- Rank of the kind in `TopologyKind`; `getMinTopologyLevel` and `getTopologyKind` leave it unchanged at the full level. -/
def Topo.kind : Topo → Nat
  | .node .. => 0
  | .bus .. => 1

/-- What the sub elements of a voltage level describe. -/
structure Equip where
  gens : List Gen
  bats : List Bat
  loads : List Load
  shs : List Sh
  dls : List Dl
  svcs : List Svc
  vscs : List Vsc
  lccs : List Lcc
  deriving DecidableEq, Repr

structure VL where
  ident : Ident
  nominalV : Dbl
  low : Dbl
  high : Dbl
  topo : Topo
  equip : Equip
  deriving DecidableEq, Repr

/-- A switch of a bus/breaker voltage level: its buses are looked for with its anonymized identifier (l. 180-181, `BusBreakerVoltageLevel.cpp` l. 179-203). -/
def writeBSwIn (A : Anon) (ids : List String) (x : BSw) : Out (List Cmd) := do
  check (!(ids.contains (A.anon x.ident.head.id)))
  writeBSw A x

/-- `writeBusBreakerTopology`, l. 171-188, `writeNodeBreakerTopology`, l. 235-257. -/
def writeTopo (K : XCodec) (A : Anon) : Topo → Out (List Cmd)
  | .node bbs sws conns calcs => do
    let b ← writeList (writeBbs K A) bbs
    let s ← writeList (writeNSw K A) sws
    let c ← writeList (writeConn K) conns
    let d ← writeList (writeCalc K) calcs
    .ok (elemCmds "nodeBreakerTopology" [] (b ++ (s ++ (c ++ d))))
  | .bus buses sws => do
    let b ← writeList (writeBus K A) buses
    let s ← writeList (writeBSwIn A (sws.map fun x => x.ident.head.id)) sws
    .ok (elemCmds "busBreakerTopology" [] (b ++ s))

/-- `writeSubElements`, l. 311-318. -/
def writeEquip (K : XCodec) (A : Anon) (e : Equip) : Out (List Cmd) := do
  let a ← writeList (writeGen K A) e.gens
  let b ← writeList (writeBat K A) e.bats
  let c ← writeList (writeLoad K A) e.loads
  let d ← writeList (writeSh K A) e.shs
  let f ← writeList (writeDl K A) e.dls
  let g ← writeList (writeSvc K A) e.svcs
  let h ← writeList (writeVsc K A) e.vscs
  let i ← writeList (writeLcc K A) e.lccs
  .ok (a ++ (b ++ (c ++ (d ++ (f ++ (g ++ (h ++ i)))))))

/-- `writeRootElementAttributes`, l. 265-272. -/
def vlAttrs (K : XCodec) (kind : String) (x : VL) : List (String × String) :=
  attrD K.toCodec "nominalV" x.nominalV ++ (attrD K.toCodec "lowVoltageLimit" x.low ++ (attrD K.toCodec "highVoltageLimit" x.high ++ [("topologyKind", kind)]))

/-- With `writeSubElements`, l. 292-319. -/
def writeVL (K : XCodec) (A : Anon) (x : VL) : Out (List Cmd) := do
  let k ← Enums.toString Enums.topologyKind.names x.topo.kind
  let t ← writeTopo K A x.topo
  let e ← writeEquip K A x.equip
  .ok (writeElem A "voltageLevel" x.ident (vlAttrs K k x) (t ++ e))

/-- What is kept of the sub elements: both topologies, and the equipment. -/
structure VlSub where
  bbs : List Bbs
  nsws : List NSw
  conns : List (Nat × Nat)
  calcs : List Calc
  buses : List Bus
  bsws : List BSw
  equip : Equip
  deriving DecidableEq, Repr

/-- `checkVoltageLimits`, `ValidationUtils.cpp` l. 427-437. -/
def checkLimits (low high : Dbl) : Out Unit := do
  check (Dbl.lt low 0)
  check (Dbl.lt high 0)
  check (Dbl.lt high low)

/-- `readRootElementAttributes`, `VoltageLevelXml.cpp` l. 111-121, with the checks of `VoltageLevelAdder.cpp` l. 27-28. -/
def readVLRoot (K : XCodec) (toks : List Tok) : Out (Dbl × Dbl × Dbl × Nat) := do
  let nominalV ← getD K.toCodec "nominalV" toks
  let low ← optDOr K.toCodec "lowVoltageLimit" .nan toks
  let high ← optDOr K.toCodec "highVoltageLimit" .nan toks
  let k ← getS "topologyKind" toks
  let kind ← Enums.fromString Enums.topologyKind.names k
  checkNominal nominalV
  checkLimits low high
  .ok (nominalV, low, high, kind)

/-- `readBusBreakerTopology`, l. 61-71. -/
def busTopoSub (K : XCodec) (A : Anon) : Handler VlSub := fun n =>
  if n = "bus" then some (pushCb (readBus K A) fun s b => { s with buses := s.buses ++ [b] })
  else if n = "switch" then some (pushCb (readBSw A) fun s b => { s with bsws := s.bsws ++ [b] })
  else none

/-- `readNodeBreakerTopology`, l. 95-109. -/
def nodeTopoSub (K : XCodec) (A : Anon) : Handler VlSub := fun n =>
  if n = "busbarSection" then some (pushCb (readBbs K A) fun s b => { s with bbs := s.bbs ++ [b] })
  else if n = "switch" then some (pushCb (readNSw K A) fun s b => { s with nsws := s.nsws ++ [b] })
  else if n = "internalConnection" then some (pushCb (readConn K) fun s b => { s with conns := s.conns ++ [b] })
  else if n = "bus" then some (pushCb (readCalc K) fun s b => { s with calcs := s.calcs ++ [b] })
  else none

/-- The two topologies: an element without attributes whose callback refuses unknown elements. -/
def topoCb (root : String) (h : Handler VlSub) : Callback VlSub := fun s toks => readPlain root (fun _ => .ok ()) h s (fun _ s => .ok s) toks

/-- `readSubElements`, l. 123-149. -/
def vlSub (K : XCodec) (A : Anon) : Handler VlSub := fun n =>
  if n = "nodeBreakerTopology" then some (topoCb "nodeBreakerTopology" (nodeTopoSub K A))
  else if n = "busBreakerTopology" then some (topoCb "busBreakerTopology" (busTopoSub K A))
  else if n = "battery" then some (pushCb (readBat K A) fun s x => { s with equip := { s.equip with bats := s.equip.bats ++ [x] } })
  else if n = "generator" then some (pushCb (readGen K A) fun s x => { s with equip := { s.equip with gens := s.equip.gens ++ [x] } })
  else if n = "load" then some (pushCb (readLoad K A) fun s x => { s with equip := { s.equip with loads := s.equip.loads ++ [x] } })
  else if n = "shunt" then some (pushCb (readSh K A) fun s x => { s with equip := { s.equip with shs := s.equip.shs ++ [x] } })
  else if n = "danglingLine" then some (pushCb (readDl K A) fun s x => { s with equip := { s.equip with dls := s.equip.dls ++ [x] } })
  else if n = "staticVarCompensator" then some (pushCb (readSvc K A) fun s x => { s with equip := { s.equip with svcs := s.equip.svcs ++ [x] } })
  else if n = "vscConverterStation" then some (pushCb (readVsc K A) fun s x => { s with equip := { s.equip with vscs := s.equip.vscs ++ [x] } })
  else if n = "lccConverterStation" then some (pushCb (readLcc K A) fun s x => { s with equip := { s.equip with lccs := s.equip.lccs ++ [x] } })
  else none

def noEquip : Equip := ⟨[], [], [], [], [], [], [], []⟩

def noVlSub : VlSub := ⟨[], [], [], [], [], [], noEquip⟩

/-- The voltage level that was filled.  The views of the other kind of topology throw (`BusBreakerVoltageLevel.cpp`, `NodeBreakerVoltageLevelViews.cpp`), at
once or, for a calculated bus, in the end task. -/
def buildVL (x : Ident) (a : Dbl × Dbl × Dbl × Nat) (s : VlSub) : Out VL := do
  if a.2.2.2 = 0 then
    check (!(s.buses.isEmpty && s.bsws.isEmpty))
    .ok ⟨x, a.1, a.2.1, a.2.2.1, .node s.bbs s.nsws s.conns s.calcs, s.equip⟩
  else
    check (!(s.bbs.isEmpty && s.nsws.isEmpty && s.conns.isEmpty && s.calcs.isEmpty))
    .ok ⟨x, a.1, a.2.1, a.2.2.1, .bus s.buses s.bsws, s.equip⟩

def readVL (K : XCodec) (A : Anon) : List Tok → Out (VL × List Tok) := readElem A "voltageLevel" (readVLRoot K) (vlSub K A) noVlSub buildVL

/-! ### Substations -/

/-- Insertion in a `std::set<std::string>`, listed in increasing order. -/
def insertTag (t : String) : List String → List String
  | [] => [t]
  | u :: us => if t < u then t :: u :: us else if t = u then u :: us else u :: insertTag t us

structure Substation where
  ident : Ident
  country : Option Nat
  tso : String
  tags : List String
  vls : List VL
  tw2s : List Tw2
  tw3s : List Tw3
  deriving DecidableEq, Repr

/-- The country, `SubstationXml.cpp` l. 82-85; `anonymizeCountry` is the identity (`SimpleAnonymizer.cpp`). -/
def countryAttrs : Option Nat → Out (List (String × String))
  | none => .ok []
  | some c => (Enums.toString Enums.country.names c).map fun k => [("country", k)]

/-- `writeRootElementAttributes`, l. 87-98. -/
def substationAttrs (A : Anon) (country : List (String × String)) (x : Substation) : List (String × String) :=
  country ++ ((if x.tso ≠ "" then [("tso", A.anon x.tso)] else []) ++
    (if x.tags ≠ [] then [("geographicalTags", String.ofList (joinComma (x.tags.map A.anon)))] else []))

/-- With `writeSubElements`, l. 101-119. -/
def writeSubstation (K : XCodec) (A : Anon) (x : Substation) : Out (List Cmd) := do
  let c ← countryAttrs x.country
  let v ← writeList (writeVL K A) x.vls
  let t ← writeList (writeTw2 K A) x.tw2s
  let u ← writeList (writeTw3 K A) x.tw3s
  .ok (writeElem A "substation" x.ident (substationAttrs A c x) (v ++ (t ++ u)))

/-- Loop of l. 59-61. -/
def readTags (A : Anon) : List String → List String → Out (List String)
  | [], acc => .ok acc
  | t :: ts, acc => do
    let u ← A.dean t
    readTags A ts (insertTag u acc)

/-- l. 45-48; the countries are not anonymized by the anonymizers modelled here. -/
def readCountry (toks : List Tok) : Out (Option Nat) := do
  let k ← optSOr "country" "" toks
  if k = "" then .ok none else (Enums.fromString Enums.country.names k).map some

/-- l. 50-53. -/
def readTso (A : Anon) (toks : List Tok) : Out String := do
  let t ← optSOr "tso" "" toks
  if t = "" then .ok "" else A.dean t

/-- l. 55-62. -/
def readGeoTags (A : Anon) (toks : List Tok) : Out (List String) := do
  let g ← optSOr "geographicalTags" "" toks
  if g = "" then .ok [] else readTags A (splitComma g) []

/-- `readRootElementAttributes`, l. 42-65. -/
def readSubstationRoot (A : Anon) (toks : List Tok) : Out (Option Nat × String × List String) := do
  let country ← readCountry toks
  let tso ← readTso A toks
  let tags ← readGeoTags A toks
  .ok (country, tso, tags)

structure SubstationSub where
  vls : List VL
  tw2s : List Tw2
  tw3s : List Tw3
  deriving DecidableEq, Repr

/-- `readSubElements`, l. 67-79. -/
def substationSub (K : XCodec) (A : Anon) : Handler SubstationSub := fun n =>
  if n = "voltageLevel" then some (pushCb (readVL K A) fun s x => { s with vls := s.vls ++ [x] })
  else if n = "twoWindingsTransformer" then some (pushCb (readTw2 K A) fun s x => { s with tw2s := s.tw2s ++ [x] })
  else if n = "threeWindingsTransformer" then some (pushCb (readTw3 K A) fun s x => { s with tw3s := s.tw3s ++ [x] })
  else none

def readSubstation (K : XCodec) (A : Anon) : List Tok → Out (Substation × List Tok) :=
  readElem A "substation" (readSubstationRoot A) (substationSub K A) ⟨[], [], []⟩ fun x a s => .ok ⟨x, a.1, a.2.1, a.2.2, s.vls, s.tw2s, s.tw3s⟩

end Verif.XmlNet
