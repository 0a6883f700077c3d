import Verif.ExtData.Model
import Verif.Measure.Model
import Verif.XmlNet.Base

/-!
The XML serializers of the extensions: what each one writes between the start tag and the end tag of its element, and what it reads.

Modelled code: `extensions/iidm/src`, `extensions/sld/src`, `extensions/entsoe/src`, `src/iidm/extensions`: the functions `read` and `write` of all the
serializers (ActivePowerControlXmlSerializer.cpp, BranchStatusXmlSerializer.cpp, BusbarSectionPositionXmlSerializer.cpp, ConnectablePositionXmlSerializer.cpp,
CoordinatedReactiveControlXmlSerializer.cpp, DiscreteMeasurementsXmlSerializer.cpp, EntsoeAreaXmlSerializer.cpp, HvdcAngleDroopActivePowerControlXmlSerializer.cpp,
HvdcOperatorActivePowerRangeXmlSerializer.cpp, LoadDetailXmlSerializer.cpp, MeasurementsXmlSerializer.cpp, MergedXnodeXmlSerializer.cpp, SlackTerminalXmlSerializer.cpp,
ThreeWindingsTransformerPhaseAngleClockXmlSerializer.cpp, TwoWindingsTransformerPhaseAngleClockXmlSerializer.cpp, VoltagePerReactivePowerControlXmlSerializer.cpp,
XnodeXmlSerializer.cpp); `XmlStreamReader::readUntilEndElement` as a reader of text (`src/xml/XmlStreamReader.cpp` l.272-314); `TerminalRefXml.cpp` l.33-51, 76-100
at the full level of topology and without filter (see `Verif.Xml.TerminalRef` for the choice of the side).

The extension is in the working variant of index `i` of the network that is written; `REnv` is what the network that is read looks like from the extended object.
`newExtension<...>().with...().add()` with all the values given is `Draft.add`.
-/

namespace Verif.ExtXml

open Verif Verif.Xml Verif.XmlNet Verif.ExtData Verif.Measure

/-- An extension. -/
inductive Ext where
  | data (x : Data)
  | meas (ms : List Meas)
  | disc (ds : List Disc)
  deriving DecidableEq, Repr

/-- Which extension. -/
inductive Title where
  | data (n : Name)
  | meas
  | disc
  deriving DecidableEq, Repr

def Ext.title : Ext → Title
  | .data x => .data x.name
  | .meas _ => .meas
  | .disc _ => .disc

/-- `getName` of the extensions: `s_name` in each `.cpp` (ActivePowerControl.cpp l.44...). -/
def Title.name : Title → String
  | .data .activePower => "activePowerControl"
  | .data .reactive => "coordinatedReactiveControl"
  | .data .angleDroop => "hvdcAngleDroopActivePowerControl"
  | .data .range => "hvdcOperatorActivePowerRange"
  | .data .clock2 => "twoWindingsTransformerPhaseAngleClock"
  | .data .clock3 => "threeWindingsTransformerPhaseAngleClock"
  | .data .slope => "voltagePerReactivePowerControl"
  | .data .remote => "generatorRemoteReactivePowerControl"
  | .data .status => "branchStatus"
  | .data .busbar => "busbarSectionPosition"
  | .data .position => "position"
  | .data .area => "entsoeArea"
  | .data .merged => "mergedXnode"
  | .data .xnode => "xnode"
  | .data .detail => "detail"
  | .data .slack => "slackTerminal"
  | .meas => "measurements"
  | .disc => "discreteMeasurements"

/-- What the serializers see of the network when they read. -/
structure REnv extends Env where
  /-- `TerminalRefXml::readTerminalRef`, l.33-51: the terminal that a reference designates. -/
  find : Ref → Out Ref

/-! ### Enumerations -/

/-- `Enum::fromString` into the enumerators. -/
def enumOf (names : List String) (s : String) : Out (Fin names.length) :=
  (Enums.fromString names s).bind fun v => if h : v < names.length then .ok ⟨v, h⟩ else .ub

/-- `Measurement::Type`, in the order of its declaration. -/
def mtypes : List MType := [.angle, .activePower, .apparentPower, .reactivePower, .current, .voltage, .frequency, .other]

/-- `Measurement::Side`. -/
def msides : List MSide := [.one, .two, .three]

/-- `DiscreteMeasurement::Type`. -/
def dtypes : List DType := [.tapPosition, .switchPosition, .shuntSection, .other]

/-- `DiscreteMeasurement::TapChanger`. -/
def tapChangers : List TapChanger := [.ratio, .phase, .ratio1, .phase1, .ratio2, .phase2, .ratio3, .phase3]

/-- `DiscreteMeasurement::ValueType`. -/
def vtypes : List VType := [.boolean, .int, .string]

/-- `Enum::toString` of the enumerators `es`. -/
def nameOf {ε : Type} [DecidableEq ε] (es : List ε) (names : List String) (e : ε) : Out String := Enums.toString names (es.idxOf e)

/-- `Enum::fromString` to the enumerators `es`. -/
def ofName {ε : Type} (es : List ε) (names : List String) (s : String) : Out ε :=
  (Enums.fromString names s).bind fun v => match es[v]? with
    | some e => .ok e
    | none => .ub

/-! ### Writing -/

/-- The attributes and the content of an element. -/
abbrev Payload := List (String × String) × List Cmd

/-- `writePosition`, ConnectablePositionXmlSerializer.cpp l.80-90. -/
def writeFeeder (K : XCodec) (el : String) : Option Feeder → Out (List Cmd)
  | none => .ok []
  | some f => (Enums.toString Enums.connectablePositionDirection.names f.direction).map fun d =>
      elemCmds el (("name", f.name) :: (attrN K.toCodec "order" f.order ++ [("direction", d)])) []

/-- `writeTerminalRefAttribute`, TerminalRefXml.cpp l.76-100. -/
def refAttrs (A : Anon) (r : Ref) : List (String × String) := ("id", A.anon r.id) :: (if r.side ≠ "" then [("side", r.side)] else [])

/-- `write` of the serializers (ActivePowerControl l.45-50, CoordinatedReactiveControl l.44-47, HvdcAngleDroopActivePowerControl l.42-47,
HvdcOperatorActivePowerRange l.42-46, TwoWindingsTransformerPhaseAngleClock l.42-46, ThreeWindingsTransformerPhaseAngleClock l.45-50,
VoltagePerReactivePowerControl l.40-44, BranchStatus l.39-42, BusbarSectionPosition l.40-44, ConnectablePosition l.64-78, EntsoeArea l.44-47, MergedXnode l.46-55,
Xnode l.39-42, LoadDetail l.60-66, SlackTerminal l.64-70).  There is none for RemoteReactivePowerControl.  A value that is not in its array is undefined. -/
def writeData (K : XCodec) (A : Anon) (i : Nat) : Data → Out Payload
  | .activePower p d => .ok (attrB "participate" p ++ attrD K.toCodec "droop" d, [])
  | .reactive q => .ok (attrD K.toCodec "qPercent" q, [])
  | .angleDroop p d e => .ok (attrD K.toCodec "p0" p ++ (attrD K.toCodec "droop" d ++ attrB "enabled" e), [])
  | .range a b => .ok (attrOptD K.toCodec "fromCS1toCS2" a .nan ++ attrOptD K.toCodec "fromCS2toCS1" b .nan, [])
  | .clock2 c => .ok (attrOptN K.toCodec "phaseAngleClock" c 0, [])
  | .clock3 c d => .ok (attrOptN K.toCodec "phaseAngleClockLeg2" c 0 ++ attrOptN K.toCodec "phaseAngleClockLeg3" d 0, [])
  | .slope s => .ok (attrD K.toCodec "slope" s, [])
  | .remote .. => .thrown
  | .status s => (Enums.toString Enums.branchStatusStatus.names s).map fun t => ([], [.chars t])
  | .busbar b s => .ok (attrN K.toCodec "busbarIndex" b ++ attrN K.toCodec "sectionIndex" s, [])
  | .position p => do
    let a ← writeFeeder K "feeder" p.feeder
    let b ← writeFeeder K "feeder1" p.feeder1
    let c ← writeFeeder K "feeder2" p.feeder2
    let d ← writeFeeder K "feeder3" p.feeder3
    .ok ([], a ++ (b ++ (c ++ d)))
  | .area c => (Enums.toString Enums.entsoeGeographicalCode.names c).map fun t => ([], [.chars t])
  | .merged x => .ok (attrD K.toCodec "rdp" x.rdp ++ (attrD K.toCodec "xdp" x.xdp ++ (attrD K.toCodec "xnodeP1" x.p1 ++ (attrD K.toCodec "xnodeQ1" x.q1 ++
      (attrD K.toCodec "xnodeP2" x.p2 ++ (attrD K.toCodec "xnodeQ2" x.q2 ++ [("code", x.code)]))))), [])
  | .xnode c => .ok ([("code", c)], [])
  | .detail v => match v[i]? with
    | none => .ub
    | some x => .ok (attrD K.toCodec "fixedActivePower" x.fixedP ++ (attrD K.toCodec "fixedReactivePower" x.fixedQ ++
        (attrD K.toCodec "variableActivePower" x.varP ++ attrD K.toCodec "variableReactivePower" x.varQ)), [])
  | .slack ts => match ts[i]? with
    | none => .ub
    | some none => .ok ([], [])
    | some (some r) => .ok (refAttrs A r, [])

/-- The properties of a measurement, MeasurementsXmlSerializer.cpp l.90-95, DiscreteMeasurementsXmlSerializer.cpp l.126-131. -/
def propElems : PropMap.Props → List Cmd
  | [] => []
  | (n, v) :: ps => elemCmds "property" [("name", n), ("value", v)] [] ++ propElems ps

/-- One turn of the loop of MeasurementsXmlSerializer.cpp l.78-97. -/
def writeMeas (K : XCodec) (m : Meas) : Out (List Cmd) := do
  let t ← nameOf mtypes Enums.measurementType.names m.type
  let s ← match m.side with
    | none => .ok []
    | some s => (nameOf msides Enums.measurementSide.names s).map fun n => [("side", n)]
  .ok (elemCmds "measurement" ((if m.id ≠ "" then [("id", m.id)] else []) ++ (("type", t) :: (s ++ (attrD K.toCodec "value" m.value ++
    (attrD K.toCodec "standardDeviation" m.stdDev ++ attrB "valid" m.valid))))) (propElems m.props))

/-- The value of a discrete measurement, DiscreteMeasurementsXmlSerializer.cpp l.107-124. -/
def discValue (K : XCodec) (m : Disc) : Out (List (String × String)) :=
  match m.vtype with
  | .boolean => m.asBoolean.map fun b => attrB "value" b
  | .int => m.asInt.map fun n => attrI K "value" n
  | .string => m.asString.map fun s => if s ≠ "" then [("value", s)] else []

/-- One turn of the loop of DiscreteMeasurementsXmlSerializer.cpp l.97-133. -/
def writeDisc (K : XCodec) (m : Disc) : Out (List Cmd) := do
  let t ← nameOf dtypes Enums.discreteMeasurementType.names m.type
  let c ← match m.tapChanger with
    | none => .ok []
    | some c => (nameOf tapChangers Enums.discreteMeasurementTapChanger.names c).map fun n => [("tapChanger", n)]
  let vt ← nameOf vtypes Enums.discreteMeasurementValueType.names m.vtype
  let v ← discValue K m
  .ok (elemCmds "discreteMeasurement" ((if m.id ≠ "" then [("id", m.id)] else []) ++ (("type", t) :: (c ++ (("valueType", vt) :: (v ++ attrB "valid" m.valid)))))
    (propElems m.props))

/-- `write` of the serializers; MeasurementsXmlSerializer.cpp l.75-98, DiscreteMeasurementsXmlSerializer.cpp l.94-134. -/
def writeExt (K : XCodec) (A : Anon) (i : Nat) : Ext → Out Payload
  | .data x => writeData K A i x
  | .meas ms => (writeList (writeMeas K) ms).map fun c => ([], c)
  | .disc ds => (writeList (writeDisc K) ds).map fun c => ([], c)

/-! ### Reading -/

/-- `readUntilEndElement(elementName)` without callback, after the first node: the last text. -/
def textLoop (name : String) : String → List Tok → Out (String × List Tok)
  | _, [] => .thrown
  | t, .stop n :: rest => if n = name then .ok (t, .stop n :: rest) else textLoop name t rest
  | _, .text s :: rest => textLoop name s rest
  | t, .start _ _ _ :: rest => textLoop name t rest
  | t, .blank :: rest => textLoop name t rest

/-- `readUntilEndElement(elementName)`, XmlStreamReader.cpp l.272-314. -/
def readText (name : String) : List Tok → Out (String × List Tok)
  | .start n a true :: rest => .ok ("", .start n a true :: rest)
  | _ :: rest => textLoop name "" rest
  | [] => .thrown

/-- The feeder of an element, ConnectablePositionXmlSerializer.cpp l.38-51. -/
def slotOf (n : String) : Option Slot :=
  if n = "feeder" then some .only else if n = "feeder1" then some .one else if n = "feeder2" then some .two else if n = "feeder3" then some .three else none

/-- `readPosition`, l.57-62, for the elements of l.37-54. -/
def feederCb (K : XCodec) : Callback Position := fun p toks => do
  let n ← localName toks
  match slotOf n with
  | none => .thrown
  | some s => do
    let name ← getS "name" toks
    let order ← getN K.toCodec "order" toks
    let d ← getS "direction" toks
    let d ← enumOf Enums.connectablePositionDirection.names d
    let f ← (FeederDraft.mk name (some order) (some d)).make
    .ok (p.set f s, toks)

/-- A power of LoadDetailXmlSerializer.cpp l.35-50: the old name when the new one is missing. -/
def readPower (K : XCodec) (k old : String) (toks : List Tok) : Out Dbl := do
  let d ← optDOr K.toCodec k .nan toks
  if d.isNan then getD K.toCodec old toks else .ok d

/-- `extendable.newExtension<...>().with...().add()`, the reader being at `toks`. -/
def added (E : REnv) (d : Draft) (toks : List Tok) : Out (Ext × List Tok) := (d.add E.toEnv).map fun x => (.data x, toks)

/-- `read` of the serializers (ActivePowerControl l.37-43, CoordinatedReactiveControl l.37-42, HvdcAngleDroopActivePowerControl l.31-40,
HvdcOperatorActivePowerRange l.32-40, TwoWindingsTransformerPhaseAngleClock l.35-40, ThreeWindingsTransformerPhaseAngleClock l.37-43,
VoltagePerReactivePowerControl l.33-38, BranchStatus l.31-37, BusbarSectionPosition l.30-38, ConnectablePosition l.30-55, EntsoeArea l.37-42, MergedXnode l.33-44,
Xnode l.33-37, LoadDetail l.31-58, SlackTerminal l.52-62). -/
def readData (K : XCodec) (A : Anon) (E : REnv) (n : Name) (toks : List Tok) : Out (Ext × List Tok) :=
  match n with
  | .activePower => do
    let p ← getB "participate" toks
    let d ← getD K.toCodec "droop" toks
    added E (.activePower p d) toks
  | .reactive => do
    let q ← getD K.toCodec "qPercent" toks
    added E (.reactive q) toks
  | .angleDroop => do
    require (isA E.cls .hvdcLine)
    let p ← getD K.toCodec "p0" toks
    let d ← getD K.toCodec "droop" toks
    let e ← getB "enabled" toks
    added E (.angleDroop p d e) toks
  | .range => do
    require (isA E.cls .hvdcLine)
    let a ← optDOr K.toCodec "fromCS1toCS2" .nan toks
    let b ← optDOr K.toCodec "fromCS2toCS1" .nan toks
    added E (.range a b) toks
  | .clock2 => do
    let c ← optNOr K.toCodec "phaseAngleClock" 0 toks
    added E (.clock2 (some c)) toks
  | .clock3 => do
    let c ← optNOr K.toCodec "phaseAngleClockLeg2" 0 toks
    let d ← optNOr K.toCodec "phaseAngleClockLeg3" 0 toks
    added E (.clock3 (some c) (some d)) toks
  | .slope => do
    let s ← getD K.toCodec "slope" toks
    added E (.slope s) toks
  | .remote => .thrown
  | .status => do
    let r ← readText "branchStatus" toks
    let s ← enumOf Enums.branchStatusStatus.names r.1
    added E (.status (some s)) r.2
  | .busbar => do
    require (isA E.cls .busbarSection)
    let b ← getN K.toCodec "busbarIndex" toks
    let s ← getN K.toCodec "sectionIndex" toks
    added E (.busbar (some b) (some s)) toks
  | .position => do
    require (isA E.cls .connectable)
    let r ← readUntilEnd (feederCb K) "position" ⟨none, none, none, none⟩ toks
    added E (.position r.1) r.2
  | .area => do
    let r ← readText "entsoeArea" toks
    let c ← enumOf Enums.entsoeGeographicalCode.names r.1
    added E (.area (some c)) r.2
  | .merged => do
    let rdp ← getD K.toCodec "rdp" toks
    let xdp ← getD K.toCodec "xdp" toks
    let p1 ← getD K.toCodec "xnodeP1" toks
    let q1 ← getD K.toCodec "xnodeQ1" toks
    let p2 ← getD K.toCodec "xnodeP2" toks
    let q2 ← getD K.toCodec "xnodeQ2" toks
    let code ← getS "code" toks
    added E (.merged ⟨rdp, xdp, p1, q1, p2, q2, "", "", code⟩) toks
  | .xnode => do
    let code ← getS "code" toks
    added E (.xnode code) toks
  | .detail => do
    require (isA E.cls .load)
    let fp ← readPower K "fixedActivePower" "subLoad1ActivePower" toks
    let fq ← readPower K "fixedReactivePower" "subLoad1ReactivePower" toks
    let vp ← readPower K "variableActivePower" "subLoad2ActivePower" toks
    let vq ← readPower K "variableReactivePower" "subLoad2ReactivePower" toks
    added E (.detail ⟨fp, fq, vp, vq⟩) toks
  | .slack => do
    require (isA E.cls .voltageLevel)
    let s ← getS "id" toks
    let id ← A.dean s
    let side ← optSOr "side" "" toks
    let t ← E.find ⟨id, side⟩
    added E (.slack (some t)) toks

/-- What the measurements ask about the extended object. -/
def kindOf (c : Cls) : Kind :=
  if isA c .injection then .injection
  else if isA c .twoWindings then .twoWindings
  else if isA c .threeWindings then .threeWindings
  else if isA c .branch then .line
  else if isA c .switch then .switch
  else .other

/-- A property of a measurement, MeasurementsXmlSerializer.cpp l.60-66, DiscreteMeasurementsXmlSerializer.cpp l.85-91. -/
def propCb : Callback PropMap.Props := fun ps toks => do
  let n ← localName toks
  if n = "property" then
    let k ← getS "name" toks
    let v ← getS "value" toks
    let ps' ← Measure.putProperty k v ps
    .ok (ps', toks)
  else .thrown

/-- `add` of an adder: an exception ends the reading. -/
def addTo {α : Type} (idOf : α → String) (id : String) (mk : Out α) (s : Box α) : Out (Box α) :=
  match Measure.step idOf (.add id mk) s with
  | (.ok _, s') => .ok s'
  | (.thrown, _) => .thrown
  | (.ub, _) => .ub

/-- An optional enumeration: `setSide`, `setTapChanger` are called when the attribute is not empty. -/
def optEnum {ε : Type} (es : List ε) (names : List String) (s : String) : Out (Option ε) := if s = "" then .ok none else (ofName es names s).map some

/-- The callback of MeasurementsXmlSerializer.cpp l.45-71. -/
def measCb (K : XCodec) (k : Kind) : Callback (Box Meas) := fun b toks => do
  let n ← localName toks
  if n = "measurement" then
    let t ← getS "type" toks
    let t ← ofName mtypes Enums.measurementType.names t
    let v ← optDOr K.toCodec "value" .nan toks
    let d ← optDOr K.toCodec "standardDeviation" .nan toks
    let valid ← getB "valid" toks
    let id ← optSOr "id" "" toks
    let side ← optSOr "side" "" toks
    let side ← optEnum msides Enums.measurementSide.names side
    let r ← readUntilEnd propCb "measurement" [] toks
    let b' ← addTo (·.id) id ((MAdder.mk id (some t) r.1 side v d valid).make k) b
    .ok (b', r.2)
  else .thrown

/-- The value of a discrete measurement, DiscreteMeasurementsXmlSerializer.cpp l.65-84. -/
def readValue (K : XCodec) (toks : List Tok) : Out (Option DVal) := do
  let t ← getS "valueType" toks
  let t ← ofName vtypes Enums.discreteMeasurementValueType.names t
  let s ← optSOr "value" "" toks
  if s = "" then .ok none
  else match t with
    | .boolean => (getB "value" toks).map fun b => some (.boolean b)
    | .int => (getInt K "value" toks).map fun n => some (.int n)
    | .string => (getS "value" toks).map fun v => some (.string v)

/-- The callback of DiscreteMeasurementsXmlSerializer.cpp l.43-49, `readDiscreteMeasurement` l.53-92. -/
def discCb (K : XCodec) (k : Kind) : Callback (Box Disc) := fun b toks => do
  let n ← localName toks
  if n = "discreteMeasurement" then
    let t ← getS "type" toks
    let t ← ofName dtypes Enums.discreteMeasurementType.names t
    let valid ← getB "valid" toks
    let id ← optSOr "id" "" toks
    let c ← optSOr "tapChanger" "" toks
    let c ← optEnum tapChangers Enums.discreteMeasurementTapChanger.names c
    let v ← readValue K toks
    let r ← readUntilEnd propCb "discreteMeasurement" [] toks
    let b' ← addTo (·.id) id ((DAdder.mk id (some t) c r.1 v valid).make k) b
    .ok (b', r.2)
  else .thrown

/-- `read` of the serializers; MeasurementsXmlSerializer.cpp l.39-73, DiscreteMeasurementsXmlSerializer.cpp l.39-51: every extended object is an `Identifiable`. -/
def readExt (K : XCodec) (A : Anon) (E : REnv) : Title → List Tok → Out (Ext × List Tok)
  | .data n, toks => readData K A E n toks
  | .meas, toks => (readUntilEnd (measCb K (kindOf E.cls)) "measurements" Box.empty toks).map fun r => (.meas (r.1.items.map (·.2)), r.2)
  | .disc, toks => (readUntilEnd (discCb K (kindOf E.cls)) "discreteMeasurements" Box.empty toks).map fun r => (.disc (r.1.items.map (·.2)), r.2)

end Verif.ExtXml
