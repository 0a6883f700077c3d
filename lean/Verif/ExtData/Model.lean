import Verif.Common.Dbl
import Verif.Common.Out
import Verif.Enums.Tables
import Verif.XmlNet.Base

/-!
Model of the extensions that hold values: their adders, their constructors and their setters.

Modelled code (`extensions/iidm/src`, `extensions/sld/src`, `extensions/entsoe/src`, `src/iidm/extensions`): ActivePowerControl, CoordinatedReactiveControl,
HvdcAngleDroopActivePowerControl, HvdcOperatorActivePowerRange, TwoWindingsTransformerPhaseAngleClock, ThreeWindingsTransformerPhaseAngleClock,
VoltagePerReactivePowerControl, RemoteReactivePowerControl, BranchStatus, BusbarSectionPosition, ConnectablePosition, EntsoeArea, MergedXnode, Xnode,
LoadDetail, SlackTerminal, with their adders; `src/iidm/ExtensionAdder.cpp` l.16-25.

Simplified: a terminal is the identifier of its equipment and its side; the four arrays of `LoadDetail`, which are always resized together, are one array of
quadruples.  Not modelled: an extension that is no more on its object, what is only logged, the values of an enumeration class that are no enumerators.
`Measurements` and `DiscreteMeasurements` are in `Verif.Measure`.
-/

namespace Verif.ExtData

open Verif Verif.XmlNet

/-! ### The classes of the extended objects -/

/-- The classes of objects, in `include/powsybl/iidm`. -/
inductive Cls where
  | identifiable | container | network | substation | voltageLevel | bus | switch | connectable | injection | busbarSection | load | generator | battery | shunt
  | svc | danglingLine | station | vsc | lcc | branch | line | tieLine | twoWindings | threeWindings | hvdcLine
  deriving DecidableEq, Repr

/-- The base class (Battery.hpp l.18, Branch.hpp l.27, Bus.hpp l.38, BusbarSection.hpp l.17, Connectable.hpp l.24, Container.hpp l.17, DanglingLine.hpp l.29,
Generator.hpp l.23, HvdcConverterStation.hpp l.20, HvdcLine.hpp l.24, Injection.hpp l.21, LccConverterStation.hpp l.17, Line.hpp l.18, Load.hpp l.20,
Network.hpp l.57, ShuntCompensator.hpp l.24, StaticVarCompensator.hpp l.22, Substation.hpp l.33, Switch.hpp l.23, ThreeWindingsTransformer.hpp l.20,
TieLine.hpp l.19, TwoWindingsTransformer.hpp l.23, VoltageLevel.hpp l.48, VscConverterStation.hpp l.18). -/
def Cls.base : Cls → Cls
  | .identifiable => .identifiable
  | .container => .identifiable
  | .network => .container
  | .substation => .container
  | .voltageLevel => .container
  | .bus => .identifiable
  | .switch => .identifiable
  | .connectable => .identifiable
  | .injection => .connectable
  | .busbarSection => .injection
  | .load => .injection
  | .generator => .injection
  | .battery => .injection
  | .shunt => .injection
  | .svc => .injection
  | .danglingLine => .injection
  | .station => .injection
  | .vsc => .station
  | .lcc => .station
  | .branch => .connectable
  | .line => .branch
  | .tieLine => .line
  | .twoWindings => .branch
  | .threeWindings => .connectable
  | .hvdcLine => .identifiable

/-- `stdcxx::isInstanceOf<c>(x)` where `x` is an object of class `k`: at most four base classes. -/
def isA (k c : Cls) : Bool := k == c || k.base == c || k.base.base == c || k.base.base.base == c || k.base.base.base.base == c

/-! ### Values -/

abbrev Direction := Fin Enums.connectablePositionDirection.names.length
abbrev Status := Fin Enums.branchStatusStatus.names.length
abbrev Code := Fin Enums.entsoeGeographicalCode.names.length

/-- `ConnectablePosition::Feeder`. -/
structure Feeder where
  name : String
  order : Nat
  direction : Direction
  deriving DecidableEq, Repr

/-- The four feeders of a position. -/
inductive Slot where
  | only | one | two | three
  deriving DecidableEq, Repr

/-- `ConnectablePosition`. -/
structure Position where
  feeder : Option Feeder
  feeder1 : Option Feeder
  feeder2 : Option Feeder
  feeder3 : Option Feeder
  deriving DecidableEq, Repr

def Position.get (p : Position) : Slot → Option Feeder
  | .only => p.feeder
  | .one => p.feeder1
  | .two => p.feeder2
  | .three => p.feeder3

def Position.set (p : Position) (f : Feeder) : Slot → Position
  | .only => { p with feeder := some f }
  | .one => { p with feeder1 := some f }
  | .two => { p with feeder2 := some f }
  | .three => { p with feeder3 := some f }

/-- `MergedXnode`. -/
structure Merged where
  rdp : Dbl
  xdp : Dbl
  p1 : Dbl
  q1 : Dbl
  p2 : Dbl
  q2 : Dbl
  name1 : String
  name2 : String
  code : String
  deriving DecidableEq, Repr

/-- The values of a `LoadDetail` in a variant. -/
structure Powers where
  fixedP : Dbl
  fixedQ : Dbl
  varP : Dbl
  varQ : Dbl
  deriving DecidableEq, Repr

/-- An extension. -/
inductive Data where
  | activePower (participate : Bool) (droop : Dbl)
  | reactive (qPercent : Dbl)
  | angleDroop (p0 droop : Dbl) (enabled : Bool)
  | range (r12 r21 : Dbl)
  | clock2 (c : Nat)
  | clock3 (c2 c3 : Nat)
  | slope (s : Dbl)
  | remote (targetQ : Dbl) (terminal : Ref) (enabled : Bool)
  | status (s : Status)
  | busbar (busbar section_ : Nat)
  | position (p : Position)
  | area (c : Code)
  | merged (x : Merged)
  | xnode (code : String)
  | detail (v : List Powers)
  | slack (ts : List (Option Ref))
  deriving DecidableEq, Repr

/-- An adder before `add`. -/
inductive Draft where
  | activePower (participate : Bool) (droop : Dbl)
  | reactive (qPercent : Dbl)
  | angleDroop (p0 droop : Dbl) (enabled : Bool)
  | range (r12 r21 : Dbl)
  | clock2 (c : Option Nat)
  | clock3 (c2 c3 : Option Nat)
  | slope (s : Dbl)
  | remote (targetQ : Dbl) (terminal : Option Ref) (enabled : Bool)
  | status (s : Option Status)
  | busbar (busbar section_ : Option Nat)
  | position (p : Position)
  | area (c : Option Code)
  | merged (x : Merged)
  | xnode (code : String)
  | detail (v : Powers)
  | slack (t : Option Ref)
  deriving DecidableEq, Repr

/-! ### Names of the extensions -/

inductive Name where
  | activePower | reactive | angleDroop | range | clock2 | clock3 | slope | remote | status | busbar | position | area | merged | xnode | detail | slack
  deriving DecidableEq, Repr

def Data.name : Data → Name
  | .activePower .. => .activePower
  | .reactive .. => .reactive
  | .angleDroop .. => .angleDroop
  | .range .. => .range
  | .clock2 .. => .clock2
  | .clock3 .. => .clock3
  | .slope .. => .slope
  | .remote .. => .remote
  | .status .. => .status
  | .busbar .. => .busbar
  | .position .. => .position
  | .area .. => .area
  | .merged .. => .merged
  | .xnode .. => .xnode
  | .detail .. => .detail
  | .slack .. => .slack

/-- A new adder: the default values of the members (ActivePowerControlAdder.hpp l.82-84, CoordinatedReactiveControlAdder.hpp l.75,
HvdcAngleDroopActivePowerControlAdder.hpp l.74-85, HvdcOperatorActivePowerRangeAdder.hpp l.82-84, TwoWindingsTransformerPhaseAngleClockAdder.hpp l.71,
ThreeWindingsTransformerPhaseAngleClockAdder.hpp l.83-85, VoltagePerReactivePowerControlAdder.hpp l.74, RemoteReactivePowerControlAdder.hpp l.74-78,
BranchStatusAdder.hpp l.76, BusbarSectionPositionAdder.hpp l.83-85, ConnectablePositionAdder.hpp l.99-105, EntsoeAreaAdder.hpp l.75, MergedXnodeAdder.hpp
l.85-101, XnodeAdder.hpp l.75, LoadDetailAdder.hpp l.98-104, SlackTerminalAdder.hpp l.83). -/
def Draft.new : Name → Draft
  | .activePower => .activePower false 0
  | .reactive => .reactive .nan
  | .angleDroop => .angleDroop .nan .nan false
  | .range => .range 0 0
  | .clock2 => .clock2 none
  | .clock3 => .clock3 none none
  | .slope => .slope 0
  | .remote => .remote 0 none false
  | .status => .status none
  | .busbar => .busbar none none
  | .position => .position ⟨none, none, none, none⟩
  | .area => .area none
  | .merged => .merged ⟨.nan, .nan, .nan, .nan, .nan, .nan, "", "", ""⟩
  | .xnode => .xnode ""
  | .detail => .detail ⟨0, 0, 0, 0⟩
  | .slack => .slack none

/-! ### Creation -/

/-- What the creation of an extension sees of the network. -/
structure Env where
  /-- Class of the extended object. -/
  cls : Cls
  /-- Its identifier. -/
  id : String
  /-- `VariantManager::getVariantArraySize`. -/
  size : Nat
  /-- `getVariantIndex`. -/
  index : Nat
  /-- Identifier of the voltage level of a terminal. -/
  levelOf : Ref → String

/-- `FeederAdder` before `add`. -/
structure FeederDraft where
  name : String
  order : Option Nat
  direction : Option Direction
  deriving DecidableEq, Repr

/-- `FeederAdder::add`, ConnectablePositionAdder.cpp l.26-38. -/
def FeederDraft.make (d : FeederDraft) : Out Feeder :=
  if d.name = "" then .thrown
  else match d.order with
    | none => .thrown
    | some o => match d.direction with
      | none => .thrown
      | some k => .ok ⟨d.name, o, k⟩

/-- CoordinatedReactiveControl.cpp l.38-47 (what is out of range is only logged), HvdcAngleDroopActivePowerControl.cpp l.36-48, MergedXnode.cpp l.51-56,
LoadDetail.cpp l.48-53. -/
def checkSet (d : Dbl) : Out Dbl := if d.isNan then .thrown else .ok d

/-- HvdcOperatorActivePowerRange.cpp l.38-43. -/
def checkOPR (d : Dbl) : Out Dbl := if !d.isNan && d.lt 0 then .thrown else .ok d

/-- TwoWindingsTransformerPhaseAngleClock.cpp l.37-42, ThreeWindingsTransformerPhaseAngleClock.cpp l.40-45. -/
def checkClock (c : Nat) : Out Nat := if c > 11 then .thrown else .ok c

/-- VoltagePerReactivePowerControl.cpp l.31-39. -/
def checkSlope (d : Dbl) : Out Dbl := if d.isNan then .thrown else if d.lt 0 then .thrown else .ok d

/-- MergedXnode.cpp l.44-49. -/
def checkDivider (d : Dbl) : Out Dbl := if d.lt 0 || Dbl.lt 1 d || d.isNan then .thrown else .ok d

/-- `checkNotEmpty`, ValidationUtils.cpp l.208-213. -/
def checkNotEmpty (s : String) : Out String := if s = "" then .thrown else .ok s

/-- `ConnectablePosition::check`, ConnectablePosition.cpp l.84-104. -/
def checkPosition (p : Position) : Out Unit :=
  if p.feeder.isNone && p.feeder1.isNone && p.feeder2.isNone && p.feeder3.isNone then .thrown
  else if p.feeder.isSome && (p.feeder1.isSome || p.feeder2.isSome || p.feeder3.isSome) then .thrown
  else
    let error := if p.feeder1.isSome then p.feeder2.isNone && p.feeder3.isSome else p.feeder2.isSome || p.feeder3.isSome
    if error then .thrown else .ok ()

/-- The constructor of MergedXnode, MergedXnode.cpp l.23-36. -/
def makeMerged (x : Merged) : Out Merged := do
  let r ← checkDivider x.rdp
  let y ← checkDivider x.xdp
  let a ← checkSet x.p1
  let b ← checkSet x.q1
  let c ← checkSet x.p2
  let d ← checkSet x.q2
  let k ← checkNotEmpty x.code
  .ok ⟨r, y, a, b, c, d, x.name1, x.name2, k⟩

/-- The check of LoadDetail.cpp l.26-29. -/
def makePowers (x : Powers) : Out Powers := do
  let a ← checkSet x.fixedP
  let b ← checkSet x.fixedQ
  let c ← checkSet x.varP
  let d ← checkSet x.varQ
  .ok ⟨a, b, c, d⟩

/-- `m_terminals[getVariantIndex()] = ...`, `m_fixedActivePower[getVariantIndex()] = ...`: outside of the array it is undefined (even when the check of the
value throws: the order of the two is not specified before C++17). -/
def writeAt {α : Type} (l : List α) (i : Nat) (f : α → Out α) : Out (List α) :=
  match l[i]? with
  | none => .ub
  | some a => (f a).map fun b => l.set i b

/-- `SlackTerminal::setTerminal`, SlackTerminal.cpp l.103-109. -/
def setTerminal (E : Env) (t : Option Ref) (ts : List (Option Ref)) : Out (List (Option Ref)) :=
  match t with
  | none => writeAt ts E.index fun _ => .ok none
  | some r => if E.levelOf r ≠ E.id then .thrown else writeAt ts E.index fun _ => .ok (some r)

/-- `stdcxx::isInstanceOf` and the `AssertionError` that follows. -/
def require (ok : Bool) : Out Unit := if ok then .ok () else .thrown

/-- `m_x` is a `stdcxx::optional` or a `stdcxx::Reference`: an empty one throws. -/
def need {α : Type} : Option α → Out α
  | none => .thrown
  | some a => .ok a

/-- `createExtension` of the adders (ActivePowerControlAdder.cpp l.27-35, CoordinatedReactiveControlAdder.cpp l.25-30, HvdcAngleDroopActivePowerControlAdder.cpp
l.25-30, HvdcOperatorActivePowerRangeAdder.cpp l.27-32, TwoWindingsTransformerPhaseAngleClockAdder.cpp l.25-33,
ThreeWindingsTransformerPhaseAngleClockAdder.cpp l.25-36, VoltagePerReactivePowerControlAdder.cpp l.27-32, RemoteReactivePowerControlAdder.cpp l.28-33,
BranchStatusAdder.cpp l.26-34, BusbarSectionPositionAdder.cpp l.27-38, ConnectablePositionAdder.cpp l.59-64, EntsoeAreaAdder.cpp l.25-33,
MergedXnodeAdder.cpp l.25-30, XnodeAdder.cpp l.28-33, LoadDetailAdder.cpp l.23-28, SlackTerminalAdder.cpp l.24-36) and the constructors. -/
def Draft.create (E : Env) : Draft → Out Data
  | .activePower p d => do
    require (isA E.cls .battery || isA E.cls .generator)
    .ok (.activePower p d)
  | .reactive q => do
    require (isA E.cls .generator)
    let q ← checkSet q
    .ok (.reactive q)
  | .angleDroop p d e => do
    require (isA E.cls .hvdcLine)
    let p ← checkSet p
    let d ← checkSet d
    .ok (.angleDroop p d e)
  | .range a b => do
    require (isA E.cls .hvdcLine)
    let a ← checkOPR a
    let b ← checkOPR b
    .ok (.range a b)
  | .clock2 c => do
    let c ← need c
    require (isA E.cls .twoWindings)
    let c ← checkClock c
    .ok (.clock2 c)
  | .clock3 c d => do
    let c ← need c
    let d ← need d
    require (isA E.cls .threeWindings)
    let c ← checkClock c
    let d ← checkClock d
    .ok (.clock3 c d)
  | .slope s => do
    require (isA E.cls .svc)
    let s ← checkSlope s
    .ok (.slope s)
  | .remote q t e => do
    require (isA E.cls .generator)
    let t ← need t
    .ok (.remote q t e)
  | .status s => do
    let s ← need s
    require (isA E.cls .connectable)
    .ok (.status s)
  | .busbar b s => do
    let b ← need b
    let s ← need s
    require (isA E.cls .busbarSection)
    .ok (.busbar b s)
  | .position p => do
    require (isA E.cls .connectable)
    checkPosition p
    .ok (.position p)
  | .area c => do
    let c ← need c
    require (isA E.cls .substation)
    .ok (.area c)
  | .merged x => do
    require (isA E.cls .line)
    let x ← makeMerged x
    .ok (.merged x)
  | .xnode c => do
    require (isA E.cls .danglingLine)
    let c ← checkNotEmpty c
    .ok (.xnode c)
  | .detail v => do
    require (isA E.cls .load)
    let v ← makePowers v
    .ok (.detail (List.replicate E.size v))
  | .slack t => do
    let t ← need t
    require (isA E.cls .voltageLevel)
    require (E.levelOf t == E.id)
    let ts ← setTerminal E (some t) (List.replicate E.size none)
    .ok (.slack ts)

/-- `assertExtendable` (ActivePowerControl.cpp l.33-37, CoordinatedReactiveControl.cpp l.32-36, HvdcAngleDroopActivePowerControl.cpp l.30-34,
HvdcOperatorActivePowerRange.cpp l.31-35, TwoWindingsTransformerPhaseAngleClock.cpp l.31-35, ThreeWindingsTransformerPhaseAngleClock.cpp l.34-38,
VoltagePerReactivePowerControl.cpp l.25-29, RemoteReactivePowerControl.cpp l.30-34, BranchStatus.cpp l.46-50, BusbarSectionPosition.cpp l.28-32,
ConnectablePosition.cpp l.78-82, EntsoeArea.cpp l.26-30, MergedXnode.cpp l.38-42, Xnode.cpp l.26-30, LoadDetail.cpp l.41-45, SlackTerminal.cpp l.35-39). -/
def Data.assertExtendable (k : Cls) : Data → Bool
  | .activePower .. => isA k .battery || isA k .generator
  | .reactive .. => isA k .generator
  | .angleDroop .. => isA k .hvdcLine
  | .range .. => isA k .hvdcLine
  | .clock2 .. => isA k .twoWindings
  | .clock3 .. => isA k .threeWindings
  | .slope .. => isA k .svc
  | .remote .. => isA k .generator
  | .status .. => isA k .connectable
  | .busbar .. => isA k .busbarSection
  | .position .. => isA k .connectable
  | .area .. => isA k .substation
  | .merged .. => isA k .line
  | .xnode .. => isA k .danglingLine
  | .detail .. => isA k .load
  | .slack .. => isA k .voltageLevel

/-- `ExtensionAdder::add` (ExtensionAdder.cpp l.16-25) up to the storage of the extension (`Verif.Extend`): `setExtendable` (Extension.cpp l.25-32). -/
def Draft.add (E : Env) (d : Draft) : Out Data := do
  let x ← d.create E
  require (x.assertExtendable E.cls)
  .ok x

/-! ### The calls on an adder and on an extension -/

/-- A call that gives a value: `withDroop(d)` on an adder, `setDroop(d)` on an extension. -/
inductive Op where
  | participate (b : Bool)
  | droop (d : Dbl)
  | qPercent (d : Dbl)
  | p0 (d : Dbl)
  | enabled (b : Bool)
  | range12 (d : Dbl)
  | range21 (d : Dbl)
  | clock (c : Nat)
  | clockLeg2 (c : Nat)
  | clockLeg3 (c : Nat)
  | slope (d : Dbl)
  | targetQ (d : Dbl)
  | regulating (t : Ref)
  | status (s : Status)
  | busbarIndex (n : Nat)
  | sectionIndex (n : Nat)
  | feeder (s : Slot) (f : FeederDraft)
  | feederName (s : Slot) (n : String)
  | feederOrder (s : Slot) (n : Nat)
  | feederDirection (s : Slot) (d : Direction)
  | code (c : Code)
  | rdp (d : Dbl)
  | xdp (d : Dbl)
  | xnodeP1 (d : Dbl)
  | xnodeQ1 (d : Dbl)
  | xnodeP2 (d : Dbl)
  | xnodeQ2 (d : Dbl)
  | line1Name (s : String)
  | line2Name (s : String)
  | xnodeCode (s : String)
  | fixedP (d : Dbl)
  | fixedQ (d : Dbl)
  | varP (d : Dbl)
  | varQ (d : Dbl)
  | terminal (t : Option Ref)
  deriving DecidableEq, Repr

/-- The `with...` functions of the adders; `none` when the adder has no such function (the program is not valid C++).  `newFeeder().with...().add()` is one
call. -/
def Draft.give : Draft → Op → Option (Out Draft)
  | .activePower _ d, .participate b => some (.ok (.activePower b d))
  | .activePower p _, .droop d => some (.ok (.activePower p d))
  | .reactive _, .qPercent q => some (.ok (.reactive q))
  | .angleDroop _ d e, .p0 p => some (.ok (.angleDroop p d e))
  | .angleDroop p _ e, .droop d => some (.ok (.angleDroop p d e))
  | .angleDroop p d _, .enabled e => some (.ok (.angleDroop p d e))
  | .range _ b, .range12 a => some (.ok (.range a b))
  | .range a _, .range21 b => some (.ok (.range a b))
  | .clock2 _, .clock c => some (.ok (.clock2 (some c)))
  | .clock3 _ d, .clockLeg2 c => some (.ok (.clock3 (some c) d))
  | .clock3 c _, .clockLeg3 d => some (.ok (.clock3 c (some d)))
  | .slope _, .slope s => some (.ok (.slope s))
  | .remote _ t e, .targetQ q => some (.ok (.remote q t e))
  | .remote q _ e, .regulating t => some (.ok (.remote q (some t) e))
  | .remote q t _, .enabled e => some (.ok (.remote q t e))
  | .status _, .status s => some (.ok (.status (some s)))
  | .busbar _ s, .busbarIndex b => some (.ok (.busbar (some b) s))
  | .busbar b _, .sectionIndex s => some (.ok (.busbar b (some s)))
  | .position p, .feeder s f => some (f.make.map fun f => .position (p.set f s))
  | .area _, .code c => some (.ok (.area (some c)))
  | .merged x, .rdp d => some (.ok (.merged { x with rdp := d }))
  | .merged x, .xdp d => some (.ok (.merged { x with xdp := d }))
  | .merged x, .xnodeP1 d => some (.ok (.merged { x with p1 := d }))
  | .merged x, .xnodeQ1 d => some (.ok (.merged { x with q1 := d }))
  | .merged x, .xnodeP2 d => some (.ok (.merged { x with p2 := d }))
  | .merged x, .xnodeQ2 d => some (.ok (.merged { x with q2 := d }))
  | .merged x, .line1Name s => some (.ok (.merged { x with name1 := s }))
  | .merged x, .line2Name s => some (.ok (.merged { x with name2 := s }))
  | .merged x, .xnodeCode s => some (.ok (.merged { x with code := s }))
  | .xnode _, .xnodeCode s => some (.ok (.xnode s))
  | .detail v, .fixedP d => some (.ok (.detail { v with fixedP := d }))
  | .detail v, .fixedQ d => some (.ok (.detail { v with fixedQ := d }))
  | .detail v, .varP d => some (.ok (.detail { v with varP := d }))
  | .detail v, .varQ d => some (.ok (.detail { v with varQ := d }))
  | .slack _, .terminal (some t) => some (.ok (.slack (some t)))
  | _, _ => none

/-- A setter of `Feeder` through `getFeeder()`, `getFeeder1()`...: the reference of a feeder that is not there throws. -/
def onFeeder (p : Position) (s : Slot) (f : Feeder → Feeder) : Out Data :=
  match p.get s with
  | none => .thrown
  | some x => .ok (.position (p.set (f x) s))

/-- The setters of the extensions (ActivePowerControl.cpp l.57-65, CoordinatedReactiveControl.cpp l.63-66, HvdcAngleDroopActivePowerControl.cpp l.72-85,
HvdcOperatorActivePowerRange.cpp l.63-73, TwoWindingsTransformerPhaseAngleClock.cpp l.58-61, ThreeWindingsTransformerPhaseAngleClock.cpp l.65-73,
VoltagePerReactivePowerControl.cpp l.55-58, BranchStatus.cpp l.65-68, BusbarSectionPosition.cpp l.52-60, ConnectablePosition.cpp l.54-67, EntsoeArea.cpp
l.46-49, MergedXnode.cpp l.104-147, Xnode.cpp l.46-49, LoadDetail.cpp l.98-116, SlackTerminal.cpp l.103-113); `none` when there is no such function. -/
def Data.put (E : Env) : Data → Op → Option (Out Data)
  | .activePower _ d, .participate b => some (.ok (.activePower b d))
  | .activePower p _, .droop d => some (.ok (.activePower p d))
  | .reactive _, .qPercent q => some ((checkSet q).map .reactive)
  | .angleDroop _ d e, .p0 p => some ((checkSet p).map fun p => .angleDroop p d e)
  | .angleDroop p _ e, .droop d => some ((checkSet d).map fun d => .angleDroop p d e)
  | .angleDroop p d _, .enabled e => some (.ok (.angleDroop p d e))
  | .range _ b, .range12 a => some ((checkOPR a).map fun a => .range a b)
  | .range a _, .range21 b => some ((checkOPR b).map fun b => .range a b)
  | .clock2 _, .clock c => some ((checkClock c).map .clock2)
  | .clock3 _ d, .clockLeg2 c => some ((checkClock c).map fun c => .clock3 c d)
  | .clock3 c _, .clockLeg3 d => some ((checkClock d).map fun d => .clock3 c d)
  | .slope _, .slope s => some ((checkSlope s).map .slope)
  | .status _, .status s => some (.ok (.status s))
  | .busbar _ s, .busbarIndex b => some (.ok (.busbar b s))
  | .busbar b _, .sectionIndex s => some (.ok (.busbar b s))
  | .position p, .feederName s n => some (onFeeder p s fun f => { f with name := n })
  | .position p, .feederOrder s n => some (onFeeder p s fun f => { f with order := n })
  | .position p, .feederDirection s d => some (onFeeder p s fun f => { f with direction := d })
  | .area _, .code c => some (.ok (.area c))
  | .merged x, .rdp d => some ((checkDivider d).map fun d => .merged { x with rdp := d })
  | .merged x, .xdp d => some ((checkDivider d).map fun d => .merged { x with xdp := d })
  | .merged x, .xnodeP1 d => some ((checkSet d).map fun d => .merged { x with p1 := d })
  | .merged x, .xnodeQ1 d => some ((checkSet d).map fun d => .merged { x with q1 := d })
  | .merged x, .xnodeP2 d => some ((checkSet d).map fun d => .merged { x with p2 := d })
  | .merged x, .xnodeQ2 d => some ((checkSet d).map fun d => .merged { x with q2 := d })
  | .merged x, .line1Name s => some (.ok (.merged { x with name1 := s }))
  | .merged x, .line2Name s => some (.ok (.merged { x with name2 := s }))
  | .merged x, .xnodeCode s => some ((checkNotEmpty s).map fun s => .merged { x with code := s })
  | .xnode _, .xnodeCode s => some ((checkNotEmpty s).map .xnode)
  | .detail v, .fixedP d => some ((writeAt v E.index fun x => (checkSet d).map fun d => { x with fixedP := d }).map .detail)
  | .detail v, .fixedQ d => some ((writeAt v E.index fun x => (checkSet d).map fun d => { x with fixedQ := d }).map .detail)
  | .detail v, .varP d => some ((writeAt v E.index fun x => (checkSet d).map fun d => { x with varP := d }).map .detail)
  | .detail v, .varQ d => some ((writeAt v E.index fun x => (checkSet d).map fun d => { x with varQ := d }).map .detail)
  | .slack ts, .terminal t => some ((setTerminal E t ts).map .slack)
  | _, _ => none

/-- A call on an extension: an exception leaves it as it was (each setter checks, then assigns); a call that does not exist changes nothing. -/
def Data.step (E : Env) (x : Data) (op : Op) : Out Data :=
  match x.put E op with
  | none => .ok x
  | some (.ok y) => .ok y
  | some .thrown => .ok x
  | some .ub => .ub

/-- A program that makes calls on an extension and goes on after an exception. -/
def Data.run (E : Env) (x : Data) : List Op → Out Data
  | [] => .ok x
  | op :: ops => (x.step E op).bind fun y => y.run E ops

/-- The same on an adder. -/
def Draft.step (x : Draft) (op : Op) : Draft :=
  match x.give op with
  | some (.ok y) => y
  | _ => x

def Draft.run (x : Draft) : List Op → Draft
  | [] => x
  | op :: ops => (x.step op).run ops

/-! ### Getters -/

/-- The values of an extension: `getDroop`, `isEnabled`... -/
inductive Key where
  | participate | droop | qPercent | p0 | enabled | range12 | range21 | clock | clockLeg2 | clockLeg3 | slope | targetQ | regulating | status | busbarIndex
  | sectionIndex | feederName (s : Slot) | feederOrder (s : Slot) | feederDirection (s : Slot) | code | rdp | xdp | xnodeP1 | xnodeQ1 | xnodeP2 | xnodeQ2
  | line1Name | line2Name | xnodeCode | fixedP | fixedQ | varP | varQ | terminal
  deriving DecidableEq, Repr

inductive Val where
  | b (x : Bool)
  | d (x : Dbl)
  | n (x : Nat)
  | s (x : String)
  | r (x : Ref)
  | status (x : Status)
  | direction (x : Direction)
  | code (x : Code)
  deriving DecidableEq, Repr

/-- The getters of the extensions, in the variant of index `i`; `none` when there is no such value. -/
def Data.get (i : Nat) : Data → Key → Option Val
  | .activePower p _, .participate => some (.b p)
  | .activePower _ d, .droop => some (.d d)
  | .reactive q, .qPercent => some (.d q)
  | .angleDroop p _ _, .p0 => some (.d p)
  | .angleDroop _ d _, .droop => some (.d d)
  | .angleDroop _ _ e, .enabled => some (.b e)
  | .range a _, .range12 => some (.d a)
  | .range _ b, .range21 => some (.d b)
  | .clock2 c, .clock => some (.n c)
  | .clock3 c _, .clockLeg2 => some (.n c)
  | .clock3 _ d, .clockLeg3 => some (.n d)
  | .slope s, .slope => some (.d s)
  | .remote q _ _, .targetQ => some (.d q)
  | .remote _ t _, .regulating => some (.r t)
  | .remote _ _ e, .enabled => some (.b e)
  | .status s, .status => some (.status s)
  | .busbar b _, .busbarIndex => some (.n b)
  | .busbar _ s, .sectionIndex => some (.n s)
  | .position p, .feederName s => (p.get s).map fun f => .s f.name
  | .position p, .feederOrder s => (p.get s).map fun f => .n f.order
  | .position p, .feederDirection s => (p.get s).map fun f => .direction f.direction
  | .area c, .code => some (.code c)
  | .merged x, .rdp => some (.d x.rdp)
  | .merged x, .xdp => some (.d x.xdp)
  | .merged x, .xnodeP1 => some (.d x.p1)
  | .merged x, .xnodeQ1 => some (.d x.q1)
  | .merged x, .xnodeP2 => some (.d x.p2)
  | .merged x, .xnodeQ2 => some (.d x.q2)
  | .merged x, .line1Name => some (.s x.name1)
  | .merged x, .line2Name => some (.s x.name2)
  | .merged x, .xnodeCode => some (.s x.code)
  | .xnode c, .xnodeCode => some (.s c)
  | .detail v, .fixedP => v[i]?.map fun x => .d x.fixedP
  | .detail v, .fixedQ => v[i]?.map fun x => .d x.fixedQ
  | .detail v, .varP => v[i]?.map fun x => .d x.varP
  | .detail v, .varQ => v[i]?.map fun x => .d x.varQ
  | .slack ts, .terminal => ts[i]?.join.map .r
  | _, _ => none

/-- What an adder holds. -/
def Draft.get : Draft → Key → Option Val
  | .activePower p _, .participate => some (.b p)
  | .activePower _ d, .droop => some (.d d)
  | .reactive q, .qPercent => some (.d q)
  | .angleDroop p _ _, .p0 => some (.d p)
  | .angleDroop _ d _, .droop => some (.d d)
  | .angleDroop _ _ e, .enabled => some (.b e)
  | .range a _, .range12 => some (.d a)
  | .range _ b, .range21 => some (.d b)
  | .clock2 c, .clock => c.map .n
  | .clock3 c _, .clockLeg2 => c.map .n
  | .clock3 _ d, .clockLeg3 => d.map .n
  | .slope s, .slope => some (.d s)
  | .remote q _ _, .targetQ => some (.d q)
  | .remote _ t _, .regulating => t.map .r
  | .remote _ _ e, .enabled => some (.b e)
  | .status s, .status => s.map .status
  | .busbar b _, .busbarIndex => b.map .n
  | .busbar _ s, .sectionIndex => s.map .n
  | .position p, .feederName s => (p.get s).map fun f => .s f.name
  | .position p, .feederOrder s => (p.get s).map fun f => .n f.order
  | .position p, .feederDirection s => (p.get s).map fun f => .direction f.direction
  | .area c, .code => c.map .code
  | .merged x, .rdp => some (.d x.rdp)
  | .merged x, .xdp => some (.d x.xdp)
  | .merged x, .xnodeP1 => some (.d x.p1)
  | .merged x, .xnodeQ1 => some (.d x.q1)
  | .merged x, .xnodeP2 => some (.d x.p2)
  | .merged x, .xnodeQ2 => some (.d x.q2)
  | .merged x, .line1Name => some (.s x.name1)
  | .merged x, .line2Name => some (.s x.name2)
  | .merged x, .xnodeCode => some (.s x.code)
  | .xnode c, .xnodeCode => some (.s c)
  | .detail v, .fixedP => some (.d v.fixedP)
  | .detail v, .fixedQ => some (.d v.fixedQ)
  | .detail v, .varP => some (.d v.varP)
  | .detail v, .varQ => some (.d v.varQ)
  | .slack t, .terminal => t.map .r
  | _, _ => none

def Draft.name : Draft → Name
  | .activePower .. => .activePower
  | .reactive .. => .reactive
  | .angleDroop .. => .angleDroop
  | .range .. => .range
  | .clock2 .. => .clock2
  | .clock3 .. => .clock3
  | .slope .. => .slope
  | .remote .. => .remote
  | .status .. => .status
  | .busbar .. => .busbar
  | .position .. => .position
  | .area .. => .area
  | .merged .. => .merged
  | .xnode .. => .xnode
  | .detail .. => .detail
  | .slack .. => .slack

end Verif.ExtData
