import Verif.XmlNet.Net
import Verif.UniqueId.Model

/-!
The calls that change an equipment that exists already, class by class: setters, adders of limits and of tap changers, aliases, properties, terminals.  The
equipment is what is written of it (`Verif.XmlNet`), in one variant.

Modelled code (`src/iidm` unless said otherwise):
* `Identifiable.cpp` l. 52-69, 173-192, `Terminal.cpp` l. 108-133, `BusTerminalViews.cpp` l. 45-56, `NodeTerminalViews.cpp` l. 47-49
* `Load.cpp` l. 67-83, `Generator.cpp` l. 122-189, `Battery.cpp` l. 71-98, `HvdcConverterStation.cpp` l. 45-48, `LccConverterStation.cpp` l. 35-42,
  `VscConverterStation.cpp` l. 74-94, `StaticVarCompensator.cpp` l. 91-128, `ShuntCompensator.cpp` l. 122-156, `ShuntCompensatorLinearModel.cpp` l. 64-79,
  `ShuntCompensatorNonLinearModel.cpp` l. 41-51, `DanglingLine.cpp` l. 124-158, `DanglingLineGeneration.cpp` l. 94-134
* `Line.cpp` l. 60-88, `LineCharacteristics.cpp` l. 55-77, `HalfLine.cpp` l. 95-135, `TieLine.cpp` l. 102-124, `HvdcLine.cpp` l. 135-163
* `TapChanger.hxx` l. 167-205, `TapChangerStep.hxx` l. 52-79, `PhaseTapChangerStep.cpp` l. 23-26, `RatioTapChanger.cpp` l. 58-78, `PhaseTapChanger.cpp` l. 60-75,
  `RatioTapChangerAdder.cpp`, `PhaseTapChangerAdder.cpp`, `TwoWindingsTransformer.cpp` l. 171-220, `ThreeWindingsTransformerLeg.cpp` l. 142-186
* `LoadingLimits.cpp` l. 73-77, `VoltageLevel.cpp` l. 253-268, `ConfiguredBus.cpp` l. 190-212, `Switch.cpp` l. 82-113, `Substation.cpp` l. 35-38, 164-176,
  `Network.cpp` l. 672-680
* `ValidationUtils.cpp`, the checks that they make

A setter checks before it writes, so that a call that throws changes nothing.  Enumerators are numbers, which may be outside of the enumeration.
-/

namespace Verif.Setters

open Verif Verif.Xml Verif.XmlNet

/-- Throws or stores. -/
def grd {α : Type} (bad : Bool) (y : α) : Out α := if bad then .thrown else .ok y

/-- A `long`. -/
abbrev Long := { i : Int // -2 ^ 63 ≤ i ∧ i < 2 ^ 63 }

/-! ### Identifiers -/

/-- `setFictitious`, `addAlias`, `removeAlias`, `setProperty`.  `others` tells the identifiers and aliases of the other objects of the network. -/
inductive IdentOp
  | setFictitious (b : Bool)
  | addAlias (others : String → Bool) (a t : String) (ensure : Bool)
  | removeAlias (a : String)
  | setProperty (k v : String)

/-- The object has the name: what the index answers for it (C02). -/
def own (x : Ident) (n : String) : Bool := n == x.head.id || (x.aliases.map Prod.fst).contains n

/-- `Identifiable.cpp` l. 52-69, 173-192, with `NetworkIndex::addAlias`: an alias that the object has already is accepted and not added again.  The order of the
aliases, kept in a set and in a map, is not represented. -/
def IdentOp.set : IdentOp → Ident → Out Ident
  | .setFictitious b, x => .ok { x with head := { x.head with fictitious := b } }
  | .addAlias others a t ensure, x =>
    let n := if ensure then UniqueId.getUniqueId a fun n => own x n || others n else a
    if t ≠ "" ∧ t ∈ x.aliases.map Prod.snd then .thrown
    else if own x n then .ok x
    else if others n then .thrown
    else .ok { x with aliases := x.aliases ++ [(n, t)] }
  | .removeAlias a, x => grd (!(x.aliases.map Prod.fst).contains a) { x with aliases := x.aliases.filter fun y => y.1 != a }
  | .setProperty k v, x => .ok { x with props := (PropMap.set k v x.props).2 }

/-! ### Terminals -/

/-- `known` tells whether the voltage level has the bus. -/
inductive TermOp
  | setP (d : Dbl)
  | setQ (d : Dbl)
  | connect
  | disconnect
  | setConnectableBus (b : String) (known : Bool)

/-- `Terminal.cpp` l. 108-133 for an equipment that is neither a busbar section nor a shunt compensator; in a node/breaker voltage level connecting operates the
switches, not the terminal. -/
def TermOp.set : TermOp → Term → Out Term
  | .setP d, t => .ok { t with p := d }
  | .setQ d, t => .ok { t with q := d }
  | .connect, t => match t.place with
    | .bus b _ => .ok { t with place := .bus b true }
    | .node _ => .ok t
  | .disconnect, t => match t.place with
    | .bus b _ => .ok { t with place := .bus b false }
    | .node _ => .ok t
  | .setConnectableBus b known, t => match t.place with
    | .bus _ c => grd (b == "" || !known) { t with place := .bus b c }
    | .node _ => .thrown

/-- The active power of a shunt compensator is not set, `Terminal.cpp` l. 114-116. -/
def shTermSet (o : TermOp) (t : Term) : Out Term := match o with
  | .setP d => grd (!d.isNan) { t with p := d }
  | o => o.set t

/-! ### Reactive limits and loading limits -/

/-- `newMinMaxReactiveLimits` and `newReactiveCapabilityCurve`, with what is given to their adders. -/
inductive ReactiveOp
  | minMax (a b : Dbl)
  | curve (pts : List Curve.Pt)

def ReactiveOp.set : ReactiveOp → Out Reactive
  | .minMax a b => (Curve.buildMinMax a b).map fun x => .minMax x.1 x.2
  | .curve pts => (Curve.build pts).map .curve

/-- The three kinds of loading limits. -/
inductive Kind
  | active | apparent | current

/-- New limits, or another permanent limit for those that exist. -/
inductive LimsOp
  | new (k : Kind) (permanent : Dbl) (temps : List Limits.Args)
  | setPermanent (k : Kind) (permanent : Dbl)

def getLims (k : Kind) (l : Lims) : Option Limits.LL := match k with
  | .active => l.active
  | .apparent => l.apparent
  | .current => l.current

def putLims (k : Kind) (o : Limits.LL) (l : Lims) : Lims := match k with
  | .active => { l with active := some o }
  | .apparent => { l with apparent := some o }
  | .current => { l with current := some o }

/-- Limits that do not exist are an empty reference, which throws when it is used. -/
def LimsOp.set : LimsOp → Lims → Out Lims
  | .new k p ts, l => (Limits.add p (Limits.runAdder [] ts)).map fun o => putLims k o l
  | .setPermanent k p, l => match getLims k l with
    | none => .thrown
    | some o => grd (Dbl.le p 0) (putLims k { o with permanent := p } l)

/-! ### Injections -/

inductive LoadOp
  | ident (o : IdentOp)
  | term (o : TermOp)
  | setLoadType (k : Nat)
  | setP0 (d : Dbl)
  | setQ0 (d : Dbl)

/-- `Load.cpp` l. 67-83; `checkLoadType`, `ValidationUtils.cpp` l. 161-172. -/
def LoadOp.set : LoadOp → Load → Out Load
  | .ident o, x => (o.set x.ident).map fun i => { x with ident := i }
  | .term o, x => (o.set x.term).map fun t => { x with term := t }
  | .setLoadType k, x => grd (decide (3 ≤ k)) { x with kind := k }
  | .setP0 d, x => grd d.isNan { x with p0 := d }
  | .setQ0 d, x => grd d.isNan { x with q0 := d }

/-- Bad for `checkVoltageControl`, `ValidationUtils.cpp` l. 417-425. -/
def badControl (on : Bool) (v q : Dbl) : Bool := if on then v.isNan || Dbl.le v 0 else q.isNan

/-- Bad for `checkRatedS`, l. 300-305. -/
def badRatedS (s : Dbl) : Bool := !s.isNan && Dbl.le s 0

/-- A regulating terminal: its reference, unless it is that of the equipment or missing, and whether it is in the network (`checkRegulatingTerminal`, l. 340-344). -/
def setReg {α : Type} (r : Option Ref) (sameNet : Bool) (y : α) : Out α := grd (r.isSome && !sameNet) y

inductive GenOp
  | ident (o : IdentOp)
  | term (o : TermOp)
  | limits (o : ReactiveOp)
  | setTargetP (d : Dbl)
  | setEnergySource (k : Nat)
  | setMaxP (d : Dbl)
  | setMinP (d : Dbl)
  | setRatedS (d : Dbl)
  | setTargetQ (d : Dbl)
  | setRegulatingTerminal (r : Option Ref) (sameNet : Bool)
  | setVoltageRegulatorOn (b : Bool)
  | setTargetV (d : Dbl)

/-- `Generator.cpp` l. 122-189: the energy source is not checked. -/
def GenOp.set : GenOp → Gen → Out Gen
  | .ident o, x => (o.set x.ident).map fun i => { x with ident := i }
  | .term o, x => (o.set x.term).map fun t => { x with term := t }
  | .limits o, x => o.set.map fun l => { x with limits := l }
  | .setTargetP d, x => grd d.isNan { x with targetP := d }
  | .setEnergySource k, x => .ok { x with source := k }
  | .setMaxP d, x => grd (d.isNan || Dbl.lt d x.minP) { x with maxP := d }
  | .setMinP d, x => grd (d.isNan || Dbl.lt x.maxP d) { x with minP := d }
  | .setRatedS d, x => grd (badRatedS d) { x with ratedS := d }
  | .setTargetQ d, x => grd (badControl x.on x.targetV d) { x with targetQ := d }
  | .setRegulatingTerminal r s, x => setReg r s { x with reg := r }
  | .setVoltageRegulatorOn b, x => grd (badControl b x.targetV x.targetQ) { x with on := b }
  | .setTargetV d, x => grd (badControl x.on d x.targetQ) { x with targetV := d }

inductive BatOp
  | ident (o : IdentOp)
  | term (o : TermOp)
  | limits (o : ReactiveOp)
  | setMaxP (d : Dbl)
  | setMinP (d : Dbl)
  | setP0 (d : Dbl)
  | setQ0 (d : Dbl)

/-- `Battery.cpp` l. 71-98. -/
def BatOp.set : BatOp → Bat → Out Bat
  | .ident o, x => (o.set x.ident).map fun i => { x with ident := i }
  | .term o, x => (o.set x.term).map fun t => { x with term := t }
  | .limits o, x => o.set.map fun l => { x with limits := l }
  | .setMaxP d, x => grd (d.isNan || Dbl.lt d x.minP) { x with maxP := d }
  | .setMinP d, x => grd (d.isNan || Dbl.lt x.maxP d) { x with minP := d }
  | .setP0 d, x => grd d.isNan { x with p0 := d }
  | .setQ0 d, x => grd d.isNan { x with q0 := d }

/-- Bad for `checkLossFactor`, `ValidationUtils.cpp` l. 174-182. -/
def badLoss (f : Dbl) : Bool := f.isNan || Dbl.lt f 0 || Dbl.lt 100 f

/-- Bad for `checkPowerFactor`, l. 276-284. -/
def badPowerFactor (f : Dbl) : Bool := f.isNan || Dbl.lt 1 f || Dbl.lt f (.fin (-1))

inductive LccOp
  | ident (o : IdentOp)
  | term (o : TermOp)
  | setLossFactor (d : Dbl)
  | setPowerFactor (d : Dbl)

/-- `LccConverterStation.cpp` l. 35-42. -/
def LccOp.set : LccOp → Lcc → Out Lcc
  | .ident o, x => (o.set x.ident).map fun i => { x with ident := i }
  | .term o, x => (o.set x.term).map fun t => { x with term := t }
  | .setLossFactor d, x => grd (badLoss d) { x with lossFactor := d }
  | .setPowerFactor d, x => grd (badPowerFactor d) { x with powerFactor := d }

inductive VscOp
  | ident (o : IdentOp)
  | term (o : TermOp)
  | limits (o : ReactiveOp)
  | setLossFactor (d : Dbl)
  | setReactivePowerSetpoint (d : Dbl)
  | setVoltageRegulatorOn (b : Bool)
  | setVoltageSetpoint (d : Dbl)

/-- `VscConverterStation.cpp` l. 74-94. -/
def VscOp.set : VscOp → Vsc → Out Vsc
  | .ident o, x => (o.set x.ident).map fun i => { x with ident := i }
  | .term o, x => (o.set x.term).map fun t => { x with term := t }
  | .limits o, x => o.set.map fun l => { x with limits := l }
  | .setLossFactor d, x => grd (badLoss d) { x with lossFactor := d }
  | .setReactivePowerSetpoint d, x => grd (badControl x.on x.voltage d) { x with reactive := d }
  | .setVoltageRegulatorOn b, x => grd (badControl b x.voltage x.reactive) { x with on := b }
  | .setVoltageSetpoint d, x => grd (badControl x.on d x.reactive) { x with voltage := d }

/-- Bad for `checkSvcRegulator`, `ValidationUtils.cpp` l. 358-381: voltage, reactive power, off. -/
def badSvc (mode : Nat) (v q : Dbl) : Bool := match mode with
  | 0 => v.isNan
  | 1 => q.isNan
  | 2 => false
  | _ => true

inductive SvcOp
  | ident (o : IdentOp)
  | term (o : TermOp)
  | setBmax (d : Dbl)
  | setBmin (d : Dbl)
  | setReactivePowerSetpoint (d : Dbl)
  | setRegulatingTerminal (r : Option Ref) (sameNet : Bool)
  | setRegulationMode (m : Nat)
  | setVoltageSetpoint (d : Dbl)

/-- `StaticVarCompensator.cpp` l. 91-128. -/
def SvcOp.set : SvcOp → Svc → Out Svc
  | .ident o, x => (o.set x.ident).map fun i => { x with ident := i }
  | .term o, x => (o.set x.term).map fun t => { x with term := t }
  | .setBmax d, x => grd d.isNan { x with bMax := d }
  | .setBmin d, x => grd d.isNan { x with bMin := d }
  | .setReactivePowerSetpoint d, x => grd (badSvc x.mode x.voltage d) { x with reactive := d }
  | .setRegulatingTerminal r s, x => setReg r s { x with reg := r }
  | .setRegulationMode m, x => grd (badSvc m x.voltage x.reactive) { x with mode := m }
  | .setVoltageSetpoint d, x => grd (badSvc x.mode d x.reactive) { x with voltage := d }

/-- Bad for `checkSections`, `ValidationUtils.cpp` l. 346-356. -/
def badSections (count max : Nat) : Bool := max == 0 || decide (max < count)

/-- Bad for `checkTargetDeadband`, l. 390-398. -/
def badDeadband (on : Bool) (d : Dbl) : Bool := on && d.isNan || Dbl.lt d 0

/-- Bad for `checkVoltageControl` of a voltage alone, l. 407-415. -/
def badTarget (on : Bool) (v : Dbl) : Bool := on && (v.isNan || Dbl.le v 0)

inductive ShOp
  | ident (o : IdentOp)
  | term (o : TermOp)
  | setRegulatingTerminal (r : Option Ref) (sameNet : Bool)
  | setSectionCount (n : Nat)
  | setTargetDeadband (d : Dbl)
  | setTargetV (d : Dbl)
  | setVoltageRegulatorOn (b : Bool)
  | setBPerSection (d : Dbl)
  | setGPerSection (d : Dbl)
  | setMaximumSectionCount (n : Nat)
  | setSectionB (i : Nat) (d : Dbl)
  | setSectionG (i : Nat) (d : Dbl)

/-- `ShuntCompensator.cpp` l. 122-156 and the setters of the models, reached by `getModel` of the right class, which throws otherwise. -/
def ShOp.set : ShOp → Sh → Out Sh
  | .ident o, x => (o.set x.ident).map fun i => { x with ident := i }
  | .term o, x => (shTermSet o x.term).map fun t => { x with term := t }
  | .setRegulatingTerminal r s, x => setReg r s { x with reg := r }
  | .setSectionCount n, x => grd (badSections n x.model.maximum) { x with per := { x.per with count := n } }
  | .setTargetDeadband d, x => grd (badDeadband x.per.on d) { x with per := { x.per with deadband := d } }
  | .setTargetV d, x => grd (badTarget x.per.on d) { x with per := { x.per with targetV := d } }
  | .setVoltageRegulatorOn b, x => grd (badTarget b x.per.targetV || badDeadband b x.per.deadband) { x with per := { x.per with on := b } }
  | .setBPerSection d, x => match x.model with
    | .linear _ g m => grd d.isNan { x with model := .linear d g m }
    | .nonLinear _ => .thrown
  | .setGPerSection d, x => match x.model with
    | .linear b _ m => .ok { x with model := .linear b d m }
    | .nonLinear _ => .thrown
  | .setMaximumSectionCount n, x => match x.model with
    | .linear b g _ => grd (badSections x.per.count n) { x with model := .linear b g n }
    | .nonLinear _ => .thrown
  | .setSectionB i d, x => match x.model with
    | .linear _ _ _ => .thrown
    | .nonLinear ss => grd (d.isNan || decide (ss.length ≤ i)) { x with model := .nonLinear (ss.modify i fun s => { s with b := d }) }
  | .setSectionG i d, x => match x.model with
    | .linear _ _ _ => .thrown
    | .nonLinear ss => grd (d.isNan || decide (ss.length ≤ i)) { x with model := .nonLinear (ss.modify i fun s => { s with g := d }) }

inductive DlGenOp
  | limits (o : ReactiveOp)
  | setMaxP (d : Dbl)
  | setMinP (d : Dbl)
  | setTargetP (d : Dbl)
  | setTargetQ (d : Dbl)
  | setTargetV (d : Dbl)
  | setVoltageRegulationOn (b : Bool)

/-- `DanglingLineGeneration.cpp` l. 94-134. -/
def DlGenOp.set : DlGenOp → DlGen → Out DlGen
  | .limits o, x => o.set.map fun l => { x with limits := l }
  | .setMaxP d, x => grd (d.isNan || Dbl.lt d x.minP) { x with maxP := d }
  | .setMinP d, x => grd (d.isNan || Dbl.lt x.maxP d) { x with minP := d }
  | .setTargetP d, x => grd d.isNan { x with targetP := d }
  | .setTargetQ d, x => grd (badControl x.on x.targetV d) { x with targetQ := d }
  | .setTargetV d, x => grd (badControl x.on d x.targetQ) { x with targetV := d }
  | .setVoltageRegulationOn b, x => grd (badControl b x.targetV x.targetQ) { x with on := b }

inductive DlOp
  | ident (o : IdentOp)
  | term (o : TermOp)
  | lims (o : LimsOp)
  | gen (o : DlGenOp)
  | setB (d : Dbl)
  | setG (d : Dbl)
  | setP0 (d : Dbl)
  | setQ0 (d : Dbl)
  | setR (d : Dbl)
  | setX (d : Dbl)

/-- `DanglingLine.cpp` l. 124-158; a line without generation has an empty reference to it. -/
def DlOp.set : DlOp → Dl → Out Dl
  | .ident o, x => (o.set x.ident).map fun i => { x with ident := i }
  | .term o, x => (o.set x.term).map fun t => { x with term := t }
  | .lims o, x => (o.set ⟨x.active, x.apparent, x.current⟩).map fun l => { x with active := l.active, apparent := l.apparent, current := l.current }
  | .gen o, x => match x.gen with
    | none => .thrown
    | some g => (o.set g).map fun g => { x with gen := some g }
  | .setB d, x => grd d.isNan { x with b := d }
  | .setG d, x => grd d.isNan { x with g := d }
  | .setP0 d, x => grd d.isNan { x with p0 := d }
  | .setQ0 d, x => grd d.isNan { x with q0 := d }
  | .setR d, x => grd d.isNan { x with r := d }
  | .setX d, x => grd d.isNan { x with x := d }

/-- A busbar section has no value of its own; its flows are not set (`Terminal.cpp` l. 111-113, 126-128). -/
def bbsSet (o : IdentOp) (x : Bbs) : Out Bbs := (o.set x.ident).map fun i => { x with ident := i }

/-! ### Lines -/

inductive CharacOp
  | setR (d : Dbl)
  | setX (d : Dbl)
  | setG1 (d : Dbl)
  | setB1 (d : Dbl)
  | setG2 (d : Dbl)
  | setB2 (d : Dbl)

/-- `LineCharacteristics.cpp` l. 55-77. -/
def CharacOp.set : CharacOp → Charac → Out Charac
  | .setR d, z => grd d.isNan { z with r := d }
  | .setX d, z => grd d.isNan { z with x := d }
  | .setG1 d, z => grd d.isNan { z with g1 := d }
  | .setB1 d, z => grd d.isNan { z with b1 := d }
  | .setG2 d, z => grd d.isNan { z with g2 := d }
  | .setB2 d, z => grd d.isNan { z with b2 := d }

/-- The two sides of a branch. -/
inductive BSide
  | one | two

def sideSet (o : TermOp) (s : Side) : Out Side := (o.set s.term).map fun t => { s with term := t }

def branchLimsSet (b : BSide) (o : LimsOp) (l : BranchLims) : Out BranchLims := match b with
  | .one => (o.set l.one).map fun a => { l with one := a }
  | .two => (o.set l.two).map fun a => { l with two := a }

inductive LineOp
  | ident (o : IdentOp)
  | term (b : BSide) (o : TermOp)
  | lims (b : BSide) (o : LimsOp)
  | z (o : CharacOp)

/-- `Line.cpp` l. 60-88. -/
def LineOp.set : LineOp → Line → Out Line
  | .ident o, x => (o.set x.ident).map fun i => { x with ident := i }
  | .term .one o, x => (sideSet o x.side1).map fun s => { x with side1 := s }
  | .term .two o, x => (sideSet o x.side2).map fun s => { x with side2 := s }
  | .lims b o, x => (branchLimsSet b o x.lims).map fun l => { x with lims := l }
  | .z o, x => (o.set x.z).map fun z => { x with z := z }

inductive HalfOp
  | setFictitious (b : Bool)
  | z (o : CharacOp)

/-- `HalfLine.cpp` l. 95-135. -/
def HalfOp.set : HalfOp → Half → Out Half
  | .setFictitious b, x => .ok { x with fictitious := b }
  | .z o, x => (o.set x.z).map fun z => { x with z := z }

inductive TieOp
  | ident (o : IdentOp)
  | term (b : BSide) (o : TermOp)
  | lims (b : BSide) (o : LimsOp)
  | z (o : CharacOp)
  | half (b : BSide) (o : HalfOp)

/-- `TieLine.cpp` l. 102-124: the characteristics of a tie line are those of its halves. -/
def TieOp.set : TieOp → TieLine → Out TieLine
  | .ident o, x => (o.set x.ident).map fun i => { x with ident := i }
  | .term .one o, x => (sideSet o x.side1).map fun s => { x with side1 := s }
  | .term .two o, x => (sideSet o x.side2).map fun s => { x with side2 := s }
  | .lims b o, x => (branchLimsSet b o x.lims).map fun l => { x with lims := l }
  | .z _, _ => .thrown
  | .half .one o, x => (o.set x.half1).map fun h => { x with half1 := h }
  | .half .two o, x => (o.set x.half2).map fun h => { x with half2 := h }

inductive HvdcOp
  | ident (o : IdentOp)
  | setActivePowerSetpoint (d : Dbl)
  | setConvertersMode (m : Nat)
  | setMaxP (d : Dbl)
  | setNominalV (d : Dbl)
  | setR (d : Dbl)

/-- `HvdcLine.cpp` l. 135-163; `ValidationUtils.cpp` l. 87-98, 128-146, 198-206. -/
def HvdcOp.set : HvdcOp → HvdcLine → Out HvdcLine
  | .ident o, x => (o.set x.ident).map fun i => { x with ident := i }
  | .setActivePowerSetpoint d, x => grd (d.isNan || Dbl.lt d 0) { x with setpoint := d }
  | .setConvertersMode m, x => grd (decide (2 ≤ m)) { x with mode := m }
  | .setMaxP d, x => grd (d.isNan || Dbl.lt d 0) { x with maxP := d }
  | .setNominalV d, x => grd (d.isNan || Dbl.le d 0) { x with nominalV := d }
  | .setR d, x => grd d.isNan { x with r := d }

/-! ### Tap changers -/

/-- The values of a step. -/
inductive Field
  | r | x | g | b | rho

/-- `TapChangerStep.hxx` l. 52-79: nothing is checked. -/
def putStep : Field → Dbl → Step → Step
  | .r, d, s => { s with r := d }
  | .x, d, s => { s with x := d }
  | .g, d, s => { s with g := d }
  | .b, d, s => { s with b := d }
  | .rho, d, s => { s with rho := d }

/-- Bad for `checkTapPosition`, `ValidationUtils.cpp` l. 383-388. -/
def badTap (low tap : Int) (n : Nat) : Bool := decide (tap < low) || decide (highTap low n < tap)

/-- The sum is a `long`. -/
def isLong (i : Int) : Bool := decide (-2 ^ 63 ≤ i) && decide (i < 2 ^ 63)

/-- `getTapPosition() + m_lowTapPosition - oldValue`, `TapChanger.hxx` l. 170: undefined when a sum is not a `long`. -/
def shift (tap low old : Int) : Out Int := if isLong (tap + low) && isLong (tap + low - old) then .ok (tap + low - old) else .ub

/-- Bad for `checkRatioTapChangerRegulation`, `ValidationUtils.cpp` l. 323-338: a terminal that is missing is used all the same, which throws; one of another network
is only warned about without load tap changing capabilities. -/
def badRatio (on ltc : Bool) (v : Dbl) (reg : Option Ref) (sameNet : Bool) : Bool := on && (ltc && (v.isNan || Dbl.le v 0 || !sameNet) || reg.isNone)

/-- A call of a tap changer; the terminal that regulates is in the network, unless another one is given.  A step is told by its position. -/
inductive RtcOp
  | setTapPosition (t : Long)
  | setLowTapPosition (t : Long)
  | setRegulating (b : Bool)
  | setRegulationTerminal (r : Option Ref) (sameNet : Bool)
  | setTargetDeadband (d : Dbl)
  | setTargetV (d : Dbl)
  | setLoadTapChangingCapabilities (b : Bool)
  | setStep (position : Long) (f : Field) (d : Dbl)

/-- Index of the step of a position, `TapChanger.hxx` `getStep`. -/
def stepAt (low position : Int) : Nat := (position - low).toNat

/-- `RatioTapChanger.cpp` l. 58-78: `setLoadTapChangingCapabilities` checks the value that it replaces. -/
def RtcOp.set : RtcOp → Rtc → Out Rtc
  | .setTapPosition p, t => grd (badTap t.low p.1 t.steps.length) { t with tap := p.1 }
  | .setLowTapPosition l, t => (shift t.tap l.1 t.low).map fun p => { t with low := l.1, tap := p }
  | .setRegulating b, t => grd (badRatio b t.ltc t.targetV t.reg true || badDeadband b t.deadband) { t with on := b }
  | .setRegulationTerminal r s, t => grd (badRatio t.on t.ltc t.targetV r s || (r.isSome && !s)) { t with reg := r }
  | .setTargetDeadband d, t => grd (badDeadband t.on d) { t with deadband := d }
  | .setTargetV d, t => grd (badRatio t.on t.ltc d t.reg true) { t with targetV := d }
  | .setLoadTapChangingCapabilities b, t => grd (badRatio t.on t.ltc t.targetV t.reg true) { t with ltc := b }
  | .setStep p f d, t => grd (badTap t.low p.1 t.steps.length) { t with steps := t.steps.modify (stepAt t.low p.1) (putStep f d) }

/-- Bad for `checkPhaseTapChangerRegulation`, `ValidationUtils.cpp` l. 249-274: current limiter, active power control, fixed tap. -/
def badPhase (mode : Nat) (v : Dbl) (on : Bool) (reg : Option Ref) (sameNet : Bool) : Bool :=
  decide (3 ≤ mode) || (on && (mode == fixedTap || v.isNan || reg.isNone)) || (reg.isSome && !sameNet)

inductive PtcOp
  | setTapPosition (t : Long)
  | setLowTapPosition (t : Long)
  | setRegulating (b : Bool)
  | setRegulationTerminal (r : Option Ref) (sameNet : Bool)
  | setTargetDeadband (d : Dbl)
  | setRegulationMode (m : Nat)
  | setRegulationValue (d : Dbl)
  | setStep (position : Long) (f : Field) (d : Dbl)
  | setAlpha (position : Long) (d : Dbl)

/-- `PhaseTapChanger.cpp` l. 60-75, `TapChanger.hxx` l. 176-181: `setRegulating` is that of every tap changer, which checks the deadband only. -/
def PtcOp.set : PtcOp → Ptc → Out Ptc
  | .setTapPosition p, t => grd (badTap t.low p.1 t.steps.length) { t with tap := p.1 }
  | .setLowTapPosition l, t => (shift t.tap l.1 t.low).map fun p => { t with low := l.1, tap := p }
  | .setRegulating b, t => grd (badDeadband b t.deadband) { t with on := b }
  | .setRegulationTerminal r s, t => grd (badPhase t.mode t.value t.on r s) { t with reg := r }
  | .setTargetDeadband d, t => grd (badDeadband t.on d) { t with deadband := d }
  | .setRegulationMode m, t => grd (badPhase m t.value t.on t.reg true) { t with mode := m }
  | .setRegulationValue d, t => grd (badPhase t.mode d t.on t.reg true) { t with value := d }
  | .setStep p f d, t => grd (badTap t.low p.1 t.steps.length) { t with steps := t.steps.modify (stepAt t.low p.1) fun s => (putStep f d s.1, s.2) }
  | .setAlpha p d, t => grd (badTap t.low p.1 t.steps.length) { t with steps := t.steps.modify (stepAt t.low p.1) fun s => (s.1, d) }

/-- The values that `endStep` wants, `RatioTapChangerAdder.cpp` l. 27-35, `PhaseTapChangerAdder.cpp` l. 26-35. -/
def badStep (s : Step) : Bool := s.r.isNan || s.x.isNan || s.g.isNan || s.b.isNan || s.rho.isNan

/-- What is given to a `RatioTapChangerAdder`, then `add`, l. 66-79: a value without a position or with a step that is not complete throws. -/
def newRtc (low : Long) (t : Rtc) (sameNet : Bool) : Out Rtc :=
  grd (t.steps.any badStep || t.steps.isEmpty || badTap low.1 t.tap t.steps.length || badRatio t.on t.ltc t.targetV t.reg sameNet || badDeadband t.on t.deadband) { t with low := low.1 }

/-- `PhaseTapChangerAdder::add`, l. 71-84. -/
def newPtc (low : Long) (t : Ptc) (sameNet : Bool) : Out Ptc :=
  grd (t.steps.any (fun s => badStep s.1 || s.2.isNan) || t.steps.isEmpty || badTap low.1 t.tap t.steps.length || badPhase t.mode t.value t.on t.reg sameNet ||
    badDeadband t.on t.deadband) { t with low := low.1 }

/-! ### Transformers -/

/-- The calls about the tap changers of one winding. -/
inductive TapsOp
  | rtc (o : RtcOp)
  | ptc (o : PtcOp)
  | newRtc (low : Long) (t : Rtc) (sameNet : Bool)
  | newPtc (low : Long) (t : Ptc) (sameNet : Bool)
  | removeRtc
  | removePtc

def onR (o : Option Rtc) : Nat := match o with
  | some t => t.on.toNat
  | none => 0

def onP (o : Option Ptc) : Nat := match o with
  | some t => t.on.toNat
  | none => 0

/-- `others` is the number of regulating tap changers of the other windings.  `getRatioTapChanger` and `getPhaseTapChanger` throw when there is none; the adders count the
regulating tap changers other than the one that is replaced (`RatioTapChangerAdder.cpp` l. 81-89, `PhaseTapChangerAdder.cpp` l. 86-94). -/
def TapsOp.set (others : Nat) : TapsOp → Option Rtc × Option Ptc → Out (Option Rtc × Option Ptc)
  | .rtc o, s => match s.1 with
    | none => .thrown
    | some t => (o.set t).map fun t => (some t, s.2)
  | .ptc o, s => match s.2 with
    | none => .thrown
    | some t => (o.set t).map fun t => (s.1, some t)
  | .newRtc l t n, s => (Setters.newRtc l t n).bind fun u => grd (u.on && decide (0 < others + onP s.2)) (some u, s.2)
  | .newPtc l t n, s => (Setters.newPtc l t n).bind fun u => grd (u.on && decide (0 < others + onR s.1)) (s.1, some u)
  | .removeRtc, s => .ok (none, s.2)
  | .removePtc, s => .ok (s.1, none)

inductive Tw2Op
  | ident (o : IdentOp)
  | term (b : BSide) (o : TermOp)
  | lims (b : BSide) (o : LimsOp)
  | taps (o : TapsOp)
  | setR (d : Dbl)
  | setX (d : Dbl)
  | setG (d : Dbl)
  | setB (d : Dbl)
  | setRatedU1 (d : Dbl)
  | setRatedU2 (d : Dbl)
  | setRatedS (d : Dbl)

/-- `TwoWindingsTransformer.cpp` l. 171-220. -/
def Tw2Op.set : Tw2Op → Tw2 → Out Tw2
  | .ident o, x => (o.set x.ident).map fun i => { x with ident := i }
  | .term .one o, x => (sideSet o x.side1).map fun s => { x with side1 := s }
  | .term .two o, x => (sideSet o x.side2).map fun s => { x with side2 := s }
  | .lims b o, x => (branchLimsSet b o x.lims).map fun l => { x with lims := l }
  | .taps o, x => (o.set 0 (x.rtc, x.ptc)).map fun s => { x with rtc := s.1, ptc := s.2 }
  | .setR d, x => grd d.isNan { x with r := d }
  | .setX d, x => grd d.isNan { x with x := d }
  | .setG d, x => grd d.isNan { x with g := d }
  | .setB d, x => grd d.isNan { x with b := d }
  | .setRatedU1 d, x => grd d.isNan { x with ratedU1 := d }
  | .setRatedU2 d, x => grd d.isNan { x with ratedU2 := d }
  | .setRatedS d, x => grd (badRatedS d) { x with ratedS := d }

inductive LegOp
  | term (o : TermOp)
  | lims (o : LimsOp)
  | taps (o : TapsOp)
  | setR (d : Dbl)
  | setX (d : Dbl)
  | setG (d : Dbl)
  | setB (d : Dbl)
  | setRatedU (d : Dbl)
  | setRatedS (d : Dbl)

/-- `ThreeWindingsTransformerLeg.cpp` l. 142-186. -/
def LegOp.set (others : Nat) : LegOp → Leg → Out Leg
  | .term o, x => (sideSet o x.side).map fun s => { x with side := s }
  | .lims o, x => (o.set x.sub.lims).map fun l => { x with sub := { x.sub with lims := l } }
  | .taps o, x => (o.set others (x.sub.rtc, x.sub.ptc)).map fun s => { x with sub := { x.sub with rtc := s.1, ptc := s.2 } }
  | .setR d, x => grd d.isNan { x with z := { x.z with r := d } }
  | .setX d, x => grd d.isNan { x with z := { x.z with x := d } }
  | .setG d, x => grd d.isNan { x with z := { x.z with g := d } }
  | .setB d, x => grd d.isNan { x with z := { x.z with b := d } }
  | .setRatedU d, x => grd d.isNan { x with z := { x.z with ratedU := d } }
  | .setRatedS d, x => grd (badRatedS d) { x with z := { x.z with ratedS := d } }

/-- Regulating tap changers of a leg. -/
def legOn (x : Leg) : Nat := onR x.sub.rtc + onP x.sub.ptc

inductive Tw3Op
  | ident (o : IdentOp)
  | leg1 (o : LegOp)
  | leg2 (o : LegOp)
  | leg3 (o : LegOp)

/-- The count of the adders is that of the three legs, `ThreeWindingsTransformerLeg.cpp` l. 94-110. -/
def Tw3Op.set : Tw3Op → Tw3 → Out Tw3
  | .ident o, x => (o.set x.ident).map fun i => { x with ident := i }
  | .leg1 o, x => (o.set (legOn x.leg2 + legOn x.leg3) x.leg1).map fun l => { x with leg1 := l }
  | .leg2 o, x => (o.set (legOn x.leg1 + legOn x.leg3) x.leg2).map fun l => { x with leg2 := l }
  | .leg3 o, x => (o.set (legOn x.leg1 + legOn x.leg2) x.leg3).map fun l => { x with leg3 := l }

/-! ### Buses, switches, voltage levels, substations, the network -/

inductive BusOp
  | ident (o : IdentOp)
  | setV (d : Dbl)
  | setAngle (d : Dbl)

/-- `ConfiguredBus.cpp` l. 190-212, `checkVoltage`, `ValidationUtils.cpp` l. 400-405. -/
def BusOp.set : BusOp → Bus → Out Bus
  | .ident o, x => (o.set x.ident).map fun i => { x with ident := i }
  | .setV d, x => grd (!d.isNan && Dbl.lt d 0) { x with v := d }
  | .setAngle d, x => .ok { x with angle := d }

inductive SwOp
  | ident (o : IdentOp)
  | setOpen (b : Bool)
  | setRetained (b : Bool)

/-- `Switch.cpp` l. 82-113. -/
def SwOp.setN : SwOp → NSw → Out NSw
  | .ident o, x => (o.set x.ident).map fun i => { x with ident := i }
  | .setOpen b, x => .ok { x with opened := b }
  | .setRetained b, x => .ok { x with retained := b }

/-- The same in a bus/breaker voltage level, l. 102-104. -/
def SwOp.setB : SwOp → BSw → Out BSw
  | .ident o, x => (o.set x.ident).map fun i => { x with ident := i }
  | .setOpen b, x => .ok { x with opened := b }
  | .setRetained _, _ => .thrown

/-- The call on the object at a place of a list; there is none past the end. -/
def setAt {α : Type} (f : α → Out α) (i : Nat) (l : List α) : Out (List α) := match l[i]? with
  | none => .thrown
  | some x => (f x).map fun y => l.set i y

/-- A call on something of a voltage level.  The voltages of the calculated buses of a node/breaker voltage level are not represented: see C46. -/
inductive VLOp
  | ident (o : IdentOp)
  | setHighVoltageLimit (d : Dbl)
  | setLowVoltageLimit (d : Dbl)
  | setNominalV (d : Dbl)
  | bbs (i : Nat) (o : IdentOp)
  | bus (i : Nat) (o : BusOp)
  | sw (i : Nat) (o : SwOp)
  | gen (i : Nat) (o : GenOp)
  | bat (i : Nat) (o : BatOp)
  | load (i : Nat) (o : LoadOp)
  | sh (i : Nat) (o : ShOp)
  | dl (i : Nat) (o : DlOp)
  | svc (i : Nat) (o : SvcOp)
  | vsc (i : Nat) (o : VscOp)
  | lcc (i : Nat) (o : LccOp)

/-- Bad for `checkVoltageLimits`, `ValidationUtils.cpp` l. 427-437. -/
def badVoltages (low high : Dbl) : Bool := Dbl.lt low 0 || Dbl.lt high 0 || Dbl.lt high low

def topoBbs (i : Nat) (o : IdentOp) : Topo → Out Topo
  | .node bbs sws conns calcs => (setAt (bbsSet o) i bbs).map fun l => .node l sws conns calcs
  | .bus _ _ => .thrown

def topoBus (i : Nat) (o : BusOp) : Topo → Out Topo
  | .node _ _ _ _ => .thrown
  | .bus buses sws => (setAt o.set i buses).map fun l => .bus l sws

def topoSw (i : Nat) (o : SwOp) : Topo → Out Topo
  | .node bbs sws conns calcs => (setAt o.setN i sws).map fun l => .node bbs l conns calcs
  | .bus buses sws => (setAt o.setB i sws).map fun l => .bus buses l

/-- `VoltageLevel.cpp` l. 253-268. -/
def VLOp.set : VLOp → VL → Out VL
  | .ident o, x => (o.set x.ident).map fun i => { x with ident := i }
  | .setHighVoltageLimit d, x => grd (badVoltages x.low d) { x with high := d }
  | .setLowVoltageLimit d, x => grd (badVoltages d x.high) { x with low := d }
  | .setNominalV d, x => grd (d.isNan || Dbl.le d 0) { x with nominalV := d }
  | .bbs i o, x => (topoBbs i o x.topo).map fun t => { x with topo := t }
  | .bus i o, x => (topoBus i o x.topo).map fun t => { x with topo := t }
  | .sw i o, x => (topoSw i o x.topo).map fun t => { x with topo := t }
  | .gen i o, x => (setAt o.set i x.equip.gens).map fun l => { x with equip := { x.equip with gens := l } }
  | .bat i o, x => (setAt o.set i x.equip.bats).map fun l => { x with equip := { x.equip with bats := l } }
  | .load i o, x => (setAt o.set i x.equip.loads).map fun l => { x with equip := { x.equip with loads := l } }
  | .sh i o, x => (setAt o.set i x.equip.shs).map fun l => { x with equip := { x.equip with shs := l } }
  | .dl i o, x => (setAt o.set i x.equip.dls).map fun l => { x with equip := { x.equip with dls := l } }
  | .svc i o, x => (setAt o.set i x.equip.svcs).map fun l => { x with equip := { x.equip with svcs := l } }
  | .vsc i o, x => (setAt o.set i x.equip.vscs).map fun l => { x with equip := { x.equip with vscs := l } }
  | .lcc i o, x => (setAt o.set i x.equip.lccs).map fun l => { x with equip := { x.equip with lccs := l } }

inductive SubOp
  | ident (o : IdentOp)
  | addGeographicalTag (t : String)
  | setCountry (c : Option Nat)
  | setTso (t : String)
  | vl (i : Nat) (o : VLOp)
  | tw2 (i : Nat) (o : Tw2Op)
  | tw3 (i : Nat) (o : Tw3Op)

/-- `Substation.cpp` l. 35-38, 164-176. -/
def SubOp.set : SubOp → Substation → Out Substation
  | .ident o, x => (o.set x.ident).map fun i => { x with ident := i }
  | .addGeographicalTag t, x => .ok { x with tags := insertTag t x.tags }
  | .setCountry c, x => .ok { x with country := c }
  | .setTso t, x => .ok { x with tso := t }
  | .vl i o, x => (setAt o.set i x.vls).map fun l => { x with vls := l }
  | .tw2 i o, x => (setAt o.set i x.tw2s).map fun l => { x with tw2s := l }
  | .tw3 i o, x => (setAt o.set i x.tw3s).map fun l => { x with tw3s := l }

inductive AnyLineOp
  | line (o : LineOp)
  | tie (o : TieOp)

def AnyLineOp.set : AnyLineOp → AnyLine → Out AnyLine
  | .line o, .line x => (o.set x).map .line
  | .tie o, .tie x => (o.set x).map .tie
  | _, _ => .thrown

inductive NetOp (T : Type)
  | ident (o : IdentOp)
  | setCaseDate (d : T)
  | setForecastDistance (i : Int)
  | sub (i : Nat) (o : SubOp)
  | line (i : Nat) (o : AnyLineOp)
  | hvdc (i : Nat) (o : HvdcOp)

/-- `Network.cpp` l. 672-680, `checkForecastDistance`, `ValidationUtils.cpp` l. 100-105. -/
def NetOp.set {T : Type} : NetOp T → Net T → Out (Net T)
  | .ident o, x => (o.set x.ident).map fun i => { x with ident := i }
  | .setCaseDate d, x => .ok { x with date := d }
  | .setForecastDistance i, x => grd (decide (i < 0)) { x with forecast := i }
  | .sub i o, x => (setAt o.set i x.subs).map fun l => { x with subs := l }
  | .line i o, x => (setAt o.set i x.lines).map fun l => { x with lines := l }
  | .hvdc i o, x => (setAt o.set i x.hvdcs).map fun l => { x with hvdcs := l }

/-- The network after calls: one that throws changes nothing. -/
def run {T : Type} (x : Net T) : List (NetOp T) → Out (Net T)
  | [] => .ok x
  | o :: os => match o.set x with
    | .ok y => run y os
    | .thrown => run x os
    | .ub => .ub

end Verif.Setters
