import Verif.XmlNet.Base

/-!
Writers and readers of the equipment with one terminal, in version 1.5 and at the full level of topology: what is written of each one, and the
equipment that reading it makes, with the checks of its adder.

Modelled code (`src/iidm/converter/xml` and `src/iidm`):
* `LoadXml.cpp` l. 38-64, `LoadAdder.cpp` l. 24-36
* `GeneratorXml.cpp` l. 37-96, `GeneratorAdder.cpp` l. 24-46
* `BatteryXml.cpp` l. 33-70, `BatteryAdder.cpp` l. 25-39
* `BusbarSectionXml.cpp` l. 35-64, `BusbarSectionAdder.cpp` l. 25-35
* `LccConverterStationXml.cpp` l. 31-54, `LccConverterStationAdder.cpp` l. 23-33, 46-49
* `VscConverterStationXml.cpp` l. 33-71, `VscConverterStationAdder.cpp` l. 23-33, 56-60
* `StaticVarCompensatorXml.cpp` l. 37-88, `StaticVarCompensatorAdder.cpp` l. 24-40
* `ShuntCompensatorXml.cpp` l. 38-182, `ShuntCompensatorAdder.cpp`
* `DanglingLineXml.cpp` l. 37-154, `DanglingLineAdder.cpp` l. 25-43, `DanglingLineGenerationAdder.cpp` l. 24-34, `DanglingLineGeneration.cpp` l. 24-33
* `ValidationUtils.cpp`, the checks that the adders make

A regulating terminal is `none` when it is the terminal of the equipment itself: it is then not written.
-/

namespace Verif.XmlNet

open Verif Verif.Xml

/-- The default reactive limits of a `ReactiveLimitsHolder` (`DanglingLineGeneration.cpp` l. 25, and the constructors of generators, batteries and
VSC stations). -/
def defaultReactive : Reactive := .minMax (.fin (-Dbl.maxRat)) dblMax

/-- `readTerminalRef` of a sub element, kept until the end. -/
def refCb {σ : Type} (A : Anon) (required : Bool) (set : σ → Ref → σ) : Callback σ := fun s toks => do
  let r ← readRef A required toks
  .ok (set s r.1, r.2)

/-- Reactive limits of the holder. -/
def reactiveCb {σ : Type} (K : XCodec) (set : σ → Reactive → σ) : Callback σ := fun s toks => do
  let r ← readReactive K.toCodec toks
  .ok (set s r.1, r.2)

/-- Loading limits of one kind and side. -/
def limitsSub {σ : Type} (K : XCodec) (el : String) (set : σ → Limits.LL → σ) : Callback σ := fun s toks => do
  let r ← readLimits K.toCodec el toks
  .ok (set s r.1, r.2)

/-- Optional loading limits: `writeLoadingLimits` when they exist. -/
def limitsElems (K : XCodec) (el : String) : Option Limits.LL → List Cmd
  | none => []
  | some l => writeLimits K.toCodec el l

/-- `checkVoltageControl`, `ValidationUtils.cpp` l. 417-425. -/
def checkControl (on : Bool) (v q : Dbl) : Out Unit := check (if on then v.isNan || Dbl.le v 0 else q.isNan)

/-- `checkRatedS`, l. 300-305. -/
def checkRatedS (s : Dbl) : Out Unit := check (!s.isNan && Dbl.le s 0)

/-! ### Loads -/

structure Load where
  ident : Ident
  kind : Nat
  p0 : Dbl
  q0 : Dbl
  term : Term
  deriving DecidableEq, Repr

/-- `writeRootElementAttributes`, `LoadXml.cpp` l. 58-64. -/
def loadAttrs (K : XCodec) (A : Anon) (kind : String) (x : Load) : List (String × String) :=
  ("loadType", kind) :: (attrD K.toCodec "p0" x.p0 ++ (attrD K.toCodec "q0" x.q0 ++ (placeAttrs K A "" x.term.place ++ pqAttrs K "" x.term)))

def writeLoad (K : XCodec) (A : Anon) (x : Load) : Out (List Cmd) := do
  let k ← Enums.toString Enums.loadType.names x.kind
  .ok (writeElem A "load" x.ident (loadAttrs K A k x) [])

/-- `readRootElementAttributes`, `LoadXml.cpp` l. 38-50, with the checks of `LoadAdder.cpp` l. 24-27. -/
def readLoadRoot (K : XCodec) (A : Anon) (toks : List Tok) : Out (Nat × Dbl × Dbl × Term) := do
  let name ← optSOr "loadType" "" toks
  let kind ← if name = "" then .ok 0 else Enums.fromString Enums.loadType.names name
  let p0 ← getD K.toCodec "p0" toks
  let q0 ← getD K.toCodec "q0" toks
  let place ← readPlace K A toks
  check p0.isNan
  check q0.isNan
  let term ← readTerm K "" toks place
  .ok (kind, p0, q0, term)

def readLoad (K : XCodec) (A : Anon) : List Tok → Out (Load × List Tok) :=
  readElem A "load" (readLoadRoot K A) noSub () fun x a _ => .ok ⟨x, a.1, a.2.1, a.2.2.1, a.2.2.2⟩

/-! ### Generators -/

structure Gen where
  ident : Ident
  source : Nat
  minP : Dbl
  maxP : Dbl
  ratedS : Dbl
  on : Bool
  targetP : Dbl
  targetV : Dbl
  targetQ : Dbl
  term : Term
  reg : Option Ref
  limits : Reactive
  deriving DecidableEq, Repr

/-- `writeRootElementAttributes`, `GeneratorXml.cpp` l. 78-89. -/
def genAttrs (K : XCodec) (A : Anon) (source : String) (x : Gen) : List (String × String) :=
  ("energySource", source) :: (attrD K.toCodec "minP" x.minP ++ (attrD K.toCodec "maxP" x.maxP ++ (attrD K.toCodec "ratedS" x.ratedS ++
    (attrB "voltageRegulatorOn" x.on ++ (attrD K.toCodec "targetP" x.targetP ++ (attrD K.toCodec "targetV" x.targetV ++ (attrD K.toCodec "targetQ" x.targetQ ++
    (placeAttrs K A "" x.term.place ++ pqAttrs K "" x.term))))))))

/-- With `writeSubElements`, l. 91-96. -/
def writeGen (K : XCodec) (A : Anon) (x : Gen) : Out (List Cmd) := do
  let s ← Enums.toString Enums.energySource.names x.source
  .ok (writeElem A "generator" x.ident (genAttrs K A s x) (refElems A "regulatingTerminal" x.reg ++ writeReactive K.toCodec x.limits))

structure GenRoot where
  source : Nat
  minP : Dbl
  maxP : Dbl
  ratedS : Dbl
  on : Bool
  targetP : Dbl
  targetV : Dbl
  targetQ : Dbl
  term : Term

/-- `readRootElementAttributes`, `GeneratorXml.cpp` l. 37-59, with the checks of `GeneratorAdder.cpp` l. 25-33. -/
def readGenRoot (K : XCodec) (A : Anon) (toks : List Tok) : Out GenRoot := do
  let name ← getS "energySource" toks
  let source ← Enums.fromString Enums.energySource.names name
  let minP ← getD K.toCodec "minP" toks
  let maxP ← getD K.toCodec "maxP" toks
  let ratedS ← optDOr K.toCodec "ratedS" .nan toks
  let on ← getB "voltageRegulatorOn" toks
  let targetP ← getD K.toCodec "targetP" toks
  let targetV ← optDOr K.toCodec "targetV" .nan toks
  let targetQ ← optDOr K.toCodec "targetQ" .nan toks
  let place ← readPlace K A toks
  check minP.isNan
  check maxP.isNan
  check targetP.isNan
  checkControl on targetV targetQ
  check (Dbl.lt maxP minP)
  checkRatedS ratedS
  let term ← readTerm K "" toks place
  .ok ⟨source, minP, maxP, ratedS, on, targetP, targetV, targetQ, term⟩

/-- `readSubElements`, `GeneratorXml.cpp` l. 61-76. -/
def genSub (K : XCodec) (A : Anon) : Handler (Option Ref × Reactive) := fun n =>
  if n = "regulatingTerminal" then some (refCb A false fun s r => (some r, s.2))
  else if n = "reactiveCapabilityCurve" ∨ n = "minMaxReactiveLimits" then some (reactiveCb K fun s r => (s.1, r))
  else none

def readGen (K : XCodec) (A : Anon) : List Tok → Out (Gen × List Tok) :=
  readElem A "generator" (readGenRoot K A) (genSub K A) (none, defaultReactive) fun x a s =>
    .ok ⟨x, a.source, a.minP, a.maxP, a.ratedS, a.on, a.targetP, a.targetV, a.targetQ, a.term, s.1, s.2⟩

/-! ### Batteries -/

structure Bat where
  ident : Ident
  p0 : Dbl
  q0 : Dbl
  minP : Dbl
  maxP : Dbl
  term : Term
  limits : Reactive
  deriving DecidableEq, Repr

/-- `writeRootElementAttributes`, `BatteryXml.cpp` l. 59-66. -/
def batAttrs (K : XCodec) (A : Anon) (x : Bat) : List (String × String) :=
  attrD K.toCodec "p0" x.p0 ++ (attrD K.toCodec "q0" x.q0 ++ (attrD K.toCodec "minP" x.minP ++ (attrD K.toCodec "maxP" x.maxP ++
    (placeAttrs K A "" x.term.place ++ pqAttrs K "" x.term))))

/-- With `writeSubElements`, l. 68-70. -/
def writeBat (K : XCodec) (A : Anon) (x : Bat) : Out (List Cmd) := .ok (writeElem A "battery" x.ident (batAttrs K A x) (writeReactive K.toCodec x.limits))

/-- `readRootElementAttributes`, `BatteryXml.cpp` l. 33-46, with the checks of `BatteryAdder.cpp` l. 26-30. -/
def readBatRoot (K : XCodec) (A : Anon) (toks : List Tok) : Out (Dbl × Dbl × Dbl × Dbl × Term) := do
  let p0 ← getD K.toCodec "p0" toks
  let q0 ← getD K.toCodec "q0" toks
  let minP ← getD K.toCodec "minP" toks
  let maxP ← getD K.toCodec "maxP" toks
  let place ← readPlace K A toks
  check p0.isNan
  check q0.isNan
  check minP.isNan
  check maxP.isNan
  check (Dbl.lt maxP minP)
  let term ← readTerm K "" toks place
  .ok (p0, q0, minP, maxP, term)

/-- `readSubElements` of batteries, `BatteryXml.cpp` l. 48-57, and of VSC stations, `VscConverterStationXml.cpp` l. 49-58. -/
def holderSub (K : XCodec) : Handler Reactive := fun n =>
  if n = "reactiveCapabilityCurve" ∨ n = "minMaxReactiveLimits" then some (reactiveCb K fun _ r => r) else none

def readBat (K : XCodec) (A : Anon) : List Tok → Out (Bat × List Tok) :=
  readElem A "battery" (readBatRoot K A) (holderSub K) defaultReactive fun x a s => .ok ⟨x, a.1, a.2.1, a.2.2.1, a.2.2.2.1, a.2.2.2.2, s⟩

/-! ### Busbar sections -/

/-- The flows of the terminal of a busbar section cannot be set (Terminal.cpp). -/
structure Bbs where
  ident : Ident
  node : Nat
  deriving DecidableEq, Repr

/-- `writeRootElementAttributes`, `BusbarSectionXml.cpp` l. 52-58. -/
def writeBbs (K : XCodec) (A : Anon) (x : Bbs) : Out (List Cmd) := .ok (writeElem A "busbarSection" x.ident (attrN K.toCodec "node" x.node) [])

/-- `readRootElementAttributes`, l. 35-50, `readSubElements`, l. 60-64. -/
def readBbs (K : XCodec) (A : Anon) : List Tok → Out (Bbs × List Tok) :=
  readElem A "busbarSection" (getN K.toCodec "node") noSub () fun x n _ => .ok ⟨x, n⟩

/-! ### Converter stations -/

structure Lcc where
  ident : Ident
  lossFactor : Dbl
  powerFactor : Dbl
  term : Term
  deriving DecidableEq, Repr

/-- `checkLossFactor`, `ValidationUtils.cpp` l. 174-182. -/
def checkLoss (f : Dbl) : Out Unit := check (f.isNan || Dbl.lt f 0 || Dbl.lt 100 f)

/-- `checkPowerFactor`, l. 276-284. -/
def checkPowerFactor (f : Dbl) : Out Unit := check (f.isNan || Dbl.lt 1 f || Dbl.lt f (.fin (-1)))

/-- `writeRootElementAttributes`, `LccConverterStationXml.cpp` l. 49-54. -/
def lccAttrs (K : XCodec) (A : Anon) (x : Lcc) : List (String × String) :=
  attrD K.toCodec "lossFactor" x.lossFactor ++ (attrD K.toCodec "powerFactor" x.powerFactor ++ (placeAttrs K A "" x.term.place ++ pqAttrs K "" x.term))

def writeLcc (K : XCodec) (A : Anon) (x : Lcc) : Out (List Cmd) := .ok (writeElem A "lccConverterStation" x.ident (lccAttrs K A x) [])

/-- `readRootElementAttributes`, `LccConverterStationXml.cpp` l. 31-41, with the checks of `LccConverterStationAdder.cpp` l. 46-49. -/
def readLccRoot (K : XCodec) (A : Anon) (toks : List Tok) : Out (Dbl × Dbl × Term) := do
  let loss ← getD K.toCodec "lossFactor" toks
  let power ← optDOr K.toCodec "powerFactor" .nan toks
  let place ← readPlace K A toks
  checkLoss loss
  checkPowerFactor power
  let term ← readTerm K "" toks place
  .ok (loss, power, term)

def readLcc (K : XCodec) (A : Anon) : List Tok → Out (Lcc × List Tok) :=
  readElem A "lccConverterStation" (readLccRoot K A) noSub () fun x a _ => .ok ⟨x, a.1, a.2.1, a.2.2⟩

structure Vsc where
  ident : Ident
  on : Bool
  lossFactor : Dbl
  voltage : Dbl
  reactive : Dbl
  term : Term
  limits : Reactive
  deriving DecidableEq, Repr

/-- `writeRootElementAttributes`, `VscConverterStationXml.cpp` l. 60-67. -/
def vscAttrs (K : XCodec) (A : Anon) (x : Vsc) : List (String × String) :=
  attrB "voltageRegulatorOn" x.on ++ (attrD K.toCodec "lossFactor" x.lossFactor ++ (attrD K.toCodec "voltageSetpoint" x.voltage ++
    (attrD K.toCodec "reactivePowerSetpoint" x.reactive ++ (placeAttrs K A "" x.term.place ++ pqAttrs K "" x.term))))

/-- With `writeSubElements`, l. 69-71. -/
def writeVsc (K : XCodec) (A : Anon) (x : Vsc) : Out (List Cmd) :=
  .ok (writeElem A "vscConverterStation" x.ident (vscAttrs K A x) (writeReactive K.toCodec x.limits))

/-- `readRootElementAttributes`, `VscConverterStationXml.cpp` l. 33-47, with the checks of `VscConverterStationAdder.cpp` l. 56-60. -/
def readVscRoot (K : XCodec) (A : Anon) (toks : List Tok) : Out (Bool × Dbl × Dbl × Dbl × Term) := do
  let on ← getB "voltageRegulatorOn" toks
  let loss ← getD K.toCodec "lossFactor" toks
  let v ← optDOr K.toCodec "voltageSetpoint" .nan toks
  let q ← optDOr K.toCodec "reactivePowerSetpoint" .nan toks
  let place ← readPlace K A toks
  checkLoss loss
  checkControl on v q
  let term ← readTerm K "" toks place
  .ok (on, loss, v, q, term)

def readVsc (K : XCodec) (A : Anon) : List Tok → Out (Vsc × List Tok) :=
  readElem A "vscConverterStation" (readVscRoot K A) (holderSub K) defaultReactive fun x a s => .ok ⟨x, a.1, a.2.1, a.2.2.1, a.2.2.2.1, a.2.2.2.2, s⟩

/-! ### Static VAR compensators -/

structure Svc where
  ident : Ident
  bMin : Dbl
  bMax : Dbl
  voltage : Dbl
  reactive : Dbl
  mode : Nat
  term : Term
  reg : Option Ref
  deriving DecidableEq, Repr

/-- `checkSvcRegulator`, `ValidationUtils.cpp` l. 358-381: modes `VOLTAGE`, `REACTIVE_POWER`, `OFF`. -/
def checkSvc (mode : Nat) (v q : Dbl) : Out Unit := check (if mode = 0 then v.isNan else if mode = 1 then q.isNan else false)

/-- `writeRootElementAttributes`, `StaticVarCompensatorXml.cpp` l. 71-81. -/
def svcAttrs (K : XCodec) (A : Anon) (mode : String) (x : Svc) : List (String × String) :=
  attrD K.toCodec "bMin" x.bMin ++ (attrD K.toCodec "bMax" x.bMax ++ (attrD K.toCodec "voltageSetpoint" x.voltage ++ (attrD K.toCodec "reactivePowerSetpoint" x.reactive ++
    (("regulationMode", mode) :: (placeAttrs K A "" x.term.place ++ pqAttrs K "" x.term)))))

/-- With `writeSubElements`, l. 83-88. -/
def writeSvc (K : XCodec) (A : Anon) (x : Svc) : Out (List Cmd) := do
  let m ← Enums.toString Enums.staticVarCompensatorRegulationMode.names x.mode
  .ok (writeElem A "staticVarCompensator" x.ident (svcAttrs K A m x) (refElems A "regulatingTerminal" x.reg))

/-- `readRootElementAttributes`, `StaticVarCompensatorXml.cpp` l. 37-54, with the checks of `StaticVarCompensatorAdder.cpp` l. 25-28. -/
def readSvcRoot (K : XCodec) (A : Anon) (toks : List Tok) : Out (Dbl × Dbl × Dbl × Dbl × Nat × Term) := do
  let bMin ← getD K.toCodec "bMin" toks
  let bMax ← getD K.toCodec "bMax" toks
  let v ← optDOr K.toCodec "voltageSetpoint" .nan toks
  let q ← optDOr K.toCodec "reactivePowerSetpoint" .nan toks
  let name ← getS "regulationMode" toks
  let mode ← Enums.fromString Enums.staticVarCompensatorRegulationMode.names name
  let place ← readPlace K A toks
  check bMin.isNan
  check bMax.isNan
  checkSvc mode v q
  let term ← readTerm K "" toks place
  .ok (bMin, bMax, v, q, mode, term)

/-- `readSubElements`, l. 56-69. -/
def svcSub (A : Anon) : Handler (Option Ref) := fun n => if n = "regulatingTerminal" then some (refCb A true fun _ r => some r) else none

def readSvc (K : XCodec) (A : Anon) : List Tok → Out (Svc × List Tok) :=
  readElem A "staticVarCompensator" (readSvcRoot K A) (svcSub A) none fun x a s => .ok ⟨x, a.1, a.2.1, a.2.2.1, a.2.2.2.1, a.2.2.2.2.1, a.2.2.2.2.2, s⟩

/-! ### Shunt compensators -/

structure Sh where
  ident : Ident
  model : Shunt.Model
  per : Shunt.Per
  term : Term
  reg : Option Ref
  deriving DecidableEq, Repr

/-- `writeRootElementAttributes`, `ShuntCompensatorXml.cpp` l. 155-174. -/
def shAttrs (K : XCodec) (A : Anon) (x : Sh) : List (String × String) :=
  attrN K.toCodec "sectionCount" x.per.count ++ (attrB "voltageRegulatorOn" x.per.on ++ (attrD K.toCodec "targetV" x.per.targetV ++ (attrD K.toCodec "targetDeadband" x.per.deadband ++
    (placeAttrs K A "" x.term.place ++ pqAttrs K "" x.term))))

/-- With `writeSubElements`, l. 176-182. -/
def writeSh (K : XCodec) (A : Anon) (x : Sh) : Out (List Cmd) :=
  .ok (writeElem A "shunt" x.ident (shAttrs K A x) (modelCmds K.toCodec x.model ++ refElems A "regulatingTerminal" x.reg))

/-- `readElement`, l. 39-63: the attributes. -/
def readShRoot (K : XCodec) (A : Anon) (toks : List Tok) : Out (Shunt.Per × Term) := do
  let on ← optBOr "voltageRegulatorOn" false toks
  let v ← optDOr K.toCodec "targetV" .nan toks
  let d ← optDOr K.toCodec "targetDeadband" .nan toks
  let n ← getN K.toCodec "sectionCount" toks
  let place ← readPlace K A toks
  let term ← readTerm K "" toks place
  .ok (⟨n, on, v, d⟩, term)

/-- Sub elements of `readElement`, l. 68-110.  Aliases and properties are gathered, then given to the equipment once it is made (l. 119-124): as if
they were given at once, except that an alias repeated with another type would keep the last type. -/
def shSub (K : XCodec) (A : Anon) : Handler (Option Shunt.Model × Option Ref) := fun n =>
  if n = "regulatingTerminal" then some (refCb A true fun s r => (s.1, some r))
  else if n = "shuntLinearModel" ∨ n = "shuntNonLinearModel" then some fun s toks => do
    let r ← shuntCb K.toCodec .v15 s.1 toks
    .ok ((r.1, s.2), r.2)
  else none

/-- l. 112-117: the adder builds the shunt compensator; a reference with an empty identifier is ignored. -/
def buildSh (x : Ident) (a : Shunt.Per × Term) (s : Option Shunt.Model × Option Ref) : Out Sh := do
  let b ← Shunt.build s.1 (some a.1.count) a.1.on a.1.targetV a.1.deadband
  .ok ⟨x, b.1, b.2, a.2, s.2.filter fun r => decide (r.id ≠ "")⟩

def readSh (K : XCodec) (A : Anon) : List Tok → Out (Sh × List Tok) := readElem A "shunt" (readShRoot K A) (shSub K A) (none, none) buildSh

/-! ### Dangling lines -/

/-- `dangling_line::Generation`. -/
structure DlGen where
  minP : Dbl
  maxP : Dbl
  on : Bool
  targetP : Dbl
  targetV : Dbl
  targetQ : Dbl
  limits : Reactive
  deriving DecidableEq, Repr

structure Dl where
  ident : Ident
  p0 : Dbl
  q0 : Dbl
  r : Dbl
  x : Dbl
  g : Dbl
  b : Dbl
  gen : Option DlGen
  ucte : String
  term : Term
  active : Option Limits.LL
  apparent : Option Limits.LL
  current : Option Limits.LL
  deriving DecidableEq, Repr

/-- Attributes of the generation, `DanglingLineXml.cpp` l. 122-131. -/
def dlGenAttrs (K : XCodec) : Option DlGen → List (String × String)
  | none => []
  | some y => attrD K.toCodec "generationMinP" y.minP ++ (attrD K.toCodec "generationMaxP" y.maxP ++ (attrB "generationVoltageRegulationOn" y.on ++
      (attrD K.toCodec "generationTargetP" y.targetP ++ (attrD K.toCodec "generationTargetV" y.targetV ++ attrD K.toCodec "generationTargetQ" y.targetQ))))

/-- `writeRootElementAttributes`, `DanglingLineXml.cpp` l. 101-137. -/
def dlAttrs (K : XCodec) (A : Anon) (x : Dl) : List (String × String) :=
  attrD K.toCodec "p0" x.p0 ++ (attrD K.toCodec "q0" x.q0 ++ (attrD K.toCodec "r" x.r ++ (attrD K.toCodec "x" x.x ++ (attrD K.toCodec "g" x.g ++ (attrD K.toCodec "b" x.b ++
    (dlGenAttrs K x.gen ++ ((if x.ucte ≠ "" then [("ucteXnodeCode", x.ucte)] else []) ++ (placeAttrs K A "" x.term.place ++ pqAttrs K "" x.term))))))))

/-- Reactive limits of the generation, l. 140-142. -/
def dlGenElems (K : XCodec) : Option DlGen → List Cmd
  | none => []
  | some y => writeReactive K.toCodec y.limits

/-- With `writeSubElements`, l. 139-154. -/
def writeDl (K : XCodec) (A : Anon) (x : Dl) : Out (List Cmd) :=
  .ok (writeElem A "danglingLine" x.ident (dlAttrs K A x)
    (dlGenElems K x.gen ++ (limitsElems K "activePowerLimits" x.active ++ (limitsElems K "apparentPowerLimits" x.apparent ++ limitsElems K "currentLimits" x.current))))

/-- Generation of `readRootElementAttributes`, l. 44-62, with the checks and the default values of the adder. -/
def readDlGen (K : XCodec) (toks : List Tok) : Out (Option DlGen) := do
  let o ← rawAttr "generationVoltageRegulationOn" toks
  match o with
  | none => .ok none
  | some s => do
    let minP ← optDOr K.toCodec "generationMinP" .nan toks
    let maxP ← optDOr K.toCodec "generationMaxP" .nan toks
    let p ← optDOr K.toCodec "generationTargetP" .nan toks
    let v ← optDOr K.toCodec "generationTargetV" .nan toks
    let q ← optDOr K.toCodec "generationTargetQ" .nan toks
    check (Dbl.lt maxP minP)
    check p.isNan
    checkControl (isTrue s) v q
    .ok (some ⟨if minP.isNan then .fin (-Dbl.maxRat) else minP, if maxP.isNan then dblMax else maxP, isTrue s, p, v, q, defaultReactive⟩)

structure DlRoot where
  p0 : Dbl
  q0 : Dbl
  r : Dbl
  x : Dbl
  g : Dbl
  b : Dbl
  gen : Option DlGen
  ucte : String
  term : Term

/-- `readRootElementAttributes`, l. 37-75, with the checks of `DanglingLineAdder.cpp` l. 26-31. -/
def readDlRoot (K : XCodec) (A : Anon) (toks : List Tok) : Out DlRoot := do
  let p0 ← getD K.toCodec "p0" toks
  let q0 ← getD K.toCodec "q0" toks
  let r ← getD K.toCodec "r" toks
  let x ← getD K.toCodec "x" toks
  let g ← getD K.toCodec "g" toks
  let b ← getD K.toCodec "b" toks
  let gen ← readDlGen K toks
  let ucte ← optSOr "ucteXnodeCode" "" toks
  let place ← readPlace K A toks
  check p0.isNan
  check q0.isNan
  check r.isNan
  check x.isNan
  check g.isNan
  check b.isNan
  let term ← readTerm K "" toks place
  .ok ⟨p0, q0, r, x, g, b, gen, ucte, term⟩

/-- What the sub elements of a dangling line give. -/
structure DlSub where
  limits : Option Reactive
  active : Option Limits.LL
  apparent : Option Limits.LL
  current : Option Limits.LL

/-- `readSubElements`, l. 77-99. -/
def dlSub (K : XCodec) : Handler DlSub := fun n =>
  if n = "activePowerLimits" then some (limitsSub K "activePowerLimits" fun s l => { s with active := some l })
  else if n = "apparentPowerLimits" then some (limitsSub K "apparentPowerLimits" fun s l => { s with apparent := some l })
  else if n = "currentLimits" then some (limitsSub K "currentLimits" fun s l => { s with current := some l })
  else if n = "reactiveCapabilityCurve" ∨ n = "minMaxReactiveLimits" then some (reactiveCb K fun s r => { s with limits := some r })
  else none

/-- Reactive limits go to the generation: `getGeneration` converted to a reference throws when there is none (l. 94, reference.hpp l. 69-78). -/
def dlGenLimits : Option DlGen → Option Reactive → Out (Option DlGen)
  | g, none => .ok g
  | none, some _ => .thrown
  | some y, some l => .ok (some { y with limits := l })

def buildDl (i : Ident) (a : DlRoot) (s : DlSub) : Out Dl := do
  let gen ← dlGenLimits a.gen s.limits
  .ok ⟨i, a.p0, a.q0, a.r, a.x, a.g, a.b, gen, a.ucte, a.term, s.active, s.apparent, s.current⟩

def readDl (K : XCodec) (A : Anon) : List Tok → Out (Dl × List Tok) := readElem A "danglingLine" (readDlRoot K A) (dlSub K) ⟨none, none, none, none⟩ buildDl

end Verif.XmlNet
