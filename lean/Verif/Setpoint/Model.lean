import Verif.Common.Dbl
import Verif.Common.Multi

/-!
Model of the validated set-points and ranges: generators, generation of dangling lines, batteries, VSC converter stations, static VAR
compensators, voltage limits of voltage levels.

Not modelled: regulating terminals, rated apparent power, energy sources, loss factors, susceptance bounds of compensators, reactive
limits.
-/

namespace Verif.Setpoint

open Verif

/-- `checkVoltageControl` with four arguments (ValidationUtils.cpp l.417-425). -/
def checkVoltageControl (on : Bool) (v q : Dbl) : Out Unit :=
  if on then
    if v.isNan || Dbl.le v 0 then .thrown else .ok ()
  else if q.isNan then .thrown else .ok ()

/-- `checkMinP`, `checkMaxP`, `checkP0`, `checkQ0`, `checkActivePowerSetpoint` (ValidationUtils.cpp l.42-47, l.184-196, l.235-247). -/
def checkSet (x : Dbl) : Out Unit := if x.isNan then .thrown else .ok ()

/-- `checkActivePowerLimits` (ValidationUtils.cpp l.36-40). -/
def checkActivePowerLimits (minP maxP : Dbl) : Out Unit := if Dbl.lt maxP minP then .thrown else .ok ()

/-- Active power range (`m_minP`, `m_maxP` of `Generator`, `Battery`, `dangling_line::Generation`), the same in every variant. -/
structure PRange where
  minP : Dbl
  maxP : Dbl
  deriving DecidableEq, Repr

/-- Voltage or reactive control (`m_voltageRegulatorOn`, `m_voltageSetpoint`, `m_reactivePowerSetpoint`), per variant. -/
structure Ctl where
  on : Bool
  v : Dbl
  q : Dbl
  p : Dbl
  deriving DecidableEq, Repr

/-- Calls of `Generator` and of `dangling_line::Generation`. -/
inductive GenOp where
  | setMinP (x : Dbl)
  | setMaxP (x : Dbl)
  | setOn (b : Bool)
  | setV (x : Dbl)
  | setQ (x : Dbl)
  | setP (x : Dbl)
  deriving DecidableEq, Repr

/-- `setMinP` (Generator.cpp l.139-144, Battery.cpp l.79-85, DanglingLineGeneration.cpp l.101-106). -/
def setMinP (x : Dbl) (s : PRange) : Out Unit × PRange :=
  match (checkSet x).bind fun _ => checkActivePowerLimits x s.maxP with
  | .ok _ => (.ok (), { s with minP := x })
  | o => (o, s)

/-- `setMaxP` (Generator.cpp l.132-137, Battery.cpp l.71-77, DanglingLineGeneration.cpp l.94-99). -/
def setMaxP (x : Dbl) (s : PRange) : Out Unit × PRange :=
  match (checkSet x).bind fun _ => checkActivePowerLimits s.minP x with
  | .ok _ => (.ok (), { s with maxP := x })
  | o => (o, s)

/-- `setVoltageRegulatorOn` (Generator.cpp l.179-183, VscConverterStation.cpp l.84-88, DanglingLineGeneration.cpp l.129-134). -/
def setOn (b : Bool) (c : Ctl) : Out Unit × Ctl :=
  match checkVoltageControl b c.v c.q with
  | .ok _ => (.ok (), { c with on := b })
  | o => (o, c)

/-- `setVoltageSetpoint` (Generator.cpp l.185-189, VscConverterStation.cpp l.90-94, DanglingLineGeneration.cpp l.122-127). -/
def setV (x : Dbl) (c : Ctl) : Out Unit × Ctl :=
  match checkVoltageControl c.on x c.q with
  | .ok _ => (.ok (), { c with v := x })
  | o => (o, c)

/-- `setReactivePowerSetpoint` (Generator.cpp l.151-155, VscConverterStation.cpp l.78-82, DanglingLineGeneration.cpp l.115-120). -/
def setQ (x : Dbl) (c : Ctl) : Out Unit × Ctl :=
  match checkVoltageControl c.on c.v x with
  | .ok _ => (.ok (), { c with q := x })
  | o => (o, c)

/-- `setActivePowerSetpoint` (Generator.cpp l.122-125, DanglingLineGeneration.cpp l.108-113). -/
def setP (x : Dbl) (c : Ctl) : Out Unit × Ctl :=
  match checkSet x with
  | .ok _ => (.ok (), { c with p := x })
  | o => (o, c)

/-- A call that changes only the shared attributes, without looking at the variant. -/
def onShared (f : σ → Out Unit × σ) : Act σ ρ := fun s p => let x := f s; (x.1, x.2, p)

/-- A call that changes only the attributes of the working variant. -/
def onVariant (f : ρ → Out Unit × ρ) : Act σ ρ := needVariant fun s p => let x := f p; (x.1, s, x.2)

/-- The calls of `Generator` and of `dangling_line::Generation`. -/
def genAct : GenOp → Act PRange Ctl
  | .setMinP x => onShared (setMinP x)
  | .setMaxP x => onShared (setMaxP x)
  | .setOn b => onVariant (setOn b)
  | .setV x => onVariant (setV x)
  | .setQ x => onVariant (setQ x)
  | .setP x => onVariant (setP x)

/-- Values given to a `GeneratorAdder` or to a `GenerationAdder`. -/
structure GenArgs where
  minP : Dbl
  maxP : Dbl
  on : Option Bool
  v : Dbl
  q : Dbl
  p : Dbl

/-- `GeneratorAdder::add` (GeneratorAdder.cpp l.24-33); the constructor repeats the checks (Generator.cpp l.17-33). -/
def GenArgs.buildGenerator (a : GenArgs) : Out (PRange × Ctl) :=
  (checkSet a.minP).bind fun _ =>
  (checkSet a.maxP).bind fun _ =>
  (checkSet a.p).bind fun _ =>
  match a.on with
  | none => .thrown
  | some on =>
    (checkVoltageControl on a.v a.q).bind fun _ =>
    (checkActivePowerLimits a.minP a.maxP).bind fun _ =>
    .ok (⟨a.minP, a.maxP⟩, ⟨on, a.v, a.q, a.p⟩)

/-- `GenerationAdder::add` and `build` (DanglingLineGenerationAdder.cpp l.24-34), constructor (DanglingLineGeneration.cpp l.24-33): an unset
    bound becomes the largest finite value; the switch defaults to off. -/
def GenArgs.buildGeneration (a : GenArgs) : Out (PRange × Ctl) :=
  let on := a.on.getD false
  (checkActivePowerLimits a.minP a.maxP).bind fun _ =>
  (checkSet a.p).bind fun _ =>
  (checkVoltageControl on a.v a.q).bind fun _ =>
  .ok (⟨if a.minP.isNan then .fin (-Dbl.maxRat) else a.minP, if a.maxP.isNan then .fin Dbl.maxRat else a.maxP⟩, ⟨on, a.v, a.q, a.p⟩)

/-- Calls of `VscConverterStation`. -/
inductive VscOp where
  | setOn (b : Bool)
  | setV (x : Dbl)
  | setQ (x : Dbl)
  deriving DecidableEq, Repr

/-- The calls of `VscConverterStation` (VscConverterStation.cpp l.78-94). -/
def vscAct : VscOp → Act Unit Ctl
  | .setOn b => onVariant (setOn b)
  | .setV x => onVariant (setV x)
  | .setQ x => onVariant (setQ x)

/-- `VscConverterStationAdder::add` and `validate` (VscConverterStationAdder.cpp l.23-33, l.56-60). -/
def buildVsc (on : Option Bool) (v q : Dbl) : Out (Unit × Ctl) :=
  match on with
  | none => .thrown
  | some on => (checkVoltageControl on v q).bind fun _ => .ok ((), ⟨on, v, q, .nan⟩)

/-- `StaticVarCompensator::RegulationMode`. -/
inductive SvcMode where
  | voltage | reactivePower | off
  deriving DecidableEq, Repr

/-- Attributes of `StaticVarCompensator` per variant. -/
structure Svc where
  mode : SvcMode
  v : Dbl
  q : Dbl
  deriving DecidableEq, Repr

/-- `checkSvcRegulator` (ValidationUtils.cpp l.358-381). -/
def checkSvc (v q : Dbl) (mode : SvcMode) : Out Unit :=
  match mode with
  | .voltage => if v.isNan then .thrown else .ok ()
  | .reactivePower => if q.isNan then .thrown else .ok ()
  | .off => .ok ()

/-- Calls of `StaticVarCompensator`. -/
inductive SvcOp where
  | setMode (m : SvcMode)
  | setV (x : Dbl)
  | setQ (x : Dbl)
  deriving DecidableEq, Repr

/-- The calls of `StaticVarCompensator` (StaticVarCompensator.cpp l.103-128). -/
def svcAct : SvcOp → Act Unit Svc
  | .setMode m => onVariant fun c => match checkSvc c.v c.q m with
    | .ok _ => (.ok (), { c with mode := m })
    | o => (o, c)
  | .setV x => onVariant fun c => match checkSvc x c.q c.mode with
    | .ok _ => (.ok (), { c with v := x })
    | o => (o, c)
  | .setQ x => onVariant fun c => match checkSvc c.v x c.mode with
    | .ok _ => (.ok (), { c with q := x })
    | o => (o, c)

/-- `StaticVarCompensatorAdder::add` (StaticVarCompensatorAdder.cpp l.24-33). -/
def buildSvc (mode : Option SvcMode) (v q : Dbl) : Out (Unit × Svc) :=
  match mode with
  | none => .thrown
  | some m => (checkSvc v q m).bind fun _ => .ok ((), ⟨m, v, q⟩)

/-- Calls of `Battery`. -/
inductive BatOp where
  | setMinP (x : Dbl)
  | setMaxP (x : Dbl)
  | setP0 (x : Dbl)
  | setQ0 (x : Dbl)
  deriving DecidableEq, Repr

/-- The calls of `Battery` (Battery.cpp l.71-98); per variant: `m_p0`, `m_q0`. -/
def batAct : BatOp → Act PRange (Dbl × Dbl)
  | .setMinP x => onShared (setMinP x)
  | .setMaxP x => onShared (setMaxP x)
  | .setP0 x => onVariant fun c => match checkSet x with
    | .ok _ => (.ok (), (x, c.2))
    | o => (o, c)
  | .setQ0 x => onVariant fun c => match checkSet x with
    | .ok _ => (.ok (), (c.1, x))
    | o => (o, c)

/-- `BatteryAdder::add` (BatteryAdder.cpp l.25-32). -/
def buildBattery (p0 q0 minP maxP : Dbl) : Out (PRange × Dbl × Dbl) :=
  (checkSet p0).bind fun _ =>
  (checkSet q0).bind fun _ =>
  (checkSet minP).bind fun _ =>
  (checkSet maxP).bind fun _ =>
  (checkActivePowerLimits minP maxP).bind fun _ =>
  .ok (⟨minP, maxP⟩, p0, q0)

/-- Voltage limits of a voltage level (not per variant). -/
structure VLimits where
  low : Dbl
  high : Dbl
  deriving DecidableEq, Repr

/-- `checkVoltageLimits` (ValidationUtils.cpp l.427-437). -/
def checkVoltageLimits (low high : Dbl) : Out Unit :=
  if Dbl.lt low 0 then .thrown
  else if Dbl.lt high 0 then .thrown
  else if Dbl.lt high low then .thrown
  else .ok ()

/-- Calls on the limits of a voltage level. -/
inductive VlOp where
  | setLow (x : Dbl)
  | setHigh (x : Dbl)
  deriving DecidableEq, Repr

/-- `setLowVoltageLimit`, `setHighVoltageLimit` (VoltageLevel.cpp l.253-263). -/
def vlStep (s : VLimits) : VlOp → Out Unit × VLimits
  | .setLow x => match checkVoltageLimits x s.high with
    | .ok _ => (.ok (), { s with low := x })
    | o => (o, s)
  | .setHigh x => match checkVoltageLimits s.low x with
    | .ok _ => (.ok (), { s with high := x })
    | o => (o, s)

/-- `VoltageLevelAdder::add` and the constructor (VoltageLevelAdder.cpp l.27-28, VoltageLevel.cpp l.35-45). -/
def buildVl (low high : Dbl) : Out VLimits :=
  (checkVoltageLimits low high).bind fun _ => .ok ⟨low, high⟩

/-- An object just built: the same values in every variant. -/
def fresh (x : σ × ρ) (variants : List Nat) (working : Option Nat) : Multi σ ρ :=
  { shared := x.1, per := fun _ => x.2, variants := variants, working := working }

end Verif.Setpoint
