import Verif.Setters.Spec

/-!
What a setter is meant to write, said without its checks: the specification of the second half of C94, the setters refuse only what would not be valid.  A call has no
such meaning when it is about something else than one value (an identifier, a terminal, limits, a tap changer that is made).
-/

namespace Verif.Setters

open Verif Verif.Xml Verif.XmlNet

/-- The call writes `y` when that is as it should be, and throws otherwise. -/
def Exact {α : Type} (s : Out α) (y : α) (valid : Prop) : Prop := (valid → s = .ok y) ∧ (¬ valid → s = .thrown)

def LoadOp.put (x : Load) : LoadOp → Option Load
  | .setLoadType k => some { x with kind := k }
  | .setP0 d => some { x with p0 := d }
  | .setQ0 d => some { x with q0 := d }
  | _ => none

def GenOp.put (x : Gen) : GenOp → Option Gen
  | .setTargetP d => some { x with targetP := d }
  | .setMaxP d => some { x with maxP := d }
  | .setMinP d => some { x with minP := d }
  | .setRatedS d => some { x with ratedS := d }
  | .setTargetQ d => some { x with targetQ := d }
  | .setRegulatingTerminal r true => some { x with reg := r }
  | .setVoltageRegulatorOn b => some { x with on := b }
  | .setTargetV d => some { x with targetV := d }
  | _ => none

def BatOp.put (x : Bat) : BatOp → Option Bat
  | .setMaxP d => some { x with maxP := d }
  | .setMinP d => some { x with minP := d }
  | .setP0 d => some { x with p0 := d }
  | .setQ0 d => some { x with q0 := d }
  | _ => none

def LccOp.put (x : Lcc) : LccOp → Option Lcc
  | .setLossFactor d => some { x with lossFactor := d }
  | .setPowerFactor d => some { x with powerFactor := d }
  | _ => none

def VscOp.put (x : Vsc) : VscOp → Option Vsc
  | .setLossFactor d => some { x with lossFactor := d }
  | .setReactivePowerSetpoint d => some { x with reactive := d }
  | .setVoltageRegulatorOn b => some { x with on := b }
  | .setVoltageSetpoint d => some { x with voltage := d }
  | _ => none

def SvcOp.put (x : Svc) : SvcOp → Option Svc
  | .setBmax d => some { x with bMax := d }
  | .setBmin d => some { x with bMin := d }
  | .setReactivePowerSetpoint d => some { x with reactive := d }
  | .setRegulatingTerminal r true => some { x with reg := r }
  | .setRegulationMode m => some { x with mode := m }
  | .setVoltageSetpoint d => some { x with voltage := d }
  | _ => none

/-- A model that is not of the class asked for has no value to set. -/
def ShOp.put (x : Sh) : ShOp → Option Sh
  | .setRegulatingTerminal r true => some { x with reg := r }
  | .setSectionCount n => some { x with per := { x.per with count := n } }
  | .setTargetDeadband d => some { x with per := { x.per with deadband := d } }
  | .setTargetV d => some { x with per := { x.per with targetV := d } }
  | .setVoltageRegulatorOn b => some { x with per := { x.per with on := b } }
  | .setBPerSection d => match x.model with
    | .linear _ g m => some { x with model := .linear d g m }
    | .nonLinear _ => none
  | .setGPerSection d => match x.model with
    | .linear b _ m => some { x with model := .linear b d m }
    | .nonLinear _ => none
  | .setMaximumSectionCount n => match x.model with
    | .linear b g _ => some { x with model := .linear b g n }
    | .nonLinear _ => none
  | _ => none

/-- But for the bounds of the power: see `DlGenValid`. -/
def DlGenOp.put (x : DlGen) : DlGenOp → Option DlGen
  | .setTargetP d => some { x with targetP := d }
  | .setTargetQ d => some { x with targetQ := d }
  | .setTargetV d => some { x with targetV := d }
  | .setVoltageRegulationOn b => some { x with on := b }
  | _ => none

def DlOp.put (x : Dl) : DlOp → Option Dl
  | .setB d => some { x with b := d }
  | .setG d => some { x with g := d }
  | .setP0 d => some { x with p0 := d }
  | .setQ0 d => some { x with q0 := d }
  | .setR d => some { x with r := d }
  | .setX d => some { x with x := d }
  | _ => none

def CharacOp.put (z : Charac) : CharacOp → Charac
  | .setR d => { z with r := d }
  | .setX d => { z with x := d }
  | .setG1 d => { z with g1 := d }
  | .setB1 d => { z with b1 := d }
  | .setG2 d => { z with g2 := d }
  | .setB2 d => { z with b2 := d }

def HvdcOp.put (x : HvdcLine) : HvdcOp → Option HvdcLine
  | .setActivePowerSetpoint d => some { x with setpoint := d }
  | .setConvertersMode m => some { x with mode := m }
  | .setMaxP d => some { x with maxP := d }
  | .setNominalV d => some { x with nominalV := d }
  | .setR d => some { x with r := d }
  | _ => none

/-- The getters of a step, `TapChangerStep.hxx` l. 25-50. -/
def Field.get : Field → Step → Dbl
  | .r, s => s.r
  | .x, s => s.x
  | .g, s => s.g
  | .b, s => s.b
  | .rho, s => s.rho

/-- The last position is counted without overflow. -/
def RtcOp.put (t : Rtc) : RtcOp → Option Rtc
  | .setTapPosition p => if t.low + t.steps.length - 1 < 2 ^ 63 then some { t with tap := p.1 } else none
  | .setRegulating b => some { t with on := b }
  | .setRegulationTerminal r true => some { t with reg := r }
  | .setTargetDeadband d => some { t with deadband := d }
  | .setTargetV d => some { t with targetV := d }
  | .setLoadTapChangingCapabilities b => some { t with ltc := b }
  | _ => none

def PtcOp.put (t : Ptc) : PtcOp → Option Ptc
  | .setTapPosition p => if t.low + t.steps.length - 1 < 2 ^ 63 then some { t with tap := p.1 } else none
  | .setRegulating b => some { t with on := b }
  | .setRegulationTerminal r true => some { t with reg := r }
  | .setTargetDeadband d => some { t with deadband := d }
  | .setRegulationMode m => some { t with mode := m }
  | .setRegulationValue d => some { t with value := d }
  | _ => none

def Tw2Op.put (x : Tw2) : Tw2Op → Option Tw2
  | .setR d => some { x with r := d }
  | .setX d => some { x with x := d }
  | .setG d => some { x with g := d }
  | .setB d => some { x with b := d }
  | .setRatedU1 d => some { x with ratedU1 := d }
  | .setRatedU2 d => some { x with ratedU2 := d }
  | .setRatedS d => some { x with ratedS := d }
  | _ => none

def LegOp.put (x : Leg) : LegOp → Option Leg
  | .setR d => some { x with z := { x.z with r := d } }
  | .setX d => some { x with z := { x.z with x := d } }
  | .setG d => some { x with z := { x.z with g := d } }
  | .setB d => some { x with z := { x.z with b := d } }
  | .setRatedU d => some { x with z := { x.z with ratedU := d } }
  | .setRatedS d => some { x with z := { x.z with ratedS := d } }
  | _ => none

def BusOp.put (x : Bus) : BusOp → Option Bus
  | .setV d => some { x with v := d }
  | .setAngle d => some { x with angle := d }
  | .ident _ => none

def VLOp.put (x : VL) : VLOp → Option VL
  | .setHighVoltageLimit d => some { x with high := d }
  | .setLowVoltageLimit d => some { x with low := d }
  | .setNominalV d => some { x with nominalV := d }
  | _ => none

end Verif.Setters
