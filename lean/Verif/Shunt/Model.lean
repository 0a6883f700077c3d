import Verif.Common.Dbl
import Verif.Common.Multi

/-!
Model of shunt compensators: linear and non linear models, connected sections, voltage regulation settings.

Not modelled: the regulating terminal, the terminal and the identifier of the shunt compensator.
-/

namespace Verif.Shunt

open Verif

/-- One section of the non linear model (`ShuntCompensatorNonLinearModel::Section`). -/
structure Section where
  b : Dbl
  g : Dbl
  deriving DecidableEq, Repr

/-- `ShuntCompensatorLinearModel` and `ShuntCompensatorNonLinearModel` (attributes shared by the variants). -/
inductive Model where
  | linear (bPerSection gPerSection : Dbl) (max : Nat)
  | nonLinear (sections : List Section)
  deriving DecidableEq, Repr

/-- `double * unsigned long`: an infinite value times zero is NaN; otherwise exact (rounding and overflow are not modelled). -/
def times : Dbl → Nat → Dbl
  | .nan, _ => .nan
  | .fin q, n => .fin (q * n)
  | .posInf, n => if n = 0 then .nan else .posInf
  | .negInf, n => if n = 0 then .nan else .negInf

namespace Model

/-- `getMaximumSectionCount` (ShuntCompensatorLinearModel.cpp l.55-57, ShuntCompensatorNonLinearModel.cpp l.87-89). -/
def maximum : Model → Nat
  | .linear _ _ m => m
  | .nonLinear ss => ss.length

/-- `getB(sectionCount)` (ShuntCompensatorLinearModel.cpp l.33-38, ShuntCompensatorNonLinearModel.cpp l.73-78); `operator[]` past the end
    is undefined. -/
def getB : Model → Nat → Out Dbl
  | .linear b _ m, n => if m < n then .thrown else .ok (times b n)
  | .nonLinear ss, n =>
    if ss.length < n then .thrown
    else if n = 0 then .ok 0
    else match ss[n - 1]? with
      | some s => .ok s.b
      | none => .ub

/-- `getG(sectionCount)` (ShuntCompensatorLinearModel.cpp l.44-49, ShuntCompensatorNonLinearModel.cpp l.80-85). -/
def getG : Model → Nat → Out Dbl
  | .linear _ g m, n => if m < n then .thrown else .ok (if g.isNan then 0 else times g n)
  | .nonLinear ss, n =>
    if ss.length < n then .thrown
    else if n = 0 then .ok 0
    else match ss[n - 1]? with
      | some s => .ok s.g
      | none => .ub

end Model

/-- Attributes per variant (`m_sectionCount`, `m_voltageRegulatorOn`, `m_targetV`, `m_targetDeadband`). -/
structure Per where
  count : Nat
  on : Bool
  targetV : Dbl
  deadband : Dbl
  deriving DecidableEq, Repr

/-- `checkSections` (ValidationUtils.cpp l.346-356); `none` is an unset count. -/
def checkSections (count : Option Nat) (max : Nat) : Out Unit :=
  match count with
  | none => .thrown
  | some n => if max = 0 then .thrown else if max < n then .thrown else .ok ()

/-- `checkVoltageControl` with three arguments (ValidationUtils.cpp l.407-415). -/
def checkVoltageControl (on : Bool) (v : Dbl) : Out Unit :=
  if on && (v.isNan || Dbl.le v 0) then .thrown else .ok ()

/-- `checkTargetDeadband` (ValidationUtils.cpp l.390-398). -/
def checkTargetDeadband (on : Bool) (d : Dbl) : Out Unit :=
  if on && d.isNan then .thrown
  else if Dbl.lt d 0 then .thrown
  else .ok ()

/-- `checkBPerSection` (ValidationUtils.cpp l.84-89). -/
def checkBPerSection (b : Dbl) : Out Unit := if b.isNan then .thrown else .ok ()

/-- Calls of `ShuntCompensator` and of its model.  The calls of the linear model exist only when the model is linear; the setters of a
    section only when it is non linear. -/
inductive Op where
  | setSectionCount (n : Nat)
  | setTargetDeadband (x : Dbl)
  | setTargetV (x : Dbl)
  | setVoltageRegulatorOn (b : Bool)
  | setBPerSection (x : Dbl)
  | setGPerSection (x : Dbl)
  | setMaximumSectionCount (n : Nat)
  | setSectionB (i : Nat) (x : Dbl)
  | setSectionG (i : Nat) (x : Dbl)
  deriving DecidableEq, Repr

/-- `ShuntCompensator::setSectionCount` (ShuntCompensator.cpp l.129-134). -/
def setSectionCount (n : Nat) (s : Model) (p : Per) : Out Unit × Per :=
  match checkSections (some n) s.maximum with
  | .ok _ => (.ok (), { p with count := n })
  | o => (o, p)

/-- `ShuntCompensator::setTargetDeadband` (ShuntCompensator.cpp l.136-141). -/
def setTargetDeadband (x : Dbl) (p : Per) : Out Unit × Per :=
  match checkTargetDeadband p.on x with
  | .ok _ => (.ok (), { p with deadband := x })
  | o => (o, p)

/-- `ShuntCompensator::setTargetV` (ShuntCompensator.cpp l.143-148). -/
def setTargetV (x : Dbl) (p : Per) : Out Unit × Per :=
  match checkVoltageControl p.on x with
  | .ok _ => (.ok (), { p with targetV := x })
  | o => (o, p)

/-- `ShuntCompensator::setVoltageRegulatorOn` (ShuntCompensator.cpp l.150-156). -/
def setVoltageRegulatorOn (b : Bool) (p : Per) : Out Unit × Per :=
  match (checkVoltageControl b p.targetV).bind fun _ => checkTargetDeadband b p.deadband with
  | .ok _ => (.ok (), { p with on := b })
  | o => (o, p)

/-- `ShuntCompensatorLinearModel::setBPerSection` (ShuntCompensatorLinearModel.cpp l.64-68). -/
def setBPerSection (x : Dbl) (s : Model) : Out Unit × Model :=
  match s with
  | .linear b g m => match checkBPerSection x with
    | .ok _ => (.ok (), .linear x g m)
    | o => (o, .linear b g m)
  | s => (.thrown, s)

/-- `ShuntCompensatorLinearModel::setGPerSection` (ShuntCompensatorLinearModel.cpp l.70-73). -/
def setGPerSection (x : Dbl) (s : Model) : Out Unit × Model :=
  match s with
  | .linear b _ m => (.ok (), .linear b x m)
  | s => (.thrown, s)

/-- `ShuntCompensatorLinearModel::setMaximumSectionCount` (ShuntCompensatorLinearModel.cpp l.75-79): looks at the working variant. -/
def setMaximumSectionCount (n : Nat) (s : Model) (p : Per) : Out Unit × Model :=
  match s with
  | .linear b g m => match checkSections (some p.count) n with
    | .ok _ => (.ok (), .linear b g n)
    | o => (o, .linear b g m)
  | s => (.thrown, s)

/-- The calls.  `Section::setB` and `setG` (ShuntCompensatorNonLinearModel.cpp l.41-51) dereference the reference to the shunt
    compensator of the section, which no code ever sets (`attach`, l.57-63, sets only the one of the model): `stdcxx::Reference::get`
    throws. -/
def act : Op → Act Model Per
  | .setSectionCount n => needVariant fun s p => let x := setSectionCount n s p; (x.1, s, x.2)
  | .setTargetDeadband v => needVariant fun s p => let x := setTargetDeadband v p; (x.1, s, x.2)
  | .setTargetV v => needVariant fun s p => let x := setTargetV v p; (x.1, s, x.2)
  | .setVoltageRegulatorOn b => needVariant fun s p => let x := setVoltageRegulatorOn b p; (x.1, s, x.2)
  | .setBPerSection v => fun s p => let x := setBPerSection v s; (x.1, x.2, p)
  | .setGPerSection v => fun s p => let x := setGPerSection v s; (x.1, x.2, p)
  | .setMaximumSectionCount n => needVariant fun s p => let x := setMaximumSectionCount n s p; (x.1, x.2, p)
  | .setSectionB _ _ => fun s p => (.thrown, s, p)
  | .setSectionG _ _ => fun s p => (.thrown, s, p)

/-- `ShuntCompensatorLinearModelAdder::add` and `build` (ShuntCompensatorLinearModelAdder.cpp l.26-35), `checkMaximumSectionCount`
    (ValidationUtils.cpp l.151-159). -/
def buildLinear (b g : Dbl) (max : Option Nat) : Out Model :=
  (checkBPerSection b).bind fun _ =>
  match max with
  | none => .thrown
  | some m => if m = 0 then .thrown else .ok (.linear b g m)

/-- `SectionAdder::endSection` (ShuntCompensatorNonLinearModelAdder.cpp l.31-42): an unset conductance is the one of the section before. -/
def endSection (b g : Dbl) (ss : List Section) : Out (List Section) :=
  (checkBPerSection b).bind fun _ =>
  .ok (ss ++ [⟨b, if g.isNan then (match ss.getLast? with | some s => s.g | none => 0) else g⟩])

/-- The sections after the given `endSection` calls (a call that throws ends the construction). -/
def endSections (ss : List Section) : List (Dbl × Dbl) → Out (List Section)
  | [] => .ok ss
  | a :: as => (endSection a.1 a.2 ss).bind fun ss => endSections ss as

/-- `ShuntCompensatorNonLinearModelAdder::add` and `build` (ShuntCompensatorNonLinearModelAdder.cpp l.58-64, l.70-77). -/
def buildNonLinear (args : List (Dbl × Dbl)) : Out Model :=
  (endSections [] args).bind fun ss => if ss.isEmpty then .thrown else .ok (.nonLinear ss)

/-- `ShuntCompensatorAdder::add` (ShuntCompensatorAdder.cpp l.23-43) and the constructor (ShuntCompensator.cpp l.18-29). -/
def build (model : Option Model) (count : Option Nat) (on : Bool) (targetV deadband : Dbl) : Out (Model × Per) :=
  (checkVoltageControl on targetV).bind fun _ =>
  (checkTargetDeadband on deadband).bind fun _ =>
  match model with
  | none => .thrown
  | some m =>
    (checkSections count m.maximum).bind fun _ =>
    match count with
    | none => .thrown
    | some n => .ok (m, ⟨n, on, targetV, deadband⟩)

/-- A shunt compensator just built: the same values in every variant. -/
def fresh (x : Model × Per) (variants : List Nat) (working : Option Nat) : Multi Model Per :=
  { shared := x.1, per := fun _ => x.2, variants := variants, working := working }

/-- `ShuntCompensator::getB` (ShuntCompensator.cpp l.51-53), `getVariantIndex` throwing without working variant. -/
def readB (m : Multi Model Per) : Out Dbl :=
  match m.cur with
  | none => .thrown
  | some p => m.shared.getB p.count

/-- `ShuntCompensator::getG` (ShuntCompensator.cpp l.59-61). -/
def readG (m : Multi Model Per) : Out Dbl :=
  match m.cur with
  | none => .thrown
  | some p => m.shared.getG p.count

end Verif.Shunt
