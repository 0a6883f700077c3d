import Verif.Measure.Box
import Verif.Common.Dbl
import Verif.PropMap.Model

/-!
Model of the extensions `Measurements` and `DiscreteMeasurements` (`extensions/iidm/src`: Measurement.cpp, MeasurementAdder.cpp, Measurements.cpp,
MeasurementValidationUtil.cpp, DiscreteMeasurement.cpp, DiscreteMeasurementAdder.cpp, DiscreteMeasurements.cpp, DiscreteMeasurementValidationUtil.cpp).

Not modelled: `cleanIfEmpty` (see `Verif.Extend` for `removeExtension`), an extension that is no more on its equipment.
-/

namespace Verif.Measure

open Verif

/-- What the extended object is, as far as the checks ask. -/
inductive Kind where
  | injection | line | twoWindings | threeWindings | switch | other
  deriving DecidableEq, Repr

/-- `isInstanceOf<Connectable>`. -/
def Kind.connectable : Kind → Bool
  | .injection | .line | .twoWindings | .threeWindings => true
  | .switch | .other => false

/-- `Measurement::Type` (Measurement.hpp, names in Measurement.cpp l.31-44). -/
inductive MType where
  | angle | activePower | apparentPower | reactivePower | current | voltage | frequency | other
  deriving DecidableEq, Repr

/-- `Measurement::Side`. -/
inductive MSide where
  | one | two | three
  deriving DecidableEq, Repr

/-- `Measurement`. -/
structure Meas where
  id : String
  type : MType
  props : PropMap.Props
  side : Option MSide
  value : Dbl
  stdDev : Dbl
  valid : Bool
  deriving DecidableEq, Repr

/-- `MeasurementAdder` before `add`. -/
structure MAdder where
  id : String
  type : Option MType
  props : PropMap.Props
  side : Option MSide
  value : Dbl
  stdDev : Dbl
  valid : Bool
  deriving DecidableEq, Repr

/-- A new adder (MeasurementAdder.hpp l.80-92). -/
def MAdder.new : MAdder := ⟨"", none, [], none, .nan, .nan, true⟩

/-- `putProperty` of an adder or of a measurement (MeasurementAdder.cpp l.38-44, Measurement.cpp l.107-113, DiscreteMeasurementAdder.cpp l.40-46,
DiscreteMeasurement.cpp l.144-150). -/
def putProperty (n v : String) (ps : PropMap.Props) : Out PropMap.Props := if n = "" then .thrown else .ok (PropMap.set n v ps).2

/-- `getProperty` (Measurement.cpp l.78-81, DiscreteMeasurement.cpp l.98-101). -/
def getProperty (n : String) (ps : PropMap.Props) : String := (ps.get? n).getD ""

/-- `checkValue` (MeasurementValidationUtil.cpp l.41-45). -/
def checkValue (x : Dbl) (valid : Bool) : Out Unit := if x.isNan && valid then .thrown else .ok ()

/-- `checkSide` (MeasurementValidationUtil.cpp l.32-39). -/
def checkSide (t : MType) (side : Option MSide) (k : Kind) : Out Unit :=
  if side.isSome && k = .injection then .thrown
  else if side.isNone && t ≠ .other && k ≠ .injection then .thrown
  else .ok ()

/-- `MeasurementAdder::add` after the check of the identifier (MeasurementAdder.cpp l.28-33); `getExtendable<Connectable>` throws for another kind of
object (Extension.hxx l.24-27). -/
def MAdder.make (k : Kind) (a : MAdder) : Out Meas :=
  match a.type with
  | none => .thrown
  | some t =>
    (checkValue a.value a.valid).bind fun _ =>
    if !k.connectable then .thrown
    else (checkSide t a.side k).map fun _ => ⟨a.id, t, a.props, a.side, a.value, a.stdDev, a.valid⟩

/-- Calls on the measurements of an equipment and on their elements. -/
inductive MOp where
  | add (a : MAdder)
  | remove (p : Nat)
  | setValue (p : Nat) (x : Dbl)
  | setStdDev (p : Nat) (x : Dbl)
  | setValid (p : Nat) (b : Bool)
  | putProperty (p : Nat) (n v : String)
  | removeProperty (p : Nat) (n : String)

/-- `add` (MeasurementAdder.cpp l.26-36), `remove` (Measurement.cpp l.115-117), `setValue` (l.134-137), `setStandardDeviation` (l.124-127), `setValid`
(l.129-132), `putProperty` (l.107-113), `removeProperty` (l.119-122). -/
def MOp.call (k : Kind) : MOp → Call Meas
  | .add a => .add a.id (a.make k)
  | .remove p => .remove p
  | .setValue p x => .edit p fun m => .ok { m with value := x }
  | .setStdDev p x => .edit p fun m => .ok { m with stdDev := x }
  | .setValid p b => .edit p fun m => .ok { m with valid := b }
  | .putProperty p n v => .edit p fun m => (Measure.putProperty n v m.props).map fun ps => { m with props := ps }
  | .removeProperty p n => .edit p fun m => .ok { m with props := m.props.erase n }

/-- `Measurements` after some calls; nothing when one of them is undefined. -/
def runM (k : Kind) (os : List MOp) : Option (Box Meas) := run (·.id) (os.map (MOp.call k)) Box.empty

/-! ### Discrete measurements -/

/-- `DiscreteMeasurement::Type` (DiscreteMeasurement.hpp l.35-40). -/
inductive DType where
  | tapPosition | switchPosition | shuntSection | other
  deriving DecidableEq, Repr

/-- `DiscreteMeasurement::TapChanger` (l.46-55). -/
inductive TapChanger where
  | ratio | phase | ratio1 | phase1 | ratio2 | phase2 | ratio3 | phase3
  deriving DecidableEq, Repr

/-- `DiscreteMeasurement::ValueType` (l.60-64). -/
inductive VType where
  | boolean | int | string
  deriving DecidableEq, Repr

/-- A `boost::any` that is not empty. -/
inductive DVal where
  | boolean (b : Bool)
  | int (i : Int)
  | string (s : String)
  deriving DecidableEq, Repr

/-- `DiscreteMeasurement`. -/
structure Disc where
  id : String
  type : DType
  tapChanger : Option TapChanger
  props : PropMap.Props
  vtype : VType
  value : Option DVal
  valid : Bool
  deriving DecidableEq, Repr

/-- `DiscreteMeasurementAdder` before `add`; its type is not initialised (DiscreteMeasurementAdder.hpp l.83). -/
structure DAdder where
  id : String
  type : Option DType
  tapChanger : Option TapChanger
  props : PropMap.Props
  value : Option DVal
  valid : Bool
  deriving DecidableEq, Repr

/-- A new adder. -/
def DAdder.new : DAdder := ⟨"", none, none, [], none, true⟩

/-- `isInstanceOf<TwoWindingsTransformer>` or `isInstanceOf<ThreeWindingsTransformer>`. -/
def Kind.transformer (k : Kind) : Bool := k = .twoWindings || k = .threeWindings

/-- `checkType` (DiscreteMeasurementValidationUtil.cpp l.55-62). -/
def checkType (t : DType) (k : Kind) : Out Unit :=
  if t = .switchPosition && k ≠ .switch then .thrown
  else if t = .tapPosition && !k.transformer then .thrown
  else .ok ()

/-- `checkTapChanger` (l.34-53). -/
def checkTapChanger (c : Option TapChanger) (t : DType) (k : Kind) : Out Unit :=
  if c.isNone && t = .tapPosition then .thrown
  else
    match c with
    | none => .ok ()
    | some c =>
      if !k.transformer then .thrown
      else if k = .twoWindings && c ≠ .ratio && c ≠ .phase then .thrown
      else if k = .threeWindings && (c = .ratio || c = .phase) then .thrown
      else .ok ()

/-- `checkValue` (l.64-68). -/
def checkDValue (v : Option DVal) (valid : Bool) : Out Unit := if v.isNone && valid then .thrown else .ok ()

/-- `getValueType` (l.70-82): an empty value has type `void`. -/
def getValueType : Option DVal → Out VType
  | some (.string _) => .ok .string
  | some (.int _) => .ok .int
  | some (.boolean _) => .ok .boolean
  | none => .thrown

/-- `DiscreteMeasurementAdder::add` after the check of the identifier (DiscreteMeasurementAdder.cpp l.29-34); reading a type that was never set is
undefined behaviour. -/
def DAdder.make (k : Kind) (a : DAdder) : Out Disc :=
  match a.type with
  | none => .ub
  | some t =>
    (checkType t k).bind fun _ =>
    (checkTapChanger a.tapChanger t k).bind fun _ =>
    (checkDValue a.value a.valid).bind fun _ =>
    (getValueType a.value).map fun vt => ⟨a.id, t, a.tapChanger, a.props, vt, a.value, a.valid⟩

/-- `getValueAsBoolean` (DiscreteMeasurement.cpp l.115-120). -/
def Disc.asBoolean (d : Disc) : Out Bool :=
  if d.vtype = .boolean then
    match d.value with
    | some (.boolean b) => .ok b
    | _ => .thrown
  else .thrown

/-- `getValueAsInt` (l.122-127). -/
def Disc.asInt (d : Disc) : Out Int :=
  if d.vtype = .int then
    match d.value with
    | some (.int i) => .ok i
    | _ => .thrown
  else .thrown

/-- `getValueAsString` (l.129-134). -/
def Disc.asString (d : Disc) : Out String :=
  if d.vtype = .string then
    match d.value with
    | some (.string s) => .ok s
    | _ => .thrown
  else .thrown

/-- Calls on the discrete measurements of an object and on their elements. -/
inductive DOp where
  | add (a : DAdder)
  | remove (p : Nat)
  | setBoolean (p : Nat) (b : Bool)
  | setInt (p : Nat) (i : Int)
  | setString (p : Nat) (s : String)
  | setValid (p : Nat) (b : Bool)
  | putProperty (p : Nat) (n v : String)
  | removeProperty (p : Nat) (n : String)

/-- `add` (DiscreteMeasurementAdder.cpp l.27-38), `remove` (DiscreteMeasurement.cpp l.152-154), `setValue` (l.166-190), `setValid` (l.161-164),
`putProperty` (l.144-150), `removeProperty` (l.156-159).  The string is made into a `boost::any`, never empty, to be checked. -/
def DOp.call (k : Kind) : DOp → Call Disc
  | .add a => .add a.id (a.make k)
  | .remove p => .remove p
  | .setBoolean p b => .edit p fun m => .ok { m with value := some (.boolean b), vtype := .boolean }
  | .setInt p i => .edit p fun m => .ok { m with value := some (.int i), vtype := .int }
  | .setString p s => .edit p fun m => (checkDValue (some (.string s)) m.valid).map fun _ => { m with value := some (.string s), vtype := .string }
  | .setValid p b => .edit p fun m => .ok { m with valid := b }
  | .putProperty p n v => .edit p fun m => (Measure.putProperty n v m.props).map fun ps => { m with props := ps }
  | .removeProperty p n => .edit p fun m => .ok { m with props := m.props.erase n }

/-- `DiscreteMeasurements` after some calls; nothing when one of them is undefined. -/
def runD (k : Kind) (os : List DOp) : Option (Box Disc) := run (·.id) (os.map (DOp.call k)) Box.empty

end Verif.Measure
