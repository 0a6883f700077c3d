import Verif.Common.Out
import Verif.Common.AMap

/-! Model of the links between HVDC lines and converter stations (HvdcLine.cpp, HvdcLineAdder.cpp, HvdcConverterStation.cpp, Network.cpp). -/

namespace Verif.Hvdc

open Verif

/-- The live converter stations with their `m_hvdcLine`, the live lines with their `m_converterStation1` and `m_converterStation2`; numbers identify the
    objects and are never reused. -/
structure St where
  stations : AMap Nat (Option Nat)
  lines : AMap Nat (Nat × Nat)
  next : Nat
  deriving DecidableEq, Repr

/-- An empty network. -/
def init : St := ⟨[], [], 0⟩

/-- Addition of a converter station: `m_hvdcLine` is null (HvdcConverterStation.cpp l.16-20). -/
def addStation (s : St) : Out Nat × St := (.ok s.next, { s with stations := s.stations.set s.next none, next := s.next + 1 })

/-- `setHvdcLine` (HvdcConverterStation.cpp l.41-43) on an object that must be alive. -/
def setLine (s : St) (h : Nat) (l : Option Nat) : Out Unit × St :=
  match s.stations.get? h with
  | none => (.ub, s)
  | some _ => (.ok (), { s with stations := s.stations.set h l })

/-- `HvdcLineAdder::add` (HvdcLineAdder.cpp l.25-41): checks of the values and of the id (`valid`), look-up of the stations (l.43-51), constructor
    (HvdcLine.cpp l.18-28, `attach` l.39-42). -/
def addLine (s : St) (valid : Bool) (s1 s2 : Nat) : Out Nat × St :=
  if !valid then (.thrown, s)
  else if s.stations.get? s1 = none then (.thrown, s)
  else if s.stations.get? s2 = none then (.thrown, s)
  else
    match setLine s s1 (some s.next) with
    | (.ok _, t) =>
      match setLine t s2 (some s.next) with
      | (.ok _, t) => (.ok s.next, { t with lines := t.lines.set s.next (s1, s2), next := s.next + 1 })
      | (.thrown, t) => (.thrown, t)
      | (.ub, t) => (.ub, t)
    | (.thrown, t) => (.thrown, t)
    | (.ub, t) => (.ub, t)

/-- `HvdcLine::remove` (HvdcLine.cpp l.123-133); `getNetwork` uses the first station (l.87-96).  The line must be alive. -/
def removeLine (s : St) (l : Nat) : Out Unit × St :=
  match s.lines.get? l with
  | none => (.ub, s)
  | some (s1, s2) =>
    match setLine s s1 none with
    | (.ok _, t) =>
      match setLine t s2 none with
      | (.ok _, t) => (.ok (), { t with lines := t.lines.erase l })
      | (.thrown, t) => (.thrown, t)
      | (.ub, t) => (.ub, t)
    | (.thrown, t) => (.thrown, t)
    | (.ub, t) => (.ub, t)

/-- `HvdcConverterStation::remove` (HvdcConverterStation.cpp l.34-39).  The station must be alive. -/
def removeStation (s : St) (h : Nat) : Out Unit × St :=
  match s.stations.get? h with
  | none => (.ub, s)
  | some (some _) => (.thrown, s)
  | some none => (.ok (), { s with stations := s.stations.erase h })

/-- `Network::findHvdcLine` (Network.cpp l.113-119): the first line with the station as an end. -/
def findHvdcLine (s : St) (h : Nat) : Option Nat := (s.lines.find? fun p => decide (p.2.1 = h) || decide (p.2.2 = h)).map (·.1)

/-- A call of the user on live objects. -/
inductive Op where
  | addStation
  | addLine (valid : Bool) (s1 s2 : Nat)
  | removeLine (l : Nat)
  | removeStation (h : Nat)
  deriving DecidableEq, Repr

def step (s : St) : Op → Out Nat × St
  | .addStation => addStation s
  | .addLine v a b => addLine s v a b
  | .removeLine l => ((removeLine s l).1.map (fun _ => 0), (removeLine s l).2)
  | .removeStation h => ((removeStation s h).1.map (fun _ => 0), (removeStation s h).2)

/-- A history of calls on live objects that does not run into undefined behaviour. -/
inductive Reach : St → Prop where
  | init : Reach init
  | step {s : St} (op : Op) : Reach s → (step s op).1 ≠ .ub → Reach (step s op).2

end Verif.Hvdc
