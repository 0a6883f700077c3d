import Verif.Common.Out
import Verif.Common.AMap

/-!
Model of the references to terminals that equipment holds: the regulating terminal of a generator, of a shunt compensator and of a static VAR
compensator, the regulation terminal of a tap changer, the regulating terminal of the extension `RemoteReactivePowerControl`.  Each is a bare
pointer (`std::reference_wrapper<Terminal>` or `stdcxx::Reference<Terminal>`), and a terminal lives as long as the equipment it belongs to.

Simplified: the number of an object is never used again, so a reference to an object that has been destroyed is never taken for a reference to
another one.  What the other checks of a call decide is given with the call.
-/

namespace Verif.RegTerm

open Verif

/-- A terminal: the equipment that owns it (`Connectable::m_terminals`, Connectable.hpp) and its place in it. -/
structure Term where
  eq : Nat
  ix : Nat
  deriving DecidableEq, Repr

/-- What holds a reference: the equipment itself (`Generator::m_regulatingTerminal`, Generator.hpp l.100; ShuntCompensator.hpp l.91;
    StaticVarCompensator.hpp l.81), one of its tap changers (`TapChanger::m_regulationTerminal`, TapChanger.hpp l.102), ratio or phase, or its
    extension (RemoteReactivePowerControl.hpp l.55). -/
inductive Slot where
  | own
  | ratio (i : Nat)
  | phase (i : Nat)
  | ctrl
  deriving DecidableEq, Repr

/-- An equipment that is alive: the network it is in, how many terminals it has, the references it holds.  A slot absent from `refs` is a tap
    changer or an extension that does not exist; `none` is a null reference. -/
structure Equip where
  net : Nat
  terms : Nat
  refs : AMap Slot (Option Term)
  deriving DecidableEq, Repr

/-- The equipment alive, in all the networks, and the next number. -/
structure World where
  live : AMap Nat Equip
  next : Nat
  deriving DecidableEq, Repr

/-- Nothing is there. -/
def init : World := ⟨[], 0⟩

/-- `terminal.getVoltageLevel().getNetwork()`, which reads the terminal: `none` when the terminal is no longer there. -/
def World.netOf (w : World) (t : Term) : Option Nat :=
  match w.live.get? t.eq with
  | some e => if t.ix < e.terms then some e.net else none
  | none => none

/-- The terminal given, if any, is there. -/
def given (w : World) (t : Option Term) : Bool :=
  match t with
  | none => true
  | some t => (w.netOf t).isSome

/-- `checkRegulatingTerminal` (ValidationUtils.cpp l.340-344). -/
def checkRegulatingTerminal (w : World) (t : Option Term) (net : Nat) : Out Unit :=
  match t with
  | none => .ok ()
  | some t =>
    match w.netOf t with
    | none => .ub
    | some n => if n = net then .ok () else .thrown

/-- `checkRatioTapChangerRegulation` (ValidationUtils.cpp l.323-338): `pre` tells that the checks of the values that come before pass, `ltc` is
    `loadTapChangingCapabilities`, without which the failures are warnings (l.23-29).  `Reference::get` throws on a null reference
    (reference.hpp l.70-75). -/
def checkRatio (w : World) (regulating ltc pre : Bool) (t : Option Term) (net : Nat) : Out Unit :=
  if pre = false then .thrown
  else if regulating = false then .ok ()
  else
    match t with
    | none => .thrown
    | some t =>
      match w.netOf t with
      | none => .ub
      | some n => if n ≠ net && ltc then .thrown else .ok ()

/-- `checkPhaseTapChangerRegulation` (ValidationUtils.cpp l.249-274). -/
def checkPhase (w : World) (regulating pre : Bool) (t : Option Term) (net : Nat) : Out Unit :=
  if pre = false then .thrown
  else
    match t with
    | none => if regulating then .thrown else .ok ()
    | some t =>
      match w.netOf t with
      | none => .ub
      | some n => if n = net then .ok () else .thrown

/-- The check of a tap changer. -/
def checkTap (w : World) (s : Slot) (regulating ltc pre : Bool) (t : Option Term) (net : Nat) : Out Unit :=
  match s with
  | .ratio _ => checkRatio w regulating ltc pre t net
  | .phase _ => checkPhase w regulating pre t net
  | _ => .thrown

/-- Calls.  `pre` and `post` are what the other checks decide, before and after the terminal is looked at. -/
inductive Op where
  /-- An adder of a generator, of a shunt compensator or of a static VAR compensator. -/
  | addDevice (net : Nat) (t : Option Term) (pre post : Bool)
  /-- The addition of any other equipment, with its number of terminals. -/
  | addOther (net terms : Nat)
  /-- `setRegulatingTerminal`. -/
  | setReg (e : Nat) (t : Option Term)
  /-- An adder of a tap changer. -/
  | addTap (e : Nat) (s : Slot) (regulating ltc pre post : Bool) (t : Option Term)
  /-- `setRegulationTerminal` of a tap changer. -/
  | setTap (e : Nat) (s : Slot) (regulating ltc pre : Bool) (t : Option Term)
  /-- Another setter of a tap changer that checks the regulation. -/
  | touchTap (e : Nat) (s : Slot) (regulating ltc pre : Bool)
  /-- `newExtension<RemoteReactivePowerControlAdder>()…add()`. -/
  | addCtrl (e : Nat) (t : Option Term)
  /-- Removal of a tap changer or of the extension. -/
  | drop (e : Nat) (s : Slot)
  /-- `remove()` of an equipment. -/
  | remove (e : Nat)
  /-- The second network is merged into the first. -/
  | merge (a b : Nat)
  /-- The references of an equipment are written to a document. -/
  | write (e : Nat)
  deriving DecidableEq, Repr

/-- What a call gives back. -/
inductive Res where
  | unit
  | made (e : Nat)
  | wrote (l : List Term)
  deriving DecidableEq, Repr

/-- A new equipment. -/
def World.make (w : World) (net terms : Nat) (refs : AMap Slot (Option Term)) : World :=
  ⟨w.live.set w.next ⟨net, terms, refs⟩, w.next + 1⟩

/-- `GeneratorAdder::add` (GeneratorAdder.cpp l.24-48), `ShuntCompensatorAdder::add` (ShuntCompensatorAdder.cpp l.23-43),
    `StaticVarCompensatorAdder::add` (StaticVarCompensatorAdder.cpp l.24-40): the terminal is checked, and without one the terminal of the new
    equipment is taken. -/
def addDevice (w : World) (net : Nat) (t : Option Term) (pre post : Bool) : Out Res × World :=
  if pre = false then (.thrown, w)
  else
    match checkRegulatingTerminal w t net with
    | .ok _ =>
      if post then (.ok (.made w.next), w.make net 1 [(.own, some (t.getD ⟨w.next, 0⟩))])
      else (.thrown, w)
    | .thrown => (.thrown, w)
    | .ub => (.ub, w)

/-- The equipment `e` with the reference of a slot replaced. -/
def World.put (w : World) (e : Nat) (q : Equip) (s : Slot) (t : Option Term) : World :=
  { w with live := w.live.set e { q with refs := q.refs.set s t } }

/-- `Generator::setRegulatingTerminal` (Generator.cpp l.157-165), `ShuntCompensator::setRegulatingTerminal` (ShuntCompensator.cpp l.122-126),
    `StaticVarCompensator::setRegulatingTerminal` (StaticVarCompensator.cpp l.110-114); an equipment of another class has no such method. -/
def setReg (w : World) (e : Nat) (t : Option Term) : Out Res × World :=
  match w.live.get? e with
  | none => (.ub, w)
  | some q =>
    match q.refs.get? .own with
    | none => (.thrown, w)
    | some _ =>
      match checkRegulatingTerminal w t q.net with
      | .ok _ => (.ok .unit, w.put e q .own (some (t.getD ⟨e, 0⟩)))
      | .thrown => (.thrown, w)
      | .ub => (.ub, w)

/-- `RatioTapChangerAdder::add` (RatioTapChangerAdder.cpp l.65-93) and `PhaseTapChangerAdder::add` (PhaseTapChangerAdder.cpp l.70-98); the tap
    changer already there is replaced.  The constructor checks again what the adder has checked.  A ratio tap changer that does not regulate does
    not look at the terminal; giving a terminal that is no longer there is the caller's fault and counted as undefined. -/
def addTap (w : World) (e : Nat) (s : Slot) (regulating ltc pre post : Bool) (t : Option Term) : Out Res × World :=
  match w.live.get? e with
  | none => (.ub, w)
  | some q =>
    if given w t = false then (.ub, w)
    else match checkTap w s regulating ltc pre t q.net with
    | .ok _ => if post then (.ok .unit, w.put e q s t) else (.thrown, w)
    | .thrown => (.thrown, w)
    | .ub => (.ub, w)

/-- `RatioTapChanger::setRegulationTerminal` (RatioTapChanger.cpp l.69-72), `PhaseTapChanger::setRegulationTerminal` (PhaseTapChanger.cpp
    l.66-69), then `TapChanger::setRegulationTerminal` (TapChanger.hxx l.183-191).  The accessor of a tap changer that does not exist throws. -/
def setTap (w : World) (e : Nat) (s : Slot) (regulating ltc pre : Bool) (t : Option Term) : Out Res × World :=
  match w.live.get? e with
  | none => (.ub, w)
  | some q =>
    match q.refs.get? s with
    | none => (.thrown, w)
    | some _ =>
      match checkTap w s regulating ltc pre t q.net with
      | .ok _ =>
        match checkRegulatingTerminal w t q.net with
        | .ok _ => (.ok .unit, w.put e q s t)
        | .thrown => (.thrown, w)
        | .ub => (.ub, w)
      | .thrown => (.thrown, w)
      | .ub => (.ub, w)

/-- The setters of a tap changer that check the regulation with the terminal stored: `setLoadTapChangingCapabilities`, `setRegulating`,
    `setTargetV` (RatioTapChanger.cpp l.58-79), `setRegulationMode`, `setRegulationValue` (PhaseTapChanger.cpp l.60-75). -/
def touchTap (w : World) (e : Nat) (s : Slot) (regulating ltc pre : Bool) : Out Res × World :=
  match w.live.get? e with
  | none => (.ub, w)
  | some q =>
    match q.refs.get? s with
    | none => (.thrown, w)
    | some t =>
      match checkTap w s regulating ltc pre t q.net with
      | .ok _ => (.ok .unit, w)
      | .thrown => (.thrown, w)
      | .ub => (.ub, w)

/-- `RemoteReactivePowerControlAdder` (RemoteReactivePowerControlAdder.cpp l.27-47): the terminal is stored without a look at it, and `get`
    throws when none was given.  Giving a terminal that is no longer there is the caller's fault and counted as undefined. -/
def addCtrl (w : World) (e : Nat) (t : Option Term) : Out Res × World :=
  match w.live.get? e with
  | none => (.ub, w)
  | some q =>
    match t with
    | none => (.thrown, w)
    | some t =>
      match w.netOf t with
      | none => (.ub, w)
      | some _ => (.ok .unit, w.put e q .ctrl (some t))

/-- `RatioTapChanger::remove` (RatioTapChanger.cpp l.54-56), `PhaseTapChanger::remove` (PhaseTapChanger.cpp l.56-58),
    `removeExtension` (Extendable.hxx). -/
def drop (w : World) (e : Nat) (s : Slot) : Out Res × World :=
  match w.live.get? e with
  | none => (.ub, w)
  | some q =>
    if s = .own then (.thrown, w)
    else (.ok .unit, { w with live := w.live.set e { q with refs := q.refs.erase s } })

/-- `Connectable::remove` (Connectable.cpp l.96-105): the terminals are detached and the equipment destroyed with them; nobody else is told. -/
def remove (w : World) (e : Nat) : Out Res × World :=
  match w.live.get? e with
  | none => (.ub, w)
  | some _ => (.ok .unit, { w with live := w.live.erase e })

/-- `Network::merge` (Network.cpp) when it succeeds, seen from the equipment: the equipment of the second network is then of the first. -/
def merge (w : World) (a b : Nat) : Out Res × World :=
  (.ok .unit, { w with live := w.live.map fun p => (p.1, { p.2 with net := if p.2.net = b then a else p.2.net }) })

/-- The references written for an equipment, one slot after the other.  The equipment's own is written when it is not its own terminal
    (GeneratorXml.cpp l.92-94, ShuntCompensatorXml.cpp l.178-181, StaticVarCompensatorXml.cpp l.84-87; the last two read the terminal to know
    whose it is), that of a tap changer when it is not null (AbstractTransformerXml.hxx l.196-198, l.225-227), that of the extension never, as it
    has no serializer.  `writeTerminalRef` reads the terminal (TerminalRefXml.cpp l.61-100).  Simplified: the writer's filter passes. -/
def writeRefs (w : World) (e : Nat) : AMap Slot (Option Term) → Out (List Term)
  | [] => .ok []
  | (.ctrl, _) :: l => writeRefs w e l
  | (_, none) :: l => writeRefs w e l
  | (s, some t) :: l =>
    match w.netOf t with
    | none => .ub
    | some _ =>
      match writeRefs w e l with
      | .ok r => .ok (if s = .own && t.eq = e then r else t :: r)
      | .thrown => .thrown
      | .ub => .ub

/-- The equipment is written. -/
def write (w : World) (e : Nat) : Out Res × World :=
  match w.live.get? e with
  | none => (.ub, w)
  | some q =>
    match writeRefs w e q.refs with
    | .ok l => (.ok (.wrote l), w)
    | .thrown => (.thrown, w)
    | .ub => (.ub, w)

/-- A call. -/
def step (w : World) : Op → Out Res × World
  | .addDevice net t pre post => addDevice w net t pre post
  | .addOther net terms => (.ok (.made w.next), w.make net terms [])
  | .setReg e t => setReg w e t
  | .addTap e s r l pre post t => addTap w e s r l pre post t
  | .setTap e s r l pre t => setTap w e s r l pre t
  | .touchTap e s r l pre => touchTap w e s r l pre
  | .addCtrl e t => addCtrl w e t
  | .drop e s => drop w e s
  | .remove e => remove w e
  | .merge a b => merge w a b
  | .write e => write w e

/-- `getRegulatingTerminal`, `getRegulationTerminal`: the reference stored.  The outer `none` is the absence of the slot. -/
def World.getRef (w : World) (e : Nat) (s : Slot) : Option (Option Term) :=
  match w.live.get? e with
  | none => none
  | some q => q.refs.get? s

end Verif.RegTerm
