import Verif.Common.Out
import Verif.Common.AMap
import Verif.UniqueId.Model

/-! Model of the adders of equipment: terminal construction (TerminalBuilder.cpp), the two orders of the injection adders, the adders of equipment with
    several terminals, attachment to the topology and removal (Connectable.cpp), in one variant. -/

namespace Verif.Adders

open Verif

/-! ### Terminal construction -/

/-- Arguments `m_node`, `m_bus` and `m_connectableBus` of a terminal (TerminalBuilder.hpp). -/
structure Args where
  node : Option Nat
  bus : String
  connectableBus : String
  deriving DecidableEq, Repr

/-- A terminal: a `NodeTerminal` on a node, or a `BusTerminal` on a connectable bus, connected or not (TerminalBuilder.cpp l.49-51). -/
inductive Place where
  | node (n : Nat)
  | bus (id : String) (connected : Bool)
  deriving DecidableEq, Repr

/-- `TerminalBuilder::getConnectionBus` (TerminalBuilder.cpp l.25-35). -/
def connectionBus (a : Args) : Out String :=
  if a.bus ≠ "" then
    if a.connectableBus ≠ "" ∧ a.bus ≠ a.connectableBus then .thrown else .ok a.bus
  else .ok a.connectableBus

/-- `createBusTerminal` (BusTerminal.cpp l.22-28): the id of the bus must not be empty. -/
def createBusTerminal (id : String) (connected : Bool) : Out Place := if id = "" then .thrown else .ok (.bus id connected)

/-- `TerminalBuilder::build` (TerminalBuilder.cpp l.37-55). -/
def build (a : Args) : Out Place :=
  match connectionBus a with
  | .thrown => .thrown
  | .ub => .ub
  | .ok c =>
    match a.node with
    | some n => if c ≠ "" then .thrown else .ok (.node n)
    | none => if c = "" then .thrown else createBusTerminal c (decide (a.bus ≠ ""))

/-! ### Topology -/

/-- A terminal as seen by the topology: the id of its equipment and its rank in the equipment.  The code keeps a reference to the terminal. -/
abbrev TermId := String × Nat

/-- The part of a topology concerned by terminals.  Node/breaker: the vertices of the graph with their terminal if any, and the nodes with a switch or an internal
    connection.  Bus/breaker: the configured buses with the list of their terminals. -/
inductive Topo where
  | nodeBreaker (nodes : AMap Nat (Option TermId)) (touched : List Nat)
  | busBreaker (buses : AMap String (List TermId))
  deriving DecidableEq, Repr

structure VL where
  substation : String
  topo : Topo
  deriving DecidableEq, Repr

/-- A network: equipment of the index with their terminals, voltage levels, and the other ids and aliases of the index. -/
structure Net where
  equips : AMap String (List (String × Place))
  vls : AMap String VL
  others : List String
  deriving DecidableEq, Repr

/-- `attach(terminal, true)`: `checkTerminal` only (NodeBreakerVoltageLevel.cpp l.56, l.78-84; BusBreakerVoltageLevel.cpp l.61, l.74-86). -/
def dryRun : Topo → Place → Bool
  | .nodeBreaker _ _, .node _ => true
  | .nodeBreaker _ _, .bus _ _ => false
  | .busBreaker _, .node _ => false
  | .busBreaker buses, .bus b _ => (buses.get? b).isSome

/-- `attach(terminal, false)` (NodeBreakerVoltageLevel.cpp l.55-76, BusBreakerVoltageLevel.cpp l.60-72, ConfiguredBus.cpp l.42-44); `none` when it throws.  Adding the
    vertex before the check of the occupation (l.60) changes nothing when the check fails. -/
def attachTopo : Topo → TermId → Place → Option Topo
  | .nodeBreaker nodes touched, x, .node n =>
    match nodes.get? n with
    | some (some _) => none
    | _ => some (.nodeBreaker (nodes.set n (some x)) touched)
  | .busBreaker buses, x, .bus b _ =>
    match buses.get? b with
    | none => none
    | some l => some (.busBreaker (buses.set b (l ++ [x])))
  | _, _, _ => none

/-- Attachment to a voltage level, which must be alive. -/
def attach (s : Net) (x : TermId) (vl : String) (p : Place) : Out Unit × Net :=
  match s.vls.get? vl with
  | none => (.ub, s)
  | some v =>
    match attachTopo v.topo x p with
    | none => (.thrown, s)
    | some t => (.ok (), { s with vls := s.vls.set vl { v with topo := t } })

/-- The attachments at the end of the adders of equipment with several terminals (LineAdder.cpp l.49-50, ThreeWindingsTransformerAdder.cpp l.66-68). -/
def attachAll (s : Net) (id : String) : Nat → List (String × Place) → Out Unit × Net
  | _, [] => (.ok (), s)
  | i, (vl, p) :: r =>
    match attach s (id, i) vl p with
    | (.ok _, t) => attachAll t id (i + 1) r
    | (.thrown, t) => (.thrown, t)
    | (.ub, t) => (.ub, t)

/-! ### Adders -/

/-- The ids and aliases of the index. -/
def used (s : Net) : List String := s.equips.map (·.1) ++ s.vls.map (·.1) ++ s.others

/-- `checkAndGetUniqueId` (IdentifiableAdder.hxx l.25-47), then the check of `checkAndAdd` (NetworkIndex.hxx l.35-40); `none` when one of them throws. -/
def newId (s : Net) (ensure : Bool) (id : String) : Option String :=
  if id = "" then none
  else if ensure then
    if UniqueId.getUniqueId id (fun n => decide (n ∈ used s)) ∈ used s then none else some (UniqueId.getUniqueId id (fun n => decide (n ∈ used s)))
  else if id ∈ used s then none else some id

/-- Whether the terminal is built before the equipment is put in the index (GeneratorAdder.cpp l.24-46, ShuntCompensatorAdder.cpp l.23-43,
    StaticVarCompensatorAdder.cpp l.24-40) or after (LoadAdder.cpp l.24-36, BatteryAdder.cpp l.25-39, DanglingLineAdder.cpp l.25-43, BusbarSectionAdder.cpp l.25-35,
    VscConverterStationAdder.cpp l.23-33, LccConverterStationAdder.cpp l.23-33). -/
inductive Order where
  | terminalFirst
  | terminalLast
  deriving DecidableEq, Repr

/-- The end of an injection adder: the equipment is put in the index, its terminal is added to it and attached. -/
def finishInjection (s : Net) (n vl : String) (p : Place) : Out String × Net :=
  match attach { s with equips := s.equips.set n [(vl, p)] } (n, 0) vl p with
  | (.ok _, t) => (.ok n, t)
  | (.thrown, t) => (.thrown, t)
  | (.ub, t) => (.ub, t)

/-- An injection adder; `valid` tells whether the checks of the values pass (all of them come first).  `vl` is the id of the voltage level of the adder, which
    must be alive. -/
def addInjection (s : Net) (o : Order) (valid ensure : Bool) (id vl : String) (a : Args) : Out String × Net :=
  if s.vls.get? vl = none then (.ub, s)
  else if !valid then (.thrown, s)
  else
    match o with
    | .terminalFirst =>
      match build a with
      | .thrown => (.thrown, s)
      | .ub => (.ub, s)
      | .ok p =>
        match newId s ensure id with
        | none => (.thrown, s)
        | some n => finishInjection s n vl p
    | .terminalLast =>
      match newId s ensure id with
      | none => (.thrown, s)
      | some n =>
        match build a with
        | .thrown => (.thrown, { s with equips := s.equips.set n [] })
        | .ub => (.ub, { s with equips := s.equips.set n [] })
        | .ok p => finishInjection s n vl p

/-- Voltage level and terminal of one end (BranchAdder.hxx l.21-65, LegAdder::checkAndGetVoltageLevel in ThreeWindingsTransformerLegAdder.cpp l.67-79); `sub` is the substation
    the voltage level must belong to, if any (TwoWindingsTransformerAdder.cpp l.28). -/
def resolve (s : Net) (sub : Option String) (e : String × Args) : Option (String × Place) :=
  if e.1 = "" then none
  else
    match s.vls.get? e.1 with
    | none => none
    | some v =>
      if sub ≠ none ∧ sub ≠ some v.substation then none
      else
        match build e.2 with
        | .ok p => some (e.1, p)
        | _ => none

def resolveAll (s : Net) (sub : Option String) : List (String × Args) → Option (List (String × Place))
  | [] => some []
  | e :: r =>
    match resolve s sub e with
    | none => none
    | some x =>
      match resolveAll s sub r with
      | none => none
      | some l => some (x :: l)

/-- The dry run on one end. -/
def dryRunAt (s : Net) (e : String × Place) : Bool :=
  match s.vls.get? e.1 with
  | none => false
  | some v => dryRun v.topo e.2

/-- The adders of equipment with several terminals (LineAdder.cpp l.27-53, TieLineAdder.cpp l.24-55, TwoWindingsTransformerAdder.cpp l.25-56, ThreeWindingsTransformerAdder.cpp
    l.24-71).  The checks before the insertion change nothing and all throw, their order is not modelled. -/
def addMulti (s : Net) (valid ensure : Bool) (id : String) (sub : Option String) (ends : List (String × Args)) : Out String × Net :=
  if !valid then (.thrown, s)
  else
    match resolveAll s sub ends with
    | none => (.thrown, s)
    | some l =>
      if l.all (dryRunAt s) then
        match newId s ensure id with
        | none => (.thrown, s)
        | some n =>
          match attachAll { s with equips := s.equips.set n l } n 0 l with
          | (.ok _, t) => (.ok n, t)
          | (.thrown, t) => (.thrown, t)
          | (.ub, t) => (.ub, t)
      else (.thrown, s)

/-- Addition of an object without terminal: substation (SubstationAdder.cpp l.22-27), HVDC line. -/
def addOther (s : Net) (valid ensure : Bool) (id : String) : Out String × Net :=
  if !valid then (.thrown, s)
  else
    match newId s ensure id with
    | none => (.thrown, s)
    | some n => (.ok n, { s with others := n :: s.others })

/-- Addition of a voltage level (VoltageLevelAdder.cpp l.25-49). -/
def addVL (s : Net) (valid ensure : Bool) (id sub : String) (nodeBreaker : Bool) : Out String × Net :=
  if !valid then (.thrown, s)
  else
    match newId s ensure id with
    | none => (.thrown, s)
    | some n => (.ok n, { s with vls := s.vls.set n ⟨sub, if nodeBreaker then .nodeBreaker [] [] else .busBreaker []⟩ })

/-- The effect of a new bus on the topology (BusBreakerVoltageLevel.cpp l.34-42). -/
def busTopo : Topo → String → Option Topo
  | .busBreaker buses, n => some (.busBreaker (buses.set n []))
  | _, _ => none

/-- Addition of a bus (BusAdder.cpp l.21-26). -/
def addBus (s : Net) (ensure : Bool) (id vl : String) : Out String × Net :=
  match s.vls.get? vl with
  | none => (.ub, s)
  | some v =>
    match newId s ensure id with
    | none => (.thrown, s)
    | some n =>
      match busTopo v.topo n with
      | none => (.thrown, s)
      | some t => (.ok n, { s with others := n :: s.others, vls := s.vls.set vl { v with topo := t } })

/-- `addVertexIfNotPresent` (UndirectedGraph.hxx). -/
def ensureVertex (nodes : AMap Nat (Option TermId)) (n : Nat) : AMap Nat (Option TermId) :=
  match nodes.get? n with
  | none => nodes.set n none
  | some _ => nodes

/-- The effect of a new switch between two nodes on the topology (NodeBreakerVoltageLevel.cpp l.40-48). -/
def switchTopo : Topo → Nat → Nat → Option Topo
  | .nodeBreaker nodes touched, n1, n2 => some (.nodeBreaker (ensureVertex (ensureVertex nodes n1) n2) (n1 :: n2 :: touched))
  | _, _, _ => none

/-- Addition of a switch between two nodes (SwitchAdder.cpp l.26-37). -/
def addSwitch (s : Net) (ensure : Bool) (id vl : String) (n1 n2 : Nat) : Out String × Net :=
  match s.vls.get? vl with
  | none => (.ub, s)
  | some v =>
    match newId s ensure id with
    | none => (.thrown, s)
    | some n =>
      match switchTopo v.topo n1 n2 with
      | none => (.thrown, s)
      | some t => (.ok n, { s with others := n :: s.others, vls := s.vls.set vl { v with topo := t } })

/-! ### Removal -/

/-- `clean` (NodeBreakerVoltageLevel.cpp l.86-88): the vertices without terminal and without edge are removed. -/
def clean (nodes : AMap Nat (Option TermId)) (touched : List Nat) : AMap Nat (Option TermId) :=
  nodes.filter fun p => p.2.isSome || decide (p.1 ∈ touched)

/-- `detach` (NodeBreakerVoltageLevel.cpp l.129-143, BusBreakerVoltageLevel.cpp l.108-120, ConfiguredBus.cpp l.177-188).  With `debug` the assertion that the vertex holds
    the terminal ends the program (`ub`). -/
def detachTopo (debug : Bool) : Topo → TermId → Place → Out Topo
  | .nodeBreaker nodes touched, x, .node n =>
    if debug && !decide (nodes.get? n = some (some x)) then .ub
    else if nodes.get? n = none then .thrown
    else .ok (.nodeBreaker (clean (nodes.set n none) touched) touched)
  | .busBreaker buses, x, .bus b _ =>
    match buses.get? b with
    | none => .thrown
    | some l => if x ∈ l then .ok (.busBreaker (buses.set b (l.erase x))) else .thrown
  | _, _, _ => .thrown

/-- The terminal after it was detached: a bus terminal has no connectable bus any more (BusBreakerVoltageLevel.cpp l.116). -/
def cleared : String × Place → String × Place
  | (vl, .bus _ c) => (vl, .bus "" c)
  | e => e

/-- The loop of `Connectable::remove` (Connectable.cpp l.98-101) from rank `i` on; `done` are the terminals already detached. -/
def detachAll (debug : Bool) (s : Net) (id : String) (done : List (String × Place)) : List (String × Place) → Out Unit × Net
  | [] => (.ok (), s)
  | e :: r =>
    match s.vls.get? e.1 with
    | none => (.ub, s)
    | some v =>
      match detachTopo debug v.topo (id, done.length) e.2 with
      | .thrown => (.thrown, s)
      | .ub => (.ub, s)
      | .ok t =>
        detachAll debug { s with vls := s.vls.set e.1 { v with topo := t }, equips := s.equips.set id (done ++ cleared e :: r) } id (done ++ [cleared e]) r

/-- `Connectable::remove` (Connectable.cpp l.95-104) on an equipment, which must be alive; without terminal `getNetwork` throws (l.57-63). -/
def remove (s : Net) (debug : Bool) (id : String) : Out Unit × Net :=
  match s.equips.get? id with
  | none => (.ub, s)
  | some [] => (.thrown, s)
  | some (e :: r) =>
    match detachAll debug s id [] (e :: r) with
    | (.ok _, t) => (.ok (), { t with equips := t.equips.erase id })
    | (.thrown, t) => (.thrown, t)
    | (.ub, t) => (.ub, t)

end Verif.Adders
