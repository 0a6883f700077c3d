import Verif.NodeBreaker.VLProps

/-!
Model of the lookups of a node/breaker voltage level: switches by id, their nodes, the lists of switches and internal
connections, the terminals by node, the retained switches of the bus/breaker view
(NodeBreakerVoltageLevel.cpp l.228-328, NodeBreakerVoltageLevelViews.cpp l.181-284, NodeBreakerVoltageLevelTopology.cpp
l.39-118).
-/

namespace Verif.NodeBreaker

open Verif Verif.Graph

/-- `getEdge` (NodeBreakerVoltageLevel.cpp l.228-240). -/
def VL.getEdge (s : VL) (id : String) (throwException : Bool) : Out (Option Nat) :=
  if id = "" then .thrown
  else
    match s.switches.get? id with
    | some e => .ok (some e)
    | none => if throwException then .thrown else .ok none

/-- `graph.getVertex1(e)` / `getVertex2(e)` (UndirectedGraph.hxx l.272-282). -/
def vertexOf (g : Gr) (second : Bool) (e : Nat) : Out Nat :=
  match g.edgeAt e with
  | none => .thrown
  | some ed => .ok (if second then ed.v2 else ed.v1)

/-- `graph.getEdgeObject(e)` (UndirectedGraph.hxx l.212-217). -/
def edgeObject (g : Gr) (e : Nat) : Out (Option Sw) :=
  match g.edgeAt e with
  | none => .thrown
  | some ed => .ok ed.obj

/-- `getNode1` / `getNode2` (NodeBreakerVoltageLevel.cpp l.255-263). -/
def VL.getNode (s : VL) (second : Bool) (id : String) : Out Nat :=
  (s.getEdge id true).bind fun o =>
    match o with
    | none => .ub
    | some e => vertexOf s.graph second e

/-- `getSwitch` (NodeBreakerVoltageLevel.cpp l.273-285); `Reference::get` throws when there is no object. -/
def VL.getSwitch (s : VL) (id : String) : Out (Option Sw) :=
  (s.getEdge id false).bind fun o =>
    match o with
    | none => .ok none
    | some e => (edgeObject s.graph e).bind fun o =>
      match o with
      | none => .thrown
      | some sw => if sw.id ≠ id then .thrown else .ok (some sw)

/-- `getEdgeObjects()` (UndirectedGraph.hxx l.219-226). -/
def edgeObjects (g : Gr) : List (Option Sw) := (g.edges.filterMap _root_.id).map Edge.obj

/-- `getSwitches` of the node/breaker view (NodeBreakerVoltageLevelViews.cpp l.238-246, NodeBreakerVoltageLevel.cpp
    l.294-296). -/
def VL.getSwitches (s : VL) : List Sw := (edgeObjects s.graph).filterMap _root_.id

/-- `getSwitchCount` (NodeBreakerVoltageLevel.cpp l.287-292). -/
def VL.getSwitchCount (s : VL) : Nat := (edgeObjects s.graph).countP Option.isSome

/-- `getInternalConnectionCount` (NodeBreakerVoltageLevel.cpp l.246-249). -/
def VL.getInternalConnectionCount (s : VL) : Nat := (edgeObjects s.graph).countP Option.isNone

/-- `getInternalConnections` (NodeBreakerVoltageLevelViews.cpp l.181-194): the pairs of nodes of the edges without
    object. -/
def VL.getInternalConnections (s : VL) : List (Nat × Nat) :=
  ((s.graph.edges.filterMap _root_.id).filter (fun ed => ed.obj.isNone)).map (fun ed => (ed.v1, ed.v2))

/-- `getMaximumNodeIndex` (NodeBreakerVoltageLevel.cpp l.251-253); `0UL - 1` becomes the `long` `-1`. -/
def VL.getMaximumNodeIndex (s : VL) : Int := (s.graph.vertices.length : Int) - 1

/-- `getTerminal(node)` (NodeBreakerVoltageLevel.cpp l.302-308, UndirectedGraph.hxx l.294-299). -/
def VL.getTerminal (s : VL) (node : Nat) : Out (Option Term) :=
  match s.graph.vertexAt node with
  | none => .thrown
  | some o => .ok o

/-- `getOptionalTerminal` (NodeBreakerVoltageLevelViews.cpp l.212-224). -/
def VL.getOptionalTerminal (s : VL) (node : Nat) : Out (Option Term) :=
  if s.graph.vertexExists node then s.getTerminal node else .ok none

/-- `getTerminal1` / `getTerminal2` (NodeBreakerVoltageLevelViews.cpp l.266-280). -/
def VL.getTerminalOf (s : VL) (second : Bool) (id : String) : Out (Option Term) :=
  (s.getNode second id).bind s.getTerminal

/-- `getTerminals` (NodeBreakerVoltageLevel.cpp l.310-318). -/
def VL.getTerminals (s : VL) : List Term := (s.graph.vertices.filterMap _root_.id).filterMap _root_.id

/-- `hasAttachedEquipment` (NodeBreakerVoltageLevelViews.cpp l.282-284). -/
def VL.hasAttachedEquipment (s : VL) (node : Nat) : Bool := s.graph.vertexExists node

/-! ### The bus/breaker view -/

/-- `getRetainedSwitch` (NodeBreakerVoltageLevelTopology.cpp l.69-78) in variant `w`. -/
def VL.getRetainedSwitch (s : VL) (w : Nat) (e : Option Nat) : Out (Option Sw) :=
  match e with
  | none => .ok none
  | some e => (edgeObject s.graph e).bind fun o =>
    match o with
    | none => .thrown
    | some sw => if s.retained w sw.handle then .ok (some sw) else .ok none

/-- `CalculatedBusBreakerTopology::getSwitch(id, true)` (NodeBreakerVoltageLevelTopology.cpp l.80-88, called with `true`
    by NodeBreakerVoltageLevelViews.cpp l.68-74). -/
def VL.bbvGetSwitch (s : VL) (w : Nat) (id : String) : Out (Option Sw) :=
  (s.getEdge id false).bind fun e => (s.getRetainedSwitch w e).bind fun o =>
    match o with
    | none => .thrown
    | some sw => .ok (some sw)

/-- `getSwitches` (NodeBreakerVoltageLevelTopology.cpp l.102-118). -/
def VL.bbvGetSwitches (s : VL) (w : Nat) : List Sw :=
  ((edgeObjects s.graph).filter (fun o => match o with | some sw => s.retained w sw.handle | none => false)).filterMap _root_.id

/-- `getSwitchCount` (NodeBreakerVoltageLevelTopology.cpp l.90-100). -/
def VL.bbvGetSwitchCount (s : VL) (w : Nat) : Nat :=
  (edgeObjects s.graph).countP (fun o => match o with | some sw => s.retained w sw.handle | none => false)

/-- `getBus1` / `getBus2` with `throwException` (NodeBreakerVoltageLevelTopology.cpp l.39-67, called with `true` by
    NodeBreakerVoltageLevelViews.cpp l.36-50). -/
def VL.bbvGetBusOf (s : VL) (second : Bool) (w : Nat) (id : String) : Out (Option String) × VL :=
  match s.getEdge id true with
  | .ok e =>
    match s.getRetainedSwitch w e with
    | .ok (some _) =>
      match e with
      | none => (.ub, s)
      | some e =>
        match vertexOf s.graph second e with
        | .ok v => s.getBus .busBreaker w v
        | .thrown => (.thrown, s)
        | .ub => (.ub, s)
    | .ok none => (.thrown, s)
    | .thrown => (.thrown, s)
    | .ub => (.ub, s)
  | .thrown => (.thrown, s)
  | .ub => (.ub, s)

end Verif.NodeBreaker
