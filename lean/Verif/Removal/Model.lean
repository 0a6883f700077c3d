import Verif.Graph.Lemmas

/-!
Model of the removal of a voltage level and of a substation.

The index of the network (`NetworkIndex`) is the list of the ids it finds.  The removal of an object from the index
(NetworkIndex.cpp l.154-174) takes its id out; the object found under the id is the one removed, because ids are unique
(properties C01 and C02).  Only what the removal can see is kept of an equipment: its id and its kind.

A connectable that is not refused by the check has one terminal, so each terminal stands for one connectable.
-/

namespace Verif.Removal

open Verif Verif.Graph

/-- Kind of a connectable: one terminal, HVDC converter station, or line / two or three windings transformer
    (`MULTIPLE_TERMINALS_CONNECTABLE_TYPES`, util/VoltageLevels.hpp l.20-26). -/
inductive Kind
  | injection
  | station
  | multi
  deriving DecidableEq, Repr

/-- A connectable, seen from its terminal. -/
structure Conn where
  id : String
  kind : Kind
  deriving DecidableEq, Repr

/-- What the network holds: the ids of the index and the two stations of each HVDC line. -/
structure Net where
  objs : List String
  lines : List (String × String)
  deriving DecidableEq, Repr

/-- `NetworkIndex::remove` (NetworkIndex.cpp l.154-174). -/
def Net.drop (n : Net) (id : String) : Net := { n with objs := n.objs.filter (fun x => decide (x ≠ id)) }

/-- `Network::findHvdcLine(station)` finds something (Network.cpp, `std::find_if` on the two stations of each line). -/
def Net.hasLine (n : Net) (station : String) : Bool := n.lines.any (fun l => l.1 == station || l.2 == station)

/-- `VoltageLevels::checkRemovability` (util/VoltageLevels.cpp l.24-37) on the connectables in turn; `true` is a
    refusal (an exception). -/
def refuses (n : Net) : List Conn → Bool
  | [] => false
  | c :: cs => c.kind == .multi || (c.kind == .station && n.hasLine c.id) || refuses n cs

/-- The objects of the vertices that have one: `NodeBreakerVoltageLevel::getTerminals` (NodeBreakerVoltageLevel.cpp
    l.310-328) and `UndirectedGraph::getVertexObjects` (UndirectedGraph.hxx l.301-317), read without changing the graph.
    -/
def terminals {ε : Type} (g : G Conn ε) : List Conn := g.vertices.filterMap (fun o => o.join)

/-- A node/breaker voltage level: the object of a vertex is the connectable of the terminal at the node, the object of an
    edge is the id of the switch, none for an internal connection. -/
structure NodeVL where
  id : String
  graph : G Conn String
  deriving DecidableEq, Repr

/-- `Connectable::remove` (Connectable.cpp l.95-104) of a connectable with one terminal at the node `v`:
    `NodeBreakerVoltageLevel::detach` (NodeBreakerVoltageLevel.cpp l.129-143), that is `setVertexObject` and `clean`
    (`removeIsolatedVertices`), then the removal from the index.  The `assert`s of `detach` are compiled out.
    `HvdcConverterStation::remove` adds a check on `m_hvdcLine` that holds for a station without line (C28). -/
def removeConn (v : Nat) (c : Conn) (g : G Conn String) (n : Net) : Out Unit × G Conn String × Net :=
  match g.setVertexObject v none with
  | (.ok _, g1) =>
    match g1.removeIsolatedVertices with
    | (.ok _, g2) => (.ok (), g2, n.drop c.id)
    | (.thrown, g2) => (.thrown, g2, n)
    | (.ub, g2) => (.ub, g2, n)
  | (.thrown, g1) => (.thrown, g1, n)
  | (.ub, g1) => (.ub, g1, n)

/-- The loop over `getConnectables()` (VoltageLevel.cpp l.240-243), over the positions of `m_vertices`, `size` of them
    when the loop begins.  The range is made of iterators on that vector: when the vector has become shorter
    (`pop_back` in `removeVertex`) the end of the range is an invalid iterator, and going on is undefined. -/
def connLoop (size : Nat) : List Nat → G Conn String → Net → Out Unit × G Conn String × Net
  | [], g, n => (.ok (), g, n)
  | v :: vs, g, n =>
    match g.vertices[v]? with
    | none => (.ub, g, n)
    | some (some (some c)) =>
      match removeConn v c g n with
      | (.ok _, g', n') => if g'.vertices.length = size then connLoop size vs g' n' else (.ub, g', n')
      | r => r
    | some _ => connLoop size vs g n

/-- The loop of `NodeBreakerVoltageLevel::removeTopology` (NodeBreakerVoltageLevel.cpp l.385-388): the conversion of the
    object of each edge to `Switch&` throws when it is null (stdcxx/reference.hpp l.69-78), which is the case of the
    internal connections. -/
def edgeLoop : List (Option (Edge String)) → Net → Out Unit × Net
  | [], n => (.ok (), n)
  | none :: es, n => edgeLoop es n
  | some ed :: es, n =>
    match ed.obj with
    | none => (.thrown, n)
    | some s => edgeLoop es (n.drop s)

/-- `VoltageLevel::remove` (VoltageLevel.cpp l.237-251) of a node/breaker voltage level. -/
def removeNode (vl : NodeVL) (n : Net) : Out Unit × NodeVL × Net :=
  if refuses n (terminals vl.graph) then (.thrown, vl, n)
  else
    match connLoop vl.graph.vertices.length (List.range vl.graph.vertices.length) vl.graph n with
    | (.ok _, g1, n1) =>
      match edgeLoop g1.edges n1 with
      | (.ok _, n2) => (.ok (), { vl with graph := g1.removeAllEdges }, n2.drop vl.id)
      | (.thrown, n2) => (.thrown, { vl with graph := g1 }, n2)
      | (.ub, n2) => (.ub, { vl with graph := g1 }, n2)
    | (.thrown, g1, n1) => (.thrown, { vl with graph := g1 }, n1)
    | (.ub, g1, n1) => (.ub, { vl with graph := g1 }, n1)

/-- A bus/breaker voltage level: the buses in the order of the vertices of the graph, each with its list of terminals
    (`ConfiguredBus::m_terminals`), and the switches in the order of the edges. -/
structure BusVL where
  id : String
  buses : List (String × List Conn)
  switches : List String
  deriving DecidableEq, Repr

/-- `BusBreakerVoltageLevel::getTerminals` (BusBreakerVoltageLevel.cpp l.247-261). -/
def BusVL.terminals (vl : BusVL) : List Conn := vl.buses.flatMap (fun b => b.2)

/-- Removal of several objects from the index, in turn. -/
def dropAll : List String → Net → Net
  | [], n => n
  | s :: ss, n => dropAll ss (n.drop s)

/-- Removal of the first terminal of the first bus that has one. -/
def dropFirst : List (String × List Conn) → List (String × List Conn)
  | [] => []
  | (b, []) :: bs => (b, []) :: dropFirst bs
  | (b, _ :: ts) :: bs => (b, ts) :: bs

/-- `VoltageLevel::remove` (VoltageLevel.cpp l.237-251) of a bus/breaker voltage level.  The loop over the connectables
    goes through the `std::list` of terminals of each bus; the removal of the first connectable erases the element the
    iterator is on (`ConfiguredBus::removeTerminal`, ConfiguredBus.cpp l.177-188), and going to the next one is
    undefined.  `removeTopology` (BusBreakerVoltageLevel.cpp l.359-362) removes the switches, then the buses. -/
def removeBus (vl : BusVL) (n : Net) : Out Unit × BusVL × Net :=
  if refuses n vl.terminals then (.thrown, vl, n)
  else
    match vl.terminals with
    | [] => (.ok (), { vl with buses := [], switches := [] },
        (dropAll (vl.buses.map (fun b => b.1)) (dropAll vl.switches n)).drop vl.id)
    | c :: _ => (.ub, { vl with buses := dropFirst vl.buses }, n.drop c.id)

/-- A voltage level of either kind. -/
inductive VL
  | node (vl : NodeVL)
  | bus (vl : BusVL)
  deriving DecidableEq, Repr

/-- `VoltageLevel::remove`. -/
def VL.remove : VL → Net → Out Unit × Net
  | .node vl, n => ((removeNode vl n).1, (removeNode vl n).2.2)
  | .bus vl, n => ((removeBus vl n).1, (removeBus vl n).2.2)

/-- `Substation::remove` (Substation.cpp l.130-153).  `allowed` is the outcome of `Substations::checkRemovability`
    (util/Substations.cpp l.29-69); `links` is the removal of the branches, transformers and HVDC lines of a voltage
    level (l.135-145), left open: it may do anything to the voltage levels and to the network.  `vl.remove()` erases the
    voltage level from `m_voltageLevels` (l.155-162), the vector the loop is iterating on: the iterator on it is invalid
    from there on, and going to the next one is undefined. -/
def removeSubstation (id : String) (allowed : Bool) (links : VL → Net → Out VL × Net) (vls : List VL) (n : Net) :
    Out Unit × Net :=
  if !allowed then (.thrown, n)
  else
    match vls with
    | [] => (.ok (), n.drop id)
    | vl :: _ =>
      match links vl n with
      | (.ok vl', n') =>
        match vl'.remove n' with
        | (.ok _, n'') => (.ub, n'')
        | r => r
      | (.thrown, n') => (.thrown, n')
      | (.ub, n') => (.ub, n')

end Verif.Removal
