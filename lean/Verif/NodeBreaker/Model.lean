import Verif.Graph.Search
import Verif.Common.AMap

/-!
Model of the node/breaker voltage level: bus computation, caches, connection and disconnection of terminals
(src/iidm/NodeBreakerVoltageLevel.cpp, NodeBreakerVoltageLevelTopology.cpp, NodeBreakerVoltageLevelBusCache.cpp,
NodeBreakerVoltageLevelBusNamingStrategy.cpp, Switch.cpp, util/Networks.cpp).

Not modelled: names of buses, properties of the objects, the caches held by the network (views and components).
-/

namespace Verif.NodeBreaker

open Verif Verif.Graph

/-- `ConnectableType` (include/powsybl/iidm/ConnectableType.hpp). -/
inductive EqType where
  | busbarSection | line | twoWindingsTransformer | threeWindingsTransformer | hvdcConverterStation | danglingLine
  | load | generator | battery | shuntCompensator | staticVarCompensator
  deriving DecidableEq, Repr

/-- `SwitchKind` (include/powsybl/iidm/SwitchKind.hpp). -/
inductive SwKind where
  | breaker | disconnector | loadBreakSwitch
  deriving DecidableEq, Repr

/-- `NodeTerminal`: `handle` identifies the object, `node` is `m_node`, `type` the type of its connectable. -/
structure Term where
  handle : Nat
  type : EqType
  node : Nat
  deriving DecidableEq, Repr

/-- `Switch`: the parts that do not depend on the variant (Switch.cpp l.16-23). -/
structure Sw where
  handle : Nat
  id : String
  kind : SwKind
  deriving DecidableEq, Repr

/-- The graph of a node/breaker voltage level (NodeBreakerVoltageLevelGraph.hpp). -/
abbrev Gr := G Term Sw

/-- `CalculatedBus` (CalculatedBus.cpp l.24-29). -/
structure Bus where
  nodes : List Nat
  terminals : List Term
  deriving DecidableEq, Repr

/-- `BusCache` (NodeBreakerVoltageLevelBusCache.hpp): the reference kept for a node is the key of the bus in the map. -/
structure Cache where
  byNode : List (Option String)
  byId : AMap String Bus
  deriving DecidableEq, Repr

/-- `BusNamingStrategy::getId` (NodeBreakerVoltageLevelBusNamingStrategy.cpp l.24-27); `none` stands for the dereference
    of the end iterator. -/
def busId (vl : String) (nodes : List Nat) : Option String :=
  match nodes.min? with
  | some m => some (vl ++ "_" ++ toString m)
  | none => none

/-- The terminals on the nodes (NodeBreakerVoltageLevelTopology.cpp l.266-273). -/
def terminalsOn (g : Gr) : List Nat → List Term
  | [] => []
  | v :: vs =>
    match g.vertexAt v with
    | some (some t) => t :: terminalsOn g vs
    | _ => terminalsOn g vs

def EqType.isBranch : EqType → Bool
  | .line | .twoWindingsTransformer | .threeWindingsTransformer | .hvdcConverterStation | .danglingLine => true
  | _ => false

def EqType.isFeeder : EqType → Bool
  | .busbarSection => false
  | _ => true

/-- The counters of `isBusValid` (NodeBreakerVoltageLevelTopology.cpp l.209-245): feeders, branches, busbar sections. -/
def counts : List Term → Nat × Nat × Nat
  | [] => (0, 0, 0)
  | t :: ts =>
    let c := counts ts
    match t.type with
    | .line | .twoWindingsTransformer | .threeWindingsTransformer | .hvdcConverterStation | .danglingLine =>
      (c.1 + 1, c.2.1 + 1, c.2.2)
    | .load | .generator | .battery | .shuntCompensator | .staticVarCompensator => (c.1 + 1, c.2.1, c.2.2)
    | .busbarSection => (c.1, c.2.1, c.2.2 + 1)

/-- The two computed views: `CalculatedBusTopology` (bus view) and `CalculatedBusBreakerTopology` (bus/breaker view). -/
inductive View where
  | bus | busBreaker
  deriving DecidableEq, Repr

/-- `isBusValid` (NodeBreakerVoltageLevelTopology.cpp l.120-122 and l.208-248). -/
def isBusValid (view : View) (g : Gr) (nodes : List Nat) : Bool :=
  match view with
  | .busBreaker => !nodes.isEmpty
  | .bus =>
    let c := counts (terminalsOn g nodes)
    (decide (1 ≤ c.2.2) && decide (1 ≤ c.1)) || (decide (1 ≤ c.2.1) && decide (2 ≤ c.1))

/-- `createSwitchPredicate` (NodeBreakerVoltageLevelTopology.cpp l.33-37 and l.128-132): the switch ends the traversal.
    `opened` and `retained` are the states in the working variant. -/
def terminate (view : View) (opened retained : Nat → Bool) (s : Sw) : Bool :=
  match view with
  | .bus => opened s.handle
  | .busBreaker => opened s.handle || retained s.handle

/-- The callback given to `graph.traverse` (NodeBreakerVoltageLevelTopology.cpp l.255-263). -/
def accept (view : View) (g : Gr) (opened retained : Nat → Bool) (_v1 e _v2 : Nat) : Bool :=
  match g.edgeAt e with
  | some ed =>
    match ed.obj with
    | some s => !terminate view opened retained s
    | none => true
  | none => false

/-- State of the computation: `encountered`, `busById`, `busByNode`. -/
structure BSt where
  enc : List Bool
  cache : Cache
  deriving DecidableEq, Repr

/-- `busByNode[vertex] = calculatedBus` (NodeBreakerVoltageLevelTopology.cpp l.281-283). -/
def assignNodes (id : String) : List Nat → List (Option String) → Out (List (Option String))
  | [], l => .ok l
  | v :: vs, l => if v < l.length then assignNodes id vs (l.set v (some id)) else .ub

/-- `CalculatedBusTopology::traverse` (NodeBreakerVoltageLevelTopology.cpp l.250-286).  `std::map::insert` keeps the entry
    that is already there (l.278). -/
def traverse (vl : String) (view : View) (g : Gr) (opened retained : Nat → Bool) (v : Nat) (st : BSt) : Out BSt :=
  match st.enc[v]? with
  | none => .ub
  | some true => .ok st
  | some false =>
    (g.traverse (accept view g opened retained) v st.enc).bind (fun t =>
      let nodes := v :: ((t.log.filter Call.go).map Call.dst)
      match busId vl nodes with
      | none => .ub
      | some id =>
        if isBusValid view g nodes then
          (assignNodes id nodes st.cache.byNode).map
            (fun l => ⟨t.enc, ⟨l, AMap.emplace st.cache.byId id ⟨nodes, terminalsOn g nodes⟩⟩⟩)
        else .ok ⟨t.enc, st.cache⟩)

/-- The loop of `updateCache` over the edges (NodeBreakerVoltageLevelTopology.cpp l.306-309). -/
def edgeLoop (vl : String) (view : View) (g : Gr) (opened retained : Nat → Bool) : List (Edge Sw) → BSt → Out BSt
  | [], st => .ok st
  | ed :: es, st =>
    (traverse vl view g opened retained ed.v1 st).bind (fun st =>
      (traverse vl view g opened retained ed.v2 st).bind (edgeLoop vl view g opened retained es))

/-- `updateCache` with an empty cache (NodeBreakerVoltageLevelTopology.cpp l.292-314). -/
def compute (vl : String) (view : View) (g : Gr) (opened retained : Nat → Bool) : Out Cache :=
  (edgeLoop vl view g opened retained (g.edges.filterMap id)
    ⟨List.replicate g.vertices.length false, ⟨List.replicate g.vertices.length none, []⟩⟩).map BSt.cache

/-- `BusCache::getBus(node)` (NodeBreakerVoltageLevelBusCache.cpp l.24-26): `vector::at` throws. -/
def Cache.getBus (c : Cache) (node : Nat) : Out (Option String) :=
  match c.byNode[node]? with
  | none => .thrown
  | some r => .ok r

/-! ### The voltage level -/

/-- The members of the voltage level and of its switches that matter here.  What depends on the variant is a function of
    the variant index. -/
structure VL where
  id : String
  graph : Gr := {}
  switches : AMap String Nat := []
  opened : Nat → Nat → Bool := fun _ _ => false
  retained : Nat → Nat → Bool := fun _ _ => false
  cache : View → Nat → Option Cache := fun _ _ => none

/-- Function update. -/
def upd {α β : Type} [DecidableEq α] (f : α → β) (a : α) (b : β) : α → β := fun x => if x = a then b else f x

/-- `invalidateCache` in the working variant `w` (NodeBreakerVoltageLevel.cpp l.336-343). -/
def VL.invalidate (s : VL) (w : Nat) : VL := { s with cache := fun view => upd (s.cache view) w none }

/-- `forEachVariant` of `invalidateCache` (NodeBreakerVoltageLevel.cpp l.72-74, l.136-138). -/
def VL.invalidateAll (s : VL) : VL := { s with cache := fun _ _ => none }

/-- `updateCache` (NodeBreakerVoltageLevelTopology.cpp l.292-314) in variant `w`.  The traversals fill the adjacency list
    of the graph. -/
def VL.update (s : VL) (view : View) (w : Nat) : Out Cache × VL :=
  match s.cache view w with
  | some c => (.ok c, s)
  | none =>
    match compute s.id view s.graph (s.opened w) (s.retained w) with
    | .ok c => (.ok c, { s with cache := upd s.cache view (upd (s.cache view) w (some c)), graph := s.graph.query.2 })
    | .thrown => (.thrown, s)
    | .ub => (.ub, s)

/-- `CalculatedBusTopology::getBus(node)` (NodeBreakerVoltageLevelTopology.cpp l.134-138). -/
def VL.getBus (s : VL) (view : View) (w node : Nat) : Out (Option String) × VL :=
  match s.update view w with
  | (.ok c, s') => (c.getBus node, s')
  | (.thrown, s') => (.thrown, s')
  | (.ub, s') => (.ub, s')

/-- `Switch::setOpen` (Switch.cpp l.90-99). -/
def VL.setOpen (s : VL) (w sw : Nat) (b : Bool) : VL :=
  if s.opened w sw ≠ b then { s with opened := upd s.opened w (upd (s.opened w) sw b) }.invalidate w else s

/-- `Switch::setRetained` (Switch.cpp l.101-114). -/
def VL.setRetained (s : VL) (w sw : Nat) (b : Bool) : VL :=
  if s.retained w sw ≠ b then { s with retained := upd s.retained w (upd (s.retained w) sw b) }.invalidate w else s

/-- Runs two graph calls and an `addEdge`. -/
def link (g : Gr) (n1 n2 : Nat) (obj : Option Sw) : Out Nat × Gr :=
  (((g.addVertexIfNotPresent n1).2.addVertexIfNotPresent n2).2).addEdge n1 n2 obj

/-- `addInternalConnection` (NodeBreakerVoltageLevel.cpp l.33-38). -/
def VL.addInternalConnection (s : VL) (w n1 n2 : Nat) : Out Unit × VL :=
  match link s.graph n1 n2 none with
  | (.ok _, g) => (.ok (), { s with graph := g }.invalidate w)
  | (.thrown, g) => (.thrown, { s with graph := g })
  | (.ub, g) => (.ub, { s with graph := g })

/-- `addSwitch` (NodeBreakerVoltageLevel.cpp l.40-48).  `registered` is the answer of `Network::checkAndAdd`.  The new
    switch has the given states in every variant (Switch.cpp l.21-22).  No cache is invalidated. -/
def VL.addSwitch (s : VL) (registered : Bool) (sw : Sw) (opened retained : Bool) (n1 n2 : Nat) : Out Unit × VL :=
  if !registered then (.thrown, s)
  else
    match link s.graph n1 n2 (some sw) with
    | (.ok e, g) => (.ok (), { s with
        graph := g
        switches := AMap.emplace s.switches sw.id e
        opened := fun w => upd (s.opened w) sw.handle opened
        retained := fun w => upd (s.retained w) sw.handle retained })
    | (.thrown, g) => (.thrown, { s with graph := g })
    | (.ub, g) => (.ub, { s with graph := g })

/-- `attach(terminal, false)` (NodeBreakerVoltageLevel.cpp l.55-76) for a node terminal; `test` returns at once. -/
def VL.attach (s : VL) (t : Term) (test : Bool) : Out Unit × VL :=
  if test then (.ok (), s)
  else
    let g := (s.graph.addVertexIfNotPresent t.node).2
    match g.vertexAt t.node with
    | none => (.thrown, { s with graph := g })
    | some (some _) => (.thrown, { s with graph := g })
    | some none => (.ok (), { s with graph := (g.setVertexObject t.node (some t)).2 }.invalidateAll)

/-- `detach` (NodeBreakerVoltageLevel.cpp l.129-143).  `debug` tells whether `assert` is active; a failed assertion ends the
    process and is reported as `ub` here. -/
def VL.detach (s : VL) (debug : Bool) (t : Term) : Out Unit × VL :=
  if debug && !decide (t.node < s.graph.vertexCount) then (.ub, s)
  else if debug && !decide (s.graph.vertexAt t.node = some (some t)) then (.ub, s)
  else
    let s := s.invalidateAll
    match s.graph.setVertexObject t.node none with
    | (.ok _, g) =>
      match g.removeIsolatedVertices with
      | (.ok _, g) => (.ok (), { s with graph := g })
      | (.thrown, g) => (.thrown, { s with graph := g })
      | (.ub, g) => (.ub, { s with graph := g })
    | (.thrown, g) => (.thrown, { s with graph := g })
    | (.ub, g) => (.ub, { s with graph := g })

/-- `removeSwitch` (NodeBreakerVoltageLevel.cpp l.372-383), without the removal from the index.  No cache is invalidated. -/
def VL.removeSwitch (s : VL) (id : String) : Out Unit × VL :=
  match s.switches.get? id with
  | none => (.thrown, s)
  | some e =>
    match s.graph.removeEdge e with
    | (.ok _, g) =>
      match g.removeIsolatedVertices with
      | (.ok _, g) => (.ok (), { s with graph := g, switches := AMap.erase s.switches id })
      | (.thrown, g) => (.thrown, { s with graph := g })
      | (.ub, g) => (.ub, { s with graph := g })
    | (.thrown, g) => (.thrown, { s with graph := g })
    | (.ub, g) => (.ub, { s with graph := g })

/-- The filter of `removeInternalConnections` (NodeBreakerVoltageLevel.cpp l.357-359). -/
def isConnection (n1 n2 : Nat) (ed : Edge Sw) : Bool :=
  ed.obj.isNone && ((ed.v1 == n1 && ed.v2 == n2) || (ed.v1 == n2 && ed.v2 == n1))

/-- The loop of `removeInternalConnections` (NodeBreakerVoltageLevel.cpp l.365-367) over the slots `cand`; the range is
    lazy: its end is the number of slots at the start, its filters read the graph as it is when the iteration gets there.
    Past the current end `m_edges[e]` is undefined behaviour. -/
def connLoop (n1 n2 : Nat) : List Nat → Gr → Out Unit × Gr
  | [], g => (.ok (), g)
  | e :: es, g =>
    match g.edges[e]? with
    | none => (.ub, g)
    | some none => connLoop n1 n2 es g
    | some (some ed) =>
      if isConnection n1 n2 ed then
        match g.removeEdge e with
        | (.ok _, g') => connLoop n1 n2 es g'
        | (.thrown, g') => (.thrown, g')
        | (.ub, g') => (.ub, g')
      else connLoop n1 n2 es g

/-- `removeInternalConnections` (NodeBreakerVoltageLevel.cpp l.356-370). -/
def VL.removeInternalConnections (s : VL) (w n1 n2 : Nat) : Out Unit × VL :=
  if !((s.graph.edges.filterMap (fun o => o)).any (isConnection n1 n2)) then (.thrown, s)
  else
    match connLoop n1 n2 (List.range s.graph.edges.length) s.graph with
    | (.ok _, g) =>
      match g.removeIsolatedVertices with
      | (.ok _, g) => (.ok (), { s with graph := g }.invalidate w)
      | (.thrown, g) => (.thrown, { s with graph := g })
      | (.ub, g) => (.ub, { s with graph := g })
    | (.thrown, g) => (.thrown, { s with graph := g })
    | (.ub, g) => (.ub, { s with graph := g })

/-- `isConnected` (NodeBreakerVoltageLevel.cpp l.345-349). -/
def VL.isConnected (s : VL) (w : Nat) (t : Term) : Out Bool × VL :=
  match s.getBus .bus w t.node with
  | (.ok r, s') => (.ok r.isSome, s')
  | (.thrown, s') => (.thrown, s')
  | (.ub, s') => (.ub, s')

/-- `isBusbarSection` (NodeBreakerVoltageLevel.cpp l.101-103). -/
def isBusbar (t : Option Term) : Bool :=
  match t with
  | some t => decide (t.type = .busbarSection)
  | none => false

/-- `isOpenedDisconnector` (NodeBreakerVoltageLevel.cpp l.104-106). -/
def isOpenDisconnector (opened : Nat → Bool) (s : Option Sw) : Bool :=
  match s with
  | some s => decide (s.kind = .disconnector) && opened s.handle
  | none => false

/-- The loop closing the breakers of a path (NodeBreakerVoltageLevel.cpp l.112-118). -/
def closeLoop (w : Nat) : List Nat → Bool → VL → Out Bool × VL
  | [], b, s => (.ok b, s)
  | e :: es, b, s =>
    match s.graph.edgeAt e with
    | none => (.thrown, s)
    | some ed =>
      match ed.obj with
      | some sw =>
        if sw.kind = .breaker ∧ s.opened w sw.handle = true then closeLoop w es true (s.setOpen w sw.handle false)
        else closeLoop w es b s
      | none => closeLoop w es b s

/-- `connect` (NodeBreakerVoltageLevel.cpp l.90-122) in variant `w`, as a relation because the path search may order paths
    of equal length in any way. -/
def VL.Connect (s : VL) (w : Nat) (t : Term) (r : Out Bool × VL) : Prop :=
  match s.isConnected w t with
  | (.ok true, s') => r = (.ok false, s')
  | (.ok false, s') => ∃ p, s'.graph.FindAllPaths isBusbar (isOpenDisconnector (s'.opened w)) t.node p ∧
    match p with
    | .ok [] => r = (.ok false, s')
    | .ok (path :: _) => r = closeLoop w path false s'
    | .thrown => r = (.thrown, s')
    | .ub => r = (.ub, s')
  | (.thrown, s') => r = (.thrown, s')
  | (.ub, s') => r = (.ub, s')

/-- The inner loop of `disconnect` (NodeBreakerVoltageLevel.cpp l.169-179): the result tells whether a breaker was found. -/
def openPath (w : Nat) : List Nat → VL → Out Bool × VL
  | [], s => (.ok false, s)
  | e :: es, s =>
    match s.graph.edgeAt e with
    | none => (.thrown, s)
    | some ed =>
      match ed.obj with
      | some sw =>
        if sw.kind = .breaker then (.ok true, if s.opened w sw.handle = true then s else s.setOpen w sw.handle true)
        else openPath w es s
      | none => openPath w es s

/-- The loop over the paths (NodeBreakerVoltageLevel.cpp l.167-188). -/
def openLoop (w : Nat) : List (List Nat) → VL → Out Bool × VL
  | [], s => (.ok true, s)
  | p :: ps, s =>
    match openPath w p s with
    | (.ok true, s') => openLoop w ps s'
    | (.ok false, s') => (.ok false, s')
    | (.thrown, s') => (.thrown, s')
    | (.ub, s') => (.ub, s')

/-- `disconnect` (NodeBreakerVoltageLevel.cpp l.145-189) in variant `w`. -/
def VL.Disconnect (s : VL) (w : Nat) (t : Term) (r : Out Bool × VL) : Prop :=
  match s.isConnected w t with
  | (.ok false, s') => r = (.ok false, s')
  | (.ok true, s') => ∃ p, s'.graph.FindAllPaths isBusbar (isOpenDisconnector (s'.opened w)) t.node p ∧
    match p with
    | .ok [] => r = (.ok false, s')
    | .ok paths => r = openLoop w paths s'
    | .thrown => r = (.thrown, s')
    | .ub => r = (.ub, s')
  | (.thrown, s') => r = (.thrown, s')
  | (.ub, s') => r = (.ub, s')

/-- Creation or overwriting of variant `dst` from `src`: the switches copy their states (Switch.cpp l.25-39), the voltage
    level gets empty caches (NodeBreakerVoltageLevelVariant.cpp l.27-29). -/
def VL.cloneVariant (s : VL) (src dst : Nat) : VL := { s with
  opened := upd s.opened dst (s.opened src)
  retained := upd s.retained dst (s.retained src)
  cache := fun view => upd (s.cache view) dst none }

/-! ### Nodes per bus (util/Networks.cpp) -/

/-- The callback of `getEquivalentTerminal` (Networks.cpp l.29-38): continue through closed switches up to a node with a
    terminal. -/
def eqAccept (g : Gr) (opened : Nat → Bool) (_v1 e v2 : Nat) : Bool :=
  accept .bus g opened (fun _ => false) _v1 e v2 &&
    (match g.vertexAt v2 with | some (some _) => false | _ => true)

/-- The terminal of the last call that found one (Networks.cpp l.33-36). -/
def lastTerminal (g : Gr) (opened : Nat → Bool) (log : List Call) : Option Term :=
  log.foldl (fun r c =>
    if accept .bus g opened (fun _ => false) c.src c.edge c.dst then
      match g.vertexAt c.dst with
      | some (some t) => some t
      | _ => r
    else r) none

/-- `getEquivalentTerminal` (Networks.cpp l.22-43). -/
def equivalentTerminal (g : Gr) (opened : Nat → Bool) (node : Nat) : Out (Option Term) :=
  (g.traverseFrom (eqAccept g opened) node).map (fun st => lastTerminal g opened st.log)

/-- `nodesByBus[id].insert(node)`. -/
def insertNode (m : AMap String (List Nat)) (id : String) (node : Nat) : AMap String (List Nat) :=
  AMap.set m id (NatSet.insert node ((m.get? id).getD []))

/-- The loop of `getNodesByBus` (Networks.cpp l.51-68), with the buses of the (current) bus view cache. -/
def nodesLoop (g : Gr) (opened : Nat → Bool) (c : Cache) : List Nat → AMap String (List Nat) → Out (AMap String (List Nat))
  | [], m => .ok m
  | node :: ns, m =>
    match g.vertexAt node with
    | none => .thrown
    | some (some t) =>
      (c.getBus t.node).bind (fun b =>
        match b with
        | some id => nodesLoop g opened c ns (insertNode m id node)
        | none => nodesLoop g opened c ns m)
    | some none =>
      (equivalentTerminal g opened node).bind (fun o =>
        match o with
        | none => nodesLoop g opened c ns m
        | some t =>
          (c.getBus t.node).bind (fun b =>
            match b with
            | some id => nodesLoop g opened c ns (insertNode m id node)
            | none => nodesLoop g opened c ns m))

/-- The live vertices in order (`getNodes`, UndirectedGraph.hxx getVertices). -/
def nodes (g : Gr) : List Nat := (List.range g.vertices.length).filter g.vertexExists

/-- `getNodesByBus` (Networks.cpp l.45-71) with the cache `c` of the bus view. -/
def nodesByBus (g : Gr) (opened : Nat → Bool) (c : Cache) : Out (AMap String (List Nat)) := nodesLoop g opened c (nodes g) []

end Verif.NodeBreaker
