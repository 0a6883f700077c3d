import Verif.NodeBreaker.Model

/-!
Model of bus/breaker voltage levels: `BusBreakerVoltageLevel.cpp`, `BusBreakerVoltageLevelTopology.cpp`,
`BusBreakerVoltageLevelBusCache.cpp`, `ConfiguredBus.cpp`, `BusTerminal.cpp`, `BusTerminalViews.cpp`.

Objects are named by handles (their addresses).  What depends on the variant is a function of the variant index (the sizes
of the arrays are the subject of C05).  Voltages, names and component numbers are left out.
-/

namespace Verif.BusBreaker

open Verif Verif.Graph
open Verif.NodeBreaker (EqType upd)

/-- A configured bus: address and id. -/
structure CBus where
  handle : Nat
  id : String
  deriving DecidableEq, Repr

/-- A switch: address and id. -/
structure BSw where
  handle : Nat
  id : String
  deriving DecidableEq, Repr

abbrev BGr := G CBus BSw

/-- `BusCache` (BusBreakerVoltageLevelBusCache.hpp l.27-52): merged buses by id (with the addresses of their configured
    buses, in order) and merged bus id of each configured bus.  `mapping` is ordered by address (reference.hpp l.204-209). -/
structure Cache where
  byId : AMap String (List Nat) := []
  byBus : AMap Nat String := []
  deriving DecidableEq, Repr

/-- The callback given to `graph.traverse` (BusBreakerVoltageLevelTopology.cpp l.120-128).  An edge always carries a switch
    (`VInv.sw`); a null one would throw. -/
def accept (g : BGr) (opened : Nat → Bool) (_v1 e _v2 : Nat) : Bool :=
  match g.edgeAt e with
  | some ed =>
    match ed.obj with
    | some s => !opened s.handle
    | none => false
  | none => false

/-- `busSet` (BusBreakerVoltageLevelTopology.cpp l.117-127): `Reference::get` throws on a null reference. -/
def busesAt (g : BGr) : List Nat → Out (List CBus)
  | [] => .ok []
  | v :: vs =>
    match g.vertexAt v with
    | some (some b) => (busesAt g vs).map (fun l => b :: l)
    | _ => .thrown

/-- Branch count of a list of types (BusBreakerVoltageLevelTopology.cpp l.74-95): a busbar section is an
    `AssertionError`. -/
def branchCount : List EqType → Out Nat
  | [] => .ok 0
  | t :: ts =>
    match t with
    | .line | .twoWindingsTransformer | .threeWindingsTransformer | .hvdcConverterStation | .danglingLine =>
      (branchCount ts).map (fun n => n + 1)
    | .load | .generator | .battery | .shuntCompensator | .staticVarCompensator => branchCount ts
    | .busbarSection => .thrown

/-- `isBusValid` (BusBreakerVoltageLevelTopology.cpp l.70-99).  `types h` lists the types of the equipment whose terminals
    are connected to the bus `h` in the working variant. -/
def isBusValid (types : Nat → List EqType) (bs : List CBus) : Out Bool :=
  (branchCount (bs.flatMap (fun b => types b.handle))).map (fun n => decide (1 ≤ n))

/-- State of the computation: `encountered`, `busCount`, `mergedBuses` and `mapping`. -/
structure BSt where
  enc : List Bool
  count : Nat
  cache : Cache
  deriving DecidableEq, Repr

/-- `createMergedBus` (BusBreakerVoltageLevelTopology.cpp l.30-35): the id. -/
def mergedId (vl : String) (n : Nat) : String := vl ++ "_" ++ toString n

/-- `mapping.insert` for each configured bus (BusBreakerVoltageLevelTopology.cpp l.136-138). -/
def mapAll (id : String) : List CBus → AMap Nat String → AMap Nat String
  | [], m => m
  | b :: bs, m => mapAll id bs (AMap.emplace m b.handle id)

/-- The body of the loop of `updateCache` (BusBreakerVoltageLevelTopology.cpp l.115-140). -/
def visit (vl : String) (g : BGr) (opened : Nat → Bool) (types : Nat → List EqType) (v : Nat) (st : BSt) : Out BSt :=
  match st.enc[v]? with
  | none => .ub
  | some true => .ok st
  | some false =>
    (g.traverse (accept g opened) v st.enc).bind (fun t =>
      (busesAt g (v :: ((t.log.filter Call.go).map Call.dst))).bind (fun bs =>
        (isBusValid types bs).bind (fun ok =>
          if ok then .ok ⟨t.enc, st.count + 1,
            ⟨AMap.emplace st.cache.byId (mergedId vl st.count) (bs.map CBus.handle),
             mapAll (mergedId vl st.count) bs st.cache.byBus⟩⟩
          else .ok ⟨t.enc, st.count, st.cache⟩)))

/-- The loop over the vertices. -/
def visitAll (vl : String) (g : BGr) (opened : Nat → Bool) (types : Nat → List EqType) : List Nat → BSt → Out BSt
  | [], st => .ok st
  | v :: vs, st => (visit vl g opened types v st).bind (visitAll vl g opened types vs)

/-- The live vertices in order (`getVertices`). -/
def liveVertices (g : BGr) : List Nat := (List.range g.vertices.length).filter g.vertexExists

/-- `updateCache` with an empty cache (BusBreakerVoltageLevelTopology.cpp l.106-143).  `encountered` has as many elements as
    there are live vertices (l.113) until the first traversal resizes it (UndirectedGraph.hxx l.431). -/
def compute (vl : String) (g : BGr) (opened : Nat → Bool) (types : Nat → List EqType) : Out Cache :=
  (visitAll vl g opened types (liveVertices g) ⟨List.replicate g.vertexCount false, 0, {}⟩).map BSt.cache

/-! ### The voltage level -/

/-- The members of the voltage level, of its buses, switches and terminals.
    `terms w h`: the list `m_terminals[w]` of the bus `h`;  `busOf w t`: `m_connectableBusId[w]` of the terminal `t`
    (empty: none);  `connected w t`: `m_connected[w]`;  `kind t`: type of the equipment.
    `variants`: the indices visited by `forEachVariant`.
    `dangling` is not in the code: set when buses have been destroyed while the graph still refers to them. -/
structure VL where
  id : String
  graph : BGr := {}
  buses : AMap String Nat := []
  switches : AMap String Nat := []
  variants : List Nat := [0]
  opened : Nat → Nat → Bool := fun _ _ => false
  terms : Nat → Nat → List Nat := fun _ _ => []
  connected : Nat → Nat → Bool := fun _ _ => false
  busOf : Nat → Nat → String := fun _ _ => ""
  kind : Nat → EqType := fun _ => .load
  cache : Nat → Option Cache := fun _ => none
  dangling : Bool := false

/-- `invalidateCache` in the working variant (BusBreakerVoltageLevel.cpp l.283-289). -/
def VL.invalidate (s : VL) (w : Nat) : VL := { s with cache := upd s.cache w none }

/-- `getConnectedTerminals` of a bus, seen through the types of the equipment (ConfiguredBus.cpp l.101-123). -/
def VL.types (s : VL) (w h : Nat) : List EqType := ((s.terms w h).filter (fun t => s.connected w t)).map s.kind

/-- `getVertex(busId, true)` (BusBreakerVoltageLevel.cpp l.269-281). -/
def VL.getVertex (s : VL) (busId : String) : Out Nat :=
  if busId = "" then .thrown
  else
    match s.buses.get? busId with
    | some v => .ok v
    | none => .thrown

/-- `getConfiguredBus(busId, true)` (BusBreakerVoltageLevel.cpp l.161-177). -/
def VL.getConfiguredBus (s : VL) (busId : String) : Out CBus :=
  (s.getVertex busId).bind (fun v =>
    match s.graph.vertexAt v with
    | some (some b) => if b.id = busId then .ok b else .thrown
    | _ => .thrown)

/-- `addBus` (BusBreakerVoltageLevel.cpp l.34-42).  `registered`: `Network::checkAndAdd` accepted the id.  The new bus has
    an empty list of terminals in each variant (ConfiguredBus.cpp l.34). -/
def VL.addBus (s : VL) (registered : Bool) (b : CBus) : Out Unit × VL :=
  if !registered then (.thrown, s)
  else
    match s.graph.addVertex with
    | (.ok v, g) =>
      match g.setVertexObject v (some b) with
      | (.ok (), g') => (.ok (), { s with
          graph := g'
          buses := AMap.emplace s.buses b.id v
          terms := fun w => upd (s.terms w) b.handle [] })
      | (.thrown, g') => (.thrown, { s with graph := g' })
      | (.ub, g') => (.ub, { s with graph := g' })
    | (.thrown, g) => (.thrown, { s with graph := g })
    | (.ub, g) => (.ub, { s with graph := g })

/-- `addSwitch` (BusBreakerVoltageLevel.cpp l.44-53). -/
def VL.addSwitch (s : VL) (registered : Bool) (sw : BSw) (opened : Bool) (id1 id2 : String) : Out Unit × VL :=
  match s.getVertex id1 with
  | .ok v1 =>
    match s.getVertex id2 with
    | .ok v2 =>
      if !registered then (.thrown, s)
      else
        match s.graph.addEdge v1 v2 (some sw) with
        | (.ok e, g) => (.ok (), { s with
            graph := g
            switches := AMap.emplace s.switches sw.id e
            opened := fun w => upd (s.opened w) sw.handle opened })
        | (.thrown, g) => (.thrown, { s with graph := g })
        | (.ub, g) => (.ub, { s with graph := g })
    | _ => (.thrown, s)
  | _ => (.thrown, s)

/-- `removeSwitch` (BusBreakerVoltageLevel.cpp l.348-357). -/
def VL.removeSwitch (s : VL) (id : String) : Out Unit × VL :=
  match s.switches.get? id with
  | none => (.thrown, s)
  | some e =>
    match s.graph.removeEdge e with
    | (.ok _, g) => (.ok (), { s with graph := g, switches := AMap.erase s.switches id })
    | (.thrown, g) => (.thrown, { s with graph := g })
    | (.ub, g) => (.ub, { s with graph := g })

/-- `removeAllSwitches` (BusBreakerVoltageLevel.cpp l.314-321). -/
def VL.removeAllSwitches (s : VL) : Out Unit × VL :=
  (.ok (), { s with graph := s.graph.removeAllEdges, switches := [] })

/-- `removeAllBuses` in variant `w` (BusBreakerVoltageLevel.cpp l.296-312): the buses are removed from the network (and
    destroyed) before `m_graph.removeAllVertices`, which may throw. -/
def VL.removeAllBuses (s : VL) (w : Nat) : Out Unit × VL :=
  if s.graph.edgeCount > 0 then (.thrown, s)
  else if (s.graph.vertices.filterMap Option.join).any (fun b => decide ((s.terms w b.handle).length > 0)) then (.thrown, s)
  else
    match s.graph.removeAllVertices with
    | (.ok (), g) => (.ok (), { s with graph := g, buses := [] })
    | (.thrown, g) => (.thrown, { s with graph := g, dangling := !(s.graph.vertices.filterMap Option.join).isEmpty })
    | (.ub, g) => (.ub, { s with graph := g, dangling := true })

/-- Some switch ends at the bus (BusBreakerVoltageLevel.cpp l.329-340). -/
def switchAt (g : BGr) (b : CBus) : AMap String Nat → Bool
  | [] => false
  | (_, e) :: r =>
    (match g.edgeAt e with
     | some ed => decide (g.vertexAt ed.v1 = some (some b)) || decide (g.vertexAt ed.v2 = some (some b))
     | none => true) || switchAt g b r

/-- `removeBus` in variant `w` (BusBreakerVoltageLevel.cpp l.323-346). -/
def VL.removeBus (s : VL) (w : Nat) (busId : String) : Out Unit × VL :=
  match s.getConfiguredBus busId with
  | .ok b =>
    if (s.terms w b.handle).length > 0 then (.thrown, s)
    else if switchAt s.graph b s.switches then (.thrown, s)
    else
      match s.buses.get? busId with
      | none => (.ub, s)
      | some v =>
        match s.graph.removeVertex v with
        | (.ok _, g) => (.ok (), { s with graph := g, buses := AMap.erase s.buses busId })
        | (.thrown, g) => (.thrown, { s with graph := g })
        | (.ub, g) => (.ub, { s with graph := g })
  | .thrown => (.thrown, s)
  | .ub => (.ub, s)

/-- `Switch::setOpen` (Switch.cpp l.90-99). -/
def VL.setOpen (s : VL) (w sw : Nat) (b : Bool) : VL :=
  if s.opened w sw ≠ b then { s with opened := upd s.opened w (upd (s.opened w) sw b) }.invalidate w else s

/-- The loop of `attach` over the variants (BusBreakerVoltageLevel.cpp l.66-70). -/
def attachLoop (h t : Nat) : List Nat → VL → VL
  | [], s => s
  | v :: vs, s =>
    attachLoop h t vs ({ s with terms := upd s.terms v (upd (s.terms v) h (s.terms v h ++ [t])) }.invalidate v)

/-- `attach(terminal, false)` in variant `w` (BusBreakerVoltageLevel.cpp l.60-72, checkTerminal l.74-86). -/
def VL.attach (s : VL) (w t : Nat) : Out Unit × VL :=
  match s.getConfiguredBus (s.busOf w t) with
  | .ok b => (.ok (), attachLoop b.handle t s.variants s)
  | .thrown => (.thrown, s)
  | .ub => (.ub, s)

/-- Construction of a terminal (BusTerminal.cpp l.22-28: same bus and status in every variant) followed by `attach`.  If
    `attach` throws the terminal is destroyed with its equipment. -/
def VL.attachNew (s : VL) (w t : Nat) (kind : EqType) (connected : Bool) (busId : String) : Out Unit × VL :=
  match ({ s with
    kind := upd s.kind t kind
    connected := fun v => upd (s.connected v) t connected
    busOf := fun v => upd (s.busOf v) t busId }).attach w t with
  | (.ok (), s') => (.ok (), s')
  | (.thrown, _) => (.thrown, s)
  | (.ub, _) => (.ub, s)

/-- The loop of `detach` over the variants (BusBreakerVoltageLevel.cpp l.114-119). -/
def detachLoop (h t : Nat) : List Nat → VL → Out Unit × VL
  | [], s => (.ok (), s)
  | v :: vs, s =>
    if t ∈ s.terms v h then
      detachLoop h t vs ({ s with
        terms := upd s.terms v (upd (s.terms v) h ((s.terms v h).erase t))
        busOf := upd s.busOf v (upd (s.busOf v) t "") }.invalidate v)
    else (.thrown, s)

/-- `detach` in variant `w` (BusBreakerVoltageLevel.cpp l.108-120). -/
def VL.detach (s : VL) (w t : Nat) : Out Unit × VL :=
  match s.getConfiguredBus (s.busOf w t) with
  | .ok b => detachLoop b.handle t s.variants s
  | .thrown => (.thrown, s)
  | .ub => (.ub, s)

/-- `BusBreakerViewImpl::setConnectableBus` (BusTerminalViews.cpp l.45-56). -/
def VL.setConnectableBus (s : VL) (w t : Nat) (busId : String) : Out Unit × VL :=
  match s.getConfiguredBus busId with
  | .ok _ =>
    match s.detach w t with
    | (.ok (), s1) => { s1 with busOf := upd s1.busOf w (upd (s1.busOf w) t busId) }.attach w t
    | (.thrown, s1) => (.thrown, s1)
    | (.ub, s1) => (.ub, s1)
  | .thrown => (.thrown, s)
  | .ub => (.ub, s)

/-- `connect` (BusBreakerVoltageLevel.cpp l.88-100). -/
def VL.connect (s : VL) (w t : Nat) : Bool × VL :=
  if s.connected w t then (false, s)
  else (true, { s with connected := upd s.connected w (upd (s.connected w) t true) }.invalidate w)

/-- `disconnect` (BusBreakerVoltageLevel.cpp l.122-134). -/
def VL.disconnect (s : VL) (w t : Nat) : Bool × VL :=
  if s.connected w t then (true, { s with connected := upd s.connected w (upd (s.connected w) t false) }.invalidate w)
  else (false, s)

/-- `updateCache` in variant `w`. -/
def VL.update (s : VL) (w : Nat) : Out Cache × VL :=
  match s.cache w with
  | some c => (.ok c, s)
  | none =>
    match compute s.id s.graph (s.opened w) (s.types w) with
    | .ok c => (.ok c, { s with cache := upd s.cache w (some c), graph := s.graph.query.2 })
    | .thrown => (.thrown, s)
    | .ub => (.ub, s)

/-- The merged bus of a configured bus: `BusViewImpl::getConnectableBus` (BusTerminalViews.cpp l.70-84) and
    `CalculatedBusTopology::getMergedBus` (BusBreakerVoltageLevelTopology.cpp l.48-52). -/
def VL.getMergedBus (s : VL) (w : Nat) (busId : String) : Out (Option String) × VL :=
  match s.getConfiguredBus busId with
  | .ok b =>
    match s.update w with
    | (.ok c, s') => (.ok (c.byBus.get? b.handle), s')
    | (.thrown, s') => (.thrown, s')
    | (.ub, s') => (.ub, s')
  | .thrown => (.thrown, s)
  | .ub => (.ub, s)

/-- Creation or overwriting of variant `dst` from `src` (ConfiguredBus.cpp l.46-72, BusTerminal.cpp l.30-50,
    Switch.cpp l.25-39); the variant gets an empty cache (BusBreakerVoltageLevelVariant.cpp). -/
def VL.cloneVariant (s : VL) (src dst : Nat) : VL := { s with
  variants := if dst ∈ s.variants then s.variants else s.variants ++ [dst]
  opened := upd s.opened dst (s.opened src)
  terms := upd s.terms dst (s.terms src)
  connected := upd s.connected dst (s.connected src)
  busOf := upd s.busOf dst (s.busOf src)
  cache := upd s.cache dst none }

/-- Removal of a variant (ConfiguredBus.cpp l.58-62, BusTerminal.cpp l.39-43). -/
def VL.removeVariant (s : VL) (w : Nat) : VL := { s with
  variants := s.variants.erase w
  terms := upd s.terms w (fun _ => [])
  busOf := upd s.busOf w (fun _ => "")
  cache := upd s.cache w none }

end Verif.BusBreaker
