import Verif.Common.AMap
import Verif.Common.Out

/-!
Model of the buses looked up from the network: `network::BusView` and `network::BusBreakerView` (NetworkViews.cpp), and the
two bus caches the network keeps per variant (BusCache.cpp, NetworkVariant.cpp), over the caches of the voltage levels.

A bus is an object at an address.  Calculated buses (`CalculatedBus`, `MergedBus`) belong to a cache of their voltage level
and are destroyed with it; configured buses belong to their voltage level.  An address is never used twice, so that a
reference to a destroyed bus stays recognisable; in the code the memory may be reused, which is not better.

One variant is modelled (the working one).  Which buses a voltage level computes from its topology is an input here: it
is the subject of C17 to C24.  Not modelled: the aliases of configured buses, the mutex of the cache.
-/

namespace Verif.NetBuses

open Verif

/-- A listed bus: its id and its address. -/
abbrev Ref := String × Nat

/-- A voltage level, in the working variant. -/
structure VL where
  /-- `getTopologyKind() == BUS_BREAKER` -/
  busBreaker : Bool
  /-- some terminal is attached to it -/
  equipped : Bool
  /-- the ids of the buses that its topology gives in the bus view (`MergedBus` or `CalculatedBus`) -/
  wantBus : List String
  /-- the ids of the buses that its topology gives in the bus/breaker view, for a node/breaker voltage level -/
  wantBB : List String
  /-- the configured buses of a bus/breaker voltage level -/
  configured : List Ref
  /-- cache of `getCalculatedBusTopology()` -/
  busCache : Option (List Ref)
  /-- cache of `getCalculatedBusBreakerTopology()` -/
  bbCache : Option (List Ref)
  deriving DecidableEq, Repr

/-- The network: its voltage levels in order, the next free address, and the caches of the working variant
    (`m_busViewCache` and `m_busBreakerViewCache`, NetworkVariant.hpp l.65-67). -/
structure Net where
  vls : List VL
  next : Nat
  busView : Option (AMap String Nat)
  busBreakerView : Option (AMap String Nat)
  deriving DecidableEq, Repr

/-- A new network. -/
def init : Net := ⟨[], 0, none, none⟩

/-- New buses with those ids at the addresses from `a` on. -/
def allocate : List String → Nat → List Ref
  | [], _ => []
  | x :: xs, a => (x, a) :: allocate xs (a + 1)

/-- `isBusValid` (NodeBreakerVoltageLevelTopology.cpp l.208-248, BusBreakerVoltageLevelTopology.cpp l.70-99): the buses of the
    bus view need terminals. -/
def VL.idsBus (v : VL) : List String := if v.equipped then v.wantBus else []

/-- `getBusView().getBuses()` of a voltage level: fills the cache when it is empty (NodeBreakerVoltageLevelTopology.cpp
    l.151-155, l.292-314, BusBreakerVoltageLevelTopology.cpp l.54-58, l.101-144).  Answers the buses, the voltage level and the next address. -/
def VL.listBus (v : VL) (a : Nat) : List Ref × VL × Nat :=
  match v.busCache with
  | some l => (l, v, a)
  | none => (allocate v.idsBus a, { v with busCache := some (allocate v.idsBus a) }, a + v.idsBus.length)

/-- `getBusBreakerView().getBuses()` of a voltage level: the configured buses (BusBreakerVoltageLevelViews.cpp l.56-72) or the calculated ones
    (NodeBreakerVoltageLevelViews.cpp l.52-66). -/
def VL.listBB (v : VL) (a : Nat) : List Ref × VL × Nat :=
  if v.busBreaker then (v.configured, v, a)
  else
    match v.bbCache with
    | some l => (l, v, a)
    | none => (allocate v.wantBB a, { v with bbCache := some (allocate v.wantBB a) }, a + v.wantBB.length)

/-- A flattened range over voltage levels (NetworkViews.cpp l.46-60, l.104-118, NetworkVariant.cpp l.41-46). -/
def listAll (f : VL → Nat → List Ref × VL × Nat) : List VL → Nat → List Ref × List VL × Nat
  | [], a => ([], [], a)
  | v :: vs, a =>
    let r := f v a
    let q := listAll f vs r.2.2
    (r.1 ++ q.1, r.2.1 :: q.2.1, q.2.2)

/-- What the supplier of the bus/breaker view cache lists of a voltage level: nothing when it is a bus/breaker one
    (NetworkVariant.cpp l.33-35, l.44-46). -/
def VL.listCalculated (v : VL) (a : Nat) : List Ref × VL × Nat :=
  if v.busBreaker then ([], v, a) else v.listBB a

/-- `BusView::getBuses` (NetworkViews.cpp l.104-118). -/
def Net.busViewBuses (n : Net) : List Ref × Net :=
  let r := listAll VL.listBus n.vls n.next
  (r.1, { n with vls := r.2.1, next := r.2.2 })

/-- `BusBreakerView::getBuses` (NetworkViews.cpp l.46-60). -/
def Net.busBreakerViewBuses (n : Net) : List Ref × Net :=
  let r := listAll VL.listBB n.vls n.next
  (r.1, { n with vls := r.2.1, next := r.2.2 })

/-- The map built by `BusCache::getCache` (BusCache.cpp l.26-35). -/
def fill : List Ref → AMap String Nat → AMap String Nat
  | [], m => m
  | r :: rs, m => fill rs (AMap.emplace m r.1 r.2)

/-- `BusView::getBus` (NetworkViews.cpp l.96-102, BusCache.cpp l.20-35). -/
def Net.busViewBus (n : Net) (id : String) : Option Nat × Net :=
  match n.busView with
  | some m => (m.get? id, n)
  | none =>
    let r := listAll VL.listBus n.vls n.next
    let m := fill r.1 []
    (m.get? id, { n with vls := r.2.1, next := r.2.2, busView := some m })

/-- `network.find<Bus>(id)`: among the identifiable objects only configured buses are buses (NetworkIndex.hxx l.120-130). -/
def findConfigured (id : String) : List VL → Option Nat
  | [] => none
  | v :: vs =>
    match (if v.busBreaker then v.configured.find? (fun r => r.1 == id) else none) with
    | some r => some r.2
    | none => findConfigured id vs

/-- `BusBreakerView::getBus` (NetworkViews.cpp l.30-44). -/
def Net.busBreakerViewBus (n : Net) (id : String) : Option Nat × Net :=
  match findConfigured id n.vls with
  | some a => (some a, n)
  | none =>
    match n.busBreakerView with
    | some m => (m.get? id, n)
    | none =>
      let r := listAll VL.listCalculated n.vls n.next
      let m := fill r.1 []
      (m.get? id, { n with vls := r.2.1, next := r.2.2, busBreakerView := some m })

/-- The buses that exist: those in the caches of the voltage levels and the configured ones. -/
def VL.refs (v : VL) : List Ref := v.configured ++ v.busCache.getD [] ++ v.bbCache.getD []

/-- The buses that exist in the network. -/
def Net.refs (n : Net) : List Ref := n.vls.flatMap VL.refs

/-- The use of a reference got earlier: undefined when the bus was destroyed.  Answers the id read from the bus. -/
def Net.use (n : Net) (a : Nat) : Out String :=
  match n.refs.find? (fun r => r.2 == a) with
  | some r => .ok r.1
  | none => .ub

/-- `BusView::getBus(id)` then `getId()` on the answer. -/
def Net.askBus (n : Net) (id : String) : Out (Option String) :=
  match (n.busViewBus id) with
  | (none, _) => .ok none
  | (some a, n') => (n'.use a).map some

/-- `BusBreakerView::getBus(id)` then `getId()` on the answer. -/
def Net.askBB (n : Net) (id : String) : Out (Option String) :=
  match (n.busBreakerViewBus id) with
  | (none, _) => .ok none
  | (some a, n') => (n'.use a).map some

/-- `network::BusView::invalidateCache` (NetworkViews.cpp l.136-138). -/
def Net.dropBusView (n : Net) : Net := { n with busView := none }

/-- `network::BusBreakerView::invalidateCache` (NetworkViews.cpp l.88-90): it drops the cache of the bus view. -/
def Net.dropBusBreakerView (n : Net) : Net := { n with busView := none }

/-- A voltage level after its `invalidateCache`: its calculated buses are destroyed (NodeBreakerVoltageLevelTopology.cpp l.199-206,
    BusBreakerVoltageLevelTopology.cpp l.60-68). -/
def VL.dropped (v : VL) : VL := { v with busCache := none, bbCache := none }

/-- Changes. -/
inductive Op where
  /-- a voltage level without equipment is created (VoltageLevelAdder.cpp l.24-49) -/
  | addVL (busBreaker : Bool)
  /-- a change of the topology of voltage level `i` that calls `invalidateCache`: switch opened, closed, retained or not, internal connection
      added or removed, terminal attached, detached, connected or disconnected (NodeBreakerVoltageLevel.cpp l.33-38, l.55-76, l.129-143,
      l.356-370, Switch.cpp l.82-114, BusBreakerVoltageLevel.cpp l.60-135) -/
  | topology (i : Nat) (equipped : Bool) (wantBus wantBB : List String)
  /-- a change of the topology that invalidates nothing: switch added or removed (NodeBreakerVoltageLevel.cpp l.40-48, l.372-383,
      BusBreakerVoltageLevel.cpp l.44-58, l.348-357) -/
  | silent (i : Nat) (wantBus wantBB : List String)
  /-- a configured bus is added (BusBreakerVoltageLevel.cpp l.34-42) -/
  | addBus (i : Nat) (id : String)
  /-- a configured bus is removed; it has no terminal (BusBreakerVoltageLevel.cpp l.323-346) -/
  | removeBus (i : Nat) (id : String)
  /-- a voltage level is removed; its equipment is removed first, which invalidates the caches when there is some
      (VoltageLevel.cpp l.237-251) -/
  | removeVL (i : Nat)
  /-- the working variant is overwritten (NetworkVariant.cpp l.62-64, NodeBreakerVoltageLevelVariant.cpp l.27-29): the network gets empty caches, every
      voltage level too -/
  | overwrite
  /-- the buses are listed from one voltage level or looked up from the network -/
  | listBus (i : Nat)
  | listBB (i : Nat)
  | busViewBuses
  | busBreakerViewBuses
  | busViewBus (id : String)
  | busBreakerViewBus (id : String)
  deriving DecidableEq, Repr

/-- `invalidateCache` of the changed voltage level (NodeBreakerVoltageLevel.cpp l.336-343, BusBreakerVoltageLevel.cpp l.283-289). -/
def Net.invalidate (n : Net) : Net := (n.dropBusBreakerView).dropBusView

/-- One call.  A call on a voltage level that does not exist does nothing. -/
def step (n : Net) : Op → Net
  | .addVL k => { n with vls := n.vls ++ [⟨k, false, [], [], [], none, none⟩] }
  | .topology i e wb wbb =>
    { n with vls := n.vls.modify i fun v => { v.dropped with equipped := e, wantBus := wb, wantBB := wbb } }.invalidate
  | .silent i wb wbb => { n with vls := n.vls.modify i fun v => { v with wantBus := wb, wantBB := wbb } }
  | .addBus i id =>
    { n with vls := n.vls.modify i fun v => { v with configured := v.configured ++ [(id, n.next)] }, next := n.next + 1 }
  | .removeBus i id =>
    { n with vls := n.vls.modify i fun v => { v with configured := v.configured.filter fun r => r.1 != id } }
  | .removeVL i =>
    match n.vls[i]? with
    | some v =>
      let m := if v.equipped then n.invalidate else n
      { m with vls := m.vls.eraseIdx i }
    | none => n
  | .overwrite => { n with vls := n.vls.map VL.dropped, busView := none, busBreakerView := none }
  | .listBus i =>
    match n.vls[i]? with
    | some v => { n with vls := n.vls.set i (v.listBus n.next).2.1, next := (v.listBus n.next).2.2 }
    | none => n
  | .listBB i =>
    match n.vls[i]? with
    | some v => { n with vls := n.vls.set i (v.listBB n.next).2.1, next := (v.listBB n.next).2.2 }
    | none => n
  | .busViewBuses => n.busViewBuses.2
  | .busBreakerViewBuses => n.busBreakerViewBuses.2
  | .busViewBus id => (n.busViewBus id).2
  | .busBreakerViewBus id => (n.busBreakerViewBus id).2

/-- A history of calls on a new network. -/
def run : List Op → Net → Net
  | [], n => n
  | o :: os, n => run os (step n o)

end Verif.NetBuses
