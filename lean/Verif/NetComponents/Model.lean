import Verif.Common.AMap
import Verif.Components.Props

/-!
Model of the managers of connected and synchronous components of a network (AbstractComponentsManager.cpp,
ConnectedComponentsManager.cpp, SynchronousComponentsManager.cpp).

The network is seen through its bus view in one variant: the ids of its buses in the order of
`network.getBusView().getBuses()`, and for each line, transformer and HVDC line the id of the bus of each end, none when
the end is not connected.  Whether the bus views are up to date is the subject of C20 and C24.
-/

namespace Verif.NetComponents

open Verif

/-- The network seen through its bus view. -/
structure Snap where
  buses : List String
  lines : List (Option String × Option String)
  trafos : List (Option String × Option String)
  three : List (Option String × Option String × Option String)
  hvdc : List (Option String × Option String)
  deriving DecidableEq, Repr

/-- `id2num` (AbstractComponentsManager.cpp l.113-119). -/
def numberLoop : List String → Nat → AMap String Nat → AMap String Nat
  | [], _, m => m
  | x :: xs, k, m => numberLoop xs (k + 1) (m.set x k)

/-- `adjacencyList[i].emplace_back(j)`; out of range is undefined. -/
def push (adj : Components.Adj) (i j : Nat) : Out Components.Adj :=
  match adj[i]? with
  | some l => .ok (adj.set i (l ++ [j]))
  | none => .ub

/-- `addToAdjacencyList` (AbstractComponentsManager.cpp l.38-45); a bus that was not numbered is `end()` dereferenced. -/
def addTo (m : AMap String Nat) (b1 b2 : Option String) (adj : Components.Adj) : Out Components.Adj :=
  match b1, b2 with
  | some x, some y =>
    match m.get? x, m.get? y with
    | some i, some j => (push adj i j).bind (fun a => push a j i)
    | _, _ => .ub
  | _, _ => .ok adj

/-- A loop that calls `addToAdjacencyList` once per element. -/
def addAll (m : AMap String Nat) : List (Option String × Option String) → Components.Adj → Out Components.Adj
  | [], adj => .ok adj
  | p :: ps, adj => (addTo m p.1 p.2 adj).bind (addAll m ps)

/-- The loop over the three windings transformers (AbstractComponentsManager.cpp l.58-65). -/
def addThree (m : AMap String Nat) : List (Option String × Option String × Option String) → Components.Adj →
    Out Components.Adj
  | [], adj => .ok adj
  | (b1, b2, b3) :: ps, adj =>
    (addTo m b1 b2 adj).bind (fun a1 => (addTo m b1 b3 a1).bind (fun a2 => (addTo m b2 b3 a2).bind (addThree m ps)))

/-- `AbstractComponentsManager::fillAdjacencyList` (l.47-66). -/
def fillAc (s : Snap) (m : AMap String Nat) (adj : Components.Adj) : Out Components.Adj :=
  (addAll m s.lines adj).bind (fun a1 => (addAll m s.trafos a1).bind (addThree m s.three))

/-- `ConnectedComponentsManager::fillAdjacencyList` (ConnectedComponentsManager.cpp l.33-40). -/
def fillAll (s : Snap) (m : AMap String Nat) (adj : Components.Adj) : Out Components.Adj :=
  (fillAc s m adj).bind (addAll m s.hvdc)

/-- The order chosen by `std::sort`. -/
abbrev Sorter := Nat → List Nat → List Nat

/-- `std::sort` by decreasing size: any sorted permutation. -/
def Sorter.Ok (srt : Sorter) : Prop := ∀ c size, Components.SortedBySize c size (srt c size)

/-- `computeConnectedComponents` (GraphUtil.cpp l.34-83) with that order. -/
def computeWith (srt : Sorter) (adj : Components.Adj) : Out Components.Result :=
  (Components.search adj).bind (fun p => Components.finish p.1 p.2 (srt p.1 p.2.size))

/-- What is known of the components: the id and number of each bus (`setComponentNumber`), and the size of each component
    (`m_components`). -/
structure Cache where
  number : AMap String Nat
  size : List Nat
  deriving DecidableEq, Repr

/-- The computation of `update` (AbstractComponentsManager.cpp l.107-138).  The numbers are stored on the terminals or
    configured buses of each bus of the bus view. -/
def computeCache (fill : Snap → AMap String Nat → Components.Adj → Out Components.Adj) (srt : Sorter) (s : Snap) :
    Out Cache :=
  (fill s (numberLoop s.buses 0 []) (List.replicate s.buses.length [])).bind (fun adj =>
    (computeWith srt adj).map (fun r => ⟨s.buses.zip r.number, r.size⟩))

/-- The network and the components known by the two managers; none after `invalidate` (AbstractComponentsManager.cpp
    l.94-97). -/
structure St where
  snap : Snap
  cc : Option Cache
  sc : Option Cache
  deriving DecidableEq, Repr

/-- A new network. -/
def init : St := ⟨⟨[], [], [], [], []⟩, none, none⟩

/-- `update` (l.99-143): nothing when `m_components` is not empty. -/
def updated (fill : Snap → AMap String Nat → Components.Adj → Out Components.Adj) (srt : Sorter) (s : Snap)
    (c : Option Cache) : Out Cache :=
  match c with
  | some k => if k.size ≠ [] then .ok k else computeCache fill srt s
  | none => computeCache fill srt s

/-- `getConnectedComponent` of a bus (CalculatedBus.cpp l.66-71, ConfiguredBus.cpp l.78-82, MergedBus.cpp l.51-60): the
    number and the size of its component. -/
def componentOf (c : Cache) (bus : String) : Option (Nat × Nat) :=
  match c.number.get? bus with
  | none => none
  | some k =>
    match c.size[k]? with
    | none => none
    | some z => some (k, z)

/-- Calls that matter to the components. -/
inductive Op
  /-- any change of topology: switch opened or closed, terminal attached, detached, connected, disconnected.  The network
      is any other afterwards, and `invalidateCache` of the voltage level has invalidated both managers
      (NodeBreakerVoltageLevel.cpp l.336-343, BusBreakerVoltageLevel.cpp l.283-289). -/
  | topology (s : Snap)
  /-- HvdcLineAdder.cpp l.30-41 and HvdcLine.cpp l.123-132: an HVDC line is added or removed; nothing is invalidated. -/
  | hvdc (l : List (Option String × Option String))
  /-- a query on the connected components -/
  | askConnected
  /-- a query on the synchronous components -/
  | askSynchronous
  deriving DecidableEq, Repr

/-- One call. -/
def step (srt : Sorter) (st : St) : Op → Out Unit × St
  | .topology s => (.ok (), ⟨s, none, none⟩)
  | .hvdc l => (.ok (), { st with snap := { st.snap with hvdc := l } })
  | .askConnected =>
    match updated fillAll srt st.snap st.cc with
    | .ok c => (.ok (), { st with cc := some c })
    | .thrown => (.thrown, st)
    | .ub => (.ub, st)
  | .askSynchronous =>
    match updated fillAc srt st.snap st.sc with
    | .ok c => (.ok (), { st with sc := some c })
    | .thrown => (.thrown, st)
    | .ub => (.ub, st)

/-- After a history. -/
def run (srt : Sorter) : List Op → St → St
  | [], st => st
  | op :: ops, st => run srt ops (step srt st op).2

/-- What a caller is told of the connected component of a bus. -/
def connectedOf (srt : Sorter) (st : St) (bus : String) : Out (Option (Nat × Nat)) :=
  (updated fillAll srt st.snap st.cc).map (fun c => componentOf c bus)

/-- What a caller is told of the synchronous component of a bus. -/
def synchronousOf (srt : Sorter) (st : St) (bus : String) : Out (Option (Nat × Nat)) :=
  (updated fillAc srt st.snap st.sc).map (fun c => componentOf c bus)

end Verif.NetComponents
