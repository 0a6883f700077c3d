import Verif.BusBreaker.Model
import Verif.BusState.Model
import Verif.NetComponents.Model

/-!
Model of the component of a bus: where its number is stored, and how it is asked for (Component.cpp, ConnectedComponent.cpp,
SynchronousComponent.cpp, AbstractComponentsManager.cpp, the component numbers of CalculatedBus.cpp, ConfiguredBus.cpp,
MergedBus.cpp and NodeTerminal.cpp, Bus.cpp, util/ConnectedComponents.cpp).

One manager is modelled, in the working variant: the connected components with `fill = fillAll`, the synchronous ones with
`fill = fillAc` (`Verif.NetComponents`).  The buses of the views are computed from the topology each time they are asked
for: that the caches of the voltage levels do the same is the subject of C20 and C24.  The ends of the lines and
transformers are given by the ids of the buses of the bus view, as in C54.  The buses of a voltage level are listed in the
order of their creation instead of that of their ids; no property depends on the order.
-/

namespace Verif.CompBuses

open Verif
open Verif.NodeBreaker (Gr EqType)
open Verif.BusBreaker (BGr)
open Verif.BusState (Bus construct merge)
open Verif.NetComponents (Snap Sorter numberLoop computeWith)

/-- A voltage level in the working variant. -/
inductive Level where
  /-- node/breaker: its id, its graph, the switches that are open, those that are retained -/
  | node (id : String) (g : Gr) (opened retained : Nat → Bool)
  /-- bus/breaker: its id, its graph, the switches that are open, the equipment connected to each bus -/
  | conf (id : String) (g : BGr) (opened : Nat → Bool) (types : Nat → List EqType)

/-- A listed bus: its id and the bus. -/
abbrev Named := String × Bus

/-- The buses of a cache are constructed. -/
def constructAll (g : Gr) (opened : Nat → Bool) : AMap String NodeBreaker.Bus → Out (List Named)
  | [] => .ok []
  | (id, b) :: r => (construct g opened b).bind fun x => (constructAll g opened r).bind fun xs => .ok ((id, x) :: xs)

/-- The merged buses of a cache are constructed. -/
def mergeAll : AMap String (List Nat) → Out (List Named)
  | [] => .ok []
  | (id, hs) :: r => (merge hs).bind fun x => (mergeAll r).bind fun xs => .ok ((id, x) :: xs)

/-- `getBusBreakerView().getBuses()` of a voltage level (NodeBreakerVoltageLevelViews.cpp l.52-66, BusBreakerVoltageLevelViews.cpp
    l.56-72). -/
def breakerBuses : Level → Out (List Named)
  | .node id g opened retained =>
    (NodeBreaker.compute id .busBreaker g opened retained).bind fun c => constructAll g opened c.byId
  | .conf _ g _ _ => .ok ((g.vertices.filterMap Option.join).map fun b => (b.id, .conf b.handle))

/-- `getBusView().getBuses()` of a voltage level (NodeBreakerVoltageLevelTopology.cpp l.151-155, BusBreakerVoltageLevelTopology.cpp
    l.54-58). -/
def viewBuses : Level → Out (List Named)
  | .node id g opened retained => (NodeBreaker.compute id .bus g opened retained).bind fun c => constructAll g opened c.byId
  | .conf id g opened types => (BusBreaker.compute id g opened types).bind fun c => mergeAll c.byId

/-- `getBuses()` of a view of the network (NetworkViews.cpp l.46-60, l.104-118). -/
def listAll (f : Level → Out (List Named)) : List Level → Out (List Named)
  | [] => .ok []
  | v :: vs => (f v).bind fun l => (listAll f vs).bind fun r => .ok (l ++ r)

/-- The numbers kept by the terminals (NodeTerminal.hpp `m_connectedComponentNumber`) and by the configured buses
    (ConfiguredBus.hpp). -/
structure Marks where
  term : Nat → Option Nat
  bus : Nat → Option Nat

/-- The numbers of new objects: 0 for a terminal (NodeTerminal.cpp l.26-27), none for a configured bus (ConfiguredBus.cpp
    l.36-37). -/
def fresh : Marks := ⟨fun _ => some 0, fun _ => none⟩

/-- The object at that address is given a number. -/
def put (f : Nat → Option Nat) (o : Nat) (k : Option Nat) : Nat → Option Nat := fun o' => if o' = o then k else f o'

/-- The loops over the terminals and over the configured buses. -/
def putAll (k : Option Nat) : List Nat → (Nat → Option Nat) → Nat → Option Nat
  | [], f => f
  | o :: os, f => putAll k os (put f o k)

/-- `setConnectedComponentNumber` of a bus (CalculatedBus.cpp l.140-145, ConfiguredBus.cpp l.196-199, MergedBus.cpp l.162-167). -/
def setNumber (k : Option Nat) (m : Marks) : Bus → Out Marks
  | .calculated valid ts _ => if valid then .ok { m with term := putAll k ts m.term } else .thrown
  | .conf c => .ok { m with bus := put m.bus c k }
  | .merged valid bs => if valid then .ok { m with bus := putAll k bs m.bus } else .thrown

/-- The reset (AbstractComponentsManager.cpp l.109-111). -/
def reset : List Named → Marks → Out Marks
  | [], m => .ok m
  | b :: bs, m => (setNumber none m b.2).bind (reset bs)

/-- The numbers are stored on the buses (AbstractComponentsManager.cpp l.134-137); `num2bus[i]` out of range is undefined. -/
def store : List Nat → List Named → Marks → Out Marks
  | [], _, m => .ok m
  | _ :: _, [], _ => .ub
  | k :: ks, b :: bs, m => (setNumber (some k) m b.2).bind (store ks bs)

/-- The network and one manager of components. -/
structure St where
  levels : List Level
  /-- the lines, transformers and HVDC lines; its list of buses is not used -/
  links : Snap
  marks : Marks
  /-- the sizes of `m_components` -/
  sizes : List Nat
  /-- how many times the components were destroyed -/
  era : Nat

/-- A new network. -/
def init : St := ⟨[], ⟨[], [], [], [], []⟩, fresh, [], 0⟩

/-- The network as C54 sees it. -/
def St.snap (st : St) (bs : List Named) : Snap := { st.links with buses := bs.map Prod.fst }

/-- What links the buses: `fillAll` or `fillAc`. -/
abbrev Filler := Snap → AMap String Nat → Components.Adj → Out Components.Adj

/-- `update` (AbstractComponentsManager.cpp l.99-143). -/
def update (fill : Filler) (srt : Sorter) (st : St) : Out St :=
  if st.sizes ≠ [] then .ok st
  else
    (listAll breakerBuses st.levels).bind fun bbs =>
      (reset bbs st.marks).bind fun m =>
        (listAll viewBuses st.levels).bind fun bs =>
          (fill (st.snap bs) (numberLoop (bs.map Prod.fst) 0 []) (List.replicate bs.length [])).bind fun adj =>
            (computeWith srt adj).bind fun r => (store r.number bs m).map fun m' => { st with marks := m', sizes := r.size }

/-- `invalidate` (AbstractComponentsManager.cpp l.94-97): the components are destroyed. -/
def St.invalidate (st : St) : St := { st with sizes := [], era := st.era + 1 }

/-- A component: `m_num`, `m_size`, and when it was made. -/
structure Comp where
  era : Nat
  num : Nat
  size : Nat
  deriving DecidableEq, Repr

/-- The component exists. -/
def St.has (st : St) (c : Comp) : Bool := c.era == st.era && st.sizes[c.num]? == some c.size

/-- `getComponent` (AbstractComponentsManager.cpp l.68-73); out of range is undefined. -/
def St.component (st : St) : Option Nat → Out (Option Comp)
  | none => .ok none
  | some k =>
    match st.sizes[k]? with
    | some z => .ok (some ⟨st.era, k, z⟩)
    | none => .ub

/-- The loop of `MergedBus::getConnectedComponent` (MergedBus.cpp l.53-59) once the components are computed. -/
def firstComponent (st : St) : List Nat → Out Comp
  | [] => .thrown
  | b :: bs =>
    (st.component (st.marks.bus b)).bind fun r =>
      match r with
      | some c => .ok c
      | none => firstComponent st bs

/-- `getConnectedComponent` of a bus (CalculatedBus.cpp l.66-71, ConfiguredBus.cpp l.78-82, MergedBus.cpp l.51-60).  In a merged
    bus the components are updated by the first configured bus and up to date for the others. -/
def componentOf (fill : Filler) (srt : Sorter) (st : St) : Bus → Out (Option Comp × St)
  | .calculated valid _ ref =>
    if valid then
      (update fill srt st).bind fun st' =>
        match ref with
        | some t => (st'.component (st'.marks.term t)).map fun r => (r, st')
        | none => .ok (none, st')
    else .thrown
  | .conf c => (update fill srt st).bind fun st' => (st'.component (st'.marks.bus c)).map fun r => (r, st')
  | .merged valid bs =>
    if valid then
      match bs with
      | [] => .thrown
      | _ :: _ => (update fill srt st).bind fun st' => (firstComponent st' bs).map fun r => (some r, st')
    else .thrown

/-- `Bus::isInMainConnectedComponent` (Bus.cpp l.213-216, ComponentConstants.hpp l.17). -/
def isMain : Option Comp → Bool
  | some c => c.num == 0
  | none => false

/-- `isInMainConnectedComponent` (Bus.cpp l.213-216, MergedBus.cpp l.137-143: the first configured bus, without a check of
    the validity). -/
def inMain (fill : Filler) (srt : Sorter) (st : St) : Bus → Out (Bool × St)
  | .calculated valid ts ref => (componentOf fill srt st (.calculated valid ts ref)).map fun r => (isMain r.1, r.2)
  | .conf c => (componentOf fill srt st (.conf c)).map fun r => (isMain r.1, r.2)
  | .merged _ [] => .ok (false, st)
  | .merged _ (b :: _) => (componentOf fill srt st (.conf b)).map fun r => (isMain r.1, r.2)

/-- `ConnectedComponents::getCcNum` (util/ConnectedComponents.cpp l.19-42); no bus has no number. -/
def ccNum (fill : Filler) (srt : Sorter) (st : St) : Option Bus → Out (Option Nat × St)
  | none => .ok (none, st)
  | some b => (componentOf fill srt st b).map fun r => (r.1.map Comp.num, r.2)

/-- The filter of `Component::getBuses` (Component.cpp l.23-37) over the listed buses: `checkBus` (ConnectedComponent.cpp l.19-22)
    compares the addresses of the components. -/
def keepBuses (fill : Filler) (srt : Sorter) (c : Comp) : List Named → St → Out (List String × St)
  | [], st => .ok ([], st)
  | b :: bs, st =>
    (componentOf fill srt st b.2).bind fun r =>
      (keepBuses fill srt c bs r.2).map fun q => (if r.1 = some c then b.1 :: q.1 else q.1, q.2)

/-- `Component::getBuses` (Component.cpp l.23-37); a component that was destroyed is undefined. -/
def busesOf (fill : Filler) (srt : Sorter) (st : St) (c : Comp) : Out (List String × St) :=
  if st.has c then (listAll viewBuses st.levels).bind fun bs => keepBuses fill srt c bs st else .ub

/-- `getNum` and `getSize` (Component.cpp l.39-45). -/
def St.read (st : St) (c : Comp) : Out (Nat × Nat) := if st.has c then .ok (c.num, c.size) else .ub

/-- Calls that matter to the components. -/
inductive Op where
  /-- a change of topology: the voltage levels and the lines are any others afterwards, and the components are invalidated
      (NodeBreakerVoltageLevel.cpp l.336-343, BusBreakerVoltageLevel.cpp l.283-289); terminals and buses created by the
      call have the numbers of `fresh` -/
  | topology (levels : List Level) (links : Snap)
  /-- the component of a bus is asked for -/
  | ask (b : Bus)

/-- One call.  After an exception in `update` the components are not computed, and the numbers do not matter. -/
def step (fill : Filler) (srt : Sorter) (st : St) : Op → St
  | .topology levels links => { st.invalidate with levels := levels, links := links }
  | .ask b =>
    match componentOf fill srt st b with
    | .ok r => r.2
    | .thrown => st
    | .ub => st

/-- After a history. -/
def run (fill : Filler) (srt : Sorter) : List Op → St → St
  | [], st => st
  | op :: ops, st => run fill srt ops (step fill srt st op)

end Verif.CompBuses
