import Verif.CompBuses.Model

/-!
Model of the components of a network from its equipment: the buses at the ends of lines, transformers and HVDC lines are
those of their terminals (AbstractComponentsManager.cpp l.47-66, ConnectedComponentsManager.cpp l.33-40,
NodeTerminalViews.cpp, BusTerminalViews.cpp), on top of `Verif.CompBuses`.

The voltage level of a terminal is found by its id instead of through a pointer.  The buses at the ends are computed when
the topology changes instead of when the components are asked for: nothing changes in between.
-/

namespace Verif.Electric

open Verif
open Verif.CompBuses (Level Filler)
open Verif.BusState (Bus)
open Verif.NetComponents (Snap Sorter)

/-- A terminal of an equipment. -/
inductive End where
  /-- on a node of a node/breaker voltage level -/
  | node (vl : String) (n : Nat)
  /-- on a configured bus of a bus/breaker voltage level, connected or not -/
  | bus (vl : String) (handle : Nat) (connected : Bool)
  deriving DecidableEq, Repr

/-- The equipment that links buses: the terminals of the lines, two windings transformers, three windings transformers, and
    converter stations of the HVDC lines. -/
structure Equip where
  lines : List (End × End)
  trafos : List (End × End)
  three : List (End × End × End)
  hvdc : List (End × End)

/-- The id of a voltage level. -/
def levelId : Level → String
  | .node id _ _ _ => id
  | .conf id _ _ _ => id

/-- `getVoltageLevel()` of a terminal. -/
def levelAt (levels : List Level) (vl : String) : Option Level := levels.find? fun v => levelId v == vl

/-- `getBusView().getBus()` of a terminal, the id of the bus (NodeTerminalViews.cpp l.55-65, BusTerminalViews.cpp l.62-84 and
    BusBreakerVoltageLevelTopology.cpp l.48-52); a failed `dynamic_cast` of the voltage level throws. -/
def viewBus (levels : List Level) : End → Out (Option String)
  | .node vl n =>
    match levelAt levels vl with
    | some (.node id g opened retained) => (NodeBreaker.compute id .bus g opened retained).bind fun c => c.getBus n
    | _ => .thrown
  | .bus vl h connected =>
    if connected then
      match levelAt levels vl with
      | some (.conf id g opened types) => (BusBreaker.compute id g opened types).map fun c => c.byBus.get? h
      | _ => .thrown
    else .ok none

/-- The buses at the two ends (AbstractComponentsManager.cpp l.48-57, ConnectedComponentsManager.cpp l.35-39). -/
def pairs (levels : List Level) : List (End × End) → Out (List (Option String × Option String))
  | [] => .ok []
  | (a, b) :: r =>
    (viewBus levels a).bind fun x => (viewBus levels b).bind fun y => (pairs levels r).map fun l => (x, y) :: l

/-- The buses of the three legs (AbstractComponentsManager.cpp l.58-61). -/
def triples (levels : List Level) : List (End × End × End) → Out (List (Option String × Option String × Option String))
  | [] => .ok []
  | (a, b, c) :: r =>
    (viewBus levels a).bind fun x => (viewBus levels b).bind fun y => (viewBus levels c).bind fun z =>
      (triples levels r).map fun l => (x, y, z) :: l

/-- What `fillAdjacencyList` sees. -/
def links (levels : List Level) (e : Equip) : Out Snap :=
  (pairs levels e.lines).bind fun l => (pairs levels e.trafos).bind fun t => (triples levels e.three).bind fun w =>
    (pairs levels e.hvdc).map fun d => ⟨[], l, t, w, d⟩

/-- A network, and one manager of components. -/
structure St where
  core : CompBuses.St
  equip : Equip

/-- A new network. -/
def init : St := ⟨CompBuses.init, ⟨[], [], [], []⟩⟩

/-- Calls that matter to the components. -/
inductive Op where
  /-- a change of topology, which invalidates the components: the voltage levels and the equipment afterwards -/
  | topology (levels : List Level) (equip : Equip)
  /-- the component of a bus is asked for -/
  | ask (b : Bus)

/-- One call. -/
def step (fill : Filler) (srt : Sorter) (st : St) : Op → Out St
  | .topology levels e => (links levels e).map fun s => ⟨CompBuses.step fill srt st.core (.topology levels s), e⟩
  | .ask b => .ok { st with core := CompBuses.step fill srt st.core (.ask b) }

/-- After a history. -/
def run (fill : Filler) (srt : Sorter) : List Op → St → Out St
  | [], st => .ok st
  | op :: ops, st => (step fill srt st op).bind (run fill srt ops)

end Verif.Electric
