import Verif.Graph.Stateful

/-!
Model of the topological traversal from a terminal: `Terminal::traverse` (NodeTerminal.cpp l.137-144, BusTerminal.cpp),
`NodeBreakerVoltageLevel::traverse` (NodeBreakerVoltageLevel.cpp l.393-434), `BusBreakerVoltageLevel::traverse`
(BusBreakerVoltageLevel.cpp l.364-415) and `VoltageLevel::addNextTerminals` (VoltageLevel.cpp l.47-73).

Terminals, switches and voltage levels are named by numbers.  The traverser of the caller is any function of the questions
and answers so far and of the question asked: this covers every traverser that keeps a state, as long as it does not change
the network.
-/

namespace Verif.Traverse

open Verif Verif.Graph

/-- The questions asked to a `TopologyTraverser` (VoltageLevelTopologyTraverser.hpp): `traverse(terminal, connected)` and
    `traverse(aSwitch)`. -/
inductive Q where
  | term (t : Nat) (connected : Bool)
  | sw (h : Nat)
  deriving DecidableEq, Repr

/-- The traverser: its answer to a question, given the previous questions and answers. -/
abbrev Ask := List (Q × Bool) → Q → Bool

/-- The equipment of a terminal, with its terminals. -/
inductive Conn where
  | injection
  | branch (t1 t2 : Nat)
  | three (t1 t2 t3 : Nat)
  deriving DecidableEq, Repr

/-- The topology of a voltage level.  Node/breaker: the objects of the vertices are terminals, those of the edges switches
    (none for an internal connection).  Bus/breaker: the object of a vertex is a configured bus, here the list of its
    terminals (`ConfiguredBus::getTerminals`, connected or not, in the working variant). -/
inductive Topo where
  | node (g : G Nat Nat)
  | bus (g : G (List Nat) Nat)

/-- The part of a network that a traversal sees: for each terminal its voltage level and its vertex (the node, or the
    vertex of the connectable bus), whether a bus terminal is connected, its equipment. -/
structure Net where
  terms : List Nat
  topo : Nat → Topo
  place : Nat → Nat × Nat
  connected : Nat → Bool
  conn : Nat → Conn

/-- Insertion in a `TerminalSet`. -/
def ins (t : Nat) (l : List Nat) : List Nat := if t ∈ l then l else l ++ [t]

/-- `addNextTerminals` (VoltageLevel.cpp l.47-73). -/
def addNext (net : Net) (t : Nat) (nx : List Nat) : Out (List Nat) :=
  match net.conn t with
  | .injection => .ok nx
  | .branch t1 t2 => if t1 = t then .ok (ins t2 nx) else if t2 = t then .ok (ins t1 nx) else .thrown
  | .three t1 t2 t3 =>
    if t1 = t then .ok (ins t3 (ins t2 nx))
    else if t2 = t then .ok (ins t3 (ins t1 nx))
    else if t3 = t then .ok (ins t2 (ins t1 nx))
    else .thrown

/-- The questions and answers so far, and `traversedTerminals`. -/
structure St where
  log : List (Q × Bool)
  traversed : List Nat
  deriving DecidableEq, Repr

/-- A question to the traverser. -/
def St.ask (ask : Ask) (st : St) (q : Q) : St × Bool := (⟨st.log ++ [(q, ask st.log q)], st.traversed⟩, ask st.log q)

/-- `traversedTerminals.emplace(t)`. -/
def St.mark (st : St) (t : Nat) : St := { st with traversed := ins t st.traversed }

/-- What the callbacks of the graph traversals capture: the above and `nextTerminals`. -/
structure W where
  st : St
  next : List Nat
  deriving DecidableEq, Repr

/-- `!aSwitch || traverser.traverse(aSwitch)` (NodeBreakerVoltageLevel.cpp l.414-415). -/
def askEdge (ask : Ask) (st : St) : Option Nat → St × Bool
  | none => (st, true)
  | some h => st.ask ask (.sw h)

/-- The callback of the node/breaker traversal (NodeBreakerVoltageLevel.cpp l.411-428). -/
def nodeCb (net : Net) (ask : Ask) (g : G Nat Nat) (w : W) (_v1 e v2 : Nat) : Out (W × Bool) :=
  match g.edgeAt e, g.vertexAt v2 with
  | some ed, some other =>
    let r := askEdge ask w.st ed.obj
    if r.2 then
      match other with
      | none => .ok (⟨r.1, w.next⟩, true)
      | some t =>
        let r' := r.1.ask ask (.term t true)
        if r'.2 then (addNext net t w.next).map fun nx => (⟨r'.1.mark t, nx⟩, true)
        else .ok (⟨r'.1, w.next⟩, false)
    else .ok (⟨r.1, w.next⟩, false)
  | _, _ => .thrown

/-- The callback of the bus/breaker traversal (BusBreakerVoltageLevel.cpp l.392-409). -/
def busCb (net : Net) (ask : Ask) (g : G (List Nat) Nat) (w : W) (_v1 e v2 : Nat) : Out (W × Bool) :=
  match g.edgeAt e, g.vertexAt v2 with
  | some ⟨_, _, some h⟩, some (some ts) =>
    let r := w.st.ask ask (.sw h)
    if r.2 then
      match ts with
      | [] => .ok (⟨r.1, w.next⟩, true)
      | t :: _ =>
        let r' := r.1.ask ask (.term t (net.connected t))
        if r'.2 then (addNext net t w.next).map fun nx => (⟨r'.1.mark t, nx⟩, true)
        else .ok (⟨r'.1, w.next⟩, false)
    else .ok (⟨r.1, w.next⟩, false)
  | _, _ => .thrown

/-- The loop over the other terminals of the bus (BusBreakerVoltageLevel.cpp l.385-389). -/
def sameBus (net : Net) (ask : Ask) (t0 : Nat) : List Nat → W → Out W
  | [], w => .ok w
  | t :: ts, w =>
    if t = t0 then sameBus net ask t0 ts w
    else
      let r := w.st.ask ask (.term t (net.connected t))
      if r.2 then (addNext net t w.next).bind fun nx => sameBus net ask t0 ts ⟨r.1, nx⟩
      else sameBus net ask t0 ts ⟨r.1, w.next⟩

/-- The part of `traverse` in the voltage level of the terminal, after it was accepted and added to the traversed ones
    (NodeBreakerVoltageLevel.cpp l.406-428, BusBreakerVoltageLevel.cpp l.378-409). -/
def inLevel (net : Net) (ask : Ask) (t : Nat) (st : St) : Out W :=
  (addNext net t []).bind fun nx =>
    match net.topo (net.place t).1 with
    | .node g => g.sTraverse (nodeCb net ask g) ⟨st, nx⟩ (net.place t).2
    | .bus g =>
      match g.vertexAt (net.place t).2 with
      | some (some ts) => (sameBus net ask t ts ⟨st, nx⟩).bind fun w => g.sTraverse (busCb net ask g) w (net.place t).2
      | _ => .thrown

/-- The flag passed with the start terminal: `true` for a node terminal (NodeBreakerVoltageLevel.cpp l.403), `isConnected`
    for a bus terminal (BusBreakerVoltageLevel.cpp l.377). -/
def Net.flag (net : Net) (t : Nat) : Bool :=
  match net.topo (net.place t).1 with
  | .node _ => true
  | .bus _ => net.connected t

/-- The loop over `nextTerminals` (NodeBreakerVoltageLevel.cpp l.430-432, BusBreakerVoltageLevel.cpp l.411-413). -/
def each (rec : Nat → St → Out St) : List Nat → St → Out St
  | [], st => .ok st
  | t :: ts, st => (rec t st).bind (each rec ts)

/-- `traverse(terminal, traverser, traversedTerminals)` (NodeBreakerVoltageLevel.cpp l.398-434, BusBreakerVoltageLevel.cpp
    l.369-415).  `order` is the order in which the set of next terminals is run through (by address).  The fuel bounds the
    recursion; running out is an endless recursion, `ub`. -/
def visit (net : Net) (ask : Ask) (order : List Nat → List Nat) : Nat → Nat → St → Out St
  | 0, _, _ => .ub
  | n + 1, t, st =>
    if t ∈ st.traversed then .ok st
    else
      let r := st.ask ask (.term t (net.flag t))
      if r.2 then (inLevel net ask t (r.1.mark t)).bind fun w => each (visit net ask order n) (order w.next) w.st
      else .ok r.1

/-- `traverse(terminal, traverser)` (NodeBreakerVoltageLevel.cpp l.393-396, BusBreakerVoltageLevel.cpp l.364-367). -/
def traverse (net : Net) (ask : Ask) (order : List Nat → List Nat) (t : Nat) : Out St :=
  visit net ask order (net.terms.length + 1) t ⟨[], []⟩

end Verif.Traverse
