import Verif.Traverse.Model
import Verif.Graph.StatefulInv

/-!
Vocabulary for the topological traversals, independent of the way they are computed.
-/

namespace Verif.Traverse

open Verif Verif.Graph

/-- The terminals of an equipment with several. -/
def Conn.members : Conn → List Nat
  | .injection => []
  | .branch t1 t2 => [t1, t2]
  | .three t1 t2 t3 => [t1, t2, t3]

/-- Two terminals of one equipment. -/
def Mate (net : Net) (t t' : Nat) : Prop := t ∈ (net.conn t).members ∧ t' ∈ (net.conn t).members ∧ t ≠ t'

/-- What the network guarantees: graphs made by the operations of the graph, terminals where they say they are, buses and
    switches as objects of a bus/breaker topology, equipments with their own terminals. -/
structure Net.WF (net : Net) : Prop where
  nodeG : ∀ {vl g}, net.topo vl = .node g → Reached g
  busG : ∀ {vl g}, net.topo vl = .bus g → Reached g
  nodeAt : ∀ {t g}, t ∈ net.terms → net.topo (net.place t).1 = .node g → g.vertexAt (net.place t).2 = some (some t)
  busAt : ∀ {t g}, t ∈ net.terms → net.topo (net.place t).1 = .bus g →
    ∃ ts, g.vertexAt (net.place t).2 = some (some ts) ∧ t ∈ ts
  nodeObj : ∀ {vl g n t}, net.topo vl = .node g → g.vertexAt n = some (some t) → t ∈ net.terms ∧ net.place t = (vl, n)
  busObj : ∀ {vl g n}, net.topo vl = .bus g → g.vertexAt n ≠ none →
    ∃ ts, g.vertexAt n = some (some ts) ∧ ∀ t ∈ ts, t ∈ net.terms ∧ net.place t = (vl, n)
  busSw : ∀ {vl g e ed}, net.topo vl = .bus g → g.edgeAt e = some ed → ed.obj ≠ none
  own : ∀ {t}, t ∈ net.terms → net.conn t = .injection ∨ t ∈ (net.conn t).members
  mem : ∀ {t t'}, t ∈ net.terms → t' ∈ (net.conn t).members → t' ∈ net.terms
  nodup : ∀ {t}, t ∈ net.terms → (net.conn t).members.Nodup

/-- The question was asked and accepted. -/
def Yes (log : List (Q × Bool)) (q : Q) : Prop := (q, true) ∈ log

/-- The terminal was asked about and accepted. -/
def Accepted (log : List (Q × Bool)) (t : Nat) : Prop := ∃ c, Yes log (.term t c)

/-- A vertex that the traversal may leave: a node without terminal or with an accepted one; a bus without terminal or with
    an accepted one. -/
def Passed (net : Net) (log : List (Q × Bool)) (vl u : Nat) : Prop :=
  match net.topo vl with
  | .node g => ∀ t, g.vertexAt u = some (some t) → Accepted log t
  | .bus g => ∀ ts, g.vertexAt u = some (some ts) → ts = [] ∨ ∃ t ∈ ts, Accepted log t

/-- The vertices are joined by an edge with this object: a switch, or nothing for an internal connection. -/
def Joined (net : Net) (vl u w : Nat) (obj : Option Nat) : Prop :=
  match net.topo vl with
  | .node g => ∃ e ed, g.edgeAt e = some ed ∧ Joins ed u w ∧ ed.obj = obj
  | .bus g => ∃ e ed, g.edgeAt e = some ed ∧ Joins ed u w ∧ ed.obj = obj

/-- The places (voltage level, vertex) that the questions and answers so far allow to get to from a terminal: through
    internal connections and accepted switches from vertices that may be left, and from an accepted terminal to the other
    ends of its equipment. -/
inductive Near (net : Net) (t0 : Nat) (log : List (Q × Bool)) : Nat × Nat → Prop
  | start : Near net t0 log (net.place t0)
  | edge {vl u w : Nat} {obj : Option Nat} : Near net t0 log (vl, u) → Passed net log vl u → Joined net vl u w obj →
      (∀ h, obj = some h → Yes log (.sw h)) → Near net t0 log (vl, w)
  | across {t t' : Nat} : Near net t0 log (net.place t) → Accepted log t → Mate net t t' → Near net t0 log (net.place t')

/-- The questions that may be asked: about terminals at these places, with the right flag, and about switches at vertices
    that may be left. -/
def Justified (net : Net) (t0 : Nat) (log : List (Q × Bool)) : Q → Prop
  | .term t c => t ∈ net.terms ∧ c = net.flag t ∧ Near net t0 log (net.place t)
  | .sw h => ∃ vl u w, Near net t0 log (vl, u) ∧ Passed net log vl u ∧ Joined net vl u w (some h)

/-! ### Traversers whose answers depend on the question only -/

/-- A traverser whose answers depend on the question only. -/
abbrev pureAsk (f : Q → Bool) : Ask := fun _ q => f q

/-- Every terminal of the place is accepted. -/
def Open (net : Net) (f : Q → Bool) (vl w : Nat) : Prop :=
  ∀ t, t ∈ net.terms → net.place t = (vl, w) → f (.term t true) = true

/-- An internal connection, or an accepted switch. -/
def Crossed (f : Q → Bool) (obj : Option Nat) : Prop := ∀ h, obj = some h → f (.sw h) = true

/-- The places that the traverser lets reach from a terminal: through internal connections and accepted switches to places
    without refused terminal, and to the accepted terminals at the other ends of an equipment. -/
inductive Visited (net : Net) (f : Q → Bool) (t0 : Nat) : Nat × Nat → Prop
  | start : f (.term t0 true) = true → Visited net f t0 (net.place t0)
  | edge {vl u w : Nat} {obj : Option Nat} : Visited net f t0 (vl, u) → Joined net vl u w obj → Crossed f obj →
      Open net f vl w → Visited net f t0 (vl, w)
  | across {t t' : Nat} : t ∈ net.terms → Visited net f t0 (net.place t) → Mate net t t' → f (.term t' true) = true →
      Visited net f t0 (net.place t')

/-- The terminals next to these places: the start, those behind an internal connection or an accepted switch, those at
    the other end of an equipment. -/
def Beside (net : Net) (f : Q → Bool) (t0 t : Nat) : Prop :=
  t = t0 ∨ (∃ vl u w obj, Visited net f t0 (vl, u) ∧ Joined net vl u w obj ∧ Crossed f obj ∧ net.place t = (vl, w)) ∨
    ∃ t', t' ∈ net.terms ∧ Visited net f t0 (net.place t') ∧ Mate net t' t

/-- The terminal was asked about. -/
def Asked (log : List (Q × Bool)) (t : Nat) : Prop := ∃ b, (Q.term t true, b) ∈ log

/-- The accepted terminals in the order of the questions. -/
def acceptedOf : List (Q × Bool) → List Nat
  | [] => []
  | (.term t _, true) :: l => t :: acceptedOf l
  | _ :: l => acceptedOf l

end Verif.Traverse
