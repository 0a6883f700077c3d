import Verif.Electric.Model
import Verif.CompBuses.Spec

/-! Specification of the components of a network, by the paths that the current can take. -/

namespace Verif.Electric

open Verif Verif.Graph
open Verif.NodeBreaker (EqType Passing Branchy Conn)
open Verif.BusBreaker (BusAt Closed)
open Verif.CompBuses (Level LevelsOk Filler Tells)
open Verif.BusState (Bus)
open Verif.NetComponents (Sorter)

/-- A place of the network: a node or a configured bus. -/
inductive Spot where
  | node (vl : String) (n : Nat)
  | bus (vl : String) (handle : Nat)
  deriving DecidableEq, Repr

/-- Where a terminal is. -/
def End.spot : End → Spot
  | .node vl n => .node vl n
  | .bus vl h _ => .bus vl h

/-- The terminal is connected to its place. -/
def End.Live : End → Prop
  | .node _ _ => True
  | .bus _ _ connected => connected = true

/-- The terminals of each equipment, with or without the HVDC lines. -/
def ends (dc : Bool) (e : Equip) : List (List End) :=
  (e.lines.map fun p => [p.1, p.2]) ++ (e.trafos.map fun p => [p.1, p.2]) ++ (e.three.map fun p => [p.1, p.2.1, p.2.2]) ++
    if dc then e.hvdc.map fun p => [p.1, p.2] else []

/-- The current can pass from one place to another: through an internal connection or a closed switch, or through an equipment
    connected to both. -/
inductive Step (levels : List Level) (es : List (List End)) : Spot → Spot → Prop
  | switch {id g opened retained e ed u w} : .node id g opened retained ∈ levels → g.edgeAt e = some ed → Passing .bus opened retained ed.obj →
      Joins ed u w → Step levels es (.node id u) (.node id w)
  | coupler {id g opened types e ed u w b c} : .conf id g opened types ∈ levels → g.edgeAt e = some ed → Closed opened ed.obj →
      Joins ed u w → BusAt g u b → BusAt g w c → Step levels es (.bus id b.handle) (.bus id c.handle)
  | through {l a b} : l ∈ es → a ∈ l → b ∈ l → a.Live → b.Live → Step levels es a.spot b.spot

/-- There is a path between the two places. -/
inductive Chain (levels : List Level) (es : List (List End)) (p : Spot) : Spot → Prop
  | refl : Chain levels es p p
  | step {q r} : Chain levels es p q → Step levels es q r → Chain levels es p r

/-- The place is on a bus of the bus view: closed switches and internal connections link it to a busbar section and another
    equipment, or to a branch and another equipment; a configured bus, to a branch. -/
def Energized (levels : List Level) : Spot → Prop
  | .node vl n => ∃ g opened retained, .node vl g opened retained ∈ levels ∧ NodeBreaker.OnEdge g n ∧
      NodeBreaker.Qualifies g .bus (Passing .bus opened retained) n
  | .bus vl h => ∃ g opened types u b, .conf vl g opened types ∈ levels ∧ BusAt g u b ∧ b.handle = h ∧ BusBreaker.Qualifies g opened types u

/-- The place is on that bus of the bus view, as the voltage level computes them (C18, C23); `Energized` tells when there is one. -/
def OnView (levels : List Level) : Spot → String → Prop
  | .node vl n, i => ∃ g opened retained c, .node vl g opened retained ∈ levels ∧ NodeBreaker.compute vl .bus g opened retained = .ok c ∧ c.getBus n = .ok (some i)
  | .bus vl h, i => ∃ g opened types c, .conf vl g opened types ∈ levels ∧ BusBreaker.compute vl g opened types = .ok c ∧ c.byBus.get? h = some i

/-- A terminal is one of the network: on its own node, or among the equipment of its bus when it is connected. -/
def EndOk (levels : List Level) : End → Prop
  | .node vl n => ∃ g opened retained t, .node vl g opened retained ∈ levels ∧ g.vertexAt n = some (some t) ∧ Branchy t.type
  | .bus vl h connected => ∃ g opened types u b, .conf vl g opened types ∈ levels ∧ BusAt g u b ∧ b.handle = h ∧
      (connected = true → ∃ t ∈ types h, Branchy t)

def End.isNode : End → Bool
  | .node _ _ => true
  | .bus _ _ _ => false

/-- The equipment is that of a network: no two terminals on a node (C26). -/
structure EquipOk (levels : List Level) (e : Equip) : Prop where
  each : ∀ l ∈ ends true e, ∀ a ∈ l, EndOk levels a
  apart : ((ends true e).flatten.filter End.isNode).Nodup

/-- The histories where the networks met are well formed. -/
def OpOk : Op → Prop
  | .topology levels e => LevelsOk levels ∧ EquipOk levels e
  | .ask _ => True

end Verif.Electric
