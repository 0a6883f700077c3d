import Verif.BusRefs.Model
import Verif.Electric.Spec

/-! What a reference to a bus designates, for C92. -/

namespace Verif.BusRefs

open Verif Verif.Graph
open Verif.NodeBreaker (Passing OnBus)
open Verif.BusBreaker (BusAt)
open Verif.CompBuses (Level LevelsOk)
open Verif.Electric (End Spot OnView)

/-- The terminal is one of the network. -/
def Placed (levels : List Level) : End → Prop
  | .node vl n => ∃ g opened retained, .node vl g opened retained ∈ levels ∧ g.vertexAt n ≠ none
  | .bus vl h _ => ∃ g opened types u b, .conf vl g opened types ∈ levels ∧ BusAt g u b ∧ b.handle = h

/-- The terminal is on that bus at the level of topology: linked by closed switches and internal connections to the other places of the bus (the retained switches being open at the
bus/breaker level), or connected to that configured bus. -/
def SitsOn (levels : List Level) (level : Topo) : End → String → Prop
  | .node vl n, i =>
    match level with
    | .busBranch => ∃ g opened retained, .node vl g opened retained ∈ levels ∧ OnBus vl g .bus (Passing .bus opened retained) n i
    | _ => ∃ g opened retained, .node vl g opened retained ∈ levels ∧ OnBus vl g .busBreaker (Passing .busBreaker opened retained) n i
  | .bus vl h c, i =>
    match level with
    | .busBranch => c = true ∧ OnView levels (.bus vl h) i
    | _ => c = true ∧ ∃ g opened types u b, .conf vl g opened types ∈ levels ∧ BusAt g u b ∧ b.handle = h ∧ b.id = i

/-- The network is well formed: its objects are in its voltage levels, and a configured bus knows the terminals connected to it (C25). -/
structure NetOk (net : Net) : Prop where
  levels : LevelsOk net.levels
  injection : ∀ x a, net.find x = some (.injection a) → Placed net.levels a
  branch : ∀ x a b, net.find x = some (.branch a b) → Placed net.levels a ∧ Placed net.levels b
  bus : ∀ x id vl h, net.find x = some (.bus id vl h) → ∃ g opened types u b, .conf vl g opened types ∈ net.levels ∧ BusAt g u b ∧ b.handle = h ∧ b.id = id
  attached : ∀ vl h, ∀ a ∈ net.attached vl h, ∃ c, a = .bus vl h c

end Verif.BusRefs
