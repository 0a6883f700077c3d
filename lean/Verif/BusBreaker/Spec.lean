import Verif.BusBreaker.Model
import Verif.NodeBreaker.Spec

/-! Vocabulary of the properties about bus/breaker voltage levels, independent of the computation. -/

namespace Verif.BusBreaker

open Verif Verif.Graph
open Verif.NodeBreaker (EqType Conn Branchy)

/-- The configured bus of the vertex. -/
def BusAt (g : BGr) (u : Nat) (b : CBus) : Prop := g.vertexAt u = some (some b)

/-- The switch is closed. -/
def Closed (opened : Nat → Bool) : Option BSw → Prop
  | none => False
  | some s => opened s.handle = false

/-- Closed switches link the two vertices. -/
def Linked (g : BGr) (opened : Nat → Bool) (u v : Nat) : Prop := Conn g (Closed opened) u v

/-- Some branch, transformer, converter station or dangling line is connected to a bus of the class. -/
def Qualifies (g : BGr) (opened : Nat → Bool) (types : Nat → List EqType) (u : Nat) : Prop :=
  ∃ x b t, Linked g opened u x ∧ BusAt g x b ∧ t ∈ types b.handle ∧ Branchy t

/-- The two configured buses are answered by the same merged bus. -/
def SameMerged (c : Cache) (b b' : CBus) : Prop :=
  ∃ id, c.byBus.get? b.handle = some id ∧ c.byBus.get? b'.handle = some id

/-- The merged buses are those of the topology. -/
structure Correct (g : BGr) (opened : Nat → Bool) (types : Nat → List EqType) (c : Cache) : Prop where
  same : ∀ u v b b', BusAt g u b → BusAt g v b' →
    (SameMerged c b b' ↔ Qualifies g opened types u ∧ Linked g opened u v)
  known : ∀ h id, c.byBus.get? h = some id → ∃ u b, BusAt g u b ∧ b.handle = h
  listed : ∀ h id, c.byBus.get? h = some id → ∃ hs, c.byId.get? id = some hs
  lists : ∀ id hs, c.byId.get? id = some hs → hs ≠ [] ∧ hs.Nodup ∧ ∀ h, h ∈ hs ↔ c.byBus.get? h = some id
  ids : (c.byId.map Prod.fst).Nodup

/-- What the voltage level guarantees about its graph: every vertex has its own bus. -/
structure Furnished (g : BGr) : Prop where
  bus : ∀ u, g.vertexAt u ≠ none → ∃ b, BusAt g u b
  handles : ∀ u v b b', BusAt g u b → BusAt g v b' → b.handle = b'.handle → u = v

/-- No busbar section among the equipment. -/
def NoBusbar (types : Nat → List EqType) : Prop := ∀ h, EqType.busbarSection ∉ types h

/-- The first vertex comes after as many free slots as there are vertices: `encountered` is too short for it. -/
def Gap (g : BGr) : Prop := ∃ v, g.vertexAt v ≠ none ∧ (∀ u, g.vertexAt u ≠ none → v ≤ u) ∧ g.vertexCount ≤ v

end Verif.BusBreaker
