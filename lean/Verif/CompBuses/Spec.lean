import Verif.CompBuses.Model
import Verif.BusState.Spec
import Verif.BusBreaker.Spec
import Verif.NetComponents.Props

/-! Specification of the component of a bus, independent of where its number is stored. -/

namespace Verif.CompBuses

open Verif Verif.Graph
open Verif.NodeBreaker (Gr EqType)
open Verif.BusBreaker (BGr)
open Verif.BusState (Bus Holder Owns)
open Verif.NetComponents (Snap Sorter Adds AnyLink numberLoop)

/-- The id of a voltage level. -/
def Level.id : Level → String
  | .node id _ _ _ => id
  | .conf id _ _ _ => id

/-- The terminal or the configured bus is in the voltage level. -/
def Level.Has : Level → Holder → Prop
  | .node _ g _ _, .terminal h => ∃ u t, g.vertexAt u = some (some t) ∧ t.handle = h
  | .conf _ g _ _, .bus h => ∃ u b, BusBreaker.BusAt g u b ∧ b.handle = h
  | _, _ => False

/-- What the voltage levels guarantee (C21, C25), and that the buses can be computed (C23). -/
def Level.Ok : Level → Prop
  | .node _ g _ _ => Reached g ∧ BusState.Distinct g
  | .conf _ g _ types => Reached g ∧ BusBreaker.Furnished g ∧ BusBreaker.NoBusbar types ∧ ¬ BusBreaker.Gap g

/-- The voltage levels of a network: distinct ids, no terminal or bus in two of them. -/
structure LevelsOk (levels : List Level) : Prop where
  each : ∀ v ∈ levels, v.Ok
  ids : (levels.map Level.id).Nodup
  apart : levels.Pairwise fun v w => ∀ h, ¬ (v.Has h ∧ w.Has h)

/-- The filler records the links `R`, which are among the lines, transformers and HVDC lines. -/
structure Fills (fill : Filler) (R : Snap → String → String → Prop) : Prop where
  adds : ∀ s : Snap, s.WF → Adds s.buses (R s) (fill s (numberLoop s.buses 0 []))
  among : ∀ s a b, R s a b → AnyLink s a b

/-- The ends of the lines, transformers and HVDC lines that are in service are at buses of the bus view. -/
def EndsOk (levels : List Level) (links : Snap) : Prop :=
  ∀ bs, listAll viewBuses levels = .ok bs → ∀ a b, AnyLink { links with buses := bs.map Prod.fst } a b →
    a ∈ bs.map Prod.fst ∧ b ∈ bs.map Prod.fst

/-- The histories where the networks met are well formed. -/
def OpOk : Op → Prop
  | .topology levels links => LevelsOk levels ∧ EndsOk levels links
  | .ask _ => True

/-- What a caller is told of the component of a bus: its number and its size. -/
def Tells (fill : Filler) (srt : Sorter) (st : St) (b : Bus) (r : Option (Nat × Nat)) : Prop :=
  ∃ st', componentOf fill srt st b = .ok (r.map fun p => ⟨st.era, p.1, p.2⟩, st')

/-- Whether a caller is told that the bus is in the main component. -/
def SaysMain (fill : Filler) (srt : Sorter) (st : St) (b : Bus) (r : Option (Nat × Nat)) : Prop :=
  ∃ m st', inMain fill srt st b = .ok (m, st') ∧ (m = true ↔ ∃ z, r = some (0, z))

/-- Each bus of the network is told to be in the component of the bus of the bus view that it is part of, and in none when it
    is part of none; `comp` gives the components of the buses of the bus view. -/
structure Told (levels : List Level) (comp : String → Option (Nat × Nat)) (says : Bus → Option (Nat × Nat) → Prop) : Prop where
  /-- a bus of the bus view -/
  view : ∀ v ∈ levels, ∀ l, viewBuses v = .ok l → ∀ i b, (i, b) ∈ l → says b (comp i)
  /-- a bus of the bus/breaker view of a node/breaker voltage level, by any of its nodes -/
  breaker : ∀ id g opened retained, .node id g opened retained ∈ levels → ∀ c c', NodeBreaker.compute id .bus g opened retained = .ok c →
    NodeBreaker.compute id .busBreaker g opened retained = .ok c' → ∀ j nb b, c'.byId.get? j = some nb → BusState.construct g opened nb = .ok b →
    ∀ u ∈ nb.nodes, (∀ i, c.getBus u = .ok (some i) → says b (comp i)) ∧ (c.getBus u = .ok none → says b none)
  /-- a configured bus -/
  configured : ∀ id g opened types, .conf id g opened types ∈ levels → ∀ c, BusBreaker.compute id g opened types = .ok c →
    ∀ u b, BusBreaker.BusAt g u b → (∀ i, c.byBus.get? b.handle = some i → says (.conf b.handle) (comp i)) ∧
      (c.byBus.get? b.handle = none → says (.conf b.handle) none)

end Verif.CompBuses
