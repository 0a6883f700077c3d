import Verif.Graph.Model

/-!
What a graph is for its users: two partial maps from indices to live vertices and edges.
-/

namespace Verif.Graph

open Verif

/-- Abstract graph. -/
structure Abs (ν ε : Type) where
  V : Nat → Option (Option ν)
  E : Nat → Option (Edge ε)

variable {ν ε : Type}

/-- Update of a map at one index. -/
def upd {α : Type} (f : Nat → α) (i : Nat) (x : α) : Nat → α := fun j => if j = i then x else f j

/-- An edge touches the vertex. -/
def Abs.Touched (a : Abs ν ε) (v : Nat) : Prop := ∃ e ed, a.E e = some ed ∧ (ed.v1 = v ∨ ed.v2 = v)

/-- What each call must do, with its result and the graph afterwards. -/
def SpecStep (a : Abs ν ε) (op : Op ν ε) (r : Out Nat) (a' : Abs ν ε) : Prop :=
  match op with
  | .addVertex => ∃ v, r = .ok v ∧ a.V v = none ∧ a' = ⟨upd a.V v (some none), a.E⟩
  | .addVertexIfNotPresent v =>
    r = .ok 0 ∧ (a.V v = none → a' = ⟨upd a.V v (some none), a.E⟩) ∧ (a.V v ≠ none → a' = a)
  | .addEdge v1 v2 obj =>
    (a.V v1 ≠ none ∧ a.V v2 ≠ none → ∃ e, r = .ok e ∧ a.E e = none ∧ a' = ⟨a.V, upd a.E e (some ⟨v1, v2, obj⟩)⟩) ∧
    (a.V v1 = none ∨ a.V v2 = none → r = .thrown ∧ a' = a)
  | .removeVertex v =>
    (a.V v ≠ none ∧ ¬ a.Touched v → r = .ok 0 ∧ a' = ⟨upd a.V v none, a.E⟩) ∧
    (a.V v = none ∨ a.Touched v → r = .thrown ∧ a' = a)
  | .removeEdge e =>
    (a.E e ≠ none → r = .ok 0 ∧ a' = ⟨a.V, upd a.E e none⟩) ∧ (a.E e = none → r = .thrown ∧ a' = a)
  | .removeAllEdges => r = .ok 0 ∧ a' = ⟨a.V, fun _ => none⟩
  | .removeAllVertices =>
    (r = .ok 0 ∧ (∀ e, a.E e = none) ∧ a' = ⟨fun _ => none, a.E⟩) ∨ (r = .thrown ∧ a' = a)
  | .removeIsolatedVertices =>
    r = .ok 0 ∧ a'.E = a.E ∧ (∀ v, a.V v = some none → ¬ a.Touched v → a'.V v = none) ∧
    (∀ v, ¬ (a.V v = some none ∧ ¬ a.Touched v) → a'.V v = a.V v)
  | .setVertexObject v obj =>
    (a.V v ≠ none → r = .ok 0 ∧ a' = ⟨upd a.V v (some obj), a.E⟩) ∧ (a.V v = none → r = .thrown ∧ a' = a)
  | .query => r = .ok 0 ∧ a' = a

/-- The maps seen through `checkVertex` / `getVertexObject`, `checkEdge` / `getVertex1` / `getVertex2` /
    `getEdgeObject`. -/
def abs (g : G ν ε) : Abs ν ε := ⟨g.vertexAt, g.edgeAt⟩

end Verif.Graph
