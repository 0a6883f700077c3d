import Verif.Common.Out
import Verif.Common.NatSet

/-!
Model of `powsybl::math::UndirectedGraph` (include/powsybl/math/UndirectedGraph.hxx / .hpp).

`Option α` objects are `stdcxx::Reference`s (possibly null).  A `none` slot is a null `unique_ptr`.
-/

namespace Verif.Graph

open Verif

/-- `UndirectedGraph::Edge` (UndirectedGraph.hpp l.137-161). -/
structure Edge (ε : Type) where
  v1 : Nat
  v2 : Nat
  obj : Option ε
  deriving DecidableEq, Repr

/-- The members of the class (UndirectedGraph.hpp l.124-134). -/
structure G (ν ε : Type) where
  vertices : List (Option (Option ν)) := []
  edges : List (Option (Edge ε)) := []
  avail : List Nat := []
  removed : List Nat := []
  adj : List (List Nat) := []
  deriving DecidableEq, Repr

variable {ν ε : Type}

/-- `m_vertices[v]` seen as a partial map: `none` out of range or for a null pointer. -/
def G.vertexAt (g : G ν ε) (v : Nat) : Option (Option ν) := (g.vertices[v]?).join

/-- `m_edges[e]` seen as a partial map. -/
def G.edgeAt (g : G ν ε) (e : Nat) : Option (Edge ε) := (g.edges[e]?).join

/-- `checkVertex` succeeds (UndirectedGraph.hxx l.94-99), also `vertexExists` (l.453-456). -/
def G.vertexExists (g : G ν ε) (v : Nat) : Bool := (g.vertexAt v).isSome

/-- `checkEdge` succeeds (UndirectedGraph.hxx l.87-92). -/
def G.edgeExists (g : G ν ε) (e : Nat) : Bool := (g.edgeAt e).isSome

/-- `invalidateAdjacencyList` (UndirectedGraph.hxx l.328-333). -/
def G.invalidate (g : G ν ε) : G ν ε := { g with adj := [] }

/-- `addEdge` (UndirectedGraph.hxx l.27-47). -/
def G.addEdge (g : G ν ε) (v1 v2 : Nat) (obj : Option ε) : Out Nat × G ν ε :=
  if !g.vertexExists v1 then (.thrown, g)
  else if !g.vertexExists v2 then (.thrown, g)
  else
    match g.removed with
    | [] => (.ok g.edges.length, { g with edges := g.edges ++ [some (Edge.mk v1 v2 obj)] }.invalidate)
    | e :: rest =>
      if e < g.edges.length then
        (.ok e, { g with edges := g.edges.set e (some (Edge.mk v1 v2 obj)), removed := rest }.invalidate)
      else (.ub, g)

/-- `addVertex` (UndirectedGraph.hxx l.49-67). -/
def G.addVertex (g : G ν ε) : Out Nat × G ν ε :=
  match g.avail with
  | [] => (.ok g.vertices.length, { g with vertices := g.vertices ++ [some none] }.invalidate)
  | v :: rest =>
    if v < g.vertices.length then
      (.ok v, { g with vertices := g.vertices.set v (some none), avail := rest }.invalidate)
    else (.ub, g)

/-- The indices inserted by the loop of `addVertexIfNotPresent` (l.78-80).  The counter is an `unsigned int`: the model
    is that of indices below 2^32 (above, the loop does not end). -/
def insertRange : Nat → Nat → List Nat → List Nat
  | _, 0, l => l
  | from_, n + 1, l => insertRange (from_ + 1) n (NatSet.insert from_ l)

/-- `addVertexIfNotPresent` (UndirectedGraph.hxx l.69-85). -/
def G.addVertexIfNotPresent (g : G ν ε) (v : Nat) : Out Unit × G ν ε :=
  if v < g.vertices.length then
    if v ∈ g.avail then
      (.ok (), { g with vertices := g.vertices.set v (some none), avail := g.avail.erase v }.invalidate)
    else (.ok (), g.invalidate)
  else
    (.ok (), { g with
      avail := insertRange g.vertices.length (v - g.vertices.length) g.avail
      vertices := g.vertices ++ List.replicate (v - g.vertices.length) none ++ [some none] }.invalidate)

/-- `cleanVertices(v)` (UndirectedGraph.hxx l.101-111); the argument of the model is the number of remaining
    candidates, `v + 1`.  The call with `v = 0 - 1` wraps around to a huge index that is not in the set, and returns at
    once: that is the case `0` here.  `none` is a `pop_back` of an empty vector (undefined). -/
def clean : Nat → List Nat → List (Option (Option ν)) → Option (List Nat × List (Option (Option ν)))
  | 0, av, vs => some (av, vs)
  | k + 1, av, vs =>
    if k ∈ av then
      if vs = [] then none else clean k (av.erase k) vs.dropLast
    else some (av, vs)

/-- An edge is connected to the vertex (UndirectedGraph.hxx l.392-397). -/
def G.touched (g : G ν ε) (v : Nat) : Bool :=
  g.edges.any (fun o => match o with | some ed => ed.v1 == v || ed.v2 == v | none => false)

/-- `removeVertex` (UndirectedGraph.hxx l.388-411). -/
def G.removeVertex (g : G ν ε) (v : Nat) : Out (Option ν) × G ν ε :=
  match g.vertexAt v with
  | none => (.thrown, g)
  | some obj =>
    if g.touched v then (.thrown, g)
    else if v = g.vertices.length - 1 then
      match clean v g.avail g.vertices.dropLast with
      | some (av, vs) => (.ok obj, { g with avail := av, vertices := vs }.invalidate)
      | none => (.ub, g)
    else (.ok obj, { g with vertices := g.vertices.set v none, avail := NatSet.insert v g.avail }.invalidate)

/-- `removeEdge` (UndirectedGraph.hxx l.355-370). -/
def G.removeEdge (g : G ν ε) (e : Nat) : Out (Option ε) × G ν ε :=
  match g.edgeAt e with
  | none => (.thrown, g)
  | some ed =>
    if e = g.edges.length - 1 then (.ok ed.obj, { g with edges := g.edges.dropLast }.invalidate)
    else (.ok ed.obj, { g with edges := g.edges.set e none, removed := NatSet.insert e g.removed }.invalidate)

/-- `removeAllEdges` (UndirectedGraph.hxx l.335-341). -/
def G.removeAllEdges (g : G ν ε) : G ν ε := { g with edges := [], removed := [] }.invalidate

/-- `removeAllVertices` (UndirectedGraph.hxx l.343-353). -/
def G.removeAllVertices (g : G ν ε) : Out Unit × G ν ε :=
  if g.edges ≠ [] then (.thrown, g)
  else (.ok (), { g with vertices := [], avail := [] }.invalidate)

/-- `setVertexObject` (UndirectedGraph.hxx l.413-418). -/
def G.setVertexObject (g : G ν ε) (v : Nat) (obj : Option ν) : Out Unit × G ν ε :=
  if !g.vertexExists v then (.thrown, g)
  else (.ok (), { g with vertices := g.vertices.set v (some obj) })

/-- `connectedVertices` of `removeIsolatedVertices` (UndirectedGraph.hxx l.375-379). -/
def G.connectedVertices (g : G ν ε) : List Nat :=
  (g.edges.filterMap id).flatMap (fun ed => [ed.v1, ed.v2])

/-- Loop of `removeIsolatedVertices` (UndirectedGraph.hxx l.381-385).  `getVertices()` is lazy: its end is the number of
    slots before the loop (`candidates` is that range), and its filter reads `m_vertices[v]` in the vector as it is when
    the iteration gets there; past the current end that is undefined behaviour. -/
def isolatedLoop (connected : List Nat) : List Nat → G ν ε → Out Unit × G ν ε
  | [], g => (.ok (), g)
  | v :: vs, g =>
    match g.vertices[v]? with
    | none => (.ub, g)
    | some none => isolatedLoop connected vs g
    | some (some obj) =>
      if v ∉ connected ∧ obj.isNone then
        match g.removeVertex v with
        | (.ok _, g') => isolatedLoop connected vs g'
        | (.thrown, g') => (.thrown, g')
        | (.ub, g') => (.ub, g')
      else isolatedLoop connected vs g

/-- `removeIsolatedVertices` (UndirectedGraph.hxx l.372-386). -/
def G.removeIsolatedVertices (g : G ν ε) : Out Unit × G ν ε :=
  isolatedLoop g.connectedVertices (List.range g.vertices.length) g

/-- `getEdgeCount` (UndirectedGraph.hxx l.207-210); the subtraction of unsigned numbers does not wrap in reachable
    states (proved: `removed.length ≤ edges.length`). -/
def G.edgeCount (g : G ν ε) : Nat := g.edges.length - g.removed.length

/-- `getVertexCount` (UndirectedGraph.hxx l.289-292). -/
def G.vertexCount (g : G ν ε) : Nat := g.vertices.length - g.avail.length

/-- `m_adjacencyList[v].push_back(e)`. -/
def pushAt (l : List (List Nat)) (v e : Nat) : Out (List (List Nat)) :=
  match l[v]? with
  | some es => .ok (l.set v (es ++ [e]))
  | none => .ub

/-- The loop over the edges in `getAdjacencyList` (UndirectedGraph.hxx l.195-201). -/
def adjLoop : Nat → List (Option (Edge ε)) → List (List Nat) → Out (List (List Nat))
  | _, [], l => .ok l
  | i, none :: es, l => adjLoop (i + 1) es l
  | i, some ed :: es, l => (pushAt l ed.v1 i).bind (fun l => (pushAt l ed.v2 i).bind (adjLoop (i + 1) es))

/-- `getAdjacencyList` (UndirectedGraph.hxx l.181-205): computed only when the number of entries differs from the number
    of vertices. -/
def G.adjacency (g : G ν ε) : Out (List (List Nat)) :=
  if g.adj.length = g.vertices.length then .ok g.adj
  else adjLoop 0 g.edges
    (g.adj.take g.vertices.length ++ List.replicate (g.vertices.length - g.adj.length) [])

/-- Any query that calls `getAdjacencyList`: fills the cache. -/
def G.query (g : G ν ε) : Out Unit × G ν ε :=
  match g.adjacency with
  | .ok l => (.ok (), { g with adj := l })
  | .thrown => (.thrown, g)
  | .ub => (.ub, g)

/-- Calls of the public interface that change the graph or its cache. -/
inductive Op (ν ε : Type) where
  | addVertex
  | addVertexIfNotPresent (v : Nat)
  | addEdge (v1 v2 : Nat) (obj : Option ε)
  | removeVertex (v : Nat)
  | removeEdge (e : Nat)
  | removeAllEdges
  | removeAllVertices
  | removeIsolatedVertices
  | setVertexObject (v : Nat) (obj : Option ν)
  | query

/-- One call; the index returned by `addVertex` / `addEdge` is given as result (0 for the others). -/
def step (g : G ν ε) : Op ν ε → Out Nat × G ν ε
  | .addVertex => g.addVertex
  | .addVertexIfNotPresent v => ((g.addVertexIfNotPresent v).1.map (fun _ => 0), (g.addVertexIfNotPresent v).2)
  | .addEdge v1 v2 obj => g.addEdge v1 v2 obj
  | .removeVertex v => ((g.removeVertex v).1.map (fun _ => 0), (g.removeVertex v).2)
  | .removeEdge e => ((g.removeEdge e).1.map (fun _ => 0), (g.removeEdge e).2)
  | .removeAllEdges => (.ok 0, g.removeAllEdges)
  | .removeAllVertices => (g.removeAllVertices.1.map (fun _ => 0), g.removeAllVertices.2)
  | .removeIsolatedVertices => (g.removeIsolatedVertices.1.map (fun _ => 0), g.removeIsolatedVertices.2)
  | .setVertexObject v obj => ((g.setVertexObject v obj).1.map (fun _ => 0), (g.setVertexObject v obj).2)
  | .query => (g.query.1.map (fun _ => 0), g.query.2)

/-- The graph after a history of calls on an empty graph. -/
def run (g : G ν ε) (ops : List (Op ν ε)) : G ν ε := ops.foldl (fun g op => (step g op).2) g

end Verif.Graph
