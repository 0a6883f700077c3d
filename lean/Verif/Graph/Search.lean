import Verif.Graph.Model

/-!
Model of the traversal and of the path search of `UndirectedGraph` (UndirectedGraph.hxx l.113-179 and l.420-451).

The recursions get a fuel argument; running out of fuel would be an endless recursion and is reported as `ub`.  It is
proved that with the fuel used by `traverse` and `rawPaths` this never happens.
-/

namespace Verif.Graph

open Verif

variable {ν ε : Type}

/-- One call of the traverser: `traverser(from, edge, to)` and its answer (`true` is `CONTINUE`). -/
structure Call where
  src : Nat
  edge : Nat
  dst : Nat
  go : Bool
  deriving DecidableEq, Repr

/-- State of a traversal: the `encountered` vector and the calls made to the traverser so far. -/
structure TSt where
  enc : List Bool
  log : List Call
  deriving DecidableEq, Repr

/-- Recording of a call of the traverser. -/
def TSt.call (st : TSt) (src e dst : Nat) (b : Bool) : TSt := { st with log := st.log ++ [⟨src, e, dst, b⟩] }

/-- `encountered[v] = true`. -/
def TSt.mark (st : TSt) (v : Nat) : TSt := { st with enc := st.enc.set v true }

/-- Loop over the adjacent edges (UndirectedGraph.hxx l.437-450); `rec` is the recursive call. -/
def edgeLoop (g : G ν ε) (acc : Nat → Nat → Nat → Bool) (rec : Nat → TSt → Out TSt) : List Nat → TSt → Out TSt
  | [], st => .ok st
  | e :: es, st =>
    match g.edgeAt e with
    | none => .ub
    | some ed =>
      match st.enc[ed.v1]? with
      | none => .ub
      | some false =>
        if acc ed.v2 e ed.v1 then
          (rec ed.v1 ((st.call ed.v2 e ed.v1 true).mark ed.v1)).bind (edgeLoop g acc rec es)
        else edgeLoop g acc rec es (st.call ed.v2 e ed.v1 false)
      | some true =>
        match st.enc[ed.v2]? with
        | none => .ub
        | some false =>
          if acc ed.v1 e ed.v2 then
            (rec ed.v2 ((st.call ed.v1 e ed.v2 true).mark ed.v2)).bind (edgeLoop g acc rec es)
          else edgeLoop g acc rec es (st.call ed.v1 e ed.v2 false)
        | some true => edgeLoop g acc rec es st

/-- `encountered.resize(n, false)`. -/
def resize (l : List Bool) (n : Nat) : List Bool := l.take n ++ List.replicate (n - l.length) false

/-- The recursive `traverse` (UndirectedGraph.hxx l.427-451).  The traverser is a function of its arguments (its answers do
    not depend on what happened before); what it collects is in the log. -/
def traverseRec (g : G ν ε) (acc : Nat → Nat → Nat → Bool) (adj : List (List Nat)) : Nat → Nat → TSt → Out TSt
  | 0, _, _ => .ub
  | n + 1, v, st =>
    if !g.vertexExists v then .thrown
    else
      match adj[v]? with
      | none => .ub
      | some es => edgeLoop g acc (traverseRec g acc adj n) es ({ st with enc := resize st.enc g.vertices.length }.mark v)

/-- `traverse(v, traverser, encountered)` (UndirectedGraph.hxx l.427). -/
def G.traverse (g : G ν ε) (acc : Nat → Nat → Nat → Bool) (v : Nat) (enc : List Bool) : Out TSt :=
  if !g.vertexExists v then .thrown
  else g.adjacency.bind (fun adj => traverseRec g acc adj (g.vertices.length + 1) v ⟨enc, []⟩)

/-- `traverse(v, traverser)` (UndirectedGraph.hxx l.420-425). -/
def G.traverseFrom (g : G ν ε) (acc : Nat → Nat → Nat → Bool) (v : Nat) : Out TSt :=
  g.traverse acc v (List.replicate g.vertices.length false)

/-- `findAllPaths(e, v, ...)` (UndirectedGraph.hxx l.163-179): the paths added through the edge `e` to the vertex `w`. -/
def tryEdge (g : G ν ε) (complete : Option ν → Bool) (rec : Nat → List Nat → List Bool → Out (List (List Nat)))
    (path : List Nat) (enc : List Bool) (e w : Nat) : Out (List (List Nat)) :=
  match enc[w]? with
  | none => .ub
  | some true => .ok []
  | some false =>
    match g.vertexAt w with
    | none => .ub
    | some obj => if complete obj then .ok [path ++ [e]] else rec w (path ++ [e]) enc

/-- Loop over the adjacent edges (UndirectedGraph.hxx l.138-160). -/
def pathLoop (g : G ν ε) (complete : Option ν → Bool) (cancel : Option ε → Bool)
    (rec : Nat → List Nat → List Bool → Out (List (List Nat))) (v : Nat) (path : List Nat) (enc : List Bool) :
    List Nat → Out (List (List Nat))
  | [] => .ok []
  | e :: es =>
    match g.edgeAt e with
    | none => .ub
    | some ed =>
      if cancel ed.obj then pathLoop g complete cancel rec v path enc es
      else if v = ed.v2 then
        (tryEdge g complete rec path enc e ed.v1).bind
          (fun ps => (pathLoop g complete cancel rec v path enc es).map (fun qs => ps ++ qs))
      else if v = ed.v1 then
        (tryEdge g complete rec path enc e ed.v2).bind
          (fun ps => (pathLoop g complete cancel rec v path enc es).map (fun qs => ps ++ qs))
      else .thrown

/-- `findAllPaths(v, ..., path, encountered, paths)` (UndirectedGraph.hxx l.128-161). -/
def pathsRec (g : G ν ε) (complete : Option ν → Bool) (cancel : Option ε → Bool) (adj : List (List Nat)) :
    Nat → Nat → List Nat → List Bool → Out (List (List Nat))
  | 0, _, _, _ => .ub
  | n + 1, v, path, enc =>
    if !g.vertexExists v then .thrown
    else
      match adj[v]? with
      | none => .ub
      | some es => pathLoop g complete cancel (pathsRec g complete cancel adj n) v path (enc.set v true) es

/-- `findAllPaths` before the final sort (UndirectedGraph.hxx l.113-119). -/
def G.rawPaths (g : G ν ε) (complete : Option ν → Bool) (cancel : Option ε → Bool) (v : Nat) : Out (List (List Nat)) :=
  if !g.vertexExists v then .thrown
  else g.adjacency.bind (fun adj =>
    pathsRec g complete cancel adj (g.vertices.length + 1) v [] (List.replicate g.vertices.length false))

/-- `std::sort` by length (UndirectedGraph.hxx l.121-123): any permutation with ascending lengths. -/
def SortedByLength (raw sorted : List (List Nat)) : Prop :=
  sorted.Perm raw ∧ sorted.Pairwise (fun p q => p.length ≤ q.length)

/-- The possible results of `findAllPaths`. -/
def G.FindAllPaths (g : G ν ε) (complete : Option ν → Bool) (cancel : Option ε → Bool) (v : Nat)
    (r : Out (List (List Nat))) : Prop :=
  match g.rawPaths complete cancel v with
  | .ok raw => ∃ sorted, SortedByLength raw sorted ∧ r = .ok sorted
  | .thrown => r = .thrown
  | .ub => r = .ub

end Verif.Graph
