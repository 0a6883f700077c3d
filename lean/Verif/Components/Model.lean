import Verif.Common.Out

/-!
Model of `math::computeConnectedComponents` (src/math/GraphUtil.cpp).
-/

namespace Verif.Components

open Verif

/-- `AdjacencyList` (include/powsybl/math/GraphUtil.hpp): for each vertex the vertices next to it. -/
abbrev Adj := List (List Nat)

/-- The two vectors filled by the search: `componentNumber` (with `none` for "not yet numbered") and `componentSize`. -/
structure St where
  num : List (Option Nat)
  size : List Nat
  deriving DecidableEq, Repr

/-- Loop over the neighbours (GraphUtil.cpp l.27-31); `rec` is the recursive call. -/
def nbrLoop (rec : Nat → St → Out St) : List Nat → St → Out St
  | [], st => .ok st
  | w :: ws, st =>
    match st.num[w]? with
    | none => .ub
    | some none => (rec w st).bind (nbrLoop rec ws)
    | some (some _) => nbrLoop rec ws st

/-- The recursive function (GraphUtil.cpp l.22-32).  `componentSize[c]` is read and written: out of range is `ub`.  The fuel
    bounds the recursion depth; running out is reported as `ub` and proved not to happen. -/
def dfs (adj : Adj) (c : Nat) : Nat → Nat → St → Out St
  | 0, _, _ => .ub
  | n + 1, v, st =>
    match st.num[v]?, st.size[c]?, adj[v]? with
    | some _, some k, some ws => nbrLoop (dfs adj c n) ws ⟨st.num.set v (some c), st.size.set c (k + 1)⟩
    | _, _, _ => .ub

/-- Main loop (GraphUtil.cpp l.42-48) over the vertices in the list; returns the final `c` too. -/
def vertexLoop (adj : Adj) : List Nat → Nat → St → Out (Nat × St)
  | [], c, st => .ok (c, st)
  | v :: vs, c, st =>
    match st.num[v]? with
    | none => .ub
    | some none => (dfs adj c (adj.length + 1) v st).bind (fun st' => vertexLoop adj vs (c + 1) st')
    | some (some _) => vertexLoop adj vs c st

/-- First part: search from every vertex (GraphUtil.cpp l.36-48). -/
def search (adj : Adj) : Out (Nat × St) :=
  vertexLoop adj (List.range adj.length) 0 ⟨List.replicate adj.length none, List.replicate adj.length 0⟩

/-- `orderedComponents[i].get().orderedNumber = i` for `i` from `i0` on (GraphUtil.cpp l.66-68).  `orderedComponents` is the
    list of the indices of the components referred to. -/
def assign : List Nat → Nat → List Nat → List Nat
  | [], _, ord => ord
  | k :: ks, i, ord => assign ks (i + 1) (ord.set k i)

/-- `componentSize[comp.orderedNumber] = comp.size` (GraphUtil.cpp l.71-74); the sizes come from the copies held in
    `components`. -/
def resizeLoop (compSize ord : List Nat) : List Nat → List Nat → Out (List Nat)
  | [], out => .ok out
  | k :: ks, out =>
    match compSize[k]?, ord[k]? with
    | some s, some i => if i < out.length then resizeLoop compSize ord ks (out.set i s) else .ub
    | _, _ => .ub

/-- `it = components[*it].orderedNumber` (GraphUtil.cpp l.77-80).  Dereferencing an empty optional throws in this code base
    or is undefined; `ub` here. -/
def renumber (ord : List Nat) : List (Option Nat) → Out (List Nat)
  | [] => .ok []
  | none :: _ => .ub
  | some k :: ks =>
    match ord[k]? with
    | none => .ub
    | some i => (renumber ord ks).map (fun l => i :: l)

/-- Result: component number per vertex and size per component. -/
structure Result where
  number : List Nat
  size : List Nat
  deriving DecidableEq, Repr

/-- Second part, once the order `ordered` chosen by `std::sort` is known (GraphUtil.cpp l.65-82). -/
def finish (c : Nat) (st : St) (ordered : List Nat) : Out Result :=
  let ord := assign ordered 0 (List.replicate c 0)
  (resizeLoop (st.size.take c) ord ordered ((st.size ++ List.replicate (c - st.size.length) 0).take c)).bind (fun sz =>
    (renumber ord st.num).map (fun nb => ⟨nb, sz⟩))

/-- `std::sort` by decreasing size (GraphUtil.cpp l.61-63): any permutation of the components sorted by the key. -/
def SortedBySize (c : Nat) (size : List Nat) (ordered : List Nat) : Prop :=
  ordered.Perm (List.range c) ∧ ordered.Pairwise (fun i j => (size[j]?).getD 0 ≤ (size[i]?).getD 0)

/-- `computeConnectedComponents(adjacencyList)` (GraphUtil.cpp l.34-83), as a relation because `std::sort` may order equal
    components in any way. -/
def Compute (adj : Adj) (r : Out Result) : Prop :=
  match search adj with
  | .ok (c, st) => ∃ ordered, SortedBySize c st.size ordered ∧ r = finish c st ordered
  | .thrown => r = .thrown
  | .ub => r = .ub

end Verif.Components
