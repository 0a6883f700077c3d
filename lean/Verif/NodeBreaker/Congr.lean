import Verif.NodeBreaker.BusLemmas

/-! The searches depend on the live vertices and edges of the graph only. -/

namespace Verif.NodeBreaker

open Verif Verif.Graph

variable {ν ε : Type}

theorem vertexAt_congr {g g' : G ν ε} (hv : g'.vertices = g.vertices) : g'.vertexAt = g.vertexAt := by
  funext v; unfold G.vertexAt; rw [hv]

theorem vertexExists_congr {g g' : G ν ε} (hv : g'.vertices = g.vertices) : g'.vertexExists = g.vertexExists := by
  funext v; unfold G.vertexExists; rw [vertexAt_congr hv]

theorem edgeAt_congr {g g' : G ν ε} (he : g'.edges = g.edges) : g'.edgeAt = g.edgeAt := by
  funext e; unfold G.edgeAt; rw [he]

theorem gEdgeLoop_congr {g g' : G ν ε} (he : g'.edges = g.edges) (acc : Nat → Nat → Nat → Bool)
    (rec : Nat → TSt → Out TSt) (es : List Nat) : ∀ st, Graph.edgeLoop g' acc rec es st = Graph.edgeLoop g acc rec es st := by
  induction es with
  | nil => intro st; rfl
  | cons e es ih =>
    intro st
    have hf : Graph.edgeLoop g' acc rec es = Graph.edgeLoop g acc rec es := funext ih
    unfold Graph.edgeLoop
    rw [edgeAt_congr he, hf]

theorem traverseRec_congr {g g' : G ν ε} (hv : g'.vertices = g.vertices) (he : g'.edges = g.edges)
    (acc : Nat → Nat → Nat → Bool) (adj : List (List Nat)) (n : Nat) :
    traverseRec g' acc adj n = traverseRec g acc adj n := by
  induction n with
  | zero => rfl
  | succ n ih =>
    funext v st
    unfold traverseRec
    rw [ih, vertexExists_congr hv]
    simp only [hv, gEdgeLoop_congr he]

theorem traverse_congr {g g' : G ν ε} (hg : WF g) (hg' : WF g') (hv : g'.vertices = g.vertices) (he : g'.edges = g.edges) :
    g'.traverse = g.traverse := by
  funext acc v enc
  unfold G.traverse
  rw [adjacency_unique hg hg' hv he, vertexExists_congr hv, hv]
  simp only [traverseRec_congr hv he]

theorem terminalsOn_congr {g g' : Gr} (hv : g'.vertices = g.vertices) : terminalsOn g' = terminalsOn g := by
  funext vs; rw [terminalsOn_eq, terminalsOn_eq, vertexAt_congr hv]

theorem accept_congr {g g' : Gr} (he : g'.edges = g.edges) (view : View) : accept view g' = accept view g := by
  funext o r a e b
  unfold accept
  rw [edgeAt_congr he]

theorem isBusValid_congr {g g' : Gr} (hv : g'.vertices = g.vertices) (view : View) :
    isBusValid view g' = isBusValid view g := by
  funext ns
  cases view <;> simp [isBusValid, terminalsOn_congr hv]

theorem busTraverse_congr {g g' : Gr} (hg : WF g) (hg' : WF g') (hv : g'.vertices = g.vertices) (he : g'.edges = g.edges)
    (vl : String) (view : View) : traverse vl view g' = traverse vl view g := by
  funext o r v st
  unfold traverse
  rw [traverse_congr hg hg' hv he, accept_congr he, isBusValid_congr hv, terminalsOn_congr hv]

theorem busLoop_congr {g g' : Gr} (hg : WF g) (hg' : WF g') (hv : g'.vertices = g.vertices) (he : g'.edges = g.edges)
    (vl : String) (view : View) (o r : Nat → Bool) (es : List (Edge Sw)) :
    edgeLoop vl view g' o r es = edgeLoop vl view g o r es := by
  induction es with
  | nil => rfl
  | cons ed es ih =>
    funext st
    unfold edgeLoop
    rw [busTraverse_congr hg hg' hv he, ih]

theorem compute_congr {g g' : Gr} (hg : WF g) (hg' : WF g') (hv : g'.vertices = g.vertices) (he : g'.edges = g.edges)
    (vl : String) (view : View) (o r : Nat → Bool) : compute vl view g' o r = compute vl view g o r := by
  unfold compute
  rw [busLoop_congr hg hg' hv he, hv, he]

end Verif.NodeBreaker
