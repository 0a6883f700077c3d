import Verif.Graph.Lemmas

/-!
C12-C14: graph indices, adjacency, removal guards, for every history of calls on an empty graph.
-/

namespace Verif.Graph

open Verif

variable {ν ε : Type}

/-- Graphs reached by a history of calls. -/
def Reached (g : G ν ε) : Prop := ∃ ops, g = run {} ops

theorem Reached.wf {g : G ν ε} (h : Reached g) : WF g := by
  obtain ⟨ops, rfl⟩ := h; exact run_wf wf_empty ops

theorem Reached.step {g : G ν ε} (h : Reached g) (op : Op ν ε) : Reached (step g op).2 := by
  obtain ⟨ops, rfl⟩ := h
  exact ⟨ops ++ [op], by simp [run, List.foldl_append]⟩

/-! Sample: a graph with holes among the vertices and the edges. -/

def sampleOps : List (Op Nat Nat) :=
  [.addVertexIfNotPresent 3, .addVertex, .addVertex, .addVertexIfNotPresent 6, .setVertexObject 3 (some 30),
   .addEdge 0 3 (some 100), .addEdge 3 1 (some 101), .addEdge 1 1 none, .addEdge 6 0 none, .query,
   .removeEdge 1, .addVertex, .removeVertex 2]

def sample : G Nat Nat := run {} sampleOps

theorem sample_reached : Reached sample := ⟨sampleOps, rfl⟩

example : sample.vertices = [some none, some none, none, some (some 30), none, none, some none] ∧
    sample.edges = [some ⟨0, 3, some 100⟩, none, some ⟨1, 1, none⟩, some ⟨6, 0, none⟩] ∧
    sample.avail = [2, 4, 5] ∧ sample.removed = [1] := by decide

/-! ### C12 -/

/-- C12: every call behaves like the corresponding operation on the two partial maps "live vertices" and "live edges":
    a new element gets an index that was not live, nothing else moves, refused calls change nothing. -/
theorem graph_refines_maps {g : G ν ε} (h : Reached g) (op : Op ν ε) :
    SpecStep (abs g) op (step g op).1 (abs (step g op).2) := (step_ok h.wf op).2

example : (step sample .addVertex).1 = .ok 2 ∧ (step sample (.addEdge 0 1 none)).1 = .ok 1 ∧
    (step sample (.addEdge 0 2 none)).1 = .thrown := by decide

/-- C12: a live edge keeps its index, its end points and its object until it is removed itself or all edges are. -/
theorem edge_persists {g : G ν ε} (h : Reached g) {e : Nat} {ed : Edge ε} (he : g.edgeAt e = some ed)
    (ops : List (Op ν ε))
    (hops : ∀ op ∈ ops, (match op with | .removeEdge e' => e' ≠ e | .removeAllEdges => False | _ => True)) :
    (run g ops).edgeAt e = some ed := by
  induction ops generalizing g with
  | nil => exact he
  | cons op ops ih =>
    refine ih (h.step op) ?_ (fun o ho => hops o (List.mem_cons_of_mem _ ho))
    have hs := graph_refines_maps h op
    have ho := hops op (by simp)
    have conv : ∀ {a : Abs ν ε}, abs (step g op).2 = a → a.E e = some ed → (step g op).2.edgeAt e = some ed := by
      intro a h1 h2; rw [← h1] at h2; exact h2
    have he' : (abs g).E e = some ed := he
    cases op with
    | addVertex => obtain ⟨v, _, _, h3⟩ := hs; exact conv h3 he
    | addVertexIfNotPresent v =>
      obtain ⟨_, h2, h3⟩ := hs
      by_cases hv : (abs g).V v = none
      · exact conv (h2 hv) he
      · exact conv (h3 hv) he
    | addEdge v1 v2 obj =>
      obtain ⟨h1, h2⟩ := hs
      by_cases hv : (abs g).V v1 ≠ none ∧ (abs g).V v2 ≠ none
      · obtain ⟨e', _, hn, h3⟩ := h1 hv
        refine conv h3 ?_
        simp only [upd]
        rw [if_neg]
        · exact he
        · rintro rfl; rw [he'] at hn; cases hn
      · refine conv (h2 ?_).2 he
        by_cases hv1 : (abs g).V v1 = none
        · exact Or.inl hv1
        · right
          by_cases hv2 : (abs g).V v2 = none
          · exact hv2
          · exact absurd ⟨hv1, hv2⟩ hv
    | removeVertex v =>
      obtain ⟨h1, h2⟩ := hs
      by_cases hv : (abs g).V v ≠ none ∧ ¬ (abs g).Touched v
      · exact conv (h1 hv).2 he
      · refine conv (h2 ?_).2 he
        by_cases hv1 : (abs g).V v = none
        · exact Or.inl hv1
        · exact Or.inr (Classical.not_not.mp (fun hc => hv ⟨hv1, hc⟩))
    | removeEdge e' =>
      obtain ⟨h1, h2⟩ := hs
      by_cases hv : (abs g).E e' = none
      · exact conv (h2 hv).2 he
      · refine conv (h1 hv).2 ?_
        simp only [upd]
        rw [if_neg (Ne.symm ho)]; exact he
    | removeAllEdges => exact absurd ho id
    | removeAllVertices =>
      rcases hs with ⟨_, _, h3⟩ | ⟨_, h3⟩
      · exact conv h3 he
      · exact conv h3 he
    | removeIsolatedVertices =>
      have h2 : (step g .removeIsolatedVertices).2.edgeAt = g.edgeAt := hs.2.1
      rw [h2]; exact he
    | setVertexObject v obj =>
      obtain ⟨h1, h2⟩ := hs
      by_cases hv : (abs g).V v = none
      · exact conv (h2 hv).2 he
      · exact conv (h1 hv).2 he
    | query => exact conv hs.2 he

example : (run sample [.addEdge 0 1 none, .removeEdge 0, .removeVertex 3, .addVertex, .query]).edgeAt 3 =
    some ⟨6, 0, none⟩ :=
  edge_persists sample_reached (by decide) _ (by
    intro op hop
    simp at hop
    rcases hop with rfl | rfl | rfl | rfl | rfl <;> simp)

/-- C12: a live vertex keeps its index and its object until it is removed or its object is replaced; isolated vertices
    without object are also removed by `removeIsolatedVertices`. -/
theorem vertex_persists {g : G ν ε} (h : Reached g) {v : Nat} {o : Option ν} (hv : g.vertexAt v = some o)
    (ops : List (Op ν ε))
    (hops : ∀ op ∈ ops, (match op with
      | .removeVertex v' => v' ≠ v
      | .removeAllVertices => False
      | .removeIsolatedVertices => o ≠ none
      | .setVertexObject v' _ => v' ≠ v
      | _ => True)) :
    (run g ops).vertexAt v = some o := by
  induction ops generalizing g with
  | nil => exact hv
  | cons op ops ih =>
    refine ih (h.step op) ?_ (fun o ho => hops o (List.mem_cons_of_mem _ ho))
    have hs := graph_refines_maps h op
    have ho := hops op (by simp)
    have conv : ∀ {a : Abs ν ε}, abs (step g op).2 = a → a.V v = some o → (step g op).2.vertexAt v = some o := by
      intro a h1 h2; rw [← h1] at h2; exact h2
    have hv' : (abs g).V v = some o := hv
    cases op with
    | addVertex =>
      obtain ⟨v', _, hn, h3⟩ := hs
      refine conv h3 ?_
      simp only [upd]
      rw [if_neg]
      · exact hv
      · rintro rfl; rw [hv'] at hn; cases hn
    | addVertexIfNotPresent v' =>
      obtain ⟨_, h2, h3⟩ := hs
      by_cases hn : (abs g).V v' = none
      · refine conv (h2 hn) ?_
        simp only [upd]
        rw [if_neg]
        · exact hv
        · rintro rfl; rw [hv'] at hn; cases hn
      · exact conv (h3 hn) hv
    | addEdge v1 v2 obj =>
      obtain ⟨h1, h2⟩ := hs
      by_cases hc : (abs g).V v1 ≠ none ∧ (abs g).V v2 ≠ none
      · obtain ⟨e', _, hn, h3⟩ := h1 hc
        exact conv h3 hv
      · refine conv (h2 ?_).2 hv
        by_cases hv1 : (abs g).V v1 = none
        · exact Or.inl hv1
        · right
          by_cases hv2 : (abs g).V v2 = none
          · exact hv2
          · exact absurd ⟨hv1, hv2⟩ hc
    | removeVertex v' =>
      obtain ⟨h1, h2⟩ := hs
      by_cases hc : (abs g).V v' ≠ none ∧ ¬ (abs g).Touched v'
      · refine conv (h1 hc).2 ?_
        simp only [upd]
        rw [if_neg (Ne.symm ho)]; exact hv
      · refine conv (h2 ?_).2 hv
        by_cases hv1 : (abs g).V v' = none
        · exact Or.inl hv1
        · exact Or.inr (Classical.not_not.mp (fun hh => hc ⟨hv1, hh⟩))
    | removeEdge e' =>
      obtain ⟨h1, h2⟩ := hs
      by_cases hc : (abs g).E e' = none
      · exact conv (h2 hc).2 hv
      · exact conv (h1 hc).2 hv
    | removeAllEdges => exact conv hs.2 hv
    | removeAllVertices => exact absurd ho id
    | removeIsolatedVertices =>
      have h2 := hs.2.2.2 v (fun hh => by
        have : some o = some none := by rw [← hv']; exact hh.1
        exact ho (Option.some.inj this))
      exact h2.trans hv
    | setVertexObject v' obj =>
      obtain ⟨h1, h2⟩ := hs
      by_cases hc : (abs g).V v' = none
      · exact conv (h2 hc).2 hv
      · refine conv (h1 hc).2 ?_
        simp only [upd]
        rw [if_neg (Ne.symm ho)]; exact hv
    | query => exact conv hs.2 hv

example : (run sample [.removeIsolatedVertices, .removeVertex 6, .addVertex, .removeAllEdges]).vertexAt 3 =
    some (some 30) :=
  vertex_persists sample_reached (by decide) _ (by
    intro op hop
    simp at hop
    rcases hop with rfl | rfl | rfl | rfl <;> simp)

theorem count_slots {α : Type} {l : List (Option α)} {fr : List Nat} (h : Free l fr) :
    ∃ L : List Nat, L.Nodup ∧ (∀ i, i ∈ L ↔ (l[i]?).join ≠ none) ∧ L.length = l.length - fr.length := by
  refine ⟨(List.range l.length).filter (fun i => ((l[i]?).join).isSome), List.nodup_range.filter _, ?_, ?_⟩
  · intro i
    rw [List.mem_filter, List.mem_range, Option.isSome_iff_ne_none]
    constructor
    · exact fun hh => hh.2
    · intro hh
      refine ⟨?_, hh⟩
      rcases Nat.lt_or_ge i l.length with h1 | h1
      · exact h1
      · rw [List.getElem?_eq_none_iff.mpr h1] at hh; exact absurd rfl hh
  · have e : fr = (List.range l.length).filter (fun i => !((l[i]?).join).isSome) := by
      apply NatSet.ext h.sorted
      · exact (List.pairwise_lt_range).sublist List.filter_sublist
      · intro x
        rw [h.iff, List.mem_filter, List.mem_range]
        simp [Option.isNone_iff_eq_none]
    have h1 := List.length_eq_countP_add_countP (fun i => ((l[i]?).join).isSome) (l := List.range l.length)
    rw [List.length_range, List.countP_eq_length_filter, List.countP_eq_length_filter] at h1
    have h2 : (List.range l.length).filter (fun i => decide ¬((l[i]?).join).isSome = true) =
        (List.range l.length).filter (fun i => !((l[i]?).join).isSome) := by
      apply List.filter_congr; intro i _; cases (l[i]?).join <;> rfl
    rw [h2] at h1
    rw [e]; omega

/-- C12: the reported counts are the numbers of live vertices and edges. -/
theorem counts_exact {g : G ν ε} (h : Reached g) :
    (∃ L : List Nat, L.Nodup ∧ (∀ v, v ∈ L ↔ g.vertexAt v ≠ none) ∧ L.length = g.vertexCount) ∧
    (∃ L : List Nat, L.Nodup ∧ (∀ e, e ∈ L ↔ g.edgeAt e ≠ none) ∧ L.length = g.edgeCount) :=
  ⟨count_slots h.wf.fv, count_slots h.wf.fe⟩

example : sample.vertexCount = 4 ∧ sample.edgeCount = 3 := by decide

/-! ### C13 -/

/-- Number of ends of an edge on a vertex. -/
def endsOn (o : Option (Edge ε)) (v : Nat) : Nat :=
  match o with
  | some ed => (if ed.v1 = v then 1 else 0) + (if ed.v2 = v then 1 else 0)
  | none => 0

theorem count_occ (es : List (Option (Edge ε))) (v : Nat) : ∀ (i e : Nat),
    (occ i es v).count e = if e < i then 0 else endsOn ((es[e - i]?).join) v := by
  induction es with
  | nil => intro i e; simp [occ, endsOn]
  | cons o es ih =>
    intro i e
    cases o with
    | none =>
      unfold occ
      rw [ih]
      by_cases h1 : e < i
      · simp [h1, Nat.lt_succ_of_lt h1]
      · by_cases h2 : e = i
        · subst h2; simp [endsOn]
        · have h3 : ¬ e < i + 1 := by omega
          have h4 : e - i = (e - (i + 1)) + 1 := by omega
          simp only [h1, h3, if_false]
          rw [h4, List.getElem?_cons_succ]
    | some ed =>
      unfold occ
      rw [List.count_append, List.count_append, ih]
      by_cases h1 : e < i
      · have : i ≠ e := by omega
        have h2 : e < i + 1 := by omega
        have a1 : ∀ (p : Prop) [Decidable p], List.count e (if p then [i] else []) = 0 := by
          intro p _; split <;> simp [this]
        simp [h1, h2, a1]
      · by_cases h2 : e = i
        · subst h2
          have h3 : e < e + 1 := by omega
          simp only [Nat.lt_irrefl, if_false, h3, if_true, Nat.sub_self, List.getElem?_cons_zero]
          simp only [endsOn, Option.join]
          by_cases c1 : ed.v1 = v <;> by_cases c2 : ed.v2 = v <;> simp [c1, c2]
        · have : i ≠ e := by omega
          have h3 : ¬ e < i + 1 := by omega
          have a1 : ∀ (p : Prop) [Decidable p], List.count e (if p then [i] else []) = 0 := by
            intro p _; split <;> simp [this]
          have h4 : e - i = (e - (i + 1)) + 1 := by omega
          simp only [h1, h3, if_false, a1]
          rw [h4, List.getElem?_cons_succ]
          simp

/-- C13: whenever the cached adjacency was computed, what `getAdjacencyList` returns lists at each vertex exactly the
    live edges that touch it (once per end on the vertex, so twice for a self loop), and nothing else. -/
theorem adjacency_current {g : G ν ε} (h : Reached g) :
    ∃ l, g.adjacency = .ok l ∧ (∀ v, g.vertexAt v ≠ none → v < l.length) ∧
      ∀ v es, l[v]? = some es → ∀ e, es.count e = endsOn (g.edgeAt e) v := by
  obtain ⟨l, e1, e2, e3⟩ := adjacency_ok h.wf
  refine ⟨l, e1, fun v hv => by rw [e2]; exact vertexAt_lt hv, ?_⟩
  intro v es hes e
  rw [e3 v es hes, count_occ]
  simp [G.edgeAt]

/-- C13, membership form. -/
theorem adjacency_mem {g : G ν ε} (h : Reached g) {l : List (List Nat)} (hl : g.adjacency = .ok l) {v : Nat}
    {es : List Nat} (hes : l[v]? = some es) (e : Nat) :
    e ∈ es ↔ ∃ ed, g.edgeAt e = some ed ∧ (ed.v1 = v ∨ ed.v2 = v) := by
  obtain ⟨l', e1, _, e3⟩ := adjacency_current h
  rw [hl] at e1; cases e1
  rw [← List.count_pos_iff, e3 v es hes]
  cases hg : g.edgeAt e with
  | none => simp [endsOn]
  | some ed =>
    simp only [endsOn, Option.some.injEq, exists_eq_left']
    by_cases c1 : ed.v1 = v <;> by_cases c2 : ed.v2 = v <;> simp [c1, c2]

example : sample.adjacency = .ok [[0, 3], [2, 2], [], [0], [], [], [3]] ∧
    (run sample [.query, .addEdge 1 0 none]).adjacency = .ok [[0, 1, 3], [1, 2, 2], [], [0], [], [], [3]] := by decide

/-! ### C14 -/

/-- C14: an edge never dangles: both its ends are live vertices. -/
theorem edges_never_dangle {g : G ν ε} (h : Reached g) {e : Nat} {ed : Edge ε} (he : g.edgeAt e = some ed) :
    g.vertexExists ed.v1 = true ∧ g.vertexExists ed.v2 = true := by
  obtain ⟨h1, h2⟩ := h.wf.ends e ed he
  exact ⟨Option.isSome_iff_ne_none.mpr h1, Option.isSome_iff_ne_none.mpr h2⟩

/-- C14: removing a vertex that still has an edge is refused without effect. -/
theorem removeVertex_guard {g : G ν ε} (_h : Reached g) {v e : Nat} {ed : Edge ε} (he : g.edgeAt e = some ed)
    (hv : ed.v1 = v ∨ ed.v2 = v) :
    (step g (.removeVertex v)).1 = .thrown ∧ (step g (.removeVertex v)).2 = g := by
  have ht : g.touched v = true := touched_iff.mpr ⟨e, ed, he, hv⟩
  show Out.map _ (g.removeVertex v).1 = .thrown ∧ (g.removeVertex v).2 = g
  unfold G.removeVertex
  cases g.vertexAt v with
  | none => exact ⟨rfl, rfl⟩
  | some obj => simp only [ht, if_true]; exact ⟨rfl, trivial⟩

example : (step sample (.removeVertex 6)).1 = .thrown ∧ (step sample (.removeVertex 6)).2 = sample :=
  removeVertex_guard sample_reached (e := 3) (ed := ⟨6, 0, none⟩) (by decide) (Or.inl rfl)

/-- C14: `removeAllVertices` never drops a vertex that has an edge: it is refused without effect when an edge is left,
    and it works right after `removeAllEdges` or when no edge slot is left.  The converse ("refused only if an edge
    remains") is false: `removeAllVertices_refused_without_edge`. -/
theorem removeAllVertices_guard_partial {g : G ν ε} (_h : Reached g) :
    ((∃ e, g.edgeAt e ≠ none) → step g .removeAllVertices = (.thrown, g)) ∧
    (g.removed = [] → (∀ e, g.edgeAt e = none) → (step g .removeAllVertices).1 = .ok 0) ∧
    (step (step g .removeAllEdges).2 .removeAllVertices).1 = .ok 0 := by
  refine ⟨?_, ?_, ?_⟩
  · rintro ⟨e, he⟩
    have : g.edges ≠ [] := by intro hh; unfold G.edgeAt at he; rw [hh] at he; exact he rfl
    show (Out.map _ g.removeAllVertices.1, g.removeAllVertices.2) = _
    unfold G.removeAllVertices
    simp [this, Out.map]
  · intro hr hn
    have : g.edges = [] := by
      cases hE : g.edges with
      | nil => rfl
      | cons o es =>
        exfalso
        have h1 := hn 0
        have h2 := (_h.wf.fe.iff 0).mpr ⟨by rw [hE]; simp, h1⟩
        rw [hr] at h2; simp at h2
    show Out.map _ g.removeAllVertices.1 = _
    unfold G.removeAllVertices
    simp [this, Out.map]
  · simp [step, G.removeAllEdges, G.removeAllVertices, G.invalidate, Out.map]

example : step sample .removeAllVertices = (.thrown, sample) :=
  (removeAllVertices_guard_partial sample_reached).1 ⟨0, by decide⟩

/-- C14 is false for `removeAllVertices`: after removing both edges (the older one first) no edge is left, the reported
    number of edges is 0, and the removal of the vertices is still refused. -/
theorem removeAllVertices_refused_without_edge :
    let g := run ({} : G Nat Nat) [.addVertex, .addVertex, .addEdge 0 1 none, .addEdge 0 1 none, .removeEdge 0, .removeEdge 1]
    g.edgeCount = 0 ∧ g.edges = [none] ∧ (step g .removeAllVertices).1 = .thrown := by decide

end Verif.Graph
