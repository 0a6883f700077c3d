import Verif.Graph.Spec

/-! Invariant of the graph and helper lemmas. -/

namespace Verif.Graph

open Verif

variable {ν ε : Type}

/-! ### Lists of optional slots -/

section slots
variable {α : Type}

theorem join_append_single (l : List (Option α)) (x : Option α) (i : Nat) :
    ((l ++ [x])[i]?).join = if i = l.length then x else (l[i]?).join := by
  rw [List.getElem?_append]
  by_cases h : i < l.length
  · have : i ≠ l.length := by omega
    simp [h, this]
  · by_cases h2 : i = l.length
    · simp [h2]
    · have h3 : l[i]? = none := by rw [List.getElem?_eq_none_iff]; omega
      have h4 : i - l.length ≠ 0 := by omega
      simp only [h, if_false, h2, h3]
      rw [List.getElem?_singleton, if_neg h4]

theorem join_set (l : List (Option α)) (k : Nat) (hk : k < l.length) (x : Option α) (i : Nat) :
    ((l.set k x)[i]?).join = if i = k then x else (l[i]?).join := by
  rw [List.getElem?_set]
  by_cases h : k = i
  · subst h; simp [hk]
  · simp [h, Ne.symm h]

theorem join_dropLast (l : List (Option α)) (i : Nat) :
    (l.dropLast[i]?).join = if i = l.length - 1 then none else (l[i]?).join := by
  rw [List.getElem?_dropLast]
  by_cases h : i < l.length - 1
  · have : i ≠ l.length - 1 := by omega
    simp [h, this]
  · by_cases h2 : i = l.length - 1
    · simp [h2]
    · have h3 : l[i]? = none := by rw [List.getElem?_eq_none_iff]; omega
      simp [h, h2, h3]

/-- Free list `fr` of a list of slots. -/
structure Free (l : List (Option α)) (fr : List Nat) : Prop where
  sorted : NatSet.Sorted fr
  iff : ∀ i, i ∈ fr ↔ i < l.length ∧ (l[i]?).join = none

theorem Free.nil : Free ([] : List (Option α)) [] := ⟨by simp [NatSet.Sorted], by simp⟩

theorem Free.push {l : List (Option α)} {fr : List Nat} (h : Free l fr) (x : α) : Free (l ++ [some x]) fr := by
  refine ⟨h.sorted, fun i => ?_⟩
  rw [join_append_single, h.iff]
  by_cases e : i = l.length
  · simp [e]
  · simp only [e, if_false, List.length_append, List.length_singleton]
    constructor
    · rintro ⟨h1, h2⟩; exact ⟨by omega, h2⟩
    · rintro ⟨h1, h2⟩; exact ⟨by omega, h2⟩

theorem Free.fill {l : List (Option α)} {fr fr' : List Nat} (h : Free l fr) {k : Nat} (hk : k < l.length)
    (hs : NatSet.Sorted fr') (hm : ∀ i, i ∈ fr' ↔ i ≠ k ∧ i ∈ fr) (x : α) : Free (l.set k (some x)) fr' := by
  refine ⟨hs, fun i => ?_⟩
  rw [hm, h.iff, join_set l k hk, List.length_set]
  by_cases e : i = k
  · simp [e]
  · simp [e]

theorem Free.clear {l : List (Option α)} {fr : List Nat} (h : Free l fr) {k : Nat} (hk : k < l.length) :
    Free (l.set k none) (NatSet.insert k fr) := by
  refine ⟨NatSet.sorted_insert h.sorted, fun i => ?_⟩
  rw [NatSet.mem_insert, h.iff, join_set l k hk, List.length_set]
  by_cases e : i = k
  · simp [e, hk]
  · simp [e]

theorem Free.pop {l : List (Option α)} {fr : List Nat} (h : Free l fr) (hl : (l[l.length - 1]?).join ≠ none) :
    Free l.dropLast fr := by
  refine ⟨h.sorted, fun i => ?_⟩
  rw [h.iff, join_dropLast, List.length_dropLast]
  by_cases e : i = l.length - 1
  · subst e; simp [hl]
  · simp only [e, if_false]
    constructor
    · rintro ⟨h1, h2⟩; exact ⟨by omega, h2⟩
    · rintro ⟨h1, h2⟩; exact ⟨by omega, h2⟩

/-- Number of live slots. -/
theorem Free.count {l : List (Option α)} {fr : List Nat} (h : Free l fr) :
    fr.length + l.countP Option.isSome = l.length := by
  have aux : ∀ (l : List (Option α)),
      ((List.range l.length).filter (fun i => ((l[i]?).join).isNone)).length + l.countP Option.isSome = l.length := by
    intro l
    rw [← List.reverse_reverse l]
    generalize l.reverse = r
    induction r with
    | nil => rfl
    | cons x r ih =>
      rw [List.reverse_cons]
      generalize r.reverse = l at ih ⊢
      rw [List.length_append, List.length_singleton, List.range_succ, List.filter_append, List.length_append,
        List.countP_append]
      have e : (List.range l.length).filter (fun i => (((l ++ [x])[i]?).join).isNone) =
          (List.range l.length).filter (fun i => ((l[i]?).join).isNone) := by
        apply List.filter_congr
        intro i hi
        rw [List.mem_range] at hi
        rw [join_append_single]
        have : i ≠ l.length := by omega
        simp [this]
      rw [e]
      cases x with
      | none => simp; omega
      | some y => simp; omega
  have e : fr = (List.range l.length).filter (fun i => ((l[i]?).join).isNone) := by
    apply NatSet.ext h.sorted
    · exact (List.pairwise_lt_range).sublist List.filter_sublist
    · intro x
      rw [h.iff, List.mem_filter, List.mem_range]
      simp [Option.isNone_iff_eq_none]
  rw [e]; exact aux l

end slots

/-! ### Adjacency -/

/-- Occurrences of the vertex among the edges, numbered from `i`. -/
def occ : Nat → List (Option (Edge ε)) → Nat → List Nat
  | _, [], _ => []
  | i, none :: es, v => occ (i + 1) es v
  | i, some ed :: es, v =>
    (if ed.v1 = v then [i] else []) ++ (if ed.v2 = v then [i] else []) ++ occ (i + 1) es v

theorem pushAt_ok {l : List (List Nat)} {v e : Nat} (h : v < l.length) :
    ∃ l', pushAt l v e = .ok l' ∧ l'.length = l.length ∧
      ∀ w, l'[w]? = (l[w]?).map (fun es => if v = w then es ++ [e] else es) := by
  unfold pushAt
  rw [List.getElem?_eq_getElem h]
  refine ⟨_, rfl, by simp, fun w => ?_⟩
  rw [List.getElem?_set]
  by_cases e : v = w
  · subst e; simp [h]
  · simp only [e, if_false]
    cases l[w]? <;> rfl

theorem adjLoop_ok (es : List (Option (Edge ε))) : ∀ (i : Nat) (l : List (List Nat)),
    (∀ ed, some ed ∈ es → ed.v1 < l.length ∧ ed.v2 < l.length) →
    ∃ l', adjLoop i es l = .ok l' ∧ l'.length = l.length ∧
      ∀ w, l'[w]? = (l[w]?).map (fun x => x ++ occ i es w) := by
  induction es with
  | nil =>
    intro i l _
    refine ⟨l, rfl, rfl, fun w => ?_⟩
    cases l[w]? <;> simp [occ]
  | cons o es ih =>
    intro i l h
    cases o with
    | none =>
      unfold adjLoop
      exact ih (i + 1) l (fun ed hed => h ed (List.mem_cons_of_mem _ hed))
    | some ed =>
      obtain ⟨h1, h2⟩ := h ed (by simp)
      obtain ⟨l1, e1, len1, g1⟩ := pushAt_ok (e := i) h1
      obtain ⟨l2, e2, len2, g2⟩ := pushAt_ok (l := l1) (v := ed.v2) (e := i) (by rw [len1]; exact h2)
      obtain ⟨l3, e3, len3, g3⟩ := ih (i + 1) l2 (fun ed' hed => by
        rw [len2, len1]; exact h ed' (List.mem_cons_of_mem _ hed))
      refine ⟨l3, ?_, by rw [len3, len2, len1], fun w => ?_⟩
      · unfold adjLoop
        rw [e1, Out.bind_ok, e2, Out.bind_ok]; exact e3
      · rw [g3, g2, g1]
        cases l[w]? with
        | none => rfl
        | some x =>
          simp only [Option.map_some, Option.some.injEq, occ]
          by_cases c1 : ed.v1 = w <;> by_cases c2 : ed.v2 = w <;> simp [c1, c2]

/-- The adjacency list is the one of the current edges. -/
def AdjOk (g : G ν ε) (l : List (List Nat)) : Prop :=
  l.length = g.vertices.length ∧ ∀ v es, l[v]? = some es → es = occ 0 g.edges v

/-- Invariant. -/
structure WF (g : G ν ε) : Prop where
  fv : Free g.vertices g.avail
  fe : Free g.edges g.removed
  last : g.vertices ≠ [] → g.vertexAt (g.vertices.length - 1) ≠ none
  ends : ∀ e ed, g.edgeAt e = some ed → g.vertexAt ed.v1 ≠ none ∧ g.vertexAt ed.v2 ≠ none
  cache : g.adj = [] ∨ AdjOk g g.adj

theorem wf_empty : WF ({} : G ν ε) :=
  ⟨Free.nil, Free.nil, by simp, by simp [G.edgeAt], Or.inl rfl⟩

theorem vertexAt_lt {g : G ν ε} {v : Nat} (h : g.vertexAt v ≠ none) : v < g.vertices.length := by
  unfold G.vertexAt at h
  rcases Nat.lt_or_ge v g.vertices.length with h1 | h1
  · exact h1
  · rw [List.getElem?_eq_none_iff.mpr h1] at h; exact absurd rfl h

theorem edgeAt_lt {g : G ν ε} {e : Nat} (h : g.edgeAt e ≠ none) : e < g.edges.length := by
  unfold G.edgeAt at h
  rcases Nat.lt_or_ge e g.edges.length with h1 | h1
  · exact h1
  · rw [List.getElem?_eq_none_iff.mpr h1] at h; exact absurd rfl h

theorem mem_edges_iff {g : G ν ε} {ed : Edge ε} : some ed ∈ g.edges ↔ ∃ e, g.edgeAt e = some ed := by
  unfold G.edgeAt
  rw [List.mem_iff_getElem?]
  constructor
  · rintro ⟨i, hi⟩; exact ⟨i, by rw [hi]; rfl⟩
  · rintro ⟨i, hi⟩
    refine ⟨i, ?_⟩
    cases h : g.edges[i]? with
    | none => rw [h] at hi; cases hi
    | some o => rw [h] at hi; simp at hi; rw [hi]

theorem adjacency_ok {g : G ν ε} (h : WF g) : ∃ l, g.adjacency = .ok l ∧ AdjOk g l := by
  unfold G.adjacency
  by_cases hl : g.adj.length = g.vertices.length
  · rw [if_pos hl]
    refine ⟨_, rfl, ?_⟩
    rcases h.cache with hc | hc
    · rw [hc] at hl ⊢
      exact ⟨hl, by simp⟩
    · exact hc
  · rw [if_neg hl]
    rcases h.cache with hc | hc
    · rw [hc]
      simp only [List.take_nil, List.length_nil, Nat.sub_zero, List.nil_append]
      obtain ⟨l', e, len, g'⟩ := adjLoop_ok g.edges 0 (List.replicate g.vertices.length []) (by
        intro ed hed
        obtain ⟨e, he⟩ := mem_edges_iff.mp hed
        obtain ⟨h1, h2⟩ := h.ends e ed he
        simp only [List.length_replicate]
        exact ⟨vertexAt_lt h1, vertexAt_lt h2⟩)
      refine ⟨l', e, by rw [len]; simp, ?_⟩
      intro v es hes
      rw [g', List.getElem?_replicate] at hes
      split at hes
      · simp at hes; exact hes.symm
      · cases hes
    · exact absurd hc.1 hl

theorem wf_query {g : G ν ε} (h : WF g) : WF g.query.2 ∧ abs g.query.2 = abs g ∧ g.query.1 = .ok () := by
  obtain ⟨l, e, hl⟩ := adjacency_ok h
  unfold G.query
  rw [e]
  exact ⟨⟨h.fv, h.fe, h.last, h.ends, Or.inr hl⟩, rfl, rfl⟩

/-! ### Operations -/

theorem abs_ext {a b : Abs ν ε} (h1 : ∀ i, a.V i = b.V i) (h2 : ∀ i, a.E i = b.E i) : a = b := by
  cases a; cases b
  congr
  · exact funext h1
  · exact funext h2

theorem touched_iff {g : G ν ε} {v : Nat} : g.touched v = true ↔ (abs g).Touched v := by
  unfold G.touched Abs.Touched
  rw [List.any_eq_true]
  constructor
  · rintro ⟨o, ho, h⟩
    cases o with
    | none => cases h
    | some ed =>
      obtain ⟨e, he⟩ := mem_edges_iff.mp ho
      exact ⟨e, ed, he, by simpa using h⟩
  · rintro ⟨e, ed, he, h⟩
    exact ⟨some ed, mem_edges_iff.mpr ⟨e, he⟩, by simpa using h⟩

theorem wf_addEdge {g : G ν ε} (h : WF g) (v1 v2 : Nat) (obj : Option ε) :
    WF (g.addEdge v1 v2 obj).2 ∧
    SpecStep (abs g) (.addEdge v1 v2 obj) (g.addEdge v1 v2 obj).1 (abs (g.addEdge v1 v2 obj).2) := by
  unfold G.addEdge G.vertexExists
  by_cases h1 : g.vertexAt v1 = none
  · simp only [h1, Option.isSome_none, Bool.not_false, if_true]
    exact ⟨h, fun hh => absurd h1 hh.1, fun _ => ⟨rfl, rfl⟩⟩
  by_cases h2 : g.vertexAt v2 = none
  · have : (g.vertexAt v1).isSome = true := Option.isSome_iff_ne_none.mpr h1
    simp only [h2, this, Option.isSome_none, Bool.not_false, Bool.not_true, if_true, Bool.false_eq_true, if_false]
    exact ⟨h, fun hh => absurd h2 hh.2, fun _ => ⟨rfl, rfl⟩⟩
  have e1 : (g.vertexAt v1).isSome = true := Option.isSome_iff_ne_none.mpr h1
  have e2 : (g.vertexAt v2).isSome = true := Option.isSome_iff_ne_none.mpr h2
  simp only [e1, e2, Bool.not_true, Bool.false_eq_true, if_false]
  cases hr : g.removed with
  | nil =>
    simp only []
    have hE : ∀ i, G.edgeAt (G.invalidate { g with edges := g.edges ++ [some (Edge.mk v1 v2 obj)], removed := [] }) i =
        if i = g.edges.length then some ⟨v1, v2, obj⟩ else g.edgeAt i := by
      intro i; unfold G.edgeAt G.invalidate; exact join_append_single _ _ _
    refine ⟨⟨h.fv, ?_, h.last, ?_, Or.inl rfl⟩, ?_, ?_⟩
    · have := h.fe.push (Edge.mk v1 v2 obj)
      rw [hr] at this
      exact this
    · intro e ed he
      rw [hE] at he
      split at he
      · cases he; exact ⟨h1, h2⟩
      · exact h.ends e ed he
    · intro _
      refine ⟨g.edges.length, rfl, ?_, ?_⟩
      · show g.edgeAt g.edges.length = none
        unfold G.edgeAt; simp
      · exact abs_ext (fun _ => rfl) (fun i => hE i)
    · rintro (hh | hh)
      · exact absurd hh h1
      · exact absurd hh h2
  | cons e rest =>
    have hmem := (h.fe.iff e).mp (by rw [hr]; simp)
    simp only [hmem.1, if_true]
    have hE : ∀ i, G.edgeAt (G.invalidate { g with edges := g.edges.set e (some (Edge.mk v1 v2 obj)), removed := rest }) i =
        if i = e then some ⟨v1, v2, obj⟩ else g.edgeAt i := by
      intro i; unfold G.edgeAt G.invalidate; exact join_set _ _ hmem.1 _ _
    have hs := h.fe.sorted
    rw [hr] at hs
    refine ⟨⟨h.fv, ?_, h.last, ?_, Or.inl rfl⟩, ?_, ?_⟩
    · refine h.fe.fill hmem.1 (NatSet.sorted_tail hs) ?_ _
      intro i
      rw [hr]
      have hnd := hs.nodup
      rw [List.nodup_cons] at hnd
      constructor
      · intro hi; exact ⟨fun e' => hnd.1 (e' ▸ hi), List.mem_cons_of_mem _ hi⟩
      · rintro ⟨hne, hi⟩
        rcases List.mem_cons.mp hi with hi | hi
        · exact absurd hi hne
        · exact hi
    · intro e' ed he
      rw [hE] at he
      split at he
      · cases he; exact ⟨h1, h2⟩
      · exact h.ends e' ed he
    · intro _
      exact ⟨e, rfl, hmem.2, abs_ext (fun _ => rfl) (fun i => hE i)⟩
    · rintro (hh | hh)
      · exact absurd hh h1
      · exact absurd hh h2

/-- Adding a vertex at a free place keeps the rest of the invariant. -/
theorem wf_newVertex {g g' : G ν ε} (h : WF g) {v : Nat} {o : Option ν} (hE : g'.edges = g.edges) (hR : g'.removed = g.removed)
    (hA : g'.adj = []) (hV : ∀ i, g'.vertexAt i = if i = v then some o else g.vertexAt i)
    (hF : Free g'.vertices g'.avail) (hl : g'.vertices ≠ [] → g'.vertexAt (g'.vertices.length - 1) ≠ none) : WF g' := by
  have hE' : ∀ e, g'.edgeAt e = g.edgeAt e := by intro e; unfold G.edgeAt; rw [hE]
  refine ⟨hF, by rw [hE, hR]; exact h.fe, hl, ?_, Or.inl hA⟩
  intro e ed he
  rw [hE'] at he
  obtain ⟨h1, h2⟩ := h.ends e ed he
  constructor
  · rw [hV]; split
    · simp
    · exact h1
  · rw [hV]; split
    · simp
    · exact h2

theorem wf_addVertex {g : G ν ε} (h : WF g) :
    WF g.addVertex.2 ∧ SpecStep (abs g) .addVertex g.addVertex.1 (abs g.addVertex.2) := by
  unfold G.addVertex
  cases hr : g.avail with
  | nil =>
    simp only []
    have hV : ∀ i, G.vertexAt (G.invalidate { g with vertices := g.vertices ++ [some none], avail := [] }) i =
        if i = g.vertices.length then some none else g.vertexAt i := by
      intro i; unfold G.vertexAt G.invalidate; exact join_append_single _ _ _
    refine ⟨wf_newVertex h rfl rfl rfl hV ?_ ?_, g.vertices.length, rfl, ?_, ?_⟩
    · have := h.fv.push (none : Option ν)
      rw [hr] at this
      exact this
    · intro _
      rw [hV]; simp [G.invalidate]
    · show g.vertexAt g.vertices.length = none
      unfold G.vertexAt; simp
    · exact abs_ext hV (fun _ => rfl)
  | cons v rest =>
    have hmem := (h.fv.iff v).mp (by rw [hr]; simp)
    simp only [hmem.1, if_true]
    have hV : ∀ i, G.vertexAt (G.invalidate { g with vertices := g.vertices.set v (some none), avail := rest }) i =
        if i = v then some none else g.vertexAt i := by
      intro i; unfold G.vertexAt G.invalidate; exact join_set _ _ hmem.1 _ _
    have hs := h.fv.sorted
    rw [hr] at hs
    refine ⟨wf_newVertex h rfl rfl rfl hV ?_ ?_, v, rfl, hmem.2, abs_ext hV (fun _ => rfl)⟩
    · refine h.fv.fill hmem.1 (NatSet.sorted_tail hs) ?_ _
      intro i
      rw [hr]
      have hnd := hs.nodup
      rw [List.nodup_cons] at hnd
      constructor
      · intro hi; exact ⟨fun e' => hnd.1 (e' ▸ hi), List.mem_cons_of_mem _ hi⟩
      · rintro ⟨hne, hi⟩
        rcases List.mem_cons.mp hi with hi | hi
        · exact absurd hi hne
        · exact hi
    · intro _
      rw [hV]
      simp only [G.invalidate, List.length_set]
      split
      · simp
      · exact h.last (by intro e; rw [e] at hmem; simp at hmem)

theorem insertRange_spec (n : Nat) : ∀ (k : Nat) (l : List Nat), NatSet.Sorted l →
    NatSet.Sorted (insertRange k n l) ∧ ∀ i, i ∈ insertRange k n l ↔ i ∈ l ∨ (k ≤ i ∧ i < k + n) := by
  induction n with
  | zero =>
    intro k l h
    refine ⟨h, fun i => ?_⟩
    simp only [insertRange, Nat.add_zero]
    constructor
    · exact Or.inl
    · rintro (h | h)
      · exact h
      · omega
  | succ n ih =>
    intro k l h
    obtain ⟨h1, h2⟩ := ih (k + 1) (NatSet.insert k l) (NatSet.sorted_insert h)
    refine ⟨h1, fun i => ?_⟩
    unfold insertRange
    rw [h2, NatSet.mem_insert]
    constructor
    · rintro ((h | h) | h)
      · right; omega
      · exact Or.inl h
      · right; omega
    · rintro (h | h)
      · exact Or.inl (Or.inr h)
      · by_cases e : i = k
        · exact Or.inl (Or.inl e)
        · right; omega

theorem wf_addVertexIfNotPresent {g : G ν ε} (h : WF g) (v : Nat) :
    WF (g.addVertexIfNotPresent v).2 ∧
    SpecStep (abs g) (.addVertexIfNotPresent v) ((g.addVertexIfNotPresent v).1.map (fun _ => 0))
      (abs (g.addVertexIfNotPresent v).2) := by
  unfold G.addVertexIfNotPresent
  by_cases hlt : v < g.vertices.length
  · rw [if_pos hlt]
    by_cases hav : v ∈ g.avail
    · rw [if_pos hav]
      have hmem := (h.fv.iff v).mp hav
      have hV : ∀ i, G.vertexAt (G.invalidate { g with vertices := g.vertices.set v (some none), avail := g.avail.erase v }) i =
          if i = v then some none else g.vertexAt i := by
        intro i; unfold G.vertexAt G.invalidate; exact join_set _ _ hmem.1 _ _
      refine ⟨wf_newVertex h rfl rfl rfl hV ?_ ?_, rfl, fun _ => abs_ext hV (fun _ => rfl), fun hh => absurd hmem.2 hh⟩
      · exact h.fv.fill hmem.1 (NatSet.sorted_erase h.fv.sorted) (fun i => NatSet.mem_erase h.fv.sorted) _
      · intro _
        rw [hV]
        simp only [G.invalidate, List.length_set]
        split
        · simp
        · exact h.last (by intro e; rw [e] at hmem; simp at hmem)
    · rw [if_neg hav]
      refine ⟨⟨h.fv, h.fe, h.last, h.ends, Or.inl rfl⟩, rfl, ?_, fun _ => rfl⟩
      intro hn
      exact absurd ((h.fv.iff v).mpr ⟨hlt, hn⟩) hav
  · rw [if_neg hlt]
    have hn : g.vertexAt v = none := by
      unfold G.vertexAt; rw [List.getElem?_eq_none_iff.mpr (by omega)]; rfl
    have hV : ∀ i, G.vertexAt (G.invalidate { g with
        avail := insertRange g.vertices.length (v - g.vertices.length) g.avail
        vertices := g.vertices ++ List.replicate (v - g.vertices.length) none ++ [some none] }) i =
        if i = v then some none else g.vertexAt i := by
      intro i
      unfold G.vertexAt G.invalidate
      simp only []
      rw [join_append_single]
      have hlen : (g.vertices ++ List.replicate (v - g.vertices.length) none).length = v := by simp; omega
      rw [hlen]
      by_cases e : i = v
      · simp [e]
      · simp only [e, if_false]
        rw [List.getElem?_append]
        split
        · rfl
        · rename_i h2
          rw [List.getElem?_eq_none_iff.mpr (Nat.le_of_not_lt h2), List.getElem?_replicate]
          split <;> rfl
    refine ⟨wf_newVertex h rfl rfl rfl hV ?_ ?_, rfl, fun _ => abs_ext hV (fun _ => rfl), fun hh => absurd hn hh⟩
    · obtain ⟨s1, s2⟩ := insertRange_spec (v - g.vertices.length) g.vertices.length g.avail h.fv.sorted
      refine ⟨s1, fun i => ?_⟩
      have := hV i
      unfold G.vertexAt at this
      rw [this]
      show i ∈ insertRange _ _ _ ↔ _
      rw [s2, h.fv.iff]
      show _ ↔ i < (g.vertices ++ List.replicate (v - g.vertices.length) none ++ [some none]).length ∧ _
      have hlen : (g.vertices ++ List.replicate (v - g.vertices.length) none ++ [some (none : Option ν)]).length = v + 1 := by
        simp; omega
      rw [hlen]
      by_cases e : i = v
      · subst e; simp; omega
      · simp only [e, if_false]
        constructor
        · rintro (⟨h1, h2⟩ | ⟨h1, h2⟩)
          · exact ⟨by omega, h2⟩
          · refine ⟨by omega, ?_⟩
            rw [List.getElem?_eq_none_iff.mpr h1]; rfl
        · rintro ⟨h1, h2⟩
          by_cases h3 : i < g.vertices.length
          · exact Or.inl ⟨h3, h2⟩
          · right; omega
    · intro _
      rw [hV]
      have : (g.vertices ++ List.replicate (v - g.vertices.length) none ++ [some (none : Option ν)]).length - 1 = v := by
        simp; omega
      simp only [G.invalidate, this, if_true]
      simp

theorem clean_spec (k : Nat) : ∀ (av : List Nat) (vs : List (Option (Option ν))), Free vs av → vs.length = k →
    ∃ av' vs', clean k av vs = some (av', vs') ∧ Free vs' av' ∧
      (vs' ≠ [] → (vs'[vs'.length - 1]?).join ≠ none) ∧ ∀ i : Nat, (vs'[i]?).join = (vs[i]?).join := by
  induction k with
  | zero =>
    intro av vs h hl
    have : vs = [] := List.length_eq_zero_iff.mp hl
    subst this
    exact ⟨av, [], rfl, h, by simp, fun _ => rfl⟩
  | succ k ih =>
    intro av vs h hl
    unfold clean
    by_cases hk : k ∈ av
    · have hne : vs ≠ [] := by intro e; rw [e] at hl; simp at hl
      rw [if_pos hk, if_neg hne]
      have hkn := ((h.iff k).mp hk).2
      have hF : Free vs.dropLast (av.erase k) := by
        refine ⟨NatSet.sorted_erase h.sorted, fun i => ?_⟩
        rw [NatSet.mem_erase h.sorted, h.iff, join_dropLast, List.length_dropLast, hl]
        simp only [Nat.add_sub_cancel]
        by_cases e : i = k
        · simp [e]
        · simp only [e, if_false, ne_eq, not_false_eq_true, true_and]
          constructor
          · rintro ⟨h1, h2⟩; exact ⟨by omega, h2⟩
          · rintro ⟨h1, h2⟩; exact ⟨by omega, h2⟩
      obtain ⟨av', vs', e1, e2, e3, e4⟩ := ih (av.erase k) vs.dropLast hF (by simp [hl])
      refine ⟨av', vs', e1, e2, e3, fun i => ?_⟩
      rw [e4, join_dropLast, hl]
      simp only [Nat.add_sub_cancel]
      split
      · rename_i e; rw [e, hkn]
      · rfl
    · rw [if_neg hk]
      refine ⟨av, vs, rfl, h, ?_, fun _ => rfl⟩
      intro _ hh
      rw [hl] at hh
      exact hk ((h.iff k).mpr ⟨by omega, by simpa using hh⟩)

theorem removeVertex_ok {g : G ν ε} (h : WF g) {v : Nat} {obj : Option ν} (hv : g.vertexAt v = some obj)
    (ht : g.touched v = false) :
    (g.removeVertex v).1 = .ok obj ∧ WF (g.removeVertex v).2 ∧
    (∀ i, (g.removeVertex v).2.vertexAt i = if i = v then none else g.vertexAt i) ∧
    (g.removeVertex v).2.edges = g.edges ∧
    (v ≠ g.vertices.length - 1 → (g.removeVertex v).2.vertices.length = g.vertices.length) := by
  have hlt : v < g.vertices.length := vertexAt_lt (by rw [hv]; simp)
  have hnot : ∀ e ed, g.edgeAt e = some ed → ed.v1 ≠ v ∧ ed.v2 ≠ v := by
    intro e ed he
    constructor
    · intro hc
      have := touched_iff.mpr ⟨e, ed, he, Or.inl hc⟩
      rw [ht] at this; cases this
    · intro hc
      have := touched_iff.mpr ⟨e, ed, he, Or.inr hc⟩
      rw [ht] at this; cases this
  have hends : ∀ (g' : G ν ε), g'.edges = g.edges → (∀ i, g'.vertexAt i = if i = v then none else g.vertexAt i) →
      ∀ e ed, g'.edgeAt e = some ed → g'.vertexAt ed.v1 ≠ none ∧ g'.vertexAt ed.v2 ≠ none := by
    intro g' hE hV e ed he
    unfold G.edgeAt at he
    rw [hE] at he
    obtain ⟨h1, h2⟩ := hnot e ed he
    rw [hV, hV, if_neg h1, if_neg h2]
    exact h.ends e ed he
  unfold G.removeVertex
  rw [hv]
  simp only [ht, Bool.false_eq_true, if_false]
  by_cases hlast : v = g.vertices.length - 1
  · rw [if_pos hlast]
    have hF : Free g.vertices.dropLast g.avail :=
      h.fv.pop (h.last (by intro e; rw [e] at hlt; simp at hlt))
    obtain ⟨av', vs', e1, e2, e3, e4⟩ := clean_spec v g.avail g.vertices.dropLast hF (by simp [hlast])
    rw [e1]
    have hV : ∀ i, G.vertexAt (G.invalidate { g with avail := av', vertices := vs' }) i =
        if i = v then none else g.vertexAt i := by
      intro i
      unfold G.vertexAt G.invalidate
      simp only []
      rw [e4, join_dropLast, ← hlast]
    refine ⟨rfl, ⟨e2, h.fe, e3, hends _ rfl hV, Or.inl rfl⟩, hV, rfl, fun hh => absurd hlast hh⟩
  · rw [if_neg hlast]
    have hV : ∀ i, G.vertexAt (G.invalidate { g with vertices := g.vertices.set v none, avail := NatSet.insert v g.avail }) i =
        if i = v then none else g.vertexAt i := by
      intro i; unfold G.vertexAt G.invalidate; exact join_set _ _ hlt _ _
    refine ⟨rfl, ⟨h.fv.clear hlt, h.fe, ?_, hends _ rfl hV, Or.inl rfl⟩, hV, rfl, fun _ => by simp [G.invalidate]⟩
    intro _
    rw [hV]
    simp only [G.invalidate, List.length_set]
    rw [if_neg (fun e => hlast e.symm)]
    exact h.last (by intro e; rw [e] at hlt; simp at hlt)

theorem wf_removeVertex {g : G ν ε} (h : WF g) (v : Nat) :
    WF (g.removeVertex v).2 ∧
    SpecStep (abs g) (.removeVertex v) ((g.removeVertex v).1.map (fun _ => 0)) (abs (g.removeVertex v).2) := by
  cases hv : g.vertexAt v with
  | none =>
    have e : g.removeVertex v = (.thrown, g) := by unfold G.removeVertex; rw [hv]
    rw [e]
    exact ⟨h, fun hh => absurd hv hh.1, fun _ => ⟨rfl, rfl⟩⟩
  | some obj =>
    cases ht : g.touched v with
    | true =>
      have e : g.removeVertex v = (.thrown, g) := by unfold G.removeVertex; rw [hv]; simp [ht]
      rw [e]
      exact ⟨h, fun hh => absurd (touched_iff.mp ht) hh.2, fun _ => ⟨rfl, rfl⟩⟩
    | false =>
      obtain ⟨k1, k2, k3, k4, _⟩ := removeVertex_ok h hv ht
      refine ⟨k2, ?_, ?_⟩
      · intro _
        refine ⟨by rw [k1]; rfl, abs_ext k3 (fun i => ?_)⟩
        show G.edgeAt _ i = g.edgeAt i
        unfold G.edgeAt; rw [k4]
      · rintro (hh | hh)
        · have : g.vertexAt v = none := hh
          rw [hv] at this; cases this
        · have := touched_iff.mpr hh; rw [ht] at this; cases this

theorem wf_removeEdge {g : G ν ε} (h : WF g) (e : Nat) :
    WF (g.removeEdge e).2 ∧
    SpecStep (abs g) (.removeEdge e) ((g.removeEdge e).1.map (fun _ => 0)) (abs (g.removeEdge e).2) := by
  unfold G.removeEdge
  cases hv : g.edgeAt e with
  | none =>
    simp only []
    exact ⟨h, fun hh => absurd hv hh, fun _ => ⟨rfl, rfl⟩⟩
  | some ed =>
    have hlt : e < g.edges.length := edgeAt_lt (by rw [hv]; simp)
    simp only []
    by_cases hlast : e = g.edges.length - 1
    · rw [if_pos hlast]
      have hE : ∀ i, G.edgeAt (G.invalidate { g with edges := g.edges.dropLast }) i =
          if i = e then none else g.edgeAt i := by
        intro i; unfold G.edgeAt G.invalidate; simp only []; rw [join_dropLast, ← hlast]
      refine ⟨⟨h.fv, ?_, h.last, ?_, Or.inl rfl⟩, fun _ => ⟨rfl, abs_ext (fun _ => rfl) hE⟩, fun hh => ?_⟩
      · apply h.fe.pop
        rw [← hlast]
        show g.edgeAt e ≠ none
        rw [hv]; simp
      · intro e' ed' he
        rw [hE] at he
        split at he
        · cases he
        · exact h.ends e' ed' he
      · have : g.edgeAt e = none := hh
        rw [hv] at this; cases this
    · rw [if_neg hlast]
      have hE : ∀ i, G.edgeAt (G.invalidate { g with edges := g.edges.set e none, removed := NatSet.insert e g.removed }) i =
          if i = e then none else g.edgeAt i := by
        intro i; unfold G.edgeAt G.invalidate; exact join_set _ _ hlt _ _
      refine ⟨⟨h.fv, h.fe.clear hlt, h.last, ?_, Or.inl rfl⟩, fun _ => ⟨rfl, abs_ext (fun _ => rfl) hE⟩, fun hh => ?_⟩
      · intro e' ed' he
        rw [hE] at he
        split at he
        · cases he
        · exact h.ends e' ed' he
      · have : g.edgeAt e = none := hh
        rw [hv] at this; cases this

theorem wf_removeAllEdges {g : G ν ε} (h : WF g) :
    WF g.removeAllEdges ∧ SpecStep (abs g) .removeAllEdges (.ok 0) (abs g.removeAllEdges) :=
  ⟨⟨h.fv, Free.nil, h.last, by intro e ed he; simp [G.removeAllEdges, G.invalidate, G.edgeAt] at he, Or.inl rfl⟩,
    rfl, abs_ext (fun _ => rfl) (fun i => by simp [abs, G.removeAllEdges, G.invalidate, G.edgeAt])⟩

theorem wf_removeAllVertices {g : G ν ε} (h : WF g) :
    WF g.removeAllVertices.2 ∧
    SpecStep (abs g) .removeAllVertices (g.removeAllVertices.1.map (fun _ => 0)) (abs g.removeAllVertices.2) := by
  unfold G.removeAllVertices
  by_cases he : g.edges = []
  · simp only [he, ne_eq, not_true_eq_false, if_false]
    have hn : ∀ e, g.edgeAt e = none := by intro e; unfold G.edgeAt; rw [he]; rfl
    refine ⟨⟨Free.nil, ?_, by simp [G.invalidate], ?_, Or.inl rfl⟩, Or.inl ⟨rfl, hn, abs_ext (fun i => ?_) (fun i => ?_)⟩⟩
    · have := h.fe; rw [he] at this; exact this
    · intro e ed hh
      simp [G.invalidate, G.edgeAt] at hh
    · simp [abs, G.invalidate, G.vertexAt]
    · simp [abs, G.invalidate, G.edgeAt, he]
  · simp only [he, ne_eq, not_false_eq_true, if_true]
    exact ⟨h, Or.inr ⟨rfl, rfl⟩⟩

theorem wf_setVertexObject {g : G ν ε} (h : WF g) (v : Nat) (obj : Option ν) :
    WF (g.setVertexObject v obj).2 ∧
    SpecStep (abs g) (.setVertexObject v obj) ((g.setVertexObject v obj).1.map (fun _ => 0))
      (abs (g.setVertexObject v obj).2) := by
  unfold G.setVertexObject G.vertexExists
  by_cases hv : g.vertexAt v = none
  · simp only [hv, Option.isSome_none, Bool.not_false, if_true]
    exact ⟨h, fun hh => absurd hv hh, fun _ => ⟨rfl, rfl⟩⟩
  · have e1 : (g.vertexAt v).isSome = true := Option.isSome_iff_ne_none.mpr hv
    have hlt := vertexAt_lt hv
    simp only [e1, Bool.not_true, Bool.false_eq_true, if_false]
    have hV : ∀ i, G.vertexAt { g with vertices := g.vertices.set v (some obj) } i =
        if i = v then some obj else g.vertexAt i := by
      intro i; unfold G.vertexAt; exact join_set _ _ hlt _ _
    refine ⟨⟨?_, h.fe, ?_, ?_, ?_⟩, fun _ => ⟨rfl, abs_ext hV (fun _ => rfl)⟩, fun hh => absurd hh hv⟩
    · refine ⟨h.fv.sorted, fun i => ?_⟩
      rw [h.fv.iff]
      have := hV i
      unfold G.vertexAt at this
      rw [this]
      simp only [List.length_set]
      by_cases e : i = v
      · subst e
        simp only [if_true]
        constructor
        · rintro ⟨_, h2⟩; exact absurd h2 hv
        · rintro ⟨_, h2⟩; cases h2
      · simp [e]
    · intro _
      rw [hV]
      simp only [List.length_set]
      split
      · simp
      · exact h.last (by intro e; rw [e] at hlt; simp at hlt)
    · intro e ed he
      obtain ⟨h1, h2⟩ := h.ends e ed he
      rw [hV, hV]
      constructor
      · split
        · simp
        · exact h1
      · split
        · simp
        · exact h2
    · rcases h.cache with hc | hc
      · exact Or.inl hc
      · exact Or.inr ⟨by simp [hc.1], hc.2⟩

open Classical in
theorem isolatedLoop_spec (conn : List Nat) (n : Nat) (a0 : Abs ν ε)
    (hconn : ∀ v, v ∈ conn ↔ a0.Touched v) :
    ∀ (k : Nat) (g : G ν ε), k ≤ n → WF g → (k < n → g.vertices.length = n) → g.edgeAt = a0.E →
    ∃ g', isolatedLoop conn (List.range' k (n - k)) g = (.ok (), g') ∧ WF g' ∧ g'.edgeAt = a0.E ∧
      ∀ v, g'.vertexAt v = if k ≤ v ∧ v < n ∧ g.vertexAt v = some none ∧ v ∉ conn then none else g.vertexAt v := by
  intro k
  induction hd : n - k generalizing k with
  | zero =>
    intro g hk h _ hE
    refine ⟨g, by simp [isolatedLoop], h, hE, fun v => ?_⟩
    rw [if_neg (by omega)]
  | succ d ih =>
    intro g hk h hlen hE
    have hkn : k < n := by omega
    have hlen' := hlen hkn
    rw [List.range'_succ]
    unfold isolatedLoop
    have hget : g.vertices[k]? = some (g.vertices[k]'(by omega)) := List.getElem?_eq_getElem (by omega)
    rw [hget]
    cases hx : g.vertices[k]'(by omega) with
    | none =>
      have hvk : g.vertexAt k = none := by unfold G.vertexAt; rw [hget, hx]; rfl
      simp only []
      obtain ⟨g', e1, e2, e3, e4⟩ := ih (k + 1) (by omega) g (by omega) h (fun _ => hlen') hE
      refine ⟨g', e1, e2, e3, fun v => ?_⟩
      rw [e4]
      by_cases hv : v = k
      · subst hv; simp [hvk]
      · have : (k ≤ v ↔ k + 1 ≤ v) := by omega
        simp [this]
    | some obj =>
      have hvk : g.vertexAt k = some obj := by unfold G.vertexAt; rw [hget, hx]; rfl
      simp only []
      by_cases hc : k ∉ conn ∧ obj.isNone = true
      · rw [if_pos hc]
        have ht : g.touched k = false := by
          cases hh : g.touched k with
          | false => rfl
          | true =>
            exfalso
            apply hc.1
            rw [hconn]
            have := touched_iff.mp hh
            unfold Abs.Touched abs at this
            simp only [hE] at this
            exact this
        obtain ⟨k1, k2, k3, k4, k5⟩ := removeVertex_ok h hvk ht
        cases hrem : g.removeVertex k with
        | mk o g1 =>
          rw [hrem] at k1 k2 k3 k4 k5
          simp only [] at k1 k2 k3 k4 k5
          subst k1
          simp only []
          have hE1 : g1.edgeAt = a0.E := by
            rw [← hE]; funext i; unfold G.edgeAt; rw [k4]
          obtain ⟨g', e1, e2, e3, e4⟩ := ih (k + 1) (by omega) g1 (by omega) k2 (fun hlt => by
            rw [k5 (by omega)]; exact hlen') hE1
          refine ⟨g', e1, e2, e3, fun v => ?_⟩
          rw [e4, k3]
          have hobj : obj = none := Option.isNone_iff_eq_none.mp hc.2
          by_cases hv : v = k
          · subst hv
            have : ¬ (v + 1 ≤ v) := by omega
            simp [hvk, hobj, hc.1, hkn]
          · have : (k ≤ v ↔ k + 1 ≤ v) := by omega
            simp [this, hv]
      · rw [if_neg hc]
        obtain ⟨g', e1, e2, e3, e4⟩ := ih (k + 1) (by omega) g (by omega) h (fun _ => hlen') hE
        refine ⟨g', e1, e2, e3, fun v => ?_⟩
        rw [e4]
        by_cases hv : v = k
        · subst hv
          have : ¬ (v + 1 ≤ v) := by omega
          simp only [this, false_and, if_false, hvk]
          rw [if_neg]
          rintro ⟨_, _, h3, h4⟩
          apply hc
          cases h3
          exact ⟨h4, rfl⟩
        · have : (k ≤ v ↔ k + 1 ≤ v) := by omega
          simp [this]

theorem mem_connectedVertices {g : G ν ε} {v : Nat} : v ∈ g.connectedVertices ↔ (abs g).Touched v := by
  unfold G.connectedVertices Abs.Touched
  rw [List.mem_flatMap]
  constructor
  · rintro ⟨ed, h1, h2⟩
    rw [List.mem_filterMap] at h1
    obtain ⟨o, ho, h3⟩ := h1
    simp only [id] at h3
    subst h3
    obtain ⟨e, he⟩ := mem_edges_iff.mp ho
    simp at h2
    exact ⟨e, ed, he, by rcases h2 with h | h <;> simp [h]⟩
  · rintro ⟨e, ed, he, h⟩
    refine ⟨ed, ?_, ?_⟩
    · rw [List.mem_filterMap]; exact ⟨some ed, mem_edges_iff.mpr ⟨e, he⟩, rfl⟩
    · simp; rcases h with h | h <;> simp [h]

theorem wf_removeIsolatedVertices {g : G ν ε} (h : WF g) :
    WF g.removeIsolatedVertices.2 ∧
    SpecStep (abs g) .removeIsolatedVertices (g.removeIsolatedVertices.1.map (fun _ => 0))
      (abs g.removeIsolatedVertices.2) := by
  unfold G.removeIsolatedVertices
  obtain ⟨g', e1, e2, e3, e4⟩ := isolatedLoop_spec g.connectedVertices g.vertices.length (abs g)
    (fun v => mem_connectedVertices) 0 g (Nat.zero_le _) h (fun _ => rfl) rfl
  rw [Nat.sub_zero, ← List.range_eq_range'] at e1
  rw [e1]
  refine ⟨e2, rfl, e3, ?_, ?_⟩
  · intro v hv ht
    show g'.vertexAt v = none
    have hv' : g.vertexAt v = some none := hv
    rw [e4, if_pos]
    exact ⟨Nat.zero_le _, vertexAt_lt (by rw [hv']; simp), hv', fun hh => ht (mem_connectedVertices.mp hh)⟩
  · intro v hh
    show g'.vertexAt v = g.vertexAt v
    rw [e4, if_neg]
    rintro ⟨_, _, h3, h4⟩
    exact hh ⟨h3, fun ht => h4 (mem_connectedVertices.mpr ht)⟩

theorem step_ok {g : G ν ε} (h : WF g) (op : Op ν ε) :
    WF (step g op).2 ∧ SpecStep (abs g) op (step g op).1 (abs (step g op).2) := by
  cases op with
  | addVertex => exact wf_addVertex h
  | addVertexIfNotPresent v => exact wf_addVertexIfNotPresent h v
  | addEdge v1 v2 obj => exact wf_addEdge h v1 v2 obj
  | removeVertex v => exact wf_removeVertex h v
  | removeEdge e => exact wf_removeEdge h e
  | removeAllEdges => exact wf_removeAllEdges h
  | removeAllVertices => exact wf_removeAllVertices h
  | removeIsolatedVertices => exact wf_removeIsolatedVertices h
  | setVertexObject v obj => exact wf_setVertexObject h v obj
  | query =>
    obtain ⟨h1, h2, h3⟩ := wf_query h
    refine ⟨h1, ?_, h2⟩
    show g.query.1.map (fun _ => 0) = .ok 0
    rw [h3]; rfl

theorem run_wf {g : G ν ε} (h : WF g) (ops : List (Op ν ε)) : WF (run g ops) := by
  induction ops generalizing g with
  | nil => exact h
  | cons op ops ih => exact ih (step_ok h op).1

end Verif.Graph
