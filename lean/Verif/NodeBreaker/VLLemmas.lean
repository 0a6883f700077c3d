import Verif.NodeBreaker.BusProps
import Verif.Graph.PathProps

/-! Helper lemmas about the operations of a node/breaker voltage level. -/

namespace Verif.NodeBreaker

open Verif Verif.Graph

/-- Every terminal is on its own node. -/
def Placed (g : Gr) : Prop := ∀ u t, g.vertexAt u = some (some t) → t.node = u

/-- The equipment on a node. -/
def occupant (g : Gr) (u : Nat) : Option Term := (g.vertexAt u).join

theorem abs_V {ν ε : Type} {g' : G ν ε} {a : Abs ν ε} (h : abs g' = a) : g'.vertexAt = a.V := by rw [← h]; rfl
theorem abs_E {ν ε : Type} {g' : G ν ε} {a : Abs ν ε} (h : abs g' = a) : g'.edgeAt = a.E := by rw [← h]; rfl

theorem addVertexIfNotPresent_eff {g : Gr} (h : Reached g) (n : Nat) :
    Reached (g.addVertexIfNotPresent n).2 ∧ (g.addVertexIfNotPresent n).2.edgeAt = g.edgeAt ∧
    ∀ u, (g.addVertexIfNotPresent n).2.vertexAt u =
      if u = n ∧ g.vertexAt n = none then some none else g.vertexAt u := by
  have hs := graph_refines_maps h (.addVertexIfNotPresent n)
  obtain ⟨_, h1, h2⟩ := hs
  refine ⟨h.step (.addVertexIfNotPresent n), ?_, ?_⟩
  · by_cases hn : g.vertexAt n = none
    · exact abs_E (h1 hn)
    · exact abs_E (h2 hn)
  · intro u
    by_cases hn : g.vertexAt n = none
    · have := congrFun (abs_V (h1 hn)) u
      refine this.trans ?_
      show Graph.upd g.vertexAt n (some none) u = _
      unfold Graph.upd
      simp [hn]
    · have := congrFun (abs_V (h2 hn)) u
      refine this.trans ?_
      simp [hn]; rfl

theorem link_ok {g : Gr} (h : Reached g) (n1 n2 : Nat) (obj : Option Sw) :
    ∃ e g', link g n1 n2 obj = (.ok e, g') ∧ Reached g' ∧ g.edgeAt e = none ∧
      (∀ i, g'.edgeAt i = if i = e then some ⟨n1, n2, obj⟩ else g.edgeAt i) ∧
      (∀ u, g'.vertexAt u = if (u = n1 ∨ u = n2) ∧ g.vertexAt u = none then some none else g.vertexAt u) := by
  obtain ⟨r1, e1, v1⟩ := addVertexIfNotPresent_eff h n1
  obtain ⟨r2, e2, v2⟩ := addVertexIfNotPresent_eff r1 n2
  generalize hg1 : (g.addVertexIfNotPresent n1).2 = g1 at *
  generalize hg2 : (g1.addVertexIfNotPresent n2).2 = g2 at *
  have hV : ∀ u, g2.vertexAt u = if (u = n1 ∨ u = n2) ∧ g.vertexAt u = none then some none else g.vertexAt u := by
    intro u
    rw [v2, v1, v1]
    by_cases a1 : u = n1 <;> by_cases a2 : u = n2 <;> by_cases a3 : g.vertexAt u = none <;>
      by_cases a4 : n2 = n1 <;> by_cases a5 : g.vertexAt n1 = none <;> by_cases a6 : g.vertexAt n2 = none <;>
      simp_all
  have l1 : g2.vertexAt n1 ≠ none := by
    rw [hV]; simp only [true_or, true_and]; split
    · simp
    · assumption
  have l2 : g2.vertexAt n2 ≠ none := by
    rw [hV]; simp only [or_true, true_and]; split
    · simp
    · assumption
  obtain ⟨k1, _⟩ := graph_refines_maps r2 (.addEdge n1 n2 obj)
  obtain ⟨e, q1, q2, q3⟩ := k1 ⟨l1, l2⟩
  have q1' : (g2.addEdge n1 n2 obj).1 = .ok e := q1
  refine ⟨e, (g2.addEdge n1 n2 obj).2, ?_, r2.step (.addEdge n1 n2 obj), ?_, ?_, ?_⟩
  · unfold link
    rw [hg1, hg2, ← q1']
  · have : g2.edgeAt e = none := q2
    rw [e2, e1] at this; exact this
  · intro i
    have := congrFun (abs_E q3) i
    refine this.trans ?_
    show Graph.upd g2.edgeAt e _ i = _
    unfold Graph.upd
    rw [e2, e1]
  · intro u
    have := congrFun (abs_V q3) u
    exact this.trans (hV u)

theorem clean_ok {g : Gr} (h : Reached g) :
    ∃ g', g.removeIsolatedVertices = (.ok (), g') ∧ Reached g' ∧ g'.edgeAt = g.edgeAt ∧
      (∀ u, occupant g' u = occupant g u) := by
  obtain ⟨q1, q2, q3, q4⟩ := graph_refines_maps h .removeIsolatedVertices
  have q1' : g.removeIsolatedVertices.1 = .ok () := by
    have : g.removeIsolatedVertices.1.map (fun _ => 0) = .ok 0 := q1
    cases hr : g.removeIsolatedVertices.1 <;> rw [hr] at this <;> simp [Out.map] at this ⊢
  refine ⟨g.removeIsolatedVertices.2, by rw [← q1'], h.step .removeIsolatedVertices, q2, ?_⟩
  intro u
  unfold occupant
  by_cases hu : g.vertexAt u = some none ∧ ¬ (abs g).Touched u
  · have : g.removeIsolatedVertices.2.vertexAt u = none := q3 u hu.1 hu.2
    rw [this, hu.1]; rfl
  · have : g.removeIsolatedVertices.2.vertexAt u = g.vertexAt u := q4 u hu
    rw [this]

theorem setVertexObject_ok {ν ε : Type} {g : G ν ε} (h : Reached g) {n : Nat} (hn : g.vertexAt n ≠ none) (o : Option ν) :
    ∃ g', g.setVertexObject n o = (.ok (), g') ∧ Reached g' ∧ g'.edgeAt = g.edgeAt ∧
      (∀ u, g'.vertexAt u = if u = n then some o else g.vertexAt u) := by
  obtain ⟨k1, _⟩ := graph_refines_maps h (.setVertexObject n o)
  obtain ⟨q1, q2⟩ := k1 hn
  have q1' : (g.setVertexObject n o).1 = .ok () := by
    have : (g.setVertexObject n o).1.map (fun _ => 0) = .ok 0 := q1
    cases hr : (g.setVertexObject n o).1 <;> rw [hr] at this <;> simp [Out.map] at this ⊢
  refine ⟨(g.setVertexObject n o).2, by rw [← q1'], h.step (.setVertexObject n o), abs_E q2, ?_⟩
  intro u
  exact congrFun (abs_V q2) u

theorem setVertexObject_thrown {g : Gr} {n : Nat} (hn : g.vertexAt n = none) (o : Option Term) :
    g.setVertexObject n o = (.thrown, g) := by
  unfold G.setVertexObject G.vertexExists
  rw [hn]; rfl

theorem removeEdge_ok {ν ε : Type} {g : G ν ε} (h : Reached g) {e : Nat} (he : g.edgeAt e ≠ none) :
    ∃ o g', g.removeEdge e = (.ok o, g') ∧ Reached g' ∧ g'.vertexAt = g.vertexAt ∧
      (∀ i, g'.edgeAt i = if i = e then none else g.edgeAt i) ∧
      (e < g.edges.length - 1 → g'.edges.length = g.edges.length) := by
  obtain ⟨k1, _⟩ := graph_refines_maps h (.removeEdge e)
  obtain ⟨q1, q2⟩ := k1 he
  have q1' : ∃ o, (g.removeEdge e).1 = .ok o := by
    have : (g.removeEdge e).1.map (fun _ => 0) = .ok 0 := q1
    cases hr : (g.removeEdge e).1 <;> rw [hr] at this <;> simp [Out.map] at this ⊢
  obtain ⟨o, q1'⟩ := q1'
  refine ⟨o, (g.removeEdge e).2, by rw [← q1'], h.step (.removeEdge e), abs_V q2, ?_, ?_⟩
  · intro i; exact congrFun (abs_E q2) i
  · intro hlt
    unfold G.removeEdge
    cases hh : g.edgeAt e with
    | none => exact absurd hh he
    | some ed =>
      simp only []
      rw [if_neg (by omega)]
      simp [G.invalidate]

/-- The loop removing the connections between the two nodes. -/
theorem connLoop_ok (n1 n2 n : Nat) : ∀ (k : Nat) (g : Gr), Reached g → k ≤ n → (k < n → g.edges.length = n) →
    ∃ g', connLoop n1 n2 (List.range' k (n - k)) g = (.ok (), g') ∧ Reached g' ∧ g'.vertexAt = g.vertexAt ∧
      ∀ i, g'.edgeAt i = if k ≤ i ∧ i < n ∧ (∃ ed, g.edgeAt i = some ed ∧ isConnection n1 n2 ed = true) then none
        else g.edgeAt i := by
  intro k
  induction hd : n - k generalizing k with
  | zero =>
    intro g hg hk _
    refine ⟨g, rfl, hg, rfl, ?_⟩
    intro i
    rw [if_neg]
    intro h; omega
  | succ d ih =>
    intro g hg hk hlen
    have hkn : k < n := by omega
    have hl := hlen hkn
    rw [List.range'_succ]
    unfold connLoop
    have hget : g.edges[k]? = some (g.edges[k]'(by omega)) := List.getElem?_eq_getElem _
    have hE : ∀ o, g.edges[k]? = some o → g.edgeAt k = o := by
      intro o ho; unfold G.edgeAt; rw [ho]; cases o <;> rfl
    cases ho : g.edges[k]'(by omega) with
    | none =>
      rw [hget, ho]
      simp only []
      have hk0 := hE none (by rw [hget, ho])
      obtain ⟨g', r1, r2, r3, r4⟩ := ih (k + 1) (by omega) g hg (by omega) (fun _ => hl)
      refine ⟨g', r1, r2, r3, ?_⟩
      intro i
      rw [r4]
      by_cases hik : i = k
      · subst hik
        rw [if_neg (by omega), if_neg]
        rintro ⟨_, _, ed, h, _⟩
        rw [hk0] at h; cases h
      · have : (k + 1 ≤ i) ↔ (k ≤ i) := by omega
        simp only [this]
    | some ed =>
      rw [hget, ho]
      simp only []
      have hk0 := hE (some ed) (by rw [hget, ho])
      by_cases hc : isConnection n1 n2 ed = true
      · rw [if_pos hc]
        obtain ⟨o, g1, q1, q2, q3, q4, q5⟩ := removeEdge_ok hg (e := k) (by rw [hk0]; simp)
        rw [q1]
        simp only []
        obtain ⟨g', r1, r2, r3, r4⟩ := ih (k + 1) (by omega) g1 q2 (by omega)
          (fun h => by rw [q5 (by omega)]; exact hl)
        refine ⟨g', r1, r2, r3.trans q3, ?_⟩
        intro i
        rw [r4, q4]
        by_cases hik : i = k
        · subst hik
          rw [if_neg (by omega), if_pos rfl, if_pos ⟨Nat.le_refl _, hkn, ed, hk0, hc⟩]
        · have : (k + 1 ≤ i) ↔ (k ≤ i) := by omega
          simp only [this, hik, if_false]
      · rw [if_neg hc]
        obtain ⟨g', r1, r2, r3, r4⟩ := ih (k + 1) (by omega) g hg (by omega) (fun _ => hl)
        refine ⟨g', r1, r2, r3, ?_⟩
        intro i
        rw [r4]
        by_cases hik : i = k
        · subst hik
          rw [if_neg (by omega), if_neg]
          rintro ⟨_, _, ed', h, h'⟩
          rw [hk0] at h; cases h; exact hc h'
        · have : (k + 1 ≤ i) ↔ (k ≤ i) := by omega
          simp only [this]

/-! ### What the calls leave unchanged -/

/-- Same topology: only the caches (and the adjacency list of the graph) may differ. -/
structure SameTopo (s s' : VL) : Prop where
  id : s'.id = s.id
  vertices : s'.graph.vertices = s.graph.vertices
  edges : s'.graph.edges = s.graph.edges
  switches : s'.switches = s.switches
  opened : s'.opened = s.opened
  retained : s'.retained = s.retained

theorem SameTopo.refl (s : VL) : SameTopo s s := ⟨rfl, rfl, rfl, rfl, rfl, rfl⟩

/-- No cache is out of date. -/
def Fresh (s : VL) : Prop :=
  ∀ view w c, s.cache view w = some c → compute s.id view s.graph (s.opened w) (s.retained w) = .ok c

theorem query_graph {ν ε : Type} {g : G ν ε} (h : Reached g) :
    g.query.2.vertices = g.vertices ∧ g.query.2.edges = g.edges ∧ Reached g.query.2 := by
  refine ⟨?_, ?_, h.step .query⟩
  · unfold G.query; cases g.adjacency <;> rfl
  · unfold G.query; cases g.adjacency <;> rfl

theorem update_same (s : VL) (hg : Reached s.graph) (view : View) (w : Nat) :
    SameTopo s (s.update view w).2 ∧ Reached (s.update view w).2.graph := by
  unfold VL.update
  obtain ⟨q1, q2, q3⟩ := query_graph hg
  cases s.cache view w with
  | some c => exact ⟨.refl s, hg⟩
  | none =>
    simp only []
    cases compute s.id view s.graph (s.opened w) (s.retained w) with
    | ok c => exact ⟨⟨rfl, q1, q2, rfl, rfl, rfl⟩, q3⟩
    | thrown => exact ⟨.refl s, hg⟩
    | ub => exact ⟨.refl s, hg⟩

theorem getBus_snd (s : VL) (view : View) (w n : Nat) : (s.getBus view w n).2 = (s.update view w).2 := by
  unfold VL.getBus
  rcases s.update view w with ⟨o, s'⟩
  cases o <;> rfl

theorem isConnected_snd (s : VL) (w : Nat) (t : Term) : (s.isConnected w t).2 = (s.update .bus w).2 := by
  rw [← getBus_snd s .bus w t.node]
  unfold VL.isConnected
  rcases s.getBus .bus w t.node with ⟨o, s'⟩
  cases o <;> rfl

theorem update_fresh {s : VL} (hg : Reached s.graph) (hf : Fresh s) (view : View) (w : Nat) :
    ∃ c, compute s.id view s.graph (s.opened w) (s.retained w) = .ok c ∧ (s.update view w).1 = .ok c ∧
      Fresh (s.update view w).2 := by
  obtain ⟨c, hc, _⟩ := compute_total s.id hg view (s.opened w) (s.retained w)
  refine ⟨c, hc, ?_⟩
  unfold VL.update
  cases h : s.cache view w with
  | some c' =>
    have := hf view w c' h
    rw [hc] at this; cases this
    exact ⟨rfl, hf⟩
  | none =>
    rw [hc]
    refine ⟨rfl, ?_⟩
    obtain ⟨q1, q2, q3⟩ := query_graph hg
    intro view' w' c' hc'
    show compute s.id view' s.graph.query.2 (s.opened w') (s.retained w') = .ok c'
    rw [compute_congr hg.wf q3.wf q1 q2]
    have hc'' : upd s.cache view (upd (s.cache view) w (some c)) view' w' = some c' := hc'
    unfold upd at hc''
    by_cases hv : view' = view
    · subst hv
      rw [if_pos rfl] at hc''
      by_cases hw : w' = w
      · subst hw
        rw [if_pos rfl] at hc''
        cases hc''; exact hc
      · rw [if_neg hw] at hc''; exact hf _ _ _ hc''
    · rw [if_neg hv] at hc''; exact hf _ _ _ hc''

theorem getBus_fresh {s : VL} (hg : Reached s.graph) (hf : Fresh s) (view : View) (w n : Nat) :
    ∃ c, compute s.id view s.graph (s.opened w) (s.retained w) = .ok c ∧ (s.getBus view w n).1 = c.getBus n ∧
      Fresh (s.getBus view w n).2 := by
  obtain ⟨c, h1, h2, h3⟩ := update_fresh hg hf view w
  refine ⟨c, h1, ?_, by rw [getBus_snd]; exact h3⟩
  unfold VL.getBus
  revert h2
  rcases s.update view w with ⟨o, s'⟩
  intro h2
  cases h2; rfl

theorem fresh_of_same {s s' : VL} (hg : Reached s.graph) (hg' : Reached s'.graph) (hf : Fresh s) (hs : SameTopo s s')
    (hc : ∀ view w c, s'.cache view w = some c → s.cache view w = some c) : Fresh s' := by
  intro view w c h
  rw [hs.id, hs.opened, hs.retained, compute_congr hg.wf hg'.wf hs.vertices hs.edges]
  exact hf _ _ _ (hc _ _ _ h)

theorem setOpen_eff (s : VL) (w h : Nat) (b : Bool) :
    (s.setOpen w h b).graph = s.graph ∧ (s.setOpen w h b).id = s.id ∧ (s.setOpen w h b).switches = s.switches ∧
    (s.setOpen w h b).retained = s.retained ∧
    (∀ v k, (s.setOpen w h b).opened v k = if v = w ∧ k = h then b else s.opened v k) ∧
    (∀ view v, v ≠ w → (s.setOpen w h b).cache view v = s.cache view v) := by
  unfold VL.setOpen
  by_cases hb : s.opened w h = b
  · rw [if_neg (by simp [hb])]
    refine ⟨rfl, rfl, rfl, rfl, ?_, fun _ _ _ => rfl⟩
    intro v k
    by_cases hk : v = w ∧ k = h
    · rw [if_pos hk, hk.1, hk.2, hb]
    · rw [if_neg hk]
  · rw [if_pos hb]
    refine ⟨rfl, rfl, rfl, rfl, ?_, ?_⟩
    · intro v k
      show upd s.opened w (upd (s.opened w) h b) v k = _
      unfold upd
      by_cases hv : v = w
      · subst hv; simp
      · simp [hv]
    · intro view v hv
      show upd (s.cache view) w none v = _
      unfold upd; rw [if_neg hv]

theorem setOpen_fresh {s : VL} (hf : Fresh s) (w h : Nat) (b : Bool) : Fresh (s.setOpen w h b) := by
  unfold VL.setOpen
  by_cases hb : s.opened w h = b
  · rw [if_neg (by simp [hb])]; exact hf
  · rw [if_pos hb]
    intro view v c hc
    have hc' : upd (s.cache view) w none v = some c := hc
    unfold upd at hc'
    by_cases hv : v = w
    · rw [if_pos hv] at hc'; cases hc'
    · rw [if_neg hv] at hc'
      show compute s.id view s.graph (upd s.opened w (upd (s.opened w) h b) v) (s.retained v) = .ok c
      have : upd s.opened w (upd (s.opened w) h b) v = s.opened v := by
        show (if v = w then _ else _) = _
        rw [if_neg hv]
      rw [this]
      exact hf _ _ _ hc'

theorem setRetained_fresh {s : VL} (hf : Fresh s) (w h : Nat) (b : Bool) : Fresh (s.setRetained w h b) := by
  unfold VL.setRetained
  by_cases hb : s.retained w h = b
  · rw [if_neg (by simp [hb])]; exact hf
  · rw [if_pos hb]
    intro view v c hc
    have hc' : upd (s.cache view) w none v = some c := hc
    unfold upd at hc'
    by_cases hv : v = w
    · rw [if_pos hv] at hc'; cases hc'
    · rw [if_neg hv] at hc'
      show compute s.id view s.graph (s.opened v) (upd s.retained w (upd (s.retained w) h b) v) = .ok c
      have : upd s.retained w (upd (s.retained w) h b) v = s.retained v := by
        show (if v = w then _ else _) = _
        rw [if_neg hv]
      rw [this]
      exact hf _ _ _ hc'

end Verif.NodeBreaker
