import Verif.BusBreaker.BusProps
import Verif.NodeBreaker.VLLemmas

/-! Helper lemmas about the operations of a bus/breaker voltage level. -/

namespace Verif.BusBreaker

open Verif
open Verif.Graph hiding upd
open Verif.NodeBreaker (EqType Conn Branchy upd abs_V abs_E setVertexObject_ok removeEdge_ok query_graph)

/-- The consistency of the members. -/
structure VInv (s : VL) : Prop where
  g : Reached s.graph
  furn : Furnished s.graph
  busKey : ∀ u b, BusAt s.graph u b → s.buses.get? b.id = some u ∧ b.id ≠ ""
  keyBus : ∀ id u, s.buses.get? id = some u → ∃ b, BusAt s.graph u b ∧ b.id = id
  edge : ∀ e ed, s.graph.edgeAt e = some ed → ∃ sw, ed.obj = some sw ∧ s.switches.get? sw.id = some e
  sw : ∀ id e, s.switches.get? id = some e → ∃ ed sw, s.graph.edgeAt e = some ed ∧ ed.obj = some sw ∧ sw.id = id
  kinds : ∀ v ∈ s.variants, ∀ h t, t ∈ s.terms v h → s.kind t ≠ .busbarSection
  nd : s.variants.Nodup

theorem VInv.noBusbar {s : VL} (h : VInv s) {w : Nat} (hw : w ∈ s.variants) : NoBusbar (s.types w) := by
  intro b hb
  unfold VL.types at hb
  obtain ⟨t, h1, h2⟩ := List.mem_map.mp hb
  exact h.kinds w hw b t (List.mem_filter.mp h1).1 h2

theorem BusAt.unique {g : BGr} {u : Nat} {b b' : CBus} (h : BusAt g u b) (h' : BusAt g u b') : b = b' := by
  unfold BusAt at h h'
  rw [h] at h'
  exact Option.some.inj (Option.some.inj h')

theorem VInv.id_inj {s : VL} (h : VInv s) {u v : Nat} {b b' : CBus} (hu : BusAt s.graph u b) (hv : BusAt s.graph v b')
    (he : b.id = b'.id) : u = v ∧ b = b' := by
  have h1 := (h.busKey u b hu).1
  have h2 := (h.busKey v b' hv).1
  rw [he, h2] at h1
  have := Option.some.inj h1
  subst this
  exact ⟨rfl, hu.unique hv⟩

theorem VInv.handle_inj {s : VL} (h : VInv s) {u v : Nat} {b b' : CBus} (hu : BusAt s.graph u b) (hv : BusAt s.graph v b')
    (he : b.handle = b'.handle) : u = v ∧ b = b' := by
  have := h.furn.handles u v b b' hu hv he
  subst this
  exact ⟨rfl, hu.unique hv⟩

theorem getVertex_cases {s : VL} (h : VInv s) (id : String) :
    (∃ u b, BusAt s.graph u b ∧ b.id = id ∧ s.getVertex id = .ok u) ∨
    (s.getVertex id = .thrown ∧ ∀ u b, BusAt s.graph u b → b.id ≠ id) := by
  unfold VL.getVertex
  by_cases he : id = ""
  · right
    rw [if_pos he]
    exact ⟨rfl, fun u b hu hh => (h.busKey u b hu).2 (hh.trans he)⟩
  · rw [if_neg he]
    cases hb : s.buses.get? id with
    | none =>
      right
      refine ⟨rfl, fun u b hu hh => ?_⟩
      have := (h.busKey u b hu).1
      rw [hh, hb] at this; cases this
    | some u =>
      left
      obtain ⟨b, h1, h2⟩ := h.keyBus id u hb
      exact ⟨u, b, h1, h2, rfl⟩

theorem getConfiguredBus_cases {s : VL} (h : VInv s) (id : String) :
    (∃ u b, BusAt s.graph u b ∧ b.id = id ∧ s.getConfiguredBus id = .ok b) ∨
    (s.getConfiguredBus id = .thrown ∧ ∀ u b, BusAt s.graph u b → b.id ≠ id) := by
  unfold VL.getConfiguredBus
  rcases getVertex_cases h id with ⟨u, b, h1, h2, h3⟩ | ⟨h1, h2⟩
  · left
    refine ⟨u, b, h1, h2, ?_⟩
    unfold BusAt at h1
    rw [h3, Out.bind_ok, h1]
    simp only []
    rw [if_pos h2]
  · right; rw [h1]; exact ⟨rfl, h2⟩

/-! ### Effects on the graph -/

theorem addBus_eff {s : VL} (h : VInv s) (b : CBus) :
    ∃ v g', s.addBus true b = (.ok (), { s with
        graph := g'
        buses := AMap.emplace s.buses b.id v
        terms := fun w => upd (s.terms w) b.handle [] }) ∧ Reached g' ∧ s.graph.vertexAt v = none ∧
      (∀ u, g'.vertexAt u = if u = v then some (some b) else s.graph.vertexAt u) ∧ g'.edgeAt = s.graph.edgeAt := by
  obtain ⟨v, r1, r2, r3⟩ := graph_refines_maps h.g .addVertex
  have r1' : s.graph.addVertex.1 = .ok v := r1
  have r3' : abs s.graph.addVertex.2 = ⟨Graph.upd s.graph.vertexAt v (some none), s.graph.edgeAt⟩ := r3
  have hg1 : Reached s.graph.addVertex.2 := h.g.step .addVertex
  unfold VL.addBus
  simp only [Bool.not_true, Bool.false_eq_true, if_false]
  revert r1' r3' hg1
  rcases s.graph.addVertex with ⟨o, g1⟩
  intro r1' r3' hg1
  simp only [] at r1' r3' hg1
  subst r1'
  have hV : g1.vertexAt = Graph.upd s.graph.vertexAt v (some none) := abs_V r3'
  have hv1 : g1.vertexAt v ≠ none := by rw [hV]; unfold Graph.upd; simp
  obtain ⟨g2, k1, k2, k3, k4⟩ := setVertexObject_ok hg1 hv1 (some b)
  simp only [k1]
  refine ⟨v, g2, rfl, k2, r2, ?_, ?_⟩
  · intro u
    rw [k4, hV]
    unfold Graph.upd
    by_cases hu : u = v <;> simp [hu]
  · rw [k3]; exact abs_E r3'

theorem addSwitch_eff {s : VL} (h : VInv s) (reg : Bool) (sw : BSw) (o : Bool) (id1 id2 : String) :
    s.addSwitch reg sw o id1 id2 = (.thrown, s) ∨
    ∃ v1 v2 e g', s.addSwitch reg sw o id1 id2 = (.ok (), { s with
        graph := g'
        switches := AMap.emplace s.switches sw.id e
        opened := fun w => upd (s.opened w) sw.handle o }) ∧ reg = true ∧ Reached g' ∧ s.graph.edgeAt e = none ∧
      (∀ i, g'.edgeAt i = if i = e then some ⟨v1, v2, some sw⟩ else s.graph.edgeAt i) ∧
      g'.vertexAt = s.graph.vertexAt := by
  unfold VL.addSwitch
  rcases getVertex_cases h id1 with ⟨u1, b1, p1, p2, p3⟩ | ⟨p1, _⟩
  · rw [p3]
    rcases getVertex_cases h id2 with ⟨u2, b2, q1, q2, q3⟩ | ⟨q1, _⟩
    · rw [q3]
      simp only []
      cases reg with
      | false => left; rfl
      | true =>
        right
        obtain ⟨k1, _⟩ := graph_refines_maps h.g (.addEdge u1 u2 (some sw))
        have hu1 : s.graph.vertexAt u1 ≠ none := by unfold BusAt at p1; rw [p1]; simp
        have hu2 : s.graph.vertexAt u2 ≠ none := by unfold BusAt at q1; rw [q1]; simp
        obtain ⟨e, r1, r2, r3⟩ := k1 ⟨hu1, hu2⟩
        have r1' : (s.graph.addEdge u1 u2 (some sw)).1 = .ok e := r1
        have r3' : abs (s.graph.addEdge u1 u2 (some sw)).2 =
          ⟨s.graph.vertexAt, Graph.upd s.graph.edgeAt e (some ⟨u1, u2, some sw⟩)⟩ := r3
        have hg1 : Reached (s.graph.addEdge u1 u2 (some sw)).2 := h.g.step (.addEdge u1 u2 (some sw))
        simp only [Bool.not_true, Bool.false_eq_true, if_false]
        revert r1' r3' hg1
        rcases s.graph.addEdge u1 u2 (some sw) with ⟨oo, g1⟩
        intro r1' r3' hg1
        simp only [] at r1' r3' hg1
        subst r1'
        refine ⟨u1, u2, e, g1, rfl, trivial, hg1, r2, ?_, abs_V r3'⟩
        intro i
        exact congrFun (abs_E r3') i
    · left; rw [q1]
  · left; rw [p1]

theorem removeSwitch_eff {s : VL} (h : VInv s) (id : String) :
    s.removeSwitch id = (.thrown, s) ∨
    ∃ e g', s.removeSwitch id = (.ok (), { s with graph := g', switches := AMap.erase s.switches id }) ∧
      s.switches.get? id = some e ∧ Reached g' ∧ (∀ i, g'.edgeAt i = if i = e then none else s.graph.edgeAt i) ∧
      g'.vertexAt = s.graph.vertexAt := by
  unfold VL.removeSwitch
  cases hs : s.switches.get? id with
  | none => left; rfl
  | some e =>
    right
    obtain ⟨ed, sw, k1, _⟩ := h.sw id e hs
    obtain ⟨o, g', r1, r2, r3, r4, _⟩ := removeEdge_ok h.g (e := e) (by rw [k1]; simp)
    simp only [r1]
    exact ⟨e, g', rfl, rfl, r2, r4, r3⟩

theorem removeAllSwitches_eff {s : VL} (h : VInv s) :
    Reached s.graph.removeAllEdges ∧ (∀ i, s.graph.removeAllEdges.edgeAt i = none) ∧
      s.graph.removeAllEdges.vertexAt = s.graph.vertexAt := by
  obtain ⟨_, k⟩ := graph_refines_maps h.g .removeAllEdges
  refine ⟨h.g.step .removeAllEdges, fun i => congrFun (abs_E k) i, abs_V k⟩

theorem switchAt_false {g : BGr} {b : CBus} : ∀ {m : AMap String Nat}, switchAt g b m = false →
    ∀ p ∈ m, ∀ ed, g.edgeAt p.2 = some ed → g.vertexAt ed.v1 ≠ some (some b) ∧ g.vertexAt ed.v2 ≠ some (some b)
  | [], _, p, hp => by cases hp
  | (id, e) :: r, h, p, hp => by
    intro ed hed
    unfold switchAt at h
    rw [Bool.or_eq_false_iff] at h
    rcases List.mem_cons.mp hp with rfl | hp
    · have h1 := h.1
      simp only [] at hed
      rw [hed] at h1
      simp only [Bool.or_eq_false_iff, decide_eq_false_iff_not] at h1
      exact h1
    · exact switchAt_false h.2 p hp ed hed

theorem removeBus_eff {s : VL} (h : VInv s) (w : Nat) (id : String) :
    s.removeBus w id = (.thrown, s) ∨
    ∃ u b g', s.removeBus w id = (.ok (), { s with graph := g', buses := AMap.erase s.buses id }) ∧
      BusAt s.graph u b ∧ b.id = id ∧ s.terms w b.handle = [] ∧
      (∀ e ed, s.graph.edgeAt e = some ed → ed.v1 ≠ u ∧ ed.v2 ≠ u) ∧ Reached g' ∧
      (∀ x, g'.vertexAt x = if x = u then none else s.graph.vertexAt x) ∧ g'.edgeAt = s.graph.edgeAt := by
  unfold VL.removeBus
  rcases getConfiguredBus_cases h id with ⟨u, b, p1, p2, p3⟩ | ⟨p1, _⟩
  · rw [p3]
    simp only []
    by_cases ht : (s.terms w b.handle).length > 0
    · left; rw [if_pos ht]
    · rw [if_neg ht]
      by_cases hs : switchAt s.graph b s.switches = true
      · left; rw [if_pos hs]
      · right
        rw [if_neg hs]
        have hb := (h.busKey u b p1).1
        rw [p2] at hb
        rw [hb]
        simp only []
        have hfree : ∀ e ed, s.graph.edgeAt e = some ed → ed.v1 ≠ u ∧ ed.v2 ≠ u := by
          intro e ed he
          obtain ⟨sw, k1, k2⟩ := h.edge e ed he
          obtain ⟨q1, q2⟩ := switchAt_false (Bool.eq_false_iff.mpr hs) _ (AMap.mem_of_get? k2) ed he
          unfold BusAt at p1
          exact ⟨fun hh => q1 (by rw [hh, p1]), fun hh => q2 (by rw [hh, p1])⟩
        obtain ⟨k1, _⟩ := graph_refines_maps h.g (.removeVertex u)
        obtain ⟨r1, r3⟩ := k1 ⟨by show s.graph.vertexAt u ≠ none; unfold BusAt at p1; rw [p1]; simp, by
          rintro ⟨e, ed, he, hh⟩
          obtain ⟨q1, q2⟩ := hfree e ed he
          rcases hh with hh | hh
          · exact q1 hh
          · exact q2 hh⟩
        have r1' : ((s.graph.removeVertex u).1).map (fun _ => 0) = .ok 0 := r1
        have r3' : abs (s.graph.removeVertex u).2 = ⟨Graph.upd s.graph.vertexAt u none, s.graph.edgeAt⟩ := r3
        have hg1 : Reached (s.graph.removeVertex u).2 := h.g.step (.removeVertex u)
        revert r1' r3' hg1
        rcases s.graph.removeVertex u with ⟨o, g1⟩
        intro r1' r3' hg1
        cases o with
        | thrown => cases r1'
        | ub => cases r1'
        | ok o =>
          refine ⟨u, b, g1, rfl, p1, p2, List.length_eq_zero_iff.mp (by omega), hfree, hg1, ?_, abs_E r3'⟩
          intro x
          exact congrFun (abs_V r3') x
  · left; rw [p1]

theorem mem_objects {g : BGr} {u : Nat} {b : CBus} (h : BusAt g u b) : b ∈ g.vertices.filterMap Option.join := by
  unfold BusAt G.vertexAt at h
  rw [List.mem_filterMap]
  cases hh : g.vertices[u]? with
  | none => rw [hh] at h; cases h
  | some o =>
    rw [hh] at h
    exact ⟨o, List.mem_of_getElem? hh, by simp at h; rw [h]; rfl⟩

theorem removeAllBuses_eff {s : VL} (h : VInv s) (w : Nat) :
    (∃ d, (d = s.dangling ∨ s.graph.edges ≠ []) ∧ s.removeAllBuses w = (.thrown, { s with dangling := d })) ∨
    ∃ g', s.removeAllBuses w = (.ok (), { s with graph := g', buses := [] }) ∧ Reached g' ∧
      (∀ x, g'.vertexAt x = none) ∧ (∀ e, g'.edgeAt e = none) ∧ (∀ e, s.graph.edgeAt e = none) ∧
      ∀ u b, BusAt s.graph u b → s.terms w b.handle = [] := by
  unfold VL.removeAllBuses
  split
  · left; exact ⟨s.dangling, Or.inl rfl, rfl⟩
  · split
    · left; exact ⟨s.dangling, Or.inl rfl, rfl⟩
    · rename_i h1 h2
      have hrm := graph_refines_maps h.g .removeAllVertices
      have hg1 : Reached s.graph.removeAllVertices.2 := h.g.step .removeAllVertices
      have hgr : s.graph.removeAllVertices.1 = .thrown → s.graph.edges ≠ [] ∧ s.graph.removeAllVertices.2 = s.graph := by
        unfold G.removeAllVertices
        split
        · rename_i he; intro _; exact ⟨he, rfl⟩
        · intro hh; cases hh
      have hrm' : (s.graph.removeAllVertices.1.map (fun _ => 0) = .ok 0 ∧ (∀ e, s.graph.edgeAt e = none) ∧
          abs s.graph.removeAllVertices.2 = ⟨fun _ => none, s.graph.edgeAt⟩) ∨
          (s.graph.removeAllVertices.1.map (fun _ => 0) = .thrown ∧ abs s.graph.removeAllVertices.2 = abs s.graph) := hrm
      revert hg1 hgr hrm'
      rcases s.graph.removeAllVertices with ⟨o, g1⟩
      intro hg1 hgr hrm'
      cases o with
      | ub => rcases hrm' with h | h <;> cases h.1
      | thrown =>
        left
        obtain ⟨k1, k2⟩ := hgr rfl
        simp only [] at k2
        subst k2
        exact ⟨_, Or.inr k1, rfl⟩
      | ok o =>
        right
        rcases hrm' with ⟨_, k1, k2⟩ | k
        · refine ⟨g1, rfl, hg1, fun x => congrFun (abs_V k2) x, fun e => ?_, k1, ?_⟩
          · have := congrFun (abs_E k2) e
            rw [this]; exact k1 e
          · intro u b hb
            have h2' := Bool.eq_false_iff.mpr h2
            rw [List.any_eq_false] at h2'
            have := h2' b (mem_objects hb)
            simp only [decide_eq_true_eq] at this
            exact List.length_eq_zero_iff.mp (by omega)
        · cases k.1

/-! ### Loops over the variants -/

theorem attachLoop_eff (h t : Nat) : ∀ (vs : List Nat) (s : VL), vs.Nodup →
    ∃ tm ca, attachLoop h t vs s = { s with terms := tm, cache := ca } ∧
      (∀ v x, tm v x = if v ∈ vs ∧ x = h then s.terms v h ++ [t] else s.terms v x) ∧
      (∀ v, ca v = if v ∈ vs then none else s.cache v)
  | [], s, _ => ⟨s.terms, s.cache, rfl, by simp, by simp⟩
  | v :: vs, s, hn => by
    obtain ⟨h1, h2⟩ := List.nodup_cons.mp hn
    obtain ⟨tm, ca, e1, e2, e3⟩ := attachLoop_eff h t vs
      ({ s with terms := upd s.terms v (upd (s.terms v) h (s.terms v h ++ [t])) }.invalidate v) h2
    refine ⟨tm, ca, by unfold attachLoop; rw [e1]; rfl, ?_, ?_⟩
    · intro v' x
      rw [e2]
      show (if v' ∈ vs ∧ x = h then upd s.terms v (upd (s.terms v) h (s.terms v h ++ [t])) v' h ++ [t]
        else upd s.terms v (upd (s.terms v) h (s.terms v h ++ [t])) v' x) = _
      unfold upd
      by_cases hv : v' = v
      · subst hv
        simp only [h1, false_and, if_false, if_true, List.mem_cons, true_or, true_and]
      · simp only [if_neg hv]; by_cases hx : v' ∈ vs <;> simp [hv, hx]
    · intro v'
      rw [e3]
      show (if v' ∈ vs then none else upd s.cache v none v') = _
      unfold upd
      by_cases hv : v' = v
      · simp [hv]
      · simp [hv]

theorem detachLoop_eff (h t : Nat) : ∀ (vs : List Nat) (s : VL), vs.Nodup → (∀ v ∈ vs, t ∈ s.terms v h) →
    ∃ tm bo ca, detachLoop h t vs s = (.ok (), { s with terms := tm, busOf := bo, cache := ca }) ∧
      (∀ v x, tm v x = if v ∈ vs ∧ x = h then (s.terms v h).erase t else s.terms v x) ∧
      (∀ v x, bo v x = if v ∈ vs ∧ x = t then "" else s.busOf v x) ∧
      (∀ v, ca v = if v ∈ vs then none else s.cache v)
  | [], s, _, _ => ⟨s.terms, s.busOf, s.cache, rfl, by simp, by simp, by simp⟩
  | v :: vs, s, hn, hm => by
    obtain ⟨h1, h2⟩ := List.nodup_cons.mp hn
    have hne : ∀ v' ∈ vs, v' ≠ v := fun v' hv' hh => h1 (hh ▸ hv')
    obtain ⟨tm, bo, ca, e1, e2, e3, e4⟩ := detachLoop_eff h t vs
      ({ s with terms := upd s.terms v (upd (s.terms v) h ((s.terms v h).erase t)),
                busOf := upd s.busOf v (upd (s.busOf v) t "") }.invalidate v) h2 (by
        intro v' hv'
        show t ∈ upd s.terms v (upd (s.terms v) h ((s.terms v h).erase t)) v' h
        unfold upd
        rw [if_neg (hne v' hv')]
        exact hm v' (List.mem_cons_of_mem _ hv'))
    refine ⟨tm, bo, ca, ?_, ?_, ?_, ?_⟩
    · unfold detachLoop; rw [if_pos (hm v (by simp)), e1]; rfl
    · intro v' x
      rw [e2]
      show (if v' ∈ vs ∧ x = h then (upd s.terms v (upd (s.terms v) h ((s.terms v h).erase t)) v' h).erase t
        else upd s.terms v (upd (s.terms v) h ((s.terms v h).erase t)) v' x) = _
      unfold upd
      by_cases hv : v' = v
      · subst hv
        simp only [h1, false_and, if_false, if_true, List.mem_cons, true_or, true_and]
      · simp only [if_neg hv]; by_cases hx : v' ∈ vs <;> simp [hv, hx]
    · intro v' x
      rw [e3]
      show (if v' ∈ vs ∧ x = t then "" else upd s.busOf v (upd (s.busOf v) t "") v' x) = _
      unfold upd
      by_cases hv : v' = v
      · subst hv
        simp only [h1, false_and, if_false, if_true, List.mem_cons, true_or, true_and]
      · simp only [if_neg hv]; by_cases hx : v' ∈ vs <;> simp [hv, hx]
    · intro v'
      rw [e4]
      show (if v' ∈ vs then none else upd s.cache v none v') = _
      unfold upd
      by_cases hv : v' = v
      · simp [hv]
      · simp [hv]

end Verif.BusBreaker
