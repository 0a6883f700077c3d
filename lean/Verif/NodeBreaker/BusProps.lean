import Verif.NodeBreaker.BusLemmas
import Verif.NodeBreaker.Congr

/-!
C18: the buses of the two views are the electrical classes.  C19: their ids are unique and stable.
-/

namespace Verif.NodeBreaker

open Verif Verif.Graph

theorem getBus_eq_some {c : Cache} {u : Nat} {id : String} :
    c.getBus u = .ok (some id) ↔ c.byNode[u]? = some (some id) := by
  unfold Cache.getBus
  cases h : c.byNode[u]? with
  | none => simp
  | some o => simp

/-! Sample: busbar section on node 0, breaker 0-1 (closed), internal connection 1-2, load on 2, line on 4, open
    disconnector 2-4, retained closed breaker 4-5, generator on 5, isolated line on 7. -/

def term (h : Nat) (t : EqType) (n : Nat) : Term := ⟨h, t, n⟩

def sampleG : Gr := run {} [.addVertexIfNotPresent 0, .addVertexIfNotPresent 2, .addVertexIfNotPresent 1,
  .addVertexIfNotPresent 4, .addVertexIfNotPresent 5, .addVertexIfNotPresent 7,
  .setVertexObject 0 (some (term 10 .busbarSection 0)), .setVertexObject 2 (some (term 11 .load 2)),
  .setVertexObject 4 (some (term 12 .line 4)), .setVertexObject 5 (some (term 13 .generator 5)),
  .setVertexObject 7 (some (term 14 .line 7)),
  .addEdge 0 1 (some ⟨20, "B1", .breaker⟩), .addEdge 1 2 none, .addEdge 2 4 (some ⟨21, "D1", .disconnector⟩),
  .addEdge 4 5 (some ⟨22, "B2", .breaker⟩)]

def sampleOpen (h : Nat) : Bool := h == 21
def sampleRetained (h : Nat) : Bool := h == 22

theorem sampleG_reached : Reached sampleG := ⟨_, rfl⟩

example : (compute "VL" .bus sampleG sampleOpen sampleRetained).map Cache.byNode =
    .ok [some "VL_0", some "VL_0", some "VL_0", none, some "VL_4", some "VL_4", none, none] ∧
  (compute "VL" .busBreaker sampleG sampleOpen sampleRetained).map Cache.byNode =
    .ok [some "VL_0", some "VL_0", some "VL_0", none, some "VL_4", some "VL_5", none, none] := by
  decide

/-! ### C18 -/

/-- C18: the bus computation ends normally on every reachable topology, and every node of the voltage level gets an
    answer. -/
theorem compute_total (vl : String) {g : Gr} (hg : Reached g) (view : View) (opened retained : Nat → Bool) :
    ∃ c, compute vl view g opened retained = .ok c ∧ ∀ u, g.vertexAt u ≠ none → ∃ b, c.getBus u = .ok b := by
  obtain ⟨c, h1, h2, _⟩ := compute_ok vl hg view opened retained
  refine ⟨c, h1, fun u hu => ?_⟩
  have := vertexAt_lt hu
  rw [← h2] at this
  refine ⟨c.byNode[u], ?_⟩
  unfold Cache.getBus
  rw [List.getElem?_eq_getElem this]

/-- C18: two nodes are on the same bus of a view exactly when they are linked by closed switches (not retained, for the
    bus/breaker view) and internal connections and their class qualifies as a bus.  A node that ends no switch and no
    internal connection is on no bus. -/
theorem same_bus_iff {vl : String} {g : Gr} (hg : Reached g) {view : View} {opened retained : Nat → Bool} {c : Cache}
    (hc : compute vl view g opened retained = .ok c) (u w : Nat) :
    (∃ id, c.getBus u = .ok (some id) ∧ c.getBus w = .ok (some id)) ↔
      OnEdge g u ∧ Qualifies g view (Passing view opened retained) u ∧ Conn g (Passing view opened retained) u w := by
  obtain ⟨c', h1, h2, h3, h4, h5, h6⟩ := compute_ok vl hg view opened retained
  rw [hc] at h1; cases h1
  constructor
  · rintro ⟨id, k1, k2⟩
    have q1 := (h3 u id).mp (getBus_eq_some.mp k1)
    have q2 := (h3 w id).mp (getBus_eq_some.mp k2)
    exact ⟨q1.1, q1.2.1, q1.same q2⟩
  · rintro ⟨k1, k2, k3⟩
    have hmin : ∃ m, Conn g (Passing view opened retained) u m ∧
        ∀ x, Conn g (Passing view opened retained) u x → m ≤ x := by
      have aux : ∀ n x, x ≤ n → Conn g (Passing view opened retained) u x →
          ∃ m, Conn g (Passing view opened retained) u m ∧ ∀ y, Conn g (Passing view opened retained) u y → m ≤ y := by
        intro n
        induction n with
        | zero => intro x hx hux; exact ⟨x, hux, fun y _ => by omega⟩
        | succ n ih =>
          intro x hx hux
          by_cases hex : ∃ y, y ≤ n ∧ Conn g (Passing view opened retained) u y
          · obtain ⟨y, hy, huy⟩ := hex; exact ih y hy huy
          · refine ⟨x, hux, fun y huy => ?_⟩
            rcases Nat.lt_or_ge y x with h | h
            · exact absurd ⟨y, by omega, huy⟩ hex
            · exact h
      exact aux u u (Nat.le_refl _) .refl
    obtain ⟨m, q1, q2⟩ := hmin
    have hon : OnBus vl g view (Passing view opened retained) u (vl ++ "_" ++ toString m) := ⟨k1, k2, m, q1, q2, rfl⟩
    exact ⟨_, getBus_eq_some.mpr ((h3 u _).mpr hon), getBus_eq_some.mpr ((h3 w _).mpr (hon.conn k3))⟩

/-- C18, bus view: the bus has a busbar section and another equipment, or a branch and a second equipment that is not a
    busbar section. -/
theorem same_bus_iff_busView {vl : String} {g : Gr} (hg : Reached g) {opened retained : Nat → Bool} {c : Cache}
    (hc : compute vl .bus g opened retained = .ok c) (u w : Nat) :
    (∃ id, c.getBus u = .ok (some id) ∧ c.getBus w = .ok (some id)) ↔
      Qualifies g .bus (Passing .bus opened retained) u ∧ Conn g (Passing .bus opened retained) u w := by
  rw [same_bus_iff hg hc]
  refine ⟨fun h => h.2, fun h => ⟨?_, h⟩⟩
  have key : ∀ x y, x ≠ y → Conn g (Passing .bus opened retained) u x → Conn g (Passing .bus opened retained) u y →
      OnEdge g u := by
    intro x y hxy h1 h2
    by_cases hux : u = x
    · subst hux; exact h2.onEdge_of_ne hxy
    · exact h1.onEdge_of_ne hux
  rcases h.1 with ⟨x, y, k1, k2, ⟨t, k3, k4⟩, t', k5, k6⟩ | ⟨x, y, k0, k1, k2, _⟩
  · refine key x y ?_ k1 k2
    intro hxy; subst hxy
    rw [k3] at k5; cases k5
    exact k6 k4
  · exact key x y k0 k1 k2

example : ∃ c, compute "VL" .bus sampleG sampleOpen sampleRetained = .ok c ∧
    (∃ id, c.getBus 0 = .ok (some id) ∧ c.getBus 2 = .ok (some id)) ∧ c.getBus 7 = .ok none ∧
    c.getBus 4 = .ok (some "VL_4") := ⟨_, rfl, ⟨"VL_0", by decide⟩, by decide, by decide⟩

/-- C18: the buses listed: each node of a bus is answered by that bus and by no other, no node is listed twice, and the
    terminals of the bus are exactly the terminals on its nodes. -/
theorem bus_content {vl : String} {g : Gr} (hg : Reached g) {view : View} {opened retained : Nat → Bool} {c : Cache}
    (hc : compute vl view g opened retained = .ok c) {id : String} {b : Bus} (hb : c.byId.get? id = some b) :
    b.nodes ≠ [] ∧ b.nodes.Nodup ∧ (∀ u, u ∈ b.nodes ↔ c.getBus u = .ok (some id)) ∧
      b.terminals = b.nodes.filterMap (fun u => (g.vertexAt u).join) := by
  obtain ⟨c', h1, h2, h3, h4, h5, h6⟩ := compute_ok vl hg view opened retained
  rw [hc] at h1; cases h1
  obtain ⟨u, k1, k2⟩ := h4 id b hb
  refine ⟨?_, k2.nodup, ?_, k2.terms⟩
  · intro h
    have := (k2.mem u).mpr .refl
    rw [h] at this; cases this
  · intro x
    rw [k2.mem, getBus_eq_some, h3]
    exact ⟨fun h => k1.conn h, fun h => k1.same h⟩

/-- C18: the bus answered for a node is a bus of the view. -/
theorem bus_listed {vl : String} {g : Gr} (hg : Reached g) {view : View} {opened retained : Nat → Bool} {c : Cache}
    (hc : compute vl view g opened retained = .ok c) {u : Nat} {id : String} (hu : c.getBus u = .ok (some id)) :
    ∃ b, c.byId.get? id = some b ∧ u ∈ b.nodes := by
  obtain ⟨c', h1, h2, h3, h4, h5, h6⟩ := compute_ok vl hg view opened retained
  have hc0 := hc
  rw [hc] at h1; cases h1
  obtain ⟨b, hb⟩ := h5 u id ((h3 u id).mp (getBus_eq_some.mp hu))
  exact ⟨b, hb, ((bus_content hg hc0 hb).2.2.1 u).mpr hu⟩

example : ∃ c, compute "VL" .bus sampleG sampleOpen sampleRetained = .ok c ∧
    c.byId.get? "VL_4" = some ⟨[4, 5], [term 12 .line 4, term 13 .generator 5]⟩ := ⟨_, rfl, by decide⟩

/-! ### C19 -/

/-- C19: the id of a bus is `vl_m` where `m` is the least of its nodes: different buses (disjoint sets of nodes) have
    different ids, and the id of a bus is a function of its nodes. -/
theorem bus_id_least_node {vl : String} {g : Gr} (hg : Reached g) {view : View} {opened retained : Nat → Bool} {c : Cache}
    (hc : compute vl view g opened retained = .ok c) {id : String} {b : Bus} (hb : c.byId.get? id = some b) :
    ∃ m, m ∈ b.nodes ∧ (∀ x ∈ b.nodes, m ≤ x) ∧ id = vl ++ "_" ++ toString m := by
  obtain ⟨c', h1, h2, h3, h4, h5, h6⟩ := compute_ok vl hg view opened retained
  rw [hc] at h1; cases h1
  obtain ⟨u, ⟨_, _, m, q1, q2, q3⟩, k2⟩ := h4 id b hb
  exact ⟨m, (k2.mem m).mpr q1, fun x hx => q2 x ((k2.mem x).mp hx), q3⟩

/-- C19: no two buses of the list share an id or a node. -/
theorem bus_ids_unique {vl : String} {g : Gr} (hg : Reached g) {view : View} {opened retained : Nat → Bool} {c : Cache}
    (hc : compute vl view g opened retained = .ok c) :
    (c.byId.map Prod.fst).Nodup ∧
    ∀ id id' b b' u, (id, b) ∈ c.byId → (id', b') ∈ c.byId → u ∈ b.nodes → u ∈ b'.nodes → id = id' ∧ b = b' := by
  obtain ⟨c', h1, h2, h3, h4, h5, h6⟩ := compute_ok vl hg view opened retained
  have hc0 := hc
  rw [hc] at h1; cases h1
  refine ⟨h6, ?_⟩
  intro id id' b b' u k1 k2 k3 k4
  have q1 := AMap.get?_of_mem h6 k1
  have q2 := AMap.get?_of_mem h6 k2
  have q3 := ((bus_content hg hc0 q1).2.2.1 u).mp k3
  have q4 := ((bus_content hg hc0 q2).2.2.1 u).mp k4
  rw [q3] at q4
  have : id = id' := by cases q4; rfl
  subst this
  rw [q1] at q2
  exact ⟨rfl, Option.some.inj q2⟩

theorem Conn.mono {g g' : Gr} {P P' : Option Sw → Prop} {u w : Nat}
    (hE : ∀ e ed, g.edgeAt e = some ed → P ed.obj → ∃ e', g'.edgeAt e' = some ed ∧ P' ed.obj) (h : Conn g P u w) :
    Conn g' P' u w := by
  induction h with
  | refl => exact .refl
  | step _ h2 h3 h4 ih =>
    obtain ⟨e', k1, k2⟩ := hE _ _ h2 h3
    exact .step ih k1 k2 h4

/-- C19: recomputing gives the same bus ids for the same nodes, whatever the numbering of the edges, as long as the
    equipment on the nodes, the switches and connections, and their states are the same. -/
theorem bus_ids_stable {vl : String} {g g' : Gr} (hg : Reached g) (hg' : Reached g') {view : View}
    {opened retained opened' retained' : Nat → Bool} {c c' : Cache}
    (hc : compute vl view g opened retained = .ok c) (hc' : compute vl view g' opened' retained' = .ok c')
    (hV : ∀ u, g'.vertexAt u = g.vertexAt u)
    (hE : ∀ ed, (∃ e, g'.edgeAt e = some ed) ↔ ∃ e, g.edgeAt e = some ed)
    (hS : ∀ e ed s, g.edgeAt e = some ed → ed.obj = some s →
      opened' s.handle = opened s.handle ∧ retained' s.handle = retained s.handle) (u : Nat) (id : String) :
    c'.getBus u = .ok (some id) ↔ c.getBus u = .ok (some id) := by
  obtain ⟨c1, h1, _, h3, _⟩ := compute_ok vl hg view opened retained
  obtain ⟨c2, h1', _, h3', _⟩ := compute_ok vl hg' view opened' retained'
  rw [hc] at h1; cases h1
  rw [hc'] at h1'; cases h1'
  rw [getBus_eq_some, getBus_eq_some, h3, h3']
  have hP : ∀ e ed, g.edgeAt e = some ed → (Passing view opened' retained' ed.obj ↔ Passing view opened retained ed.obj) := by
    intro e ed he
    cases ho : ed.obj with
    | none => exact Iff.rfl
    | some s =>
      obtain ⟨k1, k2⟩ := hS e ed s he ho
      simp only [Passing, k1, k2]
  have hconn : ∀ a b, Conn g' (Passing view opened' retained') a b ↔ Conn g (Passing view opened retained) a b := by
    intro a b
    constructor
    · refine Conn.mono ?_
      intro e ed he hp
      obtain ⟨e', he'⟩ := (hE ed).mp ⟨e, he⟩
      exact ⟨e', he', (hP e' ed he').mp hp⟩
    · refine Conn.mono ?_
      intro e ed he hp
      obtain ⟨e', he'⟩ := (hE ed).mpr ⟨e, he⟩
      exact ⟨e', he', (hP e ed he).mpr hp⟩
  have hon : ∀ a, OnEdge g' a ↔ OnEdge g a := by
    intro a
    constructor
    · rintro ⟨e, ed, k1, k2⟩; obtain ⟨e', he'⟩ := (hE ed).mp ⟨e, k1⟩; exact ⟨e', ed, he', k2⟩
    · rintro ⟨e, ed, k1, k2⟩; obtain ⟨e', he'⟩ := (hE ed).mpr ⟨e, k1⟩; exact ⟨e', ed, he', k2⟩
  have hhas : ∀ p x, Has g' p x ↔ Has g p x := by intro p x; unfold Has; rw [hV]
  unfold OnBus
  rw [hon]
  cases view with
  | busBreaker => simp only [Qualifies, hconn]
  | bus => simp only [Qualifies, hconn, hhas]

/-- The sample with its edges created in another order, after removals. -/
def sampleG' : Gr := run {} [.addVertexIfNotPresent 0, .addVertexIfNotPresent 2, .addVertexIfNotPresent 1,
  .addVertexIfNotPresent 4, .addVertexIfNotPresent 5, .addVertexIfNotPresent 7,
  .setVertexObject 0 (some (term 10 .busbarSection 0)), .setVertexObject 2 (some (term 11 .load 2)),
  .setVertexObject 4 (some (term 12 .line 4)), .setVertexObject 5 (some (term 13 .generator 5)),
  .setVertexObject 7 (some (term 14 .line 7)), .addEdge 0 7 none, .addEdge 0 7 none,
  .addEdge 4 5 (some ⟨22, "B2", .breaker⟩), .removeEdge 0, .addEdge 2 4 (some ⟨21, "D1", .disconnector⟩), .removeEdge 1,
  .addEdge 1 2 none, .addEdge 0 1 (some ⟨20, "B1", .breaker⟩)]

example : sampleG'.vertices = sampleG.vertices ∧ sampleG'.edges ≠ sampleG.edges ∧
    (∀ o, o ∈ sampleG'.edges ↔ o ∈ sampleG.edges) ∧
    (compute "VL" .bus sampleG' sampleOpen sampleRetained).map Cache.byNode =
      .ok [some "VL_0", some "VL_0", some "VL_0", none, some "VL_4", some "VL_4", none, none] := by
  refine ⟨by decide, by decide, ?_, by decide⟩
  intro o
  have e1 : sampleG'.edges = [some ⟨2, 4, some ⟨21, "D1", .disconnector⟩⟩, some ⟨1, 2, none⟩,
    some ⟨4, 5, some ⟨22, "B2", .breaker⟩⟩, some ⟨0, 1, some ⟨20, "B1", .breaker⟩⟩] := by decide
  have e2 : sampleG.edges = [some ⟨0, 1, some ⟨20, "B1", .breaker⟩⟩, some ⟨1, 2, none⟩,
    some ⟨2, 4, some ⟨21, "D1", .disconnector⟩⟩, some ⟨4, 5, some ⟨22, "B2", .breaker⟩⟩] := by decide
  rw [e1, e2]
  simp only [List.mem_cons, List.not_mem_nil, or_false]
  constructor
  · rintro (h | h | h | h) <;> simp [h]
  · rintro (h | h | h | h) <;> simp [h]

end Verif.NodeBreaker
