import Verif.NodeBreaker.Connectable

/-! C62: the connectable bus of a node is its bus, else a nearby bus, else the first bus of the view. -/

namespace Verif.NodeBreaker

open Verif Verif.Graph

/-- The node is on some bus of the view in the current topology of variant `w`. -/
def Bused (s : VL) (view : View) (w u : Nat) (b : String) : Prop :=
  OnBus s.id s.graph view (Passing view (s.opened w) (s.retained w)) u b

/-- A bus next to the place: one of its nodes is linked by a switch, in any position, or by an internal connection to a
    node that the start reaches in the same way through nodes without bus. -/
def Nearby (s : VL) (view : View) (w v : Nat) (b : String) : Prop :=
  ∃ u x, Reach (Linked s.graph) (fun y => ∃ b', Bused s view w y b') v u ∧ Linked s.graph u x ∧ Bused s view w x b

theorem Reach.congr {R R' : Nat → Nat → Prop} {M M' : Nat → Prop} {v u : Nat} (hr : ∀ a b, R a b → R' a b)
    (hm : ∀ x, M' x → M x) (h : Reach R M v u) : Reach R' M' v u := by
  induction h with
  | refl => exact .refl
  | step _ h2 h3 ih => exact .step ih (hr _ _ h2) (fun hh => h3 (hm _ hh))

/-- C62: after any history of safe calls (see C20), the connectable bus of a node of the voltage level is
    * its own bus if it has one;
    * otherwise a bus nearby, if there is one;
    * otherwise the first bus of the view in the order of the ids, if there is one;
    * otherwise nothing.
    The voltage level is left as it was except for its caches.  Missing for the full property: caches out of date, see
    `connectable_fails_after_addSwitch`. -/
theorem connectable_bus_partial {id : String} {s : VL} (h : SafeReach id s) (view : View) (w : Nat) {v : Nat}
    (hv : s.graph.vertexAt v ≠ none) :
    ∃ r, (s.getConnectableBus view w v).1 = .ok r ∧
      (∀ b, Bused s view w v b → r = some b) ∧
      ((¬ ∃ b, Bused s view w v b) → (∃ b, Nearby s view w v b) → ∃ b, r = some b ∧ Nearby s view w v b) ∧
      ((¬ ∃ b, Bused s view w v b) → (¬ ∃ b, Nearby s view w v b) → (∃ u b, Bused s view w u b) →
        ∃ u b, r = some b ∧ Bused s view w u b ∧ ∀ u' b', Bused s view w u' b' → ¬ b' < b) ∧
      ((¬ ∃ u b, Bused s view w u b) → r = none) := by
  have hi := h.reach.inv
  obtain ⟨c, h1, h2, _⟩ := update_fresh hi.g h.fresh view w
  obtain ⟨hsame, hg'⟩ := update_same s hi.g view w
  obtain ⟨c', k1, k2, k3, k4, k5, k6⟩ := compute_ok s.id hi.g view (s.opened w) (s.retained w)
  rw [h1] at k1; cases k1
  have hcon : (s.getConnectableBus view w v).1 = connectable c (s.update view w).2.graph v := by
    unfold VL.getConnectableBus
    revert h2
    rcases s.update view w with ⟨o, s'⟩
    intro h2
    cases h2; rfl
  rw [hcon]
  have hedge : ∀ e, (s.update view w).2.graph.edgeAt e = s.graph.edgeAt e := by
    intro e; unfold G.edgeAt; rw [hsame.edges]
  have hvert : ∀ e, (s.update view w).2.graph.vertexAt e = s.graph.vertexAt e := by
    intro e; unfold G.vertexAt; rw [hsame.vertices]
  generalize hgg : (s.update view w).2.graph = g' at hedge hvert hg'
  have hlen' : g'.vertices.length = s.graph.vertices.length := by rw [← hgg, hsame.vertices]
  have hlink : ∀ a b, Linked g' a b ↔ Linked s.graph a b := by
    intro a b; unfold Linked; simp only [hedge]
  -- what the cache answers
  let f : Nat → Option String := fun u => (c.byNode[u]?).join
  have hf : ∀ u b, f u = some b ↔ Bused s view w u b := by
    intro u b
    unfold Bused
    rw [← k3 u b]
    show (c.byNode[u]?).join = some b ↔ _
    cases c.byNode[u]? with
    | none => exact ⟨nofun, nofun⟩
    | some o => exact ⟨fun hh => congrArg some hh, fun hh => Option.some.inj hh⟩
  have hfn : ∀ u, f u ≠ none ↔ ∃ b, Bused s view w u b := by
    intro u
    rw [Option.ne_none_iff_exists']
    simp only [hf]
  have hlook : ∀ u, u < g'.vertices.length → c.getBus u = .ok (f u) := by
    intro u hu
    have : u < c.byNode.length := by rw [k2, ← hlen']; exact hu
    unfold Cache.getBus
    show _ = Out.ok ((c.byNode[u]?).join)
    rw [List.getElem?_eq_getElem this]; rfl
  have hvl : v < g'.vertices.length := by rw [hlen']; exact vertexAt_lt hv
  have hex : g'.vertexExists v = true := by
    unfold G.vertexExists; rw [hvert]; exact Option.isSome_iff_ne_none.mpr hv
  unfold connectable
  rw [hlook v hvl, Out.bind_ok]
  have huniq : ∀ b b', Bused s view w v b → Bused s view w v b' → b = b' := by
    intro b b' e1 e2
    rw [← hf] at e1 e2; rw [e1] at e2; exact Option.some.inj e2
  cases hfv : f v with
  | some b =>
    have hb := (hf v b).mp hfv
    refine ⟨some b, rfl, fun b' hb' => by rw [huniq b b' hb hb'], fun hn => absurd ⟨b, hb⟩ hn,
      fun hn => absurd ⟨b, hb⟩ hn, fun hn => absurd ⟨v, b, hb⟩ hn⟩
  | none =>
    have hnb : ¬ ∃ b, Bused s view w v b := fun hh => (hfn v).mpr hh hfv
    obtain ⟨r, s1, s2, s3⟩ := seek_spec hg' hlook hex hfv
    simp only []
    rw [s1]
    have hkeys : ∀ k, k ∈ c.byId.map Prod.fst ↔ ∃ u, Bused s view w u k := by
      intro k
      constructor
      · intro hk
        obtain ⟨⟨k', b⟩, hm, rfl⟩ := List.mem_map.mp hk
        obtain ⟨u, q1, _⟩ := k4 k' b (AMap.get?_of_mem k6 hm)
        exact ⟨u, q1⟩
      · rintro ⟨u, hu⟩
        obtain ⟨b, hb⟩ := k5 u k hu
        exact List.mem_map.mpr ⟨(k, b), AMap.mem_of_get? hb, rfl⟩
    have hreach : ∀ u, Reach (Linked g') (fun x => f x ≠ none) v u ↔
        Reach (Linked s.graph) (fun y => ∃ b', Bused s view w y b') v u := fun u =>
      ⟨Reach.congr (fun a b hab => (hlink a b).mp hab) (fun x hx => (hfn x).mpr hx),
       Reach.congr (fun a b hab => (hlink a b).mpr hab) (fun x hx => (hfn x).mp hx)⟩
    cases r with
    | some b =>
      obtain ⟨u, x, q1, q2, q3⟩ := s2 b rfl
      have hnear : Nearby s view w v b := ⟨u, x, (hreach u).mp q1, (hlink u x).mp q2, (hf x b).mp q3⟩
      refine ⟨some b, rfl, fun b' hb' => absurd ⟨b', hb'⟩ hnb, fun _ _ => ⟨b, rfl, hnear⟩,
        fun _ hn => absurd ⟨b, hnear⟩ hn, fun hn => absurd ⟨x, b, (hf x b).mp q3⟩ hn⟩
    | none =>
      have hnn : ¬ ∃ b, Nearby s view w v b := by
        rintro ⟨b, u, x, q1, q2, q3⟩
        have := s3 rfl u x ((hreach u).mpr q1) ((hlink u x).mpr q2)
        rw [(hf x b).mpr q3] at this
        cases this
      refine ⟨firstKey c.byId, rfl, fun b' hb' => absurd ⟨b', hb'⟩ hnb, fun _ hh => absurd hh hnn, ?_, ?_⟩
      · rintro _ _ ⟨u, b, hub⟩
        cases hfk : firstKey c.byId with
        | none =>
          rw [firstKey_none] at hfk
          have := (hkeys b).mpr ⟨u, hub⟩
          rw [hfk] at this; cases this
        | some k =>
          obtain ⟨m1, m2⟩ := firstKey_some hfk
          obtain ⟨u', hu'⟩ := (hkeys k).mp m1
          exact ⟨u', k, rfl, hu', fun u2 b2 h2 => m2 b2 ((hkeys b2).mpr ⟨u2, h2⟩)⟩
      · intro hno
        rw [firstKey_none]
        cases hbi : c.byId with
        | nil => rfl
        | cons p ps =>
          exfalso
          obtain ⟨u, hu⟩ := (hkeys p.1).mp (by rw [hbi]; simp)
          exact hno ⟨u, p.1, hu⟩

/-- C62: asking for the connectable bus changes nothing but caches. -/
theorem connectable_bus_keeps (s : VL) (hg : Reached s.graph) (view : View) (w v : Nat) :
    (s.getConnectableBus view w v).2.id = s.id ∧
    (s.getConnectableBus view w v).2.graph.vertices = s.graph.vertices ∧
    (s.getConnectableBus view w v).2.graph.edges = s.graph.edges ∧
    (s.getConnectableBus view w v).2.switches = s.switches ∧
    (s.getConnectableBus view w v).2.opened = s.opened ∧
    (s.getConnectableBus view w v).2.retained = s.retained := by
  have h : (s.getConnectableBus view w v).2 = (s.update view w).2 := by
    unfold VL.getConnectableBus
    rcases s.update view w with ⟨o, s'⟩
    cases o <;> rfl
  rw [h]
  obtain ⟨h1, h2, h3, h4, h5, h6⟩ := (update_same s hg view w).1
  exact ⟨h1, h2, h3, h4, h5, h6⟩

/-- C62: a node that the voltage level does not have makes the call throw (after a history of safe calls). -/
theorem connectable_bus_unknown_partial {id : String} {s : VL} (h : SafeReach id s) (view : View) (w : Nat) {v : Nat}
    (hv : s.graph.vertexAt v = none) : (s.getConnectableBus view w v).1 = .thrown := by
  have hi := h.reach.inv
  obtain ⟨c, h1, h2, _⟩ := update_fresh hi.g h.fresh view w
  obtain ⟨hsame, hg'⟩ := update_same s hi.g view w
  obtain ⟨c', k1, k2, k3, _⟩ := compute_ok s.id hi.g view (s.opened w) (s.retained w)
  rw [h1] at k1; cases k1
  have hcon : (s.getConnectableBus view w v).1 = connectable c (s.update view w).2.graph v := by
    unfold VL.getConnectableBus
    revert h2
    rcases s.update view w with ⟨o, s'⟩
    intro h2
    cases h2; rfl
  rw [hcon]
  unfold connectable Cache.getBus
  cases hb : c.byNode[v]? with
  | none => rfl
  | some o =>
    cases o with
    | some b =>
      exfalso
      obtain ⟨⟨e, ed, q1, q2⟩, _⟩ := (k3 v b).mp hb
      obtain ⟨m1, m2⟩ := hi.g.wf.ends e ed q1
      rcases q2 with q2 | q2
      · rw [q2] at m1; exact m1 hv
      · rw [q2] at m2; exact m2 hv
    | none =>
      simp only [Out.bind_ok]
      have : (s.update view w).2.graph.vertexExists v = false := by
        unfold G.vertexExists G.vertexAt
        rw [hsame.vertices]
        unfold G.vertexAt at hv
        rw [hv]; rfl
      unfold G.sTraverse
      simp [this, Out.map]

/-- Busbar section on 0 with a load on 1 (bus VL_0); open breaker 1-2, internal connection 2-3 with a generator on 3:
    nodes 2 and 3 have no bus in the bus view.  A battery alone on node 5, and a busbar section on 10 with a load on 9
    (bus VL_9). -/
def vlConn : VL :=
  let s := ((({ id := "VL" } : VL).attach (term 10 .busbarSection 0) false).2.attach (term 11 .load 1) false).2
  let s := ((s.attach (term 12 .generator 3) false).2.attach (term 13 .battery 5) false).2
  let s := ((s.attach (term 14 .busbarSection 10) false).2.attach (term 15 .load 9) false).2
  let s := (s.addSwitch true ⟨20, "B1", .breaker⟩ false false 0 1).2
  let s := (s.addSwitch true ⟨21, "B2", .breaker⟩ true false 1 2).2
  let s := (s.addSwitch true ⟨22, "B3", .breaker⟩ false false 9 10).2
  (s.addInternalConnection 0 2 3).2

theorem vlConn_reach : SafeReach "VL" vlConn := by
  refine .step (a := .addInternalConnection 0 2 3) (.step (a := .addSwitch true ⟨22, "B3", .breaker⟩ false false 9 10)
    (.step (a := .addSwitch true ⟨21, "B2", .breaker⟩ true false 1 2)
    (.step (a := .addSwitch true ⟨20, "B1", .breaker⟩ false false 0 1)
    (.step (a := .attach (term 15 .load 9) false) (.step (a := .attach (term 14 .busbarSection 10) false)
    (.step (a := .attach (term 13 .battery 5) false) (.step (a := .attach (term 12 .generator 3) false)
    (.step (a := .attach (term 11 .load 1) false) (.step (a := .attach (term 10 .busbarSection 0) false) .init
    trivial rfl) trivial rfl) trivial rfl) trivial rfl) trivial rfl) trivial rfl) ?_ rfl) ?_ rfl) ?_ rfl) ?_ rfl
  all_goals first | (intro view w; rfl) | (intro view w _; rfl)

set_option maxRecDepth 4000 in
example : (vlConn.getBus .bus 0 3).1 = .ok none ∧ (vlConn.getConnectableBus .bus 0 3).1 = .ok (some "VL_0") ∧
    (vlConn.getConnectableBus .bus 0 9).1 = .ok (some "VL_9") ∧
    (vlConn.getConnectableBus .bus 0 5).1 = .ok (some "VL_0") ∧
    (vlConn.getConnectableBus .busBreaker 0 3).1 = .ok (some "VL_2") ∧
    (vlConn.getConnectableBus .bus 0 7).1 = .thrown := by decide

/-- Finding (C62): `addSwitch` leaves the cache; the connectable bus of a node created after a query throws
    `std::out_of_range`. -/
theorem connectable_fails_after_addSwitch :
    ∃ s, VReach "VL" s ∧ s.graph.vertexAt 6 ≠ none ∧ (s.getConnectableBus .bus 0 6).1 = .thrown := by
  refine ⟨((vl0.getBus .bus 0 0).2.addSwitch true ⟨20, "B1", .breaker⟩ false false 0 6).2,
    .step (.step vl0_reach (a := .getBus .bus 0 0) rfl) (a := .addSwitch true ⟨20, "B1", .breaker⟩ false false 0 6) rfl,
    by decide, by decide⟩

end Verif.NodeBreaker
