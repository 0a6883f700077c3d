import Verif.NodeBreaker.VLProps

/-! C53: the nodes of each bus. -/

namespace Verif.NodeBreaker

open Verif Verif.Graph

theorem passing_bus (opened r r' : Nat → Bool) : Passing .bus opened r = Passing .bus opened r' := by
  funext o
  cases o with
  | none => rfl
  | some s => simp [Passing]

theorem eqAccept_iff {g : Gr} {opened r : Nat → Bool} {a e b : Nat} {ed : Edge Sw} (he : g.edgeAt e = some ed) :
    eqAccept g opened a e b = true ↔ Passing .bus opened r ed.obj ∧ ∀ t, g.vertexAt b ≠ some (some t) := by
  unfold eqAccept
  rw [Bool.and_eq_true, accept_iff he, passing_bus opened (fun _ => false) r]
  cases g.vertexAt b with
  | none => simp
  | some o => cases o <;> simp

/-- The last terminal found is one found by some call, and there is one as soon as a call found one. -/
theorem lastTerminal_spec (g : Gr) (opened : Nat → Bool) (log : List Call) :
    (∀ t, lastTerminal g opened log = some t → ∃ c ∈ log, accept .bus g opened (fun _ => false) c.src c.edge c.dst = true ∧
      g.vertexAt c.dst = some (some t)) ∧
    (lastTerminal g opened log = none → ∀ c ∈ log, accept .bus g opened (fun _ => false) c.src c.edge c.dst = true →
      ∀ t, g.vertexAt c.dst ≠ some (some t)) := by
  have aux : ∀ (log : List Call) (r0 : Option Term),
      let r := log.foldl (fun r c =>
        if accept .bus g opened (fun _ => false) c.src c.edge c.dst then
          match g.vertexAt c.dst with
          | some (some t) => some t
          | _ => r
        else r) r0
      (∀ t, r = some t → r0 = some t ∨ ∃ c ∈ log, accept .bus g opened (fun _ => false) c.src c.edge c.dst = true ∧
        g.vertexAt c.dst = some (some t)) ∧
      (r = none → r0 = none ∧ ∀ c ∈ log, accept .bus g opened (fun _ => false) c.src c.edge c.dst = true →
        ∀ t, g.vertexAt c.dst ≠ some (some t)) := by
    intro log
    induction log with
    | nil => intro r0; exact ⟨fun t h => Or.inl h, fun h => ⟨h, by simp⟩⟩
    | cons c log ih =>
      intro r0
      simp only [List.foldl_cons]
      have := ih (if accept .bus g opened (fun _ => false) c.src c.edge c.dst then
          match g.vertexAt c.dst with
          | some (some t) => some t
          | _ => r0
        else r0)
      obtain ⟨h1, h2⟩ := this
      constructor
      · intro t ht
        rcases h1 t ht with h | ⟨c', hc', h⟩
        · by_cases ha : accept .bus g opened (fun _ => false) c.src c.edge c.dst = true
          · rw [if_pos ha] at h
            split at h
            · rename_i t' ht'
              cases h
              exact Or.inr ⟨c, by simp, ha, ht'⟩
            · exact Or.inl h
          · rw [if_neg ha] at h; exact Or.inl h
        · exact Or.inr ⟨c', by simp [hc'], h⟩
      · intro hn
        obtain ⟨k1, k2⟩ := h2 hn
        by_cases ha : accept .bus g opened (fun _ => false) c.src c.edge c.dst = true
        · rw [if_pos ha] at k1
          split at k1
          · cases k1
          · rename_i hne
            refine ⟨k1, ?_⟩
            intro c' hc' ha' t
            rcases List.mem_cons.mp hc' with rfl | hc'
            · exact hne t
            · exact k2 c' hc' ha' t
        · rw [if_neg ha] at k1
          refine ⟨k1, ?_⟩
          intro c' hc' ha' t
          rcases List.mem_cons.mp hc' with rfl | hc'
          · exact absurd ha' ha
          · exact k2 c' hc' ha' t
  obtain ⟨h1, h2⟩ := aux log none
  refine ⟨fun t ht => ?_, fun hn => (h2 hn).2⟩
  rcases h1 t ht with h | h
  · cases h
  · exact h

/-- From a node without terminal, the search finds a terminal of the class of the node if there is one, and finds none
    otherwise. -/
theorem equivalentTerminal_spec {g : Gr} (hg : Reached g) (opened r : Nat → Bool) {u : Nat} (hu : g.vertexAt u = some none) :
    ∃ o, equivalentTerminal g opened u = .ok o ∧
      (∀ t, o = some t → ∃ x, Conn g (Passing .bus opened r) u x ∧ g.vertexAt x = some (some t)) ∧
      (o = none → ∀ x t, Conn g (Passing .bus opened r) u x → g.vertexAt x ≠ some (some t)) := by
  have hex : g.vertexExists u = true := by unfold G.vertexExists; rw [hu]; rfl
  have hlen : (List.replicate g.vertices.length false).length = g.vertices.length := by simp
  obtain ⟨st, h1, _, h3⟩ := traverse_visits_reachable hg (eqAccept g opened) hex hlen
  obtain ⟨c1, _, _, c4⟩ := traverse_calls hg (eqAccept g opened) hex hlen h1
  have hE : ∀ u, ¬ Enc (List.replicate g.vertices.length false) u := by
    intro u hu
    unfold Enc at hu
    rw [List.getElem?_replicate] at hu
    split at hu <;> simp at hu
  obtain ⟨l1, l2⟩ := lastTerminal_spec g opened st.log
  have hreach : ∀ x, Reach (StepR g (eqAccept g opened)) (Enc (List.replicate g.vertices.length false)) u x →
      Conn g (Passing .bus opened r) u x ∧ ∀ t, g.vertexAt x ≠ some (some t) := by
    intro x hx
    induction hx with
    | refl => exact ⟨.refl, by rw [hu]; simp⟩
    | step _ hs _ ih =>
      obtain ⟨e, ed, k1, k2, k3⟩ := hs
      obtain ⟨q1, q2⟩ := (eqAccept_iff (r := r) k1).mp k3
      exact ⟨.step ih.1 k1 q1 k2, q2⟩
  refine ⟨lastTerminal g opened st.log, ?_, ?_, ?_⟩
  · unfold equivalentTerminal G.traverseFrom
    rw [h1]; rfl
  · intro t ht
    obtain ⟨c, hc, k1, k2⟩ := l1 t ht
    obtain ⟨⟨ed, q1, q2⟩, _, q3, _⟩ := c1 c hc
    refine ⟨c.dst, .step (hreach _ q3).1 q1 ?_ q2, k2⟩
    rw [passing_bus opened r (fun _ => false)]
    exact (accept_iff q1).mp k1
  · intro hn x t hx
    have hcall := l2 hn
    have : Reach (StepR g (eqAccept g opened)) (Enc (List.replicate g.vertices.length false)) u x := by
      induction hx with
      | refl => exact .refl
      | step _ k2 k3 k4 ih =>
        rename_i v w e ed _
        by_cases hw : ∃ t, g.vertexAt w = some (some t)
        · exfalso
          obtain ⟨t', ht'⟩ := hw
          have hnot : ¬ Enc st.enc w := by
            intro hh
            rcases (h3 w).mp hh with hh | hh
            · exact hE w hh
            · exact (hreach w hh).2 t' ht'
          refine hcall _ (c4 v ih e ed w k2 k4 hnot) ?_ t' ht'
          show accept .bus g opened (fun _ => false) v e w = true
          rw [accept_iff k2, passing_bus opened (fun _ => false) r]; exact k3
        · refine .step ih ⟨e, ed, k2, k4, ?_⟩ (hE w)
          rw [eqAccept_iff (r := r) k2]
          exact ⟨k3, fun t' ht' => hw ⟨t', ht'⟩⟩
    exact (hreach x this).2 t

theorem get?_insertNode (m : AMap String (List Nat)) (id id' : String) (node u : Nat) :
    (∃ ns, (insertNode m id node).get? id' = some ns ∧ u ∈ ns) ↔
      (id' = id ∧ u = node) ∨ ∃ ns, m.get? id' = some ns ∧ u ∈ ns := by
  unfold insertNode
  rw [AMap.get?_set]
  by_cases h : id' = id
  · subst h
    rw [if_pos rfl]
    constructor
    · rintro ⟨ns, e, hu⟩
      cases e
      rcases NatSet.mem_insert.mp hu with rfl | hu
      · exact Or.inl ⟨rfl, rfl⟩
      · cases hm : m.get? id' with
        | none => rw [hm] at hu; cases hu
        | some ns => rw [hm] at hu; exact Or.inr ⟨ns, rfl, hu⟩
    · rintro (⟨_, rfl⟩ | ⟨ns, e, hu⟩)
      · exact ⟨_, rfl, NatSet.mem_insert.mpr (Or.inl rfl)⟩
      · exact ⟨_, rfl, NatSet.mem_insert.mpr (Or.inr (by rw [e]; exact hu))⟩
  · rw [if_neg (Ne.symm h)]
    constructor
    · intro hh; exact Or.inr hh
    · rintro (⟨e, _⟩ | hh)
      · exact absurd e h
      · exact hh

/-- The bus of the equivalent terminal is the bus of the node. -/
theorem nodesLoop_spec {vl : String} {g : Gr} (hg : Reached g) (hp : Placed g) {opened r : Nat → Bool} {c : Cache}
    (hc : compute vl .bus g opened r = .ok c) (ns : List Nat) :
    ∀ (m : AMap String (List Nat)), (∀ u ∈ ns, g.vertexAt u ≠ none) → ∃ m', nodesLoop g opened c ns m = .ok m' ∧
      ∀ id u, (∃ l, m'.get? id = some l ∧ u ∈ l) ↔
        (u ∈ ns ∧ c.getBus u = .ok (some id)) ∨ ∃ l, m.get? id = some l ∧ u ∈ l := by
  obtain ⟨c', e1, htot⟩ := compute_total vl hg .bus opened r
  rw [hc] at e1; cases e1
  induction ns with
  | nil => intro m _; exact ⟨m, rfl, by simp⟩
  | cons u ns ih =>
    intro m hns
    have hu := hns u (by simp)
    have hns' : ∀ x ∈ ns, g.vertexAt x ≠ none := fun x hx => hns x (by simp [hx])
    -- the effect of this iteration, once the bus of the node is known
    have hyes : ∀ id, c.getBus u = .ok (some id) → ∃ m', nodesLoop g opened c ns (insertNode m id u) = .ok m' ∧
        ∀ id u', (∃ l, m'.get? id = some l ∧ u' ∈ l) ↔
          (u' ∈ u :: ns ∧ c.getBus u' = .ok (some id)) ∨ ∃ l, m.get? id = some l ∧ u' ∈ l := by
      intro id hid
      obtain ⟨m', k1, k2⟩ := ih (insertNode m id u) hns'
      refine ⟨m', k1, fun id' u' => ?_⟩
      rw [k2, get?_insertNode]
      constructor
      · rintro (⟨h, h'⟩ | ⟨rfl, rfl⟩ | h)
        · exact Or.inl ⟨by simp [h], h'⟩
        · exact Or.inl ⟨by simp, hid⟩
        · exact Or.inr h
      · rintro (⟨h, h'⟩ | h)
        · rcases List.mem_cons.mp h with rfl | h
          · rw [hid] at h'; cases h'; exact Or.inr (Or.inl ⟨rfl, rfl⟩)
          · exact Or.inl ⟨h, h'⟩
        · exact Or.inr (Or.inr h)
    have hno : (∀ id, c.getBus u ≠ .ok (some id)) → ∃ m', nodesLoop g opened c ns m = .ok m' ∧
        ∀ id u', (∃ l, m'.get? id = some l ∧ u' ∈ l) ↔
          (u' ∈ u :: ns ∧ c.getBus u' = .ok (some id)) ∨ ∃ l, m.get? id = some l ∧ u' ∈ l := by
      intro hid
      obtain ⟨m', k1, k2⟩ := ih m hns'
      refine ⟨m', k1, fun id' u' => ?_⟩
      rw [k2]
      constructor
      · rintro (⟨h, h'⟩ | h)
        · exact Or.inl ⟨by simp [h], h'⟩
        · exact Or.inr h
      · rintro (⟨h, h'⟩ | h)
        · rcases List.mem_cons.mp h with rfl | h
          · exact absurd h' (hid id')
          · exact Or.inl ⟨h, h'⟩
        · exact Or.inr h
    unfold nodesLoop
    cases hv : g.vertexAt u with
    | none => exact absurd hv hu
    | some o =>
      cases o with
      | some t =>
        simp only []
        have ht : t.node = u := hp u t hv
        rw [ht]
        obtain ⟨b, hb⟩ := htot u hu
        rw [hb, Out.bind_ok]
        cases b with
        | some id => exact hyes id hb
        | none => exact hno (by intro id h; rw [hb] at h; cases h)
      | none =>
        simp only []
        obtain ⟨o, k1, k2, k3⟩ := equivalentTerminal_spec hg opened r hv
        rw [k1, Out.bind_ok]
        cases o with
        | none =>
          refine hno ?_
          intro id hid
          obtain ⟨hq, _⟩ := (same_bus_iff_busView hg hc u u).mp ⟨id, hid, hid⟩
          have k3' := k3 rfl
          rcases hq with ⟨x, y, hx, _, ⟨t, ht, _⟩, _⟩ | ⟨x, y, _, hx, _, ⟨t, ht, _⟩, _⟩
          · exact k3' x t hx ht
          · exact k3' x t hx ht
        | some t =>
          simp only []
          obtain ⟨x, hx, ht⟩ := k2 t rfl
          have hxt : t.node = x := hp x t ht
          rw [hxt]
          obtain ⟨b, hb⟩ := htot x (by rw [ht]; simp)
          rw [hb, Out.bind_ok]
          cases b with
          | some id =>
            refine hyes id ?_
            obtain ⟨hq, _⟩ := (same_bus_iff_busView hg hc x x).mp ⟨id, hb, hb⟩
            obtain ⟨id', q1, q2⟩ := (same_bus_iff_busView hg hc x u).mpr ⟨hq, hx.symm⟩
            rw [hb] at q1; cases q1; exact q2
          | none =>
            refine hno ?_
            intro id hid
            obtain ⟨hq, _⟩ := (same_bus_iff_busView hg hc u u).mp ⟨id, hid, hid⟩
            obtain ⟨id', q1, q2⟩ := (same_bus_iff_busView hg hc u x).mpr ⟨hq, hx⟩
            rw [hb] at q2; cases q2

/-- C53: on a voltage level whose bus view has been computed for the current topology, the call ends normally and lists
    under the id of a bus exactly the nodes whose class is that bus. -/
theorem nodes_by_bus_exact {id : String} {s : VL} (hr : VReach id s) {w : Nat} {c : Cache}
    (hc : compute s.id .bus s.graph (s.opened w) (s.retained w) = .ok c) :
    ∃ m, nodesByBus s.graph (s.opened w) c = .ok m ∧
      ∀ id u, (∃ l, m.get? id = some l ∧ u ∈ l) ↔
        OnBus s.id s.graph .bus (Passing .bus (s.opened w) (s.retained w)) u id := by
  have hi := hr.inv
  obtain ⟨m, k1, k2⟩ := nodesLoop_spec hi.g hi.placed hc (nodes s.graph) [] (by
    intro u hu
    exact Option.isSome_iff_ne_none.mp (List.mem_filter.mp hu).2)
  refine ⟨m, k1, fun id u => ?_⟩
  obtain ⟨c', h1, h2, h3, h4, h5, h6⟩ := compute_ok s.id hi.g .bus (s.opened w) (s.retained w)
  rw [hc] at h1; cases h1
  rw [k2, getBus_eq_some, h3]
  constructor
  · rintro (⟨_, h⟩ | ⟨l, h, _⟩)
    · exact h
    · cases h
  · intro h
    refine Or.inl ⟨?_, h⟩
    obtain ⟨⟨e, ed, he, hu⟩, _⟩ := h
    obtain ⟨d1, d2⟩ := edges_never_dangle hi.g he
    have hx : s.graph.vertexExists u = true := by
      rcases hu with rfl | rfl
      · exact d1
      · exact d2
    refine List.mem_filter.mpr ⟨List.mem_range.mpr (vertexAt_lt (Option.isSome_iff_ne_none.mp hx)), hx⟩

/-- C53: the sets are disjoint. -/
theorem nodes_by_bus_disjoint {id : String} {s : VL} (hr : VReach id s) {w : Nat} {c : Cache}
    (hc : compute s.id .bus s.graph (s.opened w) (s.retained w) = .ok c) {m : AMap String (List Nat)}
    (hm : nodesByBus s.graph (s.opened w) c = .ok m) {id1 id2 : String} {l1 l2 : List Nat} {u : Nat}
    (h1 : m.get? id1 = some l1) (h2 : m.get? id2 = some l2) (hu1 : u ∈ l1) (hu2 : u ∈ l2) : id1 = id2 := by
  have hi := hr.inv
  obtain ⟨m', k1, k2⟩ := nodesLoop_spec hi.g hi.placed hc (nodes s.graph) [] (by
    intro u hu
    exact Option.isSome_iff_ne_none.mp (List.mem_filter.mp hu).2)
  have : m' = m := by
    unfold nodesByBus at hm; rw [k1] at hm; exact Out.ok.inj hm
  subst this
  have q1 := (k2 id1 u).mp ⟨l1, h1, hu1⟩
  have q2 := (k2 id2 u).mp ⟨l2, h2, hu2⟩
  rcases q1 with ⟨_, q1⟩ | ⟨l, q1, _⟩
  · rcases q2 with ⟨_, q2⟩ | ⟨l, q2, _⟩
    · rw [q1] at q2; cases q2; rfl
    · cases q2
  · cases q1

/-- Busbar section 0, closed switch to the bare node 1, closed switch to the load 2, open switch to the bare node 3. -/
def vlNodes : VL :=
  let s := ((({ id := "VL" } : VL).attach (term 10 .busbarSection 0) false).2.attach (term 11 .load 2) false).2
  let s := (s.addSwitch true ⟨20, "B1", .breaker⟩ false false 0 1).2
  let s := (s.addSwitch true ⟨21, "B2", .breaker⟩ false false 1 2).2
  (s.addSwitch true ⟨22, "B3", .breaker⟩ true false 2 3).2

example : VReach "VL" vlNodes ∧
    ((compute "VL" .bus vlNodes.graph (vlNodes.opened 0) (vlNodes.retained 0)).bind
      (nodesByBus vlNodes.graph (vlNodes.opened 0))) = .ok [("VL_0", [0, 1, 2])] :=
  ⟨.step (.step (.step (.step (.step .init (a := .attach (term 10 .busbarSection 0) false) rfl)
    (a := .attach (term 11 .load 2) false) rfl) (a := .addSwitch true ⟨20, "B1", .breaker⟩ false false 0 1) rfl)
    (a := .addSwitch true ⟨21, "B2", .breaker⟩ false false 1 2) rfl)
    (a := .addSwitch true ⟨22, "B3", .breaker⟩ true false 2 3) rfl, by decide⟩

end Verif.NodeBreaker
