import Verif.NodeBreaker.LookupLemmas

/-!
C63: the switches of a node/breaker voltage level are found by their ids, with their nodes.  C64: listings and counts of a
node/breaker voltage level.
-/

namespace Verif.NodeBreaker

open Verif Verif.Graph

/-! ### C63 -/

/-- C63: after any history, a switch of the voltage level is found by its id, with its two nodes; an id that no switch of
    the voltage level has is not found and its nodes are refused.  No lookup ends with an "invalid switch id". -/
theorem switch_found {vl : String} {s : VL} (h : IdReach vl s) (id : String) :
    (∀ n1 n2 sw, HasSwitch s id n1 n2 sw →
      s.getSwitch id = .ok (some sw) ∧ s.getNode false id = .ok n1 ∧ s.getNode true id = .ok n2) ∧
    ((¬ ∃ n1 n2 sw, HasSwitch s id n1 n2 sw) →
      (id ≠ "" → s.getSwitch id = .ok none) ∧ s.getNode false id = .thrown ∧ s.getNode true id = .thrown) ∧
    (id = "" → s.getSwitch id = .thrown) := by
  have hi := h.sw
  refine ⟨?_, ?_, ?_⟩
  · rintro n1 n2 sw ⟨rfl, e, he⟩
    have h1 := hi.complete e n1 n2 sw he
    have h2 := hi.named e n1 n2 sw he
    unfold VL.getSwitch VL.getNode VL.getEdge edgeObject vertexOf
    simp [h1, h2, he, Out.bind]
  · intro hn
    have h1 : s.switches.get? id = none := by
      cases hg : s.switches.get? id with
      | none => rfl
      | some e =>
        obtain ⟨n1, n2, sw, q1, q2⟩ := hi.sound id e hg
        exact absurd ⟨n1, n2, sw, q2, e, q1⟩ hn
    unfold VL.getSwitch VL.getNode VL.getEdge
    by_cases hid : id = ""
    · simp [hid, Out.bind]
    · simp [h1, hid, Out.bind]
  · rintro rfl; rfl

/-- C63: the exact change made by a call: a switch added by `addSwitch` is between the nodes given, a switch removed by
    `removeSwitch` is gone, all the others stay as they are, and no other call changes anything. -/
theorem switches_change {vl : String} {s s' : VL} (h : IdReach vl s) {a : Act} (hreg : Reg s a) (hr : Run s a s')
    (id : String) (n1 n2 : Nat) (sw : Sw) : HasSwitch s' id n1 n2 sw ↔ After s a id n1 n2 sw :=
  (step_sw h.reach.inv h.sw hreg hr).2 id n1 n2 sw

/-- C63: no two switches of the voltage level share an id. -/
theorem switch_unique {vl : String} {s : VL} (h : IdReach vl s) {id : String} {n1 n2 m1 m2 : Nat} {sw sw' : Sw}
    (h1 : HasSwitch s id n1 n2 sw) (h2 : HasSwitch s id m1 m2 sw') : n1 = m1 ∧ n2 = m2 ∧ sw = sw' := by
  have hi := h.sw
  obtain ⟨rfl, e, he⟩ := h1
  obtain ⟨hid, e', he'⟩ := h2
  have q1 := hi.complete e n1 n2 sw he
  have q2 := hi.complete e' m1 m2 sw' he'
  rw [hid, q1] at q2
  cases q2
  rw [he] at he'
  cases he'
  exact ⟨rfl, rfl, rfl⟩

/-- C63: the terminals at the ends of a switch are those on its nodes. -/
theorem switch_terminals {vl : String} {s : VL} (h : IdReach vl s) {id : String} {n1 n2 : Nat} {sw : Sw}
    (hs : HasSwitch s id n1 n2 sw) :
    s.getTerminalOf false id = .ok (occupant s.graph n1) ∧ s.getTerminalOf true id = .ok (occupant s.graph n2) := by
  obtain ⟨_, h1, h2⟩ := (switch_found h id).1 n1 n2 sw hs
  obtain ⟨_, e, he⟩ := hs
  obtain ⟨k1, k2⟩ := h.reach.inv.g.wf.ends e _ he
  unfold VL.getTerminalOf
  rw [h1, h2, Out.bind_ok, Out.bind_ok]
  unfold VL.getTerminal occupant
  constructor
  · cases hv : s.graph.vertexAt n1 with
    | none => exact absurd hv k1
    | some o => rfl
  · cases hv : s.graph.vertexAt n2 with
    | none => exact absurd hv k2
    | some o => rfl

/-- C63: the bus/breaker view gives the retained switches of the working variant only. -/
theorem retained_switch_found {vl : String} {s : VL} (h : IdReach vl s) (w : Nat) (id : String) :
    (∀ n1 n2 sw, HasSwitch s id n1 n2 sw → s.retained w sw.handle = true → s.bbvGetSwitch w id = .ok (some sw)) ∧
    ((¬ ∃ n1 n2 sw, HasSwitch s id n1 n2 sw ∧ s.retained w sw.handle = true) → s.bbvGetSwitch w id = .thrown) := by
  have hi := h.sw
  constructor
  · rintro n1 n2 sw ⟨rfl, e, he⟩ hr
    have h1 := hi.complete e n1 n2 sw he
    have h2 := hi.named e n1 n2 sw he
    unfold VL.bbvGetSwitch VL.getRetainedSwitch VL.getEdge edgeObject
    simp [h1, h2, he, hr, Out.bind]
  · intro hn
    unfold VL.bbvGetSwitch VL.getEdge
    by_cases hid : id = ""
    · simp [hid, Out.bind]
    · cases hg : s.switches.get? id with
      | none => simp [hid, Out.bind, VL.getRetainedSwitch]
      | some e =>
        obtain ⟨n1, n2, sw, q1, q2⟩ := hi.sound id e hg
        have : s.retained w sw.handle = false := by
          cases hr : s.retained w sw.handle with
          | false => rfl
          | true => exact absurd ⟨n1, n2, sw, ⟨q2, e, q1⟩, hr⟩ hn
        simp [hid, Out.bind, VL.getRetainedSwitch, edgeObject, q1, this]

/-- C63: `getBus1` and `getBus2` of the bus/breaker view are the buses of the end nodes for a retained switch, and throw
    for every other id. -/
theorem retained_switch_buses {vl : String} {s : VL} (h : IdReach vl s) (w : Nat) (id : String) :
    (∀ n1 n2 sw, HasSwitch s id n1 n2 sw → s.retained w sw.handle = true →
      s.bbvGetBusOf false w id = s.getBus .busBreaker w n1 ∧ s.bbvGetBusOf true w id = s.getBus .busBreaker w n2) ∧
    ((¬ ∃ n1 n2 sw, HasSwitch s id n1 n2 sw ∧ s.retained w sw.handle = true) →
      ∀ second, s.bbvGetBusOf second w id = (.thrown, s)) := by
  have hi := h.sw
  constructor
  · rintro n1 n2 sw ⟨rfl, e, he⟩ hr
    have h1 := hi.complete e n1 n2 sw he
    have h2 := hi.named e n1 n2 sw he
    unfold VL.bbvGetBusOf VL.getRetainedSwitch VL.getEdge edgeObject vertexOf
    simp [h1, h2, he, hr, Out.bind]
  · intro hn second
    unfold VL.bbvGetBusOf VL.getEdge
    by_cases hid : id = ""
    · simp [hid]
    · cases hg : s.switches.get? id with
      | none => simp [hid]
      | some e =>
        obtain ⟨n1, n2, sw, q1, q2⟩ := hi.sound id e hg
        have : s.retained w sw.handle = false := by
          cases hr : s.retained w sw.handle with
          | false => rfl
          | true => exact absurd ⟨n1, n2, sw, ⟨q2, e, q1⟩, hr⟩ hn
        simp [hid, Out.bind, VL.getRetainedSwitch, edgeObject, q1, this]

/-! Sample: switch B1 0-1 (retained), internal connection 1-2, switch B2 2-5, load on 5; then B1 removed and added again
    elsewhere under the same id. -/

def vlSw : VL :=
  let s := (({ id := "VL" } : VL).attach (term 11 .load 5) false).2
  let s := (s.addSwitch true ⟨20, "B1", .breaker⟩ false true 0 1).2
  let s := (s.addInternalConnection 0 1 2).2
  let s := (s.addSwitch true ⟨21, "B2", .disconnector⟩ true false 2 5).2
  let s := (s.removeSwitch "B1").2
  (s.addSwitch true ⟨22, "B1", .breaker⟩ false true 7 5).2

theorem noSwitch {s : VL} {id : String} (h : ((s.graph.edges.filterMap (fun o => o.bind Edge.obj)).any (fun sw => sw.id = id)) = false) :
    ¬ ∃ n1 n2 sw, HasSwitch s id n1 n2 sw := by
  rintro ⟨n1, n2, sw, h1, e, h2⟩
  have hm := mem_edges_iff.mpr ⟨e, h2⟩
  have : (s.graph.edges.filterMap (fun o => o.bind Edge.obj)).any (fun sw => sw.id = id) = true := by
    rw [List.any_eq_true]
    exact ⟨sw, List.mem_filterMap.mpr ⟨_, hm, rfl⟩, by simp [h1]⟩
  rw [this] at h; cases h

theorem vlSw_reach : IdReach "VL" vlSw := by
  refine .step (a := .addSwitch true ⟨22, "B1", .breaker⟩ false true 7 5) (.step (a := .removeSwitch "B1")
    (.step (a := .addSwitch true ⟨21, "B2", .disconnector⟩ true false 2 5) (.step (a := .addInternalConnection 0 1 2)
    (.step (a := .addSwitch true ⟨20, "B1", .breaker⟩ false true 0 1)
    (.step (a := .attach (term 11 .load 5) false) .init trivial rfl) ?_ rfl) trivial rfl) ?_ rfl) trivial rfl) ?_ rfl
  all_goals exact fun _ => ⟨by decide, noSwitch (by decide)⟩

example : vlSw.getNode false "B1" = .ok 7 ∧ vlSw.getNode true "B1" = .ok 5 ∧ vlSw.getNode false "B2" = .ok 2 ∧
    vlSw.getSwitch "B1" = .ok (some ⟨22, "B1", .breaker⟩) ∧ vlSw.getSwitch "B3" = .ok none ∧
    vlSw.getTerminalOf true "B2" = .ok (some (term 11 .load 5)) ∧ vlSw.bbvGetSwitch 0 "B2" = .thrown ∧
    (vlSw.bbvGetBusOf true 0 "B1").1 = .ok (some "VL_5") := by decide

example : HasSwitch vlSw "B1" 7 5 ⟨22, "B1", .breaker⟩ ∧ HasSwitch vlSw "B2" 2 5 ⟨21, "B2", .disconnector⟩ :=
  ⟨⟨rfl, 0, by decide⟩, ⟨rfl, 2, by decide⟩⟩

/-! ### C64 -/

theorem edgeObjects_mem {g : Gr} {o : Option Sw} : o ∈ edgeObjects g ↔ ∃ e n1 n2, g.edgeAt e = some ⟨n1, n2, o⟩ := by
  unfold edgeObjects
  rw [List.mem_map]
  constructor
  · rintro ⟨ed, h1, rfl⟩
    obtain ⟨o', h2, h3⟩ := List.mem_filterMap.mp h1
    cases h3
    obtain ⟨e, he⟩ := mem_edges_iff.mp h2
    exact ⟨e, ed.v1, ed.v2, he⟩
  · rintro ⟨e, n1, n2, he⟩
    exact ⟨_, List.mem_filterMap.mpr ⟨_, mem_edges_iff.mpr ⟨e, he⟩, rfl⟩, rfl⟩

theorem ids_nodup {s : VL} (hi : SwInv s) : ((edgeObjects s.graph).filterMap _root_.id).map Sw.id |>.Nodup := by
  have e : ((edgeObjects s.graph).filterMap _root_.id) = s.graph.edges.filterMap (fun o => o.bind Edge.obj) := by
    unfold edgeObjects
    rw [List.filterMap_map, List.filterMap_filterMap]
    rfl
  rw [e]
  show List.Pairwise _ _
  rw [List.pairwise_map, List.pairwise_filterMap, List.pairwise_iff_getElem]
  intro i j hli hlj hij sw hsw sw' hsw'
  have look : ∀ k (hk : k < s.graph.edges.length) x, s.graph.edges[k].bind Edge.obj = some x →
      ∃ n1 n2, s.graph.edgeAt k = some ⟨n1, n2, some x⟩ := by
    intro k hk x hx
    unfold G.edgeAt
    rw [List.getElem?_eq_getElem hk]
    cases hed : s.graph.edges[k] with
    | none => rw [hed] at hx; cases hx
    | some ed =>
      rw [hed] at hx
      have : ed.obj = some x := hx
      exact ⟨ed.v1, ed.v2, by rw [← this]; rfl⟩
  obtain ⟨a1, a2, ha⟩ := look i hli sw hsw
  obtain ⟨b1, b2, hb⟩ := look j hlj sw' hsw'
  intro hid
  have q1 := hi.complete i _ _ _ ha
  have q2 := hi.complete j _ _ _ hb
  rw [hid, q2] at q1
  cases q1
  omega

theorem countP_isSome {α : Type} (l : List (Option α)) : l.countP Option.isSome = (l.filterMap _root_.id).length := by
  induction l with
  | nil => rfl
  | cons o l ih => cases o <;> simp [ih]

/-- C64: the switches listed by the voltage level are exactly its switches, each once, and the count is their number. -/
theorem switch_listing {vl : String} {s : VL} (h : IdReach vl s) :
    (∀ sw, sw ∈ s.getSwitches ↔ ∃ n1 n2, HasSwitch s sw.id n1 n2 sw) ∧ (s.getSwitches.map Sw.id).Nodup ∧
      s.getSwitchCount = s.getSwitches.length := by
  refine ⟨?_, ids_nodup h.sw, countP_isSome _⟩
  intro sw
  unfold VL.getSwitches
  rw [List.mem_filterMap]
  constructor
  · rintro ⟨o, h1, h2⟩
    have : o = some sw := h2
    subst this
    obtain ⟨e, n1, n2, he⟩ := edgeObjects_mem.mp h1
    exact ⟨n1, n2, rfl, e, he⟩
  · rintro ⟨n1, n2, _, e, he⟩
    exact ⟨some sw, edgeObjects_mem.mpr ⟨e, n1, n2, he⟩, rfl⟩

theorem filter_retained (f : Nat → Bool) (l : List (Option Sw)) :
    (l.filter (fun o => match o with | some sw => f sw.handle | none => false)).filterMap _root_.id =
      (l.filterMap _root_.id).filter (fun sw => f sw.handle) := by
  induction l with
  | nil => rfl
  | cons o l ih =>
    cases o with
    | none => simpa using ih
    | some sw =>
      cases hf : f sw.handle with
      | true => simp [hf, ih]
      | false => simp [hf, ih]

theorem countP_retained (f : Nat → Bool) (l : List (Option Sw)) :
    l.countP (fun o => match o with | some sw => f sw.handle | none => false) =
      ((l.filterMap _root_.id).filter (fun sw => f sw.handle)).length := by
  induction l with
  | nil => rfl
  | cons o l ih =>
    cases o with
    | none => simpa using ih
    | some sw =>
      cases hf : f sw.handle with
      | true => simp [hf, ih]
      | false => simp [hf, ih]

/-- C64: the switches listed by the bus/breaker view in a variant are exactly those retained in this variant, each once,
    and the count is their number. -/
theorem retained_switch_listing {vl : String} {s : VL} (h : IdReach vl s) (w : Nat) :
    (∀ sw, sw ∈ s.bbvGetSwitches w ↔ (∃ n1 n2, HasSwitch s sw.id n1 n2 sw) ∧ s.retained w sw.handle = true) ∧
      ((s.bbvGetSwitches w).map Sw.id).Nodup ∧ s.bbvGetSwitchCount w = (s.bbvGetSwitches w).length := by
  obtain ⟨h1, h2, _⟩ := switch_listing h
  have e : s.bbvGetSwitches w = s.getSwitches.filter (fun sw => s.retained w sw.handle) := filter_retained _ _
  refine ⟨?_, ?_, ?_⟩
  · intro sw
    rw [e, List.mem_filter, h1]
  · rw [e]
    exact h2.sublist (List.filter_sublist.map _)
  · rw [e]; exact countP_retained _ _

/-- C64: the internal connections listed are the pairs of nodes of the edges without switch, as many as the count says;
    switches and internal connections together are all the edges. -/
theorem internal_connection_listing {vl : String} {s : VL} (h : IdReach vl s) :
    (∀ n1 n2, (n1, n2) ∈ s.getInternalConnections ↔ ∃ e, s.graph.edgeAt e = some ⟨n1, n2, none⟩) ∧
      s.getInternalConnectionCount = s.getInternalConnections.length ∧
      s.getSwitchCount + s.getInternalConnectionCount = s.graph.edgeCount := by
  refine ⟨?_, ?_, ?_⟩
  · intro n1 n2
    unfold VL.getInternalConnections
    rw [List.mem_map]
    constructor
    · rintro ⟨ed, h1, h2⟩
      rw [List.mem_filter] at h1
      obtain ⟨o, h3, h4⟩ := List.mem_filterMap.mp h1.1
      cases h4
      obtain ⟨e, he⟩ := mem_edges_iff.mp h3
      refine ⟨e, ?_⟩
      obtain ⟨v1, v2, obj⟩ := ed
      cases h2
      have : obj = none := by simpa using h1.2
      rw [he, this]
    · rintro ⟨e, he⟩
      exact ⟨_, List.mem_filter.mpr ⟨List.mem_filterMap.mpr ⟨_, mem_edges_iff.mpr ⟨e, he⟩, rfl⟩, rfl⟩, rfl⟩
  · unfold VL.getInternalConnectionCount VL.getInternalConnections edgeObjects
    rw [List.length_map, List.countP_map, List.countP_eq_length_filter]
    rfl
  · unfold VL.getSwitchCount VL.getInternalConnectionCount
    have h1 : ∀ l : List (Option Sw), l.countP Option.isSome + l.countP Option.isNone = l.length := by
      intro l
      induction l with
      | nil => rfl
      | cons o l ih => cases o <;> simp <;> omega
    rw [h1]
    unfold edgeObjects
    rw [List.length_map]
    obtain ⟨_, L, l1, l2, l3⟩ := counts_exact h.reach.inv.g
    have hf := h.reach.inv.g.wf.fe
    -- the slots that are not free
    have h2 : (s.graph.edges.filterMap _root_.id).length = L.length := by
      have e1 : L.Perm ((List.range s.graph.edges.length).filter (fun i => (s.graph.edgeAt i).isSome)) := by
        refine (List.perm_ext_iff_of_nodup l1 (List.nodup_range.filter _)).mpr ?_
        intro i
        rw [l2, List.mem_filter, List.mem_range, Option.isSome_iff_ne_none]
        exact ⟨fun q => ⟨edgeAt_lt q, q⟩, fun q => q.2⟩
      rw [e1.length_eq]
      have : ∀ l : List (Option (Edge Sw)), (l.filterMap _root_.id).length =
          ((List.range l.length).filter (fun i => ((l[i]?).join).isSome)).length := by
        intro l
        induction l with
        | nil => rfl
        | cons o l ih =>
          rw [List.length_cons, List.range_succ_eq_map, List.filter_cons, List.filter_map, ]
          cases o with
          | none =>
            simp only [List.filterMap_cons, _root_.id]
            simpa [Function.comp_def] using ih
          | some ed =>
            simp only [List.filterMap_cons, _root_.id, List.length_cons]
            simpa [Function.comp_def] using ih
      exact this s.graph.edges
    rw [h2, l3]

/-- C64: `getMaximumNodeIndex` is the greatest node of the voltage level, -1 when it has none. -/
theorem maximum_node {vl : String} {s : VL} (h : VReach vl s) :
    ((∀ n, s.graph.vertexAt n = none) → s.getMaximumNodeIndex = -1) ∧
    ((∃ n, s.graph.vertexAt n ≠ none) → ∃ m : Nat, s.getMaximumNodeIndex = m ∧ s.graph.vertexAt m ≠ none ∧
      ∀ n, s.graph.vertexAt n ≠ none → n ≤ m) := by
  have hl := h.inv.g.wf.last
  unfold VL.getMaximumNodeIndex
  cases hv : s.graph.vertices with
  | nil =>
    refine ⟨fun _ => rfl, ?_⟩
    rintro ⟨n, hn⟩
    have := vertexAt_lt hn
    rw [hv] at this; cases this
  | cons x xs =>
    have hne : s.graph.vertices ≠ [] := by rw [hv]; simp
    have hlast := hl hne
    rw [hv] at hlast
    refine ⟨fun hall => absurd (hall _) hlast, fun _ => ⟨(x :: xs).length - 1, ?_, hlast, ?_⟩⟩
    · simp
    · intro n hn
      have := vertexAt_lt hn
      rw [hv] at this
      omega

/-- C64: `getTerminal` answers for exactly the nodes of the voltage level, with the terminal on the node if any;
    `getOptionalTerminal` answers nothing for the others. -/
theorem terminal_of_node (s : VL) (node : Nat) :
    (s.graph.vertexAt node ≠ none → s.getTerminal node = .ok (occupant s.graph node) ∧
      s.getOptionalTerminal node = .ok (occupant s.graph node)) ∧
    (s.graph.vertexAt node = none → s.getTerminal node = .thrown ∧ s.getOptionalTerminal node = .ok none) := by
  unfold VL.getOptionalTerminal VL.getTerminal occupant G.vertexExists
  cases hv : s.graph.vertexAt node with
  | none => exact ⟨fun hh => absurd rfl hh, fun _ => ⟨rfl, rfl⟩⟩
  | some o => exact ⟨fun _ => ⟨rfl, rfl⟩, nofun⟩

/-- C64: the terminals listed are exactly those on the nodes. -/
theorem terminal_listing (s : VL) (t : Term) : t ∈ s.getTerminals ↔ ∃ node, occupant s.graph node = some t := by
  unfold VL.getTerminals occupant G.vertexAt
  rw [List.mem_filterMap]
  constructor
  · rintro ⟨o, h1, h2⟩
    have : o = some t := h2
    subst this
    obtain ⟨o', h3, h4⟩ := List.mem_filterMap.mp h1
    have : o' = some (some t) := h4
    subst this
    obtain ⟨i, hi, he⟩ := List.mem_iff_getElem.mp h3
    exact ⟨i, by rw [List.getElem?_eq_getElem hi, he]; rfl⟩
  · rintro ⟨n, hn⟩
    refine ⟨some t, List.mem_filterMap.mpr ⟨some (some t), ?_, rfl⟩, rfl⟩
    cases hg : s.graph.vertices[n]? with
    | none => rw [hg] at hn; cases hn
    | some o =>
      rw [hg] at hn
      have : o.join = some t := hn
      cases o with
      | none => cases this
      | some o =>
        have : o = some t := this
        subst this
        exact List.mem_of_getElem? hg

example : vlSw.getSwitches.map Sw.id = ["B1", "B2"] ∧ vlSw.getSwitchCount = 2 ∧ (vlSw.bbvGetSwitches 0).map Sw.id = ["B1"] ∧
    vlSw.bbvGetSwitchCount 0 = 1 ∧ vlSw.getInternalConnections = [(1, 2)] ∧ vlSw.getInternalConnectionCount = 1 ∧
    vlSw.getMaximumNodeIndex = 7 ∧ vlSw.getTerminals = [term 11 .load 5] := by decide

/-- Finding (C64): `hasAttachedEquipment` is true for a node that only a switch or an internal connection uses. -/
theorem attached_without_equipment :
    ∃ s, IdReach "VL" s ∧ ∃ n, s.hasAttachedEquipment n = true ∧ s.getTerminal n = .ok none :=
  ⟨vlSw, vlSw_reach, 7, by decide, by decide⟩

/-- C64: every node with equipment says so.  Missing for the full property: the converse, see
    `attached_without_equipment`. -/
theorem attached_equipment_partial (s : VL) (node : Nat) {t : Term} (h : occupant s.graph node = some t) :
    s.hasAttachedEquipment node = true := by
  unfold VL.hasAttachedEquipment G.vertexExists
  rw [vertexAt_of_occ h]; rfl

end Verif.NodeBreaker
