import Verif.Coarse.Lemmas

/-!
C89: a network exported at a coarser level of topology is read back as its view at this level.
-/

namespace Verif.Coarse

open Verif Verif.Xml Verif.XmlNet

/-! ### Levels -/

/-- **C89** (`getMinTopologyLevel`, `getTopologyKind`) A voltage level is exported at the level that is asked, or at its own if it is coarser: never at a finer one than
either; and it is left as it is exactly when `Whole` says so. -/
theorem exported_level (node : Bool) (L : Level) :
    L.rank ≤ (minLevel node L).rank ∧ (if node then Level.nodeBreaker else .busBreaker).rank ≤ (minLevel node L).rank ∧
      (minLevel node L = L ∨ minLevel node L = if node then .nodeBreaker else .busBreaker) ∧
      (minLevel node L = (if node then .nodeBreaker else .busBreaker) ↔ Whole L node) ∧
      (kindOf (minLevel node L) = 0 ↔ node = true ∧ L = .nodeBreaker) := by
  cases L <;> cases node <;> simp [minLevel, Level.rank, Whole, kindOf]

/-! ### Terminals -/

/-- **C89** The place that is looked for is the one where the terminal sits at the level. -/
theorem terminal_at_level {L : Level} {W : Views} {vl : String} {p q : Place} : located L W vl p = some q ↔ Sits L W vl p q := by
  cases L with
  | nodeBreaker => cases p <;> simp [located, isNode, minLevel, Level.rank, Sits, eq_comm, onBus, breakerBus, breakerConnectable]
    <;> (rename_i b c; cases c <;> simp)
  | busBreaker =>
    cases p with
    | node n => simp [located, isNode, minLevel, Level.rank, Sits, onBus_iff, breakerBus, breakerConnectable, OnView]
    | bus b c => cases c <;> simp [located, isNode, minLevel, Level.rank, Sits, onBus, breakerBus, breakerConnectable, eq_comm]
  | busBranch => cases p <;> simp [located, isNode, minLevel, Level.rank, Sits, onBus_iff, OnView]

theorem attrs_of_onBus {K : XCodec} {A : Anon} {s : String} {b c : Option String} {q : Place} (h : onBus b c = some q) : writeBusAttrs A s b c = placeAttrs K A s q := by
  obtain ⟨x, rfl, ⟨rfl, rfl⟩ | ⟨rfl, rfl⟩⟩ := onBus_iff.1 h <;> simp [writeBusAttrs, placeAttrs]

/-- **C89** (`writeNodeOrBus`) The attributes that are written for a terminal are those of the place where it sits at the level: its node or bus, the bus of the view that
it is on, or only the one that it can be connected to. -/
theorem terminal_attributes {K : XCodec} {A : Anon} {L : Level} {W : Views} {s vl : String} {p q : Place} (h : Sits L W vl p q) : nodeOrBus K A L W s vl p = placeAttrs K A s q := by
  have h := terminal_at_level.2 h
  unfold located at h
  unfold nodeOrBus
  cases hm : minLevel (isNode p) L with
  | nodeBreaker => rw [hm] at h; cases h; rfl
  | busBreaker => rw [hm] at h; exact attrs_of_onBus h
  | busBranch => rw [hm] at h; exact attrs_of_onBus h

example : Sits .busBranch ⟨fun _ => ⟨[], [], fun _ => none, fun _ => none⟩, fun _ => ⟨[], [], fun p => if p = .node 3 then some "V_0" else none, fun _ => some "V_0"⟩⟩ "V" (.node 3) (.bus "V_0" true) ∧
    Sits .busBranch ⟨fun _ => ⟨[], [], fun _ => none, fun _ => none⟩, fun _ => ⟨[], [], fun p => if p = .node 3 then some "V_0" else none, fun _ => some "V_0"⟩⟩ "V" (.node 4) (.bus "V_0" false) :=
  ⟨⟨"V_0", rfl, .inl ⟨rfl, rfl⟩⟩, ⟨"V_0", rfl, .inr ⟨rfl, rfl⟩⟩⟩

/-- **C89** A network is written as a whole exactly when each of its terminals sits somewhere at the level. -/
theorem written_iff_located {T : Type} {K : XCodec} {A : Anon} {D : Dates T} {L : Level} {W : Views} {x : Net T} :
    writeNetAt K A D L W x ≠ none ↔ ∀ vl p, Sided x vl p → ∃ q, Sits L W vl p q := by
  have e : ((netEnds x).all fun e => (located L W e.vl e.place).isSome) = true ↔ ∀ vl p, Sided x vl p → ∃ q, Sits L W vl p q := by
    rw [List.all_eq_true]
    constructor
    · intro h vl p hp
      obtain ⟨e, he, rfl, rfl⟩ := mem_netEnds.2 hp
      obtain ⟨q, hq⟩ := Option.isSome_iff_exists.1 (h e he)
      exact ⟨q, terminal_at_level.1 hq⟩
    · intro h e he
      obtain ⟨q, hq⟩ := h _ _ (mem_netEnds.1 ⟨e, he, rfl, rfl⟩)
      rw [terminal_at_level.2 hq]
      rfl
  rw [← e]
  unfold writeNetAt
  split
  · rename_i h; simp [h]
  · rename_i h; simp [h]

/-- **C89, violation** (`AbstractConnectableXml.hxx` l. 139-147) A terminal without a bus in the view is written without any attribute of place, and its equipment cannot be
read: the import throws, whatever the equipment. -/
theorem nowhere_refused {K : XCodec} {A : Anon} {L : Level} {W : Views} {s vl : String} {p : Place} (hw : ¬ Whole L (isNode p))
    (hb : (match L with | .busBranch => W.branch vl | _ => W.breaker vl).bus p = none) (hc : (match L with | .busBranch => W.branch vl | _ => W.breaker vl).connectable p = none) :
    nodeOrBus K A L W s vl p = [] ∧ ∀ (n : String) (as : List (String × String)) (e : Bool) (rest : List Tok), (∀ k, k ∈ ["node" ++ s, "bus" ++ s, "connectableBus" ++ s] → lookup k as = none) →
      (s = "" → readPlace K A (.start n as e :: rest) = .thrown) ∧
      (lookup ("voltageLevelId" ++ s) as = some (A.anon vl) → A.Inverts vl → readBranchPlace K A s (.start n as e :: rest) = .thrown ∧ readLegPlace K A s (.start n as e :: rest) = .thrown) := by
  refine ⟨?_, fun n as e rest hk => ?_⟩
  · cases L with
    | nodeBreaker => exact absurd trivial hw
    | busBreaker =>
      cases p with
      | bus b c => exact absurd rfl hw
      | node m =>
        simp only at hb hc
        simp [nodeOrBus, minLevel, isNode, Level.rank, breakerBus, breakerConnectable, hb, hc, writeBusAttrs]
    | busBranch =>
      simp only at hb hc
      cases p <;> simp [nodeOrBus, minLevel, isNode, Level.rank, hb, hc, writeBusAttrs]
  · have h1 := hk ("node" ++ s) (by simp)
    have h2 := hk ("bus" ++ s) (by simp)
    have h3 := hk ("connectableBus" ++ s) (by simp)
    constructor
    · rintro rfl
      simp only [String.append_empty] at h1 h2 h3
      simp [readPlace, optName, optS, optN, rawAttr, h1, h2, h3, Adders.build, Adders.connectionBus]
    · intro hv hi
      have hi : A.dean (A.anon vl) = .ok vl := hi
      constructor
      · simp [readBranchPlace, optName, optS, optInt, getS, rawAttr, h1, h2, h3, hv, hi, Adders.build, Adders.connectionBus]
      · simp [readLegPlace, optName, optS, optN, getS, rawAttr, h1, h2, h3, hv, hi, Adders.build, Adders.connectionBus]

/-! ### Switches -/

/-- **C89** (`BusBreakerViewSwitchXml.cpp`) A switch of the view is read back between the same buses, with the same state; its kind is not read. -/
theorem view_switch_round_trip {A : Anon} {x : VSw} (h : BSwOk A x.plain) (hk : x.kind < Enums.switchKind.names.length) : ElemRT "switch" (writeVSw A x) (readBSw A) x.plain := by
  obtain ⟨k, hk1, _⟩ := Enums.value_round_trip (names := Enums.switchKind.names) (by decide) hk
  have hw : writeVSw A x = .ok (writeElem A "switch" x.ident (bswAttrs A k x.plain) []) := by
    simp only [writeVSw, hk1, Out.monad_bind_ok]
    rfl
  rw [hw]
  refine readElem_ert (x := x.plain.ident) (a := (x.opened, x.bus1, x.bus2)) h.ident ⟨by simp [bswAttrs, swAttrs, lookup_append, lookup_cons, lookup_nil, lookup_attrB],
    by simp [bswAttrs, swAttrs, lookup_append, lookup_cons, lookup_nil, lookup_attrB]⟩ (by decide) rfl rfl (fun e tl => ?_) (body_nil _ _ _ _) rfl
  have h1 : A.dean (A.anon x.bus1) = .ok x.bus1 := h.bus1.2
  have h2 : A.dean (A.anon x.bus2) = .ok x.bus2 := h.bus2.2
  have h3 : x.bus1 ≠ "" := h.bus1.1
  have h4 : x.bus2 ≠ "" := h.bus2.1
  unfold readBSwRoot
  rw [getB_attr (b := x.opened) (by simp [bswAttrs, swAttrs, lookup_append, lookup_cons, lookup_attrB, lookup_headAttrs, VSw.plain]),
    getS_attr (v := A.anon x.bus1) (by simp [bswAttrs, swAttrs, lookup_append, lookup_cons, lookup_attrB, lookup_headAttrs, VSw.plain]),
    getS_attr (v := A.anon x.bus2) (by simp [bswAttrs, swAttrs, lookup_append, lookup_cons, lookup_attrB, lookup_headAttrs, VSw.plain])]
  simp only [Out.monad_bind_ok, h1, h2, beq_eq_false_iff_ne.2 h3, beq_eq_false_iff_ne.2 h4, check_false]

def someVSw : VSw := ⟨⟨⟨"S", "coupler", false⟩, [], []⟩, 1, true, "B", "B2"⟩

theorem someVSw_read : ElemRT "switch" (writeVSw Anon.none someVSw) (readBSw Anon.none) someBSw := view_switch_round_trip (x := someVSw) someBSw_ok (by decide)

/-- **C89, violation** (`BusBreakerViewSwitchXml.cpp` l. 32-44) The kind of a retained switch is written and lost: a disconnector and a breaker that differ by nothing else are
written in two ways, and read back as the same switch. -/
theorem kind_lost {A : Anon} {x : VSw} (h : BSwOk A x.plain) : writeVSw A { x with kind := 0 } ≠ writeVSw A { x with kind := 1 } ∧
    ElemRT "switch" (writeVSw A { x with kind := 0 }) (readBSw A) x.plain ∧ ElemRT "switch" (writeVSw A { x with kind := 1 }) (readBSw A) x.plain := by
  refine ⟨fun e => ?_, view_switch_round_trip (x := { x with kind := 0 }) h (show 0 < Enums.switchKind.names.length by decide),
    view_switch_round_trip (x := { x with kind := 1 }) h (show 1 < Enums.switchKind.names.length by decide)⟩
  have h0 : Enums.toString Enums.switchKind.names 0 = .ok "BREAKER" := by decide
  have h1 : Enums.toString Enums.switchKind.names 1 = .ok "DISCONNECTOR" := by decide
  simp [writeVSw, h0, h1, writeElem, elemCmds, attrCmds, swAttrs] at e

example : BSwOk Anon.none someVSw.plain := someBSw_ok

/-! ### Voltage levels, substations, networks -/

/-- The kinds of the switches are enumerators. -/
def KindsOk {T : Type} (L : Level) (W : Views) (x : Net T) : Prop := ∀ v ∈ levels x, ∀ w, viewAt L W v = some w → ∀ s ∈ w.sws, s.kind < Enums.switchKind.enumerators.length

section levels
variable {T : Type} {K : XCodec} (hK : K.Integers) {A : Anon} {L : Level} {W : Views} {f : String → Place → Place} {x : Net T}
  (hs : ∀ vl p, Sided x vl p → Sits L W vl p (f vl p)) (hk : KindsOk L W x)
include hs

theorem placed_eq : ∀ vl p, Sided x vl p → placed L W vl p = f vl p := by
  intro vl p hp
  unfold placed
  rw [terminal_at_level.2 (hs vl p hp)]
  rfl

include hK hk

/-- **C89** A voltage level is read back with the topology of its view, its equipment on the buses of the view, and everything else as it was. -/
theorem voltage_level_at_level {s : Substation} (hm : s ∈ x.subs) {v : VL} (hv : v ∈ s.vls) (h : VLOk K A (vlAt L W f v)) :
    ElemRT "voltageLevel" (writeVLAt K A L W v) (readVL K A) (vlAt L W f v) := by
  have hkind : (vlAt L W f v).topo.kind = kindOf (minLevel v.topo.isNode L) := by
    obtain ⟨i, nv, lo, hi, topo, eq⟩ := v
    cases L <;> cases topo <;> rfl
  have hlt : (vlAt L W f v).topo.kind < Enums.topologyKind.names.length := by
    cases (vlAt L W f v).topo
    · exact (by decide : 0 < Enums.topologyKind.names.length)
    · exact (by decide : 1 < Enums.topologyKind.names.length)
  obtain ⟨k, hk1, hk2⟩ := Enums.value_round_trip (names := Enums.topologyKind.names) (by decide) hlt
  rw [hkind] at hk1
  obtain ⟨ct, wt, bt⟩ := topo_at_body (L := L) (W := W) (vl := v.ident.head.id) (t := v.topo) hK h.topo (by
    intro hL hn y hy
    have hview : viewAt L W v = some (W.breaker v.ident.head.id) := by
      subst hL
      unfold viewAt
      cases ht : v.topo with
      | node => rfl
      | bus => rw [ht] at hn; cases hn
    refine view_switch_round_trip ?_ (hk v (List.mem_flatMap.2 ⟨s, hm, hv⟩) _ hview y hy)
    have ht := h.topo
    subst hL
    unfold vlAt at ht
    cases hvt : v.topo with
    | bus => rw [hvt] at hn; cases hn
    | node bbs sws conns calcs =>
      simp only [hvt, topoAt] at ht
      exact (ht.2 y.plain (List.mem_map_of_mem hy)).1)
  obtain ⟨ce, we, be⟩ := equip_body hK h.equip (vlAt L W f v).topo
  have hw : writeVLAt K A L W v = .ok (writeElem A "voltageLevel" (vlAt L W f v).ident (vlAttrs K k (vlAt L W f v)) (ct ++ ce)) := by
    simp only [writeVLAt, hk1, wt, equipTo_congr (placed_eq hs) hm hv, Out.monad_bind_ok]
    rw [show writeEquip K A (equipTo f v.ident.head.id v.equip) = .ok ce from we]
    rfl
  rw [hw]
  exact vl_of_body h hk2 (bt.append be)

/-- **C89** A substation is read back with the views of its voltage levels, and its transformers on their buses. -/
theorem substation_at_level {s : Substation} (hm : s ∈ x.subs) (h : SubstationOk K A (substationAt L W f s)) :
    ElemRT "substation" (writeSubstationAt K A L W s) (readSubstation K A) (substationAt L W f s) := by
  obtain ⟨ca, hc1, hc2, hc3⟩ := country_text (c := s.country) h.country
  obtain ⟨c1, w1, b1⟩ := push_as (A := A) (h := substationSub K A) (root := "substation") (w := writeVLAt K A L W) SubstationSub.vls (fun s l => { s with vls := l }) rfl (fun _ _ => rfl) (fun _ _ _ => rfl)
    (fun _ => rfl) (vlAt L W f) s.vls ⟨[], [], []⟩ fun v hv => voltage_level_at_level hK hs hk hm hv (h.vls _ (List.mem_map_of_mem hv))
  obtain ⟨c2, w2, b2⟩ := push_list (A := A) (h := substationSub K A) (root := "substation") (w := writeTw2 K A) SubstationSub.tw2s (fun s l => { s with tw2s := l }) rfl (fun _ _ => rfl) (fun _ _ _ => rfl)
    (fun _ => rfl) (s.tw2s.map (tw2To f)) ⟨s.vls.map (vlAt L W f), [], []⟩ fun v hv => two_windings_transformer_round_trip hK (h.tw2s v hv)
  obtain ⟨c3, w3, b3⟩ := push_list (A := A) (h := substationSub K A) (root := "substation") (w := writeTw3 K A) SubstationSub.tw3s (fun s l => { s with tw3s := l }) rfl (fun _ _ => rfl) (fun _ _ _ => rfl)
    (fun _ => rfl) (s.tw3s.map (tw3To f)) ⟨s.vls.map (vlAt L W f), s.tw2s.map (tw2To f), []⟩ fun v hv => three_windings_transformer_round_trip hK (h.tw3s v hv)
  have hw : writeSubstationAt K A L W s = .ok (writeElem A "substation" (substationAt L W f s).ident (substationAttrs A ca (substationAt L W f s)) (c1 ++ (c2 ++ c3))) := by
    simp only [writeSubstationAt, hc1, w1, tw2s_congr (placed_eq hs) hm, tw3s_congr (placed_eq hs) hm, w2, w3, Out.monad_bind_ok]
    rfl
  rw [hw]
  simp only [List.nil_append] at b1 b2 b3
  exact substation_of_body h hc2 hc3 (b1.append (b2.append b3))

/-- **C89** A network whose terminals all sit somewhere at a level is written at this level, in every layout, unless a reference designates a busbar section; the document
is read back as the network seen at this level, but for the fictitious flag of the network.  `_partial`: the conditions of `network_round_trip_partial`, the terminals
without a bus (`nowhere_refused`), the references to busbar sections (`busbar_reference_refused`), the kinds of the switches (`kind_lost`). -/
theorem network_at_level_partial {D : Dates T} (h : NetOk K A D (netAt L W f x)) (hr : L ≠ .nodeBreaker → ∀ r, x.HasRef r → ¬ Busbar x r.id) (i : Bool) :
    ∃ cs toks, writeNetAt K A D L W x = some (.ok cs) ∧ document i cs = .ok toks ∧
      readNet K A D toks = .ok { netAt L W f x with ident := { x.ident with head := { x.ident.head with fictitious := false } } } := by
  obtain ⟨c1, w1, b1⟩ := push_as (A := A) (h := netSub K A) (root := "network") (w := writeSubstationAt K A L W) NetSub.subs (fun s l => { s with subs := l }) rfl (fun _ _ => rfl) (fun _ _ _ => rfl)
    (fun _ => rfl) (substationAt L W f) x.subs ⟨[], [], []⟩ fun v hv => substation_at_level hK hs hk hv (h.subs _ (List.mem_map_of_mem hv))
  obtain ⟨c2, w2, b2⟩ := lines_body hK (x.lines.map (lineTo f)) ⟨x.subs.map (substationAt L W f), [], []⟩ h.lines
  obtain ⟨c3, w3, b3⟩ := push_list (A := A) (h := netSub K A) (root := "network") (w := writeHvdc K A) NetSub.hvdcs (fun s l => { s with hvdcs := l }) rfl (fun _ _ => rfl) (fun _ _ _ => rfl)
    (fun _ => rfl) x.hvdcs ⟨x.subs.map (substationAt L W f), x.lines.map (lineTo f), []⟩ fun v hv => hvdc_line_round_trip (h.hvdcs v hv)
  simp only [List.nil_append] at b1 b2 b3
  obtain ⟨toks, h1, h2⟩ := net_of_body hK h (b1.append (b2.append b3)) i
  have hall : ((netEnds x).all fun e => (located L W e.vl e.place).isSome) = true := by
    rw [List.all_eq_true]
    intro e he
    rw [terminal_at_level.2 (hs _ _ (mem_netEnds.1 ⟨e, he, rfl, rfl⟩))]
    rfl
  have href : checkRefs L x = .ok () := by
    have : (decide (L ≠ .nodeBreaker) && (netRefs x).any fun r => (busbarNames x).contains r.id) = false := by
      by_cases hL : L = .nodeBreaker
      · simp [hL]
      · rw [Bool.and_eq_false_iff]
        refine .inr (List.any_eq_false.2 fun r hm => ?_)
        rw [List.contains_iff_mem, mem_busbarNames]
        exact hr hL r (mem_netRefs.1 hm)
    unfold checkRefs
    rw [this]
    rfl
  refine ⟨_, toks, ?_, h1, h2⟩
  unfold writeNetAt
  rw [if_pos hall]
  simp only [href, w1, w2, w3, lines_congr (placed_eq hs), Out.monad_bind_ok]
  rfl

end levels

/-- **C89** At the finest level the network is written as it is. -/
theorem finest_level {T : Type} (W : Views) (x : Net T) : netAt .nodeBreaker W (fun _ p => p) x = x ∧ ∀ vl p, Sits .nodeBreaker W vl p p := by
  refine ⟨?_, fun vl p => by cases p <;> rfl⟩
  have hv : ∀ v : VL, vlAt .nodeBreaker W (fun _ p => p) v = v := by
    intro v
    simp [vlAt, topoAt, equipTo, termTo]
  have hs : ∀ s : Substation, substationAt .nodeBreaker W (fun _ p => p) s = s := by
    intro s
    have e1 : s.vls.map (vlAt .nodeBreaker W fun _ p => p) = s.vls := by
      rw [List.map_congr_left (g := id) fun v _ => hv v, List.map_id]
    have e2 : s.tw2s.map (tw2To fun _ p => p) = s.tw2s := by
      rw [List.map_congr_left (f := tw2To fun _ p => p) (g := id) fun v _ => rfl, List.map_id]
    have e3 : s.tw3s.map (tw3To fun _ p => p) = s.tw3s := by
      rw [List.map_congr_left (f := tw3To fun _ p => p) (g := id) fun v _ => rfl, List.map_id]
    unfold substationAt
    rw [e1, e2, e3]
  have e1 : x.subs.map (substationAt .nodeBreaker W fun _ p => p) = x.subs := by
    rw [List.map_congr_left (g := id) fun v _ => hs v, List.map_id]
  have e2 : x.lines.map (lineTo fun _ p => p) = x.lines := by
    rw [List.map_congr_left (g := id) fun v _ => by cases v <;> rfl, List.map_id]
  unfold netAt
  rw [e1, e2]

/-- **C89** (`TerminalRefXml.cpp` l. 66-70, 81-85) A network with a reference to a busbar section is not written at a coarser level: the export throws. -/
theorem busbar_reference_refused {T : Type} {K : XCodec} {A : Anon} {D : Dates T} {L : Level} {W : Views} {x : Net T} (hL : L ≠ .nodeBreaker) {r : Ref} (hr : x.HasRef r) (hb : Busbar x r.id)
    {o : Out (List Cmd)} (h : writeNetAt K A D L W x = some o) : o = .thrown := by
  unfold writeNetAt at h
  split at h
  · have : checkRefs L x = .thrown := by
      have : (decide (L ≠ .nodeBreaker) && (netRefs x).any fun r => (busbarNames x).contains r.id) = true := by
        rw [Bool.and_eq_true, decide_eq_true_eq, List.any_eq_true]
        exact ⟨hL, r, mem_netRefs.2 hr, by rw [List.contains_iff_mem, mem_busbarNames]; exact hb⟩
      unfold checkRefs
      rw [this]
      rfl
    rw [this] at h
    exact (Option.some.inj h).symm
  · cases h

end Verif.Coarse
