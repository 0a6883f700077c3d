import Verif.Coarse.ImportProps

/-!
C89: a network with a node/breaker and a bus/breaker voltage level, at the bus/breaker level and at the bus/branch level.
-/

namespace Verif.Coarse

open Verif Verif.Xml Verif.XmlNet

/-- As `goodNet`, with the identifiers of the voltage levels. -/
def mixedNet : Net String :=
  { goodNet with subs := [{ goodSubstation with tw2s := [{ someTw2 with ident := ⟨⟨"T2", "", false⟩, [("T", "")], []⟩, side1 := ⟨"V1", ⟨.node 7, 1, .nan⟩⟩ }] }] }

def plainBus (i : String) : Bus := ⟨⟨⟨i, "", false⟩, [], []⟩, .nan, .nan⟩

/-- The switch of `V1` is kept at the bus/breaker level, between the bus of the busbar section and that of the transformer; the generator is disconnected at both levels. -/
def mixedViews : Views where
  breaker _ := ⟨[plainBus "V1_0", plainBus "V1_7"], [⟨⟨⟨"S1", "", false⟩, [], []⟩, 1, true, "V1_0", "V1_7"⟩],
    fun p => if p = .node 3 then none else if p = .node 7 then some "V1_7" else some "V1_0", fun p => if p = .node 7 then some "V1_7" else some "V1_0"⟩
  branch vl := ⟨[plainBus (vl ++ "_0")], [],
    fun p => match p with | .node n => if n = 3 then none else some (vl ++ "_0") | .bus _ c => if c then some (vl ++ "_0") else none, fun _ => some (vl ++ "_0")⟩

theorem mixed_ends {P : String → Place → Prop} (h : ∀ e ∈ netEnds mixedNet, P e.vl e.place) : ∀ vl p, Sided mixedNet vl p → P vl p := by
  intro vl p hs
  obtain ⟨e, he, rfl, rfl⟩ := mem_netEnds.2 hs
  exact h e he

theorem mixedNet_ok : NetOk toyX Anon.none textDates mixedNet :=
  { goodNet_ok with
    subs := only_ok { goodNet_ok.subs _ List.mem_cons_self with
      tw2s := only_ok { someTw2_ok with ident := alias_ident (by decide) (by decide), side1 := toy_node_side (by decide) } } }

theorem mixedNet_consistent : Consistent (netItems mixedNet) ∧ ∀ r, mixedNet.HasRef r → RefNamed (netItems mixedNet) r := by
  refine (accept_iff mixedNet (by decide +kernel)).1 ?_
  have h : (accept mixedNet).map (fun r => r.2) = .ok [("T2", 1), ("L", 0), ("T2", 1)] := by decide +kernel
  cases ha : accept mixedNet with
  | ok r => exact ⟨r, rfl⟩
  | thrown => rw [ha] at h; cases h
  | ub => rw [ha] at h; cases h

theorem mixed_refs : ∀ r, mixedNet.HasRef r → ¬ Busbar mixedNet r.id := by
  intro r hr hb
  have h : ∀ r ∈ netRefs mixedNet, r.id ∉ busbarNames mixedNet := by decide +kernel
  exact h r (mem_netRefs.2 hr) (mem_busbarNames.2 hb)

theorem mixed_located {L : Level} (hL : L ≠ .nodeBreaker) : ∀ vl p, Sided mixedNet vl p → Sits L mixedViews vl p (placed L mixedViews vl p) := by
  refine mixed_ends fun e he => terminal_at_level.1 ?_
  have h : ∀ e ∈ netEnds mixedNet, located L mixedViews e.vl e.place = some (placed L mixedViews e.vl e.place) := by
    cases L with
    | nodeBreaker => exact absurd rfl hL
    | busBreaker => decide +kernel
    | busBranch => decide +kernel
  exact h e he

theorem mixed_movable {L : Level} (hL : L ≠ .nodeBreaker) : ∀ vl p, Sided mixedNet vl p → Movable Anon.none p (placed L mixedViews vl p) := by
  refine mixed_ends fun e he => ?_
  have h : ∀ e ∈ netEnds mixedNet, (match placed L mixedViews e.vl e.place with | .bus c _ => decide (c ≠ "") | .node _ => false) = true := by
    cases L with
    | nodeBreaker => exact absurd rfl hL
    | busBreaker => decide +kernel
    | busBranch => decide +kernel
  have h := h e he
  cases hp : placed L mixedViews e.vl e.place with
  | node n => rw [hp] at h; cases h
  | bus c b => rw [hp] at h; exact .inr ⟨c, b, rfl, by simpa using h, rfl⟩

theorem mixed_named : ∀ vl p, Sided mixedNet vl p → ∃ v ∈ levels mixedNet, v.ident.head.id = vl := by
  refine mixed_ends fun e he => ?_
  have h : ∀ e ∈ netEnds mixedNet, e.vl ∈ (levels mixedNet).map fun v => v.ident.head.id := by decide +kernel
  exact List.mem_map.1 (h e he)

theorem mixed_levels {P : VL → Prop} (h1 : P goodVL) (h2 : P goodVL2) : ∀ v ∈ levels mixedNet, P v := by
  intro v hv
  have : v ∈ [goodVL, goodVL2] := hv
  simp only [List.mem_cons, List.not_mem_nil, or_false] at this
  rcases this with rfl | rfl
  · exact h1
  · exact h2

theorem mixed_fit {L : Level} (hL : L ≠ .nodeBreaker) : ViewsFit L mixedViews mixedNet := by
  cases L with
  | nodeBreaker => exact absurd rfl hL
  | busBreaker =>
    refine ⟨mixed_levels ?_ nofun, mixed_levels ?_ nofun, mixed_levels ?_ nofun, by decide +kernel, by decide +kernel, ?_⟩
    · rintro w ⟨⟩; decide +kernel
    · rintro w ⟨⟩; decide +kernel
    · rintro w ⟨⟩ p c hc
      have : (if p = Adders.Place.node 7 then some "V1_7" else some "V1_0") = some c := hc
      split at this <;> cases this <;> decide +kernel
    · intro b hb y hy hm
      have h : ∀ b ∈ newBuses .busBreaker mixedViews mixedNet, ∀ y ∈ netItems mixedNet, b.ident.head.id ∉ y.names := by decide +kernel
      exact absurd hm (h b hb y (mem_netItems.2 hy))
  | busBranch =>
    refine ⟨mixed_levels ?_ ?_, mixed_levels ?_ ?_, mixed_levels ?_ ?_, by decide +kernel, by decide +kernel, ?_⟩
    · rintro w ⟨⟩; exact List.nil_sublist _
    · rintro w ⟨⟩; exact List.nil_sublist _
    · rintro w ⟨⟩ s hs; cases hs
    · rintro w ⟨⟩ s hs; cases hs
    · rintro w ⟨⟩ p c ⟨⟩; exact List.mem_cons_self
    · rintro w ⟨⟩ p c ⟨⟩; exact List.mem_cons_self
    · intro b hb y hy hm
      have h : ∀ b ∈ newBuses .busBranch mixedViews mixedNet, ∀ y ∈ netItems mixedNet, b.ident.head.id ∉ y.names := by decide +kernel
      exact absurd hm (h b hb y (mem_netItems.2 hy))

theorem plainBus_ok (i : String) : BusOk toyX Anon.none (plainBus i) ∧ (plainBus i).ident.aliases = [] ∧ (plainBus i).ident.props = [] :=
  ⟨⟨none_head _, ⟨.inl rfl, toyX_keeps _⟩, toyX_keeps _⟩, rfl, rfl⟩

theorem mixed_views_ok {L : Level} (hL : L ≠ .nodeBreaker) : ViewsOk toyX Anon.none L mixedViews mixedNet := by
  cases L with
  | nodeBreaker => exact absurd rfl hL
  | busBreaker =>
    refine mixed_levels ?_ nofun
    rintro w ⟨⟩
    refine ⟨?_, only_ok ⟨⟨plain_ident, ⟨by decide, rfl⟩, ⟨by decide, rfl⟩⟩, by decide⟩⟩
    intro b hb
    have : b ∈ [plainBus "V1_0", plainBus "V1_7"] := hb
    simp only [List.mem_cons, List.not_mem_nil, or_false] at this
    rcases this with rfl | rfl <;> exact plainBus_ok _
  | busBranch =>
    refine mixed_levels ?_ ?_
    · rintro w ⟨⟩; exact ⟨only_ok (plainBus_ok _), no_one⟩
    · rintro w ⟨⟩; exact ⟨only_ok (plainBus_ok _), no_one⟩

theorem mixed_kinds {L : Level} (hL : L ≠ .nodeBreaker) : KindsOk L mixedViews mixedNet := by
  cases L with
  | nodeBreaker => exact absurd rfl hL
  | busBreaker =>
    refine mixed_levels ?_ nofun
    rintro w ⟨⟩
    exact only_ok (by decide)
  | busBranch =>
    refine mixed_levels ?_ ?_
    · rintro w ⟨⟩; exact no_one
    · rintro w ⟨⟩; exact no_one

/-- All the hypotheses of the theorems on networks at a level, for a network of two voltage levels and the two coarser levels. -/
theorem mixed_import {L : Level} (hL : L ≠ .nodeBreaker) (i : Bool) :
    ∃ cs toks r, writeNetAt toyX Anon.none textDates L mixedViews mixedNet = some (.ok cs) ∧ document i cs = .ok toks ∧
      importNet toyX Anon.none textDates toks = .ok (netAt L mixedViews (placed L mixedViews) mixedNet, r) :=
  import_at_level_partial toyX_integers hL mixedNet_ok mixedNet_consistent.1 mixedNet_consistent.2 mixed_refs (mixed_fit hL) (mixed_views_ok hL) (mixed_located hL) (mixed_movable hL)
    mixed_named (mixed_kinds hL) i

/-- The load of `VL2`, disconnected from the bus `B`, stays so at the bus/breaker level and is then on the bus of the view; the generator goes from node 3 to a bus. -/
example : Sits .busBreaker mixedViews "VL2" (.bus "B" false) (.bus "B" false) ∧ Sits .busBranch mixedViews "VL2" (.bus "B" false) (.bus "VL2_0" false) ∧
    Sits .busBreaker mixedViews "V1" (.node 3) (.bus "V1_0" false) ∧ Sits .busBreaker mixedViews "V1" (.node 7) (.bus "V1_7" true) := by
  refine ⟨terminal_at_level.1 ?_, terminal_at_level.1 ?_, terminal_at_level.1 ?_, terminal_at_level.1 ?_⟩ <;> decide +kernel

/-- A generator that regulates a busbar section cannot be exported at a coarser level. -/
example {L : Level} (hL : L ≠ .nodeBreaker) :
    writeNetAt toyX Anon.none textDates L mixedViews
      { mixedNet with subs := [{ goodSubstation with vls := [{ goodVL with equip := { goodVL.equip with gens := [{ someGen with reg := some ⟨"BBS", ""⟩ }] } }, goodVL2], tw2s := [] }], lines := [] } =
      some .thrown := by
  cases L with
  | nodeBreaker => exact absurd rfl hL
  | busBreaker => decide +kernel
  | busBranch => decide +kernel

/-- The line has the name that the bus of `VL2` gets at the bus/branch level: the network is accepted as it is, and refused at that level. -/
def clashNet : Net String := { mixedNet with lines := [.line { someLine with ident := ⟨⟨"VL2_0", "", false⟩, [], []⟩, side1 := ⟨"V1", ⟨.node 8, 1, .nan⟩⟩ }] }

example : (accept clashNet).isOk = true ∧ (accept (netAt .busBreaker mixedViews (placed .busBreaker mixedViews) clashNet)).isOk = true ∧
    accept (netAt .busBranch mixedViews (placed .busBranch mixedViews) clashNet) = .thrown := by
  refine ⟨?_, ?_, ?_⟩ <;> decide +kernel

example {toks : List Tok} (hr : readNet toyX Anon.none textDates toks = .ok (netAt .busBranch mixedViews (placed .busBranch mixedViews) clashNet)) :
    importNet toyX Anon.none textDates toks = .thrown := by
  refine taken_name_refused (x := clashNet) (v := goodVL2) (by decide +kernel) rfl (b := plainBus "VL2_0") (by decide) (y := ⟨_, _, _, _, _⟩)
    (.line (l := { someLine with ident := ⟨⟨"VL2_0", "", false⟩, [], []⟩, side1 := ⟨"V1", ⟨.node 8, 1, .nan⟩⟩ }) List.mem_cons_self) (.equip 2) ?_ List.mem_cons_self (by decide +kernel) hr
  intro m hm hb
  have h : "VL2_0" ∉ busbarNames clashNet := by decide +kernel
  have : m = "VL2_0" := List.mem_singleton.1 hm
  subst this
  exact h (mem_busbarNames.2 hb)

end Verif.Coarse
