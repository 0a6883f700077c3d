import Verif.ReadBack.SettleLemmas
import Verif.ReadBack.QuietProps

/-!
C96: an import settles the names by which objects are referred to.
-/

namespace Verif.ReadBack

open Verif Verif.Xml Verif.XmlNet Verif.Setters

variable {T : Type}

/-- **C96** What is shown of a network is the same network, but for the names by which it refers to its objects: every voltage level, station and regulating terminal
is the one that was named, and everything else is as it was. -/
theorem settled_same {x : Net T} (hn : ((netItems x).flatMap Item.names).Nodup) : SameNet (netItems x) x (settled x) := by
  have side : ∀ s, SameSide (netItems x) s (settleSide (netItems x) s) := fun s => ⟨same_idOf hn _, rfl⟩
  have rtc : ∀ c, SameRtc (netItems x) c (settleRtc (netItems x) c) := fun c => ⟨same_ref hn _, rfl⟩
  have ptc : ∀ c, SamePtc (netItems x) c (settlePtc (netItems x) c) := fun c => ⟨same_ref hn _, rfl⟩
  have leg : ∀ c, SameLeg (netItems x) c (settleLeg (netItems x) c) := fun c => ⟨side _, same_opt fun _ _ => rtc _, same_opt fun _ _ => ptc _, rfl⟩
  refine ⟨all2_map fun s hs => ⟨all2_map fun v hv => ⟨all2_map fun g hg => ⟨?_, rfl⟩, all2_map fun g hg => ⟨?_, rfl⟩, all2_map fun g hg => ⟨?_, rfl⟩, rfl⟩,
    all2_map fun t _ => ⟨side _, side _, same_opt fun _ _ => rtc _, same_opt fun _ _ => ptc _, rfl⟩, all2_map fun t _ => ⟨leg _, leg _, leg _, rfl⟩, rfl⟩,
    all2_map fun y _ => ?_, all2_map fun y _ => ⟨same_idOf hn _, same_idOf hn _, rfl⟩, rfl⟩
  · exact same_reg hn (mem_netItems.2 (.inLevel hs hv (.generator hg))) (.equip 1) _
  · exact same_reg hn (mem_netItems.2 (.inLevel hs hv (.shunt hg))) (.equip 1) _
  · exact same_reg hn (mem_netItems.2 (.inLevel hs hv (.svc hg))) (.equip 1) _
  · cases y with
    | line y => exact .line (side _) (side _)
    | tie y => exact .tie (side _) (side _)

/-- **C96** The objects of what is shown have the identifiers, the aliases and the classes that they had, and a reference designates the same terminal among them. -/
theorem settled_designates (x : Net T) :
    (netItems (settled x)).map (fun a => (a.ident, a.obj)) = (netItems x).map (fun a => (a.ident, a.obj)) ∧
    ∀ r t, Designates (netItems (settled x)) r t ↔ Designates (netItems x) r t := by
  rw [settled_items]
  refine ⟨by rw [List.map_map]; rfl, fun r t => ⟨?_, ?_⟩⟩
  · rintro ⟨b, hb, h⟩
    obtain ⟨a, ha, rfl⟩ := List.mem_map.1 hb
    exact ⟨a, ha, h⟩
  · rintro ⟨a, ha, h⟩
    exact ⟨_, List.mem_map_of_mem ha, h⟩

/-- The objects of what is shown. -/
theorem has_settled {x : Net T} {a : Item} (h : a ∈ netItems x) : (settled x).Has (settleItem (netItems x) a) :=
  mem_netItems.1 (settled_items ▸ List.mem_map_of_mem h)

/-- The terminals of injections are in the voltage level that contains them. -/
theorem inner_end {x : Net T} {a : Item} (h : x.Has a) : ∀ e ∈ a.ends, e.lookup = true ∨ ∃ v, x.Has v ∧ e.vl = v.id := by
  intro e he
  cases h with
  | network | substation | hvdc => cases he
  | transformer2 | line | tieLine =>
    simp only [List.mem_cons, List.not_mem_nil, or_false] at he
    rcases he with rfl | rfl <;> exact .inl rfl
  | transformer3 =>
    simp only [List.mem_cons, List.not_mem_nil, or_false] at he
    rcases he with rfl | rfl | rfl <;> exact .inl rfl
  | inLevel hs hv hy =>
    refine .inr ⟨_, .inLevel hs hv .level, ?_⟩
    cases hy <;> first
      | (cases he; done)
      | (simp only [List.mem_cons, List.not_mem_nil, or_false] at he; subst he; rfl)

/-- **C96** Every reference in what is shown of a network whose objects go together is an identifier. -/
theorem settled_by_id {x : Net T} (hc : Consistent (netItems x)) (hr : ∀ r, x.HasRef r → RefNamed (netItems x) r) : ById (settled x) where
  levels := by
    intro b hb e he
    rw [← mem_netItems, settled_items] at hb
    obtain ⟨a, ha, rfl⟩ := List.mem_map.1 hb
    obtain ⟨f, hf, rfl⟩ := List.mem_map.1 he
    rcases inner_end (mem_netItems.1 ha) f hf with h | ⟨v, hv, h⟩
    · obtain ⟨_, v, hv, hm, _⟩ := hc.ends a ha f hf
      exact ⟨_, has_settled hv, by simp only [settleEnd, h, if_true, idOf_of hc.names hv hm]; rfl⟩
    · have hv := mem_netItems.2 hv
      refine ⟨_, has_settled hv, ?_⟩
      unfold settleEnd
      split
      · simp only [idOf_of hc.names hv (h ▸ id_mem_names v)]; rfl
      · exact h
  stations := by
    intro h hh
    obtain ⟨y, hy, rfl⟩ := List.mem_map.1 (show h ∈ x.hvdcs.map _ from hh)
    obtain ⟨⟨_, a, ha, h1, _⟩, ⟨_, b, hb, h2, _⟩⟩ := hc.stations _ (mem_netItems.2 (.hvdc hy)) _ rfl
    exact ⟨⟨_, has_settled ha, (idOf_of hc.names ha h1 : _ = a.id)⟩, ⟨_, has_settled hb, (idOf_of hc.names hb h2 : _ = b.id)⟩⟩
  refs := by
    intro r h
    obtain ⟨s, hs, rfl⟩ := settled_refs h
    obtain ⟨a, ha, h1, _⟩ := hr s hs
    rw [refOf_of hc.names ha h1]
    exact ⟨_, has_settled ha, rfl, fun ht => if_pos (terminals_iff.1 ht)⟩
  generators := by
    intro s hs v hv g hg r h
    obtain ⟨s, _, rfl⟩ := List.mem_map.1 (show s ∈ x.subs.map _ from hs)
    obtain ⟨v, _, rfl⟩ := List.mem_map.1 hv
    obtain ⟨g, _, rfl⟩ := List.mem_map.1 hg
    obtain ⟨_, _, _, h⟩ := mem_regOf.1 h
    exact h
  shunts := by
    intro s hs v hv g hg r h
    obtain ⟨s, _, rfl⟩ := List.mem_map.1 (show s ∈ x.subs.map _ from hs)
    obtain ⟨v, _, rfl⟩ := List.mem_map.1 hv
    obtain ⟨g, _, rfl⟩ := List.mem_map.1 hg
    obtain ⟨_, _, _, h⟩ := mem_regOf.1 h
    exact h
  svcs := by
    intro s hs v hv g hg r h
    obtain ⟨s, _, rfl⟩ := List.mem_map.1 (show s ∈ x.subs.map _ from hs)
    obtain ⟨v, _, rfl⟩ := List.mem_map.1 hv
    obtain ⟨g, _, rfl⟩ := List.mem_map.1 hg
    obtain ⟨_, _, _, h⟩ := mem_regOf.1 h
    exact h

theorem map_fixed {α : Type} {f : α → α} {m : List α} (h : ∀ a ∈ m, f a = a) : m.map f = m :=
  (List.map_congr_left h).trans (List.map_id' m)

theorem opt_fixed {α : Type} {f : α → α} {o : Option α} (h : ∀ a, o = some a → f a = a) : o.map f = o := by
  cases o with
  | none => rfl
  | some a => exact congrArg some (h a rfl)

/-- **C96** A network that refers to its objects by their identifiers is shown as it is. -/
theorem by_id_settled {x : Net T} (hn : ((netItems x).flatMap Item.names).Nodup) (h : ById x) : settled x = x := by
  have name : ∀ {n}, (∃ v, x.Has v ∧ n = v.ident.head.id) → idOf (netItems x) n = n := by
    rintro _ ⟨v, hv, rfl⟩
    exact idOf_of hn (mem_netItems.2 hv) (id_mem_names v)
  have ref : ∀ r, x.HasRef r → refOf (netItems x) r = r := by
    intro r hr
    obtain ⟨a, ha, h1, h2⟩ := h.refs r hr
    rw [refOf_of hn (mem_netItems.2 ha) (h1 ▸ id_mem_names a)]
    obtain ⟨i, s⟩ := r
    simp only at h1 h2
    subst h1
    congr 1
    split
    · exact (h2 (terminals_iff.2 ‹_›)).symm
    · rfl
  have reg : ∀ {i o}, (∀ r, o = some r → x.HasRef r) → (∀ r, o = some r → r.id ≠ i) → regOf (netItems x) i o = o := by
    intro i o h1 h2
    cases o with
    | none => rfl
    | some r => simp [regOf, ref r (h1 r rfl), h2 r rfl]
  have side : ∀ {s : Side}, (∃ v, x.Has v ∧ s.vl = v.ident.head.id) → settleSide (netItems x) s = s := fun hs => by
    unfold settleSide; rw [name hs]
  have rtc : ∀ {c : Rtc}, (∀ r, c.reg = some r → x.HasRef r) → settleRtc (netItems x) c = c := fun hc => by
    unfold settleRtc; rw [opt_fixed fun r hr => ref r (hc r hr)]
  have ptc : ∀ {c : Ptc}, (∀ r, c.reg = some r → x.HasRef r) → settlePtc (netItems x) c = c := fun hc => by
    unfold settlePtc; rw [opt_fixed fun r hr => ref r (hc r hr)]
  have e1 : x.subs.map (settleSubstation (netItems x)) = x.subs := by
    refine map_fixed fun s hs => ?_
    have v1 : s.vls.map (settleVL (netItems x)) = s.vls := by
      refine map_fixed fun v hv => ?_
      have g1 : v.equip.gens.map (settleGen (netItems x)) = v.equip.gens := map_fixed fun g hg => by
        unfold settleGen; rw [reg (fun r hr => .generator hs hv hg hr) (h.generators s hs v hv g hg)]
      have g2 : v.equip.shs.map (settleSh (netItems x)) = v.equip.shs := map_fixed fun g hg => by
        unfold settleSh; rw [reg (fun r hr => .shunt hs hv hg hr) (h.shunts s hs v hv g hg)]
      have g3 : v.equip.svcs.map (settleSvc (netItems x)) = v.equip.svcs := map_fixed fun g hg => by
        unfold settleSvc; rw [reg (fun r hr => .svc hs hv hg hr) (h.svcs s hs v hv g hg)]
      simp only [settleVL, settleEquip, g1, g2, g3]
    have v2 : s.tw2s.map (settleTw2 (netItems x)) = s.tw2s := by
      refine map_fixed fun t ht => ?_
      have l := h.levels _ (.transformer2 hs ht)
      simp only [settleTw2, side (l _ List.mem_cons_self), side (l _ (List.mem_cons_of_mem _ List.mem_cons_self)),
        opt_fixed fun c hc => rtc fun r hr => .ratio2 hs ht hc hr, opt_fixed fun c hc => ptc fun r hr => .phase2 hs ht hc hr]
    have v3 : s.tw3s.map (settleTw3 (netItems x)) = s.tw3s := by
      refine map_fixed fun t ht => ?_
      have l := h.levels _ (.transformer3 hs ht)
      have leg : ∀ {k : Leg}, (k = t.leg1 ∨ k = t.leg2 ∨ k = t.leg3) → (∃ v, x.Has v ∧ k.side.vl = v.ident.head.id) → settleLeg (netItems x) k = k := by
        intro k hk hv
        simp only [settleLeg, side hv, opt_fixed fun c hc => rtc fun r hr => .ratio3 hs ht hk hc hr, opt_fixed fun c hc => ptc fun r hr => .phase3 hs ht hk hc hr]
      simp only [settleTw3, leg (.inl rfl) (l _ List.mem_cons_self), leg (.inr (.inl rfl)) (l _ (List.mem_cons_of_mem _ List.mem_cons_self)),
        leg (.inr (.inr rfl)) (l _ (List.mem_cons_of_mem _ (List.mem_cons_of_mem _ List.mem_cons_self)))]
    simp only [settleSubstation, v1, v2, v3]
  have e2 : x.lines.map (settleLine (netItems x)) = x.lines := by
    refine map_fixed fun y hy => ?_
    cases y with
    | line y =>
      have l := h.levels _ (.line hy)
      simp only [settleLine, side (l _ List.mem_cons_self), side (l _ (List.mem_cons_of_mem _ List.mem_cons_self))]
    | tie y =>
      have l := h.levels _ (.tieLine hy)
      simp only [settleLine, side (l _ List.mem_cons_self), side (l _ (List.mem_cons_of_mem _ List.mem_cons_self))]
  have e3 : x.hvdcs.map (settleHvdc (netItems x)) = x.hvdcs := map_fixed fun y hy => by
    unfold settleHvdc; rw [name (h.stations y hy).1, name (h.stations y hy).2]
  simp only [settled, settleNet, e1, e2, e3]

/-- **C96** What is shown goes together as the network does. -/
theorem settled_goes_together {x : Net T} (hc : Consistent (netItems x)) (hr : ∀ r, x.HasRef r → RefNamed (netItems x) r) :
    Consistent (netItems (settled x)) ∧ ∀ r, (settled x).HasRef r → RefNamed (netItems (settled x)) r := by
  rw [settled_items]
  refine ⟨consistent_settle hc, fun r h => ?_⟩
  obtain ⟨s, hs, rfl⟩ := settled_refs h
  exact named_settle hc.names (hr s hs)

/-- **C96** Showing twice is showing once. -/
theorem settled_settled {x : Net T} (hc : Consistent (netItems x)) (hr : ∀ r, x.HasRef r → RefNamed (netItems x) r) : settled (settled x) = settled x :=
  by_id_settled (settled_goes_together hc hr).1.names (settled_by_id hc hr)

section
variable {K : XCodec} {D : Dates T}

theorem importSettled_ok {toks : List Tok} {x : Net T} : importSettled K D toks = .ok x ↔ ∃ y q, importNet K .none D toks = .ok (y, q) ∧ settled y = x := by
  unfold importSettled
  cases importNet K .none D toks with
  | ok r => simp only [Out.map, Out.ok.injEq]; exact ⟨fun h => ⟨r.1, r.2, rfl, h⟩, fun ⟨_, _, h, e⟩ => by rw [h]; exact e⟩
  | thrown => simp [Out.map]
  | ub => simp [Out.map]

/-- **C96** An imported network is valid, its objects go together, and it refers to them by their identifiers, whatever the names in the document. -/
theorem imported_by_id (hd : K.Doubles) {toks : List Tok} {x : Net T} (h : importSettled K D toks = .ok x) :
    NetValid x ∧ Consistent (netItems x) ∧ (∀ r, x.HasRef r → RefNamed (netItems x) r) ∧ ById x := by
  obtain ⟨y, q, hq, rfl⟩ := importSettled_ok.1 h
  obtain ⟨hv, hc, hr⟩ := imported_network hd hq
  obtain ⟨hc', hr'⟩ := settled_goes_together hc hr
  exact ⟨net_valid hc.ids hv, hc', hr', settled_by_id hc hr⟩

/-- **C96** A valid network whose objects go together is exported, and imported as what is shown of it, if it fits in a document; the document itself refers to the
objects by their identifiers, whatever is made of it. -/
theorem export_imported (hK : K.Integers) (hd : K.Doubles) {x : Net T} (hv : NetValid x) (hc : Consistent (netItems x)) (hr : ∀ r, x.HasRef r → RefNamed (netItems x) r)
    (hf : NetFits D x) (hk : Kept K (netNumbers x)) (i : Bool) :
    ∃ cs toks, exportNet K D x = .ok cs ∧ document i cs = .ok toks ∧ importSettled K D toks = .ok (settled x) ∧ ∃ z, readNet K .none D toks = .ok z ∧ ById z := by
  obtain ⟨hc', hr'⟩ := settled_goes_together hc hr
  obtain ⟨cs, toks, w1, w2, w3⟩ := valid_network_read_back hK (net_valid hc.ids hv) (net_fits hc.ids hf) ((net_numbers (l := netItems x) x).symm ▸ hk) i
  obtain ⟨q, hq⟩ := (import_iff hd).2 ⟨w3, hc', hr'⟩
  exact ⟨cs, toks, w1, w2, importSettled_ok.2 ⟨_, q, hq, settled_settled hc hr⟩, _, w3, settled_by_id hc hr⟩

/-- **C96** The export shows nothing of the names that were used: it is that of what is shown. -/
theorem export_settled {x : Net T} (hc : Consistent (netItems x)) (hr : ∀ r, x.HasRef r → RefNamed (netItems x) r) : exportNet K D (settled x) = exportNet K D x := by
  unfold exportNet; rw [settled_settled hc hr]

/-- **C96** Import, export, import gives the network of the first import, whatever the names by which the document refers to objects. -/
theorem import_export_settled (hK : K.Integers) (hd : K.Doubles) {toks : List Tok} {x : Net T} (h : importSettled K D toks = .ok x) (hf : NetFits D x)
    (hk : Kept K (netNumbers x)) (i : Bool) : ∃ cs toks', exportNet K D x = .ok cs ∧ document i cs = .ok toks' ∧ importSettled K D toks' = .ok x := by
  obtain ⟨hv, hc, hr, hb⟩ := imported_by_id hd h
  obtain ⟨cs, toks', w1, w2, w3, _⟩ := export_imported hK hd hv hc hr hf hk i
  exact ⟨cs, toks', w1, w2, by rw [w3, by_id_settled hc.names hb]⟩

/-- **C96** Import, edit, export, import: the second import gives what is shown of the edited network, that is the same but for names.
`_partial`: calls that add or remove an alias or that move a terminal are left out. -/
theorem edited_network_settled_partial (hK : K.Integers) (hd : K.Doubles) {toks : List Tok} {x y : Net T} {os : List (NetOp T)} (hx : importSettled K D toks = .ok x)
    (hi : NetInside x) (hs : SafeHistory x os) (ho : ∀ o ∈ os, o.Quiet (RefNamed (netItems x))) (h : Setters.run x os = .ok y) (hf : NetFits D y) (hk : Kept K (netNumbers y))
    (i : Bool) : ∃ cs toks' z, exportNet K D y = .ok cs ∧ document i cs = .ok toks' ∧ importSettled K D toks' = .ok z ∧ SameNet (netItems y) y z ∧ ById z := by
  obtain ⟨hv, hc, hr, _⟩ := imported_by_id hd hx
  obtain ⟨hc', hr'⟩ := quiet_network_goes_together hc hr ho h
  obtain ⟨cs, toks', w1, w2, w3, _⟩ := export_imported hK hd (histories_stay_valid_partial os hv hi hs h) hc' hr' hf hk i
  exact ⟨cs, toks', _, w1, w2, w3, settled_same hc'.names, settled_by_id hc' hr'⟩

end

/-! ### Examples -/

/-- In `goodNet` the transformer is in "VL1" and the generator regulates at the second side of "T". -/
theorem goodNet_renamed : (settled goodNet).subs.flatMap (fun s => s.tw2s.map fun t => (t.side1.vl, t.side2.vl)) = [("V1", "VL2")] ∧
    goodNet.subs.flatMap (fun s => s.tw2s.map fun t => (t.side1.vl, t.side2.vl)) = [("VL1", "VL2")] ∧
    (settled goodNet).subs.flatMap (fun s => s.vls.flatMap fun v => v.equip.gens.map fun g => g.reg) = [some ⟨"T2", "TWO"⟩] ∧
    goodNet.subs.flatMap (fun s => s.vls.flatMap fun v => v.equip.gens.map fun g => g.reg) = [some ⟨"T", "TWO"⟩] := by decide +kernel

/-- **C96** The names of the document are not those of the export: as the getters show it, the imported network differs from what was read. -/
theorem names_not_kept : settled goodNet ≠ goodNet := by
  intro h
  have := goodNet_renamed
  rw [h] at this
  exact absurd (this.1.symm.trans this.2.1) (by decide)

/-- A generator that is told to regulate its own terminal, by an alias and with a side, and one that regulates at a load, with a side. -/
example : regOf [injection "V" ⟨⟨"G", "", false⟩, [("A", "")], []⟩ (.equip 1) (.node 0)] "G" (some ⟨"A", "TWO"⟩) = none ∧
    regOf [injection "V" ⟨⟨"G", "", false⟩, [], []⟩ (.equip 1) (.node 0), injection "V" ⟨⟨"L", "", false⟩, [("A", "")], []⟩ (.equip 1) (.node 1)] "G" (some ⟨"A", "TWO"⟩) =
      some ⟨"L", ""⟩ := by decide +kernel

example : SameNet (netItems goodNet) goodNet (settled goodNet) ∧ ById (settled goodNet) ∧ settled (settled goodNet) = settled goodNet :=
  ⟨settled_same goodNet_consistent.1.names, settled_by_id goodNet_consistent.1 goodNet_consistent.2, settled_settled goodNet_consistent.1 goodNet_consistent.2⟩

theorem goodNet_exported (i : Bool) : ∃ cs toks, exportNet rangeX textDates goodNet = .ok cs ∧ document i cs = .ok toks ∧
    importSettled rangeX textDates toks = .ok (settled goodNet) ∧ ∃ z, readNet rangeX .none textDates toks = .ok z ∧ ById z :=
  export_imported rangeX_integers rangeX_doubles goodNet_fits.1 goodNet_consistent.1 goodNet_consistent.2 goodNet_fits.2.1 goodNet_kept i

/-- A document with aliases gives the settled network, and so does the document of that. -/
example (i : Bool) : ∃ cs toks, writeNet rangeX .none textDates goodNet = .ok cs ∧ document i cs = .ok toks ∧ importSettled rangeX textDates toks = .ok (settled goodNet) ∧
    ∃ cs' toks', exportNet rangeX textDates (settled goodNet) = .ok cs' ∧ document i cs' = .ok toks' ∧ importSettled rangeX textDates toks' = .ok (settled goodNet) := by
  obtain ⟨cs, toks, r, h1, h2, h⟩ := import_export_partial (D := textDates) rangeX_integers (network_ok_iff.2 ⟨goodNet_fits.1, goodNet_fits.2.1, goodNet_kept⟩).1 goodNet_consistent.1 goodNet_consistent.2 i
  have hi : importSettled rangeX textDates toks = .ok (settled goodNet) := importSettled_ok.2 ⟨_, r, h, rfl⟩
  exact ⟨cs, toks, h1, h2, hi, import_export_settled rangeX_integers rangeX_doubles hi (net_fits goodNet_consistent.1.ids goodNet_fits.2.1)
    ((net_numbers (l := netItems goodNet) goodNet).symm ▸ goodNet_kept) i⟩

example : exportNet rangeX textDates (settled goodNet) = exportNet rangeX textDates goodNet := export_settled goodNet_consistent.1 goodNet_consistent.2

example : settled (settled goodNet) = settled goodNet :=
  by_id_settled (settled_goes_together goodNet_consistent.1 goodNet_consistent.2).1.names (settled_by_id goodNet_consistent.1 goodNet_consistent.2)

/-- The generator of the imported network is told to regulate at the load, by its alias and with a side. -/
def shownHistory : List (NetOp String) := [.setForecastDistance 3, .sub 0 (.vl 0 (.gen 0 (.setRegulatingTerminal (some ⟨"alias", "ONE"⟩) true)))]

def shownVL : VL := { settleVL (netItems goodNet) goodVL with
  equip := { settleEquip (netItems goodNet) goodVL.equip with gens := [{ settleGen (netItems goodNet) someGen with reg := some ⟨"alias", "ONE"⟩ }] } }

def shownNet : Net String := { settled goodNet with forecast := 3, subs := [{ settleSubstation (netItems goodNet) goodSubstation with vls := [shownVL, settleVL (netItems goodNet) goodVL2] }] }

theorem shownHistory_run : Setters.run (settled goodNet) shownHistory = .ok shownNet := rfl

theorem shownHistory_plain : ∀ o ∈ shownHistory, o.Plain := by
  intro o ho
  simp only [shownHistory, List.mem_cons, List.not_mem_nil, or_false] at ho
  rcases ho with rfl | rfl <;> simp [NetOp.Plain, SubOp.Plain, VLOp.Safe, GenOp.Safe]

theorem shownHistory_quiet : ∀ o ∈ shownHistory, o.Quiet (RefNamed (netItems (settled goodNet))) := by
  intro o ho
  simp only [shownHistory, List.mem_cons, List.not_mem_nil, or_false] at ho
  rcases ho with rfl | rfl <;> simp only [NetOp.Quiet, SubOp.Quiet, VLOp.Quiet, GenOp.Quiet]
  rintro r ⟨⟩
  exact ⟨injection "VL2" someLoad.ident (.equip 1) someLoad.term.place, by decide +kernel, by decide, 1, .equip 1, .inl rfl⟩

theorem settledNet_inside : NetInside (settled goodNet) := by
  intro s hs
  obtain ⟨s, hm, rfl⟩ := List.mem_map.1 (show s ∈ goodNet.subs.map _ from hs)
  simp only [goodNet, List.mem_cons, List.not_mem_nil, or_false] at hm
  subst hm
  refine ⟨fun t ht => ?_, fun t ht => by cases ht⟩
  simp only [settleSubstation, goodSubstation, List.map_cons, List.map_nil, List.mem_cons, List.not_mem_nil, or_false] at ht
  subst ht
  exact ⟨by rintro t ⟨⟩; exact someRtc_inside, by rintro t ⟨⟩; exact somePtc_inside⟩

theorem shownNet_fits : NetFits textDates shownNet := by
  have h : NetFits textDates (settled goodNet) := net_fits goodNet_consistent.1.ids goodNet_fits.2.1
  have hs := h.subs (settleSubstation (netItems goodNet) goodSubstation) List.mem_cons_self
  have hv := hs.vls (settleVL (netItems goodNet) goodVL) List.mem_cons_self
  have hw := hs.vls (settleVL (netItems goodNet) goodVL2) (List.mem_cons_of_mem _ List.mem_cons_self)
  have hg := hv.equip.gens (settleGen (netItems goodNet) someGen) List.mem_cons_self
  refine { h with forecast := by decide, subs := only_ok { hs with vls := ?_ } }
  intro v hm
  simp only [List.mem_cons, List.not_mem_nil, or_false] at hm
  rcases hm with rfl | rfl
  · exact { hv with equip := { hv.equip with gens := only_ok { hg with reg := by rintro r ⟨⟩; decide } } }
  · exact hw

theorem shownNet_kept : Kept rangeX (netNumbers shownNet) := rangeX_kept (by decide +kernel)

example (i : Bool) : ∃ toks, importSettled rangeX textDates toks = .ok (settled goodNet) ∧ ∃ cs toks' z, exportNet rangeX textDates shownNet = .ok cs ∧
    document i cs = .ok toks' ∧ importSettled rangeX textDates toks' = .ok z ∧ SameNet (netItems shownNet) shownNet z ∧ ById z := by
  obtain ⟨_, toks, _, _, h, _⟩ := goodNet_exported i
  exact ⟨toks, h, edited_network_settled_partial rangeX_integers rangeX_doubles h settledNet_inside (plain_history _ _ shownHistory_plain) shownHistory_quiet
    shownHistory_run shownNet_fits shownNet_kept i⟩

/-- The load is shown by its identifier, without a side. -/
example : (settled shownNet).subs.flatMap (fun s => s.vls.flatMap fun v => v.equip.gens.map fun g => g.reg) = [some ⟨"L", ""⟩] := by decide +kernel

end Verif.ReadBack
