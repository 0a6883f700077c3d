import Verif.XmlNet.AcceptOrder
import Verif.XmlNet.NetProps
import Verif.XmlNet.NetImportProps

/-!
C72: an import accepts exactly the networks whose objects go together.
-/

namespace Verif.XmlNet

open Verif Verif.Xml

/-- **C72** A network whose identifiables are valid is accepted by the adders if and only if its objects go together. -/
theorem run_iff {T : Type} (x : Net T) (hv : ∀ y ∈ netItems x, IdentValid y.ident) : (∃ st, run St.empty ((netItems x).flatMap itemOps) = .ok st) ↔ Consistent (netItems x) := by
  constructor
  · rintro ⟨st, hs⟩
    have := ran_run ran_empty hs
    rw [List.nil_append] at this
    exact Ran.consistent this hv
  · intro h
    exact run_can ran_empty (canRun_items (pre := []) (net_ready h) h.ids (by simpa using h.names) (by simpa [NodesFree] using h.nodes))

/-- **C72** A network whose identifiables are valid is accepted if and only if its objects go together and its references designate terminals. -/
theorem accept_iff {T : Type} (x : Net T) (hv : ∀ y ∈ netItems x, IdentValid y.ident) :
    (∃ r, accept x = .ok r) ↔ Consistent (netItems x) ∧ ∀ r, x.HasRef r → RefNamed (netItems x) r := by
  unfold accept
  constructor
  · rintro ⟨r, hr⟩
    obtain ⟨st, h1, hr⟩ := Out.bind_eq_ok.1 hr
    obtain ⟨ts, h2, hr⟩ := Out.bind_eq_ok.1 hr
    refine ⟨(run_iff x hv).1 ⟨st, h1⟩, fun r hr => ?_⟩
    have hran := ran_run ran_empty h1
    obtain ⟨t, _, ht⟩ := ((resolveRefs_ok (l := netItems x) hran).1 h2).left r (mem_netRefs.2 hr)
    exact refNamed_iff.2 ⟨t, ht⟩
  · rintro ⟨hc, hr⟩
    obtain ⟨st, h1⟩ := run_can ran_empty (canRun_items (pre := []) (net_ready hc) hc.ids (by simpa using hc.names) (by simpa [NodesFree] using hc.nodes))
    have hran := ran_run ran_empty h1
    obtain ⟨ts, hts⟩ := all2_of (l := netRefs x) fun r hm => refNamed_iff.1 (hr r (mem_netRefs.1 hm))
    have h2 := (resolveRefs_ok (l := netItems x) hran).2 hts
    exact ⟨(st, ts), by rw [show run St.empty ((netItems x).flatMap itemOps) = _ from h1, Out.monad_bind_ok, h2]; rfl⟩

/-- **C72** What the accepted network is: its objects under their identifiers, every terminal in the voltage level that it names, every HVDC line between the
stations that it names, every reference on the terminal that it names. -/
theorem accept_result {T : Type} {x : Net T} {st : St} {ts : List (String × Nat)} (h : accept x = .ok (st, ts)) :
    st.objs = (netItems x).map (fun y => (y.id, y.obj)) ∧
    All2 (fun e p => p.2 = e.place ∧ ∃ v ∈ netItems x, p.1 = v.id ∧ e.vl ∈ v.names ∧ ∃ sub node, v.obj = .level sub node) ((netItems x).flatMap Item.ends) st.ends ∧
    All2 (fun (l : HvdcLine) t => t.1 = l.ident.head.id ∧ (∃ s ∈ netItems x, t.2.1 = s.id ∧ s.obj = .station ∧ l.station1 ∈ s.names) ∧
      ∃ s ∈ netItems x, t.2.2 = s.id ∧ s.obj = .station ∧ l.station2 ∈ s.names) x.hvdcs st.hvdcs ∧
    All2 (Designates (netItems x)) (netRefs x) ts := by
  unfold accept at h
  obtain ⟨s1, h1, h⟩ := Out.bind_eq_ok.1 h
  obtain ⟨s2, h2, h⟩ := Out.bind_eq_ok.1 h
  simp only [Out.ok.injEq, Prod.mk.injEq] at h
  obtain ⟨rfl, rfl⟩ := h
  have hran : Ran (opsOf (netItems x)) s1 := by
    have := ran_run ran_empty h1
    exact this
  refine ⟨by rw [hran.objs, objs_ops], ?_, ?_, (resolveRefs_ok hran).1 h2⟩
  · rw [← ends_ops]
    refine hran.ends.imp ?_
    rintro e p ⟨hp, hd, sub, node, hn, _⟩
    obtain ⟨v, hv, hi, ho⟩ := new_mem.1 hn
    exact ⟨hp, v, hv, hi.symm, (means_iff hran.uniqueIds hv).1 (hi ▸ hd.means), sub, node, ho⟩
  · have e : hvdcsOf (opsOf (netItems x)) = x.hvdcs.map fun l => (l.ident.head.id, l.station1, l.station2) := by
      rw [hvdcs_ops]
      have hnone : ∀ l : List Item, (∀ y ∈ l, y.stations = none) → (l.flatMap fun y => (y.stations.map fun s => (y.id, s.1, s.2)).toList) = [] := by
        intro l hl
        rw [List.flatMap_eq_nil_iff]
        intro y hy
        rw [hl y hy]; rfl
      simp only [netItems, List.flatMap_cons, List.flatMap_append]
      rw [hnone (x.subs.flatMap substationItems), hnone (x.lines.map lineItem)]
      · rw [List.flatMap_map, map_eq_flatMap]; rfl
      · intro y hy
        obtain ⟨t, _, rfl⟩ := List.mem_map.1 hy
        cases t <;> rfl
      · intro y hy
        obtain ⟨s, _, hy⟩ := List.mem_flatMap.1 hy
        rcases mem_substationItems.1 hy with rfl | ⟨v, _, hy⟩ | ⟨t, _, rfl⟩ | ⟨t, _, rfl⟩
        · rfl
        · cases hy <;> rfl
        · rfl
        · rfl
    have key : ∀ n i, StationOk (opsOf (netItems x)) n i → ∃ s ∈ netItems x, i = s.id ∧ s.obj = .station ∧ n ∈ s.names := by
      rintro n i ⟨_, hm, hn⟩
      obtain ⟨y, hy, hi, ho⟩ := new_mem.1 hn
      exact ⟨y, hy, hi.symm, ho, (means_iff hran.uniqueIds hy).1 (hi ▸ hm)⟩
    have hh := hran.hvdcs
    rw [e] at hh
    have hmap : ∀ {l : List HvdcLine} {k : List (String × String × String)}, All2 (fun h t => t.1 = h.1 ∧ StationOk (opsOf (netItems x)) h.2.1 t.2.1 ∧ StationOk (opsOf (netItems x)) h.2.2 t.2.2)
        (l.map fun l => (l.ident.head.id, l.station1, l.station2)) k → All2 (fun (l : HvdcLine) t => t.1 = l.ident.head.id ∧ StationOk (opsOf (netItems x)) l.station1 t.2.1 ∧
        StationOk (opsOf (netItems x)) l.station2 t.2.2) l k := by
      intro l
      induction l with
      | nil => intro k h; cases k with
        | nil => trivial
        | cons _ _ => exact h
      | cons a l ih => intro k h; cases k with
        | nil => exact h
        | cons _ _ => exact ⟨h.1, ih h.2⟩
    exact (hmap hh).imp fun l t h => ⟨h.1, key _ _ h.2.1, key _ _ h.2.2⟩

/-! ### The import of a document -/

theorem NetValid.idents {T : Type} {x : Net T} (h : NetValid x) : ∀ y ∈ netItems x, IdentValid y.ident := by
  intro y hy
  cases mem_netItems.1 hy with
  | network => exact h.ident
  | substation hs => exact (h.subs _ hs).ident
  | transformer2 hs ht => exact ((h.subs _ hs).tw2s _ ht).ident
  | transformer3 hs ht => exact ((h.subs _ hs).tw3s _ ht).ident
  | line hl => exact LineValid.ident (h.lines _ hl)
  | tieLine hl => exact TieValid.ident (h.lines _ hl)
  | hvdc hl => exact (h.hvdcs _ hl).ident
  | inLevel hs hv hy =>
    have hl := (h.subs _ hs).vls _ hv
    have ht := hl.topo
    cases hy with
    | level => exact hl.ident
    | busbar e hx => rw [e] at ht; exact ht.1 _ hx
    | nodeSwitch e hx => rw [e] at ht; exact (ht.2 _ hx).ident
    | bus e hx => rw [e] at ht; exact (ht.1 _ hx).ident
    | busSwitch e hx => rw [e] at ht; exact (ht.2 _ hx).ident
    | generator hx => exact (hl.equip.gens _ hx).ident
    | battery hx => exact (hl.equip.bats _ hx).ident
    | load hx => exact (hl.equip.loads _ hx).ident
    | shunt hx => exact (hl.equip.shs _ hx).ident
    | danglingLine hx => exact (hl.equip.dls _ hx).ident
    | svc hx => exact (hl.equip.svcs _ hx).ident
    | vsc hx => exact (hl.equip.vscs _ hx).ident
    | lcc hx => exact (hl.equip.lccs _ hx).ident

/-- **C72** A document is imported if and only if it can be read, its objects go together and its references designate terminals. -/
theorem import_iff {T : Type} {K : XCodec} (hK : K.Doubles) {A : Anon} {D : Dates T} {toks : List Tok} {x : Net T} :
    (∃ r, importNet K A D toks = .ok (x, r)) ↔ readNet K A D toks = .ok x ∧ Consistent (netItems x) ∧ ∀ r, x.HasRef r → RefNamed (netItems x) r := by
  unfold importNet
  constructor
  · rintro ⟨r, hr⟩
    obtain ⟨y, h1, hr⟩ := Out.bind_eq_ok.1 hr
    obtain ⟨q, h2, hr⟩ := Out.bind_eq_ok.1 hr
    simp only [Out.ok.injEq, Prod.mk.injEq] at hr
    obtain ⟨rfl, rfl⟩ := hr
    exact ⟨h1, (accept_iff y (read_network_valid hK h1).1.idents).1 ⟨_, h2⟩⟩
  · rintro ⟨h1, h2⟩
    obtain ⟨r, hr⟩ := (accept_iff x (read_network_valid hK h1).1.idents).2 h2
    exact ⟨r, by rw [h1, Out.monad_bind_ok, hr]; rfl⟩

/-- **C72** An imported network is valid and its objects go together. -/
theorem imported_network {T : Type} {K : XCodec} (hK : K.Doubles) {A : Anon} {D : Dates T} {toks : List Tok} {x : Net T} {r : St × List (String × Nat)}
    (h : importNet K A D toks = .ok (x, r)) : NetValid x ∧ Consistent (netItems x) ∧ ∀ r, x.HasRef r → RefNamed (netItems x) r := by
  obtain ⟨h1, h2⟩ := (import_iff hK).1 ⟨r, h⟩
  exact ⟨(read_network_valid hK h1).1, h2⟩

/-- **C72** The document of a network whose objects go together is imported, and gives the network back, but for its fictitious flag.
`_partial`: the conditions of `network_round_trip_partial`. -/
theorem import_export_partial {T : Type} {K : XCodec} (hK : K.Integers) {A : Anon} {D : Dates T} {x : Net T} (h : NetOk K A D x) (hc : Consistent (netItems x))
    (hr : ∀ r, x.HasRef r → RefNamed (netItems x) r) (i : Bool) :
    ∃ cs toks r, writeNet K A D x = .ok cs ∧ document i cs = .ok toks ∧
      importNet K A D toks = .ok ({ x with ident := { x.ident with head := { x.ident.head with fictitious := false } } }, r) := by
  obtain ⟨cs, toks, h1, h2, h3⟩ := network_round_trip_partial hK h i
  obtain ⟨st, hst⟩ := run_can ran_empty (canRun_items (pre := []) (net_ready hc) hc.ids (by simpa using hc.names) (by simpa [NodesFree] using hc.nodes))
  have hran := ran_run ran_empty hst
  obtain ⟨ts, hts⟩ := all2_of (l := netRefs x) fun r hm => refNamed_iff.1 (hr r (mem_netRefs.1 hm))
  have hres := (resolveRefs_ok (l := netItems x) hran).2 hts
  have ha : accept x = .ok (st, ts) := by
    unfold accept
    rw [show run St.empty ((netItems x).flatMap itemOps) = _ from hst, Out.monad_bind_ok, hres]; rfl
  refine ⟨cs, toks, (st, ts), h1, h2, ?_⟩
  unfold importNet
  rw [h3, Out.monad_bind_ok, show accept { x with ident := { x.ident with head := { x.ident.head with fictitious := false } } } = accept x from rfl, ha]
  rfl

/-- **C72** The import never looks for the owner of an alias or for the voltage level of an equipment that is not in the network: whatever the network, the outcome
is a network or an exception. -/
theorem accept_defined {T : Type} (x : Net T) : accept x ≠ .ub := by
  unfold accept
  have h1 := run_safe ran_empty (safe_items (pre := []) (net_placed x))
  cases hr : run St.empty ((netItems x).flatMap itemOps) with
  | ub => exact absurd hr h1
  | thrown => nofun
  | ok st =>
    rw [Out.monad_bind_ok]
    cases h2 : resolveRefs st (netRefs x) with
    | ub => exact absurd h2 (resolveRefs_defined st _)
    | thrown => nofun
    | ok ts => nofun

/-! ### A network whose objects go together -/

instance (x : Ident) : Decidable (IdentValid x) :=
  decidable_of_iff ((∀ a ∈ x.aliases, a.1 ≠ x.head.id) ∧ (x.aliases.map Prod.fst).Nodup ∧ (x.aliases.Pairwise fun a b => a.2 ≠ "" → a.2 ≠ b.2) ∧ (AMap.keys x.props).Nodup)
    ⟨fun ⟨a, b, c, d⟩ => ⟨a, b, c, d⟩, fun ⟨a, b, c, d⟩ => ⟨a, b, c, d⟩⟩

theorem alias_ident {i a : String} (hb : ¬ Blank a) (hn : a ≠ i) : IdentOk Anon.none ⟨⟨i, "", false⟩, [(a, "")], []⟩ :=
  ⟨none_head _, only_ok ⟨⟨rfl, hb⟩, hn⟩, by simp, by simp, .nil⟩

/-- A node/breaker voltage level that the branches know by its alias. -/
def goodVL : VL := ⟨⟨⟨"V1", "", false⟩, [("VL1", "")], []⟩, 225, .nan, 250, .node [⟨⟨⟨"BBS", "", false⟩, [], []⟩, 0⟩] [⟨⟨⟨"S1", "", false⟩, [], []⟩, 1, false, true, 0, 7⟩] [(1, 2)] [],
  ⟨[someGen], [], [], [], [], [], [], [{ someLcc with ident := ⟨⟨"C1", "", false⟩, [], []⟩ }]⟩⟩

def goodVL2 : VL := ⟨⟨⟨"VL2", "", false⟩, [], []⟩, 400, 380, 420, someTopo2, ⟨[], [], [someLoad], [someSh], [], [], [{ someVsc with ident := ⟨⟨"C2", "", false⟩, [], []⟩ }], []⟩⟩

/-- The generator regulates the second side of the transformer, that it knows by its alias. -/
def goodSubstation : Substation := ⟨⟨⟨"P", "", false⟩, [], []⟩, none, "", [], [goodVL, goodVL2], [{ someTw2 with ident := ⟨⟨"T2", "", false⟩, [("T", "")], []⟩ }], []⟩

def goodNet : Net String :=
  ⟨⟨⟨"N", "N", false⟩, [], []⟩, "test", 15, "2026-11-17", [goodSubstation], [.line { someLine with ident := ⟨⟨"LN", "", false⟩, [], []⟩, side1 := ⟨"V1", ⟨.node 8, 1, .nan⟩⟩ }], [someHvdc]⟩

theorem goodNet_ok : NetOk toyX Anon.none textDates goodNet where
  name := rfl
  id := by decide
  format := by decide
  aliases := no_one
  nodup := .nil
  types := .nil
  props := .nil
  forecast := by decide
  date := rfl
  subs := only_ok {
    ident := plain_ident
    country := nofun
    tso := ⟨rfl, by decide⟩
    tags := ⟨.nil, no_one, no_one, by decide⟩
    vls := by
      intro v hv
      simp only [goodSubstation, List.mem_cons, List.not_mem_nil, or_false] at hv
      rcases hv with rfl | rfl
      · exact ⟨alias_ident (by decide) (by decide), ⟨by decide, toyX_keeps _⟩, ⟨.inl rfl, toyX_keeps _⟩, ⟨.inr (by decide), toyX_keeps _⟩, by decide,
          ⟨only_ok ⟨plain_ident, by decide⟩, only_ok ⟨plain_ident, by decide, by decide, by decide⟩, by decide, no_one⟩,
          ⟨only_ok someGen_ok, no_one, no_one, no_one, no_one, no_one, no_one, only_ok ⟨plain_ident, someLcc_ok.2, someLcc_ok.3, someLcc_ok.4⟩⟩⟩
      · exact ⟨plain_ident, ⟨by decide, toyX_keeps _⟩, ⟨.inr (by decide), toyX_keeps _⟩, ⟨.inr (by decide), toyX_keeps _⟩, by decide, someTopo2_ok,
          ⟨no_one, no_one, only_ok someLoad_ok, only_ok someSh_ok, no_one, no_one, only_ok ⟨plain_ident, someVsc_ok.2, someVsc_ok.3, someVsc_ok.4, someVsc_ok.5, someVsc_ok.6⟩, no_one⟩⟩
    tw2s := only_ok { someTw2_ok with ident := alias_ident (by decide) (by decide) }
    tw3s := no_one }
  lines := only_ok (show LineOk _ _ _ from ⟨plain_ident, someLine_ok.2, toy_node_side (by decide), someLine_ok.4, someLine_ok.5, someLine_ok.6⟩)
  hvdcs := only_ok someHvdc_ok

/-- The generator is on the second terminal of the transformer, as is its tap changer; the shunt is on the load. -/
theorem goodNet_accepted : (accept goodNet).map (fun r => r.2) = .ok [("T2", 1), ("L", 0), ("T2", 1)] := by decide +kernel

theorem goodNet_consistent : Consistent (netItems goodNet) ∧ ∀ r, goodNet.HasRef r → RefNamed (netItems goodNet) r := by
  refine (accept_iff goodNet (by decide +kernel)).1 ?_
  have h := goodNet_accepted
  cases ha : accept goodNet with
  | ok r => exact ⟨r, rfl⟩
  | thrown => rw [ha] at h; cases h
  | ub => rw [ha] at h; cases h

example (i : Bool) : ∃ cs toks r, writeNet toyX Anon.none textDates goodNet = .ok cs ∧ document i cs = .ok toks ∧ importNet toyX Anon.none textDates toks = .ok (goodNet, r) :=
  import_export_partial toyX_integers goodNet_ok goodNet_consistent.1 goodNet_consistent.2 i

/-- A line on the node of a busbar section, a line in a voltage level that does not exist, an HVDC line on a load, two objects of the same name. -/
example : accept { goodNet with lines := [.line { someLine with ident := ⟨⟨"LN", "", false⟩, [], []⟩, side1 := ⟨"V1", ⟨.node 0, 1, .nan⟩⟩ }] } = .thrown := by decide +kernel
example : accept { goodNet with lines := [.line { someLine with ident := ⟨⟨"LN", "", false⟩, [], []⟩, side1 := ⟨"V3", ⟨.node 9, 1, .nan⟩⟩ }] } = .thrown := by decide +kernel
example : accept { goodNet with hvdcs := [{ someHvdc with station2 := "L" }] } = .thrown := by decide +kernel
example : accept { goodNet with hvdcs := [{ someHvdc with ident := ⟨⟨"T", "", false⟩, [], []⟩ }] } = .thrown := by decide +kernel

end Verif.XmlNet
