import Verif.ReadBack.QuietLemmas
import Verif.ReadBack.Props
import Verif.Setters.Props

/-!
C95: after quiet calls the objects of a network still go together, and its document is imported as the network that it has become.
-/

namespace Verif.ReadBack

open Verif Verif.Xml Verif.XmlNet Verif.Setters

variable {T : Type}

theorem bus_quiet {vl : String} {o : BusOp} {x y : Bus} (ho : o.Quiet) (h : o.set x = .ok y) : bare (busItem vl y) = bare (busItem vl x) := by
  cases o with
  | ident o => obtain ⟨i, hi, rfl⟩ := lift_ok h; simp [bare, busItem, plain, ident_quiet ho hi]
  | setV d => obtain ⟨_, rfl⟩ := grd_ok.1 h; rfl
  | setAngle d => simp only [BusOp.set, Out.ok.injEq] at h; subst h; rfl

theorem bbs_quiet {vl : String} {o : IdentOp} {x y : Bbs} (ho : o.Quiet) (h : bbsSet o x = .ok y) : bare (bbsItem vl y) = bare (bbsItem vl x) := by
  obtain ⟨i, hi, rfl⟩ := lift_ok h; simp [bare, bbsItem, injection, ident_quiet ho hi]

theorem nsw_quiet {o : SwOp} {x y : NSw} (ho : o.Quiet) (h : o.setN x = .ok y) : bare (nswItem y) = bare (nswItem x) := by
  cases o with
  | ident o => obtain ⟨i, hi, rfl⟩ := lift_ok h; simp [bare, nswItem, plain, ident_quiet ho hi]
  | _ => simp only [SwOp.setN, Out.ok.injEq] at h; subst h; rfl

theorem bsw_quiet {vl : String} {o : SwOp} {x y : BSw} (ho : o.Quiet) (h : o.setB x = .ok y) : bare (bswItem vl y) = bare (bswItem vl x) := by
  cases o with
  | ident o => obtain ⟨i, hi, rfl⟩ := lift_ok h; simp [bare, bswItem, ident_quiet ho hi]
  | setOpen b => simp only [SwOp.setB, Out.ok.injEq] at h; subst h; rfl
  | setRetained b => cases h

theorem topo_quiet {vl : String} {t u : Topo} (h : (∃ i o, IdentOp.Quiet o ∧ topoBbs i o t = .ok u) ∨ (∃ i o, BusOp.Quiet o ∧ topoBus i o t = .ok u) ∨
    ∃ i o, SwOp.Quiet o ∧ topoSw i o t = .ok u) : u.isNode = t.isNode ∧ (topoItems vl u).map bare = (topoItems vl t).map bare := by
  cases t with
  | node bbs sws conns calcs =>
    rcases h with ⟨i, o, ho, h⟩ | ⟨i, o, ho, h⟩ | ⟨i, o, ho, h⟩
    · obtain ⟨l, hl, rfl⟩ := lift_ok h
      refine ⟨rfl, ?_⟩
      simp only [topoItems, List.map_append, map_bare (set_map_same hl fun _ _ h => bbs_quiet ho h)]
    · cases h
    · obtain ⟨l, hl, rfl⟩ := lift_ok h
      refine ⟨rfl, ?_⟩
      simp only [topoItems, List.map_append, map_bare (set_map_same hl fun _ _ h => nsw_quiet ho h)]
  | bus buses sws =>
    rcases h with ⟨i, o, ho, h⟩ | ⟨i, o, ho, h⟩ | ⟨i, o, ho, h⟩
    · cases h
    · obtain ⟨l, hl, rfl⟩ := lift_ok h
      refine ⟨rfl, ?_⟩
      simp only [topoItems, List.map_append, map_bare (set_map_same hl fun _ _ h => bus_quiet ho h)]
    · obtain ⟨l, hl, rfl⟩ := lift_ok h
      refine ⟨rfl, ?_⟩
      simp only [topoItems, List.map_append, map_bare (set_map_same hl fun _ _ h => bsw_quiet ho h)]

theorem vl_quiet {N : Ref → Prop} {sub : String} {o : VLOp} {x y : VL} (ho : o.Quiet N) (h : o.set x = .ok y) :
    (vlItems sub y).map bare = (vlItems sub x).map bare ∧ Grown N (vlRefs x) (vlRefs y) := by
  cases o with
  | ident o =>
    obtain ⟨i, hi, rfl⟩ := lift_ok h
    refine ⟨?_, grown_refl _⟩
    simp only [vlItems, List.map_cons, ident_quiet_id hi]
    congr 1
    simp [bare, vlItem, plain, ident_quiet ho hi]
  | setHighVoltageLimit d | setLowVoltageLimit d | setNominalV d => obtain ⟨_, rfl⟩ := grd_ok.1 h; exact ⟨rfl, grown_refl _⟩
  | bbs i o =>
    obtain ⟨t, ht, rfl⟩ := lift_ok h
    obtain ⟨h1, h2⟩ := topo_quiet (vl := x.ident.head.id) (.inl ⟨i, o, ho, ht⟩)
    exact ⟨by simp only [vlItems, List.map_cons, List.map_append, vlItem, h1, h2], grown_refl _⟩
  | bus i o =>
    obtain ⟨t, ht, rfl⟩ := lift_ok h
    obtain ⟨h1, h2⟩ := topo_quiet (vl := x.ident.head.id) (.inr (.inl ⟨i, o, ho, ht⟩))
    exact ⟨by simp only [vlItems, List.map_cons, List.map_append, vlItem, h1, h2], grown_refl _⟩
  | sw i o =>
    obtain ⟨t, ht, rfl⟩ := lift_ok h
    obtain ⟨h1, h2⟩ := topo_quiet (vl := x.ident.head.id) (.inr (.inr ⟨i, o, ho, ht⟩))
    exact ⟨by simp only [vlItems, List.map_cons, List.map_append, vlItem, h1, h2], grown_refl _⟩
  | gen i o =>
    obtain ⟨l, hl, rfl⟩ := lift_ok h
    refine ⟨?_, grown_append (grown_append (set_grown hl fun _ _ h => (gen_quiet ho h).2) (grown_refl _)) (grown_refl _)⟩
    simp only [vlItems, vlItem, equipItems, List.map_cons, List.map_append, map_bare (set_map_same hl fun _ _ h => bare_injection (gen_quiet ho h).1)]
  | bat i o =>
    obtain ⟨l, hl, rfl⟩ := lift_ok h
    refine ⟨?_, grown_refl _⟩
    simp only [vlItems, vlItem, equipItems, List.map_cons, List.map_append, map_bare (set_map_same hl fun _ _ h => bare_injection (bat_quiet ho h))]
  | load i o =>
    obtain ⟨l, hl, rfl⟩ := lift_ok h
    refine ⟨?_, grown_refl _⟩
    simp only [vlItems, vlItem, equipItems, List.map_cons, List.map_append, map_bare (set_map_same hl fun _ _ h => bare_injection (load_quiet ho h))]
  | sh i o =>
    obtain ⟨l, hl, rfl⟩ := lift_ok h
    refine ⟨?_, grown_append (grown_append (grown_refl _) (set_grown hl fun _ _ h => (sh_quiet ho h).2)) (grown_refl _)⟩
    simp only [vlItems, vlItem, equipItems, List.map_cons, List.map_append, map_bare (set_map_same hl fun _ _ h => bare_injection (sh_quiet ho h).1)]
  | dl i o =>
    obtain ⟨l, hl, rfl⟩ := lift_ok h
    refine ⟨?_, grown_refl _⟩
    simp only [vlItems, vlItem, equipItems, List.map_cons, List.map_append, map_bare (set_map_same hl fun _ _ h => bare_injection (dl_quiet ho h))]
  | svc i o =>
    obtain ⟨l, hl, rfl⟩ := lift_ok h
    refine ⟨?_, grown_append (grown_refl _) (set_grown hl fun _ _ h => (svc_quiet ho h).2)⟩
    simp only [vlItems, vlItem, equipItems, List.map_cons, List.map_append, map_bare (set_map_same hl fun _ _ h => bare_injection (svc_quiet ho h).1)]
  | vsc i o =>
    obtain ⟨l, hl, rfl⟩ := lift_ok h
    refine ⟨?_, grown_refl _⟩
    simp only [vlItems, vlItem, equipItems, List.map_cons, List.map_append, map_bare (set_map_same hl fun _ _ h => bare_injection (vsc_quiet ho h))]
  | lcc i o =>
    obtain ⟨l, hl, rfl⟩ := lift_ok h
    refine ⟨?_, grown_refl _⟩
    simp only [vlItems, vlItem, equipItems, List.map_cons, List.map_append, map_bare (set_map_same hl fun _ _ h => bare_injection (lcc_quiet ho h))]

theorem sub_quiet {N : Ref → Prop} {o : SubOp} {x y : Substation} (ho : o.Quiet N) (h : o.set x = .ok y) :
    (substationItems y).map bare = (substationItems x).map bare ∧ Grown N (substationRefs x) (substationRefs y) := by
  cases o with
  | ident o =>
    obtain ⟨i, hi, rfl⟩ := lift_ok h
    refine ⟨?_, grown_refl _⟩
    simp only [substationItems, List.map_cons, ident_quiet_id hi]
    congr 1
    simp [bare, plain, ident_quiet ho hi]
  | addGeographicalTag t | setCountry c | setTso t => simp only [SubOp.set, Out.ok.injEq] at h; subst h; exact ⟨rfl, grown_refl _⟩
  | vl i o =>
    obtain ⟨l, hl, rfl⟩ := lift_ok h
    refine ⟨?_, grown_append (grown_append (set_grown hl fun _ _ h => (vl_quiet (sub := "") ho h).2) (grown_refl _)) (grown_refl _)⟩
    simp only [substationItems, List.map_cons, List.map_append, List.map_flatMap, set_flatMap_same hl fun _ _ h => (vl_quiet (sub := x.ident.head.id) ho h).1]
  | tw2 i o =>
    obtain ⟨l, hl, rfl⟩ := lift_ok h
    refine ⟨?_, grown_append (grown_append (grown_refl _) (set_grown hl fun _ _ h => (tw2_quiet ho h).2)) (grown_refl _)⟩
    simp only [substationItems, List.map_cons, List.map_append, map_bare (g := tw2Item x.ident.head.id) (set_map_same hl fun _ _ h => bare_branch (tw2_quiet ho h).1)]
  | tw3 i o =>
    obtain ⟨l, hl, rfl⟩ := lift_ok h
    refine ⟨?_, grown_append (grown_refl _) (set_grown hl fun _ _ h => (tw3_quiet ho h).2)⟩
    simp only [substationItems, List.map_cons, List.map_append, map_bare (g := tw3Item x.ident.head.id) (set_map_same hl fun _ _ h => bare_branch (tw3_quiet ho h).1)]

theorem anyLine_quiet {o : AnyLineOp} {x y : AnyLine} (ho : o.Quiet) (h : o.set x = .ok y) : bare (lineItem y) = bare (lineItem x) := by
  cases o with
  | line o =>
    cases x with
    | line x => obtain ⟨l, hl, rfl⟩ := lift_ok h; exact bare_branch (line_quiet ho hl)
    | tie x => cases h
  | tie o =>
    cases x with
    | line x => cases h
    | tie x => obtain ⟨l, hl, rfl⟩ := lift_ok h; exact bare_branch (tie_quiet ho hl)

theorem net_quiet {N : Ref → Prop} {o : NetOp T} {x y : Net T} (ho : o.Quiet N) (h : o.set x = .ok y) :
    (netItems y).map bare = (netItems x).map bare ∧ Grown N (netRefs x) (netRefs y) := by
  cases o with
  | ident o =>
    obtain ⟨i, hi, rfl⟩ := lift_ok h
    refine ⟨?_, grown_refl _⟩
    simp only [netItems, List.map_cons]
    congr 1
    simp [bare, plain, ident_quiet ho hi]
  | setCaseDate d => simp only [NetOp.set, Out.ok.injEq] at h; subst h; exact ⟨rfl, grown_refl _⟩
  | setForecastDistance i => obtain ⟨_, rfl⟩ := grd_ok.1 h; exact ⟨rfl, grown_refl _⟩
  | sub i o =>
    obtain ⟨l, hl, rfl⟩ := lift_ok h
    refine ⟨?_, set_grown hl fun _ _ h => (sub_quiet ho h).2⟩
    simp only [netItems, List.map_cons, List.map_append, List.map_flatMap, set_flatMap_same hl fun _ _ h => (sub_quiet ho h).1]
  | line i o =>
    obtain ⟨l, hl, rfl⟩ := lift_ok h
    refine ⟨?_, grown_refl _⟩
    simp only [netItems, List.map_cons, List.map_append, map_bare (set_map_same hl fun _ _ h => anyLine_quiet ho h)]
  | hvdc i o =>
    obtain ⟨l, hl, rfl⟩ := lift_ok h
    refine ⟨?_, grown_refl _⟩
    simp only [netItems, List.map_cons, List.map_append, map_bare (set_map_same hl fun _ _ h => hvdc_quiet ho h)]

theorem run_quiet {N : Ref → Prop} : ∀ (os : List (NetOp T)) {x y : Net T}, (∀ o ∈ os, o.Quiet N) → Setters.run x os = .ok y →
    (netItems y).map bare = (netItems x).map bare ∧ Grown N (netRefs x) (netRefs y) := by
  intro os
  induction os with
  | nil => intro x y _ h; simp only [Setters.run, Out.ok.injEq] at h; subst h; exact ⟨rfl, grown_refl _⟩
  | cons o os ih =>
    intro x y ho h
    have hos : ∀ o ∈ os, o.Quiet N := fun o h => ho o (List.mem_cons_of_mem _ h)
    simp only [Setters.run] at h
    cases hz : o.set x with
    | ok z =>
      rw [hz] at h
      obtain ⟨a, b⟩ := net_quiet (ho o (List.mem_cons_self ..)) hz
      obtain ⟨c, d⟩ := ih hos h
      exact ⟨c.trans a, fun r hr => (d r hr).elim (b r) .inr⟩
    | thrown => rw [hz] at h; exact ih hos h
    | ub => rw [hz] at h; cases h

/-- **C95** The objects of a network go together after quiet calls, and its references are terminals, as before them. -/
theorem quiet_network_goes_together {x y : Net T} {os : List (NetOp T)} (hc : Consistent (netItems x)) (hr : ∀ r, x.HasRef r → RefNamed (netItems x) r)
    (ho : ∀ o ∈ os, o.Quiet (RefNamed (netItems x))) (h : Setters.run x os = .ok y) : Consistent (netItems y) ∧ ∀ r, y.HasRef r → RefNamed (netItems y) r := by
  obtain ⟨h1, h2⟩ := run_quiet os ho h
  refine ⟨consistent_bare.1 (h1 ▸ consistent_bare.2 hc), fun r hy => ?_⟩
  have hn : RefNamed (netItems x) r := (h2 r (mem_netRefs.2 hy)).elim (fun hx => hr r (mem_netRefs.1 hx)) id
  exact refNamed_bare.1 (h1 ▸ refNamed_bare.2 hn)

/-- **C95** Import, edit, export, import: after safe and quiet calls on an imported network, its document is imported as the network that it has become, if it fits.
`_partial`: calls that add or remove an alias or that move a terminal are left out. -/
theorem edited_network_imported_partial {K : XCodec} {D : Dates T} (hK : K.Integers) (hd : K.Doubles) {toks : List Tok} {x y : Net T} {q : St × List (String × Nat)}
    {os : List (NetOp T)} (hq : importNet K .none D toks = .ok (x, q)) (hi : NetInside x) (hs : SafeHistory x os) (ho : ∀ o ∈ os, o.Quiet (RefNamed (netItems x)))
    (h : Setters.run x os = .ok y) (hf : NetFits D y) (hk : Kept K (netNumbers y)) (i : Bool) :
    ∃ cs toks' q', writeNet K .none D y = .ok cs ∧ document i cs = .ok toks' ∧ importNet K .none D toks' = .ok (y, q') := by
  obtain ⟨hv, hc, hr⟩ := imported_network hd hq
  obtain ⟨hc', hr'⟩ := quiet_network_goes_together hc hr ho h
  obtain ⟨cs, toks', w1, w2, w3⟩ := edited_network_read_back hK hv hi hs h hf hk i
  obtain ⟨q', hq'⟩ := (import_iff hd).2 ⟨w3, hc', hr'⟩
  exact ⟨cs, toks', q', w1, w2, hq'⟩

/-! ### Examples -/

theorem goodNet_inside : NetInside goodNet := by
  intro s hs
  simp only [goodNet, List.mem_cons, List.not_mem_nil, or_false] at hs
  subst hs
  refine ⟨fun t ht => ?_, fun t ht => by cases ht⟩
  simp only [goodSubstation, List.mem_cons, List.not_mem_nil, or_false] at ht
  subst ht
  exact ⟨by rintro t ⟨⟩; exact someRtc_inside, by rintro t ⟨⟩; exact somePtc_inside⟩

/-- A load that is changed and connected, a generator that regulates at the load, that it knows by an alias, a refused limit of power, a line of another resistance. -/
def quietHistory : List (NetOp String) :=
  [.sub 0 (.vl 1 (.load 0 (.setP0 50))), .sub 0 (.vl 1 (.load 0 (.term .connect))), .sub 0 (.vl 0 (.gen 0 (.setRegulatingTerminal (some ⟨"alias", ""⟩) true))),
    .sub 0 (.vl 0 (.gen 0 (.setMinP 20))), .line 0 (.line (.z (.setR 9))), .setForecastDistance 3]

def quietVL : VL := { goodVL with equip := { goodVL.equip with gens := [{ someGen with reg := some ⟨"alias", ""⟩ }] } }

def quietVL2 : VL := { goodVL2 with equip := { goodVL2.equip with loads := [{ someLoad with p0 := 50, term := ⟨.bus "B" true, 2, .nan⟩ }] } }

def quietNet : Net String := { goodNet with forecast := 3, subs := [{ goodSubstation with vls := [quietVL, quietVL2] }], lines :=
  [.line { someLine with ident := ⟨⟨"LN", "", false⟩, [], []⟩, side1 := ⟨"V1", ⟨.node 8, 1, .nan⟩⟩, z := ⟨9, 2, 3, 4, 5, 6⟩ }] }

theorem quietHistory_run : Setters.run goodNet quietHistory = .ok quietNet := rfl

theorem quietHistory_plain : ∀ o ∈ quietHistory, o.Plain := by
  intro o ho
  simp only [quietHistory, List.mem_cons, List.not_mem_nil, or_false] at ho
  rcases ho with rfl | rfl | rfl | rfl | rfl | rfl <;> simp [NetOp.Plain, SubOp.Plain, VLOp.Safe, GenOp.Safe]

theorem quietHistory_quiet : ∀ o ∈ quietHistory, o.Quiet (RefNamed (netItems goodNet)) := by
  intro o ho
  simp only [quietHistory, List.mem_cons, List.not_mem_nil, or_false] at ho
  rcases ho with rfl | rfl | rfl | rfl | rfl | rfl <;>
    simp only [NetOp.Quiet, SubOp.Quiet, VLOp.Quiet, LoadOp.Quiet, TermOp.Quiet, GenOp.Quiet, AnyLineOp.Quiet, LineOp.Quiet]
  rintro r ⟨⟩
  exact ⟨injection "VL2" someLoad.ident (.equip 1) someLoad.term.place, by decide +kernel, by decide, 1, .equip 1, .inl rfl⟩

theorem quietNet_fits : NetFits textDates quietNet := by
  have h := goodNet_fits.2.1
  have hs := h.subs goodSubstation List.mem_cons_self
  have hv := hs.vls goodVL List.mem_cons_self
  have hw := hs.vls goodVL2 (List.mem_cons_of_mem _ List.mem_cons_self)
  have hg := hv.equip.gens someGen List.mem_cons_self
  have hl := hw.equip.loads someLoad List.mem_cons_self
  have hline := h.lines (.line { someLine with ident := ⟨⟨"LN", "", false⟩, [], []⟩, side1 := ⟨"V1", ⟨.node 8, 1, .nan⟩⟩ }) List.mem_cons_self
  refine { h with forecast := by decide, subs := only_ok { hs with vls := ?_ }, lines := only_ok hline }
  intro v hm
  simp only [List.mem_cons, List.not_mem_nil, or_false] at hm
  rcases hm with rfl | rfl
  · exact { hv with equip := { hv.equip with gens := only_ok { hg with reg := by rintro r ⟨⟩; decide } } }
  · exact { hw with equip := { hw.equip with loads := only_ok { hl with place := hl.place } } }

theorem quietNet_kept : Kept rangeX (netNumbers quietNet) := rangeX_kept (by decide +kernel)

example (i : Bool) : ∃ cs toks, writeNet rangeX .none textDates quietNet = .ok cs ∧ document i cs = .ok toks ∧ readNet rangeX .none textDates toks = .ok quietNet :=
  edited_network_read_back rangeX_integers goodNet_fits.1 goodNet_inside (plain_history _ _ quietHistory_plain) quietHistory_run quietNet_fits quietNet_kept i

example : Consistent (netItems quietNet) ∧ ∀ r, quietNet.HasRef r → RefNamed (netItems quietNet) r :=
  quiet_network_goes_together goodNet_consistent.1 goodNet_consistent.2 quietHistory_quiet quietHistory_run

example (i : Bool) : ∃ toks q, importNet rangeX .none textDates toks = .ok (goodNet, q) ∧
    ∃ cs toks' q', writeNet rangeX .none textDates quietNet = .ok cs ∧ document i cs = .ok toks' ∧ importNet rangeX .none textDates toks' = .ok (quietNet, q') := by
  obtain ⟨cs, toks, r, _, _, h⟩ := import_export_partial (D := textDates) rangeX_integers (network_ok_iff.2 ⟨goodNet_fits.1, goodNet_fits.2.1, goodNet_kept⟩).1 goodNet_consistent.1 goodNet_consistent.2 true
  exact ⟨toks, r, h, edited_network_imported_partial rangeX_integers rangeX_doubles h goodNet_inside (plain_history _ _ quietHistory_plain) quietHistory_quiet quietHistory_run
    quietNet_fits quietNet_kept i⟩

end Verif.ReadBack
