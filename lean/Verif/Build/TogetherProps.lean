import Verif.Build.StructProps
import Verif.Setters.NetProps

/-!
C98: what an addition leaves of a network.
-/

namespace Verif.Build

open Verif Verif.Xml Verif.XmlNet Verif.Setters Verif.ReadBack

variable {T : Type} {l : List Item}

/-! ### Validity -/

theorem all_last {α : Type} {P : α → Prop} {xs : List α} {a : α} (h : ∀ x ∈ xs, P x) : (∀ x ∈ xs ++ [a], P x) ↔ P a := by
  constructor
  · intro h; exact h a (by simp)
  · intro ha x hx
    simp only [List.mem_append, List.mem_singleton] at hx
    rcases hx with hx | rfl
    · exact h x hx
    · exact ha

theorem none_in {α : Type} {P : α → Prop} : ∀ x ∈ ([] : List α), P x := by
  intro x hx; cases hx

theorem last_valid {α : Type} {P : α → Prop} {xs : List α} {a : α} (h : ∀ x ∈ xs, P x) (ha : P a) : ∀ x ∈ xs ++ [a], P x := (all_last h).2 ha

theorem topo_added {x : Out Topo} {v w : VL} (h : (x.map fun t => { v with topo := t }) = .ok w) : ∃ t, x = .ok t ∧ w = { v with topo := t } := by
  obtain ⟨t, ht, rfl⟩ := map_ok_iff.1 h
  exact ⟨t, ht, rfl⟩

theorem addBus_ok {b : Base} {t u : Topo} (h : addBus l b t = .ok u) : ∃ n buses sws, newId l b = some n ∧ t = .bus buses sws ∧ u = .bus (buses ++ [⟨b.ident n, .nan, .nan⟩]) sws := by
  cases t with
  | node => cases h
  | bus buses sws =>
    simp only [addBus] at h
    split at h
    · cases h
    · rename_i n hn; cases h; exact ⟨n, buses, sws, hn, rfl, rfl⟩

theorem addBusSwitch_ok {vl : String} {b : Base} {b1 b2 : String} {op : Bool} {t u : Topo} (h : addBusSwitch l vl b b1 b2 op t = .ok u) :
    ∃ n buses sws, newId l b = some n ∧ b1 ≠ "" ∧ b2 ≠ "" ∧ (∃ y ∈ l, y.id = b1 ∧ y.obj = .bus vl) ∧ (∃ y ∈ l, y.id = b2 ∧ y.obj = .bus vl) ∧ t = .bus buses sws ∧
      u = .bus buses (sws ++ [⟨b.ident n, op, b1, b2⟩]) := by
  cases t with
  | node => cases h
  | bus buses sws =>
    simp only [addBusSwitch] at h
    split at h
    · cases h
    · rename_i n hn
      simp only [grd_ok, Bool.or_eq_false_iff, beq_eq_false_iff_ne, Bool.not_eq_false', suits_of, true_and, and_assoc] at h
      obtain ⟨h1, h2, h3, h4, rfl⟩ := h
      exact ⟨n, buses, sws, hn, h1, h2, h3, h4, rfl, rfl⟩

theorem addBusbar_ok {vl : String} {b : Base} {node : Option Nat} {t u : Topo} (h : addBusbar l vl b node t = .ok u) :
    ∃ n k bbs sws conns calcs, newId l b = some n ∧ Fits l vl true (.node k) ∧ t = .node bbs sws conns calcs ∧ u = .node (bbs ++ [⟨b.ident n, k⟩]) sws conns calcs := by
  cases t with
  | bus => cases h
  | node bbs sws conns calcs =>
    simp only [addBusbar] at h
    obtain ⟨k, _, h⟩ := Out.bind_eq_ok.1 h
    split at h
    · cases h
    · rename_i n hn
      split at h
      · rename_i hf
        cases h
        exact ⟨n, k, bbs, sws, conns, calcs, hn, fits_iff.1 (by simp [suits, hf]), rfl, rfl⟩
      · cases h

theorem addNodeSwitch_ok {b : Base} {i j k : Option Nat} {op r : Bool} {t u : Topo} (h : addNodeSwitch l b i j k op r t = .ok u) :
    ∃ n i' j' k' bbs sws conns calcs, newId l b = some n ∧ k = some k' ∧ t = .node bbs sws conns calcs ∧ u = .node bbs (sws ++ [⟨b.ident n, k', r, op, i', j'⟩]) conns calcs := by
  cases t with
  | bus => cases h
  | node bbs sws conns calcs =>
    simp only [addNodeSwitch] at h
    obtain ⟨i', _, h⟩ := Out.bind_eq_ok.1 h
    obtain ⟨j', _, h⟩ := Out.bind_eq_ok.1 h
    obtain ⟨k', hk, h⟩ := Out.bind_eq_ok.1 h
    split at h
    · cases h
    · rename_i n hn
      cases h
      exact ⟨n, i', j', k', bbs, sws, conns, calcs, hn, given_ok.1 hk, rfl, rfl⟩

theorem addConnection_ok {i j : Option Nat} {t u : Topo} (h : addConnection i j t = .ok u) : ∃ c bbs sws conns calcs, t = .node bbs sws conns calcs ∧ u = .node bbs sws (conns ++ [c]) calcs := by
  cases t with
  | bus => cases h
  | node bbs sws conns calcs =>
    simp only [addConnection] at h
    obtain ⟨i', _, h⟩ := Out.bind_eq_ok.1 h
    obtain ⟨j', _, h⟩ := Out.bind_eq_ok.1 h
    cases h
    exact ⟨(i', j'), bbs, sws, conns, calcs, rfl, rfl⟩

/-- **C98** What is added to a valid voltage level leaves it valid, exactly when the enumerators are known. -/
theorem level_stays_valid {v w : VL} {o : VLAdd} (hv : VLValid v) (hd : o.Doubles) (h : o.add l v = .ok w) : VLValid w ↔ o.Known := by
  have ht := hv.topo
  cases o with
  | bus b =>
    obtain ⟨t, h', rfl⟩ := topo_added h
    obtain ⟨n, buses, sws, _, e, rfl⟩ := addBus_ok h'
    rw [e] at ht
    exact ⟨fun _ => trivial, fun _ => { hv with topo := ⟨last_valid ht.1 ⟨ident_new b n, nofun⟩, ht.2⟩ }⟩
  | busSwitch b b1 b2 op =>
    obtain ⟨t, h', rfl⟩ := topo_added h
    obtain ⟨n, buses, sws, _, h1, h2, _, _, e, rfl⟩ := addBusSwitch_ok h'
    rw [e] at ht
    exact ⟨fun _ => trivial, fun _ => { hv with topo := ⟨ht.1, last_valid ht.2 ⟨ident_new b n, h1, h2⟩⟩ }⟩
  | busbar b node =>
    obtain ⟨t, h', rfl⟩ := topo_added h
    obtain ⟨n, k, bbs, sws, conns, calcs, _, _, e, rfl⟩ := addBusbar_ok h'
    rw [e] at ht
    exact ⟨fun _ => trivial, fun _ => { hv with topo := ⟨last_valid ht.1 (ident_new b n), ht.2⟩ }⟩
  | nodeSwitch b i j k op r =>
    obtain ⟨t, h', rfl⟩ := topo_added h
    obtain ⟨n, i', j', k', bbs, sws, conns, calcs, _, hk, e, rfl⟩ := addNodeSwitch_ok h'
    rw [e] at ht
    constructor
    · intro hw m hm
      obtain rfl := Option.some.inj (hk.symm.trans hm)
      exact ((all_last ht.2).1 hw.topo.2).kind
    · intro ho; exact { hv with topo := ⟨ht.1, last_valid ht.2 ⟨ident_new b n, ho k' hk⟩⟩ }
  | connection i j =>
    obtain ⟨t, h', rfl⟩ := topo_added h
    obtain ⟨c, bbs, sws, conns, calcs, e, rfl⟩ := addConnection_ok h'
    rw [e] at ht
    exact ⟨fun _ => trivial, fun _ => { hv with topo := ht }⟩
  | gen b a on s x =>
    simp only [VLAdd.add] at h
    obtain ⟨o, _, h⟩ := Out.bind_eq_ok.1 h
    obtain ⟨hb, i, t, _, hi, hp, rfl⟩ := inj_ok h
    obtain ⟨h1, _, h3, h4, h5⟩ := gen_checks.1 hb
    constructor
    · intro hw; exact ((all_last hv.equip.gens).1 hw.equip.gens).source
    · intro ho; exact { hv with equip := { hv.equip with gens := last_valid hv.equip.gens ⟨hi, hp, ho, h1, h3, h4, h5, defaultReactive_valid⟩ } }
  | bat b a x =>
    obtain ⟨hb, i, t, _, hi, hp, rfl⟩ := inj_ok h
    obtain ⟨h1, h2, h3⟩ := bat_checks.1 hb
    exact ⟨fun _ => trivial, fun _ => { hv with equip := { hv.equip with bats := last_valid hv.equip.bats ⟨hi, hp, h1, h2, h3, defaultReactive_valid⟩ } }⟩
  | load b a x =>
    obtain ⟨hb, i, t, _, hi, hp, rfl⟩ := inj_ok h
    obtain ⟨h1, h2, h3⟩ := load_checks.1 hb
    exact ⟨fun _ => trivial, fun _ => { hv with equip := { hv.equip with loads := last_valid hv.equip.loads ⟨hi, hp, h1, h2, h3⟩ } }⟩
  | sh b a count model s x =>
    simp only [VLAdd.add] at h
    obtain ⟨k, _, h⟩ := Out.bind_eq_ok.1 h
    obtain ⟨m, hm, h⟩ := Out.bind_eq_ok.1 h
    obtain ⟨c, _, h⟩ := Out.bind_eq_ok.1 h
    obtain ⟨hb, i, t, _, hi, hp, rfl⟩ := inj_ok h
    obtain ⟨_, h2, h3, h4⟩ := sh_checks.1 hb
    exact ⟨fun _ => trivial, fun _ => { hv with equip := { hv.equip with
      shs := last_valid hv.equip.shs ⟨hi, hp, h4, models_values (x := { x with model := m }) (model_iff.1 hm), h2, h3⟩ } }⟩
  | dl b a x =>
    obtain ⟨hb, i, t, _, hi, hp, rfl⟩ := inj_ok h
    obtain ⟨h1, h2⟩ := dl_checks.1 hb
    exact ⟨fun _ => trivial, fun _ => { hv with equip := { hv.equip with dls := last_valid hv.equip.dls (new_dangling_valid hi hp hd h1 h2) } }⟩
  | svc b a mode s x =>
    simp only [VLAdd.add] at h
    obtain ⟨m, _, h⟩ := Out.bind_eq_ok.1 h
    obtain ⟨hb, i, t, _, hi, hp, rfl⟩ := inj_ok h
    obtain ⟨h1, h2, _, h4, h5, h6⟩ := svc_checks.1 hb
    exact ⟨fun _ => trivial, fun _ => { hv with equip := { hv.equip with svcs := last_valid hv.equip.svcs ⟨hi, hp, h4, h1, h2, h5, h6⟩ } }⟩
  | vsc b a on x =>
    simp only [VLAdd.add] at h
    obtain ⟨o, _, h⟩ := Out.bind_eq_ok.1 h
    obtain ⟨hb, i, t, _, hi, hp, rfl⟩ := inj_ok h
    obtain ⟨h1, h2⟩ := vsc_checks.1 hb
    exact ⟨fun _ => trivial, fun _ => { hv with equip := { hv.equip with vscs := last_valid hv.equip.vscs ⟨hi, hp, h1, h2, defaultReactive_valid⟩ } }⟩
  | lcc b a x =>
    obtain ⟨hb, i, t, _, hi, hp, rfl⟩ := inj_ok h
    obtain ⟨h1, h2⟩ := lcc_checks.1 hb
    exact ⟨fun _ => trivial, fun _ => { hv with equip := { hv.equip with lccs := last_valid hv.equip.lccs ⟨hi, hp, h1, h2⟩ } }⟩

theorem resolve_place {only : Option String} {e : String × Adders.Args} {s : Side} (h : resolveSide l only e = some s) : PlaceValid s.term.place := by
  unfold resolveSide at h
  repeat' split at h
  all_goals first
    | cases h; done
    | (rename_i p hp _; cases h; exact wanted_valid ((Adders.terminal_spec _ p).1 hp))

theorem attachAll_valid {b : Base} {ss : List Side} {i : Ident} (h : attachAll l b ss = .ok i) : IdentValid i := by
  obtain ⟨n, _, _, rfl⟩ := attachAll_ok.1 h
  exact ident_new b n

theorem substation_stays_valid {s z : Substation} {o : SubAdd} (hs : SubstationValid s) (hd : o.Doubles) (h : o.add l s = .ok z) : SubstationValid z ↔ o.Known := by
  cases o with
  | vl j o =>
    obtain ⟨m, hm, rfl⟩ := map_ok_iff.1 h
    obtain ⟨v, w, hv, hw, rfl⟩ := setAt_ok hm
    have hmem : v ∈ s.vls := List.mem_of_getElem? hv
    have hi : j < s.vls.length := (List.getElem?_eq_some_iff.1 hv).1
    have key := level_stays_valid (hs.vls v hmem) hd hw
    constructor
    · intro hz; exact key.1 (hz.vls w (List.mem_of_getElem? (i := j) (by simp [hi])))
    · intro ho
      refine { hs with vls := fun u hu => ?_ }
      rcases List.mem_or_eq_of_mem_set hu with hu | rfl
      · exact hs.vls u hu
      · exact key.2 ho
  | level b nom low high kind =>
    simp only [SubAdd.add, Out.bind_eq_ok, map_ok_iff, grd_unit, emptyTopo_iff, exists_const, Bool.or_eq_false_iff] at h
    obtain ⟨k, _, ⟨⟨h2, h3⟩, h4⟩, t, h5, n, _, rfl⟩ := h
    obtain ⟨e1, e2, e3⟩ := voltages_valid h4
    exact ⟨fun _ => trivial, fun _ => { hs with vls := last_valid hs.vls ⟨ident_new b n, nominal_valid (by simp [h2, h3]), e1, e2, e3, newTopo_valid h5, noEquip_valid⟩ }⟩
  | tw2 b e1 e2 x =>
    simp only [SubAdd.add, Out.bind_eq_ok, given_ok, map_ok_iff, grd_unit, exists_const, Bool.or_eq_false_iff, and_assoc] at h
    obtain ⟨s1, h1, s2, h2, v1, v2, v3, v4, v5, v6, v7, i, h3, rfl⟩ := h
    have hv : Tw2Valid { x with ident := i, side1 := s1, side2 := s2, rtc := none, ptc := none, lims := ⟨noLims, noLims⟩ } :=
      ⟨attachAll_valid h3, ⟨resolve_place h1, resolve_place h2⟩, ⟨v1, v2, v3, v4, v5, v6⟩, rated_valid v7, nofun, nofun, (by simp [flags]), noLims_valid, noLims_valid⟩
    exact ⟨fun _ => trivial, fun _ => { hs with tw2s := last_valid hs.tw2s hv }⟩
  | tw3 b l1 l2 l3 u0 =>
    simp only [SubAdd.add, Out.bind_eq_ok, given_ok, map_ok_iff, grd_unit, exists_const, Bool.or_eq_false_iff, and_assoc] at h
    obtain ⟨a1, h1, a2, h2, a3, h3, v1, v2, v3, s1, g1, s2, g2, s3, g3, i, hp, rfl⟩ := h
    have leg : ∀ {z : LegZ} {e : String × Adders.Args} {t : Side}, resolveSide l (some s.ident.head.id) e = some t → badLeg z = false → LegValid (newLeg z t) :=
      fun g hz => ⟨resolve_place g, (leg_checks.1 hz).1, (leg_checks.1 hz).2, ⟨nofun, nofun, noLims_valid⟩⟩
    refine ⟨fun _ => trivial, fun _ => { hs with tw3s := last_valid hs.tw3s ⟨attachAll_valid hp, ⟨leg g1 v1, leg g2 v2, leg g3 v3⟩, ?_, by simp [flags, newLeg]⟩ }⟩
    have := (leg_checks.1 v1).1.2.2.2.2
    dsimp only
    split
    · exact this
    · rename_i hu; simpa using hu

/-- **C98** What is added to a valid network leaves it valid, exactly when the enumerators are known. -/
theorem network_built_valid_iff {x y : Net T} {o : NetAdd} (hx : NetValid x) (hi : ∀ z ∈ netItems x, z.id ≠ "") (hd : o.Doubles) (h : o.add x = .ok y) : NetValid y ↔ o.Known := by
  cases o with
  | sub j o =>
    obtain ⟨m, hm, rfl⟩ := map_ok_iff.1 h
    obtain ⟨s, z, hs, hz, rfl⟩ := setAt_ok hm
    have hmem : s ∈ x.subs := List.mem_of_getElem? hs
    have hl : j < x.subs.length := (List.getElem?_eq_some_iff.1 hs).1
    have key := substation_stays_valid (hx.subs s hmem) hd hz
    constructor
    · intro hy; exact key.1 (hy.subs z (List.mem_of_getElem? (i := j) (by simp [hl])))
    · intro ho
      refine { hx with subs := fun u hu => ?_ }
      rcases List.mem_or_eq_of_mem_set hu with hu | rfl
      · exact hx.subs u hu
      · exact key.2 ho
  | substation b c tso tags =>
    obtain ⟨n, _, rfl⟩ := map_ok_iff.1 h
    constructor
    · intro hy; exact ((all_last hx.subs).1 hy.subs).country
    · intro ho; exact { hx with subs := last_valid hx.subs ⟨ident_new b n, ho, tags_increasing tags [] List.Pairwise.nil, none_in, none_in, none_in⟩ }
  | line b e1 e2 z =>
    simp only [NetAdd.add, Out.bind_eq_ok, given_ok, map_ok_iff, grd_unit, exists_const, charac_checks] at h
    obtain ⟨s1, h1, s2, h2, hz, i, h3, rfl⟩ := h
    have hv : LineValid ⟨i, z, s1, s2, ⟨noLims, noLims⟩⟩ := ⟨attachAll_valid h3, ⟨resolve_place h1, resolve_place h2⟩, hz, noLims_valid, noLims_valid⟩
    exact ⟨fun _ => trivial, fun _ => { hx with lines := last_valid hx.lines hv }⟩
  | tie b e1 e2 u k1 k2 =>
    simp only [NetAdd.add, Out.bind_eq_ok, given_ok, map_ok_iff, grd_unit, exists_const, Bool.or_eq_false_iff, half_checks, beq_eq_false_iff_ne, and_assoc] at h
    obtain ⟨s1, g1, s2, g2, a1, _, a2, _, v1, v2, v3, i, h3, rfl⟩ := h
    have hv : TieValid ⟨i, u, newHalf a1, newHalf a2, s1, s2, ⟨noLims, noLims⟩⟩ := ⟨attachAll_valid h3, ⟨resolve_place g1, resolve_place g2⟩, v1, ⟨v2, v3⟩, noLims_valid, noLims_valid⟩
    exact ⟨fun _ => trivial, fun _ => { hx with lines := last_valid hx.lines hv }⟩
  | hvdc b mode z =>
    have e2 : Enums.hvdcLineConvertersMode.enumerators.length = 2 := rfl
    simp only [NetAdd.add, Out.bind_eq_ok, given_ok, map_ok_iff, grd_unit, exists_const, Bool.or_eq_false_iff, decide_eq_false_iff_not, Nat.not_le, and_assoc] at h
    obtain ⟨m, _, v1, v2, v3, v4, v5, v6, v7, v8, t1, g1, t2, g2, n, _, rfl⟩ := h
    have ne : ∀ {n t : String}, findStation (netItems x) n = some t → t ≠ "" := by
      intro n t h
      unfold findStation at h
      repeat' split at h
      all_goals first
        | cases h; done
        | (rename_i s hs _; cases h; exact hi s (called_some hs).1)
    exact ⟨fun _ => trivial, fun _ => { hx with hvdcs := last_valid hx.hvdcs ⟨ident_new b n, by rw [e2]; exact v2, v1, nominal_valid (by simp [v3, v4]),
      positive_valid (by simp [v5, v6]), positive_valid (by simp [v7, v8]), ne g1, ne g2⟩ }⟩

/-! ### Going together -/

theorem equip_item {sub : String} {v w : VL} (hi : w.ident = v.ident) (ht : w.topo = v.topo) (h : Gained l (equipItems v.ident.head.id v.equip) (equipItems v.ident.head.id w.equip)) :
    Gained l (vlItems sub v) (vlItems sub w) := by
  have e : vlItem sub w = vlItem sub v := by simp [vlItem, hi, ht]
  simp only [vlItems, e, ht, hi]
  exact gained_left [vlItem sub v] (gained_left _ h)

theorem topo_item {sub : String} {v w : VL} (hi : w.ident = v.ident) (he : w.equip = v.equip) (hn : w.topo.isNode = v.topo.isNode)
    (h : Gained l (topoItems v.ident.head.id v.topo) (topoItems v.ident.head.id w.topo)) : Gained l (vlItems sub v) (vlItems sub w) := by
  have e : vlItem sub w = vlItem sub v := by simp [vlItem, hi, hn]
  simp only [vlItems, e, he, hi]
  exact gained_left [vlItem sub v] (gained_right _ h)

theorem grown_reg {α : Type} {N : Ref → Prop} {xs : List α} {x : α} {g : α → Option Ref} (h : Refers N (g x)) :
    Grown N (xs.flatMap fun y => (g y).toList) ((xs ++ [x]).flatMap fun y => (g y).toList) := grown_last fun r hr => h r (by simpa using hr)

theorem level_joined {sub : String} {v w : VL} {o : VLAdd} (hv : vlItem sub v ∈ l) (ho : o.Honest l) (h : o.add l v = .ok w) :
    Gained l (vlItems sub v) (vlItems sub w) ∧ Grown (RefById l) (vlRefs v) (vlRefs w) := by
  cases o with
  | bus b =>
    obtain ⟨t, h', rfl⟩ := topo_added h
    obtain ⟨n, buses, sws, hn, e, rfl⟩ := addBus_ok h'
    refine ⟨topo_item rfl rfl (by rw [e]; rfl) ?_, grown_refl _⟩
    rw [e]; exact gained_right _ (gained_last (joins_plain hn rfl))
  | busSwitch b b1 b2 op =>
    obtain ⟨t, h', rfl⟩ := topo_added h
    obtain ⟨n, buses, sws, hn, _, _, h3, h4, e, rfl⟩ := addBusSwitch_ok h'
    refine ⟨topo_item rfl rfl (by rw [e]; rfl) ?_, grown_refl _⟩
    rw [e]
    refine gained_left _ (gained_last ?_)
    obtain ⟨f1, f2⟩ := newId_free hn
    refine ⟨f2, f1, rfl, ?_, nofun, nofun, List.Pairwise.nil, nofun⟩
    intro m hm
    simp only [bswItem, List.mem_cons, List.not_mem_nil, or_false] at hm
    rcases hm with rfl | rfl
    · exact h3
    · exact h4
  | busbar b node =>
    obtain ⟨t, h', rfl⟩ := topo_added h
    obtain ⟨n, k, bbs, sws, conns, calcs, hn, hf, e, rfl⟩ := addBusbar_ok h'
    refine ⟨topo_item rfl rfl (by rw [e]; rfl) ?_, grown_refl _⟩
    rw [e]
    refine gained_right _ (gained_last ?_)
    obtain ⟨f1, f2⟩ := newId_free hn
    refine ⟨f2, f1, rfl, nofun, ?_, ?_, List.pairwise_singleton .., nofun⟩
    · intro e' he
      simp only [bbsItem, injection, List.mem_singleton] at he
      subst he
      exact ⟨_, hv, rfl, sub, _, rfl, by rw [e]; rfl, nofun⟩
    · intro e' he m hm
      simp only [bbsItem, injection, List.mem_singleton] at he
      subst he
      cases hm
      exact hf.2
  | nodeSwitch b i j k op r =>
    obtain ⟨t, h', rfl⟩ := topo_added h
    obtain ⟨n, i', j', k', bbs, sws, conns, calcs, hn, _, e, rfl⟩ := addNodeSwitch_ok h'
    refine ⟨topo_item rfl rfl (by rw [e]; rfl) ?_, grown_refl _⟩
    rw [e]; exact gained_left _ (gained_last (joins_plain hn rfl))
  | connection i j =>
    obtain ⟨t, h', rfl⟩ := topo_added h
    obtain ⟨c, bbs, sws, conns, calcs, e, rfl⟩ := addConnection_ok h'
    refine ⟨topo_item rfl rfl (by rw [e]; rfl) ?_, grown_refl _⟩
    rw [e]; exact .inl rfl
  | gen b a on s x =>
    simp only [VLAdd.add] at h
    obtain ⟨o, _, h⟩ := Out.bind_eq_ok.1 h
    obtain ⟨_, i, t, ha, _, _, rfl⟩ := inj_ok h
    exact ⟨equip_item rfl rfl (gained_right _ (gained_last (joins_injection hv ha))), grown_append (grown_append (grown_reg ho) (grown_refl _)) (grown_refl _)⟩
  | bat b a x =>
    obtain ⟨_, i, t, ha, _, _, rfl⟩ := inj_ok h
    exact ⟨equip_item rfl rfl (gained_left _ (gained_right _ (gained_last (joins_injection hv ha)))), grown_refl _⟩
  | load b a x =>
    obtain ⟨_, i, t, ha, _, _, rfl⟩ := inj_ok h
    exact ⟨equip_item rfl rfl (gained_left _ (gained_left _ (gained_right _ (gained_last (joins_injection hv ha))))), grown_refl _⟩
  | sh b a count model s x =>
    simp only [VLAdd.add] at h
    obtain ⟨k, _, h⟩ := Out.bind_eq_ok.1 h
    obtain ⟨m, hm, h⟩ := Out.bind_eq_ok.1 h
    obtain ⟨c, _, h⟩ := Out.bind_eq_ok.1 h
    obtain ⟨_, i, t, ha, _, _, rfl⟩ := inj_ok h
    exact ⟨equip_item rfl rfl (gained_left _ (gained_left _ (gained_left _ (gained_right _ (gained_last (joins_injection hv ha)))))),
      grown_append (grown_append (grown_refl _) (grown_reg ho)) (grown_refl _)⟩
  | dl b a x =>
    obtain ⟨_, i, t, ha, _, _, rfl⟩ := inj_ok h
    exact ⟨equip_item rfl rfl (gained_left _ (gained_left _ (gained_left _ (gained_left _ (gained_right _ (gained_last (joins_injection hv ha))))))), grown_refl _⟩
  | svc b a mode s x =>
    simp only [VLAdd.add] at h
    obtain ⟨m, _, h⟩ := Out.bind_eq_ok.1 h
    obtain ⟨_, i, t, ha, _, _, rfl⟩ := inj_ok h
    exact ⟨equip_item rfl rfl (gained_left _ (gained_left _ (gained_left _ (gained_left _ (gained_left _ (gained_right _ (gained_last (joins_injection hv ha)))))))),
      grown_append (grown_refl _) (grown_reg ho)⟩
  | vsc b a on x =>
    simp only [VLAdd.add] at h
    obtain ⟨o, _, h⟩ := Out.bind_eq_ok.1 h
    obtain ⟨_, i, t, ha, _, _, rfl⟩ := inj_ok h
    exact ⟨equip_item rfl rfl (gained_left _ (gained_left _ (gained_left _ (gained_left _ (gained_left _ (gained_left _ (gained_right _ (gained_last (joins_injection hv ha))))))))), grown_refl _⟩
  | lcc b a x =>
    obtain ⟨_, i, t, ha, _, _, rfl⟩ := inj_ok h
    exact ⟨equip_item rfl rfl (gained_left _ (gained_left _ (gained_left _ (gained_left _ (gained_left _ (gained_left _ (gained_left _ (gained_last (joins_injection hv ha))))))))), grown_refl _⟩

theorem sides_two {only : Option String} {e1 e2 : String × Adders.Args} {s1 s2 : Side} (h1 : SideOf l only e1 s1) (h2 : SideOf l only e2 s2) :
    ∀ s ∈ [s1, s2], ∃ e, SideOf l only e s := by
  intro s hs
  simp only [List.mem_cons, List.not_mem_nil, or_false] at hs
  rcases hs with rfl | rfl
  · exact ⟨e1, h1⟩
  · exact ⟨e2, h2⟩

theorem substation_joined {s z : Substation} {o : SubAdd} (hn : (l.flatMap Item.names).Nodup) (hs : ∀ a ∈ substationItems s, a ∈ l) (ho : o.Honest l) (h : o.add l s = .ok z) :
    Gained l (substationItems s) (substationItems z) ∧ Grown (RefById l) (substationRefs s) (substationRefs z) := by
  cases o with
  | vl j o =>
    obtain ⟨m, hm, rfl⟩ := map_ok_iff.1 h
    have hv : ∀ v, s.vls[j]? = some v → vlItem s.ident.head.id v ∈ l := by
      intro v hv
      refine hs _ (List.mem_cons_of_mem _ (List.mem_append_left _ (List.mem_flatMap.2 ⟨v, List.mem_of_getElem? hv, List.mem_cons_self⟩)))
    exact ⟨gained_left [plain s.ident .other] (gained_right _ (gained_set hm fun v _ h1 h2 => (level_joined (hv v h1) ho h2).1)),
      grown_append (grown_append (set_grown_at hm fun v _ h1 h2 => (level_joined (hv v h1) ho h2).2) (grown_refl _)) (grown_refl _)⟩
  | level b nom low high kind =>
    simp only [SubAdd.add, Out.bind_eq_ok, map_ok_iff, grd_unit, emptyTopo_iff, exists_const, given_ok] at h
    obtain ⟨k, _, _, t, h5, n, h6, rfl⟩ := h
    refine ⟨gained_left [plain s.ident .other] (gained_right _ (gained_lastM (a := plain (b.ident n) (.level s.ident.head.id t.isNode)) ?_ (joins_plain h6 rfl))),
      grown_append (grown_append (grown_last nofun) (grown_refl _)) (grown_refl _)⟩
    cases h5 <;> rfl
  | tw2 b e1 e2 x =>
    simp only [SubAdd.add, Out.bind_eq_ok, given_ok, map_ok_iff, grd_unit, exists_const, resolve_iff hn] at h
    obtain ⟨s1, h1, s2, h2, _, i, h3, rfl⟩ := h
    exact ⟨gained_left [plain s.ident .other] (gained_left _ (gained_right _ (gained_last (joins_branch (sides_two h1 h2) h3)))),
      grown_append (grown_append (grown_refl _) (grown_last nofun)) (grown_refl _)⟩
  | tw3 b l1 l2 l3 u0 =>
    simp only [SubAdd.add, Out.bind_eq_ok, given_ok, map_ok_iff, grd_unit, exists_const, resolve_iff hn] at h
    obtain ⟨a1, _, a2, _, a3, _, _, s1, g1, s2, g2, s3, g3, i, hp, rfl⟩ := h
    have hs : ∀ t ∈ [s1, s2, s3], ∃ e, SideOf l (some s.ident.head.id) e t := by
      intro t ht
      simp only [List.mem_cons, List.not_mem_nil, or_false] at ht
      rcases ht with rfl | rfl | rfl
      · exact ⟨_, g1⟩
      · exact ⟨_, g2⟩
      · exact ⟨_, g3⟩
    exact ⟨gained_left [plain s.ident .other] (gained_left _ (gained_left _ (gained_last (joins_branch hs hp)))), grown_append (grown_refl _) (grown_last nofun)⟩

theorem network_joined {x y : Net T} {o : NetAdd} (hn : ((netItems x).flatMap Item.names).Nodup) (ho : o.Honest (netItems x)) (h : o.add x = .ok y) :
    Gained (netItems x) (netItems x) (netItems y) ∧ Grown (RefById (netItems x)) (netRefs x) (netRefs y) := by
  cases o with
  | sub j o =>
    obtain ⟨m, hm, rfl⟩ := map_ok_iff.1 h
    have hs : ∀ s, x.subs[j]? = some s → ∀ a ∈ substationItems s, a ∈ netItems x := fun s hs a ha =>
      List.mem_cons_of_mem _ (List.mem_append_left _ (List.mem_flatMap.2 ⟨s, List.mem_of_getElem? hs, ha⟩))
    exact ⟨gained_left [plain x.ident .other] (gained_right _ (gained_set hm fun s _ h1 h2 => (substation_joined hn (hs s h1) ho h2).1)),
      set_grown_at hm fun s _ h1 h2 => (substation_joined hn (hs s h1) ho h2).2⟩
  | substation b c tso tags =>
    obtain ⟨n, hb, rfl⟩ := map_ok_iff.1 h
    exact ⟨gained_left [plain x.ident .other] (gained_right _ (gained_lastM (a := plain (b.ident n) .other) rfl (joins_plain (given_ok.1 hb) rfl))), grown_last nofun⟩
  | line b e1 e2 z =>
    simp only [NetAdd.add, Out.bind_eq_ok, given_ok, map_ok_iff, grd_unit, exists_const, resolve_iff hn] at h
    obtain ⟨s1, h1, s2, h2, _, i, h3, rfl⟩ := h
    exact ⟨gained_left [plain x.ident .other] (gained_left _ (gained_right _ (gained_last (joins_branch (sides_two h1 h2) h3)))), grown_refl _⟩
  | tie b e1 e2 u k1 k2 =>
    simp only [NetAdd.add, Out.bind_eq_ok, given_ok, map_ok_iff, grd_unit, exists_const, resolve_iff hn] at h
    obtain ⟨s1, h1, s2, h2, _, _, _, _, _, i, h3, rfl⟩ := h
    exact ⟨gained_left [plain x.ident .other] (gained_left _ (gained_right _ (gained_last (joins_branch (sides_two h1 h2) h3)))), grown_refl _⟩
  | hvdc b mode z =>
    simp only [NetAdd.add, Out.bind_eq_ok, given_ok, map_ok_iff, grd_unit, exists_const, station_iff hn] at h
    obtain ⟨m, _, _, t1, ⟨_, a1, m1, _, o1, rfl⟩, t2, ⟨_, a2, m2, _, o2, rfl⟩, n, hb, rfl⟩ := h
    obtain ⟨f1, f2⟩ := newId_free hb
    refine ⟨gained_left [plain x.ident .other] (gained_left _ (gained_left _ (gained_last ⟨f2, f1, rfl, nofun, nofun, nofun, List.Pairwise.nil, ?_⟩))), grown_refl _⟩
    rintro s ⟨⟩
    exact ⟨⟨a1, m1, rfl, o1⟩, a2, m2, rfl, o2⟩

theorem gained_keeps {m m' : List Item} (h : Gained l m m') : Keeps m m' := by
  rcases h with rfl | ⟨pre, a, post, h, rfl, _⟩
  · exact fun x hx => ⟨x, hx, rfl, rfl⟩
  · exact keeps_insert h

/-- **C98** An addition leaves a network whose objects go together and that refers to them by their identifiers. -/
theorem addition_goes_together {x y : Net T} {o : NetAdd} (hx : TidyNet x) (ho : o.Honest (netItems x)) (h : o.add x = .ok y) : TidyNet y := by
  obtain ⟨h1, h2⟩ := network_joined hx.1.together.names ho h
  refine ⟨?_, fun r hr => refById_keeps (gained_keeps h1) ?_⟩
  · rcases h1 with h1 | ⟨pre, a, post, e, e', ha⟩
    · rw [h1]; exact hx.1
    · rw [e']; exact tidy_insert e hx.1 ha
  · exact (h2 r (mem_netRefs.2 hr)).elim (fun h => hx.2 r (mem_netRefs.1 h)) id

/-! ### Tap changers: a new transformer has none -/

theorem fresh_inside : WindingInside none none := by
  constructor <;> intro c hc <;> cases hc

theorem newLeg_inside {z : LegZ} {t : Side} : LegInside (newLeg z t) := fresh_inside

theorem substation_inside {s z : Substation} {o : SubAdd} (hs : SubInside s) (h : o.add l s = .ok z) : SubInside z := by
  cases o with
  | vl j o => obtain ⟨m, hm, rfl⟩ := map_ok_iff.1 h; exact hs
  | level b nom low high kind =>
    simp only [SubAdd.add, Out.bind_eq_ok, map_ok_iff] at h
    obtain ⟨k, _, _, _, t, _, n, _, rfl⟩ := h
    exact hs
  | tw2 b e1 e2 x =>
    simp only [SubAdd.add, Out.bind_eq_ok, map_ok_iff] at h
    obtain ⟨s1, _, s2, _, _, _, i, _, rfl⟩ := h
    exact ⟨last_valid hs.1 fresh_inside, hs.2⟩
  | tw3 b l1 l2 l3 u0 =>
    simp only [SubAdd.add, Out.bind_eq_ok, map_ok_iff] at h
    obtain ⟨a1, _, a2, _, a3, _, _, _, s1, _, s2, _, s3, _, i, _, rfl⟩ := h
    exact ⟨hs.1, last_valid hs.2 ⟨newLeg_inside, newLeg_inside, newLeg_inside⟩⟩

theorem network_inside {x y : Net T} {o : NetAdd} (hx : NetInside x) (h : o.add x = .ok y) : NetInside y := by
  cases o with
  | sub j o =>
    obtain ⟨m, hm, rfl⟩ := map_ok_iff.1 h
    exact setAt_valid hx hm fun s hs z hz => substation_inside (hx s hs) hz
  | substation b c tso tags =>
    obtain ⟨n, _, rfl⟩ := map_ok_iff.1 h
    exact last_valid hx ⟨none_in, none_in⟩
  | line b e1 e2 z =>
    simp only [NetAdd.add, Out.bind_eq_ok, map_ok_iff] at h
    obtain ⟨s1, _, s2, _, _, _, i, _, rfl⟩ := h
    exact hx
  | tie b e1 e2 u k1 k2 =>
    simp only [NetAdd.add, Out.bind_eq_ok, map_ok_iff] at h
    obtain ⟨s1, _, s2, _, _, _, _, _, _, _, i, _, rfl⟩ := h
    exact hx
  | hvdc b mode z =>
    simp only [NetAdd.add, Out.bind_eq_ok, map_ok_iff] at h
    obtain ⟨m, _, _, _, t1, _, t2, _, n, _, rfl⟩ := h
    exact hx

end Verif.Build
