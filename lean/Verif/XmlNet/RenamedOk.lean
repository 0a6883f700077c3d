import Verif.XmlNet.RenamedLemmas

/-!
Helpers of C73: what can be read back with an anonymizer can, once renamed, be read back without one.
-/

namespace Verif.XmlNet

open Verif Verif.Xml

theorem nodup_rn {A : Anon} : ∀ {l : List String}, (∀ s ∈ l, A.Inverts s) → l.Nodup → (l.map A.anon).Nodup
  | [], _, _ => .nil
  | s :: l, h, hd => by
    obtain ⟨h1, h2⟩ := List.nodup_cons.1 hd
    refine List.nodup_cons.2 ⟨fun hm => ?_, nodup_rn (fun t ht => h t (List.mem_cons_of_mem _ ht)) h2⟩
    obtain ⟨t, ht, e⟩ := List.mem_map.1 hm
    exact h1 (Anon.injective (h t (List.mem_cons_of_mem _ ht)) (h s List.mem_cons_self) e ▸ ht)

theorem types_rn {f : String → String} {l : List (String × String)} (h : l.Pairwise fun a b => a.2 ≠ "" → a.2 ≠ b.2) :
    (l.map fun a => (f a.1, a.2)).Pairwise fun a b => a.2 ≠ "" → a.2 ≠ b.2 := List.pairwise_map.2 h

theorem fst_rn (f : String → String) (l : List (String × String)) : (l.map fun a => (f a.1, a.2)).map Prod.fst = (l.map Prod.fst).map f := by
  rw [List.map_map, List.map_map]; rfl

theorem ident_ok {A : Anon} {x : Ident} (h : IdentOk A x) : IdentOk .none (x.renamed A.anon) where
  head := none_head _
  aliases := by
    intro a ha
    obtain ⟨b, hb, rfl⟩ := List.mem_map.1 ha
    exact ⟨⟨rfl, (h.aliases b hb).1.2⟩, fun e => (h.aliases b hb).2 (Anon.injective (h.aliases b hb).1.1 h.head.1 e)⟩
  nodup := by
    show ((x.aliases.map fun a => (A.anon a.1, a.2)).map Prod.fst).Nodup
    rw [fst_rn]
    refine nodup_rn (fun s hs => ?_) h.nodup
    obtain ⟨a, ha, rfl⟩ := List.mem_map.1 hs
    exact (h.aliases a ha).1.1
  types := types_rn h.types
  props := h.props

theorem place_ok {A : Anon} (hA : A.KeepsEmpty) {p : Adders.Place} (h : PlaceOk A p) : PlaceOk .none (renamedPlace A.anon p) := by
  cases p with
  | node n => exact h
  | bus b c => exact ⟨Anon.nonempty hA h.2 h.1, rfl⟩

theorem branchPlace_ok {A : Anon} (hA : A.KeepsEmpty) {p : Adders.Place} (h : BranchPlaceOk A p) : BranchPlaceOk .none (renamedPlace A.anon p) := by
  cases p with
  | node n => exact h
  | bus b c => exact ⟨Anon.nonempty hA h.2 h.1, rfl⟩

theorem term_ok {K : XCodec} {A : Anon} (hA : A.KeepsEmpty) {t : Term} (h : TermOk K A t) : TermOk K .none (t.renamed A.anon) := ⟨place_ok hA h.place, h.p, h.q⟩

theorem branchSide_ok {K : XCodec} {A : Anon} (hA : A.KeepsEmpty) {s : Side} (h : BranchSideOk K A s) : BranchSideOk K .none (s.renamed A.anon) :=
  ⟨rfl, branchPlace_ok hA h.place, h.p, h.q⟩

theorem legSide_ok {K : XCodec} {A : Anon} (hA : A.KeepsEmpty) {s : Side} (h : LegSideOk K A s) : LegSideOk K .none (s.renamed A.anon) := ⟨rfl, term_ok hA h.term⟩

theorem ref_ok {A : Anon} (hA : A.KeepsEmpty) {o : Option Ref} (h : RefOk A o) : RefOk .none (o.map (Ref.renamed A.anon)) := by
  intro r hr
  obtain ⟨s, hs, rfl⟩ := Option.map_eq_some_iff.1 hr
  exact ⟨Anon.nonempty hA (h s hs).2 (h s hs).1, rfl⟩

theorem ref_some {o : Option Ref} {f : String → String} (h : o ≠ none) : o.map (Ref.renamed f) ≠ none := by
  cases o with
  | none => exact absurd rfl h
  | some _ => nofun

section
variable {K : XCodec} {A : Anon} (hA : A.KeepsEmpty)
include hA

theorem load_ok {x : Load} (h : LoadOk K A x) : LoadOk K .none (x.renamed A.anon) := ⟨ident_ok h.ident, h.kind, h.p0, h.q0, term_ok hA h.term⟩
theorem gen_ok {x : Gen} (h : GenOk K A x) : GenOk K .none (x.renamed A.anon) :=
  ⟨ident_ok h.ident, h.source, h.minP, h.maxP, h.range, h.ratedS, h.targetP, h.control, h.targets, term_ok hA h.term, ref_ok hA h.reg, h.limits⟩
theorem bat_ok {x : Bat} (h : BatOk K A x) : BatOk K .none (x.renamed A.anon) := ⟨ident_ok h.ident, h.p0, h.q0, h.minP, h.maxP, h.range, term_ok hA h.term, h.limits⟩
omit hA in
theorem bbs_ok {x : Bbs} (h : BbsOk A x) : BbsOk .none (x.renamed A.anon) := ⟨ident_ok h.ident, h.node⟩
theorem lcc_ok {x : Lcc} (h : LccOk K A x) : LccOk K .none (x.renamed A.anon) := ⟨ident_ok h.ident, h.lossFactor, h.powerFactor, term_ok hA h.term⟩
theorem vsc_ok {x : Vsc} (h : VscOk K A x) : VscOk K .none (x.renamed A.anon) := ⟨ident_ok h.ident, h.lossFactor, h.control, h.setpoints, term_ok hA h.term, h.limits⟩
theorem svc_ok {x : Svc} (h : SvcOk K A x) : SvcOk K .none (x.renamed A.anon) :=
  ⟨ident_ok h.ident, h.bMin, h.bMax, h.mode, h.voltage, h.reactive, term_ok hA h.term, ref_ok hA h.reg⟩
theorem sh_ok {x : Sh} (h : ShOk K A x) : ShOk K .none (x.renamed A.anon) := ⟨ident_ok h.ident, h.wf, h.exact, term_ok hA h.term, ref_ok hA h.reg⟩
theorem dl_ok {x : Dl} (h : DlOk K A x) : DlOk K .none (x.renamed A.anon) :=
  ⟨ident_ok h.ident, h.p0, h.q0, h.r, h.x, h.g, h.b, h.gen, term_ok hA h.term, h.active, h.apparent, h.current⟩
theorem line_ok {x : Line} (h : LineOk K A x) : LineOk K .none (x.renamed A.anon) := ⟨ident_ok h.ident, h.z, branchSide_ok hA h.side1, branchSide_ok hA h.side2, h.one, h.two⟩
theorem half_ok {x : Half} (h : HalfOk K A x) : HalfOk K .none (x.renamed A.anon) := ⟨⟨rfl, Anon.nonempty hA h.id.1 h.id.2⟩, ⟨rfl, Anon.nonempty hA h.name.1 h.name.2⟩, h.z⟩
theorem tie_ok {x : TieLine} (h : TieOk K A x) : TieOk K .none (x.renamed A.anon) :=
  ⟨ident_ok h.ident, none_keeps, h.ucte, half_ok hA h.half1, half_ok hA h.half2, branchSide_ok hA h.side1, branchSide_ok hA h.side2, h.one, h.two⟩
omit hA in
theorem hvdc_ok {x : HvdcLine} (h : HvdcOk K A x) : HvdcOk K .none (x.renamed A.anon) := ⟨ident_ok h.ident, h.r, h.nominalV, h.mode, h.setpoint, h.maxP, h.station1, h.station2⟩

theorem rtc_ok {o : Option Rtc} (h : RtcsOk K A o) : RtcsOk K .none (o.map (Rtc.renamed A.anon)) := by
  intro t ht
  obtain ⟨u, hu, rfl⟩ := Option.map_eq_some_iff.1 ht
  have := h u hu
  exact ⟨this.taps, this.targetV, this.target, fun e => ref_some (this.terminal e), ref_ok hA this.reg, this.steps⟩

theorem ptc_ok {o : Option Ptc} (h : PtcsOk K A o) : PtcsOk K .none (o.map (Ptc.renamed A.anon)) := by
  intro t ht
  obtain ⟨u, hu, rfl⟩ := Option.map_eq_some_iff.1 ht
  have := h u hu
  exact ⟨this.mode, this.taps, this.value, fun e => ⟨(this.control e).1, (this.control e).2.1, ref_some (this.control e).2.2⟩, ref_ok hA this.reg, this.steps⟩

theorem tw2_ok {x : Tw2} (h : Tw2Ok K A x) : Tw2Ok K .none (x.renamed A.anon) :=
  { ident := ident_ok h.ident, r := h.r, x := h.x, g := h.g, b := h.b, ratedU1 := h.ratedU1, ratedU2 := h.ratedU2, ratedS := h.ratedS, side1 := branchSide_ok hA h.side1,
    side2 := branchSide_ok hA h.side2, rtc := rtc_ok hA h.rtc, ptc := ptc_ok hA h.ptc, one := h.one, two := h.two
    single := by
      intro t u ht hu
      obtain ⟨t', ht', rfl⟩ := Option.map_eq_some_iff.1 ht
      obtain ⟨u', hu', rfl⟩ := Option.map_eq_some_iff.1 hu
      exact h.single t' u' ht' hu' }

theorem leg_ok {x : Leg} (h : LegOk K A x) : LegOk K .none (x.renamed A.anon) :=
  ⟨h.r, h.x, h.g, h.b, h.ratedU, h.ratedS, legSide_ok hA h.side, rtc_ok hA h.rtc, ptc_ok hA h.ptc, h.lims⟩

omit hA in
theorem flags_rn (f : String → String) (x : Leg) : (x.renamed f).sub.flags = x.sub.flags := by
  simp only [Leg.renamed, LegSub.flags, Option.map_map]
  rfl

theorem tw3_ok {x : Tw3} (h : Tw3Ok K A x) : Tw3Ok K .none (x.renamed A.anon) :=
  ⟨ident_ok h.ident, leg_ok hA h.leg1, leg_ok hA h.leg2, leg_ok hA h.leg3, h.ratedU0, (by
    show ((x.leg1.renamed A.anon).sub.flags ++ ((x.leg2.renamed A.anon).sub.flags ++ (x.leg3.renamed A.anon).sub.flags)).countP id ≤ 1
    rw [flags_rn, flags_rn, flags_rn]; exact h.single)⟩

omit hA in
/-- Every element of a list made of renamed ones. -/
theorem all_rn {α : Type} {P Q : α → Prop} {g : α → α} {l : List α} (h : ∀ x ∈ l, P x) (hg : ∀ x, P x → Q (g x)) : ∀ y ∈ l.map g, Q y := by
  intro y hy
  obtain ⟨x, hx, rfl⟩ := List.mem_map.1 hy
  exact hg x (h x hx)

theorem topo_ok {x : Topo} (h : TopoOk K A x) : TopoOk K .none (x.renamed A.anon) := by
  cases x with
  | node bbs sws conns calcs => exact ⟨all_rn h.1 fun _ => bbs_ok, all_rn h.2.1 fun _ hx => ⟨ident_ok hx.ident, hx.kind, hx.node1, hx.node2⟩, h.2.2⟩
  | bus buses sws =>
    refine ⟨all_rn h.1 fun b hb => ⟨⟨none_head _, hb.1.v, hb.1.angle⟩, by simp [Bus.renamed, Ident.renamed, hb.2.1], hb.2.2⟩, fun y hy => ?_⟩
    obtain ⟨x, hx, rfl⟩ := List.mem_map.1 hy
    have := (h.2 x hx).1
    exact ⟨⟨ident_ok this.ident, ⟨Anon.nonempty hA this.bus1.2 this.bus1.1, rfl⟩, ⟨Anon.nonempty hA this.bus2.2 this.bus2.1, rfl⟩⟩, List.mem_map.2 ⟨_, hy, rfl⟩⟩

theorem equip_ok {x : Equip} (h : EquipOk K A x) : EquipOk K .none (x.renamed A.anon) :=
  ⟨all_rn h.gens fun _ => gen_ok hA, all_rn h.bats fun _ => bat_ok hA, all_rn h.loads fun _ => load_ok hA, all_rn h.shs fun _ => sh_ok hA, all_rn h.dls fun _ => dl_ok hA,
    all_rn h.svcs fun _ => svc_ok hA, all_rn h.vscs fun _ => vsc_ok hA, all_rn h.lccs fun _ => lcc_ok hA⟩

theorem vl_ok {x : VL} (h : VLOk K A x) : VLOk K .none (x.renamed A.anon) := ⟨ident_ok h.ident, h.nominalV, h.low, h.high, h.range, topo_ok hA h.topo, equip_ok hA h.equip⟩

theorem substation_ok {x : Substation} (h : SubstationOk K A x) (ht : Increasing (x.tags.map A.anon)) : SubstationOk K .none (x.renamed A.anon) where
  ident := ident_ok h.ident
  country := h.country
  tso := ⟨rfl, id⟩
  tags := by
    refine ⟨ht, fun _ _ => rfl, fun t hm => ?_, ?_⟩
    · obtain ⟨u, hu, rfl⟩ := List.mem_map.1 hm
      exact h.tags.commas u hu
    · show (x.tags.map A.anon).map id ≠ [""]
      rw [List.map_id]
      exact h.tags.notEmpty
  vls := all_rn h.vls fun _ => vl_ok hA
  tw2s := all_rn h.tw2s fun _ => tw2_ok hA
  tw3s := all_rn h.tw3s fun _ => tw3_ok hA

theorem anyLine_ok {x : AnyLine} (h : AnyLineOk K A x) : AnyLineOk K .none (x.renamed A.anon) := by
  cases x with
  | line x => exact line_ok hA h
  | tie x => exact tie_ok hA h

theorem net_ok {T : Type} {D : Dates T} {x : Net T} (h : NetOk K A D x) (ht : ∀ s ∈ x.subs, Increasing (s.tags.map A.anon))
    (hn : ∀ a ∈ x.ident.aliases, A.anon a.1 ≠ x.ident.head.id) : NetOk K .none D (x.renamed A.anon) where
  name := h.name
  id := h.id
  format := h.format
  aliases := by
    intro a ha
    obtain ⟨b, hb, rfl⟩ := List.mem_map.1 ha
    exact ⟨⟨rfl, (h.aliases b hb).1.2⟩, hn b hb⟩
  nodup := by
    show ((x.ident.aliases.map fun a => (A.anon a.1, a.2)).map Prod.fst).Nodup
    rw [fst_rn]
    refine nodup_rn (fun s hs => ?_) h.nodup
    obtain ⟨a, ha, rfl⟩ := List.mem_map.1 hs
    exact (h.aliases a ha).1.1
  types := types_rn h.types
  props := h.props
  forecast := h.forecast
  date := h.date
  subs := by
    intro y hy
    obtain ⟨s, hs, rfl⟩ := List.mem_map.1 hy
    exact substation_ok hA (h.subs s hs) (ht s hs)
  lines := all_rn h.lines fun _ => anyLine_ok hA
  hvdcs := all_rn h.hvdcs fun _ => hvdc_ok

end

end Verif.XmlNet
