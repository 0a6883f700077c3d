import Verif.Coarse.ReadProps

/-!
C89: a network that can be exported and read back can be so at a coarser level, as soon as the buses and the switches of its views can.
-/

namespace Verif.Coarse

open Verif Verif.Xml Verif.XmlNet

/-- The terminal keeps its place, or is on a bus whose name is read back. -/
def Movable (A : Anon) (p q : Place) : Prop := q = p ∨ ∃ c b, q = .bus c b ∧ c ≠ "" ∧ A.Inverts c

/-- The buses and the switches of the views can be read back. -/
def ViewsOk {T : Type} (K : XCodec) (A : Anon) (L : Level) (W : Views) (x : Net T) : Prop :=
  ∀ v ∈ levels x, ∀ w, viewAt L W v = some w → (∀ b ∈ w.buses, BusOk K A b ∧ b.ident.aliases = [] ∧ b.ident.props = []) ∧
    ∀ s ∈ w.sws, BSwOk A s.plain ∧ A.anon s.ident.head.id ∈ w.sws.map fun y => y.ident.head.id

theorem Movable.place {A : Anon} {p q : Place} (h : Movable A p q) (hp : PlaceOk A p) : PlaceOk A q := by
  rcases h with rfl | ⟨c, b, rfl, h⟩
  · exact hp
  · exact h

theorem Movable.branch {A : Anon} {p q : Place} (h : Movable A p q) (hp : BranchPlaceOk A p) : BranchPlaceOk A q := by
  rcases h with rfl | ⟨c, b, rfl, h⟩
  · exact hp
  · exact h

section ok
variable {K : XCodec} {A : Anon} {f : String → Place → Place}

theorem term_ok {vl : String} {t : Term} (m : Movable A t.place (f vl t.place)) (h : TermOk K A t) : TermOk K A (termTo f vl t) := ⟨m.place h.place, h.p, h.q⟩

theorem side_ok {s : Side} (m : Movable A s.term.place (f s.vl s.term.place)) (h : BranchSideOk K A s) : BranchSideOk K A (sideTo f s) := ⟨h.vl, m.branch h.place, h.p, h.q⟩

theorem legSide_ok {s : Side} (m : Movable A s.term.place (f s.vl s.term.place)) (h : LegSideOk K A s) : LegSideOk K A (sideTo f s) := ⟨h.vl, term_ok m h.term⟩

theorem mem_map_ok {α : Type} {P : α → Prop} {g : α → α} {l : List α} (h : ∀ x ∈ l, P (g x)) : ∀ y ∈ l.map g, P y := by
  intro y hy
  obtain ⟨x, hx, rfl⟩ := List.mem_map.1 hy
  exact h x hx

variable {T : Type} {x : Net T} (m : ∀ vl p, Sided x vl p → Movable A p (f vl p))
include m

theorem equip_ok {s : Substation} (hs : s ∈ x.subs) {v : VL} (hv : v ∈ s.vls) (h : EquipOk K A v.equip) : EquipOk K A (equipTo f v.ident.head.id v.equip) where
  gens := mem_map_ok fun y hy => { h.gens y hy with term := term_ok (m _ _ (.generator hs hv hy)) (h.gens y hy).term }
  bats := mem_map_ok fun y hy => { h.bats y hy with term := term_ok (m _ _ (.battery hs hv hy)) (h.bats y hy).term }
  loads := mem_map_ok fun y hy => { h.loads y hy with term := term_ok (m _ _ (.load hs hv hy)) (h.loads y hy).term }
  shs := mem_map_ok fun y hy => { h.shs y hy with term := term_ok (m _ _ (.shunt hs hv hy)) (h.shs y hy).term }
  dls := mem_map_ok fun y hy => { h.dls y hy with term := term_ok (m _ _ (.danglingLine hs hv hy)) (h.dls y hy).term }
  svcs := mem_map_ok fun y hy => { h.svcs y hy with term := term_ok (m _ _ (.svc hs hv hy)) (h.svcs y hy).term }
  vscs := mem_map_ok fun y hy => { h.vscs y hy with term := term_ok (m _ _ (.vsc hs hv hy)) (h.vscs y hy).term }
  lccs := mem_map_ok fun y hy => { h.lccs y hy with term := term_ok (m _ _ (.lcc hs hv hy)) (h.lccs y hy).term }

theorem topo_ok {L : Level} {W : Views} (hw : ViewsOk K A L W x) {v : VL} (hv : v ∈ levels x) (h : TopoOk K A v.topo) : TopoOk K A (topoAt W v.ident.head.id L v.topo) := by
  have hw := hw v hv
  unfold viewAt at hw
  cases L with
  | nodeBreaker => cases ht : v.topo <;> (rw [ht] at h; exact h)
  | busBreaker =>
    cases ht : v.topo with
    | bus buses sws => rw [ht] at h; exact h
    | node bbs sws conns calcs =>
      rw [ht] at hw
      obtain ⟨h1, h2⟩ := hw _ rfl
      refine ⟨h1, fun y hy => ?_⟩
      obtain ⟨z, hz, rfl⟩ := List.mem_map.1 hy
      refine ⟨(h2 z hz).1, ?_⟩
      rw [List.map_map]
      exact (h2 z hz).2
  | busBranch => exact ⟨(hw _ rfl).1, fun _ hy => absurd hy List.not_mem_nil⟩

/-- **C89** Whatever can be exported as it is and read back can be so at a coarser level, provided that the buses and the switches of the views have names that are read
back, and that their terminals are where they were or on a bus. -/
theorem network_ok_at_level {D : Dates T} {L : Level} {W : Views} (h : NetOk K A D x) (hw : ViewsOk K A L W x) : NetOk K A D (netAt L W f x) where
  name := h.name
  id := h.id
  format := h.format
  aliases := h.aliases
  nodup := h.nodup
  types := h.types
  props := h.props
  forecast := h.forecast
  date := h.date
  hvdcs := h.hvdcs
  subs := by
    intro s' hs'
    obtain ⟨s, hs, rfl⟩ := List.mem_map.1 hs'
    have hok := h.subs s hs
    refine ⟨hok.ident, hok.country, hok.tso, hok.tags, ?_, ?_, ?_⟩
    · exact fun v' hv' => by
        obtain ⟨v, hv, rfl⟩ := List.mem_map.1 hv'
        have hvk := hok.vls v hv
        exact ⟨hvk.ident, hvk.nominalV, hvk.low, hvk.high, hvk.range, topo_ok m hw (List.mem_flatMap.2 ⟨s, hs, hv⟩) hvk.topo, equip_ok m hs hv hvk.equip⟩
    · exact mem_map_ok fun t ht => { hok.tw2s t ht with
        side1 := side_ok (m _ _ (.transformer2 hs ht (.inl rfl))) (hok.tw2s t ht).side1
        side2 := side_ok (m _ _ (.transformer2 hs ht (.inr rfl))) (hok.tw2s t ht).side2 }
    · exact mem_map_ok fun t ht => { hok.tw3s t ht with
        leg1 := { (hok.tw3s t ht).leg1 with side := legSide_ok (m _ _ (.transformer3 hs ht (.inl rfl))) (hok.tw3s t ht).leg1.side }
        leg2 := { (hok.tw3s t ht).leg2 with side := legSide_ok (m _ _ (.transformer3 hs ht (.inr (.inl rfl)))) (hok.tw3s t ht).leg2.side }
        leg3 := { (hok.tw3s t ht).leg3 with side := legSide_ok (m _ _ (.transformer3 hs ht (.inr (.inr rfl)))) (hok.tw3s t ht).leg3.side } }
  lines := by
    intro l' hl'
    obtain ⟨l, hl, rfl⟩ := List.mem_map.1 hl'
    have hok := h.lines l hl
    cases l with
    | line l =>
      exact { (show LineOk K A l from hok) with
        side1 := side_ok (m _ _ (.line hl (.inl rfl))) (show LineOk K A l from hok).side1
        side2 := side_ok (m _ _ (.line hl (.inr rfl))) (show LineOk K A l from hok).side2 }
    | tie l =>
      exact { (show TieOk K A l from hok) with
        side1 := side_ok (m _ _ (.tieLine hl (.inl rfl))) (show TieOk K A l from hok).side1
        side2 := side_ok (m _ _ (.tieLine hl (.inr rfl))) (show TieOk K A l from hok).side2 }

end ok

end Verif.Coarse
