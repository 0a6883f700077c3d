import Verif.XmlNet.Renamed
import Verif.XmlNet.NetProps

/-!
Helpers of C73: each writer with an anonymizer writes what it would write of the renamed object without one; the renamed object can be read back.
-/

namespace Verif.XmlNet

open Verif Verif.Xml

/-- A name that is given back is not replaced with the empty one. -/
theorem Anon.nonempty {A : Anon} (hA : A.KeepsEmpty) {s : String} (h : A.Inverts s) (hs : s ≠ "") : A.anon s ≠ "" := by
  intro e
  unfold Anon.Inverts at h
  rw [e, hA] at h
  exact hs (Out.ok.inj h).symm

theorem Anon.injective {A : Anon} {s t : String} (hs : A.Inverts s) (ht : A.Inverts t) (h : A.anon s = A.anon t) : s = t := by
  unfold Anon.Inverts at hs ht
  rw [h, ht] at hs
  exact (Out.ok.inj hs).symm

theorem optional_ne {f : String → String} {s : String} (h : s ≠ "" → f s ≠ "") : optional f s ≠ "" ↔ s ≠ "" := by
  unfold optional
  by_cases hs : s = ""
  · simp [hs]
  · simp [hs, h hs]

theorem optional_eq {f : String → String} {s : String} (hs : s ≠ "") : optional f s = f s := if_neg hs

/-! ### Attributes and elements -/

theorem head_rn {A : Anon} {x : Ident} (h : HeadOk A x.head) : headAttrs .none .v15 (x.renamed A.anon).head = headAttrs A .v15 x.head := by
  have hn : x.head.name ≠ "" → A.anon x.head.name ≠ "" := Anon.nonempty h.2.2 h.2.1
  simp only [headAttrs, Ident.renamed, Anon.none, id]
  by_cases hs : x.head.name = ""
  · simp [hs, optional]
  · simp [optional, hs, hn hs]

theorem aliases_rn (A : Anon) : ∀ as : List (String × String), aliasesElems .none (as.map fun a => (A.anon a.1, a.2)) = aliasesElems A as
  | [] => rfl
  | a :: as => by
    simp only [List.map_cons, aliasesElems, aliases_rn A as]
    rfl

theorem elem_rn {A : Anon} {x : Ident} (h : HeadOk A x.head) (root : String) {as as' : List (String × String)} {sub sub' : List Cmd} (ha : as' = as) (hs : sub' = sub) :
    writeElem .none root (x.renamed A.anon) as' sub' = writeElem A root x as sub := by
  subst ha hs
  unfold writeElem identCmds
  rw [head_rn h]
  simp only [Ident.renamed, aliases_rn]

theorem place_rn (K : XCodec) (A : Anon) (s : String) (p : Adders.Place) : placeAttrs K .none s (renamedPlace A.anon p) = placeAttrs K A s p := by
  cases p <;> rfl

theorem term_rn (K : XCodec) (A : Anon) (s : String) (t : Term) : placeAttrs K .none s (t.renamed A.anon).place = placeAttrs K A s t.place := place_rn K A s t.place

theorem pq_rn (K : XCodec) (f : String → String) (s : String) (t : Term) : pqAttrs K s (t.renamed f) = pqAttrs K s t := rfl

theorem side_rn (K : XCodec) (A : Anon) (s : String) (x : Side) : sideAttrs K .none s (x.renamed A.anon) = sideAttrs K A s x := by
  unfold sideAttrs
  rw [show (x.renamed A.anon).term = x.term.renamed A.anon from rfl, term_rn]
  rfl

theorem sides_rn (K : XCodec) (A : Anon) (x y : Side) : sidesAttrs K .none (x.renamed A.anon) (y.renamed A.anon) = sidesAttrs K A x y := by
  unfold sidesAttrs
  rw [side_rn, side_rn]
  rfl

theorem refs_rn (A : Anon) (el : String) (o : Option Ref) : refElems .none el (o.map (Ref.renamed A.anon)) = refElems A el o := by
  cases o <;> rfl

theorem list_rn {α : Type} {w w' : α → Out (List Cmd)} {g : α → α} : ∀ {l : List α}, (∀ x ∈ l, w' (g x) = w x) → writeList w' (l.map g) = writeList w l
  | [], _ => rfl
  | x :: l, h => by
    simp only [List.map_cons, writeList, h x List.mem_cons_self, list_rn fun y hy => h y (List.mem_cons_of_mem _ hy)]

/-! ### Equipment with one terminal -/

theorem load_rn {K : XCodec} {A : Anon} {x : Load} (h : HeadOk A x.ident.head) : writeLoad K .none (x.renamed A.anon) = writeLoad K A x := by
  unfold writeLoad
  refine congrArg (Out.bind _) (funext fun k => congrArg Out.ok (elem_rn h _ ?_ rfl))
  simp only [loadAttrs, Load.renamed, term_rn, pq_rn]

theorem gen_rn {K : XCodec} {A : Anon} {x : Gen} (h : HeadOk A x.ident.head) : writeGen K .none (x.renamed A.anon) = writeGen K A x := by
  unfold writeGen
  refine congrArg (Out.bind _) (funext fun k => congrArg Out.ok (elem_rn h _ ?_ ?_))
  · simp only [genAttrs, Gen.renamed, term_rn, pq_rn]
  · simp only [Gen.renamed, refs_rn]

theorem bat_rn {K : XCodec} {A : Anon} {x : Bat} (h : HeadOk A x.ident.head) : writeBat K .none (x.renamed A.anon) = writeBat K A x := by
  unfold writeBat
  refine congrArg Out.ok (elem_rn h _ ?_ rfl)
  simp only [batAttrs, Bat.renamed, term_rn, pq_rn]

theorem bbs_rn {K : XCodec} {A : Anon} {x : Bbs} (h : HeadOk A x.ident.head) : writeBbs K .none (x.renamed A.anon) = writeBbs K A x := by
  unfold writeBbs
  exact congrArg Out.ok (elem_rn h _ rfl rfl)

theorem lcc_rn {K : XCodec} {A : Anon} {x : Lcc} (h : HeadOk A x.ident.head) : writeLcc K .none (x.renamed A.anon) = writeLcc K A x := by
  unfold writeLcc
  refine congrArg Out.ok (elem_rn h _ ?_ rfl)
  simp only [lccAttrs, Lcc.renamed, term_rn, pq_rn]

theorem vsc_rn {K : XCodec} {A : Anon} {x : Vsc} (h : HeadOk A x.ident.head) : writeVsc K .none (x.renamed A.anon) = writeVsc K A x := by
  unfold writeVsc
  refine congrArg Out.ok (elem_rn h _ ?_ rfl)
  simp only [vscAttrs, Vsc.renamed, term_rn, pq_rn]

theorem svc_rn {K : XCodec} {A : Anon} {x : Svc} (h : HeadOk A x.ident.head) : writeSvc K .none (x.renamed A.anon) = writeSvc K A x := by
  unfold writeSvc
  refine congrArg (Out.bind _) (funext fun k => congrArg Out.ok (elem_rn h _ ?_ ?_))
  · simp only [svcAttrs, Svc.renamed, term_rn, pq_rn]
  · simp only [Svc.renamed, refs_rn]

theorem sh_rn {K : XCodec} {A : Anon} {x : Sh} (h : HeadOk A x.ident.head) : writeSh K .none (x.renamed A.anon) = writeSh K A x := by
  unfold writeSh
  refine congrArg Out.ok (elem_rn h _ ?_ ?_)
  · simp only [shAttrs, Sh.renamed, term_rn, pq_rn]
  · simp only [Sh.renamed, refs_rn]

theorem dl_rn {K : XCodec} {A : Anon} {x : Dl} (h : HeadOk A x.ident.head) : writeDl K .none (x.renamed A.anon) = writeDl K A x := by
  unfold writeDl
  refine congrArg Out.ok (elem_rn h _ ?_ rfl)
  simp only [dlAttrs, Dl.renamed, term_rn, pq_rn]
  rfl

/-! ### Branches -/

theorem line_rn {K : XCodec} {A : Anon} {x : Line} (h : HeadOk A x.ident.head) : writeLine K .none (x.renamed A.anon) = writeLine K A x := by
  unfold writeLine
  refine congrArg Out.ok (elem_rn h _ ?_ rfl)
  simp only [lineAttrs, Line.renamed, sides_rn]

theorem half_rn {K : XCodec} {A : Anon} {s : String} {x : Half} (h : HalfOk K A x) : halfAttrs K .none s (x.renamed A.anon) = halfAttrs K A s x := by
  unfold halfAttrs
  simp only [Half.renamed, Anon.none, id]
  by_cases he : x.id = x.name
  · simp [he]
  · have hn : A.anon x.id ≠ A.anon x.name := fun e => he (Anon.injective h.id.1 h.name.1 e)
    simp [he, hn]

theorem tie_rn {K : XCodec} {A : Anon} {x : TieLine} (h : TieOk K A x) : writeTie K .none (x.renamed A.anon) = writeTie K A x := by
  unfold writeTie
  refine congrArg Out.ok (elem_rn h.ident.head _ ?_ rfl)
  simp only [tieAttrs, TieLine.renamed, sides_rn, half_rn h.half1, half_rn h.half2]

theorem hvdc_rn {K : XCodec} {A : Anon} {x : HvdcLine} (h : HeadOk A x.ident.head) : writeHvdc K .none (x.renamed A.anon) = writeHvdc K A x := by
  unfold writeHvdc
  exact congrArg (Out.bind _) (funext fun k => congrArg Out.ok (elem_rn h _ rfl rfl))

theorem rtc_rn (K : XCodec) (A : Anon) (el : String) (o : Option Rtc) : rtcElems K .none el (o.map (Rtc.renamed A.anon)) = rtcElems K A el o := by
  cases o with
  | none => rfl
  | some t =>
    simp only [Option.map_some, rtcElems, writeRtc, Rtc.renamed, refs_rn]
    rfl

theorem ptc_rn (K : XCodec) (A : Anon) (el : String) (o : Option Ptc) : ptcElems K .none el (o.map (Ptc.renamed A.anon)) = ptcElems K A el o := by
  cases o with
  | none => rfl
  | some t =>
    simp only [Option.map_some, ptcElems, writePtc, Ptc.renamed, refs_rn]
    rfl

theorem tw2_rn {K : XCodec} {A : Anon} {x : Tw2} (h : HeadOk A x.ident.head) : writeTw2 K .none (x.renamed A.anon) = writeTw2 K A x := by
  unfold writeTw2
  rw [show (x.renamed A.anon).ptc = x.ptc.map (Ptc.renamed A.anon) from rfl, ptc_rn]
  refine congrArg (Out.bind _) (funext fun k => congrArg Out.ok (elem_rn h _ ?_ ?_))
  · simp only [tw2Attrs, Tw2.renamed, sides_rn]
  · simp only [Tw2.renamed, rtc_rn]

theorem tw3_rn {K : XCodec} {A : Anon} {x : Tw3} (h : HeadOk A x.ident.head) : writeTw3 K .none (x.renamed A.anon) = writeTw3 K A x := by
  unfold writeTw3
  simp only [Tw3.renamed, Leg.renamed, ptc_rn]
  refine congrArg (Out.bind _) (funext fun p1 => congrArg (Out.bind _) (funext fun p2 => congrArg (Out.bind _) (funext fun p3 => congrArg Out.ok (elem_rn h _ ?_ ?_))))
  · simp only [tw3Attrs, side_rn]; rfl
  · simp only [rtc_rn]

/-! ### Voltage levels, substations, networks -/

theorem bus_rn {K : XCodec} {A : Anon} {x : Bus} (h : HeadOk A x.ident.head) : writeBus K .none (x.renamed A.anon) = writeBus K A x := by
  unfold writeBus
  exact congrArg Out.ok (elem_rn h _ rfl rfl)

theorem nsw_rn {K : XCodec} {A : Anon} {x : NSw} (h : HeadOk A x.ident.head) : writeNSw K .none (x.renamed A.anon) = writeNSw K A x := by
  unfold writeNSw
  exact congrArg (Out.bind _) (funext fun k => congrArg Out.ok (elem_rn h _ rfl rfl))

theorem bsw_rn {A : Anon} {x : BSw} (h : HeadOk A x.ident.head) : writeBSw .none (x.renamed A.anon) = writeBSw A x := by
  unfold writeBSw
  exact congrArg (Out.bind _) (funext fun k => congrArg Out.ok (elem_rn h _ rfl rfl))

theorem topo_rn {K : XCodec} {A : Anon} {x : Topo} (h : TopoOk K A x) : writeTopo K .none (x.renamed A.anon) = writeTopo K A x := by
  cases x with
  | node bbs sws conns calcs =>
    simp only [Topo.renamed, writeTopo]
    rw [list_rn (w := writeBbs K A) fun x hx => bbs_rn (h.1 x hx).ident.head, list_rn (w := writeNSw K A) fun x hx => nsw_rn (h.2.1 x hx).ident.head]
  | bus buses sws =>
    simp only [Topo.renamed, writeTopo]
    rw [list_rn (w := writeBus K A) fun x hx => bus_rn (h.1 x hx).1.head]
    rw [list_rn (w := writeBSwIn A (sws.map fun x => x.ident.head.id)) fun x hx => ?_]
    unfold writeBSwIn
    rw [bsw_rn (h.2 x hx).1.ident.head]
    have h1 : ((sws.map (BSw.renamed A.anon)).map fun x => x.ident.head.id).contains (Anon.none.anon (x.renamed A.anon).ident.head.id) = true := by
      rw [List.contains_iff_mem]
      exact List.mem_map.2 ⟨_, List.mem_map.2 ⟨x, hx, rfl⟩, rfl⟩
    have h2 : (sws.map fun x => x.ident.head.id).contains (A.anon x.ident.head.id) = true := List.contains_iff_mem.2 (h.2 x hx).2
    rw [h1, h2]

theorem equip_rn {K : XCodec} {A : Anon} {e : Equip} (h : EquipOk K A e) : writeEquip K .none (e.renamed A.anon) = writeEquip K A e := by
  simp only [writeEquip, Equip.renamed]
  rw [list_rn (w := writeGen K A) fun x hx => gen_rn (h.gens x hx).ident.head, list_rn (w := writeBat K A) fun x hx => bat_rn (h.bats x hx).ident.head,
    list_rn (w := writeLoad K A) fun x hx => load_rn (h.loads x hx).ident.head, list_rn (w := writeSh K A) fun x hx => sh_rn (h.shs x hx).ident.head,
    list_rn (w := writeDl K A) fun x hx => dl_rn (h.dls x hx).ident.head, list_rn (w := writeSvc K A) fun x hx => svc_rn (h.svcs x hx).ident.head,
    list_rn (w := writeVsc K A) fun x hx => vsc_rn (h.vscs x hx).ident.head, list_rn (w := writeLcc K A) fun x hx => lcc_rn (h.lccs x hx).ident.head]

theorem vl_rn {K : XCodec} {A : Anon} {x : VL} (h : VLOk K A x) : writeVL K .none (x.renamed A.anon) = writeVL K A x := by
  have hk : (x.topo.renamed A.anon).kind = x.topo.kind := by cases x.topo <;> rfl
  unfold writeVL
  simp only [VL.renamed, hk, topo_rn h.topo, equip_rn h.equip]
  exact congrArg (Out.bind _) (funext fun k => congrArg (Out.bind _) (funext fun t => congrArg (Out.bind _) (funext fun e => congrArg Out.ok (elem_rn h.ident.head _ rfl rfl))))

theorem substation_rn {K : XCodec} {A : Anon} {x : Substation} (h : SubstationOk K A x) : writeSubstation K .none (x.renamed A.anon) = writeSubstation K A x := by
  unfold writeSubstation
  simp only [Substation.renamed]
  rw [list_rn (w := writeVL K A) fun y hy => vl_rn (h.vls y hy), list_rn (w := writeTw2 K A) fun y hy => tw2_rn (h.tw2s y hy).ident.head,
    list_rn (w := writeTw3 K A) fun y hy => tw3_rn (h.tw3s y hy).ident.head]
  refine congrArg (Out.bind _) (funext fun k => congrArg (Out.bind _) (funext fun t => congrArg (Out.bind _) (funext fun e => congrArg (Out.bind _) (funext fun d =>
    congrArg Out.ok (elem_rn h.ident.head _ ?_ rfl)))))
  unfold substationAttrs
  have h1 : (if optional A.anon x.tso ≠ "" then [("tso", Anon.none.anon (optional A.anon x.tso))] else []) = if x.tso ≠ "" then [("tso", A.anon x.tso)] else [] := by
    by_cases hs : x.tso = ""
    · simp [hs, optional]
    · rw [if_pos ((optional_ne h.tso.2).2 hs), if_pos hs, optional_eq hs]
      rfl
  simp only [h1, List.map_map]
  by_cases ht : x.tags = []
  · simp [ht]
  · simp [ht, Anon.none, Function.comp_def]

theorem anyLine_rn {K : XCodec} {A : Anon} {x : AnyLine} (h : AnyLineOk K A x) : writeAnyLine K .none (x.renamed A.anon) = writeAnyLine K A x := by
  cases x with
  | line x => exact line_rn (LineOk.ident h).head
  | tie x => exact tie_rn h

theorem net_rn {T : Type} {K : XCodec} {A : Anon} {D : Dates T} {x : Net T} (h : NetOk K A D x) : writeNet K .none D (x.renamed A.anon) = writeNet K A D x := by
  unfold writeNet
  simp only [Net.renamed]
  rw [list_rn (w := writeSubstation K A) fun y hy => substation_rn (h.subs y hy), list_rn (w := writeAnyLine K A) fun y hy => anyLine_rn (h.lines y hy),
    list_rn (w := writeHvdc K A) fun y hy => hvdc_rn (h.hvdcs y hy).ident.head]
  simp only [identCmds, aliases_rn]
  rfl

end Verif.XmlNet
