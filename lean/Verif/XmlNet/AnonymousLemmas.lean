import Verif.XmlNet.RenamedOk
import Verif.XmlNet.AcceptProps

/-!
Helpers of C73: the objects of the renamed network are the renamed objects, which go together when the objects do.
-/

namespace Verif.XmlNet

open Verif Verif.Xml

def Obj.renamed (f : String → String) : Obj → Obj
  | .level sub node => .level (f sub) node
  | .bus vl => .bus (f vl)
  | o => o

def End.renamed (f : String → String) (e : End) : End := ⟨f e.vl, renamedPlace f e.place, e.lookup, e.only.map f⟩

def Item.renamed (f : String → String) (x : Item) : Item := ⟨x.ident.renamed f, x.obj.renamed f, x.needs.map fun n => (f n.1, f n.2), x.ends.map (End.renamed f), x.stations⟩

/-- The objects other than the network itself. -/
def inner {T : Type} (x : Net T) : List Item := x.subs.flatMap substationItems ++ (x.lines.map lineItem ++ x.hvdcs.map hvdcItem)

theorem netItems_eq {T : Type} (x : Net T) : netItems x = plain x.ident .other :: inner x := rfl

theorem topoItems_rn (f : String → String) (vl : String) (t : Topo) : topoItems (f vl) (t.renamed f) = (topoItems vl t).map (Item.renamed f) := by
  cases t <;> simp only [topoItems, Topo.renamed, List.map_append, List.map_map] <;> rfl

theorem equipItems_rn (f : String → String) (vl : String) (e : Equip) : equipItems (f vl) (e.renamed f) = (equipItems vl e).map (Item.renamed f) := by
  simp only [equipItems, Equip.renamed, List.map_append, List.map_map]
  rfl

theorem vlItems_rn (f : String → String) (sub : String) (x : VL) : vlItems (f sub) (x.renamed f) = (vlItems sub x).map (Item.renamed f) := by
  have h : (x.topo.renamed f).isNode = x.topo.isNode := by cases x.topo <;> rfl
  simp only [vlItems, VL.renamed, List.map_cons, List.map_append, ← topoItems_rn, ← equipItems_rn, vlItem, plain, h]
  rfl

theorem flatMap_rn {α : Type} {F G : α → List Item} {g : α → α} {f : String → String} (h : ∀ a, G (g a) = (F a).map (Item.renamed f)) :
    ∀ l : List α, (l.map g).flatMap G = (l.flatMap F).map (Item.renamed f)
  | [] => rfl
  | a :: l => by simp only [List.map_cons, List.flatMap_cons, List.map_append, h, flatMap_rn h l]

theorem substationItems_rn (f : String → String) (x : Substation) : substationItems (x.renamed f) = (substationItems x).map (Item.renamed f) := by
  simp only [substationItems, Substation.renamed, List.map_cons, List.map_append, List.map_map]
  rw [show (x.ident.renamed f).head.id = f x.ident.head.id from rfl, flatMap_rn (F := vlItems x.ident.head.id) (fun v => vlItems_rn f x.ident.head.id v)]
  rfl

theorem inner_rn {T : Type} (f : String → String) (x : Net T) : inner (x.renamed f) = (inner x).map (Item.renamed f) := by
  simp only [inner, Net.renamed, List.map_append, List.map_map]
  rw [flatMap_rn (substationItems_rn f)]
  congr 2
  refine List.map_congr_left fun l _ => ?_
  cases l <;> rfl

theorem names_rn (f : String → String) (x : Item) : (x.renamed f).names = x.names.map f := by
  simp only [Item.names, Item.renamed, Ident.renamed, Item.id, List.map_cons, List.map_map]
  rfl

theorem flatNames_rn (f : String → String) (l : List Item) : (l.map (Item.renamed f)).flatMap Item.names = (l.flatMap Item.names).map f := by
  induction l with
  | nil => rfl
  | cons x l ih => simp only [List.map_cons, List.flatMap_cons, List.map_append, ih, names_rn]

theorem flatEnds_rn (f : String → String) (l : List Item) : (l.map (Item.renamed f)).flatMap Item.ends = (l.flatMap Item.ends).map (End.renamed f) := by
  induction l with
  | nil => rfl
  | cons x l ih => simp only [List.map_cons, List.flatMap_cons, List.map_append, ih]; rfl

theorem refs_map {f : String → String} (o : Option Ref) : (o.map (Ref.renamed f)).toList = o.toList.map (Ref.renamed f) := by cases o <;> rfl

theorem flatRefs_rn {α : Type} {F G : α → List Ref} {g : α → α} {f : String → String} (h : ∀ a, G (g a) = (F a).map (Ref.renamed f)) :
    ∀ l : List α, (l.map g).flatMap G = (l.flatMap F).map (Ref.renamed f)
  | [] => rfl
  | a :: l => by simp only [List.map_cons, List.flatMap_cons, List.map_append, h, flatRefs_rn h l]

theorem rtcRefs_rn (f : String → String) (o : Option Rtc) : rtcRefs (o.map (Rtc.renamed f)) = (rtcRefs o).map (Ref.renamed f) := by
  cases o with
  | none => rfl
  | some t => exact refs_map t.reg

theorem ptcRefs_rn (f : String → String) (o : Option Ptc) : ptcRefs (o.map (Ptc.renamed f)) = (ptcRefs o).map (Ref.renamed f) := by
  cases o with
  | none => rfl
  | some t => exact refs_map t.reg

theorem netRefs_rn {T : Type} (f : String → String) (x : Net T) : netRefs (x.renamed f) = (netRefs x).map (Ref.renamed f) := by
  refine flatRefs_rn (fun s => ?_) x.subs
  simp only [substationRefs, Substation.renamed, List.map_append]
  rw [flatRefs_rn (F := vlRefs) (f := f) (fun v => ?_), flatRefs_rn (F := fun t : Tw2 => rtcRefs t.rtc ++ ptcRefs t.ptc) (f := f) (fun t => ?_),
    flatRefs_rn (F := fun t : Tw3 => legRefs t.leg1 ++ legRefs t.leg2 ++ legRefs t.leg3) (f := f) (fun t => ?_)]
  · simp only [Tw3.renamed, legRefs, Leg.renamed, rtcRefs_rn, ptcRefs_rn, List.map_append]
  · simp only [Tw2.renamed, rtcRefs_rn, ptcRefs_rn, List.map_append]
  · simp only [vlRefs, VL.renamed, Equip.renamed, List.map_append]
    rw [flatRefs_rn (F := fun g : Gen => g.reg.toList) (f := f) (fun g => refs_map g.reg), flatRefs_rn (F := fun g : Sh => g.reg.toList) (f := f) (fun g => refs_map g.reg),
      flatRefs_rn (F := fun g : Svc => g.reg.toList) (f := f) (fun g => refs_map g.reg)]

/-! ### Names -/

/-- The names of the objects are given back by the anonymizer. -/
theorem NetOk.inverts {T : Type} {K : XCodec} {A : Anon} {D : Dates T} {x : Net T} (h : NetOk K A D x) : ∀ y ∈ inner x, ∀ s ∈ y.names, A.Inverts s := by
  have key : ∀ {y : Ident}, IdentOk A y → ∀ s ∈ y.head.id :: y.aliases.map Prod.fst, A.Inverts s := by
    intro y hy s hs
    rcases List.mem_cons.1 hs with rfl | hs
    · exact hy.head.1
    · obtain ⟨a, ha, rfl⟩ := List.mem_map.1 hs
      exact (hy.aliases a ha).1.1
  intro y hy
  rcases List.mem_append.1 hy with hy | hy
  · obtain ⟨s, hs, hy⟩ := List.mem_flatMap.1 hy
    have hs := h.subs s hs
    rcases mem_substationItems.1 hy with rfl | ⟨v, hv, hy⟩ | ⟨t, ht, rfl⟩ | ⟨t, ht, rfl⟩
    · exact key hs.ident
    · have hl := hs.vls v hv
      have ht := hl.topo
      cases hy with
      | level => exact key hl.ident
      | busbar e hx => rw [e] at ht; exact key (ht.1 _ hx).ident
      | nodeSwitch e hx => rw [e] at ht; exact key (ht.2.1 _ hx).ident
      | bus e hx =>
        rw [e] at ht
        intro s hs
        simp only [Item.names, (ht.1 _ hx).2.1, List.map_nil, List.mem_singleton] at hs
        subst hs
        exact (ht.1 _ hx).1.head.1
      | busSwitch e hx => rw [e] at ht; exact key (ht.2 _ hx).1.ident
      | generator hx => exact key (hl.equip.gens _ hx).ident
      | battery hx => exact key (hl.equip.bats _ hx).ident
      | load hx => exact key (hl.equip.loads _ hx).ident
      | shunt hx => exact key (hl.equip.shs _ hx).ident
      | danglingLine hx => exact key (hl.equip.dls _ hx).ident
      | svc hx => exact key (hl.equip.svcs _ hx).ident
      | vsc hx => exact key (hl.equip.vscs _ hx).ident
      | lcc hx => exact key (hl.equip.lccs _ hx).ident
    · exact key (hs.tw2s t ht).ident
    · exact key (hs.tw3s t ht).ident
  rcases List.mem_append.1 hy with hy | hy
  · obtain ⟨l, hl, rfl⟩ := List.mem_map.1 hy
    have := h.lines l hl
    cases l with
    | line l => exact key (LineOk.ident this)
    | tie l => exact key (TieOk.ident this)
  · obtain ⟨l, hl, rfl⟩ := List.mem_map.1 hy
    exact key (h.hvdcs l hl).ident

/-! ### Objects that go together -/

section
variable {l : List Item} {n : Ident} {A : Anon}

theorem mem_inner {v : Item} (h : v ∈ plain n .other :: l) (ho : v.obj ≠ .other) : v ∈ l := by
  rcases List.mem_cons.1 h with h | h
  · exact absurd (by rw [h]; rfl) ho
  · exact h

/-- The objects of a network and the renamed ones; the network keeps its identifier, that no object is given, and there is no HVDC line. -/
theorem consistent_rn (hA : A.KeepsEmpty) (hc : Consistent (plain n .other :: l)) (hn : ∀ a ∈ n.aliases, A.Inverts a.1) (hi : ∀ y ∈ l, ∀ s ∈ y.names, A.Inverts s)
    (hf : ∀ y ∈ l, ∀ s ∈ y.names, A.anon s ≠ n.head.id) (hg : ∀ a ∈ n.aliases, A.anon a.1 ≠ n.head.id) (hs : ∀ y ∈ l, y.stations = none) :
    Consistent (plain { n with aliases := n.aliases.map fun a => (A.anon a.1, a.2) } .other :: l.map (Item.renamed A.anon)) := by
  have hends : ∀ x ∈ l, ∀ e ∈ x.ends, EndValid (plain n .other :: l) e := fun x hx => hc.ends x (List.mem_cons_of_mem _ hx)
  have hvl : ∀ e ∈ l.flatMap Item.ends, ∃ v ∈ l, e.vl ∈ v.names := by
    intro e he
    obtain ⟨x, hx, he⟩ := List.mem_flatMap.1 he
    obtain ⟨_, v, hv, hm, sub, node, ho, _⟩ := hends x hx e he
    exact ⟨v, mem_inner hv (by rw [ho]; nofun), hm⟩
  refine ⟨?_, ?_, ?_, ?_, ?_, ?_⟩
  · have hd := hc.names
    simp only [List.flatMap_cons, Item.names, plain, Item.id, List.cons_append] at hd ⊢
    obtain ⟨h1, h2⟩ := List.nodup_cons.1 hd
    rw [flatNames_rn, fst_rn, ← List.map_append]
    have hinv : ∀ s ∈ n.aliases.map Prod.fst ++ l.flatMap Item.names, A.Inverts s ∧ A.anon s ≠ n.head.id := by
      intro s hs
      rcases List.mem_append.1 hs with hs | hs
      · obtain ⟨a, ha, rfl⟩ := List.mem_map.1 hs
        exact ⟨hn a ha, hg a ha⟩
      · obtain ⟨y, hy, hs⟩ := List.mem_flatMap.1 hs
        exact ⟨hi y hy s hs, hf y hy s hs⟩
    refine List.nodup_cons.2 ⟨fun hm => ?_, nodup_rn (fun s hs => (hinv s hs).1) h2⟩
    obtain ⟨s, hs, e⟩ := List.mem_map.1 hm
    exact (hinv s hs).2 e
  · intro y hy
    rcases List.mem_cons.1 hy with hy | hy
    · rw [hy]
      exact hc.ids (plain n .other) List.mem_cons_self
    · obtain ⟨x, hx, rfl⟩ := List.mem_map.1 hy
      exact Anon.nonempty hA (hi x hx _ List.mem_cons_self) (hc.ids x (List.mem_cons_of_mem _ hx))
  · intro y hy m hm
    rcases List.mem_cons.1 hy with hy | hy
    · rw [hy] at hm; cases hm
    · obtain ⟨x, hx, rfl⟩ := List.mem_map.1 hy
      obtain ⟨k, hk, rfl⟩ := List.mem_map.1 hm
      obtain ⟨b, hb, e1, e2⟩ := hc.needs x (List.mem_cons_of_mem _ hx) k hk
      refine ⟨b.renamed A.anon, List.mem_cons_of_mem _ (List.mem_map.2 ⟨b, mem_inner hb (by rw [e2]; nofun), rfl⟩), ?_, ?_⟩
      · show A.anon b.id = _
        rw [e1]
      · show b.obj.renamed A.anon = _
        rw [e2]; rfl
  · intro y hy e he
    rcases List.mem_cons.1 hy with hy | hy
    · rw [hy] at he; cases he
    · obtain ⟨x, hx, rfl⟩ := List.mem_map.1 hy
      obtain ⟨d, hd, rfl⟩ := List.mem_map.1 he
      obtain ⟨hne, v, hv, hm, sub, node, ho, hsuit, honly⟩ := hends x hx d hd
      have hv' : v ∈ l := mem_inner hv (by rw [ho]; nofun)
      refine ⟨Anon.nonempty hA (hi v hv' _ hm) hne, v.renamed A.anon, List.mem_cons_of_mem _ (List.mem_map.2 ⟨v, hv', rfl⟩), ?_, A.anon sub, node, ?_, ?_, ?_⟩
      · rw [names_rn]
        exact List.mem_map.2 ⟨_, hm, rfl⟩
      · show v.obj.renamed A.anon = _
        rw [ho]; rfl
      · show Suits _ _ _ (renamedPlace A.anon d.place)
        cases hp : d.place with
        | node k => rw [hp] at hsuit; exact hsuit
        | bus b c =>
          rw [hp] at hsuit
          obtain ⟨h1, y, hy, h2, h3⟩ := hsuit
          refine ⟨h1, y.renamed A.anon, List.mem_cons_of_mem _ (List.mem_map.2 ⟨y, mem_inner hy (by rw [h3]; nofun), rfl⟩), ?_, ?_⟩
          · show A.anon y.id = _
            rw [h2]
          · show y.obj.renamed A.anon = _
            rw [h3]; rfl
      · intro s he
        obtain ⟨t, ht, rfl⟩ := Option.map_eq_some_iff.1 he
        rw [honly t ht]
  · have h0 : (plain { n with aliases := n.aliases.map fun a => (A.anon a.1, a.2) } .other :: l.map (Item.renamed A.anon)).flatMap Item.ends = (l.flatMap Item.ends).map (End.renamed A.anon) := by
      rw [List.flatMap_cons, flatEnds_rn]
      rfl
    have h1 : (plain n .other :: l).flatMap Item.ends = l.flatMap Item.ends := by
      rw [List.flatMap_cons]
      rfl
    have hp := hc.nodes
    rw [h1] at hp
    rw [h0, List.pairwise_map]
    refine List.Pairwise.imp_of_mem ?_ hp
    intro d e hd he h v hv hdv hev k hk
    have hback : ∃ w ∈ plain n .other :: l, d.vl ∈ w.names ∧ e.vl ∈ w.names := by
      have hnames : ∀ c ∈ l.flatMap Item.ends, ∀ w : Item, (∀ s ∈ w.names, A.Inverts s) → A.anon c.vl ∈ w.names.map A.anon → c.vl ∈ w.names := by
        intro c hcm w hw hm
        obtain ⟨s, hs, e⟩ := List.mem_map.1 hm
        obtain ⟨u, hu, hcu⟩ := hvl c hcm
        exact Anon.injective (hw s hs) (hi u hu _ hcu) e ▸ hs
      rcases List.mem_cons.1 hv with hv | hv
      · subst hv
        have hnet : ∀ c ∈ l.flatMap Item.ends, A.anon c.vl ∈ (plain { n with aliases := n.aliases.map fun a => (A.anon a.1, a.2) } .other).names → c.vl ∈ (plain n .other).names := by
          intro c hcm hm
          obtain ⟨u, hu, hcu⟩ := hvl c hcm
          rcases List.mem_cons.1 hm with hm | hm
          · exact absurd hm (hf u hu _ hcu)
          · obtain ⟨a, ha, e⟩ := List.mem_map.1 hm
            obtain ⟨b, hb, rfl⟩ := List.mem_map.1 ha
            exact List.mem_cons_of_mem _ (List.mem_map.2 ⟨b, hb, Anon.injective (hn b hb) (hi u hu _ hcu) e⟩)
        exact ⟨_, List.mem_cons_self, hnet d hd hdv, hnet e he hev⟩
      · obtain ⟨w, hw, rfl⟩ := List.mem_map.1 hv
        rw [names_rn] at hdv hev
        exact ⟨w, List.mem_cons_of_mem _ hw, hnames d hd w (hi w hw) hdv, hnames e he w (hi w hw) hev⟩
    obtain ⟨w, hw, h1, h2⟩ := hback
    intro hk'
    have hd' : d.place = .node k := by
      cases hp : d.place with
      | node j => rw [show (End.renamed A.anon d).place = renamedPlace A.anon d.place from rfl, hp] at hk; exact hk
      | bus b c => rw [show (End.renamed A.anon d).place = renamedPlace A.anon d.place from rfl, hp] at hk; cases hk
    have he' : e.place = .node k := by
      cases hp : e.place with
      | node j => rw [show (End.renamed A.anon e).place = renamedPlace A.anon e.place from rfl, hp] at hk'; exact hk'
      | bus b c => rw [show (End.renamed A.anon e).place = renamedPlace A.anon e.place from rfl, hp] at hk'; cases hk'
    exact h w hw h1 h2 k hd' he'
  · intro y hy s he
    rcases List.mem_cons.1 hy with hy | hy
    · rw [hy] at he; cases he
    · obtain ⟨x, hx, rfl⟩ := List.mem_map.1 hy
      rw [show (x.renamed A.anon).stations = x.stations from rfl, hs x hx] at he
      cases he

end

/-- Only HVDC lines have stations. -/
theorem inner_stations {T : Type} {x : Net T} (h : x.hvdcs = []) : ∀ y ∈ inner x, y.stations = none := by
  intro y hy
  rcases List.mem_append.1 hy with hy | hy
  · obtain ⟨s, _, hy⟩ := List.mem_flatMap.1 hy
    rcases mem_substationItems.1 hy with rfl | ⟨v, _, hy⟩ | ⟨t, _, rfl⟩ | ⟨t, _, rfl⟩
    · rfl
    · cases hy <;> rfl
    · rfl
    · rfl
  rcases List.mem_append.1 hy with hy | hy
  · obtain ⟨l, _, rfl⟩ := List.mem_map.1 hy
    cases l <;> rfl
  · rw [h] at hy
    cases hy

theorem refNamed_rn {T : Type} {x : Net T} {f : String → String} {r : Ref} (h : RefNamed (netItems x) r) : RefNamed (netItems (x.renamed f)) (r.renamed f) := by
  obtain ⟨y, hy, hm, n, ht, hn⟩ := h
  have hy' : y ∈ inner x := mem_inner (netItems_eq x ▸ hy) (by rintro e; rw [e] at ht; cases ht)
  refine ⟨y.renamed f, ?_, ?_, n, ?_, hn⟩
  · rw [netItems_eq, inner_rn]
    exact List.mem_cons_of_mem _ (List.mem_map.2 ⟨y, hy', rfl⟩)
  · rw [names_rn]
    exact List.mem_map.2 ⟨_, hm, rfl⟩
  · show (y.obj.renamed f).Terminals n
    cases hy : y.obj with
    | equip k => rw [hy] at ht; exact ht
    | station => rw [hy] at ht; exact ht
    | other => rw [hy] at ht; cases ht
    | level _ _ => rw [hy] at ht; cases ht
    | bus _ => rw [hy] at ht; cases ht

theorem hasRef_rn {T : Type} {x : Net T} {f : String → String} {r : Ref} (h : (x.renamed f).HasRef r) : ∃ q, x.HasRef q ∧ r = q.renamed f := by
  have := mem_netRefs.2 h
  rw [netRefs_rn] at this
  obtain ⟨q, hq, rfl⟩ := List.mem_map.1 this
  exact ⟨q, mem_netRefs.1 hq, rfl⟩

end Verif.XmlNet
