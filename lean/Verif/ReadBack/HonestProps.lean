import Verif.ReadBack.HonestLemmas
import Verif.ReadBack.SettleProps

/-!
C97: an imported network whose aliases are changed and whose terminals are moved is exported and imported as what it has become.
-/

namespace Verif.ReadBack

open Verif Verif.Xml Verif.XmlNet Verif.Setters

variable {T : Type} {l : List Item}

/-! ### The calls, class by class -/

theorem topo_honest {vl : String} {t u : Topo} (h : (∃ i o, IdentOp.Honest l o ∧ topoBbs i o t = .ok u) ∨ (∃ i o, BusOp.Honest l o ∧ topoBus i o t = .ok u) ∨
    ∃ i o, SwOp.Honest l o ∧ topoSw i o t = .ok u) : u.isNode = t.isNode ∧ Edited l (topoItems vl t) (topoItems vl u) := by
  cases t with
  | node bbs sws conns calcs =>
    rcases h with ⟨i, o, ho, h⟩ | ⟨i, o, ho, h⟩ | ⟨i, o, ho, h⟩
    · obtain ⟨m, hm, rfl⟩ := lift_ok h
      exact ⟨rfl, edited_right _ (set_changed hm fun _ _ _ h => bbs_honest ho h)⟩
    · cases h
    · obtain ⟨m, hm, rfl⟩ := lift_ok h
      exact ⟨rfl, edited_left _ (set_changed hm fun _ _ _ h => nsw_honest ho h)⟩
  | bus buses sws =>
    rcases h with ⟨i, o, ho, h⟩ | ⟨i, o, ho, h⟩ | ⟨i, o, ho, h⟩
    · cases h
    · obtain ⟨m, hm, rfl⟩ := lift_ok h
      exact ⟨rfl, edited_right _ (set_changed hm fun _ _ _ h => bus_honest ho h)⟩
    · obtain ⟨m, hm, rfl⟩ := lift_ok h
      exact ⟨rfl, edited_left _ (set_changed hm fun _ _ _ h => bsw_honest ho h)⟩

/-- The equipment of a voltage level is changed. -/
theorem equip_edited {sub : String} {x : VL} {e : Equip} (h : Edited l (equipItems x.ident.head.id x.equip) (equipItems x.ident.head.id e)) :
    Edited l (vlItems sub x) (vlItems sub { x with equip := e }) :=
  edited_left [vlItem sub x] (edited_left (topoItems x.ident.head.id x.topo) h)

theorem topo_edited {sub : String} {x : VL} {t : Topo} (h : t.isNode = x.topo.isNode ∧ Edited l (topoItems x.ident.head.id x.topo) (topoItems x.ident.head.id t)) :
    Edited l (vlItems sub x) (vlItems sub { x with topo := t }) := by
  have := edited_left [vlItem sub x] (edited_right (equipItems x.ident.head.id x.equip) h.2)
  simpa only [vlItems, vlItem, h.1, List.cons_append, List.nil_append] using this

theorem vl_honest {sub : String} {o : VLOp} {x y : VL} (ho : o.Honest l x) (h : o.set x = .ok y) :
    Edited l (vlItems sub x) (vlItems sub y) ∧ Grown (RefById l) (vlRefs x) (vlRefs y) := by
  cases o with
  | ident o =>
    obtain ⟨i, hi, rfl⟩ := lift_ok h
    refine ⟨?_, grown_refl _⟩
    simp only [vlItems, ident_quiet_id hi]
    exact edited_head _ (ident_item ho hi ..)
  | setHighVoltageLimit d | setLowVoltageLimit d | setNominalV d => obtain ⟨_, rfl⟩ := grd_ok.1 h; exact ⟨edited_refl _, grown_refl _⟩
  | bbs i o => obtain ⟨t, ht, rfl⟩ := lift_ok h; exact ⟨topo_edited (topo_honest (.inl ⟨i, o, ho, ht⟩)), grown_refl _⟩
  | bus i o => obtain ⟨t, ht, rfl⟩ := lift_ok h; exact ⟨topo_edited (topo_honest (.inr (.inl ⟨i, o, ho, ht⟩))), grown_refl _⟩
  | sw i o => obtain ⟨t, ht, rfl⟩ := lift_ok h; exact ⟨topo_edited (topo_honest (.inr (.inr ⟨i, o, ho, ht⟩))), grown_refl _⟩
  | gen i o =>
    obtain ⟨m, hm, rfl⟩ := lift_ok h
    exact ⟨equip_edited (edited_right _ (set_changed hm fun _ _ _ h => inj_item (gen_honest ho h).1)),
      grown_append (grown_append (set_grown hm fun _ _ h => (gen_honest ho h).2) (grown_refl _)) (grown_refl _)⟩
  | bat i o =>
    obtain ⟨m, hm, rfl⟩ := lift_ok h
    exact ⟨equip_edited (edited_left _ (edited_right _ (set_changed hm fun _ _ _ h => inj_item (bat_honest ho h)))), grown_refl _⟩
  | load i o =>
    obtain ⟨m, hm, rfl⟩ := lift_ok h
    exact ⟨equip_edited (edited_left _ (edited_left _ (edited_right _ (set_changed hm fun _ _ _ h => inj_item (load_honest ho h))))), grown_refl _⟩
  | sh i o =>
    obtain ⟨m, hm, rfl⟩ := lift_ok h
    exact ⟨equip_edited (edited_left _ (edited_left _ (edited_left _ (edited_right _ (set_changed hm fun _ _ _ h => inj_item (sh_honest ho h).1))))),
      grown_append (grown_append (grown_refl _) (set_grown hm fun _ _ h => (sh_honest ho h).2)) (grown_refl _)⟩
  | dl i o =>
    obtain ⟨m, hm, rfl⟩ := lift_ok h
    exact ⟨equip_edited (edited_left _ (edited_left _ (edited_left _ (edited_left _ (edited_right _ (set_changed hm fun _ _ _ h => inj_item (dl_honest ho h))))))), grown_refl _⟩
  | svc i o =>
    obtain ⟨m, hm, rfl⟩ := lift_ok h
    exact ⟨equip_edited (edited_left _ (edited_left _ (edited_left _ (edited_left _ (edited_left _ (edited_right _ (set_changed hm fun _ _ _ h => inj_item (svc_honest ho h).1))))))),
      grown_append (grown_refl _) (set_grown hm fun _ _ h => (svc_honest ho h).2)⟩
  | vsc i o =>
    obtain ⟨m, hm, rfl⟩ := lift_ok h
    exact ⟨equip_edited (edited_left _ (edited_left _ (edited_left _ (edited_left _ (edited_left _ (edited_left _ (edited_right _
      (set_changed hm fun _ _ _ h => inj_item (vsc_honest ho h))))))))), grown_refl _⟩
  | lcc i o =>
    obtain ⟨m, hm, rfl⟩ := lift_ok h
    exact ⟨equip_edited (edited_left _ (edited_left _ (edited_left _ (edited_left _ (edited_left _ (edited_left _ (edited_left _
      (set_changed hm fun _ _ _ h => inj_item (lcc_honest ho h))))))))), grown_refl _⟩

theorem sub_honest {o : SubOp} {x y : Substation} (ho : o.Honest l x) (h : o.set x = .ok y) :
    Edited l (substationItems x) (substationItems y) ∧ Grown (RefById l) (substationRefs x) (substationRefs y) := by
  cases o with
  | ident o =>
    obtain ⟨i, hi, rfl⟩ := lift_ok h
    refine ⟨?_, grown_refl _⟩
    simp only [substationItems, ident_quiet_id hi]
    exact edited_head _ (ident_item ho hi ..)
  | addGeographicalTag t | setCountry c | setTso t => simp only [SubOp.set, Out.ok.injEq] at h; subst h; exact ⟨edited_refl _, grown_refl _⟩
  | vl i o =>
    obtain ⟨m, hm, rfl⟩ := lift_ok h
    exact ⟨edited_left [plain x.ident .other] (edited_right _ (set_edited hm fun v _ hv h => (vl_honest (ho v hv) h).1)),
      grown_append (grown_append (set_grown_at hm fun v _ hv h => (vl_honest (sub := "") (ho v hv) h).2) (grown_refl _)) (grown_refl _)⟩
  | tw2 i o =>
    obtain ⟨m, hm, rfl⟩ := lift_ok h
    exact ⟨edited_left [plain x.ident .other] (edited_left _ (edited_right _ (set_changed hm fun t _ ht h => branch_item (tw2_honest (ho t ht) h).1))),
      grown_append (grown_append (grown_refl _) (set_grown_at hm fun t _ ht h => (tw2_honest (ho t ht) h).2)) (grown_refl _)⟩
  | tw3 i o =>
    obtain ⟨m, hm, rfl⟩ := lift_ok h
    exact ⟨edited_left [plain x.ident .other] (edited_left _ (edited_left _ (set_changed hm fun t _ ht h => branch_item (tw3_honest (ho t ht) h).1))),
      grown_append (grown_refl _) (set_grown_at hm fun t _ ht h => (tw3_honest (ho t ht) h).2)⟩

theorem anyLine_honest {o : AnyLineOp} {x y : AnyLine} (ho : o.Honest l x) (h : o.set x = .ok y) : Changed l (lineItem x) (lineItem y) := by
  cases o with
  | line o =>
    cases x with
    | line x => obtain ⟨m, hm, rfl⟩ := lift_ok h; exact branch_item (line_honest ho hm)
    | tie x => cases h
  | tie o =>
    cases x with
    | line x => cases h
    | tie x => obtain ⟨m, hm, rfl⟩ := lift_ok h; exact branch_item (tie_honest ho hm)

theorem net_honest {o : NetOp T} {x y : Net T} (ho : o.Honest x) (h : o.set x = .ok y) :
    Edited (netItems x) (netItems x) (netItems y) ∧ Grown (RefById (netItems x)) (netRefs x) (netRefs y) := by
  cases o with
  | ident o => obtain ⟨i, hi, rfl⟩ := lift_ok h; exact ⟨edited_head _ (ident_item ho hi ..), grown_refl _⟩
  | setCaseDate d => simp only [NetOp.set, Out.ok.injEq] at h; subst h; exact ⟨edited_refl _, grown_refl _⟩
  | setForecastDistance i => obtain ⟨_, rfl⟩ := grd_ok.1 h; exact ⟨edited_refl _, grown_refl _⟩
  | sub i o =>
    obtain ⟨m, hm, rfl⟩ := lift_ok h
    exact ⟨edited_left [plain x.ident .other] (edited_right _ (set_edited hm fun s _ hs h => (sub_honest (ho s hs) h).1)),
      set_grown_at hm fun s _ hs h => (sub_honest (ho s hs) h).2⟩
  | line i o =>
    obtain ⟨m, hm, rfl⟩ := lift_ok h
    exact ⟨edited_left [plain x.ident .other] (edited_left _ (edited_right _ (set_changed hm fun y _ hy h => anyLine_honest (ho y hy) h))), grown_refl _⟩
  | hvdc i o =>
    obtain ⟨m, hm, rfl⟩ := lift_ok h
    exact ⟨edited_left [plain x.ident .other] (edited_left _ (edited_left _ (set_changed hm fun _ _ _ h => hvdc_honest ho h))), grown_refl _⟩

/-! ### What is kept -/

/-- The objects go together and refer to each other by identifiers. -/
structure Tidy (l : List Item) : Prop where
  together : Consistent l
  levels : ∀ x ∈ l, ∀ e ∈ x.ends, ∃ v ∈ l, e.vl = v.id
  stations : ∀ x ∈ l, ∀ s, x.stations = some s → (∃ a ∈ l, s.1 = a.id) ∧ ∃ a ∈ l, s.2 = a.id

theorem owner {n : String} {a b : Item} (hn : (l.flatMap Item.names).Nodup) (ha : a ∈ l) (hb : b ∈ l) (h1 : n ∈ a.names) (h2 : n ∈ b.names) : a = b := by
  have := (called_of hn ha h1).symm.trans (called_of hn hb h2)
  simpa using this

/-- Every object is still there, under its identifier. -/
def Keeps (l m : List Item) : Prop := ∀ x ∈ l, ∃ y ∈ m, y.id = x.id ∧ y.obj = x.obj

theorem refById_keeps {m : List Item} (h : Keeps l m) {r : Ref} (hr : RefById l r) : RefById m r := by
  obtain ⟨x, hx, h1, h2⟩ := hr
  obtain ⟨y, hy, h3, h4⟩ := h x hx
  exact ⟨y, hy, h3 ▸ h1, h4 ▸ h2⟩

theorem edited_keeps {p m m' : List Item} (h : Edited p m m') : Keeps m m' := by
  rcases h with h | ⟨pre, a, b, post, rfl, rfl, h⟩
  · intro x hx
    have : bare x ∈ m'.map bare := h ▸ List.mem_map_of_mem hx
    obtain ⟨y, hy, e⟩ := List.mem_map.1 this
    have h1 := congrArg Item.id e
    have h2 := congrArg Item.obj e
    exact ⟨y, hy, h1, h2⟩
  · intro x hx
    simp only [List.mem_append, List.mem_cons] at hx
    rcases hx with hx | rfl | hx
    · exact ⟨x, by simp [hx], rfl, rfl⟩
    · exact ⟨b, by simp, h.id, h.obj⟩
    · exact ⟨x, by simp [hx], rfl, rfl⟩

/-- A terminal that is well placed among objects that are kept. -/
theorem endValid_keeps {m : List Item} (hn : (l.flatMap Item.names).Nodup) (hk : Keeps l m) {e : End} (hv : EndValid l e) (hi : ∃ v ∈ l, e.vl = v.id) : EndValid m e := by
  obtain ⟨h0, v, hv, h1, sub, node, h2, h3, h4⟩ := hv
  obtain ⟨w, hw, h5⟩ := hi
  obtain rfl := owner hn hw hv (h5 ▸ id_mem_names w) h1
  obtain ⟨u, hu, e1, e2⟩ := hk w hw
  refine ⟨h0, u, hu, h5 ▸ e1 ▸ id_mem_names u, sub, node, e2.trans h2, ?_, h4⟩
  unfold Suits at h3 ⊢
  split at h3
  · exact h3
  · obtain ⟨h6, y, hy, h7, h8⟩ := h3
    obtain ⟨z, hz, e3, e4⟩ := hk y hy
    exact ⟨h6, z, hz, e3.trans h7, by rw [e4, h8, e1]⟩

theorem station_keeps {m : List Item} (hn : (l.flatMap Item.names).Nodup) (hk : Keeps l m) {n : String} (h : StationNamed l n) (hi : ∃ a ∈ l, n = a.id) : StationNamed m n := by
  obtain ⟨h0, s, hs, h1, h2⟩ := h
  obtain ⟨a, ha, h3⟩ := hi
  obtain rfl := owner hn ha hs (h3 ▸ id_mem_names a) h1
  obtain ⟨u, hu, e1, e2⟩ := hk a ha
  exact ⟨h0, u, hu, h3 ▸ e1 ▸ id_mem_names u, e2.trans h2⟩

/-- No node is used twice, when voltage levels are known by their identifiers. -/
def Apart (es : List End) : Prop := es.Pairwise fun e f => e.vl = f.vl → ∀ n, e.place = .node n → f.place ≠ .node n

theorem nodes_apart (hn : (l.flatMap Item.names).Nodup) {es : List End} (hi : ∀ e ∈ es, ∃ v ∈ l, e.vl = v.id) :
    (es.Pairwise fun e f => ∀ v ∈ l, e.vl ∈ v.names → f.vl ∈ v.names → ∀ n, e.place = .node n → f.place ≠ .node n) ↔ Apart es := by
  constructor
  · intro h
    refine h.imp_of_mem fun {e f} he _ h hv => ?_
    obtain ⟨v, hm, e1⟩ := hi e he
    exact h v hm (e1 ▸ id_mem_names v) (hv ▸ e1 ▸ id_mem_names v)
  · intro h
    refine h.imp_of_mem fun {e f} he hf h v hv h1 h2 => h ?_
    obtain ⟨a, ha, e1⟩ := hi e he
    obtain ⟨b, hb, e2⟩ := hi f hf
    obtain rfl := owner hn ha hv (e1 ▸ id_mem_names a) h1
    obtain rfl := owner hn hb hv (e2 ▸ id_mem_names b) h2
    exact e1.trans e2.symm

theorem apart_moved {p q : List End} {e e' : End} (h : Apart (p ++ e :: q)) (hb : ∀ n, e'.place ≠ .node n) : Apart (p ++ e' :: q) := by
  simp only [Apart, List.pairwise_append, List.pairwise_cons, List.mem_cons] at h ⊢
  obtain ⟨h1, ⟨_, h2⟩, h3⟩ := h
  refine ⟨h1, ⟨fun f _ _ n hn => absurd hn (hb n), h2⟩, fun a ha f hf => ?_⟩
  rcases hf with rfl | hf
  · exact fun _ n _ => hb n
  · exact h3 a ha f (.inr hf)

/-- What a call that changes one object keeps. -/
theorem tidy_item {pre post : List Item} {a b : Item} (hl : l = pre ++ a :: post) (h : Tidy l) (he : ItemEdit l a b) : Tidy (pre ++ b :: post) := by
  have hk : Keeps l (pre ++ b :: post) := edited_keeps (p := l) (.inr ⟨pre, a, b, post, hl, rfl, he⟩)
  have hn := h.together.names
  have ha : a ∈ l := by simp [hl]
  have old : ∀ {x}, x ∈ pre ++ b :: post → x = b ∨ x ∈ l := by
    intro x hx
    simp only [List.mem_append, List.mem_cons] at hx
    rcases hx with hx | hx | hx
    · exact .inr (by simp [hl, hx])
    · exact .inl hx
    · exact .inr (by simp [hl, hx])
  -- the terminals are well placed among the objects as they were
  have ends : ∀ x ∈ pre ++ b :: post, ∀ e ∈ x.ends, EndValid l e ∧ ∃ v ∈ l, e.vl = v.id := by
    intro x hx e hm
    rcases old hx with rfl | hx
    · rcases he.edit with ⟨h1, _⟩ | ⟨_, p, f, f', q, h1, h2, h3, b, c, b', h4, h5, w, hw, h6, y, hy, h7, h8⟩
      · rw [h1] at hm; exact ⟨h.together.ends a ha e hm, h.levels a ha e hm⟩
      · have hf : f ∈ a.ends := by simp [h1]
        rw [h2] at hm
        by_cases hef : e = f'
        · subst hef
          obtain ⟨h9, v, hv, h10, sub, node, h11, h12, h13⟩ := h.together.ends a ha f hf
          obtain rfl := owner hn hw hv h6 h10
          rw [h4] at h12
          rw [h3, h5]
          exact ⟨⟨h9, w, hv, h10, sub, node, h11, ⟨h12.1, y, hy, h7, h8⟩, h13⟩, h.levels a ha f hf⟩
        · have : e ∈ a.ends := by simp only [List.mem_append, List.mem_cons, hef, false_or] at hm; simp only [h1, List.mem_append, List.mem_cons]; exact hm.imp_right .inr
          exact ⟨h.together.ends a ha e this, h.levels a ha e this⟩
    · exact ⟨h.together.ends x hx e hm, h.levels x hx e hm⟩
  have named : ∀ {n}, (∃ v ∈ l, n = v.id) → ∃ v ∈ pre ++ b :: post, n = v.id := by
    rintro n ⟨v, hv, rfl⟩
    obtain ⟨u, hu, e1, _⟩ := hk v hv
    exact ⟨u, hu, e1.symm⟩
  have levels : ∀ x ∈ pre ++ b :: post, ∀ e ∈ x.ends, ∃ v ∈ pre ++ b :: post, e.vl = v.id := fun x hx e hm => named (ends x hx e hm).2
  have names : ((pre ++ b :: post).flatMap Item.names).Nodup := by
    subst hl
    simp only [List.flatMap_append, List.flatMap_cons] at hn ⊢
    rcases he.edit with ⟨_, h1 | ⟨n, h1, h2⟩⟩ | ⟨h1, _⟩
    · exact hn.sublist ((List.Sublist.refl _).append (h1.append (List.Sublist.refl _)))
    · rw [h2]
      have hp : List.Perm (pre.flatMap Item.names ++ (a.names ++ [n] ++ post.flatMap Item.names)) (n :: (pre.flatMap Item.names ++ (a.names ++ post.flatMap Item.names))) := by
        rw [List.append_assoc, ← List.append_assoc, List.singleton_append, ← List.append_assoc]
        exact List.perm_middle
      refine hp.nodup_iff.2 (List.nodup_cons.2 ⟨fun hm => ?_, hn⟩)
      simp only [List.mem_append, List.mem_flatMap] at hm
      rcases hm with ⟨x, hx, hm⟩ | hm | ⟨x, hx, hm⟩
      · exact h1 x (by simp [hx]) hm
      · exact h1 a (by simp) hm
      · exact h1 x (by simp [hx]) hm
    · rw [h1]; exact hn
  have stations : ∀ x ∈ pre ++ b :: post, ∀ s, x.stations = some s → ∃ y ∈ l, y.stations = some s := by
    intro x hx s hs
    rcases old hx with rfl | hx
    · exact ⟨a, ha, he.stations ▸ hs⟩
    · exact ⟨x, hx, hs⟩
  refine ⟨⟨names, fun x hx => ?_, fun x hx n hm => ?_, fun x hx e hm => endValid_keeps hn hk (ends x hx e hm).1 (ends x hx e hm).2, ?_, fun x hx s hs => ?_⟩, levels, fun x hx s hs => ?_⟩
  · rcases old hx with rfl | hx
    · exact he.id ▸ h.together.ids a ha
    · exact h.together.ids x hx
  · have : ∃ c ∈ l, c.id = n.2 ∧ c.obj = .bus n.1 := by
      rcases old hx with rfl | hx
      · exact h.together.needs a ha n (he.needs ▸ hm)
      · exact h.together.needs x hx n hm
    obtain ⟨c, hc, h1, h2⟩ := this
    obtain ⟨d, hd, h3, h4⟩ := hk c hc
    exact ⟨d, hd, h3.trans h1, h4.trans h2⟩
  · have hi : ∀ e ∈ l.flatMap Item.ends, ∃ v ∈ l, e.vl = v.id := by
      intro e hm
      obtain ⟨x, hx, hm⟩ := List.mem_flatMap.1 hm
      exact h.levels x hx e hm
    have ap := (nodes_apart hn hi).1 h.together.nodes
    refine (nodes_apart names ?_).2 ?_
    · intro e hm
      obtain ⟨x, hx, hm⟩ := List.mem_flatMap.1 hm
      exact levels x hx e hm
    · subst hl
      simp only [List.flatMap_append, List.flatMap_cons] at ap ⊢
      rcases he.edit with ⟨h1, _⟩ | ⟨_, p, f, f', q, h1, h2, _, c, d, c', _, h5, _⟩
      · rw [h1]; exact ap
      · rw [h1] at ap
        rw [h2]
        simp only [List.append_assoc, List.cons_append] at ap ⊢
        rw [← List.append_assoc] at ap ⊢
        exact apart_moved ap (by rw [h5]; nofun)
  · obtain ⟨y, hy, hs⟩ := stations x hx s hs
    exact ⟨station_keeps hn hk (h.together.stations y hy s hs).1 (h.stations y hy s hs).1, station_keeps hn hk (h.together.stations y hy s hs).2 (h.stations y hy s hs).2⟩
  · obtain ⟨y, hy, hs⟩ := stations x hx s hs
    exact ⟨named (h.stations y hy s hs).1, named (h.stations y hy s hs).2⟩

theorem tidy_bare {m : List Item} (h : Tidy l) (he : m.map bare = l.map bare) : Tidy m := by
  have hk : Keeps l m := edited_keeps (p := l) (.inl he)
  have back : ∀ x ∈ m, ∃ y ∈ l, bare x = bare y := by
    intro x hx
    have : bare x ∈ l.map bare := he ▸ List.mem_map_of_mem hx
    obtain ⟨y, hy, e⟩ := List.mem_map.1 this
    exact ⟨y, hy, e.symm⟩
  have named : ∀ {n}, (∃ v ∈ l, n = v.id) → ∃ v ∈ m, n = v.id := by
    rintro n ⟨v, hv, rfl⟩
    obtain ⟨u, hu, e1, _⟩ := hk v hv
    exact ⟨u, hu, e1.symm⟩
  refine ⟨consistent_bare.1 (he ▸ consistent_bare.2 h.together), fun x hx e hm => ?_, fun x hx s hs => ?_⟩
  · obtain ⟨y, hy, e1⟩ := back x hx
    have h1 := congrArg Item.ends e1
    simp only [bare] at h1
    have : bareEnd e ∈ y.ends.map bareEnd := h1 ▸ List.mem_map_of_mem hm
    obtain ⟨f, hf, e2⟩ := List.mem_map.1 this
    have h2 := congrArg End.vl e2
    simp only [bareEnd] at h2
    exact named (h2 ▸ h.levels y hy f hf)
  · obtain ⟨y, hy, e1⟩ := back x hx
    have h1 := congrArg Item.stations e1
    simp only [bare] at h1
    have := h.stations y hy s (h1 ▸ hs)
    exact ⟨named this.1, named this.2⟩

theorem tidy_edited {m : List Item} (h : Tidy l) (he : Edited l l m) : Tidy m := by
  rcases he with he | ⟨pre, a, b, post, hl, rfl, he⟩
  · exact tidy_bare h he
  · exact tidy_item hl h he

/-- A network whose objects go together and that refers to them by their identifiers. -/
def TidyNet (x : Net T) : Prop := Tidy (netItems x) ∧ ∀ r, x.HasRef r → RefById (netItems x) r

theorem refNamed_of_id {r : Ref} (h : RefById l r) : RefNamed l r := by
  obtain ⟨a, ha, h1, h2⟩ := h
  exact ⟨a, ha, h1 ▸ id_mem_names a, h2⟩

theorem by_id_tidy {x : Net T} (hc : Consistent (netItems x)) (hr : ∀ r, x.HasRef r → RefNamed (netItems x) r) (h : ById x) : TidyNet x := by
  refine ⟨⟨hc, fun a ha e he => ?_, fun a ha s hs => ?_⟩, fun r h1 => ?_⟩
  · obtain ⟨v, hv, e1⟩ := h.levels a (mem_netItems.1 ha) e he
    exact ⟨v, mem_netItems.2 hv, e1⟩
  · have : ∃ y ∈ x.hvdcs, s = (y.station1, y.station2) := by
      cases mem_netItems.1 ha with
      | hvdc hy => cases hs; exact ⟨_, hy, rfl⟩
      | inLevel _ _ hy => cases hy <;> cases hs
      | _ => cases hs
    obtain ⟨y, hy, rfl⟩ := this
    obtain ⟨⟨a, ha, e1⟩, ⟨b, hb, e2⟩⟩ := h.stations y hy
    exact ⟨⟨a, mem_netItems.2 ha, e1⟩, ⟨b, mem_netItems.2 hb, e2⟩⟩
  · obtain ⟨a, ha, e1, _⟩ := h.refs r h1
    obtain ⟨b, hb, e2, e3⟩ := hr r h1
    obtain rfl := owner hc.names (mem_netItems.2 ha) hb (e1 ▸ id_mem_names a) e2
    exact ⟨a, hb, e1, e3⟩

/-- **C97** An honest call, that may add or remove an alias, move a terminal or set a regulating terminal, leaves a network whose objects go together and that refers to
them by their identifiers. -/
theorem honest_call_goes_together {x y : Net T} {o : NetOp T} (hx : TidyNet x) (ho : o.Honest x) (h : o.set x = .ok y) : TidyNet y := by
  obtain ⟨h1, h2⟩ := net_honest ho h
  refine ⟨tidy_edited hx.1 h1, fun r hr => refById_keeps (edited_keeps h1) ?_⟩
  exact (h2 r (mem_netRefs.2 hr)).elim (fun h => hx.2 r (mem_netRefs.1 h)) id

/-- **C97** The same for every history of honest calls, refused calls included. -/
theorem honest_network_goes_together : ∀ (os : List (NetOp T)) {x y : Net T}, TidyNet x → HonestHistory x os → Setters.run x os = .ok y → TidyNet y := by
  intro os
  induction os with
  | nil => intro x y hx _ h; simp only [Setters.run, Out.ok.injEq] at h; exact h ▸ hx
  | cons o os ih =>
    intro x y hx ho h
    simp only [Setters.run] at h
    cases hz : o.set x with
    | ok z => rw [hz] at h; exact ih (honest_call_goes_together hx ho.1 hz) (ho.2.1 z hz) h
    | thrown => rw [hz] at h; exact ih hx (ho.2.2 hz) h
    | ub => rw [hz] at h; cases h

section
variable {K : XCodec} {D : Dates T}

/-- **C97** Import, edit, export, import: after any safe and honest history on an imported network, changes of aliases and moves of terminals included, the second import
gives the edited network, the same but for the names by which regulating terminals were set; it is the edited network itself if these are identifiers. -/
theorem edited_network_comes_back (hK : K.Integers) (hd : K.Doubles) {toks : List Tok} {x y : Net T} {os : List (NetOp T)} (hx : importSettled K D toks = .ok x)
    (hi : NetInside x) (hs : SafeHistory x os) (ho : HonestHistory x os) (h : Setters.run x os = .ok y) (hf : NetFits D y) (hk : Kept K (netNumbers y)) (i : Bool) :
    ∃ cs toks' z, exportNet K D y = .ok cs ∧ document i cs = .ok toks' ∧ importSettled K D toks' = .ok z ∧ SameNet (netItems y) y z ∧ ById z ∧ (ById y → z = y) := by
  obtain ⟨hv, hc, hr, hb⟩ := imported_by_id hd hx
  obtain ⟨ht, hr'⟩ := honest_network_goes_together os (by_id_tidy hc hr hb) ho h
  have hr' := fun r hy => refNamed_of_id (hr' r hy)
  obtain ⟨cs, toks', w1, w2, w3, _⟩ := export_imported hK hd (histories_stay_valid_partial os hv hi hs h) ht.together hr' hf hk i
  exact ⟨cs, toks', _, w1, w2, w3, settled_same ht.together.names, settled_by_id ht.together hr', by_id_settled ht.together.names⟩

end

/-! ### Examples -/

theorem honest_ok {x z : Net T} {o : NetOp T} {os : List (NetOp T)} (ho : o.Honest x) (h : o.set x = .ok z) (hs : HonestHistory z os) : HonestHistory x (o :: os) := by
  refine ⟨ho, fun y hy => ?_, fun ht => ?_⟩
  · rw [h] at hy; cases hy; exact hs
  · rw [h] at ht; cases ht

theorem honest_thrown {x : Net T} {o : NetOp T} {os : List (NetOp T)} (ho : o.Honest x) (h : o.set x = .thrown) (hs : HonestHistory x os) : HonestHistory x (o :: os) := by
  refine ⟨ho, fun y hy => ?_, fun _ => hs⟩
  rw [h] at hy; cases hy

/-- The names that are taken in the imported network. -/
def takenNames (n : String) : Bool := ((netItems (settled goodNet)).flatMap Item.names).contains n

theorem takenNames_all : ∀ x ∈ netItems (settled goodNet), ∀ n ∈ x.names, takenNames n = true := by
  intro x hx n hn
  simp only [takenNames, List.contains_iff_mem, List.mem_flatMap]
  exact ⟨x, hx, hn⟩

/-- The load is refused the name of a voltage level and gets a new alias; the voltage level loses the alias by which the document referred to it; the load goes to another
bus; the generator regulates there. -/
def honestHistory : List (NetOp String) :=
  [.sub 0 (.vl 1 (.load 0 (.ident (.addAlias takenNames "V1" "" false)))), .sub 0 (.vl 1 (.load 0 (.ident (.addAlias takenNames "new" "" false)))),
    .sub 0 (.vl 0 (.ident (.removeAlias "VL1"))), .sub 0 (.vl 1 (.load 0 (.term (.setConnectableBus "B2" true)))),
    .sub 0 (.vl 0 (.gen 0 (.setRegulatingTerminal (some ⟨"L", ""⟩) true)))]

def honestVL (aliases : List (String × String)) (r : Option Ref) : VL := { settleVL (netItems goodNet) goodVL with
  ident := ⟨⟨"V1", "", false⟩, aliases, []⟩, equip := { settleEquip (netItems goodNet) goodVL.equip with gens := [{ settleGen (netItems goodNet) someGen with reg := r }] } }

def honestVL2 (aliases : List (String × String)) (b : String) : VL := { settleVL (netItems goodNet) goodVL2 with
  equip := { settleEquip (netItems goodNet) goodVL2.equip with loads := [{ someLoad with ident := { someLoad.ident with aliases := aliases }, term := ⟨.bus b false, 2, .nan⟩ }] } }

def honestNetOf (v w : VL) : Net String := { settled goodNet with subs := [{ settleSubstation (netItems goodNet) goodSubstation with vls := [v, w] }] }

def newAliases : List (String × String) := [("alias", ""), ("other", "type"), ("new", "")]

def honestNet : Net String := honestNetOf (honestVL [] (some ⟨"L", ""⟩)) (honestVL2 newAliases "B2")

theorem honestHistory_run : Setters.run (settled goodNet) honestHistory = .ok honestNet := rfl

theorem honestHistory_plain : ∀ o ∈ honestHistory, o.Plain := by
  intro o ho
  simp only [honestHistory, List.mem_cons, List.not_mem_nil, or_false] at ho
  rcases ho with rfl | rfl | rfl | rfl | rfl <;> simp [NetOp.Plain, SubOp.Plain, VLOp.Safe, GenOp.Safe]

theorem honestHistory_honest : HonestHistory (settled goodNet) honestHistory := by
  refine honest_thrown ?_ (by rfl) (honest_ok (z := honestNetOf (settleVL (netItems goodNet) goodVL) (honestVL2 newAliases "B")) ?_ (by rfl)
    (honest_ok (z := honestNetOf (honestVL [] (some ⟨"T2", "TWO"⟩)) (honestVL2 newAliases "B")) ?_ (by rfl)
    (honest_ok (z := honestNetOf (honestVL [] (some ⟨"T2", "TWO"⟩)) (honestVL2 newAliases "B2")) ?_ (by rfl) (honest_ok (z := honestNet) ?_ (by rfl) trivial))))
  · rintro s ⟨⟩ v ⟨⟩; exact takenNames_all
  · rintro s ⟨⟩ v ⟨⟩; exact takenNames_all
  · rintro s ⟨⟩ v ⟨⟩; exact trivial
  · rintro s ⟨⟩ v ⟨⟩ _
    exact ⟨vlItem "P" (honestVL2 newAliases "B"), by decide +kernel, by decide, busItem "VL2" ⟨⟨⟨"B2", "", true⟩, [], []⟩, .nan, .nan⟩, by decide +kernel, by decide, by decide⟩
  · rintro s ⟨⟩ v ⟨⟩ r ⟨⟩
    exact ⟨injection "VL2" { someLoad.ident with aliases := newAliases } (.equip 1) (.bus "B2" false), by decide +kernel, by decide, 1, .equip 1, .inl rfl⟩

theorem honestNet_fits : NetFits textDates honestNet := by
  have h : NetFits textDates (settled goodNet) := net_fits goodNet_consistent.1.ids goodNet_fits.2.1
  have hs := h.subs (settleSubstation (netItems goodNet) goodSubstation) List.mem_cons_self
  have hv := hs.vls (settleVL (netItems goodNet) goodVL) List.mem_cons_self
  have hw := hs.vls (settleVL (netItems goodNet) goodVL2) (List.mem_cons_of_mem _ List.mem_cons_self)
  have hg := hv.equip.gens (settleGen (netItems goodNet) someGen) List.mem_cons_self
  have hl := hw.equip.loads someLoad List.mem_cons_self
  refine { h with subs := only_ok { hs with vls := ?_ } }
  intro v hm
  simp only [List.mem_cons, List.not_mem_nil, or_false] at hm
  rcases hm with rfl | rfl
  · exact { hv with ident := nofun, equip := { hv.equip with gens := only_ok { hg with reg := by rintro r ⟨⟩; decide } } }
  · refine { hw with equip := { hw.equip with loads := only_ok { hl with ident := ?_, place := trivial } } }
    intro a ha
    simp only [newAliases, List.mem_cons, List.not_mem_nil, or_false] at ha
    rcases ha with rfl | rfl | rfl
    · exact hl.ident _ List.mem_cons_self
    · exact hl.ident _ (List.mem_cons_of_mem _ List.mem_cons_self)
    · decide

theorem honestNet_kept : Kept rangeX (netNumbers honestNet) := rangeX_kept (by decide +kernel)

theorem settledNet_tidy : TidyNet (settled goodNet) := by
  obtain ⟨hc, hr⟩ := settled_goes_together goodNet_consistent.1 goodNet_consistent.2
  exact by_id_tidy hc hr (settled_by_id goodNet_consistent.1 goodNet_consistent.2)

example : TidyNet honestNet := honest_network_goes_together _ settledNet_tidy honestHistory_honest honestHistory_run

example : ∃ y, (honestHistory[1]).set (settled goodNet) = .ok y ∧ TidyNet y :=
  ⟨_, rfl, honest_call_goes_together (o := honestHistory[1]) settledNet_tidy (by rintro s ⟨⟩ v ⟨⟩; exact takenNames_all) rfl⟩

example (i : Bool) : ∃ toks, importSettled rangeX textDates toks = .ok (settled goodNet) ∧ ∃ cs toks' z, exportNet rangeX textDates honestNet = .ok cs ∧
    document i cs = .ok toks' ∧ importSettled rangeX textDates toks' = .ok z ∧ SameNet (netItems honestNet) honestNet z ∧ ById z ∧ (ById honestNet → z = honestNet) := by
  obtain ⟨_, toks, _, _, h, _⟩ := goodNet_exported i
  exact ⟨toks, h, edited_network_comes_back rangeX_integers rangeX_doubles h settledNet_inside (plain_history _ _ honestHistory_plain) honestHistory_honest
    honestHistory_run honestNet_fits honestNet_kept i⟩

/-- The load is on the other bus, with its new alias, and the voltage level without its own. -/
example : honestNet.subs.flatMap (fun s => s.vls.map fun v => (v.ident.aliases, v.equip.loads.map fun x => (x.ident.aliases, x.term.place))) =
    [([], []), ([], [([("alias", ""), ("other", "type"), ("new", "")], .bus "B2" false)])] := by decide +kernel

/-- The call has to tell the truth: a terminal that is moved to a bus that its voltage level does not have leaves a network that is not imported again. -/
theorem dishonest_move_breaks : ∃ y, (NetOp.sub 0 (.vl 1 (.load 0 (.term (.setConnectableBus "XX" true)))) : NetOp String).set (settled goodNet) = .ok y ∧ ¬ Consistent (netItems y) := by
  refine ⟨honestNetOf (settleVL (netItems goodNet) goodVL) (honestVL2 someLoad.ident.aliases "XX"), rfl, fun h => ?_⟩
  obtain ⟨_, _, _, _, _, _, _, ⟨_, y, hy, h1, _⟩, _⟩ := h.ends (injection "VL2" someLoad.ident (.equip 1) (.bus "XX" false)) (by decide +kernel) _ List.mem_cons_self
  have : ∀ y ∈ netItems (honestNetOf (settleVL (netItems goodNet) goodVL) (honestVL2 someLoad.ident.aliases "XX")), y.id ≠ "XX" := by decide +kernel
  exact this y hy h1

/-- The aliases by which a document refers to objects may go once it is imported, not before: the network with the names of the document no longer goes together. -/
theorem document_alias_needed : ∃ y, (NetOp.sub 0 (.vl 0 (.ident (.removeAlias "VL1"))) : NetOp String).set goodNet = .ok y ∧ ¬ Consistent (netItems y) := by
  refine ⟨{ goodNet with subs := [{ goodSubstation with vls := [{ goodVL with ident := ⟨⟨"V1", "", false⟩, [], []⟩ }, goodVL2] }] }, rfl, fun h => ?_⟩
  obtain ⟨_, v, hv, h1, _⟩ := h.ends (tw2Item "P" { someTw2 with ident := ⟨⟨"T2", "", false⟩, [("T", "")], []⟩ }) (by decide +kernel) _ List.mem_cons_self
  have : ∀ v ∈ netItems { goodNet with subs := [{ goodSubstation with vls := [{ goodVL with ident := ⟨⟨"V1", "", false⟩, [], []⟩ }, goodVL2] }] }, "VL1" ∉ v.names := by decide +kernel
  exact this v hv h1

end Verif.ReadBack
