import Verif.Remove.Spec

/-! Lemmas for C99. -/

namespace Verif.Remove

open Verif Verif.Xml Verif.XmlNet Verif.Setters Verif.ReadBack Verif.Build

variable {T : Type} {l : List Item} {n : String}

theorem other_iff {i : Ident} : other n i = true ↔ i.head.id ≠ n := by simp [other]

/-! ### Lists -/

theorem flatMap_fewer {α β : Type} {f g : α → List β} {xs : List α} (h : ∀ a ∈ xs, (f a).Sublist (g a)) : (xs.flatMap f).Sublist (xs.flatMap g) := by
  induction xs with
  | nil => simp
  | cons a xs ih =>
    simp only [List.flatMap_cons]
    exact (h a List.mem_cons_self).append (ih fun b hb => h b (List.mem_cons_of_mem _ hb))

theorem sublist_flatMap {α β : Type} {f : α → List β} {xs ys : List α} (h : xs.Sublist ys) : (xs.flatMap f).Sublist (ys.flatMap f) := by
  induction h with
  | slnil => simp
  | cons a _ ih => simp only [List.flatMap_cons]; exact ih.trans (List.sublist_append_right _ _)
  | cons_cons a _ ih => simp only [List.flatMap_cons]; exact (List.Sublist.refl _).append ih

theorem fewer_map {α β : Type} {g : α → β} {p : α → Bool} {xs : List α} : ((xs.filter p).map g).Sublist (xs.map g) := List.filter_sublist.map g

theorem mem_kept {α : Type} {g : α → Item} {f : α → Ident} (hg : ∀ b, (g b).ident = f b) {xs : List α} {a : Item} (ha : a ∈ xs.map g) (h : a.id ≠ n) :
    a ∈ (xs.filter fun x => other n (f x)).map g := by
  obtain ⟨b, hb, rfl⟩ := List.mem_map.1 ha
  exact List.mem_map_of_mem (List.mem_filter.2 ⟨hb, other_iff.2 (by rw [← hg]; exact h)⟩)

theorem gone_of {α : Type} {g : α → Item} {f : α → Ident} (hg : ∀ b, (g b).ident = f b) {xs : List α} {a : Item} (ha : a ∈ (xs.filter fun x => other n (f x)).map g) : a.id ≠ n := by
  obtain ⟨b, hb, rfl⟩ := List.mem_map.1 ha
  have := other_iff.1 (List.mem_filter.1 hb).2
  rwa [← hg] at this

theorem same_of_flatMap {α β : Type} {f : α → List β} {xs : List α} (h : (xs.flatMap f).Nodup) {a b : α} {y : β} (ha : a ∈ xs) (hb : b ∈ xs) (h1 : y ∈ f a) (h2 : y ∈ f b) : a = b := by
  induction xs with
  | nil => cases ha
  | cons c xs ih =>
    simp only [List.flatMap_cons, List.nodup_append] at h
    obtain ⟨_, h4, h5⟩ := h
    simp only [List.mem_cons] at ha hb
    rcases ha with rfl | ha <;> rcases hb with rfl | hb
    · rfl
    · exact absurd rfl (h5 y h1 y (List.mem_flatMap.2 ⟨b, hb, h2⟩))
    · exact absurd rfl (h5 y h2 y (List.mem_flatMap.2 ⟨a, ha, h1⟩))
    · exact ih h4 ha hb

/-! ### Fewer objects -/

theorem tidy_fewer {m : List Item} (h : Tidy l) (hs : m.Sublist l) (hl : ∀ x ∈ m, ∀ e ∈ x.ends, ∀ y ∈ l, y.id = e.vl → ∀ sub node, y.obj = .level sub node → y ∈ m)
    (hb : ∀ x ∈ m, ∀ k ∈ x.needs, ∀ y ∈ l, y.id = k.2 → y.obj = .bus k.1 → y ∈ m)
    (he : ∀ x ∈ m, ∀ e ∈ x.ends, ∀ b c, e.place = .bus b c → ∀ y ∈ l, y.id = b → y.obj = .bus e.vl → y ∈ m)
    (ht : ∀ x ∈ m, ∀ s, x.stations = some s → ∀ y ∈ l, y.id = s.1 ∨ y.id = s.2 → y.obj = .station → y ∈ m) : Tidy m := by
  have hc := h.together
  have old : ∀ {x}, x ∈ m → x ∈ l := fun hx => hs.subset hx
  have lev : ∀ x ∈ m, ∀ e ∈ x.ends, ∃ v ∈ m, e.vl = v.id ∧ ∃ sub node, v.obj = .level sub node ∧ Suits m v node e.place ∧ ∀ s, e.only = some s → s = sub := by
    intro x hx e hm
    obtain ⟨_, v, hv, h1, sub, node, h2, h3, h4⟩ := hc.ends x (old hx) e hm
    obtain ⟨w, hw, h5⟩ := h.levels x (old hx) e hm
    obtain rfl := owner hc.names hw hv (h5 ▸ id_mem_names w) h1
    refine ⟨w, hl x hx e hm w hw h5.symm sub node h2, h5, sub, node, h2, ?_, h4⟩
    cases hp : e.place with
    | node k => rw [hp] at h3; exact h3
    | bus b c =>
      rw [hp] at h3
      obtain ⟨h6, y, hy, h7, h8⟩ := h3
      exact ⟨h6, y, he x hx e hm b c hp y hy h7 (by rw [h5]; exact h8), h7, h8⟩
  have sta : ∀ x ∈ m, ∀ s, x.stations = some s → (∃ a ∈ m, s.1 = a.id ∧ a.obj = .station) ∧ ∃ b ∈ m, s.2 = b.id ∧ b.obj = .station := by
    intro x hx s hm
    obtain ⟨⟨h1, a, ha, h2, h3⟩, h4, b, hb', h5, h6⟩ := hc.stations x (old hx) s hm
    obtain ⟨⟨a', ha', e1⟩, b', hb'', e2⟩ := h.stations x (old hx) s hm
    obtain rfl := owner hc.names ha' ha (e1 ▸ id_mem_names a') h2
    obtain rfl := owner hc.names hb'' hb' (e2 ▸ id_mem_names b') h5
    exact ⟨⟨a', ht x hx s hm a' ha (.inl e1.symm) h3, e1, h3⟩, b', ht x hx s hm b' hb' (.inr e2.symm) h6, e2, h6⟩
  refine ⟨⟨(sublist_flatMap hs).nodup hc.names, fun x hx => hc.ids x (old hx), ?_, ?_, ?_, ?_⟩, ?_, ?_⟩
  · intro x hx k hk
    obtain ⟨b, h1, h2, h3⟩ := hc.needs x (old hx) k hk
    exact ⟨b, hb x hx k hk b h1 h2 h3, h2, h3⟩
  · intro x hx e hm
    obtain ⟨v, hv, h1, r⟩ := lev x hx e hm
    exact ⟨h1 ▸ hc.ids v (old hv), v, hv, h1 ▸ id_mem_names v, r⟩
  · refine (hc.nodes.sublist (sublist_flatMap hs)).imp fun h v hv => h v (old hv)
  · intro x hx s hm
    obtain ⟨⟨a, ha, e1, h1⟩, b, hb', e2, h2⟩ := sta x hx s hm
    exact ⟨⟨e1 ▸ hc.ids a (old ha), a, ha, e1 ▸ id_mem_names a, h1⟩, e2 ▸ hc.ids b (old hb'), b, hb', e2 ▸ id_mem_names b, h2⟩
  · intro x hx e hm
    obtain ⟨v, hv, h1, _⟩ := lev x hx e hm
    exact ⟨v, hv, h1⟩
  · intro x hx s hm
    obtain ⟨⟨a, ha, e1, _⟩, b, hb', e2, _⟩ := sta x hx s hm
    exact ⟨⟨a, ha, e1⟩, b, hb', e2⟩

/-! ### The objects that stay -/

theorem topo_fewer {vl : String} {t : Topo} : (topoItems vl (dropTopo n t)).Sublist (topoItems vl t) := by
  cases t <;> exact fewer_map.append fewer_map

theorem equip_fewer {vl : String} {e : Equip} : (equipItems vl (dropEquip n e)).Sublist (equipItems vl e) :=
  fewer_map.append (fewer_map.append (fewer_map.append (fewer_map.append (fewer_map.append (fewer_map.append (fewer_map.append fewer_map))))))

theorem dropTopo_isNode {t : Topo} : (dropTopo n t).isNode = t.isNode := by cases t <;> rfl

theorem vl_fewer {sub : String} {v : VL} : (vlItems sub (dropVL n v)).Sublist (vlItems sub v) := by
  have : vlItem sub (dropVL n v) = vlItem sub v := by simp [vlItem, dropVL, dropTopo_isNode]
  rw [vlItems, vlItems, this]
  exact List.Sublist.cons_cons _ (topo_fewer.append equip_fewer)

theorem sub_fewer {s : Substation} : (substationItems (dropSub n s)).Sublist (substationItems s) := by
  refine List.Sublist.cons_cons _ (List.Sublist.append ?_ (fewer_map.append fewer_map))
  simp only [dropSub, List.flatMap_map]
  exact flatMap_fewer fun v _ => vl_fewer

theorem net_fewer {x : Net T} : (netItems (drop n x)).Sublist (netItems x) := by
  refine List.Sublist.cons_cons _ (List.Sublist.append ?_ (fewer_map.append fewer_map))
  simp only [drop, List.flatMap_map]
  exact flatMap_fewer fun s _ => sub_fewer

theorem topo_kept {vl : String} {t : Topo} {a : Item} (ha : a ∈ topoItems vl t) (h : a.id ≠ n) : a ∈ topoItems vl (dropTopo n t) := by
  cases t <;> simp only [topoItems, dropTopo, List.mem_append] at ha ⊢ <;> rcases ha with ha | ha
  · exact .inl (mem_kept (fun _ => rfl) ha h)
  · exact .inr (mem_kept (fun _ => rfl) ha h)
  · exact .inl (mem_kept (fun _ => rfl) ha h)
  · exact .inr (mem_kept (fun _ => rfl) ha h)

theorem equip_kept {vl : String} {e : Equip} {a : Item} (ha : a ∈ equipItems vl e) (h : a.id ≠ n) : a ∈ equipItems vl (dropEquip n e) := by
  rw [equipItems] at ha ⊢
  iterate 7 refine List.mem_append.2 ((List.mem_append.1 ha).imp (fun ha => mem_kept (fun _ => rfl) ha h) fun ha => ?_)
  exact mem_kept (fun _ => rfl) ha h

theorem vl_kept {sub : String} {v : VL} {a : Item} (ha : a ∈ vlItems sub v) (h : a.id ≠ n) : a ∈ vlItems sub (dropVL n v) := by
  have : vlItem sub (dropVL n v) = vlItem sub v := by simp [vlItem, dropVL, dropTopo_isNode]
  simp only [vlItems, this, List.mem_cons, List.mem_append] at ha ⊢
  exact ha.imp_right (Or.imp (topo_kept · h) (equip_kept · h))

theorem sub_kept {s : Substation} {a : Item} (ha : a ∈ substationItems s) (h : a.id ≠ n) : a ∈ substationItems (dropSub n s) := by
  simp only [substationItems, List.mem_cons, List.mem_append] at ha ⊢
  refine ha.imp_right (Or.imp (fun ha => ?_) (Or.imp (mem_kept (fun _ => rfl) · h) (mem_kept (fun _ => rfl) · h)))
  simp only [dropSub, List.flatMap_map, List.mem_flatMap] at ha ⊢
  obtain ⟨v, hv, ha⟩ := ha
  exact ⟨v, hv, vl_kept ha h⟩

theorem line_ident {y : AnyLine} : (lineItem y).ident = anyIdent y := by cases y <;> rfl

/-- Everything that has another identifier stays. -/
theorem net_kept {x : Net T} {a : Item} (ha : a ∈ netItems x) (h : a.id ≠ n) : a ∈ netItems (drop n x) := by
  simp only [netItems, List.mem_cons, List.mem_append] at ha ⊢
  refine ha.imp_right (Or.imp (fun ha => ?_) (Or.imp (mem_kept (fun _ => line_ident) · h) (mem_kept (fun _ => rfl) · h)))
  simp only [drop, List.flatMap_map, List.mem_flatMap] at ha ⊢
  obtain ⟨s, hs, ha⟩ := ha
  exact ⟨s, hs, sub_kept ha h⟩

/-! ### The objects that are gone -/

/-- The network, the substations and the voltage levels. -/
def Holder (x : Net T) (a : Item) : Prop := a = plain x.ident .other ∨ ∃ s ∈ x.subs, a = plain s.ident .other ∨ ∃ v ∈ s.vls, a = vlItem s.ident.head.id v

theorem topo_gone {vl : String} {t : Topo} {a : Item} (ha : a ∈ topoItems vl (dropTopo n t)) : a.id ≠ n := by
  cases t <;> rcases List.mem_append.1 ha with ha | ha
  · exact gone_of (g := bbsItem vl) (fun _ => rfl) ha
  · exact gone_of (g := nswItem) (fun _ => rfl) ha
  · exact gone_of (g := busItem vl) (fun _ => rfl) ha
  · exact gone_of (g := bswItem vl) (fun _ => rfl) ha

theorem equip_gone {vl : String} {e : Equip} {a : Item} (ha : a ∈ equipItems vl (dropEquip n e)) : a.id ≠ n := by
  rw [equipItems] at ha
  iterate 7 refine (List.mem_append.1 ha).elim (fun ha => gone_of (fun _ => rfl) ha) fun ha => ?_
  exact gone_of (fun _ => rfl) ha

theorem net_gone {x : Net T} {a : Item} (ha : a ∈ netItems (drop n x)) : Holder x a ∨ a.id ≠ n := by
  simp only [netItems, List.mem_cons, List.mem_append] at ha
  rcases ha with ha | ha | ha | ha
  · exact .inl (.inl ha)
  · simp only [drop, List.flatMap_map, List.mem_flatMap] at ha
    obtain ⟨s, hs, ha⟩ := ha
    simp only [substationItems, List.mem_cons, List.mem_append] at ha
    rcases ha with ha | ha | ha | ha
    · exact .inl (.inr ⟨s, hs, .inl ha⟩)
    · simp only [dropSub, List.flatMap_map, List.mem_flatMap] at ha
      obtain ⟨v, hv, ha⟩ := ha
      simp only [vlItems, List.mem_cons, List.mem_append] at ha
      rcases ha with ha | ha | ha
      · exact .inl (.inr ⟨s, hs, .inr ⟨v, hv, by rw [ha]; simp [vlItem, dropVL, dropTopo_isNode]⟩⟩)
      · exact .inr (topo_gone ha)
      · exact .inr (equip_gone ha)
    · exact .inr (gone_of (g := tw2Item s.ident.head.id) (fun _ => rfl) ha)
    · exact .inr (gone_of (g := tw3Item s.ident.head.id) (fun _ => rfl) ha)
  · exact .inr (gone_of (fun _ => line_ident) ha)
  · exact .inr (gone_of (g := hvdcItem) (fun _ => rfl) ha)

theorem holder_mem {x : Net T} {a : Item} (h : Holder x a) : a ∈ netItems x := by
  rcases h with rfl | ⟨s, hs, rfl | ⟨v, hv, rfl⟩⟩
  · exact List.mem_cons_self
  · refine List.mem_cons_of_mem _ (List.mem_append_left _ (List.mem_flatMap.2 ⟨s, hs, List.mem_cons_self⟩))
  · exact List.mem_cons_of_mem _ (List.mem_append_left _ (List.mem_flatMap.2 ⟨s, hs, List.mem_cons_of_mem _ (List.mem_append_left _ (List.mem_flatMap.2 ⟨v, hv, List.mem_cons_self⟩))⟩))

theorem holder_plain {x : Net T} {a : Item} (h : Holder x a) : a.needs = [] ∧ a.ends = [] ∧ a.stations = none ∧ (a.obj = .other ∨ ∃ sub node, a.obj = .level sub node) := by
  rcases h with rfl | ⟨s, hs, rfl | ⟨v, hv, rfl⟩⟩
  · exact ⟨rfl, rfl, rfl, .inl rfl⟩
  · exact ⟨rfl, rfl, rfl, .inl rfl⟩
  · exact ⟨rfl, rfl, rfl, .inr ⟨_, _, rfl⟩⟩

/-- One identifier, one object. -/
theorem one_of {x : Net T} (hn : ((netItems x).flatMap Item.names).Nodup) {a b : Item} (ha : a ∈ netItems x) (hb : b ∈ netItems x) (h : a.id = b.id) : a = b :=
  owner hn ha hb (h ▸ id_mem_names a) (h ▸ id_mem_names b)

theorem head_apart {a b : Item} {m : List Item} (h : ((a :: m).flatMap Item.names).Nodup) (hb : b ∈ m) : a.id ≠ b.id := by
  simp only [List.flatMap_cons, List.nodup_append] at h
  exact h.2.2 _ (id_mem_names a) _ (List.mem_flatMap.2 ⟨b, hb, id_mem_names b⟩)

/-- What is in the topology of a voltage level has not the identifier of what holds it. -/
theorem inner_apart {x : Net T} (hn : ((netItems x).flatMap Item.names).Nodup) {s : Substation} {v : VL} (hs : s ∈ x.subs) (hv : v ∈ s.vls) {a b : Item}
    (ha : a ∈ topoItems v.ident.head.id v.topo) (hb : Holder x b) : b.id ≠ a.id := by
  have iv : a ∈ vlItems s.ident.head.id v := List.mem_cons_of_mem _ (List.mem_append_left _ ha)
  have is : a ∈ s.vls.flatMap (vlItems s.ident.head.id) ++ (s.tw2s.map (tw2Item s.ident.head.id) ++ s.tw3s.map (tw3Item s.ident.head.id)) :=
    List.mem_append_left _ (List.mem_flatMap.2 ⟨v, hv, iv⟩)
  have is' : a ∈ substationItems s := List.mem_cons_of_mem _ is
  have subs : (x.subs.flatMap fun s => (substationItems s).flatMap Item.names).Nodup := by
    rw [← List.flatMap_assoc]
    refine (sublist_flatMap (List.Sublist.cons _ (List.sublist_append_left _ _))).nodup hn
  have one : ∀ t ∈ x.subs, ∀ c ∈ substationItems t, c.id = a.id → t = s := fun t ht c hc e =>
    same_of_flatMap subs ht hs (List.mem_flatMap.2 ⟨c, hc, e ▸ id_mem_names c⟩) (List.mem_flatMap.2 ⟨a, is', id_mem_names a⟩)
  have inS : ((substationItems s).flatMap Item.names).Nodup := by
    refine List.Sublist.nodup ?_ subs
    obtain ⟨p, q, e⟩ := List.append_of_mem hs
    rw [e]
    simp only [List.flatMap_append, List.flatMap_cons]
    exact (List.sublist_append_left _ _).trans (List.sublist_append_right _ _)
  rcases hb with rfl | ⟨t, ht, rfl | ⟨w, hw, rfl⟩⟩
  · exact head_apart hn (List.mem_append_left _ (List.mem_flatMap.2 ⟨s, hs, is'⟩))
  · intro e
    obtain rfl := one t ht _ List.mem_cons_self e
    exact head_apart inS is e
  · intro e
    obtain rfl := one t ht _ (List.mem_cons_of_mem _ (List.mem_append_left _ (List.mem_flatMap.2 ⟨w, hw, List.mem_cons_self⟩))) e
    have vls : (t.vls.flatMap fun v => (vlItems t.ident.head.id v).flatMap Item.names).Nodup := by
      rw [← List.flatMap_assoc]
      refine (sublist_flatMap (List.Sublist.cons _ (List.sublist_append_left _ _))).nodup inS
    obtain rfl := same_of_flatMap vls hw hv (List.mem_flatMap.2 ⟨_, List.mem_cons_self, e ▸ id_mem_names _⟩) (List.mem_flatMap.2 ⟨a, iv, id_mem_names a⟩)
    refine head_apart (a := vlItem t.ident.head.id w) (m := topoItems w.ident.head.id w.topo ++ equipItems w.ident.head.id w.equip) ?_ (List.mem_append_left _ ha) e
    obtain ⟨p, q, e'⟩ := List.append_of_mem hw
    refine List.Sublist.nodup ?_ vls
    rw [e']
    simp only [List.flatMap_append, List.flatMap_cons, vlItems]
    exact ((List.sublist_append_left _ _).trans (List.sublist_append_right _ _))

/-! ### References, validity -/

theorem ref_kept {x : Net T} {r : Ref} (h : (drop n x).HasRef r) : x.HasRef r := by
  cases h with
  | generator hs hv hg hr =>
    obtain ⟨s, hs', rfl⟩ := List.mem_map.1 hs
    obtain ⟨v, hv', rfl⟩ := List.mem_map.1 hv
    exact .generator hs' hv' (List.mem_filter.1 hg).1 hr
  | shunt hs hv hg hr =>
    obtain ⟨s, hs', rfl⟩ := List.mem_map.1 hs
    obtain ⟨v, hv', rfl⟩ := List.mem_map.1 hv
    exact .shunt hs' hv' (List.mem_filter.1 hg).1 hr
  | svc hs hv hg hr =>
    obtain ⟨s, hs', rfl⟩ := List.mem_map.1 hs
    obtain ⟨v, hv', rfl⟩ := List.mem_map.1 hv
    exact .svc hs' hv' (List.mem_filter.1 hg).1 hr
  | ratio2 hs ht hc hr => obtain ⟨s, hs', rfl⟩ := List.mem_map.1 hs; exact .ratio2 hs' (List.mem_filter.1 ht).1 hc hr
  | phase2 hs ht hc hr => obtain ⟨s, hs', rfl⟩ := List.mem_map.1 hs; exact .phase2 hs' (List.mem_filter.1 ht).1 hc hr
  | ratio3 hs ht hl hc hr => obtain ⟨s, hs', rfl⟩ := List.mem_map.1 hs; exact .ratio3 hs' (List.mem_filter.1 ht).1 hl hc hr
  | phase3 hs ht hl hc hr => obtain ⟨s, hs', rfl⟩ := List.mem_map.1 hs; exact .phase3 hs' (List.mem_filter.1 ht).1 hl hc hr

theorem filter_valid {α : Type} {P : α → Prop} {p : α → Bool} {xs : List α} (h : ∀ x ∈ xs, P x) : ∀ x ∈ xs.filter p, P x := fun x hx => h x (List.mem_filter.1 hx).1

theorem map_valid {α : Type} {P : α → Prop} {f : α → α} {xs : List α} (h : ∀ x ∈ xs, P x) (hf : ∀ x, P x → P (f x)) : ∀ x ∈ xs.map f, P x := by
  intro y hy
  obtain ⟨x, hx, rfl⟩ := List.mem_map.1 hy
  exact hf x (h x hx)

theorem dropTopo_valid {t : Topo} (h : TopoValid t) : TopoValid (dropTopo n t) := by
  cases t <;> exact ⟨filter_valid h.1, filter_valid h.2⟩

theorem dropVL_valid {v : VL} (h : VLValid v) : VLValid (dropVL n v) :=
  { h with
    topo := dropTopo_valid h.topo
    equip := ⟨filter_valid h.equip.gens, filter_valid h.equip.bats, filter_valid h.equip.loads, filter_valid h.equip.shs, filter_valid h.equip.dls, filter_valid h.equip.svcs,
      filter_valid h.equip.vscs, filter_valid h.equip.lccs⟩ }

theorem dropSub_valid {s : Substation} (h : SubstationValid s) : SubstationValid (dropSub n s) :=
  { h with vls := map_valid h.vls fun _ => dropVL_valid, tw2s := filter_valid h.tw2s, tw3s := filter_valid h.tw3s }

theorem drop_valid {x : Net T} (h : NetValid x) : NetValid (drop n x) :=
  { h with subs := map_valid h.subs fun _ => dropSub_valid, lines := filter_valid h.lines, hvdcs := filter_valid h.hvdcs }

theorem drop_inside {x : Net T} (h : NetInside x) : NetInside (drop n x) := map_valid h fun _ hs => ⟨filter_valid hs.1, filter_valid hs.2⟩

/-- What is removed is needed by nobody. -/
theorem drop_tidy {x : Net T} {a : Item} (h : Tidy (netItems x)) (ha : a ∈ netItems x) (hl : ∀ sub node, a.obj ≠ .level sub node)
    (hb : ∀ vl, a.obj = .bus vl → (∀ y ∈ netItems x, ∀ k ∈ y.needs, k.2 ≠ a.id) ∧ ∀ y ∈ netItems x, ∀ e ∈ y.ends, ∀ b c, e.place = .bus b c → b ≠ a.id)
    (ht : a.obj = .station → ∀ y ∈ netItems x, ∀ s, y.stations = some s → s.1 ≠ a.id ∧ s.2 ≠ a.id) : Tidy (netItems (drop a.id x)) := by
  have hn := h.together.names
  have hs : (netItems (drop a.id x)).Sublist (netItems x) := net_fewer
  have stay : ∀ y ∈ netItems x, (y = a → False) → y ∈ netItems (drop a.id x) := fun y hy hf => net_kept hy fun e => hf (one_of hn hy ha e)
  refine tidy_fewer h hs (fun _ _ _ _ y hy _ sub node e => stay y hy ?_) (fun z hz k hk y hy e1 e2 => stay y hy ?_) (fun z hz e he b c hp y hy e1 e2 => stay y hy ?_)
    (fun z hz s hm y hy e1 e2 => stay y hy ?_)
  · rintro rfl; exact hl sub node e
  · rintro rfl; exact (hb _ e2).1 z (hs.subset hz) k hk e1.symm
  · rintro rfl; exact (hb _ e2).2 z (hs.subset hz) e he b c hp e1.symm
  · rintro rfl
    have := ht e2 z (hs.subset hz) s hm
    exact e1.elim (fun e => this.1 e.symm) fun e => this.2 e.symm

theorem drop_refs {x : Net T} {a : Item} (h : TidyNet x) (ha : a ∈ netItems x) (hr : (∃ k, a.obj.Terminals k) → ∀ r, (drop a.id x).HasRef r → r.id ≠ a.id) :
    ∀ r, (drop a.id x).HasRef r → RefById (netItems (drop a.id x)) r := by
  intro r hm
  obtain ⟨t, ht, e, k, hk, h1⟩ := h.2 r (ref_kept hm)
  refine ⟨t, net_kept ht fun e' => ?_, e, k, hk, h1⟩
  obtain rfl := one_of h.1.together.names ht ha e'
  exact hr ⟨k, hk⟩ r hm e

theorem stations_of {x : Net T} {a : Item} {s : String × String} (ha : a ∈ netItems x) (h : a.stations = some s) : ∃ k ∈ x.hvdcs, s = (k.station1, k.station2) := by
  have hv : ∀ (sub : String) (v : VL), a ∈ vlItems sub v → False := by
    intro sub v ha
    simp only [vlItems, List.mem_cons, List.mem_append, equipItems, List.mem_map] at ha
    rcases ha with rfl | ha | ha
    · cases h
    · cases ht : v.topo with
      | node bbs sws conns calcs =>
        rw [ht] at ha
        simp only [topoItems, List.mem_append, List.mem_map] at ha
        rcases ha with ⟨b, _, rfl⟩ | ⟨b, _, rfl⟩ <;> cases h
      | bus buses sws =>
        rw [ht] at ha
        simp only [topoItems, List.mem_append, List.mem_map] at ha
        rcases ha with ⟨b, _, rfl⟩ | ⟨b, _, rfl⟩ <;> cases h
    · rcases ha with ⟨b, _, rfl⟩ | ⟨b, _, rfl⟩ | ⟨b, _, rfl⟩ | ⟨b, _, rfl⟩ | ⟨b, _, rfl⟩ | ⟨b, _, rfl⟩ | ⟨b, _, rfl⟩ | ⟨b, _, rfl⟩ <;> cases h
  simp only [netItems, List.mem_cons, List.mem_append, List.mem_flatMap, List.mem_map, substationItems] at ha
  rcases ha with rfl | ⟨s', hs, rfl | ⟨v, _, ha⟩ | ⟨t, _, rfl⟩ | ⟨t, _, rfl⟩⟩ | ⟨y, _, rfl⟩ | ⟨k, hk, rfl⟩
  · cases h
  · cases h
  · exact (hv _ _ ha).elim
  · cases h
  · cases h
  · cases y <;> cases h
  · exact ⟨k, hk, by simpa [hvdcItem] using h.symm⟩

theorem hvdc_mem {x : Net T} {k : HvdcLine} (h : k ∈ x.hvdcs) : hvdcItem k ∈ netItems x :=
  List.mem_cons_of_mem _ (List.mem_append_right _ (List.mem_append_right _ (List.mem_map_of_mem h)))

theorem topo_mem {x : Net T} {s : Substation} {v : VL} (hs : s ∈ x.subs) (hv : v ∈ s.vls) {a : Item} (ha : a ∈ topoItems v.ident.head.id v.topo) : a ∈ netItems x :=
  List.mem_cons_of_mem _ (List.mem_append_left _ (List.mem_flatMap.2 ⟨s, hs, List.mem_cons_of_mem _ (List.mem_append_left _ (List.mem_flatMap.2 ⟨v, hv, List.mem_cons_of_mem _ (List.mem_append_left _ ha)⟩))⟩))

end Verif.Remove
