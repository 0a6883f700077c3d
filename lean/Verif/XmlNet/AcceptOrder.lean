import Verif.XmlNet.AcceptLemmas
import Verif.XmlNet.AcceptSpec
import Verif.XmlNet.Valid

/-!
From the objects of a network to the operations of its import, and the order of a document: helper lemmas of C72.
-/

namespace Verif.XmlNet

open Verif Verif.Xml

/-! ### The objects -/

theorem topo_isNode (t : Topo) : t.isNode = (t.kind == 0) := by cases t <;> rfl

theorem mem_vlItems {sub : String} {v : VL} {y : Item} : y ∈ vlItems sub v ↔ v.Has sub y := by
  constructor
  · intro h
    simp only [vlItems, List.mem_cons, List.mem_append, equipItems, List.mem_map] at h
    rcases h with rfl | h | ⟨x, hx, rfl⟩ | ⟨x, hx, rfl⟩ | ⟨x, hx, rfl⟩ | ⟨x, hx, rfl⟩ | ⟨x, hx, rfl⟩ | ⟨x, hx, rfl⟩ | ⟨x, hx, rfl⟩ | ⟨x, hx, rfl⟩
    · unfold vlItem plain; rw [topo_isNode]; exact .level
    · cases ht : v.topo with
      | node bbs sws c d =>
        simp only [ht, topoItems, List.mem_append, List.mem_map] at h
        rcases h with ⟨x, hx, rfl⟩ | ⟨x, hx, rfl⟩
        · exact .busbar ht hx
        · exact .nodeSwitch ht hx
      | bus bs sws =>
        simp only [ht, topoItems, List.mem_append, List.mem_map] at h
        rcases h with ⟨x, hx, rfl⟩ | ⟨x, hx, rfl⟩
        · exact .bus ht hx
        · exact .busSwitch ht hx
    · exact .generator hx
    · exact .battery hx
    · exact .load hx
    · exact .shunt hx
    · exact .danglingLine hx
    · exact .svc hx
    · exact .vsc hx
    · exact .lcc hx
  · intro h
    simp only [vlItems, List.mem_cons, List.mem_append, equipItems, List.mem_map]
    cases h with
    | level => left; unfold vlItem plain; rw [topo_isNode]
    | busbar h hx => right; left; rw [h]; exact List.mem_append_left _ (List.mem_map.2 ⟨_, hx, rfl⟩)
    | nodeSwitch h hx => right; left; rw [h]; exact List.mem_append_right _ (List.mem_map.2 ⟨_, hx, rfl⟩)
    | bus h hx => right; left; rw [h]; exact List.mem_append_left _ (List.mem_map.2 ⟨_, hx, rfl⟩)
    | busSwitch h hx => right; left; rw [h]; exact List.mem_append_right _ (List.mem_map.2 ⟨_, hx, rfl⟩)
    | generator hx => exact .inr (.inr (.inl ⟨_, hx, rfl⟩))
    | battery hx => exact .inr (.inr (.inr (.inl ⟨_, hx, rfl⟩)))
    | load hx => exact .inr (.inr (.inr (.inr (.inl ⟨_, hx, rfl⟩))))
    | shunt hx => exact .inr (.inr (.inr (.inr (.inr (.inl ⟨_, hx, rfl⟩)))))
    | danglingLine hx => exact .inr (.inr (.inr (.inr (.inr (.inr (.inl ⟨_, hx, rfl⟩))))))
    | svc hx => exact .inr (.inr (.inr (.inr (.inr (.inr (.inr (.inl ⟨_, hx, rfl⟩)))))))
    | vsc hx => exact .inr (.inr (.inr (.inr (.inr (.inr (.inr (.inr (.inl ⟨_, hx, rfl⟩))))))))
    | lcc hx => exact .inr (.inr (.inr (.inr (.inr (.inr (.inr (.inr (.inr ⟨_, hx, rfl⟩))))))))

theorem mem_substationItems {s : Substation} {y : Item} : y ∈ substationItems s ↔ y = plain s.ident .other ∨ (∃ v ∈ s.vls, v.Has s.ident.head.id y) ∨
    (∃ t ∈ s.tw2s, tw2Item s.ident.head.id t = y) ∨ ∃ t ∈ s.tw3s, tw3Item s.ident.head.id t = y := by
  simp only [substationItems, List.mem_cons, List.mem_append, List.mem_flatMap, List.mem_map, mem_vlItems]

/-- **C72** The objects that are imported are those of the network, of every class. -/
theorem mem_netItems {T : Type} {x : Net T} {y : Item} : y ∈ netItems x ↔ x.Has y := by
  simp only [netItems, List.mem_cons, List.mem_append, List.mem_flatMap, List.mem_map, mem_substationItems]
  constructor
  · rintro (rfl | ⟨s, hs, rfl | ⟨v, hv, h⟩ | ⟨t, ht, rfl⟩ | ⟨t, ht, rfl⟩⟩ | ⟨l, hl, rfl⟩ | ⟨l, hl, rfl⟩)
    · exact .network
    · exact .substation hs
    · exact .inLevel hs hv h
    · exact .transformer2 hs ht
    · exact .transformer3 hs ht
    · cases l with
      | line l => exact .line hl
      | tie l => exact .tieLine hl
    · exact .hvdc hl
  · intro h
    cases h with
    | network => exact .inl rfl
    | substation hs => exact .inr (.inl ⟨_, hs, .inl rfl⟩)
    | inLevel hs hv h => exact .inr (.inl ⟨_, hs, .inr (.inl ⟨_, hv, h⟩)⟩)
    | transformer2 hs ht => exact .inr (.inl ⟨_, hs, .inr (.inr (.inl ⟨_, ht, rfl⟩))⟩)
    | transformer3 hs ht => exact .inr (.inl ⟨_, hs, .inr (.inr (.inr ⟨_, ht, rfl⟩))⟩)
    | line hl => exact .inr (.inr (.inl ⟨_, hl, rfl⟩))
    | tieLine hl => exact .inr (.inr (.inl ⟨_, hl, rfl⟩))
    | hvdc hl => exact .inr (.inr (.inr ⟨_, hl, rfl⟩))

/-! ### From objects to operations -/

def opsOf (l : List Item) : List Op := l.flatMap itemOps

theorem mem_opsOf {l : List Item} {o : Op} : o ∈ opsOf l ↔ ∃ x ∈ l, o ∈ itemOps x := List.mem_flatMap

theorem new_mem {l : List Item} {i : String} {o : Obj} : Op.new i o ∈ opsOf l ↔ ∃ x ∈ l, x.id = i ∧ x.obj = o := by
  rw [mem_opsOf]
  refine exists_congr fun x => and_congr_right fun _ => ?_
  simp only [itemOps, List.mem_append, List.mem_cons, List.mem_map, Option.mem_toList, Option.map_eq_some_iff]
  constructor
  · rintro (⟨_, _, h⟩ | h | ⟨_, _, h⟩ | ⟨_, _, h⟩ | ⟨p, hp, h⟩)
    · cases h
    · simp only [Op.new.injEq] at h; exact ⟨h.1.symm, h.2.symm⟩
    · cases h
    · cases h
    · cases h
  · rintro ⟨rfl, rfl⟩; exact .inr (.inl rfl)

theorem alias_mem {l : List Item} {i a : String} : Op.alias i a ∈ opsOf l ↔ ∃ x ∈ l, x.id = i ∧ a ∈ x.ident.aliases.map Prod.fst := by
  rw [mem_opsOf]
  refine exists_congr fun x => and_congr_right fun _ => ?_
  simp only [itemOps, List.mem_append, List.mem_cons, List.mem_map, Option.mem_toList, Option.map_eq_some_iff]
  constructor
  · rintro (⟨_, _, h⟩ | h | ⟨_, _, h⟩ | ⟨_, _, h⟩ | ⟨p, hp, h⟩)
    · cases h
    · cases h
    · cases h
    · cases h
    · simp only [Op.alias.injEq] at h
      exact ⟨h.1, p, hp, h.2⟩
  · rintro ⟨rfl, p, hp, rfl⟩
    exact .inr (.inr (.inr (.inr ⟨p, hp, rfl⟩)))

theorem need_mem {l : List Item} {v b : String} : Op.need v b ∈ opsOf l ↔ ∃ x ∈ l, (v, b) ∈ x.needs := by
  rw [mem_opsOf]
  refine exists_congr fun x => and_congr_right fun _ => ?_
  simp only [itemOps, List.mem_append, List.mem_cons, List.mem_map, Option.mem_toList, Option.map_eq_some_iff]
  constructor
  · rintro (⟨n, hn, h⟩ | h | ⟨_, _, h⟩ | ⟨_, _, h⟩ | ⟨p, hp, h⟩)
    · simp only [Op.need.injEq] at h; obtain ⟨rfl, rfl⟩ := h; exact hn
    · cases h
    · cases h
    · cases h
    · cases h
  · exact fun h => .inl ⟨_, h, rfl⟩

@[local simp] theorem filterMap_nothing {α β : Type} (l : List α) : l.filterMap (fun _ => (none : Option β)) = [] := by rw [List.filterMap_eq_nil_iff]; exact fun _ _ => rfl

theorem names_item (x : Item) : namesOf (itemOps x) = x.names := by
  unfold namesOf itemOps
  cases hs : x.stations <;> simp [List.filterMap_append, List.filterMap_map, Function.comp_def, Item.names]

theorem ends_item (x : Item) : endsOf (itemOps x) = x.ends := by
  unfold endsOf itemOps
  cases hs : x.stations <;> simp [List.filterMap_append, List.filterMap_map, Function.comp_def]

theorem hvdcs_item (x : Item) : hvdcsOf (itemOps x) = (x.stations.map fun s => (x.id, s.1, s.2)).toList := by
  unfold hvdcsOf itemOps
  cases hs : x.stations <;> simp [List.filterMap_append, List.filterMap_map, Function.comp_def]

theorem names_ops (l : List Item) : namesOf (opsOf l) = l.flatMap Item.names := by
  unfold namesOf opsOf
  rw [List.filterMap_flatMap]
  exact congrArg (fun f => l.flatMap f) (funext names_item)

theorem ends_ops (l : List Item) : endsOf (opsOf l) = l.flatMap Item.ends := by
  unfold endsOf opsOf
  rw [List.filterMap_flatMap]
  exact congrArg (fun f => l.flatMap f) (funext ends_item)

theorem hvdcs_ops (l : List Item) : hvdcsOf (opsOf l) = l.flatMap fun x => (x.stations.map fun s => (x.id, s.1, s.2)).toList := by
  unfold hvdcsOf opsOf
  rw [List.filterMap_flatMap]
  exact congrArg (fun f => l.flatMap f) (funext hvdcs_item)

/-- A name that two objects have: they are the same. -/
theorem same_name {l : List Item} (hn : (l.flatMap Item.names).Nodup) {x y : Item} (hx : x ∈ l) (hy : y ∈ l) {n : String} (h1 : n ∈ x.names) (h2 : n ∈ y.names) : x = y := by
  induction l with
  | nil => cases hx
  | cons z l ih =>
    rw [List.flatMap_cons, List.nodup_append] at hn
    rcases List.mem_cons.1 hx with hx | hx
    · subst hx
      rcases List.mem_cons.1 hy with rfl | hy
      · rfl
      · exact (hn.2.2 n h1 n (List.mem_flatMap.2 ⟨y, hy, h2⟩) rfl).elim
    · rcases List.mem_cons.1 hy with hy | hy
      · rw [hy] at h2; exact (hn.2.2 n h2 n (List.mem_flatMap.2 ⟨x, hx, h1⟩) rfl).elim
      · exact ih hn.2.1 hx hy

theorem id_mem_names (x : Item) : x.id ∈ x.names := List.mem_cons_self

/-- In a list without two objects of the same identifier. -/
def UniqueIds (l : List Item) : Prop := ∀ x ∈ l, ∀ y ∈ l, x.id = y.id → x = y

theorem means_iff {l : List Item} (hu : UniqueIds l) {x : Item} (hx : x ∈ l) {n : String} : Means (opsOf l) n x.id ↔ n ∈ x.names := by
  unfold Means
  rw [alias_mem]
  constructor
  · rintro (rfl | ⟨y, hy, h1, h2⟩)
    · exact id_mem_names x
    · rw [← hu y hy x hx h1]; exact List.mem_cons_of_mem _ h2
  · intro h
    rcases List.mem_cons.1 h with h | h
    · exact .inl h
    · exact .inr ⟨x, hx, rfl, h⟩

theorem fits_iff {l : List Item} {v : Item} {node : Bool} {p : Adders.Place} : Fits (opsOf l) v.id node p ↔ Suits l v node p := by
  cases p with
  | node n => exact Iff.rfl
  | bus b c => simp only [Fits, Suits, new_mem]

/-! ### What is accepted is consistent -/

theorem nodup_inj {α β : Type} {f : α → β} {l : List α} (h : (l.map f).Nodup) {x y : α} (hx : x ∈ l) (hy : y ∈ l) (he : f x = f y) : x = y := by
  induction l with
  | nil => cases hx
  | cons z l ih =>
    rw [List.map_cons, List.nodup_cons] at h
    rcases List.mem_cons.1 hx with hx | hx
    · subst hx
      rcases List.mem_cons.1 hy with rfl | hy
      · rfl
      · exact (h.1 (List.mem_map.2 ⟨y, hy, he.symm⟩)).elim
    · rcases List.mem_cons.1 hy with hy | hy
      · rw [hy] at he; exact (h.1 (List.mem_map.2 ⟨x, hx, he⟩)).elim
      · exact ih h.2 hx hy

theorem objs_item (x : Item) : objsOf (itemOps x) = [(x.id, x.obj)] := by
  unfold objsOf itemOps
  cases hs : x.stations <;> simp [List.filterMap_append, List.filterMap_map, Function.comp_def]

theorem objs_ops (l : List Item) : objsOf (opsOf l) = l.map fun x => (x.id, x.obj) := by
  unfold objsOf opsOf
  rw [List.filterMap_flatMap, show (fun x => (itemOps x).filterMap _) = fun x : Item => [(x.id, x.obj)] from funext objs_item]
  induction l with
  | nil => rfl
  | cons x l ih => simp [ih]

theorem Ran.itemIds {l : List Item} {st : St} (h : Ran (opsOf l) st) : (l.map Item.id).Nodup := by
  have := h.ids
  rw [h.objs, objs_ops, List.map_map] at this
  exact this

theorem Ran.uniqueIds {l : List Item} {st : St} (h : Ran (opsOf l) st) : UniqueIds l := fun _ hx _ hy he => nodup_inj h.itemIds hx hy he

theorem Ran.consistent {l : List Item} {st : St} (h : Ran (opsOf l) st) (hv : ∀ x ∈ l, IdentValid x.ident) : Consistent l where
  names := by
    unfold List.Nodup
    rw [List.pairwise_flatMap]
    refine ⟨fun x hx => ?_, ?_⟩
    · refine List.nodup_cons.2 ⟨fun hm => ?_, (hv x hx).nodup⟩
      obtain ⟨a, ha, he⟩ := List.mem_map.1 hm
      exact (hv x hx).ids a ha he
    · have hp : l.Pairwise fun x y => x.id ≠ y.id := by
        have := h.itemIds
        unfold List.Nodup at this
        rwa [List.pairwise_map] at this
      refine List.Pairwise.imp_of_mem ?_ hp
      intro x y hx hy hne n hn m hm e
      subst e
      exact hne (h.unique ((means_iff h.uniqueIds hx).2 hn) (new_mem.2 ⟨x, hx, rfl, rfl⟩) ((means_iff h.uniqueIds hy).2 hm) (new_mem.2 ⟨y, hy, rfl, rfl⟩)).1
  ids := fun x hx => h.ne x.id x.obj (by rw [h.objs, mem_objsOf]; exact new_mem.2 ⟨x, hx, rfl, rfl⟩)
  needs := fun x hx n hn => new_mem.1 (h.needs n.1 n.2 (need_mem.2 ⟨x, hx, hn⟩))
  ends := fun x hx e he => by
    obtain ⟨p, _, _, hd, sub, node, hn, hf, ho⟩ := h.ends.left e (by rw [ends_ops]; exact List.mem_flatMap.2 ⟨x, hx, he⟩)
    obtain ⟨v, hv, hi, hob⟩ := new_mem.1 hn
    rw [← hi] at hd hf
    have hm := (means_iff h.uniqueIds hv).1 hd.means
    have hne : e.vl ≠ "" := by
      rcases hd with hd | hd
      · exact hd.2.1
      · rw [hd.2]
        exact h.ne v.id v.obj (by rw [h.objs, mem_objsOf]; exact new_mem.2 ⟨v, hv, rfl, rfl⟩)
    exact ⟨hne, v, hv, hm, sub, node, hob, fits_iff.1 hf, ho⟩
  nodes := by
    rw [← ends_ops]
    refine All2.pairwise ?_ h.ends h.nodes
    rintro e f p q ⟨hp, hde, _, _, hne, _⟩ ⟨hq, hdf, _, _, hnf, _⟩ hpq v hv hev hfv n hen hfn
    have h1 := (h.unique hde.means hne ((means_iff h.uniqueIds hv).2 hev) (new_mem.2 ⟨v, hv, rfl, rfl⟩)).1
    have h2 := (h.unique hdf.means hnf ((means_iff h.uniqueIds hv).2 hfv) (new_mem.2 ⟨v, hv, rfl, rfl⟩)).1
    exact hpq n (hp.trans hen) (Prod.ext (h1.trans h2.symm) ((hp.trans hen).trans (hq.trans hfn).symm))
  stations := fun x hx s hs => by
    have hm : (x.id, s.1, s.2) ∈ hvdcsOf (opsOf l) := by
      rw [hvdcs_ops, List.mem_flatMap]
      exact ⟨x, hx, by simp [hs]⟩
    obtain ⟨t, _, _, h1, h2⟩ := h.hvdcs.left _ hm
    have key : ∀ n i, StationOk (opsOf l) n i → StationNamed l n := by
      rintro n i ⟨hne, hmn, hnew⟩
      obtain ⟨y, hy, hi, hob⟩ := new_mem.1 hnew
      exact ⟨hne, y, hy, (means_iff h.uniqueIds hy).1 (hi ▸ hmn), hob⟩
    exact ⟨key _ _ h1, key _ _ h2⟩

/-! ### What is consistent can be imported -/

def EndReady (pre : List Item) (e : End) : Prop :=
  ∃ v ∈ pre, (e.lookup = true → e.vl ≠ "" ∧ e.vl ∈ v.names) ∧ (e.lookup = false → e.vl = v.id) ∧ ∃ sub node, v.obj = .level sub node ∧ Suits pre v node e.place ∧ ∀ s, e.only = some s → s = sub

/-- What the object refers to comes before it. -/
structure Ready (pre : List Item) (x : Item) : Prop where
  needs : ∀ n ∈ x.needs, ∃ b ∈ pre, b.id = n.2 ∧ b.obj = .bus n.1
  ends : ∀ e ∈ x.ends, EndReady pre e
  stations : ∀ s, x.stations = some s → StationNamed pre s.1 ∧ StationNamed pre s.2

theorem Suits.mono {a b : List Item} (hs : ∀ x ∈ a, x ∈ b) {v : Item} {node : Bool} : ∀ {p : Adders.Place}, Suits a v node p → Suits b v node p
  | .node _, h => h
  | .bus _ _, ⟨h1, y, hy, h2⟩ => ⟨h1, y, hs y hy, h2⟩

theorem EndReady.mono {a b : List Item} (hs : ∀ x ∈ a, x ∈ b) {e : End} : EndReady a e → EndReady b e := by
  rintro ⟨v, hv, h1, h2, sub, node, h3, h4, h5⟩
  exact ⟨v, hs v hv, h1, h2, sub, node, h3, h4.mono hs, h5⟩

theorem StationNamed.mono {a b : List Item} (hs : ∀ x ∈ a, x ∈ b) {n : String} : StationNamed a n → StationNamed b n := by
  rintro ⟨h, y, hy, h2⟩
  exact ⟨h, y, hs y hy, h2⟩

theorem Ready.mono {a b : List Item} (hs : ∀ x ∈ a, x ∈ b) {x : Item} (h : Ready a x) : Ready b x where
  needs := fun n hn => let ⟨y, hy, h2⟩ := h.needs n hn; ⟨y, hs y hy, h2⟩
  ends := fun e he => (h.ends e he).mono hs
  stations := fun s hs' => ⟨(h.stations s hs').1.mono hs, (h.stations s hs').2.mono hs⟩

/-- Every object of the list satisfies the property after those that come before it. -/
def AllIn (P : List Item → Item → Prop) (pre : List Item) : List Item → Prop
  | [] => True
  | x :: l => P pre x ∧ AllIn P (pre ++ [x]) l

def Grows (P : List Item → Item → Prop) : Prop := ∀ a b x, (∀ y ∈ a, y ∈ b) → P a x → P b x

theorem AllIn.mono {P : List Item → Item → Prop} (hP : Grows P) {l : List Item} : ∀ {a b : List Item}, (∀ x ∈ a, x ∈ b) → AllIn P a l → AllIn P b l := by
  induction l with
  | nil => intro a b _ _; trivial
  | cons x l ih =>
    intro a b hs h
    refine ⟨hP _ _ _ hs h.1, ih (fun y hy => ?_) h.2⟩
    rcases List.mem_append.1 hy with hy | hy
    · exact List.mem_append_left _ (hs y hy)
    · exact List.mem_append_right _ hy

theorem allIn_append {P : List Item → Item → Prop} {l k : List Item} : ∀ {a : List Item}, AllIn P a l → AllIn P (a ++ l) k → AllIn P a (l ++ k) := by
  induction l with
  | nil => intro a _ h; simpa using h
  | cons x l ih =>
    intro a h1 h2
    exact ⟨h1.1, ih h1.2 (by simpa using h2)⟩

theorem allIn_of {P : List Item → Item → Prop} (hP : Grows P) {l : List Item} : ∀ {a : List Item}, (∀ x ∈ l, P a x) → AllIn P a l := by
  induction l with
  | nil => intro a _; trivial
  | cons x l ih =>
    intro a h
    exact ⟨h x List.mem_cons_self, ih fun y hy => hP _ _ _ (fun z hz => List.mem_append_left _ hz) (h y (List.mem_cons_of_mem _ hy))⟩

theorem allIn_flatMap {P : List Item → Item → Prop} (hP : Grows P) {α : Type} {f : α → List Item} {l : List α} : ∀ {a : List Item}, (∀ x ∈ l, AllIn P a (f x)) → AllIn P a (l.flatMap f) := by
  induction l with
  | nil => intro a _; trivial
  | cons x l ih =>
    intro a h
    rw [List.flatMap_cons]
    exact allIn_append (h x List.mem_cons_self) (ih fun y hy => (h y (List.mem_cons_of_mem _ hy)).mono hP fun z hz => List.mem_append_left _ hz)

theorem ready_grows : Grows Ready := fun _ _ _ hs h => h.mono hs

abbrev ReadyAll : List Item → List Item → Prop := AllIn Ready

theorem readyAll_append {l k a : List Item} : ReadyAll a l → ReadyAll (a ++ l) k → ReadyAll a (l ++ k) := allIn_append
theorem readyAll_of {l a : List Item} : (∀ x ∈ l, Ready a x) → ReadyAll a l := allIn_of ready_grows
theorem readyAll_flatMap {α : Type} {f : α → List Item} {l : List α} {a : List Item} : (∀ x ∈ l, ReadyAll a (f x)) → ReadyAll a (l.flatMap f) := allIn_flatMap ready_grows

theorem ready_alone {a : List Item} {x : Item} (h1 : x.needs = []) (h2 : x.ends = []) (h3 : x.stations = none) : Ready a x where
  needs := by rw [h1]; nofun
  ends := by rw [h2]; nofun
  stations := by rw [h3]; nofun

theorem Means.mono {a b : List Op} (hs : ∀ x ∈ a, x ∈ b) {n i : String} (h : Means a n i) : Means b n i := h.imp id (hs _)

theorem uniqueIds_of {l : List Item} (h : (l.flatMap Item.names).Nodup) : UniqueIds l := fun x hx y hy he => same_name h hx hy (id_mem_names x) (he ▸ id_mem_names y)

theorem EndReady.ok {pre : List Item} {ops : List Op} (hs : ∀ o ∈ opsOf pre, o ∈ ops) {e : End} (h : EndReady pre e) : ∃ v ∈ pre, e.vl ∈ v.names ∧ EndOk ops e v.id := by
  obtain ⟨v, hv, h1, h2, sub, node, h3, h4, h5⟩ := h
  refine ⟨v, hv, ?_, ?_, sub, node, hs _ (new_mem.2 ⟨v, hv, rfl, h3⟩), ?_, h5⟩
  · cases hl : e.lookup with
    | true => exact (h1 hl).2
    | false => rw [h2 hl]; exact id_mem_names v
  · cases hl : e.lookup with
    | true =>
      refine .inl ⟨hl, (h1 hl).1, ?_⟩
      rcases List.mem_cons.1 (h1 hl).2 with h | h
      · exact .inl h
      · exact .inr (hs _ (alias_mem.2 ⟨v, hv, rfl, h⟩))
    | false => exact .inr ⟨hl, h2 hl⟩
  · cases hp : e.place with
    | node n => rw [hp] at h4; exact h4
    | bus b c =>
      rw [hp] at h4
      obtain ⟨hn, y, hy, hy1, hy2⟩ := h4
      exact ⟨hn, hs _ (new_mem.2 ⟨y, hy, hy1, hy2⟩)⟩

theorem StationNamed.ok {pre : List Item} {ops : List Op} (hs : ∀ o ∈ opsOf pre, o ∈ ops) {n : String} (h : StationNamed pre n) : ∃ i, StationOk ops n i := by
  obtain ⟨h1, y, hy, h2, h3⟩ := h
  refine ⟨y.id, h1, ?_, hs _ (new_mem.2 ⟨y, hy, rfl, h3⟩)⟩
  rcases List.mem_cons.1 h2 with h | h
  · exact .inl h
  · exact .inr (hs _ (alias_mem.2 ⟨y, hy, rfl, h⟩))

theorem canRunAll_of {l : List Op} : ∀ {pre : List Op}, (∀ a o b, l = a ++ o :: b → CanRun (pre ++ a) o) → CanRunAll pre l := by
  induction l with
  | nil => intro _ _; trivial
  | cons x l ih =>
    intro pre h
    refine ⟨by simpa using h [] x l rfl, ih fun a o b e => ?_⟩
    have := h (x :: a) o b (by rw [e]; rfl)
    simpa using this

def NodesFree (l : List Item) : Prop := (l.flatMap Item.ends).Pairwise fun e f => ∀ v ∈ l, e.vl ∈ v.names → f.vl ∈ v.names → ∀ n, e.place = .node n → f.place ≠ .node n

theorem opsOf_append (a b : List Item) : opsOf (a ++ b) = opsOf a ++ opsOf b := List.flatMap_append
theorem opsOf_single (x : Item) : opsOf [x] = itemOps x := by simp [opsOf]

theorem new_before {i n m : String} {ob : Obj} (p q : List Op) : ∀ (c d : List Op), p ++ .new i ob :: q = c ++ Op.alias n m :: d → (∀ y ∈ p, y ≠ Op.alias n m) → Op.new i ob ∈ c := by
  induction p with
  | nil =>
    intro c d h _
    cases c with
    | nil => simp at h
    | cons c0 c => simp only [List.nil_append, List.cons_append, List.cons.injEq] at h; rw [h.1]; exact List.mem_cons_self
  | cons p0 p ih =>
    intro c d h hp
    cases c with
    | nil =>
      simp only [List.cons_append, List.nil_append, List.cons.injEq] at h
      exact (hp p0 List.mem_cons_self h.1).elim
    | cons c0 c =>
      simp only [List.cons_append, List.cons.injEq] at h
      exact List.mem_cons_of_mem _ (ih c d h.2 fun y hy => hp y (List.mem_cons_of_mem _ hy))

theorem canRun_item {pre : List Item} {x : Item} (hr : Ready pre x) (hid : x.id ≠ "") (hn : ((pre ++ [x]).flatMap Item.names).Nodup) (hf : NodesFree (pre ++ [x])) :
    CanRunAll (opsOf pre) (itemOps x) := by
  have hu := uniqueIds_of hn
  have hall : opsOf (pre ++ [x]) = opsOf pre ++ itemOps x := by rw [opsOf_append, opsOf_single]
  have hnames : (namesOf (opsOf pre ++ itemOps x)).Nodup := by rw [← hall, names_ops]; exact hn
  refine canRunAll_of fun a o b e => ?_
  have hin : ∀ y ∈ opsOf pre, y ∈ opsOf pre ++ a := fun y hy => List.mem_append_left _ hy
  have hout : ∀ y ∈ opsOf pre ++ a, y ∈ opsOf (pre ++ [x]) := fun y hy => by
    rw [hall, e]
    rcases List.mem_append.1 hy with hy | hy
    · exact List.mem_append_left _ hy
    · exact List.mem_append_right _ (List.mem_append_left _ hy)
  have ho : o ∈ itemOps x := by rw [e]; simp
  have hfresh : ∀ n, namesOf [o] = [n] → n ∉ namesOf (opsOf pre ++ a) := by
    intro n hno hmem
    rw [e, show opsOf pre ++ (a ++ o :: b) = (opsOf pre ++ a) ++ ([o] ++ b) by simp, namesOf_append _ ([o] ++ b), namesOf_append [o], hno, List.nodup_append] at hnames
    exact hnames.2.2 n hmem n (by simp) rfl
  have hnew : ∀ n m, o = Op.alias n m → Op.new x.id x.obj ∈ a := by
    intro n m hom
    subst hom
    by_cases hmem : Op.new x.id x.obj ∈ a
    · exact hmem
    exfalso
    refine hmem (new_before _ _ a b e fun y hy => ?_)
    obtain ⟨_, _, rfl⟩ := List.mem_map.1 hy
    nofun
  simp only [itemOps, List.mem_append, List.mem_cons, List.mem_map, Option.mem_toList, Option.map_eq_some_iff] at ho
  rcases ho with ⟨n, hn', rfl⟩ | rfl | ⟨en, hen, rfl⟩ | ⟨s, hs, rfl⟩ | ⟨p, hp, rfl⟩
  · obtain ⟨y, hy, h1, h2⟩ := hr.needs n hn'
    exact hin _ (new_mem.2 ⟨y, hy, h1, h2⟩)
  · exact ⟨hid, hfresh _ rfl⟩
  · obtain ⟨v, hv, hvn, hok⟩ := (hr.ends en hen).ok hin
    refine ⟨v.id, hok, fun n hpn f hfm hfn hmeans => ?_⟩
    have hv' : v ∈ pre ++ [x] := List.mem_append_left _ hv
    have h1 := (means_iff hu hv').1 (hmeans.mono hout)
    unfold NodesFree at hf
    rw [← ends_ops, hall, e, show opsOf pre ++ (a ++ .attach en :: b) = (opsOf pre ++ a) ++ ([.attach en] ++ b) by simp, endsOf_append _ ([_] ++ b), endsOf_append [_], List.pairwise_append] at hf
    exact hf.2.2 f hfm en (List.mem_append_left _ (by simp [endsOf])) v hv' h1 hvn n hfn hpn
  · exact ⟨(hr.stations s hs).1.ok hin, (hr.stations s hs).2.ok hin⟩
  · exact ⟨⟨x.obj, List.mem_append_right _ (hnew _ _ rfl)⟩, hfresh _ rfl⟩

theorem NodesFree.prefix {a b : List Item} (h : NodesFree (a ++ b)) : NodesFree a := by
  unfold NodesFree at *
  rw [List.flatMap_append, List.pairwise_append] at h
  exact h.1.imp fun h v hv => h v (List.mem_append_left _ hv)

theorem canRun_items {l : List Item} : ∀ {pre : List Item}, ReadyAll pre l → (∀ x ∈ l, x.id ≠ "") → ((pre ++ l).flatMap Item.names).Nodup → NodesFree (pre ++ l) → CanRunAll (opsOf pre) (opsOf l) := by
  induction l with
  | nil => intro _ _ _ _ _; trivial
  | cons x l ih =>
    intro pre hr hid hn hf
    have e : pre ++ x :: l = (pre ++ [x]) ++ l := by simp
    rw [e] at hn hf
    have hn1 : ((pre ++ [x]).flatMap Item.names).Nodup := by rw [List.flatMap_append] at hn; exact (List.nodup_append.1 hn).1
    rw [show opsOf (x :: l) = itemOps x ++ opsOf l from List.flatMap_cons]
    refine canRunAll_append (canRun_item hr.1 (hid x List.mem_cons_self) hn1 hf.prefix) ?_
    have := ih hr.2 (fun y hy => hid y (List.mem_cons_of_mem _ hy)) hn hf
    rwa [opsOf_append, opsOf_single] at this

/-! ### The order of a document -/

theorem flatMap_sublist {α β : Type} {f g : α → List β} {l : List α} (h : ∀ a ∈ l, (f a).Sublist (g a)) : (l.flatMap f).Sublist (l.flatMap g) := by
  induction l with
  | nil => exact .slnil
  | cons a l ih =>
    rw [List.flatMap_cons, List.flatMap_cons]
    exact (h a List.mem_cons_self).append (ih fun b hb => h b (List.mem_cons_of_mem _ hb))

/-- The voltage levels, with their substations. -/
def Net.levels {T : Type} (x : Net T) : List (Substation × VL) := x.subs.flatMap fun s => s.vls.map fun v => (s, v)

theorem ids_sublist (l : List Item) : (l.map Item.id).Sublist (l.flatMap Item.names) := by
  induction l with
  | nil => exact .slnil
  | cons x l ih => rw [List.flatMap_cons]; exact ((List.nil_sublist _).append ih).cons_cons _

theorem map_eq_flatMap {α β : Type} (f : α → β) (l : List α) : l.map f = l.flatMap fun a => [f a] := by
  induction l with
  | nil => rfl
  | cons a l ih => rw [List.map_cons, List.flatMap_cons, ih]; rfl

theorem sub_unique {T : Type} {x : Net T} (h : Consistent (netItems x)) {s s' : Substation} (hs : s ∈ x.subs) (hs' : s' ∈ x.subs) (he : s.ident.head.id = s'.ident.head.id) : s = s' := by
  refine nodup_inj (f := fun s : Substation => s.ident.head.id) (List.Nodup.sublist ?_ ((h.names).sublist (ids_sublist _))) hs hs' he
  simp only [netItems, List.map_cons, List.map_append]
  refine List.Sublist.cons _ (List.Sublist.trans ?_ (List.sublist_append_left _ _))
  rw [List.map_flatMap, map_eq_flatMap]
  exact flatMap_sublist fun s _ => (List.nil_sublist _).cons_cons _

theorem level_unique {T : Type} {x : Net T} (h : Consistent (netItems x)) {s s' : Substation} {v v' : VL} (hs : s ∈ x.subs) (hs' : s' ∈ x.subs) (hv : v ∈ s.vls) (hv' : v' ∈ s'.vls)
    (he : v.ident.head.id = v'.ident.head.id) : s = s' ∧ v = v' := by
  have hm : ∀ {s v}, s ∈ x.subs → v ∈ s.vls → (s, v) ∈ x.levels := fun hs hv => List.mem_flatMap.2 ⟨_, hs, List.mem_map.2 ⟨_, hv, rfl⟩⟩
  have := nodup_inj (f := fun p : Substation × VL => p.2.ident.head.id) (l := x.levels) (List.Nodup.sublist ?_ ((h.names).sublist (ids_sublist _))) (hm hs hv) (hm hs' hv') he
  · exact ⟨congrArg Prod.fst this, congrArg Prod.snd this⟩
  · simp only [netItems, List.map_cons, List.map_append]
    refine List.Sublist.cons _ (List.Sublist.trans ?_ (List.sublist_append_left _ _))
    unfold Net.levels
    rw [List.map_flatMap, List.map_flatMap]
    refine flatMap_sublist fun s _ => ?_
    simp only [substationItems, List.map_cons, List.map_append, List.map_map]
    refine List.Sublist.cons _ (List.Sublist.trans ?_ (List.sublist_append_left _ _))
    rw [List.map_flatMap, map_eq_flatMap]
    exact flatMap_sublist fun v _ => (List.nil_sublist _).cons_cons _

theorem level_inv {T : Type} {x : Net T} {y : Item} (hy : y ∈ netItems x) {sub : String} {node : Bool} (h : y.obj = .level sub node) :
    ∃ s ∈ x.subs, ∃ v ∈ s.vls, y = vlItem s.ident.head.id v ∧ sub = s.ident.head.id := by
  cases mem_netItems.1 hy with
  | network => cases h
  | substation _ => cases h
  | transformer2 _ _ => cases h
  | transformer3 _ _ => cases h
  | line _ => cases h
  | tieLine _ => cases h
  | hvdc _ => cases h
  | inLevel hs hv hy =>
    cases hy with
    | level =>
      refine ⟨_, hs, _, hv, ?_, ?_⟩
      · unfold vlItem plain; rw [topo_isNode]
      · simp only [Obj.level.injEq] at h; exact h.1.symm
    | _ => cases h

theorem bus_inv {T : Type} {x : Net T} {y : Item} (hy : y ∈ netItems x) {w : String} (h : y.obj = .bus w) :
    ∃ s ∈ x.subs, ∃ v ∈ s.vls, v.ident.head.id = w ∧ ∃ bs sws, v.topo = .bus bs sws ∧ y ∈ bs.map (busItem w) := by
  cases mem_netItems.1 hy with
  | network => cases h
  | substation _ => cases h
  | transformer2 _ _ => cases h
  | transformer3 _ _ => cases h
  | line _ => cases h
  | tieLine _ => cases h
  | hvdc _ => cases h
  | inLevel hs hv hy =>
    cases hy with
    | bus ht hx =>
      simp only [Obj.bus.injEq] at h
      subst h
      exact ⟨_, hs, _, hv, rfl, _, _, ht, List.mem_map.2 ⟨_, hx, rfl⟩⟩
    | _ => cases h

theorem station_inv {T : Type} {x : Net T} {y : Item} (hy : y ∈ netItems x) (h : y.obj = .station) : ∃ s ∈ x.subs, ∃ v ∈ s.vls, y ∈ vlItems s.ident.head.id v := by
  cases mem_netItems.1 hy with
  | network => cases h
  | substation _ => cases h
  | transformer2 _ _ => cases h
  | transformer3 _ _ => cases h
  | line _ => cases h
  | tieLine _ => cases h
  | hvdc _ => cases h
  | inLevel hs hv hy => exact ⟨_, hs, _, hv, mem_vlItems.2 hy⟩

theorem mem_vl_of_bus {sub : String} {v : VL} {bs : List Bus} {sws : List BSw} {y : Item} (ht : v.topo = .bus bs sws) (hy : y ∈ bs.map (busItem v.ident.head.id)) :
    y ∈ topoItems v.ident.head.id v.topo := by
  rw [ht]; exact List.mem_append_left _ hy

/-- The buses where a terminal of a voltage level may be are among those of its topology. -/
theorem suits_in {T : Type} {x : Net T} (h : Consistent (netItems x)) {s : Substation} {v : VL} (hs : s ∈ x.subs) (hv : v ∈ s.vls) {a : List Item}
    (ha : ∀ y ∈ topoItems v.ident.head.id v.topo, y ∈ a) {node : Bool} {p : Adders.Place} (hp : Suits (netItems x) (vlItem s.ident.head.id v) node p) :
    Suits a (vlItem s.ident.head.id v) node p := by
  cases p with
  | node n => exact hp
  | bus b c =>
    obtain ⟨hn, y, hy, hid, ho⟩ := hp
    obtain ⟨s', hs', v', hv', he, bs, sws, ht, hm⟩ := bus_inv hy ho
    obtain ⟨_, rfl⟩ := level_unique h hs hs' hv hv' he.symm
    exact ⟨hn, y, ha y (mem_vl_of_bus (sub := s.ident.head.id) ht (by rw [he]; exact hm)), hid, ho⟩

theorem mem_net_of_vl {T : Type} {x : Net T} {s : Substation} {v : VL} (hs : s ∈ x.subs) (hv : v ∈ s.vls) {y : Item} (hy : y ∈ vlItems s.ident.head.id v) : y ∈ netItems x :=
  mem_netItems.2 (.inLevel hs hv (mem_vlItems.1 hy))

theorem vlItem_mem (sub : String) (v : VL) : vlItem sub v ∈ vlItems sub v := List.mem_cons_self

/-- A terminal in a voltage level that the adder knows. -/
theorem injection_ready {T : Type} {x : Net T} (h : Consistent (netItems x)) {s : Substation} {v : VL} (hs : s ∈ x.subs) (hv : v ∈ s.vls) {a : List Item}
    (hlevel : vlItem s.ident.head.id v ∈ a) {i : Ident} {o : Obj} {p : Adders.Place}
    (ha : ∀ y ∈ topoItems v.ident.head.id v.topo, (∃ n, p = .node n) ∨ y ∈ a)
    (hm : injection v.ident.head.id i o p ∈ netItems x) : Ready a (injection v.ident.head.id i o p) where
  needs := nofun
  stations := nofun
  ends := fun e he => by
    have hv' := h.ends _ hm e he
    simp only [injection, List.mem_singleton] at he
    subst he
    obtain ⟨_, w, hw, hn, sub, node, ho, hsu, honly⟩ := hv'
    have hvm := mem_net_of_vl hs hv (vlItem_mem _ _)
    have : w = vlItem s.ident.head.id v := same_name h.names hw hvm hn (id_mem_names _)
    subst this
    refine ⟨_, hlevel, nofun, fun _ => rfl, sub, node, ho, ?_, honly⟩
    cases p with
    | node n => exact hsu
    | bus b c =>
      refine suits_in h hs hv (fun y hy => ?_) hsu
      rcases ha y hy with ⟨n, hn⟩ | hy
      · cases hn
      · exact hy

theorem equip_shape {vl : String} {e : Equip} {y : Item} (hy : y ∈ equipItems vl e) : ∃ i o p, y = injection vl i o p := by
  simp only [equipItems, List.mem_append, List.mem_map] at hy
  rcases hy with ⟨x, _, rfl⟩ | ⟨x, _, rfl⟩ | ⟨x, _, rfl⟩ | ⟨x, _, rfl⟩ | ⟨x, _, rfl⟩ | ⟨x, _, rfl⟩ | ⟨x, _, rfl⟩ | ⟨x, _, rfl⟩ <;> exact ⟨_, _, _, rfl⟩

theorem vl_ready {T : Type} {x : Net T} (h : Consistent (netItems x)) {s : Substation} {v : VL} (hs : s ∈ x.subs) (hv : v ∈ s.vls) (a : List Item) : ReadyAll a (vlItems s.ident.head.id v) := by
  refine ⟨ready_alone rfl rfl rfl, readyAll_append ?_ (readyAll_of fun y hy => ?_)⟩
  · cases ht : v.topo with
    | node bbs sws c d =>
      refine readyAll_append (readyAll_of fun y hy => ?_) (readyAll_of fun y hy => ?_)
      · obtain ⟨b, hb, rfl⟩ := List.mem_map.1 hy
        refine injection_ready h hs hv (List.mem_append_right _ (List.mem_singleton.2 rfl)) (fun _ _ => .inl ⟨_, rfl⟩) (mem_net_of_vl hs hv (List.mem_cons_of_mem _ (List.mem_append_left _ ?_)))
        rw [ht]; exact List.mem_append_left _ hy
      · obtain ⟨b, hb, rfl⟩ := List.mem_map.1 hy
        exact ready_alone rfl rfl rfl
    | bus bs sws =>
      refine readyAll_append (readyAll_of fun y hy => ?_) (readyAll_of fun y hy => ?_)
      · obtain ⟨b, hb, rfl⟩ := List.mem_map.1 hy
        exact ready_alone rfl rfl rfl
      · obtain ⟨b, hb, rfl⟩ := List.mem_map.1 hy
        refine ⟨fun n hn => ?_, nofun, nofun⟩
        have hm : bswItem v.ident.head.id b ∈ netItems x := mem_net_of_vl hs hv (List.mem_cons_of_mem _ (List.mem_append_left _ (by rw [ht]; exact List.mem_append_right _ hy)))
        obtain ⟨y, hy, hid, ho⟩ := h.needs _ hm n hn
        have hn1 : n.1 = v.ident.head.id := by
          simp only [bswItem, List.mem_cons, List.not_mem_nil, or_false] at hn
          rcases hn with rfl | rfl <;> rfl
        rw [hn1] at ho
        obtain ⟨s', hs', v', hv', he, bs', sws', ht', hm'⟩ := bus_inv hy ho
        obtain ⟨_, rfl⟩ := level_unique h hs hs' hv hv' he.symm
        rw [ht] at ht'
        simp only [Topo.bus.injEq] at ht'
        exact ⟨y, List.mem_append_right _ (by rw [ht'.1]; exact hm'), hid, by rw [hn1]; exact ho⟩
  · obtain ⟨i, o, p, rfl⟩ := equip_shape hy
    exact injection_ready h hs hv (List.mem_append_left _ (List.mem_append_right _ (List.mem_singleton.2 rfl))) (fun y hy => .inr (List.mem_append_right _ hy))
      (mem_net_of_vl hs hv (List.mem_cons_of_mem _ (List.mem_append_right _ hy)))

/-- A terminal in a voltage level that is looked for. -/
theorem branch_ready {T : Type} {x : Net T} (h : Consistent (netItems x)) {only : Option String} {i : Ident} {sides : List Side} (hm : branch only i sides ∈ netItems x) {a : List Item}
    (ha : ∀ s ∈ x.subs, (∀ o, only = some o → o = s.ident.head.id) → ∀ v ∈ s.vls, ∀ y ∈ vlItems s.ident.head.id v, y ∈ a) : Ready a (branch only i sides) where
  needs := nofun
  stations := nofun
  ends := fun e he => by
    obtain ⟨hne, w, hw, hn, sub, node, ho, hsu, honly⟩ := h.ends _ hm e he
    obtain ⟨sd, _, rfl⟩ := List.mem_map.1 he
    obtain ⟨s, hs, v, hv, rfl, rfl⟩ := level_inv hw ho
    have ha' := ha s hs honly v hv
    exact ⟨_, ha' _ (vlItem_mem _ _), fun _ => ⟨hne, hn⟩, nofun, _, node, ho, suits_in h hs hv (fun y hy => ha' y (List.mem_cons_of_mem _ (List.mem_append_left _ hy))) hsu, honly⟩

theorem substation_ready {T : Type} {x : Net T} (h : Consistent (netItems x)) {s : Substation} (hs : s ∈ x.subs) (a : List Item) : ReadyAll a (substationItems s) := by
  refine ⟨ready_alone rfl rfl rfl, readyAll_append (readyAll_flatMap fun v hv => vl_ready h hs hv _) ?_⟩
  have key : ∀ (i : Ident) (sides : List Side) (b : List Item), (∀ y ∈ s.vls.flatMap (vlItems s.ident.head.id), y ∈ b) → branch (some s.ident.head.id) i sides ∈ netItems x →
      Ready b (branch (some s.ident.head.id) i sides) := by
    intro i sides b hb hm
    refine branch_ready h hm fun s' hs' ho v hv y hy => hb y ?_
    have := sub_unique h hs hs' (ho _ rfl)
    subst this
    exact List.mem_flatMap.2 ⟨v, hv, hy⟩
  refine readyAll_append (readyAll_of fun y hy => ?_) (readyAll_of fun y hy => ?_)
  · obtain ⟨t, ht, rfl⟩ := List.mem_map.1 hy
    exact key _ _ _ (fun y hy => List.mem_append_right _ hy) (mem_netItems.2 (.transformer2 hs ht))
  · obtain ⟨t, ht, rfl⟩ := List.mem_map.1 hy
    exact key _ _ _ (fun y hy => List.mem_append_left _ (List.mem_append_right _ hy)) (mem_netItems.2 (.transformer3 hs ht))

theorem net_ready {T : Type} {x : Net T} (h : Consistent (netItems x)) : ReadyAll [] (netItems x) := by
  refine ⟨ready_alone rfl rfl rfl, readyAll_append (readyAll_flatMap fun s hs => substation_ready h hs _) ?_⟩
  have hin : ∀ s ∈ x.subs, ∀ v ∈ s.vls, ∀ y ∈ vlItems s.ident.head.id v, y ∈ x.subs.flatMap substationItems := fun s hs v hv y hy =>
    List.mem_flatMap.2 ⟨s, hs, List.mem_cons_of_mem _ (List.mem_append_left _ (List.mem_flatMap.2 ⟨v, hv, hy⟩))⟩
  refine readyAll_append (readyAll_of fun y hy => ?_) (readyAll_of fun y hy => ?_)
  · obtain ⟨t, ht, rfl⟩ := List.mem_map.1 hy
    have hm : lineItem t ∈ netItems x := List.mem_cons_of_mem _ (List.mem_append_right _ (List.mem_append_left _ hy))
    cases t with
    | line t => exact branch_ready h hm fun s hs _ v hv y hy => List.mem_append_right _ (hin s hs v hv y hy)
    | tie t => exact branch_ready h hm fun s hs _ v hv y hy => List.mem_append_right _ (hin s hs v hv y hy)
  · obtain ⟨t, ht, rfl⟩ := List.mem_map.1 hy
    have hm : hvdcItem t ∈ netItems x := mem_netItems.2 (.hvdc ht)
    refine ⟨nofun, nofun, fun s hs => ?_⟩
    have key : ∀ n, StationNamed (netItems x) n → StationNamed (([] ++ [plain x.ident .other] ++ x.subs.flatMap substationItems) ++ x.lines.map lineItem) n := by
      rintro n ⟨hne, y, hy, hn, ho⟩
      obtain ⟨s, hs, v, hv, hyv⟩ := station_inv hy ho
      exact ⟨hne, y, List.mem_append_left _ (List.mem_append_right _ (hin s hs v hv y hyv)), hn, ho⟩
    exact ⟨key _ (h.stations _ hm s hs).1, key _ (h.stations _ hm s hs).2⟩

/-! ### References -/

theorem mem_rtcRefs {o : Option Rtc} {r : Ref} : r ∈ rtcRefs o ↔ ∃ c, o = some c ∧ c.reg = some r := by
  cases o <;> simp [rtcRefs]

theorem mem_ptcRefs {o : Option Ptc} {r : Ref} : r ∈ ptcRefs o ↔ ∃ c, o = some c ∧ c.reg = some r := by
  cases o <;> simp [ptcRefs]

/-- **C72** The references that are resolved are those of the network, of every class. -/
theorem mem_netRefs {T : Type} {x : Net T} {r : Ref} : r ∈ netRefs x ↔ x.HasRef r := by
  simp only [netRefs, substationRefs, vlRefs, legRefs, List.mem_flatMap, List.mem_append, Option.mem_toList, mem_rtcRefs, mem_ptcRefs]
  constructor
  · rintro ⟨s, hs, (⟨v, hv, (⟨g, hg, h⟩ | ⟨g, hg, h⟩) | ⟨g, hg, h⟩⟩ | ⟨t, ht, ⟨c, hc, h⟩ | ⟨c, hc, h⟩⟩) | ⟨t, ht, ((⟨c, hc, h⟩ | ⟨c, hc, h⟩) | ⟨c, hc, h⟩ | ⟨c, hc, h⟩) | ⟨c, hc, h⟩ | ⟨c, hc, h⟩⟩⟩
    · exact .generator hs hv hg h
    · exact .shunt hs hv hg h
    · exact .svc hs hv hg h
    · exact .ratio2 hs ht hc h
    · exact .phase2 hs ht hc h
    · exact .ratio3 hs ht (.inl rfl) hc h
    · exact .phase3 hs ht (.inl rfl) hc h
    · exact .ratio3 hs ht (.inr (.inl rfl)) hc h
    · exact .phase3 hs ht (.inr (.inl rfl)) hc h
    · exact .ratio3 hs ht (.inr (.inr rfl)) hc h
    · exact .phase3 hs ht (.inr (.inr rfl)) hc h
  · intro h
    cases h with
    | generator hs hv hg h => exact ⟨_, hs, .inl (.inl ⟨_, hv, .inl (.inl ⟨_, hg, h⟩)⟩)⟩
    | shunt hs hv hg h => exact ⟨_, hs, .inl (.inl ⟨_, hv, .inl (.inr ⟨_, hg, h⟩)⟩)⟩
    | svc hs hv hg h => exact ⟨_, hs, .inl (.inl ⟨_, hv, .inr ⟨_, hg, h⟩⟩)⟩
    | ratio2 hs ht hc h => exact ⟨_, hs, .inl (.inr ⟨_, ht, .inl ⟨_, hc, h⟩⟩)⟩
    | phase2 hs ht hc h => exact ⟨_, hs, .inl (.inr ⟨_, ht, .inr ⟨_, hc, h⟩⟩)⟩
    | ratio3 hs ht hl hc h =>
      rcases hl with rfl | rfl | rfl
      · exact ⟨_, hs, .inr ⟨_, ht, .inl (.inl (.inl ⟨_, hc, h⟩))⟩⟩
      · exact ⟨_, hs, .inr ⟨_, ht, .inl (.inr (.inl ⟨_, hc, h⟩))⟩⟩
      · exact ⟨_, hs, .inr ⟨_, ht, .inr (.inl ⟨_, hc, h⟩)⟩⟩
    | phase3 hs ht hl hc h =>
      rcases hl with rfl | rfl | rfl
      · exact ⟨_, hs, .inr ⟨_, ht, .inl (.inl (.inr ⟨_, hc, h⟩))⟩⟩
      · exact ⟨_, hs, .inr ⟨_, ht, .inl (.inr (.inr ⟨_, hc, h⟩))⟩⟩
      · exact ⟨_, hs, .inr ⟨_, ht, .inr (.inr ⟨_, hc, h⟩)⟩⟩

theorem Ran.findItem {l : List Item} {st : St} (h : Ran (opsOf l) st) {n i : String} {o : Obj} : st.find n = some (i, o) ↔ ∃ x ∈ l, n ∈ x.names ∧ x.id = i ∧ x.obj = o := by
  rw [h.find, new_mem]
  constructor
  · rintro ⟨hm, x, hx, rfl, rfl⟩
    exact ⟨x, hx, (means_iff h.uniqueIds hx).1 hm, rfl, rfl⟩
  · rintro ⟨x, hx, hn, rfl, rfl⟩
    exact ⟨(means_iff h.uniqueIds hx).2 hn, x, hx, rfl, rfl⟩

theorem take_index {n k : Nat} {s : String} : ((sideNames.take n).findIdx? fun t => t == s) = some k ↔ k < n ∧ sideNames[k]? = some s := by
  rw [List.findIdx?_eq_some_iff_getElem]
  simp only [List.length_take, List.getElem_take, beq_iff_eq, Bool.not_eq_true, beq_eq_false_iff_ne]
  constructor
  · rintro ⟨h, h1, _⟩
    exact ⟨by omega, by rw [List.getElem?_eq_getElem (by omega), h1]⟩
  · rintro ⟨h, h1⟩
    obtain ⟨hk, h1⟩ := List.getElem?_eq_some_iff.1 h1
    refine ⟨by omega, h1, fun j hj e => ?_⟩
    have hnd : sideNames.Nodup := by decide
    have := (List.getElem_inj hnd).1 (e.trans h1.symm)
    omega

theorem terminals_iff {o : Obj} {n : Nat} : o.terminals = some n ↔ o.Terminals n := by
  constructor
  · intro h
    cases o with
    | equip k => cases h; exact .equip _
    | station => cases h; exact .station
    | _ => cases h
  · intro h
    cases h <;> rfl

theorem resolveRef_ok {l : List Item} {st : St} (h : Ran (opsOf l) st) {r : Ref} {t : String × Nat} : resolveRef st r = .ok t ↔ Designates l r t := by
  unfold resolveRef Designates
  simp only [← terminals_iff]
  obtain ⟨i, k⟩ := t
  constructor
  · intro hr
    split at hr
    · cases hr
    rename_i j o hj
    obtain ⟨x, hx, hn, rfl, rfl⟩ := h.findItem.1 hj
    split at hr
    · cases hr
    rename_i n hnt
    split at hr
    · rename_i h1
      simp only [Out.ok.injEq, Prod.mk.injEq] at hr
      exact ⟨x, hx, hn, hr.1.symm, .inl ⟨h1 ▸ hnt, hr.2.symm⟩⟩
    · rename_i h1
      split at hr
      · cases hr
      rename_i k' hk
      simp only [Out.ok.injEq, Prod.mk.injEq] at hr
      rw [take_index] at hk
      exact ⟨x, hx, hn, hr.1.symm, .inr ⟨n, h1, hnt, hr.2 ▸ hk.1, hr.2 ▸ hk.2⟩⟩
  · rintro ⟨x, hx, hn, rfl, hc⟩
    rw [h.findItem.2 ⟨x, hx, hn, rfl, rfl⟩]
    rcases hc with ⟨h1, rfl⟩ | ⟨n, hne, h1, h2, h3⟩
    · simp only [h1, if_true]
    · simp only [h1, hne, if_false, take_index.2 ⟨h2, h3⟩]

theorem resolveRefs_ok {l : List Item} {st : St} (h : Ran (opsOf l) st) : ∀ {rs : List Ref} {ts : List (String × Nat)}, resolveRefs st rs = .ok ts ↔ All2 (Designates l) rs ts
  | [], [] => by simp [resolveRefs, All2]
  | [], _ :: _ => by simp [resolveRefs, All2]
  | r :: rs, [] => by
    simp only [resolveRefs, All2, iff_false]
    intro hr
    obtain ⟨t, _, hr⟩ := Out.bind_eq_ok.1 hr
    obtain ⟨ts, _, hr⟩ := Out.bind_eq_ok.1 hr
    cases hr
  | r :: rs, t :: ts => by
    simp only [resolveRefs, All2]
    rw [← resolveRef_ok h, ← resolveRefs_ok h]
    constructor
    · intro hr
      obtain ⟨t', h1, hr⟩ := Out.bind_eq_ok.1 hr
      obtain ⟨ts', h2, hr⟩ := Out.bind_eq_ok.1 hr
      simp only [Out.ok.injEq, List.cons.injEq] at hr
      obtain ⟨rfl, rfl⟩ := hr
      exact ⟨h1, h2⟩
    · rintro ⟨h1, h2⟩
      rw [h1, h2]; rfl

theorem all2_of {α β : Type} {R : α → β → Prop} : ∀ {l : List α}, (∀ a ∈ l, ∃ b, R a b) → ∃ k, All2 R l k
  | [], _ => ⟨[], trivial⟩
  | a :: l, h => by
    obtain ⟨b, hb⟩ := h a List.mem_cons_self
    obtain ⟨k, hk⟩ := all2_of (l := l) fun c hc => h c (List.mem_cons_of_mem _ hc)
    exact ⟨b :: k, hb, hk⟩

theorem refNamed_iff {l : List Item} {r : Ref} : RefNamed l r ↔ ∃ t, Designates l r t := by
  unfold RefNamed Designates
  constructor
  · rintro ⟨x, hx, hn, n, ht, h⟩
    by_cases h1 : n = 1
    · exact ⟨(x.id, 0), x, hx, hn, rfl, .inl ⟨h1 ▸ ht, rfl⟩⟩
    · rcases h with h | h
      · exact absurd h h1
      obtain ⟨k, hk, he⟩ := List.getElem_of_mem h
      simp only [List.getElem_take] at he
      simp only [List.length_take] at hk
      exact ⟨(x.id, k), x, hx, hn, rfl, .inr ⟨n, h1, ht, by omega, by rw [List.getElem?_eq_getElem (by omega), he]⟩⟩
  · rintro ⟨t, x, hx, hn, _, ⟨h1, _⟩ | ⟨n, _, h1, h2, h3⟩⟩
    · exact ⟨x, hx, hn, 1, h1, .inl rfl⟩
    · refine ⟨x, hx, hn, n, h1, .inr ?_⟩
      have : (["ONE", "TWO", "THREE"].take n)[t.2]? = some r.side := by rw [List.getElem?_take_of_lt h2]; exact h3
      exact List.mem_of_getElem? this

/-! ### No undefined behaviour -/

/-- The owner of an alias, the voltage level of an equipment, are in the network. -/
def Safe (pre : List Op) : Op → Prop
  | .alias i _ => ∃ o, Op.new i o ∈ pre
  | .attach e => e.lookup = false → ∃ o, Op.new e.vl o ∈ pre
  | _ => True

theorem step_safe {ops : List Op} {st : St} (h : Ran ops st) : ∀ {o : Op}, Safe ops o → step st o ≠ .ub
  | .new _ _, _ => by simp only [step]; split <;> nofun
  | .need _ _, _ => by simp only [step]; split <;> nofun
  | .hvdc _ _ _, _ => by simp only [step]; split <;> nofun
  | .alias i a, ⟨o, ho⟩ => by
    simp only [step, h.byId.2 ⟨rfl, ho⟩]
    split
    · split <;> nofun
    · split
      · split <;> nofun
      · nofun
  | .attach e, hs => by
    have hat : ∀ o, attachTo st e o ≠ .ub := by
      intro o
      unfold attachTo
      split
      · split <;> nofun
      · nofun
    simp only [step]
    cases hl : e.lookup with
    | true =>
      simp only [if_true]
      split
      · nofun
      · exact hat _
    | false =>
      obtain ⟨o, ho⟩ := hs hl
      simp only [Bool.false_eq_true, if_false, h.byId.2 ⟨rfl, ho⟩, Option.isSome_some, if_true]
      exact hat _

def SafeAll (pre : List Op) : List Op → Prop
  | [] => True
  | o :: os => Safe pre o ∧ SafeAll (pre ++ [o]) os

theorem safeAll_append {a b : List Op} : ∀ {pre : List Op}, SafeAll pre a → SafeAll (pre ++ a) b → SafeAll pre (a ++ b) := by
  induction a with
  | nil => intro pre _ h; simpa using h
  | cons o a ih =>
    intro pre h1 h2
    exact ⟨h1.1, ih h1.2 (by simpa using h2)⟩

theorem safeAll_of {l : List Op} : ∀ {pre : List Op}, (∀ a o b, l = a ++ o :: b → Safe (pre ++ a) o) → SafeAll pre l := by
  induction l with
  | nil => intro _ _; trivial
  | cons x l ih =>
    intro pre h
    refine ⟨by simpa using h [] x l rfl, ih fun a o b e => ?_⟩
    have := h (x :: a) o b (by rw [e]; rfl)
    simpa using this

theorem run_safe {ops : List Op} : ∀ {pre : List Op} {st : St}, Ran pre st → SafeAll pre ops → run st ops ≠ .ub := by
  induction ops with
  | nil => intro pre st _ _; nofun
  | cons o ops ih =>
    intro pre st h hs
    simp only [run]
    cases hst : step st o with
    | ub => exact absurd hst (step_safe h hs.1)
    | thrown => nofun
    | ok st' => rw [Out.monad_bind_ok]; exact ih (ran_step h hst) hs.2

/-- The voltage level that the adder knows comes before. -/
def Homed (pre : List Item) (x : Item) : Prop := ∀ e ∈ x.ends, e.lookup = false → ∃ y ∈ pre, y.id = e.vl

theorem homed_grows : Grows Homed := fun _ _ _ hs h e he hl => let ⟨y, hy, h1⟩ := h e he hl; ⟨y, hs y hy, h1⟩

theorem safe_item {pre : List Item} {x : Item} (h : Homed pre x) : SafeAll (opsOf pre) (itemOps x) := by
  refine safeAll_of fun a o b e => ?_
  have ho : o ∈ itemOps x := by rw [e]; simp
  simp only [itemOps, List.mem_append, List.mem_cons, List.mem_map, Option.mem_toList, Option.map_eq_some_iff] at ho
  rcases ho with ⟨n, hn', rfl⟩ | rfl | ⟨en, hen, rfl⟩ | ⟨s, hs, rfl⟩ | ⟨p, hp, rfl⟩
  · trivial
  · trivial
  · intro hl
    obtain ⟨y, hy, h1⟩ := h en hen hl
    exact ⟨y.obj, List.mem_append_left _ (new_mem.2 ⟨y, hy, h1, rfl⟩)⟩
  · trivial
  · refine ⟨x.obj, List.mem_append_right _ (new_before _ _ a b e fun y hy => ?_)⟩
    obtain ⟨_, _, rfl⟩ := List.mem_map.1 hy
    nofun

theorem safe_items {l : List Item} : ∀ {pre : List Item}, AllIn Homed pre l → SafeAll (opsOf pre) (opsOf l) := by
  induction l with
  | nil => intro _ _; trivial
  | cons x l ih =>
    intro pre h
    rw [show opsOf (x :: l) = itemOps x ++ opsOf l from List.flatMap_cons]
    refine safeAll_append (safe_item h.1) ?_
    have := ih h.2
    rwa [opsOf_append, opsOf_single] at this

theorem vl_placed (sub : String) (v : VL) (a : List Item) : AllIn Homed a (vlItems sub v) := by
  refine ⟨nofun, allIn_of homed_grows fun y hy e he hl => ⟨vlItem sub v, List.mem_append_right _ (List.mem_singleton.2 rfl), ?_⟩⟩
  rcases List.mem_append.1 hy with hy | hy
  · cases ht : v.topo with
    | node bbs sws c d =>
      rw [ht] at hy
      rcases List.mem_append.1 hy with hy | hy
      · obtain ⟨b, _, rfl⟩ := List.mem_map.1 hy
        simp only [bbsItem, injection, List.mem_singleton] at he
        subst he; rfl
      · obtain ⟨b, _, rfl⟩ := List.mem_map.1 hy
        cases he
    | bus bs sws =>
      rw [ht] at hy
      rcases List.mem_append.1 hy with hy | hy
      · obtain ⟨b, _, rfl⟩ := List.mem_map.1 hy
        cases he
      · obtain ⟨b, _, rfl⟩ := List.mem_map.1 hy
        cases he
  · obtain ⟨i, o, p, rfl⟩ := equip_shape hy
    simp only [injection, List.mem_singleton] at he
    subst he; rfl

theorem branch_placed {a : List Item} {only : Option String} {i : Ident} {sides : List Side} : Homed a (branch only i sides) := fun e he hl => by
  obtain ⟨sd, _, rfl⟩ := List.mem_map.1 he
  cases hl

theorem net_placed {T : Type} (x : Net T) : AllIn Homed [] (netItems x) := by
  refine ⟨nofun, allIn_append (allIn_flatMap homed_grows fun s _ => ?_) (allIn_append (allIn_of homed_grows fun y hy => ?_) (allIn_of homed_grows fun y hy => ?_))⟩
  · refine ⟨nofun, allIn_append (allIn_flatMap homed_grows fun v _ => vl_placed _ v _) (allIn_append (allIn_of homed_grows fun y hy => ?_) (allIn_of homed_grows fun y hy => ?_))⟩
    · obtain ⟨t, _, rfl⟩ := List.mem_map.1 hy
      exact branch_placed
    · obtain ⟨t, _, rfl⟩ := List.mem_map.1 hy
      exact branch_placed
  · obtain ⟨t, _, rfl⟩ := List.mem_map.1 hy
    cases t <;> exact branch_placed
  · obtain ⟨t, _, rfl⟩ := List.mem_map.1 hy
    nofun

theorem resolveRefs_defined (st : St) : ∀ rs, resolveRefs st rs ≠ .ub
  | [] => nofun
  | r :: rs => by
    simp only [resolveRefs]
    have h1 : resolveRef st r ≠ .ub := by
      unfold resolveRef
      split
      · nofun
      · split
        · nofun
        · split
          · nofun
          · split <;> nofun
    cases hr : resolveRef st r with
    | ub => exact absurd hr h1
    | thrown => nofun
    | ok t =>
      rw [Out.monad_bind_ok]
      have := resolveRefs_defined st rs
      cases hrs : resolveRefs st rs with
      | ub => exact absurd hrs this
      | thrown => nofun
      | ok ts => nofun

end Verif.XmlNet
