import Verif.Remove.HistoryProps

/-!
C99: what was added can be removed, and the network is then as it was before.
-/

namespace Verif.Remove

open Verif Verif.Xml Verif.XmlNet Verif.Setters Verif.ReadBack Verif.Build

variable {T : Type} {l : List Item} {n vl : String}

theorem mem_last {α β : Type} {g : α → β} {xs : List α} {b : α} : g b ∈ (xs ++ [b]).map g := List.mem_map_of_mem (by simp)

/-! ### Nothing to remove -/

theorem filter_free {α : Type} {g : α → Item} {f : α → Ident} (hg : ∀ b, (g b).ident = f b) {xs : List α} (h : ∀ a ∈ xs.map g, a.id ≠ n) : (xs.filter fun x => other n (f x)) = xs :=
  List.filter_eq_self.2 fun b hb => other_iff.2 (by rw [← hg]; exact h _ (List.mem_map_of_mem hb))

theorem map_free {α : Type} {f : α → α} {xs : List α} (h : ∀ a ∈ xs, f a = a) : xs.map f = xs := by
  conv => rhs; rw [← List.map_id xs]
  exact List.map_congr_left h

theorem topo_free {t : Topo} (h : ∀ a ∈ topoItems vl t, a.id ≠ n) : dropTopo n t = t := by
  cases t with
  | node bbs sws conns calcs =>
    simp only [topoItems, List.mem_append] at h
    simp only [dropTopo, filter_free (g := bbsItem vl) (f := Bbs.ident) (fun _ => rfl) fun a ha => h a (.inl ha), filter_free (g := nswItem) (f := NSw.ident) (fun _ => rfl) fun a ha => h a (.inr ha)]
  | bus buses sws =>
    simp only [topoItems, List.mem_append] at h
    simp only [dropTopo, filter_free (g := busItem vl) (f := Bus.ident) (fun _ => rfl) fun a ha => h a (.inl ha), filter_free (g := bswItem vl) (f := BSw.ident) (fun _ => rfl) fun a ha => h a (.inr ha)]

theorem equip_free {e : Equip} (h : ∀ a ∈ equipItems vl e, a.id ≠ n) : dropEquip n e = e := by
  simp only [equipItems, List.mem_append] at h
  cases e
  simp only [dropEquip, Equip.mk.injEq]
  exact ⟨filter_free (fun _ => rfl) fun a ha => h a (.inl ha), filter_free (fun _ => rfl) fun a ha => h a (.inr (.inl ha)), filter_free (fun _ => rfl) fun a ha => h a (.inr (.inr (.inl ha))),
    filter_free (fun _ => rfl) fun a ha => h a (.inr (.inr (.inr (.inl ha)))), filter_free (fun _ => rfl) fun a ha => h a (.inr (.inr (.inr (.inr (.inl ha))))),
    filter_free (fun _ => rfl) fun a ha => h a (.inr (.inr (.inr (.inr (.inr (.inl ha)))))), filter_free (fun _ => rfl) fun a ha => h a (.inr (.inr (.inr (.inr (.inr (.inr (.inl ha))))))),
    filter_free (fun _ => rfl) fun a ha => h a (.inr (.inr (.inr (.inr (.inr (.inr (.inr ha)))))))⟩

theorem vl_free {sub : String} {v : VL} (h : ∀ a ∈ vlItems sub v, a.id ≠ n) : dropVL n v = v := by
  simp only [vlItems, List.mem_cons, List.mem_append] at h
  simp only [dropVL, topo_free fun a ha => h a (.inr (.inl ha)), equip_free fun a ha => h a (.inr (.inr ha))]

theorem sub_free {s : Substation} (h : ∀ a ∈ substationItems s, a.id ≠ n) : dropSub n s = s := by
  simp only [substationItems, List.mem_cons, List.mem_append] at h
  simp only [dropSub, filter_free (g := tw2Item s.ident.head.id) (f := Tw2.ident) (fun _ => rfl) fun a ha => h a (.inr (.inr (.inl ha))),
    filter_free (g := tw3Item s.ident.head.id) (f := Tw3.ident) (fun _ => rfl) fun a ha => h a (.inr (.inr (.inr ha)))]
  rw [map_free fun v hv => vl_free fun a ha => h a (.inr (.inl (List.mem_flatMap.2 ⟨v, hv, ha⟩)))]

/-- Nothing has the name: nothing goes. -/
theorem drop_free {x : Net T} (h : Free (netItems x) n) : drop n x = x := by
  have h : ∀ a ∈ netItems x, a.id ≠ n := fun a ha e => h a ha (e ▸ id_mem_names a)
  simp only [netItems, List.mem_cons, List.mem_append] at h
  simp only [drop, filter_free (g := lineItem) (fun _ => line_ident) fun a ha => h a (.inr (.inr (.inl ha))),
    filter_free (g := hvdcItem) (f := HvdcLine.ident) (fun _ => rfl) fun a ha => h a (.inr (.inr (.inr ha)))]
  rw [map_free fun s hs => sub_free fun a ha => h a (.inr (.inl (List.mem_flatMap.2 ⟨s, hs, ha⟩)))]

/-! ### The new object is the only one that goes -/

/-- What a new object of a voltage level is. -/
def NewKind (vl n : String) (t : Topo) (a : Item) : Prop := (∃ k, a.obj = .equip k) ∨ a.obj = .station ∨ (a.obj = .bus vl ∧ a.ends = []) ∨ hasSwitch n t = true

theorem bus_needs {x : Net T} {a : Item} (ha : a ∈ netItems x) {m : String × String} (h : a.obj = .bus vl) (hm : m ∈ a.needs) : False := by
  have hv : ∀ (sub : String) (v : VL), a ∈ vlItems sub v → False := by
    intro sub v ha
    simp only [vlItems, List.mem_cons, List.mem_append, equipItems, List.mem_map] at ha
    rcases ha with rfl | ha | ha
    · cases h
    · cases ht : v.topo with
      | node bbs sws conns calcs =>
        rw [ht] at ha
        simp only [topoItems, List.mem_append, List.mem_map] at ha
        rcases ha with ⟨b, _, rfl⟩ | ⟨b, _, rfl⟩ <;> cases h
      | bus buses sws =>
        rw [ht] at ha
        simp only [topoItems, List.mem_append, List.mem_map] at ha
        rcases ha with ⟨b, _, rfl⟩ | ⟨b, _, rfl⟩
        · cases hm
        · cases h
    · rcases ha with ⟨b, _, rfl⟩ | ⟨b, _, rfl⟩ | ⟨b, _, rfl⟩ | ⟨b, _, rfl⟩ | ⟨b, _, rfl⟩ | ⟨b, _, rfl⟩ | ⟨b, _, rfl⟩ | ⟨b, _, rfl⟩ <;> cases h
  simp only [netItems, List.mem_cons, List.mem_append, List.mem_flatMap, List.mem_map, substationItems] at ha
  rcases ha with rfl | ⟨s', hs, rfl | ⟨v, _, ha⟩ | ⟨t, _, rfl⟩ | ⟨t, _, rfl⟩⟩ | ⟨y, _, rfl⟩ | ⟨k, hk, rfl⟩
  · cases h
  · cases h
  · exact hv _ _ ha
  · cases h
  · cases h
  · cases y <;> cases h
  · cases h

theorem level_undone {v w : VL} {o : VLAdd} (hc : ∀ i j, o ≠ .connection i j) (h : o.add l v = .ok w) :
    ∃ n a, Free l n ∧ dropVL n w = dropVL n v ∧ a ∈ topoItems v.ident.head.id w.topo ++ equipItems v.ident.head.id w.equip ∧ a.id = n ∧ w.ident = v.ident ∧ a.stations = none ∧
      NewKind v.ident.head.id n w.topo a := by
  cases o with
  | bus b =>
    obtain ⟨t, h', rfl⟩ := topo_added h
    obtain ⟨n, buses, sws, hn, e, rfl⟩ := addBus_ok h'
    refine ⟨n, busItem v.ident.head.id ⟨b.ident n, .nan, .nan⟩, (newId_free hn).2, ?_, List.mem_append_left _ (List.mem_append_left _ mem_last), rfl, rfl, rfl, .inr (.inr (.inl ⟨rfl, rfl⟩))⟩
    simp [dropVL, dropTopo, e, List.filter_append, other, Base.ident]
  | busSwitch b b1 b2 op =>
    obtain ⟨t, h', rfl⟩ := topo_added h
    obtain ⟨n, buses, sws, hn, _, _, _, _, e, rfl⟩ := addBusSwitch_ok h'
    refine ⟨n, bswItem v.ident.head.id ⟨b.ident n, op, b1, b2⟩, (newId_free hn).2, ?_, List.mem_append_left _ (List.mem_append_right _ mem_last), rfl, rfl, rfl, .inr (.inr (.inr ?_))⟩
    · simp [dropVL, dropTopo, e, List.filter_append, other, Base.ident]
    · simp [hasSwitch, Base.ident]
  | busbar b node =>
    obtain ⟨t, h', rfl⟩ := topo_added h
    obtain ⟨n, k, bbs, sws, conns, calcs, hn, hf, e, rfl⟩ := addBusbar_ok h'
    refine ⟨n, bbsItem v.ident.head.id ⟨b.ident n, k⟩, (newId_free hn).2, ?_, List.mem_append_left _ (List.mem_append_left _ mem_last), rfl, rfl, rfl, .inl ⟨1, rfl⟩⟩
    simp [dropVL, dropTopo, e, List.filter_append, other, Base.ident]
  | nodeSwitch b i j k op r =>
    obtain ⟨t, h', rfl⟩ := topo_added h
    obtain ⟨n, i', j', k', bbs, sws, conns, calcs, hn, _, e, rfl⟩ := addNodeSwitch_ok h'
    refine ⟨n, nswItem ⟨b.ident n, k', r, op, i', j'⟩, (newId_free hn).2, ?_, List.mem_append_left _ (List.mem_append_right _ mem_last), rfl, rfl, rfl, .inr (.inr (.inr ?_))⟩
    · simp [dropVL, dropTopo, e, List.filter_append, other, Base.ident]
    · simp [hasSwitch, Base.ident]
  | connection i j => exact absurd rfl (hc i j)
  | gen b a on s x =>
    simp only [VLAdd.add, Out.bind_eq_ok, given_ok, map_ok_iff, grd_unit, exists_const] at h
    obtain ⟨on', _, _, y, hy, rfl⟩ := h
    obtain ⟨n, p, hn, _, _, e1, e2⟩ := attach1_ok (i := y.1) (t := y.2) hy
    refine ⟨n, injection v.ident.head.id y.1 (.equip 1) y.2.place, (newId_free hn).2, ?_, List.mem_append_right _ (List.mem_append_left _ mem_last), by rw [e1]; rfl, rfl, rfl, .inl ⟨1, rfl⟩⟩
    simp [dropVL, dropEquip, List.filter_append, other, Base.ident, e1]
  | bat b a x =>
    simp only [VLAdd.add, Out.bind_eq_ok, given_ok, map_ok_iff, grd_unit, exists_const] at h
    obtain ⟨_, y, hy, rfl⟩ := h
    obtain ⟨n, p, hn, _, _, e1, e2⟩ := attach1_ok (i := y.1) (t := y.2) hy
    refine ⟨n, injection v.ident.head.id y.1 (.equip 1) y.2.place, (newId_free hn).2, ?_, List.mem_append_right _ (List.mem_append_right _ (List.mem_append_left _ mem_last)), by rw [e1]; rfl, rfl, rfl, .inl ⟨1, rfl⟩⟩
    simp [dropVL, dropEquip, List.filter_append, other, Base.ident, e1]
  | load b a x =>
    simp only [VLAdd.add, Out.bind_eq_ok, given_ok, map_ok_iff, grd_unit, exists_const] at h
    obtain ⟨_, y, hy, rfl⟩ := h
    obtain ⟨n, p, hn, _, _, e1, e2⟩ := attach1_ok (i := y.1) (t := y.2) hy
    refine ⟨n, injection v.ident.head.id y.1 (.equip 1) y.2.place, (newId_free hn).2, ?_, List.mem_append_right _ (List.mem_append_right _ (List.mem_append_right _ (List.mem_append_left _ mem_last))), by rw [e1]; rfl, rfl, rfl, .inl ⟨1, rfl⟩⟩
    simp [dropVL, dropEquip, List.filter_append, other, Base.ident, e1]
  | sh b a c m s x =>
    simp only [VLAdd.add, Out.bind_eq_ok, given_ok, map_ok_iff, grd_unit, exists_const] at h
    obtain ⟨k, _, m', _, c', _, _, y, hy, rfl⟩ := h
    obtain ⟨n, p, hn, _, _, e1, e2⟩ := attach1_ok (i := y.1) (t := y.2) hy
    refine ⟨n, injection v.ident.head.id y.1 (.equip 1) y.2.place, (newId_free hn).2, ?_, List.mem_append_right _ (List.mem_append_right _ (List.mem_append_right _ (List.mem_append_right _ (List.mem_append_left _ mem_last)))), by rw [e1]; rfl, rfl, rfl, .inl ⟨1, rfl⟩⟩
    simp [dropVL, dropEquip, List.filter_append, other, Base.ident, e1]
  | dl b a x =>
    simp only [VLAdd.add, Out.bind_eq_ok, given_ok, map_ok_iff, grd_unit, exists_const] at h
    obtain ⟨_, y, hy, rfl⟩ := h
    obtain ⟨n, p, hn, _, _, e1, e2⟩ := attach1_ok (i := y.1) (t := y.2) hy
    refine ⟨n, injection v.ident.head.id y.1 (.equip 1) y.2.place, (newId_free hn).2, ?_, List.mem_append_right _ (List.mem_append_right _ (List.mem_append_right _ (List.mem_append_right _ (List.mem_append_right _ (List.mem_append_left _ mem_last))))), by rw [e1]; rfl, rfl, rfl, .inl ⟨1, rfl⟩⟩
    simp [dropVL, dropEquip, List.filter_append, other, Base.ident, e1]
  | svc b a mode s x =>
    simp only [VLAdd.add, Out.bind_eq_ok, given_ok, map_ok_iff, grd_unit, exists_const] at h
    obtain ⟨m, _, _, y, hy, rfl⟩ := h
    obtain ⟨n, p, hn, _, _, e1, e2⟩ := attach1_ok (i := y.1) (t := y.2) hy
    refine ⟨n, injection v.ident.head.id y.1 (.equip 1) y.2.place, (newId_free hn).2, ?_, List.mem_append_right _ (List.mem_append_right _ (List.mem_append_right _ (List.mem_append_right _ (List.mem_append_right _ (List.mem_append_right _ (List.mem_append_left _ mem_last)))))), by rw [e1]; rfl, rfl, rfl, .inl ⟨1, rfl⟩⟩
    simp [dropVL, dropEquip, List.filter_append, other, Base.ident, e1]
  | vsc b a on x =>
    simp only [VLAdd.add, Out.bind_eq_ok, given_ok, map_ok_iff, grd_unit, exists_const] at h
    obtain ⟨on', _, _, y, hy, rfl⟩ := h
    obtain ⟨n, p, hn, _, _, e1, e2⟩ := attach1_ok (i := y.1) (t := y.2) hy
    refine ⟨n, injection v.ident.head.id y.1 (.station) y.2.place, (newId_free hn).2, ?_, List.mem_append_right _ (List.mem_append_right _ (List.mem_append_right _ (List.mem_append_right _ (List.mem_append_right _ (List.mem_append_right _ (List.mem_append_right _ (List.mem_append_left _ mem_last))))))), by rw [e1]; rfl, rfl, rfl, .inr (.inl rfl)⟩
    simp [dropVL, dropEquip, List.filter_append, other, Base.ident, e1]
  | lcc b a x =>
    simp only [VLAdd.add, Out.bind_eq_ok, given_ok, map_ok_iff, grd_unit, exists_const] at h
    obtain ⟨_, y, hy, rfl⟩ := h
    obtain ⟨n, p, hn, _, _, e1, e2⟩ := attach1_ok (i := y.1) (t := y.2) hy
    refine ⟨n, injection v.ident.head.id y.1 (.station) y.2.place, (newId_free hn).2, ?_, List.mem_append_right _ (List.mem_append_right _ (List.mem_append_right _ (List.mem_append_right _ (List.mem_append_right _ (List.mem_append_right _ (List.mem_append_right _ (List.mem_append_right _ (mem_last)))))))), by rw [e1]; rfl, rfl, rfl, .inr (.inl rfl)⟩
    simp [dropVL, dropEquip, List.filter_append, other, Base.ident, e1]

theorem set_undone {α : Type} {g : α → α} {i : Nat} {xs : List α} {a b : α} (ha : xs[i]? = some a) (h : g b = g a) : (xs.set i b).map g = xs.map g := by
  rw [List.map_set, h]
  refine List.ext_getElem? fun j => ?_
  rw [List.getElem?_set]
  split
  · rename_i e; subst e
    obtain ⟨h1, h2⟩ := List.getElem?_eq_some_iff.1 ha
    simp [h1, h2]
  · rfl

theorem substation_undone {s t : Substation} {o : SubAdd} (hc : SingleSub o) (h : o.add l s = .ok t) :
    ∃ n a, Free l n ∧ dropSub n t = dropSub n s ∧ a ∈ substationItems t ∧ a.id = n ∧ a.stations = none ∧
      ((∃ k, a.obj = .equip k) ∨ a.obj = .station ∨ (∃ vl, a.obj = .bus vl ∧ a.ends = []) ∨ ∃ v ∈ t.vls, hasSwitch n v.topo = true) := by
  cases o with
  | vl j o =>
    obtain ⟨vs, hm, rfl⟩ := map_ok_iff.1 h
    obtain ⟨v, w, hv, hw, rfl⟩ := setAt_ok hm
    obtain ⟨n, a, h1, h2, h3, h4, h5, h6, h7⟩ := level_undone hc hw
    have hj : w ∈ s.vls.set j w := List.mem_of_getElem? (i := j) (by simp [(List.getElem?_eq_some_iff.1 hv).1])
    refine ⟨n, a, h1, ?_, List.mem_cons_of_mem _ (List.mem_append_left _ (List.mem_flatMap.2 ⟨w, hj, List.mem_cons_of_mem _ ?_⟩)), h4, h6, ?_⟩
    · simp only [dropSub, set_undone hv h2]
    · rw [h5]; exact h3
    · rcases h7 with h | h | h | h
      · exact .inl h
      · exact .inr (.inl h)
      · exact .inr (.inr (.inl ⟨_, h⟩))
      · exact .inr (.inr (.inr ⟨w, hj, h⟩))
  | level => cases hc
  | tw2 b e1 e2 x =>
    simp only [SubAdd.add, Out.bind_eq_ok, given_ok, map_ok_iff, grd_unit, exists_const] at h
    obtain ⟨s1, _, s2, _, _, i, h3, rfl⟩ := h
    obtain ⟨n, hn, _, rfl⟩ := attachAll_ok.1 h3
    refine ⟨n, branch (some s.ident.head.id) (b.ident n) [s1, s2], (newId_free hn).2, ?_, List.mem_cons_of_mem _ (List.mem_append_right _ (List.mem_append_left _ ?_)), rfl, rfl, .inl ⟨2, rfl⟩⟩
    · simp [dropSub, List.filter_append, other, Base.ident]
    · exact mem_last (g := tw2Item s.ident.head.id)
  | tw3 b l1 l2 l3 u0 =>
    simp only [SubAdd.add, Out.bind_eq_ok, given_ok, map_ok_iff, grd_unit, exists_const] at h
    obtain ⟨a1, _, a2, _, a3, _, _, s1, _, s2, _, s3, _, i, h3, rfl⟩ := h
    obtain ⟨n, hn, _, rfl⟩ := attachAll_ok.1 h3
    refine ⟨n, branch (some s.ident.head.id) (b.ident n) [s1, s2, s3], (newId_free hn).2, ?_, List.mem_cons_of_mem _ (List.mem_append_right _ (List.mem_append_right _ ?_)), rfl, rfl, .inl ⟨3, rfl⟩⟩
    · simp [dropSub, List.filter_append, other, Base.ident]
    · exact mem_last (g := tw3Item s.ident.head.id)

theorem network_undone {x y : Net T} {o : NetAdd} (hc : SingleNet o) (h : o.add x = .ok y) :
    ∃ n a, Free (netItems x) n ∧ drop n y = x ∧ y.hvdcs = x.hvdcs ∧ a ∈ netItems y ∧ a.id = n ∧
      ((∃ k, a.obj = .equip k) ∨ a.obj = .station ∨ (∃ vl, a.obj = .bus vl ∧ a.ends = []) ∨ ∃ s ∈ y.subs, ∃ v ∈ s.vls, hasSwitch n v.topo = true) := by
  cases o with
  | sub i o =>
    obtain ⟨ss, hm, rfl⟩ := map_ok_iff.1 h
    obtain ⟨s, t, hs, ht, rfl⟩ := setAt_ok hm
    obtain ⟨n, a, h1, h2, h3, h4, h6, h7⟩ := substation_undone hc ht
    have hj : t ∈ x.subs.set i t := List.mem_of_getElem? (i := i) (by simp [(List.getElem?_eq_some_iff.1 hs).1])
    refine ⟨n, a, h1, ?_, rfl, List.mem_cons_of_mem _ (List.mem_append_left _ (List.mem_flatMap.2 ⟨t, hj, h3⟩)), h4, ?_⟩
    · refine Eq.trans ?_ (drop_free h1)
      simp only [drop, set_undone hs h2]
    · rcases h7 with h | h | h | h
      · exact .inl h
      · exact .inr (.inl h)
      · exact .inr (.inr (.inl h))
      · exact .inr (.inr (.inr ⟨t, hj, h⟩))
  | substation => cases hc
  | hvdc => cases hc
  | line b e1 e2 z =>
    simp only [NetAdd.add, Out.bind_eq_ok, given_ok, map_ok_iff, grd_unit, exists_const] at h
    obtain ⟨s1, _, s2, _, _, i, h3, rfl⟩ := h
    obtain ⟨n, hn, _, rfl⟩ := attachAll_ok.1 h3
    refine ⟨n, branch none (b.ident n) [s1, s2], (newId_free hn).2, ?_, rfl, List.mem_cons_of_mem _ (List.mem_append_right _ (List.mem_append_left _ ?_)), rfl, .inl ⟨2, rfl⟩⟩
    · refine Eq.trans ?_ (drop_free (newId_free hn).2)
      simp [drop, List.filter_append, other, Base.ident, anyIdent]
    · exact mem_last (g := lineItem)
  | tie b e1 e2 u k1 k2 =>
    simp only [NetAdd.add, Out.bind_eq_ok, given_ok, map_ok_iff, grd_unit, exists_const] at h
    obtain ⟨s1, _, s2, _, a1, _, a2, _, _, i, h3, rfl⟩ := h
    obtain ⟨n, hn, _, rfl⟩ := attachAll_ok.1 h3
    refine ⟨n, branch none (b.ident n) [s1, s2], (newId_free hn).2, ?_, rfl, List.mem_cons_of_mem _ (List.mem_append_right _ (List.mem_append_left _ ?_)), rfl, .inl ⟨2, rfl⟩⟩
    · refine Eq.trans ?_ (drop_free (newId_free hn).2)
      simp [drop, List.filter_append, other, Base.ident, anyIdent]
    · exact mem_last (g := lineItem)

/-- **C99** Whatever object was added, but for a voltage level, a substation or an HVDC line, there is a removal that is accepted, and the network is again what it was. -/
theorem addition_undone {x y : Net T} {o : NetAdd} (ht : TidyNet x) (hh : o.Honest (netItems x)) (hc : SingleNet o) (h : o.add x = .ok y) :
    ∃ n r, Free (netItems x) n ∧ Removal.target r = some n ∧ r.run y = .ok x := by
  have hn := (addition_goes_together ht hh h).1.together.names
  obtain ⟨n, a, h1, h2, h3, h4, h5, h6⟩ := network_undone hc h
  have ne : ∀ b ∈ netItems x, b.id ≠ n := fun b hb e => h1 b hb (e ▸ id_mem_names b)
  have back : ∀ {r : Removal}, r.target = some n → (∃ z, r.run y = .ok z) → ∃ n r, Free (netItems x) n ∧ Removal.target r = some n ∧ r.run y = .ok x := by
    rintro r hr ⟨z, hz⟩
    refine ⟨n, r, h1, hr, ?_⟩
    rw [hz, (removed hn hr hz).1, h2]
  have free : ∀ k ∈ y.hvdcs, k.station1 ≠ n ∧ k.station2 ≠ n := by
    intro k hk
    rw [h3] at hk
    obtain ⟨⟨b, hb, e1⟩, c, hc', e2⟩ := ht.1.stations _ (hvdc_mem hk) _ rfl
    exact ⟨fun e => ne b hb (e1.symm.trans e), fun e => ne c hc' (e2.symm.trans e)⟩
  have old : ∀ b ∈ netItems y, b.id ≠ n → b ∈ netItems x := fun b hb e => by
    have := net_kept (n := n) hb e
    rwa [h2] at this
  rcases h6 with ⟨k, hk⟩ | hk | ⟨vl, hk, he⟩ | ⟨s, hs, v, hv, hk⟩
  · exact back (r := .connectable n) rfl ((connectable_removed_iff hn).2 ⟨a, h4, h5, .inl ⟨k, hk⟩⟩)
  · exact back (r := .connectable n) rfl ((connectable_removed_iff hn).2 ⟨a, h4, h5, .inr ⟨hk, h5 ▸ free⟩⟩)
  · refine back (r := .bus vl n) rfl (bus_removed_iff.2 ⟨⟨a, h4, h5, hk⟩, fun b hb e hm c hp => ?_, fun b hb m hm e => ?_⟩)
    · by_cases eb : b.id = n
      · rw [one_of hn hb h4 (eb.trans h5.symm), he] at hm; cases hm
      · obtain ⟨_, w, _, _, _, _, _, hw, _⟩ := ht.1.together.ends b (old b hb eb) e hm
        rw [hp] at hw
        obtain ⟨_, d, hd, e1, _⟩ := hw
        exact ne d hd e1
    · by_cases eb : b.id = n
      · obtain rfl := one_of hn hb h4 (eb.trans h5.symm)
        obtain ⟨d, hd, e1, e2⟩ := (addition_goes_together ht hh h).1.together.needs b hb m hm
        obtain rfl := one_of hn hd h4 (e1.trans (e.trans h5.symm))
        exact bus_needs hb hk hm
      · obtain ⟨d, hd, e1, _⟩ := ht.1.together.needs b (old b hb eb) m hm
        exact ne d hd (e1.trans e)
  · exact back (r := .switch v.ident.head.id n) rfl (switch_removed_iff.2 ⟨s, hs, v, hv, rfl, hasSwitch_iff.1 hk⟩)

/-- **C99** An HVDC line that was added between stations of no other line is removed, and the network is again what it was. -/
theorem line_undone {x y : Net T} {b : Base} {mode : Option Nat} {k : HvdcLine} (ht : TidyNet x) (h : (NetAdd.hvdc b mode k).add x = .ok y)
    (hf : ∀ h ∈ y.hvdcs, h ∉ x.hvdcs → ∀ g ∈ x.hvdcs, ∀ s, s = h.station1 ∨ s = h.station2 → g.station1 ≠ s ∧ g.station2 ≠ s) :
    ∃ n, Free (netItems x) n ∧ (Removal.hvdcLine n).run y = .ok x := by
  have hn := (addition_goes_together ht (by exact trivial) h).1.together.names
  have h0 := h
  simp only [NetAdd.add, Out.bind_eq_ok, given_ok, map_ok_iff, grd_unit, exists_const] at h
  obtain ⟨m, _, _, t1, _, t2, _, n, hid, rfl⟩ := h
  have fr := (newId_free hid).2
  have ne : ∀ g ∈ x.hvdcs, g.ident.head.id ≠ n := fun g hg e => fr _ (hvdc_mem hg) (e ▸ id_mem_names (hvdcItem g))
  have hnew : ∀ g ∈ x.hvdcs ++ [{ k with ident := b.ident n, mode := m, station1 := t1, station2 := t2 }], g.ident.head.id ≠ n → g ∈ x.hvdcs := by
    intro g hg e
    rcases List.mem_append.1 hg with hg | hg
    · exact hg
    · rw [List.mem_singleton] at hg; subst hg; exact absurd rfl e
  have hm : ({ k with ident := b.ident n, mode := m, station1 := t1, station2 := t2 } : HvdcLine) ∈ x.hvdcs ++ [{ k with ident := b.ident n, mode := m, station1 := t1, station2 := t2 }] := by simp
  have ok := (hvdc_removed_iff (n := n) hn).2 ⟨_, hm, rfl, fun g hg e => hf _ hm (fun h => ne _ h rfl) g (hnew g hg e)⟩
  refine ⟨n, fr, ?_⟩
  obtain ⟨z, hz⟩ := ok
  rw [hz, (removed hn (o := .hvdcLine n) rfl hz).1]
  refine congrArg Out.ok (Eq.trans ?_ (drop_free fr))
  simp [drop, List.filter_append, other, Base.ident]

end Verif.Remove
