import Verif.Remove.Lemmas

/-!
C99: what can be removed from a network, what is left of it, and histories of adders, setters and removals.
-/

namespace Verif.Remove

open Verif Verif.Xml Verif.XmlNet Verif.Setters Verif.ReadBack Verif.Build

variable {T : Type} {n vl : String}

/-! ### What can be removed -/

theorem found {x : Net T} (hn : ((netItems x).flatMap Item.names).Nodup) {a : Item} (ha : a ∈ netItems x) : ((netItems x).find? fun y => y.id == a.id) = some a := by
  cases h : (netItems x).find? fun y => y.id == a.id with
  | none => have := List.find?_eq_none.1 h a ha; simp at this
  | some b =>
    have h1 := List.mem_of_find?_eq_some h
    have h2 := List.find?_some h
    rw [one_of hn h1 ha (by simpa using h2)]

theorem uses_iff {s : String} {h : HvdcLine} : uses s h = false ↔ h.station1 ≠ s ∧ h.station2 ≠ s := by simp [uses]

/-- **C99** An equipment is removed exactly when it is one, and not a converter station of an HVDC line. -/
theorem connectable_removed_iff {x : Net T} (hn : ((netItems x).flatMap Item.names).Nodup) :
    (∃ y, (Removal.connectable n).run x = .ok y) ↔ ∃ a ∈ netItems x, a.id = n ∧ Removable x a := by
  constructor
  · rintro ⟨y, h⟩
    simp only [Removal.run] at h
    split at h
    · cases h
    · rename_i a ha
      have h1 := List.mem_of_find?_eq_some ha
      have h2 : a.id = n := by simpa using List.find?_some ha
      refine ⟨a, h1, h2, ?_⟩
      split at h
      · rename_i k hk; exact .inl ⟨k, hk⟩
      · rename_i hk
        refine .inr ⟨hk, fun k hm => ?_⟩
        have := (grd_ok.1 h).1
        rw [List.any_eq_false] at this
        have := this k hm
        rw [Bool.not_eq_true] at this
        exact h2 ▸ uses_iff.1 this
      · cases h
  · rintro ⟨a, ha, rfl, h⟩
    simp only [Removal.run, found hn ha]
    rcases h with ⟨k, hk⟩ | ⟨hk, h⟩
    · exact ⟨_, by rw [hk]⟩
    · refine ⟨drop a.id x, ?_⟩
      rw [hk]
      refine grd_ok.2 ⟨List.any_eq_false.2 fun k hm => ?_, rfl⟩
      rw [Bool.not_eq_true]
      exact uses_iff.2 (h k hm)

/-- **C99** An HVDC line is removed, with its stations free, exactly when no other line has one of them; else a station is left free although it is used (C28). -/
theorem hvdc_removed_iff {x : Net T} (hn : ((netItems x).flatMap Item.names).Nodup) :
    (∃ y, (Removal.hvdcLine n).run x = .ok y) ↔
      ∃ h ∈ x.hvdcs, h.ident.head.id = n ∧ ∀ k ∈ x.hvdcs, k.ident.head.id ≠ n → ∀ s, s = h.station1 ∨ s = h.station2 → k.station1 ≠ s ∧ k.station2 ≠ s := by
  have cond : ∀ h : HvdcLine, (x.hvdcs.any fun k => other n k.ident && (uses h.station1 k || uses h.station2 k)) = false ↔
      ∀ k ∈ x.hvdcs, k.ident.head.id ≠ n → ∀ s, s = h.station1 ∨ s = h.station2 → k.station1 ≠ s ∧ k.station2 ≠ s := by
    intro h
    rw [List.any_eq_false]
    refine forall_congr' fun k => forall_congr' fun _ => ?_
    simp only [Bool.and_eq_true, other_iff, Bool.or_eq_true, not_and, not_or, Bool.not_eq_true, uses_iff]
    refine forall_congr' fun _ => ⟨fun h s hs => ?_, fun h => ⟨h _ (.inl rfl), h _ (.inr rfl)⟩⟩
    rcases hs with rfl | rfl
    · exact h.1
    · exact h.2
  constructor
  · rintro ⟨y, h⟩
    simp only [Removal.run] at h
    split at h
    · cases h
    · rename_i k hk
      split at h
      · cases h
      · rename_i hf
        exact ⟨k, List.mem_of_find?_eq_some hk, by simpa using List.find?_some hk, (cond k).1 (by simpa using hf)⟩
  · rintro ⟨h, hm, rfl, hc⟩
    have : (x.hvdcs.find? fun k => k.ident.head.id == h.ident.head.id) = some h := by
      cases hf : x.hvdcs.find? fun k => k.ident.head.id == h.ident.head.id with
      | none => have := List.find?_eq_none.1 hf h hm; simp at this
      | some k =>
        have h1 := List.mem_of_find?_eq_some hf
        have h2 : k.ident.head.id = h.ident.head.id := by simpa using List.find?_some hf
        refine congrArg some ?_
        have nd : (x.hvdcs.flatMap fun k => (hvdcItem k).names).Nodup := by
          have : x.hvdcs.flatMap (fun k => (hvdcItem k).names) = (x.hvdcs.map hvdcItem).flatMap Item.names := by rw [List.flatMap_map]
          rw [this]
          exact (sublist_flatMap (List.Sublist.cons _ ((List.sublist_append_right _ _).trans (List.sublist_append_right _ _)))).nodup hn
        have e : h.ident.head.id ∈ (hvdcItem h).names := id_mem_names (hvdcItem h)
        have e' : h.ident.head.id ∈ (hvdcItem k).names := by rw [← h2]; exact id_mem_names (hvdcItem k)
        exact same_of_flatMap nd h1 hm e' e
    refine ⟨drop h.ident.head.id x, ?_⟩
    simp only [Removal.run, this]
    rw [if_neg (by rw [(cond h).2 hc]; decide)]

theorem onBus_iff {e : End} : onBus n e = true ↔ ∃ c, e.place = .bus n c := by
  unfold onBus
  cases e.place with
  | node k => simp
  | bus b c => simp

/-- **C99** A bus is removed exactly when it is one of the voltage level, with neither a terminal, connected or not, nor a switch. -/
theorem bus_removed_iff {x : Net T} : (∃ y, (Removal.bus vl n).run x = .ok y) ↔
    (∃ a ∈ netItems x, a.id = n ∧ a.obj = .bus vl) ∧ (∀ a ∈ netItems x, ∀ e ∈ a.ends, ∀ c, e.place ≠ .bus n c) ∧ ∀ a ∈ netItems x, ∀ k ∈ a.needs, k.2 ≠ n := by
  simp only [Removal.run, grd_ok, exists_and_left, exists_eq', and_true, Bool.or_eq_false_iff, Bool.not_eq_false', List.any_eq_true, List.any_eq_false, Bool.and_eq_true,
    beq_iff_eq, not_exists, not_and, and_assoc]
  refine and_congr_right fun _ => and_congr ?_ ?_
  · refine forall_congr' fun a => forall_congr' fun _ => forall_congr' fun e => forall_congr' fun _ => ?_
    rw [onBus_iff]
    exact not_exists
  · exact Iff.rfl

theorem hasSwitch_iff {t : Topo} : hasSwitch n t = true ↔
    ((∃ bbs sws conns calcs, t = .node bbs sws conns calcs ∧ ∃ w ∈ sws, w.ident.head.id = n) ∨ ∃ buses sws, t = .bus buses sws ∧ ∃ w ∈ sws, w.ident.head.id = n) := by
  cases t with
  | node bbs sws conns calcs =>
    simp only [hasSwitch, List.any_eq_true, beq_iff_eq]
    constructor
    · intro h; exact .inl ⟨_, _, _, _, rfl, h⟩
    · rintro (⟨_, _, _, _, ⟨⟩, h⟩ | ⟨_, _, ⟨⟩, _⟩); exact h
  | bus buses sws =>
    simp only [hasSwitch, List.any_eq_true, beq_iff_eq]
    constructor
    · intro h; exact .inr ⟨_, _, rfl, h⟩
    · rintro (⟨_, _, _, _, ⟨⟩, _⟩ | ⟨_, _, ⟨⟩, h⟩); exact h

/-- **C99** A switch is removed exactly when the voltage level has it. -/
theorem switch_removed_iff {x : Net T} : (∃ y, (Removal.switch vl n).run x = .ok y) ↔ SwitchOf x vl n := by
  simp only [Removal.run, grd_ok, exists_and_left, exists_eq', and_true, Bool.not_eq_false', List.any_eq_true, Bool.and_eq_true, beq_iff_eq, hasSwitch_iff, SwitchOf]

/-! ### What is left -/

theorem along_map {α : Type} {R : α → α → Prop} {f : α → α} {xs : List α} (h : ∀ a ∈ xs, R a (f a)) : Along R xs (xs.map f) := by
  refine ⟨by simp, fun i a b ha hb => ?_⟩
  rw [List.getElem?_map, ha] at hb
  simp only [Option.map_some, Option.some.injEq] at hb
  exact hb ▸ h a (List.mem_of_getElem? ha)

theorem fewer_filter {α : Type} {f : α → Ident} {xs : List α} : Fewer f n xs (xs.filter fun a => other n (f a)) :=
  ⟨List.filter_sublist, fun _ ha => other_iff.1 (List.mem_filter.1 ha).2, fun _ ha h => List.mem_filter.2 ⟨ha, other_iff.2 h⟩⟩

theorem drop_fewer {x : Net T} : FewerNet n x (drop n x) := by
  refine ⟨_, _, _, rfl, along_map fun s _ => ⟨_, _, _, rfl, along_map fun v _ => ⟨_, _, rfl, ?_, ?_⟩, fewer_filter, fewer_filter⟩, fewer_filter, fewer_filter⟩
  · cases v.topo with
    | node => exact .node fewer_filter fewer_filter
    | bus => exact .bus fewer_filter fewer_filter
  · exact ⟨fewer_filter, fewer_filter, fewer_filter, fewer_filter, fewer_filter, fewer_filter, fewer_filter, fewer_filter⟩

theorem switch_item {x : Net T} {s : Substation} {v : VL} (hs : s ∈ x.subs) (hv : v ∈ s.vls) (h : hasSwitch n v.topo = true) :
    ∃ a ∈ topoItems v.ident.head.id v.topo, a.id = n ∧ a.obj = .other := by
  rcases hasSwitch_iff.1 h with ⟨bbs, sws, conns, calcs, e, w, hw, h1⟩ | ⟨buses, sws, e, w, hw, h1⟩
  · rw [e]; exact ⟨nswItem w, List.mem_append_right _ (List.mem_map_of_mem hw), h1, rfl⟩
  · rw [e]; exact ⟨bswItem _ w, List.mem_append_right _ (List.mem_map_of_mem hw), h1, rfl⟩

/-- What is removed was there, is none of the objects that hold others, and was needed by nobody. -/
theorem removed {x y : Net T} {o : Removal} (hn : ((netItems x).flatMap Item.names).Nodup) (ho : o.target = some n) (h : o.run x = .ok y) :
    y = drop n x ∧ ∃ a ∈ netItems x, a.id = n ∧ (∀ b, Holder x b → b.id ≠ n) ∧ (∀ sub node, a.obj ≠ .level sub node) ∧
      (∀ vl, a.obj = .bus vl → (∀ y ∈ netItems x, ∀ k ∈ y.needs, k.2 ≠ n) ∧ ∀ y ∈ netItems x, ∀ e ∈ y.ends, ∀ b c, e.place = .bus b c → b ≠ n) ∧
      (a.obj = .station → ∀ y ∈ netItems x, ∀ s, y.stations = some s → s.1 ≠ n ∧ s.2 ≠ n) ∧ ((∃ k, a.obj.Terminals k) → o = .connectable n) := by
  cases o with
  | connectable m =>
    cases ho
    obtain ⟨a, ha, rfl, hr⟩ := (connectable_removed_iff hn).1 ⟨y, h⟩
    have hy : y = drop a.id x := by
      simp only [Removal.run, found hn ha] at h
      rcases hr with ⟨k, hk⟩ | ⟨hk, _⟩
      · rw [hk] at h; cases h; rfl
      · rw [hk] at h; exact (grd_ok.1 h).2.symm
    refine ⟨hy, a, ha, rfl, fun b hb e => ?_, fun sub node e => ?_, fun vl e => ?_, fun e z hz s hs => ?_, fun _ => rfl⟩
    · obtain rfl := one_of hn (holder_mem hb) ha e
      rcases (holder_plain hb).2.2.2 with e | ⟨_, _, e⟩ <;> rcases hr with ⟨k, hk⟩ | ⟨hk, _⟩ <;> rw [e] at hk <;> cases hk
    · rcases hr with ⟨k, hk⟩ | ⟨hk, _⟩ <;> rw [e] at hk <;> cases hk
    · rcases hr with ⟨k, hk⟩ | ⟨hk, _⟩ <;> rw [e] at hk <;> cases hk
    · rcases hr with ⟨k, hk⟩ | ⟨_, hr⟩
      · rw [e] at hk; cases hk
      · obtain ⟨k, hk, rfl⟩ := stations_of hz hs
        exact hr k hk
  | hvdcLine m =>
    cases ho
    obtain ⟨k, hk, rfl, _⟩ := (hvdc_removed_iff hn).1 ⟨y, h⟩
    have hy : y = drop k.ident.head.id x := by
      simp only [Removal.run] at h
      split at h
      · cases h
      · split at h
        · cases h
        · cases h; rfl
    refine ⟨hy, hvdcItem k, hvdc_mem hk, rfl, fun b hb e => ?_, nofun, nofun, nofun, ?_⟩
    · have := one_of hn (holder_mem hb) (hvdc_mem hk) e
      have h2 := (holder_plain hb).2.2.1
      rw [this] at h2
      cases h2
    · rintro ⟨k, hk⟩; cases hk
  | bus v m =>
    cases ho
    obtain ⟨⟨a, ha, rfl, hb⟩, h1, h2⟩ := bus_removed_iff.1 ⟨y, h⟩
    refine ⟨(grd_ok.1 h).2.symm, a, ha, rfl, fun b hh e => ?_, fun sub node e => ?_, fun _ _ => ⟨h2, fun y hy e he b c hp e' => ?_⟩, fun e => ?_, ?_⟩
    · obtain rfl := one_of hn (holder_mem hh) ha e
      rcases (holder_plain hh).2.2.2 with e | ⟨_, _, e⟩ <;> rw [e] at hb <;> cases hb
    · rw [e] at hb; cases hb
    · subst e'; exact h1 y hy e he c hp
    · rw [e] at hb; cases hb
    · rintro ⟨k, hk⟩; rw [hb] at hk; cases hk
  | switch v m =>
    cases ho
    have hm := (grd_ok.1 h).1
    simp only [Bool.not_eq_false', List.any_eq_true, Bool.and_eq_true] at hm
    obtain ⟨s, hs, w, hw, _, hf⟩ := hm
    obtain ⟨a, ha, rfl, hb⟩ := switch_item hs hw hf
    refine ⟨(grd_ok.1 h).2.symm, a, topo_mem hs hw ha, rfl, fun b hh => inner_apart hn hs hw ha hh, fun sub node e => ?_, fun vl e => ?_, fun e => ?_, ?_⟩
    · rw [e] at hb; cases hb
    · rw [e] at hb; cases hb
    · rw [e] at hb; cases hb
    · rintro ⟨k, hk⟩; rw [hb] at hk; cases hk
  | allSwitches => cases ho
  | connections => cases ho

/-- **C99** A removal takes exactly the object away, with everything else as it was. -/
theorem removed_exactly {x y : Net T} {o : Removal} (hn : ((netItems x).flatMap Item.names).Nodup) (ho : o.target = some n) (h : o.run x = .ok y) : FewerNet n x y := by
  rw [(removed hn ho h).1]; exact drop_fewer

/-- **C99** Nothing is called by the identifier any more, and everything else is still there, in the same order; the names of the object, its aliases included, are free again. -/
theorem nobody_left {x y : Net T} {o : Removal} (hn : ((netItems x).flatMap Item.names).Nodup) (ho : o.target = some n) (h : o.run x = .ok y) :
    (netItems y).Sublist (netItems x) ∧ (∀ a, a ∈ netItems y ↔ a ∈ netItems x ∧ a.id ≠ n) ∧ ∃ a ∈ netItems x, a.id = n ∧ ∀ m ∈ a.names, Free (netItems y) m := by
  obtain ⟨rfl, a, ha, e, hh, _⟩ := removed hn ho h
  have mem : ∀ b, b ∈ netItems (drop n x) ↔ b ∈ netItems x ∧ b.id ≠ n := fun b =>
    ⟨fun hb => ⟨net_fewer.subset hb, (net_gone hb).elim (hh b) id⟩, fun hb => net_kept hb.1 hb.2⟩
  refine ⟨net_fewer, mem, a, ha, e, fun m hm b hb hm' => ?_⟩
  obtain ⟨h1, h2⟩ := (mem b).1 hb
  exact h2 (owner hn h1 ha hm' hm ▸ e)

/-! ### Switches and connections of a voltage level -/

theorem onLevels_ok {f : Topo → Out Topo} : ∀ {vs ws : List VL}, onLevels vl f vs = .ok ws →
    ∃ p v q t, vs = p ++ v :: q ∧ v.ident.head.id = vl ∧ f v.topo = .ok t ∧ ws = p ++ { v with topo := t } :: q := by
  intro vs
  induction vs with
  | nil => intro ws h; cases h
  | cons v vs ih =>
    intro ws h
    simp only [onLevels] at h
    split at h
    · rename_i e
      obtain ⟨t, ht, rfl⟩ := map_ok_iff.1 h
      exact ⟨[], v, vs, t, rfl, e, ht, rfl⟩
    · obtain ⟨u, hu, rfl⟩ := map_ok_iff.1 h
      obtain ⟨p, w, q, t, rfl, h1, h2, rfl⟩ := ih hu
      exact ⟨v :: p, w, q, t, rfl, h1, h2, rfl⟩

theorem onLevels_of {f : Topo → Out Topo} {p q : List VL} {v : VL} {t : Topo} (hp : ∀ w ∈ p, w.ident.head.id ≠ vl) (hv : v.ident.head.id = vl) (hf : f v.topo = .ok t) :
    onLevels vl f (p ++ v :: q) = .ok (p ++ { v with topo := t } :: q) := by
  induction p with
  | nil => simp [onLevels, hv, hf, Out.map, Out.bind]
  | cons w p ih =>
    simp only [List.cons_append, onLevels, if_neg (hp w List.mem_cons_self), ih fun u hu => hp u (List.mem_cons_of_mem _ hu)]
    rfl

theorem inSubs_ok {f : Topo → Out Topo} : ∀ {ss ts : List Substation}, inSubs vl f ss = .ok ts →
    ∃ p s q vs, ss = p ++ s :: q ∧ onLevels vl f s.vls = .ok vs ∧ ts = p ++ { s with vls := vs } :: q := by
  intro ss
  induction ss with
  | nil => intro ts h; cases h
  | cons s ss ih =>
    intro ts h
    simp only [inSubs] at h
    split at h
    · obtain ⟨vs, hv, rfl⟩ := map_ok_iff.1 h
      exact ⟨[], s, ss, vs, rfl, hv, rfl⟩
    · obtain ⟨u, hu, rfl⟩ := map_ok_iff.1 h
      obtain ⟨p, w, q, vs, rfl, h1, rfl⟩ := ih hu
      exact ⟨s :: p, w, q, vs, rfl, h1, rfl⟩

theorem inSubs_of {f : Topo → Out Topo} {p q : List Substation} {s : Substation} {vs : List VL} (hp : ∀ u ∈ p, ∀ w ∈ u.vls, w.ident.head.id ≠ vl)
    (hs : ∃ v ∈ s.vls, v.ident.head.id = vl) (hf : onLevels vl f s.vls = .ok vs) : inSubs vl f (p ++ s :: q) = .ok (p ++ { s with vls := vs } :: q) := by
  induction p with
  | nil =>
    have : (s.vls.any fun v => v.ident.head.id == vl) = true := by simpa [List.any_eq_true] using hs
    simp only [List.nil_append, inSubs, this, if_true, hf]
    rfl
  | cons u p ih =>
    have : ¬ (u.vls.any fun v => v.ident.head.id == vl) = true := by
      simp only [List.any_eq_true, beq_iff_eq, not_exists, not_and]
      exact hp u List.mem_cons_self
    simp only [List.cons_append, inSubs, if_neg this, ih fun u hu => hp u (List.mem_cons_of_mem _ hu)]
    rfl

/-- A voltage level is the only one of its name. -/
theorem level_change_iff {x y : Net T} (hn : ((netItems x).flatMap Item.names).Nodup) {f : Topo → Out Topo} :
    ((inSubs vl f x.subs).map fun ss => { x with subs := ss }) = .ok y ↔ OneLevel vl (fun t u => f t = .ok u) x y := by
  constructor
  · intro h
    obtain ⟨ts, h1, rfl⟩ := map_ok_iff.1 h
    obtain ⟨p, s, q, vs, h2, h3, rfl⟩ := inSubs_ok h1
    obtain ⟨p', v, q', t, h4, h5, h6, rfl⟩ := onLevels_ok h3
    exact ⟨p, s, q, p', v, q', t, h2, h4, h5, h6, rfl⟩
  · rintro ⟨p, s, q, p', v, q', t, h1, h2, rfl, h3, rfl⟩
    have subs : ((p ++ s :: q).flatMap fun s => (substationItems s).flatMap Item.names).Nodup := by
      rw [← h1, ← List.flatMap_assoc]
      exact (sublist_flatMap (List.Sublist.cons _ (List.sublist_append_left _ _))).nodup hn
    have name : ∀ (u : Substation) (w : VL), w ∈ u.vls → w.ident.head.id ∈ (substationItems u).flatMap Item.names := fun u w hw =>
      List.mem_flatMap.2 ⟨vlItem u.ident.head.id w, List.mem_cons_of_mem _ (List.mem_append_left _ (List.mem_flatMap.2 ⟨w, hw, List.mem_cons_self⟩)), id_mem_names _⟩
    simp only [List.flatMap_append, List.flatMap_cons, List.nodup_append, List.mem_append] at subs
    obtain ⟨_, ⟨h5, _⟩, h6⟩ := subs
    have hv : v ∈ s.vls := by rw [h2]; simp
    refine map_ok_iff.2 ⟨_, ?_, rfl⟩
    rw [h1]
    refine inSubs_of (fun u hu w hw e => ?_) ⟨v, hv, rfl⟩ ?_
    · exact h6 _ (List.mem_flatMap.2 ⟨u, hu, name u w hw⟩) _ (.inl (name s v hv)) e
    · rw [h2]
      refine onLevels_of (fun w hw e => ?_) rfl h3
      rw [substationItems, h2] at h5
      simp only [List.flatMap_append, List.flatMap_cons, vlItems, List.cons_append, List.nodup_append, List.mem_append] at h5
      have h7 := h5.2.1.1.2.2
      exact h7 _ (List.mem_flatMap.2 ⟨vlItem s.ident.head.id w, List.mem_flatMap.2 ⟨w, hw, List.mem_cons_self⟩, id_mem_names _⟩) _ (.inl (id_mem_names _)) e

/-- **C99** The switches of a bus/breaker voltage level are removed together; nothing else is changed. -/
theorem all_switches_removed_iff {x y : Net T} (hn : ((netItems x).flatMap Item.names).Nodup) :
    (Removal.allSwitches vl).run x = .ok y ↔ OneLevel vl (fun t u => ∃ buses sws, t = .bus buses sws ∧ u = .bus buses []) x y := by
  refine (level_change_iff hn).trans ?_
  have : ∀ t u, clearSwitches t = .ok u ↔ ∃ buses sws, t = .bus buses sws ∧ u = .bus buses [] := by
    intro t u
    cases t with
    | node => simp [clearSwitches]
    | bus b s =>
      simp only [clearSwitches, Out.ok.injEq]
      constructor
      · rintro rfl; exact ⟨b, s, rfl, rfl⟩
      · rintro ⟨_, _, ⟨⟩, rfl⟩; rfl
  simp only [this]

theorem between_iff {i j : Nat} {c : Nat × Nat} : between i j c = true ↔ Links i j c := by
  obtain ⟨a, b⟩ := c
  simp [between, Links]

/-- **C99** The connections between two nodes are removed together, in both directions, and refused when there is none; nothing else is changed. -/
theorem connections_removed {x y : Net T} {i j : Nat} (h : (Removal.connections vl i j).run x = .ok y) : OneLevel vl (Unlinked i j) x y := by
  obtain ⟨ts, h1, rfl⟩ := map_ok_iff.1 h
  obtain ⟨p, s, q, vs, h2, h3, rfl⟩ := inSubs_ok h1
  obtain ⟨p', v, q', t, h4, h5, h6, rfl⟩ := onLevels_ok h3
  refine ⟨p, s, q, p', v, q', t, h2, h4, h5, ?_, rfl⟩
  cases hv : v.topo with
  | bus => rw [hv] at h6; cases h6
  | node bbs sws conns calcs =>
    rw [hv] at h6
    simp only [clearConnections, grd_ok, Bool.not_eq_false', List.any_eq_true, between_iff] at h6
    obtain ⟨h7, rfl⟩ := h6
    refine .mk h7 List.filter_sublist (fun c hc => ?_) (fun c hc => ?_)
    · have := (List.mem_filter.1 hc).2
      simp only [Bool.not_eq_true', ← Bool.not_eq_true, between_iff] at this
      exact this
    · rw [List.count_filter]
      simp only [Bool.not_eq_true', ← Bool.not_eq_true, between_iff]
      exact hc

/-- **C99** They are removed exactly when the voltage level has some. -/
theorem connections_removed_iff {x : Net T} {i j : Nat} (hn : ((netItems x).flatMap Item.names).Nodup) :
    (∃ y, (Removal.connections vl i j).run x = .ok y) ↔
      ∃ s ∈ x.subs, ∃ v ∈ s.vls, v.ident.head.id = vl ∧ ∃ bbs sws conns calcs, v.topo = .node bbs sws conns calcs ∧ ∃ c ∈ conns, Links i j c := by
  constructor
  · rintro ⟨y, h⟩
    obtain ⟨p, s, q, p', v, q', t, h2, h4, h5, h6, _⟩ := connections_removed h
    refine ⟨s, by rw [h2]; simp, v, by rw [h4]; simp, h5, ?_⟩
    generalize v.topo = u at h6
    cases h6 with
    | mk h => exact ⟨_, _, _, _, rfl, h⟩
  · rintro ⟨s, hs, v, hv, h1, bbs, sws, conns, calcs, h2, h3⟩
    obtain ⟨p, q, hp⟩ := List.append_of_mem hs
    obtain ⟨p', q', hp'⟩ := List.append_of_mem hv
    refine ⟨_, (level_change_iff hn).2 ⟨p, s, q, p', v, q', .node bbs sws (conns.filter fun c => !between i j c) calcs, hp, hp', h1, ?_, rfl⟩⟩
    rw [h2]
    refine grd_ok.2 ⟨?_, rfl⟩
    simp only [Bool.not_eq_false', List.any_eq_true, between_iff]
    exact h3

end Verif.Remove
