import Verif.Remove.Props

/-!
C99: what a removal leaves is valid and goes together, unless something refers to what was removed; histories of adders, setters and removals.
-/

namespace Verif.Remove

open Verif Verif.Xml Verif.XmlNet Verif.Setters Verif.ReadBack Verif.Build

variable {T : Type} {n vl : String}

/-! ### One voltage level -/

theorem level_items {x y : Net T} {R : Topo → Topo → Prop} (h : OneLevel vl R x y) (hk : ∀ t u, R t u → u.isNode = t.isNode) :
    ∃ A B t u, R t u ∧ netItems x = A ++ (topoItems vl t ++ B) ∧ netItems y = A ++ (topoItems vl u ++ B) ∧ netRefs y = netRefs x := by
  obtain ⟨p, s, q, p', v, q', t, h1, h2, rfl, h3, rfl⟩ := h
  refine ⟨plain x.ident .other :: (p.flatMap substationItems ++ plain s.ident .other :: (p'.flatMap (vlItems s.ident.head.id) ++ [vlItem s.ident.head.id v])),
    equipItems v.ident.head.id v.equip ++ (q'.flatMap (vlItems s.ident.head.id) ++ (s.tw2s.map (tw2Item s.ident.head.id) ++ s.tw3s.map (tw3Item s.ident.head.id)) ++
      (q.flatMap substationItems ++ (x.lines.map lineItem ++ x.hvdcs.map hvdcItem))), v.topo, t, h3, ?_, ?_, ?_⟩
  · simp only [netItems, h1, List.flatMap_append, List.flatMap_cons, substationItems, h2, vlItems, List.append_assoc, List.cons_append, List.nil_append]
  · have : vlItem s.ident.head.id { v with topo := t } = vlItem s.ident.head.id v := by simp [vlItem, hk _ _ h3]
    simp only [netItems, List.flatMap_append, List.flatMap_cons, substationItems, vlItems, List.append_assoc, List.cons_append, List.nil_append, this]
  · simp only [netRefs, h1, List.flatMap_append, List.flatMap_cons, substationRefs, h2]
    rfl

theorem level_valid {x y : Net T} {R : Topo → Topo → Prop} (h : OneLevel vl R x y) (hk : ∀ t u, R t u → TopoValid t → TopoValid u) (hx : NetValid x) : NetValid y := by
  obtain ⟨p, s, q, p', v, q', t, h1, h2, rfl, h3, rfl⟩ := h
  refine { hx with subs := fun w hw => ?_ }
  simp only [List.mem_append, List.mem_cons] at hw
  have old : ∀ w, w ∈ p ∨ w = s ∨ w ∈ q → SubstationValid w := fun w hw => hx.subs w (by rw [h1]; simpa using hw)
  rcases hw with hw | rfl | hw
  · exact old w (.inl hw)
  · have hs := old s (.inr (.inl rfl))
    refine { hs with vls := fun w hw => ?_ }
    have old' : ∀ w, w ∈ p' ∨ w = v ∨ w ∈ q' → VLValid w := fun w hw => hs.vls w (by rw [h2]; simpa using hw)
    simp only [List.mem_append, List.mem_cons] at hw
    rcases hw with hw | rfl | hw
    · exact old' w (.inl hw)
    · have hv := old' v (.inr (.inl rfl))
      exact { hv with topo := hk _ _ h3 hv.topo }
    · exact old' w (.inr (.inr hw))
  · exact old w (.inr (.inr hw))

theorem level_inside {x y : Net T} {R : Topo → Topo → Prop} (h : OneLevel vl R x y) (hx : NetInside x) : NetInside y := by
  obtain ⟨p, s, q, p', v, q', t, h1, h2, rfl, h3, rfl⟩ := h
  intro w hw
  simp only [List.mem_append, List.mem_cons] at hw
  have old : ∀ w, w ∈ p ∨ w = s ∨ w ∈ q → SubInside w := fun w hw => hx w (by rw [h1]; simpa using hw)
  rcases hw with hw | rfl | hw
  · exact old w (.inl hw)
  · exact old s (.inr (.inl rfl))
  · exact old w (.inr (.inr hw))

/-! ### What a removal keeps -/

/-- **C99** A removal leaves the network valid, its positions included. -/
theorem removal_keeps_valid {x y : Net T} {o : Removal} (hn : ((netItems x).flatMap Item.names).Nodup) (hv : NetValid x) (hi : NetInside x) (h : o.run x = .ok y) :
    NetValid y ∧ NetInside y := by
  cases ho : o.target with
  | some n => rw [(removed hn ho h).1]; exact ⟨drop_valid hv, drop_inside hi⟩
  | none =>
    cases o with
    | allSwitches v =>
      have h' := (all_switches_removed_iff hn).1 h
      refine ⟨level_valid h' ?_ hv, level_inside h' hi⟩
      rintro _ _ ⟨buses, sws, rfl, rfl⟩ ht
      exact ⟨ht.1, none_in⟩
    | connections v i j =>
      have h' := connections_removed h
      refine ⟨level_valid h' ?_ hv, level_inside h' hi⟩
      rintro _ _ ⟨⟩ ht
      exact ht
    | connectable => cases ho
    | hvdcLine => cases ho
    | bus => cases ho
    | switch => cases ho

/-- **C99** It leaves the objects together, whatever refers to what is removed. -/
theorem removal_goes_together {x y : Net T} {o : Removal} (ht : Tidy (netItems x)) (h : o.run x = .ok y) : Tidy (netItems y) := by
  have hn := ht.together.names
  cases ho : o.target with
  | some n =>
    obtain ⟨rfl, a, ha, rfl, _, h1, h2, h3, _⟩ := removed hn ho h
    exact drop_tidy ht ha h1 h2 h3
  | none =>
    cases o with
    | allSwitches v =>
      obtain ⟨A, B, t, u, ⟨buses, sws, rfl, rfl⟩, e1, e2, _⟩ := level_items ((all_switches_removed_iff hn).1 h) (by rintro _ _ ⟨_, _, rfl, rfl⟩; rfl)
      have hs : (netItems y).Sublist (netItems x) := by
        rw [e1, e2]
        simp only [topoItems, List.map_nil, List.append_nil]
        exact (List.Sublist.refl _).append ((List.sublist_append_left _ _).append (List.Sublist.refl _))
      have stay : ∀ a ∈ netItems x, a.obj ≠ .other → a ∈ netItems y := by
        intro a ha hf
        rw [e1] at ha; rw [e2]
        simp only [topoItems, List.map_nil, List.append_nil, List.mem_append, List.mem_map] at ha ⊢
        rcases ha with ha | (ha | ⟨w, _, rfl⟩) | ha
        · exact .inl ha
        · exact .inr (.inl ha)
        · exact absurd rfl hf
        · exact .inr (.inr ha)
      exact tidy_fewer ht hs (fun _ _ _ _ a ha _ _ _ e => stay a ha (by rw [e]; nofun)) (fun _ _ _ _ a ha _ e => stay a ha (by rw [e]; nofun))
        (fun _ _ _ _ _ _ _ a ha _ e => stay a ha (by rw [e]; nofun)) (fun _ _ _ _ a ha _ e => stay a ha (by rw [e]; nofun))
    | connections v i j =>
      obtain ⟨A, B, t, u, r, e1, e2, _⟩ := level_items (connections_removed h) (by rintro _ _ ⟨⟩; rfl)
      cases r with
      | mk =>
        have : netItems y = netItems x := by rw [e1, e2]; rfl
        rw [this]; exact ht
    | connectable => cases ho
    | hvdcLine => cases ho
    | bus => cases ho
    | switch => cases ho

/-- **C99** After the removal of an equipment every regulating terminal is one of the network, exactly when none was a terminal of the equipment, but for its own. -/
theorem equipment_removal_iff {x y : Net T} (ht : TidyNet x) (h : (Removal.connectable n).run x = .ok y) : TidyNet y ↔ ∀ r, y.HasRef r → r.id ≠ n := by
  have hn := ht.1.together.names
  obtain ⟨e, a, ha, ea, _⟩ := removed hn (show (Removal.connectable n).target = some n from rfl) h
  constructor
  · rintro ⟨_, h2⟩ r hr er
    obtain ⟨t, ht', e1, _⟩ := h2 r hr
    exact (((nobody_left hn (o := .connectable n) rfl h).2.1 t).1 ht').2 (e1.symm.trans er)
  · intro hr
    refine ⟨removal_goes_together ht.1 h, ?_⟩
    subst ea; subst e
    exact drop_refs ht ha fun _ => hr

/-- **C99** Other removals never leave a regulating terminal behind. -/
theorem other_removal_tidy {x y : Net T} {o : Removal} (ht : TidyNet x) (ho : ∀ n, o ≠ .connectable n) (h : o.run x = .ok y) : TidyNet y := by
  have hn := ht.1.together.names
  refine ⟨removal_goes_together ht.1 h, ?_⟩
  cases hm : o.target with
  | some n =>
    obtain ⟨rfl, a, ha, rfl, _, _, _, _, h4⟩ := removed hn hm h
    exact drop_refs ht ha fun hk => absurd (h4 hk) (ho _)
  | none =>
    cases o with
    | allSwitches v =>
      obtain ⟨A, B, t, u, ⟨buses, sws, rfl, rfl⟩, e1, e2, e3⟩ := level_items ((all_switches_removed_iff hn).1 h) (by rintro _ _ ⟨_, _, rfl, rfl⟩; rfl)
      intro r hr
      rw [← mem_netRefs, e3, mem_netRefs] at hr
      obtain ⟨a, ha, h1, k, hk, h2⟩ := ht.2 r hr
      refine ⟨a, ?_, h1, k, hk, h2⟩
      rw [e1] at ha; rw [e2]
      simp only [topoItems, List.map_nil, List.append_nil, List.mem_append, List.mem_map] at ha ⊢
      rcases ha with ha | (ha | ⟨w, _, rfl⟩) | ha
      · exact .inl ha
      · exact .inr (.inl ha)
      · cases hk
      · exact .inr (.inr ha)
    | connections v i j =>
      obtain ⟨A, B, t, u, r, e1, e2, e3⟩ := level_items (connections_removed h) (by rintro _ _ ⟨⟩; rfl)
      cases r with
      | mk =>
        have : netItems y = netItems x := by rw [e1, e2]; rfl
        rw [this]
        intro r hr
        rw [← mem_netRefs, e3, mem_netRefs] at hr
        exact ht.2 r hr
    | connectable => cases hm
    | hvdcLine => cases hm
    | bus => cases hm
    | switch => cases hm

/-! ### Histories -/

/-- **C99** Every safe call, removals included, leaves the network valid, its objects together, and referring to each other by their identifiers. -/
theorem safe_step_keeps {x y : Net T} {o : Step T} (hv : NetValid x) (ht : TidyNet x) (hi : NetInside x) (ho : o.Safe x) (h : o.run x = .ok y) : NetValid y ∧ TidyNet y ∧ NetInside y := by
  cases o with
  | call o => exact safe_call_keeps hv ht hi ho h
  | remove o =>
    obtain ⟨h1, h2⟩ := removal_keeps_valid ht.1.together.names hv hi h
    refine ⟨h1, ?_, h2⟩
    by_cases hc : ∃ n, o = .connectable n
    · obtain ⟨n, rfl⟩ := hc
      exact (equipment_removal_iff ht h).2 (ho y h)
    · exact other_removal_tidy ht (fun n e => hc ⟨n, e⟩) h

/-- **C99** The same for every history of safe calls, refused calls included. -/
theorem history_holds : ∀ (os : List (Step T)) {x y : Net T}, NetValid x → TidyNet x → NetInside x → SafeSteps x os → runSteps x os = .ok y → NetValid y ∧ TidyNet y ∧ NetInside y := by
  intro os
  induction os with
  | nil => intro x y hv ht hi _ h; simp only [runSteps, Out.ok.injEq] at h; exact h ▸ ⟨hv, ht, hi⟩
  | cons o os ih =>
    intro x y hv ht hi ho h
    simp only [runSteps] at h
    cases hz : o.run x with
    | ok z =>
      rw [hz] at h
      obtain ⟨h1, h2, h3⟩ := safe_step_keeps hv ht hi ho.1 hz
      exact ih h1 h2 h3 (ho.2.1 z hz) h
    | thrown => rw [hz] at h; exact ih hv ht hi (ho.2.2 hz) h
    | ub => rw [hz] at h; cases h

section
variable {K : XCodec} {D : Dates T}

/-- **C99** A network that was made from nothing by safe calls of adders, setters and removals is exported, and imported as it was, but for the way regulating terminals were given. -/
theorem history_comes_back (hK : K.Integers) (hd : K.Doubles) {id format : String} {date : T} {x y : Net T} {os : List (Step T)} (hx : newNet id format date = .ok x)
    (hs : SafeSteps x os) (h : runSteps x os = .ok y) (hf : NetFits D y) (hk : Kept K (netNumbers y)) (i : Bool) :
    ∃ cs toks z, exportNet K D y = .ok cs ∧ document i cs = .ok toks ∧ importSettled K D toks = .ok z ∧ SameNet (netItems y) y z ∧ ById z ∧ (ById y → z = y) := by
  obtain ⟨hv, ht, hi⟩ := new_network_valid hx
  obtain ⟨hv, ⟨ht, hr⟩, _⟩ := history_holds os hv ht hi hs h
  have hr := fun r hy => refNamed_of_id (hr r hy)
  obtain ⟨cs, toks, w1, w2, w3, _⟩ := export_imported hK hd hv ht.together hr hf hk i
  exact ⟨cs, toks, _, w1, w2, w3, settled_same ht.together.names, settled_by_id ht.together hr, by_id_settled ht.together.names⟩

/-- **C99** Import, then add, set and remove, then export and import. -/
theorem edited_network_comes_back (hK : K.Integers) (hd : K.Doubles) {toks : List Tok} {x y : Net T} {os : List (Step T)} (hx : importSettled K D toks = .ok x)
    (hi : NetInside x) (hs : SafeSteps x os) (h : runSteps x os = .ok y) (hf : NetFits D y) (hk : Kept K (netNumbers y)) (i : Bool) :
    ∃ cs toks' z, exportNet K D y = .ok cs ∧ document i cs = .ok toks' ∧ importSettled K D toks' = .ok z ∧ SameNet (netItems y) y z ∧ ById z ∧ (ById y → z = y) := by
  obtain ⟨hv, hc, hr, hb⟩ := imported_by_id hd hx
  obtain ⟨hv, ⟨ht, hr⟩, _⟩ := history_holds os hv (by_id_tidy hc hr hb) hi hs h
  have hr := fun r hy => refNamed_of_id (hr r hy)
  obtain ⟨cs, toks', w1, w2, w3, _⟩ := export_imported hK hd hv ht.together hr hf hk i
  exact ⟨cs, toks', _, w1, w2, w3, settled_same ht.together.names, settled_by_id ht.together hr, by_id_settled ht.together.names⟩

end

end Verif.Remove
