import Verif.Remove.LevelModel
import Verif.Remove.AllProps

/-! C99: removing a voltage level. -/

namespace Verif.Remove

open Verif Verif.Xml Verif.XmlNet Verif.Setters Verif.ReadBack Verif.Build

variable {T : Type} {n vl : String}

/-! ### Specification -/

/-- What a voltage level of this name holds, itself included. -/
def Held (vl : String) (x : Net T) (a : Item) : Prop := ∃ s ∈ x.subs, ∃ v ∈ s.vls, v.ident.head.id = vl ∧ a ∈ vlItems s.ident.head.id v

/-- The network without the voltage levels of this name: nothing else is changed. -/
def WithoutLevel (vl : String) (x y : Net T) : Prop :=
  ∃ ss, y = { x with subs := ss } ∧ Along (fun s t => ∃ vs, t = { s with vls := vs } ∧ Fewer VL.ident vl s.vls vs) x.subs ss

/-- No branch ends in the voltage level, and no HVDC line has a station there. -/
def Quiet (vl : String) (x : Net T) : Prop :=
  (∀ a ∈ netItems x, 2 ≤ a.ends.length → ∀ e ∈ a.ends, e.vl ≠ vl) ∧
  ∀ a ∈ netItems x, a.obj = .station → (∃ e ∈ a.ends, e.vl = vl) → ∀ h ∈ x.hvdcs, h.station1 ≠ a.id ∧ h.station2 ≠ a.id

/-! ### Lemmas -/

theorem removeLevel_ok {x y : Net T} : removeLevel vl x = .ok y ↔ (∃ s ∈ x.subs, ∃ v ∈ s.vls, v.ident.head.id = vl) ∧ Quiet vl x ∧ y = dropLevel vl x := by
  simp only [removeLevel, grd_ok, Bool.or_eq_false_iff, Bool.not_eq_false', List.any_eq_true, List.any_eq_false, beq_iff_eq, and_assoc]
  refine and_congr_right fun _ => ?_
  rw [Quiet, and_assoc]
  refine and_congr ?_ (and_congr ?_ eq_comm)
  · refine forall_congr' fun a => forall_congr' fun _ => ?_
    simp [crosses]
  · refine forall_congr' fun a => forall_congr' fun _ => ?_
    simp only [converts, Bool.and_eq_true, beq_iff_eq, List.any_eq_true, not_and, not_exists, and_imp]
    refine forall_congr' fun _ => ?_
    constructor
    · intro h he k hk
      exact uses_iff.1 (by simpa using h he k hk)
    · intro h he k hk
      have := uses_iff.2 (h he k hk)
      simp [this]

theorem levels_fewer {x : Net T} : (netItems (dropLevel vl x)).Sublist (netItems x) := by
  refine List.Sublist.cons_cons _ (List.Sublist.append ?_ (List.Sublist.refl _))
  simp only [dropLevel, List.flatMap_map]
  refine flatMap_fewer fun s _ => List.Sublist.cons_cons _ (List.Sublist.append ?_ (List.Sublist.refl _))
  exact sublist_flatMap List.filter_sublist

theorem others_kept {x : Net T} {a : Item} (ha : a ∈ netItems x) (h : ¬ Held vl x a) : a ∈ netItems (dropLevel vl x) := by
  simp only [netItems, List.mem_cons, List.mem_append] at ha ⊢
  refine ha.imp_right (Or.imp_left fun ha => ?_)
  simp only [dropLevel, List.flatMap_map, List.mem_flatMap] at ha ⊢
  obtain ⟨s, hs, ha⟩ := ha
  refine ⟨s, hs, ?_⟩
  simp only [substationItems, List.mem_cons, List.mem_append, List.mem_flatMap] at ha ⊢
  refine ha.imp_right (Or.imp_left ?_)
  rintro ⟨v, hv, ha⟩
  exact ⟨v, List.mem_filter.2 ⟨hv, by simpa [other] using fun e => h ⟨s, hs, v, hv, e, ha⟩⟩, ha⟩

theorem left_level {x : Net T} {s : Substation} {v : VL} (hs : s ∈ (dropLevel vl x).subs) (hv : v ∈ s.vls) : v.ident.head.id ≠ vl := by
  obtain ⟨t, _, rfl⟩ := List.mem_map.1 hs
  have := (List.mem_filter.1 hv).2
  simpa [other] using this

theorem ends_of {x : Net T} {a : Item} {e : End} (ha : a ∈ netItems x) (h : e ∈ a.ends) : (∃ s ∈ x.subs, ∃ v ∈ s.vls, e.vl = v.ident.head.id) ∨ 2 ≤ a.ends.length := by
  simp only [netItems, List.mem_cons, List.mem_append, List.mem_flatMap, List.mem_map] at ha
  rcases ha with rfl | ⟨s, hs, ha⟩ | ⟨y, _, rfl⟩ | ⟨y, _, rfl⟩
  · cases h
  · simp only [substationItems, List.mem_cons, List.mem_append, List.mem_flatMap, List.mem_map] at ha
    rcases ha with rfl | ⟨v, hv, ha⟩ | ⟨y, _, rfl⟩ | ⟨y, _, rfl⟩
    · cases h
    · refine .inl ⟨s, hs, v, hv, ?_⟩
      have inj : ∀ {i o p}, e ∈ (injection v.ident.head.id i o p).ends → e.vl = v.ident.head.id := by
        intro i o p h
        simp only [injection, List.mem_cons, List.not_mem_nil, or_false] at h
        rw [h]
      simp only [vlItems, List.mem_cons, List.mem_append] at ha
      rcases ha with rfl | ha | ha
      · cases h
      · cases ht : v.topo with
        | node bbs sws conns calcs =>
          rw [ht] at ha
          simp only [topoItems, List.mem_append, List.mem_map] at ha
          rcases ha with ⟨b, _, rfl⟩ | ⟨b, _, rfl⟩
          · exact inj h
          · cases h
        | bus buses sws =>
          rw [ht] at ha
          simp only [topoItems, List.mem_append, List.mem_map] at ha
          rcases ha with ⟨b, _, rfl⟩ | ⟨b, _, rfl⟩ <;> cases h
      · simp only [equipItems, List.mem_append, List.mem_map] at ha
        rcases ha with ⟨b, _, rfl⟩ | ⟨b, _, rfl⟩ | ⟨b, _, rfl⟩ | ⟨b, _, rfl⟩ | ⟨b, _, rfl⟩ | ⟨b, _, rfl⟩ | ⟨b, _, rfl⟩ | ⟨b, _, rfl⟩ <;> exact inj h
    · exact .inr (by simp [tw2Item, branch])
    · exact .inr (by simp [tw3Item, branch])
  · cases y <;> exact .inr (by simp [lineItem, branch])
  · cases h

/-- What is in a voltage level says so. -/
theorem held_spec {sub : String} {v : VL} {a : Item} (ha : a ∈ vlItems sub v) :
    ((∃ s k, a.obj = .level s k) → a.id = v.ident.head.id) ∧ (∀ b, a.obj = .bus b → b = v.ident.head.id) ∧ ((∃ k, a.obj.Terminals k) → ∃ e ∈ a.ends, e.vl = v.ident.head.id) := by
  have eq : ∀ {i k p}, (∀ sub node, Obj.equip k ≠ .level sub node) → a = injection v.ident.head.id i (.equip k) p →
      ((∃ s k, a.obj = .level s k) → a.id = v.ident.head.id) ∧ (∀ b, a.obj = .bus b → b = v.ident.head.id) ∧ ((∃ k, a.obj.Terminals k) → ∃ e ∈ a.ends, e.vl = v.ident.head.id) := by
    rintro i k p _ rfl
    exact ⟨fun ⟨_, _, h⟩ => (by cases h), fun _ h => (by cases h), fun _ => ⟨_, List.mem_cons_self, rfl⟩⟩
  have st : ∀ {i p}, a = injection v.ident.head.id i .station p →
      ((∃ s k, a.obj = .level s k) → a.id = v.ident.head.id) ∧ (∀ b, a.obj = .bus b → b = v.ident.head.id) ∧ ((∃ k, a.obj.Terminals k) → ∃ e ∈ a.ends, e.vl = v.ident.head.id) := by
    rintro i p rfl
    exact ⟨fun ⟨_, _, h⟩ => (by cases h), fun _ h => (by cases h), fun _ => ⟨_, List.mem_cons_self, rfl⟩⟩
  simp only [vlItems, List.mem_cons, List.mem_append] at ha
  rcases ha with rfl | ha | ha
  · exact ⟨fun _ => rfl, fun _ h => (by cases h), fun ⟨_, h⟩ => (by cases h)⟩
  · cases ht : v.topo with
    | node bbs sws conns calcs =>
      rw [ht] at ha
      simp only [topoItems, List.mem_append, List.mem_map] at ha
      rcases ha with ⟨b, _, e⟩ | ⟨b, _, rfl⟩
      · exact eq nofun e.symm
      · exact ⟨fun ⟨_, _, h⟩ => (by cases h), fun _ h => (by cases h), fun ⟨_, h⟩ => (by cases h)⟩
    | bus buses sws =>
      rw [ht] at ha
      simp only [topoItems, List.mem_append, List.mem_map] at ha
      rcases ha with ⟨b, _, rfl⟩ | ⟨b, _, rfl⟩
      · exact ⟨fun ⟨_, _, h⟩ => (by cases h), fun _ h => (by cases h; rfl), fun ⟨_, h⟩ => (by cases h)⟩
      · exact ⟨fun ⟨_, _, h⟩ => (by cases h), fun _ h => (by cases h), fun ⟨_, h⟩ => (by cases h)⟩
  · simp only [equipItems, List.mem_append, List.mem_map] at ha
    rcases ha with ⟨b, _, e⟩ | ⟨b, _, e⟩ | ⟨b, _, e⟩ | ⟨b, _, e⟩ | ⟨b, _, e⟩ | ⟨b, _, e⟩ | ⟨b, _, e⟩ | ⟨b, _, e⟩
    · exact eq nofun e.symm
    · exact eq nofun e.symm
    · exact eq nofun e.symm
    · exact eq nofun e.symm
    · exact eq nofun e.symm
    · exact eq nofun e.symm
    · exact st e.symm
    · exact st e.symm

/-- What stays has no terminal in the voltage level. -/
theorem left_ends {x : Net T} (hq : Quiet vl x) {a : Item} (ha : a ∈ netItems (dropLevel vl x)) : ∀ e ∈ a.ends, e.vl ≠ vl := by
  intro e he
  rcases ends_of ha he with ⟨s, hs, v, hv, h⟩ | h
  · rw [h]; exact left_level hs hv
  · exact hq.1 a (levels_fewer.subset ha) h e he

theorem level_ref_kept {x : Net T} {r : Ref} (h : (dropLevel vl x).HasRef r) : x.HasRef r := by
  cases h with
  | generator hs hv hg hr => obtain ⟨s, hs', rfl⟩ := List.mem_map.1 hs; exact .generator hs' (List.mem_filter.1 hv).1 hg hr
  | shunt hs hv hg hr => obtain ⟨s, hs', rfl⟩ := List.mem_map.1 hs; exact .shunt hs' (List.mem_filter.1 hv).1 hg hr
  | svc hs hv hg hr => obtain ⟨s, hs', rfl⟩ := List.mem_map.1 hs; exact .svc hs' (List.mem_filter.1 hv).1 hg hr
  | ratio2 hs ht hc hr => obtain ⟨s, hs', rfl⟩ := List.mem_map.1 hs; exact .ratio2 hs' ht hc hr
  | phase2 hs ht hc hr => obtain ⟨s, hs', rfl⟩ := List.mem_map.1 hs; exact .phase2 hs' ht hc hr
  | ratio3 hs ht hl hc hr => obtain ⟨s, hs', rfl⟩ := List.mem_map.1 hs; exact .ratio3 hs' ht hl hc hr
  | phase3 hs ht hl hc hr => obtain ⟨s, hs', rfl⟩ := List.mem_map.1 hs; exact .phase3 hs' ht hl hc hr

/-! ### Theorems -/

/-- **C99** A voltage level is removed exactly when it exists, no branch ends there and no HVDC line has a station there. -/
theorem level_removed_iff {x : Net T} : (∃ y, removeLevel vl x = .ok y) ↔ (∃ s ∈ x.subs, ∃ v ∈ s.vls, v.ident.head.id = vl) ∧ Quiet vl x := by
  simp only [removeLevel_ok]
  exact ⟨fun ⟨_, h1, h2, _⟩ => ⟨h1, h2⟩, fun ⟨h1, h2⟩ => ⟨_, h1, h2, rfl⟩⟩

/-- **C99** The voltage level goes with what it holds, and nothing else does. -/
theorem level_removed_exactly {x y : Net T} (h : removeLevel vl x = .ok y) :
    WithoutLevel vl x y ∧ (netItems y).Sublist (netItems x) ∧ ∀ a ∈ netItems x, ¬ Held vl x a → a ∈ netItems y := by
  obtain ⟨_, _, rfl⟩ := removeLevel_ok.1 h
  refine ⟨⟨_, rfl, by simp, fun i s t hs ht => ?_⟩, levels_fewer, fun a => others_kept⟩
  rw [List.getElem?_map, hs] at ht
  simp only [Option.map_some, Option.some.injEq] at ht
  refine ⟨_, ht.symm, List.filter_sublist, fun a ha => ?_, fun a ha hn => List.mem_filter.2 ⟨ha, by simpa [other] using hn⟩⟩
  have := (List.mem_filter.1 ha).2
  simpa [other] using this

/-- **C99** What is left is valid and goes together. -/
theorem level_removal_keeps {x y : Net T} (ht : Tidy (netItems x)) (h : removeLevel vl x = .ok y) :
    Tidy (netItems y) ∧ (NetValid x → NetValid y) ∧ (NetInside x → NetInside y) := by
  obtain ⟨_, hq, rfl⟩ := removeLevel_ok.1 h
  refine ⟨?_, fun hv => { hv with subs := map_valid hv.subs fun _ hs => { hs with vls := filter_valid hs.vls } }, fun hi => map_valid hi fun _ hs => ⟨hs.1, hs.2⟩⟩
  have stay : ∀ a ∈ netItems x, (Held vl x a → False) → a ∈ netItems (dropLevel vl x) := fun a => others_kept
  refine tidy_fewer ht levels_fewer (fun z hz e he y hy e1 sub node e2 => stay y hy ?_) (fun z hz k hk y hy _ e2 => stay y hy ?_) (fun z hz e he b c _ y hy _ e2 => stay y hy ?_)
    (fun z hz s hm y hy e1 e2 => stay y hy ?_)
  · rintro ⟨_, _, v, _, rfl, ha⟩
    exact left_ends hq hz e he (e1.symm.trans ((held_spec ha).1 ⟨_, _, e2⟩))
  · rintro ⟨_, _, v, _, rfl, ha⟩
    obtain ⟨s, hs, w, hw, e3, _⟩ := needs_of hz hk
    exact left_level hs hw (e3.symm.trans ((held_spec ha).2.1 _ e2))
  · rintro ⟨_, _, v, _, rfl, ha⟩
    exact left_ends hq hz e he ((held_spec ha).2.1 _ e2)
  · rintro ⟨_, _, v, _, rfl, ha⟩
    obtain ⟨k, hk, rfl⟩ := stations_of (levels_fewer.subset hz) hm
    have := hq.2 y hy e2 ((held_spec ha).2.2 ⟨1, by rw [e2]; exact .station⟩) k hk
    exact e1.elim (fun e => this.1 e.symm) fun e => this.2 e.symm

/-- **C99** Every regulating terminal is still one of the network, exactly when those that stay were not in the voltage level. -/
theorem level_removal_iff {x y : Net T} (ht : TidyNet x) (h : removeLevel vl x = .ok y) : TidyNet y ↔ ∀ r, y.HasRef r → ∀ a, Held vl x a → r.id ≠ a.id := by
  obtain ⟨_, hq, e⟩ := removeLevel_ok.1 h
  have hn := ht.1.together.names
  constructor
  · rintro ⟨_, h2⟩ r hr a hh er
    obtain ⟨t, hm, e1, k, hk, _⟩ := h2 r hr
    subst e
    obtain ⟨s, hs, v, hv, rfl, ha⟩ := hh
    have hx : a ∈ netItems x := List.mem_cons_of_mem _ (List.mem_append_left _ (List.mem_flatMap.2 ⟨s, hs, List.mem_cons_of_mem _ (List.mem_append_left _ (List.mem_flatMap.2 ⟨v, hv, ha⟩))⟩))
    obtain rfl := one_of hn (levels_fewer.subset hm) hx (e1.symm.trans er)
    obtain ⟨e, he, e2⟩ := (held_spec ha).2.2 ⟨k, hk⟩
    exact left_ends hq hm e he e2
  · intro hr
    refine ⟨(level_removal_keeps ht.1 h).1, fun r hm => ?_⟩
    subst e
    obtain ⟨t, ht', e, k, hk, h1⟩ := ht.2 r (level_ref_kept hm)
    exact ⟨t, others_kept ht' fun hh => hr r hm t hh e, e, k, hk, h1⟩

/-! ### Examples -/

/-- The network without its transformers and lines. -/
def separate : List Removal := [.connectable "G", .connectable "T", .connectable "T3", .connectable "LN", .connectable "TL", .hvdcLine "H"]

/-- As long as a branch or an HVDC line is there, neither voltage level goes; a voltage level that does not exist does not either. -/
example : removeLevel "V1" builtNet = .thrown ∧ removeLevel "V2" builtNet = .thrown ∧ removeLevel "V9" builtNet = .thrown ∧
    ((inTurn builtNet separate.dropLast).bind (removeLevel "V1")) = .thrown ∧ ∃ y, ((inTurn builtNet separate).bind (removeLevel "V1")) = .ok y :=
  ⟨by decide +kernel, by decide +kernel, by decide +kernel, by decide +kernel, accepted (by decide +kernel)⟩

theorem separate_holds : ∃ x, inTurn builtNet separate = .ok x ∧ NetValid x ∧ TidyNet x ∧ NetInside x := by
  obtain ⟨x, hx⟩ := accepted (o := inTurn builtNet separate) (by decide +kernel)
  exact ⟨x, hx, history_holds _ builtNet_holds.1 builtNet_holds.2.1 builtNet_holds.2.2 (safe_of_check (by decide +kernel)) (in_turn_runs hx)⟩

example : ∃ x y, inTurn builtNet separate = .ok x ∧ removeLevel "V2" x = .ok y ∧ Quiet "V2" x ∧ WithoutLevel "V2" x y ∧ NetValid y ∧ TidyNet y ∧ NetInside y := by
  obtain ⟨x, hx, h1, h2, h3⟩ := separate_holds
  obtain ⟨y, hy⟩ := accepted (o := (inTurn builtNet separate).bind (removeLevel "V2")) (by decide +kernel)
  have none : (match (inTurn builtNet separate).bind (removeLevel "V2") with | .ok y => netRefs y == [] | _ => false) = true := by decide +kernel
  rw [hx] at hy none
  have hy' : removeLevel "V2" x = .ok y := hy
  have none' : (match removeLevel "V2" x with | .ok y => netRefs y == [] | _ => false) = true := none
  rw [hy'] at none'
  obtain ⟨_, g1, g2⟩ := level_removal_keeps h2.1 hy'
  refine ⟨x, y, hx, hy', (level_removed_iff.1 ⟨y, hy'⟩).2, (level_removed_exactly hy').1, g1 h1, (level_removal_iff h2 hy').2 fun r hr => ?_, g2 h3⟩
  have := mem_netRefs.2 hr
  rw [show netRefs y = [] by simpa using none'] at this
  cases this

/-- A generator that regulates a load of another voltage level: the voltage level of the load goes without a question. -/
def remote : Net String := { skeletonNet with subs := [⟨⟨⟨"P", "", false⟩, [], []⟩, some 0, "tso", ["a", "b"],
  [{ skeletonV1 with equip := { Build.noEquip with gens := [{ aGen (some ⟨"L", ""⟩) with ident := ident "G", term := nodeTerm 1, on := true }] } },
   { skeletonV2 with equip := { Build.noEquip with loads := [{ aLoad with ident := ident "L", term := busTerm "B" }] } }], [], []⟩] }

theorem remote_reached : runCalls skeletonNet [inV2 (.load (named "L") (atBus "B") aLoad), inV1 (.gen (named "G") (atNode 1) (some true) true (aGen (some ⟨"L", ""⟩)))] = .ok remote := by
  decide +kernel

theorem regulated_level_removed : ∃ y, removeLevel "V2" remote = .ok y ∧ ¬ TidyNet y := by
  obtain ⟨y, hy⟩ := accepted (o := removeLevel "V2" remote) (by decide +kernel)
  have hd : (match removeLevel "V2" remote with | .ok y => (netRefs y).any fun r => r.id == "L" && (netItems y).all fun a => a.id != "L" | _ => false) = true := by decide +kernel
  rw [hy] at hd
  obtain ⟨r, hm, e⟩ := List.any_eq_true.1 hd
  simp only [Bool.and_eq_true, beq_iff_eq, List.all_eq_true, bne_iff_ne] at e
  refine ⟨y, hy, fun h => ?_⟩
  obtain ⟨t, ht, e1, _⟩ := h.2 r (mem_netRefs.1 hm)
  exact e.2 t ht (e1.symm.trans e.1)

end Verif.Remove
