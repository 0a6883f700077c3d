import Verif.Remove.AllModel
import Verif.Remove.ExampleProps

/-! C99: removing all the buses, or all the switches, of a voltage level is removing them one by one. -/

namespace Verif.Remove

open Verif Verif.Xml Verif.XmlNet Verif.Setters Verif.ReadBack Verif.Build

variable {T : Type} {n vl : String}

/-! ### Lemmas -/

/-- A voltage level is the only one of its name, with what is in it. -/
theorem one_level {x : Net T} (hn : ((netItems x).flatMap Item.names).Nodup) {s u : Substation} {v w : VL} (hs : s ∈ x.subs) (hu : u ∈ x.subs) (hv : v ∈ s.vls) (hw : w ∈ u.vls)
    (h : v.ident.head.id = w.ident.head.id) : v = w := by
  have subs : (x.subs.flatMap fun s => (substationItems s).flatMap Item.names).Nodup := by
    rw [← List.flatMap_assoc]
    exact (sublist_flatMap (List.Sublist.cons _ (List.sublist_append_left _ _))).nodup hn
  have inS : ∀ {t : Substation} {a : VL}, a ∈ t.vls → vlItem t.ident.head.id a ∈ substationItems t := fun h =>
    List.mem_cons_of_mem _ (List.mem_append_left _ (List.mem_flatMap.2 ⟨_, h, List.mem_cons_self⟩))
  have e : s = u := same_of_flatMap subs hs hu (List.mem_flatMap.2 ⟨_, inS hv, id_mem_names _⟩)
    (List.mem_flatMap.2 ⟨_, inS hw, (show (vlItem s.ident.head.id v).id = (vlItem u.ident.head.id w).id from h) ▸ id_mem_names _⟩)
  subst e
  have vls : (s.vls.flatMap fun v => (vlItems s.ident.head.id v).flatMap Item.names).Nodup := by
    have : ((substationItems s).flatMap Item.names).Nodup := by
      refine List.Sublist.nodup ?_ subs
      obtain ⟨p, q, e⟩ := List.append_of_mem hs
      rw [e]
      simp only [List.flatMap_append, List.flatMap_cons]
      exact (List.sublist_append_left _ _).trans (List.sublist_append_right _ _)
    rw [← List.flatMap_assoc]
    exact (sublist_flatMap (List.Sublist.cons _ (List.sublist_append_left _ _))).nodup this
  exact same_of_flatMap vls hv hw (List.mem_flatMap.2 ⟨_, List.mem_cons_self, id_mem_names _⟩)
    (List.mem_flatMap.2 ⟨_, List.mem_cons_self, (show (vlItem s.ident.head.id v).id = (vlItem s.ident.head.id w).id from h) ▸ id_mem_names _⟩)

/-- Only the switches of bus/breaker voltage levels need buses. -/
theorem needs_of {x : Net T} {a : Item} {k : String × String} (ha : a ∈ netItems x) (h : k ∈ a.needs) :
    ∃ s ∈ x.subs, ∃ v ∈ s.vls, k.1 = v.ident.head.id ∧ ∃ buses sws, v.topo = .bus buses sws ∧ sws ≠ [] := by
  have br : ∀ {o : Option String} {i : Ident} {l : List Side}, (branch o i l).needs = [] := rfl
  simp only [netItems, List.mem_cons, List.mem_append, List.mem_flatMap, List.mem_map] at ha
  rcases ha with rfl | ⟨s, hs, ha⟩ | ⟨y, _, rfl⟩ | ⟨y, _, rfl⟩
  · cases h
  · simp only [substationItems, List.mem_cons, List.mem_append, List.mem_flatMap, List.mem_map] at ha
    rcases ha with rfl | ⟨v, hv, ha⟩ | ⟨y, _, rfl⟩ | ⟨y, _, rfl⟩
    · cases h
    · simp only [vlItems, List.mem_cons, List.mem_append] at ha
      rcases ha with rfl | ha | ha
      · cases h
      · cases ht : v.topo with
        | node bbs sws conns calcs =>
          rw [ht] at ha
          simp only [topoItems, List.mem_append, List.mem_map] at ha
          rcases ha with ⟨b, _, rfl⟩ | ⟨b, _, rfl⟩ <;> cases h
        | bus buses sws =>
          rw [ht] at ha
          simp only [topoItems, List.mem_append, List.mem_map] at ha
          rcases ha with ⟨b, _, rfl⟩ | ⟨b, hb, rfl⟩
          · cases h
          · refine ⟨s, hs, v, hv, ?_, buses, sws, ht, List.ne_nil_of_mem hb⟩
            simp only [bswItem, List.mem_cons, List.not_mem_nil, or_false] at h
            rcases h with rfl | rfl <;> rfl
      · simp only [equipItems, List.mem_append, List.mem_map] at ha
        rcases ha with ⟨b, _, rfl⟩ | ⟨b, _, rfl⟩ | ⟨b, _, rfl⟩ | ⟨b, _, rfl⟩ | ⟨b, _, rfl⟩ | ⟨b, _, rfl⟩ | ⟨b, _, rfl⟩ | ⟨b, _, rfl⟩ <;> cases h
    · cases h
    · cases h
  · cases y <;> cases h
  · cases h

/-- The network in which a voltage level has this topology. -/
def put (x : Net T) (p q : List Substation) (s : Substation) (p' q' : List VL) (v : VL) (t : Topo) : Net T :=
  { x with subs := p ++ { s with vls := p' ++ { v with topo := t } :: q' } :: q }

theorem put_items (x : Net T) (p q : List Substation) (s : Substation) (p' q' : List VL) (v : VL) : ∃ A B, ∀ buses sws,
    netItems (put x p q s p' q' v (.bus buses sws)) = A ++ (topoItems v.ident.head.id (.bus buses sws) ++ B) := by
  refine ⟨plain x.ident .other :: (p.flatMap substationItems ++ plain s.ident .other :: (p'.flatMap (vlItems s.ident.head.id) ++ [vlItem s.ident.head.id { v with topo := .bus [] [] }])),
    equipItems v.ident.head.id v.equip ++ (q'.flatMap (vlItems s.ident.head.id) ++ (s.tw2s.map (tw2Item s.ident.head.id) ++ s.tw3s.map (tw3Item s.ident.head.id)) ++
      (q.flatMap substationItems ++ (x.lines.map lineItem ++ x.hvdcs.map hvdcItem))), fun buses sws => ?_⟩
  have : vlItem s.ident.head.id { v with topo := .bus buses sws } = vlItem s.ident.head.id { v with topo := .bus [] [] } := rfl
  simp only [put, netItems, List.flatMap_append, List.flatMap_cons, substationItems, vlItems, List.append_assoc, List.cons_append, List.nil_append, this]

/-- Without an object of the topology the others are the same. -/
theorem free_without {A B : List Item} {a : Item} (hn : ((A ++ a :: B).flatMap Item.names).Nodup) : Free (A ++ B) a.id := by
  intro b hb hm
  simp only [List.flatMap_append, List.flatMap_cons, List.nodup_append, List.mem_append] at hn
  rcases List.mem_append.1 hb with hb | hb
  · exact hn.2.2 _ (List.mem_flatMap.2 ⟨b, hb, hm⟩) _ (.inl (id_mem_names a)) rfl
  · exact hn.2.1.2.2 _ (id_mem_names a) _ (List.mem_flatMap.2 ⟨b, hb, hm⟩) rfl

theorem bus_put {x : Net T} {p q : List Substation} {s : Substation} {p' q' : List VL} {v : VL} {b : Bus} {bs : List Bus}
    (hn : ((netItems (put x p q s p' q' v (.bus (b :: bs) []))).flatMap Item.names).Nodup) :
    drop b.ident.head.id (put x p q s p' q' v (.bus (b :: bs) [])) = put x p q s p' q' v (.bus bs []) := by
  obtain ⟨A, B, hi⟩ := put_items x p q s p' q' v
  have hf : Free (netItems (put x p q s p' q' v (.bus bs []))) b.ident.head.id := by
    rw [hi]
    rw [hi] at hn
    exact free_without (a := busItem v.ident.head.id b) (by simpa [topoItems] using hn)
  refine Eq.trans ?_ (drop_free hf)
  simp [put, drop, dropSub, dropVL, dropTopo, other]

theorem switch_put {x : Net T} {p q : List Substation} {s : Substation} {p' q' : List VL} {v : VL} {buses : List Bus} {w : BSw} {ws : List BSw}
    (hn : ((netItems (put x p q s p' q' v (.bus buses (w :: ws)))).flatMap Item.names).Nodup) :
    drop w.ident.head.id (put x p q s p' q' v (.bus buses (w :: ws))) = put x p q s p' q' v (.bus buses ws) := by
  obtain ⟨A, B, hi⟩ := put_items x p q s p' q' v
  have hf : Free (netItems (put x p q s p' q' v (.bus buses ws))) w.ident.head.id := by
    rw [hi]
    rw [hi] at hn
    have := free_without (A := A ++ buses.map (busItem v.ident.head.id)) (a := bswItem v.ident.head.id w) (B := ws.map (bswItem v.ident.head.id) ++ B) (by simpa [topoItems] using hn)
    simp only [topoItems, List.append_assoc] at this ⊢
    exact this
  refine Eq.trans ?_ (drop_free hf)
  simp [put, drop, dropSub, dropVL, dropTopo, other]

theorem put_mem (x : Net T) (p q : List Substation) (s : Substation) (p' q' : List VL) (v : VL) (t : Topo) :
    ∃ u ∈ (put x p q s p' q' v t).subs, { v with topo := t } ∈ u.vls := ⟨{ s with vls := p' ++ { v with topo := t } :: q' }, by simp [put], by simp⟩

theorem buses_in_turn {x : Net T} {p q : List Substation} {s : Substation} {p' q' : List VL} {v : VL} : ∀ {bs : List Bus}, Tidy (netItems (put x p q s p' q' v (.bus bs []))) →
    (∀ b ∈ bs, ∀ a ∈ netItems (put x p q s p' q' v (.bus bs [])), ∀ e ∈ a.ends, ∀ c, e.place ≠ .bus b.ident.head.id c) →
    inTurn (put x p q s p' q' v (.bus bs [])) (bs.map fun b => .bus v.ident.head.id b.ident.head.id) = .ok (put x p q s p' q' v (.bus [] [])) := by
  intro bs
  induction bs with
  | nil => intro _ _; rfl
  | cons b bs ih =>
    intro ht hf
    have hn := ht.together.names
    obtain ⟨A, B, hi⟩ := put_items x p q s p' q' v
    have hm : busItem v.ident.head.id b ∈ netItems (put x p q s p' q' v (.bus (b :: bs) [])) := by rw [hi]; simp [topoItems]
    have ok : ∃ y, (Removal.bus v.ident.head.id b.ident.head.id).run (put x p q s p' q' v (.bus (b :: bs) [])) = .ok y := by
      refine bus_removed_iff.2 ⟨⟨_, hm, rfl, rfl⟩, hf b List.mem_cons_self, fun a ha k hk e => ?_⟩
      obtain ⟨c, hc, e1, e2⟩ := ht.together.needs a ha k hk
      have hc' := one_of hn hc hm (e1.trans e)
      subst hc'
      obtain ⟨u, hu, w, hw, e3, buses, sws, e4, e5⟩ := needs_of ha hk
      obtain ⟨u', hu', hv'⟩ := put_mem x p q s p' q' v (.bus (b :: bs) [])
      have e6 : v.ident.head.id = k.1 := by simpa [busItem, plain] using e2
      have := one_level hn hu' hu hv' hw (e6.trans e3)
      rw [← this] at e4
      cases e4
      exact e5 rfl
    obtain ⟨y, hy⟩ := ok
    have ey := (removed hn (o := .bus v.ident.head.id b.ident.head.id) rfl hy).1
    rw [bus_put hn] at ey
    have ht' := removal_goes_together ht hy
    subst ey
    simp only [List.map_cons, inTurn, hy]
    refine ih ht' fun d hd a ha => hf d (List.mem_cons_of_mem _ hd) a ?_
    rw [hi] at ha ⊢
    simp only [topoItems, List.map_cons, List.mem_append, List.mem_cons] at ha ⊢
    rcases ha with ha | (ha | ha) | ha
    · exact .inl ha
    · exact .inr (.inl (.inl (.inr ha)))
    · exact .inr (.inl (.inr ha))
    · exact .inr (.inr ha)

theorem switches_in_turn {x : Net T} {p q : List Substation} {s : Substation} {p' q' : List VL} {v : VL} {buses : List Bus} : ∀ {ws : List BSw},
    Tidy (netItems (put x p q s p' q' v (.bus buses ws))) →
    inTurn (put x p q s p' q' v (.bus buses ws)) (ws.map fun w => .switch v.ident.head.id w.ident.head.id) = .ok (put x p q s p' q' v (.bus buses [])) := by
  intro ws
  induction ws with
  | nil => intro _; rfl
  | cons w ws ih =>
    intro ht
    have hn := ht.together.names
    obtain ⟨u, hu, hv⟩ := put_mem x p q s p' q' v (.bus buses (w :: ws))
    obtain ⟨y, hy⟩ := switch_removed_iff.2 (show SwitchOf (put x p q s p' q' v (.bus buses (w :: ws))) v.ident.head.id w.ident.head.id from
      ⟨u, hu, _, hv, rfl, .inr ⟨buses, w :: ws, rfl, w, List.mem_cons_self, rfl⟩⟩)
    have ey := (removed hn (o := .switch v.ident.head.id w.ident.head.id) rfl hy).1
    rw [switch_put hn] at ey
    have ht' := removal_goes_together ht hy
    subst ey
    simp only [List.map_cons, inTurn, hy]
    exact ih ht'

theorem put_self {x : Net T} {p q : List Substation} {s : Substation} {p' q' : List VL} {v : VL} {t : Topo} (h1 : x.subs = p ++ s :: q) (h2 : s.vls = p' ++ v :: q') (h3 : v.topo = t) :
    x = put x p q s p' q' v t := by
  subst h3
  simp only [put]
  rw [show ({ v with topo := v.topo } : VL) = v from rfl, ← h2, show ({ s with vls := s.vls } : Substation) = s from rfl, ← h1]

/-! ### Removals in turn -/

/-- **C99** Removals that are all accepted take away the objects that they are about, and no other. -/
theorem removed_in_turn : ∀ {os : List Removal} {ns : List String} {x y : Net T}, ((netItems x).flatMap Item.names).Nodup → os.map Removal.target = ns.map some → inTurn x os = .ok y →
    (netItems y).Sublist (netItems x) ∧ ∀ a, a ∈ netItems y ↔ a ∈ netItems x ∧ a.id ∉ ns := by
  intro os
  induction os with
  | nil =>
    intro ns x y hn hm h
    simp only [inTurn, Out.ok.injEq] at h
    subst h
    have : ns = [] := by simpa using hm.symm
    subst this
    simp
  | cons o os ih =>
    intro ns x y hn hm h
    cases ns with
    | nil => simp at hm
    | cons n ns =>
      simp only [List.map_cons, List.cons.injEq] at hm
      obtain ⟨z, hz, h⟩ := Out.bind_eq_ok.1 h
      obtain ⟨h1, h2, _⟩ := nobody_left hn hm.1 hz
      obtain ⟨h3, h4⟩ := ih ((sublist_flatMap h1).nodup hn) hm.2 h
      refine ⟨h3.trans h1, fun a => ?_⟩
      rw [h4, h2, List.mem_cons, not_or, and_assoc]

theorem in_turn_runs : ∀ {os : List Removal} {x y : Net T}, inTurn x os = .ok y → runSteps x (os.map .remove) = .ok y := by
  intro os
  induction os with
  | nil => intro x y h; exact h
  | cons o os ih =>
    intro x y h
    obtain ⟨z, hz, h⟩ := Out.bind_eq_ok.1 h
    simp only [List.map_cons, runSteps, Step.run, hz]
    exact ih h

/-- **C99** All buses are removed exactly when there is no switch in the bus/breaker voltage level, nor a terminal on any of its buses. -/
theorem all_buses_removed_iff {x y : Net T} (hn : ((netItems x).flatMap Item.names).Nodup) : removeAllBuses vl x = .ok y ↔
    OneLevel vl (fun t u => ∃ buses, t = .bus buses [] ∧ u = .bus [] [] ∧ ∀ b ∈ buses, ∀ a ∈ netItems x, ∀ e ∈ a.ends, ∀ c, e.place ≠ .bus b.ident.head.id c) x y := by
  refine (level_change_iff hn).trans ?_
  have : ∀ t u, clearBuses (netItems x) t = .ok u ↔ ∃ buses, t = .bus buses [] ∧ u = .bus [] [] ∧ ∀ b ∈ buses, ∀ a ∈ netItems x, ∀ e ∈ a.ends, ∀ c, e.place ≠ .bus b.ident.head.id c := by
    intro t u
    cases t with
    | node => simp [clearBuses]
    | bus bs ws =>
      simp only [clearBuses, grd_ok, Bool.or_eq_false_iff, Bool.not_eq_false', List.isEmpty_iff, List.any_eq_false, List.any_eq_true, not_exists, not_and, onBus_iff]
      constructor
      · rintro ⟨⟨rfl, h⟩, rfl⟩
        exact ⟨bs, rfl, rfl, fun b hb a ha e he c => h b hb a ha e he c⟩
      · rintro ⟨_, ⟨⟩, rfl, h⟩
        exact ⟨⟨rfl, fun b hb a ha e he c => h b hb a ha e he c⟩, rfl⟩
  simp only [this]

/-- **C99** To remove all the buses is to remove each of them in turn, and each is accepted. -/
theorem all_buses_one_by_one {x y : Net T} (ht : Tidy (netItems x)) (h : removeAllBuses vl x = .ok y) :
    ∃ s ∈ x.subs, ∃ v ∈ s.vls, v.ident.head.id = vl ∧ ∃ buses, v.topo = .bus buses [] ∧ inTurn x (buses.map fun b => .bus vl b.ident.head.id) = .ok y := by
  obtain ⟨p, s, q, p', v, q', t, h1, h2, rfl, ⟨buses, h3, rfl, h4⟩, rfl⟩ := (all_buses_removed_iff ht.together.names).1 h
  have e := put_self h1 h2 h3
  refine ⟨s, by rw [h1]; simp, v, by rw [h2]; simp, rfl, buses, h3, ?_⟩
  have := buses_in_turn (x := x) (p := p) (q := q) (s := s) (p' := p') (q' := q') (v := v) (bs := buses) (e ▸ ht) (e ▸ h4)
  rw [← e] at this
  exact this

/-- **C99** To remove all the switches is to remove each of them in turn, and each is accepted. -/
theorem all_switches_one_by_one {x y : Net T} (ht : Tidy (netItems x)) (h : (Removal.allSwitches vl).run x = .ok y) :
    ∃ s ∈ x.subs, ∃ v ∈ s.vls, v.ident.head.id = vl ∧ ∃ buses sws, v.topo = .bus buses sws ∧ inTurn x (sws.map fun w => .switch vl w.ident.head.id) = .ok y := by
  obtain ⟨p, s, q, p', v, q', t, h1, h2, rfl, ⟨buses, sws, h3, rfl⟩, rfl⟩ := (all_switches_removed_iff ht.together.names).1 h
  have e := put_self h1 h2 h3
  refine ⟨s, by rw [h1]; simp, v, by rw [h2]; simp, rfl, buses, sws, h3, ?_⟩
  have := switches_in_turn (x := x) (p := p) (q := q) (s := s) (p' := p') (q' := q') (v := v) (buses := buses) (ws := sws) (e ▸ ht)
  rw [← e] at this
  exact this

/-- **C99** The network without the buses is valid and goes together. -/
theorem all_buses_keep {x y : Net T} (hv : NetValid x) (ht : TidyNet x) (hi : NetInside x) (h : removeAllBuses vl x = .ok y) : NetValid y ∧ TidyNet y ∧ NetInside y := by
  obtain ⟨_, _, v, _, _, buses, _, hr⟩ := all_buses_one_by_one ht.1 h
  refine history_holds _ hv ht hi ?_ (in_turn_runs hr)
  have safe : ∀ (bs : List Bus) (z : Net T), SafeSteps z ((bs.map fun b => Removal.bus vl b.ident.head.id).map .remove) := by
    intro bs
    induction bs with
    | nil => intro z; trivial
    | cons b bs ih => intro z; exact ⟨trivial, fun w _ => ih w, fun _ => ih z⟩
  exact safe buses x

/-! ### Internal connections -/

theorem split_at {α : Type} {xs : List α} {i : Nat} {a b : α} (h : xs[i]? = some a) : ∃ p q, xs = p ++ a :: q ∧ xs.set i b = p ++ b :: q := by
  induction xs generalizing i with
  | nil => simp at h
  | cons c xs ih =>
    cases i with
    | zero => simp only [List.getElem?_cons_zero, Option.some.injEq] at h; subst h; exact ⟨[], xs, rfl, rfl⟩
    | succ i =>
      rw [List.getElem?_cons_succ] at h
      obtain ⟨p, q, e1, e2⟩ := ih h
      exact ⟨c :: p, q, by rw [e1]; rfl, by rw [List.set_cons_succ, e2]; rfl⟩

theorem put_inj {x : Net T} {p q : List Substation} {s : Substation} {p' q' : List VL} {v : VL} {t u : Topo} (h : put x p q s p' q' v t = put x p q s p' q' v u) : t = u := by
  have h1 := congrArg Net.subs h
  have h2 := congrArg Substation.vls (List.cons.inj (List.append_cancel_left h1)).1
  exact congrArg VL.topo (List.cons.inj (List.append_cancel_left h2)).1

/-- **C99** Removing the connections between the nodes of a new one gives back the network as it was, exactly when the nodes were not connected before. -/
theorem connection_undone_iff {x y : Net T} {i j a b : Nat} (ht : TidyNet x) (h : (NetAdd.sub i (.vl j (.connection (some a) (some b)))).add x = .ok y) :
    ∃ s v bbs sws conns calcs, x.subs[i]? = some s ∧ s.vls[j]? = some v ∧ v.topo = .node bbs sws conns calcs ∧
      ((Removal.connections v.ident.head.id a b).run y = .ok x ↔ ∀ c ∈ conns, ¬ Links a b c) := by
  have hn := (addition_goes_together ht (by exact trivial) h).1.together.names
  obtain ⟨ss, h1, rfl⟩ := map_ok_iff.1 h
  obtain ⟨s, s', hs, h2, rfl⟩ := setAt_ok h1
  obtain ⟨vs, h3, rfl⟩ := map_ok_iff.1 h2
  obtain ⟨v, w, hv, h4, rfl⟩ := setAt_ok h3
  obtain ⟨_, _, bbs, sws, conns, calcs, ⟨⟩, ⟨⟩, h5, rfl⟩ := connection_added_iff.1 h4
  refine ⟨s, v, bbs, sws, conns, calcs, hs, hv, h5, ?_⟩
  obtain ⟨p', q', e1, e2⟩ := split_at (b := { v with topo := .node bbs sws (conns ++ [(a, b)]) calcs }) hv
  obtain ⟨p, q, e3, e4⟩ := split_at (b := { s with vls := s.vls.set j { v with topo := .node bbs sws (conns ++ [(a, b)]) calcs } }) hs
  have ex := put_self e3 e1 h5
  have ey : { x with subs := x.subs.set i { s with vls := s.vls.set j { v with topo := .node bbs sws (conns ++ [(a, b)]) calcs } } } =
      put x p q s p' q' v (.node bbs sws (conns ++ [(a, b)]) calcs) := by rw [e4, e2]; rfl
  rw [ey] at hn ⊢
  have ok : (Removal.connections v.ident.head.id a b).run (put x p q s p' q' v (.node bbs sws (conns ++ [(a, b)]) calcs)) =
      .ok (put x p q s p' q' v (.node bbs sws (conns.filter fun c => !between a b c) calcs)) := by
    refine (level_change_iff hn).2 ⟨p, _, q, p', _, q', .node bbs sws (conns.filter fun c => !between a b c) calcs, rfl, rfl, rfl, ?_, rfl⟩
    refine grd_ok.2 ⟨?_, ?_⟩
    · simp [between]
    · simp [List.filter_append, between]
  have key : put x p q s p' q' v (.node bbs sws (conns.filter fun c => !between a b c) calcs) = x ↔ (conns.filter fun c => !between a b c) = conns := by
    constructor
    · intro e
      have := put_inj (e.trans ex)
      exact (Topo.node.inj this).2.2.1
    · intro e
      rw [e]; exact ex.symm
  rw [ok, Out.ok.injEq, key, List.filter_eq_self]
  refine forall_congr' fun c => forall_congr' fun _ => ?_
  rw [Bool.not_eq_true', ← Bool.not_eq_true, between_iff]

/-! ### Examples -/

/-- The switch and a bus of the network go, and then all the buses. -/
theorem unswitched_reached : runSteps skeletonNet ([Removal.switch "V2" "BS", .bus "V2" "B#0"].map .remove) = .ok unswitched := by decide +kernel

theorem unswitched_holds : NetValid unswitched ∧ TidyNet unswitched ∧ NetInside unswitched := by
  obtain ⟨h1, h2, h3⟩ := new_network_valid emptyNet_new
  obtain ⟨h1, h2, h3⟩ := history_holds _ h1 h2 h3 (safe_calls (skeleton_safe _)) (run_calls.trans skeleton_run)
  exact history_holds _ h1 h2 h3 (safe_of_check (by decide +kernel)) unswitched_reached

example : ∃ y, removeAllBuses "V2" unswitched = .ok y ∧ inTurn unswitched [.bus "V2" "B"] = .ok y ∧ (∀ a, a ∈ netItems y ↔ a ∈ netItems unswitched ∧ a.id ∉ ["B"]) ∧
    NetValid y ∧ TidyNet y ∧ NetInside y := by
  obtain ⟨h1, h2, h3⟩ := unswitched_holds
  obtain ⟨y, hy⟩ := accepted (o := removeAllBuses "V2" unswitched) (by decide +kernel)
  obtain ⟨s, hs, v, hv, e, buses, ht, hr⟩ := all_buses_one_by_one h2.1 hy
  have hb : ∀ s ∈ unswitched.subs, ∀ v ∈ s.vls, v.ident.head.id = "V2" → v.topo = .bus [⟨(named "B").ident "B", .nan, .nan⟩] [] := by decide +kernel
  have := (hb s hs v hv e).symm.trans ht
  cases this
  exact ⟨y, hy, hr, (removed_in_turn h2.1.together.names (ns := ["B"]) rfl hr).2, all_buses_keep h1 h2 h3 hy⟩

/-- Nodes that were not connected, and nodes that were. -/
example : (∃ y, (NetAdd.sub 0 (.vl 0 (.connection (some 9) (some 8)))).add builtNet = .ok y ∧ (Removal.connections "V1" 9 8).run y = .ok builtNet) ∧
    ∃ y, (NetAdd.sub 0 (.vl 0 (.connection (some 2) (some 1)))).add builtNet = .ok y ∧ (Removal.connections "V1" 2 1).run y ≠ .ok builtNet := by
  have old : ∀ s v bbs sws conns calcs, builtNet.subs[0]? = some s → s.vls[0]? = some v → v.topo = .node bbs sws conns calcs → v.ident.head.id = "V1" ∧ conns = [(1, 2)] := by
    intro s v bbs sws conns calcs h1 h2 h3; cases h1; cases h2; cases h3; exact ⟨rfl, rfl⟩
  obtain ⟨y, hy⟩ := accepted (o := (NetAdd.sub 0 (.vl 0 (.connection (some 9) (some 8)))).add builtNet) (by decide +kernel)
  obtain ⟨z, hz⟩ := accepted (o := (NetAdd.sub 0 (.vl 0 (.connection (some 2) (some 1)))).add builtNet) (by decide +kernel)
  obtain ⟨s, v, bbs, sws, conns, calcs, h1, h2, h3, h4⟩ := connection_undone_iff builtNet_holds.2.1 hy
  obtain ⟨s', v', bbs', sws', conns', calcs', g1, g2, g3, g4⟩ := connection_undone_iff builtNet_holds.2.1 hz
  obtain ⟨e1, e2⟩ := old _ _ _ _ _ _ h1 h2 h3
  obtain ⟨e3, e4⟩ := old _ _ _ _ _ _ g1 g2 g3
  rw [e1, e2] at h4
  rw [e3, e4] at g4
  refine ⟨⟨y, hy, h4.2 ?_⟩, z, hz, fun h => g4.1 h _ List.mem_cons_self (.inr rfl)⟩
  simp [Links]

/-- Both buses of the skeleton go when its switch is gone. -/
example : ∃ x y, (Removal.allSwitches "V2").run skeletonNet = .ok x ∧ removeAllBuses "V2" x = .ok y ∧ removeAllBuses "V2" skeletonNet = .thrown ∧ removeAllBuses "V1" skeletonNet = .thrown ∧
    removeAllBuses "V2" builtNet = .thrown := by
  obtain ⟨x, hx⟩ := accepted (o := (Removal.allSwitches "V2").run skeletonNet) (by decide +kernel)
  obtain ⟨y, hy⟩ := accepted (o := ((Removal.allSwitches "V2").run skeletonNet).bind (removeAllBuses "V2")) (by decide +kernel)
  rw [hx] at hy
  exact ⟨x, y, hx, hy, by decide +kernel, by decide +kernel, by decide +kernel⟩

example : ∃ y, (Removal.allSwitches "V2").run builtNet = .ok y ∧ ∃ s ∈ builtNet.subs, ∃ v ∈ s.vls, v.ident.head.id = "V2" ∧ ∃ buses sws, v.topo = .bus buses sws ∧
    inTurn builtNet (sws.map fun w => .switch "V2" w.ident.head.id) = .ok y := by
  obtain ⟨y, hy⟩ := accepted (o := (Removal.allSwitches "V2").run builtNet) (by decide +kernel)
  exact ⟨y, hy, all_switches_one_by_one builtNet_holds.2.1.1 hy⟩

end Verif.Remove
