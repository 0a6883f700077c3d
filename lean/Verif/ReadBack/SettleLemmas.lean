import Verif.ReadBack.Settle
import Verif.ReadBack.Spec
import Verif.ReadBack.SettleSpec
import Verif.XmlNet.AcceptProps

/-! Helper lemmas for `settled`. -/

namespace Verif.ReadBack

open Verif Verif.Xml Verif.XmlNet

variable {T : Type} {l : List Item}

theorem called_some {n : String} {a : Item} (h : called l n = some a) : a ∈ l ∧ n ∈ a.names :=
  ⟨List.mem_of_find?_eq_some h, by simpa [Item.names] using List.find?_some h⟩

theorem called_of (hn : (l.flatMap Item.names).Nodup) {n : String} {a : Item} (ha : a ∈ l) (h : n ∈ a.names) : called l n = some a := by
  cases hc : called l n with
  | none => exact absurd (by simpa [Item.names] using h) (by simpa using List.find?_eq_none.1 hc a ha)
  | some b => obtain ⟨hb, hm⟩ := called_some hc; rw [same_name hn hb ha hm h]

theorem idOf_of (hn : (l.flatMap Item.names).Nodup) {n : String} {a : Item} (ha : a ∈ l) (h : n ∈ a.names) : idOf l n = a.id := by
  simp [idOf, called_of hn ha h]

theorem refOf_of (hn : (l.flatMap Item.names).Nodup) {r : Ref} {a : Item} (ha : a ∈ l) (h : r.id ∈ a.names) :
    refOf l r = ⟨a.id, if a.obj.terminals = some 1 then "" else r.side⟩ := by
  simp [refOf, called_of hn ha h]

/-! ### The objects -/

def settleEnd (l : List Item) (e : End) : End := if e.lookup then { e with vl := idOf l e.vl } else e

def settleItem (l : List Item) (a : Item) : Item := { a with ends := a.ends.map (settleEnd l), stations := a.stations.map fun s => (idOf l s.1, idOf l s.2) }

theorem settle_plain {i : Ident} {o : XmlNet.Obj} : settleItem l (plain i o) = plain i o := rfl

theorem settle_injection {v : String} {i : Ident} {o : XmlNet.Obj} {p : Adders.Place} : settleItem l (injection v i o p) = injection v i o p := rfl

theorem settle_branch {only : Option String} {i : Ident} {ss : List Side} : settleItem l (branch only i ss) = branch only i (ss.map (settleSide l)) := by
  simp [settleItem, branch, settleEnd, settleSide, Function.comp_def]

theorem settle_topo {v : String} {t : Topo} : (topoItems v t).map (settleItem l) = topoItems v t := by
  cases t <;> simp only [topoItems, List.map_append, List.map_map] <;> rfl

theorem settle_equip {v : String} {e : Equip} : equipItems v (settleEquip l e) = (equipItems v e).map (settleItem l) := by
  simp only [equipItems, settleEquip, List.map_append, List.map_map]
  rfl

theorem settle_vl {s : String} {v : VL} : vlItems s (settleVL l v) = (vlItems s v).map (settleItem l) := by
  simp only [vlItems, List.map_cons, List.map_append, settle_topo, ← settle_equip]
  rfl

theorem settle_substation {s : Substation} : substationItems (settleSubstation l s) = (substationItems s).map (settleItem l) := by
  simp only [substationItems, settleSubstation, List.map_cons, List.map_append, List.map_flatMap, List.flatMap_map, List.map_map, settle_vl]
  have h2 : tw2Item s.ident.head.id ∘ settleTw2 l = settleItem l ∘ tw2Item s.ident.head.id := by
    funext t; simp only [Function.comp_apply, tw2Item, settle_branch]; rfl
  have h3 : tw3Item s.ident.head.id ∘ settleTw3 l = settleItem l ∘ tw3Item s.ident.head.id := by
    funext t; simp only [Function.comp_apply, tw3Item, settle_branch]; rfl
  rw [← h2, ← h3]
  rfl

theorem settle_line {x : AnyLine} : lineItem (settleLine l x) = settleItem l (lineItem x) := by cases x <;> simp only [lineItem, settle_branch] <;> rfl

theorem settle_net {x : Net T} : netItems (settleNet l x) = (netItems x).map (settleItem l) := by
  simp only [netItems, settleNet, List.map_cons, List.map_append, List.map_flatMap, List.flatMap_map, List.map_map, settle_substation]
  have h2 : lineItem ∘ settleLine l = settleItem l ∘ lineItem := by funext t; exact settle_line
  rw [h2]
  rfl

theorem settled_items {x : Net T} : netItems (settled x) = (netItems x).map (settleItem (netItems x)) := settle_net

/-! ### They still go together -/

theorem settle_names : ((l.map (settleItem l)).flatMap Item.names) = l.flatMap Item.names := by rw [List.flatMap_map]; rfl

theorem suits_settle {m : List Item} {v : Item} {node : Bool} {p : Adders.Place} (h : Suits m v node p) : Suits (m.map (settleItem l)) (settleItem l v) node p := by
  cases p with
  | node n => exact h
  | bus b c => obtain ⟨h1, y, hy, h2, h3⟩ := h; exact ⟨h1, settleItem l y, List.mem_map_of_mem hy, h2, h3⟩

theorem end_vl (hn : (l.flatMap Item.names).Nodup) {e : End} {v : Item} (hv : v ∈ l) (h : e.vl ∈ v.names) : (settleEnd l e).vl ∈ v.names := by
  unfold settleEnd
  split
  · simp only [idOf_of hn hv h]; exact id_mem_names v
  · exact h

theorem settleEnd_place (e : End) : (settleEnd l e).place = e.place ∧ (settleEnd l e).only = e.only ∧ (settleEnd l e).lookup = e.lookup := by
  unfold settleEnd; split <;> exact ⟨rfl, rfl, rfl⟩

theorem end_settle (hn : (l.flatMap Item.names).Nodup) (hi : ∀ x ∈ l, x.id ≠ "") {e : End} (h : EndValid l e) : EndValid (l.map (settleItem l)) (settleEnd l e) := by
  obtain ⟨h1, v, hv, h2, sub, node, h3, h4, h5⟩ := h
  refine ⟨?_, settleItem l v, List.mem_map_of_mem hv, (end_vl hn hv h2 : _ ∈ v.names), sub, node, h3, ?_, ?_⟩
  · unfold settleEnd; split
    · simp only [idOf_of hn hv h2]; exact hi v hv
    · exact h1
  · rw [(settleEnd_place e).1]; exact suits_settle h4
  · rw [(settleEnd_place e).2.1]; exact h5

theorem station_settle (hn : (l.flatMap Item.names).Nodup) (hi : ∀ x ∈ l, x.id ≠ "") {n : String} (h : StationNamed l n) : StationNamed (l.map (settleItem l)) (idOf l n) := by
  obtain ⟨_, s, hs, h2, h3⟩ := h
  rw [idOf_of hn hs h2]
  exact ⟨hi s hs, settleItem l s, List.mem_map_of_mem hs, id_mem_names s, h3⟩

theorem consistent_settle (h : Consistent l) : Consistent (l.map (settleItem l)) where
  names := by rw [settle_names]; exact h.names
  ids := by
    intro x hx
    obtain ⟨y, hy, rfl⟩ := List.mem_map.1 hx
    exact h.ids y hy
  needs := by
    intro x hx n hn
    obtain ⟨y, hy, rfl⟩ := List.mem_map.1 hx
    obtain ⟨b, hb, h1, h2⟩ := h.needs y hy n hn
    exact ⟨settleItem l b, List.mem_map_of_mem hb, h1, h2⟩
  ends := by
    intro x hx e he
    obtain ⟨y, hy, rfl⟩ := List.mem_map.1 hx
    obtain ⟨f, hf, rfl⟩ := List.mem_map.1 he
    exact end_settle h.names h.ids (h.ends y hy f hf)
  nodes := by
    have he : (l.map (settleItem l)).flatMap Item.ends = (l.flatMap Item.ends).map (settleEnd l) := by
      rw [List.flatMap_map, List.map_flatMap]; rfl
    rw [he, List.pairwise_map]
    refine List.Pairwise.imp_of_mem ?_ h.nodes
    intro e f me mf hef v hv h1 h2 n hp
    obtain ⟨w, hw, rfl⟩ := List.mem_map.1 hv
    have back : ∀ g : End, g ∈ l.flatMap Item.ends → (settleEnd l g).vl ∈ w.names → g.vl ∈ w.names := by
      intro g mg hg
      obtain ⟨y, hy, hgy⟩ := List.mem_flatMap.1 mg
      obtain ⟨_, u, hu, hgu, _⟩ := h.ends y hy g hgy
      have := same_name h.names hu hw (end_vl h.names hu hgu) hg
      exact this ▸ hgu
    rw [(settleEnd_place f).1]
    rw [(settleEnd_place e).1] at hp
    exact hef w hw (back e me h1) (back f mf h2) n hp
  stations := by
    intro x hx s hs
    obtain ⟨y, hy, rfl⟩ := List.mem_map.1 hx
    obtain ⟨t, ht, rfl⟩ := Option.map_eq_some_iff.1 (show y.stations.map _ = some s from hs)
    obtain ⟨h1, h2⟩ := h.stations y hy t ht
    exact ⟨station_settle h.names h.ids h1, station_settle h.names h.ids h2⟩

/-! ### References -/

theorem mem_regOf {i : String} {o : Option Ref} {r : Ref} : regOf l i o = some r ↔ ∃ s, o = some s ∧ refOf l s = r ∧ r.id ≠ i := by
  cases o with
  | none => simp [regOf]
  | some s => simp only [regOf, Option.map_some, Option.filter_eq_some_iff, Option.some.injEq, bne_iff_ne]; constructor
              · rintro ⟨h1, h2⟩; exact ⟨s, rfl, h1, h2⟩
              · rintro ⟨_, rfl, h1, h2⟩; exact ⟨h1, h2⟩

theorem settled_refs {x : Net T} {r : Ref} (h : (settleNet l x).HasRef r) : ∃ s, x.HasRef s ∧ r = refOf l s := by
  cases h with
  | generator hs hv hg hr =>
    obtain ⟨s, hs', rfl⟩ := List.mem_map.1 hs
    obtain ⟨v, hv', rfl⟩ := List.mem_map.1 hv
    obtain ⟨g, hg', rfl⟩ := List.mem_map.1 hg
    obtain ⟨q, h1, h2, _⟩ := mem_regOf.1 hr
    exact ⟨q, .generator hs' hv' hg' h1, h2.symm⟩
  | shunt hs hv hg hr =>
    obtain ⟨s, hs', rfl⟩ := List.mem_map.1 hs
    obtain ⟨v, hv', rfl⟩ := List.mem_map.1 hv
    obtain ⟨g, hg', rfl⟩ := List.mem_map.1 hg
    obtain ⟨q, h1, h2, _⟩ := mem_regOf.1 hr
    exact ⟨q, .shunt hs' hv' hg' h1, h2.symm⟩
  | svc hs hv hg hr =>
    obtain ⟨s, hs', rfl⟩ := List.mem_map.1 hs
    obtain ⟨v, hv', rfl⟩ := List.mem_map.1 hv
    obtain ⟨g, hg', rfl⟩ := List.mem_map.1 hg
    obtain ⟨q, h1, h2, _⟩ := mem_regOf.1 hr
    exact ⟨q, .svc hs' hv' hg' h1, h2.symm⟩
  | ratio2 hs ht hc hr =>
    obtain ⟨s, hs', rfl⟩ := List.mem_map.1 hs
    obtain ⟨t, ht', rfl⟩ := List.mem_map.1 ht
    obtain ⟨c, hc', rfl⟩ := Option.map_eq_some_iff.1 hc
    obtain ⟨q, hq, rfl⟩ := Option.map_eq_some_iff.1 hr
    exact ⟨q, .ratio2 hs' ht' hc' hq, rfl⟩
  | phase2 hs ht hc hr =>
    obtain ⟨s, hs', rfl⟩ := List.mem_map.1 hs
    obtain ⟨t, ht', rfl⟩ := List.mem_map.1 ht
    obtain ⟨c, hc', rfl⟩ := Option.map_eq_some_iff.1 hc
    obtain ⟨q, hq, rfl⟩ := Option.map_eq_some_iff.1 hr
    exact ⟨q, .phase2 hs' ht' hc' hq, rfl⟩
  | ratio3 hs ht hl hc hr =>
    obtain ⟨s, hs', rfl⟩ := List.mem_map.1 hs
    obtain ⟨t, ht', rfl⟩ := List.mem_map.1 ht
    rcases hl with rfl | rfl | rfl <;>
      (obtain ⟨c, hc', rfl⟩ := Option.map_eq_some_iff.1 hc; obtain ⟨q, hq, rfl⟩ := Option.map_eq_some_iff.1 hr)
    · exact ⟨q, .ratio3 hs' ht' (.inl rfl) hc' hq, rfl⟩
    · exact ⟨q, .ratio3 hs' ht' (.inr (.inl rfl)) hc' hq, rfl⟩
    · exact ⟨q, .ratio3 hs' ht' (.inr (.inr rfl)) hc' hq, rfl⟩
  | phase3 hs ht hl hc hr =>
    obtain ⟨s, hs', rfl⟩ := List.mem_map.1 hs
    obtain ⟨t, ht', rfl⟩ := List.mem_map.1 ht
    rcases hl with rfl | rfl | rfl <;>
      (obtain ⟨c, hc', rfl⟩ := Option.map_eq_some_iff.1 hc; obtain ⟨q, hq, rfl⟩ := Option.map_eq_some_iff.1 hr)
    · exact ⟨q, .phase3 hs' ht' (.inl rfl) hc' hq, rfl⟩
    · exact ⟨q, .phase3 hs' ht' (.inr (.inl rfl)) hc' hq, rfl⟩
    · exact ⟨q, .phase3 hs' ht' (.inr (.inr rfl)) hc' hq, rfl⟩

theorem terminals_iff {o : XmlNet.Obj} {n : Nat} : o.Terminals n ↔ o.terminals = some n := by
  constructor
  · rintro (_ | _) <;> rfl
  · intro h; cases o <;> simp only [Obj.terminals, Option.some.injEq, reduceCtorEq] at h
    · subst h; exact .equip _
    · subst h; exact .station

theorem named_settle (hn : (l.flatMap Item.names).Nodup) {r : Ref} (h : RefNamed l r) : RefNamed (l.map (settleItem l)) (refOf l r) := by
  obtain ⟨a, ha, h1, n, h2, h3⟩ := h
  rw [refOf_of hn ha h1]
  refine ⟨settleItem l a, List.mem_map_of_mem ha, id_mem_names a, n, h2, ?_⟩
  rcases h3 with h3 | h3
  · exact .inl h3
  · by_cases hn1 : n = 1
    · exact .inl hn1
    · refine .inr ?_
      have : a.obj.terminals ≠ some 1 := by rw [terminals_iff.1 h2]; simpa using hn1
      simpa [this] using h3

/-! ### Nothing but the names -/

theorem all2_map {α β : Type} {R : α → β → Prop} {f : α → β} : ∀ {m : List α}, (∀ a ∈ m, R a (f a)) → All2 R m (m.map f)
  | [], _ => trivial
  | a :: _, h => ⟨h a List.mem_cons_self, all2_map fun b hb => h b (List.mem_cons_of_mem _ hb)⟩

theorem same_opt {α : Type} {R : α → α → Prop} {f : α → α} {o : Option α} (h : ∀ a, o = some a → R a (f a)) : SameOpt R o (o.map f) := by
  cases o with
  | none => trivial
  | some a => exact h a rfl

theorem same_idOf (hn : (l.flatMap Item.names).Nodup) (n : String) : SameName l n (idOf l n) := by
  intro a ha
  cases hc : called l n with
  | none => simp [idOf, hc]
  | some b =>
    obtain ⟨hb, hm⟩ := called_some hc
    rw [idOf_of hn hb hm]
    exact ⟨fun h => same_name hn hb ha hm h ▸ id_mem_names b, fun h => same_name hn hb ha (id_mem_names b) h ▸ hm⟩

theorem designates_refOf (hn : (l.flatMap Item.names).Nodup) (r : Ref) (t : String × Nat) : Designates l r t ↔ Designates l (refOf l r) t := by
  cases hc : called l r.id with
  | none => simp [refOf, hc]
  | some b =>
    obtain ⟨hb, hm⟩ := called_some hc
    rw [refOf_of hn hb hm]
    constructor
    · rintro ⟨a, ha, h1, h2, h3⟩
      obtain rfl := same_name hn hb ha hm h1
      refine ⟨b, hb, id_mem_names b, h2, h3.imp id ?_⟩
      rintro ⟨n, n1, ht, h4, h5⟩
      have : b.obj.terminals ≠ some 1 := by rw [terminals_iff.1 ht]; simpa using n1
      exact ⟨n, n1, ht, h4, by simpa [this] using h5⟩
    · rintro ⟨a, ha, h1, h2, h3⟩
      obtain rfl := same_name hn hb ha (id_mem_names b) h1
      refine ⟨b, hb, hm, h2, h3.imp id ?_⟩
      rintro ⟨n, n1, ht, h4, h5⟩
      have : b.obj.terminals ≠ some 1 := by rw [terminals_iff.1 ht]; simpa using n1
      exact ⟨n, n1, ht, h4, by simpa [this] using h5⟩

theorem same_ref (hn : (l.flatMap Item.names).Nodup) (o : Option Ref) : SameRef l o (o.map (refOf l)) := by
  cases o with
  | none => exact ⟨by simp, by simp⟩
  | some r => exact ⟨by simp, fun t => by simpa using designates_refOf hn r t⟩

/-- The equipment has one terminal, the only one that a reference to it can designate. -/
theorem same_reg (hn : (l.flatMap Item.names).Nodup) {a : Item} (ha : a ∈ l) (h1 : a.obj.Terminals 1) (o : Option Ref) : SameReg l a.id o (regOf l a.id o) := by
  intro t
  cases o with
  | none => simp [regOf, Regulates]
  | some r =>
    by_cases h : (refOf l r).id = a.id
    · have e : regOf l a.id (some r) = none := by simp [regOf, h]
      have hd : ∀ t, Designates l (refOf l r) t ↔ t = (a.id, 0) := by
        intro t
        constructor
        · rintro ⟨b, hb, hm, h2, h3⟩
          obtain rfl := same_name hn hb ha hm (h ▸ id_mem_names a)
          rcases h3 with ⟨_, h3⟩ | ⟨n, n1, hn', _⟩
          · exact Prod.ext h2 h3
          · exact absurd (Option.some.inj ((terminals_iff.1 hn').symm.trans (terminals_iff.1 h1))) n1
        · rintro rfl
          exact ⟨a, ha, h ▸ id_mem_names a, rfl, .inl ⟨h1, rfl⟩⟩
      rw [e]
      simp [Regulates, designates_refOf hn r, hd]
    · have e : regOf l a.id (some r) = some (refOf l r) := by simp [regOf, h]
      rw [e]
      simp [Regulates, designates_refOf hn r]

/-! ### Numbers, checks and sizes -/

theorem flatMap_same {α β : Type} {f : α → α} {g : α → List β} (h : ∀ a, g (f a) = g a) (m : List α) : (m.map f).flatMap g = m.flatMap g := by
  rw [List.flatMap_map]; congr 1; funext a; exact h a

theorem toList_same {α β : Type} {f : α → α} {g : α → List β} (h : ∀ a, g (f a) = g a) (o : Option α) : (o.map f).toList.flatMap g = o.toList.flatMap g := by
  cases o <;> simp [h]

theorem winding_numbers (r : Option Rtc) (p : Option Ptc) : windingNumbers (r.map (settleRtc l)) (p.map (settlePtc l)) = windingNumbers r p := by
  simp only [windingNumbers]
  rw [toList_same (f := settleRtc l) (g := rtcNumbers) (fun _ => rfl), toList_same (f := settlePtc l) (g := ptcNumbers) (fun _ => rfl)]

theorem tw2_numbers (t : Tw2) : tw2Numbers (settleTw2 l t) = tw2Numbers t := by simp [tw2Numbers, settleTw2, settleSide, winding_numbers]
theorem leg_numbers (t : Leg) : legNumbers (settleLeg l t) = legNumbers t := by simp [legNumbers, settleLeg, settleSide, winding_numbers]
theorem tw3_numbers (t : Tw3) : tw3Numbers (settleTw3 l t) = tw3Numbers t := by simp [tw3Numbers, settleTw3, leg_numbers]

theorem vl_numbers (v : VL) : vlNumbers (settleVL l v) = vlNumbers v := by
  simp only [vlNumbers, settleVL, equipNumbers, settleEquip]
  rw [flatMap_same (f := settleGen l) (g := genNumbers) (fun _ => rfl), flatMap_same (f := settleSh l) (g := shNumbers) (fun _ => rfl), flatMap_same (f := settleSvc l) (g := svcNumbers) (fun _ => rfl)]

theorem line_numbers (x : AnyLine) : anyLineNumbers (settleLine l x) = anyLineNumbers x := by cases x <;> rfl

theorem net_numbers (x : Net T) : netNumbers (settleNet l x) = netNumbers x := by
  simp only [netNumbers, settleNet]
  rw [flatMap_same (g := anyLineNumbers) line_numbers, flatMap_same (f := settleHvdc l) (g := hvdcNumbers) (fun _ => rfl), flatMap_same (g := substationNumbers)]
  intro s
  simp only [substationNumbers, settleSubstation]
  rw [flatMap_same (g := vlNumbers) vl_numbers, flatMap_same (g := tw2Numbers) tw2_numbers, flatMap_same (g := tw3Numbers) tw3_numbers]

theorem all_map {α : Type} {P : α → Prop} {f : α → α} {m : List α} (h : ∀ a, P a → P (f a)) (hm : ∀ a ∈ m, P a) : ∀ a ∈ m.map f, P a := by
  intro a ha
  obtain ⟨b, hb, rfl⟩ := List.mem_map.1 ha
  exact h b (hm b hb)

theorem all_opt {α : Type} {P : α → Prop} {f : α → α} {o : Option α} (h : ∀ a, P a → P (f a)) (hm : ∀ a, o = some a → P a) : ∀ a, o.map f = some a → P a := by
  intro a ha
  obtain ⟨b, hb, rfl⟩ := Option.map_eq_some_iff.1 ha
  exact h b (hm b hb)

theorem idOf_ne (hi : ∀ x ∈ l, x.id ≠ "") {n : String} (h : n ≠ "") : idOf l n ≠ "" := by
  cases hc : called l n with
  | none => simpa [idOf, hc] using h
  | some a => simpa [idOf, hc] using hi a (called_some hc).1

theorem refOf_ne (hi : ∀ x ∈ l, x.id ≠ "") {r : Ref} (h : r.id ≠ "") : (refOf l r).id ≠ "" := by
  cases hc : called l r.id with
  | none => simpa [refOf, hc] using h
  | some a => simpa [refOf, hc] using hi a (called_some hc).1

theorem rtc_valid {t : Rtc} (h : RtcValid t) : RtcValid (settleRtc l t) :=
  ⟨h.taps, fun ho => ⟨by simpa [settleRtc] using (h.regulating ho).1, (h.regulating ho).2⟩, h.steps⟩

theorem ptc_valid {t : Ptc} (h : PtcValid t) : PtcValid (settlePtc l t) :=
  ⟨h.mode, h.taps, fun ho => ⟨by simpa [settlePtc] using (h.regulating ho).1, (h.regulating ho).2⟩, h.steps⟩

theorem flags_settle (r : Option Rtc) (p : Option Ptc) : flags (r.map (settleRtc l)) (p.map (settlePtc l)) = flags r p := by cases r <;> cases p <;> rfl

theorem tw2_valid {t : Tw2} (h : Tw2Valid t) : Tw2Valid (settleTw2 l t) :=
  ⟨h.ident, h.places, h.values, h.ratedS, all_opt (fun _ => rtc_valid) h.rtc, all_opt (fun _ => ptc_valid) h.ptc, by simpa only [settleTw2, flags_settle] using h.single, h.lims⟩

theorem leg_valid {t : Leg} (h : LegValid t) : LegValid (settleLeg l t) :=
  ⟨h.place, h.values, h.ratedS, ⟨all_opt (fun _ => rtc_valid) h.sub.rtc, all_opt (fun _ => ptc_valid) h.sub.ptc, h.sub.lims⟩⟩

theorem tw3_valid {t : Tw3} (h : Tw3Valid t) : Tw3Valid (settleTw3 l t) :=
  ⟨h.ident, ⟨leg_valid h.legs.1, leg_valid h.legs.2.1, leg_valid h.legs.2.2⟩, h.ratedU0, by simpa only [settleTw3, settleLeg, flags_settle] using h.single⟩

theorem gen_valid {g : Gen} (h : GenValid g) : GenValid (settleGen l g) := ⟨h.ident, h.place, h.source, h.range, h.targetP, h.control, h.ratedS, h.limits⟩
theorem sh_valid {g : Sh} (h : ShValid g) : ShValid (settleSh l g) := ⟨h.ident, h.place, h.sections, h.values, h.target, h.deadband⟩
theorem svc_valid {g : Svc} (h : SvcValid g) : SvcValid (settleSvc l g) := ⟨h.ident, h.place, h.mode, h.bMin, h.bMax, h.voltage, h.reactive⟩

theorem vl_valid {v : VL} (h : VLValid v) : VLValid (settleVL l v) :=
  { h with equip := ⟨all_map (fun _ => gen_valid) h.equip.gens, h.equip.bats, h.equip.loads, all_map (fun _ => sh_valid) h.equip.shs, h.equip.dls,
      all_map (fun _ => svc_valid) h.equip.svcs, h.equip.vscs, h.equip.lccs⟩ }

theorem line_valid {x : AnyLine} (h : AnyLineValid x) : AnyLineValid (settleLine l x) := by
  cases x with
  | line x => exact LineValid.mk (y := { x with side1 := settleSide l x.side1, side2 := settleSide l x.side2 }) h.ident h.places h.z h.lims
  | tie x => exact TieValid.mk (y := { x with side1 := settleSide l x.side1, side2 := settleSide l x.side2 }) h.ident h.places h.ucte h.halves h.lims

theorem net_valid (hi : ∀ x ∈ l, x.id ≠ "") {x : Net T} (h : NetValid x) : NetValid (settleNet l x) :=
  { h with
    subs := all_map (fun _ h => { h with vls := all_map (fun _ => vl_valid) h.vls, tw2s := all_map (fun _ => tw2_valid) h.tw2s, tw3s := all_map (fun _ => tw3_valid) h.tw3s }) h.subs
    lines := all_map (fun _ => line_valid) h.lines
    hvdcs := all_map (fun _ h => ⟨h.ident, h.mode, h.r, h.nominalV, h.setpoint, h.maxP, idOf_ne hi h.stations.1, idOf_ne hi h.stations.2⟩) h.hvdcs }

theorem reg_fits (hi : ∀ x ∈ l, x.id ≠ "") {i : String} {o : Option Ref} (h : RefFits o) : RefFits (regOf l i o) := by
  intro r hr
  obtain ⟨s, hs, rfl, _⟩ := mem_regOf.1 hr
  exact refOf_ne hi (h s hs)

theorem ref_fits (hi : ∀ x ∈ l, x.id ≠ "") {o : Option Ref} (h : RefFits o) : RefFits (o.map (refOf l)) := by
  intro r hr
  obtain ⟨s, hs, rfl⟩ := Option.map_eq_some_iff.1 hr
  exact refOf_ne hi (h s hs)

theorem winding_fits (hi : ∀ x ∈ l, x.id ≠ "") {r : Option Rtc} {p : Option Ptc} (h : WindingFits r p) : WindingFits (r.map (settleRtc l)) (p.map (settlePtc l)) :=
  ⟨all_opt (fun _ h => ⟨h.1, ref_fits hi h.2⟩) h.rtc, all_opt (fun _ h => ⟨h.1, ref_fits hi h.2⟩) h.ptc⟩

theorem leg_fits (hi : ∀ x ∈ l, x.id ≠ "") {t : Leg} (h : LegFits t) : LegFits (settleLeg l t) := ⟨h.place, winding_fits hi h.taps, h.lims⟩

theorem vl_fits (hi : ∀ x ∈ l, x.id ≠ "") {v : VL} (h : VLFits v) : VLFits (settleVL l v) :=
  { h with equip := ⟨all_map (fun _ h => ⟨h.ident, h.place, reg_fits hi h.reg⟩) h.equip.gens, h.equip.bats, h.equip.loads,
      all_map (fun _ h => ⟨⟨h.common.ident, h.common.place, reg_fits hi h.common.reg⟩, h.count, h.maximum⟩) h.equip.shs, h.equip.dls,
      all_map (fun _ h => ⟨h.ident, h.place, reg_fits hi h.reg⟩) h.equip.svcs, h.equip.vscs, h.equip.lccs⟩ }

theorem line_fits {x : AnyLine} (h : AnyLineFits x) : AnyLineFits (settleLine l x) := by cases x <;> exact h

theorem net_fits (hi : ∀ x ∈ l, x.id ≠ "") {D : Dates T} {x : Net T} (h : NetFits D x) : NetFits D (settleNet l x) :=
  { h with
    subs := all_map (fun _ h => { h with
      vls := all_map (fun _ => vl_fits hi) h.vls
      tw2s := all_map (fun _ h => ⟨h.ident, h.places, winding_fits hi h.taps, h.lims⟩) h.tw2s
      tw3s := all_map (fun _ h => ⟨h.ident, leg_fits hi h.legs.1, leg_fits hi h.legs.2.1, leg_fits hi h.legs.2.2⟩) h.tw3s }) h.subs
    lines := all_map (fun _ => line_fits) h.lines
    hvdcs := all_map (P := fun l : HvdcLine => IdentFits l.ident) (fun _ h => h) h.hvdcs }

end Verif.ReadBack
