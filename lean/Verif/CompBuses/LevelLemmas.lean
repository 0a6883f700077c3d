import Verif.CompBuses.Lemmas

/-! What the lists of buses of a voltage level and of a network are. -/

namespace Verif.CompBuses

open Verif Verif.Graph
open Verif.NodeBreaker (Gr EqType Term Conn Passing View OnEdge compute_ok getBus_eq_some)
open Verif.BusBreaker (BGr BusAt)
open Verif.BusState (Bus Holder Owns Valid construct merge Tied reference passing_tied tied_conn)
open Verif.NetComponents (Snap Sorter Adds AnyLink Right numberLoop computeWith)

/-- The number of the bus is told by an object that has it. -/
def Self : Bus → Prop
  | .calculated valid ts ref => valid = true ∧ ∃ t, ref = some t ∧ t ∈ ts
  | .conf _ => False
  | .merged valid bs => valid = true ∧ bs ≠ []

theorem Self.valid {b : Bus} (h : Self b) : Valid b := by
  cases b with
  | calculated _ _ _ => exact h.1
  | conf _ => exact h.elim
  | merged _ _ => exact h.1

/-- The buses of the bus view of a voltage level. -/
structure ViewList (v : Level) (l : List Named) : Prop where
  nodup : (l.map Prod.fst).Nodup
  named : ∀ p ∈ l, ∃ m : Nat, p.1 = v.id ++ "_" ++ toString m
  self : ∀ p ∈ l, Self p.2
  within : ∀ p ∈ l, ∀ h, Owns p.2 h → v.Has h
  alone : ∀ p ∈ l, ∀ q ∈ l, ∀ h, Owns p.2 h → Owns q.2 h → p.1 = q.1

theorem terminal_of_node {g : Gr} {P : Option NodeBreaker.Sw → Prop} {u : Nat} {nb : NodeBreaker.Bus} (hok : NodeBreaker.BusOk g P u nb) {h : Nat} :
    h ∈ nb.terminals.map Term.handle ↔ ∃ x ∈ nb.nodes, ∃ t, g.vertexAt x = some (some t) ∧ t.handle = h := by
  rw [hok.terms, List.mem_map]
  constructor
  · rintro ⟨t, ht, e⟩
    obtain ⟨x, hx, hj⟩ := List.mem_filterMap.1 ht
    refine ⟨x, hx, t, ?_, e⟩
    cases hg : g.vertexAt x with
    | none => rw [hg] at hj; cases hj
    | some o => rw [hg] at hj; simp at hj; rw [hj]
  · rintro ⟨x, hx, t, hg, e⟩
    exact ⟨t, List.mem_filterMap.2 ⟨x, hx, by rw [hg]; rfl⟩, e⟩

theorem view_node {id : String} {g : Gr} {opened retained : Nat → Bool} (hg : Reached g) (hd : BusState.Distinct g) :
    ∃ c l, NodeBreaker.compute id .bus g opened retained = .ok c ∧ viewBuses (.node id g opened retained) = .ok l ∧
      ViewList (.node id g opened retained) l ∧ ∀ i b, (i, b) ∈ l ↔ ∃ nb, c.byId.get? i = some nb ∧ construct g opened nb = .ok b := by
  obtain ⟨c, e1, _, e3, e4, _, e6⟩ := compute_ok id hg .bus opened retained
  have hmem : ∀ i nb, (i, nb) ∈ c.byId ↔ c.byId.get? i = some nb := fun i nb => AMap.mem_iff_get? e6
  obtain ⟨l, h1, h2, h3⟩ := constructAll_ok (g := g) (opened := opened) c.byId fun p hp => by
    obtain ⟨ref, h, _⟩ := reference hg e1 ((hmem p.1 p.2).1 hp)
    exact ⟨_, h⟩
  have hl : ∀ i b, (i, b) ∈ l ↔ ∃ nb, c.byId.get? i = some nb ∧ construct g opened nb = .ok b := by
    intro i b; rw [h3]; simp only [hmem]
  refine ⟨c, l, e1, by rw [viewBuses, e1, Out.bind_ok, h1], ⟨?_, ?_, ?_, ?_, ?_⟩, hl⟩
  · rw [h2]; exact e6
  · rintro ⟨i, b⟩ hp
    obtain ⟨nb, hb, _⟩ := (hl i b).1 hp
    obtain ⟨u, ⟨_, _, m, _, _, q3⟩, _⟩ := e4 i nb hb
    exact ⟨m, q3⟩
  · rintro ⟨i, b⟩ hp
    obtain ⟨nb, hb, hc⟩ := (hl i b).1 hp
    obtain ⟨ref, r1, r2, _, _⟩ := reference hg e1 hb
    rw [hc] at r1; cases r1
    obtain ⟨u, ⟨_, hq, _⟩, hok⟩ := e4 i nb hb
    refine ⟨rfl, ?_⟩
    have hne : nb.terminals ≠ [] := by
      have hh : ∃ y p, Conn g (Passing .bus opened retained) u y ∧ NodeBreaker.Has g p y := by
        rcases hq with ⟨_, y, _, h, _, k⟩ | ⟨_, y, _, _, h, _, k⟩
        · exact ⟨y, _, h, k⟩
        · exact ⟨y, _, h, k⟩
      obtain ⟨y, _, k1, t, k2, _⟩ := hh
      intro e
      have := (terminal_of_node hok (h := t.handle)).2 ⟨y, (hok.mem y).2 k1, t, k2, rfl⟩
      rw [e] at this
      exact absurd this List.not_mem_nil
    cases ht : nb.terminals with
    | nil => exact absurd ht hne
    | cons t ts => exact ⟨t.handle, r2 t ts ht, by simp⟩
  · rintro ⟨i, b⟩ hp h ho
    obtain ⟨nb, hb, hc⟩ := (hl i b).1 hp
    obtain ⟨ref, r1, _⟩ := reference hg e1 hb
    rw [hc] at r1; cases r1
    obtain ⟨u, _, hok⟩ := e4 i nb hb
    cases h with
    | bus _ => exact ho.elim
    | terminal h =>
      obtain ⟨x, _, t, hx, e⟩ := (terminal_of_node hok).1 ho
      exact ⟨x, t, hx, e⟩
  · rintro ⟨i, b⟩ hp ⟨j, b'⟩ hq h ho ho'
    obtain ⟨nb, hb, hc⟩ := (hl i b).1 hp
    obtain ⟨ref, r1, _⟩ := reference hg e1 hb
    rw [hc] at r1; cases r1
    obtain ⟨nb', hb', hc'⟩ := (hl j b').1 hq
    obtain ⟨ref', r1', _⟩ := reference hg e1 hb'
    rw [hc'] at r1'; cases r1'
    obtain ⟨u, ou, hok⟩ := e4 i nb hb
    obtain ⟨u', ou', hok'⟩ := e4 j nb' hb'
    cases h with
    | bus _ => exact ho.elim
    | terminal h =>
      obtain ⟨x, hx, t, hgx, e⟩ := (terminal_of_node hok).1 ho
      obtain ⟨x', hx', t', hgx', e'⟩ := (terminal_of_node hok').1 ho'
      have : x = x' := hd x x' t t' hgx hgx' (e.trans e'.symm)
      subst this
      exact (ou.conn ((hok.mem x).1 hx)).unique (ou'.conn ((hok'.mem x).1 hx'))

theorem view_conf {id : String} {g : BGr} {opened : Nat → Bool} {types : Nat → List EqType} (hg : Reached g) (hf : BusBreaker.Furnished g)
    (hn : BusBreaker.NoBusbar types) (hgap : ¬ BusBreaker.Gap g) :
    ∃ c l, BusBreaker.compute id g opened types = .ok c ∧ viewBuses (.conf id g opened types) = .ok l ∧
      ViewList (.conf id g opened types) l ∧ ∀ i b, (i, b) ∈ l ↔ ∃ hs, c.byId.get? i = some hs ∧ b = .merged true hs := by
  obtain ⟨c, e1, hC⟩ := BusBreaker.merged_buses_total_partial id hg hf opened hn hgap
  have hmem : ∀ i hs, (i, hs) ∈ c.byId ↔ c.byId.get? i = some hs := fun i hs => AMap.mem_iff_get? hC.ids
  have hl : ∀ i b, (i, b) ∈ (c.byId.map fun p => (p.1, Bus.merged true p.2)) ↔ ∃ hs, c.byId.get? i = some hs ∧ b = .merged true hs := by
    intro i b
    rw [List.mem_map]
    constructor
    · rintro ⟨⟨j, hs⟩, hp, e⟩
      cases e
      exact ⟨hs, (hmem _ _).1 hp, rfl⟩
    · rintro ⟨hs, hp, rfl⟩
      exact ⟨(i, hs), (hmem _ _).2 hp, rfl⟩
  refine ⟨c, c.byId.map fun p => (p.1, .merged true p.2), e1, ?_, ⟨?_, ?_, ?_, ?_, ?_⟩, hl⟩
  · rw [viewBuses, e1, Out.bind_ok]
    exact mergeAll_ok _ fun p hp => (hC.lists p.1 p.2 ((hmem _ _).1 hp)).1
  · rw [List.map_map]; exact hC.ids
  · intro p hp
    obtain ⟨q, hq, rfl⟩ := List.mem_map.1 hp
    have := List.mem_map_of_mem (f := Prod.fst) hq
    rw [BusBreaker.merged_ids hg hf hn e1] at this
    obtain ⟨m, _, e⟩ := List.mem_map.1 this
    exact ⟨m, e.symm⟩
  · rintro ⟨i, b⟩ hp
    obtain ⟨hs, hh, rfl⟩ := (hl i b).1 hp
    exact ⟨rfl, (hC.lists i hs hh).1⟩
  · rintro ⟨i, b⟩ hp h ho
    obtain ⟨hs, hh, rfl⟩ := (hl i b).1 hp
    cases h with
    | terminal _ => exact ho.elim
    | bus h => exact hC.known h i (((hC.lists i hs hh).2.2 h).1 ho)
  · rintro ⟨i, b⟩ hp ⟨j, b'⟩ hq h ho ho'
    obtain ⟨hs, hh, rfl⟩ := (hl i b).1 hp
    obtain ⟨hs', hh', rfl⟩ := (hl j b').1 hq
    cases h with
    | terminal _ => exact ho.elim
    | bus h =>
      have h1 := ((hC.lists i hs hh).2.2 h).1 ho
      have h2 := ((hC.lists j hs' hh').2.2 h).1 ho'
      rw [h1] at h2
      exact Option.some.inj h2

theorem view_level {v : Level} (h : v.Ok) : ∃ l, viewBuses v = .ok l ∧ ViewList v l := by
  cases v with
  | node id g opened retained =>
    obtain ⟨_, l, _, h1, h2, _⟩ := view_node (id := id) (opened := opened) (retained := retained) h.1 h.2
    exact ⟨l, h1, h2⟩
  | conf id g opened types =>
    obtain ⟨_, l, _, h1, h2, _⟩ := view_conf (id := id) (opened := opened) h.1 h.2.1 h.2.2.1 h.2.2.2
    exact ⟨l, h1, h2⟩

/-! ### The bus/breaker view -/

theorem breaker_node {id : String} {g : Gr} {opened retained : Nat → Bool} (hg : Reached g) :
    ∃ c l, NodeBreaker.compute id .busBreaker g opened retained = .ok c ∧ breakerBuses (.node id g opened retained) = .ok l ∧
      (∀ i b, (i, b) ∈ l ↔ ∃ nb, c.byId.get? i = some nb ∧ construct g opened nb = .ok b) ∧
      (∀ p ∈ l, Valid p.2) ∧ ∀ x t, OnEdge g x → g.vertexAt x = some (some t) → ∃ p ∈ l, Owns p.2 (.terminal t.handle) := by
  obtain ⟨c, e1, _, e3, e4, e5, e6⟩ := compute_ok id hg .busBreaker opened retained
  have hmem : ∀ i nb, (i, nb) ∈ c.byId ↔ c.byId.get? i = some nb := fun i nb => AMap.mem_iff_get? e6
  obtain ⟨l, h1, h2, h3⟩ := constructAll_ok (g := g) (opened := opened) c.byId fun p hp => by
    obtain ⟨ref, h, _⟩ := reference hg e1 ((hmem p.1 p.2).1 hp)
    exact ⟨_, h⟩
  have hl : ∀ i b, (i, b) ∈ l ↔ ∃ nb, c.byId.get? i = some nb ∧ construct g opened nb = .ok b := by
    intro i b; rw [h3]; simp only [hmem]
  refine ⟨c, l, e1, by rw [breakerBuses, e1, Out.bind_ok, h1], hl, ?_, ?_⟩
  · rintro ⟨i, b⟩ hp
    obtain ⟨nb, hb, hc⟩ := (hl i b).1 hp
    obtain ⟨ref, r1, _⟩ := reference hg e1 hb
    rw [hc] at r1; cases r1
    rfl
  · intro x t hx ht
    obtain ⟨i, hi, _⟩ := (NodeBreaker.same_bus_iff hg e1 x x).2 ⟨hx, trivial, .refl⟩
    obtain ⟨nb, hb, hxn⟩ := NodeBreaker.bus_listed hg e1 hi
    obtain ⟨ref, r1, _⟩ := reference hg e1 hb
    obtain ⟨u, _, hok⟩ := e4 i nb hb
    exact ⟨(i, _), (hl i _).2 ⟨nb, hb, r1⟩, (terminal_of_node hok).2 ⟨x, hxn, t, ht, rfl⟩⟩

theorem mem_confs {g : BGr} {b : BusBreaker.CBus} : b ∈ g.vertices.filterMap Option.join ↔ ∃ u, BusAt g u b := by
  rw [List.mem_filterMap]
  constructor
  · rintro ⟨o, ho, e⟩
    obtain ⟨u, hu⟩ := List.mem_iff_getElem?.1 ho
    refine ⟨u, ?_⟩
    cases o with
    | none => cases e
    | some p =>
      simp only [Option.join_some] at e
      subst e
      show g.vertexAt u = _
      unfold G.vertexAt
      rw [hu]; rfl
  · rintro ⟨u, hu⟩
    have hu : g.vertexAt u = some (some b) := hu
    unfold G.vertexAt at hu
    cases h : g.vertices[u]? with
    | none => rw [h] at hu; cases hu
    | some o =>
      rw [h] at hu
      simp only [Option.join_some] at hu
      subst hu
      exact ⟨_, List.mem_iff_getElem?.2 ⟨u, h⟩, rfl⟩

theorem breaker_level {v : Level} (h : v.Ok) : ∃ l, breakerBuses v = .ok l ∧ ∀ p ∈ l, Valid p.2 := by
  cases v with
  | node id g opened retained =>
    obtain ⟨_, l, _, h1, _, h2, _⟩ := breaker_node (id := id) (opened := opened) (retained := retained) h.1
    exact ⟨l, h1, h2⟩
  | conf id g opened types =>
    refine ⟨_, rfl, fun p hp => ?_⟩
    obtain ⟨b, _, rfl⟩ := List.mem_map.1 hp
    trivial

/-! ### The views of the network -/

/-- The buses of the bus view of a network. -/
structure NetList (levels : List Level) (bs : List Named) : Prop where
  list : listAll viewBuses levels = .ok bs
  mem : ∀ p, p ∈ bs ↔ ∃ v ∈ levels, ∃ l, viewBuses v = .ok l ∧ p ∈ l
  nodup : (bs.map Prod.fst).Nodup
  self : ∀ p ∈ bs, Self p.2
  alone : bs.Pairwise fun a b => ∀ h, ¬ (Owns a.2 h ∧ Owns b.2 h)

theorem listAll_cons {f : Level → Out (List Named)} {v : Level} {vs : List Level} {bs : List Named} (h : listAll f (v :: vs) = .ok bs) :
    ∃ l r, f v = .ok l ∧ listAll f vs = .ok r ∧ bs = l ++ r := by
  obtain ⟨l, h1, h2⟩ := Out.bind_eq_ok.1 h
  obtain ⟨r, h3, h4⟩ := Out.bind_eq_ok.1 h2
  cases h4
  exact ⟨l, r, h1, h3, rfl⟩

theorem listAll_mem {f : Level → Out (List Named)} : ∀ {levels : List Level} {bs : List Named}, listAll f levels = .ok bs →
    ∀ p, p ∈ bs ↔ ∃ v ∈ levels, ∃ l, f v = .ok l ∧ p ∈ l := by
  intro levels
  induction levels with
  | nil => intro bs h; cases h; simp
  | cons v vs ih =>
    intro bs h p
    obtain ⟨l, r, h1, h2, rfl⟩ := listAll_cons h
    rw [List.mem_append, ih h2]
    simp only [List.mem_cons, exists_eq_or_imp]
    constructor
    · rintro (hb | hb)
      · exact .inl ⟨l, h1, hb⟩
      · exact .inr hb
    · rintro (⟨l', e', hb⟩ | hb)
      · rw [h1] at e'; cases e'; exact .inl hb
      · exact .inr hb

theorem net_list {levels : List Level} (h : LevelsOk levels) : ∃ bs, NetList levels bs := by
  induction levels with
  | nil => exact ⟨[], rfl, by simp, by simp, fun p hp => absurd hp List.not_mem_nil, .nil⟩
  | cons v vs ih =>
    have hi := List.nodup_cons.1 h.ids
    have ha := List.pairwise_cons.1 h.apart
    obtain ⟨r, hr⟩ := ih ⟨fun w hw => h.each w (List.mem_cons_of_mem _ hw), hi.2, ha.2⟩
    obtain ⟨l, h1, hv⟩ := view_level (h.each v List.mem_cons_self)
    have e : listAll viewBuses (v :: vs) = .ok (l ++ r) := by rw [listAll, h1, Out.bind_ok, hr.list, Out.bind_ok]
    have hlist : ∀ w ∈ vs, ∀ l', viewBuses w = .ok l' → ViewList w l' := by
      intro w hw l' e'
      obtain ⟨l'', e'', hw'⟩ := view_level (h.each w (List.mem_cons_of_mem _ hw))
      rw [e'] at e''; cases e''; exact hw'
    refine ⟨l ++ r, e, listAll_mem e, ?_, ?_, ?_⟩
    · rw [List.map_append, List.nodup_append]
      refine ⟨hv.nodup, hr.nodup, fun a ha' b hb' eab => ?_⟩
      obtain ⟨p, hp, rfl⟩ := List.mem_map.1 ha'
      obtain ⟨q, hq, rfl⟩ := List.mem_map.1 hb'
      obtain ⟨w, hw, l', e', hq'⟩ := (hr.mem q).1 hq
      obtain ⟨m, e1⟩ := hv.named p hp
      obtain ⟨m', e2⟩ := (hlist w hw l' e').named q hq'
      have := name_level (e1.symm.trans (eab.trans e2))
      exact hi.1 (this ▸ List.mem_map_of_mem hw)
    · intro p hp
      rcases List.mem_append.1 hp with hp | hp
      · exact hv.self p hp
      · exact hr.self p hp
    · rw [List.pairwise_append]
      refine ⟨?_, hr.alone, ?_⟩
      · have hnd := hv.nodup
        rw [List.Nodup, List.pairwise_map] at hnd
        refine (List.Pairwise.imp_of_mem (R := fun a b => a.1 ≠ b.1) (fun {a b} hma hmb hne h ho => ?_) hnd)
        exact hne (hv.alone a hma b hmb h ho.1 ho.2)
      · rintro p hp q hq h ⟨ho, ho'⟩
        obtain ⟨w, hw, l', e', hq'⟩ := (hr.mem q).1 hq
        exact ha.1 w hw h ⟨hv.within p hp h ho, (hlist w hw l' e').within q hq' h ho'⟩

/-- A terminal or bus of a voltage level is only in buses of this voltage level. -/
theorem own_level {levels : List Level} (h : LevelsOk levels) {v w : Level} (hv : v ∈ levels) (hw : w ∈ levels) {x : Holder}
    (h1 : v.Has x) (h2 : w.Has x) : v = w := by
  have hp := h.apart
  induction levels with
  | nil => exact absurd hv List.not_mem_nil
  | cons a l ih =>
    have hp := List.pairwise_cons.1 hp
    rcases List.mem_cons.1 hv with e1 | hv
    · rcases List.mem_cons.1 hw with e2 | hw
      · exact e1.trans e2.symm
      · exact absurd ⟨e1 ▸ h1, h2⟩ (hp.1 w hw x)
    · rcases List.mem_cons.1 hw with e2 | hw
      · exact absurd ⟨e2 ▸ h2, h1⟩ (hp.1 v hv x)
      · exact ih ⟨fun w hw => h.each w (List.mem_cons_of_mem _ hw), (List.nodup_cons.1 h.ids).2, hp.2⟩ hv hw hp.2

end Verif.CompBuses
