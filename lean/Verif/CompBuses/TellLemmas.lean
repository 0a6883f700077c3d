import Verif.CompBuses.Ready

/-! Lemmas of C90: what a bus tells once the numbers are stored. -/

namespace Verif.CompBuses

open Verif Verif.Graph
open Verif.NodeBreaker (Gr EqType Conn Passing getBus_eq_some compute_ok)
open Verif.BusBreaker (BGr BusAt)
open Verif.BusState (Bus Holder Owns Valid construct reference Tied passing_tied tied_conn)
open Verif.NetComponents (Snap Sorter AnyLink AcLink Right fillAll fillAc)

theorem fills_connected : Fills fillAll AnyLink := ⟨fun _ hw => NetComponents.adds_fillAll hw, fun _ _ _ h => h⟩

theorem fills_synchronous : Fills fillAc AcLink := ⟨fun _ hw => NetComponents.adds_fillAc hw, fun _ _ _ h => .ac h⟩

/-! ### One state -/

section ready
variable {R : Snap → String → String → Prop} {st : St} {bs bbs : List Named} {num : List Nat} (hr : Ready R st bs bbs num)
include hr

/-- The components of the buses of the bus view. -/
abbrev compOf (st : St) (bs : List Named) (num : List Nat) : String → Option (Nat × Nat) :=
  NetComponents.componentOf ⟨(bs.map Prod.fst).zip num, st.sizes⟩

theorem comp_at {p : Named} (hp : p ∈ bs) : ∃ (j k z : Nat), bs[j]? = some p ∧ num[j]? = some k ∧ st.sizes[k]? = some z ∧ compOf st bs num p.1 = some (k, z) := by
  obtain ⟨j, hj⟩ := List.mem_iff_getElem?.1 hp
  have hl : j < num.length := by rw [hr.length]; exact (List.getElem?_eq_some_iff.1 hj).1
  have hk : num[j]? = some num[j] := List.getElem?_eq_getElem hl
  have hz := hr.range _ (List.getElem_mem hl)
  have hz' : st.sizes[num[j]]? = some st.sizes[num[j]] := List.getElem?_eq_getElem hz
  refine ⟨j, _, _, hj, hk, hz', ?_⟩
  have := NetComponents.zip_get? (xs := bs.map Prod.fst) (ns := num) hr.list.nodup (by simp [hr.length]) (i := j) (x := p.1) (by rw [List.getElem?_map, hj]; rfl)
  simp only [compOf, NetComponents.componentOf, this, hk, hz']

theorem owned {p : Named} (hp : p ∈ bs) {h : Holder} (ho : Owns p.2 h) :
    ∃ k z, st.marks.at h = some k ∧ st.sizes[k]? = some z ∧ compOf st bs num p.1 = some (k, z) := by
  obtain ⟨j, k, z, h1, h2, h3, h4⟩ := comp_at hr hp
  exact ⟨k, z, hr.stored j k p h2 h1 h ho, h3, h4⟩

theorem component_owned {p : Named} (hp : p ∈ bs) {h : Holder} (ho : Owns p.2 h) :
    st.component (st.marks.at h) = .ok ((compOf st bs num p.1).map fun q => ⟨st.era, q.1, q.2⟩) := by
  obtain ⟨k, z, h1, h2, h3⟩ := owned hr hp ho
  rw [h1, h3]
  simp [St.component, h2]

theorem component_cleared {b : Named} (hb : b ∈ bbs) {h : Holder} (ho : Owns b.2 h) (hn : ∀ p ∈ bs, ¬ Owns p.2 h) :
    st.component (st.marks.at h) = .ok none := by
  rw [hr.cleared b hb h ho hn]; rfl

end ready

/-- What is read once the components are computed. -/
def Answers (st' : St) (b : Bus) (r : Option (Nat × Nat)) : Prop :=
  match b with
  | .calculated valid _ ref => valid = true ∧
    match ref with
    | some t => st'.component (st'.marks.term t) = .ok (r.map fun p => ⟨st'.era, p.1, p.2⟩)
    | none => r = none
  | .conf c => st'.component (st'.marks.bus c) = .ok (r.map fun p => ⟨st'.era, p.1, p.2⟩)
  | .merged valid hs => valid = true ∧ ∃ c cs k z, hs = c :: cs ∧ r = some (k, z) ∧ st'.component (st'.marks.bus c) = .ok (some ⟨st'.era, k, z⟩)

theorem Answers.component {fill : Filler} {srt : Sorter} {st st' : St} (e : update fill srt st = .ok st') {b : Bus} {r : Option (Nat × Nat)} (h : Answers st' b r) :
    componentOf fill srt st b = .ok (r.map fun p => ⟨st'.era, p.1, p.2⟩, st') := by
  cases b with
  | calculated valid ts ref =>
    obtain ⟨rfl, h⟩ := h
    cases ref with
    | none =>
      have h : r = none := h
      subst h
      simp only [componentOf, if_true, e, Out.bind_ok]
      rfl
    | some t =>
      have h : st'.component (st'.marks.term t) = .ok (r.map fun p => ⟨st'.era, p.1, p.2⟩) := h
      simp only [componentOf, if_true, e, Out.bind_ok, h]
      rfl
  | conf c =>
    have h : st'.component (st'.marks.bus c) = .ok (r.map fun p => ⟨st'.era, p.1, p.2⟩) := h
    simp only [componentOf, e, Out.bind_ok, h]
    rfl
  | merged valid hs =>
    obtain ⟨rfl, c, cs, k, z, rfl, rfl, h⟩ := h
    simp only [componentOf, if_true, e, Out.bind_ok, firstComponent, h]
    rfl

theorem isMain_iff (era : Nat) (r : Option (Nat × Nat)) : isMain (r.map fun p => ⟨era, p.1, p.2⟩) = true ↔ ∃ z, r = some (0, z) := by
  cases r with
  | none => exact ⟨fun h => (by cases h), fun ⟨_, h⟩ => (by cases h)⟩
  | some p =>
    obtain ⟨k, z⟩ := p
    by_cases h : k = 0 <;> simp [isMain, h]

theorem Answers.main {fill : Filler} {srt : Sorter} {st st' : St} (e : update fill srt st = .ok st') {b : Bus} {r : Option (Nat × Nat)} (h : Answers st' b r) :
    SaysMain fill srt st b r := by
  refine ⟨isMain (r.map fun p => ⟨st'.era, p.1, p.2⟩), st', ?_, isMain_iff _ r⟩
  cases b with
  | calculated valid ts ref => rw [inMain, h.component e]; rfl
  | conf c => rw [inMain, h.component e]; rfl
  | merged valid hs =>
    obtain ⟨rfl, c, cs, k, z, rfl, rfl, h⟩ := h
    have : Answers st' (.conf c) (some (k, z)) := h
    rw [inMain, this.component e]; rfl

theorem tied_edge {g : Gr} {opened : Nat → Bool} {u w : Nat} (h : Tied g opened u w) (he : NodeBreaker.OnEdge g u) : NodeBreaker.OnEdge g w :=
  Conn.onEdge h he

theorem ready_told {R : Snap → String → String → Prop} {st : St} {bs bbs : List Named} {num : List Nat} (hr : Ready R st bs bbs num) (hl : LevelsOk st.levels) :
    Told st.levels (compOf st bs num) (Answers st) := by
  have hmem := listAll_mem hr.breaker
  refine ⟨?_, ?_, ?_⟩
  · intro v hv l e i b hm
    have hp : (i, b) ∈ bs := (hr.list.mem _).2 ⟨v, hv, l, e, hm⟩
    have hs := hr.list.self _ hp
    cases b with
    | calculated valid ts ref =>
      obtain ⟨h1, t, rfl, ht⟩ := hs
      exact ⟨h1, component_owned hr hp (h := .terminal t) ht⟩
    | conf c => exact hs.elim
    | merged valid hs' =>
      obtain ⟨h1, h2⟩ := hs
      cases hs' with
      | nil => exact absurd rfl h2
      | cons c cs =>
        have h3 := component_owned hr hp (h := .bus c) (show c ∈ c :: cs from List.mem_cons_self)
        obtain ⟨_, k, z, _, _, _, h4⟩ := comp_at hr hp
        refine ⟨h1, c, cs, k, z, rfl, h4, ?_⟩
        rw [h4] at h3
        exact h3
  · intro id g opened retained hv c c' hc hc' j nb b hb hcb u hu
    obtain ⟨hg, hd⟩ := hl.each _ hv
    obtain ⟨c0, l, e0, hvl, hview, hl0⟩ := view_node (id := id) (opened := opened) (retained := retained) hg hd
    rw [hc] at e0; cases e0
    obtain ⟨c1, l1, e1, hbl, hl1, _, hreset⟩ := breaker_node (id := id) (opened := opened) (retained := retained) hg
    rw [hc'] at e1; cases e1
    obtain ⟨_, f1, _, _, f4, _, _⟩ := compute_ok id hg .bus opened retained
    rw [hc] at f1; cases f1
    obtain ⟨_, f1', _, _, f4', _, _⟩ := compute_ok id hg .busBreaker opened retained
    rw [hc'] at f1'; cases f1'
    obtain ⟨u0, ou0, hok'⟩ := f4' j nb hb
    obtain ⟨ref, r1, _, r3, r4⟩ := reference hg hc' hb
    rw [hcb] at r1; cases r1
    have hedge : NodeBreaker.OnEdge g u := (ou0.conn ((hok'.mem u).1 hu)).1
    constructor
    · intro i hi
      obtain ⟨nb', hb', hun⟩ := NodeBreaker.bus_listed hg hc hi
      obtain ⟨ref', q1, _⟩ := reference hg hc hb'
      obtain ⟨u1, ⟨_, hq, _⟩, hok⟩ := f4 i nb' hb'
      have hp : (i, Bus.calculated true (nb'.terminals.map NodeBreaker.Term.handle) ref') ∈ bs :=
        (hr.list.mem _).2 ⟨_, hv, l, hvl, (hl0 _ _).2 ⟨nb', hb', q1⟩⟩
      cases ref with
      | none =>
        exfalso
        have hh : ∃ y p, Conn g (Passing .bus opened retained) u1 y ∧ NodeBreaker.Has g p y := by
          rcases hq with ⟨_, y, _, h, _, k⟩ | ⟨_, y, _, _, h, _, k⟩
          · exact ⟨y, _, h, k⟩
          · exact ⟨y, _, h, k⟩
        obtain ⟨y, _, k1, t, k2, _⟩ := hh
        exact r4.mp rfl u hu y (passing_tied (((hok.mem u).mp hun).symm.trans k1)) t k2
      | some h =>
        obtain ⟨w, hw, y, t, k1, k2, k3⟩ := r3 h rfl
        have huw : Tied g opened u w := passing_tied (((hok'.mem u).1 hu).symm.trans ((hok'.mem w).1 hw))
        have hy : y ∈ nb'.nodes := (hok.mem y).2 (((hok.mem u).1 hun).trans (tied_conn (huw.trans k1)))
        exact ⟨rfl, component_owned hr hp (h := .terminal h) ((terminal_of_node hok).2 ⟨y, hy, t, k2, k3⟩)⟩
    · intro hi
      cases ref with
      | none => exact ⟨rfl, rfl⟩
      | some h =>
        obtain ⟨w, hw, y, t, k1, k2, k3⟩ := r3 h rfl
        have huw : Tied g opened u w := passing_tied (((hok'.mem u).1 hu).symm.trans ((hok'.mem w).1 hw))
        have huy := huw.trans k1
        have hye : NodeBreaker.OnEdge g y := tied_edge huy hedge
        obtain ⟨p, hpl, hpo⟩ := hreset y t hye k2
        have hpb : p ∈ bbs := (hmem p).2 ⟨_, hv, l1, hbl, hpl⟩
        refine ⟨rfl, component_cleared hr hpb (h := .terminal h) (k3 ▸ hpo) fun q hq hqo => ?_⟩
        obtain ⟨v', hv', l', hl', hq'⟩ := (hr.list.mem q).1 hq
        obtain ⟨l2, e2, hview'⟩ := view_level (hl.each v' hv')
        rw [hl'] at e2; cases e2
        have hhas : Level.Has (.node id g opened retained) (.terminal h) := ⟨y, t, k2, k3⟩
        have := own_level hl hv hv' hhas (hview'.within q hq' _ hqo)
        subst this
        rw [hvl] at hl'; cases hl'
        obtain ⟨nb', hb', hcq⟩ := (hl0 q.1 q.2).1 hq'
        obtain ⟨ref', q1, _⟩ := reference hg hc hb'
        rw [hcq] at q1
        have q1 := Out.ok.inj q1
        rw [q1] at hqo
        obtain ⟨u1, ou1, hok⟩ := f4 q.1 nb' hb'
        obtain ⟨x, hx, t', k2', k3'⟩ := (terminal_of_node hok).1 hqo
        have := hd y x t t' k2 k2' (k3.trans k3'.symm)
        subst this
        have hun : u ∈ nb'.nodes := (hok.mem u).2 (((hok.mem y).1 hx).trans (tied_conn huy).symm)
        have := ((NodeBreaker.bus_content hg hc hb').2.2.1 u).1 hun
        rw [hi] at this
        cases this
  · intro id g opened types hv c hc u b hu
    obtain ⟨hg, hf, hn, hgap⟩ := hl.each _ hv
    obtain ⟨c0, l, e0, hvl, hview, hl0⟩ := view_conf (id := id) (opened := opened) hg hf hn hgap
    rw [hc] at e0; cases e0
    have hC := BusBreaker.merged_buses_correct hg hf hn hc
    constructor
    · intro i hi
      obtain ⟨hs, hh⟩ := hC.listed _ _ hi
      have hp : (i, Bus.merged true hs) ∈ bs := (hr.list.mem _).2 ⟨_, hv, l, hvl, (hl0 _ _).2 ⟨hs, hh, rfl⟩⟩
      exact component_owned hr hp (h := .bus b.handle) (((hC.lists i hs hh).2.2 _).2 hi)
    · intro hi
      have hpb : (b.id, Bus.conf b.handle) ∈ bbs := (hmem _).2 ⟨_, hv, _, rfl, List.mem_map.2 ⟨b, mem_confs.2 ⟨u, hu⟩, rfl⟩⟩
      refine component_cleared hr hpb (h := .bus b.handle) rfl fun q hq hqo => ?_
      obtain ⟨v', hv', l', hl', hq'⟩ := (hr.list.mem q).1 hq
      obtain ⟨l2, e2, hview'⟩ := view_level (hl.each v' hv')
      rw [hl'] at e2; cases e2
      have hhas : Level.Has (.conf id g opened types) (.bus b.handle) := ⟨u, b, hu, rfl⟩
      have := own_level hl hv hv' hhas (hview'.within q hq' _ hqo)
      subst this
      rw [hvl] at hl'; cases hl'
      obtain ⟨hs, hh, e⟩ := (hl0 q.1 q.2).1 hq'
      rw [e] at hqo
      have := ((hC.lists q.1 hs hh).2.2 _).1 hqo
      rw [hi] at this
      cases this

theorem Told.imp {levels : List Level} {comp : String → Option (Nat × Nat)} {says says' : Bus → Option (Nat × Nat) → Prop} (h : Told levels comp says)
    (hi : ∀ b r, says b r → says' b r) : Told levels comp says' :=
  ⟨fun v hv l e i b hm => hi _ _ (h.view v hv l e i b hm),
    fun id g o r hv c c' e e' j nb b hb hc u hu =>
      ⟨fun i hi' => hi _ _ ((h.breaker id g o r hv c c' e e' j nb b hb hc u hu).1 i hi'), fun hn => hi _ _ ((h.breaker id g o r hv c c' e e' j nb b hb hc u hu).2 hn)⟩,
    fun id g o t hv c e u b hb => ⟨fun i hi' => hi _ _ ((h.configured id g o t hv c e u b hb).1 i hi'), fun hn => hi _ _ ((h.configured id g o t hv c e u b hb).2 hn)⟩⟩

end Verif.CompBuses
