import Verif.Coarse.AcceptLemmas
import Verif.Coarse.OkProps
import Verif.XmlNet.AcceptProps

/-!
C89: the document of a network at a coarser level is accepted by the import.
-/

namespace Verif.Coarse

open Verif Verif.Xml Verif.XmlNet

/-- An object whose terminals are elsewhere. -/
def moved (f : String → Place → Place) (y : Item) : Item := { y with ends := y.ends.map fun e => { e with place := f e.vl e.place } }

/-- The objects of the network at a level. -/
inductive Seen {T : Type} (L : Level) (W : Views) (f : String → Place → Place) (x : Net T) : Item → Prop
  | kept {y} (h : x.Has y) (hn : y.needs = []) (hl : ∀ s n, y.obj ≠ .level s n) (hb : ∀ v, y.obj ≠ .bus v) (he : ∀ e ∈ y.ends, Sided x e.vl e.place) : Seen L W f x (moved f y)
  | level {s v} (hs : s ∈ x.subs) (hv : v ∈ s.vls) : Seen L W f x ⟨v.ident, .level s.ident.head.id ((topoAt W v.ident.head.id L v.topo).kind == 0), [], [], none⟩
  | newBus {v w b} (hv : v ∈ levels x) (hw : viewAt L W v = some w) (hb : b ∈ w.buses) : Seen L W f x ⟨b.ident, .bus v.ident.head.id, [], [], none⟩
  | newSwitch {v w y} (hv : v ∈ levels x) (hw : viewAt L W v = some w) (hy : y ∈ w.sws) :
    Seen L W f x ⟨y.ident, .other, [(v.ident.head.id, y.bus1), (v.ident.head.id, y.bus2)], [], none⟩
  | whole {y} (h : x.Has y) (hL : L = .busBreaker) (he : y.ends = []) (hs : y.stations = none) (hl : ∀ s n, y.obj ≠ .level s n) : Seen L W f x y

section
variable {T : Type} {x : Net T} {L : Level} {W : Views} {f : String → Place → Place}

theorem seen (hL : L ≠ .nodeBreaker) {y : Item} (h : (netAt L W f x).Has y) : Seen L W f x y := by
  have one : ∀ {i : Ident} {o : Obj} {vl : String} {t : Term}, x.Has ⟨i, o, [], [⟨vl, t.place, false, none⟩], none⟩ → (∀ s n, o ≠ .level s n) → (∀ v, o ≠ .bus v) →
      Sided x vl t.place → Seen L W f x ⟨i, o, [], [⟨vl, (termTo f vl t).place, false, none⟩], none⟩ :=
    fun h h1 h2 h3 => .kept h rfl h1 h2 fun e he => by rw [List.mem_singleton.1 he]; exact h3
  cases h with
  | network => exact .kept (y := ⟨x.ident, .other, [], [], none⟩) .network rfl nofun nofun nofun
  | substation hs =>
    replace hs := List.mem_map.1 hs
    obtain ⟨s, hs', rfl⟩ := hs
    exact .kept (y := ⟨s.ident, .other, [], [], none⟩) (.substation hs') rfl nofun nofun nofun
  | transformer2 hs ht =>
    replace hs := List.mem_map.1 hs
    obtain ⟨s, hs', rfl⟩ := hs
    replace ht := List.mem_map.1 ht
    obtain ⟨t, ht', rfl⟩ := ht
    refine .kept (.transformer2 hs' ht') rfl nofun nofun fun e he => ?_
    simp only [List.mem_cons, List.not_mem_nil, or_false] at he
    rcases he with rfl | rfl
    · exact .transformer2 hs' ht' (.inl rfl)
    · exact .transformer2 hs' ht' (.inr rfl)
  | transformer3 hs ht =>
    replace hs := List.mem_map.1 hs
    obtain ⟨s, hs', rfl⟩ := hs
    replace ht := List.mem_map.1 ht
    obtain ⟨t, ht', rfl⟩ := ht
    refine .kept (.transformer3 hs' ht') rfl nofun nofun fun e he => ?_
    simp only [List.mem_cons, List.not_mem_nil, or_false] at he
    rcases he with rfl | rfl | rfl
    · exact .transformer3 hs' ht' (.inl rfl)
    · exact .transformer3 hs' ht' (.inr (.inl rfl))
    · exact .transformer3 hs' ht' (.inr (.inr rfl))
  | line hl =>
    obtain ⟨l, hl', e⟩ := List.mem_map.1 hl
    cases l with
    | tie l => cases e
    | line l =>
      cases e
      refine .kept (.line hl') rfl nofun nofun fun e he => ?_
      simp only [List.mem_cons, List.not_mem_nil, or_false] at he
      rcases he with rfl | rfl
      · exact .line hl' (.inl rfl)
      · exact .line hl' (.inr rfl)
  | tieLine hl =>
    obtain ⟨l, hl', e⟩ := List.mem_map.1 hl
    cases l with
    | line l => cases e
    | tie l =>
      cases e
      refine .kept (.tieLine hl') rfl nofun nofun fun e he => ?_
      simp only [List.mem_cons, List.not_mem_nil, or_false] at he
      rcases he with rfl | rfl
      · exact .tieLine hl' (.inl rfl)
      · exact .tieLine hl' (.inr rfl)
  | hvdc hl => exact .kept (y := ⟨_, _, _, _, _⟩) (.hvdc (x := x) hl) rfl nofun nofun nofun
  | inLevel hs hv hy =>
    replace hs := List.mem_map.1 hs
    obtain ⟨s, hs', rfl⟩ := hs
    replace hv := List.mem_map.1 hv
    obtain ⟨v, hv', rfl⟩ := hv
    have hm : v ∈ levels x := List.mem_flatMap.2 ⟨s, hs', hv'⟩
    cases hy with
    | level => exact .level hs' hv'
    | busbar h hx =>
      have h : topoAt W v.ident.head.id L v.topo = _ := h
      cases L <;> cases ht : v.topo <;> simp [ht, topoAt] at h hL
    | nodeSwitch h hx =>
      have h : topoAt W v.ident.head.id L v.topo = _ := h
      cases L <;> cases ht : v.topo <;> simp [ht, topoAt] at h hL
    | bus h hx =>
      have h : topoAt W v.ident.head.id L v.topo = _ := h
      cases L with
      | nodeBreaker => exact absurd rfl hL
      | busBreaker =>
        cases ht : v.topo with
        | bus buses sws =>
          rw [ht] at h
          cases h
          exact .whole (.inLevel hs' hv' (.bus ht hx)) rfl rfl rfl nofun
        | node bbs sws conns calcs =>
          rw [ht] at h
          cases h
          exact .newBus (v := v) hm (by simp [viewAt, ht]) hx
      | busBranch =>
        cases h
        exact .newBus (v := v) hm rfl hx
    | busSwitch h hx =>
      have h : topoAt W v.ident.head.id L v.topo = _ := h
      cases L with
      | nodeBreaker => exact absurd rfl hL
      | busBreaker =>
        cases ht : v.topo with
        | bus buses sws =>
          rw [ht] at h
          cases h
          exact .whole (.inLevel hs' hv' (.busSwitch ht hx)) rfl rfl rfl nofun
        | node bbs sws conns calcs =>
          rw [ht] at h
          cases h
          obtain ⟨y, hy, rfl⟩ := List.mem_map.1 hx
          exact .newSwitch (v := v) hm (w := W.breaker v.ident.head.id) (by simp [viewAt, ht]) hy
      | busBranch =>
        cases h
        cases hx
    | generator hx => obtain ⟨g, hg, rfl⟩ := List.mem_map.1 hx; exact one (vl := v.ident.head.id) (.inLevel hs' hv' (.generator hg)) nofun nofun (.generator (v := v) hs' hv' hg)
    | battery hx => obtain ⟨g, hg, rfl⟩ := List.mem_map.1 hx; exact one (vl := v.ident.head.id) (.inLevel hs' hv' (.battery hg)) nofun nofun (.battery (v := v) hs' hv' hg)
    | load hx => obtain ⟨g, hg, rfl⟩ := List.mem_map.1 hx; exact one (vl := v.ident.head.id) (.inLevel hs' hv' (.load hg)) nofun nofun (.load (v := v) hs' hv' hg)
    | shunt hx => obtain ⟨g, hg, rfl⟩ := List.mem_map.1 hx; exact one (vl := v.ident.head.id) (.inLevel hs' hv' (.shunt hg)) nofun nofun (.shunt (v := v) hs' hv' hg)
    | danglingLine hx => obtain ⟨g, hg, rfl⟩ := List.mem_map.1 hx; exact one (vl := v.ident.head.id) (.inLevel hs' hv' (.danglingLine hg)) nofun nofun (.danglingLine (v := v) hs' hv' hg)
    | svc hx => obtain ⟨g, hg, rfl⟩ := List.mem_map.1 hx; exact one (vl := v.ident.head.id) (.inLevel hs' hv' (.svc hg)) nofun nofun (.svc (v := v) hs' hv' hg)
    | vsc hx => obtain ⟨g, hg, rfl⟩ := List.mem_map.1 hx; exact one (vl := v.ident.head.id) (.inLevel hs' hv' (.vsc hg)) nofun nofun (.vsc (v := v) hs' hv' hg)
    | lcc hx => obtain ⟨g, hg, rfl⟩ := List.mem_map.1 hx; exact one (vl := v.ident.head.id) (.inLevel hs' hv' (.lcc hg)) nofun nofun (.lcc (v := v) hs' hv' hg)

/-! ### What is still there -/

theorem has_level {s : Substation} (hs : s ∈ x.subs) {v : VL} (hv : v ∈ s.vls) :
    (netAt L W f x).Has ⟨v.ident, .level s.ident.head.id ((topoAt W v.ident.head.id L v.topo).kind == 0), [], [], none⟩ :=
  .inLevel (s := substationAt L W f s) (v := vlAt L W f v) (List.mem_map_of_mem hs) (List.mem_map_of_mem hv) .level

theorem has_newBus {v : VL} (hv : v ∈ levels x) {w : View} (hw : viewAt L W v = some w) {b : Bus} (hb : b ∈ w.buses) :
    (netAt L W f x).Has ⟨b.ident, .bus v.ident.head.id, [], [], none⟩ := by
  obtain ⟨s, hs, hv⟩ := List.mem_flatMap.1 hv
  have : ∃ sws, (vlAt L W f v).topo = .bus w.buses sws := by
    show ∃ sws, topoAt W v.ident.head.id L v.topo = .bus w.buses sws
    unfold viewAt at hw
    cases L <;> cases ht : v.topo <;> simp [ht] at hw <;> subst hw <;> exact ⟨_, rfl⟩
  obtain ⟨sws, ht⟩ := this
  exact .inLevel (s := substationAt L W f s) (v := vlAt L W f v) (List.mem_map_of_mem hs) (List.mem_map_of_mem hv) (.bus ht hb)

theorem has_bus (hL : L = .busBreaker) {y : Item} (h : x.Has y) {vl : String} (hb : y.obj = .bus vl) : (netAt L W f x).Has y := by
  subst hL
  cases h with
  | network => cases hb
  | substation hs => cases hb
  | transformer2 hs ht => cases hb
  | transformer3 hs ht => cases hb
  | line hl => cases hb
  | tieLine hl => cases hb
  | hvdc hl => cases hb
  | inLevel hs hv hy =>
    cases hy with
    | bus ht hx =>
      rename_i s v buses sws z
      have ht' : (vlAt .busBreaker W f v).topo = .bus buses sws := by
        show topoAt W v.ident.head.id .busBreaker v.topo = _
        rw [ht]
        rfl
      exact .inLevel (s := substationAt .busBreaker W f s) (v := vlAt .busBreaker W f v) (List.mem_map_of_mem hs) (List.mem_map_of_mem hv) (.bus ht' hx)
    | level => cases hb
    | busbar ht hx => cases hb
    | nodeSwitch ht hx => cases hb
    | busSwitch ht hx => cases hb
    | generator hx => cases hb
    | battery hx => cases hb
    | load hx => cases hb
    | shunt hx => cases hb
    | danglingLine hx => cases hb
    | svc hx => cases hb
    | vsc hx => cases hb
    | lcc hx => cases hb

/-- An equipment that is not a busbar section is still there, elsewhere. -/
theorem has_equipment {y : Item} (h : x.Has y) {n : Nat} (ht : y.obj.Terminals n) (hb : ∀ m ∈ y.names, ¬ Busbar x m) : (netAt L W f x).Has (moved f y) := by
  cases h with
  | network => cases ht
  | substation hs => cases ht
  | transformer2 hs h => exact .transformer2 (s := substationAt L W f _) (List.mem_map_of_mem hs) (List.mem_map_of_mem (f := tw2To f) h)
  | transformer3 hs h => exact .transformer3 (s := substationAt L W f _) (List.mem_map_of_mem hs) (List.mem_map_of_mem (f := tw3To f) h)
  | line hl =>
    rename_i l
    exact .line (x := netAt L W f x) (l := { l with side1 := sideTo f l.side1, side2 := sideTo f l.side2 }) (List.mem_map_of_mem (f := lineTo f) hl)
  | tieLine hl =>
    rename_i l
    exact .tieLine (x := netAt L W f x) (l := { l with side1 := sideTo f l.side1, side2 := sideTo f l.side2 }) (List.mem_map_of_mem (f := lineTo f) hl)
  | hvdc hl => cases ht
  | inLevel hs hv hy =>
    rename_i s v
    have inl : ∀ {z}, (vlAt L W f v).Has s.ident.head.id z → (netAt L W f x).Has z :=
      fun hz => .inLevel (s := substationAt L W f s) (v := vlAt L W f v) (List.mem_map_of_mem hs) (List.mem_map_of_mem hv) hz
    cases hy with
    | level => cases ht
    | busbar h hx => exact absurd ⟨s, hs, v, hv, _, _, _, _, h, _, hx, .inl rfl⟩ (hb _ List.mem_cons_self)
    | nodeSwitch h hx => cases ht
    | bus h hx => cases ht
    | busSwitch h hx => cases ht
    | generator hx =>
      rename_i g
      exact inl (.generator (v := vlAt L W f v) (x := { g with term := termTo f v.ident.head.id g.term }) (List.mem_map.2 ⟨g, hx, rfl⟩))
    | battery hx =>
      rename_i g
      exact inl (.battery (v := vlAt L W f v) (x := { g with term := termTo f v.ident.head.id g.term }) (List.mem_map.2 ⟨g, hx, rfl⟩))
    | load hx =>
      rename_i g
      exact inl (.load (v := vlAt L W f v) (x := { g with term := termTo f v.ident.head.id g.term }) (List.mem_map.2 ⟨g, hx, rfl⟩))
    | shunt hx =>
      rename_i g
      exact inl (.shunt (v := vlAt L W f v) (x := { g with term := termTo f v.ident.head.id g.term }) (List.mem_map.2 ⟨g, hx, rfl⟩))
    | danglingLine hx =>
      rename_i g
      exact inl (.danglingLine (v := vlAt L W f v) (x := { g with term := termTo f v.ident.head.id g.term }) (List.mem_map.2 ⟨g, hx, rfl⟩))
    | svc hx =>
      rename_i g
      exact inl (.svc (v := vlAt L W f v) (x := { g with term := termTo f v.ident.head.id g.term }) (List.mem_map.2 ⟨g, hx, rfl⟩))
    | vsc hx =>
      rename_i g
      exact inl (.vsc (v := vlAt L W f v) (x := { g with term := termTo f v.ident.head.id g.term }) (List.mem_map.2 ⟨g, hx, rfl⟩))
    | lcc hx =>
      rename_i g
      exact inl (.lcc (v := vlAt L W f v) (x := { g with term := termTo f v.ident.head.id g.term }) (List.mem_map.2 ⟨g, hx, rfl⟩))

/-- A converter station is not a busbar section. -/
theorem has_station {y : Item} (h : x.Has y) (ho : y.obj = .station) : (netAt L W f x).Has (moved f y) := by
  cases h with
  | network => cases ho
  | substation hs => cases ho
  | transformer2 hs ht => cases ho
  | transformer3 hs ht => cases ho
  | line hl => cases ho
  | tieLine hl => cases ho
  | hvdc hl => cases ho
  | inLevel hs hv hy =>
    rename_i s v
    have inl : ∀ {z}, (vlAt L W f v).Has s.ident.head.id z → (netAt L W f x).Has z :=
      fun hz => .inLevel (s := substationAt L W f s) (v := vlAt L W f v) (List.mem_map_of_mem hs) (List.mem_map_of_mem hv) hz
    cases hy with
    | level => cases ho
    | bus ht hx => cases ho
    | busbar ht hx => cases ho
    | nodeSwitch ht hx => cases ho
    | busSwitch ht hx => cases ho
    | generator hx => cases ho
    | battery hx => cases ho
    | load hx => cases ho
    | shunt hx => cases ho
    | danglingLine hx => cases ho
    | svc hx => cases ho
    | vsc hx =>
      rename_i g
      exact inl (.vsc (v := vlAt L W f v) (x := { g with term := termTo f v.ident.head.id g.term }) (List.mem_map.2 ⟨g, hx, rfl⟩))
    | lcc hx =>
      rename_i g
      exact inl (.lcc (v := vlAt L W f v) (x := { g with term := termTo f v.ident.head.id g.term }) (List.mem_map.2 ⟨g, hx, rfl⟩))

/-- The voltage level of an object that is one. -/
theorem level_of {y : Item} (h : x.Has y) {sub : String} {node : Bool} (ho : y.obj = .level sub node) :
    ∃ s ∈ x.subs, ∃ v ∈ s.vls, y.ident = v.ident ∧ sub = s.ident.head.id ∧ node = (v.topo.kind == 0) := by
  cases h with
  | network => cases ho
  | substation hs => cases ho
  | transformer2 hs ht => cases ho
  | transformer3 hs ht => cases ho
  | line hl => cases ho
  | tieLine hl => cases ho
  | hvdc hl => cases ho
  | inLevel hs hv hy =>
    cases hy with
    | level => cases ho; exact ⟨_, hs, _, hv, rfl, rfl, rfl⟩
    | bus ht hx => cases ho
    | busbar ht hx => cases ho
    | nodeSwitch ht hx => cases ho
    | busSwitch ht hx => cases ho
    | generator hx => cases ho
    | battery hx => cases ho
    | load hx => cases ho
    | shunt hx => cases ho
    | danglingLine hx => cases ho
    | svc hx => cases ho
    | vsc hx => cases ho
    | lcc hx => cases ho


/-- The bus of a view, among the objects of the network at the level. -/
theorem view_bus {v : VL} (hv : v ∈ levels x) {w : View} (hw : viewAt L W v = some w) {c : String} (hc : c ∈ w.buses.map fun b => b.ident.head.id) :
    ∃ y ∈ netItems (netAt L W f x), y.id = c ∧ y.obj = .bus v.ident.head.id := by
  obtain ⟨b, hb, rfl⟩ := List.mem_map.1 hc
  exact ⟨_, mem_netItems.2 (has_newBus hv hw hb), rfl, rfl⟩

/-- A terminal of the network is, at the level, where the import finds its voltage level and its bus. -/
theorem end_valid (hL : L ≠ .nodeBreaker) (hc : Consistent (netItems x)) (hv : ViewsFit L W x) (hs : ∀ vl p, Sided x vl p → Sits L W vl p (f vl p))
    (hn : ∀ vl p, Sided x vl p → ∃ v ∈ levels x, v.ident.head.id = vl) {e : End} (hd : Sided x e.vl e.place) (he : EndValid (netItems x) e) :
    EndValid (netItems (netAt L W f x)) { e with place := f e.vl e.place } := by
  obtain ⟨h0, y, hy, hyn, sub, node, ho, hsu, hon⟩ := he
  obtain ⟨s, hsm, v, hvm, hi, rfl, rfl⟩ := level_of (mem_netItems.1 hy) ho
  obtain ⟨v', hv', hid⟩ := hn _ _ hd
  obtain ⟨s', hsm', hvm'⟩ := List.mem_flatMap.1 hv'
  have hsame := same_name hc.names hy (mem_netItems.2 (Net.Has.inLevel hsm' hvm' .level)) hyn (by rw [← hid]; exact List.mem_cons_self)
  have hvid : v.ident.head.id = e.vl := by rw [← hi, hsame, ← hid]
  have hyid : y.id = v.ident.head.id := by rw [← hi]; rfl
  have hvl : v ∈ levels x := List.mem_flatMap.2 ⟨s, hsm, hvm⟩
  have hst := hs _ _ hd
  refine ⟨h0, _, mem_netItems.2 (has_level (L := L) (W := W) (f := f) hsm hvm), ?_, _, _, rfl, ?_, hon⟩
  · rw [← hvid]; exact List.mem_cons_self
  cases L with
  | nodeBreaker => exact absurd rfl hL
  | busBreaker =>
    cases ht : v.topo with
    | bus buses sws =>
      rw [ht] at hsu
      cases hp : e.place with
      | node n => rw [hp] at hsu; cases hsu
      | bus b c =>
        rw [hp] at hsu hst
        have hst : f e.vl (.bus b c) = .bus b c := hst
        obtain ⟨_, z, hz, hzi, hzo⟩ := hsu
        simp only [hst]
        exact ⟨rfl, z, mem_netItems.2 (has_bus rfl (mem_netItems.1 hz) hzo), hzi, by rw [hzo, hyid]; rfl⟩
    | node bbs sws conns calcs =>
      rw [ht] at hsu
      cases hp : e.place with
      | bus b c => rw [hp] at hsu; cases hsu.1
      | node n =>
        rw [hp] at hst
        obtain ⟨c, hcc, h | h⟩ := hst
        all_goals
          rw [← hvid] at hcc
          obtain ⟨z, hz, hzi, hzo⟩ := view_bus (L := .busBreaker) (W := W) (f := f) hvl (w := W.breaker v.ident.head.id) (by simp [viewAt, ht]) (hv.buses v hvl (W.breaker v.ident.head.id) (by simp [viewAt, ht]) _ _ hcc)
          simp only [h.2]
          exact ⟨rfl, z, hz, hzi, hzo⟩
  | busBranch =>
    obtain ⟨c, hcc, h | h⟩ : OnView (W.branch e.vl) e.place (f e.vl e.place) := by
      cases hp : e.place <;> (rw [hp] at hst; exact hst)
    all_goals
      rw [← hvid] at hcc
      obtain ⟨z, hz, hzi, hzo⟩ := view_bus (L := .busBranch) (f := f) hvl rfl (hv.buses v hvl _ rfl _ _ hcc)
      simp only [h.2]
      exact ⟨rfl, z, hz, hzi, hzo⟩

/-- A place at a coarser level, of a terminal in a voltage level with the place, is a bus. -/
theorem on_bus (hL : L ≠ .nodeBreaker) {vl : String} {p q : Place} (h : Sits L W vl p q) : ∀ n, q ≠ .node n := by
  intro n e
  subst e
  cases L with
  | nodeBreaker => exact hL rfl
  | busBreaker =>
    cases p with
    | bus b c => cases h
    | node m => obtain ⟨c, -, h | h⟩ := h <;> cases h.2
  | busBranch =>
    have h : OnView (W.branch vl) p (.node n) := by cases p <;> exact h
    obtain ⟨c, -, h | h⟩ := h <;> cases h.2

theorem moved_names (y : Item) : (moved f y).names = y.names := rfl

/-- **C89** The objects of a network seen at a coarser level go together when those of the network do and the views fit. -/
theorem consistent_at_level (hL : L ≠ .nodeBreaker) (hc : Consistent (netItems x)) (hv : ViewsFit L W x) (hs : ∀ vl p, Sided x vl p → Sits L W vl p (f vl p))
    (hn : ∀ vl p, Sided x vl p → ∃ v ∈ levels x, v.ident.head.id = vl) : Consistent (netItems (netAt L W f x)) where
  names := names_at_level f hc.names hv
  ids := by
    intro y hy
    cases seen hL (mem_netItems.1 hy) with
    | kept h =>
      rename_i y _ _ _ _
      exact hc.ids y (mem_netItems.2 h)
    | level hs hv =>
      rename_i s v
      exact hc.ids ⟨v.ident, .level s.ident.head.id (v.topo.kind == 0), [], [], none⟩ (mem_netItems.2 (.inLevel hs hv .level))
    | newBus h hw hb => exact (hv.named _ (List.mem_flatMap.2 ⟨_, h, by rw [hw]; exact hb⟩)).1
    | newSwitch h hw hw' =>
      have hm := (hv.switches _ h _ hw).subset (List.mem_map_of_mem hw')
      obtain ⟨s, hs, hvs⟩ := List.mem_flatMap.1 h
      rename_i v w y
      cases ht : v.topo with
      | node bbs sws conns calcs =>
        rw [ht] at hm
        obtain ⟨z, hz, e⟩ := List.mem_map.1 hm
        show y.ident.head.id ≠ ""
        rw [← e]
        exact hc.ids _ (mem_netItems.2 (.inLevel hs hvs (.nodeSwitch ht hz)))
      | bus buses sws =>
        rw [ht] at hm
        obtain ⟨z, hz, e⟩ := List.mem_map.1 hm
        show y.ident.head.id ≠ ""
        rw [← e]
        exact hc.ids _ (mem_netItems.2 (.inLevel hs hvs (.busSwitch ht hz)))
    | whole h => exact hc.ids _ (mem_netItems.2 h)
  needs := by
    intro y hy n hm
    cases seen hL (mem_netItems.1 hy) with
    | kept h h0 => rw [show (moved f _).needs = _ from h0] at hm; exact absurd hm List.not_mem_nil
    | level hs hv => exact absurd hm List.not_mem_nil
    | newBus h hw hb => exact absurd hm List.not_mem_nil
    | newSwitch h hw hw' =>
      have := hv.ends _ h _ hw _ hw'
      simp only [List.mem_cons, List.not_mem_nil, or_false] at hm
      rcases hm with rfl | rfl
      · exact view_bus h hw this.1
      · exact view_bus h hw this.2
    | whole h hB =>
      obtain ⟨b, hb, h1, h2⟩ := hc.needs _ (mem_netItems.2 h) n hm
      exact ⟨b, mem_netItems.2 (has_bus hB (mem_netItems.1 hb) h2), h1, h2⟩
  ends := by
    intro y hy e he
    cases seen hL (mem_netItems.1 hy) with
    | kept h _ _ _ hd =>
      obtain ⟨e, he', rfl⟩ := List.mem_map.1 he
      exact end_valid hL hc hv hs hn (hd e he') (hc.ends _ (mem_netItems.2 h) e he')
    | level hs hv => exact absurd he List.not_mem_nil
    | newBus h hw hb => exact absurd he List.not_mem_nil
    | newSwitch h hw hy => exact absurd he List.not_mem_nil
    | whole h hB h0 => rw [h0] at he; exact absurd he List.not_mem_nil
  nodes := by
    have : ∀ e ∈ (netItems (netAt L W f x)).flatMap Item.ends, ∀ n, e.place ≠ .node n := by
      intro e he
      obtain ⟨y, hy, he⟩ := List.mem_flatMap.1 he
      cases seen hL (mem_netItems.1 hy) with
      | kept h _ _ _ hd =>
        obtain ⟨e, he', rfl⟩ := List.mem_map.1 he
        exact on_bus hL (hs _ _ (hd e he'))
      | level hs hv => exact absurd he List.not_mem_nil
      | newBus h hw hb => exact absurd he List.not_mem_nil
      | newSwitch h hw hy => exact absurd he List.not_mem_nil
      | whole h hB h0 => rw [h0] at he; exact absurd he List.not_mem_nil
    exact List.Pairwise.imp_of_mem (R := fun _ _ => True) (fun {a b} ha _ _ v _ _ _ n e => absurd e (this a ha n)) (List.pairwise_of_forall fun _ _ => trivial)
  stations := by
    intro y hy s hst
    have key : ∀ n, StationNamed (netItems x) n → StationNamed (netItems (netAt L W f x)) n := by
      rintro n ⟨h0, z, hz, hzn, hzo⟩
      refine ⟨h0, moved f z, mem_netItems.2 (has_station (mem_netItems.1 hz) hzo), hzn, hzo⟩
    cases seen hL (mem_netItems.1 hy) with
    | kept h => exact (hc.stations _ (mem_netItems.2 h) s hst).imp (key _) (key _)
    | level hs hv => cases hst
    | newBus h hw hb => cases hst
    | newSwitch h hw hy => cases hst
    | whole h hB _ h0 => rw [h0] at hst; cases hst

/-- **C89** The references that designate a terminal still do, if they do not designate that of a busbar section. -/
theorem references_at_level (hc : Consistent (netItems x)) (hb : ∀ r, x.HasRef r → ¬ Busbar x r.id) (hr : ∀ r, x.HasRef r → RefNamed (netItems x) r) :
    ∀ r, x.HasRef r → RefNamed (netItems (netAt L W f x)) r := by
  intro r hm
  obtain ⟨y, hy, hn, n, ht, h⟩ := hr r hm
  refine ⟨moved f y, mem_netItems.2 (has_equipment (mem_netItems.1 hy) ht ?_), hn, n, ht, h⟩
  intro m hmm hbb
  obtain ⟨s, hs, v, hv, bbs, sws, conns, calcs, e, b, hbm, hbn⟩ := hbb
  have hx : x.Has ⟨b.ident, .equip 1, [], [⟨v.ident.head.id, .node b.node, false, none⟩], none⟩ := .inLevel hs hv (.busbar e hbm)
  have : y = _ := same_name hc.names hy (mem_netItems.2 hx) hmm (by
    rcases hbn with rfl | hbn
    · exact List.mem_cons_self
    · exact List.mem_cons_of_mem _ hbn)
  subst this
  refine hb r hm ⟨s, hs, v, hv, bbs, sws, conns, calcs, e, b, hbm, ?_⟩
  rcases List.mem_cons.1 hn with h | h
  · exact .inl h
  · exact .inr h

theorem refs_at_level {r : Ref} (h : (netAt L W f x).HasRef r) : x.HasRef r := by
  cases h with
  | generator hs hv hg hr =>
    obtain ⟨s, hs', rfl⟩ := List.mem_map.1 hs
    obtain ⟨v, hv', rfl⟩ := List.mem_map.1 hv
    obtain ⟨g, hg', rfl⟩ := List.mem_map.1 hg
    exact .generator hs' hv' hg' hr
  | shunt hs hv hg hr =>
    obtain ⟨s, hs', rfl⟩ := List.mem_map.1 hs
    obtain ⟨v, hv', rfl⟩ := List.mem_map.1 hv
    obtain ⟨g, hg', rfl⟩ := List.mem_map.1 hg
    exact .shunt hs' hv' hg' hr
  | svc hs hv hg hr =>
    obtain ⟨s, hs', rfl⟩ := List.mem_map.1 hs
    obtain ⟨v, hv', rfl⟩ := List.mem_map.1 hv
    obtain ⟨g, hg', rfl⟩ := List.mem_map.1 hg
    exact .svc hs' hv' hg' hr
  | ratio2 hs ht hc hr =>
    obtain ⟨s, hs', rfl⟩ := List.mem_map.1 hs
    obtain ⟨t, ht', rfl⟩ := List.mem_map.1 ht
    exact .ratio2 hs' ht' hc hr
  | phase2 hs ht hc hr =>
    obtain ⟨s, hs', rfl⟩ := List.mem_map.1 hs
    obtain ⟨t, ht', rfl⟩ := List.mem_map.1 ht
    exact .phase2 hs' ht' hc hr
  | ratio3 hs ht hl hc hr =>
    obtain ⟨s, hs', rfl⟩ := List.mem_map.1 hs
    obtain ⟨t, ht', rfl⟩ := List.mem_map.1 ht
    rcases hl with rfl | rfl | rfl
    · exact .ratio3 hs' ht' (.inl rfl) hc hr
    · exact .ratio3 hs' ht' (.inr (.inl rfl)) hc hr
    · exact .ratio3 hs' ht' (.inr (.inr rfl)) hc hr
  | phase3 hs ht hl hc hr =>
    obtain ⟨s, hs', rfl⟩ := List.mem_map.1 hs
    obtain ⟨t, ht', rfl⟩ := List.mem_map.1 ht
    rcases hl with rfl | rfl | rfl
    · exact .phase3 hs' ht' (.inl rfl) hc hr
    · exact .phase3 hs' ht' (.inr (.inl rfl)) hc hr
    · exact .phase3 hs' ht' (.inr (.inr rfl)) hc hr

/-- **C89** The document of a network at a coarser level is imported and gives the network seen at that level, when the network could be imported, its views fit and can be
read back, its terminals have a bus and no reference designates a busbar section.
`_partial`: the conditions of `network_round_trip_partial`. -/
theorem import_at_level_partial {K : XCodec} (hK : K.Integers) {A : Anon} {D : Dates T} (hL : L ≠ .nodeBreaker) (h : NetOk K A D x) (hc : Consistent (netItems x))
    (hr : ∀ r, x.HasRef r → RefNamed (netItems x) r) (hb : ∀ r, x.HasRef r → ¬ Busbar x r.id) (hv : ViewsFit L W x) (hw : ViewsOk K A L W x)
    (hs : ∀ vl p, Sided x vl p → Sits L W vl p (f vl p)) (hm : ∀ vl p, Sided x vl p → Movable A p (f vl p)) (hn : ∀ vl p, Sided x vl p → ∃ v ∈ levels x, v.ident.head.id = vl)
    (hk : KindsOk L W x) (i : Bool) :
    ∃ cs toks r, writeNetAt K A D L W x = some (.ok cs) ∧ document i cs = .ok toks ∧
      importNet K A D toks = .ok ({ netAt L W f x with ident := { x.ident with head := { x.ident.head with fictitious := false } } }, r) := by
  have hok : NetOk K A D (netAt L W f x) := network_ok_at_level hm h hw
  obtain ⟨cs, toks, h1, h2, h3⟩ := network_at_level_partial hK hs hk hok (fun _ => hb) i
  have hc' := consistent_at_level hL hc hv hs hn
  obtain ⟨st, hst⟩ := run_can ran_empty (canRun_items (pre := []) (net_ready hc') hc'.ids (by simpa using hc'.names) (by simpa [NodesFree] using hc'.nodes))
  have hran := ran_run ran_empty hst
  obtain ⟨ts, hts⟩ := all2_of (l := netRefs (netAt L W f x)) fun r hm => refNamed_iff.1 (references_at_level hc hb hr r (refs_at_level (mem_netRefs.1 hm)))
  have hres := (resolveRefs_ok (l := netItems (netAt L W f x)) hran).2 hts
  have ha : accept (netAt L W f x) = .ok (st, ts) := by
    unfold accept
    rw [show run St.empty ((netItems (netAt L W f x)).flatMap itemOps) = _ from hst, Out.monad_bind_ok, hres]; rfl
  refine ⟨cs, toks, (st, ts), h1, h2, ?_⟩
  unfold importNet
  rw [h3, Out.monad_bind_ok,
    show accept { netAt L W f x with ident := { x.ident with head := { x.ident.head with fictitious := false } } } = accept (netAt L W f x) from rfl, ha]
  rfl

/-- **C89, violation** The names of the buses that the export makes are not reserved: if an equipment has the name of one of them (voltage level and number), the document of the network
is written and read, and the import throws. -/
theorem taken_name_refused {K : XCodec} {A : Anon} {D : Dates T} {v : VL} (hv : v ∈ levels x) {w : View} (hw : viewAt L W v = some w) {b : Bus} (hb : b ∈ w.buses) {y : Item}
    (hy : x.Has y) {n : Nat} (ht : y.obj.Terminals n) (hy' : ∀ m ∈ y.names, ¬ Busbar x m) (hn : b.ident.head.id ∈ y.names) (hi : ∀ z ∈ netItems (netAt L W f x), IdentValid z.ident) {toks : List Tok}
    (hr : readNet K A D toks = .ok { netAt L W f x with ident := { x.ident with head := { x.ident.head with fictitious := false } } }) : importNet K A D toks = .thrown := by
  have hc : ¬ Consistent (netItems (netAt L W f x)) := by
    intro hc
    have e := same_name hc.names (mem_netItems.2 (has_newBus (f := f) hv hw hb)) (mem_netItems.2 (has_equipment (L := L) (W := W) (f := f) hy ht hy')) List.mem_cons_self hn
    have e : Obj.bus v.ident.head.id = y.obj := congrArg Item.obj e
    rw [← e] at ht
    cases ht
  unfold importNet
  rw [hr, Out.monad_bind_ok, show accept { netAt L W f x with ident := { x.ident with head := { x.ident.head with fictitious := false } } } = accept (netAt L W f x) from rfl]
  cases ha : accept (netAt L W f x) with
  | ub => exact absurd ha (accept_defined _)
  | thrown => rfl
  | ok r => exact absurd ((accept_iff _ hi).1 ⟨r, ha⟩).1 hc

end

end Verif.Coarse
