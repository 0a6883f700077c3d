import Verif.CompBuses.TellLemmas
import Verif.BusState.Props
import Verif.BusBreaker.BusProps

/-! Property C90: the component that a bus is told to be in, and the buses of a component. -/

namespace Verif.CompBuses

open Verif Verif.Graph
open Verif.NodeBreaker (Gr)
open Verif.BusState (Bus Holder)
open Verif.NetComponents (Snap Sorter AnyLink AcLink Right fillAll fillAc)

section histories
variable {fill : Filler} {R : Snap → String → String → Prop} (hf : Fills fill R) {srt : Sorter} (hs : srt.Ok) {ops : List Op} (ho : ∀ op ∈ ops, OpOk op)
include hf hs ho

/-- **C90** After any history of changes of topology and of queries, whatever numbers the terminals and the buses had before: every bus of the bus view is told to be in its component (the
components are those of C54, by the links between the buses of the bus view); every bus of the bus/breaker view and every configured bus is told to be in the component of the bus of the bus
view that it is part of, even when it has no terminal itself, and in none when it is part of none.  A bus says that it is in the main component exactly when it is told to be in
component 0. -/
theorem component_told : ∃ bs comp, listAll viewBuses (run fill srt ops init).levels = .ok bs ∧
    Right ((run fill srt ops init).snap bs) (R ((run fill srt ops init).snap bs)) comp ∧
    Told (run fill srt ops init).levels comp (Tells fill srt (run fill srt ops init)) ∧
    Told (run fill srt ops init).levels comp (SaysMain fill srt (run fill srt ops init)) := by
  have hI := run_inv hf hs ops init ho init_inv
  generalize run fill srt ops init = st at hI ⊢
  obtain ⟨st', bs, bbs, num, e, hr, h1, h2, h3, _⟩ := update_ready hf hs hI
  have ht := ready_told hr (h1 ▸ hI.levels)
  have hsnap : st'.snap bs = st.snap bs := by unfold St.snap; rw [h2]
  rw [h1] at ht
  refine ⟨bs, compOf st' bs num, h1 ▸ hr.list.list, hsnap ▸ hr.right, ht.imp fun b r h => ⟨st', ?_⟩, ht.imp fun b r h => h.main e⟩
  rw [h.component e, h3]

/-- **C90** The buses of a component are those of the bus view that are told to be in it, each once, in the order of the view; there are as many as its size says. -/
theorem component_buses {c : Comp} (hc : (run fill srt ops init).has c = true) : ∃ bs ids, listAll viewBuses (run fill srt ops init).levels = .ok bs ∧
    busesOf fill srt (run fill srt ops init) c = .ok (ids, run fill srt ops init) ∧ ids.Sublist (bs.map Prod.fst) ∧ ids.Nodup ∧ ids.length = c.size ∧
    ∀ i b, (i, b) ∈ bs → (i ∈ ids ↔ Tells fill srt (run fill srt ops init) b (some (c.num, c.size))) := by
  have hI := run_inv hf hs ops init ho init_inv
  generalize run fill srt ops init = st at hI hc ⊢
  obtain ⟨hce, hcs⟩ : c.era = st.era ∧ st.sizes[c.num]? = some c.size := by
    simpa [St.has] using hc
  have hne : st.sizes ≠ [] := by
    intro h; rw [h] at hcs; cases hcs
  obtain ⟨bs, bbs, num, hr⟩ := hI.known hne
  have hu : update fill srt st = .ok st := by rw [update, if_pos hne]
  have ht := ready_told hr hI.levels
  have hcomp : ∀ p ∈ bs, componentOf fill srt st p.2 = .ok ((compOf st bs num p.1).map fun q => ⟨st.era, q.1, q.2⟩, st) := by
    intro p hp
    obtain ⟨v, hv, l, e, hm⟩ := (hr.list.mem p).1 hp
    exact (ht.view v hv l e p.1 p.2 hm).component hu
  have hsame : ∀ p ∈ bs, ((compOf st bs num p.1).map fun q => (⟨st.era, q.1, q.2⟩ : Comp)) = some c ↔ compOf st bs num p.1 = some (c.num, c.size) := by
    intro p _
    cases h : compOf st bs num p.1 with
    | none => simp
    | some q =>
      obtain ⟨k, z⟩ := q
      obtain ⟨ce, cn, cz⟩ := c
      have : ce = st.era := hce
      subst this
      simp
  have hkeep : ∀ l : List Named, (∀ p ∈ l, p ∈ bs) →
      keepBuses fill srt c l st = .ok ((l.filter fun p => compOf st bs num p.1 = some (c.num, c.size)).map Prod.fst, st) := by
    intro l
    induction l with
    | nil => intro _; rfl
    | cons p l ih =>
      intro hl
      have hp := hl p List.mem_cons_self
      rw [keepBuses, hcomp p hp, Out.bind_ok]
      simp only [ih fun q hq => hl q (List.mem_cons_of_mem _ hq), hsame p hp]
      by_cases h : compOf st bs num p.1 = some (c.num, c.size) <;> simp [Out.map, h]
  have hsub : ((bs.filter fun p => compOf st bs num p.1 = some (c.num, c.size)).map Prod.fst).Sublist (bs.map Prod.fst) := List.filter_sublist.map _
  refine ⟨bs, _, hr.list.list, ?_, hsub, hsub.nodup hr.list.nodup, ?_, ?_⟩
  · rw [busesOf, if_pos hc, hr.list.list, Out.bind_ok]
    exact hkeep bs fun p hp => hp
  · have hz := hr.count _ _ hcs
    rw [← NetComponents.count_zip (bs.map Prod.fst) num c.num hr.list.nodup (by simp [hr.length]), List.filter_map, List.length_map] at hz
    refine Eq.trans ?_ hz.symm
    rw [List.length_map]
    congr 1
    apply List.filter_congr
    intro p hp
    obtain ⟨j, k, z, h1, h2, h3, h4⟩ := comp_at hr hp
    have h5 := NetComponents.zip_get? (xs := bs.map Prod.fst) (ns := num) hr.list.nodup (by simp [hr.length]) (i := j) (x := p.1) (by rw [List.getElem?_map, h1]; rfl)
    rw [h4, Function.comp_apply, decide_eq_decide]
    simp only [h5, h2, Option.some.injEq, Prod.mk.injEq]
    constructor
    · exact fun h => h.1
    · intro h
      subst h
      rw [h3] at hcs
      exact ⟨rfl, Option.some.inj hcs⟩
  · intro i b hb
    have h1 := hcomp (i, b) hb
    have h2 := hsame (i, b) hb
    have : (i ∈ (bs.filter fun p => compOf st bs num p.1 = some (c.num, c.size)).map Prod.fst) ↔ compOf st bs num i = some (c.num, c.size) := by
      rw [List.mem_map]
      constructor
      · rintro ⟨p, hp, rfl⟩
        simpa using (List.mem_filter.1 hp).2
      · intro h
        exact ⟨(i, b), List.mem_filter.2 ⟨hb, by simpa using h⟩, rfl⟩
    rw [this]
    constructor
    · intro h
      refine ⟨st, ?_⟩
      rw [h1]
      simp only [h]
    · rintro ⟨st', h⟩
      rw [h1] at h
      have h' := congrArg Prod.fst (Out.ok.inj h)
      cases hq : compOf st bs num i with
      | none => simp only [hq] at h'; cases h'
      | some q =>
        simp only [hq] at h'
        have h1 := congrArg Comp.num (Option.some.inj h')
        have h2 := congrArg Comp.size (Option.some.inj h')
        exact congrArg some (Prod.ext h1 h2)

end histories

/-- **C90** (`util/ConnectedComponents.cpp`) The number got through the utility is that of the component that the bus is told to be in; none for no bus and for a bus in no component. -/
theorem number_of_bus {fill : Filler} {srt : Sorter} {st : St} :
    (∀ b r, Tells fill srt st b r → ∃ st', ccNum fill srt st (some b) = .ok (r.map Prod.fst, st')) ∧ ccNum fill srt st none = .ok (none, st) := by
  refine ⟨?_, rfl⟩
  rintro b r ⟨st', h⟩
  refine ⟨st', ?_⟩
  rw [ccNum, h]
  cases r <;> rfl

/-- **C90** The component that a bus is told to be in exists: its number and its size can be read. -/
theorem told_exists {fill : Filler} {srt : Sorter} {st st' : St} {b : Bus} {c : Comp} (h : componentOf fill srt st b = .ok (some c, st')) :
    st'.has c = true ∧ st'.read c = .ok (c.num, c.size) := by
  have key : ∀ (s : St) (o : Option Nat) (c : Comp), s.component o = .ok (some c) → s.has c = true := by
    intro s o c h
    cases o with
    | none => cases h
    | some k =>
      cases hk : s.sizes[k]? with
      | none => simp [St.component, hk] at h
      | some z =>
        simp only [St.component, hk] at h
        cases h
        simp [St.has, hk]
  have hh : st'.has c = true := by
    have first : ∀ (s : St) (l : List Nat) (c : Comp), firstComponent s l = .ok c → s.has c = true := by
      intro s l
      induction l with
      | nil => intro c h; cases h
      | cons a l ih =>
        intro c h
        rw [firstComponent] at h
        obtain ⟨r, h1, h2⟩ := Out.bind_eq_ok.1 h
        cases r with
        | none => exact ih c h2
        | some c' => cases h2; exact key _ _ _ h1
    have get : ∀ {α : Type} {o : Out α} {g : α → Option Comp} {s : St}, (o.map fun a => (g a, s)) = .ok (some c, st') → ∃ a, o = .ok a ∧ g a = some c ∧ s = st' := by
      intro α o g s h
      cases o with
      | ok a =>
        have h' := Out.ok.inj h
        exact ⟨a, rfl, (Prod.mk.inj h').1, (Prod.mk.inj h').2⟩
      | thrown => cases h
      | ub => cases h
    cases b with
    | calculated valid ts ref =>
      cases valid with
      | false => cases h
      | true =>
        obtain ⟨s, _, h2⟩ := Out.bind_eq_ok.1 h
        cases ref with
        | none => cases h2
        | some t =>
          obtain ⟨a, h3, h4, rfl⟩ := get (g := fun a => a) h2
          exact key s _ c (by rw [h3, h4])
    | conf b =>
      obtain ⟨s, _, h2⟩ := Out.bind_eq_ok.1 h
      obtain ⟨a, h3, h4, rfl⟩ := get (g := fun a => a) h2
      exact key s _ c (by rw [h3, h4])
    | merged valid bs =>
      cases valid with
      | false => cases h
      | true =>
        cases bs with
        | nil => cases h
        | cons a as =>
          obtain ⟨s, _, h2⟩ := Out.bind_eq_ok.1 h
          obtain ⟨a, h3, h4, rfl⟩ := get (g := some) h2
          exact first s _ c (by rw [h3, Option.some.inj h4])
  exact ⟨hh, by rw [St.read, if_pos hh]⟩

/-- **C90** Queries leave the components that exist, so that a reference to a component is good until the next change of topology. -/
theorem query_keeps {fill : Filler} {srt : Sorter} {st : St} {c : Comp} (h : st.has c = true) (b : Bus) : (step fill srt st (.ask b)).has c = true := by
  have hne : st.sizes ≠ [] := by
    intro e
    simp [St.has, e] at h
  show St.has (match componentOf fill srt st b with | .ok r => r.2 | .thrown => st | .ub => st) c = true
  cases hc : componentOf fill srt st b with
  | ok r =>
    have := component_state hc
    rw [update, if_pos hne] at this
    show St.has r.2 c = true
    rw [← Out.ok.inj this]
    exact h
  | thrown => exact h
  | ub => exact h

theorem map_ok {α β : Type} {o : Out α} {f : α → β} {y : β} (h : o.map f = .ok y) : ∃ x, o = .ok x ∧ f x = y := by
  cases o with
  | ok x => exact ⟨x, rfl, Out.ok.inj h⟩
  | thrown => cases h
  | ub => cases h

theorem run_era {fill : Filler} {srt : Sorter} : ∀ (ops : List Op) (st : St), st.era ≤ (run fill srt ops st).era
  | [], _ => Nat.le_refl _
  | op :: ops, st => by
    refine Nat.le_trans ?_ (run_era ops _)
    cases op with
    | topology levels links => exact Nat.le_succ _
    | ask b =>
      show st.era ≤ St.era (match componentOf fill srt st b with | .ok r => r.2 | .thrown => st | .ub => st)
      cases hc : componentOf fill srt st b with
      | ok r =>
        have := component_state hc
        unfold update at this
        split at this
        · show st.era ≤ r.2.era
          rw [← Out.ok.inj this]
          exact Nat.le_refl _
        · obtain ⟨_, _, this⟩ := Out.bind_eq_ok.1 this
          obtain ⟨_, _, this⟩ := Out.bind_eq_ok.1 this
          obtain ⟨_, _, this⟩ := Out.bind_eq_ok.1 this
          obtain ⟨_, _, this⟩ := Out.bind_eq_ok.1 this
          obtain ⟨_, _, this⟩ := Out.bind_eq_ok.1 this
          obtain ⟨m, _, this⟩ := map_ok this
          show st.era ≤ r.2.era
          rw [← this]
          exact Nat.le_refl _
      | thrown => exact Nat.le_refl _
      | ub => exact Nat.le_refl _

/-- **C90, violation** (AbstractComponentsManager.cpp l.94-97) A change of topology destroys the components, even one that leaves the network as it is: the use of a reference to one of them,
got before, is undefined from then on, whatever is called in between. -/
theorem destroyed_undefined {fill : Filler} {srt : Sorter} {st : St} {c : Comp} (h : st.has c = true) (levels : List Level) (links : Snap) (ops : List Op) :
    (run fill srt (.topology levels links :: ops) st).read c = .ub ∧ busesOf fill srt (run fill srt (.topology levels links :: ops) st) c = .ub := by
  have : (run fill srt (.topology levels links :: ops) st).has c = false := by
    have h1 : c.era = st.era := by
      simp [St.has] at h
      exact h.1
    have h2 : st.era + 1 ≤ (run fill srt (.topology levels links :: ops) st).era := run_era ops (step fill srt st (.topology levels links))
    have h3 : (c.era == (run fill srt (.topology levels links :: ops) st).era) = false := by
      rw [beq_eq_false_iff_ne]
      omega
    simp [St.has, h3]
  exact ⟨by rw [St.read, this]; rfl, by rw [busesOf, this]; rfl⟩

/-- **C90, violation** (MergedBus.cpp l.137-143) A calculated or merged bus that was invalidated refuses to tell its component; yet an invalidated merged bus answers that it is not in the
main one, where a calculated bus refuses. -/
theorem invalidated_main {fill : Filler} {srt : Sorter} {st : St} (valid : Bool) (ts bs : List Nat) (ref : Option Nat) :
    componentOf fill srt st (BusState.invalidate (.calculated valid ts ref)) = .thrown ∧ componentOf fill srt st (BusState.invalidate (.merged valid bs)) = .thrown ∧
    inMain fill srt st (BusState.invalidate (.calculated valid ts ref)) = .thrown ∧ inMain fill srt st (BusState.invalidate (.merged valid bs)) = .ok (false, st) :=
  ⟨rfl, rfl, rfl, rfl⟩

/-! ### Example

VL is node/breaker: the busbar section and a load are on the bus VL_0 of the bus view; VL_1 of the bus/breaker view is part of it and has no terminal; the load of node 3 is on no bus of the
bus view.  W is bus/breaker: A and B are merged in W_0, E is alone in W_1, C and D are on no bus of the bus view.  A line links VL_0 to W_1 and an HVDC line VL_0 to W_0.  Before that, the
network was VL alone and its components had been asked for. -/

def exLevels : List Level :=
  [.node "VL" BusState.refG BusState.refOpen BusState.refRetained, .conf "W" BusBreaker.sampleG BusBreaker.sampleOpen BusBreaker.sampleTypes]

def exLinks : Snap := ⟨[], [(some "VL_0", some "W_1")], [], [], [(some "VL_0", some "W_0")]⟩

def exOps : List Op := [.topology [exLevels[0]] ⟨[], [], [], [], []⟩, .ask (.calculated true [10, 12] (some 10)), .topology exLevels exLinks]

theorem refG_distinct : BusState.Distinct BusState.refG := by
  have key : ∀ u < 5, ∀ u' < 5, ∀ t ∈ (BusState.refG.vertexAt u).join, ∀ t' ∈ (BusState.refG.vertexAt u').join, t.handle = t'.handle → u = u' := by decide
  have len : BusState.refG.vertices.length = 5 := by decide
  intro u u' t t' h h' e
  refine key u ?_ u' ?_ t (by rw [h]; rfl) t' (by rw [h']; rfl) e
  · rw [← len]; exact vertexAt_lt (by rw [h]; simp)
  · rw [← len]; exact vertexAt_lt (by rw [h']; simp)

theorem exLevels_ok : LevelsOk exLevels := by
  refine ⟨?_, by decide, ?_⟩
  · intro v hv
    rcases List.mem_cons.1 hv with rfl | hv
    · exact ⟨BusState.refG_reached, refG_distinct⟩
    · cases List.mem_singleton.1 hv
      exact ⟨BusBreaker.sampleG_reached, BusBreaker.sampleG_furnished, BusBreaker.sampleTypes_ok, BusBreaker.no_gap_of_first (by decide) BusBreaker.sampleG_reached⟩
  · refine List.Pairwise.cons ?_ (List.pairwise_singleton _ _)
    intro w hw h
    cases List.mem_singleton.1 hw
    cases h with
    | terminal h => exact fun k => k.2
    | bus h => exact fun k => k.1

theorem exLinks_ok : EndsOk exLevels exLinks := by
  intro bs e a b h
  have e' : listAll viewBuses exLevels = .ok [("VL_0", .calculated true [10, 12] (some 10)), ("W_0", .merged true [10, 11]), ("W_1", .merged true [14])] := by decide +kernel
  rw [e'] at e
  cases Out.ok.inj e
  rcases h with h | h
  · rcases h with h | h | h | h | h <;> simp [exLinks] at h
    obtain ⟨rfl, rfl⟩ := h
    decide
  · simp [exLinks] at h
    obtain ⟨rfl, rfl⟩ := h
    decide

theorem exOps_ok : ∀ op ∈ exOps, OpOk op := by
  intro op h
  simp only [exOps, List.mem_cons, List.not_mem_nil, or_false] at h
  rcases h with rfl | rfl | rfl
  · refine ⟨⟨fun v hv => exLevels_ok.each v ?_, by decide, List.pairwise_singleton _ _⟩, ?_⟩
    · cases List.mem_singleton.1 hv
      exact List.mem_cons_self
    · intro bs _ a b h
      rcases h with h | h
      · rcases h with h | h | h | h | h <;> cases h
      · cases h
  · trivial
  · exact ⟨exLevels_ok, exLinks_ok⟩

example : (∃ bs comp, listAll viewBuses (run fillAll NetComponents.sorter exOps init).levels = .ok bs ∧
    Right ((run fillAll NetComponents.sorter exOps init).snap bs) (AnyLink ((run fillAll NetComponents.sorter exOps init).snap bs)) comp ∧
    Told (run fillAll NetComponents.sorter exOps init).levels comp (Tells fillAll NetComponents.sorter (run fillAll NetComponents.sorter exOps init)) ∧
    Told (run fillAll NetComponents.sorter exOps init).levels comp (SaysMain fillAll NetComponents.sorter (run fillAll NetComponents.sorter exOps init))) ∧
    ∃ bs comp, listAll viewBuses (run fillAc NetComponents.sorter exOps init).levels = .ok bs ∧
    Right ((run fillAc NetComponents.sorter exOps init).snap bs) (AcLink ((run fillAc NetComponents.sorter exOps init).snap bs)) comp ∧
    Told (run fillAc NetComponents.sorter exOps init).levels comp (Tells fillAc NetComponents.sorter (run fillAc NetComponents.sorter exOps init)) ∧
    Told (run fillAc NetComponents.sorter exOps init).levels comp (SaysMain fillAc NetComponents.sorter (run fillAc NetComponents.sorter exOps init)) :=
  ⟨component_told fills_connected NetComponents.sorter_ok exOps_ok, component_told fills_synchronous NetComponents.sorter_ok exOps_ok⟩

/-- What the buses answer: VL_1, which has no terminal, is in the component of VL_0; B in that of W_0; the load of node 3 and C in none.  Without the HVDC line, A and B are apart. -/
example :
    let st := run fillAll NetComponents.sorter exOps init
    let ac := run fillAc NetComponents.sorter exOps init
    (componentOf fillAll NetComponents.sorter st (.calculated true [] (some 10))).map Prod.fst = .ok (some ⟨2, 0, 3⟩) ∧
    (componentOf fillAll NetComponents.sorter st (.calculated true [11] (some 11))).map Prod.fst = .ok none ∧
    (componentOf fillAll NetComponents.sorter st (.conf 11)).map Prod.fst = .ok (some ⟨2, 0, 3⟩) ∧
    (componentOf fillAll NetComponents.sorter st (.conf 12)).map Prod.fst = .ok none ∧
    (componentOf fillAc NetComponents.sorter ac (.calculated true [] (some 10))).map Prod.fst = .ok (some ⟨2, 0, 2⟩) ∧
    (componentOf fillAc NetComponents.sorter ac (.conf 11)).map Prod.fst = .ok (some ⟨2, 1, 1⟩) ∧
    (inMain fillAc NetComponents.sorter ac (.merged true [14])).map Prod.fst = .ok true ∧ (inMain fillAc NetComponents.sorter ac (.merged true [10, 11])).map Prod.fst = .ok false ∧
    (ccNum fillAc NetComponents.sorter ac (some (.conf 10))).map Prod.fst = .ok (some 1) := by decide +kernel

/-- The component 0 of the synchronous ones has VL_0 and W_1. -/
example :
    let ac := run fillAc NetComponents.sorter (exOps ++ [.ask (.conf 11)]) init
    ac.has ⟨2, 0, 2⟩ = true ∧ (busesOf fillAc NetComponents.sorter ac ⟨2, 0, 2⟩).map Prod.fst = .ok ["VL_0", "W_1"] ∧
    (busesOf fillAc NetComponents.sorter ac ⟨2, 1, 1⟩).map Prod.fst = .ok ["W_0"] ∧
    busesOf fillAc NetComponents.sorter (run fillAc NetComponents.sorter [.topology exLevels exLinks, .ask (.conf 11)] ac) ⟨2, 1, 1⟩ = .ub := by
  refine ⟨by decide +kernel, by decide +kernel, by decide +kernel, ?_⟩
  exact (destroyed_undefined (by decide +kernel) _ _ _).2

end Verif.CompBuses
