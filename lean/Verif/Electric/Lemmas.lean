import Verif.Electric.Spec
import Verif.CompBuses.LevelLemmas

/-! Lemmas about the places of a network and the buses of the bus view. -/

namespace Verif.Electric

open Verif Verif.Graph
open Verif.NodeBreaker (EqType Passing Branchy Conn OnEdge getBus_eq_some compute_ok)
open Verif.BusBreaker (BusAt Closed)
open Verif.CompBuses (Level LevelsOk viewBuses listAll name_level)
open Verif.BusState (Bus)

theorem level_unique {levels : List Level} (hl : LevelsOk levels) {v w : Level} (hv : v ∈ levels) (hw : w ∈ levels) (h : v.id = w.id) : v = w := by
  have hn := hl.ids
  clear hl
  induction levels with
  | nil => exact absurd hv List.not_mem_nil
  | cons a l ih =>
    have hn := List.nodup_cons.1 hn
    rcases List.mem_cons.1 hv with e1 | hv <;> rcases List.mem_cons.1 hw with e2 | hw
    · rw [e1, e2]
    · exact absurd (List.mem_map.2 ⟨w, hw, by rw [← h, e1]⟩) hn.1
    · exact absurd (List.mem_map.2 ⟨v, hv, by rw [h, e2]⟩) hn.1
    · exact ih hv hw hn.2

theorem levelAt_eq {levels : List Level} (hl : LevelsOk levels) {v : Level} (hv : v ∈ levels) : levelAt levels v.id = some v := by
  have hid : ∀ w : Level, levelId w = w.id := fun w => by cases w <;> rfl
  unfold levelAt
  cases h : levels.find? fun w => levelId w == v.id with
  | none =>
    have := List.find?_eq_none.1 h v hv
    rw [hid] at this
    exact absurd (beq_self_eq_true _) this
  | some w =>
    have h1 := List.find?_some h
    rw [hid] at h1
    rw [level_unique hl (List.mem_of_find?_eq_some h) hv (eq_of_beq h1)]

section levels
variable {levels : List Level} (hl : LevelsOk levels)
include hl

/-- The buses of a node/breaker voltage level. -/
theorem node_level {vl : String} {g : NodeBreaker.Gr} {opened retained : Nat → Bool} (hv : .node vl g opened retained ∈ levels) :
    ∃ c, NodeBreaker.compute vl .bus g opened retained = .ok c ∧ (∀ n i, OnView levels (.node vl n) i ↔ NodeBreaker.OnBus vl g .bus (Passing .bus opened retained) n i) ∧
      ∀ n, g.vertexAt n ≠ none → ∃ r, c.getBus n = .ok r := by
  have hg : Reached g := (hl.each _ hv).1
  obtain ⟨c, e1, e2, e3, _⟩ := compute_ok vl hg .bus opened retained
  refine ⟨c, e1, fun n i => ?_, fun n hn => ?_⟩
  · rw [← e3, ← getBus_eq_some]
    constructor
    · rintro ⟨g', o', r', c', hv', e', h⟩
      cases level_unique hl hv' hv rfl
      rw [e1] at e'
      cases Out.ok.inj e'
      exact h
    · intro h
      exact ⟨g, opened, retained, c, hv, e1, h⟩
  · obtain ⟨c', h1, h2⟩ := NodeBreaker.compute_total vl hg .bus opened retained
    rw [e1] at h1
    cases Out.ok.inj h1
    exact h2 n hn

theorem conf_level {vl : String} {g : BusBreaker.BGr} {opened : Nat → Bool} {types : Nat → List EqType} (hv : .conf vl g opened types ∈ levels) :
    ∃ c, BusBreaker.compute vl g opened types = .ok c ∧ BusBreaker.Correct g opened types c ∧ (∀ h i, OnView levels (.bus vl h) i ↔ c.byBus.get? h = some i) := by
  obtain ⟨hg, hf, hn, hgap⟩ := hl.each _ hv
  obtain ⟨c, e1, hC⟩ := BusBreaker.merged_buses_total_partial vl hg hf opened hn hgap
  refine ⟨c, e1, hC, fun h i => ?_⟩
  constructor
  · rintro ⟨g', o', t', c', hv', e', k⟩
    cases level_unique hl hv' hv rfl
    rw [e1] at e'
    cases Out.ok.inj e'
    exact k
  · intro k
    exact ⟨g, opened, types, c, hv, e1, k⟩

theorem onView_unique {p : Spot} {i j : String} (h : OnView levels p i) (h' : OnView levels p j) : i = j := by
  cases p with
  | node vl n =>
    obtain ⟨g, o, r, c, hv, _, _⟩ := h
    obtain ⟨_, _, hm, _⟩ := node_level hl hv
    exact ((hm n i).1 ⟨g, o, r, c, hv, ‹_›, ‹_›⟩).unique ((hm n j).1 h')
  | bus vl b =>
    obtain ⟨g, o, t, c, hv, _, _⟩ := h
    obtain ⟨c', _, _, hm⟩ := conf_level hl hv
    have h1 := (hm b i).1 ⟨g, o, t, c, hv, ‹_›, ‹_›⟩
    have h2 := (hm b j).1 h'
    rw [h1] at h2
    exact Option.some.inj h2

/-- The name of a bus gives its voltage level. -/
theorem onView_level {p : Spot} {i : String} (h : OnView levels p i) : ∃ m : Nat, i = (match p with | .node vl _ => vl | .bus vl _ => vl) ++ "_" ++ toString m := by
  cases p with
  | node vl n =>
    obtain ⟨g, o, r, c, hv, _, _⟩ := h
    obtain ⟨_, _, hm, _⟩ := node_level hl hv
    obtain ⟨_, _, m, _, _, e⟩ := (hm n i).1 ⟨g, o, r, c, hv, ‹_›, ‹_›⟩
    exact ⟨m, e⟩
  | bus vl b =>
    obtain ⟨g, o, t, c, hv, e, k⟩ := h
    obtain ⟨hg, hf, hn, hgap⟩ := hl.each _ hv
    have hC := BusBreaker.merged_buses_correct hg hf hn e
    obtain ⟨hs, h1⟩ := hC.listed b i k
    have h2 : i ∈ c.byId.map Prod.fst := List.mem_map.2 ⟨(i, hs), AMap.mem_of_get? h1, rfl⟩
    rw [BusBreaker.merged_ids hg hf hn e] at h2
    obtain ⟨m, _, e⟩ := List.mem_map.1 h2
    exact ⟨m, e.symm⟩

/-- The bus is listed. -/
theorem onView_listed {p : Spot} {i : String} (h : OnView levels p i) {bs : List CompBuses.Named} (hb : listAll viewBuses levels = .ok bs) : ∃ b, (i, b) ∈ bs := by
  cases p with
  | node vl n =>
    obtain ⟨g, o, r, c, hv, e, k⟩ := h
    obtain ⟨hg, hd⟩ := hl.each _ hv
    obtain ⟨c', l, e1, e2, _, e4⟩ := CompBuses.view_node (id := vl) (opened := o) (retained := r) hg hd
    rw [e] at e1
    cases Out.ok.inj e1
    obtain ⟨c', f1, _, f3, f4, f5, _⟩ := compute_ok vl hg .bus o r
    rw [e] at f1
    cases Out.ok.inj f1
    obtain ⟨nb, hnb⟩ := f5 n i ((f3 n i).1 (getBus_eq_some.1 k))
    obtain ⟨ref, hc, _⟩ := BusState.reference hg e hnb
    exact ⟨_, (CompBuses.listAll_mem hb _).2 ⟨_, hv, l, e2, (e4 i _).2 ⟨nb, hnb, hc⟩⟩⟩
  | bus vl b =>
    obtain ⟨g, o, t, c, hv, e, k⟩ := h
    obtain ⟨hg, hf, hn, hgap⟩ := hl.each _ hv
    obtain ⟨c', l, e1, e2, _, e4⟩ := CompBuses.view_conf (id := vl) (opened := o) hg hf hn hgap
    rw [e] at e1
    cases Out.ok.inj e1
    obtain ⟨hs, h1⟩ := (BusBreaker.merged_buses_correct hg hf hn e).listed b i k
    exact ⟨_, (CompBuses.listAll_mem hb _).2 ⟨_, hv, l, e2, (e4 i _).2 ⟨hs, h1, rfl⟩⟩⟩

/-! ### Inside a voltage level -/

/-- Chains of switches only. -/
abbrev Local (levels : List Level) : Spot → Spot → Prop := Chain levels []

theorem Local.onView {p q : Spot} (h : Local levels p q) {i : String} : OnView levels p i ↔ OnView levels q i := by
  induction h with
  | refl => exact Iff.rfl
  | step _ hs ih =>
    refine ih.trans ?_
    cases hs with
    | @switch id g o r e ed u w hv he hp hj =>
      obtain ⟨_, _, hm, _⟩ := node_level hl hv
      rw [hm, hm]
      exact ⟨fun k => k.conn (.step .refl he hp hj), fun k => k.conn (.step .refl he hp (NodeBreaker.Joins.symm hj))⟩
    | @coupler id g o t e ed u w b c hv he hp hj hb hc =>
      obtain ⟨c', e1, hC, hm⟩ := conf_level hl hv
      rw [hm, hm]
      have huw : BusBreaker.Linked g o u w := .step .refl he hp hj
      constructor
      · intro k
        obtain ⟨j, k1, k2⟩ := (hC.same u w b c hb hc).2 ⟨((hC.same u u b b hb hb).1 ⟨i, k, k⟩).1, huw⟩
        rw [k] at k1
        cases k1
        exact k2
      · intro k
        obtain ⟨j, k1, k2⟩ := (hC.same w u c b hc hb).2 ⟨((hC.same w w c c hc hc).1 ⟨i, k, k⟩).1, huw.symm⟩
        rw [k] at k1
        cases k1
        exact k2
    | through hm _ _ _ _ => exact absurd hm List.not_mem_nil

omit hl in
theorem Chain.trans {es : List (List End)} {p q r : Spot} (h : Chain levels es p q) (h' : Chain levels es q r) : Chain levels es p r := by
  induction h' with
  | refl => exact h
  | step _ hs ih => exact .step ih hs

omit hl in
theorem Local.chain {p q : Spot} (h : Local levels p q) {es : List (List End)} : Chain levels es p q := by
  induction h with
  | refl => exact .refl
  | step _ hs ih =>
    refine .step ih ?_
    cases hs with
    | switch hv he hp hj => exact .switch hv he hp hj
    | coupler hv he hp hj hb hc => exact .coupler hv he hp hj hb hc
    | through hm _ _ _ _ => exact absurd hm List.not_mem_nil

omit hl in
theorem local_node {vl : String} {g : NodeBreaker.Gr} {opened retained : Nat → Bool} (hv : .node vl g opened retained ∈ levels) {u w : Nat}
    (h : Conn g (Passing .bus opened retained) u w) : Local levels (.node vl u) (.node vl w) := by
  induction h with
  | refl => exact .refl
  | step _ he hp hj ih => exact .step ih (.switch hv he hp hj)

theorem local_conf {vl : String} {g : BusBreaker.BGr} {opened : Nat → Bool} {types : Nat → List EqType} (hv : .conf vl g opened types ∈ levels) {u w : Nat} {b c : BusBreaker.CBus}
    (h : BusBreaker.Linked g opened u w) (hb : BusAt g u b) (hc : BusAt g w c) : Local levels (.bus vl b.handle) (.bus vl c.handle) := by
  obtain ⟨hg, hf, _, _⟩ := hl.each _ hv
  unfold BusBreaker.Linked at h
  induction h generalizing c with
  | refl =>
    have : b = c := Option.some.inj (Option.some.inj (hb.symm.trans hc))
    subst this
    exact .refl
  | @step v w e ed h1 he hp hj ih =>
    obtain ⟨d, hd⟩ := hf.bus v (NodeBreaker.Conn.live hg.wf h1 (by unfold BusAt at hb; rw [hb]; simp))
    exact .step (ih hd) (.coupler hv he hp hj hd hc)

/-- The places of a bus are linked by switches. -/
theorem local_of_onView {p q : Spot} {i : String} (h : OnView levels p i) (h' : OnView levels q i) : Local levels p q := by
  have same : ∀ {v w : String} {m m' : Nat}, i = v ++ "_" ++ toString m → i = w ++ "_" ++ toString m' → v = w := fun e e' => name_level (e.symm.trans e')
  obtain ⟨m, e⟩ := onView_level hl h
  obtain ⟨m', e'⟩ := onView_level hl h'
  cases p with
  | node vl n =>
    obtain ⟨g, o, r, c, hv, _, _⟩ := id h
    obtain ⟨_, _, hm, _⟩ := node_level hl hv
    cases q with
    | node vl' n' =>
      cases same e e'
      exact local_node hv (((hm n i).1 h).same ((hm n' i).1 h'))
    | bus vl' b' =>
      cases same e e'
      obtain ⟨_, _, _, _, hv', _⟩ := h'
      cases level_unique hl hv hv' rfl
  | bus vl b =>
    obtain ⟨g, o, t, c, hv, _, _⟩ := id h
    obtain ⟨c', _, hC, hm⟩ := conf_level hl hv
    cases q with
    | node vl' n' =>
      cases same e e'
      obtain ⟨_, _, _, _, hv', _⟩ := h'
      cases level_unique hl hv hv' rfl
    | bus vl' b' =>
      cases same e e'
      have k := (hm b i).1 h
      have k' := (hm b' i).1 h'
      obtain ⟨u, x, hx, rfl⟩ := hC.known b i k
      obtain ⟨w, y, hy, rfl⟩ := hC.known b' i k'
      exact local_conf hl hv ((hC.same u w x y hx hy).1 ⟨i, k, k'⟩).2 hx hy

omit hl in
theorem local_from_node {vl : String} {n : Nat} {q : Spot} (h : Local levels (.node vl n) q) (hl : LevelsOk levels) :
    ∃ n', q = .node vl n' ∧ ∀ g opened retained, .node vl g opened retained ∈ levels → Conn g (Passing .bus opened retained) n n' := by
  induction h with
  | refl => exact ⟨n, rfl, fun _ _ _ _ => .refl⟩
  | step _ hs ih =>
    obtain ⟨n', e, hc⟩ := ih
    cases hs with
    | @switch id g o r _ _ u w hv he hp hj =>
      cases e
      refine ⟨w, rfl, fun g' o' r' hv' => ?_⟩
      cases level_unique hl hv' hv rfl
      exact .step (hc _ _ _ hv) he hp hj
    | coupler => cases e
    | through hm _ _ _ _ => exact absurd hm List.not_mem_nil

/-- Two branches on linked nodes make a bus. -/
theorem onView_of_two {a b : End} (ha : EndOk levels a) (hb : EndOk levels b) (hna : a.isNode = true) (hne : a ≠ b) (h : Local levels a.spot b.spot) : ∃ i, OnView levels a.spot i := by
  cases a with
  | bus _ _ _ => cases hna
  | node vl n =>
    obtain ⟨g, o, r, t, hv, ht, hbr⟩ := ha
    obtain ⟨n', e, hc⟩ := local_from_node h hl
    have hc := hc g o r hv
    cases b with
    | bus _ _ _ => cases e
    | node vl' m =>
      cases e
      obtain ⟨g', o', r', t', hv', ht', hbr'⟩ := hb
      cases level_unique hl hv' hv rfl
      have hnm : n ≠ n' := fun e => hne (by rw [e])
      obtain ⟨c, e1, hm, _⟩ := node_level hl hv
      have hf : t'.type ≠ .busbarSection := by
        rcases hbr' with h | h | h | h | h <;> rw [h] <;> decide
      obtain ⟨i, k, _⟩ := (NodeBreaker.same_bus_iff_busView (hl.each _ hv).1 e1 n n).2
        ⟨Or.inr ⟨n, n', hnm, .refl, hc, ⟨t, ht, hbr⟩, ⟨t', ht', hf⟩⟩, .refl⟩
      exact ⟨i, g, o, r, c, hv, e1, k⟩

/-- A branch connected to a configured bus makes a merged bus. -/
theorem onView_of_bus {a : End} (ha : EndOk levels a) (hna : a.isNode = false) (hlive : a.Live) : ∃ i, OnView levels a.spot i := by
  cases a with
  | node _ _ => cases hna
  | bus vl h connected =>
    obtain ⟨g, o, t, u, b, hv, hb, rfl, ht⟩ := ha
    obtain ⟨ty, h1, h2⟩ := ht hlive
    obtain ⟨hg, hf, hn, _⟩ := hl.each _ hv
    obtain ⟨c, e1, hC, hm⟩ := conf_level hl hv
    obtain ⟨i, k⟩ := (BusBreaker.merged_iff_qualifies hg hf hn e1 hb).2 ⟨u, b, ty, .refl, hb, h1, h2⟩
    exact ⟨i, (hm _ _).2 k⟩

/-- What the terminal answers. -/
theorem viewBus_ok {a : End} (ha : EndOk levels a) : ∃ r, viewBus levels a = .ok r ∧ ∀ i, r = some i ↔ a.Live ∧ OnView levels a.spot i := by
  cases a with
  | node vl n =>
    obtain ⟨g, o, r, t, hv, ht, _⟩ := ha
    obtain ⟨c, e1, hm, htot⟩ := node_level hl hv
    obtain ⟨x, hx⟩ := htot n (by rw [ht]; simp)
    refine ⟨x, ?_, fun i => ?_⟩
    · have := levelAt_eq hl hv
      simp only [CompBuses.Level.id] at this
      simp only [viewBus, this, e1, Out.bind_ok, hx]
    · constructor
      · rintro rfl
        exact ⟨trivial, g, o, r, c, hv, e1, hx⟩
      · rintro ⟨_, g', o', r', c', hv', e', k⟩
        cases level_unique hl hv' hv rfl
        rw [e1] at e'
        cases Out.ok.inj e'
        rw [hx] at k
        exact Out.ok.inj k
  | bus vl h connected =>
    obtain ⟨g, o, t, u, b, hv, hb, rfl, _⟩ := ha
    obtain ⟨c, e1, hC, hm⟩ := conf_level hl hv
    cases connected with
    | false => exact ⟨none, rfl, fun i => ⟨fun k => (by cases k), fun k => (by cases k.1)⟩⟩
    | true =>
      refine ⟨c.byBus.get? b.handle, ?_, fun i => ?_⟩
      · have := levelAt_eq hl hv
        simp only [CompBuses.Level.id] at this
        simp only [viewBus, this, e1, if_true, Out.map]
      · constructor
        · intro k
          exact ⟨rfl, (hm _ _).2 k⟩
        · intro k
          exact (hm _ _).1 k.2

theorem energized_iff {p : Spot} : (∃ i, OnView levels p i) ↔ Energized levels p := by
  cases p with
  | node vl n =>
    constructor
    · rintro ⟨i, g, o, r, c, hv, e, k⟩
      have := (NodeBreaker.same_bus_iff (hl.each _ hv).1 e n n).1 ⟨i, k, k⟩
      exact ⟨g, o, r, hv, this.1, this.2.1⟩
    · rintro ⟨g, o, r, hv, h1, h2⟩
      obtain ⟨c, e1, _⟩ := node_level hl hv
      obtain ⟨i, k, _⟩ := (NodeBreaker.same_bus_iff (hl.each _ hv).1 e1 n n).2 ⟨h1, h2, .refl⟩
      exact ⟨i, g, o, r, c, hv, e1, k⟩
  | bus vl h =>
    constructor
    · rintro ⟨i, k⟩
      obtain ⟨g, o, t, c, hv, e, k'⟩ := id k
      obtain ⟨hg, hf, hn, _⟩ := hl.each _ hv
      obtain ⟨u, b, hb, rfl⟩ := (BusBreaker.merged_buses_correct hg hf hn e).known h i k'
      exact ⟨g, o, t, u, b, hv, hb, rfl, (BusBreaker.merged_iff_qualifies hg hf hn e hb).1 ⟨i, k'⟩⟩
    · rintro ⟨g, o, t, u, b, hv, hb, rfl, hq⟩
      obtain ⟨hg, hf, hn, _⟩ := hl.each _ hv
      obtain ⟨c, e1, _, hm⟩ := conf_level hl hv
      obtain ⟨i, k⟩ := (BusBreaker.merged_iff_qualifies hg hf hn e1 hb).2 hq
      exact ⟨i, (hm _ _).2 k⟩

end levels

end Verif.Electric
