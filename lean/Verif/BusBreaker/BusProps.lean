import Verif.BusBreaker.Lemmas

/-!
C23: merged buses are the classes of configured buses linked by closed switches.
-/

namespace Verif.BusBreaker

open Verif Verif.Graph
open Verif.NodeBreaker (EqType Conn Branchy)

/-! Sample: buses A(0)-B(1) closed, B-C(2) open, C-D(3) closed, E(4) alone; a line on A, a load on C, a dangling line and a
    generator on E.  Slot 5 was freed. -/

def sampleG : BGr := run {} [.addVertex, .addVertex, .addVertex, .addVertex, .addVertex,
  .setVertexObject 0 (some ⟨10, "A"⟩), .setVertexObject 1 (some ⟨11, "B"⟩), .setVertexObject 2 (some ⟨12, "C"⟩),
  .setVertexObject 3 (some ⟨13, "D"⟩), .setVertexObject 4 (some ⟨14, "E"⟩),
  .addEdge 0 1 (some ⟨20, "S1"⟩), .addEdge 1 2 (some ⟨21, "S2"⟩), .addEdge 2 3 (some ⟨22, "S3"⟩)]

def sampleOpen (h : Nat) : Bool := h == 21

def sampleTypes (h : Nat) : List EqType :=
  if h = 10 then [.line] else if h = 12 then [.load] else if h = 14 then [.generator, .danglingLine] else []

theorem sampleG_reached : Reached sampleG := ⟨_, rfl⟩

theorem furnished_of_vertices {g : BGr} (l : List CBus) (h : g.vertices = l.map (fun b => some (some b)))
    (hn : (l.map CBus.handle).Nodup) : Furnished g := by
  have hat : ∀ u b, BusAt g u b ↔ l[u]? = some b := by
    intro u b
    unfold BusAt G.vertexAt
    rw [h, List.getElem?_map]
    cases l[u]? <;> simp
  constructor
  · intro u hu
    unfold G.vertexAt at hu
    rw [h, List.getElem?_map] at hu
    cases hl : l[u]? with
    | none => rw [hl] at hu; exact absurd rfl hu
    | some b => exact ⟨b, (hat u b).mpr hl⟩
  · intro u v b b' hu hv he
    have h1 := (hat u b).mp hu
    have h2 := (hat v b').mp hv
    obtain ⟨k1, k1'⟩ := List.getElem?_eq_some_iff.mp h1
    obtain ⟨k2, k2'⟩ := List.getElem?_eq_some_iff.mp h2
    have e : (l.map CBus.handle)[u]'(by simpa using k1) = (l.map CBus.handle)[v]'(by simpa using k2) := by
      simp [k1', k2', he]
    exact (List.getElem_inj hn).mp e

theorem sampleG_furnished : Furnished sampleG :=
  furnished_of_vertices [⟨10, "A"⟩, ⟨11, "B"⟩, ⟨12, "C"⟩, ⟨13, "D"⟩, ⟨14, "E"⟩] (by decide) (by decide)

theorem sampleTypes_ok : NoBusbar sampleTypes := by
  intro h; unfold sampleTypes; split
  · decide
  · split
    · decide
    · split <;> decide

example : compute "VL" sampleG sampleOpen sampleTypes =
    .ok ⟨[("VL_0", [10, 11]), ("VL_1", [14])], [(10, "VL_0"), (11, "VL_0"), (14, "VL_1")]⟩ := by decide

/-- C23: when the computation ends normally, two configured buses are in the same merged bus exactly when closed switches
    link them and a branch, transformer, converter station or dangling line is connected to a bus of their class; a
    configured bus is in at most one merged bus; no merged bus is empty or lists a configured bus twice; the ids of the
    merged buses are distinct. -/
theorem merged_buses_correct {vl : String} {g : BGr} (hg : Reached g) (hf : Furnished g) {opened : Nat → Bool}
    {types : Nat → List EqType} (hn : NoBusbar types) {c : Cache} (hc : compute vl g opened types = .ok c) :
    Correct g opened types c := by
  rcases compute_cases (vl := vl) hg hf opened hn with ⟨_, h⟩ | ⟨_, st, h1, h2, h3⟩
  · rw [hc] at h; cases h
  · rw [hc] at h1; cases h1
    exact h2.correct hf h3

/-- C23: the ids are `vl_0`, `vl_1`, ... in the order of creation. -/
theorem merged_ids {vl : String} {g : BGr} (hg : Reached g) (hf : Furnished g) {opened : Nat → Bool}
    {types : Nat → List EqType} (hn : NoBusbar types) {c : Cache} (hc : compute vl g opened types = .ok c) :
    c.byId.map Prod.fst = (List.range c.byId.length).map (fun n => vl ++ "_" ++ toString n) := by
  rcases compute_cases (vl := vl) hg hf opened hn with ⟨_, h⟩ | ⟨_, st, h1, h2, h3⟩
  · rw [hc] at h; cases h
  · rw [hc] at h1; cases h1
    have hl := congrArg List.length h2.keys
    simp only [List.length_map, List.length_range] at hl
    rw [hl]; exact h2.keys

/-- C23: a configured bus belongs to at most one merged bus. -/
theorem in_one_merged_bus {vl : String} {g : BGr} (hg : Reached g) (hf : Furnished g) {opened : Nat → Bool}
    {types : Nat → List EqType} (hn : NoBusbar types) {c : Cache} (hc : compute vl g opened types = .ok c)
    {id id' : String} {hs hs' : List Nat} (h1 : (id, hs) ∈ c.byId) (h2 : (id', hs') ∈ c.byId) {h : Nat} (k1 : h ∈ hs)
    (k2 : h ∈ hs') : id = id' ∧ hs = hs' := by
  have hC := merged_buses_correct hg hf hn hc
  have e1 := AMap.get?_of_mem hC.ids h1
  have e2 := AMap.get?_of_mem hC.ids h2
  have q1 := ((hC.lists id hs e1).2.2 h).mp k1
  have q2 := ((hC.lists id' hs' e2).2.2 h).mp k2
  rw [q1] at q2
  have := Option.some.inj q2
  subst this
  rw [e1] at e2
  exact ⟨rfl, Option.some.inj e2⟩

/-- C23: a configured bus has a merged bus exactly when its class qualifies. -/
theorem merged_iff_qualifies {vl : String} {g : BGr} (hg : Reached g) (hf : Furnished g) {opened : Nat → Bool}
    {types : Nat → List EqType} (hn : NoBusbar types) {c : Cache} (hc : compute vl g opened types = .ok c)
    {u : Nat} {b : CBus} (hu : BusAt g u b) :
    (∃ id, c.byBus.get? b.handle = some id) ↔ Qualifies g opened types u := by
  have hC := merged_buses_correct hg hf hn hc
  have := hC.same u u b b hu hu
  constructor
  · rintro ⟨id, h⟩; exact (this.mp ⟨id, h, h⟩).1
  · intro h
    obtain ⟨id, h, _⟩ := this.mpr ⟨h, .refl⟩
    exact ⟨id, h⟩

example : ∃ c, compute "VL" sampleG sampleOpen sampleTypes = .ok c ∧ Correct sampleG sampleOpen sampleTypes c ∧
    SameMerged c ⟨10, "A"⟩ ⟨11, "B"⟩ ∧ c.byBus.get? 13 = none := by
  refine ⟨_, rfl, merged_buses_correct (vl := "VL") sampleG_reached sampleG_furnished sampleTypes_ok rfl, ⟨"VL_0", by decide⟩, by decide⟩

/-- C23: the computation ends normally except when the first vertex of the graph comes after as many free slots as there
    are vertices.  Missing for the full property: that case (`merged_buses_undefined`). -/
theorem merged_buses_total_partial (vl : String) {g : BGr} (hg : Reached g) (hf : Furnished g) (opened : Nat → Bool)
    {types : Nat → List EqType} (hn : NoBusbar types) (hgap : ¬ Gap g) :
    ∃ c, compute vl g opened types = .ok c ∧ Correct g opened types c := by
  rcases compute_cases (vl := vl) hg hf opened hn with ⟨h, _⟩ | ⟨_, st, h1, h2, h3⟩
  · exact absurd h hgap
  · exact ⟨_, h1, h2.correct hf h3⟩

/-- No removed bus before the first one: no gap. -/
theorem no_gap_of_first {g : BGr} (h : g.vertexAt 0 ≠ none) (hg : Reached g) : ¬ Gap g := by
  rintro ⟨v, _, h2, h3⟩
  have h0 : v ≤ 0 := h2 0 h
  obtain ⟨L, _, l2, l3⟩ := (counts_exact hg).1
  have : 0 < L.length := List.length_pos_of_mem ((l2 0).mpr h)
  omega

example : ∃ c, compute "VL" sampleG sampleOpen sampleTypes = .ok c ∧ Correct sampleG sampleOpen sampleTypes c :=
  merged_buses_total_partial "VL" sampleG_reached sampleG_furnished sampleOpen sampleTypes_ok
    (no_gap_of_first (by decide) sampleG_reached)

/-- Finding (C23): with a gap the computation reads `encountered` out of range (undefined behaviour). -/
theorem merged_buses_ub_iff (vl : String) {g : BGr} (hg : Reached g) (hf : Furnished g) (opened : Nat → Bool)
    {types : Nat → List EqType} (hn : NoBusbar types) : compute vl g opened types = .ub ↔ Gap g := by
  rcases compute_cases (vl := vl) hg hf opened hn with ⟨h, h'⟩ | ⟨h, st, h1, _⟩
  · exact ⟨fun _ => h, fun _ => h'⟩
  · rw [h1]; exact ⟨nofun, fun hh => absurd hh h⟩

/-- Two buses created, the first removed: the merged buses of the remaining one cannot be computed. -/
def gapG : BGr := run {} [.addVertex, .addVertex, .setVertexObject 0 (some ⟨10, "A"⟩), .setVertexObject 1 (some ⟨11, "B"⟩),
  .removeVertex 0]

theorem merged_buses_undefined : Reached gapG ∧ gapG.vertexAt 1 = some (some ⟨11, "B"⟩) ∧
    ∀ opened types, compute "VL" gapG opened types = .ub :=
  ⟨⟨_, rfl⟩, by decide, fun _ _ => rfl⟩

end Verif.BusBreaker
