import Verif.Coarse.ReadProps
import Verif.Coarse.Examples
import Verif.BusBreaker.BusProps

/-!
C89: where the terminals of a bus/breaker voltage level are at the bus/branch level, with the merged buses of `Verif.BusBreaker`; the filter of the export.
-/

namespace Verif.Coarse

open Verif Verif.Xml Verif.XmlNet
open Verif.BusBreaker (BGr CBus Cache BusAt Linked Qualifies Furnished NoBusbar compute merged_buses_correct merged_iff_qualifies SameMerged sampleG sampleOpen sampleTypes
  sampleG_reached sampleG_furnished sampleTypes_ok)
open Verif.Graph (Reached)
open Verif.NodeBreaker (EqType)

section merged
variable {vl : String} {g : BGr} (hg : Reached g) (hf : Furnished g) {opened : Nat → Bool} {types : Nat → List EqType} (hn : NoBusbar types) {c : Cache}
  (hc : compute vl g opened types = .ok c) {handle : String → Option Nat} {W : Views} (hW : W.branch vl = mergedView c handle)
include hg hf hn hc hW

/-- **C89** A terminal of a bus/breaker voltage level has a bus at the bus/branch level if and only if closed switches link its bus to one where a branch, a transformer, a converter
station or a dangling line is connected. -/
theorem located_iff_qualifies {u : Nat} {b : CBus} (hu : BusAt g u b) (hh : handle b.id = some b.handle) {connected : Bool} :
    (∃ q, Sits .busBranch W vl (.bus b.id connected) q) ↔ Qualifies g opened types u := by
  rw [← merged_iff_qualifies hg hf hn hc hu]
  constructor
  · rintro ⟨q, m, h, _⟩
    rw [hW] at h
    simp only [mergedView, hh, Option.bind_some] at h
    exact ⟨m, h⟩
  · rintro ⟨m, h⟩
    refine ⟨.bus m connected, ?_⟩
    show OnView (W.branch vl) _ _
    rw [hW]
    refine ⟨m, by simp [mergedView, hh, h], ?_⟩
    cases connected
    · exact .inr ⟨rfl, rfl⟩
    · exact .inl ⟨by simp [mergedView, hh, h], rfl⟩

/-- **C89** At the bus/branch level, two terminals of a bus/breaker voltage level are on the same bus if and only if closed switches link their buses; each is connected as it was. -/
theorem together_iff_linked {u v : Nat} {b b' : CBus} (hu : BusAt g u b) (hv : BusAt g v b') (hh : handle b.id = some b.handle) (hh' : handle b'.id = some b'.handle)
    {k k' : Bool} {q q' : Place} (h : Sits .busBranch W vl (.bus b.id k) q) (h' : Sits .busBranch W vl (.bus b'.id k') q') :
    ∃ m m', q = .bus m k ∧ q' = .bus m' k' ∧ (m = m' ↔ Linked g opened u v) := by
  have key : ∀ {b : CBus} {k : Bool} {q : Place}, handle b.id = some b.handle → Sits .busBranch W vl (.bus b.id k) q → ∃ m, q = .bus m k ∧ c.byBus.get? b.handle = some m := by
    rintro b k q hh ⟨m, h, h2⟩
    rw [hW] at h h2
    simp only [mergedView, hh, Option.bind_some] at h h2
    refine ⟨m, ?_, h⟩
    cases k
    · rcases h2 with ⟨h2, _⟩ | ⟨_, h2⟩
      · cases h2
      · exact h2
    · rcases h2 with ⟨_, h2⟩ | ⟨h2, _⟩
      · exact h2
      · rw [if_pos rfl, h] at h2; cases h2
  obtain ⟨m, rfl, hm⟩ := key hh h
  obtain ⟨m', rfl, hm'⟩ := key hh' h'
  refine ⟨m, m', rfl, rfl, ?_⟩
  have hC := (merged_buses_correct hg hf hn hc).same u v b b' hu hv
  constructor
  · rintro rfl
    exact (hC.1 ⟨m, hm, hm'⟩).2
  · intro hl
    have hq := (merged_iff_qualifies hg hf hn hc hu).1 ⟨m, hm⟩
    obtain ⟨i, h1, h2⟩ := hC.2 ⟨hq, hl⟩
    rw [hm] at h1; rw [hm'] at h2
    cases h1; cases h2; rfl

/-- **C89, violation** Equipment in a part of a bus/breaker voltage level without any branch, say two loads and a generator, is written at the bus/branch level without its bus: the
document cannot be imported (`nowhere_refused`). -/
theorem alone_nowhere {K : XCodec} {A : Anon} {u : Nat} {b : CBus} (hu : BusAt g u b) (hh : handle b.id = some b.handle) (hq : ¬ Qualifies g opened types u) {connected : Bool} {s : String} :
    nodeOrBus K A .busBranch W s vl (.bus b.id connected) = [] := by
  have h0 : c.byBus.get? b.handle = none := by
    cases h : c.byBus.get? b.handle with
    | none => rfl
    | some m => exact absurd ((merged_iff_qualifies hg hf hn hc hu).1 ⟨m, h⟩) hq
  refine (nowhere_refused (L := .busBranch) (p := .bus b.id connected) (fun h => h) ?_ ?_).1
  · show (W.branch vl).bus _ = none
    rw [hW]
    simp [mergedView, hh, h0]
  · show (W.branch vl).connectable _ = none
    rw [hW]
    simp [mergedView, hh, h0]

end merged

/-- Buses A and B, linked, with a line on A; C and D, linked, with a load on C. -/
def sampleHandle : String → Option Nat
  | "A" => some 10
  | "B" => some 11
  | "C" => some 12
  | "D" => some 13
  | "E" => some 14
  | _ => none

def sampleCache : Cache := ⟨[("VL_0", [10, 11]), ("VL_1", [14])], [(10, "VL_0"), (11, "VL_0"), (14, "VL_1")]⟩

def sampleViews : Views := ⟨fun _ => mergedView sampleCache sampleHandle, fun _ => mergedView sampleCache sampleHandle⟩

theorem sampleCache_eq : compute "VL" sampleG sampleOpen sampleTypes = .ok sampleCache := by decide

example : Linked sampleG sampleOpen 0 1 := by
  obtain ⟨m, m', h1, h2, h⟩ := together_iff_linked sampleG_reached sampleG_furnished sampleTypes_ok sampleCache_eq (W := sampleViews) rfl (u := 0) (v := 1) (b := ⟨10, "A"⟩) (b' := ⟨11, "B"⟩)
    (by show _ = _; decide) (by show _ = _; decide) rfl rfl (k := true) (k' := false) (q := .bus "VL_0" true) (q' := .bus "VL_0" false) (terminal_at_level.1 (by decide)) (terminal_at_level.1 (by decide))
  cases h1; cases h2
  exact h.1 rfl

/-- The load of the bus C has no bus at the bus/branch level. -/
example : (¬ ∃ q, Sits .busBranch sampleViews "VL" (.bus "C" true) q) ∧ nodeOrBus toyX Anon.none .busBranch sampleViews "" "VL" (.bus "C" true) = [] ∧
    ¬ Qualifies sampleG sampleOpen sampleTypes 2 := by
  have h : ¬ ∃ q, Sits .busBranch sampleViews "VL" (.bus "C" true) q := by
    rintro ⟨q, hq⟩
    have := terminal_at_level.2 hq
    rw [show located .busBranch sampleViews "VL" (.bus "C" true) = none by decide] at this
    cases this
  have hq : ¬ Qualifies sampleG sampleOpen sampleTypes 2 := fun hq =>
    h ((located_iff_qualifies sampleG_reached sampleG_furnished sampleTypes_ok sampleCache_eq (W := sampleViews) rfl (u := 2) (b := ⟨12, "C"⟩) (by show _ = _; decide) rfl).2 hq)
  exact ⟨h, alone_nowhere sampleG_reached sampleG_furnished sampleTypes_ok sampleCache_eq rfl (u := 2) (b := ⟨12, "C"⟩) (by show _ = _; decide) rfl hq, hq⟩

/-! ### Anonymized switches -/

theorem writeList_ok {α : Type} {w : α → Out (List Cmd)} : ∀ {l : List α} {cs : List Cmd}, writeList w l = .ok cs → ∀ a ∈ l, ∃ c, w a = .ok c
  | [], _, _, a, ha => absurd ha List.not_mem_nil
  | b :: l, cs, h, a, ha => by
    obtain ⟨c, h1, h2⟩ := Out.bind_eq_ok.1 h
    obtain ⟨cs', h3, _⟩ := Out.bind_eq_ok.1 h2
    rcases List.mem_cons.1 ha with rfl | ha
    · exact ⟨c, h1⟩
    · exact writeList_ok h3 a ha

/-- **C89, violation** (`VoltageLevelXml.cpp` l. 180-181) The buses of a switch are asked for with its anonymized identifier: a node/breaker voltage level cannot be written at the
bus/breaker level when a retained switch is anonymized as none of the retained switches is called. -/
theorem anonymized_switch_refused {K : XCodec} {A : Anon} {W : Views} {vl : String} {t : Topo} (ht : t.isNode = true) {x : VSw} (hx : x ∈ (W.breaker vl).sws)
    (ha : ∀ y ∈ (W.breaker vl).sws, y.ident.head.id ≠ A.anon x.ident.head.id) (cs : List Cmd) : writeTopoAt K A .busBreaker W vl t ≠ .ok cs := by
  intro h
  cases t with
  | bus _ _ => cases ht
  | node bbs nsws conns calcs =>
    have h : writeBreakerView K A (W.breaker vl) = .ok cs := h
    obtain ⟨_, _, h2⟩ := Out.bind_eq_ok.1 h
    obtain ⟨_, h3, _⟩ := Out.bind_eq_ok.1 h2
    obtain ⟨c, hc⟩ := writeList_ok h3 x hx
    have hm : ((W.breaker vl).sws.map fun y => y.ident.head.id).contains (A.anon x.ident.head.id) = false := by
      rw [Bool.eq_false_iff, ne_eq, List.contains_iff_mem, List.mem_map]
      rintro ⟨y, hy, e⟩
      exact ha y hy e
    rw [writeVSwIn, hm] at hc
    cases hc

/-- The switch of the example, called "A" once anonymized. -/
example : ∃ x ∈ (mixedViews.breaker "V1").sws, ∀ y ∈ (mixedViews.breaker "V1").sws, y.ident.head.id ≠ (⟨fun _ => "A", .ok⟩ : Anon).anon x.ident.head.id := by decide

/-! ### The filter -/

/-- **C89, violation** (`BusFilter.cpp` l. 32-44) The filter of the export keeps every bus and every equipment, whether or not only the main component is asked for. -/
theorem filter_keeps_all (onlyMainCc : Bool) (b : String) (ends : List (Option String)) : testBus (createFilter onlyMainCc) b = true ∧ testEquip (createFilter onlyMainCc) ends = true :=
  ⟨rfl, rfl⟩

/-- **C89, violation** (`BusFilter.cpp` l. 50-62) With a set of buses, the filter keeps the buses of the set, and the equipment that is on none of them. -/
theorem filter_inverted {buses : List String} (h : buses ≠ []) : (∀ b, testBus buses b = true ↔ b ∈ buses) ∧
    ∀ ends, testEquip buses ends = true ↔ ∀ c, some c ∈ ends → c ∉ buses := by
  have he : buses.isEmpty = false := by cases buses with | nil => exact absurd rfl h | cons a l => rfl
  refine ⟨fun b => by simp [testBus, he], fun ends => ?_⟩
  simp only [testEquip, he]
  constructor
  · intro h c hc hm
    simp only [Bool.false_eq_true, if_false, Bool.not_eq_true', List.any_eq_false] at h
    exact h _ hc (by simpa using hm)
  · intro h
    simp only [Bool.false_eq_true, if_false, Bool.not_eq_true', List.any_eq_false]
    intro o ho ht
    cases o with
    | none => cases ht
    | some c => exact h c ho (by simpa using ht)

example : testBus ["A", "B"] "A" = true ∧ testEquip ["A", "B"] [some "A", some "C"] = false ∧ testEquip ["A", "B"] [some "C", none] = true := by decide

end Verif.Coarse
