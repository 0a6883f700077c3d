import Verif.Build.Example

/-! The theorems of C98 on the network of `Example.lean`, and what happens without their hypotheses. -/

namespace Verif.Build

open Verif Verif.Xml Verif.XmlNet Verif.Setters Verif.ReadBack

variable {T : Type} {l : List Item}

def done {α : Type} : Out α → Bool
  | .ok _ => true
  | _ => false

theorem accepted {α : Type} {o : Out α} (h : done o = true) : ∃ w, o = .ok w := by
  cases o with
  | ok w => exact ⟨w, rfl⟩
  | thrown => cases h
  | ub => cases h

/-! ### Histories -/

theorem run_append : ∀ {os ps : List (Call T)} {x y : Net T}, runCalls x os = .ok y → runCalls x (os ++ ps) = runCalls y ps := by
  intro os
  induction os with
  | nil => intro ps x y h; simp only [runCalls, Out.ok.injEq] at h; subst h; rfl
  | cons o os ih =>
    intro ps x y h
    simp only [runCalls, List.cons_append] at h ⊢
    cases hz : o.run x with
    | ok z => rw [hz] at h; exact ih h
    | thrown => rw [hz] at h; exact ih h
    | ub => rw [hz] at h; cases h

theorem safe_append : ∀ {os ps : List (Call T)} {x : Net T}, SafeCalls x os → (∀ y, runCalls x os = .ok y → SafeCalls y ps) → SafeCalls x (os ++ ps) := by
  intro os
  induction os with
  | nil => intro ps x _ h; exact h x rfl
  | cons o os ih =>
    intro ps x hs h
    refine ⟨hs.1, fun y hy => ih (hs.2.1 y hy) fun z hz => h z ?_, fun ht => ih (hs.2.2 ht) fun z hz => h z ?_⟩
    · simp only [runCalls, hy]; exact hz
    · simp only [runCalls, ht]; exact hz

theorem safe_always : ∀ {os : List (Call T)}, (∀ o ∈ os, ∀ x, o.Safe x) → ∀ x, SafeCalls x os := by
  intro os
  induction os with
  | nil => intro _ x; trivial
  | cons o os ih =>
    intro h x
    exact ⟨h o List.mem_cons_self x, fun y _ => ih (fun p hp => h p (List.mem_cons_of_mem _ hp)) y, fun _ => ih (fun p hp => h p (List.mem_cons_of_mem _ hp)) x⟩

theorem skeleton_safe (x : Net String) : SafeCalls x skeleton := by
  refine safe_always (fun o ho => ?_) x
  simp only [skeleton, List.mem_cons, List.not_mem_nil, or_false] at ho
  rcases ho with rfl | rfl | rfl | rfl | rfl | rfl | rfl | rfl | rfl | rfl | rfl <;> intro x <;> refine ⟨?_, trivial, trivial⟩
  all_goals first
    | exact trivial
    | (intro n hn; cases hn; decide +kernel)

theorem no_reference : Refers (RefById l) none := by
  intro r hr; cases hr

theorem aDl_doubles : ∀ y, aDl.gen = some y → y.minP.InRange ∧ y.maxP.InRange := by
  intro y hy
  simp only [aDl, Option.some.injEq] at hy
  subst hy
  decide +kernel

theorem equipment_safe (x : Net String) : SafeCalls x equipment := by
  refine safe_always (fun o ho => ?_) x
  simp only [equipment, List.mem_cons, List.not_mem_nil, or_false] at ho
  rcases ho with rfl | rfl | rfl | rfl | rfl | rfl | rfl | rfl | rfl | rfl | rfl | rfl | rfl <;> intro x <;> refine ⟨trivial, ?_, ?_⟩
  all_goals first
    | exact trivial
    | exact no_reference
    | exact aDl_doubles

theorem regulation_safe : SafeCalls (equippedNet equippedV1 30) regulation := by
  refine ⟨⟨(show 0 < Enums.energySource.enumerators.length by decide), trivial, ?_⟩, fun y hy => ⟨⟨?_, ?_⟩, fun _ _ => trivial, fun _ => trivial⟩, fun ht => ⟨⟨?_, ?_⟩, fun _ _ => trivial, fun _ => trivial⟩⟩
  · rintro r ⟨⟩
    exact ⟨tw2Item "P" { aTw2 with ident := ident "T", side1 := ⟨"V1", nodeTerm 4⟩, side2 := ⟨"V2", busTerm "B"⟩ }, by decide +kernel, by decide, 2, .equip 2, .inr (by decide)⟩
  all_goals intro s _; first
    | exact trivial
    | exact fun _ _ => trivial

def allCalls : List (Call String) := skeleton ++ (equipment ++ regulation)

theorem allCalls_run : runCalls emptyNet allCalls = .ok builtNet := by
  rw [allCalls, run_append skeleton_run, run_append equipment_run, regulation_run]

theorem allCalls_safe : SafeCalls emptyNet allCalls := by
  refine safe_append (skeleton_safe _) fun y hy => safe_append (equipment_safe _) fun z hz => ?_
  rw [skeleton_run] at hy; cases hy
  rw [equipment_run] at hz; cases hz
  exact regulation_safe

theorem builtNet_holds : NetValid builtNet ∧ TidyNet builtNet ∧ NetInside builtNet := by
  obtain ⟨h1, h2, h3⟩ := new_network_valid emptyNet_new
  exact built_network_holds _ h1 h2 h3 allCalls_safe allCalls_run

theorem plain_fits {i n : String} {f : Bool} : IdentFits ⟨⟨i, n, f⟩, [], []⟩ := nofun

theorem noLims_fit : LimsFit noLims := ⟨nofun, nofun, nofun⟩

theorem fresh_fits : WindingFits none none := ⟨nofun, nofun⟩

theorem bus_fits {n b : String} {r : Option Ref} (h : RefFits r) : InjectionFits (ident n) (busTerm b) r := ⟨plain_fits, trivial, h⟩

theorem no_ref : RefFits none := nofun

theorem two_ok {α : Type} {P : α → Prop} {a b : α} (ha : P a) (hb : P b) : ∀ x ∈ [a, b], P x := by
  intro x hx
  simp only [List.mem_cons, List.not_mem_nil, or_false] at hx
  rcases hx with rfl | rfl
  · exact ha
  · exact hb

theorem builtNet_fits : NetFits textDates builtNet where
  ident := plain_fits
  forecast := by decide
  date := rfl
  subs := only_ok {
    ident := plain_fits
    tags := by decide
    vls := two_ok
      ⟨plain_fits, ⟨only_ok ⟨plain_fits, by decide⟩, only_ok ⟨plain_fits, by decide, by decide⟩, only_ok ⟨by decide, by decide⟩⟩,
        ⟨only_ok ⟨plain_fits, (by simp [PlaceFits, nodeTerm]), (by rintro r ⟨⟩; decide)⟩, none_in, none_in, none_in, none_in, none_in, none_in,
          only_ok ⟨plain_fits, (by simp [PlaceFits, nodeTerm]), no_ref⟩⟩⟩
      ⟨plain_fits, ⟨two_ok ⟨rfl, rfl⟩ ⟨rfl, rfl⟩, only_ok plain_fits⟩,
        ⟨none_in, only_ok (bus_fits no_ref), only_ok (bus_fits no_ref), only_ok ⟨bus_fits no_ref, by decide, by rintro b g m ⟨⟩; decide⟩,
          only_ok ⟨bus_fits no_ref, (by rintro z ⟨⟩; decide +kernel), ⟨nofun, nofun, nofun⟩⟩, only_ok (bus_fits no_ref), only_ok (bus_fits no_ref), none_in⟩⟩
    tw2s := only_ok ⟨plain_fits, ⟨(by simp [BranchFits, nodeTerm]), trivial⟩, fresh_fits, noLims_fit, noLims_fit⟩
    tw3s := only_ok ⟨plain_fits, ⟨(by simp [PlaceFits, nodeTerm, newLeg]), fresh_fits, noLims_fit⟩, ⟨trivial, fresh_fits, noLims_fit⟩, ⟨trivial, fresh_fits, noLims_fit⟩⟩ }
  lines := two_ok (P := AnyLineFits) ⟨plain_fits, ⟨(by simp [BranchFits, nodeTerm]), trivial⟩, noLims_fit, noLims_fit⟩
    ⟨plain_fits, ⟨(by simp [BranchFits, nodeTerm]), trivial⟩, noLims_fit, noLims_fit⟩
  hvdcs := only_ok plain_fits

theorem builtNet_kept : Kept rangeX (netNumbers builtNet) := rangeX_kept (by decide +kernel)

/-- The network that was built from nothing is exported and imported. -/
example (i : Bool) : ∃ cs toks z, exportNet rangeX textDates builtNet = .ok cs ∧ document i cs = .ok toks ∧ importSettled rangeX textDates toks = .ok z ∧
    SameNet (netItems builtNet) builtNet z ∧ ById z ∧ (ById builtNet → z = builtNet) :=
  built_network_comes_back rangeX_integers rangeX_doubles emptyNet_new allCalls_safe allCalls_run builtNet_fits builtNet_kept i

/-- It has every kind of equipment. -/
example : (netItems builtNet).length = 22 ∧ 80 < (netNumbers builtNet).length := by decide +kernel

example : NetValid emptyNet ∧ TidyNet emptyNet ∧ NetInside emptyNet := new_network_valid emptyNet_new

example : ∃ y, (Call.add (.line (named "LN2") ("V1", atNode 8) ("V2", atBus "B") aCharac)).run builtNet = .ok y ∧ NetValid y ∧ TidyNet y ∧ NetInside y := by
  obtain ⟨y, hy⟩ := accepted (o := (Call.add (.line (named "LN2") ("V1", atNode 8) ("V2", atBus "B") aCharac)).run builtNet) (by decide +kernel)
  exact ⟨y, hy, safe_call_keeps (o := .add (.line (named "LN2") ("V1", atNode 8) ("V2", atBus "B") aCharac)) builtNet_holds.1 builtNet_holds.2.1 builtNet_holds.2.2 ⟨trivial, trivial, trivial⟩ hy⟩

/-! ### An imported network that grows -/

def extension : List (Call String) := [.add (.sub 0 (.vl 1 (.load (named "L9") (atBus "B2") aLoad))), .add (.sub 0 (.vl 1 (.load (named "L9") (atBus "B2") aLoad)))]

def extendedNet : Net String := honestNetOf (settleVL (netItems goodNet) goodVL)
  { settleVL (netItems goodNet) goodVL2 with equip := { settleEquip (netItems goodNet) goodVL2.equip with loads := [someLoad, { aLoad with ident := ident "L9", term := busTerm "B2" }] } }

theorem extension_run : runCalls (settled goodNet) extension = .ok extendedNet := by decide +kernel

theorem extension_safe (x : Net String) : SafeCalls x extension := by
  refine safe_always (fun o ho => ?_) x
  simp only [extension, List.mem_cons, List.not_mem_nil, or_false] at ho
  rcases ho with rfl | rfl <;> exact fun _ => ⟨trivial, trivial, trivial⟩

theorem extendedNet_fits : NetFits textDates extendedNet := by
  have h : NetFits textDates (settled goodNet) := net_fits goodNet_consistent.1.ids goodNet_fits.2.1
  have hs := h.subs (settleSubstation (netItems goodNet) goodSubstation) List.mem_cons_self
  have hv := hs.vls (settleVL (netItems goodNet) goodVL) List.mem_cons_self
  have hw := hs.vls (settleVL (netItems goodNet) goodVL2) (List.mem_cons_of_mem _ List.mem_cons_self)
  have hl := hw.equip.loads someLoad List.mem_cons_self
  exact { h with subs := only_ok { hs with vls := two_ok hv { hw with equip := { hw.equip with loads := two_ok hl (bus_fits no_ref) } } } }

example (i : Bool) : ∃ toks, importSettled rangeX textDates toks = .ok (settled goodNet) ∧ ∃ cs toks' z, exportNet rangeX textDates extendedNet = .ok cs ∧
    document i cs = .ok toks' ∧ importSettled rangeX textDates toks' = .ok z ∧ SameNet (netItems extendedNet) extendedNet z ∧ ById z ∧ (ById extendedNet → z = extendedNet) := by
  obtain ⟨_, toks, _, _, h, _⟩ := goodNet_exported i
  exact ⟨toks, h, extended_network_comes_back rangeX_integers rangeX_doubles h settledNet_inside (extension_safe _) extension_run extendedNet_fits
    (rangeX_kept (by decide +kernel)) i⟩

/-! ### What the adders accept -/

theorem few : Countable (netItems builtNet) := by unfold Countable; decide +kernel
theorem apart : ((netItems builtNet).flatMap Item.names).Nodup := by decide +kernel
def V2 : VL := equippedV2 40
def P : Substation := ⟨⟨⟨"P", "", false⟩, [], []⟩, some 0, "tso", ["a", "b"], [builtV1, V2], [], []⟩
abbrev items : List Item := netItems builtNet

example : ∃ i t, Attached items V2 (named "new") (atBus "B") i t ∧ LoadValid { aLoad with ident := i, term := t } := by
  obtain ⟨w, h⟩ := accepted (o := (VLAdd.load (named "new") (atBus "B") aLoad).add items V2) (by decide +kernel)
  obtain ⟨i, t, h1, h2, _⟩ := (load_added_iff few).1 h
  exact ⟨i, t, h1, h2⟩

example : ∃ i t, Attached items builtV1 ⟨"G", "", true, true⟩ (atNode 9) i t := by
  obtain ⟨w, h⟩ := accepted (o := (VLAdd.gen ⟨"G", "", true, true⟩ (atNode 9) (some true) true (aGen (some ⟨"L", ""⟩))).add items builtV1) (by decide +kernel)
  obtain ⟨i, t, _, h1, _⟩ := (generator_added_iff few (by decide)).1 h
  exact ⟨i, t, h1⟩

example : ∃ i t, Attached items V2 (named "new") (atBus "B") i t := by
  obtain ⟨w, h⟩ := accepted (o := (VLAdd.bat (named "new") (atBus "B") aBat).add items V2) (by decide +kernel)
  obtain ⟨i, t, h1, _⟩ := (battery_added_iff few).1 h
  exact ⟨i, t, h1⟩

example : ∃ i t, Attached items V2 (named "new") (atBus "B") i t := by
  obtain ⟨w, h⟩ := accepted (o := (VLAdd.vsc (named "new") (atBus "B") (some false) aVsc).add items V2) (by decide +kernel)
  obtain ⟨i, t, _, h1, _⟩ := (vsc_added_iff few).1 h
  exact ⟨i, t, h1⟩

example : ∃ i t, Attached items V2 (named "new") (atBus "B") i t := by
  obtain ⟨w, h⟩ := accepted (o := (VLAdd.lcc (named "new") (atBus "B") aLcc).add items V2) (by decide +kernel)
  obtain ⟨i, t, h1, _⟩ := (lcc_added_iff few).1 h
  exact ⟨i, t, h1⟩

example : ∃ i t, Attached items V2 (named "new") (atBus "B") i t := by
  obtain ⟨w, h⟩ := accepted (o := (VLAdd.svc (named "new") (atBus "B") (some 2) true aSvc).add items V2) (by decide +kernel)
  obtain ⟨i, t, _, h1, _⟩ := (svc_added_iff few).1 h
  exact ⟨i, t, h1⟩

example : ∃ i t, Attached items V2 (named "new") (atBus "B") i t := by
  obtain ⟨w, h⟩ := accepted (o := (VLAdd.sh (named "new") (atBus "B") (some 2) (some (.nonLinear [(1, 2), (3, .nan)])) true aSh).add items V2) (by decide +kernel)
  obtain ⟨i, t, _, _, _, h1, _⟩ := (shunt_added_iff few).1 h
  exact ⟨i, t, h1⟩

example : ∃ i t, Attached items V2 (named "new") (atBus "B#0") i t ∧ ∀ y, aDl.gen = some y → GenerationFit y := by
  obtain ⟨w, h⟩ := accepted (o := (VLAdd.dl (named "new") (atBus "B#0") aDl).add items V2) (by decide +kernel)
  obtain ⟨i, t, h1, _, h2, _⟩ := (dangling_added_iff few).1 h
  exact ⟨i, t, h1, h2⟩

example : NewName items ⟨"B", "", false, true⟩ "B#1" := by
  obtain ⟨n, buses, sws, h1, h2, h3⟩ := (bus_added_iff few).1 (show (VLAdd.bus ⟨"B", "", false, true⟩).add items V2 =
    .ok { V2 with topo := .bus [⟨(named "B").ident "B", .nan, .nan⟩, ⟨⟨⟨"B#0", "other", false⟩, [], []⟩, .nan, .nan⟩, ⟨⟨⟨"B#1", "", false⟩, [], []⟩, .nan, .nan⟩] [⟨(named "BS").ident "BS", true, "B", "B#0"⟩] } by decide +kernel)
  cases h2
  cases h3
  exact h1

example : ∃ y ∈ items, y.id = "B#0" ∧ y.obj = .bus "V2" := by
  obtain ⟨w, h⟩ := accepted (o := (VLAdd.busSwitch (named "new") "B" "B#0" false).add items V2) (by decide +kernel)
  obtain ⟨_, _, _, _, _, _, _, _, h2, _⟩ := (busSwitch_added_iff few).1 h
  exact h2

example : ∀ x ∈ items, ∀ e ∈ x.ends, e.vl = "V1" → e.place ≠ .node 9 := by
  obtain ⟨w, h⟩ := accepted (o := (VLAdd.busbar (named "new") (some 9)).add items builtV1) (by decide +kernel)
  obtain ⟨_, k, _, _, _, _, _, h1, _, h2, _⟩ := (busbar_added_iff few).1 h
  cases h1
  exact h2

example : ∃ n, NewName items (named "new") n := by
  obtain ⟨w, h⟩ := accepted (o := (VLAdd.nodeSwitch (named "new") (some 9) (some 8) (some 1) true false).add items builtV1) (by decide +kernel)
  obtain ⟨n, _, _, _, _, _, _, _, h1, _⟩ := (nodeSwitch_added_iff few).1 h
  exact ⟨n, h1⟩

example : ∃ w, (VLAdd.connection (some 9) (some 8)).add items builtV1 = .ok w :=
  ⟨_, connection_added_iff.2 ⟨9, 8, _, _, _, _, rfl, rfl, rfl, rfl⟩⟩

example : ∃ n t, NewName items (named "V3") n ∧ NewTopo 1 t := by
  obtain ⟨w, h⟩ := accepted (o := (SubAdd.level (named "V3") 20 .nan .nan (some 1)).add items P) (by decide +kernel)
  obtain ⟨n, k, t, h1, h2, h3, _⟩ := (level_added_iff few).1 h
  cases h2
  exact ⟨n, t, h1, h3⟩

example : ∃ s1 s2 i, SideOf items (some "P") ("V1", atNode 9) s1 ∧ SideOf items (some "P") ("V2", atBus "B") s2 ∧ Placed items (named "new") [s1, s2] i := by
  obtain ⟨w, h⟩ := accepted (o := (SubAdd.tw2 (named "new") ("V1", atNode 9) ("V2", atBus "B") aTw2).add items P) (by decide +kernel)
  obtain ⟨s1, s2, i, h1, h2, h3, _⟩ := (tw2_added_iff apart few).1 h
  exact ⟨s1, s2, i, h1, h2, h3⟩

example : ∃ s1 s2 s3 i, Placed items (named "new") [s1, s2, s3] i := by
  obtain ⟨w, h⟩ := accepted (o := (SubAdd.tw3 (named "new") (some (aLeg "V1" (atNode 9))) (some (aLeg "V1" (atNode 10))) (some (aLeg "V2" (atBus "B"))) 220).add items P) (by decide +kernel)
  obtain ⟨_, _, _, s1, s2, s3, i, _, _, _, _, _, _, _, h1, _⟩ := (tw3_added_iff apart few).1 h
  exact ⟨s1, s2, s3, i, h1⟩

example : ∃ s1 s2 i, Placed items (named "new") [s1, s2] i := by
  obtain ⟨w, h⟩ := accepted (o := (NetAdd.line (named "new") ("V1", atNode 9) ("V2", atBus "B") aCharac).add builtNet) (by decide +kernel)
  obtain ⟨s1, s2, i, _, _, h1, _⟩ := (line_added_iff apart few).1 h
  exact ⟨s1, s2, i, h1⟩

example : ∃ s1 s2 i, Placed items (named "new") [s1, s2] i := by
  obtain ⟨w, h⟩ := accepted (o := (NetAdd.tie (named "new") ("V1", atNode 9) ("V2", atBus "B") "u" (some ⟨"a", "", false, aCharac⟩) (some ⟨"b", "", false, aCharac⟩)).add builtNet) (by decide +kernel)
  obtain ⟨s1, s2, i, _, _, _, _, _, _, h1, _⟩ := (tie_added_iff apart few).1 h
  exact ⟨s1, s2, i, h1⟩

example : ∃ t1 t2, StationOf items "C2" t1 ∧ StationOf items "C1" t2 := by
  obtain ⟨w, h⟩ := accepted (o := (NetAdd.hvdc (named "new") (some 1) { aHvdc with station1 := "C2", station2 := "C1" }).add builtNet) (by decide +kernel)
  obtain ⟨_, _, t1, t2, _, _, h1, h2, _⟩ := (hvdc_added_iff apart builtNet_holds.2.1.1.together.ids few).1 h
  exact ⟨t1, t2, h1, h2⟩

example : ∃ ts : List String, ts.Pairwise (· < ·) ∧ ∀ t, t ∈ ts ↔ t ∈ ["z", "a", "z"] := by
  obtain ⟨w, h⟩ := accepted (o := (NetAdd.substation (named "new") none "" ["z", "a", "z"]).add builtNet) (by decide +kernel)
  obtain ⟨_, ts, _, h1, h2, _⟩ := (substation_added_iff few).1 h
  exact ⟨ts, h1, h2⟩

/-! ### What goes wrong -/

/-- The bus is none of the voltage level: the load is in the index, without its terminal. -/
theorem spoilt_load : (VLAdd.load (named "new") (atBus "XX") aLoad).add items V2 = .ub ∧ attach1 items "V2" false false (named "new") (atBus "XX") = .ub := by
  constructor <;> decide +kernel

example : ∃ p, Adders.Wanted (atBus "XX") p ∧ ¬ Fits items "V2" false p := by
  rcases ((spoilt_injection_iff few).1 spoilt_load.2).2 with ⟨_, h⟩ | h
  · exact absurd ((Adders.terminal_spec _ _).1 (by decide)) (h (.bus "XX" true))
  · exact h

/-- Two legs on the same node: the transformer is in the index, with one terminal. -/
theorem spoilt_branch : attachAll items (named "new") [⟨"V1", nodeTerm 9⟩, ⟨"V1", nodeTerm 9⟩] = .ub := by decide +kernel

example : ¬ SidesFree items [⟨"V1", nodeTerm 9⟩, ⟨"V1", nodeTerm 9⟩] := ((spoilt_branch_iff few).1 spoilt_branch).2

/-- An enumerator that is none is accepted, and the network is no longer one that can be written. -/
theorem unknown_source_breaks : ∃ y, (NetAdd.sub 0 (.vl 0 (.gen (named "new") (atNode 9) (some false) true { aGen none with source := 99, targetQ := 1 }))).add builtNet = .ok y ∧ ¬ NetValid y := by
  obtain ⟨y, hy⟩ := accepted (o := (NetAdd.sub 0 (.vl 0 (.gen (named "new") (atNode 9) (some false) true { aGen none with source := 99, targetQ := 1 }))).add builtNet) (by decide +kernel)
  refine ⟨y, hy, fun h => ?_⟩
  have := (network_built_valid_iff builtNet_holds.1 builtNet_holds.2.1.1.together.ids (by exact trivial) hy).1 h
  exact absurd (show 99 < Enums.energySource.enumerators.length from this) (by decide)

theorem unknown_country_breaks : ∃ y, (NetAdd.substation (named "new") (some 999) "" []).add builtNet = .ok y ∧ ¬ NetValid y := by
  obtain ⟨y, hy⟩ := accepted (o := (NetAdd.substation (named "new") (some 999) "" []).add builtNet) (by decide +kernel)
  refine ⟨y, hy, fun h => ?_⟩
  have := (network_built_valid_iff builtNet_holds.1 builtNet_holds.2.1.1.together.ids (by exact trivial) hy).1 h
  exact absurd (this 999 rfl) (by decide +kernel)

theorem unknown_switch_breaks : ∃ y, (NetAdd.sub 0 (.vl 0 (.nodeSwitch (named "new") (some 8) (some 9) (some 3) false false))).add builtNet = .ok y ∧ ¬ NetValid y := by
  obtain ⟨y, hy⟩ := accepted (o := (NetAdd.sub 0 (.vl 0 (.nodeSwitch (named "new") (some 8) (some 9) (some 3) false false))).add builtNet) (by decide +kernel)
  refine ⟨y, hy, fun h => ?_⟩
  have := (network_built_valid_iff builtNet_holds.1 builtNet_holds.2.1.1.together.ids (by exact trivial) hy).1 h
  exact absurd (show 3 < Enums.switchKind.enumerators.length from this 3 rfl) (by decide)

end Verif.Build
