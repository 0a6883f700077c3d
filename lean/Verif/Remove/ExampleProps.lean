import Verif.Remove.UndoProps
import Verif.Build.ExampleProps

/-! The theorems of C99 on the network of C98, that is built, then stripped of a part of its objects, and what happens without their hypotheses. -/

namespace Verif.Remove

open Verif Verif.Xml Verif.XmlNet Verif.Setters Verif.ReadBack Verif.Build

variable {T : Type}

/-! ### Histories -/

theorem run_calls : ∀ {os : List (Call T)} {x : Net T}, runSteps x (os.map .call) = runCalls x os := by
  intro os
  induction os with
  | nil => intro x; rfl
  | cons o os ih =>
    intro x
    simp only [List.map_cons, runSteps, runCalls, Step.run]
    cases o.run x <;> simp [ih]

theorem safe_calls : ∀ {os : List (Call T)} {x : Net T}, SafeCalls x os → SafeSteps x (os.map .call) := by
  intro os
  induction os with
  | nil => intro x _; trivial
  | cons o os ih => intro x h; exact ⟨h.1, fun y hy => ih (h.2.1 y hy), fun ht => ih (h.2.2 ht)⟩

theorem steps_append : ∀ {os ps : List (Step T)} {x y : Net T}, runSteps x os = .ok y → runSteps x (os ++ ps) = runSteps y ps := by
  intro os
  induction os with
  | nil => intro ps x y h; simp only [runSteps, Out.ok.injEq] at h; subst h; rfl
  | cons o os ih =>
    intro ps x y h
    simp only [runSteps, List.cons_append] at h ⊢
    cases hz : o.run x with
    | ok z => rw [hz] at h; exact ih h
    | thrown => rw [hz] at h; exact ih h
    | ub => rw [hz] at h; cases h

theorem safe_steps_append : ∀ {os ps : List (Step T)} {x : Net T}, SafeSteps x os → (∀ y, runSteps x os = .ok y → SafeSteps y ps) → SafeSteps x (os ++ ps) := by
  intro os
  induction os with
  | nil => intro ps x _ h; exact h x rfl
  | cons o os ih =>
    intro ps x hs h
    refine ⟨hs.1, fun y hy => ih (hs.2.1 y hy) fun z hz => h z ?_, fun ht => ih (hs.2.2 ht) fun z hz => h z ?_⟩
    · simp only [runSteps, hy]; exact hz
    · simp only [runSteps, ht]; exact hz

/-- Whether removals are safe can be computed. -/
def checkSafe (x : Net T) : List Removal → Bool
  | [] => true
  | o :: os => match o.run x with
    | .ok y => (match o with | .connectable n => (netRefs y).all fun r => r.id != n | _ => true) && checkSafe y os
    | .thrown => checkSafe x os
    | .ub => true

theorem safe_of_check : ∀ {os : List Removal} {x : Net T}, checkSafe x os = true → SafeSteps x (os.map .remove) := by
  intro os
  induction os with
  | nil => intro x _; trivial
  | cons o os ih =>
    intro x h
    simp only [checkSafe] at h
    cases hz : o.run x with
    | ok y =>
      rw [hz] at h
      simp only [Bool.and_eq_true] at h
      refine ⟨?_, fun z hz' => ?_, fun ht => ?_⟩
      · cases o with
        | connectable n =>
          intro z hz' r hr
          rw [hz] at hz'; cases hz'
          have := List.all_eq_true.1 h.1 r (mem_netRefs.2 hr)
          simpa using this
        | _ => trivial
      · have : z = y := by
          have e : o.run x = .ok z := hz'
          rw [hz] at e; cases e; rfl
        subst this
        exact ih h.2
      · have e : o.run x = .thrown := ht
        rw [hz] at e; cases e
    | thrown =>
      rw [hz] at h
      refine ⟨?_, fun z hz' => ?_, fun _ => ih h⟩
      · cases o with
        | connectable n => intro z hz' r hr; rw [hz] at hz'; cases hz'
        | _ => trivial
      · have e : o.run x = .ok z := hz'
        rw [hz] at e; cases e
    | ub =>
      refine ⟨?_, fun z hz' => ?_, fun ht => ?_⟩
      · cases o with
        | connectable n => intro z hz' r hr; rw [hz] at hz'; cases hz'
        | _ => trivial
      · have e : o.run x = .ok z := hz'
        rw [hz] at e; cases e
      · have e : o.run x = .thrown := ht
        rw [hz] at e; cases e

/-- The station and the bus are refused as long as they are used; the generator goes before the transformer that it regulates. -/
def removals : List Removal :=
  [.connectable "C1", .bus "V2" "B#0", .connectable "G", .connectable "T", .connectable "T3", .connectable "DL", .hvdcLine "H", .connectable "C1", .bus "V2" "B#0", .allSwitches "V2",
    .bus "V2" "B#0", .switch "V1" "SW", .connections "V1" 2 1, .connections "V1" 1 2, .connectable "V1", .switch "V1" "BBS"]

def prunedV1 : VL := { equippedV1 with topo := .node [⟨(named "BBS").ident "BBS", 0⟩] [] [] [] }
def prunedV2 : VL := { equippedV2 40 with
  topo := .bus [⟨(named "B").ident "B", .nan, .nan⟩] []
  equip := { (equippedV2 40).equip with dls := [], vscs := [] } }
def prunedNet : Net String := { builtNet with subs := [⟨⟨⟨"P", "", false⟩, [], []⟩, some 0, "tso", ["a", "b"], [prunedV1, prunedV2], [], []⟩], hvdcs := [] }

theorem removals_run : runSteps builtNet (removals.map .remove) = .ok prunedNet := by decide +kernel

theorem removals_safe : SafeSteps builtNet (removals.map .remove) := safe_of_check (by decide +kernel)

/-- The name of the bus is free again. -/
def again : List (Call String) := [inV2 (.bus (named "B#0")), inV2 (.load (named "T") (atBus "B#0") aLoad)]

def finalV2 : VL := { prunedV2 with
  topo := .bus [⟨(named "B").ident "B", .nan, .nan⟩, ⟨(named "B#0").ident "B#0", .nan, .nan⟩] []
  equip := { prunedV2.equip with loads := [{ aLoad with ident := ident "L", term := busTerm "B", p0 := 40 }, { aLoad with ident := ident "T", term := busTerm "B#0" }] } }
def finalNet : Net String := { prunedNet with subs := [⟨⟨⟨"P", "", false⟩, [], []⟩, some 0, "tso", ["a", "b"], [prunedV1, finalV2], [], []⟩] }

theorem again_run : runCalls prunedNet again = .ok finalNet := by decide +kernel

theorem again_safe (x : Net String) : SafeCalls x again := by
  refine safe_always (fun o ho => ?_) x
  simp only [again, List.mem_cons, List.not_mem_nil, or_false] at ho
  rcases ho with rfl | rfl <;> intro x <;> exact ⟨trivial, trivial, trivial⟩

def history : List (Step String) := allCalls.map .call ++ (removals.map .remove ++ again.map .call)

theorem history_run : runSteps emptyNet history = .ok finalNet := by
  rw [history, steps_append (run_calls.trans allCalls_run), steps_append removals_run, run_calls, again_run]

theorem history_safe : SafeSteps emptyNet history := by
  refine safe_steps_append (safe_calls allCalls_safe) fun y hy => ?_
  rw [run_calls, allCalls_run] at hy; cases hy
  exact safe_steps_append removals_safe fun z _ => safe_calls (again_safe z)

theorem finalNet_holds : NetValid finalNet ∧ TidyNet finalNet ∧ NetInside finalNet := by
  obtain ⟨h1, h2, h3⟩ := new_network_valid emptyNet_new
  exact history_holds _ h1 h2 h3 history_safe history_run

theorem finalNet_fits : NetFits textDates finalNet where
  ident := plain_fits
  forecast := by decide
  date := rfl
  subs := only_ok {
    ident := plain_fits
    tags := by decide
    vls := two_ok
      ⟨plain_fits, ⟨only_ok ⟨plain_fits, by decide⟩, none_in, none_in⟩,
        ⟨none_in, none_in, none_in, none_in, none_in, none_in, none_in, only_ok ⟨plain_fits, (by simp [PlaceFits, nodeTerm]), no_ref⟩⟩⟩
      ⟨plain_fits, ⟨two_ok ⟨rfl, rfl⟩ ⟨rfl, rfl⟩, none_in⟩,
        ⟨none_in, only_ok (bus_fits no_ref), two_ok (bus_fits no_ref) (bus_fits no_ref), only_ok ⟨bus_fits no_ref, by decide, by rintro b g m ⟨⟩; decide⟩,
          none_in, only_ok (bus_fits no_ref), none_in, none_in⟩⟩
    tw2s := none_in
    tw3s := none_in }
  lines := builtNet_fits.lines
  hvdcs := none_in

/-- Built, stripped, and extended again: the network is exported and imported. -/
example (i : Bool) : ∃ cs toks z, exportNet rangeX textDates finalNet = .ok cs ∧ document i cs = .ok toks ∧ importSettled rangeX textDates toks = .ok z ∧
    SameNet (netItems finalNet) finalNet z ∧ ById z ∧ (ById finalNet → z = finalNet) :=
  history_comes_back rangeX_integers rangeX_doubles emptyNet_new history_safe history_run finalNet_fits (rangeX_kept (by decide +kernel)) i

/-- An imported network may lose objects too. -/
example (i : Bool) : ∃ toks, importSettled rangeX textDates toks = .ok (settled goodNet) ∧ ∃ cs toks' z, exportNet rangeX textDates extendedNet = .ok cs ∧
    document i cs = .ok toks' ∧ importSettled rangeX textDates toks' = .ok z ∧ SameNet (netItems extendedNet) extendedNet z ∧ ById z ∧ (ById extendedNet → z = extendedNet) := by
  obtain ⟨_, toks, _, _, h, _⟩ := goodNet_exported i
  refine ⟨toks, h, edited_network_comes_back rangeX_integers rangeX_doubles h settledNet_inside
    (os := extension.map .call ++ ([.call (.add (.sub 0 (.vl 1 (.load (named "L10") (atBus "B2") aLoad))))] ++ [Removal.connectable "L10"].map .remove)) ?_ ?_ extendedNet_fits
    (rangeX_kept (by decide +kernel)) i⟩
  · refine safe_steps_append (safe_calls (extension_safe _)) fun y hy => ?_
    rw [run_calls, extension_run] at hy; cases hy
    refine safe_steps_append ⟨⟨trivial, trivial, trivial⟩, fun _ _ => trivial, fun _ => trivial⟩ fun z hz => safe_of_check ?_
    have e : runSteps extendedNet [Step.call (.add (.sub 0 (.vl 1 (.load (named "L10") (atBus "B2") aLoad))))] = .ok z := hz
    have hd : (match runSteps extendedNet [Step.call (.add (.sub 0 (.vl 1 (.load (named "L10") (atBus "B2") aLoad))))] with
      | .ok z => checkSafe z [Removal.connectable "L10"] | _ => true) = true := by decide +kernel
    rw [e] at hd
    exact hd
  · rw [steps_append (run_calls.trans extension_run)]
    decide +kernel

/-! ### What can be removed -/

theorem names_apart : ((netItems builtNet).flatMap Item.names).Nodup := apart

example : ∃ a ∈ items, a.id = "G" ∧ Removable builtNet a := (connectable_removed_iff names_apart).1 (accepted (by decide +kernel))

/-- A station of a line is not removed; the line is, and then the station. -/
example : (¬ ∃ a ∈ items, a.id = "C1" ∧ Removable builtNet a) ∧ (Removal.connectable "C1").run builtNet = .thrown := by
  have h : (Removal.connectable "C1").run builtNet = .thrown := by decide +kernel
  refine ⟨fun hr => ?_, h⟩
  obtain ⟨y, hy⟩ := (connectable_removed_iff names_apart).2 hr
  rw [h] at hy; cases hy

example : ∃ h ∈ builtNet.hvdcs, h.ident.head.id = "H" := by
  obtain ⟨h, h1, h2, _⟩ := (hvdc_removed_iff names_apart).1 (accepted (o := (Removal.hvdcLine "H").run builtNet) (by decide +kernel))
  exact ⟨h, h1, h2⟩

/-- A bus is refused while a terminal or a switch is on it. -/
example : (Removal.bus "V2" "B#0").run builtNet = .thrown ∧ (Removal.bus "V2" "B#0").run skeletonNet = .thrown := ⟨by decide +kernel, by decide +kernel⟩

/-- The skeleton without its second bus and its switch. -/
def unswitched : Net String := { skeletonNet with subs := [⟨⟨⟨"P", "", false⟩, [], []⟩, some 0, "tso", ["a", "b"], [skeletonV1, { skeletonV2 with topo := .bus [⟨(named "B").ident "B", .nan, .nan⟩] [] }], [], []⟩] }

example : (∃ a ∈ netItems unswitched, a.id = "B" ∧ a.obj = .bus "V2") ∧ (∀ a ∈ netItems unswitched, ∀ e ∈ a.ends, ∀ c, e.place ≠ .bus "B" c) ∧
    ∀ a ∈ netItems unswitched, ∀ k ∈ a.needs, k.2 ≠ "B" := bus_removed_iff.1 (accepted (by decide +kernel))

example : SwitchOf builtNet "V1" "SW" ∧ SwitchOf builtNet "V2" "BS" := ⟨switch_removed_iff.1 (accepted (by decide +kernel)), switch_removed_iff.1 (accepted (by decide +kernel))⟩

example : ∃ y, (Removal.allSwitches "V2").run builtNet = .ok y ∧ OneLevel "V2" (fun t u => ∃ buses sws, t = .bus buses sws ∧ u = .bus buses []) builtNet y := by
  obtain ⟨y, hy⟩ := accepted (o := (Removal.allSwitches "V2").run builtNet) (by decide +kernel)
  exact ⟨y, hy, (all_switches_removed_iff names_apart).1 hy⟩

example : ∃ y, OneLevel "V1" (Unlinked 2 1) builtNet y := by
  obtain ⟨y, hy⟩ := accepted (o := (Removal.connections "V1" 2 1).run builtNet) (by decide +kernel)
  exact ⟨y, connections_removed hy⟩

example : ∃ s ∈ builtNet.subs, ∃ v ∈ s.vls, v.ident.head.id = "V1" ∧ ∃ bbs sws conns calcs, v.topo = .node bbs sws conns calcs ∧ ∃ c ∈ conns, Links 2 1 c :=
  (connections_removed_iff names_apart).1 (accepted (by decide +kernel))

example : ∃ y, FewerNet "L" builtNet y ∧ (∀ a, a ∈ netItems y ↔ a ∈ items ∧ a.id ≠ "L") ∧ NetValid y ∧ NetInside y ∧ Tidy (netItems y) := by
  obtain ⟨y, hy⟩ := accepted (o := (Removal.connectable "L").run builtNet) (by decide +kernel)
  obtain ⟨h1, h2⟩ := removal_keeps_valid names_apart builtNet_holds.1 builtNet_holds.2.2 hy
  exact ⟨y, removed_exactly names_apart rfl hy, (nobody_left names_apart (o := .connectable "L") rfl hy).2.1, h1, h2, removal_goes_together builtNet_holds.2.1.1 hy⟩

example : ∃ y, (Removal.switch "V1" "SW").run builtNet = .ok y ∧ TidyNet y := by
  obtain ⟨y, hy⟩ := accepted (o := (Removal.switch "V1" "SW").run builtNet) (by decide +kernel)
  exact ⟨y, hy, other_removal_tidy builtNet_holds.2.1 (fun _ h => by cases h) hy⟩

example : ∃ y, (Step.remove (T := String) (.hvdcLine "H")).run builtNet = .ok y ∧ NetValid y ∧ TidyNet y ∧ NetInside y := by
  obtain ⟨y, hy⟩ := accepted (o := (Step.remove (T := String) (.hvdcLine "H")).run builtNet) (by decide +kernel)
  exact ⟨y, hy, safe_step_keeps (o := .remove (.hvdcLine "H")) builtNet_holds.1 builtNet_holds.2.1 builtNet_holds.2.2 trivial hy⟩

/-- What was added goes, and the network is as it was. -/
example : ∃ y, (NetAdd.sub 0 (.vl 1 (.vsc (named "C3") (atBus "B") (some false) aVsc))).add builtNet = .ok y ∧ ∃ n r, Free items n ∧ Removal.target r = some n ∧ r.run y = .ok builtNet := by
  obtain ⟨y, hy⟩ := accepted (o := (NetAdd.sub 0 (.vl 1 (.vsc (named "C3") (atBus "B") (some false) aVsc))).add builtNet) (by decide +kernel)
  refine ⟨y, hy, addition_undone builtNet_holds.2.1 ?_ ?_ hy⟩
  · exact trivial
  · intro i j h; cases h

example : ∃ n, Free (netItems { builtNet with hvdcs := [] }) n ∧ (Removal.hvdcLine n).run builtNet = .ok { builtNet with hvdcs := [] } := by
  have h : (NetAdd.hvdc (named "H") (some 0) aHvdc).add { builtNet with hvdcs := [] } = .ok builtNet := by decide +kernel
  have e : (Removal.hvdcLine "H").run builtNet = .ok { builtNet with hvdcs := [] } := by decide +kernel
  exact line_undone (other_removal_tidy builtNet_holds.2.1 (fun _ h => by cases h) e) h fun _ _ _ g hg => by cases hg

/-! ### What goes wrong -/

/-- The transformer that a generator regulates is removed without a question: the regulating terminal is left behind. -/
theorem regulated_removed : ∃ y, (Removal.connectable "T").run builtNet = .ok y ∧ Tidy (netItems y) ∧ ¬ TidyNet y := by
  obtain ⟨y, hy⟩ := accepted (o := (Removal.connectable "T").run builtNet) (by decide +kernel)
  refine ⟨y, hy, removal_goes_together builtNet_holds.2.1.1 hy, fun h => ?_⟩
  have hr := (equipment_removal_iff builtNet_holds.2.1 hy).1 h
  have hd : (match (Removal.connectable "T").run builtNet with | .ok y => (netRefs y).any fun r => r.id == "T" | _ => false) = true := by decide +kernel
  rw [hy] at hd
  obtain ⟨r, hm, e⟩ := List.any_eq_true.1 hd
  exact hr r (mem_netRefs.1 hm) (by simpa using e)

/-- Two lines have the station: when one is removed, the station is no longer protected (C28). -/
theorem shared_station_removed : ∃ y, (NetAdd.hvdc (named "H2") (some 0) aHvdc).add builtNet = .ok y ∧ (Removal.hvdcLine "H").run y = .ub := by
  obtain ⟨y, hy⟩ := accepted (o := (NetAdd.hvdc (named "H2") (some 0) aHvdc).add builtNet) (by decide +kernel)
  refine ⟨y, hy, ?_⟩
  have hd : (match (NetAdd.hvdc (named "H2") (some 0) aHvdc).add builtNet with | .ok y => (match (Removal.hvdcLine "H").run y with | .ub => true | _ => false) | _ => false) = true := by decide +kernel
  rw [hy] at hd
  dsimp only at hd
  split at hd
  · assumption
  · cases hd

end Verif.Remove
