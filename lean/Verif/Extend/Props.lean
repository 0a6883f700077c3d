import Verif.Extend.Model

/-! Properties C49 (extensions found by name and by type agree) and the extension part of C56 (moving an object). -/

namespace Verif.Extend

open Verif

/-- What the extension of type `t` is after a history (most recent call first): the last one added, unless removed since.  A refused
    addition removes the extension of the same type, as the code does (`refused_addition_loses`). -/
def current (t : Nat) : List Op → Option Ext
  | [] => none
  | .add e a :: os => if e.type = t then (if a then some e else none) else current t os
  | .remove t' :: os => if t' = t then none else current t os

/-- The names and the types correspond one to one, by `nameOf`. -/
def Corresponds (nameOf : Nat → Nat) (os : List Op) : Prop := ∀ o ∈ os, ∀ e a, o = .add e a → e.name = nameOf e.type

theorem run_append (os : List Op) (o : Op) : ∀ s, run (os ++ [o]) s =
    (run os s).bind fun s' => match (step o s').1 with | .ub => none | _ => some (step o s').2 := by
  induction os with
  | nil =>
    intro s
    simp only [List.nil_append, run, Option.bind_some]
    cases (step o s).1 <;> rfl
  | cons p ps ih =>
    intro s
    simp only [List.cons_append, run]
    cases (step p s).1 with
    | ub => rfl
    | ok a => exact ih _
    | thrown => exact ih _

/-- Invariant: both maps give the current extension. -/
structure Inv (nameOf : Nat → Nat) (cur : Nat → Option Ext) (s : St) : Prop where
  byType : ∀ t, s.byType.get? t = cur t
  byName : ∀ t, s.byName.get? (nameOf t) = cur t
  named : ∀ n e, s.byName.get? n = some e → n = nameOf e.type
  nodup : s.byName.NodupKeys
  typed : ∀ t e, cur t = some e → e.type = t ∧ e.name = nameOf t

theorem Inv.alive {nameOf cur s} (h : Inv nameOf cur s) {t : Nat} {e : Ext} (he : cur t = some e) : alive s e = true := by
  have := AMap.mem_of_get? (show s.byName.get? (nameOf t) = some e by rw [h.byName, he])
  simp only [Extend.alive, List.any_eq_true]
  exact ⟨_, this, by simp⟩

theorem nodup_erase {m : AMap Nat Ext} (h : m.NodupKeys) (k : Nat) : (m.erase k).NodupKeys := by
  unfold AMap.NodupKeys AMap.erase at *
  exact h.sublist (List.Sublist.map _ List.filter_sublist)

theorem nodup_emplace {m : AMap Nat Ext} (h : m.NodupKeys) (k : Nat) (e : Ext) : (m.emplace k e).NodupKeys := by
  unfold AMap.emplace
  cases hg : m.get? k with
  | some w => exact h
  | none =>
    have := (AMap.get?_eq_none_iff m k).1 hg
    unfold AMap.NodupKeys at *
    simp only [List.map_append, List.map_cons, List.map_nil]
    rw [List.nodup_append]
    refine ⟨h, by simp, ?_⟩
    intro a ha b hb e
    rw [List.mem_singleton.1 hb] at e
    exact this (e ▸ ha)

theorem inv_step {nameOf : Nat → Nat} (hinj : ∀ a b, nameOf a = nameOf b → a = b) {os : List Op} {s : St}
    (h : Inv nameOf (fun t => current t os) s) {o : Op} (ho : ∀ e a, o = .add e a → e.name = nameOf e.type) :
    (step o s).1 ≠ .ub ∧ Inv nameOf (fun t => current t (o :: os)) (step o s).2 := by
  cases o with
  | add e a =>
    have hn := ho e a rfl
    have h1 : Inv nameOf (fun t => if e.type = t then none else current t os) (cleanExisting e s) := by
      unfold cleanExisting
      have hb := h.byName e.type
      rw [← hn] at hb
      cases hg : s.byName.get? e.name with
      | some w =>
        refine ⟨?_, ?_, ?_, nodup_erase h.nodup _, ?_⟩
        · intro t; simp only [AMap.get?_erase, h.byType]
        · intro t
          simp only [AMap.get?_erase, h.byName, hn]
          by_cases ht : e.type = t
          · simp [ht]
          · have : nameOf e.type ≠ nameOf t := fun x => ht (hinj _ _ x)
            simp [ht, this]
        · intro n x hx
          simp only [AMap.get?_erase] at hx
          split at hx
          · cases hx
          · exact h.named n x hx
        · intro t x hx
          split at hx
          · cases hx
          · exact h.typed t x hx
      | none =>
        rw [hg] at hb
        have e' : (fun t => if e.type = t then none else current t os) = fun t => current t os := by
          funext t
          split
          · rename_i ht; subst ht; exact hb
          · rfl
        rw [e']; exact h
    simp only [step, addExtension]
    generalize cleanExisting e s = s1 at h1
    cases a with
    | false =>
      simp only [Bool.not_false, if_true]
      exact ⟨nofun, by simpa only [current, Bool.false_eq_true, if_false] using h1⟩
    | true =>
      simp only [Bool.not_true, Bool.false_eq_true, if_false]
      have hT : s1.byType.get? e.type = none := by rw [h1.byType]; simp
      have hN : s1.byName.get? (nameOf e.type) = none := by rw [h1.byName]; simp
      refine ⟨nofun, ?_, ?_, ?_, nodup_emplace h1.nodup _ _, ?_⟩
      · intro t
        simp only [AMap.get?_emplace, hT, h1.byType, current, if_true]
        split <;> simp_all
      · intro t
        simp only [AMap.get?_emplace, hn, hN, h1.byName, current, if_true]
        by_cases ht : e.type = t
        · simp [ht]
        · have : nameOf e.type ≠ nameOf t := fun x => ht (hinj _ _ x)
          simp [ht, this]
      · intro n x hx
        simp only [AMap.get?_emplace, hn, hN] at hx
        split at hx
        · rename_i hh
          simp only [Option.getD_none, Option.some.injEq] at hx
          subst hx; exact hh.symm
        · exact h1.named n x hx
      · intro t x hx
        simp only [current, if_true] at hx
        split at hx
        · rename_i ht
          have := Option.some.inj hx
          subst this
          exact ⟨ht, by rw [hn, ht]⟩
        · rename_i ht
          exact h1.typed t x (by simp [ht, hx])
  | remove t0 =>
    simp only [step, removeExtension]
    cases hg : s.byType.get? t0 with
    | none =>
      rw [h.byType] at hg
      simp only
      refine ⟨nofun, ?_⟩
      have e' : (fun t => current t (Op.remove t0 :: os)) = fun t => current t os := by
        funext t
        simp only [current]
        split
        · rename_i ht; subst ht; exact hg.symm
        · rfl
      rw [e']; exact h
    | some e =>
      rw [h.byType] at hg
      have ha := h.alive hg
      have ht := h.typed t0 e hg
      simp only [ha, if_true]
      refine ⟨nofun, ?_, ?_, ?_, nodup_erase h.nodup _, ?_⟩
      · intro t; simp only [AMap.get?_erase, h.byType, current]
      · intro t
        simp only [AMap.get?_erase, h.byName, ht.2, current]
        by_cases h' : t0 = t
        · simp [h']
        · have : nameOf t0 ≠ nameOf t := fun x => h' (hinj _ _ x)
          simp [h', this]
      · intro n x hx
        simp only [AMap.get?_erase] at hx
        split at hx
        · cases hx
        · exact h.named n x hx
      · intro t x hx
        simp only [current] at hx
        split at hx
        · cases hx
        · exact h.typed t x hx

theorem inv_run {nameOf : Nat → Nat} (hinj : ∀ a b, nameOf a = nameOf b → a = b) {os : List Op} (ho : Corresponds nameOf os) :
    ∃ s, run os.reverse init = some s ∧ Inv nameOf (fun t => current t os) s := by
  induction os with
  | nil => exact ⟨init, rfl, ⟨fun _ => rfl, fun _ => rfl, (by intro n e h; cases h), List.nodup_nil, (by intro t e h; cases h)⟩⟩
  | cons o os ih =>
    obtain ⟨s, h1, h2⟩ := ih fun p hp => ho p (List.mem_cons_of_mem _ hp)
    have h3 := inv_step hinj h2 (ho o List.mem_cons_self)
    refine ⟨(step o s).2, ?_, h3.2⟩
    rw [List.reverse_cons, run_append, h1]
    simp only [Option.bind_some]
    cases hs : (step o s).1 with
    | ub => exact absurd hs h3.1
    | ok a => rfl
    | thrown => rfl

/-- **C49**, partial: when the types and the names of the extensions correspond one to one, no history runs into a destroyed extension, and
    looking up by type and by name (and getting, and listing) give the same extension: the last one added for the type and not removed since.
    A lookup by another name finds nothing of the type.  Missing: extensions sharing a name or a type (`shared_name_dangles`, `shared_type_disagrees`). -/
theorem lookups_agree_partial {nameOf : Nat → Nat} (hinj : ∀ a b, nameOf a = nameOf b → a = b) {os : List Op} (ho : Corresponds nameOf os) :
    ∃ s, run os.reverse init = some s ∧ ∀ t,
      findByType t s = .ok (current t os) ∧ findByName (nameOf t) t s = .ok (current t os) ∧
      getByType t s = (match current t os with | some e => .ok e | none => .thrown) ∧
      (∀ e, current t os = some e ↔ e ∈ getExtensions s ∧ e.type = t) ∧
      ∀ n, n ≠ nameOf t → findByName n t s = .ok none := by
  obtain ⟨s, h1, h2⟩ := inv_run hinj ho
  refine ⟨s, h1, fun t => ?_⟩
  have hT : s.byType.get? t = current t os := h2.byType t
  have hN : s.byName.get? (nameOf t) = current t os := h2.byName t
  refine ⟨?_, ?_, ?_, ?_, ?_⟩
  · simp only [findByType, hT]
    cases hc : current t os with
    | none => rfl
    | some e => simp [h2.alive hc]
  · simp only [findByName, hN]
    cases hc : current t os with
    | none => rfl
    | some e => simp [(h2.typed t e hc).1]
  · simp only [getByType, hT]
    cases hc : current t os with
    | none => rfl
    | some e => simp [h2.alive hc]
  · intro e
    constructor
    · intro hc
      refine ⟨?_, (h2.typed t e hc).1⟩
      have := AMap.mem_of_get? (hN.trans hc)
      exact List.mem_map.2 ⟨_, this, rfl⟩
    · rintro ⟨he, rfl⟩
      obtain ⟨⟨n, e'⟩, hm, rfl⟩ := List.mem_map.1 he
      have hg := (AMap.mem_iff_get? h2.nodup).1 hm
      have := h2.named n e' hg
      rw [← h2.byName]
      rw [this] at hg
      exact hg
  · intro n hn
    simp only [findByName]
    cases hg : s.byName.get? n with
    | none => rfl
    | some e =>
      have : e.type ≠ t := fun h => hn (h ▸ h2.named n e hg)
      simp [this]

example : Corresponds (fun t => t + 10) [.remove 1, .add ⟨100, 11, 1⟩ true, .add ⟨101, 12, 2⟩ true] := by
  intro o ho e a h
  subst h
  simp at ho
  rcases ho with ⟨rfl, rfl⟩ | ⟨rfl, rfl⟩ <;> rfl

/-- **C49**: the extensions of the repository have different names (extensions/*/src, `getName`); their types are different classes. -/
def libraryNames : List String := ["entsoeArea", "mergedXnode", "xnode", "activePowerControl", "coordinatedReactiveControl",
  "discreteMeasurements", "hvdcAngleDroopActivePowerControl", "hvdcOperatorActivePowerRange", "measurements",
  "generatorRemoteReactivePowerControl", "threeWindingsTransformerPhaseAngleClock", "twoWindingsTransformerPhaseAngleClock",
  "voltagePerReactivePowerControl", "branchStatus", "busbarSectionPosition", "position"]

theorem library_names_distinct : libraryNames.Nodup := by decide

/-- Two types with one name: the lookup by the first type uses a destroyed extension. -/
theorem shared_name_dangles :
    ∃ s, run [.add ⟨100, 1, 1⟩ true, .add ⟨101, 1, 2⟩ true] init = some s ∧ findByType 1 s = .ub ∧ (removeExtension 1 s).1 = .ub :=
  ⟨_, rfl, by decide, by decide⟩

/-- Two names with one type: the lookup by type ignores the second extension. -/
theorem shared_type_disagrees :
    ∃ s, run [.add ⟨100, 1, 1⟩ true, .add ⟨101, 2, 1⟩ true] init = some s ∧ findByName 2 1 s = .ok (some ⟨101, 2, 1⟩) ∧
      findByType 1 s = .ok (some ⟨100, 1, 1⟩) :=
  ⟨_, rfl, by decide, by decide⟩

/-- A refused addition has removed the extension it was to replace. -/
theorem refused_addition_loses :
    ∃ s, run [.add ⟨100, 1, 1⟩ true] init = some s ∧ findByType 1 s = .ok (some ⟨100, 1, 1⟩) ∧
      (addExtension ⟨101, 1, 1⟩ false s).1 = .thrown ∧ findByType 1 (addExtension ⟨101, 1, 1⟩ false s).2 = .ok none :=
  ⟨_, rfl, by decide, by decide, by decide⟩

/-- **C56**, extensions, partial: moving an object succeeds exactly when it has no extension. -/
theorem move_iff_partial (s : St) : (∃ s', move s = .moved s') ↔ getExtensions s = [] := by
  simp only [move]
  cases getExtensions s <;> simp

/-- Moving an object with an extension ends the program. -/
theorem move_with_extension_terminates : ∃ s, run [.add ⟨100, 1, 1⟩ true] init = some s ∧ move s = .terminated := ⟨_, rfl, by decide⟩

end Verif.Extend
