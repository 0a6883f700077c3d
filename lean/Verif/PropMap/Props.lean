import Verif.PropMap.Model

/-! Property C48: properties behave like a map. -/

namespace Verif.PropMap

open Verif

/-- Last value given to a key by a history read backwards (most recent call first): the independent meaning of "the value of the key". -/
def lastValue (k : String) : List Op → Option String
  | [] => none
  | .set k' v :: os => if k' = k then some v else lastValue k os
  | .remove k' :: os => if k' = k then none else lastValue k os
  | .clear :: _ => none

theorem run_append (os : List Op) (o : Op) : ∀ m, run (os ++ [o]) m = (step o (run os m)).2 := by
  induction os with
  | nil => intro m; rfl
  | cons p ps ih => intro m; exact ih _

theorem step_get (o : Op) (m : Props) (k : String) (f : Option String) (h : m.get? k = f) :
    (step o m).2.get? k = match o with
      | .set k' v => if k' = k then some v else f
      | .remove k' => if k' = k then none else f
      | .clear => none := by
  subst h
  cases o with
  | set k' v =>
    simp only [step, set]
    cases hg : m.get? k' with
    | none => rw [AMap.get?_emplace]; simp [hg]
    | some old => rw [AMap.get?_set]
  | remove k' => simp only [step, remove]; rw [AMap.get?_erase]
  | clear => rfl

theorem get_run (os : List Op) (k : String) : (run os.reverse []).get? k = lastValue k os := by
  induction os with
  | nil => rfl
  | cons o os ih =>
    rw [List.reverse_cons, run_append, step_get o _ k _ ih]
    cases o <;> rfl

theorem set_keys {m : Props} {k v : String} : (set k v m).2.map Prod.fst = if (m.get? k).isSome then m.map Prod.fst else m.map Prod.fst ++ [k] := by
  have hs : ∀ (m : Props) old, m.get? k = some old → (AMap.set m k v).map Prod.fst = m.map Prod.fst := by
    intro m
    induction m with
    | nil => intro old h; simp at h
    | cons p r ih =>
      intro old h
      obtain ⟨a, b⟩ := p
      rw [AMap.get?_cons] at h
      by_cases hak : a = k
      · simp [AMap.set, hak]
      · simp only [hak, if_false] at h
        simp [AMap.set, hak, ih old h]
  simp only [set]
  cases hg : m.get? k with
  | none => simp [AMap.emplace, hg]
  | some old => simp [hs m old hg]

theorem nodup_run (os : List Op) : (run os.reverse []).NodupKeys := by
  induction os with
  | nil => exact List.nodup_nil
  | cons o os ih =>
    rw [List.reverse_cons, run_append]
    generalize run os.reverse [] = m at ih
    unfold AMap.NodupKeys at ih ⊢
    cases o with
    | set k v =>
      simp only [step]
      rw [set_keys]
      cases hg : m.get? k with
      | some old => simpa using ih
      | none =>
        have := (AMap.get?_eq_none_iff m k).1 hg
        simp only [Option.isSome_none, Bool.false_eq_true, if_false]
        rw [List.nodup_append]
        refine ⟨ih, by simp, ?_⟩
        intro a ha b hb e
        rw [List.mem_singleton.1 hb] at e
        exact this (e ▸ ha)
    | remove k =>
      simp only [step, remove, AMap.erase]
      exact ih.sublist (List.Sublist.map _ List.filter_sublist)
    | clear => exact List.nodup_nil

/-- **C48**: after every history the properties are the last values given: reading, reading with a default, presence, emptiness, the list of
    names (each once) and their number all agree with it. -/
theorem properties_are_a_map (os : List Op) :
    let m := run os.reverse []
    (∀ k, (∀ v, get k m = .ok v ↔ lastValue k os = some v) ∧ (get k m = .thrown ↔ lastValue k os = none) ∧ get k m ≠ .ub) ∧
    (∀ k d, getOr k d m = (lastValue k os).getD d) ∧
    (∀ k, contains k m = true ↔ lastValue k os ≠ none) ∧
    (isEmpty m = true ↔ ∀ k, lastValue k os = none) ∧
    (getKeys m).Nodup ∧ (∀ k, k ∈ getKeys m ↔ lastValue k os ≠ none) ∧ size m = (getKeys m).length := by
  intro m
  have hg : ∀ k, m.get? k = lastValue k os := get_run os
  have hk : ∀ k, k ∈ getKeys m ↔ lastValue k os ≠ none := by
    intro k
    rw [← hg k, Ne, AMap.get?_eq_none_iff, Classical.not_not]; rfl
  refine ⟨?_, ?_, ?_, ?_, nodup_run os, hk, ?_⟩
  · intro k
    simp only [get, hg k]
    cases lastValue k os <;> simp
  · intro k d
    simp only [getOr, hg k]
    cases lastValue k os <;> simp
  · intro k
    simp only [contains, hg k]
    cases lastValue k os <;> simp
  · simp only [isEmpty, List.isEmpty_iff]
    constructor
    · intro e k; rw [← hg k, e]; rfl
    · intro h
      cases hm : m with
      | nil => rfl
      | cons p r =>
        have := (hk p.1).1 (by rw [hm]; exact List.mem_cons_self)
        exact absurd (h p.1) this
  · simp [size, getKeys, AMap.keys]

/-- **C48**: setting a property returns the previous value, if any. -/
theorem set_returns_previous (os : List Op) (k v : String) : (step (.set k v) (run os.reverse [])).1 = lastValue k os := by
  simp only [step, set, ← get_run os k]
  cases (run os.reverse []).get? k <;> rfl

example : (step (.set "a" "3") (run [Op.set "a" "2", .remove "a", .set "a" "1"].reverse [])).1 = some "2" := by decide

end Verif.PropMap
