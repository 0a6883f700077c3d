import Verif.Enums.Tables

/-! Properties C47 (enumeration names round-trip) and C58 (the name of an enumerator is its identifier). -/

namespace Verif.Enums

open Verif

theorem findFrom_spec (name : String) : ∀ (l : List String) (k i : Nat), findFrom name l k = some i ↔
    ∃ j, i = k + j ∧ l[j]? = some name ∧ ∀ j', j' < j → l[j']? ≠ some name := by
  intro l
  induction l with
  | nil => intro k i; simp [findFrom]
  | cons x xs ih =>
    intro k i
    simp only [findFrom]
    split
    · rename_i h
      subst h
      constructor
      · intro e
        exact ⟨0, by simpa using (Option.some.inj e).symm, by simp, fun j' h => absurd h (Nat.not_lt_zero _)⟩
      · rintro ⟨j, rfl, h1, h2⟩
        cases j with
        | zero => rfl
        | succ j => exact absurd (by simp) (h2 0 (by omega))
    · rename_i h
      rw [ih]
      constructor
      · rintro ⟨j, rfl, h1, h2⟩
        refine ⟨j + 1, by omega, by simpa using h1, ?_⟩
        intro j' hj'
        cases j' with
        | zero => simpa using h
        | succ j' => simpa using h2 j' (by omega)
      · rintro ⟨j, rfl, h1, h2⟩
        cases j with
        | zero => simp at h1; exact absurd h1 h
        | succ j =>
          refine ⟨j, by omega, by simpa using h1, ?_⟩
          intro j' hj'
          simpa using h2 (j' + 1) (by omega)

theorem findFrom_none (name : String) : ∀ (l : List String) (k : Nat), findFrom name l k = none ↔ name ∉ l := by
  intro l
  induction l with
  | nil => intro k; simp [findFrom]
  | cons x xs ih =>
    intro k
    simp only [findFrom, List.mem_cons, not_or]
    split
    · rename_i h; simp [h]
    · rename_i h
      rw [ih]
      exact ⟨fun h' => ⟨fun e => h e.symm, h'⟩, And.right⟩

/-- **C47**: with distinct names, the name of every value is read back as the value. -/
theorem value_round_trip {names : List String} (hd : names.Nodup) {v : Nat} (hv : v < names.length) :
    ∃ n, toString names v = .ok n ∧ fromString names n = .ok v := by
  refine ⟨names[v], ?_, ?_⟩
  · simp [toString, Nat.not_le.2 hv, List.getElem?_eq_getElem hv]
  · have : findFrom names[v] names 0 = some v := by
      rw [findFrom_spec]
      refine ⟨v, by omega, List.getElem?_eq_getElem hv, ?_⟩
      intro j hj e
      have hj' : j < names.length := by omega
      rw [List.getElem?_eq_getElem hj'] at e
      exact List.pairwise_iff_getElem.1 hd j v hj' hv hj (Option.some.inj e)
    simp [fromString, this]

/-- **C47**: a name that is read is the name of the value (for every table). -/
theorem name_round_trip {names : List String} {n : String} {v : Nat} (h : fromString names n = .ok v) : toString names v = .ok n := by
  simp only [fromString] at h
  cases hf : findFrom n names 0 with
  | none => rw [hf] at h; cases h
  | some k =>
    rw [hf] at h
    simp only [Out.ok.injEq] at h
    subst h
    rcases (findFrom_spec n names 0 k).1 hf with ⟨j, hj, h1, _⟩
    have : k = j := by omega
    subst this
    have hk : k < names.length := (List.getElem?_eq_some_iff.1 h1).1
    simp [toString, Nat.not_le.2 hk, h1]

/-- **C47**: a name is accepted exactly when it is one of the names; otherwise it is refused. -/
theorem fromString_accepts_iff (names : List String) (n : String) :
    ((∃ v, fromString names n = .ok v) ↔ n ∈ names) ∧ (fromString names n = .thrown ↔ n ∉ names) := by
  have := findFrom_none n names 0
  simp only [fromString]
  cases hf : findFrom n names 0 with
  | none => rw [hf] at this; simp at this; simp [this]
  | some k => rw [hf] at this; simp at this; simp [this]

/-- **C47**: a value out of the table is refused, never read. -/
theorem toString_total (names : List String) (v : Nat) :
    (toString names v = .thrown ↔ names.length ≤ v) ∧ toString names v ≠ .ub := by
  simp only [toString]
  split
  · simpa
  · rename_i h
    have hv : v < names.length := by omega
    simp [List.getElem?_eq_getElem hv]; omega

/-- **C47**: the names of every enumeration of the library are distinct, and there are as many as enumerators. -/
theorem tables_distinct : ∀ t ∈ allTables, t.names.Nodup ∧ t.names.length = t.enumerators.length := by
  decide +kernel

example : fromString switchKind.names "DISCONNECTOR" = .ok 1 ∧ fromString switchKind.names "disconnector" = .thrown := by decide

/-- **C58**, partial: every enumeration but the one of the types of converter station names its values by their identifiers. -/
theorem names_are_identifiers_partial : ∀ t ∈ allTables, t.names ≠ hvdcConverterStationHvdcType.names → t.names = t.enumerators := by
  decide +kernel

example : switchKind ∈ allTables := by simp [allTables]

/-- A VSC station is named "LCC" and conversely. -/
theorem hvdc_type_names_swapped :
    hvdcConverterStationHvdcType.enumerators = ["VSC", "LCC"] ∧ toString hvdcConverterStationHvdcType.names 0 = .ok "LCC" ∧
    toString hvdcConverterStationHvdcType.names 1 = .ok "VSC" := by decide

end Verif.Enums
