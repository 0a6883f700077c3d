import Verif.Convert.Model

/-! Property C52: conversion parameters. -/

namespace Verif.Convert

open Verif

/-- The value of the first of the names present in the properties, if any: `i` is the rank of that name. -/
def FirstPresent (ps : Properties) (names : List Str) (v : Str) : Prop :=
  ∃ (i : Nat) (n : Str), names[i]? = some n ∧ ps.get? n = some v ∧ ∀ j : Nat, j < i → ∀ m, names[j]? = some m → ps.get? m = none

theorem readFirst_some (ps : Properties) : ∀ (names : List Str) (v : Str), readFirst names ps = some v ↔ FirstPresent ps names v := by
  intro names
  induction names with
  | nil => intro v; simp [readFirst, FirstPresent]
  | cons n ns ih =>
    intro v
    simp only [readFirst]
    cases hg : ps.get? n with
    | some w =>
      simp only [Option.some.injEq]
      constructor
      · rintro rfl
        exact ⟨0, n, by simp, hg, fun j hj => absurd hj (Nat.not_lt_zero _)⟩
      · rintro ⟨i, m, h1, h2, h3⟩
        cases i with
        | zero => simp at h1; subst h1; rw [hg] at h2; exact Option.some.inj h2
        | succ i => have := h3 0 (by omega) n (by simp); rw [hg] at this; cases this
    | none =>
      simp only
      rw [ih]
      constructor
      · rintro ⟨i, m, h1, h2, h3⟩
        refine ⟨i + 1, m, by simpa using h1, h2, ?_⟩
        intro j hj k hk
        cases j with
        | zero => simp at hk; subst hk; exact hg
        | succ j => exact h3 j (by omega) k (by simpa using hk)
      · rintro ⟨i, m, h1, h2, h3⟩
        cases i with
        | zero => simp at h1; subst h1; rw [hg] at h2; cases h2
        | succ i =>
          refine ⟨i, m, by simpa using h1, h2, ?_⟩
          intro j hj k hk
          exact h3 (j + 1) (by omega) k (by simpa using hk)

theorem readFirst_none (ps : Properties) : ∀ (names : List Str), readFirst names ps = none ↔ ∀ n ∈ names, ps.get? n = none := by
  intro names
  induction names with
  | nil => simp [readFirst]
  | cons n ns ih =>
    simp only [readFirst]
    cases hg : ps.get? n with
    | some w => simp [hg]
    | none => simp [hg, ih]

/-- **C52**: a string parameter is the value of the first of its names present, or its default when none is. -/
theorem readString_spec (ps : Properties) (p : Parameter) :
    (∀ v, FirstPresent ps p.names v → readString ps p = v) ∧
    ((∀ n ∈ p.names, ps.get? n = none) → readString ps p = p.default) := by
  constructor
  · intro v h; simp [readString, (readFirst_some ps p.names v).2 h]
  · intro h; simp [readString, (readFirst_none ps p.names).2 h]

/-- **C52**: a boolean parameter is true exactly when the string found (or the default) is "true", whatever the case. -/
theorem readBoolean_spec (ps : Properties) (p : Parameter) :
    readBoolean ps p = iequals (readString ps p) "true".toList := by
  simp only [readBoolean, readString]
  cases readFirst p.names ps <;> rfl

/-- Case-insensitive equality, letter by letter. -/
theorem iequals_spec (a b : Str) : iequals a b = true ↔
    a.length = b.length ∧ ∀ (i : Nat) (x y : Char), a[i]? = some x → b[i]? = some y → lower x = lower y := by
  simp only [iequals, beq_iff_eq]
  constructor
  · intro h
    refine ⟨by simpa using congrArg List.length h, ?_⟩
    intro i x y hx hy
    have := congrArg (·[i]?) h
    simpa [List.getElem?_map, hx, hy] using this
  · rintro ⟨hl, h⟩
    apply List.ext_getElem (by simpa using hl)
    intro i h1 h2
    simp only [List.getElem_map]
    exact h i _ _ (List.getElem?_eq_getElem _) (List.getElem?_eq_getElem _)

/-- **C52**: a number parameter is the conversion of the string found (or of the default), and fails exactly when that fails. -/
theorem readDouble_spec (stod : Str → Out δ) (ps : Properties) (p : Parameter) : readDouble stod ps p = stod (readString ps p) := by
  simp only [readDouble, readString]
  cases readFirst p.names ps <;> rfl

/-- Joins strings with commas. -/
def joinWith : List Str → Str
  | [] => []
  | [s] => s
  | s :: t :: r => s ++ ',' :: joinWith (t :: r)

/-- No separator in the string. -/
def NoSep (s : Str) : Prop := ',' ∉ s ∧ ':' ∉ s

instance (s : Str) : Decidable (NoSep s) := inferInstanceAs (Decidable (_ ∧ _))

theorem split_noSep : ∀ (s cur : Str), NoSep s → split cur s = [cur ++ s] := by
  intro s
  induction s with
  | nil => intro cur _; simp [split]
  | cons c cs ih =>
    intro cur h
    have h1 : ¬ (c = ',' ∨ c = ':') := by
      rintro (e | e)
      · exact h.1 (by rw [e]; exact List.mem_cons_self)
      · exact h.2 (by rw [e]; exact List.mem_cons_self)
    simp only [split, h1, if_false]
    rw [ih _ ⟨fun h' => h.1 (List.mem_cons_of_mem _ h'), fun h' => h.2 (List.mem_cons_of_mem _ h')⟩]
    simp

theorem split_append : ∀ (s cur t : Str), NoSep s → split cur (s ++ ',' :: t) = (cur ++ s) :: split [] t := by
  intro s
  induction s with
  | nil => intro cur t _; simp [split]
  | cons c cs ih =>
    intro cur t h
    have h1 : ¬ (c = ',' ∨ c = ':') := by
      rintro (e | e)
      · exact h.1 (by rw [e]; exact List.mem_cons_self)
      · exact h.2 (by rw [e]; exact List.mem_cons_self)
    simp only [List.cons_append, split, h1, if_false]
    rw [ih _ _ ⟨fun h' => h.1 (List.mem_cons_of_mem _ h'), fun h' => h.2 (List.mem_cons_of_mem _ h')⟩]
    simp

/-- **C52**: a list parameter given by a comma separated list of names is that list. -/
theorem readStringList_spec (ps : Properties) (p : Parameter) (l : List Str) (hl : l ≠ []) (hs : ∀ s ∈ l, NoSep s)
    (h : FirstPresent ps p.names (joinWith l)) : readStringList ps p = l := by
  simp only [readStringList, (readFirst_some ps p.names _).2 h]
  clear h
  induction l with
  | nil => exact absurd rfl hl
  | cons s r ih =>
    cases r with
    | nil => simpa [joinWith] using split_noSep s [] (hs s List.mem_cons_self)
    | cons t r =>
      rw [joinWith, split_append s [] _ (hs s List.mem_cons_self), ih (by simp) fun u hu => hs u (List.mem_cons_of_mem _ hu)]
      simp

example : readStringList [("x".toList, "a,b".toList)] ⟨"y".toList, ["x".toList], []⟩ = ["a".toList, "b".toList] := by decide

/-- **C52**, partial: when extensions are selected by a non-empty list of names, exactly those are exported (or imported); without the
    parameter, all are.  Missing: an empty value (`empty_value_selects_nothing`). -/
theorem selection_partial (ps : Properties) (name e : Str) :
    ((ps.get? name = none) → (Options.ofProperties ps name).withExtension e = true) ∧
    ∀ l : List Str, l ≠ [] → (∀ s ∈ l, NoSep s) → ps.get? name = some (joinWith l) →
      ((Options.ofProperties ps name).withExtension e = true ↔ e ∈ l) := by
  constructor
  · intro h
    have : readFirst (extensionsParameter name).names ps = none := by simp [extensionsParameter, Parameter.names, readFirst, h]
    have e : readStringList ps (extensionsParameter name) = [] := by
      simp only [readStringList, this]; simp [extensionsParameter]
    simp [Options.ofProperties, Options.withExtension, e]
  · intro l hl hs h
    have e1 := readStringList_spec ps (extensionsParameter name) l hl hs
      ⟨0, name, by simp [extensionsParameter, Parameter.names], h, fun j hj => absurd hj (Nat.not_lt_zero _)⟩
    simp only [Options.ofProperties, Options.withExtension, e1]
    cases l with
    | nil => exact absurd rfl hl
    | cons a l => simp

example : (Options.ofProperties [("l".toList, "a,b".toList)] "l".toList).withExtension "b".toList = true := by decide

/-- Giving the parameter its documented default value (the empty string) selects no extension, while leaving it out selects all. -/
theorem empty_value_selects_nothing :
    (Options.ofProperties [("l".toList, [])] "l".toList).withExtension "a".toList = false ∧
    (Options.ofProperties [] "l".toList).withExtension "a".toList = true := by decide

/-- Adding an extension to the selection: it is exported; when all were exported only it is exported from then on. -/
theorem addExtension_spec (o : Options) (e x : Str) :
    (o.addExtension e).withExtension x = true ↔ x = e ∨ x ∈ o.extensions := by
  by_cases h : e ∈ o.extensions
  · have hne : o.extensions ≠ [] := by intro e'; rw [e'] at h; cases h
    simp only [Options.addExtension, h, if_true, Options.withExtension, Bool.or_eq_true, List.isEmpty_iff, hne, false_or, decide_eq_true_eq]
    exact ⟨.inr, fun h' => h'.elim (fun e' => e' ▸ h) id⟩
  · simp [Options.addExtension, h, Options.withExtension]

/-- **C52**, partial: an object with at least one extension is written with extensions exactly when one of them is exported.
    Missing: objects without extension (`no_extension_reported`). -/
theorem hasAtLeastOne_partial (o : Options) (es : List Str) (h : es ≠ []) :
    o.hasAtLeastOne es = true ↔ ∃ e ∈ es, o.withExtension e = true := by
  simp only [Options.hasAtLeastOne, Options.withExtension]
  cases ho : o.extensions with
  | nil =>
    simp only [List.isEmpty_nil, if_true, Bool.true_or, and_true, true_iff]
    cases es with
    | nil => exact absurd rfl h
    | cons a l => exact ⟨a, List.mem_cons_self⟩
  | cons a l => simp

/-- An object without extension is reported as having one to export when all are exported. -/
theorem no_extension_reported : (⟨[], []⟩ : Options).hasAtLeastOne [] = true := by decide

/-- **C52**: a version is recorded exactly once per extension, for exported extensions only, and is the one read afterwards; nothing is changed
    when refused. -/
theorem addVersion_spec (o : Options) (e v : Str) :
    ((o.addVersion e v).1 = .ok () ↔ o.withExtension e = true ∧ o.versions.get? e = none) ∧
    ((o.addVersion e v).1 = .ok () → (o.addVersion e v).2.getVersion e = v ∧
      ∀ x, x ≠ e → (o.addVersion e v).2.getVersion x = o.getVersion x) ∧
    ((o.addVersion e v).1 ≠ .ok () → (o.addVersion e v).1 = .thrown ∧ (o.addVersion e v).2 = o) := by
  simp only [Options.addVersion, Options.withExtension]
  by_cases h : (!o.extensions.isEmpty && !decide (e ∈ o.extensions)) = true
  · simp only [h, if_true]
    refine ⟨?_, nofun, fun _ => ⟨trivial, trivial⟩⟩
    simp at h
    simp [h]
  · simp only [h, Bool.false_eq_true, if_false]
    have h' : (o.extensions.isEmpty || decide (e ∈ o.extensions)) = true := by
      cases ha : o.extensions.isEmpty <;> cases hb : decide (e ∈ o.extensions) <;> simp_all
    cases hg : o.versions.get? e with
    | some w => simp
    | none =>
      refine ⟨by simp [h'], ?_, by simp⟩
      intro _
      refine ⟨by simp [Options.getVersion, AMap.get?_emplace, hg], ?_⟩
      intro x hx
      simp [Options.getVersion, AMap.get?_emplace, Ne.symm hx]

end Verif.Convert
