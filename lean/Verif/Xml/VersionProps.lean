import Verif.Xml.Version

/-!
C44, first half: order of the versions, parsing of namespaces, and the version dependent decisions.
-/

namespace Verif.Xml

/-! ### Order and parsing -/

/-- Release order, stated on the numbers themselves: compare the major numbers, then the minor numbers. -/
def Older (a b : List Nat) : Prop :=
  ∃ x y x' y', a = [x, y] ∧ b = [x', y'] ∧ (x < x' ∨ (x = x' ∧ y < y'))

theorem older_iff (v w : Ver) : Older v.numbers w.numbers ↔ v.lt w = true := by
  constructor
  · rintro ⟨x, y, x', y', h1, h2, h3⟩
    cases v <;> cases w <;> simp [Ver.numbers] at h1 h2 <;> first | (exfalso; omega) | decide
  · intro h
    cases v <;> cases w <;> first | (exfalso; revert h; decide) | exact ⟨_, _, _, _, rfl, rfl, by decide⟩

/-- **C44** The comparison of versions is the release order, and the three other operators are its companions. -/
theorem order_is_release_order (v w : Ver) :
    (v.lt w = true ↔ Older v.numbers w.numbers) ∧
    (v.le w = true ↔ Older v.numbers w.numbers ∨ v = w) ∧
    (v.gt w = true ↔ Older w.numbers v.numbers) ∧
    (v.ge w = true ↔ Older w.numbers v.numbers ∨ v = w) := by
  rw [older_iff, older_iff]
  cases v <;> cases w <;> decide

/-- **C44** Versions are totally ordered. -/
theorem order_total (u v w : Ver) :
    u.lt u = false ∧ (u.lt v = true → v.lt w = true → u.lt w = true) ∧ (u.lt v = true ∨ u = v ∨ v.lt u = true) := by
  cases u <;> cases v <;> cases w <;> decide

theorem mem_all (v : Ver) : v ∈ Ver.all := by cases v <;> decide

theorem toStr_eq (v : Ver) (sep : List Char) : ∃ x y, v.numbers = [x, y] ∧ v.toStr sep = (Nat.repr x).toList ++ sep ++ (Nat.repr y).toList := by
  cases v <;> exact ⟨_, _, rfl, rfl⟩

theorem toStr_injective {v w : Ver} {sep : List Char} (h : v.toStr sep = w.toStr sep) : v = w := by
  have key : ∀ v : Ver, ∃ c : Char, v.toStr sep = '1' :: sep ++ [c] ∧ c = (match v with | .v10 => '0' | .v11 => '1' | .v12 => '2' | .v13 => '3' | .v14 => '4' | .v15 => '5') := by
    intro v
    cases v <;> exact ⟨_, rfl, rfl⟩
  obtain ⟨c, hc, hc'⟩ := key v
  obtain ⟨d, hd, hd'⟩ := key w
  rw [hc, hd] at h
  have h2 := List.append_cancel_left h
  simp at h2
  rw [hc', hd'] at h2
  revert h2
  cases v <;> cases w <;> decide

theorem ofLoop_ok {s sep : List Char} {v : Ver} : ∀ {l : List Ver}, v ∈ l → v.toStr sep = s → Ver.ofLoop s sep l = .ok v := by
  intro l
  induction l with
  | nil => intro h; cases h
  | cons w ws ih =>
    intro hm hs
    unfold Ver.ofLoop
    by_cases hw : w.toStr sep = s
    · rw [if_pos hw]
      rw [toStr_injective (hw.trans hs.symm)]
    · rw [if_neg hw]
      refine ih ?_ hs
      rcases List.mem_cons.1 hm with rfl | hm
      · exact absurd hs hw
      · exact hm

theorem ofLoop_result {s sep : List Char} : ∀ {l : List Ver}, (Ver.ofLoop s sep l = .thrown ∧ ∀ v ∈ l, v.toStr sep ≠ s) ∨ ∃ v ∈ l, Ver.ofLoop s sep l = .ok v ∧ v.toStr sep = s := by
  intro l
  induction l with
  | nil => exact .inl ⟨rfl, by intro v hv; cases hv⟩
  | cons w ws ih =>
    unfold Ver.ofLoop
    by_cases hw : w.toStr sep = s
    · rw [if_pos hw]
      exact .inr ⟨w, List.mem_cons_self .., rfl, hw⟩
    · rw [if_neg hw]
      rcases ih with ⟨h1, h2⟩ | ⟨v, hv, h1, h2⟩
      · refine .inl ⟨h1, ?_⟩
        intro v hv
        rcases List.mem_cons.1 hv with rfl | hv
        · exact hw
        · exact h2 v hv
      · exact .inr ⟨v, List.mem_cons_of_mem _ hv, h1, h2⟩

/-- **C44** Parsing a version inverts its formatting, whatever the separator, and accepts nothing else. -/
theorem parse_inverts_format (s sep : List Char) :
    (∀ v, Ver.of s sep = .ok v ↔ s = v.toStr sep) ∧ ((∀ v : Ver, s ≠ v.toStr sep) → Ver.of s sep = .thrown) := by
  constructor
  · intro v
    constructor
    · intro h
      rcases ofLoop_result (s := s) (sep := sep) (l := Ver.all) with ⟨h1, _⟩ | ⟨w, _, h1, h2⟩
      · rw [Ver.of, h1] at h; cases h
      · rw [Ver.of, h1] at h
        cases h
        exact h2.symm
    · intro h
      exact ofLoop_ok (mem_all v) h.symm
  · intro h
    rcases ofLoop_result (s := s) (sep := sep) (l := Ver.all) with ⟨h1, _⟩ | ⟨w, _, h1, h2⟩
    · exact h1
    · exact absurd h2.symm (h w)

example : Ver.of "1.3".toList ['.'] = .ok .v13 ∧ Ver.of "1.6".toList ['.'] = .thrown ∧ Ver.of "1_3".toList ['.'] = .thrown := by decide

theorem afterSlash_uri (v : Ver) : Ver.afterSlash v.uri = v.toStr ['_'] := by
  cases v <;> decide

/-- The six namespaces, written out. -/
def namespaces : List (List Char × Ver) := [
  ("http://www.itesla_project.eu/schema/iidm/1_0".toList, .v10),
  ("http://www.powsybl.org/schema/iidm/1_1".toList, .v11),
  ("http://www.powsybl.org/schema/iidm/1_2".toList, .v12),
  ("http://www.powsybl.org/schema/iidm/1_3".toList, .v13),
  ("http://www.powsybl.org/schema/iidm/1_4".toList, .v14),
  ("http://www.powsybl.org/schema/iidm/1_5".toList, .v15)]

theorem uri_mem (v : Ver) : (v.uri, v) ∈ namespaces := by cases v <;> decide

theorem mem_namespaces {s : List Char} {v : Ver} (h : (s, v) ∈ namespaces) : s = v.uri := by
  simp only [namespaces, List.mem_cons, List.not_mem_nil, or_false, Prod.mk.injEq] at h
  rcases h with ⟨rfl, rfl⟩ | ⟨rfl, rfl⟩ | ⟨rfl, rfl⟩ | ⟨rfl, rfl⟩ | ⟨rfl, rfl⟩ | ⟨rfl, rfl⟩ <;> decide

/-- **C44** Parsing a namespace accepts exactly the six supported ones, each giving its version; anything else is refused. -/
theorem namespace_accepted_iff (s : List Char) :
    (∀ v, Ver.fromNamespaceURI s = .ok v ↔ (s, v) ∈ namespaces) ∧ ((∀ v, (s, v) ∉ namespaces) → Ver.fromNamespaceURI s = .thrown) := by
  have ok_iff : ∀ v : Ver, Ver.fromNamespaceURI s = .ok v ↔ (s, v) ∈ namespaces := by
    intro v
    constructor
    · intro h
      unfold Ver.fromNamespaceURI at h
      cases hof : Ver.of (Ver.afterSlash s) ['_'] with
      | thrown => rw [hof] at h; cases h
      | ub => rw [hof] at h; cases h
      | ok w =>
        rw [hof] at h
        simp only at h
        by_cases hs : s = w.uri
        · rw [if_neg (by simp [hs])] at h
          cases h
          rw [hs]; exact uri_mem _
        · rw [if_pos hs] at h; cases h
    · intro h
      have hs := mem_namespaces h
      subst hs
      unfold Ver.fromNamespaceURI
      rw [afterSlash_uri, ((parse_inverts_format _ _).1 v).2 rfl]
      simp
  refine ⟨ok_iff, ?_⟩
  intro h
  cases hf : Ver.fromNamespaceURI s with
  | thrown => rfl
  | ok v => exact absurd ((ok_iff v).1 hf) (h v)
  | ub =>
    unfold Ver.fromNamespaceURI at hf
    rcases ofLoop_result (s := Ver.afterSlash s) (sep := ['_']) (l := Ver.all) with ⟨h1, _⟩ | ⟨w, _, h1, _⟩
    · rw [Ver.of, h1] at hf; cases hf
    · rw [Ver.of, h1] at hf
      simp only at hf
      split at hf <;> cases hf

example : Ver.fromNamespaceURI "http://www.powsybl.org/schema/iidm/1_4".toList = .ok .v14 ∧
    Ver.fromNamespaceURI "http://www.powsybl.org/schema/iidm/1_0".toList = .thrown ∧ Ver.fromNamespaceURI "1_4".toList = .thrown ∧
    Ver.fromNamespaceURI [] = .thrown := by decide

/-- **C44** Formatting then parsing a namespace gives the version back. -/
theorem namespace_round_trip (v : Ver) : Ver.fromNamespaceURI v.uri = .ok v :=
  ((namespace_accepted_iff _).1 v).2 (uri_mem v)

/-! ### Version dependent decisions -/

/-- The version is at least as recent as the one a feature needs. -/
def Supports (min v : Ver) : Prop := min = v ∨ Older min.numbers v.numbers

theorem supports_iff (min v : Ver) : Supports min v ↔ v.ge min = true := by
  unfold Supports
  rw [older_iff]
  cases v <;> cases min <;> decide

theorem lt_iff_not_supports (min v : Ver) : v.lt min = true ↔ ¬ Supports min v := by
  rw [supports_iff]
  cases v <;> cases min <;> decide

instance (v w : Ver) : Decidable (Older v.numbers w.numbers) := decidable_of_iff _ (older_iff v w).symm

instance (min v : Ver) : Decidable (Supports min v) := decidable_of_iff _ (supports_iff min v).symm

/-- The four outcomes a feature may have when it is written. -/
inductive Verdict | written | skipped | logged | refused
  deriving DecidableEq, Repr

/-- What the documentation promises for a feature supported from `min` on: it is written when the version supports it; below, it is
skipped when it has its default value, and otherwise reported as the option says. -/
def promised (notDefault : Bool) (min : Ver) (c : Ctx) : Verdict :=
  if Supports min c.version then .written
  else if notDefault = false then .skipped
  else if c.behaviour = .logError then .logged
  else .refused

/-- What a verdict means for the document and the log. -/
def Verdict.effect {δ : Type} (name : String) (write : δ → Out δ) (w : Written δ) : Verdict → Out (Written δ)
  | .written => (write w.doc).map fun d => ⟨d, w.log⟩
  | .skipped => .ok w
  | .logged => .ok ⟨w.doc, name :: w.log⟩
  | .refused => .thrown

/-- **C44** An attribute is written exactly when the version supports it, and a non default value that cannot be written is reported. -/
theorem attribute_from_version {δ : Type} (name : String) (nd : Bool) (min : Ver) (write : δ → Out δ) (c : Ctx) (w : Written δ) :
    writeAttributeFromMinimumVersion name nd min write c w = (promised nd min c).effect name write w := by
  unfold writeAttributeFromMinimumVersion promised
  by_cases hs : Supports min c.version
  · rw [if_pos hs, if_pos ((supports_iff _ _).1 hs)]; rfl
  · have h1 : ¬ c.version.ge min = true := fun h => hs ((supports_iff _ _).2 h)
    have h2 := (lt_iff_not_supports _ _).2 hs
    rw [if_neg hs, if_neg h1]
    unfold assertMinimumVersionIfNotDefault assertMinimumVersion createExceptionOrLogError
    cases nd with
    | false => rfl
    | true =>
      simp only [h2, if_true]
      cases hb : c.behaviour <;> simp [Verdict.effect]

example : promised true .v13 ⟨.v12, .logError⟩ = .logged ∧ promised true .v13 ⟨.v12, .throwException⟩ = .refused ∧
    promised false .v13 ⟨.v12, .throwException⟩ = .skipped ∧ promised true .v13 ⟨.v14, .throwException⟩ = .written := by decide

/-- **C44** The assertions of the writers never change the document, and let the writer go on silently exactly when the version is in
the range. -/
theorem writer_assertions {δ : Type} (name : String) (nd : Bool) (b : Ver) (c : Ctx) (w : Written δ) :
    let report : Out (Written δ) := if c.behaviour = .logError then .ok ⟨w.doc, name :: w.log⟩ else .thrown
    (assertMinimumVersion name b c w = if Supports b c.version then .ok w else report) ∧
    (assertMinimumVersionIfNotDefault nd name b c w = if Supports b c.version ∨ nd = false then .ok w else report) ∧
    (assertMaximumVersion name b c w = if Older b.numbers c.version.numbers then report else .ok w) ∧
    (assertStrictMaximumVersion name b c w = if Supports b c.version then report else .ok w) := by
  have hrep : createExceptionOrLogError name c w = if c.behaviour = .logError then .ok ⟨w.doc, name :: w.log⟩ else .thrown := by
    unfold createExceptionOrLogError
    cases c.behaviour <;> rfl
  have hgt : c.version.gt b = true ↔ Older b.numbers c.version.numbers := (order_is_release_order _ _).2.2.1
  refine ⟨?_, ?_, ?_, ?_⟩
  · unfold assertMinimumVersion
    rw [hrep]
    by_cases hs : Supports b c.version
    · rw [if_pos hs, if_neg (fun h => (lt_iff_not_supports _ _).1 h hs)]
    · rw [if_neg hs, if_pos ((lt_iff_not_supports _ _).2 hs)]
  · unfold assertMinimumVersionIfNotDefault assertMinimumVersion
    rw [hrep]
    cases nd with
    | false => simp
    | true =>
      by_cases hs : Supports b c.version
      · have h2 : ¬ c.version.lt b = true := fun h => (lt_iff_not_supports _ _).1 h hs
        simp [hs, h2]
      · have h2 := (lt_iff_not_supports _ _).2 hs
        simp [hs, h2]
  · unfold assertMaximumVersion
    rw [hrep]
    by_cases hs : Older b.numbers c.version.numbers
    · rw [if_pos hs, if_pos (hgt.2 hs)]
    · rw [if_neg hs, if_neg (fun h => hs (hgt.1 h))]
  · unfold assertStrictMaximumVersion
    rw [hrep]
    by_cases hs : Supports b c.version
    · rw [if_pos hs, if_pos ((supports_iff _ _).1 hs)]
    · rw [if_neg hs, if_neg (fun h => hs ((supports_iff _ _).2 h))]

/-- **C44** Conditional parts run exactly when the version is in their range. -/
theorem conditional_parts {σ δ : Type} (b v : Ver) (run : σ → Out σ) (s : σ) (write : δ → Out δ) (c : Ctx) (w : Written δ) :
    (runFromMinimumVersion b v run s = if Supports b v then run s else .ok s) ∧
    (runUntilMaximumVersion b v run s = if Supports v b then run s else .ok s) ∧
    (writeAttributeUntilMaximumVersion b write c w = if Supports c.version b then (write w.doc).map (fun d => ⟨d, w.log⟩) else .ok w) := by
  have hle : ∀ v : Ver, v.le b = true ↔ Supports v b := by
    intro v
    rw [supports_iff]
    cases v <;> cases b <;> decide
  refine ⟨?_, ?_, ?_⟩
  · unfold runFromMinimumVersion
    by_cases hs : Supports b v
    · rw [if_pos hs, if_pos ((supports_iff _ _).1 hs)]
    · rw [if_neg hs, if_neg (fun h => hs ((supports_iff _ _).2 h))]
  · unfold runUntilMaximumVersion
    by_cases hs : Supports v b
    · rw [if_pos hs, if_pos ((hle v).2 hs)]
    · rw [if_neg hs, if_neg (fun h => hs ((hle v).1 h))]
  · unfold writeAttributeUntilMaximumVersion
    by_cases hs : Supports c.version b
    · rw [if_pos hs, if_pos ((hle _).2 hs)]
    · rw [if_neg hs, if_neg (fun h => hs ((hle _).1 h))]

/-- **C44** Readers refuse a feature exactly when the version of the document does not have it. -/
theorem reader_assertions (nd : Bool) (b v : Ver) (run : Out Unit) :
    (readAssertMinimumVersion b v = if Supports b v then .ok () else .thrown) ∧
    (readAssertMaximumVersion b v = if Older b.numbers v.numbers then .thrown else .ok ()) ∧
    (readAssertStrictMaximumVersion b v = if Supports b v then .thrown else .ok ()) ∧
    (readAssertMinimumVersionIfNotDefault nd b v = if Supports b v ∨ nd = false then .ok () else .thrown) ∧
    (readAssertMinimumVersionAndRunIfNotDefault nd b v run = if nd = false then .ok () else if Supports b v then run else .thrown) := by
  have hgt : v.gt b = true ↔ Older b.numbers v.numbers := (order_is_release_order _ _).2.2.1
  have hmin : readAssertMinimumVersion b v = if Supports b v then .ok () else .thrown := by
    unfold readAssertMinimumVersion
    by_cases hs : Supports b v
    · rw [if_pos hs, if_neg (fun h => (lt_iff_not_supports _ _).1 h hs)]
    · rw [if_neg hs, if_pos ((lt_iff_not_supports _ _).2 hs)]
  refine ⟨hmin, ?_, ?_, ?_, ?_⟩
  · unfold readAssertMaximumVersion
    by_cases hs : Older b.numbers v.numbers
    · rw [if_pos hs, if_pos (hgt.2 hs)]
    · rw [if_neg hs, if_neg (fun h => hs (hgt.1 h))]
  · unfold readAssertStrictMaximumVersion
    by_cases hs : Supports b v
    · rw [if_pos hs, if_pos ((supports_iff _ _).1 hs)]
    · rw [if_neg hs, if_neg (fun h => hs ((supports_iff _ _).2 h))]
  · unfold readAssertMinimumVersionIfNotDefault
    rw [hmin]
    cases nd <;> simp
  · unfold readAssertMinimumVersionAndRunIfNotDefault
    rw [hmin]
    cases nd with
    | false => rfl
    | true => by_cases hs : Supports b v <;> simp [hs]

/-- **C44** With the option that throws, what `assertMinimumVersionAndRunIfNotDefault` guards is written exactly when the version
supports it and the value is not the default one, and refused otherwise.  Missing: with the option that logs, the guarded part is
written although the version does not support it, see `logged_but_written`. -/
theorem guarded_part_partial {δ : Type} (name : String) (nd : Bool) (min : Ver) (run : δ → Out δ) (c : Ctx) (w : Written δ)
    (hb : c.behaviour = .throwException) :
    assertMinimumVersionAndRunIfNotDefault nd name min run c w =
      if nd = false then .ok w else if Supports min c.version then (run w.doc).map (fun d => ⟨d, w.log⟩) else .thrown := by
  unfold assertMinimumVersionAndRunIfNotDefault
  rw [(writer_assertions name nd min c w).1]
  cases nd with
  | false => rfl
  | true =>
    simp only [hb, reduceCtorEq, if_false, if_true, Bool.true_eq_false]
    split <;> rfl

example : assertMinimumVersionAndRunIfNotDefault true "tc" .v11 (fun d : Nat => .ok (d + 1)) ⟨.v10, .throwException⟩ ⟨0, []⟩ = .thrown ∧
    assertMinimumVersionAndRunIfNotDefault true "tc" .v11 (fun d : Nat => .ok (d + 1)) ⟨.v12, .throwException⟩ ⟨0, []⟩ = .ok ⟨1, []⟩ := by decide

/-- The claim "written exactly when the version supports it" is false for `assertMinimumVersionAndRunIfNotDefault` with the option that
logs: version 1.0 does not support a feature of version 1.1, and the feature is logged as unsupported and written all the same.  The
matching reader refuses the document. -/
theorem logged_but_written :
    ¬ Supports .v11 .v10 ∧
    assertMinimumVersionAndRunIfNotDefault true "regulatingTerminal" .v11 (fun d : List String => .ok (d ++ ["regulatingTerminal"])) ⟨.v10, .logError⟩ ⟨[], []⟩ =
      .ok ⟨["regulatingTerminal"], ["regulatingTerminal"]⟩ ∧
    readAssertMinimumVersion .v11 .v10 = .thrown := by decide

end Verif.Xml
