import Verif.Xml.SwitchProps
import Verif.Index.Lemmas
import Verif.PropMap.Props

/-!
C45 for aliases and properties of an identifiable, and what versions before 1.4 and 1.3 lose.
-/

namespace Verif.Xml

open Verif Verif.Index

/-- The type under which an alias is read back. -/
def readType (v : Ver) (t : String) : String := if v.ge .v14 then t else ""

/-- The alias is given back by the anonymizer, and what is written is not white space only. -/
def AliasOk (A : Anon) (a : String) : Prop := A.Inverts a ∧ ¬ Blank (A.anon a)

theorem textToks_of {s : String} (h : ¬ Blank s) : textToks s = [.text s] := by
  have hne : s ≠ "" := by
    rintro rfl
    apply h
    unfold Blank
    intro c hc
    simp at hc
  simp [textToks, hne, h]

theorem withAlias_uid (o : Obj) (t a : String) : (withAlias o t a).uid = o.uid ∧ (withAlias o t a).id = o.id := by
  unfold withAlias; split <;> exact ⟨rfl, rfl⟩

/-- Adding a free alias. -/
theorem addAlias_free {s : State} (h : Inv s) {u : Nat} {o : Obj} (hl : live s u = some o) {a t : String} (hfree : absNames s a = none)
    (ht : t = "" ∨ o.byType.get? t = none) :
    ∃ s', addAlias s u a t false = (.ok (), s') ∧ Inv s' ∧ live s' u = some (withAlias o t a) ∧
      ∀ n, n ≠ a → absNames s' n = absNames s n := by
  obtain ⟨ho, hu⟩ := (live_iff h).1 hl
  have hs := freshAlias_spec h ho hfree ht
  refine ⟨updateObj { s with alias := s.alias.emplace a o.id } (withAlias o t a), ?_, hs.1, ?_, ?_⟩
  · unfold addAlias
    rw [hl]
    have hidx := indexAddAlias_spec h o a
    rw [hfree] at hidx
    have hc : ¬ (t ≠ "" ∧ (o.byType.get? t).isSome) := by
      rintro ⟨h1, h2⟩
      rcases ht with ht | ht
      · exact h1 ht
      · rw [ht] at h2; cases h2
    simp only [Bool.false_eq_true, if_false, if_neg hc, hidx]
    unfold withAlias
    split <;> rfl
  · rw [live_iff hs.1, (withAlias_uid o t a).2, (withAlias_uid o t a).1]
    refine ⟨?_, hu⟩
    rw [get?_updateObj, (withAlias_uid o t a).2, if_pos rfl]
  · intro n hn
    rw [hs.2.1]
    simp [hn]

theorem subCb_alias {A : Anon} {v : Ver} (hv : Supports .v13 v) {x : Target} {o : Obj} (hl : live x.index x.uid = some o) {s' : State} {a t : String} (hA : AliasOk A a)
    (hadd : addAlias x.index x.uid a (readType v t) false = (.ok (), s')) (root : String) (hroot : root ≠ "alias") (i : Bool) :
    ∃ bt, Emits i (aliasCmds A v a t) bt ∧ Reads (subCb A v) root x bt { x with index := s' } ∧ bt ≠ [] := by
  refine ⟨_, emits_text i "alias" _ _, ?_, by simp [textCore]⟩
  refine (reads_sp _ _ _ i).append ?_
  unfold textCore
  rw [textToks_of hA.2]
  refine reads_text (fun e => hroot e.symm) fun rest => ?_
  have hlt : v.lt .v13 = false := by
    cases h : v.lt .v13 with
    | false => rfl
    | true => exact absurd hv ((lt_iff_not_supports _ _).1 h)
  have hty : runFromMinimumVersion .v14 v (fun _ => optSOr "type" "" (.start "alias" (if v.ge .v14 then (if t ≠ "" then [("type", t)] else []) else []) false :: .text (A.anon a) :: rest)) ""
      = .ok (readType v t) := by
    unfold runFromMinimumVersion readType
    by_cases h : v.ge .v14 = true
    · rw [if_pos h, if_pos h]
      by_cases ht : t = ""
      · simp [h, ht, optSOr, rawAttr, lookup]
      · simp [h, ht, optSOr, rawAttr, lookup]
    · rw [if_neg h, if_neg h]
  unfold subCb
  simp only [localName, Out.bind_ok]
  rw [if_neg (by decide), if_pos trivial]
  simp only [readAssertMinimumVersion, hlt, Bool.false_eq_true, if_false, Out.bind_ok, readAlias]
  rw [hty, Out.bind_ok]
  simp only [readCharacters, Out.bind_ok]
  rw [hA.1, Out.bind_ok, hadd]

/-- Reading the aliases `as`, of types `ty`, into an identifiable. -/
theorem aliases_read {A : Anon} {v : Ver} (hv : Supports .v13 v) (root : String) (hroot : root ≠ "alias") (o : Obj) : ∀ (as : List String) (x : Target) (o1 : Obj),
    Inv x.index → live x.index x.uid = some o1 → as.Nodup → (∀ a ∈ as, AliasOk A a ∧ absNames x.index a = none) →
    (∀ a ∈ as, readType v (o.aliasType a) = "" ∨ o1.byType.get? (readType v (o.aliasType a)) = none) →
    (∀ a ∈ as, ∀ b ∈ as, a ≠ b → readType v (o.aliasType a) = readType v (o.aliasType b) → readType v (o.aliasType a) = "") →
    ∃ (x' : Target) (o' : Obj), Inv x'.index ∧ x'.uid = x.uid ∧ x'.props = x.props ∧ live x'.index x.uid = some o' ∧ o'.id = o1.id ∧
      (∀ b, b ∈ o'.aliases ↔ b ∈ o1.aliases ∨ b ∈ as) ∧
      (∀ b, b ∈ as → o'.aliasType b = readType v (o.aliasType b)) ∧ (∀ b, b ∈ o1.aliases → b ∉ as → o'.aliasType b = o1.aliasType b) ∧
      (∀ n, n ∉ as → absNames x'.index n = absNames x.index n) ∧
      ∀ i, ∃ bt, Emits i (aliasesCmds A v o as) bt ∧ Reads (subCb A v) root x bt x' ∧ (bt = [] → x' = x) := by
  intro as
  induction as with
  | nil =>
    intro x o1 hI hl _ _ _ _
    exact ⟨x, o1, hI, rfl, rfl, hl, rfl, by simp, by simp, by simp, by simp, fun i => ⟨[], emits_nil i, reads_nil _ _ _, fun _ => rfl⟩⟩
  | cons a as ih =>
    intro x o1 hI hl hnd hok hty hdist
    have hnd' := List.nodup_cons.1 hnd
    obtain ⟨hAa, hfree⟩ := hok a (List.mem_cons_self ..)
    have hta := hty a (List.mem_cons_self ..)
    obtain ⟨s', hadd, hI', hl', hothers⟩ := addAlias_free hI hl hfree hta
    obtain ⟨ho1, hu1⟩ := (live_iff hI).1 hl
    have hw1 : ObjWF o1 := hI.wf _ _ ho1
    have hna : a ∉ o1.aliases := by
      intro hm
      have := hI.bwd _ _ ho1 a hm
      rw [(absNames_none_iff hI a).1 hfree |>.2] at this
      cases this
    have hgets : ∀ b ∈ as, readType v (o.aliasType b) = "" ∨ (withAlias o1 (readType v (o.aliasType a)) a).byType.get? (readType v (o.aliasType b)) = none := by
      intro b hb
      by_cases hb0 : readType v (o.aliasType b) = ""
      · exact .inl hb0
      · refine .inr ?_
        have hbn := (hty b (List.mem_cons_of_mem _ hb)).resolve_left hb0
        have hne : readType v (o.aliasType a) ≠ readType v (o.aliasType b) := by
          intro e
          have := hdist a (List.mem_cons_self ..) b (List.mem_cons_of_mem _ hb) (fun e' => hnd'.1 (e' ▸ hb)) e
          exact hb0 (e ▸ this)
        unfold withAlias
        split
        · exact hbn
        · show (AMap.set o1.byType _ a).get? _ = none
          rw [AMap.get?_set, if_neg hne]
          exact hbn
    obtain ⟨x', o', g1, g2, g3, g4, g5, g6, g7, g8, g9, g10⟩ := ih { x with index := s' } (withAlias o1 (readType v (o.aliasType a)) a) hI' hl' hnd'.2
      (fun b hb => ⟨(hok b (List.mem_cons_of_mem _ hb)).1, by
        have hba : b ≠ a := fun e => hnd'.1 (e ▸ hb)
        rw [hothers b hba]
        exact (hok b (List.mem_cons_of_mem _ hb)).2⟩)
      hgets (fun b hb c hc => hdist b (List.mem_cons_of_mem _ hb) c (List.mem_cons_of_mem _ hc))
    refine ⟨x', o', g1, g2, g3, g4, ?_, ?_, ?_, ?_, ?_, ?_⟩
    · rw [g5, (withAlias_uid _ _ _).2]
    · intro b
      rw [g6, mem_withAlias hta, List.mem_cons, or_assoc]
    · intro b hb
      rcases List.mem_cons.1 hb with rfl | hb
      · rw [g8 b ((mem_withAlias hta).2 (.inr rfl)) hnd'.1, aliasType_withAlias hw1 hna hta (.inr rfl), if_pos rfl]
      · exact g7 b hb
    · intro b hb hnb
      have h1 : b ≠ a := fun e => hnb (e ▸ List.mem_cons_self ..)
      have h2 : b ∉ as := fun h => hnb (List.mem_cons_of_mem _ h)
      rw [g8 b ((mem_withAlias hta).2 (.inl hb)) h2, aliasType_withAlias hw1 hna hta (.inl hb), if_neg h1]
    · intro n hn
      rw [g9 n (fun h => hn (List.mem_cons_of_mem _ h))]
      exact hothers n (fun e => hn (e ▸ List.mem_cons_self ..))
    · intro i
      obtain ⟨bt, e1, e2, e3⟩ := subCb_alias hv hl hAa hadd root hroot i
      obtain ⟨bt', f1, f2, f3⟩ := g10 i
      exact ⟨bt ++ bt', e1.append f1, e2.append f2, fun h => absurd (List.append_eq_nil_iff.1 h).1 e3⟩

/-- Reading the properties `ps`. -/
theorem props_read (A : Anon) (v : Ver) (root : String) : ∀ (ps : PropMap.Props) (x : Target), AMap.NodupKeys (x.props ++ ps) →
    ∀ i, ∃ bt, Emits i (propsCmds ps) bt ∧ Reads (subCb A v) root x bt { x with props := x.props ++ ps } ∧ (bt = [] → ps = []) := by
  intro ps
  induction ps with
  | nil => intro x _ i; exact ⟨[], emits_nil i, by rw [List.append_nil]; exact reads_nil _ _ _, fun _ => rfl⟩
  | cons p ps ih =>
    intro x hnd i
    obtain ⟨k, val⟩ := p
    have hnone : AMap.get? x.props k = none := by
      rw [AMap.get?_eq_none_iff]
      intro hm
      have hnd : ((x.props ++ (k, val) :: ps).map Prod.fst).Nodup := hnd
      rw [List.map_append, List.nodup_append] at hnd
      exact hnd.2.2 k hm k (by simp) rfl
    have hset : (PropMap.set k val x.props).2 = x.props ++ [(k, val)] := by
      simp only [PropMap.set, hnone]
      simp [AMap.emplace, hnone]
    have hnd' : AMap.NodupKeys ((x.props ++ [(k, val)]) ++ ps) := by simpa using hnd
    obtain ⟨bt, h1, h2, _⟩ := ih { x with props := x.props ++ [(k, val)] } hnd' i
    refine ⟨elemToks i "property" [("name", k), ("value", val)] [] ++ bt, ((emits_nil i).elem _ _).append h1, ?_, ?_⟩
    · have hr : Reads (subCb A v) root x (elemToks i "property" [("name", k), ("value", val)] []) { x with props := x.props ++ [(k, val)] } := by
        refine (reads_sp _ _ _ i).append ?_
        refine reads_element (body := []) fun rest => ?_
        show subCb A v x (.start "property" [("name", k), ("value", val)] true :: rest) = _
        unfold subCb
        rw [getS_attr (v := k) (by simp [lookup]), getS_attr (v := val) (by simp [lookup])]
        simp only [localName, Out.bind_ok, if_true, hset]
        rfl
      have h2' : Reads (subCb A v) root { x with props := x.props ++ [(k, val)] } bt { x with props := x.props ++ (k, val) :: ps } := by simpa using h2
      exact hr.append h2'
    · intro h
      simp [elemToks, coreToks] at h

/-- Spec: same aliases, `ty` giving the type of each. -/
def SameAliases (o o' : Obj) (ty : String → String) : Prop := ∀ a, (a ∈ o'.aliases ↔ a ∈ o.aliases) ∧ (a ∈ o.aliases → o'.aliasType a = ty a)

theorem aliases_nodup {o : Obj} (hw : ObjWF o) : o.aliases.Nodup := by
  unfold Obj.aliases
  rw [List.nodup_append]
  exact ⟨hw.noTypeNodup, hw.byTypeVals, fun a ha b hb e => hw.disj a ha (e ▸ hb)⟩

theorem types_distinct {o : Obj} (hw : ObjWF o) {a b : String} (ha : a ∈ o.aliases) (hb : b ∈ o.aliases) (hne : a ≠ b) (h : o.aliasType a = o.aliasType b) : o.aliasType a = "" := by
  rcases aliasType_cases hw ha with ⟨_, h1⟩ | ⟨t, h1, h2, _⟩
  · exact h1
  · rcases aliasType_cases hw hb with ⟨_, h4⟩ | ⟨u, h4, h5, _⟩
    · rw [h, h4]
    · rw [h2, h5] at h
      subst h
      rw [h1] at h4
      cases h4
      exact absurd rfl hne

theorem identifiable_read {A : Anon} {c : Ctx} (hv : Supports .v13 c.version) {root : String} (hroot : root ≠ "alias") (h : Head) (attrs : List (String × String))
    {o : Obj} (hw : ObjWF o) {ps : PropMap.Props} (hps : ps.NodupKeys) {x : Target} (hI : Inv x.index) (hprops : x.props = []) {o0 : Obj}
    (hl : live x.index x.uid = some o0) (h0 : o0.noType = [] ∧ o0.byType = []) (hok : ∀ a ∈ o.aliases, AliasOk A a ∧ absNames x.index a = none) :
    ∃ w x' o', writeIdentifiable A c root h attrs o ps [] ⟨[], []⟩ = .ok w ∧ w.log = [] ∧
      RoundTrip w.doc (readUntilEnd (subCb A c.version) root x) x' ∧ x'.props = ps ∧ live x'.index x.uid = some o' ∧ o'.id = o0.id ∧
      SameAliases o o' (fun a => readType c.version (o.aliasType a)) ∧ Inv x'.index ∧ ∀ n, n ∉ o.aliases → absNames x'.index n = absNames x.index n := by
  have h13 : c.version.ge .v13 = true := (supports_iff _ _).1 hv
  have hlt : c.version.lt .v13 = false := by
    cases h : c.version.lt .v13 with
    | false => rfl
    | true => exact absurd hv ((lt_iff_not_supports _ _).1 h)
  obtain ⟨x1, o', g1, g2, g3, g4, g5, g6, g7, _, g9, g10⟩ := aliases_read hv root hroot o o.aliases x o0 hI hl (aliases_nodup hw) hok
    (by intro a _; right; rw [h0.2]; rfl)
    (by
      intro a ha b hb hne e
      unfold readType at e ⊢
      split
      · rename_i h4
        rw [if_pos h4, if_pos h4] at e
        exact types_distinct hw ha hb hne e
      · rfl)
  have hps1 : AMap.NodupKeys (x1.props ++ ps) := by rw [g3, hprops]; exact hps
  refine ⟨⟨elemCmds root (headAttrs A c.version h ++ attrs) (aliasesCmds A c.version o o.aliases ++ propsCmds ps), []⟩, { x1 with props := ps }, o', ?_, rfl, ?_, rfl, g4, g5, ?_, g1, g9⟩
  · have : assertMinimumVersionIfNotDefault (!o.aliases.isEmpty) "alias" .v13 c = fun w : Written (List Cmd) => .ok w := by
      funext w
      simp [assertMinimumVersionIfNotDefault, assertMinimumVersion, hlt]
    simp [writeIdentifiable, runFromMinimumVersion, h13, writeAliases, this, Out.map, elemCmds]
  · apply roundTrip_intro
    intro i
    obtain ⟨bt, e1, e2, e3⟩ := g10 i
    obtain ⟨bt', f1, f2, f3⟩ := props_read A c.version root ps x1 hps1 i
    rw [g3, hprops, List.nil_append] at f2
    refine ⟨bt ++ bt', e1.append f1, fun rest => readUntilEnd_core i (e2.append f2) ?_ rest⟩
    intro hnil
    obtain ⟨n1, n2⟩ := List.append_eq_nil_iff.1 hnil
    rw [e3 n1, f3 n2, ← hprops]
  · intro a
    refine ⟨?_, g7 a⟩
    rw [g6]
    simp [Obj.aliases, h0.1, h0.2]

/-- **C45** From version 1.4 on, the aliases, their types and the properties of an identifiable are written without error and read back into
an identifiable without alias nor property, of a network where the aliases are free; nothing else changes in the index of the network. -/
theorem aliases_properties_round_trip_partial {A : Anon} {c : Ctx} (hv : Supports .v14 c.version) {root : String} (hroot : root ≠ "alias") (h : Head) (attrs : List (String × String))
    {o : Obj} (hw : ObjWF o) {ps : PropMap.Props} (hps : ps.NodupKeys) {x : Target} (hI : Inv x.index) (hprops : x.props = []) {o0 : Obj}
    (hl : live x.index x.uid = some o0) (h0 : o0.noType = [] ∧ o0.byType = []) (hok : ∀ a ∈ o.aliases, AliasOk A a ∧ absNames x.index a = none) :
    ∃ w x' o', writeIdentifiable A c root h attrs o ps [] ⟨[], []⟩ = .ok w ∧ w.log = [] ∧
      RoundTrip w.doc (readUntilEnd (subCb A c.version) root x) x' ∧ x'.props = ps ∧ live x'.index x.uid = some o' ∧ o'.id = o0.id ∧
      SameAliases o o' o.aliasType ∧ Inv x'.index ∧ ∀ n, n ∉ o.aliases → absNames x'.index n = absNames x.index n := by
  have h14 : c.version.ge .v14 = true := (supports_iff _ _).1 hv
  have h13 : Supports .v13 c.version := by revert hv; generalize c.version = v; cases v <;> decide
  obtain ⟨w, x', o', h1⟩ := identifiable_read h13 hroot h attrs hw hps hI hprops hl h0 hok
  refine ⟨w, x', o', h1.1, h1.2.1, h1.2.2.1, h1.2.2.2.1, h1.2.2.2.2.1, h1.2.2.2.2.2.1, ?_, h1.2.2.2.2.2.2.2⟩
  have := h1.2.2.2.2.2.2.1
  simpa [readType, h14] using this

/-- In version 1.3 the aliases and the properties are read back and every type is lost, without a word. -/
theorem alias_types_lost {A : Anon} {c : Ctx} (hv : c.version = .v13) {root : String} (hroot : root ≠ "alias") (h : Head) (attrs : List (String × String))
    {o : Obj} (hw : ObjWF o) {ps : PropMap.Props} (hps : ps.NodupKeys) {x : Target} (hI : Inv x.index) (hprops : x.props = []) {o0 : Obj}
    (hl : live x.index x.uid = some o0) (h0 : o0.noType = [] ∧ o0.byType = []) (hok : ∀ a ∈ o.aliases, AliasOk A a ∧ absNames x.index a = none) :
    ∃ w x' o', writeIdentifiable A c root h attrs o ps [] ⟨[], []⟩ = .ok w ∧ w.log = [] ∧
      RoundTrip w.doc (readUntilEnd (subCb A c.version) root x) x' ∧ x'.props = ps ∧ live x'.index x.uid = some o' ∧ o'.id = o0.id ∧
      SameAliases o o' (fun _ => "") ∧ Inv x'.index := by
  have h13 : Supports .v13 c.version := by rw [hv]; decide
  obtain ⟨w, x', o', h1⟩ := identifiable_read h13 hroot h attrs hw hps hI hprops hl h0 hok
  refine ⟨w, x', o', h1.1, h1.2.1, h1.2.2.1, h1.2.2.2.1, h1.2.2.2.2.1, h1.2.2.2.2.2.1, ?_, h1.2.2.2.2.2.2.2.1⟩
  have := h1.2.2.2.2.2.2.1
  have h14 : Ver.ge .v13 .v14 = false := by decide
  simpa [readType, hv, h14] using this

/-- Before version 1.3 the aliases are dropped without a word: what is written is what is written without alias, and nothing is logged. -/
theorem aliases_lost (A : Anon) {c : Ctx} (hv : ¬ Supports .v13 c.version) (root : String) (h : Head) (attrs : List (String × String)) (o : Obj) (ps : PropMap.Props)
    (sub : List Cmd) (w : Written (List Cmd)) :
    ∃ w', writeIdentifiable A c root h attrs o ps sub w = .ok w' ∧ w'.log = w.log ∧
      writeIdentifiable A c root h attrs { o with noType := [], byType := [] } ps sub w = .ok w' := by
  have h13 : c.version.ge .v13 = false := by
    cases h : c.version.ge .v13 with
    | false => rfl
    | true => exact absurd ((supports_iff _ _).2 h) hv
  refine ⟨{ w with doc := (w.doc ++ .start root :: attrCmds (headAttrs A c.version h ++ attrs)) ++ (propsCmds ps ++ (sub ++ [.stop])) }, ?_, rfl, ?_⟩ <;>
    simp [writeIdentifiable, runFromMinimumVersion, h13, Out.map]

/-- **C44** The aliases of the network itself (`NetworkXml.cpp` l. 309) before version 1.3: refused, or logged, when there is one. -/
theorem network_aliases_reported (A : Anon) {c : Ctx} (hv : ¬ Supports .v13 c.version) (o : Obj) (w : Written (List Cmd)) :
    (o.aliases = [] → writeAliases A c o w = .ok w) ∧
    (o.aliases ≠ [] → c.behaviour ≠ .logError → writeAliases A c o w = .thrown) ∧
    (o.aliases ≠ [] → c.behaviour = .logError → ∃ w', writeAliases A c o w = .ok w' ∧ w'.log = "alias" :: w.log) := by
  have h13 : c.version.lt .v13 = true := by
    cases h : c.version.lt .v13 with
    | true => rfl
    | false => exact absurd ((supports_iff _ _).2 (by simp [Ver.ge, h])) hv
  refine ⟨fun h => ?_, fun h hb => ?_, fun h hb => ?_⟩
  · simp [writeAliases, h, assertMinimumVersionIfNotDefault, Out.map, aliasesCmds]
  · have : o.aliases.isEmpty = false := by simpa using h
    cases hc : c.behaviour <;>
      simp_all [writeAliases, assertMinimumVersionIfNotDefault, assertMinimumVersion, createExceptionOrLogError, Out.map]
  · have : o.aliases.isEmpty = false := by simpa using h
    refine ⟨{ w with log := "alias" :: w.log, doc := w.doc ++ aliasesCmds A c.version o o.aliases }, ?_, rfl⟩
    simp [writeAliases, this, assertMinimumVersionIfNotDefault, assertMinimumVersion, createExceptionOrLogError, Out.map, h13, hb]

example : ¬ Supports .v13 (Ctx.mk .v12 .throwException).version := by decide

/-- **C45** Before version 1.3, an identifiable without alias: its properties are read back. -/
theorem properties_old_round_trip {A : Anon} {c : Ctx} (hv : ¬ Supports .v13 c.version) (root : String) (h : Head) (attrs : List (String × String)) (o : Obj)
    {ps : PropMap.Props} (hps : ps.NodupKeys) {x : Target} (hprops : x.props = []) :
    ∃ w, writeIdentifiable A c root h attrs o ps [] ⟨[], []⟩ = .ok w ∧ w.log = [] ∧
      RoundTrip w.doc (readUntilEnd (subCb A c.version) root x) { x with props := ps } := by
  have h13 : c.version.ge .v13 = false := by
    cases h : c.version.ge .v13 with
    | false => rfl
    | true => exact absurd ((supports_iff _ _).2 h) hv
  refine ⟨⟨elemCmds root (headAttrs A c.version h ++ attrs) (propsCmds ps), []⟩, ?_, rfl, ?_⟩
  · simp [writeIdentifiable, runFromMinimumVersion, h13, Out.map, elemCmds]
  · apply roundTrip_intro
    intro i
    obtain ⟨bt', f1, f2, f3⟩ := props_read A c.version root ps x (by rw [hprops]; exact hps) i
    rw [hprops, List.nil_append] at f2
    refine ⟨bt', f1, fun rest => readUntilEnd_core i f2 ?_ rest⟩
    intro hnil
    rw [f3 hnil, ← hprops]

/-! ### Examples -/

/-- A network with one load, not aliased. -/
def oneLoad : State := (step init (.add "L1" 7 false)).2

/-- The load of another network, with two aliases. -/
def aliased : Obj := { uid := 4, id := "L1", ty := 7, noType := ["first name"], byType := [("CGMES", "second name")] }

theorem oneLoad_inv : Inv oneLoad := by
  have h := checkAndAdd_spec inv_init "L1" 7 (by decide) (by decide)
  have e : oneLoad = (checkAndAdd init "L1" 7).2 := rfl
  rw [e]
  exact h.2.1

theorem aliased_wf : ObjWF aliased := by
  constructor
  · decide
  · show (["CGMES"] : List String).Nodup
    decide
  · decide
  · intro a ha
    simp only [aliased, List.mem_singleton] at ha
    subst ha
    decide
  · decide

theorem aliased_free : ∀ a ∈ aliased.aliases, AliasOk .none a ∧ absNames oneLoad a = none := by
  intro a ha
  simp only [aliased, Obj.aliases, List.map_cons, List.map_nil, List.mem_append, List.mem_cons, List.not_mem_nil, or_false] at ha
  rcases ha with rfl | rfl
  · exact ⟨⟨rfl, by decide⟩, by decide⟩
  · exact ⟨⟨rfl, by decide⟩, by decide⟩

example : ∃ w x' o', writeIdentifiable .none ⟨.v14, .throwException⟩ "load" ⟨"L1", "", false⟩ [] aliased [("k", "v"), ("l", "")] [] ⟨[], []⟩ = .ok w ∧ w.log = [] ∧
    RoundTrip w.doc (readUntilEnd (subCb .none .v14) "load" ⟨oneLoad, 0, []⟩) x' ∧ x'.props = [("k", "v"), ("l", "")] ∧ live x'.index 0 = some o' ∧ o'.id = "L1" ∧
    SameAliases aliased o' aliased.aliasType ∧ Inv x'.index ∧ ∀ n, n ∉ aliased.aliases → absNames x'.index n = absNames oneLoad n :=
  aliases_properties_round_trip_partial (c := ⟨.v14, .throwException⟩) (by decide) (by decide) _ _ aliased_wf (by show (["k", "l"] : List String).Nodup; decide) (x := ⟨oneLoad, 0, []⟩) oneLoad_inv rfl
    (o0 := { uid := 0, id := "L1", ty := 7, noType := [], byType := [] }) (by decide) ⟨rfl, rfl⟩ aliased_free

example : aliased.aliasType "second name" = "CGMES" := by decide

example : ∃ w, writeIdentifiable .none ⟨.v10, .throwException⟩ "load" ⟨"L1", "", false⟩ [] aliased [("k", "v")] [] ⟨[], []⟩ = .ok w ∧ w.log = [] ∧
    RoundTrip w.doc (readUntilEnd (subCb .none .v10) "load" ⟨oneLoad, 0, []⟩) ⟨oneLoad, 0, [("k", "v")]⟩ :=
  properties_old_round_trip (c := ⟨.v10, .throwException⟩) (by decide) _ _ _ _ (by show (["k"] : List String).Nodup; decide) rfl

/-- An alias made of white space only (the empty one too) is accepted by `addAlias`, written, and cannot be read: the exception of
`readCharacters` ends the import of the network. -/
theorem blank_alias_unreadable : ∃ s o w ts, addAlias oneLoad 0 " " "" false = (.ok (), s) ∧ live s 0 = some o ∧
    writeIdentifiable .none ⟨.v15, .throwException⟩ "load" ⟨"L1", "", false⟩ [] o [] [] ⟨[], []⟩ = .ok w ∧
    wrun true ⟨[], ["network"], some []⟩ w.doc = .ok ⟨.start "network" [] false :: .blank :: ts, ["network"], none⟩ ∧
    readUntilEnd (subCb .none .v15) "load" ⟨oneLoad, 0, []⟩ ts = .thrown := by
  refine ⟨_, _, _, _, rfl, rfl, rfl, rfl, ?_⟩
  rfl

end Verif.Xml
