import Verif.Xml.ElementsProps
import Verif.Shunt.Props

/-!
C45 for shunt compensators: model, connected sections and regulation settings are read back as they were written, and what
versions before 1.3 do not carry.
-/

namespace Verif.Xml

open Verif

/-- What every model built by the adders satisfies. -/
def ModelWF : Shunt.Model → Prop
  | .linear b _ max => b.isNan = false ∧ 0 < max ∧ max < 2 ^ 64
  | .nonLinear ss => ss ≠ [] ∧ ∀ s ∈ ss, s.b.isNan = false ∧ s.g.isNan = false

/-- The values are read back by `std::stod`. -/
def ModelExact (K : Codec) : Shunt.Model → Prop
  | .linear b g _ => K.Exact b ∧ (g.isNan = false → K.Exact g)
  | .nonLinear ss => ∀ s ∈ ss, K.Exact s.b ∧ K.Exact s.g

/-- What every shunt compensator built by the adder satisfies (see `built_shunt_wf`). -/
structure ShuntWF (m : Shunt.Model) (p : Shunt.Per) : Prop where
  model : ModelWF m
  count : p.count ≤ m.maximum ∧ p.count < 2 ^ 64
  targetV : p.on = true → Dbl.lt 0 p.targetV = true
  deadband : (p.on = true → p.deadband.isNan = false) ∧ Dbl.lt p.deadband 0 = false

structure ShuntExact (K : Codec) (m : Shunt.Model) (p : Shunt.Per) : Prop where
  model : ModelExact K m
  targetV : p.targetV.isNan = false → K.Exact p.targetV
  deadband : p.deadband.isNan = false → K.Exact p.deadband

theorem wf_build {m : Shunt.Model} {p : Shunt.Per} (h : ShuntWF m p) : Shunt.build (some m) (some p.count) p.on p.targetV p.deadband = .ok (m, p) := by
  have hv : Shunt.checkVoltageControl p.on p.targetV = .ok () := by
    unfold Shunt.checkVoltageControl
    cases ho : p.on with
    | false => rfl
    | true =>
      have h1 := h.targetV ho
      have h2 := Dbl.not_le_of_lt h1
      have h3 : p.targetV.isNan = false := by
        cases hx : p.targetV <;> simp_all [Dbl.lt, Dbl.isNan]
      simp [h2, h3]
  have hd : Shunt.checkTargetDeadband p.on p.deadband = .ok () := by
    unfold Shunt.checkTargetDeadband
    cases ho : p.on with
    | false => simp [h.deadband.2]
    | true => simp [h.deadband.2, h.deadband.1 ho]
  have hs : Shunt.checkSections (some p.count) m.maximum = .ok () := by
    have hpos : m.maximum ≠ 0 := by
      have := h.model
      cases m with
      | linear b g k => have := this.2.1; simp only [Shunt.Model.maximum]; omega
      | nonLinear ss =>
        have hl : 0 < ss.length := List.length_pos_iff.2 this.1
        simp only [Shunt.Model.maximum]; omega
    have := h.count.1
    simp only [Shunt.checkSections, if_neg hpos]
    rw [if_neg (by omega)]
  simp only [Shunt.build, hv, hd, hs, Out.bind_ok]

theorem sections_read {K : Codec} (el : String) (i : Bool) : ∀ (ss pre : List Shunt.Section),
    (∀ s ∈ ss, s.b.isNan = false ∧ s.g.isNan = false) → (∀ s ∈ ss, K.Exact s.b ∧ K.Exact s.g) →
    ∃ bt, Emits i (sectionsCmds K ss) bt ∧ Reads (sectionCb K) el pre bt (pre ++ ss) ∧ (bt = [] → ss = []) := by
  intro ss
  induction ss with
  | nil => intro pre _ _; exact ⟨[], emits_nil i, by rw [List.append_nil]; exact reads_nil _ _ _, fun _ => rfl⟩
  | cons x ss ih =>
    intro pre hn he
    obtain ⟨bt, h1, h2, _⟩ := ih (pre ++ [x]) (fun u hu => hn u (List.mem_cons_of_mem _ hu)) (fun u hu => he u (List.mem_cons_of_mem _ hu))
    obtain ⟨a, b⟩ := hn x (List.mem_cons_self ..)
    obtain ⟨ea, eb⟩ := he x (List.mem_cons_self ..)
    have hadd : Shunt.endSection x.b x.g pre = .ok (pre ++ [x]) := by
      simp [Shunt.endSection, Shunt.checkBPerSection, a, b]
    refine ⟨elemToks i "section" (attrD K "b" x.b ++ attrD K "g" x.g) [] ++ bt, ((emits_nil i).elem _ _).append h1, ?_, ?_⟩
    · have hr : Reads (sectionCb K) el pre (elemToks i "section" (attrD K "b" x.b ++ attrD K "g" x.g) []) (pre ++ [x]) := by
        refine (reads_sp _ _ _ i).append ?_
        refine reads_element (body := []) fun rest => ?_
        show sectionCb K pre (.start "section" (attrD K "b" x.b ++ attrD K "g" x.g) true :: rest) = _
        unfold sectionCb
        rw [getD_attr (d := x.b) (by simp [lookup_append, lookup_attrD, a]) ea,
          getD_attr (d := x.g) (by simp [lookup_append, lookup_attrD, b]) eb]
        simp [localName, hadd, Out.map, last1]
      have h2' : Reads (sectionCb K) el (pre ++ [x]) bt (pre ++ x :: ss) := by simpa using h2
      exact hr.append h2'
    · intro h
      simp [elemToks, coreToks] at h

/-- The element of the model, inside the one of the shunt compensator. -/
theorem model_read {K : Codec} (hN : K.Naturals) {m : Shunt.Model} (hm : ModelWF m) (he : ModelExact K m) {v : Ver} (hv : Supports .v13 v) (i : Bool) (o : Option Shunt.Model) :
    ∃ bt, Emits i (modelCmds K m) bt ∧ Reads (shuntCb K v) "shunt" o bt (some m) ∧ bt ≠ [] := by
  have hlt : v.lt .v13 = false := by
    cases h : v.lt .v13 with
    | false => rfl
    | true => exact absurd hv ((lt_iff_not_supports _ _).1 h)
  have hassert : readAssertMinimumVersion .v13 v = .ok () := by simp [readAssertMinimumVersion, hlt]
  cases m with
  | linear b g max =>
    obtain ⟨h1, h2, h3⟩ := hm
    obtain ⟨e1, e2⟩ := he
    refine ⟨_, (emits_nil i).elem _ _, ?_, by simp [elemToks, core_ne_nil]⟩
    refine (reads_sp _ _ _ i).append ?_
    refine reads_element (body := []) fun rest => ?_
    show shuntCb K v o (.start "shuntLinearModel" (attrD K "bPerSection" b ++ (attrD K "gPerSection" g ++ attrN K "maximumSectionCount" max)) true :: rest) = _
    unfold shuntCb
    rw [getD_attr (d := b) (by simp [lookup_append, lookup_attrD, h1]) e1,
      optDOr_attr (d := g) (by cases hg : g.isNan <;> simp [lookup_append, lookup_attrD, lookup_attrN, hg]) e2,
      getN_attr hN (d := max) (by simp [lookup_append, lookup_attrD, lookup_attrN]) h3]
    have : max ≠ 0 := by omega
    simp [localName, hassert, Shunt.buildLinear, Shunt.checkBPerSection, h1, this, Out.map, last1]
  | nonLinear ss =>
    obtain ⟨bt, h1, h2, h3⟩ := sections_read (K := K) "shuntNonLinearModel" i ss [] hm.2 he
    refine ⟨_, h1.elem _ _, ?_, by simp [elemToks, core_ne_nil]⟩
    refine (reads_sp _ _ _ i).append ?_
    have hcb : ∀ rest, shuntCb K v o (coreToks i "shuntNonLinearModel" [] bt ++ rest) = .ok (some (.nonLinear ss), last1 (coreToks i "shuntNonLinearModel" [] bt) ++ rest) := by
      intro rest
      have hl : localName (coreToks i "shuntNonLinearModel" [] bt ++ rest) = .ok "shuntNonLinearModel" := by
        obtain ⟨e, tl, hc⟩ := core_start i "shuntNonLinearModel" [] bt
        rw [hc]; rfl
      unfold shuntCb
      rw [hl, Out.bind_ok, if_neg (by decide), if_pos rfl, hassert, Out.bind_ok, readUntilEnd_core i (by simpa using h2) (fun hb => by simpa using h3 hb), Out.bind_ok]
      have : ss.isEmpty = false := by cases ss with | nil => exact absurd rfl hm.1 | cons _ _ => rfl
      simp [this]
    obtain ⟨e, tl, hc⟩ := core_start i "shuntNonLinearModel" [] bt
    rw [hc] at hcb ⊢
    exact reads_element hcb

/-- The attributes that a context of at least version 1.3 writes. -/
def newShuntAttrs (K : Codec) (p : Shunt.Per) : List (String × String) :=
  attrN K "sectionCount" p.count ++ (attrB "voltageRegulatorOn" p.on ++ (attrD K "targetV" p.targetV ++ attrD K "targetDeadband" p.deadband))

theorem attrCmds_append (a b : List (String × String)) : attrCmds (a ++ b) = attrCmds a ++ attrCmds b := by simp [attrCmds]

theorem writeShunt_new (K : Codec) {c : Ctx} (hv : Supports .v13 c.version) (m : Shunt.Model) (p : Shunt.Per) :
    writeShunt K c m p = .ok ⟨elemCmds "shunt" (newShuntAttrs K p) (modelCmds K m), []⟩ := by
  obtain ⟨v, b⟩ := c
  change Supports .v13 v at hv
  have h12 : v.ge .v12 = true := by revert hv; cases v <;> decide
  have h13 : v.ge .v13 = true := (supports_iff _ _).1 hv
  have hlt : v.lt .v13 = false := by revert hv; cases v <;> decide
  have hle : v.le .v12 = false := by revert hv; cases v <;> decide
  unfold writeShunt shuntAttrs
  cases m <;>
    simp [runFromMinimumVersion, runUntilMaximumVersion, writeAttributeFromMinimumVersion, assertMinimumVersion, addAttrs, hlt, h12, h13, hle, Out.map,
      elemCmds, newShuntAttrs, attrCmds_append]

theorem optBOr_attr {k n : String} {as : List (String × String)} {e : Bool} {rest : List Tok} {b d : Bool} (h : lookup k as = some (if b then "true" else "false")) :
    optBOr k d (.start n as e :: rest) = .ok b := by
  simp [optBOr, rawAttr, h, isTrue_show]

/-- **C45** From version 1.3 on, a shunt compensator is written without error and read back: same model, same number of connected
sections, same regulation settings. -/
theorem shunt_round_trip {K : Codec} (hN : K.Naturals) {c : Ctx} (hv : Supports .v13 c.version) {m : Shunt.Model} {p : Shunt.Per}
    (hw : ShuntWF m p) (he : ShuntExact K m p) :
    ∃ w, writeShunt K c m p = .ok w ∧ w.log = [] ∧ RoundTrip w.doc (readShunt K c.version) (m, p) := by
  refine ⟨_, writeShunt_new K hv m p, rfl, ?_⟩
  apply roundTrip_intro
  intro i
  obtain ⟨bt, h1, h2, h3⟩ := model_read hN hw.model he.model hv i none
  refine ⟨bt, h1, ?_⟩
  intro rest
  generalize c.version = v at hv h2
  have hru := fun o => readUntilEnd_core (as := newShuntAttrs K p) (s := none) i h2 (fun h => absurd h h3) o
  have h12 : v.ge .v12 = true := by revert hv; cases v <;> decide
  have h13 : v.ge .v13 = true := (supports_iff _ _).1 hv
  have hle : v.le .v12 = false := by revert hv; cases v <;> decide
  have hru := hru rest
  obtain ⟨e, tl, hc⟩ := core_start i "shunt" (newShuntAttrs K p) bt
  rw [hc] at hru ⊢
  rw [List.cons_append] at hru ⊢
  generalize tl ++ rest = tl' at hru ⊢
  have hreg : ∀ a, readRegulation K v (.start "shunt" (newShuntAttrs K p) e :: tl') a = .ok { a with on := p.on, targetV := p.targetV, deadband := p.deadband } := by
    intro a
    unfold readRegulation runFromMinimumVersion
    rw [if_pos h12,
      optBOr_attr (b := p.on) (by simp [newShuntAttrs, lookup_append, lookup_attrB, lookup_attrN]),
      optDOr_attr (d := p.targetV) (by cases hx : p.targetV.isNan <;> simp [newShuntAttrs, lookup_append, lookup_attrB, lookup_attrN, lookup_attrD, hx]) he.targetV,
      optDOr_attr (d := p.deadband) (by cases hx : p.deadband.isNan <;> simp [newShuntAttrs, lookup_append, lookup_attrB, lookup_attrN, lookup_attrD, hx]) he.deadband]
    rfl
  have hcount : ∀ a, readCount K v (.start "shunt" (newShuntAttrs K p) e :: tl') a = .ok { a with count := some p.count } := by
    intro a
    unfold readCount runFromMinimumVersion
    rw [if_pos h13, getN_attr hN (d := p.count) (by simp [newShuntAttrs, lookup_append, lookup_attrN]) hw.count.2]
    rfl
  unfold readShunt
  rw [hreg, Out.bind_ok]
  simp only [readOldModel, runUntilMaximumVersion, hle]
  rw [if_neg (by simp), Out.bind_ok, hcount, Out.bind_ok]
  simp only
  rw [hru, Out.bind_ok]
  simp only [wf_build hw]
  rfl

/-- What the adders accept is well formed, the section counts being numbers of 64 bits. -/
theorem built_shunt_wf {b g : Dbl} {max : Nat} {args : List (Dbl × Dbl)} {m : Shunt.Model} {n : Nat} {on : Bool} {v d : Dbl} {x : Shunt.Model × Shunt.Per}
    (hm : (Shunt.buildLinear b g (some max) = .ok m ∧ max < 2 ^ 64) ∨ Shunt.buildNonLinear args = .ok m)
    (h : Shunt.build (some m) (some n) on v d = .ok x) (hn : n < 2 ^ 64) : ShuntWF x.1 x.2 := by
  obtain ⟨h1, h2, h3, h4, h5, h6, h7, h8, h9⟩ := Shunt.build_ok h
  obtain ⟨m', p⟩ := x
  simp only [Option.some.injEq] at h1 h2
  subst h1 h2 h7 h8 h9
  refine ⟨?_, ⟨h4, hn⟩, Shunt.checkVoltageControl_ok h5, ?_⟩
  · rcases hm with ⟨hm, hlt⟩ | hm
    · rcases Out.bind_eq_ok.1 hm with ⟨_, hb, hm⟩
      have hb : b.isNan = false := by
        cases hx : b.isNan with
        | false => rfl
        | true => simp [Shunt.checkBPerSection, hx] at hb
      by_cases hz : max = 0
      · simp [hz] at hm
      · simp only [hz, if_false, Out.ok.injEq] at hm
        subst hm
        exact ⟨hb, by omega, hlt⟩
    · rcases Out.bind_eq_ok.1 hm with ⟨ss, hss, hm⟩
      cases he : ss.isEmpty with
      | true => simp [he] at hm
      | false =>
        simp only [he] at hm
        cases hm
        refine ⟨(by rintro rfl; cases he), ?_⟩
        have aux : ∀ (args : List (Dbl × Dbl)) (acc ss : List Shunt.Section), Shunt.endSections acc args = .ok ss →
            (∀ s ∈ acc, s.b.isNan = false ∧ s.g.isNan = false) → ∀ s ∈ ss, s.b.isNan = false ∧ s.g.isNan = false := by
          intro args
          induction args with
          | nil => intro acc ss h ha; cases h; exact ha
          | cons a args ih =>
            intro acc ss h ha
            rcases Out.bind_eq_ok.1 h with ⟨acc', h1, h2⟩
            refine ih acc' ss h2 ?_
            rcases Out.bind_eq_ok.1 h1 with ⟨_, hb, h1⟩
            cases h1
            intro s hs
            rcases List.mem_append.1 hs with hs | hs
            · exact ha s hs
            · simp only [List.mem_singleton] at hs
              subst hs
              constructor
              · cases hx : a.1.isNan with
                | false => rfl
                | true => simp [Shunt.checkBPerSection, hx] at hb
              · show Dbl.isNan (if a.2.isNan then _ else a.2) = false
                cases hx : a.2.isNan with
                | false => simpa using hx
                | true =>
                  rw [if_pos rfl]
                  cases hl : acc.getLast? with
                  | none => rfl
                  | some u => exact (ha u (List.mem_of_getLast? hl)).2
        exact aux args [] ss hss (fun s hs => absurd hs (List.not_mem_nil ))
  · simp only [Shunt.checkTargetDeadband] at h6
    constructor
    · intro ho
      change p.on = true at ho
      cases hx : p.deadband.isNan with
      | false => rfl
      | true => simp [ho, hx] at h6
    · cases hx : Dbl.lt p.deadband 0 with
      | false => rfl
      | true =>
        rw [hx] at h6
        split at h6 <;> simp at h6

example : ∃ w, writeShunt toy ⟨.v13, .throwException⟩ (.nonLinear [⟨1, 0⟩, ⟨.fin (-2), 3⟩]) ⟨1, true, 225, 2⟩ = .ok w ∧ w.log = [] ∧
    RoundTrip w.doc (readShunt toy .v13) (.nonLinear [⟨1, 0⟩, ⟨.fin (-2), 3⟩], ⟨1, true, 225, 2⟩) :=
  shunt_round_trip toy_naturals (c := ⟨.v13, .throwException⟩) (by decide)
    (built_shunt_wf (b := 0) (g := 0) (max := 0) (args := [(1, .nan), (.fin (-2), 3)]) (m := .nonLinear [⟨1, 0⟩, ⟨.fin (-2), 3⟩]) (.inr (by decide)) (n := 1) (on := true) (v := 225) (d := 2)
      (x := (.nonLinear [⟨1, 0⟩, ⟨.fin (-2), 3⟩], ⟨1, true, 225, 2⟩)) (by decide) (by decide))
    ⟨fun s _ => ⟨toy_exact _, toy_exact _⟩, fun _ => toy_exact _, fun _ => toy_exact _⟩

example : ∃ w, writeShunt toy ⟨.v15, .logError⟩ (.linear 2 .nan 4) ⟨0, false, .nan, .nan⟩ = .ok w ∧ w.log = [] ∧
    RoundTrip w.doc (readShunt toy .v15) (.linear 2 .nan 4, ⟨0, false, .nan, .nan⟩) :=
  shunt_round_trip toy_naturals (c := ⟨.v15, .logError⟩) (by decide)
    ⟨⟨by decide, by decide, by decide⟩, ⟨by decide, by decide⟩, by decide, by decide, by decide⟩
    ⟨⟨toy_exact _, fun _ => toy_exact _⟩, fun _ => toy_exact _, fun _ => toy_exact _⟩

/-! ### Before version 1.3 -/

/-- The attributes of the regulation, before version 1.3. -/
def oldRegAttrs (K : Codec) (v : Ver) (p : Shunt.Per) : List (String × String) :=
  if v.ge .v12 then attrB "voltageRegulatorOn" p.on ++ (attrD K "targetV" p.targetV ++ attrD K "targetDeadband" p.deadband) else []

def oldShuntAttrs (K : Codec) (v : Ver) (b : Dbl) (max : Nat) (p : Shunt.Per) : List (String × String) :=
  attrD K "bPerSection" b ++ (attrN K "maximumSectionCount" max ++ (attrN K "currentSectionCount" p.count ++ oldRegAttrs K v p))

theorem writeShunt_old (K : Codec) {c : Ctx} (hv : ¬ Supports .v13 c.version) (b g : Dbl) (max : Nat) (p : Shunt.Per)
    (hreg : Supports .v12 c.version ∨ (p.on = false ∧ p.targetV = .nan ∧ p.deadband = .nan)) :
    writeShunt K c (.linear b g max) p = .ok ⟨elemCmds "shunt" (oldShuntAttrs K c.version b max p) [], []⟩ := by
  obtain ⟨v, bh⟩ := c
  change ¬ Supports .v13 v at hv
  change Supports .v12 v ∨ _ at hreg
  have h13 : v.ge .v13 = false := by revert hv; clear hreg; cases v <;> decide
  have hle : v.le .v12 = true := by revert hv; clear hreg; cases v <;> decide
  have hnan : isEqual .nan .nan = true := isEqual_refl _
  by_cases h12 : v.ge .v12 = true
  · simp [writeShunt, shuntAttrs, runFromMinimumVersion, runUntilMaximumVersion, writeAttributeFromMinimumVersion, shuntOldAttrs, addAttrs, h12, h13, hle, Out.map,
      elemCmds, oldShuntAttrs, oldRegAttrs, attrCmds_append]
  · obtain ⟨h1, h2, h3⟩ := hreg.resolve_left (fun h => h12 ((supports_iff _ _).1 h))
    simp only [Bool.not_eq_true] at h12
    simp [writeShunt, shuntAttrs, runFromMinimumVersion, runUntilMaximumVersion, writeAttributeFromMinimumVersion, assertMinimumVersionIfNotDefault, shuntOldAttrs, addAttrs,
      h12, h13, hle, Out.map, elemCmds, oldShuntAttrs, oldRegAttrs, attrCmds_append, h1, h2, h3, hnan]

/-- **C45** Before version 1.3, a linear shunt compensator without conductance is read back; before version 1.2, so it is when it has no
regulation setting. -/
theorem shunt_old_round_trip_partial {K : Codec} (hN : K.Naturals) {c : Ctx} (hv : ¬ Supports .v13 c.version) {b : Dbl} {max : Nat} {p : Shunt.Per}
    (hreg : Supports .v12 c.version ∨ (p.on = false ∧ p.targetV = .nan ∧ p.deadband = .nan))
    (hw : ShuntWF (.linear b .nan max) p) (he : ShuntExact K (.linear b .nan max) p) :
    ∃ w, writeShunt K c (.linear b .nan max) p = .ok w ∧ w.log = [] ∧ RoundTrip w.doc (readShunt K c.version) (.linear b .nan max, p) := by
  refine ⟨_, writeShunt_old K hv b .nan max p hreg, rfl, ?_⟩
  apply roundTrip_intro
  intro i
  refine ⟨[], emits_nil i, ?_⟩
  intro rest
  generalize c.version = v at hv hreg
  have h13 : v.ge .v13 = false := by revert hv; clear hreg; cases v <;> decide
  have hle : v.le .v12 = true := by revert hv; clear hreg; cases v <;> decide
  show readShunt K v (.start "shunt" (oldShuntAttrs K v b max p) true :: rest) = .ok (_, .start "shunt" (oldShuntAttrs K v b max p) true :: rest)
  have hreg' : readRegulation K v (.start "shunt" (oldShuntAttrs K v b max p) true :: rest) ⟨none, false, .nan, .nan, none⟩ = .ok ⟨none, p.on, p.targetV, p.deadband, none⟩ := by
    unfold readRegulation runFromMinimumVersion
    by_cases h12 : v.ge .v12 = true
    · rw [if_pos h12,
        optBOr_attr (b := p.on) (by simp [oldShuntAttrs, oldRegAttrs, h12, lookup_append, lookup_attrB, lookup_attrN, lookup_attrD]),
        optDOr_attr (d := p.targetV) (by cases hx : p.targetV.isNan <;> simp [oldShuntAttrs, oldRegAttrs, h12, lookup_append, lookup_attrB, lookup_attrN, lookup_attrD, hx]) he.targetV,
        optDOr_attr (d := p.deadband) (by cases hx : p.deadband.isNan <;> simp [oldShuntAttrs, oldRegAttrs, h12, lookup_append, lookup_attrB, lookup_attrN, lookup_attrD, hx]) he.deadband]
      rfl
    · obtain ⟨h1, h2, h3⟩ := hreg.resolve_left (fun h => h12 ((supports_iff _ _).1 h))
      rw [if_neg h12, h1, h2, h3]
  obtain ⟨m1, m2, m3⟩ := hw.model
  have hold : readOldModel K v (.start "shunt" (oldShuntAttrs K v b max p) true :: rest) ⟨none, p.on, p.targetV, p.deadband, none⟩
      = .ok ⟨some p.count, p.on, p.targetV, p.deadband, some (.linear b .nan max)⟩ := by
    have hmax : max ≠ 0 := by omega
    unfold readOldModel runUntilMaximumVersion
    rw [if_pos hle,
      getD_attr (d := b) (by simp [oldShuntAttrs, lookup_append, lookup_attrD, m1]) he.model.1,
      getN_attr hN (d := max) (by simp [oldShuntAttrs, lookup_append, lookup_attrD, lookup_attrN]) m3,
      getN_attr hN (d := p.count) (by simp [oldShuntAttrs, lookup_append, lookup_attrD, lookup_attrN]) hw.count.2]
    simp [Shunt.buildLinear, Shunt.checkBPerSection, m1, hmax]
  have hcount : ∀ a, readCount K v (.start "shunt" (oldShuntAttrs K v b max p) true :: rest) a = .ok a := by
    intro a
    simp [readCount, runFromMinimumVersion, h13]
  unfold readShunt
  rw [hreg', Out.bind_ok, hold, Out.bind_ok, hcount, Out.bind_ok]
  simp only [readUntilEnd, Out.bind_ok, wf_build hw]
  rfl

example : ∃ w, writeShunt toy ⟨.v12, .throwException⟩ (.linear 2 .nan 4) ⟨3, true, 225, 0⟩ = .ok w ∧ w.log = [] ∧
    RoundTrip w.doc (readShunt toy .v12) (.linear 2 .nan 4, ⟨3, true, 225, 0⟩) :=
  shunt_old_round_trip_partial toy_naturals (c := ⟨.v12, .throwException⟩) (by decide) (.inl (by decide))
    ⟨⟨by decide, by decide, by decide⟩, ⟨by decide, by decide⟩, by decide, by decide, by decide⟩
    ⟨⟨toy_exact _, fun _ => toy_exact _⟩, fun _ => toy_exact _, fun _ => toy_exact _⟩

/-- Before version 1.3 the conductance of a linear model is dropped without a word: what is written is what is written without
conductance, nothing is logged, and reading gives another shunt compensator. -/
theorem shunt_conductance_lost {K : Codec} (hN : K.Naturals) {c : Ctx} (hv : ¬ Supports .v13 c.version) {b g : Dbl} {max : Nat} {p : Shunt.Per}
    (hreg : Supports .v12 c.version ∨ (p.on = false ∧ p.targetV = .nan ∧ p.deadband = .nan))
    (hw : ShuntWF (.linear b .nan max) p) (he : ShuntExact K (.linear b .nan max) p) :
    ∃ w, writeShunt K c (.linear b g max) p = .ok w ∧ w.log = [] ∧ RoundTrip w.doc (readShunt K c.version) (.linear b .nan max, p) := by
  obtain ⟨w, h1, h2, h3⟩ := shunt_old_round_trip_partial hN hv hreg hw he
  rw [writeShunt_old K hv b .nan max p hreg] at h1
  exact ⟨w, by rw [writeShunt_old K hv b g max p hreg]; exact h1, h2, h3⟩

/-- Before version 1.3 a non linear model is reported, by an exception or in the log. -/
theorem nonLinear_reported (K : Codec) {c : Ctx} (hv : ¬ Supports .v13 c.version) (ss : List Shunt.Section) (p : Shunt.Per) :
    (c.behaviour ≠ .logError → writeShunt K c (.nonLinear ss) p = .thrown) ∧
    ∀ w, writeShunt K c (.nonLinear ss) p = .ok w → "shuntNonLinearModel" ∈ w.log := by
  obtain ⟨v, bh⟩ := c
  change ¬ Supports .v13 v at hv
  have hlt : v.lt .v13 = true := (lt_iff_not_supports _ _).2 hv
  have h13 : v.ge .v13 = false := by revert hv; clear hlt; cases v <;> decide
  have hle : v.le .v12 = true := by revert hv; clear hlt h13; cases v <;> decide
  constructor
  · intro hb
    cases bh <;> simp_all [writeShunt, shuntAttrs, assertMinimumVersion, createExceptionOrLogError, Out.bind]
  · intro w h
    have keep : ∀ {name : String} {nd : Bool} {min : Ver} {f : List Cmd → Out (List Cmd)} {c : Ctx} {u u' : Written (List Cmd)},
        writeAttributeFromMinimumVersion name nd min f c u = .ok u' → "shuntNonLinearModel" ∈ u.log → "shuntNonLinearModel" ∈ u'.log := by
      intro name nd min f c u u' h hu
      unfold writeAttributeFromMinimumVersion at h
      split at h
      · cases hf : f u.doc <;> rw [hf] at h <;> cases h
        exact hu
      · unfold assertMinimumVersionIfNotDefault assertMinimumVersion createExceptionOrLogError at h
        split at h
        · split at h
          · split at h <;> cases h
            exact List.mem_cons_of_mem _ hu
          · cases h; exact hu
        · cases h; exact hu
    unfold writeShunt shuntAttrs at h
    obtain ⟨w5, h, hw⟩ := Out.bind_eq_ok.1 h
    obtain ⟨w1, h1, h⟩ := Out.bind_eq_ok.1 h
    obtain ⟨w2, h2, h⟩ := Out.bind_eq_ok.1 h
    obtain ⟨w3, h3, h⟩ := Out.bind_eq_ok.1 h
    obtain ⟨w4, h4, h⟩ := Out.bind_eq_ok.1 h
    obtain ⟨w6, h6, h⟩ := Out.bind_eq_ok.1 h
    have l1 : "shuntNonLinearModel" ∈ w1.log := by
      simp only [assertMinimumVersion, hlt, if_true, createExceptionOrLogError] at h1
      split at h1 <;> cases h1
      exact List.mem_cons_self ..
    have l2 : "shuntNonLinearModel" ∈ w2.log := by
      simp only [runUntilMaximumVersion, hle, if_true] at h2
      cases ho : shuntOldAttrs K (.nonLinear ss) p <;> rw [ho] at h2 <;> cases h2
      exact l1
    have l3 : "shuntNonLinearModel" ∈ w3.log := by
      simp [runFromMinimumVersion, h13] at h3
      subst h3; exact l2
    have l5 := keep h (keep h6 (keep h4 l3))
    simp [runFromMinimumVersion, h13] at hw
    subst hw
    exact l5

example : (writeShunt toy ⟨.v12, .logError⟩ (.nonLinear [⟨1, 0⟩]) ⟨1, false, .nan, .nan⟩).isOk = true ∧
    writeShunt toy ⟨.v12, .throwException⟩ (.nonLinear [⟨1, 0⟩]) ⟨1, false, .nan, .nan⟩ = .thrown := by decide

end Verif.Xml
