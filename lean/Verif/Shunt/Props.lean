import Verif.Shunt.Model

/-! Property C36 (shunt sections stay within the model) and C57 (usable regulation settings of shunt compensators). -/

namespace Verif.Shunt

open Verif

/-! ### The values of the model (C36) -/

/-- Reading the susceptance for a number of sections succeeds exactly when the model has that many. -/
theorem getB_ok_iff (m : Model) (n : Nat) : (∃ x, m.getB n = .ok x) ↔ n ≤ m.maximum := by
  cases m with
  | linear b g k =>
    simp only [Model.getB, Model.maximum]
    split
    · exact ⟨fun ⟨_, h⟩ => (by cases h), fun h => (by omega)⟩
    · exact ⟨fun _ => (by omega), fun _ => ⟨_, rfl⟩⟩
  | nonLinear ss =>
    simp only [Model.getB, Model.maximum]
    split
    · exact ⟨fun ⟨_, h⟩ => (by cases h), fun h => (by omega)⟩
    · rename_i hn
      refine ⟨fun _ => (by omega), fun _ => ?_⟩
      split
      · exact ⟨_, rfl⟩
      · have : n - 1 < ss.length := by omega
        rw [List.getElem?_eq_getElem this]
        exact ⟨_, rfl⟩

theorem getG_ok_iff (m : Model) (n : Nat) : (∃ x, m.getG n = .ok x) ↔ n ≤ m.maximum := by
  cases m with
  | linear b g k =>
    simp only [Model.getG, Model.maximum]
    split
    · exact ⟨fun ⟨_, h⟩ => (by cases h), fun h => (by omega)⟩
    · exact ⟨fun _ => (by omega), fun _ => ⟨_, rfl⟩⟩
  | nonLinear ss =>
    simp only [Model.getG, Model.maximum]
    split
    · exact ⟨fun ⟨_, h⟩ => (by cases h), fun h => (by omega)⟩
    · rename_i hn
      refine ⟨fun _ => (by omega), fun _ => ?_⟩
      split
      · exact ⟨_, rfl⟩
      · have : n - 1 < ss.length := by omega
        rw [List.getElem?_eq_getElem this]
        exact ⟨_, rfl⟩

/-- Reading never runs out of the section vector, whatever the number. -/
theorem get_no_ub (m : Model) (n : Nat) : m.getB n ≠ .ub ∧ m.getG n ≠ .ub := by
  cases m with
  | linear b g k => constructor <;> (simp only [Model.getB, Model.getG]; split <;> nofun)
  | nonLinear ss =>
    constructor <;>
    · simp only [Model.getB, Model.getG]
      split
      · nofun
      · rename_i hn
        split
        · nofun
        · have : n - 1 < ss.length := by omega
          rw [List.getElem?_eq_getElem this]
          nofun

/-- The linear model is proportional: `n` sections give `n` times the finite value of one section. -/
theorem linear_proportional {b : Rat} {g : Dbl} {k n : Nat} (h : n ≤ k) :
    (Model.linear (.fin b) g k).getB n = .ok (.fin (b * n)) ∧
      (∀ q, g = .fin q → (Model.linear (.fin b) g k).getG n = .ok (.fin (q * n))) ∧
      (g = .nan → (Model.linear (.fin b) g k).getG n = .ok (.fin 0)) := by
  have hk : ¬ k < n := by omega
  refine ⟨by simp [Model.getB, hk, times], ?_, ?_⟩
  · rintro q rfl; simp [Model.getG, hk, times, Dbl.isNan]
  · rintro rfl; simp only [Model.getG, hk, if_false, Dbl.isNan, if_true]; rfl

example : (Model.linear (.fin 5) .nan 4).getB 3 = .ok (.fin (5 * 3)) := by
  have := (linear_proportional (b := 5) (g := .nan) (k := 4) (n := 3) (by omega)).1
  exact this

/-- The `n`-th value of the non linear model is the one given for `n` sections. -/
theorem nonLinear_values {ss : List Section} {n : Nat} (h : n < ss.length) :
    (Model.nonLinear ss).getB (n + 1) = .ok (ss[n]).b ∧ (Model.nonLinear ss).getG (n + 1) = .ok (ss[n]).g := by
  have h1 : ¬ ss.length < n + 1 := by omega
  simp [Model.getB, Model.getG, h1, h]

example : (Model.nonLinear [⟨1, 2⟩, ⟨3, 4⟩]).getB 2 = .ok 3 := (nonLinear_values (n := 1) (by decide)).1

/-- Values per section that are not infinite. -/
def Model.Finite : Model → Prop
  | .linear b g _ => (∃ q, b = .fin q) ∧ ((∃ q, g = .fin q) ∨ g = .nan)
  | .nonLinear _ => True

/-- Zero section means zero, for models whose values are not infinite (`times` with an infinite value and zero is NaN:
    `zero_section_infinite`). -/
theorem zero_section {m : Model} (hm : m.Finite) : m.getB 0 = .ok 0 ∧ m.getG 0 = .ok 0 := by
  cases m with
  | linear b g k =>
    rcases hm with ⟨⟨q, rfl⟩, ⟨r, rfl⟩ | rfl⟩
    · refine ⟨?_, ?_⟩
      · simp only [Model.getB, times, Nat.not_lt_zero, if_false]
        show Out.ok (Dbl.fin _) = .ok (.fin _)
        congr 2; simp
      · simp only [Model.getG, times, Nat.not_lt_zero, if_false, Dbl.isNan]
        show Out.ok (Dbl.fin _) = .ok (.fin _)
        congr 2; simp
    · refine ⟨?_, ?_⟩
      · simp only [Model.getB, times, Nat.not_lt_zero, if_false]
        show Out.ok (Dbl.fin _) = .ok (.fin _)
        congr 2; simp
      · rfl
  | nonLinear ss => simp [Model.getB, Model.getG]

example : (Model.linear 5 .nan 4).Finite := ⟨⟨5, rfl⟩, .inr rfl⟩

/-- An infinite susceptance per section is accepted and gives NaN for zero section. -/
theorem zero_section_infinite : ∃ m, buildLinear .posInf .nan (some 1) = .ok m ∧ m.getB 0 = .ok .nan := ⟨_, rfl, rfl⟩

/-! ### Sections in every variant (C36) -/

/-- The histories for which C36 holds: the maximum of the linear model is not lowered below the sections connected in some variant. -/
def MaxSafe (m : Multi Model Per) : Multi.Op Op → Prop
  | .call (.setMaximumSectionCount n) => ∀ v ∈ m.variants, (m.per v).count ≤ n
  | _ => True

instance (m : Multi Model Per) (o : Multi.Op Op) : Decidable (MaxSafe m o) := by
  unfold MaxSafe; split <;> infer_instance

theorem checkSections_ok {c : Option Nat} {m : Nat} (h : checkSections c m = .ok ()) : ∃ n, c = some n ∧ 0 < m ∧ n ≤ m := by
  cases c with
  | none => cases h
  | some n =>
    simp only [checkSections] at h
    split at h
    · cases h
    · split at h
      · cases h
      · exact ⟨n, rfl, by omega, by omega⟩

/-- The connected sections are at most the maximum. -/
def Within (s : Model) (p : Per) : Prop := p.count ≤ s.maximum

theorem setB_maximum (x : Dbl) (s : Model) : (setBPerSection x s).2.maximum = s.maximum := by
  cases s with
  | linear b g k => simp only [setBPerSection]; split <;> rfl
  | nonLinear ss => rfl

theorem setG_maximum (x : Dbl) (s : Model) : (setGPerSection x s).2.maximum = s.maximum := by
  cases s <;> rfl

theorem setMax_maximum (n : Nat) (s : Model) (p : Per) :
    (setMaximumSectionCount n s p).2.maximum = s.maximum ∨
      ((setMaximumSectionCount n s p).2.maximum = n ∧ 0 < n ∧ p.count ≤ n) := by
  cases s with
  | linear b g k =>
    simp only [setMaximumSectionCount]
    split
    · rename_i h
      rcases checkSections_ok h with ⟨k, hk, h1, h2⟩
      cases hk
      exact .inr ⟨rfl, h1, h2⟩
    · exact .inl rfl
  | nonLinear ss => exact .inl rfl

theorem within_setSectionCount {s : Model} {p : Per} (h : Within s p) (n : Nat) : Within s (setSectionCount n s p).2 := by
  simp only [setSectionCount]
  split
  · rename_i hc
    rcases checkSections_ok hc with ⟨k, hk, _, h2⟩
    cases hk
    exact h2
  · exact h

theorem setTargetDeadband_count (x : Dbl) (p : Per) : (setTargetDeadband x p).2.count = p.count := by
  simp only [setTargetDeadband]; split <;> rfl

theorem setTargetV_count (x : Dbl) (p : Per) : (setTargetV x p).2.count = p.count := by
  simp only [setTargetV]; split <;> rfl

theorem setVoltageRegulatorOn_count (b : Bool) (p : Per) : (setVoltageRegulatorOn b p).2.count = p.count := by
  simp only [setVoltageRegulatorOn]; split <;> rfl

theorem within_step {m : Multi Model Per} {o : Multi.Op Op} (h : m.All Within) (ho : MaxSafe m o) : (Multi.step act m o).2.All Within := by
  refine Multi.all_step h ?_
  rintro a rfl v hv
  have hI := h v hv
  cases a with
  | setSectionCount n =>
    refine ⟨fun _ => within_setSectionCount hI n, fun _ => ?_⟩
    cases hc : m.cur <;> exact hI
  | setTargetDeadband x =>
    refine ⟨fun _ => ?_, fun _ => ?_⟩
    · show (setTargetDeadband x (m.per v)).2.count ≤ _; rw [setTargetDeadband_count]; exact hI
    · cases hc : m.cur <;> exact hI
  | setTargetV x =>
    refine ⟨fun _ => ?_, fun _ => ?_⟩
    · show (setTargetV x (m.per v)).2.count ≤ _; rw [setTargetV_count]; exact hI
    · cases hc : m.cur <;> exact hI
  | setVoltageRegulatorOn b =>
    refine ⟨fun _ => ?_, fun _ => ?_⟩
    · show (setVoltageRegulatorOn b (m.per v)).2.count ≤ _; rw [setVoltageRegulatorOn_count]; exact hI
    · cases hc : m.cur <;> exact hI
  | setBPerSection x =>
    have : (m.per v).count ≤ (setBPerSection x m.shared).2.maximum := by rw [setB_maximum]; exact hI
    exact ⟨fun _ => this, fun _ => this⟩
  | setGPerSection x =>
    have : (m.per v).count ≤ (setGPerSection x m.shared).2.maximum := by rw [setG_maximum]; exact hI
    exact ⟨fun _ => this, fun _ => this⟩
  | setMaximumSectionCount n =>
    have key : ∀ p, (m.per v).count ≤ (setMaximumSectionCount n m.shared p).2.maximum := by
      intro p
      rcases setMax_maximum n m.shared p with h' | ⟨h', _⟩
      · rw [h']; exact hI
      · rw [h']; exact ho v hv
    refine ⟨fun _ => key _, fun _ => ?_⟩
    cases hc : m.cur with
    | none => exact hI
    | some p => exact key p
  | setSectionB i x => exact ⟨fun _ => hI, fun _ => hI⟩
  | setSectionG i x => exact ⟨fun _ => hI, fun _ => hI⟩

theorem build_ok {model : Option Model} {count : Option Nat} {on : Bool} {v d : Dbl} {x : Model × Per}
    (h : build model count on v d = .ok x) :
    model = some x.1 ∧ count = some x.2.count ∧ 0 < x.1.maximum ∧ x.2.count ≤ x.1.maximum ∧
      checkVoltageControl on v = .ok () ∧ checkTargetDeadband on d = .ok () ∧ x.2.on = on ∧ x.2.targetV = v ∧ x.2.deadband = d := by
  simp only [build] at h
  rcases Out.bind_eq_ok.1 h with ⟨_, h1, h⟩
  rcases Out.bind_eq_ok.1 h with ⟨_, h2, h⟩
  cases model with
  | none => cases h
  | some m =>
    rcases Out.bind_eq_ok.1 h with ⟨_, h3, h⟩
    rcases checkSections_ok h3 with ⟨n, rfl, h4, h5⟩
    cases h
    exact ⟨rfl, rfl, h4, h5, h1, h2, rfl, rfl, rfl⟩

/-- **C36**, partial: in every variant, after any history in which the maximum of the linear model is not lowered below the sections
    connected in another variant, the connected sections are at most the maximum.  False otherwise
    (`setMaximumSectionCount_breaks_other_variant`). -/
theorem sections_within_partial {model : Option Model} {count : Option Nat} {on : Bool} {v0 d0 : Dbl} {x : Model × Per}
    (hb : build model count on v0 d0 = .ok x) (variants : List Nat) (w : Option Nat) (ops : List (Multi.Op Op))
    (hops : Multi.Allowed act MaxSafe (fresh x variants w) ops) :
    let m := Multi.run act (fresh x variants w) ops
    ∀ v ∈ m.variants, (m.per v).count ≤ m.shared.maximum := by
  refine Multi.run_induction (P := Multi.All Within) (fun m o h ho => within_step h ho) ops _ ?_ hops
  intro v _
  exact (build_ok hb).2.2.2.1

theorem workingOk_run {m : Multi Model Per} (h : m.WorkingOk) (ops : List (Multi.Op Op)) : (Multi.run act m ops).WorkingOk := by
  induction ops generalizing m with
  | nil => exact h
  | cons o os ih => exact ih (Multi.workingOk_step h o)

/-- **C36**, partial: for the same histories, reading susceptance and conductance in the working variant never fails. -/
theorem reading_succeeds_partial {model : Option Model} {count : Option Nat} {on : Bool} {v0 d0 : Dbl} {x : Model × Per}
    (hb : build model count on v0 d0 = .ok x) (variants : List Nat) (w : Option Nat) (hw : ∀ v, w = some v → v ∈ variants)
    (ops : List (Multi.Op Op)) (hops : Multi.Allowed act MaxSafe (fresh x variants w) ops) :
    let m := Multi.run act (fresh x variants w) ops
    m.working.isSome = true → (∃ b, readB m = .ok b) ∧ ∃ g, readG m = .ok g := by
  intro m hm
  have hin := sections_within_partial hb variants w ops hops
  have hwk : m.WorkingOk := workingOk_run (m := fresh x variants w) hw ops
  cases hv : m.working with
  | none => rw [hv] at hm; cases hm
  | some v =>
    have hc : m.cur = some (m.per v) := by simp [Multi.cur, hv]
    have hle : (m.per v).count ≤ m.shared.maximum := hin v (hwk v hv)
    simp only [readB, readG, hc]
    exact ⟨(getB_ok_iff _ _).2 hle, (getG_ok_iff _ _).2 hle⟩

/-- A history with two variants, changing the number of sections and the maximum. -/
def exampleOps : List (Multi.Op Op) :=
  [.clone 0 1, .call (.setSectionCount 3), .call (.setMaximumSectionCount 3), .select 1, .call (.setMaximumSectionCount 2),
   .call (.setSectionCount 2)]

example : ∃ x, build (some (.linear 1 .nan 4)) (some 1) false .nan .nan = .ok x ∧
    Multi.Allowed act MaxSafe (fresh x [0] (some 0)) (exampleOps.take 4) ∧
    (Multi.run act (fresh x [0] (some 0)) (exampleOps.take 4)).shared.maximum = 3 := ⟨_, rfl, by decide, by decide⟩

/-- Lowering the maximum while another variant uses more sections is accepted; reading there throws. -/
theorem setMaximumSectionCount_breaks_other_variant :
    ∃ x, build (some (.linear 1 .nan 4)) (some 1) false .nan .nan = .ok x ∧
      let m := Multi.run act (fresh x [0] (some 0)) (exampleOps ++ [.select 0])
      m.shared.maximum < (m.per 0).count ∧ readB m = .thrown ∧ readG m = .thrown := ⟨_, rfl, by decide, by decide, by decide⟩

/-- The number of sections of a model is never zero. -/
theorem maximum_positive {model : Option Model} {count : Option Nat} {on : Bool} {v0 d0 : Dbl} {x : Model × Per}
    (hb : build model count on v0 d0 = .ok x) (variants : List Nat) (w : Option Nat) (ops : List (Multi.Op Op)) :
    0 < (Multi.run act (fresh x variants w) ops).shared.maximum := by
  refine Multi.run_shared (J := fun s : Model => 0 < s.maximum) ?_ ops _ (build_ok hb).2.2.1
  intro a s p h
  cases a with
  | setSectionCount n => cases p <;> exact h
  | setTargetDeadband n => cases p <;> exact h
  | setTargetV n => cases p <;> exact h
  | setVoltageRegulatorOn n => cases p <;> exact h
  | setBPerSection x => show 0 < (setBPerSection x s).2.maximum; rw [setB_maximum]; exact h
  | setGPerSection x => show 0 < (setGPerSection x s).2.maximum; rw [setG_maximum]; exact h
  | setMaximumSectionCount n =>
    cases p with
    | none => exact h
    | some p =>
      show 0 < (setMaximumSectionCount n s p).2.maximum
      rcases setMax_maximum n s p with h' | ⟨h', h0, _⟩
      · rw [h']; exact h
      · rw [h']; exact h0
  | setSectionB i x => exact h
  | setSectionG i x => exact h

/-- Connecting a number of sections is accepted exactly up to the maximum, and then that is the number read. -/
theorem setSectionCount_spec {m : Multi Model Per} {v : Nat} (hw : m.working = some v) (hmax : 0 < m.shared.maximum) (n : Nat) :
    let x := Multi.step act m (.call (.setSectionCount n))
    (x.1 = .ok () ↔ n ≤ m.shared.maximum) ∧ (x.1 = .ok () → (x.2.per v).count = n) ∧
      (x.1 ≠ .ok () → x.2.per = m.per) ∧ x.2.shared = m.shared ∧ ∀ u, u ≠ v → x.2.per u = m.per u := by
  have hc : m.cur = some (m.per v) := by simp [Multi.cur, hw]
  have h0 : m.shared.maximum ≠ 0 := by omega
  have e : Multi.step act m (.call (.setSectionCount n)) = m.call (act (.setSectionCount n)) := rfl
  simp only [e, Multi.call, act, needVariant, hc, setSectionCount, checkSections, h0, if_false, hw]
  by_cases hn : m.shared.maximum < n
  · simp only [hn, if_true]
    refine ⟨⟨fun h => (by cases h), fun h => (by omega)⟩, fun h => (by cases h), fun _ => ?_, trivial, fun u _ => ?_⟩
    · funext u; split
      · rename_i he; cases he; rfl
      · rfl
    · split
      · rename_i he; cases he; rfl
      · rfl
  · simp only [hn, if_false, if_true]
    refine ⟨⟨fun _ => (by omega), fun _ => trivial⟩, fun _ => trivial, fun h => absurd rfl h, trivial, fun u hu => ?_⟩
    rw [if_neg (fun h => hu (by cases h; rfl))]

example : ∃ x, build (some (.linear 1 .nan 4)) (some 1) false .nan .nan = .ok x ∧
    (fresh x [0] (some 0)).working = some 0 ∧ 0 < (fresh x [0] (some 0)).shared.maximum := ⟨_, rfl, rfl, by decide⟩

/-! ### C57: regulation settings of shunt compensators -/

/-- What C57 asks in one variant. -/
def Regulable (on : Bool) (targetV deadband : Dbl) : Prop :=
  (on = true → Dbl.lt 0 targetV = true ∧ Dbl.le 0 deadband = true) ∧ (deadband.isNan = true ∨ Dbl.le 0 deadband = true)

theorem checkVoltageControl_ok {on : Bool} {v : Dbl} (h : checkVoltageControl on v = .ok ()) : on = true → Dbl.lt 0 v = true := by
  rintro rfl
  simp only [checkVoltageControl, Bool.true_and] at h
  split at h
  · cases h
  · rename_i hn
    simp only [Bool.or_eq_true, not_or, Bool.not_eq_true] at hn
    exact Dbl.lt_of_not_le hn.1 rfl hn.2

theorem checkTargetDeadband_ok {on : Bool} {d : Dbl} (h : checkTargetDeadband on d = .ok ()) :
    (on = true → Dbl.le 0 d = true) ∧ (d.isNan = true ∨ Dbl.le 0 d = true) := by
  simp only [checkTargetDeadband] at h
  split at h
  · cases h
  · rename_i h1
    split at h
    · cases h
    · rename_i h2
      simp only [Bool.not_eq_true] at h2
      cases hn : d.isNan with
      | true =>
        refine ⟨?_, .inl rfl⟩
        rintro rfl
        simp [hn] at h1
      | false =>
        have := Dbl.le_of_not_lt hn rfl h2
        exact ⟨fun _ => this, .inr this⟩

/-- **C57**: in every variant, after any history, a shunt compensator whose regulator is on has a positive target voltage and a
    non-negative deadband; a deadband is never negative. -/
theorem shunt_regulation_usable {model : Option Model} {count : Option Nat} {on : Bool} {v0 d0 : Dbl} {x : Model × Per}
    (hb : build model count on v0 d0 = .ok x) (variants : List Nat) (w : Option Nat) (ops : List (Multi.Op Op)) :
    let m := Multi.run act (fresh x variants w) ops
    ∀ v ∈ m.variants, Regulable (m.per v).on (m.per v).targetV (m.per v).deadband := by
  refine Multi.run_per (I := fun p : Per => Regulable p.on p.targetV p.deadband) ?_ ops _ (fun v _ => ?_)
  · intro a s p h
    cases a with
    | setSectionCount n =>
      show Regulable (setSectionCount n s p).2.on _ _
      have : (setSectionCount n s p).2.on = p.on ∧ (setSectionCount n s p).2.targetV = p.targetV ∧
          (setSectionCount n s p).2.deadband = p.deadband := by
        simp only [setSectionCount]; split <;> exact ⟨rfl, rfl, rfl⟩
      rw [this.1]
      show Regulable p.on (setSectionCount n s p).2.targetV (setSectionCount n s p).2.deadband
      rw [this.2.1, this.2.2]; exact h
    | setTargetDeadband y =>
      show Regulable (setTargetDeadband y p).2.on (setTargetDeadband y p).2.targetV (setTargetDeadband y p).2.deadband
      simp only [setTargetDeadband]
      split
      · rename_i hc
        have := checkTargetDeadband_ok hc
        exact ⟨fun ho => ⟨(h.1 ho).1, this.1 ho⟩, this.2⟩
      · exact h
    | setTargetV y =>
      show Regulable (setTargetV y p).2.on (setTargetV y p).2.targetV (setTargetV y p).2.deadband
      simp only [setTargetV]
      split
      · rename_i hc
        exact ⟨fun ho => ⟨checkVoltageControl_ok hc ho, (h.1 ho).2⟩, h.2⟩
      · exact h
    | setVoltageRegulatorOn b =>
      show Regulable (setVoltageRegulatorOn b p).2.on (setVoltageRegulatorOn b p).2.targetV (setVoltageRegulatorOn b p).2.deadband
      simp only [setVoltageRegulatorOn]
      split
      · rename_i hc
        rcases Out.bind_eq_ok.1 hc with ⟨_, h1, h2⟩
        exact ⟨fun ho => ⟨checkVoltageControl_ok h1 ho, (checkTargetDeadband_ok h2).1 ho⟩, h.2⟩
      · exact h
    | setBPerSection y => exact h
    | setGPerSection y => exact h
    | setMaximumSectionCount n => exact h
    | setSectionB i y => exact h
    | setSectionG i y => exact h
  · have hb := build_ok hb
    show Regulable x.2.on x.2.targetV x.2.deadband
    rw [hb.2.2.2.2.2.2.1, hb.2.2.2.2.2.2.2.1, hb.2.2.2.2.2.2.2.2]
    exact ⟨fun ho => ⟨checkVoltageControl_ok hb.2.2.2.2.1 ho, (checkTargetDeadband_ok hb.2.2.2.2.2.1).1 ho⟩,
      (checkTargetDeadband_ok hb.2.2.2.2.2.1).2⟩

example : (build (some (.linear 1 .nan 4)) (some 1) true 380 5).isOk = true := by decide

/-- Switching the regulator on is accepted exactly with a positive target voltage and a non-negative deadband. -/
theorem setVoltageRegulatorOn_iff (p : Per) :
    (setVoltageRegulatorOn true p).1 = .ok () ↔ Dbl.lt 0 p.targetV = true ∧ Dbl.le 0 p.deadband = true := by
  simp only [setVoltageRegulatorOn]
  constructor
  · intro hh
    split at hh
    · rename_i hc
      rcases Out.bind_eq_ok.1 hc with ⟨_, h1, h2⟩
      exact ⟨checkVoltageControl_ok h1 rfl, (checkTargetDeadband_ok h2).1 rfl⟩
    · rename_i hne
      exact absurd hh (fun e => by simp only at e; exact hne () e)
  · rintro ⟨h1, h2⟩
    have n1 := Dbl.not_nan_of_lt h1
    have n2 := Dbl.not_nan_of_le h2
    have l1 := Dbl.not_le_of_lt h1
    have l2 : Dbl.lt p.deadband 0 = false := by
      cases hl : Dbl.lt p.deadband 0 with
      | false => rfl
      | true => have := Dbl.not_le_of_lt hl; rw [h2] at this; cases this
    simp [checkVoltageControl, checkTargetDeadband, n1.2, n2.2, l1, l2]

/-- The setters of the sections of a non linear model always throw, even for valid values. -/
theorem section_setters_always_throw (m : Multi Model Per) (i : Nat) (x : Dbl) :
    (Multi.step act m (.call (.setSectionB i x))).1 = .thrown ∧ (Multi.step act m (.call (.setSectionG i x))).1 = .thrown := ⟨rfl, rfl⟩

/-- Non linear models are built with the values given, an unset conductance being the one before (or zero), and every susceptance set. -/
theorem nonLinear_build_sections :
    ∀ (args : List (Dbl × Dbl)) (acc ss : List Section), endSections acc args = .ok ss →
      ss.length = acc.length + args.length ∧ (∀ i (hi : i < acc.length), ss[i]? = some acc[i]) ∧
      ∀ i (hi : i < args.length), ∃ s, ss[acc.length + i]? = some s ∧ s.b = (args[i]).1 ∧ s.b.isNan = false ∧
        ((args[i]).2.isNan = false → s.g = (args[i]).2) ∧
        ((args[i]).2.isNan = true → (acc.length + i = 0 → s.g = 0) ∧ ∀ j, acc.length + i = j + 1 → ∃ t, ss[j]? = some t ∧ s.g = t.g) := by
  intro args
  induction args with
  | nil =>
    intro acc ss h
    cases h
    exact ⟨rfl, fun i hi => List.getElem?_eq_getElem hi, fun i hi => absurd hi (Nat.not_lt_zero _)⟩
  | cons a as ih =>
    intro acc ss h
    simp only [endSections] at h
    rcases Out.bind_eq_ok.1 h with ⟨acc', h1, h2⟩
    simp only [endSection] at h1
    rcases Out.bind_eq_ok.1 h1 with ⟨_, hb, h1⟩
    have hnan : a.1.isNan = false := by
      simp only [checkBPerSection] at hb
      split at hb
      · cases hb
      · rename_i hn; simpa using hn
    cases h1
    rcases ih _ _ h2 with ⟨hl, hpre, hrest⟩
    simp only [List.length_append, List.length_cons, List.length_nil] at hl hpre hrest
    refine ⟨by simp only [List.length_cons]; omega, ?_, ?_⟩
    · intro i hi
      rw [hpre i (by omega), List.getElem_append_left hi]
    · intro i hi
      cases i with
      | succ i =>
        rcases hrest i (by simpa using hi) with ⟨s, hs, hx⟩
        refine ⟨s, ?_, ?_⟩
        · rw [← hs]; congr 1; omega
        · have e : (acc.length + (i + 1)) = acc.length + 1 + i := by omega
          rw [e]
          exact hx
      | zero =>
        have hs := hpre acc.length (by omega)
        rw [List.getElem_append_right (Nat.le_refl _)] at hs
        simp only [Nat.sub_self, List.getElem_cons_zero] at hs
        refine ⟨_, hs, rfl, hnan, ?_, ?_⟩
        · intro hg; simp only [List.getElem_cons_zero] at hg ⊢; simp [hg]
        · intro hg
          simp only [List.getElem_cons_zero] at hg ⊢
          constructor
          · intro h0
            have : acc = [] := List.length_eq_zero_iff.1 (by omega)
            subst this
            simp [hg]
          · intro j hj
            have hjl : j < acc.length := by omega
            refine ⟨acc[j], ?_, ?_⟩
            · rw [hpre j (by omega), List.getElem_append_left hjl]
            · simp only [hg, if_true]
              have : acc.getLast? = some acc[j] := by
                rw [List.getLast?_eq_getElem?, show acc.length - 1 = j from by omega, List.getElem?_eq_getElem hjl]
              rw [this]

example : endSections [] [(1, .nan), (2, 7), (3, .nan)] = .ok [⟨1, 0⟩, ⟨2, 7⟩, ⟨3, 7⟩] := by decide

end Verif.Shunt
