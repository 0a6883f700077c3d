import Verif.Tap.Inv

/-!
Properties C30 to C32: tap positions and regulation settings of tap changers, after any history of calls over any number of variants.
-/

namespace Verif.Tap

open Verif

/-! ### C30 -/

/-- Reading a step succeeds exactly when the position is on the range, and gives the step at that distance from the lowest tap. -/
theorem getStep_ok_iff (b : Base α) (pos : Int) (s : α) :
    b.getStep pos = .ok s ↔ ∃ i : Nat, pos = b.low + i ∧ b.steps[i]? = some s := by
  by_cases hr : pos < b.low ∨ pos > b.high
  · have hc : checkTapPosition pos b.low b.high = .thrown := by simp [checkTapPosition, hr]
    simp only [Base.getStep, hc, Out.bind_thrown]
    constructor
    · intro h; cases h
    · rintro ⟨i, rfl, hi⟩
      rcases List.getElem?_eq_some_iff.1 hi with ⟨h, _⟩
      simp only [Base.high] at hr
      omega
  · have hc : checkTapPosition pos b.low b.high = .ok () := by simp [checkTapPosition, hr]
    simp only [Base.getStep, hc, Out.bind_ok]
    rw [if_neg (by omega)]
    constructor
    · intro h
      split at h
      · rename_i x hx
        cases h
        exact ⟨_, by omega, hx⟩
      · cases h
    · rintro ⟨i, rfl, hi⟩
      have : (b.low + (i : Int) - b.low).toNat = i := by omega
      rw [this, hi]

/-- Whatever the position, reading a step never accesses the vector of steps outside of its bounds. -/
theorem getStep_no_ub (b : Base α) (pos : Int) : b.getStep pos ≠ .ub := by
  by_cases hr : pos < b.low ∨ pos > b.high
  · have hc : checkTapPosition pos b.low b.high = .thrown := by simp [checkTapPosition, hr]
    simp only [Base.getStep, hc, Out.bind_thrown]
    nofun
  · have hc : checkTapPosition pos b.low b.high = .ok () := by simp [checkTapPosition, hr]
    simp only [Base.getStep, hc, Out.bind_ok]
    rw [if_neg (by omega)]
    have hlt : (pos - b.low).toNat < b.steps.length := by simp only [Base.high] at hr; omega
    rw [List.getElem?_eq_getElem hlt]
    nofun

theorem getCurrentStep_of_onRange {b : Base α} {p : BasePer} (h : OnRange b.low b.steps p.pos) :
    ∃ s ∈ b.steps, b.getCurrentStep p = .ok s := by
  rcases h with ⟨i, hi, hp⟩
  exact ⟨b.steps[i], List.getElem_mem hi, (getStep_ok_iff b p.pos _).2 ⟨i, hp, List.getElem?_eq_getElem hi⟩⟩

/-- **C30** (ratio tap changers), partial: with the lowest tap only moved while the network has a single variant, which is selected,
    the position is on the range in every variant, and reading the current step gives one of the steps.  Without the restriction
    the property is false (`setLowTapPosition_breaks_other_variant`). -/
theorem rtc_position_on_range_partial {args : RtcArgs α} {x : RtcS α × RtcP} (hb : args.build = .ok x)
    {variants : List Nat} {w : Nat} (hw : w ∈ variants) (ops : List (Multi.Op RtcOp))
    (ha : Multi.Allowed rtcAct RtcLow (fresh x variants (some w)) ops) :
    let m := Multi.run rtcAct (fresh x variants (some w)) ops
    ∀ v ∈ m.variants, OnRange m.shared.base.low m.shared.base.steps (m.per v).base.pos ∧
      ∃ s ∈ m.shared.base.steps, m.shared.base.getCurrentStep (m.per v).base = .ok s := by
  have hinv : (Multi.run rtcAct (fresh x variants (some w)) ops).WorkingOk ∧
      (Multi.run rtcAct (fresh x variants (some w)) ops).All RtcRange := by
    refine Multi.run_induction (ok := RtcLow)
      (P := fun (m : Multi (RtcS α) RtcP) => m.WorkingOk ∧ m.All RtcRange) ?_ ops _ ?_ ha
    · intro m o h ho
      exact ⟨Multi.workingOk_step h.1 o, rtc_range_step h.1 h.2 ho⟩
    · refine ⟨?_, fun v _ => rtc_build_range hb⟩
      intro v hv; cases hv; exact hw
  intro m v hv
  exact ⟨hinv.2 v hv, getCurrentStep_of_onRange (hinv.2 v hv)⟩

/-- **C30** (phase tap changers), partial, same restriction. -/
theorem ptc_position_on_range_partial {args : PtcArgs α} {x : PtcS α × PtcP} (hb : args.build = .ok x)
    {variants : List Nat} {w : Nat} (hw : w ∈ variants) (ops : List (Multi.Op PtcOp))
    (ha : Multi.Allowed ptcAct PtcLow (fresh x variants (some w)) ops) :
    let m := Multi.run ptcAct (fresh x variants (some w)) ops
    ∀ v ∈ m.variants, OnRange m.shared.base.low m.shared.base.steps (m.per v).base.pos ∧
      ∃ s ∈ m.shared.base.steps, m.shared.base.getCurrentStep (m.per v).base = .ok s := by
  have hinv : (Multi.run ptcAct (fresh x variants (some w)) ops).WorkingOk ∧
      (Multi.run ptcAct (fresh x variants (some w)) ops).All PtcRange := by
    refine Multi.run_induction (ok := PtcLow)
      (P := fun (m : Multi (PtcS α) PtcP) => m.WorkingOk ∧ m.All PtcRange) ?_ ops _ ?_ ha
    · intro m o h ho
      exact ⟨Multi.workingOk_step h.1 o, ptc_range_step h.1 h.2 ho⟩
    · refine ⟨?_, fun v _ => ptc_build_range hb⟩
      intro v hv; cases hv; exact hw
  intro m v hv
  exact ⟨hinv.2 v hv, getCurrentStep_of_onRange (hinv.2 v hv)⟩

/-- `setTapPosition` accepts exactly the positions of the range; then the working variant is at that position, and nothing else
    changes; a refused call changes nothing. -/
theorem setTapPosition_spec (b : Base α) (p : BasePer) (pos : Int) :
    (OnRange b.low b.steps pos → setTapPosition pos b (some p) = (.ok (), b, some { p with pos := pos })) ∧
    (¬ OnRange b.low b.steps pos → setTapPosition pos b (some p) = (.thrown, b, some p)) := by
  constructor
  · rintro ⟨i, hi, rfl⟩
    have h : ¬ (b.low + (i : Int) < b.low ∨ b.low + (i : Int) > b.high) := by simp only [Base.high]; omega
    simp [setTapPosition, needVariant, checkTapPosition, h]
  · intro hn
    have h : pos < b.low ∨ pos > b.high := by
      apply Classical.byContradiction
      intro hc
      simp only [Base.high] at hc
      exact hn ⟨(pos - b.low).toNat, by omega, by omega⟩
    simp [setTapPosition, needVariant, checkTapPosition, h]

/-- Moving the lowest tap keeps the step in use in the working variant. -/
theorem setLowTapPosition_keeps_step (b : Base α) (p : BasePer) (low : Int) :
    ∃ b' p', setLowTapPosition low b (some p) = (.ok (), b', some p') ∧ b'.low = low ∧
      ∀ s, b'.getCurrentStep p' = .ok s ↔ b.getCurrentStep p = .ok s := by
  refine ⟨_, _, rfl, rfl, ?_⟩
  intro s
  simp only [Base.getCurrentStep, getStep_ok_iff]
  constructor
  · rintro ⟨i, h, h'⟩; exact ⟨i, by omega, h'⟩
  · rintro ⟨i, h, h'⟩; exact ⟨i, by omega, h'⟩

/-- A ratio tap changer used in examples: taps 0 to 2. -/
def sampleRtc (ltc regulating : Bool) (targetV : Dbl) : RtcArgs Nat :=
  { low := 0, pos := some 1, steps := [10, 11, 12], ltc := ltc, regulating := regulating, targetV := targetV,
    term := some ⟨1, true⟩, deadband := 1 }

example : (sampleRtc true true 220).build.isOk = true := by decide

/-- A history that satisfies the restriction: the lowest tap is moved, a variant is created, positions differ. -/
example : ∃ x, (sampleRtc true true 220).build = .ok x ∧
    Multi.Allowed rtcAct RtcLow (fresh x [0] (some 0))
      [.call (.setLowTapPosition 5), .clone 0 1, .select 1, .call (.setTapPosition 7), .call (.setTapPosition 8)] ∧
    ((Multi.run rtcAct (fresh x [0] (some 0))
      [.call (.setLowTapPosition 5), .clone 0 1, .select 1, .call (.setTapPosition 7), .call (.setTapPosition 8)]).per 1).base.pos = 7
      := by refine ⟨_, rfl, ?_, ?_⟩ <;> decide

/-- The property fails with two variants: moving the lowest tap while variant 0 is selected leaves the position of variant 1 out of
    the range, where reading the current step throws. -/
theorem setLowTapPosition_breaks_other_variant :
    ∃ x, (sampleRtc true true 220).build = .ok x ∧
      let m := Multi.run rtcAct (fresh x [0, 1] (some 0)) [.call (.setLowTapPosition 5), .select 1]
      ¬ OnRange m.shared.base.low m.shared.base.steps (m.per 1).base.pos ∧
      m.shared.base.getCurrentStep (m.per 1).base = .thrown := by
  refine ⟨_, rfl, ?_, ?_⟩ <;> decide

/-- Or the current step of the other variant silently becomes another one. -/
theorem setLowTapPosition_changes_other_step :
    ∃ x, (sampleRtc true true 220).build = .ok x ∧
      x.1.base.getCurrentStep x.2.base = .ok 11 ∧
      let m := Multi.run rtcAct (fresh x [0, 1] (some 0)) [.call (.setLowTapPosition 1), .select 1]
      m.shared.base.getCurrentStep (m.per 1).base = .ok 10 := by
  refine ⟨_, rfl, ?_, ?_⟩ <;> decide

/-! ### C31 -/

/-- **C31**, deadband: after any history, in every variant, the deadband is never negative, and it is set (hence non-negative)
    whenever the ratio tap changer regulates. -/
theorem rtc_deadband {args : RtcArgs α} {x : RtcS α × RtcP} (hb : args.build = .ok x) (variants : List Nat) (w : Option Nat)
    (ops : List (Multi.Op RtcOp)) :
    let m := Multi.run rtcAct (fresh x variants w) ops
    ∀ v ∈ m.variants, ((m.per v).base.deadband.isNan = true ∨ Dbl.le 0 (m.per v).base.deadband = true) ∧
      ((m.per v).base.regulating = true → Dbl.le 0 (m.per v).base.deadband = true) := by
  have hinv : (Multi.run rtcAct (fresh x variants w) ops).All fun _ p => DeadbandOk p.base := by
    refine Multi.run_induction (ok := fun _ _ => True) (P := fun (m : Multi (RtcS α) RtcP) => m.All fun _ (p : RtcP) => DeadbandOk p.base)
      (fun m o h _ => rtc_deadband_step h) ops _ (fun v _ => (rtc_build_checks hb).1) ?_
    generalize fresh x variants w = m
    induction ops generalizing m with
    | nil => trivial
    | cons o os ih => exact ⟨trivial, ih _⟩
  intro m v hv
  have h := hinv v hv
  constructor
  · cases hn : (m.per v).base.deadband.isNan
    · exact .inr (Dbl.le_of_not_lt hn rfl h.1)
    · exact .inl rfl
  · intro hr
    exact Dbl.le_of_not_lt (h.2 hr) rfl h.1

/-- The same for phase tap changers. -/
theorem ptc_deadband {args : PtcArgs α} {x : PtcS α × PtcP} (hb : args.build = .ok x) (variants : List Nat) (w : Option Nat)
    (ops : List (Multi.Op PtcOp)) :
    let m := Multi.run ptcAct (fresh x variants w) ops
    ∀ v ∈ m.variants, ((m.per v).base.deadband.isNan = true ∨ Dbl.le 0 (m.per v).base.deadband = true) ∧
      ((m.per v).base.regulating = true → Dbl.le 0 (m.per v).base.deadband = true) := by
  have hinv : (Multi.run ptcAct (fresh x variants w) ops).All fun _ p => DeadbandOk p.base := by
    refine Multi.run_induction (ok := fun _ _ => True) (P := fun (m : Multi (PtcS α) PtcP) => m.All fun _ (p : PtcP) => DeadbandOk p.base)
      (fun m o h _ => ptc_deadband_step h) ops _ (fun v _ => (ptc_build_checks hb).1) ?_
    generalize fresh x variants w = m
    induction ops generalizing m with
    | nil => trivial
    | cons o os ih => exact ⟨trivial, ih _⟩
  intro m v hv
  have h := hinv v hv
  constructor
  · cases hn : (m.per v).base.deadband.isNan
    · exact .inr (Dbl.le_of_not_lt hn rfl h.1)
    · exact .inl rfl
  · intro hr
    exact Dbl.le_of_not_lt (h.2 hr) rfl h.1

/-- **C31**, partial: after any history in which the on-load capability is not switched on later and the regulation terminal is not
    removed while some variant regulates, in every variant in which a tap changer with on-load capability regulates it has a positive
    target voltage, a regulation terminal of the network and a non-negative deadband.  Without the restrictions the property is false
    (`rtc_capability_unchecked`, `rtc_terminal_removed_in_other_variant`). -/
theorem rtc_regulation_partial {args : RtcArgs α} {x : RtcS α × RtcP} (hb : args.build = .ok x) (variants : List Nat)
    (w : Option Nat) (ops : List (Multi.Op RtcOp)) (ha : Multi.Allowed rtcAct RtcReg (fresh x variants w) ops) :
    let m := Multi.run rtcAct (fresh x variants w) ops
    ∀ v ∈ m.variants,
      RtcGood m.shared.ltc m.shared.base.term (m.per v).base.regulating (m.per v).targetV (m.per v).base.deadband := by
  have hinv := Multi.run_induction (act := rtcAct) (ok := RtcReg) (P := fun m => m.All RtcInv)
    (fun m o h ho => rtc_reg_step h ho) ops (fresh x variants w) (fun v _ => rtcInv_of_check (rtc_build_checks hb).2) ha
  intro m v hv hl hr
  have h1 := hinv v hv hl hr
  exact ⟨h1.1, h1.2, .inr ((rtc_deadband hb variants w ops v hv).2 hr)⟩

/-- A history that satisfies the restrictions, with a regulating variant and a non regulating one. -/
example : ∃ x, (sampleRtc true true 220).build = .ok x ∧
    Multi.Allowed rtcAct RtcReg (fresh x [0] (some 0))
      [.clone 0 1, .select 1, .call (.setRegulating false), .call (.setTargetV .nan), .call (.setRegulationTerminal (some ⟨2, true⟩)),
       .call (.setRegulating true)] ∧
    (let m := Multi.run rtcAct (fresh x [0] (some 0))
      [.clone 0 1, .select 1, .call (.setRegulating false), .call (.setTargetV .nan), .call (.setRegulationTerminal (some ⟨2, true⟩)),
       .call (.setRegulating true)]
     (m.per 0).base.regulating = true ∧ (m.per 1).base.regulating = false ∧ m.shared.base.term = some ⟨2, true⟩) := by
  refine ⟨_, rfl, ?_, ?_⟩ <;> decide

/-- `setLoadTapChangingCapabilities` checks with the old capability: a tap changer that regulates without target voltage gets the
    on-load capability. -/
theorem rtc_capability_unchecked :
    ∃ x, (sampleRtc false true .nan).build = .ok x ∧
      let m := Multi.run rtcAct (fresh x [0] (some 0)) [.call (.setLoadTapChangingCapabilities true)]
      ¬ RtcGood m.shared.ltc m.shared.base.term (m.per 0).base.regulating (m.per 0).targetV (m.per 0).base.deadband := by
  refine ⟨_, rfl, ?_⟩; decide

/-- The regulation terminal is shared by the variants but its removal is checked in the working variant only. -/
theorem rtc_terminal_removed_in_other_variant :
    ∃ x, (sampleRtc true true 220).build = .ok x ∧
      let m := Multi.run rtcAct (fresh x [0, 1] (some 0)) [.call (.setRegulating false), .call (.setRegulationTerminal none)]
      ¬ RtcGood m.shared.ltc m.shared.base.term (m.per 1).base.regulating (m.per 1).targetV (m.per 1).base.deadband := by
  refine ⟨_, rfl, ?_⟩; decide

/-- Decision of `setRegulating` on a ratio tap changer with on-load capability: regulation is accepted exactly when the target voltage is
    positive, the regulation terminal is set in the network, and the deadband is set and not negative. -/
theorem rtc_setRegulating_iff (s : RtcS α) (p : RtcP) (hl : s.ltc = true) :
    (rtcAct (.setRegulating true) s (some p)).1 = .ok () ↔
      Dbl.lt 0 p.targetV = true ∧ (∃ t, s.base.term = some t ∧ t.sameNet = true) ∧ Dbl.le 0 p.base.deadband = true := by
  constructor
  · intro h
    simp only [rtcAct] at h
    cases hc : checkRatio true s.ltc s.base.term p.targetV with
    | ok _ =>
      rw [hc] at h
      simp only [liftR, setRegulating, needVariant, Option.map] at h
      cases hd : checkTargetDeadband true p.base.deadband with
      | ok _ =>
        rcases checkRatio_ok hc rfl with ⟨t, ht, h2⟩
        have h3 := checkTargetDeadband_ok hd
        exact ⟨(h2 hl).1, ⟨t, ht, (h2 hl).2⟩, Dbl.le_of_not_lt (h3.1 rfl) rfl h3.2⟩
      | thrown => rw [hd] at h; cases h
      | ub => rw [hd] at h; cases h
    | thrown => rw [hc] at h; cases h
    | ub => rw [hc] at h; cases h
  · rintro ⟨h1, ⟨t, ht, hs⟩, h3⟩
    have hv := Dbl.not_nan_of_lt h1
    have hd := Dbl.not_nan_of_le h3
    have hle := Dbl.not_le_of_lt h1
    have hlt : Dbl.lt p.base.deadband 0 = false := by
      cases hx : Dbl.lt p.base.deadband 0
      · rfl
      · rw [Dbl.not_le_of_lt hx] at h3; cases h3
    simp [rtcAct, checkRatio, hl, ht, hs, hv.2, hle, liftR, setRegulating, needVariant, checkTargetDeadband, hd.2, hlt]

example : (rtcAct (.setRegulating true) (⟨⟨0, [1], some ⟨1, true⟩⟩, true⟩ : RtcS Nat) (some ⟨⟨0, false, 0⟩, 220⟩)).1 = .ok () := by
  decide

/-! ### C32 -/

/-- **C32**, partial: after any history in which regulation is switched on only with usable settings and the shared settings are not
    withdrawn while some variant regulates, a regulating phase tap changer has, in every variant, a mode other than FIXED_TAP, a
    regulation value and a regulation terminal of the network.  Without the restrictions the property is false
    (`ptc_setRegulating_unchecked`, `ptc_mode_changed_in_other_variant`). -/
theorem ptc_regulation_partial {args : PtcArgs α} {x : PtcS α × PtcP} (hb : args.build = .ok x) (variants : List Nat)
    (w : Option Nat) (ops : List (Multi.Op PtcOp)) (ha : Multi.Allowed ptcAct PtcReg (fresh x variants w) ops) :
    let m := Multi.run ptcAct (fresh x variants w) ops
    ∀ v ∈ m.variants, PtcGood m.shared.mode m.shared.base.term (m.per v).base.regulating (m.per v).value := by
  have hinv := Multi.run_induction (act := ptcAct) (ok := PtcReg) (P := fun m => m.All PtcInv)
    (fun m o h ho => ptc_reg_step h ho) ops (fresh x variants w) (fun v _ => checkPhase_ok (ptc_build_checks hb).2) ha
  intro m v hv hr
  have h1 := hinv v hv
  have h2 := h1.1 hr
  refine ⟨h2.1, h2.2.1, ?_⟩
  cases ht : m.shared.base.term with
  | none =>
    have := h2.2.2
    have e : (Multi.run ptcAct (fresh x variants w) ops).shared.base.term = none := ht
    rw [e] at this; cases this
  | some t => exact ⟨t, rfl, h1.2 t ht⟩

/-- **C32**, unconditional part: a regulation terminal, when there is one, always belongs to the network. -/
theorem ptc_terminal_in_network {args : PtcArgs α} {x : PtcS α × PtcP} (hb : args.build = .ok x) (variants : List Nat)
    (w : Option Nat) (ops : List (Multi.Op PtcOp)) :
    ∀ t, (Multi.run ptcAct (fresh x variants w) ops).shared.base.term = some t → t.sameNet = true := by
  have hstep : ∀ (m : Multi (PtcS α) PtcP) o, (∀ t, m.shared.base.term = some t → t.sameNet = true) →
      ∀ t, (Multi.step ptcAct m o).2.shared.base.term = some t → t.sameNet = true := by
    intro m o h
    cases o with
    | call a =>
      show ∀ t, (ptcAct a m.shared m.cur).2.1.base.term = some t → t.sameNet = true
      refine shared_of_working (P := fun (s : PtcS α) => ∀ t, s.base.term = some t → t.sameNet = true) ?_ ?_
      · intro v hv
        show ∀ t, (afterP a m.shared (m.per v)).1.base.term = some t → t.sameNet = true
        rw [afterP_eq]
        cases a with
        | setRegulationTerminal t =>
          simp only; split
          · simp only [after_setRegulationTerminal]; split
            · assumption
            · exact h
          · exact h
        | setRegulationMode x => simp only; split <;> exact h
        | _ => exact h
      · intro hn
        rw [ptcAct_none]
        cases a <;> exact h
    | select v => simp only [Multi.step]; split <;> exact h
    | clone s d => simp only [Multi.step]; split <;> exact h
    | remove v => simp only [Multi.step]; split <;> exact h
  have h0 : ∀ t, (fresh x variants w).shared.base.term = some t → t.sameNet = true := (checkPhase_ok (ptc_build_checks hb).2).2
  revert h0
  generalize fresh x variants w = m
  induction ops generalizing m with
  | nil => intro h0; exact h0
  | cons o os ih => intro h0; exact ih _ (hstep m o h0)

/-- A phase tap changer used in examples: taps 0 to 2. -/
def samplePtc (mode : PMode) (regulating : Bool) : PtcArgs Nat :=
  { low := 0, pos := some 1, steps := [10, 11, 12], mode := mode, value := 500, regulating := regulating,
    term := some ⟨1, true⟩, deadband := 1 }

/-- A history that satisfies the restrictions, with a regulating variant and a non regulating one. -/
example : ∃ x, (samplePtc .currentLimiter true).build = .ok x ∧
    Multi.Allowed ptcAct PtcReg (fresh x [0] (some 0))
      [.clone 0 1, .select 1, .call (.setRegulating false), .call (.setRegulationValue .nan),
       .call (.setRegulationMode .activePowerControl)] ∧
    (let m := Multi.run ptcAct (fresh x [0] (some 0))
      [.clone 0 1, .select 1, .call (.setRegulating false), .call (.setRegulationValue .nan),
       .call (.setRegulationMode .activePowerControl)]
     (m.per 0).base.regulating = true ∧ (m.per 1).base.regulating = false ∧ (m.per 1).value = .nan ∧
     m.shared.mode = .activePowerControl) := by
  refine ⟨_, rfl, ?_, ?_⟩
  · simp [Multi.Allowed, PtcReg]
  · decide

/-- The hypotheses of `ptc_position_on_range_partial` are met as well. -/
example : ∃ x, (samplePtc .currentLimiter true).build = .ok x ∧
    Multi.Allowed ptcAct PtcLow (fresh x [0] (some 0)) [.call (.setLowTapPosition (-3)), .clone 0 1, .call (.setTapPosition (-1))] := by
  refine ⟨_, rfl, ?_⟩; decide

/-- `setRegulating` of a phase tap changer does not look at the mode: a fixed tap changer starts to regulate. -/
theorem ptc_setRegulating_unchecked :
    ∃ x, (samplePtc .fixedTap false).build = .ok x ∧
      let m := Multi.run ptcAct (fresh x [0] (some 0)) [.call (.setRegulating true)]
      ¬ PtcGood m.shared.mode m.shared.base.term (m.per 0).base.regulating (m.per 0).value := by
  refine ⟨_, rfl, ?_⟩; decide

/-- The mode is shared by the variants but checked in the working variant only. -/
theorem ptc_mode_changed_in_other_variant :
    ∃ x, (samplePtc .currentLimiter true).build = .ok x ∧
      let m := Multi.run ptcAct (fresh x [0, 1] (some 0)) [.call (.setRegulating false), .call (.setRegulationMode .fixedTap)]
      ¬ PtcGood m.shared.mode m.shared.base.term (m.per 1).base.regulating (m.per 1).value := by
  refine ⟨_, rfl, ?_⟩; decide

/-! ### Failing calls and other variants -/

/-- A refused call on a ratio tap changer changes nothing (with a variant selected). -/
theorem rtc_refused_unchanged (a : RtcOp) (s : RtcS α) (p : RtcP) (h : (rtcAct a s (some p)).1 ≠ .ok ()) :
    rtcAct a s (some p) = (.thrown, s, some p) := by
  cases a with
  | setTapPosition pos =>
    revert h
    simp only [rtcAct, liftR, setTapPosition, needVariant, Option.map, checkTapPosition]
    split <;> simp
  | setLowTapPosition low => exact absurd rfl h
  | setTargetDeadband d =>
    revert h
    simp only [rtcAct, liftR, setTargetDeadband, needVariant, Option.map, checkTargetDeadband]
    split
    · simp
    · split <;> simp
  | setRegulating r =>
    revert h
    simp only [rtcAct]
    have : checkRatio r s.ltc s.base.term p.targetV ≠ .ub := by
      simp only [checkRatio]; split <;> (try split) <;> (try split) <;> (try split) <;> (try split) <;> nofun
    cases hc : checkRatio r s.ltc s.base.term p.targetV with
    | ok _ =>
      simp only [liftR, setRegulating, needVariant, Option.map, checkTargetDeadband]
      split
      · simp
      · split <;> simp
    | thrown => simp
    | ub => exact absurd hc this
  | setRegulationTerminal t =>
    revert h
    simp only [rtcAct]
    have : checkRatio p.base.regulating s.ltc t p.targetV ≠ .ub := by
      simp only [checkRatio]; split <;> (try split) <;> (try split) <;> (try split) <;> (try split) <;> nofun
    cases hc : checkRatio p.base.regulating s.ltc t p.targetV with
    | ok _ =>
      simp only [liftR, setRegulationTerminal, Option.map]
      split
      · split <;> simp
      · simp
    | thrown => simp
    | ub => exact absurd hc this
  | setTargetV v =>
    revert h
    simp only [rtcAct, needVariant]
    have : checkRatio p.base.regulating s.ltc s.base.term v ≠ .ub := by
      simp only [checkRatio]; split <;> (try split) <;> (try split) <;> (try split) <;> (try split) <;> nofun
    cases hc : checkRatio p.base.regulating s.ltc s.base.term v with
    | ok _ => simp
    | thrown => simp
    | ub => exact absurd hc this
  | setLoadTapChangingCapabilities b =>
    revert h
    simp only [rtcAct, needVariant]
    have : checkRatio p.base.regulating s.ltc s.base.term p.targetV ≠ .ub := by
      simp only [checkRatio]; split <;> (try split) <;> (try split) <;> (try split) <;> (try split) <;> nofun
    cases hc : checkRatio p.base.regulating s.ltc s.base.term p.targetV with
    | ok _ => simp
    | thrown => simp
    | ub => exact absurd hc this

example : (rtcAct (.setTargetV .nan) (⟨⟨0, [1], some ⟨1, true⟩⟩, true⟩ : RtcS Nat) (some ⟨⟨0, true, 0⟩, 220⟩)).1 ≠ .ok () := by
  decide

end Verif.Tap
