import Verif.Tap.Model

/-! Helper lemmas on the tap changer calls. -/

namespace Verif.Tap

open Verif

theorem checkTapPosition_ok {pos low high : Int} (h : checkTapPosition pos low high = .ok ()) : low ≤ pos ∧ pos ≤ high := by
  simp only [checkTapPosition] at h
  split at h
  · cases h
  · omega

theorem checkTargetDeadband_ok {r : Bool} {d : Dbl} (h : checkTargetDeadband r d = .ok ()) :
    (r = true → d.isNan = false) ∧ Dbl.lt d 0 = false := by
  simp only [checkTargetDeadband] at h
  split at h
  · cases h
  · rename_i h1
    split at h
    · cases h
    · rename_i h2
      refine ⟨?_, by simpa using h2⟩
      intro hr; subst hr; simpa using h1

theorem checkRatio_ok {r l : Bool} {t : Option RTerm} {v : Dbl} (h : checkRatio r l t v = .ok ()) (hr : r = true) :
    ∃ x, t = some x ∧ (l = true → Dbl.lt 0 v = true ∧ x.sameNet = true) := by
  subst hr
  simp only [checkRatio, if_true] at h
  split at h
  · cases h
  · rename_i h1
    split at h
    · cases h
    · rename_i h2
      cases t with
      | none => cases h
      | some x =>
        simp only at h
        split at h
        · cases h
        · rename_i h3
          refine ⟨x, rfl, ?_⟩
          rintro rfl
          simp at h1 h2 h3
          exact ⟨Dbl.lt_of_not_le h1 rfl h2, h3⟩

theorem checkPhase_ok {m : PMode} {v : Dbl} {r : Bool} {t : Option RTerm} (h : checkPhase m v r t = .ok ()) :
    (r = true → m ≠ .fixedTap ∧ v.isNan = false ∧ t.isSome = true) ∧ ∀ x, t = some x → x.sameNet = true := by
  simp only [checkPhase] at h
  split at h
  · cases h
  · rename_i h1
    split at h
    · cases h
    · rename_i h2
      split at h
      · cases h
      · rename_i h3
        constructor
        · rintro rfl
          simp only [true_and] at h1 h2 h3
          refine ⟨h3, ?_, ?_⟩
          · cases hv : v.isNan
            · rfl
            · exact absurd ⟨h3, hv⟩ h1
          · cases t with
            | none => exact absurd ⟨h3, rfl⟩ h2
            | some _ => rfl
        · rintro x rfl
          simp only at h
          split at h
          · assumption
          · cases h

/-- The state left by a call of the base class in a variant. -/
def after (f : Act (Base α) BasePer) (b : Base α) (p : BasePer) : Base α × BasePer :=
  let x := f b (some p)
  (x.2.1, x.2.2.getD p)

theorem after_setTapPosition (pos : Int) (b : Base α) (p : BasePer) :
    after (setTapPosition pos) b p = (b, if b.low ≤ pos ∧ pos ≤ b.high then { p with pos := pos } else p) := by
  simp only [after, setTapPosition, needVariant]
  by_cases h : pos < b.low ∨ pos > b.high
  · have h' : ¬ (b.low ≤ pos ∧ pos ≤ b.high) := by omega
    simp [checkTapPosition, h, h']
  · have h' : b.low ≤ pos ∧ pos ≤ b.high := by omega
    simp [checkTapPosition, h, h']

theorem after_setLowTapPosition (low : Int) (b : Base α) (p : BasePer) :
    after (setLowTapPosition low) b p = ({ b with low := low }, { p with pos := p.pos + low - b.low }) := rfl

theorem after_setTargetDeadband (d : Dbl) (b : Base α) (p : BasePer) :
    after (setTargetDeadband d) b p = (b, if checkTargetDeadband p.regulating d = .ok () then { p with deadband := d } else p) := by
  simp only [after, setTargetDeadband, needVariant]
  cases h : checkTargetDeadband p.regulating d <;> simp

theorem after_setRegulating (r : Bool) (b : Base α) (p : BasePer) :
    after (setRegulating r) b p = (b, if checkTargetDeadband r p.deadband = .ok () then { p with regulating := r } else p) := by
  simp only [after, setRegulating, needVariant]
  cases h : checkTargetDeadband r p.deadband <;> simp

theorem after_setRegulationTerminal (t : Option RTerm) (b : Base α) (p : BasePer) :
    after (setRegulationTerminal t) b p = (if ∀ x, t = some x → x.sameNet = true then { b with term := t } else b, p) := by
  cases t with
  | none => simp [after, setRegulationTerminal]
  | some x => cases h : x.sameNet <;> simp [after, setRegulationTerminal, h]

/-- The state left by a call on a ratio tap changer in a variant. -/
def afterR (a : RtcOp) (s : RtcS α) (p : RtcP) : RtcS α × RtcP :=
  let x := rtcAct a s (some p)
  (x.2.1, x.2.2.getD p)

/-- The state left by a call on a phase tap changer in a variant. -/
def afterP (a : PtcOp) (s : PtcS α) (p : PtcP) : PtcS α × PtcP :=
  let x := ptcAct a s (some p)
  (x.2.1, x.2.2.getD p)

theorem liftR_after (f : Act (Base α) BasePer) (s : RtcS α) (p : RtcP) :
    ((liftR f s (some p)).2.1, (liftR f s (some p)).2.2.getD p) =
      ({ s with base := (after f s.base p.base).1 }, { p with base := (after f s.base p.base).2 }) := by
  simp only [liftR, after, Option.map]
  cases (f s.base (some p.base)).2.2 <;> rfl

theorem liftP_after (f : Act (Base α) BasePer) (s : PtcS α) (p : PtcP) :
    ((liftP f s (some p)).2.1, (liftP f s (some p)).2.2.getD p) =
      ({ s with base := (after f s.base p.base).1 }, { p with base := (after f s.base p.base).2 }) := by
  simp only [liftP, after, Option.map]
  cases (f s.base (some p.base)).2.2 <;> rfl

theorem afterR_eq (a : RtcOp) (s : RtcS α) (p : RtcP) :
    afterR a s p = match a with
      | .setTapPosition pos => (s, { p with base := (after (setTapPosition pos) s.base p.base).2 })
      | .setLowTapPosition low =>
        ({ s with base := { s.base with low := low } }, { p with base := { p.base with pos := p.base.pos + low - s.base.low } })
      | .setTargetDeadband d => (s, { p with base := (after (setTargetDeadband d) s.base p.base).2 })
      | .setRegulating r =>
        if checkRatio r s.ltc s.base.term p.targetV = .ok () then
          (s, { p with base := (after (setRegulating r) s.base p.base).2 }) else (s, p)
      | .setRegulationTerminal t =>
        if checkRatio p.base.regulating s.ltc t p.targetV = .ok () then
          ({ s with base := (after (setRegulationTerminal t) s.base p.base).1 }, p) else (s, p)
      | .setTargetV v => (s, if checkRatio p.base.regulating s.ltc s.base.term v = .ok () then { p with targetV := v } else p)
      | .setLoadTapChangingCapabilities b =>
        (if checkRatio p.base.regulating s.ltc s.base.term p.targetV = .ok () then { s with ltc := b } else s, p) := by
  cases a with
  | setTapPosition pos =>
    simp only [afterR, rtcAct]; rw [liftR_after, after_setTapPosition]
  | setLowTapPosition low =>
    simp only [afterR, rtcAct]; rw [liftR_after, after_setLowTapPosition]
  | setTargetDeadband d =>
    simp only [afterR, rtcAct]; rw [liftR_after, after_setTargetDeadband]
  | setRegulating r =>
    simp only [afterR, rtcAct]
    cases h : checkRatio r s.ltc s.base.term p.targetV with
    | ok _ =>
      simp only [if_true]
      rw [liftR_after, after_setRegulating]
    | thrown => simp
    | ub => simp
  | setRegulationTerminal t =>
    simp only [afterR, rtcAct]
    cases h : checkRatio p.base.regulating s.ltc t p.targetV with
    | ok _ =>
      simp only [if_true]
      rw [liftR_after, after_setRegulationTerminal]
    | thrown => simp
    | ub => simp
  | setTargetV v =>
    simp only [afterR, rtcAct, needVariant]
    cases h : checkRatio p.base.regulating s.ltc s.base.term v <;> simp
  | setLoadTapChangingCapabilities b =>
    simp only [afterR, rtcAct, needVariant]
    cases h : checkRatio p.base.regulating s.ltc s.base.term p.targetV <;> simp

theorem afterP_eq (a : PtcOp) (s : PtcS α) (p : PtcP) :
    afterP a s p = match a with
      | .setTapPosition pos => (s, { p with base := (after (setTapPosition pos) s.base p.base).2 })
      | .setLowTapPosition low =>
        ({ s with base := { s.base with low := low } }, { p with base := { p.base with pos := p.base.pos + low - s.base.low } })
      | .setTargetDeadband d => (s, { p with base := (after (setTargetDeadband d) s.base p.base).2 })
      | .setRegulating r => (s, { p with base := (after (setRegulating r) s.base p.base).2 })
      | .setRegulationTerminal t =>
        if checkPhase s.mode p.value p.base.regulating t = .ok () then
          ({ s with base := (after (setRegulationTerminal t) s.base p.base).1 }, p) else (s, p)
      | .setRegulationMode m =>
        (if checkPhase m p.value p.base.regulating s.base.term = .ok () then { s with mode := m } else s, p)
      | .setRegulationValue v =>
        (s, if checkPhase s.mode v p.base.regulating s.base.term = .ok () then { p with value := v } else p) := by
  cases a with
  | setTapPosition pos =>
    simp only [afterP, ptcAct]; rw [liftP_after, after_setTapPosition]
  | setLowTapPosition low =>
    simp only [afterP, ptcAct]; rw [liftP_after, after_setLowTapPosition]
  | setTargetDeadband d =>
    simp only [afterP, ptcAct]; rw [liftP_after, after_setTargetDeadband]
  | setRegulating r =>
    simp only [afterP, ptcAct]; rw [liftP_after, after_setRegulating]
  | setRegulationTerminal t =>
    simp only [afterP, ptcAct]
    cases h : checkPhase s.mode p.value p.base.regulating t with
    | ok _ =>
      simp only [if_true]
      rw [liftP_after, after_setRegulationTerminal]
    | thrown => simp
    | ub => simp
  | setRegulationMode m =>
    simp only [afterP, ptcAct, needVariant]
    cases h : checkPhase m p.value p.base.regulating s.base.term <;> simp
  | setRegulationValue v =>
    simp only [afterP, ptcAct, needVariant]
    cases h : checkPhase s.mode v p.base.regulating s.base.term <;> simp

/-- Without a selected variant only `setLowTapPosition` has an effect (on the shared lower bound). -/
theorem rtcAct_none (a : RtcOp) (s : RtcS α) :
    (rtcAct a s none).2.1 = match a with
      | .setLowTapPosition low => { s with base := { s.base with low := low } }
      | _ => s := by
  cases a <;> simp [rtcAct, liftR, setTapPosition, setLowTapPosition, setTargetDeadband, needVariant]

theorem ptcAct_none (a : PtcOp) (s : PtcS α) :
    (ptcAct a s none).2.1 = match a with
      | .setLowTapPosition low => { s with base := { s.base with low := low } }
      | _ => s := by
  cases a <;> simp [ptcAct, liftP, setTapPosition, setLowTapPosition, setTargetDeadband, setRegulating, needVariant]

/-- The shared part after a call, the working variant being set or not. -/
theorem shared_of_working {act : α → Act σ ρ} {m : Multi σ ρ} {a : α} {P : σ → Prop}
    (hsome : ∀ w, m.working = some w → P (act a m.shared (some (m.per w))).2.1)
    (hnone : m.working = none → P (act a m.shared none).2.1) : P (act a m.shared m.cur).2.1 := by
  cases hw : m.working with
  | none => have := hnone hw; simpa [Multi.cur, hw] using this
  | some w => have := hsome w hw; simpa [Multi.cur, hw] using this

end Verif.Tap
