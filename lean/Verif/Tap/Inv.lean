import Verif.Tap.Lemmas
import Verif.Tap.Spec

/-! Invariants of the histories of tap changers, step by step. -/

namespace Verif.Tap

open Verif

/-- The position of a ratio tap changer is on the range. -/
def RtcRange (s : RtcS α) (p : RtcP) : Prop := OnRange s.base.low s.base.steps p.base.pos

/-- The position of a phase tap changer is on the range. -/
def PtcRange (s : PtcS α) (p : PtcP) : Prop := OnRange s.base.low s.base.steps p.base.pos

theorem onRange_after_setTap {b : Base α} {p : BasePer} (h : OnRange b.low b.steps p.pos) (pos : Int) :
    OnRange b.low b.steps (after (setTapPosition pos) b p).2.pos := by
  rw [after_setTapPosition]
  simp only
  split
  · rename_i hr
    simp only [Base.high] at hr
    exact ⟨(pos - b.low).toNat, by omega, by show pos = _; omega⟩
  · exact h

theorem onRange_shift {low low' : Int} {steps : List α} {pos : Int} (h : OnRange low steps pos) :
    OnRange low' steps (pos + low' - low) := by
  rcases h with ⟨i, hi, rfl⟩
  exact ⟨i, hi, by omega⟩

theorem mem_unique {m : Multi σ ρ} (hw : m.WorkingOk) (hl : m.variants.length = 1) (hs : m.working.isSome = true) {v : Nat}
    (hv : v ∈ m.variants) : m.working = some v := by
  cases hx : m.working with
  | none => rw [hx] at hs; cases hs
  | some w =>
    have := hw w hx
    match hm : m.variants, hl with
    | [y], _ => rw [hm] at this hv; simp at this hv; rw [this, hv]

theorem rtc_range_step {m : Multi (RtcS α) RtcP} {o : Multi.Op RtcOp} (hw : m.WorkingOk)
    (h : m.All RtcRange) (ho : RtcLow m o) :
    (Multi.step rtcAct m o).2.All RtcRange := by
  apply Multi.all_step h
  rintro a rfl v hv
  constructor
  · intro hwv
    have := h v hv
    show RtcRange (afterR a m.shared (m.per v)).1 (afterR a m.shared (m.per v)).2
    rw [afterR_eq]
    cases a with
    | setTapPosition pos => exact onRange_after_setTap this pos
    | setLowTapPosition low => exact onRange_shift this
    | setTargetDeadband d => simp only [after_setTargetDeadband]; split <;> exact this
    | setRegulating r => simp only; split <;> (try simp only [after_setRegulating]; split) <;> exact this
    | setRegulationTerminal t => simp only; split <;> (try simp only [after_setRegulationTerminal]; split) <;> exact this
    | setTargetV x => simp only; split <;> exact this
    | setLoadTapChangingCapabilities b => simp only; split <;> exact this
  · intro hwv
    have hthis := h v hv
    refine shared_of_working (P := fun s => RtcRange s (m.per v)) ?_ ?_
    · intro w hww
      show RtcRange (afterR a m.shared (m.per w)).1 _
      rw [afterR_eq]
      cases a with
      | setLowTapPosition low =>
        rcases ho with ho | ho
        · subst ho; exact hthis
        · exact absurd (mem_unique hw ho.1 ho.2 hv) hwv
      | setTapPosition pos => exact hthis
      | setTargetDeadband d => exact hthis
      | setRegulating r => simp only; split <;> exact hthis
      | setRegulationTerminal t => simp only; split <;> (try simp only [after_setRegulationTerminal]; split) <;> exact hthis
      | setTargetV x => exact hthis
      | setLoadTapChangingCapabilities b => simp only; split <;> exact hthis
    · intro hn
      rw [rtcAct_none]
      cases a with
      | setLowTapPosition low =>
        rcases ho with ho | ho
        · subst ho; exact hthis
        · rw [hn] at ho; exact absurd ho.2 (by simp)
      | _ => exact hthis

theorem ptc_range_step {m : Multi (PtcS α) PtcP} {o : Multi.Op PtcOp} (hw : m.WorkingOk)
    (h : m.All PtcRange) (ho : PtcLow m o) :
    (Multi.step ptcAct m o).2.All PtcRange := by
  apply Multi.all_step h
  rintro a rfl v hv
  constructor
  · intro hwv
    have := h v hv
    show PtcRange (afterP a m.shared (m.per v)).1 (afterP a m.shared (m.per v)).2
    rw [afterP_eq]
    cases a with
    | setTapPosition pos => exact onRange_after_setTap this pos
    | setLowTapPosition low => exact onRange_shift this
    | setTargetDeadband d => simp only [after_setTargetDeadband]; split <;> exact this
    | setRegulating r => simp only [after_setRegulating]; split <;> exact this
    | setRegulationTerminal t => simp only; split <;> (try simp only [after_setRegulationTerminal]; split) <;> exact this
    | setRegulationMode x => simp only; split <;> exact this
    | setRegulationValue b => simp only; split <;> exact this
  · intro hwv
    have hthis := h v hv
    refine shared_of_working (P := fun s => PtcRange s (m.per v)) ?_ ?_
    · intro w hww
      show PtcRange (afterP a m.shared (m.per w)).1 _
      rw [afterP_eq]
      cases a with
      | setLowTapPosition low =>
        rcases ho with ho | ho
        · subst ho; exact hthis
        · exact absurd (mem_unique hw ho.1 ho.2 hv) hwv
      | setTapPosition pos => exact hthis
      | setTargetDeadband d => exact hthis
      | setRegulating r => exact hthis
      | setRegulationTerminal t => simp only; split <;> (try simp only [after_setRegulationTerminal]; split) <;> exact hthis
      | setRegulationMode x => simp only; split <;> exact hthis
      | setRegulationValue b => exact hthis
    · intro hn
      rw [ptcAct_none]
      cases a with
      | setLowTapPosition low =>
        rcases ho with ho | ho
        · subst ho; exact hthis
        · rw [hn] at ho; exact absurd ho.2 (by simp)
      | _ => exact hthis

theorem rtc_build_range {a : RtcArgs α} {x : RtcS α × RtcP} (h : a.build = .ok x) :
    OnRange x.1.base.low x.1.base.steps x.2.base.pos := by
  simp only [RtcArgs.build] at h
  split at h
  · cases h
  · split at h
    · cases h
    · rename_i pos _ _
      rcases Out.bind_eq_ok.1 h with ⟨_, h1, h⟩
      rcases Out.bind_eq_ok.1 h with ⟨_, h2, h⟩
      rcases Out.bind_eq_ok.1 h with ⟨_, h3, h⟩
      cases h
      have := checkTapPosition_ok h1
      exact ⟨(pos - a.low).toNat, by show _ < a.steps.length; omega, by show pos = a.low + _; omega⟩

theorem ptc_build_range {a : PtcArgs α} {x : PtcS α × PtcP} (h : a.build = .ok x) :
    OnRange x.1.base.low x.1.base.steps x.2.base.pos := by
  simp only [PtcArgs.build] at h
  split at h
  · cases h
  · split at h
    · cases h
    · rename_i pos _ _
      rcases Out.bind_eq_ok.1 h with ⟨_, h1, h⟩
      rcases Out.bind_eq_ok.1 h with ⟨_, h2, h⟩
      rcases Out.bind_eq_ok.1 h with ⟨_, h3, h⟩
      cases h
      have := checkTapPosition_ok h1
      exact ⟨(pos - a.low).toNat, by show _ < a.steps.length; omega, by show pos = a.low + _; omega⟩

/-- The deadband part: it is never negative, and set while regulating. -/
def DeadbandOk (p : BasePer) : Prop :=
  Dbl.lt p.deadband 0 = false ∧ (p.regulating = true → p.deadband.isNan = false)

theorem deadbandOk_after_set {b : Base α} {p : BasePer} (h : DeadbandOk p) (d : Dbl) :
    DeadbandOk (after (setTargetDeadband d) b p).2 := by
  rw [after_setTargetDeadband]
  simp only
  split
  · rename_i hc
    have := checkTargetDeadband_ok hc
    exact ⟨this.2, this.1⟩
  · exact h

theorem deadbandOk_after_reg {b : Base α} {p : BasePer} (h : DeadbandOk p) (r : Bool) :
    DeadbandOk (after (setRegulating r) b p).2 := by
  rw [after_setRegulating]
  simp only
  split
  · rename_i hc
    have := checkTargetDeadband_ok hc
    exact ⟨h.1, this.1⟩
  · exact h

theorem deadbandOk_after_tap {b : Base α} {p : BasePer} (h : DeadbandOk p) (pos : Int) :
    DeadbandOk (after (setTapPosition pos) b p).2 := by
  rw [after_setTapPosition]
  simp only
  split <;> exact h

theorem rtc_deadband_step {m : Multi (RtcS α) RtcP} {o : Multi.Op RtcOp}
    (h : m.All fun _ (p : RtcP) => DeadbandOk p.base) : (Multi.step rtcAct m o).2.All fun _ p => DeadbandOk p.base := by
  apply Multi.all_step h
  rintro a rfl v hv
  refine ⟨fun _ => ?_, fun _ => h v hv⟩
  have := h v hv
  show DeadbandOk (afterR a m.shared (m.per v)).2.base
  rw [afterR_eq]
  cases a with
  | setTapPosition pos => exact deadbandOk_after_tap this pos
  | setLowTapPosition low => exact this
  | setTargetDeadband d => exact deadbandOk_after_set this d
  | setRegulating r =>
    simp only; split
    · exact deadbandOk_after_reg this r
    · exact this
  | setRegulationTerminal t => simp only; split <;> exact this
  | setTargetV x => simp only; split <;> exact this
  | setLoadTapChangingCapabilities b => exact this

theorem ptc_deadband_step {m : Multi (PtcS α) PtcP} {o : Multi.Op PtcOp}
    (h : m.All fun _ (p : PtcP) => DeadbandOk p.base) : (Multi.step ptcAct m o).2.All fun _ p => DeadbandOk p.base := by
  apply Multi.all_step h
  rintro a rfl v hv
  refine ⟨fun _ => ?_, fun _ => h v hv⟩
  have := h v hv
  show DeadbandOk (afterP a m.shared (m.per v)).2.base
  rw [afterP_eq]
  cases a with
  | setTapPosition pos => exact deadbandOk_after_tap this pos
  | setLowTapPosition low => exact this
  | setTargetDeadband d => exact deadbandOk_after_set this d
  | setRegulating r => exact deadbandOk_after_reg this r
  | setRegulationTerminal t => simp only; split <;> exact this
  | setRegulationMode x => exact this
  | setRegulationValue b => simp only; split <;> exact this

theorem rtc_build_checks {a : RtcArgs α} {x : RtcS α × RtcP} (h : a.build = .ok x) :
    DeadbandOk x.2.base ∧ checkRatio x.2.base.regulating x.1.ltc x.1.base.term x.2.targetV = .ok () := by
  simp only [RtcArgs.build] at h
  split at h
  · cases h
  · split at h
    · cases h
    · rcases Out.bind_eq_ok.1 h with ⟨_, h1, h⟩
      rcases Out.bind_eq_ok.1 h with ⟨_, h2, h⟩
      rcases Out.bind_eq_ok.1 h with ⟨_, h3, h⟩
      cases h
      have := checkTargetDeadband_ok h3
      exact ⟨⟨this.2, this.1⟩, h2⟩

theorem ptc_build_checks {a : PtcArgs α} {x : PtcS α × PtcP} (h : a.build = .ok x) :
    DeadbandOk x.2.base ∧ checkPhase x.1.mode x.2.value x.2.base.regulating x.1.base.term = .ok () := by
  simp only [PtcArgs.build] at h
  split at h
  · cases h
  · split at h
    · cases h
    · rcases Out.bind_eq_ok.1 h with ⟨_, h1, h⟩
      rcases Out.bind_eq_ok.1 h with ⟨_, h2, h⟩
      rcases Out.bind_eq_ok.1 h with ⟨_, h3, h⟩
      cases h
      have := checkTargetDeadband_ok h3
      exact ⟨⟨this.2, this.1⟩, h2⟩

/-- Invariant of the histories `RtcReg`: what the check of the code establishes. -/
def RtcInv (s : RtcS α) (p : RtcP) : Prop :=
  s.ltc = true → p.base.regulating = true → Dbl.lt 0 p.targetV = true ∧ ∃ t, s.base.term = some t ∧ t.sameNet = true

theorem rtcInv_of_check {s : RtcS α} {p : RtcP} (h : checkRatio p.base.regulating s.ltc s.base.term p.targetV = .ok ()) :
    RtcInv s p := by
  intro hl hr
  rcases checkRatio_ok h hr with ⟨t, ht, h2⟩
  exact ⟨(h2 hl).1, t, ht, (h2 hl).2⟩

theorem rtc_reg_step {m : Multi (RtcS α) RtcP} {o : Multi.Op RtcOp} (h : m.All RtcInv) (ho : RtcReg m o) :
    (Multi.step rtcAct m o).2.All RtcInv := by
  apply Multi.all_step h
  rintro a rfl v hv
  constructor
  · intro hwv
    have := h v hv
    show RtcInv (afterR a m.shared (m.per v)).1 (afterR a m.shared (m.per v)).2
    rw [afterR_eq]
    cases a with
    | setTapPosition pos => simp only [after_setTapPosition]; split <;> exact this
    | setLowTapPosition low => exact this
    | setTargetDeadband d => simp only [after_setTargetDeadband]; split <;> exact this
    | setRegulating r =>
      simp only; split
      · rename_i hc
        simp only [after_setRegulating]; split
        · intro hl hr
          rcases checkRatio_ok hc hr with ⟨t, ht, h2⟩
          exact ⟨(h2 hl).1, t, ht, (h2 hl).2⟩
        · exact this
      · exact this
    | setRegulationTerminal t =>
      simp only; split
      · rename_i hc
        simp only [after_setRegulationTerminal]; split
        · intro hl hr
          rcases checkRatio_ok hc hr with ⟨t, ht, h2⟩
          exact ⟨(h2 hl).1, t, ht, (h2 hl).2⟩
        · exact this
      · exact this
    | setTargetV x =>
      simp only; split
      · rename_i hc
        intro hl hr
        rcases checkRatio_ok hc hr with ⟨t, ht, h2⟩
        exact ⟨(h2 hl).1, t, ht, (h2 hl).2⟩
      · exact this
    | setLoadTapChangingCapabilities b =>
      simp only; split
      · intro hl hr
        exact this (ho hl) hr
      · exact this
  · intro hwv
    have hthis := h v hv
    refine shared_of_working (P := fun s => RtcInv s (m.per v)) ?_ ?_
    · intro w hww
      show RtcInv (afterR a m.shared (m.per w)).1 _
      rw [afterR_eq]
      cases a with
      | setLowTapPosition low => exact hthis
      | setTapPosition pos => exact hthis
      | setTargetDeadband d => exact hthis
      | setRegulating r => simp only; split <;> exact hthis
      | setRegulationTerminal t =>
        simp only; split
        · simp only [after_setRegulationTerminal]; split
          · rename_i hsame
            intro hl hr
            refine ⟨(hthis hl hr).1, ?_⟩
            cases t with
            | none => rw [ho v hv] at hr; cases hr
            | some t => exact ⟨t, rfl, hsame t rfl⟩
          · exact hthis
        · exact hthis
      | setTargetV x => exact hthis
      | setLoadTapChangingCapabilities b =>
        simp only; split
        · intro hl hr; exact hthis (ho hl) hr
        · exact hthis
    · intro hn
      rw [rtcAct_none]
      cases a <;> exact hthis

/-- Invariant of the histories `PtcReg`. -/
def PtcInv (s : PtcS α) (p : PtcP) : Prop :=
  (p.base.regulating = true → s.mode ≠ .fixedTap ∧ p.value.isNan = false ∧ s.base.term.isSome = true) ∧
  ∀ t, s.base.term = some t → t.sameNet = true

theorem ptc_reg_step {m : Multi (PtcS α) PtcP} {o : Multi.Op PtcOp} (h : m.All PtcInv) (ho : PtcReg m o) :
    (Multi.step ptcAct m o).2.All PtcInv := by
  apply Multi.all_step h
  rintro a rfl v hv
  constructor
  · intro hwv
    have := h v hv
    show PtcInv (afterP a m.shared (m.per v)).1 (afterP a m.shared (m.per v)).2
    rw [afterP_eq]
    cases a with
    | setTapPosition pos => simp only [after_setTapPosition]; split <;> exact this
    | setLowTapPosition low => exact this
    | setTargetDeadband d => simp only [after_setTargetDeadband]; split <;> exact this
    | setRegulating r =>
      simp only [after_setRegulating]; split
      · refine ⟨?_, this.2⟩
        intro hr
        have hr' : r = true := hr
        subst hr'
        exact ho v hwv
      · exact this
    | setRegulationTerminal t =>
      simp only; split
      · rename_i hc
        simp only [after_setRegulationTerminal]; split
        · exact checkPhase_ok hc
        · exact this
      · exact this
    | setRegulationMode x =>
      simp only; split
      · rename_i hc
        exact checkPhase_ok hc
      · exact this
    | setRegulationValue x =>
      simp only; split
      · rename_i hc
        exact checkPhase_ok hc
      · exact this
  · intro hwv
    have hthis := h v hv
    refine shared_of_working (P := fun s => PtcInv s (m.per v)) ?_ ?_
    · intro w hww
      show PtcInv (afterP a m.shared (m.per w)).1 _
      rw [afterP_eq]
      cases a with
      | setLowTapPosition low => exact hthis
      | setTapPosition pos => exact hthis
      | setTargetDeadband d => exact hthis
      | setRegulating r => exact hthis
      | setRegulationTerminal t =>
        simp only; split
        · simp only [after_setRegulationTerminal]; split
          · rename_i hsame
            refine ⟨?_, hsame⟩
            intro hr
            refine ⟨(hthis.1 hr).1, (hthis.1 hr).2.1, ?_⟩
            cases t with
            | none => rw [ho v hv] at hr; cases hr
            | some t => rfl
          · exact hthis
        · exact hthis
      | setRegulationMode x =>
        simp only; split
        · refine ⟨?_, hthis.2⟩
          intro hr
          refine ⟨?_, (hthis.1 hr).2⟩
          rintro hx
          replace hx : x = .fixedTap := hx
          subst hx
          rw [ho v hv] at hr; cases hr
        · exact hthis
      | setRegulationValue x => exact hthis
    · intro hn
      rw [ptcAct_none]
      cases a <;> exact hthis

end Verif.Tap
