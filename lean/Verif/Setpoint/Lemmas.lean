import Verif.Setpoint.Model

/-! Helper lemmas on the checks and setters. -/

namespace Verif.Setpoint

open Verif

theorem checkVoltageControl_ok {on : Bool} {v q : Dbl} (h : checkVoltageControl on v q = .ok ()) :
    (on = true → Dbl.lt 0 v = true) ∧ (on = false → q.isNan = false) := by
  cases on with
  | true =>
    refine ⟨fun _ => ?_, fun h => by cases h⟩
    simp only [checkVoltageControl, if_true] at h
    split at h
    · cases h
    · rename_i hn
      simp only [Bool.or_eq_true, not_or, Bool.not_eq_true] at hn
      exact Dbl.lt_of_not_le hn.1 rfl hn.2
  | false =>
    refine ⟨fun h => (by cases h), fun _ => ?_⟩
    simp only [checkVoltageControl] at h
    cases hq : q.isNan
    · rfl
    · simp [hq] at h

theorem checkVoltageControl_ne_ub (on : Bool) (v q : Dbl) : checkVoltageControl on v q ≠ .ub := by
  simp only [checkVoltageControl]
  split <;> split <;> nofun

theorem checkSet_ok {x : Dbl} (h : checkSet x = .ok ()) : x.isNan = false := by
  simp only [checkSet] at h
  split at h
  · cases h
  · rename_i hn; simpa using hn

theorem checkActivePowerLimits_ok {a b : Dbl} (h : checkActivePowerLimits a b = .ok ()) : Dbl.lt b a = false := by
  simp only [checkActivePowerLimits] at h
  split at h
  · cases h
  · rename_i hn; simpa using hn

theorem checkVoltageLimits_ok {a b : Dbl} (h : checkVoltageLimits a b = .ok ()) :
    Dbl.lt a 0 = false ∧ Dbl.lt b 0 = false ∧ Dbl.lt b a = false := by
  simp only [checkVoltageLimits] at h
  split at h
  · cases h
  · split at h
    · cases h
    · split at h
      · cases h
      · simp_all

theorem checkSvc_ok {v q : Dbl} {m : SvcMode} (h : checkSvc v q m = .ok ()) :
    (m = .voltage → v.isNan = false) ∧ (m = .reactivePower → q.isNan = false) := by
  constructor
  · rintro rfl
    cases hv : v.isNan
    · rfl
    · simp [checkSvc, hv] at h
  · rintro rfl
    cases hv : q.isNan
    · rfl
    · simp [checkSvc, hv] at h

theorem setMinP_eq (x : Dbl) (s : PRange) :
    setMinP x s = if x.isNan = false ∧ Dbl.lt s.maxP x = false then (.ok (), { s with minP := x }) else (.thrown, s) := by
  simp only [setMinP, checkSet, checkActivePowerLimits]
  cases h1 : x.isNan <;> cases h2 : Dbl.lt s.maxP x <;> simp

theorem setMaxP_eq (x : Dbl) (s : PRange) :
    setMaxP x s = if x.isNan = false ∧ Dbl.lt x s.minP = false then (.ok (), { s with maxP := x }) else (.thrown, s) := by
  simp only [setMaxP, checkSet, checkActivePowerLimits]
  cases h1 : x.isNan <;> cases h2 : Dbl.lt x s.minP <;> simp

theorem onVariant_after (f : ρ → Out Unit × ρ) (s : σ) (p : ρ) : (((onVariant f) s (some p)).2.2).getD p = (f p).2 := rfl

end Verif.Setpoint
