import Verif.Shunt.Props
import Verif.Common.MultiSpec

/-!
Property C60 for shunt compensators: a setter stores the value given, and nothing else, or throws and changes nothing; when it accepts.
-/

namespace Verif.Shunt

open Verif

/-- A dead band that allows the status of the regulator. -/
def DeadOk (on : Bool) (d : Dbl) : Prop := (on = true → d.isNan = false) ∧ Dbl.lt d 0 = false

/-- A target voltage that allows the status of the regulator. -/
def TargetOk (on : Bool) (v : Dbl) : Prop := on = true → Dbl.lt 0 v = true

/-- The model is linear. -/
def Model.IsLinear : Model → Prop
  | .linear _ _ _ => True
  | .nonLinear _ => False

/-- When a setter must accept.  The setters of a section always throw (`section_setters_always_throw`). -/
def Op.Accepts : Op → Model → Per → Prop
  | .setSectionCount n, s, _ => 0 < s.maximum ∧ n ≤ s.maximum
  | .setTargetDeadband x, _, p => DeadOk p.on x
  | .setTargetV x, _, p => TargetOk p.on x
  | .setVoltageRegulatorOn b, _, p => TargetOk b p.targetV ∧ DeadOk b p.deadband
  | .setBPerSection x, s, _ => s.IsLinear ∧ x.isNan = false
  | .setGPerSection _, s, _ => s.IsLinear
  | .setMaximumSectionCount n, s, p => s.IsLinear ∧ 0 < n ∧ p.count ≤ n
  | .setSectionB _ _, _, _ => False
  | .setSectionG _ _, _, _ => False

/-- What it must write. -/
def Op.assign : Op → Model → Per → Model × Per
  | .setSectionCount n, s, p => (s, ⟨n, p.on, p.targetV, p.deadband⟩)
  | .setTargetDeadband x, s, p => (s, ⟨p.count, p.on, p.targetV, x⟩)
  | .setTargetV x, s, p => (s, ⟨p.count, p.on, x, p.deadband⟩)
  | .setVoltageRegulatorOn b, s, p => (s, ⟨p.count, b, p.targetV, p.deadband⟩)
  | .setBPerSection x, .linear _ g m, p => (.linear x g m, p)
  | .setGPerSection x, .linear b _ m, p => (.linear b x m, p)
  | .setMaximumSectionCount n, .linear b g _, p => (.linear b g n, p)
  | _, s, p => (s, p)

theorem checkSections_eq (n max : Nat) : checkSections (some n) max = if 0 < max ∧ n ≤ max then .ok () else .thrown := by
  simp only [checkSections]
  split
  · rw [if_neg (by omega)]
  · split
    · rw [if_neg (by omega)]
    · rw [if_pos (by omega)]

open Classical in
theorem checkTargetDeadband_eq (r : Bool) (d : Dbl) : checkTargetDeadband r d = if DeadOk r d then .ok () else .thrown := by
  cases r <;> cases h1 : d.isNan <;> cases h2 : Dbl.lt d 0 <;> simp [checkTargetDeadband, DeadOk, h1, h2]

open Classical in
theorem checkVoltageControl_eq (on : Bool) (v : Dbl) : checkVoltageControl on v = if TargetOk on v then .ok () else .thrown := by
  cases on with
  | false => simp [checkVoltageControl, TargetOk]
  | true =>
    cases hv : Dbl.lt 0 v with
    | true =>
      have h1 := (Dbl.not_nan_of_lt hv).2
      have h2 := Dbl.not_le_of_lt hv
      simp [checkVoltageControl, TargetOk, h1, h2, hv]
    | false =>
      cases hn : v.isNan with
      | true => simp [checkVoltageControl, TargetOk, hn, hv]
      | false =>
        have := Dbl.le_of_not_lt rfl hn hv
        simp [checkVoltageControl, TargetOk, hn, hv, this]

theorem needVariant_some (f : σ → ρ → Out Unit × σ × ρ) (s : σ) (p : ρ) :
    needVariant f s (some p) = ((f s p).1, (f s p).2.1, some (f s p).2.2) := rfl

/-- **C60**, shunt compensators. -/
theorem shunt_stores : Multi.Stores act Op.Accepts Op.assign := by
  refine Multi.stores_of fun a s p => ?_
  cases a with
  | setSectionCount n =>
    simp only [act, needVariant_some, setSectionCount, checkSections_eq, Op.Accepts, Op.assign]
    constructor <;> intro h <;> simp [h]
  | setTargetDeadband x =>
    simp only [act, needVariant_some, setTargetDeadband, checkTargetDeadband_eq, Op.Accepts, Op.assign]
    constructor <;> intro h <;> simp [h]
  | setTargetV x =>
    simp only [act, needVariant_some, setTargetV, checkVoltageControl_eq, Op.Accepts, Op.assign]
    constructor <;> intro h <;> simp [h]
  | setVoltageRegulatorOn b =>
    simp only [act, needVariant_some, setVoltageRegulatorOn, checkVoltageControl_eq, checkTargetDeadband_eq, Op.Accepts, Op.assign]
    by_cases h1 : TargetOk b p.targetV <;> by_cases h2 : DeadOk b p.deadband <;> simp [h1, h2]
  | setBPerSection x =>
    cases s with
    | linear b g m =>
      simp only [act, setBPerSection, checkBPerSection, Op.Accepts, Op.assign, Model.IsLinear]
      cases x.isNan <;> simp
    | nonLinear ss => simp [act, setBPerSection, Op.Accepts, Model.IsLinear]
  | setGPerSection x =>
    cases s with
    | linear b g m => simp [act, setGPerSection, Op.Accepts, Op.assign, Model.IsLinear]
    | nonLinear ss => simp [act, setGPerSection, Op.Accepts, Model.IsLinear]
  | setMaximumSectionCount n =>
    cases s with
    | linear b g m =>
      simp only [act, needVariant_some, setMaximumSectionCount, checkSections_eq, Op.Accepts, Op.assign, Model.IsLinear, true_and]
      constructor <;> intro h <;> simp [h]
    | nonLinear ss => simp [act, needVariant_some, setMaximumSectionCount, Op.Accepts, Model.IsLinear]
  | setSectionB i x => exact ⟨False.elim, fun _ => rfl⟩
  | setSectionG i x => exact ⟨False.elim, fun _ => rfl⟩

/-- A shunt compensator in two variants, the second one selected. -/
def twoVariants : Multi Model Per := ⟨.linear 1 .nan 4, fun _ => ⟨1, true, 380, 5⟩, [0, 1], some 1⟩

example : (Op.setTargetV 400).Accepts twoVariants.shared (twoVariants.per 1) ∧
    ((twoVariants.call (act (.setTargetV 400))).2.per 1).targetV = 400 ∧
    ((twoVariants.call (act (.setTargetV 400))).2.per 0).targetV = 380 :=
  ⟨fun _ => by decide, by decide, by decide⟩

example : (Op.setMaximumSectionCount 2).Accepts twoVariants.shared (twoVariants.per 1) := ⟨trivial, by decide⟩

/-- **C60**, adders: the shunt compensator built has the values given. -/
theorem adders_store :
    (∀ model count on v d x, build model count on v d = .ok x →
      model = some x.1 ∧ count = some x.2.count ∧ x.2.on = on ∧ x.2.targetV = v ∧ x.2.deadband = d) ∧
    (∀ b g max m, buildLinear b g max = .ok m → ∃ n, max = some n ∧ 0 < n ∧ m = .linear b g n) := by
  constructor
  · intro model count on v d x h
    simp only [build, Out.bind_eq_ok] at h
    obtain ⟨_, _, _, _, h⟩ := h
    cases model with
    | none => cases h
    | some m =>
      simp only [Out.bind_eq_ok] at h
      obtain ⟨_, _, h⟩ := h
      cases count with
      | none => cases h
      | some n =>
        cases h
        exact ⟨rfl, rfl, rfl, rfl, rfl⟩
  · intro b g max m h
    simp only [buildLinear, Out.bind_eq_ok] at h
    obtain ⟨_, _, h⟩ := h
    cases max with
    | none => cases h
    | some n =>
      simp only at h
      split at h
      · cases h
      · cases h
        exact ⟨n, rfl, by omega, rfl⟩

example : (build (some (.linear 1 .nan 4)) (some 1) true 380 5).isOk = true ∧ (buildLinear 1 .nan (some 4)).isOk = true := by decide

end Verif.Shunt
