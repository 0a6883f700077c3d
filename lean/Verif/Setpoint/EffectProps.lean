import Verif.Setpoint.Props
import Verif.Common.MultiSpec

/-!
Property C60 for generators, generation of dangling lines, batteries, converter stations, static VAR compensators and voltage limits:
a setter stores the value given, and nothing else, or throws and changes nothing; when it accepts.
-/

namespace Verif.Setpoint

open Verif

/-- When a setter of a generator must accept: a range stays a range, a set-point in use stays usable. -/
def GenOp.Accepts : GenOp → PRange → Ctl → Prop
  | .setMinP x, s, _ => x.isNan = false ∧ Dbl.lt s.maxP x = false
  | .setMaxP x, s, _ => x.isNan = false ∧ Dbl.lt x s.minP = false
  | .setOn b, _, c => Usable b c.v c.q
  | .setV x, _, c => Usable c.on x c.q
  | .setQ x, _, c => Usable c.on c.v x
  | .setP x, _, _ => x.isNan = false

/-- What it must write. -/
def GenOp.assign : GenOp → PRange → Ctl → PRange × Ctl
  | .setMinP x, s, c => (⟨x, s.maxP⟩, c)
  | .setMaxP x, s, c => (⟨s.minP, x⟩, c)
  | .setOn b, s, c => (s, ⟨b, c.v, c.q, c.p⟩)
  | .setV x, s, c => (s, ⟨c.on, x, c.q, c.p⟩)
  | .setQ x, s, c => (s, ⟨c.on, c.v, x, c.p⟩)
  | .setP x, s, c => (s, ⟨c.on, c.v, c.q, x⟩)

theorem checkVoltageControl_eq (on : Bool) (v q : Dbl) :
    checkVoltageControl on v q = if Usable on v q then .ok () else .thrown := by
  cases on with
  | true =>
    cases hv : Dbl.lt 0 v with
    | true =>
      have h1 := (Dbl.not_nan_of_lt hv).2
      have h2 := Dbl.not_le_of_lt hv
      simp [checkVoltageControl, Usable, h1, h2, hv]
    | false =>
      cases hn : v.isNan with
      | true => simp [checkVoltageControl, Usable, hn, hv]
      | false =>
        have := Dbl.le_of_not_lt rfl hn hv
        simp [checkVoltageControl, Usable, hn, hv, this]
  | false => cases hn : q.isNan <;> simp [checkVoltageControl, Usable, hn]

/-- **C60**, generators and generation of dangling lines. -/
theorem generator_stores : Multi.Stores genAct GenOp.Accepts GenOp.assign := by
  refine Multi.stores_of fun a s p => ?_
  cases a with
  | setMinP x =>
    simp only [genAct, onShared, setMinP_eq, GenOp.Accepts, GenOp.assign]
    split <;> simp_all
  | setMaxP x =>
    simp only [genAct, onShared, setMaxP_eq, GenOp.Accepts, GenOp.assign]
    split <;> simp_all
  | setOn b =>
    simp only [genAct, onVariant, needVariant, setOn, checkVoltageControl_eq, GenOp.Accepts, GenOp.assign]
    by_cases h : Usable b p.v p.q <;> simp [h]
  | setV x =>
    simp only [genAct, onVariant, needVariant, setV, checkVoltageControl_eq, GenOp.Accepts, GenOp.assign]
    by_cases h : Usable p.on x p.q <;> simp [h]
  | setQ x =>
    simp only [genAct, onVariant, needVariant, setQ, checkVoltageControl_eq, GenOp.Accepts, GenOp.assign]
    by_cases h : Usable p.on p.v x <;> simp [h]
  | setP x =>
    simp only [genAct, onVariant, needVariant, setP, checkSet, GenOp.Accepts, GenOp.assign]
    cases x.isNan <;> simp

/-- A generator in two variants, the second one selected. -/
def sampleGen : Multi PRange Ctl := ⟨⟨0, 100⟩, fun _ => ⟨true, 225, .nan, 50⟩, [0, 1], some 1⟩

example : (sampleGen.call (genAct (.setV 230))).2.per 1 = ⟨true, 230, .nan, 50⟩ ∧
    (sampleGen.call (genAct (.setV 230))).2.per 0 = ⟨true, 225, .nan, 50⟩ := by decide

example : (GenOp.setV 230).Accepts ⟨0, 100⟩ ⟨true, 225, .nan, 50⟩ := by
  show Usable true 230 .nan
  decide

/-- When a setter of a converter station must accept. -/
def VscOp.Accepts : VscOp → Unit → Ctl → Prop
  | .setOn b, _, c => Usable b c.v c.q
  | .setV x, _, c => Usable c.on x c.q
  | .setQ x, _, c => Usable c.on c.v x

/-- What it must write. -/
def VscOp.assign : VscOp → Unit → Ctl → Unit × Ctl
  | .setOn b, s, c => (s, ⟨b, c.v, c.q, c.p⟩)
  | .setV x, s, c => (s, ⟨c.on, x, c.q, c.p⟩)
  | .setQ x, s, c => (s, ⟨c.on, c.v, x, c.p⟩)

/-- **C60**, converter stations. -/
theorem vsc_stores : Multi.Stores vscAct VscOp.Accepts VscOp.assign := by
  refine Multi.stores_of fun a s p => ?_
  cases a with
  | setOn b =>
    simp only [vscAct, onVariant, needVariant, setOn, checkVoltageControl_eq, VscOp.Accepts, VscOp.assign]
    by_cases h : Usable b p.v p.q <;> simp [h]
  | setV x =>
    simp only [vscAct, onVariant, needVariant, setV, checkVoltageControl_eq, VscOp.Accepts, VscOp.assign]
    by_cases h : Usable p.on x p.q <;> simp [h]
  | setQ x =>
    simp only [vscAct, onVariant, needVariant, setQ, checkVoltageControl_eq, VscOp.Accepts, VscOp.assign]
    by_cases h : Usable p.on p.v x <;> simp [h]

example : (VscOp.setQ 3).Accepts () ⟨false, .nan, 1, .nan⟩ := by
  show Usable false .nan 3
  decide

/-- The set-point used in a mode is there (the code does not look at its sign, see `svc_nonpositive_voltage`). -/
def SvcSet (m : SvcMode) (v q : Dbl) : Prop := (m = .voltage → v.isNan = false) ∧ (m = .reactivePower → q.isNan = false)

instance (m : SvcMode) (v q : Dbl) : Decidable (SvcSet m v q) := inferInstanceAs (Decidable (_ ∧ _))

/-- When a setter of a static VAR compensator must accept. -/
def SvcOp.Accepts : SvcOp → Unit → Svc → Prop
  | .setMode m, _, c => SvcSet m c.v c.q
  | .setV x, _, c => SvcSet c.mode x c.q
  | .setQ x, _, c => SvcSet c.mode c.v x

/-- What it must write. -/
def SvcOp.assign : SvcOp → Unit → Svc → Unit × Svc
  | .setMode m, s, c => (s, ⟨m, c.v, c.q⟩)
  | .setV x, s, c => (s, ⟨c.mode, x, c.q⟩)
  | .setQ x, s, c => (s, ⟨c.mode, c.v, x⟩)

theorem checkSvc_eq (v q : Dbl) (m : SvcMode) : checkSvc v q m = if SvcSet m v q then .ok () else .thrown := by
  cases m <;> cases hv : v.isNan <;> cases hq : q.isNan <;> simp [checkSvc, SvcSet, hv, hq]

/-- **C60**, static VAR compensators. -/
theorem svc_stores : Multi.Stores svcAct SvcOp.Accepts SvcOp.assign := by
  refine Multi.stores_of fun a s p => ?_
  cases a with
  | setMode m =>
    simp only [svcAct, onVariant, needVariant, checkSvc_eq, SvcOp.Accepts, SvcOp.assign]
    by_cases h : SvcSet m p.v p.q <;> simp [h]
  | setV x =>
    simp only [svcAct, onVariant, needVariant, checkSvc_eq, SvcOp.Accepts, SvcOp.assign]
    by_cases h : SvcSet p.mode x p.q <;> simp [h]
  | setQ x =>
    simp only [svcAct, onVariant, needVariant, checkSvc_eq, SvcOp.Accepts, SvcOp.assign]
    by_cases h : SvcSet p.mode p.v x <;> simp [h]

example : (SvcOp.setMode .reactivePower).Accepts () ⟨.voltage, 225, 3⟩ := by
  show SvcSet .reactivePower 225 3
  decide

/-- When a setter of a battery must accept. -/
def BatOp.Accepts : BatOp → PRange → Dbl × Dbl → Prop
  | .setMinP x, s, _ => x.isNan = false ∧ Dbl.lt s.maxP x = false
  | .setMaxP x, s, _ => x.isNan = false ∧ Dbl.lt x s.minP = false
  | .setP0 x, _, _ => x.isNan = false
  | .setQ0 x, _, _ => x.isNan = false

/-- What it must write. -/
def BatOp.assign : BatOp → PRange → Dbl × Dbl → PRange × Dbl × Dbl
  | .setMinP x, s, c => (⟨x, s.maxP⟩, c)
  | .setMaxP x, s, c => (⟨s.minP, x⟩, c)
  | .setP0 x, s, c => (s, x, c.2)
  | .setQ0 x, s, c => (s, c.1, x)

/-- **C60**, batteries. -/
theorem battery_stores : Multi.Stores batAct BatOp.Accepts BatOp.assign := by
  refine Multi.stores_of fun a s p => ?_
  cases a with
  | setMinP x =>
    simp only [batAct, onShared, setMinP_eq, BatOp.Accepts, BatOp.assign]
    split <;> simp_all
  | setMaxP x =>
    simp only [batAct, onShared, setMaxP_eq, BatOp.Accepts, BatOp.assign]
    split <;> simp_all
  | setP0 x =>
    simp only [batAct, onVariant, needVariant, checkSet, BatOp.Accepts, BatOp.assign]
    cases x.isNan <;> simp
  | setQ0 x =>
    simp only [batAct, onVariant, needVariant, checkSet, BatOp.Accepts, BatOp.assign]
    cases x.isNan <;> simp

example : (BatOp.setQ0 3).Accepts ⟨0, 100⟩ (1, 2) := rfl

/-- **C60**, voltage limits: `setLowVoltageLimit` and `setHighVoltageLimit` store the limit when it is not negative and not on the wrong
    side of the other one (both may be unset), otherwise throw and change nothing. -/
theorem voltage_limits_stores (s : VLimits) (x : Dbl) :
    (vlStep s (.setLow x) = if Dbl.lt x 0 = false ∧ Dbl.lt s.high 0 = false ∧ Dbl.lt s.high x = false
      then (.ok (), ⟨x, s.high⟩) else (.thrown, s)) ∧
    (vlStep s (.setHigh x) = if Dbl.lt s.low 0 = false ∧ Dbl.lt x 0 = false ∧ Dbl.lt x s.low = false
      then (.ok (), ⟨s.low, x⟩) else (.thrown, s)) := by
  constructor
  · simp only [vlStep, checkVoltageLimits]
    cases Dbl.lt x 0 <;> cases Dbl.lt s.high 0 <;> cases Dbl.lt s.high x <;> simp
  · simp only [vlStep, checkVoltageLimits]
    cases Dbl.lt s.low 0 <;> cases Dbl.lt x 0 <;> cases Dbl.lt x s.low <;> simp

example : (vlStep ⟨380, 420⟩ (.setHigh 430)).2 = ⟨380, 430⟩ := by decide

/-! What the adders build is what they were given. -/

/-- **C60**, adders: the equipment built has the values given. -/
theorem adders_store {a : GenArgs} :
    (∀ x, a.buildGenerator = .ok x → x.1 = ⟨a.minP, a.maxP⟩ ∧ a.on = some x.2.on ∧ x.2.v = a.v ∧ x.2.q = a.q ∧ x.2.p = a.p) ∧
    (∀ p0 q0 minP maxP x, buildBattery p0 q0 minP maxP = .ok x → x = (⟨minP, maxP⟩, p0, q0)) ∧
    (∀ on v q x, buildVsc on v q = .ok x → on = some x.2.on ∧ x.2.v = v ∧ x.2.q = q) ∧
    (∀ mode v q x, buildSvc mode v q = .ok x → mode = some x.2.mode ∧ x.2.v = v ∧ x.2.q = q) ∧
    (∀ low high x, buildVl low high = .ok x → x = ⟨low, high⟩) := by
  refine ⟨?_, ?_, ?_, ?_, ?_⟩
  · intro x h
    simp only [GenArgs.buildGenerator, Out.bind_eq_ok] at h
    obtain ⟨_, _, _, _, _, _, h⟩ := h
    split at h
    · cases h
    · rename_i on hon
      simp only [Out.bind_eq_ok] at h
      obtain ⟨_, _, _, _, h⟩ := h
      cases h
      exact ⟨rfl, hon, rfl, rfl, rfl⟩
  · intro p0 q0 minP maxP x h
    simp only [buildBattery, Out.bind_eq_ok] at h
    obtain ⟨_, _, _, _, _, _, _, _, _, _, h⟩ := h
    cases h; rfl
  · intro on v q x h
    cases on with
    | none => cases h
    | some b =>
      simp only [buildVsc, Out.bind_eq_ok] at h
      obtain ⟨_, _, h⟩ := h
      cases h
      exact ⟨rfl, rfl, rfl⟩
  · intro mode v q x h
    cases mode with
    | none => cases h
    | some b =>
      simp only [buildSvc, Out.bind_eq_ok] at h
      obtain ⟨_, _, h⟩ := h
      cases h
      exact ⟨rfl, rfl, rfl⟩
  · intro low high x h
    simp only [buildVl, Out.bind_eq_ok] at h
    obtain ⟨_, _, h⟩ := h
    cases h; rfl

example : (buildBattery 1 2 0 100).isOk = true ∧ (buildVl 380 420).isOk = true := by decide

end Verif.Setpoint
