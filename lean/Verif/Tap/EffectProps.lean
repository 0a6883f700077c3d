import Verif.Tap.Props
import Verif.Common.MultiSpec

/-!
Property C60 for tap changers: a setter stores the value given, and nothing else, or throws and changes nothing; when it accepts.
-/

namespace Verif.Tap

open Verif

/-- The dead band allows the regulating status. -/
def DeadOk (r : Bool) (d : Dbl) : Prop := (r = true → d.isNan = false) ∧ Dbl.lt d 0 = false

/-- A ratio tap changer may have the regulating status. -/
def RatioOk (r ltc : Bool) (t : Option RTerm) (v : Dbl) : Prop :=
  r = true → ∃ x, t = some x ∧ (ltc = true → Dbl.lt 0 v = true ∧ x.sameNet = true)

/-- A phase tap changer may have the regulating status. -/
def PhaseOk (m : PMode) (v : Dbl) (r : Bool) (t : Option RTerm) : Prop :=
  (r = true → m ≠ .fixedTap ∧ v.isNan = false ∧ t.isSome = true) ∧ ∀ x, t = some x → x.sameNet = true

/-- The terminal, if any, is in the network. -/
def TermOk (t : Option RTerm) : Prop := ∀ x, t = some x → x.sameNet = true

/-- When a setter of a ratio tap changer must accept. -/
def RtcOp.Accepts : RtcOp → RtcS α → RtcP → Prop
  | .setTapPosition pos, s, _ => s.base.low ≤ pos ∧ pos < s.base.low + s.base.steps.length
  | .setLowTapPosition _, _, _ => True
  | .setTargetDeadband d, _, p => DeadOk p.base.regulating d
  | .setRegulating r, s, p => RatioOk r s.ltc s.base.term p.targetV ∧ DeadOk r p.base.deadband
  | .setRegulationTerminal t, s, p => RatioOk p.base.regulating s.ltc t p.targetV ∧ TermOk t
  | .setTargetV v, s, p => RatioOk p.base.regulating s.ltc s.base.term v
  | .setLoadTapChangingCapabilities _, s, p => RatioOk p.base.regulating s.ltc s.base.term p.targetV

/-- What it must write. -/
def RtcOp.assign : RtcOp → RtcS α → RtcP → RtcS α × RtcP
  | .setTapPosition pos, s, p => (s, ⟨⟨pos, p.base.regulating, p.base.deadband⟩, p.targetV⟩)
  | .setLowTapPosition low, s, p =>
    (⟨⟨low, s.base.steps, s.base.term⟩, s.ltc⟩, ⟨⟨p.base.pos + (low - s.base.low), p.base.regulating, p.base.deadband⟩, p.targetV⟩)
  | .setTargetDeadband d, s, p => (s, ⟨⟨p.base.pos, p.base.regulating, d⟩, p.targetV⟩)
  | .setRegulating r, s, p => (s, ⟨⟨p.base.pos, r, p.base.deadband⟩, p.targetV⟩)
  | .setRegulationTerminal t, s, p => (⟨⟨s.base.low, s.base.steps, t⟩, s.ltc⟩, p)
  | .setTargetV v, s, p => (s, ⟨p.base, v⟩)
  | .setLoadTapChangingCapabilities b, s, p => (⟨s.base, b⟩, p)

theorem checkTapPosition_eq (pos low high : Int) : checkTapPosition pos low high = if low ≤ pos ∧ pos ≤ high then .ok () else .thrown := by
  simp only [checkTapPosition]
  split
  · rw [if_neg (by omega)]
  · rw [if_pos (by omega)]

open Classical in
theorem checkTargetDeadband_eq (r : Bool) (d : Dbl) : checkTargetDeadband r d = if DeadOk r d then .ok () else .thrown := by
  cases r <;> cases h1 : d.isNan <;> cases h2 : Dbl.lt d 0 <;> simp [checkTargetDeadband, DeadOk, h1, h2]

open Classical in
theorem checkRatio_eq (r ltc : Bool) (t : Option RTerm) (v : Dbl) :
    checkRatio r ltc t v = if RatioOk r ltc t v then .ok () else .thrown := by
  cases r with
  | false => simp [checkRatio, RatioOk]
  | true =>
    have key : (ltc && v.isNan) = false → (ltc && Dbl.le v 0) = false → ltc = true → Dbl.lt 0 v = true := by
      rintro h1 h2 rfl
      simp only [Bool.true_and] at h1 h2
      exact Dbl.lt_of_not_le h1 rfl h2
    cases t with
    | none =>
      have : ¬ RatioOk true ltc none v := by
        intro h; obtain ⟨x, hx, _⟩ := h rfl; cases hx
      rw [if_neg this]
      simp only [checkRatio, if_true]
      split
      · rfl
      · split <;> rfl
    | some x =>
      simp only [checkRatio, if_true]
      split
      · rename_i h1
        simp only [Bool.and_eq_true] at h1
        rw [if_neg]
        intro h
        obtain ⟨_, _, h⟩ := h rfl
        have := (Dbl.not_nan_of_lt (h h1.1).1).2
        rw [h1.2] at this; cases this
      · rename_i h1
        split
        · rename_i h2
          simp only [Bool.and_eq_true] at h2
          rw [if_neg]
          intro h
          obtain ⟨_, _, h⟩ := h rfl
          have := Dbl.not_le_of_lt (h h2.1).1
          rw [h2.2] at this; cases this
        · rename_i h2
          have h3 := key (by simpa using h1) (by simpa using h2)
          cases hx : x.sameNet with
          | true =>
            have hr : RatioOk true ltc (some x) v := fun _ => ⟨x, rfl, fun hl => ⟨h3 hl, hx⟩⟩
            simp [hr]
          | false =>
            cases ltc with
            | false =>
              have hr : RatioOk true false (some x) v := fun _ => ⟨x, rfl, nofun⟩
              simp [hr]
            | true =>
              have hr : ¬ RatioOk true true (some x) v := by
                intro h
                obtain ⟨y, hy, h⟩ := h rfl
                cases hy
                rw [hx] at h
                exact Bool.noConfusion (h rfl).2
              simp [hr]

open Classical in
theorem checkPhase_eq (m : PMode) (v : Dbl) (r : Bool) (t : Option RTerm) :
    checkPhase m v r t = if PhaseOk m v r t then .ok () else .thrown := by
  cases t with
  | none => cases r <;> cases m <;> cases hv : v.isNan <;> simp [checkPhase, PhaseOk, hv]
  | some x => cases r <;> cases m <;> cases hv : v.isNan <;> cases hx : x.sameNet <;> simp [checkPhase, PhaseOk, hv, hx]

theorem needVariant_some (f : σ → ρ → Out Unit × σ × ρ) (s : σ) (p : ρ) :
    needVariant f s (some p) = ((f s p).1, (f s p).2.1, some (f s p).2.2) := rfl

/-- **C60**, ratio tap changers.  (The check made by `setLoadTapChangingCapabilities` is on the capability before the call, see
    `rtc_capability_unchecked`.) -/
theorem rtc_stores : Multi.Stores (rtcAct (α := α)) RtcOp.Accepts RtcOp.assign := by
  refine Multi.stores_of fun a s p => ?_
  cases a with
  | setTapPosition pos =>
    simp only [rtcAct, liftR, setTapPosition, Option.map_some, needVariant_some, checkTapPosition_eq, RtcOp.Accepts, RtcOp.assign,
      Base.high]
    constructor
    · intro h; rw [if_pos (by omega)]
    · intro h; rw [if_neg (by omega)]
  | setLowTapPosition low =>
    simp only [rtcAct, liftR, setLowTapPosition, Option.map_some, RtcOp.Accepts, RtcOp.assign]
    refine ⟨fun _ => ?_, fun h => absurd trivial h⟩
    rw [Int.add_sub_assoc]
  | setTargetDeadband d =>
    simp only [rtcAct, liftR, setTargetDeadband, Option.map_some, needVariant_some, checkTargetDeadband_eq, RtcOp.Accepts, RtcOp.assign]
    constructor <;> intro h <;> simp [h]
  | setRegulating r =>
    simp only [rtcAct, liftR, setRegulating, Option.map_some, needVariant_some, checkRatio_eq, checkTargetDeadband_eq, RtcOp.Accepts,
      RtcOp.assign]
    by_cases h1 : RatioOk r s.ltc s.base.term p.targetV <;> by_cases h2 : DeadOk r p.base.deadband <;> simp [h1, h2]
  | setRegulationTerminal t =>
    simp only [rtcAct, liftR, setRegulationTerminal, Option.map_some, checkRatio_eq, RtcOp.Accepts, RtcOp.assign]
    by_cases h1 : RatioOk p.base.regulating s.ltc t p.targetV
    · cases t with
      | none => simp [h1, TermOk]
      | some x => cases hx : x.sameNet <;> simp [h1, TermOk, hx]
    · simp [h1]
  | setTargetV v =>
    simp only [rtcAct, needVariant_some, checkRatio_eq, RtcOp.Accepts, RtcOp.assign]
    constructor <;> intro h <;> simp [h]
  | setLoadTapChangingCapabilities b =>
    simp only [rtcAct, needVariant_some, checkRatio_eq, RtcOp.Accepts, RtcOp.assign]
    constructor <;> intro h <;> simp [h]

/-- A ratio tap changer in two variants, the second one selected. -/
def twoVariants : Multi (RtcS Nat) RtcP :=
  ⟨⟨⟨0, [10, 20, 30], some ⟨7, true⟩⟩, true⟩, fun _ => ⟨⟨1, true, 0⟩, 220⟩, [0, 1], some 1⟩

example : (RtcOp.setTargetV 230).Accepts twoVariants.shared (twoVariants.per 1) ∧
    ((twoVariants.call (rtcAct (.setTargetV 230))).2.per 1).targetV = 230 ∧
    ((twoVariants.call (rtcAct (.setTargetV 230))).2.per 0).targetV = 220 :=
  ⟨fun _ => ⟨_, rfl, fun _ => by decide⟩, by decide, by decide⟩

/-- When a setter of a phase tap changer must accept (the base class decides about `setRegulating`, see
    `ptc_setRegulating_unchecked`). -/
def PtcOp.Accepts : PtcOp → PtcS α → PtcP → Prop
  | .setTapPosition pos, s, _ => s.base.low ≤ pos ∧ pos < s.base.low + s.base.steps.length
  | .setLowTapPosition _, _, _ => True
  | .setTargetDeadband d, _, p => DeadOk p.base.regulating d
  | .setRegulating r, _, p => DeadOk r p.base.deadband
  | .setRegulationTerminal t, s, p => PhaseOk s.mode p.value p.base.regulating t
  | .setRegulationMode m, s, p => PhaseOk m p.value p.base.regulating s.base.term
  | .setRegulationValue v, s, p => PhaseOk s.mode v p.base.regulating s.base.term

/-- What it must write. -/
def PtcOp.assign : PtcOp → PtcS α → PtcP → PtcS α × PtcP
  | .setTapPosition pos, s, p => (s, ⟨⟨pos, p.base.regulating, p.base.deadband⟩, p.value⟩)
  | .setLowTapPosition low, s, p =>
    (⟨⟨low, s.base.steps, s.base.term⟩, s.mode⟩, ⟨⟨p.base.pos + (low - s.base.low), p.base.regulating, p.base.deadband⟩, p.value⟩)
  | .setTargetDeadband d, s, p => (s, ⟨⟨p.base.pos, p.base.regulating, d⟩, p.value⟩)
  | .setRegulating r, s, p => (s, ⟨⟨p.base.pos, r, p.base.deadband⟩, p.value⟩)
  | .setRegulationTerminal t, s, p => (⟨⟨s.base.low, s.base.steps, t⟩, s.mode⟩, p)
  | .setRegulationMode m, s, p => (⟨s.base, m⟩, p)
  | .setRegulationValue v, s, p => (s, ⟨p.base, v⟩)

/-- **C60**, phase tap changers. -/
theorem ptc_stores : Multi.Stores (ptcAct (α := α)) PtcOp.Accepts PtcOp.assign := by
  refine Multi.stores_of fun a s p => ?_
  cases a with
  | setTapPosition pos =>
    simp only [ptcAct, liftP, setTapPosition, Option.map_some, needVariant_some, checkTapPosition_eq, PtcOp.Accepts, PtcOp.assign,
      Base.high]
    constructor
    · intro h; rw [if_pos (by omega)]
    · intro h; rw [if_neg (by omega)]
  | setLowTapPosition low =>
    simp only [ptcAct, liftP, setLowTapPosition, Option.map_some, PtcOp.Accepts, PtcOp.assign]
    refine ⟨fun _ => ?_, fun h => absurd trivial h⟩
    rw [Int.add_sub_assoc]
  | setTargetDeadband d =>
    simp only [ptcAct, liftP, setTargetDeadband, Option.map_some, needVariant_some, checkTargetDeadband_eq, PtcOp.Accepts, PtcOp.assign]
    constructor <;> intro h <;> simp [h]
  | setRegulating r =>
    simp only [ptcAct, liftP, setRegulating, Option.map_some, needVariant_some, checkTargetDeadband_eq, PtcOp.Accepts, PtcOp.assign]
    constructor <;> intro h <;> simp [h]
  | setRegulationTerminal t =>
    simp only [ptcAct, liftP, setRegulationTerminal, Option.map_some, checkPhase_eq, PtcOp.Accepts, PtcOp.assign]
    by_cases h1 : PhaseOk s.mode p.value p.base.regulating t
    · cases t with
      | none => simp [h1]
      | some x => simp [h1, h1.2 x rfl]
    · simp [h1]
  | setRegulationMode m =>
    simp only [ptcAct, needVariant_some, checkPhase_eq, PtcOp.Accepts, PtcOp.assign]
    constructor <;> intro h <;> simp [h]
  | setRegulationValue v =>
    simp only [ptcAct, needVariant_some, checkPhase_eq, PtcOp.Accepts, PtcOp.assign]
    constructor <;> intro h <;> simp [h]

example : (PtcOp.setRegulationValue 3).Accepts (⟨⟨0, [10, 20], some ⟨7, true⟩⟩, .currentLimiter⟩ : PtcS Nat) ⟨⟨1, true, 0⟩, 220⟩ :=
  ⟨fun _ => by decide, fun x hx => by cases hx; rfl⟩

/-- **C60** is false without a working variant: `setLowTapPosition` throws after it has moved the range. -/
theorem setLowTapPosition_refused_but_stored :
    ∃ m : Multi (RtcS Nat) RtcP, m.working = none ∧ (m.call (rtcAct (.setLowTapPosition 5))).1 = .thrown ∧
      (m.call (rtcAct (.setLowTapPosition 5))).2.shared ≠ m.shared :=
  ⟨{ twoVariants with working := none }, rfl, rfl, by decide⟩

/-- **C60**, adders: the tap changer built has the values given. -/
theorem adders_store (a : RtcArgs α) (b : PtcArgs β) :
    (∀ x, a.build = .ok x → x.1.base = ⟨a.low, a.steps, a.term⟩ ∧ x.1.ltc = a.ltc ∧ a.pos = some x.2.base.pos ∧
      x.2.base.regulating = a.regulating ∧ x.2.base.deadband = a.deadband ∧ x.2.targetV = a.targetV) ∧
    (∀ x, b.build = .ok x → x.1.base = ⟨b.low, b.steps, b.term⟩ ∧ x.1.mode = b.mode ∧ b.pos = some x.2.base.pos ∧
      x.2.base.regulating = b.regulating ∧ x.2.base.deadband = b.deadband ∧ x.2.value = b.value) := by
  constructor
  · intro x h
    simp only [RtcArgs.build] at h
    split at h
    · cases h
    · rename_i pos hp
      split at h
      · cases h
      · simp only [Out.bind_eq_ok] at h
        obtain ⟨_, _, _, _, _, _, h⟩ := h
        cases h
        exact ⟨rfl, rfl, hp, rfl, rfl, rfl⟩
  · intro x h
    simp only [PtcArgs.build] at h
    split at h
    · cases h
    · rename_i pos hp
      split at h
      · cases h
      · simp only [Out.bind_eq_ok] at h
        obtain ⟨_, _, _, _, _, _, h⟩ := h
        cases h
        exact ⟨rfl, rfl, hp, rfl, rfl, rfl⟩

example : (sampleRtc true true 220).build.isOk = true ∧ (samplePtc .currentLimiter true).build.isOk = true := by decide

end Verif.Tap
