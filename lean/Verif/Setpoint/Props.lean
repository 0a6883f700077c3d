import Verif.Setpoint.Lemmas

/-!
Properties C34 (set-points are usable) and C35 (ranges are never inverted).
-/

namespace Verif.Setpoint

open Verif

/-! ### C34 -/

/-- What the property asks of equipment that controls voltage (`on`) or reactive power. -/
def Usable (on : Bool) (v q : Dbl) : Prop := (on = true → Dbl.lt 0 v = true) ∧ (on = false → q.isNan = false)

instance (on : Bool) (v q : Dbl) : Decidable (Usable on v q) := inferInstanceAs (Decidable (_ ∧ _))

theorem usable_setOn {c : Ctl} (h : Usable c.on c.v c.q) (b : Bool) : Usable (setOn b c).2.on (setOn b c).2.v (setOn b c).2.q := by
  simp only [setOn]
  split
  · rename_i hc; exact checkVoltageControl_ok hc
  · exact h

theorem usable_setV {c : Ctl} (h : Usable c.on c.v c.q) (x : Dbl) : Usable (setV x c).2.on (setV x c).2.v (setV x c).2.q := by
  simp only [setV]
  split
  · rename_i hc; exact checkVoltageControl_ok hc
  · exact h

theorem usable_setQ {c : Ctl} (h : Usable c.on c.v c.q) (x : Dbl) : Usable (setQ x c).2.on (setQ x c).2.v (setQ x c).2.q := by
  simp only [setQ]
  split
  · rename_i hc; exact checkVoltageControl_ok hc
  · exact h

theorem usable_setP {c : Ctl} (h : Usable c.on c.v c.q) (x : Dbl) : Usable (setP x c).2.on (setP x c).2.v (setP x c).2.q := by
  simp only [setP]
  split <;> exact h

/-- Histories of a generator or of the generation of a dangling line keep usable set-points. -/
theorem gen_usable {x : PRange × Ctl} (hx : Usable x.2.on x.2.v x.2.q) (variants : List Nat) (w : Option Nat)
    (ops : List (Multi.Op GenOp)) :
    let m := Multi.run genAct (fresh x variants w) ops
    ∀ v ∈ m.variants, Usable (m.per v).on (m.per v).v (m.per v).q := by
  refine Multi.run_per (I := fun c : Ctl => Usable c.on c.v c.q) ?_ ops _ (fun v _ => hx)
  intro a s p h
  cases a with
  | setMinP x => exact h
  | setMaxP x => exact h
  | setOn b => exact usable_setOn h b
  | setV x => exact usable_setV h x
  | setQ x => exact usable_setQ h x
  | setP x => exact usable_setP h x

/-- **C34** for generators: in every variant, after any history of calls (refused ones included), a generator that controls voltage has a
    positive voltage set-point, and one that does not has a reactive power set-point. -/
theorem generator_setpoints_usable {args : GenArgs} {x : PRange × Ctl} (hb : args.buildGenerator = .ok x) (variants : List Nat)
    (w : Option Nat) (ops : List (Multi.Op GenOp)) :
    let m := Multi.run genAct (fresh x variants w) ops
    ∀ v ∈ m.variants, Usable (m.per v).on (m.per v).v (m.per v).q := by
  apply gen_usable
  simp only [GenArgs.buildGenerator] at hb
  rcases Out.bind_eq_ok.1 hb with ⟨_, h1, hb⟩
  rcases Out.bind_eq_ok.1 hb with ⟨_, h2, hb⟩
  rcases Out.bind_eq_ok.1 hb with ⟨_, h3, hb⟩
  split at hb
  · cases hb
  · rcases Out.bind_eq_ok.1 hb with ⟨_, h4, hb⟩
    rcases Out.bind_eq_ok.1 hb with ⟨_, h5, hb⟩
    cases hb
    exact checkVoltageControl_ok h4

/-- **C34** for the generation of dangling lines. -/
theorem generation_setpoints_usable {args : GenArgs} {x : PRange × Ctl} (hb : args.buildGeneration = .ok x) (variants : List Nat)
    (w : Option Nat) (ops : List (Multi.Op GenOp)) :
    let m := Multi.run genAct (fresh x variants w) ops
    ∀ v ∈ m.variants, Usable (m.per v).on (m.per v).v (m.per v).q := by
  apply gen_usable
  simp only [GenArgs.buildGeneration] at hb
  rcases Out.bind_eq_ok.1 hb with ⟨_, h1, hb⟩
  rcases Out.bind_eq_ok.1 hb with ⟨_, h2, hb⟩
  rcases Out.bind_eq_ok.1 hb with ⟨_, h3, hb⟩
  cases hb
  exact checkVoltageControl_ok h3

/-- **C34** for VSC converter stations. -/
theorem vsc_setpoints_usable {on : Option Bool} {v0 q0 : Dbl} {x : Unit × Ctl} (hb : buildVsc on v0 q0 = .ok x) (variants : List Nat)
    (w : Option Nat) (ops : List (Multi.Op VscOp)) :
    let m := Multi.run vscAct (fresh x variants w) ops
    ∀ v ∈ m.variants, Usable (m.per v).on (m.per v).v (m.per v).q := by
  refine Multi.run_per (I := fun c : Ctl => Usable c.on c.v c.q) ?_ ops _ (fun v _ => ?_)
  · intro a s p h
    cases a with
    | setOn b => exact usable_setOn h b
    | setV x => exact usable_setV h x
    | setQ x => exact usable_setQ h x
  · simp only [buildVsc] at hb
    split at hb
    · cases hb
    · rcases Out.bind_eq_ok.1 hb with ⟨_, h4, hb⟩
      cases hb
      exact checkVoltageControl_ok h4

/-- **C34** for static VAR compensators, partial: in every variant, after any history, one that controls voltage has a voltage set-point
    and one that controls reactive power has a reactive power set-point.  Missing: the voltage set-point need not be positive
    (`svc_nonpositive_voltage`). -/
theorem svc_setpoints_set_partial {mode : Option SvcMode} {v0 q0 : Dbl} {x : Unit × Svc} (hb : buildSvc mode v0 q0 = .ok x)
    (variants : List Nat) (w : Option Nat) (ops : List (Multi.Op SvcOp)) :
    let m := Multi.run svcAct (fresh x variants w) ops
    ∀ v ∈ m.variants, ((m.per v).mode = .voltage → (m.per v).v.isNan = false) ∧
      ((m.per v).mode = .reactivePower → (m.per v).q.isNan = false) := by
  refine Multi.run_per (I := fun c : Svc => (c.mode = .voltage → c.v.isNan = false) ∧ (c.mode = .reactivePower → c.q.isNan = false))
    ?_ ops _ (fun v _ => ?_)
  · intro a s p h
    cases a <;> simp only [svcAct, onVariant_after] <;> split <;> first | exact h | (rename_i hc; exact checkSvc_ok hc)
  · simp only [buildSvc] at hb
    split at hb
    · cases hb
    · rcases Out.bind_eq_ok.1 hb with ⟨_, h4, hb⟩
      cases hb
      exact checkSvc_ok h4

/-- A history with a generator switched between voltage and reactive control in one of two variants. -/
example : ∃ x, (GenArgs.buildGenerator ⟨0, 100, some true, 225, .nan, 50⟩) = .ok x ∧
    (let m := Multi.run genAct (fresh x [0] (some 0))
      [.clone 0 1, .select 1, .call (.setOn false), .call (.setQ 10), .call (.setOn false), .call (.setV .nan)]
     (m.per 0).on = true ∧ (m.per 1).on = false ∧ (m.per 1).v = .nan ∧ (m.per 1).q = 10) := by
  refine ⟨_, rfl, ?_⟩; decide

example : (GenArgs.buildGeneration ⟨.nan, 100, none, .nan, 0, 50⟩).isOk = true := by decide
example : (buildVsc (some true) 225 .nan).isOk = true := by decide
example : (buildSvc (some .reactivePower) .nan 3).isOk = true := by decide

/-- A static VAR compensator that controls voltage accepts a negative set-point. -/
theorem svc_nonpositive_voltage :
    ∃ x, buildSvc (some .voltage) 225 .nan = .ok x ∧
      let m := Multi.run svcAct (fresh x [0] (some 0)) [.call (.setV (.fin (-1)))]
      (m.per 0).mode = .voltage ∧ Dbl.lt 0 (m.per 0).v = false := by
  refine ⟨_, rfl, ?_⟩; decide

/-- Decision of `setVoltageRegulatorOn`: switching voltage control on is accepted exactly with a positive voltage set-point, switching it off
    exactly with a reactive power set-point. -/
theorem setOn_ok_iff (b : Bool) (c : Ctl) : (setOn b c).1 = .ok () ↔ Usable b c.v c.q := by
  simp only [setOn, checkVoltageControl, Usable]
  cases b with
  | true =>
    cases hv : Dbl.lt 0 c.v with
    | true =>
      have h1 := (Dbl.not_nan_of_lt hv).2
      have h2 := Dbl.not_le_of_lt hv
      simp [h1, h2]
    | false =>
      cases hn : c.v.isNan with
      | true => simp
      | false =>
        have := Dbl.le_of_not_lt rfl hn hv
        simp [this]
  | false => cases hn : c.q.isNan <;> simp

/-- A refused call on a generator changes nothing (C35, last part, for every attribute). -/
theorem gen_refused_unchanged (a : GenOp) (s : PRange) (p : Ctl) (h : (genAct a s (some p)).1 ≠ .ok ()) :
    genAct a s (some p) = (.thrown, s, some p) := by
  revert h
  cases a with
  | setMinP x => simp only [genAct, onShared, setMinP_eq]; split <;> simp
  | setMaxP x => simp only [genAct, onShared, setMaxP_eq]; split <;> simp
  | setOn b =>
    simp only [genAct, onVariant, needVariant, setOn]
    have := checkVoltageControl_ne_ub b p.v p.q
    cases hc : checkVoltageControl b p.v p.q <;> simp_all
  | setV x =>
    simp only [genAct, onVariant, needVariant, setV]
    have := checkVoltageControl_ne_ub p.on x p.q
    cases hc : checkVoltageControl p.on x p.q <;> simp_all
  | setQ x =>
    simp only [genAct, onVariant, needVariant, setQ]
    have := checkVoltageControl_ne_ub p.on p.v x
    cases hc : checkVoltageControl p.on p.v x <;> simp_all
  | setP x =>
    simp only [genAct, onVariant, needVariant, setP, checkSet]
    cases x.isNan <;> simp

example : (genAct (.setV 0) ⟨0, 100⟩ (some ⟨true, 225, .nan, 50⟩)).1 ≠ .ok () := by decide

/-! ### C35 -/

/-- The range is set and not inverted. -/
def RangeOk (s : PRange) : Prop := Dbl.le s.minP s.maxP = true

instance (s : PRange) : Decidable (RangeOk s) := inferInstanceAs (Decidable (_ = _))

theorem rangeOk_setMinP {s : PRange} (h : RangeOk s) (x : Dbl) : RangeOk (setMinP x s).2 := by
  rw [setMinP_eq]
  split
  · rename_i hc
    exact Dbl.le_of_not_lt (Dbl.not_nan_of_le h).2 hc.1 hc.2
  · exact h

theorem rangeOk_setMaxP {s : PRange} (h : RangeOk s) (x : Dbl) : RangeOk (setMaxP x s).2 := by
  rw [setMaxP_eq]
  split
  · rename_i hc
    exact Dbl.le_of_not_lt hc.1 (Dbl.not_nan_of_le h).1 hc.2
  · exact h

theorem gen_range {x : PRange × Ctl} (hx : RangeOk x.1) (variants : List Nat) (w : Option Nat) (ops : List (Multi.Op GenOp)) :
    RangeOk (Multi.run genAct (fresh x variants w) ops).shared := by
  refine Multi.run_shared (J := RangeOk) ?_ ops _ hx
  intro a s p h
  cases a with
  | setMinP x => exact rangeOk_setMinP h x
  | setMaxP x => exact rangeOk_setMaxP h x
  | setOn b => cases p <;> exact h
  | setV x => cases p <;> exact h
  | setQ x => cases p <;> exact h
  | setP x => cases p <;> exact h

/-- **C35** for generators: `minP <= maxP`, both set, after any history. -/
theorem generator_range {args : GenArgs} {x : PRange × Ctl} (hb : args.buildGenerator = .ok x) (variants : List Nat)
    (w : Option Nat) (ops : List (Multi.Op GenOp)) :
    let m := Multi.run genAct (fresh x variants w) ops
    Dbl.le m.shared.minP m.shared.maxP = true := by
  refine gen_range ?_ variants w ops
  simp only [GenArgs.buildGenerator] at hb
  rcases Out.bind_eq_ok.1 hb with ⟨_, h1, hb⟩
  rcases Out.bind_eq_ok.1 hb with ⟨_, h2, hb⟩
  rcases Out.bind_eq_ok.1 hb with ⟨_, h3, hb⟩
  split at hb
  · cases hb
  · rcases Out.bind_eq_ok.1 hb with ⟨_, h4, hb⟩
    rcases Out.bind_eq_ok.1 hb with ⟨_, h5, hb⟩
    cases hb
    exact Dbl.le_of_not_lt (checkSet_ok h2) (checkSet_ok h1) (checkActivePowerLimits_ok h5)

/-- **C35** for batteries. -/
theorem battery_range {p0 q0 a b : Dbl} {x : PRange × Dbl × Dbl} (hb : buildBattery p0 q0 a b = .ok x) (variants : List Nat)
    (w : Option Nat) (ops : List (Multi.Op BatOp)) :
    let m := Multi.run batAct (fresh x variants w) ops
    Dbl.le m.shared.minP m.shared.maxP = true := by
  refine Multi.run_shared (J := RangeOk) ?_ ops _ ?_
  · intro a s p h
    cases a with
    | setMinP x => exact rangeOk_setMinP h x
    | setMaxP x => exact rangeOk_setMaxP h x
    | setP0 b => cases p <;> exact h
    | setQ0 x => cases p <;> exact h
  · simp only [buildBattery] at hb
    rcases Out.bind_eq_ok.1 hb with ⟨_, h1, hb⟩
    rcases Out.bind_eq_ok.1 hb with ⟨_, h2, hb⟩
    rcases Out.bind_eq_ok.1 hb with ⟨_, h3, hb⟩
    rcases Out.bind_eq_ok.1 hb with ⟨_, h4, hb⟩
    rcases Out.bind_eq_ok.1 hb with ⟨_, h5, hb⟩
    cases hb
    exact Dbl.le_of_not_lt (checkSet_ok h4) (checkSet_ok h3) (checkActivePowerLimits_ok h5)

/-- **C35** for the generation of dangling lines, partial: `minP <= maxP` after any history, when the given bounds are representable values,
    the lower one not `+inf`, the upper one not `-inf`.  With an unset bound and an infinite one the range is inverted
    (`generation_range_inverted`). -/
theorem generation_range_partial {args : GenArgs} {x : PRange × Ctl} (hb : args.buildGeneration = .ok x)
    (hmin : args.minP.InRange) (hmax : args.maxP.InRange) (hmin' : args.minP ≠ .posInf) (hmax' : args.maxP ≠ .negInf)
    (variants : List Nat) (w : Option Nat) (ops : List (Multi.Op GenOp)) :
    let m := Multi.run genAct (fresh x variants w) ops
    Dbl.le m.shared.minP m.shared.maxP = true := by
  refine gen_range ?_ variants w ops
  simp only [GenArgs.buildGeneration] at hb
  rcases Out.bind_eq_ok.1 hb with ⟨_, h1, hb⟩
  rcases Out.bind_eq_ok.1 hb with ⟨_, h2, hb⟩
  rcases Out.bind_eq_ok.1 hb with ⟨_, h3, hb⟩
  cases hb
  have h1 := checkActivePowerLimits_ok h1
  have hle : -Dbl.maxRat ≤ Dbl.maxRat := by decide +kernel
  show Dbl.le (if args.minP.isNan = true then _ else _) (if args.maxP.isNan = true then _ else _) = true
  revert h1 hmin hmax hmin' hmax'
  generalize args.minP = a
  generalize args.maxP = b
  intro hmin hmax hmin' hmax' h1
  cases a <;> cases b <;> simp_all [Dbl.isNan, Dbl.le, Dbl.lt, Dbl.InRange]
  grind

example : (GenArgs.buildGeneration ⟨.nan, 100, none, .nan, 0, 50⟩).isOk = true ∧ Dbl.InRange 100 := by
  refine ⟨by decide, ?_⟩
  exact ⟨by decide +kernel, by decide +kernel⟩

/-- An unset lower bound becomes the smallest finite value, above an upper bound of `-inf`. -/
theorem generation_range_inverted :
    ∃ x, (GenArgs.buildGeneration ⟨.nan, .negInf, none, .nan, 0, 50⟩) = .ok x ∧ Dbl.lt x.1.maxP x.1.minP = true := by
  refine ⟨_, rfl, ?_⟩; decide

/-- The limits of a voltage level are not inverted nor negative (an unset limit is NaN). -/
def LimitsOk (s : VLimits) : Prop :=
  (s.low.isNan = true ∨ Dbl.le 0 s.low = true) ∧ (s.high.isNan = true ∨ Dbl.le 0 s.high = true) ∧
    (s.low.isNan = true ∨ s.high.isNan = true ∨ Dbl.le s.low s.high = true)

theorem limitsOk_of_check {a b : Dbl} (h : checkVoltageLimits a b = .ok ()) : LimitsOk ⟨a, b⟩ := by
  have h := checkVoltageLimits_ok h
  refine ⟨?_, ?_, ?_⟩
  · cases ha : a.isNan
    · exact .inr (Dbl.le_of_not_lt ha rfl h.1)
    · exact .inl rfl
  · cases hb : b.isNan
    · exact .inr (Dbl.le_of_not_lt hb rfl h.2.1)
    · exact .inl rfl
  · cases ha : a.isNan
    · cases hb : b.isNan
      · exact .inr (.inr (Dbl.le_of_not_lt hb ha h.2.2))
      · exact .inr (.inl rfl)
    · exact .inl rfl

/-- **C35** for voltage limits: after any history of calls, when both limits are set the low one is not above the high one; none is negative. -/
theorem voltage_limits_ordered {a b : Dbl} {s : VLimits} (hb : buildVl a b = .ok s) (ops : List VlOp) :
    LimitsOk (ops.foldl (fun s o => (vlStep s o).2) s) := by
  have h0 : LimitsOk s := by
    simp only [buildVl] at hb
    rcases Out.bind_eq_ok.1 hb with ⟨_, h1, hb⟩
    cases hb
    exact limitsOk_of_check h1
  clear hb
  induction ops generalizing s with
  | nil => exact h0
  | cons o os ih =>
    refine ih ?_
    cases o with
    | setLow x =>
      simp only [vlStep]; split
      · rename_i hc; exact limitsOk_of_check hc
      · exact h0
    | setHigh x =>
      simp only [vlStep]; split
      · rename_i hc; exact limitsOk_of_check hc
      · exact h0

example : buildVl .nan 420 = .ok ⟨.nan, 420⟩ := by decide

/-- A refused call on voltage limits changes nothing. -/
theorem vl_refused_unchanged (s : VLimits) (o : VlOp) (h : (vlStep s o).1 ≠ .ok ()) : vlStep s o = (.thrown, s) := by
  revert h
  cases o with
  | setLow x =>
    simp only [vlStep, checkVoltageLimits]
    cases Dbl.lt x 0 <;> cases Dbl.lt s.high 0 <;> cases Dbl.lt s.high x <;> simp
  | setHigh x =>
    simp only [vlStep, checkVoltageLimits]
    cases Dbl.lt s.low 0 <;> cases Dbl.lt x 0 <;> cases Dbl.lt x s.low <;> simp

example : (vlStep ⟨380, 420⟩ (.setLow 430)).1 ≠ .ok () := by decide

/-- A refused call on a battery changes nothing. -/
theorem battery_refused_unchanged (a : BatOp) (s : PRange) (p : Dbl × Dbl) (h : (batAct a s (some p)).1 ≠ .ok ()) :
    batAct a s (some p) = (.thrown, s, some p) := by
  revert h
  cases a with
  | setMinP x => simp only [batAct, onShared, setMinP_eq]; split <;> simp
  | setMaxP x => simp only [batAct, onShared, setMaxP_eq]; split <;> simp
  | setP0 x => simp only [batAct, onVariant, needVariant, checkSet]; cases x.isNan <;> simp
  | setQ0 x => simp only [batAct, onVariant, needVariant, checkSet]; cases x.isNan <;> simp

example : (batAct (.setMinP 430) ⟨0, 100⟩ (some (1, 2))).1 ≠ .ok () := by decide

/-- Every acceptable lower bound is accepted, and becomes the lower bound. -/
theorem setMinP_accepts (x : Dbl) (s : PRange) (h : Dbl.le x s.maxP = true) : setMinP x s = (.ok (), { s with minP := x }) := by
  rw [setMinP_eq, if_pos]
  refine ⟨(Dbl.not_nan_of_le h).1, ?_⟩
  cases hx : Dbl.lt s.maxP x
  · rfl
  · rw [Dbl.not_le_of_lt hx] at h; cases h

/-- Every acceptable upper bound is accepted, and becomes the upper bound. -/
theorem setMaxP_accepts (x : Dbl) (s : PRange) (h : Dbl.le s.minP x = true) : setMaxP x s = (.ok (), { s with maxP := x }) := by
  rw [setMaxP_eq, if_pos]
  refine ⟨(Dbl.not_nan_of_le h).2, ?_⟩
  cases hx : Dbl.lt x s.minP
  · rfl
  · rw [Dbl.not_le_of_lt hx] at h; cases h

example : Dbl.le 10 (PRange.mk 0 100).maxP = true := by decide
example : ∃ x, buildBattery 1 2 0 100 = .ok x := ⟨_, rfl⟩
example : ∃ x, GenArgs.buildGenerator ⟨0, 100, some false, .nan, 3, 50⟩ = .ok x := ⟨_, rfl⟩

end Verif.Setpoint
