import Verif.Setters.PutSpec
import Verif.Setters.NetProps
import Verif.XmlNet.BranchesProps

/-!
C94, the other way round: a setter refuses only what would not be valid, and writes what it is meant to write.
-/

namespace Verif.Setters

open Verif Verif.Xml Verif.XmlNet

theorem exact_of {α : Type} {bad : Bool} {y : α} {P : Prop} (h1 : P → bad = false) (h2 : grd bad y = .ok y → P) : Exact (grd bad y) y P := by
  cases bad with
  | false => exact ⟨fun _ => rfl, fun h => absurd (h2 rfl) h⟩
  | true => exact ⟨fun h => (nomatch h1 h), fun _ => rfl⟩

theorem good_control {on : Bool} {v q : Dbl} (h : ControlValid on v q) : badControl on v q = false := by
  cases on with
  | false => exact h.2 rfl
  | true => simp [badControl, Dbl.not_le_of_lt (h.1 rfl), (Dbl.not_nan_of_lt (h.1 rfl)).2]

theorem good_rated {s : Dbl} (h : RatedValid s) : badRatedS s = false := by
  cases hs : s.isNan with
  | true => simp [badRatedS, hs]
  | false => simp [badRatedS, Dbl.not_le_of_lt (h hs)]

theorem not_lt_of_le {a b : Dbl} (h : Dbl.le a b = true) : Dbl.lt b a = false := by
  cases hl : Dbl.lt b a with
  | false => rfl
  | true => rw [Dbl.not_le_of_lt hl] at h; cases h

theorem good_max {a d : Dbl} (h : Dbl.le a d = true) : (d.isNan || Dbl.lt d a) = false := by simp [not_lt_of_le h, (Dbl.not_nan_of_le h).2]

theorem good_min {a d : Dbl} (h : Dbl.le d a = true) : (d.isNan || Dbl.lt a d) = false := by simp [not_lt_of_le h, (Dbl.not_nan_of_le h).1]

theorem good_loss {f : Dbl} (h : Dbl.le 0 f = true ∧ Dbl.le f 100 = true) : badLoss f = false := by
  simp [badLoss, not_lt_of_le h.1, not_lt_of_le h.2, (Dbl.not_nan_of_le h.1).2]

theorem good_power {f : Dbl} (h : Dbl.le (.fin (-1)) f = true ∧ Dbl.le f 1 = true) : badPowerFactor f = false := by
  simp [badPowerFactor, not_lt_of_le h.1, not_lt_of_le h.2, (Dbl.not_nan_of_le h.1).2]

theorem good_deadband {on : Bool} {d : Dbl} (h : Dbl.lt d 0 = false ∧ (on = true → IsSet d)) : badDeadband on d = false := by
  cases on with
  | false => simp [badDeadband, h.1]
  | true => simp [badDeadband, h.1]; exact h.2 rfl

theorem good_target {on : Bool} {v : Dbl} (h : on = true → Dbl.lt 0 v = true) : badTarget on v = false := by
  cases on with
  | false => rfl
  | true => simp [badTarget, Dbl.not_le_of_lt (h rfl), (Dbl.not_nan_of_lt (h rfl)).2]

theorem good_nominal {d : Dbl} (h : Dbl.lt 0 d = true) : (d.isNan || Dbl.le d 0) = false := by simp [Dbl.not_le_of_lt h, (Dbl.not_nan_of_lt h).2]

theorem load_exact {o : LoadOp} {x y : Load} (hx : LoadValid x) (hp : o.put x = some y) : Exact (o.set x) y (LoadValid y) := by
  have hv : o.set x = .ok y → LoadValid y := fun h => load_stays_valid hx h
  cases o <;> simp only [LoadOp.put, Option.some.injEq, reduceCtorEq] at hp <;> subst hp
  all_goals refine exact_of (fun h => ?_) hv
  · exact decide_eq_false (Nat.not_le.2 h.kind)
  · exact h.p0
  · exact h.q0

theorem generator_exact {o : GenOp} {x y : Gen} (hx : GenValid x) (hp : o.put x = some y) : Exact (o.set x) y (GenValid y) := by
  have hs : o.Safe := by cases o <;> first | trivial | cases hp
  have hv : o.set x = .ok y → GenValid y := fun h => (generator_stays_valid_iff hx h).2 hs
  unfold GenOp.put at hp
  split at hp <;> simp only [Option.some.injEq, reduceCtorEq] at hp <;> subst hp
  all_goals refine exact_of (fun h => ?_) hv
  · exact h.targetP
  · exact good_max h.range
  · exact good_min h.range
  · exact good_rated h.ratedS
  · exact good_control h.control
  · simp
  · exact good_control h.control
  · exact good_control h.control

theorem battery_exact {o : BatOp} {x y : Bat} (hx : BatValid x) (hp : o.put x = some y) : Exact (o.set x) y (BatValid y) := by
  have hv : o.set x = .ok y → BatValid y := fun h => battery_stays_valid hx h
  cases o <;> simp only [BatOp.put, Option.some.injEq, reduceCtorEq] at hp <;> subst hp
  all_goals refine exact_of (fun h => ?_) hv
  · exact good_max h.range
  · exact good_min h.range
  · exact h.p0
  · exact h.q0

theorem lcc_exact {o : LccOp} {x y : Lcc} (hx : LccValid x) (hp : o.put x = some y) : Exact (o.set x) y (LccValid y) := by
  have hv : o.set x = .ok y → LccValid y := fun h => lcc_stays_valid hx h
  cases o <;> simp only [LccOp.put, Option.some.injEq, reduceCtorEq] at hp <;> subst hp
  all_goals refine exact_of (fun h => ?_) hv
  · exact good_loss h.loss
  · exact good_power h.power

theorem vsc_exact {o : VscOp} {x y : Vsc} (hx : VscValid x) (hp : o.put x = some y) : Exact (o.set x) y (VscValid y) := by
  have hv : o.set x = .ok y → VscValid y := fun h => vsc_stays_valid hx h
  cases o <;> simp only [VscOp.put, Option.some.injEq, reduceCtorEq] at hp <;> subst hp
  all_goals refine exact_of (fun h => ?_) hv
  · exact good_loss h.loss
  · exact good_control h.control
  · exact good_control h.control
  · exact good_control h.control

theorem good_svc {m : Nat} {v q : Dbl} (hm : m < 3) (hv : m = 0 → IsSet v) (hq : m = 1 → IsSet q) : badSvc m v q = false := by
  match m, hm with
  | 0, _ => exact hv rfl
  | 1, _ => exact hq rfl
  | 2, _ => rfl

theorem svc_exact {o : SvcOp} {x y : Svc} (hx : SvcValid x) (hp : o.put x = some y) : Exact (o.set x) y (SvcValid y) := by
  have hv : o.set x = .ok y → SvcValid y := fun h => svc_stays_valid hx h
  unfold SvcOp.put at hp
  split at hp <;> simp only [Option.some.injEq, reduceCtorEq] at hp <;> subst hp
  all_goals refine exact_of (fun h => ?_) hv
  · exact h.bMax
  · exact h.bMin
  · exact good_svc h.mode h.voltage h.reactive
  · simp
  · exact good_svc h.mode h.voltage h.reactive
  · exact good_svc h.mode h.voltage h.reactive

theorem good_sections {n m : Nat} (h : 0 < m ∧ n ≤ m) : badSections n m = false := by
  simp only [badSections, Bool.or_eq_false_iff, beq_eq_false_iff_ne, decide_eq_false_iff_not]
  omega

theorem shunt_exact {o : ShOp} {x y : Sh} (hx : ShValid x) (hp : o.put x = some y) : Exact (o.set x) y (ShValid y) := by
  have hv : o.set x = .ok y → ShValid y := shunt_stays_valid hx
  cases o with
  | ident o => cases hp
  | term o => cases hp
  | setRegulatingTerminal r s =>
    cases s with
    | false => cases hp
    | true => cases hp; exact exact_of (fun _ => by simp) hv
  | setSectionCount n => cases hp; exact exact_of (fun h => good_sections h.sections) hv
  | setTargetDeadband d => cases hp; exact exact_of (fun h => good_deadband h.deadband) hv
  | setTargetV d => cases hp; exact exact_of (fun h => good_target h.target) hv
  | setVoltageRegulatorOn b =>
    cases hp
    refine exact_of (fun h => ?_) hv
    rw [Bool.or_eq_false_iff]
    exact ⟨good_target h.target, good_deadband h.deadband⟩
  | setBPerSection d =>
    simp only [ShOp.put, ShOp.set] at hp hv ⊢
    cases hm : x.model with
    | linear b g m =>
      simp only [hm, Option.some.injEq] at hp hv ⊢
      subst hp
      exact exact_of (fun h => h.values) hv
    | nonLinear ss => simp [hm] at hp
  | setGPerSection d =>
    simp only [ShOp.put, ShOp.set] at hp hv ⊢
    cases hm : x.model with
    | linear b g m =>
      simp only [hm, Option.some.injEq] at hp hv ⊢
      subst hp
      exact ⟨fun _ => rfl, fun h => absurd (hv rfl) h⟩
    | nonLinear ss => simp [hm] at hp
  | setMaximumSectionCount n =>
    simp only [ShOp.put, ShOp.set] at hp hv ⊢
    cases hm : x.model with
    | linear b g m =>
      simp only [hm, Option.some.injEq] at hp hv ⊢
      subst hp
      exact exact_of (fun h => good_sections h.sections) hv
    | nonLinear ss => simp [hm] at hp
  | setSectionB i d => cases hp
  | setSectionG i d => cases hp

theorem generation_exact {o : DlGenOp} {x y : DlGen} (hx : DlGenValid x) (hp : o.put x = some y) : Exact (o.set x) y (DlGenValid y) := by
  have hv : o.set x = .ok y → DlGenValid y := fun h => generation_stays_valid hx h
  cases o <;> simp only [DlGenOp.put, Option.some.injEq, reduceCtorEq] at hp <;> subst hp
  all_goals refine exact_of (fun h => ?_) hv
  · exact h.targetP
  · exact good_control h.control
  · exact good_control h.control
  · exact good_control h.control

theorem dangling_exact {o : DlOp} {x y : Dl} (hx : DlValid x) (hp : o.put x = some y) : Exact (o.set x) y (DlValid y) := by
  have hv : o.set x = .ok y → DlValid y := fun h => dangling_stays_valid hx h
  cases o <;> simp only [DlOp.put, Option.some.injEq, reduceCtorEq] at hp <;> subst hp
  all_goals refine exact_of (fun h => ?_) hv
  · exact h.values.2.2.2.2.2
  · exact h.values.2.2.2.2.1
  · exact h.values.1
  · exact h.values.2.1
  · exact h.values.2.2.1
  · exact h.values.2.2.2.1

theorem charac_exact {o : CharacOp} {z : Charac} (hz : CharacValid z) : Exact (o.set z) (o.put z) (CharacValid (o.put z)) := by
  have hv : o.set z = .ok (o.put z) → CharacValid (o.put z) := fun h => charac_stays_valid hz h
  cases o
  all_goals refine exact_of (fun h => ?_) hv
  · exact h.1
  · exact h.2.1
  · exact h.2.2.1
  · exact h.2.2.2.1
  · exact h.2.2.2.2.1
  · exact h.2.2.2.2.2

theorem hvdc_exact {o : HvdcOp} {x y : HvdcLine} (hx : HvdcValid x) (hp : o.put x = some y) : Exact (o.set x) y (HvdcValid y) := by
  have hv : o.set x = .ok y → HvdcValid y := fun h => hvdc_stays_valid hx h
  cases o <;> simp only [HvdcOp.put, Option.some.injEq, reduceCtorEq] at hp <;> subst hp
  all_goals refine exact_of (fun h => ?_) hv
  · exact good_max h.setpoint
  · exact decide_eq_false (Nat.not_le.2 h.mode)
  · exact good_max h.maxP
  · exact good_nominal h.nominalV
  · exact h.r

theorem good_tap {low tap : Int} {n : Nat} (hl : -2 ^ 63 ≤ low) (ho : low + n - 1 < 2 ^ 63) (h : low ≤ tap ∧ tap ≤ low + n - 1) : badTap low tap n = false := by
  have hm : (low + n - 1 + 2 ^ 63) % 2 ^ 64 = low + n - 1 + 2 ^ 63 := Int.emod_eq_of_lt (by omega) (by omega)
  simp only [badTap, highTap, hm, Bool.or_eq_false_iff, decide_eq_false_iff_not]
  omega

theorem good_ratio {on ltc : Bool} {v : Dbl} {r : Option Ref} (h : on = true → r ≠ none ∧ (ltc = true → Dbl.lt 0 v = true)) : badRatio on ltc v r true = false := by
  cases on with
  | false => rfl
  | true =>
    obtain ⟨h1, h2⟩ := h rfl
    cases r with
    | none => exact absurd rfl h1
    | some r =>
      cases ltc with
      | false => rfl
      | true => simp [badRatio, Dbl.not_le_of_lt (h2 rfl), (Dbl.not_nan_of_lt (h2 rfl)).2]

/-- The load tap changing capabilities are left out when they are switched on while the tap changer regulates: see `capabilities_unchecked`. -/
theorem ratio_exact {o : RtcOp} {t u : Rtc} (ht : RtcValid t) (hi : RtcInside t) (hs : o.Safe t) (hp : o.put t = some u) : Exact (o.set t) u (RtcValid u) := by
  have hv : o.set t = .ok u → RtcValid u := fun h => (ratio_stays_valid_iff ht hi h).2 hs
  cases o with
  | setTapPosition p =>
    simp only [RtcOp.put] at hp
    split at hp
    · rename_i ho
      cases hp
      exact exact_of (fun h => good_tap hi.1 ho (h.taps.inside hi.1 ho)) hv
    · cases hp
  | setLowTapPosition l => cases hp
  | setRegulating b =>
    cases hp
    refine exact_of (fun h => ?_) hv
    rw [Bool.or_eq_false_iff]
    exact ⟨good_ratio h.regulating, good_deadband ⟨h.taps.deadband, h.taps.regulating⟩⟩
  | setRegulationTerminal r s =>
    cases s with
    | false => cases hp
    | true =>
      cases hp
      refine exact_of (fun h => ?_) hv
      rw [Bool.or_eq_false_iff]
      exact ⟨good_ratio h.regulating, by simp⟩
  | setTargetDeadband d => cases hp; exact exact_of (fun h => good_deadband ⟨h.taps.deadband, h.taps.regulating⟩) hv
  | setTargetV d => cases hp; exact exact_of (fun h => good_ratio h.regulating) hv
  | setLoadTapChangingCapabilities b => cases hp; exact exact_of (fun _ => good_ratio ht.regulating) hv
  | setStep p f d => cases hp

theorem good_phase {m : Nat} {v : Dbl} {on : Bool} {r : Option Ref} (hm : m < 3) (h : on = true → r ≠ none ∧ IsSet v ∧ m ≠ 2) : badPhase m v on r true = false := by
  have hm : decide (3 ≤ m) = false := decide_eq_false (Nat.not_le.2 hm)
  cases on with
  | false => simp only [badPhase, hm]; simp
  | true =>
    obtain ⟨h1, h2, h3⟩ := h rfl
    have h2 : v.isNan = false := h2
    cases r with
    | none => exact absurd rfl h1
    | some r => simp only [badPhase, hm]; simp [h2, h3, fixedTap]

theorem phase_exact {o : PtcOp} {t u : Ptc} (ht : PtcValid t) (hi : PtcInside t) (hs : o.Safe t) (hp : o.put t = some u) : Exact (o.set t) u (PtcValid u) := by
  have hv : o.set t = .ok u → PtcValid u := fun h => (phase_stays_valid_iff ht hi h).2 hs
  cases o with
  | setTapPosition p =>
    simp only [PtcOp.put] at hp
    split at hp
    · rename_i ho
      cases hp
      exact exact_of (fun h => good_tap hi.1 ho (h.taps.inside hi.1 ho)) hv
    · cases hp
  | setLowTapPosition l => cases hp
  | setRegulating b => cases hp; exact exact_of (fun h => good_deadband ⟨h.taps.deadband, h.taps.regulating⟩) hv
  | setRegulationTerminal r s =>
    cases s with
    | false => cases hp
    | true => cases hp; exact exact_of (fun h => good_phase h.mode h.regulating) hv
  | setTargetDeadband d => cases hp; exact exact_of (fun h => good_deadband ⟨h.taps.deadband, h.taps.regulating⟩) hv
  | setRegulationMode m => cases hp; exact exact_of (fun h => good_phase h.mode h.regulating) hv
  | setRegulationValue d => cases hp; exact exact_of (fun h => good_phase h.mode h.regulating) hv
  | setStep p f d => cases hp
  | setAlpha p d => cases hp

theorem tw2_exact {o : Tw2Op} {x y : Tw2} (hx : Tw2Valid x) (hi : Tw2Inside x) (hp : o.put x = some y) : Exact (o.set x) y (Tw2Valid y) := by
  have hs : o.Safe x := by cases o <;> first | trivial | cases hp
  have hv : o.set x = .ok y → Tw2Valid y := fun h => (tw2_stays_valid_iff hx hi h).2 hs
  cases o <;> simp only [Tw2Op.put, Option.some.injEq, reduceCtorEq] at hp <;> subst hp
  all_goals refine exact_of (fun h => ?_) hv
  · exact h.values.1
  · exact h.values.2.1
  · exact h.values.2.2.1
  · exact h.values.2.2.2.1
  · exact h.values.2.2.2.2.1
  · exact h.values.2.2.2.2.2
  · exact good_rated h.ratedS

theorem leg_exact {o : LegOp} {x y : Leg} (n : Nat) (hx : LegValid x) (hp : o.put x = some y) : Exact (o.set n x) y (LegValid y) := by
  obtain ⟨v1, v2, v3, v4, v5⟩ := hx.values
  cases o <;> simp only [LegOp.put, Option.some.injEq, reduceCtorEq] at hp <;> subst hp
  · exact exact_of (fun h => h.values.1) fun h => { hx with values := ⟨(grd_ok.1 h).1, v2, v3, v4, v5⟩ }
  · exact exact_of (fun h => h.values.2.1) fun h => { hx with values := ⟨v1, (grd_ok.1 h).1, v3, v4, v5⟩ }
  · exact exact_of (fun h => h.values.2.2.1) fun h => { hx with values := ⟨v1, v2, (grd_ok.1 h).1, v4, v5⟩ }
  · exact exact_of (fun h => h.values.2.2.2.1) fun h => { hx with values := ⟨v1, v2, v3, (grd_ok.1 h).1, v5⟩ }
  · exact exact_of (fun h => h.values.2.2.2.2) fun h => { hx with values := ⟨v1, v2, v3, v4, (grd_ok.1 h).1⟩ }
  · exact exact_of (fun h => good_rated h.ratedS) fun h => { hx with ratedS := rated_valid (grd_ok.1 h).1 }

theorem bus_exact {o : BusOp} {x y : Bus} (hx : BusValid x) (hp : o.put x = some y) : Exact (o.set x) y (BusValid y) := by
  have hv : o.set x = .ok y → BusValid y := bus_stays_valid hx
  cases o with
  | ident o => cases hp
  | setV d =>
    cases hp
    refine exact_of (fun h => ?_) hv
    cases hd : d.isNan with
    | true => rfl
    | false => simp only [Bool.not_false, Bool.true_and]; exact not_lt_of_le (h.v hd)
  | setAngle d => cases hp; exact ⟨fun _ => rfl, fun h => absurd (hv rfl) h⟩

theorem good_voltages {a b : Dbl} (ha : IsSet a → Dbl.le 0 a = true) (hb : IsSet b → Dbl.le 0 b = true) (h : IsSet a → IsSet b → Dbl.le a b = true) : badVoltages a b = false := by
  have h0 : ∀ c : Dbl, (IsSet c → Dbl.le 0 c = true) → Dbl.lt c 0 = false := by
    intro c hc
    cases hn : c.isNan with
    | true => cases c <;> simp [Dbl.isNan] at hn; rfl
    | false => exact not_lt_of_le (hc hn)
  simp only [badVoltages, Bool.or_eq_false_iff]
  refine ⟨⟨h0 a ha, h0 b hb⟩, ?_⟩
  cases hl : Dbl.lt b a with
  | false => rfl
  | true =>
    have hn := Dbl.not_nan_of_lt hl
    rw [not_lt_of_le (h hn.2 hn.1)] at hl
    cases hl

theorem voltage_level_exact {o : VLOp} {x y : VL} (hx : VLValid x) (hp : o.put x = some y) : Exact (o.set x) y (VLValid y) := by
  have hs : o.Safe := by cases o <;> first | trivial | cases hp
  have hv : o.set x = .ok y → VLValid y := fun h => (voltage_level_stays_valid_iff hx h).2 hs
  cases o <;> simp only [VLOp.put, Option.some.injEq, reduceCtorEq] at hp <;> subst hp
  all_goals refine exact_of (fun h => ?_) hv
  · exact good_voltages h.low h.high h.range
  · exact good_voltages h.low h.high h.range
  · exact good_nominal h.nominal

/-! ### One limit, one step, one object -/

/-- A permanent limit is refused only when it is not positive, and written to the limits it is that of. -/
theorem permanent_exact {k : Kind} {p : Dbl} {l : Lims} {o : Limits.LL} (ho : getLims k l = some o) :
    (Dbl.le p 0 = false → ∃ m, (LimsOp.setPermanent k p).set l = .ok m ∧ getLims k m = some { o with permanent := p } ∧ ∀ j, j ≠ k → getLims j m = getLims j l) ∧
      (Dbl.le p 0 = true → (LimsOp.setPermanent k p).set l = .thrown) := by
  constructor
  · intro hp
    refine ⟨_, by simp only [LimsOp.set, ho, grd, hp]; rfl, ?_, ?_⟩
    · cases k <;> rfl
    · intro j hj
      cases k <;> cases j <;> first | exact absurd rfl hj | rfl
  · intro hp
    simp only [LimsOp.set, ho, grd, hp]
    rfl

example : getLims .apparent ⟨none, some ⟨3, []⟩, none⟩ = some ⟨3, []⟩ := rfl

/-- New limits replace those of their kind. -/
theorem new_limits {k : Kind} {p : Dbl} {ts : List Limits.Args} {l m : Lims} (h : (LimsOp.new k p ts).set l = .ok m) :
    (∃ o, Limits.add p (Limits.runAdder [] ts) = .ok o ∧ getLims k m = some o) ∧ ∀ j, j ≠ k → getLims j m = getLims j l := by
  obtain ⟨o, h1, rfl⟩ := lift_ok h
  refine ⟨⟨o, h1, by cases k <;> rfl⟩, ?_⟩
  intro j hj
  cases k <;> cases j <;> first | exact absurd rfl hj | rfl

/-- The value of a step that is set is the one that is got, and the only one that changes. -/
theorem step_field (f : Field) (d : Dbl) (s : Step) : f.get (putStep f d s) = d ∧ ∀ g, g ≠ f → g.get (putStep f d s) = g.get s := by
  constructor
  · cases f <;> rfl
  · intro g hg
    cases f <;> cases g <;> first | exact absurd rfl hg | rfl

/-- A call on the step of a position changes that step only. -/
theorem ratio_step_written {p : Long} {f : Field} {d : Dbl} {t u : Rtc} (h : (RtcOp.setStep p f d).set t = .ok u) :
    { u with steps := t.steps } = t ∧ ∀ j : Nat, u.steps[j]? = if t.low + j = p.1 then (t.steps[j]?).map (putStep f d) else t.steps[j]? := by
  obtain ⟨h1, rfl⟩ := grd_ok.1 h
  simp only [badTap, Bool.or_eq_false_iff, decide_eq_false_iff_not] at h1
  refine ⟨rfl, fun j => ?_⟩
  simp only [List.getElem?_modify, stepAt]
  have : ((p.1 - t.low).toNat = j) ↔ t.low + j = p.1 := by omega
  simp only [this]
  split <;> cases t.steps[j]? <;> rfl

theorem phase_step_written {p : Long} {f : Field} {d : Dbl} {t u : Ptc} (h : (PtcOp.setStep p f d).set t = .ok u) :
    { u with steps := t.steps } = t ∧ ∀ j : Nat, u.steps[j]? = if t.low + j = p.1 then (t.steps[j]?).map (fun s => (putStep f d s.1, s.2)) else t.steps[j]? := by
  obtain ⟨h1, rfl⟩ := grd_ok.1 h
  simp only [badTap, Bool.or_eq_false_iff, decide_eq_false_iff_not] at h1
  refine ⟨rfl, fun j => ?_⟩
  simp only [List.getElem?_modify, stepAt]
  have : ((p.1 - t.low).toNat = j) ↔ t.low + j = p.1 := by omega
  simp only [this]
  split <;> cases t.steps[j]? <;> rfl

example : ∃ u, (RtcOp.setStep ⟨0, by decide⟩ .g 9).set someRtc = .ok u ∧ u.steps = [⟨0, 0, 0, 0, 1⟩, ⟨1, 2, 9, 4, 2⟩] := ⟨_, rfl, rfl⟩

/-- A call on one object leaves the others as they are. -/
theorem other_substations {T : Type} {i : Nat} {o : SubOp} {x y : Net T} (h : (NetOp.sub i o).set x = .ok y) :
    { y with subs := x.subs } = x ∧ y.subs.length = x.subs.length ∧ ∀ j, j ≠ i → y.subs[j]? = x.subs[j]? := by
  obtain ⟨l, h1, rfl⟩ := lift_ok h
  obtain ⟨a, b, _, _, rfl⟩ := setAt_ok h1
  exact ⟨rfl, by simp, fun j hj => by simp [List.getElem?_set, Ne.symm hj]⟩

theorem other_lines {T : Type} {i : Nat} {o : AnyLineOp} {x y : Net T} (h : (NetOp.line i o).set x = .ok y) :
    { y with lines := x.lines } = x ∧ y.lines.length = x.lines.length ∧ ∀ j, j ≠ i → y.lines[j]? = x.lines[j]? := by
  obtain ⟨l, h1, rfl⟩ := lift_ok h
  obtain ⟨a, b, _, _, rfl⟩ := setAt_ok h1
  exact ⟨rfl, by simp, fun j hj => by simp [List.getElem?_set, Ne.symm hj]⟩

theorem other_generators {i : Nat} {o : GenOp} {x y : VL} (h : (VLOp.gen i o).set x = .ok y) :
    { y with equip := { y.equip with gens := x.equip.gens } } = x ∧ y.equip.gens.length = x.equip.gens.length ∧ ∀ j, j ≠ i → y.equip.gens[j]? = x.equip.gens[j]? := by
  obtain ⟨l, h1, rfl⟩ := lift_ok h
  obtain ⟨a, b, _, _, rfl⟩ := setAt_ok h1
  exact ⟨rfl, by simp, fun j hj => by simp [List.getElem?_set, Ne.symm hj]⟩

/-! ### Examples -/

example : ∃ y, (GenOp.setMaxP (.fin (-1))).put someGen = some y ∧ ¬ GenValid y ∧ (GenOp.setMaxP (.fin (-1))).set someGen = .thrown := by
  refine ⟨_, rfl, fun h => ?_, rfl⟩
  have := h.range
  revert this
  decide

example : ∃ y, (SvcOp.setRegulationMode 3).put someSvc = some y ∧ (SvcOp.setRegulationMode 3).set someSvc = .thrown := ⟨_, rfl, rfl⟩

example : ∃ y, (HvdcOp.setMaxP 5).put someHvdc = some y ∧ (HvdcOp.setMaxP 5).set someHvdc = .ok y := ⟨_, rfl, rfl⟩

end Verif.Setters
