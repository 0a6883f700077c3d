import Verif.Setters.Lemmas

/-!
C94 for the equipments of a voltage level: what a call accepts leaves them valid.
-/

namespace Verif.Setters

open Verif Verif.Xml Verif.XmlNet

/-- Whatever the call on a load, the load stays valid. -/
theorem load_stays_valid {o : LoadOp} {x y : Load} (hx : LoadValid x) (h : o.set x = .ok y) : LoadValid y := by
  cases o with
  | ident o => obtain ⟨a, h1, rfl⟩ := lift_ok h; exact { hx with ident := ident_valid hx.ident h1 }
  | term o => obtain ⟨a, h1, rfl⟩ := lift_ok h; exact { hx with place := term_valid hx.place h1 }
  | setLoadType k =>
    obtain ⟨h1, rfl⟩ := grd_ok.1 h
    exact { hx with kind := show k < 3 from Nat.not_le.1 (of_decide_eq_false h1) }
  | setP0 d => obtain ⟨h1, rfl⟩ := grd_ok.1 h; exact { hx with p0 := h1 }
  | setQ0 d => obtain ⟨h1, rfl⟩ := grd_ok.1 h; exact { hx with q0 := h1 }

/-- A generator stays valid when and only when the energy source, if that is what is set, is one. -/
theorem generator_stays_valid_iff {o : GenOp} {x y : Gen} (hx : GenValid x) (h : o.set x = .ok y) : GenValid y ↔ o.Safe := by
  have hr := Dbl.not_nan_of_le hx.range
  cases o with
  | ident o => obtain ⟨a, h1, rfl⟩ := lift_ok h; exact ⟨fun _ => trivial, fun _ => { hx with ident := ident_valid hx.ident h1 }⟩
  | term o => obtain ⟨a, h1, rfl⟩ := lift_ok h; exact ⟨fun _ => trivial, fun _ => { hx with place := term_valid hx.place h1 }⟩
  | limits o => obtain ⟨a, h1, rfl⟩ := lift_ok h; exact ⟨fun _ => trivial, fun _ => { hx with limits := reactive_valid h1 }⟩
  | setTargetP d => obtain ⟨h1, rfl⟩ := grd_ok.1 h; exact ⟨fun _ => trivial, fun _ => { hx with targetP := h1 }⟩
  | setEnergySource k =>
    simp only [GenOp.set, Out.ok.injEq] at h
    subst h
    exact ⟨fun hy => hy.source, fun hs => { hx with source := hs }⟩
  | setMaxP d => obtain ⟨h1, rfl⟩ := grd_ok.1 h; exact ⟨fun _ => trivial, fun _ => { hx with range := (maxP_valid hr.1 h1).2 }⟩
  | setMinP d => obtain ⟨h1, rfl⟩ := grd_ok.1 h; exact ⟨fun _ => trivial, fun _ => { hx with range := (minP_valid hr.2 h1).2 }⟩
  | setRatedS d => obtain ⟨h1, rfl⟩ := grd_ok.1 h; exact ⟨fun _ => trivial, fun _ => { hx with ratedS := rated_valid h1 }⟩
  | setTargetQ d => obtain ⟨h1, rfl⟩ := grd_ok.1 h; exact ⟨fun _ => trivial, fun _ => { hx with control := control_valid h1 }⟩
  | setRegulatingTerminal r s => obtain rfl := setReg_ok h; exact ⟨fun _ => trivial, fun _ => { hx with }⟩
  | setVoltageRegulatorOn b => obtain ⟨h1, rfl⟩ := grd_ok.1 h; exact ⟨fun _ => trivial, fun _ => { hx with control := control_valid h1 }⟩
  | setTargetV d => obtain ⟨h1, rfl⟩ := grd_ok.1 h; exact ⟨fun _ => trivial, fun _ => { hx with control := control_valid h1 }⟩

theorem battery_stays_valid {o : BatOp} {x y : Bat} (hx : BatValid x) (h : o.set x = .ok y) : BatValid y := by
  have hr := Dbl.not_nan_of_le hx.range
  cases o with
  | ident o => obtain ⟨a, h1, rfl⟩ := lift_ok h; exact { hx with ident := ident_valid hx.ident h1 }
  | term o => obtain ⟨a, h1, rfl⟩ := lift_ok h; exact { hx with place := term_valid hx.place h1 }
  | limits o => obtain ⟨a, h1, rfl⟩ := lift_ok h; exact { hx with limits := reactive_valid h1 }
  | setMaxP d => obtain ⟨h1, rfl⟩ := grd_ok.1 h; exact { hx with range := (maxP_valid hr.1 h1).2 }
  | setMinP d => obtain ⟨h1, rfl⟩ := grd_ok.1 h; exact { hx with range := (minP_valid hr.2 h1).2 }
  | setP0 d => obtain ⟨h1, rfl⟩ := grd_ok.1 h; exact { hx with p0 := h1 }
  | setQ0 d => obtain ⟨h1, rfl⟩ := grd_ok.1 h; exact { hx with q0 := h1 }

theorem lcc_stays_valid {o : LccOp} {x y : Lcc} (hx : LccValid x) (h : o.set x = .ok y) : LccValid y := by
  cases o with
  | ident o => obtain ⟨a, h1, rfl⟩ := lift_ok h; exact { hx with ident := ident_valid hx.ident h1 }
  | term o => obtain ⟨a, h1, rfl⟩ := lift_ok h; exact { hx with place := term_valid hx.place h1 }
  | setLossFactor d => obtain ⟨h1, rfl⟩ := grd_ok.1 h; exact { hx with loss := loss_valid h1 }
  | setPowerFactor d => obtain ⟨h1, rfl⟩ := grd_ok.1 h; exact { hx with power := power_valid h1 }

theorem vsc_stays_valid {o : VscOp} {x y : Vsc} (hx : VscValid x) (h : o.set x = .ok y) : VscValid y := by
  cases o with
  | ident o => obtain ⟨a, h1, rfl⟩ := lift_ok h; exact { hx with ident := ident_valid hx.ident h1 }
  | term o => obtain ⟨a, h1, rfl⟩ := lift_ok h; exact { hx with place := term_valid hx.place h1 }
  | limits o => obtain ⟨a, h1, rfl⟩ := lift_ok h; exact { hx with limits := reactive_valid h1 }
  | setLossFactor d => obtain ⟨h1, rfl⟩ := grd_ok.1 h; exact { hx with loss := loss_valid h1 }
  | setReactivePowerSetpoint d => obtain ⟨h1, rfl⟩ := grd_ok.1 h; exact { hx with control := control_valid h1 }
  | setVoltageRegulatorOn b => obtain ⟨h1, rfl⟩ := grd_ok.1 h; exact { hx with control := control_valid h1 }
  | setVoltageSetpoint d => obtain ⟨h1, rfl⟩ := grd_ok.1 h; exact { hx with control := control_valid h1 }

/-- What `checkSvcRegulator` accepts. -/
theorem svc_mode_valid {m : Nat} {v q : Dbl} (h : badSvc m v q = false) :
    m < Enums.staticVarCompensatorRegulationMode.enumerators.length ∧ (m = 0 → IsSet v) ∧ (m = 1 → IsSet q) := by
  unfold badSvc at h
  split at h
  · exact ⟨by decide, fun _ => h, nofun⟩
  · exact ⟨by decide, nofun, fun _ => h⟩
  · exact ⟨by decide, nofun, nofun⟩
  · cases h

theorem svc_stays_valid {o : SvcOp} {x y : Svc} (hx : SvcValid x) (h : o.set x = .ok y) : SvcValid y := by
  cases o with
  | ident o => obtain ⟨a, h1, rfl⟩ := lift_ok h; exact { hx with ident := ident_valid hx.ident h1 }
  | term o => obtain ⟨a, h1, rfl⟩ := lift_ok h; exact { hx with place := term_valid hx.place h1 }
  | setBmax d => obtain ⟨h1, rfl⟩ := grd_ok.1 h; exact { hx with bMax := h1 }
  | setBmin d => obtain ⟨h1, rfl⟩ := grd_ok.1 h; exact { hx with bMin := h1 }
  | setReactivePowerSetpoint d => obtain ⟨h1, rfl⟩ := grd_ok.1 h; exact { hx with voltage := (svc_mode_valid h1).2.1, reactive := (svc_mode_valid h1).2.2 }
  | setRegulatingTerminal r s => obtain rfl := setReg_ok h; exact { hx with }
  | setRegulationMode m =>
    obtain ⟨h1, rfl⟩ := grd_ok.1 h
    exact { hx with mode := (svc_mode_valid h1).1, voltage := (svc_mode_valid h1).2.1, reactive := (svc_mode_valid h1).2.2 }
  | setVoltageSetpoint d => obtain ⟨h1, rfl⟩ := grd_ok.1 h; exact { hx with voltage := (svc_mode_valid h1).2.1, reactive := (svc_mode_valid h1).2.2 }

theorem sections_valid {c m : Nat} (h : badSections c m = false) : 0 < m ∧ c ≤ m := by
  simp only [badSections, Bool.or_eq_false_iff, beq_eq_false_iff_ne, decide_eq_false_iff_not] at h
  omega

theorem shunt_stays_valid {o : ShOp} {x y : Sh} (hx : ShValid x) (h : o.set x = .ok y) : ShValid y := by
  cases o with
  | ident o => obtain ⟨a, h1, rfl⟩ := lift_ok h; exact { hx with ident := ident_valid hx.ident h1 }
  | term o => obtain ⟨a, h1, rfl⟩ := lift_ok h; exact { hx with place := shTerm_valid hx.place h1 }
  | setRegulatingTerminal r s => obtain rfl := setReg_ok h; exact { hx with }
  | setSectionCount n => obtain ⟨h1, rfl⟩ := grd_ok.1 h; exact { hx with sections := sections_valid h1 }
  | setTargetDeadband d => obtain ⟨h1, rfl⟩ := grd_ok.1 h; exact { hx with deadband := deadband_valid h1 }
  | setTargetV d => obtain ⟨h1, rfl⟩ := grd_ok.1 h; exact { hx with target := target_valid h1 }
  | setVoltageRegulatorOn b =>
    obtain ⟨h1, rfl⟩ := grd_ok.1 h
    rw [Bool.or_eq_false_iff] at h1
    exact { hx with target := target_valid h1.1, deadband := deadband_valid h1.2 }
  | setBPerSection d =>
    obtain ⟨i, m, per, term, reg⟩ := x
    cases m with
    | linear b g m => obtain ⟨h1, rfl⟩ := grd_ok.1 h; exact ⟨hx.ident, hx.place, hx.sections, h1, hx.target, hx.deadband⟩
    | nonLinear ss => cases h
  | setGPerSection d =>
    obtain ⟨i, m, per, term, reg⟩ := x
    cases m with
    | linear b g m =>
      simp only [ShOp.set, Out.ok.injEq] at h
      subst h
      exact ⟨hx.ident, hx.place, hx.sections, hx.values, hx.target, hx.deadband⟩
    | nonLinear ss => cases h
  | setMaximumSectionCount n =>
    obtain ⟨i, m, per, term, reg⟩ := x
    cases m with
    | linear b g m => obtain ⟨h1, rfl⟩ := grd_ok.1 h; exact ⟨hx.ident, hx.place, sections_valid h1, hx.values, hx.target, hx.deadband⟩
    | nonLinear ss => cases h
  | setSectionB k d =>
    obtain ⟨i, m, per, term, reg⟩ := x
    cases m with
    | linear b g m => cases h
    | nonLinear ss =>
      obtain ⟨h1, rfl⟩ := grd_ok.1 h
      rw [Bool.or_eq_false_iff] at h1
      have hv : ∀ s ∈ ss, IsSet s.b ∧ IsSet s.g := hx.values
      refine ⟨hx.ident, hx.place, ?_, ?_, hx.target, hx.deadband⟩
      · have := hx.sections
        simpa [Shunt.Model.maximum] using this
      · intro s hs
        rcases mem_modify hs with hs | ⟨z, hz, rfl⟩
        · exact hv s hs
        · exact ⟨h1.1, (hv z hz).2⟩
  | setSectionG k d =>
    obtain ⟨i, m, per, term, reg⟩ := x
    cases m with
    | linear b g m => cases h
    | nonLinear ss =>
      obtain ⟨h1, rfl⟩ := grd_ok.1 h
      rw [Bool.or_eq_false_iff] at h1
      have hv : ∀ s ∈ ss, IsSet s.b ∧ IsSet s.g := hx.values
      refine ⟨hx.ident, hx.place, ?_, ?_, hx.target, hx.deadband⟩
      · have := hx.sections
        simpa [Shunt.Model.maximum] using this
      · intro s hs
        rcases mem_modify hs with hs | ⟨z, hz, rfl⟩
        · exact hv s hs
        · exact ⟨(hv z hz).1, h1.1⟩

theorem generation_stays_valid {o : DlGenOp} {x y : DlGen} (hx : DlGenValid x) (h : o.set x = .ok y) : DlGenValid y := by
  cases o with
  | limits o => obtain ⟨a, h1, rfl⟩ := lift_ok h; exact { hx with limits := reactive_valid h1 }
  | setMaxP d =>
    obtain ⟨h1, rfl⟩ := grd_ok.1 h
    have := maxP_valid hx.bounds.1 h1
    exact { hx with range := .inl this.2, bounds := ⟨hx.bounds.1, this.1⟩ }
  | setMinP d =>
    obtain ⟨h1, rfl⟩ := grd_ok.1 h
    have := minP_valid hx.bounds.2 h1
    exact { hx with range := .inl this.2, bounds := ⟨this.1, hx.bounds.2⟩ }
  | setTargetP d => obtain ⟨h1, rfl⟩ := grd_ok.1 h; exact { hx with targetP := h1 }
  | setTargetQ d => obtain ⟨h1, rfl⟩ := grd_ok.1 h; exact { hx with control := control_valid h1 }
  | setTargetV d => obtain ⟨h1, rfl⟩ := grd_ok.1 h; exact { hx with control := control_valid h1 }
  | setVoltageRegulationOn b => obtain ⟨h1, rfl⟩ := grd_ok.1 h; exact { hx with control := control_valid h1 }

theorem dangling_stays_valid {o : DlOp} {x y : Dl} (hx : DlValid x) (h : o.set x = .ok y) : DlValid y := by
  obtain ⟨v1, v2, v3, v4, v5, v6⟩ := hx.values
  cases o with
  | ident o => obtain ⟨a, h1, rfl⟩ := lift_ok h; exact { hx with ident := ident_valid hx.ident h1 }
  | term o => obtain ⟨a, h1, rfl⟩ := lift_ok h; exact { hx with place := term_valid hx.place h1 }
  | lims o => obtain ⟨a, h1, rfl⟩ := lift_ok h; exact { hx with lims := lims_valid hx.lims h1 }
  | gen o =>
    simp only [DlOp.set] at h
    split at h
    · cases h
    · rename_i g hg
      obtain ⟨z, h1, rfl⟩ := lift_ok h
      exact { hx with gen := fun w hw => by cases hw; exact generation_stays_valid (hx.gen g hg) h1 }
  | setB d => obtain ⟨h1, rfl⟩ := grd_ok.1 h; exact { hx with values := ⟨v1, v2, v3, v4, v5, h1⟩ }
  | setG d => obtain ⟨h1, rfl⟩ := grd_ok.1 h; exact { hx with values := ⟨v1, v2, v3, v4, h1, v6⟩ }
  | setP0 d => obtain ⟨h1, rfl⟩ := grd_ok.1 h; exact { hx with values := ⟨h1, v2, v3, v4, v5, v6⟩ }
  | setQ0 d => obtain ⟨h1, rfl⟩ := grd_ok.1 h; exact { hx with values := ⟨v1, h1, v3, v4, v5, v6⟩ }
  | setR d => obtain ⟨h1, rfl⟩ := grd_ok.1 h; exact { hx with values := ⟨v1, v2, h1, v4, v5, v6⟩ }
  | setX d => obtain ⟨h1, rfl⟩ := grd_ok.1 h; exact { hx with values := ⟨v1, v2, v3, h1, v5, v6⟩ }

/-! ### Lines -/

theorem charac_stays_valid {o : CharacOp} {x y : Charac} (hx : CharacValid x) (h : o.set x = .ok y) : CharacValid y := by
  obtain ⟨v1, v2, v3, v4, v5, v6⟩ := hx
  cases o with
  | setR d => obtain ⟨h1, rfl⟩ := grd_ok.1 h; exact ⟨h1, v2, v3, v4, v5, v6⟩
  | setX d => obtain ⟨h1, rfl⟩ := grd_ok.1 h; exact ⟨v1, h1, v3, v4, v5, v6⟩
  | setG1 d => obtain ⟨h1, rfl⟩ := grd_ok.1 h; exact ⟨v1, v2, h1, v4, v5, v6⟩
  | setB1 d => obtain ⟨h1, rfl⟩ := grd_ok.1 h; exact ⟨v1, v2, v3, h1, v5, v6⟩
  | setG2 d => obtain ⟨h1, rfl⟩ := grd_ok.1 h; exact ⟨v1, v2, v3, v4, h1, v6⟩
  | setB2 d => obtain ⟨h1, rfl⟩ := grd_ok.1 h; exact ⟨v1, v2, v3, v4, v5, h1⟩

theorem line_stays_valid {o : LineOp} {x y : Line} (hx : LineValid x) (h : o.set x = .ok y) : LineValid y := by
  cases o with
  | ident o => obtain ⟨a, h1, rfl⟩ := lift_ok h; exact { hx with ident := ident_valid hx.ident h1 }
  | term b o =>
    cases b with
    | one => obtain ⟨a, h1, rfl⟩ := lift_ok h; exact { hx with places := ⟨side_valid hx.places.1 h1, hx.places.2⟩ }
    | two => obtain ⟨a, h1, rfl⟩ := lift_ok h; exact { hx with places := ⟨hx.places.1, side_valid hx.places.2 h1⟩ }
  | lims b o => obtain ⟨a, h1, rfl⟩ := lift_ok h; exact { hx with lims := branchLims_valid hx.lims h1 }
  | z o => obtain ⟨a, h1, rfl⟩ := lift_ok h; exact { hx with z := charac_stays_valid hx.z h1 }

theorem half_stays_valid {o : HalfOp} {x y : Half} (hx : HalfValid x) (h : o.set x = .ok y) : HalfValid y := by
  cases o with
  | setFictitious b => simp only [HalfOp.set, Out.ok.injEq] at h; subst h; exact { hx with }
  | z o => obtain ⟨a, h1, rfl⟩ := lift_ok h; exact { hx with z := charac_stays_valid hx.z h1 }

theorem tie_stays_valid {o : TieOp} {x y : TieLine} (hx : TieValid x) (h : o.set x = .ok y) : TieValid y := by
  cases o with
  | ident o => obtain ⟨a, h1, rfl⟩ := lift_ok h; exact { hx with ident := ident_valid hx.ident h1 }
  | term b o =>
    cases b with
    | one => obtain ⟨a, h1, rfl⟩ := lift_ok h; exact { hx with places := ⟨side_valid hx.places.1 h1, hx.places.2⟩ }
    | two => obtain ⟨a, h1, rfl⟩ := lift_ok h; exact { hx with places := ⟨hx.places.1, side_valid hx.places.2 h1⟩ }
  | lims b o => obtain ⟨a, h1, rfl⟩ := lift_ok h; exact { hx with lims := branchLims_valid hx.lims h1 }
  | z o => cases h
  | half b o =>
    cases b with
    | one => obtain ⟨a, h1, rfl⟩ := lift_ok h; exact { hx with halves := ⟨half_stays_valid hx.halves.1 h1, hx.halves.2⟩ }
    | two => obtain ⟨a, h1, rfl⟩ := lift_ok h; exact { hx with halves := ⟨hx.halves.1, half_stays_valid hx.halves.2 h1⟩ }

theorem hvdc_stays_valid {o : HvdcOp} {x y : HvdcLine} (hx : HvdcValid x) (h : o.set x = .ok y) : HvdcValid y := by
  cases o with
  | ident o => obtain ⟨a, h1, rfl⟩ := lift_ok h; exact { hx with ident := ident_valid hx.ident h1 }
  | setActivePowerSetpoint d => obtain ⟨h1, rfl⟩ := grd_ok.1 h; exact { hx with setpoint := positive_valid h1 }
  | setConvertersMode m =>
    obtain ⟨h1, rfl⟩ := grd_ok.1 h
    exact { hx with mode := show m < 2 from Nat.not_le.1 (of_decide_eq_false h1) }
  | setMaxP d => obtain ⟨h1, rfl⟩ := grd_ok.1 h; exact { hx with maxP := positive_valid h1 }
  | setNominalV d => obtain ⟨h1, rfl⟩ := grd_ok.1 h; exact { hx with nominalV := nominal_valid h1 }
  | setR d => obtain ⟨h1, rfl⟩ := grd_ok.1 h; exact { hx with r := h1 }

end Verif.Setters
