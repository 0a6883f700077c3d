import Verif.ReadBack.Lemmas

/-!
The conditions under which the document of an object is read back, for injections, branches, transformers, voltage levels and substations.
-/

namespace Verif.ReadBack

open Verif Verif.Xml Verif.XmlNet

section
variable {K : XCodec}

theorem refFits_none : RefFits none := by intro r h; cases h

theorem load_kinds : Enums.loadType.names.length = Enums.loadType.enumerators.length := by decide +kernel
theorem energy_sources : Enums.energySource.names.length = Enums.energySource.enumerators.length := by decide +kernel
theorem svc_modes : Enums.staticVarCompensatorRegulationMode.names.length = Enums.staticVarCompensatorRegulationMode.enumerators.length := by decide +kernel
theorem hvdc_modes : Enums.hvdcLineConvertersMode.names.length = Enums.hvdcLineConvertersMode.enumerators.length := by decide +kernel
theorem phase_modes : Enums.phaseTapChangerRegulationMode.names.length = Enums.phaseTapChangerRegulationMode.enumerators.length := by decide +kernel
theorem switch_kinds : Enums.switchKind.names.length = Enums.switchKind.enumerators.length := by decide +kernel
theorem countries : Enums.country.names.length = Enums.country.enumerators.length := by decide +kernel

/-! ### Injections -/

theorem load_iff {x : Load} : LoadOk K .none x ↔ LoadValid x ∧ InjectionFits x.ident x.term none ∧ Kept K (loadNumbers x) := by
  simp only [loadNumbers, kept_append, kept_cons]
  constructor
  · intro h
    obtain ⟨i1, i2⟩ := ident_iff.1 h.ident
    obtain ⟨t1, t2, t3⟩ := term_iff.1 h.term
    exact ⟨⟨i1, t1, load_kinds ▸ h.kind, h.p0.1, h.q0.1⟩, ⟨i2, t2, refFits_none⟩, ⟨h.p0.2, h.q0.2, kept_nil⟩, t3⟩
  · rintro ⟨v, f, ⟨k1, k2, _⟩, t3⟩
    exact ⟨ident_iff.2 ⟨v.ident, f.ident⟩, load_kinds ▸ v.kind, ⟨v.p0, k1⟩, ⟨v.q0, k2⟩, term_iff.2 ⟨v.place, f.place, t3⟩⟩

theorem gen_iff {x : Gen} : GenOk K .none x ↔ GenValid x ∧ InjectionFits x.ident x.term x.reg ∧ Kept K (genNumbers x) := by
  simp only [genNumbers, kept_append, kept_cons]
  constructor
  · intro h
    obtain ⟨i1, i2⟩ := ident_iff.1 h.ident
    obtain ⟨t1, t2, t3⟩ := term_iff.1 h.term
    obtain ⟨r1, r2⟩ := reactive_iff.1 h.limits
    exact ⟨⟨i1, t1, energy_sources ▸ h.source, range_iff.1 ⟨h.minP.1, h.maxP.1, h.range⟩, h.targetP.1, h.control, rated_iff.1 h.ratedS.1, r1⟩, ⟨i2, t2, ref_iff.1 h.reg⟩,
      ⟨⟨h.minP.2, h.maxP.2, h.ratedS.2, h.targetP.2, h.targets.1, h.targets.2, kept_nil⟩, t3⟩, r2⟩
  · rintro ⟨v, f, ⟨⟨k1, k2, k3, k4, k5, k6, _⟩, t3⟩, r2⟩
    obtain ⟨a, b, c⟩ := range_iff.2 v.range
    exact ⟨ident_iff.2 ⟨v.ident, f.ident⟩, energy_sources ▸ v.source, ⟨a, k1⟩, ⟨b, k2⟩, c, ⟨rated_iff.2 v.ratedS, k3⟩, ⟨v.targetP, k4⟩, v.control, ⟨k5, k6⟩,
      term_iff.2 ⟨v.place, f.place, t3⟩, ref_iff.2 f.reg, reactive_iff.2 ⟨v.limits, r2⟩⟩

theorem bat_iff {x : Bat} : BatOk K .none x ↔ BatValid x ∧ InjectionFits x.ident x.term none ∧ Kept K (batNumbers x) := by
  simp only [batNumbers, kept_append, kept_cons]
  constructor
  · intro h
    obtain ⟨i1, i2⟩ := ident_iff.1 h.ident
    obtain ⟨t1, t2, t3⟩ := term_iff.1 h.term
    obtain ⟨r1, r2⟩ := reactive_iff.1 h.limits
    exact ⟨⟨i1, t1, h.p0.1, h.q0.1, range_iff.1 ⟨h.minP.1, h.maxP.1, h.range⟩, r1⟩, ⟨i2, t2, refFits_none⟩, ⟨⟨h.p0.2, h.q0.2, h.minP.2, h.maxP.2, kept_nil⟩, t3⟩, r2⟩
  · rintro ⟨v, f, ⟨⟨k1, k2, k3, k4, _⟩, t3⟩, r2⟩
    obtain ⟨a, b, c⟩ := range_iff.2 v.range
    exact ⟨ident_iff.2 ⟨v.ident, f.ident⟩, ⟨v.p0, k1⟩, ⟨v.q0, k2⟩, ⟨a, k3⟩, ⟨b, k4⟩, c, term_iff.2 ⟨v.place, f.place, t3⟩, reactive_iff.2 ⟨v.limits, r2⟩⟩

theorem lcc_iff {x : Lcc} : LccOk K .none x ↔ LccValid x ∧ InjectionFits x.ident x.term none ∧ Kept K (lccNumbers x) := by
  simp only [lccNumbers, kept_append, kept_cons]
  constructor
  · intro h
    obtain ⟨i1, i2⟩ := ident_iff.1 h.ident
    obtain ⟨t1, t2, t3⟩ := term_iff.1 h.term
    exact ⟨⟨i1, t1, h.lossFactor.1, h.powerFactor.1⟩, ⟨i2, t2, refFits_none⟩, ⟨h.lossFactor.2, h.powerFactor.2, kept_nil⟩, t3⟩
  · rintro ⟨v, f, ⟨k1, k2, _⟩, t3⟩
    exact ⟨ident_iff.2 ⟨v.ident, f.ident⟩, ⟨v.loss, k1⟩, ⟨v.power, k2⟩, term_iff.2 ⟨v.place, f.place, t3⟩⟩

theorem vsc_iff {x : Vsc} : VscOk K .none x ↔ VscValid x ∧ InjectionFits x.ident x.term none ∧ Kept K (vscNumbers x) := by
  simp only [vscNumbers, kept_append, kept_cons]
  constructor
  · intro h
    obtain ⟨i1, i2⟩ := ident_iff.1 h.ident
    obtain ⟨t1, t2, t3⟩ := term_iff.1 h.term
    obtain ⟨r1, r2⟩ := reactive_iff.1 h.limits
    exact ⟨⟨i1, t1, h.lossFactor.1, h.control, r1⟩, ⟨i2, t2, refFits_none⟩, ⟨⟨h.lossFactor.2, h.setpoints.1, h.setpoints.2, kept_nil⟩, t3⟩, r2⟩
  · rintro ⟨v, f, ⟨⟨k1, k2, k3, _⟩, t3⟩, r2⟩
    exact ⟨ident_iff.2 ⟨v.ident, f.ident⟩, ⟨v.loss, k1⟩, v.control, ⟨k2, k3⟩, term_iff.2 ⟨v.place, f.place, t3⟩, reactive_iff.2 ⟨v.limits, r2⟩⟩

theorem svc_iff {x : Svc} : SvcOk K .none x ↔ SvcValid x ∧ InjectionFits x.ident x.term x.reg ∧ Kept K (svcNumbers x) := by
  simp only [svcNumbers, kept_append, kept_cons]
  constructor
  · intro h
    obtain ⟨i1, i2⟩ := ident_iff.1 h.ident
    obtain ⟨t1, t2, t3⟩ := term_iff.1 h.term
    exact ⟨⟨i1, t1, svc_modes ▸ h.mode, h.bMin.1, h.bMax.1, h.voltage.1, h.reactive.1⟩, ⟨i2, t2, ref_iff.1 h.reg⟩,
      ⟨h.bMin.2, h.bMax.2, h.voltage.2, h.reactive.2, kept_nil⟩, t3⟩
  · rintro ⟨v, f, ⟨k1, k2, k3, k4, _⟩, t3⟩
    exact ⟨ident_iff.2 ⟨v.ident, f.ident⟩, ⟨v.bMin, k1⟩, ⟨v.bMax, k2⟩, svc_modes ▸ v.mode, ⟨v.voltage, k3⟩, ⟨v.reactive, k4⟩, term_iff.2 ⟨v.place, f.place, t3⟩,
      ref_iff.2 f.reg⟩

theorem sh_iff {x : Sh} : ShOk K .none x ↔ ShValid x ∧ ShFits x ∧ Kept K (shNumbers x) := by
  obtain ⟨ident, model, per, term, reg⟩ := x
  simp only [shNumbers, kept_append, kept_cons]
  constructor
  · intro h
    obtain ⟨i1, i2⟩ := ident_iff.1 h.ident
    obtain ⟨t1, t2, t3⟩ := term_iff.1 h.term
    have hm := h.wf.model
    have he := h.exact.model
    refine ⟨⟨i1, t1, ⟨?_, h.wf.count.1⟩, ?_, h.wf.targetV, h.wf.deadband.2, h.wf.deadband.1⟩, ⟨⟨i2, t2, ref_iff.1 h.reg⟩, h.wf.count.2, ?_⟩,
      ⟨?_, h.exact.targetV, h.exact.deadband, kept_nil⟩, t3⟩
    · cases model with
      | linear b g m => exact hm.2.1
      | nonLinear ss => exact List.length_pos_iff.2 hm.1
    · cases model with
      | linear b g m => exact hm.1
      | nonLinear ss => exact hm.2
    · rintro b g m rfl; exact hm.2.2
    · cases model with
      | linear b g m => simp only [modelNumbers, kept_cons]; exact ⟨exact_keeps he.1, he.2, kept_nil⟩
      | nonLinear ss => simp only [modelNumbers, kept_flatMap, kept_cons]; exact fun s hs => ⟨exact_keeps (he s hs).1, exact_keeps (he s hs).2, kept_nil⟩
  · rintro ⟨v, f, ⟨hk, k1, k2, _⟩, t3⟩
    have hs := v.sections.1
    have hv := v.values
    refine ⟨ident_iff.2 ⟨v.ident, f.common.ident⟩, ⟨?_, ⟨v.sections.2, f.count⟩, v.target, v.deadband.2, v.deadband.1⟩, ⟨?_, k1, k2⟩, term_iff.2 ⟨v.place, f.common.place, t3⟩,
      ref_iff.2 f.common.reg⟩
    · cases model with
      | linear b g m => exact ⟨hv, hs, f.maximum b g m rfl⟩
      | nonLinear ss => exact ⟨List.ne_nil_of_length_pos hs, hv⟩
    · cases model with
      | linear b g m => simp only [modelNumbers, kept_cons] at hk; exact ⟨hk.1 hv, hk.2.1⟩
      | nonLinear ss => simp only [modelNumbers, kept_flatMap, kept_cons] at hk; exact fun s hs => ⟨(hk s hs).1 (hv s hs).1, (hk s hs).2.1 (hv s hs).2⟩

theorem dlGen_iff {x : DlGen} : DlGenOk K x ↔ DlGenValid x ∧ Dbl.lt x.maxP x.minP = false ∧ Kept K (dlGenNumbers x) := by
  simp only [dlGenNumbers, kept_append, kept_cons]
  constructor
  · intro h
    obtain ⟨r1, r2⟩ := reactive_iff.1 h.limits
    exact ⟨⟨.inl (range_iff.1 ⟨h.minP.1, h.maxP.1, h.range⟩), ⟨h.minP.1, h.maxP.1⟩, h.targetP.1, h.control, r1⟩, h.range,
      ⟨h.minP.2, h.maxP.2, h.targetP.2, h.targets.1, h.targets.2, kept_nil⟩, r2⟩
  · rintro ⟨v, f, ⟨k1, k2, k3, k4, k5, _⟩, r2⟩
    exact ⟨⟨v.bounds.1, k1⟩, ⟨v.bounds.2, k2⟩, f, ⟨v.targetP, k3⟩, v.control, ⟨k4, k5⟩, reactive_iff.2 ⟨v.limits, r2⟩⟩

theorem dl_iff {x : Dl} : DlOk K .none x ↔ DlValid x ∧ DlFits x ∧ Kept K (dlNumbers x) := by
  simp only [dlNumbers, kept_append, kept_cons, kept_option]
  constructor
  · intro h
    obtain ⟨i1, i2⟩ := ident_iff.1 h.ident
    obtain ⟨t1, t2, t3⟩ := term_iff.1 h.term
    obtain ⟨l1, l2, l3⟩ := lims_iff.1 (⟨h.active, h.apparent, h.current⟩ : LimsOk K ⟨x.active, x.apparent, x.current⟩)
    exact ⟨⟨i1, t1, ⟨h.p0.1, h.q0.1, h.r.1, h.x.1, h.g.1, h.b.1⟩, fun z hz => (dlGen_iff.1 (h.gen z hz)).1, l1⟩,
      ⟨⟨i2, t2, refFits_none⟩, fun z hz => (dlGen_iff.1 (h.gen z hz)).2.1, l2⟩,
      ⟨⟨⟨h.p0.2, h.q0.2, h.r.2, h.x.2, h.g.2, h.b.2, kept_nil⟩, fun z hz => (dlGen_iff.1 (h.gen z hz)).2.2⟩, t3⟩, l3⟩
  · rintro ⟨v, f, ⟨⟨⟨k1, k2, k3, k4, k5, k6, _⟩, kg⟩, t3⟩, l3⟩
    obtain ⟨a, b, c⟩ := lims_iff.2 ⟨v.lims, f.lims, l3⟩
    obtain ⟨v1, v2, v3, v4, v5, v6⟩ := v.values
    exact ⟨ident_iff.2 ⟨v.ident, f.common.ident⟩, ⟨v1, k1⟩, ⟨v2, k2⟩, ⟨v3, k3⟩, ⟨v4, k4⟩, ⟨v5, k5⟩, ⟨v6, k6⟩, fun z hz => dlGen_iff.2 ⟨v.gen z hz, f.range z hz, kg z hz⟩,
      term_iff.2 ⟨v.place, f.common.place, t3⟩, a, b, c⟩

/-! ### Branches and transformers -/

theorem charac_iff {z : Charac} : CharacOk K z ↔ CharacValid z ∧ Kept K (characNumbers z) := by
  simp only [characNumbers, kept_cons]
  constructor
  · intro h
    exact ⟨⟨h.r.1, h.x.1, h.g1.1, h.b1.1, h.g2.1, h.b2.1⟩, h.r.2, h.x.2, h.g1.2, h.b1.2, h.g2.2, h.b2.2, kept_nil⟩
  · rintro ⟨⟨v1, v2, v3, v4, v5, v6⟩, k1, k2, k3, k4, k5, k6, _⟩
    exact ⟨⟨v1, k1⟩, ⟨v2, k2⟩, ⟨v3, k3⟩, ⟨v4, k4⟩, ⟨v5, k5⟩, ⟨v6, k6⟩⟩

theorem half_iff {x : Half} : HalfOk K .none x ↔ HalfValid x ∧ Kept K (characNumbers x.z) :=
  ⟨fun h => ⟨⟨h.id.2, h.name.2, (charac_iff.1 h.z).1⟩, (charac_iff.1 h.z).2⟩,
    fun h => ⟨⟨none_inverts _, h.1.id⟩, ⟨none_inverts _, h.1.name⟩, charac_iff.2 ⟨h.1.z, h.2⟩⟩⟩

theorem anyLine_iff {x : AnyLine} : AnyLineOk K .none x ↔ AnyLineValid x ∧ AnyLineFits x ∧ Kept K (anyLineNumbers x) := by
  cases x with
  | line x =>
    simp only [anyLineNumbers, kept_append, AnyLineOk, AnyLineValid, AnyLineFits]
    constructor
    · intro h
      obtain ⟨i1, i2⟩ := ident_iff.1 h.ident
      obtain ⟨s1, s2, s3⟩ := side_iff.1 h.side1
      obtain ⟨t1, t2, t3⟩ := side_iff.1 h.side2
      obtain ⟨l1, l2, l3⟩ := lims_iff.1 h.one
      obtain ⟨m1, m2, m3⟩ := lims_iff.1 h.two
      obtain ⟨z1, z2⟩ := charac_iff.1 h.z
      exact ⟨⟨i1, ⟨s1, t1⟩, z1, l1, m1⟩, ⟨i2, ⟨s2, t2⟩, l2, m2⟩, ⟨⟨⟨z2, s3⟩, t3⟩, l3⟩, m3⟩
    · rintro ⟨v, ⟨i2, ⟨s2, t2⟩, l2, m2⟩, ⟨⟨⟨z2, s3⟩, t3⟩, l3⟩, m3⟩
      exact ⟨ident_iff.2 ⟨v.ident, i2⟩, charac_iff.2 ⟨v.z, z2⟩, side_iff.2 ⟨v.places.1, s2, s3⟩, side_iff.2 ⟨v.places.2, t2, t3⟩, lims_iff.2 ⟨v.lims.1, l2, l3⟩,
        lims_iff.2 ⟨v.lims.2, m2, m3⟩⟩
  | tie x =>
    simp only [anyLineNumbers, kept_append, AnyLineOk, AnyLineValid, AnyLineFits]
    constructor
    · intro h
      obtain ⟨i1, i2⟩ := ident_iff.1 h.ident
      obtain ⟨s1, s2, s3⟩ := side_iff.1 h.side1
      obtain ⟨t1, t2, t3⟩ := side_iff.1 h.side2
      obtain ⟨l1, l2, l3⟩ := lims_iff.1 h.one
      obtain ⟨m1, m2, m3⟩ := lims_iff.1 h.two
      obtain ⟨z1, z2⟩ := half_iff.1 h.half1
      obtain ⟨y1, y2⟩ := half_iff.1 h.half2
      exact ⟨⟨i1, ⟨s1, t1⟩, h.ucte, ⟨z1, y1⟩, l1, m1⟩, ⟨i2, ⟨s2, t2⟩, l2, m2⟩, ⟨⟨⟨⟨z2, y2⟩, s3⟩, t3⟩, l3⟩, m3⟩
    · rintro ⟨v, ⟨i2, ⟨s2, t2⟩, l2, m2⟩, ⟨⟨⟨⟨z2, y2⟩, s3⟩, t3⟩, l3⟩, m3⟩
      exact ⟨ident_iff.2 ⟨v.ident, i2⟩, none_keeps, v.ucte, half_iff.2 ⟨v.halves.1, z2⟩, half_iff.2 ⟨v.halves.2, y2⟩, side_iff.2 ⟨v.places.1, s2, s3⟩,
        side_iff.2 ⟨v.places.2, t2, t3⟩, lims_iff.2 ⟨v.lims.1, l2, l3⟩, lims_iff.2 ⟨v.lims.2, m2, m3⟩⟩

theorem hvdc_iff {x : HvdcLine} : HvdcOk K .none x ↔ HvdcValid x ∧ IdentFits x.ident ∧ Kept K (hvdcNumbers x) := by
  simp only [hvdcNumbers, kept_cons]
  constructor
  · intro h
    obtain ⟨i1, i2⟩ := ident_iff.1 h.ident
    exact ⟨⟨i1, hvdc_modes ▸ h.mode, h.r.1, h.nominalV.1, h.setpoint.1, h.maxP.1, h.station1, h.station2⟩, i2, h.r.2, h.nominalV.2, h.setpoint.2, h.maxP.2, kept_nil⟩
  · rintro ⟨v, f, k1, k2, k3, k4, _⟩
    exact ⟨ident_iff.2 ⟨v.ident, f⟩, ⟨v.r, k1⟩, ⟨v.nominalV, k2⟩, hvdc_modes ▸ v.mode, ⟨v.setpoint, k3⟩, ⟨v.maxP, k4⟩, v.stations.1, v.stations.2⟩

theorem step_iff {x : Step} : StepOk K x ↔ StepValid x ∧ Kept K (stepNumbers x) := by
  simp only [stepNumbers, kept_cons]
  constructor
  · intro h; exact ⟨⟨h.r.1, h.x.1, h.g.1, h.b.1, h.rho.1⟩, h.r.2, h.x.2, h.g.2, h.b.2, h.rho.2, kept_nil⟩
  · rintro ⟨⟨v1, v2, v3, v4, v5⟩, k1, k2, k3, k4, k5, _⟩
    exact ⟨⟨v1, k1⟩, ⟨v2, k2⟩, ⟨v3, k3⟩, ⟨v4, k4⟩, ⟨v5, k5⟩⟩

theorem taps_iff {low tap : Int} {n : Nat} {on : Bool} {d : Dbl} : TapsOk K low tap n on d ↔ TapsValid low tap n on d ∧ TapsFit low n ∧ K.Keeps d := by
  constructor
  · intro h
    refine ⟨⟨?_, fun _ _ => h.inside, h.deadband.1, h.regulating⟩, ⟨h.first, h.last⟩, h.deadband.2⟩
    have := h.inside
    omega
  · rintro ⟨v, f, k⟩
    exact ⟨f.first, f.last, v.inside f.first f.last, ⟨v.deadband, k⟩, v.regulating⟩

theorem rtc_iff {x : Rtc} : RtcOk K .none x ↔ RtcValid x ∧ (TapsFit x.low x.steps.length ∧ RefFits x.reg) ∧ Kept K (rtcNumbers x) := by
  simp only [rtcNumbers, kept_append, kept_cons, kept_flatMap]
  constructor
  · intro h
    obtain ⟨t1, t2, t3⟩ := taps_iff.1 h.taps
    exact ⟨⟨t1, fun ho => ⟨h.terminal ho, h.target ho⟩, fun y hy => (step_iff.1 (h.steps y hy)).1⟩, ⟨t2, ref_iff.1 h.reg⟩, ⟨t3, h.targetV, kept_nil⟩,
      fun y hy => (step_iff.1 (h.steps y hy)).2⟩
  · rintro ⟨v, ⟨f1, f2⟩, ⟨k1, k2, _⟩, ks⟩
    exact ⟨taps_iff.2 ⟨v.taps, f1, k1⟩, k2, fun ho => (v.regulating ho).2, fun ho => (v.regulating ho).1, ref_iff.2 f2, fun y hy => step_iff.2 ⟨v.steps y hy, ks y hy⟩⟩

theorem ptc_iff {x : Ptc} : PtcOk K .none x ↔ PtcValid x ∧ (TapsFit x.low x.steps.length ∧ RefFits x.reg) ∧ Kept K (ptcNumbers x) := by
  simp only [ptcNumbers, kept_append, kept_cons, kept_flatMap]
  constructor
  · intro h
    obtain ⟨t1, t2, t3⟩ := taps_iff.1 h.taps
    exact ⟨⟨phase_modes ▸ h.mode, t1, fun ho => ⟨(h.control ho).2.2, (h.control ho).2.1, (h.control ho).1⟩, fun y hy => ⟨(step_iff.1 (h.steps y hy).1).1, (h.steps y hy).2.1⟩⟩,
      ⟨t2, ref_iff.1 h.reg⟩, ⟨t3, h.value, kept_nil⟩, fun y hy => ⟨(h.steps y hy).2.2, (step_iff.1 (h.steps y hy).1).2⟩⟩
  · rintro ⟨v, ⟨f1, f2⟩, ⟨k1, k2, _⟩, ks⟩
    exact ⟨phase_modes ▸ v.mode, taps_iff.2 ⟨v.taps, f1, k1⟩, k2, fun ho => ⟨(v.regulating ho).2.2, (v.regulating ho).2.1, (v.regulating ho).1⟩, ref_iff.2 f2,
      fun y hy => ⟨step_iff.2 ⟨(v.steps y hy).1, (ks y hy).2⟩, (v.steps y hy).2, (ks y hy).1⟩⟩

theorem winding_iff {r : Option Rtc} {p : Option Ptc} : (RtcsOk K .none r ∧ PtcsOk K .none p) ↔
    ((∀ t, r = some t → RtcValid t) ∧ ∀ t, p = some t → PtcValid t) ∧ WindingFits r p ∧ Kept K (windingNumbers r p) := by
  simp only [windingNumbers, kept_append, kept_option]
  constructor
  · rintro ⟨h, g⟩
    exact ⟨⟨fun t ht => (rtc_iff.1 (h t ht)).1, fun t ht => (ptc_iff.1 (g t ht)).1⟩, ⟨fun t ht => (rtc_iff.1 (h t ht)).2.1, fun t ht => (ptc_iff.1 (g t ht)).2.1⟩,
      fun t ht => (rtc_iff.1 (h t ht)).2.2, fun t ht => (ptc_iff.1 (g t ht)).2.2⟩
  · rintro ⟨⟨h, g⟩, f, kr, kp⟩
    exact ⟨fun t ht => rtc_iff.2 ⟨h t ht, f.rtc t ht, kr t ht⟩, fun t ht => ptc_iff.2 ⟨g t ht, f.ptc t ht, kp t ht⟩⟩

theorem single_iff {r : Option Rtc} {p : Option Ptc} : (∀ t u, r = some t → p = some u → ¬ (t.on = true ∧ u.on = true)) ↔ (flags r p).countP id ≤ 1 := by
  cases r with
  | none =>
    cases p with
    | none => simp [flags]
    | some u => cases h : u.on <;> simp [flags, h]
  | some t =>
    cases p with
    | none => cases h : t.on <;> simp [flags, h]
    | some u => cases h : t.on <;> cases h' : u.on <;> simp [flags, h, h']

theorem tw2_iff {x : Tw2} : Tw2Ok K .none x ↔ Tw2Valid x ∧ Tw2Fits x ∧ Kept K (tw2Numbers x) := by
  simp only [tw2Numbers, kept_append, kept_cons]
  constructor
  · intro h
    obtain ⟨i1, i2⟩ := ident_iff.1 h.ident
    obtain ⟨s1, s2, s3⟩ := side_iff.1 h.side1
    obtain ⟨t1, t2, t3⟩ := side_iff.1 h.side2
    obtain ⟨l1, l2, l3⟩ := lims_iff.1 h.one
    obtain ⟨m1, m2, m3⟩ := lims_iff.1 h.two
    obtain ⟨⟨w1, w2⟩, w3, w4⟩ := winding_iff.1 ⟨h.rtc, h.ptc⟩
    exact ⟨⟨i1, ⟨s1, t1⟩, ⟨h.r.1, h.x.1, h.g.1, h.b.1, h.ratedU1.1, h.ratedU2.1⟩, rated_iff.1 h.ratedS.1, w1, w2, single_iff.1 h.single, l1, m1⟩, ⟨i2, ⟨s2, t2⟩, w3, l2, m2⟩,
      ⟨⟨⟨⟨⟨h.r.2, h.x.2, h.g.2, h.b.2, h.ratedU1.2, h.ratedU2.2, h.ratedS.2, kept_nil⟩, s3⟩, t3⟩, w4⟩, l3⟩, m3⟩
  · rintro ⟨v, f, ⟨⟨⟨⟨⟨k1, k2, k3, k4, k5, k6, k7, _⟩, s3⟩, t3⟩, w4⟩, l3⟩, m3⟩
    obtain ⟨v1, v2, v3, v4, v5, v6⟩ := v.values
    obtain ⟨r, p⟩ := winding_iff.2 ⟨⟨v.rtc, v.ptc⟩, f.taps, w4⟩
    exact ⟨ident_iff.2 ⟨v.ident, f.ident⟩, ⟨v1, k1⟩, ⟨v2, k2⟩, ⟨v3, k3⟩, ⟨v4, k4⟩, ⟨v5, k5⟩, ⟨v6, k6⟩, ⟨rated_iff.2 v.ratedS, k7⟩, side_iff.2 ⟨v.places.1, f.places.1, s3⟩,
      side_iff.2 ⟨v.places.2, f.places.2, t3⟩, r, p, single_iff.2 v.single, lims_iff.2 ⟨v.lims.1, f.lims.1, l3⟩, lims_iff.2 ⟨v.lims.2, f.lims.2, m3⟩⟩

theorem leg_iff {x : Leg} : LegOk K .none x ↔ LegValid x ∧ LegFits x ∧ Kept K (legNumbers x) := by
  simp only [legNumbers, kept_append, kept_cons]
  constructor
  · intro h
    obtain ⟨s1, s2, s3⟩ := legSide_iff.1 h.side
    obtain ⟨l1, l2, l3⟩ := lims_iff.1 h.lims
    obtain ⟨⟨w1, w2⟩, w3, w4⟩ := winding_iff.1 ⟨h.rtc, h.ptc⟩
    exact ⟨⟨s1, ⟨h.r.1, h.x.1, h.g.1, h.b.1, h.ratedU.1⟩, rated_iff.1 h.ratedS.1, w1, w2, l1⟩, ⟨s2, w3, l2⟩,
      ⟨⟨⟨h.r.2, h.x.2, h.g.2, h.b.2, h.ratedU.2, h.ratedS.2, kept_nil⟩, s3⟩, w4⟩, l3⟩
  · rintro ⟨v, f, ⟨⟨⟨k1, k2, k3, k4, k5, k6, _⟩, s3⟩, w4⟩, l3⟩
    obtain ⟨v1, v2, v3, v4, v5⟩ := v.values
    obtain ⟨r, p⟩ := winding_iff.2 ⟨⟨v.sub.rtc, v.sub.ptc⟩, f.taps, w4⟩
    exact ⟨⟨v1, k1⟩, ⟨v2, k2⟩, ⟨v3, k3⟩, ⟨v4, k4⟩, ⟨v5, k5⟩, ⟨rated_iff.2 v.ratedS, k6⟩, legSide_iff.2 ⟨v.place, f.place, s3⟩, r, p, lims_iff.2 ⟨v.sub.lims, f.lims, l3⟩⟩

theorem tw3_iff {x : Tw3} : Tw3Ok K .none x ↔ Tw3Valid x ∧ Tw3Fits x ∧ Kept K (tw3Numbers x) := by
  simp only [tw3Numbers, kept_append, kept_cons]
  constructor
  · intro h
    obtain ⟨i1, i2⟩ := ident_iff.1 h.ident
    obtain ⟨a1, a2, a3⟩ := leg_iff.1 h.leg1
    obtain ⟨b1, b2, b3⟩ := leg_iff.1 h.leg2
    obtain ⟨c1, c2, c3⟩ := leg_iff.1 h.leg3
    exact ⟨⟨i1, ⟨a1, b1, c1⟩, h.ratedU0.1, h.single⟩, ⟨i2, a2, b2, c2⟩, h.ratedU0.2, ⟨a3, b3⟩, c3⟩
  · rintro ⟨v, f, k, ⟨a3, b3⟩, c3⟩
    exact ⟨ident_iff.2 ⟨v.ident, f.ident⟩, leg_iff.2 ⟨v.legs.1, f.legs.1, a3⟩, leg_iff.2 ⟨v.legs.2.1, f.legs.2.1, b3⟩, leg_iff.2 ⟨v.legs.2.2, f.legs.2.2, c3⟩, ⟨v.ratedU0, k⟩, v.single⟩

/-! ### Voltage levels and substations -/

theorem topo_iff {x : Topo} : TopoOk K .none x ↔ TopoValid x ∧ TopoFits x ∧ Kept K (topoNumbers x) := by
  cases x with
  | node bbs sws conns calcs =>
    simp only [TopoOk, TopoValid, TopoFits, topoNumbers, kept_flatMap, kept_cons]
    constructor
    · rintro ⟨h1, h2, h3, h4⟩
      exact ⟨⟨fun x hx => (ident_iff.1 (h1 x hx).ident).1, fun x hx => ⟨(ident_iff.1 (h2 x hx).ident).1, switch_kinds ▸ (h2 x hx).kind⟩⟩,
        ⟨fun x hx => ⟨(ident_iff.1 (h1 x hx).ident).2, (h1 x hx).node⟩, fun x hx => ⟨(ident_iff.1 (h2 x hx).ident).2, (h2 x hx).node1, (h2 x hx).node2⟩, h3⟩,
        fun c hc => ⟨(h4 c hc).1, (h4 c hc).2, kept_nil⟩⟩
    · rintro ⟨⟨v1, v2⟩, ⟨f1, f2, f3⟩, k⟩
      exact ⟨fun x hx => ⟨ident_iff.2 ⟨v1 x hx, (f1 x hx).1⟩, (f1 x hx).2⟩,
        fun x hx => ⟨ident_iff.2 ⟨(v2 x hx).ident, (f2 x hx).1⟩, switch_kinds ▸ (v2 x hx).kind, (f2 x hx).2.1, (f2 x hx).2.2⟩, f3, fun c hc => ⟨(k c hc).1, (k c hc).2.1⟩⟩
  | bus buses sws =>
    simp only [TopoOk, TopoValid, TopoFits, topoNumbers, kept_flatMap, kept_cons]
    constructor
    · rintro ⟨h1, h2⟩
      refine ⟨⟨fun x hx => ⟨?_, voltage_iff.1 (h1 x hx).1.v.1⟩, fun x hx => ⟨(ident_iff.1 (h2 x hx).1.ident).1, (h2 x hx).1.bus1.1, (h2 x hx).1.bus2.1⟩⟩,
        ⟨fun x hx => (h1 x hx).2, fun x hx => (ident_iff.1 (h2 x hx).1.ident).2⟩, fun x hx => ⟨(h1 x hx).1.v.2, (h1 x hx).1.angle, kept_nil⟩⟩
      obtain ⟨_, ha, hp⟩ := h1 x hx
      exact ⟨by rw [ha]; simp, by rw [ha]; simp, by rw [ha]; simp, by rw [hp]; simp [AMap.NodupKeys]⟩
    · rintro ⟨⟨v1, v2⟩, ⟨f1, f2⟩, k⟩
      refine ⟨fun x hx => ⟨⟨none_head _, ⟨voltage_iff.2 (v1 x hx).v, (k x hx).1⟩, (k x hx).2.1⟩, f1 x hx⟩, fun x hx => ⟨⟨ident_iff.2 ⟨(v2 x hx).ident, f2 x hx⟩,
        ⟨(v2 x hx).buses.1, none_inverts _⟩, (v2 x hx).buses.2, none_inverts _⟩, List.mem_map.2 ⟨x, hx, rfl⟩⟩⟩

theorem equip_iff {e : Equip} : EquipOk K .none e ↔ EquipValid e ∧ EquipFits e ∧ Kept K (equipNumbers e) := by
  simp only [equipNumbers, kept_append, kept_flatMap]
  constructor
  · intro h
    exact ⟨⟨fun x hx => (gen_iff.1 (h.gens x hx)).1, fun x hx => (bat_iff.1 (h.bats x hx)).1, fun x hx => (load_iff.1 (h.loads x hx)).1, fun x hx => (sh_iff.1 (h.shs x hx)).1,
      fun x hx => (dl_iff.1 (h.dls x hx)).1, fun x hx => (svc_iff.1 (h.svcs x hx)).1, fun x hx => (vsc_iff.1 (h.vscs x hx)).1, fun x hx => (lcc_iff.1 (h.lccs x hx)).1⟩,
      ⟨fun x hx => (gen_iff.1 (h.gens x hx)).2.1, fun x hx => (bat_iff.1 (h.bats x hx)).2.1, fun x hx => (load_iff.1 (h.loads x hx)).2.1, fun x hx => (sh_iff.1 (h.shs x hx)).2.1,
      fun x hx => (dl_iff.1 (h.dls x hx)).2.1, fun x hx => (svc_iff.1 (h.svcs x hx)).2.1, fun x hx => (vsc_iff.1 (h.vscs x hx)).2.1, fun x hx => (lcc_iff.1 (h.lccs x hx)).2.1⟩,
      ⟨⟨⟨⟨⟨⟨⟨fun x hx => (gen_iff.1 (h.gens x hx)).2.2, fun x hx => (bat_iff.1 (h.bats x hx)).2.2⟩, fun x hx => (load_iff.1 (h.loads x hx)).2.2⟩,
      fun x hx => (sh_iff.1 (h.shs x hx)).2.2⟩, fun x hx => (dl_iff.1 (h.dls x hx)).2.2⟩, fun x hx => (svc_iff.1 (h.svcs x hx)).2.2⟩, fun x hx => (vsc_iff.1 (h.vscs x hx)).2.2⟩,
      fun x hx => (lcc_iff.1 (h.lccs x hx)).2.2⟩⟩
  · rintro ⟨v, f, ⟨⟨⟨⟨⟨⟨⟨k1, k2⟩, k3⟩, k4⟩, k5⟩, k6⟩, k7⟩, k8⟩⟩
    exact ⟨fun x hx => gen_iff.2 ⟨v.gens x hx, f.gens x hx, k1 x hx⟩, fun x hx => bat_iff.2 ⟨v.bats x hx, f.bats x hx, k2 x hx⟩,
      fun x hx => load_iff.2 ⟨v.loads x hx, f.loads x hx, k3 x hx⟩, fun x hx => sh_iff.2 ⟨v.shs x hx, f.shs x hx, k4 x hx⟩,
      fun x hx => dl_iff.2 ⟨v.dls x hx, f.dls x hx, k5 x hx⟩, fun x hx => svc_iff.2 ⟨v.svcs x hx, f.svcs x hx, k6 x hx⟩,
      fun x hx => vsc_iff.2 ⟨v.vscs x hx, f.vscs x hx, k7 x hx⟩, fun x hx => lcc_iff.2 ⟨v.lccs x hx, f.lccs x hx, k8 x hx⟩⟩

theorem vlRange_iff {a b : Dbl} : Dbl.lt b a = false ↔ (IsSet a → IsSet b → Dbl.le a b = true) := by
  constructor
  · intro h ha hb; exact Dbl.le_of_not_lt hb ha h
  · intro h
    cases hl : Dbl.lt b a with
    | false => rfl
    | true =>
      have := h (Dbl.not_nan_of_lt hl).2 (Dbl.not_nan_of_lt hl).1
      rw [Dbl.not_le_of_lt hl] at this
      cases this

theorem vl_iff {x : VL} : VLOk K .none x ↔ VLValid x ∧ VLFits x ∧ Kept K (vlNumbers x) := by
  simp only [vlNumbers, kept_append, kept_cons]
  constructor
  · intro h
    obtain ⟨i1, i2⟩ := ident_iff.1 h.ident
    obtain ⟨t1, t2, t3⟩ := topo_iff.1 h.topo
    obtain ⟨e1, e2, e3⟩ := equip_iff.1 h.equip
    exact ⟨⟨i1, h.nominalV.1, voltage_iff.1 h.low.1, voltage_iff.1 h.high.1, vlRange_iff.1 h.range, t1, e1⟩, ⟨i2, t2, e2⟩, ⟨⟨h.nominalV.2, h.low.2, h.high.2, kept_nil⟩, t3⟩, e3⟩
  · rintro ⟨v, f, ⟨⟨k1, k2, k3, _⟩, t3⟩, e3⟩
    exact ⟨ident_iff.2 ⟨v.ident, f.ident⟩, ⟨v.nominal, k1⟩, ⟨voltage_iff.2 v.low, k2⟩, ⟨voltage_iff.2 v.high, k3⟩, vlRange_iff.2 v.range, topo_iff.2 ⟨v.topo, f.topo, t3⟩,
      equip_iff.2 ⟨v.equip, f.equip, e3⟩⟩

theorem tags_iff {l : List String} : TagsOk .none l ↔ l.Pairwise (· < ·) ∧ (∀ t ∈ l, ',' ∉ t.toList) ∧ l ≠ [""] := by
  have hm : l.map Anon.none.anon = l := List.map_id l
  constructor
  · intro h; exact ⟨h.increasing, h.commas, hm ▸ h.notEmpty⟩
  · rintro ⟨a, b, c⟩; exact ⟨a, fun t _ => none_inverts _, b, by rw [hm]; exact c⟩

theorem substation_iff {x : Substation} : SubstationOk K .none x ↔ SubstationValid x ∧ SubstationFits x ∧ Kept K (substationNumbers x) := by
  simp only [substationNumbers, kept_append, kept_flatMap]
  constructor
  · intro h
    obtain ⟨i1, i2⟩ := ident_iff.1 h.ident
    obtain ⟨t1, t2⟩ := tags_iff.1 h.tags
    exact ⟨⟨i1, fun c hc => countries ▸ h.country c hc, t1, fun v hv => (vl_iff.1 (h.vls v hv)).1, fun v hv => (tw2_iff.1 (h.tw2s v hv)).1, fun v hv => (tw3_iff.1 (h.tw3s v hv)).1⟩,
      ⟨i2, t2, fun v hv => (vl_iff.1 (h.vls v hv)).2.1, fun v hv => (tw2_iff.1 (h.tw2s v hv)).2.1, fun v hv => (tw3_iff.1 (h.tw3s v hv)).2.1⟩,
      ⟨fun v hv => (vl_iff.1 (h.vls v hv)).2.2, fun v hv => (tw2_iff.1 (h.tw2s v hv)).2.2⟩, fun v hv => (tw3_iff.1 (h.tw3s v hv)).2.2⟩
  · rintro ⟨v, f, ⟨k1, k2⟩, k3⟩
    exact ⟨ident_iff.2 ⟨v.ident, f.ident⟩, fun c hc => countries ▸ v.country c hc, ⟨none_inverts _, fun h => h⟩, tags_iff.2 ⟨v.tags, f.tags⟩,
      fun y hy => vl_iff.2 ⟨v.vls y hy, f.vls y hy, k1 y hy⟩, fun y hy => tw2_iff.2 ⟨v.tw2s y hy, f.tw2s y hy, k2 y hy⟩, fun y hy => tw3_iff.2 ⟨v.tw3s y hy, f.tw3s y hy, k3 y hy⟩⟩

end

end Verif.ReadBack
