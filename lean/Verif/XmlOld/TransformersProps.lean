import Verif.XmlOld.BranchesProps

/-!
C87: tap changers and transformers, written in any version of IIDM-XML with any behaviour on what the version does not have.
-/

namespace Verif.XmlOld

open Verif Verif.Xml Verif.XmlNet

variable {σ : Type}

/-! ### Tap changers -/

theorem isEqual_iff (a b : Dbl) : isEqual a b = true ↔ a = b := ⟨isEqual_eq, fun h => h ▸ isEqual_refl a⟩

theorem readDeadband_at {K : XCodec} {v : Ver} {on : Bool} {d : Dbl} {n : String} {as : List (String × String)} {e : Bool} {tl : List Tok}
    (h : lookup "targetDeadband" as = lookup "targetDeadband" (deadbandAttrs K v d)) (hk : K.Keeps d) (hon : on = true → d.isNan = false) :
    readDeadband K v on (.start n as e :: tl) = .ok (keptDeadband v on d) := by
  unfold readDeadband runUntilMaximumVersion runFromMinimumVersion
  cases hv : v.ge .v12 with
  | true =>
    have h1 : v.le .v11 = false := by cases v <;> first | rfl | exact absurd hv (by decide)
    have h2 : keptDeadband v on d = d := by cases v <;> first | rfl | exact absurd hv (by decide)
    simp only [h1, Bool.false_eq_true, if_false, Out.monad_bind_ok, if_true, h2]
    exact optDOr_attr (by rw [h]; simp [deadbandAttrs, h1, hv, lookup_append, lookup_nil, lookup_attrD]) hk
  | false =>
    have h1 : v.le .v11 = true := by cases v <;> first | rfl | exact absurd hv (by decide)
    have h2 : keptDeadband v on d = if on = false ∧ d = 0 then .nan else d := by cases v <;> first | rfl | exact absurd hv (by decide)
    simp only [h1, if_true, Bool.false_eq_true, if_false, h2]
    by_cases h0 : d = 0
    · have : optDOr K.toCodec "targetDeadband" .nan (.start n as e :: tl) = .ok .nan := by
        have : lookup "targetDeadband" as = none := by
          rw [h]; simp [deadbandAttrs, h1, hv, lookup_append, lookup_nil, lookup_attrOptD, h0, isEqual_refl]
        simp [optDOr, rawAttr, this]
      rw [this]
      cases on <;> simp [h0, Dbl.isNan]
    · have h3 : isEqual d 0 = false := by
        cases h4 : isEqual d 0 with
        | false => rfl
        | true => exact absurd (isEqual_eq h4) h0
      rw [optDOr_attr (d := d) (by rw [h]; simp [deadbandAttrs, h1, hv, lookup_append, lookup_nil, lookup_attrOptD, h3]) hk]
      cases ho : on with
      | false => simp [h0]
      | true => simp [hon ho]

macro "lkp " t:ident : tactic => `(tactic| simp [$t:ident, deadbandAttrs, lookup_append, lookup_cons, lookup_nil, lookup_attrD, lookup_attrOptD, lookup_attrB, lookup_attrI, lookup_ite])

theorem keptDeadband_ok {K : XCodec} {v : Ver} {low tap : Int} {n : Nat} {on : Bool} {d : Dbl} (h : TapsOk K low tap n on d) (hn : K.Keeps .nan) : TapsOk K low tap n on (keptDeadband v on d) := by
  have hc : keptDeadband v on d = d ∨ (on = false ∧ keptDeadband v on d = .nan) := by
    cases v <;> first | exact .inl rfl | simp only [keptDeadband]
    all_goals
      split
      · next h => exact .inr ⟨h.1, rfl⟩
      · exact .inl rfl
  rcases hc with hc | ⟨h1, hc⟩
  · rw [hc]; exact h
  · rw [hc]; exact { h with deadband := ⟨rfl, hn⟩, regulating := fun h => absurd h (by simp [h1]) }

theorem keeps_nan (K : XCodec) : K.Keeps .nan := fun h => absurd h (by simp [Dbl.isNan])

/-- **C87** A ratio tap changer is read back as it was written; before version 1.2, without a dead band of 0 unless it regulates. -/
theorem ratio_tap_changer_old {K : XCodec} (hK : K.Integers) {A : Anon} (v : Ver) {el : String} {t : Rtc} (h : RtcOk K A t) :
    RoundTrip (writeRtc K A v el t) (readRtc K A v el) (keptRtc v t) := by
  have hd : ∀ e tl, readDeadband K v t.on (.start el (rtcAttrs K v t) e :: tl) = .ok (keptDeadband v t.on t.deadband) := fun e tl =>
    readDeadband_at (by lkp rtcAttrs) h.taps.deadband.2 h.taps.regulating
  have hk := keptDeadband_ok (v := v) h.taps (keeps_nan K)
  unfold writeRtc readRtc
  refine readPlain_rt (a := (t.low, t.tap, keptDeadband v t.on t.deadband, t.ltc, t.on, t.targetV)) (s1 := (t.reg, t.steps)) (fun e tl => ?_) ?_ ?_
  · unfold readRtcRoot
    have hon : optBOr "regulating" false (.start el (rtcAttrs K v t) e :: tl) = .ok t.on := by
      cases ho : t.on with
      | true => exact optBOr_attr (by lkp rtcAttrs; simp [ho])
      | false =>
        cases hl : t.ltc with
        | true => exact optBOr_attr (by lkp rtcAttrs; simp [ho, hl])
        | false =>
          have : lookup "regulating" (rtcAttrs K v t) = none := by lkp rtcAttrs; simp [ho, hl]
          simp [optBOr, rawAttr, this]
    rw [getI_at hK (i := t.low) (by lkp rtcAttrs) h.taps.longs.1, getI_at hK (i := t.tap) (by lkp rtcAttrs) h.taps.longs.2, hon]
    simp only [Out.monad_bind_ok]
    rw [hd e tl, getB_attr (b := t.ltc) (by lkp rtcAttrs), optDOr_attr (d := t.targetV) (by lkp rtcAttrs) h.targetV]
    rfl
  · refine PBody.append (s' := (t.reg, [])) ?_ ?_
    · have := pref_body (h := rtcSub K A) (root := el) (el := "terminalRef") (set := fun s r => (some r, s.2)) rfl h.reg (none, [])
      cases hr : t.reg with
      | none => rw [hr] at this; exact this
      | some r => rw [hr] at this; exact this
    · exact rtcSteps_body t.steps (t.reg, []) h.steps
  · unfold buildRtc
    simp only [checkTaps_ok hk, checkRtc_ok h, Out.monad_bind_ok, keptRtc]

/-- **C87** A phase tap changer too. -/
theorem phase_tap_changer_old {K : XCodec} (hK : K.Integers) {A : Anon} (v : Ver) {el : String} {t : Ptc} (h : PtcOk K A t) :
    ElemRT el (writePtc K A v el t) (readPtc K A v el) (keptPtc v t) := by
  obtain ⟨k, hk1, hk2⟩ := Enums.value_round_trip (names := Enums.phaseTapChangerRegulationMode.names) (by decide) h.mode
  refine ⟨ptcAttrs K v k t, refElems A "terminalRef" t.reg ++ ptcSteps K t.steps, by simp only [writePtc, hk1, Out.monad_bind_ok], ?_⟩
  have hd : ∀ e tl, readDeadband K v t.on (.start el (ptcAttrs K v k t) e :: tl) = .ok (keptDeadband v t.on t.deadband) := fun e tl =>
    readDeadband_at (by lkp ptcAttrs) h.taps.deadband.2 h.taps.regulating
  have hk := keptDeadband_ok (v := v) h.taps (keeps_nan K)
  unfold readPtc
  refine readPlain_rt (a := (t.low, t.tap, keptDeadband v t.on t.deadband, t.mode, t.value, t.on)) (s1 := (t.reg, t.steps)) (fun e tl => ?_) ?_ ?_
  · unfold readPtcRoot
    have hon : optBOr "regulating" false (.start el (ptcAttrs K v k t) e :: tl) = .ok t.on := by
      cases ho : t.on with
      | true => exact optBOr_attr (by lkp ptcAttrs; simp [ho])
      | false =>
        by_cases hl : t.mode = fixedTap
        · have : lookup "regulating" (ptcAttrs K v k t) = none := by lkp ptcAttrs; simp [ho, hl]
          simp [optBOr, rawAttr, this]
        · exact optBOr_attr (by lkp ptcAttrs; simp [ho, hl])
    rw [getI_at hK (i := t.low) (by lkp ptcAttrs) h.taps.longs.1, getI_at hK (i := t.tap) (by lkp ptcAttrs) h.taps.longs.2, hon]
    simp only [Out.monad_bind_ok]
    rw [hd e tl, getS_attr (v := k) (by lkp ptcAttrs), optDOr_attr (d := t.value) (by lkp ptcAttrs) h.value]
    simp only [Out.monad_bind_ok, hk2]
  · refine PBody.append (s' := (t.reg, [])) ?_ ?_
    · have := pref_body (h := ptcSub K A) (root := el) (el := "terminalRef") (set := fun s r => (some r, s.2)) rfl h.reg (none, [])
      cases hr : t.reg with
      | none => rw [hr] at this; exact this
      | some r => rw [hr] at this; exact this
    · exact ptcSteps_body t.steps (t.reg, []) h.steps
  · unfold buildPtc
    simp only [checkTaps_ok hk, checkPtc_ok h, Out.monad_bind_ok, keptPtc]

/-- The dead band of 1 of a regulating tap changer, in version 1.0. -/
example : RoundTrip (writeRtc toyX .none .v10 "ratioTapChanger" someRtc) (readRtc toyX .none .v10 "ratioTapChanger") someRtc :=
  ratio_tap_changer_old toyX_integers .v10 (someRtc_ok _ rfl)

/-- **C87, violation** Before version 1.2 the dead band of 0 of a tap changer that does not regulate is dropped: it becomes undefined, and nothing is reported
(`AbstractTransformerXml.hxx` l. 156-165 and 255-260). -/
theorem deadband_lost {v : Ver} (hv : ¬ Supports .v12 v) (t : Rtc) (hon : t.on = false) (h0 : t.deadband = 0) : (keptRtc v t).deadband = .nan := by
  cases v <;> first | exact absurd (by decide) hv | simp [keptRtc, keptDeadband, hon, h0]

/-- The tap changer still has every other value, and from version 1.2 on, or if it regulates, all of them. -/
theorem deadband_kept (v : Ver) (t : Rtc) (h : Supports .v12 v ∨ t.on = true ∨ t.deadband ≠ 0) : keptRtc v t = t := by
  have : keptDeadband v t.on t.deadband = t.deadband := by
    cases v <;> simp only [keptDeadband] <;> try rfl
    all_goals
      rw [if_neg]
      rintro ⟨h1, h2⟩
      rcases h with h | h | h
      · exact absurd h (by decide)
      · rw [h] at h1; cases h1
      · exact h h2
  simp [keptRtc, this]

theorem rtc_body {K : XCodec} (hK : K.Integers) {A : Anon} {v : Ver} {h : Handler σ} {root el : String} {cb : Callback σ} {set : σ → Rtc → σ} (hh : h el = some cb)
    (hcb : ∀ s toks t r, readRtc K A v el toks = .ok (t, r) → cb s toks = .ok (set s t, r)) {o : Option Rtc} (ho : RtcsOk K A o) (s : σ) :
    Body A v h root (rtcElems K A v el o) s (setOpt set s (o.map (keptRtc v))) := by
  cases o with
  | none => exact body_nil _ _ _ _ _
  | some t => exact body_item (ratio_tap_changer_old hK v (ho t rfl)) hh fun toks r hr => hcb _ _ _ _ hr

theorem ptc_body {K : XCodec} (hK : K.Integers) {A : Anon} {v : Ver} {h : Handler σ} {root el : String} {cb : Callback σ} {set : σ → Ptc → σ} (hh : h el = some cb)
    (hcb : ∀ s toks t r, readPtc K A v el toks = .ok (t, r) → cb s toks = .ok (set s t, r)) {o : Option Ptc} (ho : PtcsOk K A o) (s : σ) :
    ∃ cs, ptcElems K A v el o = .ok cs ∧ Body A v h root cs s (setOpt set s (o.map (keptPtc v))) := by
  cases o with
  | none => exact ⟨[], rfl, body_nil _ _ _ _ _⟩
  | some t => exact body_elem (phase_tap_changer_old hK v (ho t rfl)) hh fun toks r hr => hcb _ _ _ _ hr

/-! ### Two windings transformers -/

macro "lkr " t:ident : tactic =>
  `(tactic| simp [$t:ident, lookup_append, lookup_cons, lookup_nil, lookup_attrD, lookup_attrN, lookup_headAttrs, lookup_place, lookup_ite, pqAttrs, sideAttrs, sidesAttrs, ratedSAttrs, leg1Attrs, legSidesAttrs])

theorem tw2_root {K : XCodec} (hK : K.Integers) {A : Anon} {v : Ver} {y : Tw2} (h : Tw2Ok K A y) (e : Bool) (tl : List Tok) :
    readTw2Root K A (.start "twoWindingsTransformer" (headAttrs A v y.ident.head ++ tw2Attrs K A v y) e :: tl) =
      .ok ⟨y.r, y.x, y.g, y.b, y.ratedU1, y.ratedU2, keptRatedS v y.ratedS, y.side1, y.side2⟩ := by
  have hs : optDOr K.toCodec "ratedS" .nan (.start "twoWindingsTransformer" (headAttrs A v y.ident.head ++ tw2Attrs K A v y) e :: tl) = .ok (keptRatedS v y.ratedS) := by
    cases hv : v.ge .v12 with
    | true =>
      rw [show keptRatedS v y.ratedS = y.ratedS by cases v <;> first | rfl | exact absurd hv (by decide)]
      exact optDOr_attr (by lkr tw2Attrs; simp [hv]) h.ratedS.2
    | false =>
      have : lookup "ratedS" (headAttrs A v y.ident.head ++ tw2Attrs K A v y) = none := by lkr tw2Attrs; simp [hv]
      rw [show keptRatedS v y.ratedS = .nan by cases v <;> first | rfl | exact absurd hv (by decide)]
      simp [optDOr, rawAttr, this]
  have hr : checkRatedS (keptRatedS v y.ratedS) = .ok () := by
    refine checkRatedS_ok ?_
    cases v <;> first | exact h.ratedS.1 | exact .inl rfl
  unfold readTw2Root
  rw [getD_at (d := y.r) (by lkr tw2Attrs) h.r.1 h.r.2, getD_at (d := y.x) (by lkr tw2Attrs) h.x.1 h.x.2, getD_at (d := y.g) (by lkr tw2Attrs) h.g.1 h.g.2,
    getD_at (d := y.b) (by lkr tw2Attrs) h.b.1 h.b.2, getD_at (d := y.ratedU1) (by lkr tw2Attrs) h.ratedU1.1 h.ratedU1.2, getD_at (d := y.ratedU2) (by lkr tw2Attrs) h.ratedU2.1 h.ratedU2.2,
    hs, readSides_at hK (x := y.side1) (y := y.side2) ⟨⟨by lkr tw2Attrs, by lkr tw2Attrs, by lkr tw2Attrs⟩, by lkr tw2Attrs, by lkr tw2Attrs, by lkr tw2Attrs⟩
      ⟨⟨by lkr tw2Attrs, by lkr tw2Attrs, by lkr tw2Attrs⟩, by lkr tw2Attrs, by lkr tw2Attrs, by lkr tw2Attrs⟩ h.side1 h.side2]
  simp only [Out.monad_bind_ok, h.r.1, h.x.1, h.g.1, h.b.1, h.ratedU1.1, h.ratedU2.1, Bool.or_false, check_false, hr]

theorem regCount_kept (v : Ver) (r : Option Rtc) (p : Option Ptc) : regCount (r.map (keptRtc v)) (p.map (keptPtc v)) = regCount r p := by
  cases r <;> cases p <;> rfl

theorem two_windings_transformer_kept {K : XCodec} (hK : K.Integers) {A : Anon} (c : Ctx) {y : Tw2} (h : Tw2Ok K A y) :
    Kept c.behaviour "twoWindingsTransformer" (writeTw2 K A c y) (readTw2 K A c.version) (keptTw2 c.version y) (lostBranch c.version y.lims) := by
  have hr := rtc_body hK (A := A) (v := c.version) (h := tw2Sub K A c.version) (root := "twoWindingsTransformer") (el := "ratioTapChanger") (set := fun s t => { s with rtc := some t }) rfl
    (fun s toks t r hr => by simp only [rtcCb, hr, Out.monad_bind_ok]) h.rtc ⟨none, none, ⟨noLims, noLims⟩⟩
  obtain ⟨cs, hcs, hp⟩ := ptc_body hK (A := A) (v := c.version) (h := tw2Sub K A c.version) (root := "twoWindingsTransformer") (el := "phaseTapChanger") (set := fun s t => { s with ptc := some t }) rfl
    (fun s toks t r hr => by simp only [ptcCb, hr, Out.monad_bind_ok]) h.ptc ⟨y.rtc.map (keptRtc c.version), none, ⟨noLims, noLims⟩⟩
  have hw := reports_elem (A := A) (c := c) (root := "twoWindingsTransformer") (x := y.ident) (Reports.plain c.behaviour (tw2Attrs K A c.version y))
    ((Reports.plain c.behaviour (rtcElems K A c.version "ratioTapChanger" y.rtc)).andThen ((Reports.plain c.behaviour cs).andThen (reports_branch K c y.lims)))
  refine ⟨_, _, by unfold writeTw2; rw [hcs, Out.bind_ok]; exact hw, ?_⟩
  refine readElem_rt (a := ⟨y.r, y.x, y.g, y.b, y.ratedU1, y.ratedU2, keptRatedS c.version y.ratedS, y.side1, y.side2⟩)
    (s1 := ⟨y.rtc.map (keptRtc c.version), y.ptc.map (keptPtc c.version), keptBranch c.version y.lims⟩) h.ident ⟨by lkr tw2Attrs, by lkr tw2Attrs⟩ (by decide) rfl rfl (tw2_root hK h) ?_ ?_
  · refine Body.append (s' := ⟨y.rtc.map (keptRtc c.version), none, ⟨noLims, noLims⟩⟩) ?_ (Body.append (s' := ⟨y.rtc.map (keptRtc c.version), y.ptc.map (keptPtc c.version), ⟨noLims, noLims⟩⟩) ?_ ?_)
    · cases hq : y.rtc with
      | none => rw [hq] at hr; exact hr
      | some t => rw [hq] at hr; exact hr
    · cases hq : y.ptc with
      | none => rw [hq] at hp; exact hp
      | some t => rw [hq] at hp; exact hp
    · generalize y.rtc.map (keptRtc c.version) = r
      generalize y.ptc.map (keptPtc c.version) = p
      unfold XmlNet.branchElems
      refine Body.append (s' := ⟨r, p, ⟨keptLims c.version y.lims.one, noLims⟩⟩) ?_ ?_
      · exact lims_body hK.naturals (h := tw2Sub K A c.version) (get := fun s => s.lims.one) (put := fun s m => { s with lims := { s.lims with one := m } }) rfl rfl rfl
          (fun hv s toks l r hr => by simp only [limitsSub15, onlySince_ok hv, limitsSub, hr, Out.monad_bind_ok])
          (fun hv s toks l r hr => by simp only [limitsSub15, onlySince_ok hv, limitsSub, hr, Out.monad_bind_ok])
          (fun s toks l r hr => by simp only [limitsSub, hr, Out.monad_bind_ok]) (fun _ _ => rfl) (fun _ _ _ => rfl) (fun _ => rfl) h.one ⟨r, p, ⟨noLims, noLims⟩⟩ rfl
      · exact lims_body hK.naturals (h := tw2Sub K A c.version) (get := fun s => s.lims.two) (put := fun s m => { s with lims := { s.lims with two := m } }) rfl rfl rfl
          (fun hv s toks l r hr => by simp only [limitsSub15, onlySince_ok hv, limitsSub, hr, Out.monad_bind_ok])
          (fun hv s toks l r hr => by simp only [limitsSub15, onlySince_ok hv, limitsSub, hr, Out.monad_bind_ok])
          (fun s toks l r hr => by simp only [limitsSub, hr, Out.monad_bind_ok]) (fun _ _ => rfl) (fun _ _ _ => rfl) (fun _ => rfl) h.two ⟨r, p, ⟨keptLims c.version y.lims.one, noLims⟩⟩ rfl
  · unfold buildTw2
    have : decide (1 < regCount (y.rtc.map (keptRtc c.version)) (y.ptc.map (keptPtc c.version))) = false := by
      have := regCount_le y.rtc y.ptc h.single
      rw [regCount_kept]
      simp; omega
    simp only [this, check_false, Out.monad_bind_ok, keptTw2]

/-- **C87** A two windings transformer is read back as it was written, less what its version does not have. -/
theorem two_windings_transformer_old {K : XCodec} (hK : K.Integers) {A : Anon} (c : Ctx) {y : Tw2} (h : Tw2Ok K A y) :
    ∃ doc, Reports c.behaviour (writeTw2 K A c y) doc (lostBranch c.version y.lims) ∧ RoundTrip doc (readTw2 K A c.version) (keptTw2 c.version y) := (two_windings_transformer_kept hK c h).doc

/-- In version 1.3, with limits on active powers. -/
example : ∃ doc, Reports .logError (writeTw2 toyX .none ⟨.v13, .logError⟩ someTw2) doc ["activePowerLimits2"] ∧
    RoundTrip doc (readTw2 toyX .none .v13) { someTw2 with lims := ⟨noLims, noLims⟩ } :=
  two_windings_transformer_old toyX_integers ⟨.v13, .logError⟩ someTw2_ok

/-- **C87, violation** Before version 1.2 the rated apparent power is dropped, and nothing is reported, even with the behaviour that throws
(`AbstractTransformerXml.hxx` l. 209-214). -/
theorem rated_s_lost {v : Ver} (hv : ¬ Supports .v12 v) {y : Tw2} (h : Tw2Ok toyX .none y) (hl : y.lims = ⟨noLims, noLims⟩) (hs : y.ratedS.isNan = false) :
    ∃ doc, writeTw2 toyX .none ⟨v, .throwException⟩ y = .ok ⟨doc, []⟩ ∧ RoundTrip doc (readTw2 toyX .none v) (keptTw2 v y) ∧ (keptTw2 v y).ratedS ≠ y.ratedS := by
  obtain ⟨doc, h1, h2⟩ := two_windings_transformer_old toyX_integers (A := .none) ⟨v, .throwException⟩ h
  have hb : lostBranch v y.lims = [] := by rw [hl]; cases v <;> rfl
  refine ⟨doc, ?_, h2, ?_⟩
  · have hw := h1.1 (.inl hb)
    simp only [hb, List.reverse_nil] at hw
    exact hw
  · intro he
    rw [← he] at hs
    cases v <;> first | exact absurd (by decide) hv | simp [keptTw2, keptRatedS, Dbl.isNan] at hs

example : Tw2Ok toyX .none { someTw2 with ratedS := 100, lims := ⟨noLims, noLims⟩ } :=
  { someTw2_ok with ratedS := ⟨.inr (by decide), toyX_keeps _⟩, one := noLims_ok, two := noLims_ok }

/-! ### Three windings transformers -/

theorem readLegZ_old {K : XCodec} {A : Anon} {v : Ver} {s n : String} {first : Bool} {as : List (String × String)} {y : Leg} (h : LegOk K A y)
    (h1 : lookup ("r" ++ s) as = if y.z.r.isNan then none else some (K.showD y.z.r)) (h2 : lookup ("x" ++ s) as = if y.z.x.isNan then none else some (K.showD y.z.x))
    (h3 : first = true ∨ v.ge .v11 = true → lookup ("g" ++ s) as = if y.z.g.isNan then none else some (K.showD y.z.g))
    (h4 : first = true ∨ v.ge .v11 = true → lookup ("b" ++ s) as = if y.z.b.isNan then none else some (K.showD y.z.b))
    (h5 : lookup ("ratedU" ++ s) as = if y.z.ratedU.isNan then none else some (K.showD y.z.ratedU))
    (h6 : v.ge .v12 = true → lookup ("ratedS" ++ s) as = if y.z.ratedS.isNan then none else some (K.showD y.z.ratedS))
    (e : Bool) (rest : List Tok) : readLegZ K v s first (.start n as e :: rest) = .ok (if first then (keptLeg1 v y).z else (keptLeg v y).z) := by
  have hs : runFromMinimumVersion .v12 v (fun _ => optDOr K.toCodec ("ratedS" ++ s) .nan (.start n as e :: rest)) .nan = .ok (keptRatedS v y.z.ratedS) := by
    unfold runFromMinimumVersion
    cases hv : v.ge .v12 with
    | true =>
      rw [if_pos rfl, show keptRatedS v y.z.ratedS = y.z.ratedS by cases v <;> first | rfl | exact absurd hv (by decide)]
      exact optDOr_attr (h6 hv) h.ratedS.2
    | false => cases v <;> first | rfl | exact absurd hv (by decide)
  have hr : checkRatedS (keptRatedS v y.z.ratedS) = .ok () := by
    refine checkRatedS_ok ?_
    cases v <;> first | exact h.ratedS.1 | exact .inl rfl
  unfold readLegZ
  rw [getD_at h1 h.r.1 h.r.2, getD_at h2 h.x.1 h.x.2, getD_at h5 h.ratedU.1 h.ratedU.2, hs]
  cases hf : first with
  | true =>
    rw [getD_at (h3 (.inl hf)) h.g.1 h.g.2, getD_at (h4 (.inl hf)) h.b.1 h.b.2]
    simp only [if_true, Out.monad_bind_ok, h.r.1, h.x.1, h.g.1, h.b.1, h.ratedU.1, Bool.or_false, check_false, hr, keptLeg1]
  | false =>
    have hsh : ∀ (k : String) (d : Dbl), Num K d → (v.ge .v11 = true → lookup k as = if d.isNan then none else some (K.showD d)) →
        runFromMinimumVersion .v11 v (fun _ => getD K.toCodec k (.start n as e :: rest)) 0 = .ok (keptShunt v d) ∧ (keptShunt v d).isNan = false := by
      intro k d hd hl
      unfold runFromMinimumVersion
      cases hv : v.ge .v11 with
      | true =>
        rw [if_pos rfl, show keptShunt v d = d by cases v <;> first | rfl | exact absurd hv (by decide)]
        exact ⟨getD_at (hl hv) hd.1 hd.2, hd.1⟩
      | false => cases v <;> first | exact ⟨rfl, rfl⟩ | exact absurd hv (by decide)
    obtain ⟨g1, g2⟩ := hsh ("g" ++ s) y.z.g h.g fun hv => h3 (.inr hv)
    obtain ⟨b1, b2⟩ := hsh ("b" ++ s) y.z.b h.b fun hv => h4 (.inr hv)
    simp only [Bool.false_eq_true, if_false, g1, b1, Out.monad_bind_ok, h.r.1, h.x.1, g2, b2, h.ratedU.1, Bool.or_false, check_false, hr, keptLeg]

/-- What is written of the values of the second and of the third leg. -/
def legDoc (K : XCodec) (v : Ver) (s : String) (z : LegZ) : List (String × String) :=
  attrD K.toCodec ("r" ++ s) z.r ++ attrD K.toCodec ("x" ++ s) z.x ++ ((if v.ge .v11 then attrD K.toCodec ("g" ++ s) z.g else []) ++ ((if v.ge .v11 then attrD K.toCodec ("b" ++ s) z.b else []) ++
    (attrD K.toCodec ("ratedU" ++ s) z.ratedU ++ ratedSAttrs K v ("ratedS" ++ s) z.ratedS)))

def tw3Doc (K : XCodec) (A : Anon) (v : Ver) (y : Tw3) : List (String × String) :=
  leg1Attrs K v y.leg1.z ++ (legDoc K v "2" y.leg2.z ++ (legDoc K v "3" y.leg3.z ++ ((if v.ge .v11 then attrD K.toCodec "ratedU0" y.ratedU0 else []) ++ legSidesAttrs K A y)))

theorem differs_eq (name : String) (d dflt : Dbl) : (if !isEqual d dflt then [name] else []) = differs name d dflt := by
  unfold differs
  by_cases h : d = dflt
  · simp [h, isEqual_refl]
  · have : isEqual d dflt = false := by
      cases hq : isEqual d dflt with
      | false => rfl
      | true => exact absurd (isEqual_eq hq) h
    simp [h, this]

theorem tw3_attrs_reports {K : XCodec} {A : Anon} (c : Ctx) (y : Tw3) : Reports c.behaviour (tw3Attrs K A c y) (tw3Doc K A c.version y) (lostTw3Values c.version y) := by
  have hleg : ∀ s z, Reports c.behaviour (legAttrs K c s z) (legDoc K c.version s z) ((if !c.version.ge .v11 && !isEqual z.g 0 then ["g" ++ s] else []) ++
      ((if !c.version.ge .v11 && !isEqual z.b 0 then ["b" ++ s] else []) ++ [])) := fun s z =>
    (Reports.plain _ _).andThen ((reports_attrSince K _ _ _ _ c).andThen ((reports_attrSince K _ _ _ _ c).andThen (Reports.plain _ _)))
  have h := (Reports.plain c.behaviour (leg1Attrs K c.version y.leg1.z)).andThen ((hleg "2" y.leg2.z).andThen ((hleg "3" y.leg3.z).andThen
    ((reports_attrSince K "ratedU0" y.ratedU0 y.leg1.z.ratedU .v11 c).andThen (Reports.plain c.behaviour (legSidesAttrs K A y)))))
  refine h.cast rfl ?_
  cases hv : c.version <;> simp [lostTw3Values, show Ver.ge .v10 .v11 = false by decide, show Ver.ge .v11 .v11 = true by decide, show Ver.ge .v12 .v11 = true by decide,
    show Ver.ge .v13 .v11 = true by decide, show Ver.ge .v14 .v11 = true by decide, show Ver.ge .v15 .v11 = true by decide, ← differs_eq]

macro "lk3" : tactic => `(tactic| (first | (lkr tw3Doc; done) | (simp [tw3Doc, legDoc, lookup_append, lookup_cons, lookup_nil, lookup_attrD, lookup_attrN, lookup_headAttrs, lookup_place, lookup_ite, pqAttrs,
    sideAttrs, ratedSAttrs, leg1Attrs, legSidesAttrs])))

theorem tw3_leg1 {K : XCodec} {A : Anon} {v : Ver} {y : Tw3} (h : Tw3Ok K A y) (e : Bool) (tl : List Tok) :
    readLegZ K v "1" true (.start "threeWindingsTransformer" (headAttrs A v y.ident.head ++ tw3Doc K A v y) e :: tl) = .ok (keptLeg1 v y.leg1).z :=
  readLegZ_old (first := true) h.leg1 (by lk3) (by lk3) (fun _ => by lk3) (fun _ => by lk3) (by lk3) (fun hv => by lk3; simp [hv]) e tl

theorem tw3_leg2 {K : XCodec} {A : Anon} {v : Ver} {y : Tw3} (h : Tw3Ok K A y) (e : Bool) (tl : List Tok) :
    readLegZ K v "2" false (.start "threeWindingsTransformer" (headAttrs A v y.ident.head ++ tw3Doc K A v y) e :: tl) = .ok (keptLeg v y.leg2).z :=
  readLegZ_old (first := false) h.leg2 (by lk3) (by lk3) (fun hv => by lk3; simp [hv.resolve_left (by decide)]) (fun hv => by lk3; simp [hv.resolve_left (by decide)]) (by lk3)
    (fun hv => by lk3; simp [hv]) e tl

theorem tw3_leg3 {K : XCodec} {A : Anon} {v : Ver} {y : Tw3} (h : Tw3Ok K A y) (e : Bool) (tl : List Tok) :
    readLegZ K v "3" false (.start "threeWindingsTransformer" (headAttrs A v y.ident.head ++ tw3Doc K A v y) e :: tl) = .ok (keptLeg v y.leg3).z :=
  readLegZ_old (first := false) h.leg3 (by lk3) (by lk3) (fun hv => by lk3; simp [hv.resolve_left (by decide)]) (fun hv => by lk3; simp [hv.resolve_left (by decide)]) (by lk3)
    (fun hv => by lk3; simp [hv]) e tl

theorem tw3_side1 {K : XCodec} (hK : K.Integers) {A : Anon} {v : Ver} {y : Tw3} (h : Tw3Ok K A y) (e : Bool) (tl : List Tok) :
    readLegSide K A "1" (.start "threeWindingsTransformer" (headAttrs A v y.ident.head ++ tw3Doc K A v y) e :: tl) = .ok y.leg1.side :=
  readLegSide_at hK (x := y.leg1.side) ⟨⟨by lk3, by lk3, by lk3⟩, by lk3, by lk3, by lk3⟩ h.leg1.side e tl

theorem tw3_side2 {K : XCodec} (hK : K.Integers) {A : Anon} {v : Ver} {y : Tw3} (h : Tw3Ok K A y) (e : Bool) (tl : List Tok) :
    readLegSide K A "2" (.start "threeWindingsTransformer" (headAttrs A v y.ident.head ++ tw3Doc K A v y) e :: tl) = .ok y.leg2.side :=
  readLegSide_at hK (x := y.leg2.side) ⟨⟨by lk3, by lk3, by lk3⟩, by lk3, by lk3, by lk3⟩ h.leg2.side e tl

theorem tw3_side3 {K : XCodec} (hK : K.Integers) {A : Anon} {v : Ver} {y : Tw3} (h : Tw3Ok K A y) (e : Bool) (tl : List Tok) :
    readLegSide K A "3" (.start "threeWindingsTransformer" (headAttrs A v y.ident.head ++ tw3Doc K A v y) e :: tl) = .ok y.leg3.side :=
  readLegSide_at hK (x := y.leg3.side) ⟨⟨by lk3, by lk3, by lk3⟩, by lk3, by lk3, by lk3⟩ h.leg3.side e tl

theorem tw3_root {K : XCodec} (hK : K.Integers) {A : Anon} {v : Ver} {y : Tw3} (h : Tw3Ok K A y) (e : Bool) (tl : List Tok) :
    readTw3Root K A v (.start "threeWindingsTransformer" (headAttrs A v y.ident.head ++ tw3Doc K A v y) e :: tl) =
      .ok ⟨(keptLeg1 v y.leg1).z, (keptLeg v y.leg2).z, (keptLeg v y.leg3).z, keptRatedU0 v y, y.leg1.side, y.leg2.side, y.leg3.side⟩ := by
  unfold readTw3Root
  rw [tw3_leg1 h, tw3_leg2 h, tw3_leg3 h, tw3_side1 hK h, tw3_side2 hK h, tw3_side3 hK h]
  unfold runFromMinimumVersion
  cases hv : v.ge .v11 with
  | true =>
    rw [if_pos rfl, getD_at (d := y.ratedU0) (by lk3; simp [hv]) h.ratedU0.1 h.ratedU0.2,
      show keptRatedU0 v y = y.ratedU0 by cases v <;> first | rfl | exact absurd hv (by decide)]
    simp only [Out.monad_bind_ok, h.ratedU0.1, Bool.false_eq_true, if_false]
  | false =>
    rw [show keptRatedU0 v y = y.leg1.z.ratedU by cases v <;> first | rfl | exact absurd hv (by decide)]
    rfl

/-! What is written of the tap changers is refused in version 1.0, except for the ratio of the second and of the third leg. -/

theorem rtcSince_step {K : XCodec} (hK : K.Integers) {A : Anon} {v : Ver} {h : Handler σ} {root el : String} {cb : Callback σ} {set : σ → Rtc → σ} (hh : h el = some cb)
    (hcb : v.ge .v11 = true → ∀ s toks t r, readRtc K A v el toks = .ok (t, r) → cb s toks = .ok (set s t, r)) (hno : v.ge .v11 = false → ∀ s toks, cb s toks = .thrown)
    {o : Option Rtc} (ho : RtcsOk K A o) (s : σ) : Step A v h root (rtcElems K A v el o) s (setOpt set s (o.map (keptRtc v))) (o.isNone || v.ge .v11) := by
  cases o with
  | none => exact (body_nil A v h root s).step
  | some t =>
    have hrt := ratio_tap_changer_old hK v (el := el) (ho t rfl)
    cases hv : v.ge .v11 with
    | true => exact (body_item (s' := set s (keptRtc v t)) hrt hh fun toks r hr => hcb hv _ _ _ _ hr).step
    | false => exact ⟨fun i => by obtain ⟨b, e, tl, h1, _⟩ := roundTrip_item hrt i; exact ⟨_, h1⟩, (by simp), fun _ => fails_item hrt hh (hno hv s)⟩

theorem ptcSince_step {K : XCodec} (hK : K.Integers) {A : Anon} {v : Ver} {h : Handler σ} {root el : String} {cb : Callback σ} {set : σ → Ptc → σ} (hh : h el = some cb)
    (hcb : v.ge .v11 = true → ∀ s toks t r, readPtc K A v el toks = .ok (t, r) → cb s toks = .ok (set s t, r)) (hno : v.ge .v11 = false → ∀ s toks, cb s toks = .thrown)
    {o : Option Ptc} (ho : PtcsOk K A o) (s : σ) :
    ∃ cs, ptcElems K A v el o = .ok cs ∧ (o = none → cs = []) ∧ Step A v h root cs s (setOpt set s (o.map (keptPtc v))) (o.isNone || v.ge .v11) := by
  cases o with
  | none => exact ⟨[], rfl, fun _ => rfl, (body_nil A v h root s).step⟩
  | some t =>
    obtain ⟨as, body, hw, hrt⟩ := phase_tap_changer_old hK v (el := el) (ho t rfl)
    refine ⟨_, hw, (by simp), ?_⟩
    cases hv : v.ge .v11 with
    | true => exact (body_item (s' := set s (keptPtc v t)) hrt hh fun toks r hr => hcb hv _ _ _ _ hr).step
    | false => exact ⟨fun i => by obtain ⟨b, e, tl, h1, _⟩ := roundTrip_item hrt i; exact ⟨_, h1⟩, (by simp), fun _ => fails_item hrt hh (hno hv s)⟩

/-- The tap changers of one leg. -/
theorem leg_step {K : XCodec} (hK : K.Integers) {A : Anon} {v : Ver} {h : Handler σ} {root rt pt : String} {cp : Callback σ} {get : σ → LegSub} {put : σ → LegSub → σ} {good : Bool}
    (hp : h pt = some cp)
    (hr : ∀ (o : Option Rtc) (s : σ), RtcsOk K A o → Step A v h root (rtcElems K A v rt o) s (setOpt (fun s t => put s { get s with rtc := some t }) s (o.map (keptRtc v))) (o.isNone || good))
    (hcp : v.ge .v11 = true → ∀ s toks t r, readPtc K A v pt toks = .ok (t, r) → cp s toks = .ok (put s { get s with ptc := some t }, r)) (hno : v.ge .v11 = false → ∀ s toks, cp s toks = .thrown)
    (gp : ∀ s l, get (put s l) = l) (pp : ∀ s l m, put (put s l) m = put s m) (pg : ∀ s, put s (get s) = s)
    {y : Leg} (hy : LegOk K A y) (s : σ) (hs : get s = noSubs) :
    ∃ cs, ptcElems K A v pt y.sub.ptc = .ok cs ∧ (y.sub.ptc = none → cs = []) ∧
      Step A v h root (rtcElems K A v rt y.sub.rtc ++ cs) s (put s ⟨y.sub.rtc.map (keptRtc v), y.sub.ptc.map (keptPtc v), noLims⟩) ((y.sub.rtc.isNone || good) && (y.sub.ptc.isNone || v.ge .v11)) := by
  have h1 := hr y.sub.rtc s hy.rtc
  obtain ⟨cs, h2, h2', h3⟩ := ptcSince_step hK (A := A) (root := root) hp hcp hno hy.ptc (put s ⟨y.sub.rtc.map (keptRtc v), none, noLims⟩)
  refine ⟨cs, h2, h2', Step.append (s' := put s ⟨y.sub.rtc.map (keptRtc v), none, noLims⟩) ?_ ?_⟩
  · cases hq : y.sub.rtc with
    | none =>
      have : put s ⟨none, none, noLims⟩ = s := by rw [← show get s = ⟨none, none, noLims⟩ from hs, pg]
      rw [hq] at h1
      simp only [Option.map_none]
      rw [this]
      exact h1
    | some t =>
      rw [hq] at h1
      simp only [Option.map_some, setOpt, hs] at h1
      exact h1
  · cases hq : y.sub.ptc with
    | none => rw [hq] at h3; exact h3
    | some t =>
      rw [hq] at h3
      simp only [Option.map_some, setOpt, gp, pp] at h3
      exact h3

theorem regCount3_kept (v : Ver) (y : Tw3) : regCount3 ⟨keptSub v y.leg1.sub, keptSub v y.leg2.sub, keptSub v y.leg3.sub⟩ = regCount3 ⟨y.leg1.sub, y.leg2.sub, y.leg3.sub⟩ := by
  simp only [regCount3, keptSub, regCount_kept]

/-- A phase tap changer, reported in version 1.0. -/
theorem reports_ptc {K : XCodec} {A : Anon} {c : Ctx} {el : String} {o : Option Ptc} {cs : List Cmd} (h : ptcElems K A c.version el o = .ok cs) (h0 : o = none → cs = []) :
    Reports c.behaviour (ptcSince K A c el o) cs (if c.version.ge .v11 then [] else named el o) := by
  unfold ptcSince
  rw [h]
  refine (reports_anyway o.isSome el .v11 c cs).cast ?_ ?_
  · cases o with
    | none => simp [h0 rfl]
    | some t => rfl
  · cases o <;> cases c.version.ge .v11 <;> rfl

theorem reports_rtc {K : XCodec} {A : Anon} {c : Ctx} {el : String} {o : Option Rtc} :
    Reports c.behaviour (rtcSince K A c el o) (rtcElems K A c.version el o) (if c.version.ge .v11 then [] else named el o) := by
  unfold rtcSince
  refine (reports_anyway o.isSome el .v11 c _).cast ?_ ?_
  · cases o <;> rfl
  · cases o <;> cases c.version.ge .v11 <;> rfl

theorem lostTaps_nil (v : Ver) (y : Tw3) : lostTw3Taps v y = [] ↔
    (((y.leg1.sub.rtc.isNone || v.ge .v11) && (y.leg1.sub.ptc.isNone || v.ge .v11)) && (((y.leg2.sub.rtc.isNone || true) && (y.leg2.sub.ptc.isNone || v.ge .v11)) &&
      (((y.leg3.sub.rtc.isNone || true) && (y.leg3.sub.ptc.isNone || v.ge .v11)) && (true && (true && true))))) = true := by
  cases v
  case v10 =>
    simp only [lostTw3Taps, show Ver.ge .v10 .v11 = false by decide]
    cases y.leg1.sub.rtc <;> cases y.leg1.sub.ptc <;> cases y.leg2.sub.ptc <;> cases y.leg3.sub.ptc <;> simp [named]
  all_goals simp [lostTw3Taps, show Ver.ge .v11 .v11 = true by decide, show Ver.ge .v12 .v11 = true by decide, show Ver.ge .v13 .v11 = true by decide, show Ver.ge .v14 .v11 = true by decide,
    show Ver.ge .v15 .v11 = true by decide]

theorem three_windings_transformer_old_all {K : XCodec} (hK : K.Integers) {A : Anon} (c : Ctx) {y : Tw3} (h : Tw3Ok K A y) :
    ∃ as body, Reports c.behaviour (writeTw3 K A c y) (elemCmds "threeWindingsTransformer" as body) (lostTw3 c.version y) ∧
      (lostTw3Taps c.version y = [] → RoundTrip (elemCmds "threeWindingsTransformer" as body) (readTw3 K A c.version) (keptTw3 c.version y)) ∧
      (lostTw3Taps c.version y ≠ [] → Refused (elemCmds "threeWindingsTransformer" as body) (readTw3 K A c.version)) := by
  generalize hv : c.version = v
  let t1 : LegSub := ⟨y.leg1.sub.rtc.map (keptRtc v), y.leg1.sub.ptc.map (keptPtc v), noLims⟩
  let t2 : LegSub := ⟨y.leg2.sub.rtc.map (keptRtc v), y.leg2.sub.ptc.map (keptPtc v), noLims⟩
  let t3 : LegSub := ⟨y.leg3.sub.rtc.map (keptRtc v), y.leg3.sub.ptc.map (keptPtc v), noLims⟩
  obtain ⟨p1, hp1, hn1, hb1⟩ := leg_step hK (A := A) (v := v) (h := tw3Sub K A v) (root := "threeWindingsTransformer") (rt := "ratioTapChanger1") (pt := "phaseTapChanger1") (get := Tw3Sub.one)
    (put := fun t s => { t with one := s }) (good := v.ge .v11) rfl
    (fun o s ho => rtcSince_step hK (h := tw3Sub K A v) rfl (fun hg s toks t r hr => by simp only [if_true, onlySince_ok hg, rtcCb, hr, Out.monad_bind_ok])
      (fun hg s toks => by simp only [if_true, onlySince_thrown hg, Out.monad_bind_thrown]) ho s)
    (fun hg s toks t r hr => by simp only [onlySince_ok hg, ptcCb, hr, Out.monad_bind_ok]) (fun hg s toks => by simp only [onlySince_thrown hg, Out.monad_bind_thrown])
    (fun _ _ => rfl) (fun _ _ _ => rfl) (fun _ => rfl) h.leg1 ⟨noSubs, noSubs, noSubs⟩ rfl
  obtain ⟨p2, hp2, hn2, hb2⟩ := leg_step hK (A := A) (v := v) (h := tw3Sub K A v) (root := "threeWindingsTransformer") (rt := "ratioTapChanger2") (pt := "phaseTapChanger2") (get := Tw3Sub.two)
    (put := fun t s => { t with two := s }) (good := true) rfl
    (fun o s ho => by rw [Bool.or_true]; exact (rtc_body hK (h := tw3Sub K A v) rfl (fun s toks t r hr => by simp only [Bool.false_eq_true, if_false, rtcCb, hr, Out.monad_bind_ok]) ho s).step)
    (fun hg s toks t r hr => by simp only [onlySince_ok hg, ptcCb, hr, Out.monad_bind_ok]) (fun hg s toks => by simp only [onlySince_thrown hg, Out.monad_bind_thrown])
    (fun _ _ => rfl) (fun _ _ _ => rfl) (fun _ => rfl) h.leg2 ⟨t1, noSubs, noSubs⟩ rfl
  obtain ⟨p3, hp3, hn3, hb3⟩ := leg_step hK (A := A) (v := v) (h := tw3Sub K A v) (root := "threeWindingsTransformer") (rt := "ratioTapChanger3") (pt := "phaseTapChanger3") (get := Tw3Sub.three)
    (put := fun t s => { t with three := s }) (good := true) rfl
    (fun o s ho => by rw [Bool.or_true]; exact (rtc_body hK (h := tw3Sub K A v) rfl (fun s toks t r hr => by simp only [Bool.false_eq_true, if_false, rtcCb, hr, Out.monad_bind_ok]) ho s).step)
    (fun hg s toks t r hr => by simp only [onlySince_ok hg, ptcCb, hr, Out.monad_bind_ok]) (fun hg s toks => by simp only [onlySince_thrown hg, Out.monad_bind_thrown])
    (fun _ _ => rfl) (fun _ _ _ => rfl) (fun _ => rfl) h.leg3 ⟨t1, t2, noSubs⟩ rfl
  have hl1 := lims_body hK.naturals (A := A) (v := v) (h := tw3Sub K A v) (root := "threeWindingsTransformer") (a := "activePowerLimits1") (p := "apparentPowerLimits1") (c := "currentLimits1")
    (get := fun s => s.one.lims) (put := fun s m => { s with one := { s.one with lims := m } }) rfl rfl rfl
    (fun hg s toks l r hr => by simp only [limitsSub15, onlySince_ok hg, limitsSub, hr, Out.monad_bind_ok]) (fun hg s toks l r hr => by simp only [limitsSub15, onlySince_ok hg, limitsSub, hr, Out.monad_bind_ok])
    (fun s toks l r hr => by simp only [limitsSub, hr, Out.monad_bind_ok]) (fun _ _ => rfl) (fun _ _ _ => rfl) (fun _ => rfl) h.leg1.lims ⟨t1, t2, t3⟩ rfl
  have hl2 := lims_body hK.naturals (A := A) (v := v) (h := tw3Sub K A v) (root := "threeWindingsTransformer") (a := "activePowerLimits2") (p := "apparentPowerLimits2") (c := "currentLimits2")
    (get := fun s => s.two.lims) (put := fun s m => { s with two := { s.two with lims := m } }) rfl rfl rfl
    (fun hg s toks l r hr => by simp only [limitsSub15, onlySince_ok hg, limitsSub, hr, Out.monad_bind_ok]) (fun hg s toks l r hr => by simp only [limitsSub15, onlySince_ok hg, limitsSub, hr, Out.monad_bind_ok])
    (fun s toks l r hr => by simp only [limitsSub, hr, Out.monad_bind_ok]) (fun _ _ => rfl) (fun _ _ _ => rfl) (fun _ => rfl) h.leg2.lims ⟨keptSub v y.leg1.sub, t2, t3⟩ rfl
  have hl3 := lims_body hK.naturals (A := A) (v := v) (h := tw3Sub K A v) (root := "threeWindingsTransformer") (a := "activePowerLimits3") (p := "apparentPowerLimits3") (c := "currentLimits3")
    (get := fun s => s.three.lims) (put := fun s m => { s with three := { s.three with lims := m } }) rfl rfl rfl
    (fun hg s toks l r hr => by simp only [limitsSub15, onlySince_ok hg, limitsSub, hr, Out.monad_bind_ok]) (fun hg s toks l r hr => by simp only [limitsSub15, onlySince_ok hg, limitsSub, hr, Out.monad_bind_ok])
    (fun s toks l r hr => by simp only [limitsSub, hr, Out.monad_bind_ok]) (fun _ _ => rfl) (fun _ _ _ => rfl) (fun _ => rfl) h.leg3.lims ⟨keptSub v y.leg1.sub, keptSub v y.leg2.sub, t3⟩ rfl
  have hstep := hb1.append (hb2.append (hb3.append (hl1.step.append (hl2.step.append hl3.step))))
  rw [← hv] at hp1 hp2 hp3
  have hrep := reports_elem (A := A) (root := "threeWindingsTransformer") (x := y.ident) (tw3_attrs_reports (K := K) (A := A) c y)
    ((reports_rtc (K := K) (A := A) (c := c) (el := "ratioTapChanger1") (o := y.leg1.sub.rtc)).andThen ((reports_ptc hp1 hn1).andThen
      ((Reports.plain c.behaviour (rtcElems K A c.version "ratioTapChanger2" y.leg2.sub.rtc)).andThen ((reports_ptc hp2 hn2).andThen
        ((Reports.plain c.behaviour (rtcElems K A c.version "ratioTapChanger3" y.leg3.sub.rtc)).andThen ((reports_ptc hp3 hn3).andThen
          ((reports_lims K c "activePowerLimits1" "apparentPowerLimits1" "currentLimits1" y.leg1.sub.lims).andThen
            ((reports_lims K c "activePowerLimits2" "apparentPowerLimits2" "currentLimits2" y.leg2.sub.lims).andThen
              (reports_lims K c "activePowerLimits3" "apparentPowerLimits3" "currentLimits3" y.leg3.sub.lims)))))))))
  refine ⟨_, _, hrep.cast rfl ?_, ?_⟩
  · rw [hv]
    cases v <;> simp [lostTw3, lostTw3Taps, lostTw3Limits, show Ver.ge .v10 .v11 = false by decide, show Ver.ge .v11 .v11 = true by decide, show Ver.ge .v12 .v11 = true by decide,
      show Ver.ge .v13 .v11 = true by decide, show Ver.ge .v14 .v11 = true by decide, show Ver.ge .v15 .v11 = true by decide]
  · rw [hv]
    simp only [List.append_assoc] at hstep ⊢
    have := readElem_step (v := v) (a := ⟨(keptLeg1 v y.leg1).z, (keptLeg v y.leg2).z, (keptLeg v y.leg3).z, keptRatedU0 v y, y.leg1.side, y.leg2.side, y.leg3.side⟩)
      (mk := buildTw3) (b := keptTw3 v y) h.ident (as := tw3Doc K A v y) ⟨by lk3, by lk3⟩ (by decide) rfl rfl (tw3_root hK h) hstep (fun _ => by
        unfold buildTw3
        have hc : decide (1 < regCount3 ⟨keptSub v y.leg1.sub, keptSub v y.leg2.sub, keptSub v y.leg3.sub⟩) = false := by
          have := h.single
          simp only [List.countP_append] at this
          rw [regCount3_kept]
          simp only [regCount3, regCount_flags]
          simp; omega
        have hc' : check (decide (1 < regCount3 ⟨keptSub v y.leg1.sub, keptSub v y.leg2.sub, keptSub v y.leg3.sub⟩)) = .ok () := by rw [hc, check_false]
        exact (congrArg (fun o => Out.bind o fun _ => Out.ok (keptTw3 v y)) hc').trans rfl)
    exact ⟨fun h1 => this.1 ((lostTaps_nil v y).1 h1), fun h1 => this.2 (Bool.eq_false_iff.2 fun h2 => h1 ((lostTaps_nil v y).2 h2))⟩

theorem three_windings_transformer_kept {K : XCodec} (hK : K.Integers) {A : Anon} (c : Ctx) {y : Tw3} (h : Tw3Ok K A y)
    (ht : c.version ≠ .v10 ∨ (y.leg1.sub.rtc = none ∧ y.leg1.sub.ptc = none ∧ y.leg2.sub.ptc = none ∧ y.leg3.sub.ptc = none)) :
    Kept c.behaviour "threeWindingsTransformer" (writeTw3 K A c y) (readTw3 K A c.version) (keptTw3 c.version y) (lostTw3 c.version y) := by
  obtain ⟨as, body, h1, h2, _⟩ := three_windings_transformer_old_all hK c h
  refine ⟨as, body, h1, h2 ?_⟩
  rcases ht with hv | ⟨a, b, d, e⟩
  · cases hc : c.version <;> first | exact absurd hc hv | rfl
  · cases c.version <;> simp [lostTw3Taps, named, a, b, d, e]

/-- **C87** A three windings transformer is read back as it was written, less what its version does not have; all that is lost of it is reported, but for the rated apparent powers
and dead bands of `rated_s_lost` and `deadband_lost`.  Partial: not in version 1.0 if it has a tap changer for the phase, or for the ratio of the first leg
(`three_windings_transformer_refused`). -/
theorem three_windings_transformer_old_partial {K : XCodec} (hK : K.Integers) {A : Anon} (c : Ctx) {y : Tw3} (h : Tw3Ok K A y)
    (ht : c.version ≠ .v10 ∨ (y.leg1.sub.rtc = none ∧ y.leg1.sub.ptc = none ∧ y.leg2.sub.ptc = none ∧ y.leg3.sub.ptc = none)) :
    ∃ doc, Reports c.behaviour (writeTw3 K A c y) doc (lostTw3 c.version y) ∧ RoundTrip doc (readTw3 K A c.version) (keptTw3 c.version y) :=
  (three_windings_transformer_kept hK c h ht).doc

/-- In version 1.1. -/
example : ∃ doc, Reports .logError (writeTw3 toyX .none ⟨.v11, .logError⟩ someTw3) doc ["apparentPowerLimits1", "apparentPowerLimits2", "apparentPowerLimits3"] ∧
    RoundTrip doc (readTw3 toyX .none .v11) (keptTw3 .v11 someTw3) :=
  three_windings_transformer_old_partial toyX_integers ⟨.v11, .logError⟩ someTw3_ok (.inl (by decide))

/-- In version 1.0: the shunt admittances of the second and of the third leg, and the rated voltage of the star point. -/
example : lostTw3 .v10 { someTw3 with leg1 := someLeg "VL1" none none, leg3 := someLeg "VL3" none none } =
    ["g2", "b2", "g3", "b3", "ratedU0", "apparentPowerLimits1", "apparentPowerLimits2", "apparentPowerLimits3"] := by decide

/-- **C87, violation** In version 1.0 the tap changers that it does not have are reported and, if errors are only logged, written all the same: the reader refuses the element
(`ThreeWindingsTransformerXml.cpp` l. 209-222 and 104-121). -/
theorem three_windings_transformer_refused {K : XCodec} (hK : K.Integers) {A : Anon} {y : Tw3} (h : Tw3Ok K A y)
    (ht : ¬ (y.leg1.sub.rtc = none ∧ y.leg1.sub.ptc = none ∧ y.leg2.sub.ptc = none ∧ y.leg3.sub.ptc = none)) :
    writeTw3 K A ⟨.v10, .throwException⟩ y = .thrown ∧ ∃ doc, writeTw3 K A ⟨.v10, .logError⟩ y = .ok ⟨doc, (lostTw3 .v10 y).reverse⟩ ∧ Refused doc (readTw3 K A .v10) := by
  have hne : lostTw3Taps .v10 y ≠ [] := by
    intro hn
    apply ht
    simp only [lostTw3Taps, List.append_eq_nil_iff] at hn
    obtain ⟨h1, h2, h3, h4⟩ := hn
    have hnm : ∀ {α : Type} (n : String) (o : Option α), named n o = [] → o = none := by
      intro α n o; cases o <;> simp [named]
    exact ⟨hnm _ _ h1, hnm _ _ h2, hnm _ _ h3, hnm _ _ h4⟩
  constructor
  · obtain ⟨_, _, h1, _⟩ := three_windings_transformer_old_all hK (A := A) ⟨.v10, .throwException⟩ h
    refine h1.2 (fun hn => hne ?_) (by simp)
    simp only [lostTw3, List.append_eq_nil_iff] at hn
    exact hn.2.1
  · obtain ⟨_, _, h1, _, h2⟩ := three_windings_transformer_old_all hK (A := A) ⟨.v10, .logError⟩ h
    exact ⟨_, h1.1 (.inr rfl), h2 hne⟩

example : ∃ doc, writeTw3 toyX .none ⟨.v10, .logError⟩ someTw3 = .ok ⟨doc, (lostTw3 .v10 someTw3).reverse⟩ ∧ Refused doc (readTw3 toyX .none .v10) :=
  (three_windings_transformer_refused toyX_integers someTw3_ok (by simp [someTw3, someLeg])).2

/-- **C87** From version 1.5 on nothing is lost, of any equipment. -/
theorem version_15_whole :
    (∀ x, keptBbs .v15 x = x) ∧ (∀ x, keptSvc .v15 x = x ∧ lostSvc .v15 x = []) ∧ (∀ sub x, keptDl sub .v15 x = x ∧ lostDl .v15 x = []) ∧
    (∀ x, keptLine .v15 x = x ∧ lostBranch .v15 x.lims = []) ∧ (∀ x, keptTie .v15 x = x) ∧ (∀ x, keptTw2 .v15 x = x) ∧ (∀ x, keptTw3 .v15 x = x ∧ lostTw3 .v15 x = []) := by
  have hr : (keptRtc .v15) = id := rfl
  have hp : (keptPtc .v15) = id := rfl
  refine ⟨fun _ => rfl, fun _ => ⟨rfl, rfl⟩, fun _ _ => ⟨rfl, rfl⟩, fun _ => ⟨rfl, rfl⟩, fun _ => rfl, fun x => ?_, fun x => ⟨?_, rfl⟩⟩
  · simp only [keptTw2, hr, hp, Option.map_id]
    rfl
  · simp only [keptTw3, keptLeg1, keptLeg, keptSub, hr, hp, Option.map_id]
    rfl

end Verif.XmlOld
