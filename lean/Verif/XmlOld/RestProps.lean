import Verif.XmlOld.NetSpec
import Verif.XmlOld.TransformersProps
import Verif.XmlNet.LevelsProps

/-!
C88: the equipment, the buses and the switches that were missing, written in any version of IIDM-XML with any behaviour on what the version does not have.
-/

namespace Verif.XmlOld

open Verif Verif.Xml Verif.XmlNet

/-! ### Equipment that is written in the same way in all versions -/

theorem load_kept {K : XCodec} (hK : K.Integers) {A : Anon} (c : Ctx) {x : Load} (h : XmlNet.LoadOk K A x) :
    Kept c.behaviour "load" (writeLoad K A c x) (readLoad K A c.version) (keptLoad c.version x) [] := by
  obtain ⟨k, hk1, hk2⟩ := Enums.value_round_trip (names := Enums.loadType.names) (by decide) h.kind
  have hk0 : k ≠ "" := by
    rintro rfl
    rw [show Enums.fromString Enums.loadType.names "" = .thrown by decide] at hk2
    cases hk2
  refine ⟨_, _, by unfold writeLoad; rw [hk1, Out.bind_ok]; exact reports_elem (l := []) (m := []) (Reports.plain _ _) (Reports.plain _ _), ?_⟩
  refine readElem_rt (a := (x.kind, x.p0, x.q0, x.term)) h.ident ⟨by lk loadAttrs, by lk loadAttrs⟩ (by decide) rfl rfl (fun e tl => ?_) (body_nil _ _ _ _ _) rfl
  unfold readLoadRoot
  have hty : optSOr "loadType" "" (.start "load" (headAttrs A c.version x.ident.head ++ loadAttrs K A k x) e :: tl) = .ok k := by
    have : lookup "loadType" (headAttrs A c.version x.ident.head ++ loadAttrs K A k x) = some k := by lk loadAttrs
    simp [optSOr, rawAttr, this]
  simp only [hty, Out.monad_bind_ok, if_neg hk0, hk2]
  rw [getD_at (d := x.p0) (by lk loadAttrs) h.p0.1 h.p0.2, getD_at (d := x.q0) (by lk loadAttrs) h.q0.1 h.q0.2,
    readPlace_at hK.naturals (pl := x.term.place) ⟨by lk loadAttrs, by lk loadAttrs, by lk loadAttrs⟩ h.term.place]
  simp only [Out.monad_bind_ok, h.p0.1, h.q0.1, check_false]
  rw [readTerm_at (t := x.term) (by lk loadAttrs) (by lk loadAttrs) h.term.p h.term.q]
  rfl

/-- **C88** A load is read back as it was written, less what its version does not have of all identifiables; nothing is reported. -/
theorem load_old {K : XCodec} (hK : K.Integers) {A : Anon} (c : Ctx) {x : Load} (h : XmlNet.LoadOk K A x) :
    ∃ doc, Reports c.behaviour (writeLoad K A c x) doc [] ∧ RoundTrip doc (readLoad K A c.version) (keptLoad c.version x) := (load_kept hK c h).doc

/-- In version 1.3, with the aliases but not their types. -/
example : ∃ doc, Reports .throwException (writeLoad toyX .none ⟨.v13, .throwException⟩ someLoad) doc [] ∧
    RoundTrip doc (readLoad toyX .none .v13) { someLoad with ident := ⟨⟨"L", "load", true⟩, [("alias", ""), ("other", "")], [("k", "v")]⟩ } :=
  load_old toyX_integers ⟨.v13, .throwException⟩ someLoad_ok

theorem generator_kept {K : XCodec} (hK : K.Integers) {A : Anon} (c : Ctx) {x : Gen} (h : GenOk K A x) :
    Kept c.behaviour "generator" (writeGen K A c x) (readGen K A c.version) (keptGen c.version x) [] := by
  obtain ⟨k, hk1, hk2⟩ := Enums.value_round_trip (names := Enums.energySource.names) (by decide) h.source
  refine ⟨_, _, by unfold writeGen; rw [hk1, Out.bind_ok]; exact reports_elem (l := []) (m := []) (Reports.plain _ _) (Reports.plain _ _), ?_⟩
  refine readElem_rt (a := ⟨x.source, x.minP, x.maxP, x.ratedS, x.on, x.targetP, x.targetV, x.targetQ, x.term⟩) (s1 := (x.reg, x.limits)) h.ident ⟨by lk genAttrs, by lk genAttrs⟩
    (by decide) rfl rfl (fun e tl => ?_) ?_ rfl
  · unfold readGenRoot
    rw [getS_attr (v := k) (by lk genAttrs)]
    simp only [hk2, Out.monad_bind_ok]
    rw [getD_at (d := x.minP) (by lk genAttrs) h.minP.1 h.minP.2, getD_at (d := x.maxP) (by lk genAttrs) h.maxP.1 h.maxP.2, optDOr_attr (d := x.ratedS) (by lk genAttrs) h.ratedS.2,
      getB_attr (b := x.on) (by lk genAttrs), getD_at (d := x.targetP) (by lk genAttrs) h.targetP.1 h.targetP.2, optDOr_attr (d := x.targetV) (by lk genAttrs) h.targets.1,
      optDOr_attr (d := x.targetQ) (by lk genAttrs) h.targets.2, readPlace_at hK.naturals (pl := x.term.place) ⟨by lk genAttrs, by lk genAttrs, by lk genAttrs⟩ h.term.place]
    simp only [Out.monad_bind_ok, h.minP.1, h.maxP.1, h.targetP.1, h.range, check_false, checkControl_ok h.control, checkRatedS_ok h.ratedS.1]
    rw [readTerm_at (t := x.term) (by lk genAttrs) (by lk genAttrs) h.term.p h.term.q]
    rfl
  · have h1 := ref_body (A := A) (v := c.version) (h := genSub K A) (root := "generator") (el := "regulatingTerminal") (required := false) (set := fun s r => (some r, s.2)) rfl h.reg (none, defaultReactive)
    have h2 := reactive_body (A := A) (v := c.version) (h := genSub K A) (root := "generator") (set := fun s r => (s.1, r)) rfl rfl h.limits (x.reg, defaultReactive)
    refine Body.append ?_ h2
    cases hr : x.reg with
    | none => rw [hr] at h1; exact h1
    | some r => rw [hr] at h1; exact h1

/-- **C88** So is a generator, with its regulating terminal and its reactive limits. -/
theorem generator_old {K : XCodec} (hK : K.Integers) {A : Anon} (c : Ctx) {x : Gen} (h : GenOk K A x) :
    ∃ doc, Reports c.behaviour (writeGen K A c x) doc [] ∧ RoundTrip doc (readGen K A c.version) (keptGen c.version x) := (generator_kept hK c h).doc

example : ∃ doc, Reports .throwException (writeGen toyX .none ⟨.v10, .throwException⟩ someGen) doc [] ∧ RoundTrip doc (readGen toyX .none .v10) someGen :=
  generator_old toyX_integers ⟨.v10, .throwException⟩ someGen_ok

theorem battery_kept {K : XCodec} (hK : K.Integers) {A : Anon} (c : Ctx) {x : Bat} (h : BatOk K A x) :
    Kept c.behaviour "battery" (writeBat K A c x) (readBat K A c.version) (keptBat c.version x) [] := by
  refine ⟨_, _, reports_elem (l := []) (m := []) (Reports.plain _ _) (Reports.plain _ _), ?_⟩
  refine readElem_rt (a := (x.p0, x.q0, x.minP, x.maxP, x.term)) (s1 := x.limits) h.ident ⟨by lk batAttrs, by lk batAttrs⟩ (by decide) rfl rfl (fun e tl => ?_) ?_ rfl
  · unfold readBatRoot
    rw [getD_at (d := x.p0) (by lk batAttrs) h.p0.1 h.p0.2, getD_at (d := x.q0) (by lk batAttrs) h.q0.1 h.q0.2, getD_at (d := x.minP) (by lk batAttrs) h.minP.1 h.minP.2,
      getD_at (d := x.maxP) (by lk batAttrs) h.maxP.1 h.maxP.2, readPlace_at hK.naturals (pl := x.term.place) ⟨by lk batAttrs, by lk batAttrs, by lk batAttrs⟩ h.term.place]
    simp only [Out.monad_bind_ok, h.p0.1, h.q0.1, h.minP.1, h.maxP.1, h.range, check_false]
    rw [readTerm_at (t := x.term) (by lk batAttrs) (by lk batAttrs) h.term.p h.term.q]
    rfl
  · exact reactive_body (A := A) (h := holderSub K) (root := "battery") (set := fun _ r => r) rfl rfl h.limits defaultReactive

/-- **C88** So is a battery. -/
theorem battery_old {K : XCodec} (hK : K.Integers) {A : Anon} (c : Ctx) {x : Bat} (h : BatOk K A x) :
    ∃ doc, Reports c.behaviour (writeBat K A c x) doc [] ∧ RoundTrip doc (readBat K A c.version) (keptBat c.version x) := (battery_kept hK c h).doc

example : ∃ doc, Reports .throwException (writeBat toyX .none ⟨.v11, .throwException⟩ someBat) doc [] ∧ RoundTrip doc (readBat toyX .none .v11) someBat :=
  battery_old toyX_integers ⟨.v11, .throwException⟩ someBat_ok

theorem lcc_kept {K : XCodec} (hK : K.Integers) {A : Anon} (c : Ctx) {x : Lcc} (h : LccOk K A x) :
    Kept c.behaviour "lccConverterStation" (writeLcc K A c x) (readLcc K A c.version) (keptLcc c.version x) [] := by
  obtain ⟨hl1, hl2⟩ := checkLoss_ok h.lossFactor.1
  refine ⟨_, _, reports_elem (l := []) (m := []) (Reports.plain _ _) (Reports.plain _ _), ?_⟩
  refine readElem_rt (a := (x.lossFactor, x.powerFactor, x.term)) h.ident ⟨by lk lccAttrs, by lk lccAttrs⟩ (by decide) rfl rfl (fun e tl => ?_) (body_nil _ _ _ _ _) rfl
  unfold readLccRoot
  rw [getD_at (d := x.lossFactor) (by lk lccAttrs) hl1 h.lossFactor.2, optDOr_attr (d := x.powerFactor) (by lk lccAttrs) h.powerFactor.2,
    readPlace_at hK.naturals (pl := x.term.place) ⟨by lk lccAttrs, by lk lccAttrs, by lk lccAttrs⟩ h.term.place]
  simp only [Out.monad_bind_ok, hl2, checkPowerFactor_ok h.powerFactor.1]
  rw [readTerm_at (t := x.term) (by lk lccAttrs) (by lk lccAttrs) h.term.p h.term.q]
  rfl

/-- **C88** So is an LCC converter station. -/
theorem lcc_old {K : XCodec} (hK : K.Integers) {A : Anon} (c : Ctx) {x : Lcc} (h : LccOk K A x) :
    ∃ doc, Reports c.behaviour (writeLcc K A c x) doc [] ∧ RoundTrip doc (readLcc K A c.version) (keptLcc c.version x) := (lcc_kept hK c h).doc

example : ∃ doc, Reports .throwException (writeLcc toyX .none ⟨.v10, .throwException⟩ someLcc) doc [] ∧ RoundTrip doc (readLcc toyX .none .v10) someLcc :=
  lcc_old toyX_integers ⟨.v10, .throwException⟩ someLcc_ok

theorem vsc_kept {K : XCodec} (hK : K.Integers) {A : Anon} (c : Ctx) {x : Vsc} (h : VscOk K A x) :
    Kept c.behaviour "vscConverterStation" (writeVsc K A c x) (readVsc K A c.version) (keptVsc c.version x) [] := by
  obtain ⟨hl1, hl2⟩ := checkLoss_ok h.lossFactor.1
  refine ⟨_, _, reports_elem (l := []) (m := []) (Reports.plain _ _) (Reports.plain _ _), ?_⟩
  refine readElem_rt (a := (x.on, x.lossFactor, x.voltage, x.reactive, x.term)) (s1 := x.limits) h.ident ⟨by lk vscAttrs, by lk vscAttrs⟩ (by decide) rfl rfl (fun e tl => ?_) ?_ rfl
  · unfold readVscRoot
    rw [getB_attr (b := x.on) (by lk vscAttrs), getD_at (d := x.lossFactor) (by lk vscAttrs) hl1 h.lossFactor.2, optDOr_attr (d := x.voltage) (by lk vscAttrs) h.setpoints.1,
      optDOr_attr (d := x.reactive) (by lk vscAttrs) h.setpoints.2, readPlace_at hK.naturals (pl := x.term.place) ⟨by lk vscAttrs, by lk vscAttrs, by lk vscAttrs⟩ h.term.place]
    simp only [Out.monad_bind_ok, hl2, checkControl_ok h.control]
    rw [readTerm_at (t := x.term) (by lk vscAttrs) (by lk vscAttrs) h.term.p h.term.q]
    rfl
  · exact reactive_body (A := A) (h := holderSub K) (root := "vscConverterStation") (set := fun _ r => r) rfl rfl h.limits defaultReactive

/-- **C88** So is a VSC converter station. -/
theorem vsc_old {K : XCodec} (hK : K.Integers) {A : Anon} (c : Ctx) {x : Vsc} (h : VscOk K A x) :
    ∃ doc, Reports c.behaviour (writeVsc K A c x) doc [] ∧ RoundTrip doc (readVsc K A c.version) (keptVsc c.version x) := (vsc_kept hK c h).doc

example : ∃ doc, Reports .throwException (writeVsc toyX .none ⟨.v12, .throwException⟩ someVsc) doc [] ∧ RoundTrip doc (readVsc toyX .none .v12) someVsc :=
  vsc_old toyX_integers ⟨.v12, .throwException⟩ someVsc_ok

theorem hvdc_line_kept {K : XCodec} {A : Anon} (c : Ctx) {y : HvdcLine} (h : HvdcOk K A y) :
    Kept c.behaviour "hvdcLine" (writeHvdc K A c y) (readHvdc K A c.version) (keptHvdc c.version y) [] := by
  obtain ⟨k, hk1, hk2⟩ := Enums.value_round_trip (names := Enums.hvdcLineConvertersMode.names) (by decide) h.mode
  refine ⟨_, _, by unfold writeHvdc; rw [hk1, Out.bind_ok]; exact reports_elem (l := []) (m := []) (Reports.plain _ _) (Reports.plain _ _), ?_⟩
  refine readElem_rt (a := (y.r, y.nominalV, y.mode, y.setpoint, y.maxP, y.station1, y.station2)) h.ident ⟨by lks hvdcAttrs, by lks hvdcAttrs⟩ (by decide) rfl rfl (fun e tl => ?_)
    (body_nil _ _ _ _ _) rfl
  unfold readHvdcRoot
  rw [getD_at (d := y.r) (by lks hvdcAttrs) h.r.1 h.r.2, getD_at (d := y.nominalV) (by lks hvdcAttrs) (Dbl.not_nan_of_lt h.nominalV.1).2 h.nominalV.2, getS_attr (v := k) (by lks hvdcAttrs),
    getD_at (d := y.setpoint) (by lks hvdcAttrs) (Dbl.not_nan_of_le h.setpoint.1).2 h.setpoint.2, getD_at (d := y.maxP) (by lks hvdcAttrs) (Dbl.not_nan_of_le h.maxP.1).2 h.maxP.2,
    getS_attr (v := y.station1) (by lks hvdcAttrs), getS_attr (v := y.station2) (by lks hvdcAttrs)]
  simp only [Out.monad_bind_ok, hk2, h.r.1, check_false, checkNominal_ok h.nominalV.1, checkPositive_ok h.setpoint.1, checkPositive_ok h.maxP.1,
    show (y.station1 == "" || y.station2 == "") = false by simp [h.station1, h.station2]]

/-- **C88** So is an HVDC line. -/
theorem hvdc_line_old {K : XCodec} {A : Anon} (c : Ctx) {y : HvdcLine} (h : HvdcOk K A y) :
    ∃ doc, Reports c.behaviour (writeHvdc K A c y) doc [] ∧ RoundTrip doc (readHvdc K A c.version) (keptHvdc c.version y) := (hvdc_line_kept c h).doc

example : ∃ doc, Reports .throwException (writeHvdc toyX .none ⟨.v10, .throwException⟩ someHvdc) doc [] ∧ RoundTrip doc (readHvdc toyX .none .v10) someHvdc :=
  hvdc_line_old ⟨.v10, .throwException⟩ someHvdc_ok

/-! ### Configured buses -/

theorem bus_kept {K : XCodec} {A : Anon} (c : Ctx) {b : Bus} (h : BusOk K A b) (ha : (keptIdent c.version b.ident).aliases = []) (hp : b.ident.props = []) :
    Kept c.behaviour "bus" (writeBus K A c b) (readBus K A c.version) (keptBus c.version b) [] := by
  refine ⟨_, _, reports_elem (l := []) (m := []) (Reports.plain _ _) (Reports.plain _ _), ?_⟩
  have hdoc : aliasDoc A c.version b.ident ++ (propsCmds b.ident.props ++ []) = [] := by
    rw [hp]
    have : aliasDoc A c.version b.ident = [] := by
      unfold aliasDoc
      cases hc : c.version <;> rw [hc] at ha <;> simp [keptIdent] at ha <;>
        first | exact if_neg (by decide) | (rw [ha]; rfl)
    rw [this]; rfl
  rw [hdoc]
  apply roundTrip_intro
  intro i
  refine ⟨[], emits_nil i, fun rest => ?_⟩
  have h1 := readHead_elem (v := c.version) (x := b.ident) (n := "bus") (e := true) (rest := rest) h.head (as := busAttrs K b) ⟨by lk busAttrs, fun _ => by lk busAttrs⟩
  have h2 : readBusRoot K (.start "bus" (headAttrs A c.version b.ident.head ++ busAttrs K b) true :: rest) = .ok (b.v, b.angle) := by
    unfold readBusRoot
    rw [optDOr_attr (d := b.v) (by lk busAttrs) h.v.2, optDOr_attr (d := b.angle) (by lk busAttrs) h.angle]
    simp only [Out.monad_bind_ok, checkVoltage_ok h.v.1]
  have h3 : keptIdent c.version b.ident = ⟨(keptIdent c.version b.ident).head, [], []⟩ := by
    have hq : (keptIdent c.version b.ident).props = [] := by rw [keptIdent_props, hp]
    cases hi : keptIdent c.version b.ident
    rw [hi] at ha hq
    cases ha; cases hq; rfl
  show readBus K A c.version (.start "bus" (headAttrs A c.version b.ident.head ++ busAttrs K b) true :: rest) = .ok (_, .start "bus" _ true :: rest)
  unfold readBus readElem
  simp only [h1, h2, Out.monad_bind_ok, readUntilEnd, keptBus]
  rw [← h3]

/-- **C88** So is a configured bus without properties nor, from version 1.3 on, aliases.  Missing: the others, as in version 1.5 (`decorated_bus_unreadable`). -/
theorem bus_old_partial {K : XCodec} {A : Anon} (c : Ctx) {b : Bus} (h : BusOk K A b) (ha : (keptIdent c.version b.ident).aliases = []) (hp : b.ident.props = []) :
    ∃ doc, Reports c.behaviour (writeBus K A c b) doc [] ∧ RoundTrip doc (readBus K A c.version) (keptBus c.version b) := (bus_kept c h ha hp).doc

/-- In version 1.2 the aliases of a bus are dropped, and the bus is read back. -/
example : ∃ doc, Reports .throwException (writeBus toyX .none ⟨.v12, .throwException⟩ { someBus with ident := ⟨⟨"B", "bus 1", true⟩, [("other", "")], []⟩ }) doc [] ∧
    RoundTrip doc (readBus toyX .none .v12) { someBus with ident := ⟨⟨"B", "bus 1", true⟩, [], []⟩ } :=
  bus_old_partial (K := toyX) ⟨.v12, .throwException⟩ (b := { someBus with ident := ⟨⟨"B", "bus 1", true⟩, [("other", "")], []⟩ })
    ⟨none_head _, ⟨.inr (by decide), toyX_keeps _⟩, toyX_keeps _⟩ rfl rfl

/-! ### Switches -/

theorem le11 (v : Ver) : v.le .v11 = !v.ge .v12 := by cases v <;> rfl

theorem readFlag_at {v : Ver} {x : Ident} {n : String} {as : List (String × String)} {e : Bool} {tl : List Tok}
    (h : v.ge .v12 = false → lookup "fictitious" as = if x.head.fictitious then some "true" else none) :
    ∃ f, readFlag v (.start n as e :: tl) = .ok f ∧ setFlag (keptIdent v x) f = keptSwitch v x := by
  unfold readFlag runUntilMaximumVersion
  rw [le11]
  cases hv : v.ge .v12 with
  | true =>
    refine ⟨none, rfl, ?_⟩
    cases v <;> first | rfl | exact absurd hv (by decide)
  | false =>
    refine ⟨some x.head.fictitious, ?_, ?_⟩
    · have := h hv
      cases hf : x.head.fictitious <;> simp [hf] at this <;> simp [optBOr, rawAttr, this, Out.map] <;> rfl
    · cases v <;> first | rfl | exact absurd hv (by decide)

macro "lkw" : tactic =>
  `(tactic| simp [swAttrs, lookup_append, lookup_cons, lookup_nil, lookup_attrB, lookup_attrN, lookup_headAttrs, lookup_attrOptB, lookup_ite])

theorem node_switch_kept {K : XCodec} (hK : K.Integers) {A : Anon} (c : Ctx) {x : NSw} (h : NSwOk A x) :
    Kept c.behaviour "switch" (writeNSw K A c x) (readNSw K A c.version) (keptNSw c.version x) [] := by
  obtain ⟨k, hk1, hk2⟩ := Enums.value_round_trip (names := Enums.switchKind.names) (by decide) h.kind
  have hrep := reports_elem (A := A) (c := c) (root := "switch") (x := x.ident) (m := [])
    ((Reports.plain c.behaviour (swAttrs k x.retained x.opened)).andThen ((reports_until c.behaviour .v11 c.version (attrOptB "fictitious" x.ident.head.fictitious false)).andThen
      (Reports.plain c.behaviour (attrN K.toCodec "node1" x.node1 ++ attrN K.toCodec "node2" x.node2)))) (Reports.plain c.behaviour [])
  refine ⟨_, _, by unfold writeNSw; rw [hk1, Out.bind_ok]; exact hrep, ?_⟩
  generalize c.version = v
  have hno : NoHeadIn v (swAttrs k x.retained x.opened ++ ((if v.le .v11 then attrOptB "fictitious" x.ident.head.fictitious false else []) ++
      (attrN K.toCodec "node1" x.node1 ++ attrN K.toCodec "node2" x.node2))) :=
    ⟨by lkw, fun hv => by rw [le11, hv]; lkw⟩
  have hset : ∃ f, (∀ n e tl, readFlag v (.start n (headAttrs A v x.ident.head ++ (swAttrs k x.retained x.opened ++ ((if v.le .v11 then attrOptB "fictitious" x.ident.head.fictitious false else []) ++
      (attrN K.toCodec "node1" x.node1 ++ attrN K.toCodec "node2" x.node2)))) e :: tl) = .ok f) ∧ setFlag (keptIdent v x.ident) f = keptSwitch v x.ident := by
    obtain ⟨f, h1, h2⟩ := readFlag_at (v := v) (x := x.ident) (n := "") (e := true) (tl := [])
      (as := headAttrs A v x.ident.head ++ (swAttrs k x.retained x.opened ++ ((if v.le .v11 then attrOptB "fictitious" x.ident.head.fictitious false else []) ++
        (attrN K.toCodec "node1" x.node1 ++ attrN K.toCodec "node2" x.node2)))) (fun hv => by rw [le11, hv]; cases x.ident.head.fictitious <;> lkw <;> simp [hv])
    exact ⟨f, fun n e tl => h1, h2⟩
  obtain ⟨f, hf1, hf2⟩ := hset
  unfold readNSw
  refine readElem_rt_in (a := ((x.opened, x.kind, x.retained, x.node1, x.node2), f)) (s1 := ()) h.ident hno (by decide) rfl rfl (fun e tl => ?_) (body_nil _ _ _ _ _) (by simp only [hf2]; rfl)
  have hr : readNSwRoot K (.start "switch" (headAttrs A v x.ident.head ++ (swAttrs k x.retained x.opened ++ ((if v.le .v11 then attrOptB "fictitious" x.ident.head.fictitious false else []) ++
      (attrN K.toCodec "node1" x.node1 ++ attrN K.toCodec "node2" x.node2)))) e :: tl) = .ok (x.opened, x.kind, x.retained, x.node1, x.node2) := by
    unfold readNSwRoot
    rw [getB_attr (b := x.opened) (by lkw), getS_attr (v := k) (by lkw), getB_attr (b := x.retained) (by lkw), getN_attr hK.naturals (d := x.node1) (by lkw) h.node1,
      getN_attr hK.naturals (d := x.node2) (by lkw) h.node2]
    simp only [Out.monad_bind_ok, hk2]
  simp only [hr, hf1, Out.monad_bind_ok]

/-- **C88** A switch of a node/breaker voltage level is read back as it was written, less the aliases that its version does not have; its flag is kept in all versions. -/
theorem node_switch_old {K : XCodec} (hK : K.Integers) {A : Anon} (c : Ctx) {x : NSw} (h : NSwOk A x) :
    ∃ doc, Reports c.behaviour (writeNSw K A c x) doc [] ∧ RoundTrip doc (readNSw K A c.version) (keptNSw c.version x) := (node_switch_kept hK c h).doc

/-- A fictitious switch, in version 1.0. -/
example : ∃ doc, Reports .throwException (writeNSw toyX .none ⟨.v10, .throwException⟩ someNSw) doc [] ∧
    RoundTrip doc (readNSw toyX .none .v10) { someNSw with ident := ⟨⟨"S", "", true⟩, [], [("k", "v")]⟩ } :=
  node_switch_old toyX_integers ⟨.v10, .throwException⟩ someNSw_ok

theorem bus_switch_kept {A : Anon} (c : Ctx) {x : BSw} (h : BSwOk A x) : Kept c.behaviour "switch" (writeBSw A c x) (readBSw A c.version) (keptBSw c.version x) [] := by
  obtain ⟨k, hk1, hk2⟩ := Enums.value_round_trip (names := Enums.switchKind.names) (v := 0) (by decide) (by decide)
  have hrep := reports_elem (A := A) (c := c) (root := "switch") (x := x.ident) (m := [])
    ((Reports.plain c.behaviour (swAttrs k true x.opened)).andThen ((reports_until c.behaviour .v11 c.version (attrOptB "fictitious" x.ident.head.fictitious false)).andThen
      (Reports.plain c.behaviour [("bus1", A.anon x.bus1), ("bus2", A.anon x.bus2)]))) (Reports.plain c.behaviour [])
  refine ⟨_, _, by unfold writeBSw; rw [hk1, Out.bind_ok]; exact hrep, ?_⟩
  generalize c.version = v
  have hno : NoHeadIn v (swAttrs k true x.opened ++ ((if v.le .v11 then attrOptB "fictitious" x.ident.head.fictitious false else []) ++ [("bus1", A.anon x.bus1), ("bus2", A.anon x.bus2)])) :=
    ⟨by lkw, fun hv => by rw [le11, hv]; lkw⟩
  have hset : ∃ f, (∀ n e tl, readFlag v (.start n (headAttrs A v x.ident.head ++ (swAttrs k true x.opened ++ ((if v.le .v11 then attrOptB "fictitious" x.ident.head.fictitious false else []) ++
      [("bus1", A.anon x.bus1), ("bus2", A.anon x.bus2)]))) e :: tl) = .ok f) ∧ setFlag (keptIdent v x.ident) f = keptSwitch v x.ident := by
    obtain ⟨f, h1, h2⟩ := readFlag_at (v := v) (x := x.ident) (n := "") (e := true) (tl := [])
      (as := headAttrs A v x.ident.head ++ (swAttrs k true x.opened ++ ((if v.le .v11 then attrOptB "fictitious" x.ident.head.fictitious false else []) ++
        [("bus1", A.anon x.bus1), ("bus2", A.anon x.bus2)]))) (fun hv => by rw [le11, hv]; cases x.ident.head.fictitious <;> lkw <;> simp [hv])
    exact ⟨f, fun n e tl => h1, h2⟩
  obtain ⟨f, hf1, hf2⟩ := hset
  unfold readBSw
  refine readElem_rt_in (a := ((x.opened, x.bus1, x.bus2), f)) (s1 := ()) h.ident hno (by decide) rfl rfl (fun e tl => ?_) (body_nil _ _ _ _ _) (by simp only [hf2]; rfl)
  have h1 : A.dean (A.anon x.bus1) = .ok x.bus1 := h.bus1.2
  have h2 : A.dean (A.anon x.bus2) = .ok x.bus2 := h.bus2.2
  have hr : readBSwRoot A (.start "switch" (headAttrs A v x.ident.head ++ (swAttrs k true x.opened ++ ((if v.le .v11 then attrOptB "fictitious" x.ident.head.fictitious false else []) ++
      [("bus1", A.anon x.bus1), ("bus2", A.anon x.bus2)]))) e :: tl) = .ok (x.opened, x.bus1, x.bus2) := by
    unfold readBSwRoot
    rw [getB_attr (b := x.opened) (by lkw), getS_attr (v := A.anon x.bus1) (by lkw), getS_attr (v := A.anon x.bus2) (by lkw)]
    simp only [Out.monad_bind_ok, h1, h2, beq_eq_false_iff_ne.2 h.bus1.1, beq_eq_false_iff_ne.2 h.bus2.1, check_false]
  simp only [hr, hf1, Out.monad_bind_ok]

/-- **C88** So is a switch of a bus/breaker voltage level. -/
theorem bus_switch_old {A : Anon} (c : Ctx) {x : BSw} (h : BSwOk A x) :
    ∃ doc, Reports c.behaviour (writeBSw A c x) doc [] ∧ RoundTrip doc (readBSw A c.version) (keptBSw c.version x) := (bus_switch_kept c h).doc

/-- A fictitious switch, in version 1.1. -/
example : ∃ doc, Reports .throwException (writeBSw .none ⟨.v11, .throwException⟩ { someBSw with ident := ⟨⟨"S", "coupler", true⟩, [], []⟩ }) doc [] ∧
    RoundTrip doc (readBSw .none .v11) { someBSw with ident := ⟨⟨"S", "coupler", true⟩, [], []⟩ } :=
  bus_switch_old ⟨.v11, .throwException⟩ (x := { someBSw with ident := ⟨⟨"S", "coupler", true⟩, [], []⟩ }) ⟨plain_ident, ⟨by decide, rfl⟩, ⟨by decide, rfl⟩⟩

/-! ### Shunt compensators -/

/-- The attributes of the model until version 1.2. -/
def shOldDoc (K : XCodec) (m : Shunt.Model × Nat) : List (String × String) :=
  match m.1 with
  | .linear b _ max => attrD K.toCodec "bPerSection" b ++ (attrN K.toCodec "maximumSectionCount" max ++ attrN K.toCodec "currentSectionCount" m.2)
  | .nonLinear _ => []

/-- The attributes that are written. -/
def shDoc (K : XCodec) (A : Anon) (v : Ver) (x : Sh) : List (String × String) :=
  (if v.le .v12 then shOldDoc K (keptModel v x.model x.per.count) else []) ++ ((if v.ge .v13 then attrN K.toCodec "sectionCount" x.per.count else []) ++
    ((if v.ge .v12 then attrB "voltageRegulatorOn" x.per.on else []) ++ ((if v.ge .v12 then attrD K.toCodec "targetV" x.per.targetV else []) ++
      ((if v.ge .v12 then attrD K.toCodec "targetDeadband" x.per.deadband else []) ++ (placeAttrs K A "" x.term.place ++ pqAttrs K "" x.term)))))

theorem getB_inService {ss : List Shunt.Section} {n : Nat} (h : n ≤ ss.length) : (Shunt.Model.nonLinear ss).getB n = .ok (inService ss n) := by
  cases n with
  | zero => rfl
  | succ n =>
    have : ss[n]? = some ss[n] := List.getElem?_eq_getElem (by omega)
    simp only [Shunt.Model.getB, if_neg (show ¬ ss.length < n + 1 by omega)]
    simp [inService, this]

/-- The model, in a version that does not have non linear ones. -/
theorem keptModel_old {v : Ver} (hv : v.le .v12 = true) (m : Shunt.Model) (n : Nat) :
    keptModel v m n = match m with | .linear b _ max => (.linear b .nan max, n) | .nonLinear ss => (.linear (inService ss n) .nan 1, 1) := by
  cases v <;> first | exact absurd hv (by decide) | (cases m <;> rfl)

theorem keptModel_new {v : Ver} (hv : v.le .v12 = false) (m : Shunt.Model) (n : Nat) : keptModel v m n = (m, n) := by
  cases v <;> first | exact absurd hv (by decide) | rfl

theorem reports_shOld (K : XCodec) (b : Behaviour) {v : Ver} {x : Sh} (h : x.per.count ≤ x.model.maximum) :
    Reports b (runUntilMaximumVersion .v12 v (fun w => (shuntOldAttrs K.toCodec x.model x.per).map fun as => { w with doc := w.doc ++ as }) start)
      (if v.le .v12 then shOldDoc K (keptModel v x.model x.per.count) else []) [] := by
  unfold runUntilMaximumVersion
  cases hv : v.le .v12 with
  | false => exact ⟨fun _ => rfl, fun h => absurd rfl h⟩
  | true =>
    refine ⟨fun _ => ?_, fun h => absurd rfl h⟩
    rw [keptModel_old hv]
    cases hm : x.model with
    | linear b g max => simp [shuntOldAttrs, shOldDoc, Out.map, start]
    | nonLinear ss =>
      rw [hm] at h
      have : (Shunt.Model.nonLinear ss).getB x.per.count = .ok (inService ss x.per.count) := getB_inService h
      simp [shuntOldAttrs, shOldDoc, Out.map, start, this]

theorem reports_assertModel (c : Ctx) (m : Shunt.Model) :
    Reports (δ := String × String) c.behaviour (match m with | .nonLinear _ => assertMinimumVersion "shuntNonLinearModel" .v13 c start | .linear _ _ _ => .ok start) [] (lostModel c.version m) := by
  cases m with
  | linear b g max =>
    have : lostModel c.version (.linear b g max) = [] := by cases c.version <;> rfl
    rw [this]
    exact ⟨fun _ => rfl, fun h => absurd rfl h⟩
  | nonLinear ss =>
    have h := reports_since (δ := String × String) "shuntNonLinearModel" .v13 c []
    have h1 : since "shuntNonLinearModel" .v13 c [] = assertMinimumVersion (δ := List (String × String)) "shuntNonLinearModel" .v13 c start := by
      unfold since assertMinimumVersion runFromMinimumVersion createExceptionOrLogError start
      cases c.version <;> cases c.behaviour <;> rfl
    rw [h1] at h
    refine h.cast (by simp) ?_
    cases c.version <;> rfl

theorem reports_on (c : Ctx) (on : Bool) :
    Reports c.behaviour (writeAttributeFromMinimumVersion "voltageRegulatorOn" (on != false) .v12 (fun d => .ok (d ++ attrB "voltageRegulatorOn" on)) c start)
      (if c.version.ge .v12 then attrB "voltageRegulatorOn" on else []) (if !c.version.ge .v12 && on then ["voltageRegulatorOn"] else []) := by
  obtain ⟨v, b⟩ := c
  unfold writeAttributeFromMinimumVersion assertMinimumVersionIfNotDefault assertMinimumVersion createExceptionOrLogError start
  rw [lt_ge]
  cases hv : v.ge .v12 <;> cases on <;> cases b <;> refine ⟨fun h => ?_, fun h h' => ?_⟩ <;> simp_all [Out.map]

theorem lostPer_eq (v : Ver) (p : Shunt.Per) :
    (if !v.ge .v12 && p.on then ["voltageRegulatorOn"] else []) ++ ((if !v.ge .v12 && !isEqual p.targetV .nan then ["targetV"] else []) ++
      (if !v.ge .v12 && !isEqual p.deadband .nan then ["targetDeadband"] else [])) = lostPer v p := by
  have h1 := differs_eq "targetV" p.targetV .nan
  have h2 := differs_eq "targetDeadband" p.deadband .nan
  cases v <;> simp only [lostPer, ← h1, ← h2] <;> simp [show Ver.ge .v10 .v12 = false from rfl, show Ver.ge .v11 .v12 = false from rfl, show Ver.ge .v12 .v12 = true from rfl,
    show Ver.ge .v13 .v12 = true from rfl, show Ver.ge .v14 .v12 = true from rfl, show Ver.ge .v15 .v12 = true from rfl]

theorem reports_shAttrs (K : XCodec) (A : Anon) (c : Ctx) {x : Sh} (h : x.per.count ≤ x.model.maximum) :
    Reports c.behaviour (shAttrs K A c x) (shDoc K A c.version x) (lostModel c.version x.model ++ lostPer c.version x.per) := by
  have := (reports_assertModel c x.model).andThen ((reports_shOld K c.behaviour (v := c.version) h).andThen ((reports_run c.behaviour .v13 c.version (attrN K.toCodec "sectionCount" x.per.count)).andThen
    ((reports_on c x.per.on).andThen ((reports_attrSince K "targetV" x.per.targetV .nan .v12 c).andThen ((reports_attrSince K "targetDeadband" x.per.deadband .nan .v12 c).andThen
      (Reports.plain c.behaviour (placeAttrs K A "" x.term.place ++ pqAttrs K "" x.term)))))))
  exact this.cast rfl (by rw [← lostPer_eq]; simp)

def shBody (K : XCodec) (A : Anon) (v : Ver) (x : Sh) : List Cmd :=
  (if v.ge .v13 then modelCmds K.toCodec x.model else []) ++ refElems A "regulatingTerminal" (keptShReg v x.reg)

theorem reports_shSub (K : XCodec) (A : Anon) (c : Ctx) (x : Sh) :
    Reports c.behaviour (runFromMinimumVersion .v13 c.version (fun w => .ok { w with doc := w.doc ++ modelCmds K.toCodec x.model }) start >+>
      match x.reg with
      | none => plain []
      | some r => since "regulatingTerminal" .v12 c (refElem A "regulatingTerminal" r)) (shBody K A c.version x) (lostShReg c.version x.reg) := by
  cases hr : x.reg with
  | none =>
    refine ((reports_run c.behaviour .v13 c.version (modelCmds K.toCodec x.model)).andThen (Reports.plain c.behaviour [])).cast ?_ ?_
    · rw [shBody, hr]; cases c.version <;> rfl
    · cases c.version <;> rfl
  | some r =>
    refine ((reports_run c.behaviour .v13 c.version (modelCmds K.toCodec x.model)).andThen (reports_since "regulatingTerminal" .v12 c (refElem A "regulatingTerminal" r))).cast ?_ ?_
    · rw [shBody, hr]; cases c.version <;> rfl
    · cases c.version <;> rfl

theorem model_rt {K : Codec} (hN : K.Naturals) {m : Shunt.Model} (hm : ModelWF m) (he : ModelExact K m) {v : Ver} (hv : v.ge .v13 = true) (o : Option Shunt.Model) :
    ∃ n, (n = "shuntLinearModel" ∨ n = "shuntNonLinearModel") ∧ ElemRT n (.ok (modelCmds K m)) (shuntCb K v o) (some m) := by
  have hassert : readAssertMinimumVersion .v13 v = .ok () := by simp [readAssertMinimumVersion, lt_ge, hv]
  cases m with
  | linear b g max =>
    obtain ⟨h1, h2, h3⟩ := hm
    obtain ⟨e1, e2⟩ := he
    refine ⟨_, .inl rfl, _, _, rfl, roundTrip_intro fun i => ⟨[], emits_nil i, fun rest => ?_⟩⟩
    show shuntCb K v o (.start "shuntLinearModel" (attrD K "bPerSection" b ++ (attrD K "gPerSection" g ++ attrN K "maximumSectionCount" max)) true :: rest) = _
    unfold shuntCb
    rw [getD_attr (d := b) (by simp [lookup_append, lookup_attrD, h1]) e1,
      optDOr_attr (d := g) (by cases hg : g.isNan <;> simp [lookup_append, lookup_attrD, lookup_attrN, hg]) e2,
      getN_attr hN (d := max) (by simp [lookup_append, lookup_attrD, lookup_attrN]) h3]
    have : max ≠ 0 := by omega
    simp [localName, hassert, Shunt.buildLinear, Shunt.checkBPerSection, h1, this, Out.map, last1, coreToks]
  | nonLinear ss =>
    refine ⟨_, .inr rfl, _, _, rfl, roundTrip_intro fun i => ?_⟩
    obtain ⟨bt, h1, h2, h3⟩ := sections_read (K := K) "shuntNonLinearModel" i ss [] hm.2 he
    refine ⟨bt, h1, fun rest => ?_⟩
    have hl : localName (coreToks i "shuntNonLinearModel" [] bt ++ rest) = .ok "shuntNonLinearModel" := by
      obtain ⟨e, tl, hc⟩ := core_start i "shuntNonLinearModel" [] bt
      rw [hc]; rfl
    unfold shuntCb
    rw [hl, Out.bind_ok, if_neg (by decide), if_pos rfl, hassert, Out.bind_ok, readUntilEnd_core i (by simpa using h2) (fun hb => by simpa using h3 hb), Out.bind_ok]
    have : ss.isEmpty = false := by cases ss with | nil => exact absurd rfl hm.1 | cons _ _ => rfl
    simp [this]

/-- What the attributes of the model need. -/
theorem keptModel_ok {K : XCodec} {A : Anon} {x : Sh} (h : ShOk K A x) (h0 : K.Exact 0) {v : Ver} (hv : v.le .v12 = true) :
    ∃ b max n, keptModel v x.model x.per.count = (.linear b .nan max, n) ∧ b.isNan = false ∧ K.Exact b ∧ 0 < max ∧ max < 2 ^ 64 ∧ n ≤ max ∧ n < 2 ^ 64 := by
  rw [keptModel_old hv]
  have hm := h.wf.model
  have he := h.exact.model
  have hc := h.wf.count
  cases hx : x.model with
  | linear b g max =>
    rw [hx] at hm he hc
    exact ⟨b, max, _, rfl, hm.1, he.1, hm.2.1, hm.2.2, hc.1, hc.2⟩
  | nonLinear ss =>
    rw [hx] at hm he hc
    refine ⟨_, 1, 1, rfl, ?_, ?_, by decide, by decide, by decide, by decide⟩
    all_goals
      cases hn : x.per.count with
      | zero => first | exact h0 | rfl
      | succ n =>
        have hl : n < ss.length := by have := hc.1; simp only [Shunt.Model.maximum] at this; omega
        simp only [inService, List.getElem?_eq_getElem hl, Option.map_some, Option.getD_some]
        first | exact (he _ (List.getElem_mem hl)).1 | exact (hm.2 _ (List.getElem_mem hl)).1

macro "lkh" : tactic =>
  `(tactic| simp [shDoc, shOldDoc, lookup_append, lookup_cons, lookup_nil, lookup_attrD, lookup_attrB, lookup_attrN, lookup_headAttrs, lookup_place, lookup_ite, pqAttrs])

theorem shDoc_place {K : XCodec} {A : Anon} {v : Ver} {x : Sh} {k : String} (hk : k ∈ ["name", "fictitious", "node", "bus", "connectableBus", "p", "q"]) :
    lookup k (shDoc K A v x) = lookup k (placeAttrs K A "" x.term.place ++ pqAttrs K "" x.term) := by
  simp only [List.mem_cons, List.not_mem_nil, or_false] at hk
  have hold : lookup k (shOldDoc K (keptModel v x.model x.per.count)) = none := by
    unfold shOldDoc
    split
    · rcases hk with rfl | rfl | rfl | rfl | rfl | rfl | rfl <;> simp [lookup_append, lookup_attrD, lookup_attrN]
    · rfl
  unfold shDoc
  rw [lookup_append, lookup_ite, hold]
  rcases hk with rfl | rfl | rfl | rfl | rfl | rfl | rfl <;> simp [lookup_append, lookup_attrD, lookup_attrN, lookup_attrB, lookup_ite, lookup_nil]

/-- What the adder holds once the attributes have been read. -/
def shArgs (v : Ver) (x : Sh) : ShuntArgs :=
  ⟨some (keptModel v x.model x.per.count).2, (keptPer v x.per).on, (keptPer v x.per).targetV, (keptPer v x.per).deadband,
    if v.le .v12 then some (keptModel v x.model x.per.count).1 else none⟩

theorem keptPer_old {v : Ver} (hv : v.ge .v12 = false) (p : Shunt.Per) : keptPer v p = ⟨p.count, false, .nan, .nan⟩ := by
  cases v <;> first | exact absurd hv (by decide) | rfl

theorem keptPer_new {v : Ver} (hv : v.ge .v12 = true) (p : Shunt.Per) : keptPer v p = p := by
  cases v <;> first | exact absurd hv (by decide) | rfl

theorem sh_regulation {K : XCodec} {A : Anon} {v : Ver} {x : Sh} (h : ShuntExact K.toCodec x.model x.per) (e : Bool) (tl : List Tok) :
    readRegulation K.toCodec v (.start "shunt" (headAttrs A v x.ident.head ++ shDoc K A v x) e :: tl) ⟨none, false, .nan, .nan, none⟩ =
      .ok ⟨none, (keptPer v x.per).on, (keptPer v x.per).targetV, (keptPer v x.per).deadband, none⟩ := by
  unfold readRegulation runFromMinimumVersion
  cases hv : v.ge .v12 with
  | false => rw [if_neg (by simp), keptPer_old hv]
  | true =>
    have hold : ∀ k ∈ ["voltageRegulatorOn", "targetV", "targetDeadband"], lookup k (shOldDoc K (keptModel v x.model x.per.count)) = none := by
      intro k hk
      simp only [List.mem_cons, List.not_mem_nil, or_false] at hk
      unfold shOldDoc
      split
      · rcases hk with rfl | rfl | rfl <;> simp [lookup_append, lookup_attrD, lookup_attrN]
      · rfl
    rw [if_pos rfl, keptPer_new hv]
    rw [optBOr_attr (b := x.per.on), optDOr_attr (d := x.per.targetV) _ h.targetV, optDOr_attr (d := x.per.deadband) _ h.deadband]
    · rfl
    all_goals
      simp only [shDoc, lookup_append, lookup_ite, hv]
      rw [hold _ (by simp)]
      simp [lookup_headAttrs, lookup_attrN, lookup_attrB, lookup_attrD, lookup_nil, lookup_place, lookup_append, pqAttrs]

theorem sh_root {K : XCodec} (hK : K.Integers) {A : Anon} {v : Ver} {x : Sh} (h : ShOk K A x) (h0 : K.Exact 0) (e : Bool) (tl : List Tok) :
    readShRoot K A v (.start "shunt" (headAttrs A v x.ident.head ++ shDoc K A v x) e :: tl) = .ok (shArgs v x, x.term) := by
  unfold readShRoot
  rw [sh_regulation h.exact]
  simp only [Out.monad_bind_ok]
  have hmodel : ((readOldModel K.toCodec v (.start "shunt" (headAttrs A v x.ident.head ++ shDoc K A v x) e :: tl)
      ⟨none, (keptPer v x.per).on, (keptPer v x.per).targetV, (keptPer v x.per).deadband, none⟩).bind
        fun a => readCount K.toCodec v (.start "shunt" (headAttrs A v x.ident.head ++ shDoc K A v x) e :: tl) a) = .ok (shArgs v x) := by
    unfold readOldModel readCount runUntilMaximumVersion runFromMinimumVersion shArgs
    cases hv : v.le .v12 with
    | true =>
      obtain ⟨b, max, n, hk, h1, h2, h3, h4, h5, h6⟩ := keptModel_ok h h0 hv
      have h13 : v.ge .v13 = false := by rw [le12] at hv; simpa using hv
      have hmax : max ≠ 0 := by omega
      have hd : shDoc K A v x = attrD K.toCodec "bPerSection" b ++ (attrN K.toCodec "maximumSectionCount" max ++ (attrN K.toCodec "currentSectionCount" n ++
          ((if v.ge .v12 then attrB "voltageRegulatorOn" x.per.on else []) ++ ((if v.ge .v12 then attrD K.toCodec "targetV" x.per.targetV else []) ++
            ((if v.ge .v12 then attrD K.toCodec "targetDeadband" x.per.deadband else []) ++ (placeAttrs K A "" x.term.place ++ pqAttrs K "" x.term)))))) := by
        simp [shDoc, hv, h13, hk, shOldDoc]
      rw [if_pos rfl, hd, hk]
      rw [getD_attr (d := b) (by simp [lookup_append, lookup_headAttrs, lookup_attrD, h1]) h2,
        getN_attr hK.naturals (d := max) (by simp [lookup_append, lookup_headAttrs, lookup_attrD, lookup_attrN]) h4,
        getN_attr hK.naturals (d := n) (by simp [lookup_append, lookup_headAttrs, lookup_attrD, lookup_attrN]) h6]
      simp [Shunt.buildLinear, Shunt.checkBPerSection, h1, hmax, h13]
    | false =>
      have h13 : v.ge .v13 = true := by rw [le12] at hv; simpa using hv
      rw [if_neg (by simp), keptModel_new hv, Out.bind_ok, if_pos h13]
      rw [getN_attr hK.naturals (d := x.per.count) (by simp [shDoc, hv, h13, lookup_append, lookup_headAttrs, lookup_attrN, lookup_nil]) h.wf.count.2]
      rfl
  have hp : ∀ k ∈ ["name", "fictitious", "node", "bus", "connectableBus", "p", "q"], k ∉ ["name", "fictitious"] →
      lookup k (headAttrs A v x.ident.head ++ shDoc K A v x) = lookup k (placeAttrs K A "" x.term.place ++ pqAttrs K "" x.term) := by
    intro k hk hk'
    rw [lookup_append, shDoc_place hk, lookup_headAttrs]
    simp only [List.mem_cons, List.not_mem_nil, or_false, not_or] at hk hk'
    rcases hk with rfl | rfl | rfl | rfl | rfl | rfl | rfl <;> simp_all
  obtain ⟨a, ha, hb⟩ := Out.bind_eq_ok.1 hmodel
  rw [ha]
  simp only [Out.monad_bind_ok, hb]
  rw [readPlace_at hK.naturals (pl := x.term.place) ⟨by rw [hp _ (by simp) (by simp)]; simp [lookup_append, lookup_place, pqAttrs, lookup_attrD], by
    rw [hp _ (by simp) (by simp)]; simp [lookup_append, lookup_place, pqAttrs, lookup_attrD], by rw [hp _ (by simp) (by simp)]; simp [lookup_append, lookup_place, pqAttrs, lookup_attrD]⟩ h.term.place]
  simp only [Out.monad_bind_ok]
  rw [readTerm_at (t := x.term) (by rw [hp _ (by simp) (by simp)]; simp [lookup_append, lookup_place, pqAttrs, lookup_attrD])
    (by rw [hp _ (by simp) (by simp)]; simp [lookup_append, lookup_place, pqAttrs, lookup_attrD]) h.term.p h.term.q]
  rfl

theorem shunt_body {K : XCodec} (hK : K.Integers) {A : Anon} {v : Ver} {x : Sh} (h : ShOk K A x) :
    Body A v (shSub K A v) "shunt" (shBody K A v x) (none, none) ((if v.ge .v13 then some x.model else none), keptShReg v x.reg) := by
  have hreg : RefOk A (keptShReg v x.reg) := by
    cases v <;> first | exact h.reg | (intro r hr; cases hr)
  have h2 := ref_body (A := A) (v := v) (h := shSub K A v) (root := "shunt") (el := "regulatingTerminal") (required := true) (set := fun s r => (s.1, some r)) rfl hreg
    ((if v.ge .v13 then some x.model else none), none)
  refine Body.append (s' := ((if v.ge .v13 then some x.model else none), none)) ?_ ?_
  · cases hv : v.ge .v13 with
    | false => exact body_nil _ _ _ _ _
    | true =>
      obtain ⟨n, hn, as, body, hw, hrt⟩ := model_rt hK.naturals h.wf.model h.exact.model hv none
      simp only [Out.ok.injEq] at hw
      simp only [if_true]
      rw [hw]
      have hh : ∃ cb, shSub K A v n = some cb ∧ ∀ toks r, shuntCb K.toCodec v none toks = .ok (some x.model, r) → cb (none, none) toks = .ok ((some x.model, none), r) := by
        refine ⟨_, (by rcases hn with rfl | rfl <;> rfl), fun toks r hr => ?_⟩
        simp only [hr, Out.monad_bind_ok]
      obtain ⟨cb, h3, h4⟩ := hh
      exact body_item hrt h3 h4
  · cases hr : keptShReg v x.reg with
    | none => rw [hr] at h2; exact h2
    | some r => rw [hr] at h2; exact h2

/-- The shunt compensator that is read back is one that the adder accepts. -/
theorem keptSh_wf {K : XCodec} {A : Anon} {v : Ver} {x : Sh} (h : ShOk K A x) (h0 : K.Exact 0) : ShuntWF (keptSh v x).model (keptSh v x).per := by
  have hper : ∀ n, ({ keptPer v x.per with count := n } : Shunt.Per).on = (keptPer v x.per).on := fun _ => rfl
  have ht : (keptPer v x.per).on = true → Dbl.lt 0 (keptPer v x.per).targetV = true := by
    cases hv : v.ge .v12 with
    | true => rw [keptPer_new hv]; exact h.wf.targetV
    | false => rw [keptPer_old hv]; intro h; cases h
  have hd : ((keptPer v x.per).on = true → (keptPer v x.per).deadband.isNan = false) ∧ Dbl.lt (keptPer v x.per).deadband 0 = false := by
    cases hv : v.ge .v12 with
    | true => rw [keptPer_new hv]; exact h.wf.deadband
    | false => rw [keptPer_old hv]; exact ⟨(by simp), rfl⟩
  cases hv : v.le .v12 with
  | true =>
    obtain ⟨b, max, n, hk, h1, h2, h3, h4, h5, h6⟩ := keptModel_ok h h0 hv
    refine ⟨?_, ?_, ht, hd⟩
    · simp only [keptSh, hk]; exact ⟨h1, h3, h4⟩
    · simp only [keptSh, hk]; exact ⟨h5, h6⟩
  | false =>
    refine ⟨?_, ?_, ht, hd⟩
    · simp only [keptSh, keptModel_new hv]; exact h.wf.model
    · simp only [keptSh, keptModel_new hv]; exact h.wf.count

theorem shunt_kept {K : XCodec} (hK : K.Integers) {A : Anon} (c : Ctx) {x : Sh} (h : ShOk K A x) (h0 : K.Exact 0) :
    Kept c.behaviour "shunt" (writeSh K A c x) (readSh K A c.version) (keptSh c.version x) (lostSh c.version x) := by
  refine ⟨_, _, ((reports_elem (A := A) (root := "shunt") (x := x.ident) (reports_shAttrs K A c h.wf.count.1) (reports_shSub K A c x)).cast rfl (by simp [lostSh])), ?_⟩
  generalize c.version = v
  refine readElem_rt (a := (shArgs v x, x.term)) (s1 := ((if v.ge .v13 then some x.model else none), keptShReg v x.reg)) h.ident
    ⟨by rw [shDoc_place (by simp)]; simp [lookup_append, lookup_place, pqAttrs, lookup_attrD], by rw [shDoc_place (by simp)]; simp [lookup_append, lookup_place, pqAttrs, lookup_attrD]⟩ (by decide) rfl rfl
    (fun e tl => sh_root hK h h0 e tl) (shunt_body hK h) ?_
  have hm : (if v.ge .v13 then some x.model else none).or (shArgs v x).model = some (keptSh v x).model := by
    unfold shArgs keptSh
    cases hv : v.le .v12 with
    | true =>
      have h13 : v.ge .v13 = false := by rw [le12] at hv; simpa using hv
      simp [h13]
    | false =>
      have h13 : v.ge .v13 = true := by rw [le12] at hv; simpa using hv
      simp [h13, keptModel_new hv]
  have hb := wf_build (keptSh_wf (v := v) h h0)
  unfold buildSh
  simp only [hm]
  rw [show Shunt.build (some (keptSh v x).model) (shArgs v x).count (shArgs v x).on (shArgs v x).targetV (shArgs v x).deadband = .ok ((keptSh v x).model, (keptSh v x).per) from hb]
  have hreg : (keptShReg v x.reg).filter (fun r => decide (r.id ≠ "")) = keptShReg v x.reg := by
    cases hr : keptShReg v x.reg with
    | none => rfl
    | some r =>
      have : x.reg = some r := by cases v <;> first | exact hr | cases hr
      have := (h.reg r this).1
      simp [Option.filter, this]
  simp only [Out.monad_bind_ok, hreg]
  rfl

/-- **C88** A shunt compensator is read back as it was written from version 1.3 on; before, as sections of one susceptance without conductance, and before version 1.2
without its regulation.  All that is reported is the non linear model and the regulation.  Partial: the conductance of a linear model is dropped without a word
(`shunt_conductance_dropped`). -/
theorem shunt_old_partial {K : XCodec} (hK : K.Integers) {A : Anon} (c : Ctx) {x : Sh} (h : ShOk K A x) (h0 : K.Exact 0) :
    ∃ doc, Reports c.behaviour (writeSh K A c x) doc (lostSh c.version x) ∧ RoundTrip doc (readSh K A c.version) (keptSh c.version x) := (shunt_kept hK c h h0).doc

/-- In version 1.1 with a log: the first of two sections, which regulates a voltage, becomes a linear model that does not regulate. -/
example : ∃ doc, Reports .logError (writeSh toyX .none ⟨.v11, .logError⟩ someSh) doc ["shuntNonLinearModel", "voltageRegulatorOn", "targetV", "targetDeadband", "regulatingTerminal"] ∧
    RoundTrip doc (readSh toyX .none .v11) ⟨⟨⟨"SH", "", false⟩, [], []⟩, .linear 1 .nan 1, ⟨1, false, .nan, .nan⟩, ⟨.bus "B" true, .nan, 3⟩, none⟩ :=
  shunt_old_partial toyX_integers ⟨.v11, .logError⟩ someSh_ok (toy_exact _)

/-- **C88, violation** Before version 1.3 the conductance of the sections of a linear shunt compensator is dropped without being reported: another shunt compensator is read
back (`ShuntCompensatorXml.cpp` l. 160-163). -/
theorem shunt_conductance_dropped {K : XCodec} (hK : K.Integers) {A : Anon} (b : Behaviour) {x : Sh} {s g : Dbl} {max : Nat} (h : ShOk K A x) (h0 : K.Exact 0) (hm : x.model = .linear s g max) (hg : g ≠ .nan) :
    ∃ doc, writeSh K A ⟨.v12, b⟩ x = .ok ⟨doc, []⟩ ∧ ∃ y, RoundTrip doc (readSh K A .v12) y ∧ y.model = .linear s .nan max ∧ y.model ≠ x.model := by
  obtain ⟨_, _, h1, h2⟩ := shunt_kept hK (A := A) ⟨.v12, b⟩ h h0
  have hl : lostSh .v12 x = [] := by simp [lostSh, hm, lostModel, lostPer, lostShReg]
  rw [show (⟨.v12, b⟩ : Ctx).version = .v12 from rfl] at h1 h2
  rw [hl] at h1
  refine ⟨_, h1.1 (.inl rfl), _, h2, ?_, ?_⟩
  · simp [keptSh, hm, keptModel]
  · simp [keptSh, hm, keptModel, Ne.symm hg]

example : ∃ doc, writeSh toyX .none ⟨.v12, .throwException⟩ { someSh with model := .linear 2 3 4 } = .ok ⟨doc, []⟩ ∧
    ∃ y, RoundTrip doc (readSh toyX .none .v12) y ∧ y.model = .linear 2 .nan 4 ∧ y.model ≠ .linear 2 3 4 :=
  shunt_conductance_dropped (x := { someSh with model := .linear 2 3 4 }) toyX_integers .throwException
    ⟨plain_ident, ⟨⟨by decide, by decide, by decide⟩, ⟨by decide, by decide⟩, by decide, by decide, by decide⟩, ⟨⟨toy_exact _, fun _ => toy_exact _⟩, fun _ => toy_exact _, fun _ => toy_exact _⟩,
      ⟨⟨by decide, rfl⟩, toyX_keeps _, toyX_keeps _⟩, (by rintro r ⟨⟩; exact ⟨by decide, rfl⟩)⟩ (toy_exact _) rfl (by decide)

end Verif.XmlOld
