import Verif.XmlOld.Lemmas
import Verif.XmlNet.InjectionsProps

/-!
C86: equipment with one terminal whose XML depends on the version, written in any version of IIDM-XML with any behaviour on what the version does not have.
-/

namespace Verif.XmlOld

open Verif Verif.Xml Verif.XmlNet

theorem le10 (v : Ver) : v.le .v10 = !v.ge .v11 := by cases v <;> rfl

theorem le12 (v : Ver) : v.le .v12 = !v.ge .v13 := by cases v <;> rfl

/-! ### Busbar sections -/

theorem busbar_section_kept {K : XCodec} (hK : K.Integers) {A : Anon} (c : Ctx) {x : Bbs} {va : Dbl × Dbl} (h : BbsOk A x) (hv : K.Keeps va.1) (ha : K.Keeps va.2) :
    Kept c.behaviour "busbarSection" (writeBbs K A c x va) (readBbs K A c.version) (keptBbs c.version x, keptVoltage c.version va) [] := by
  refine ⟨_, _, reports_elem ((Reports.plain _ _).andThen (reports_until _ _ _ _)) (Reports.plain _ []), ?_⟩
  refine readElem_rt (a := (x.node, keptVoltage c.version va)) h.ident ⟨?_, ?_⟩ (by decide) rfl rfl (fun e tl => ?_) (body_nil _ _ _ _ _) rfl
  · simp [lookup_append, lookup_attrN, lookup_ite, lookup_attrD, lookup_nil]
  · simp [lookup_append, lookup_attrN, lookup_ite, lookup_attrD, lookup_nil]
  · rw [getN_attr hK.naturals (d := x.node) (by simp [lookup_append, lookup_attrN, lookup_ite, lookup_attrD, lookup_nil, lookup_headAttrs]) h.node]
    simp only [Out.monad_bind_ok, runUntilMaximumVersion]
    cases h0 : c.version.le .v10 with
    | false =>
      have : keptVoltage c.version va = none := by cases hc : c.version <;> first | rfl | (rw [hc] at h0; exact absurd h0 (by decide))
      simp [this]
    | true =>
      have : c.version = .v10 := by cases hc : c.version <;> first | rfl | (rw [hc] at h0; exact absurd h0 (by decide))
      simp only [if_true]
      rw [optDOr_attr (d := va.1) (by simp [lookup_append, lookup_attrN, lookup_attrD, lookup_nil, lookup_headAttrs]) hv,
        optDOr_attr (d := va.2) (by simp [lookup_append, lookup_attrN, lookup_attrD, lookup_nil, lookup_headAttrs]) ha]
      rw [this]
      rfl

/-- **C86** A busbar section is read back as it was written, less what its version does not have; in version 1.0 its voltage and angle too. -/
theorem busbar_section_old {K : XCodec} (hK : K.Integers) {A : Anon} (c : Ctx) {x : Bbs} {va : Dbl × Dbl} (h : BbsOk A x) (hv : K.Keeps va.1) (ha : K.Keeps va.2) :
    ∃ doc, Reports c.behaviour (writeBbs K A c x va) doc [] ∧ RoundTrip doc (readBbs K A c.version) (keptBbs c.version x, keptVoltage c.version va) :=
  (busbar_section_kept hK c h hv ha).doc

/-- In version 1.0, with the voltage of its bus. -/
example : ∃ doc, Reports .throwException (writeBbs toyX .none ⟨.v10, .throwException⟩ someBbs (400, .nan)) doc [] ∧
    RoundTrip doc (readBbs toyX .none .v10) (⟨⟨⟨"BBS", "section 1", false⟩, [], []⟩, 7⟩, some (400, .nan)) :=
  busbar_section_old toyX_integers ⟨.v10, .throwException⟩ someBbs_ok (toyX_keeps _) (toyX_keeps _)

/-! ### Static VAR compensators -/

theorem svc_sub {A : Anon} {v : Ver} {x : Svc} (h : RefOk A x.reg) :
    Step A v (svcSub A v) "staticVarCompensator" (refElems A "regulatingTerminal" x.reg) none x.reg (x.reg.isNone || v.ge .v11) := by
  cases hr : x.reg with
  | none => exact (body_nil A v (svcSub A v) "staticVarCompensator" none).step
  | some r =>
    have hrt := ref_rt (A := A) (el := "regulatingTerminal") (h r hr).2 true
    have he : Emitted (refElem A "regulatingTerminal" r) := fun i => by
      unfold refElem at hrt ⊢
      obtain ⟨b, e, tl, h1, _⟩ := roundTrip_item hrt i
      exact ⟨_, h1⟩
    refine ⟨he, fun hg => ?_, fun hg => ?_⟩
    · simp only [Option.isNone_some, Bool.false_or] at hg
      unfold refElem at hrt
      refine body_item (a := r) hrt rfl fun toks rest h1 => ?_
      simp only [onlySince_ok hg, refCb, h1, Out.monad_bind_ok]
    · simp only [Option.isNone_some, Bool.false_or] at hg
      unfold refElem at hrt
      exact fails_item hrt rfl fun toks => onlySince_thrown hg _ _ _

macro "lkv" : tactic =>
  `(tactic| (simp [svcAttrs, lookup_append, lookup_cons, lookup_nil, lookup_attrD, lookup_headAttrs, lookup_place, pqAttrs, voltageName, reactiveName]; try (split <;> simp)))

theorem svc_root {K : XCodec} (hK : K.Integers) {A : Anon} {v : Ver} {x : Svc} (h : SvcOk K A x) {k : String} (hk : Enums.fromString Enums.staticVarCompensatorRegulationMode.names k = .ok x.mode)
    (e : Bool) (tl : List Tok) :
    readSvcRoot K A v (.start "staticVarCompensator" (headAttrs A v x.ident.head ++ svcAttrs K A v k x) e :: tl) = .ok (x.bMin, x.bMax, x.voltage, x.reactive, x.mode, x.term) := by
  cases hv : v.le .v12 with
  | false =>
    unfold readSvcRoot voltageName reactiveName svcAttrs voltageName reactiveName
    simp only [hv, Bool.false_eq_true, if_false]
    change _ = _
    rw [getS_attr (v := k) (by lk svcAttrs), getD_at (d := x.bMin) (by lk svcAttrs) h.bMin.1 h.bMin.2, getD_at (d := x.bMax) (by lk svcAttrs) h.bMax.1 h.bMax.2,
      optDOr_attr (d := x.voltage) (by lk svcAttrs) h.voltage.2, optDOr_attr (d := x.reactive) (by lk svcAttrs) h.reactive.2,
      readPlace_at hK.naturals (pl := x.term.place) ⟨by lk svcAttrs, by lk svcAttrs, by lk svcAttrs⟩ h.term.place]
    simp only [Out.monad_bind_ok, hk, h.bMin.1, h.bMax.1, check_false, checkSvc_ok h.voltage.1 h.reactive.1]
    rw [readTerm_at (t := x.term) (by lk svcAttrs) (by lk svcAttrs) h.term.p h.term.q]
    rfl
  | true =>
    unfold readSvcRoot voltageName reactiveName svcAttrs voltageName reactiveName
    simp only [hv, if_true]
    change _ = _
    rw [getS_attr (v := k) (by lk svcAttrs), getD_at (d := x.bMin) (by lk svcAttrs) h.bMin.1 h.bMin.2, getD_at (d := x.bMax) (by lk svcAttrs) h.bMax.1 h.bMax.2,
      optDOr_attr (d := x.voltage) (by lk svcAttrs) h.voltage.2, optDOr_attr (d := x.reactive) (by lk svcAttrs) h.reactive.2,
      readPlace_at hK.naturals (pl := x.term.place) ⟨by lk svcAttrs, by lk svcAttrs, by lk svcAttrs⟩ h.term.place]
    simp only [Out.monad_bind_ok, hk, h.bMin.1, h.bMax.1, check_false, checkSvc_ok h.voltage.1 h.reactive.1]
    rw [readTerm_at (t := x.term) (by lk svcAttrs) (by lk svcAttrs) h.term.p h.term.q]
    rfl

theorem svc_old {K : XCodec} (hK : K.Integers) {A : Anon} (c : Ctx) {x : Svc} (h : SvcOk K A x) :
    ∃ as body, Reports c.behaviour (writeSvc K A c x) (elemCmds "staticVarCompensator" as body) (lostSvc c.version x) ∧
      ((x.reg.isNone || c.version.ge .v11) = true → RoundTrip (elemCmds "staticVarCompensator" as body) (readSvc K A c.version) (keptSvc c.version x)) ∧
      ((x.reg.isNone || c.version.ge .v11) = false → Refused (elemCmds "staticVarCompensator" as body) (readSvc K A c.version)) := by
  obtain ⟨k, hk1, hk2⟩ := Enums.value_round_trip (names := Enums.staticVarCompensatorRegulationMode.names) (by decide) h.mode
  have hlost : lostSvc c.version x = [] ++ (if x.reg.isSome && !c.version.ge .v11 then ["regulatingTerminal"] else []) := by
    cases hr : x.reg <;> cases hv : c.version <;> simp [lostSvc, hr, named] <;> decide
  have hsub : (if x.reg.isSome then refElems A "regulatingTerminal" x.reg else []) = refElems A "regulatingTerminal" x.reg := by
    cases x.reg <;> rfl
  have hrep := reports_elem (A := A) (c := c) (root := "staticVarCompensator") (x := x.ident) (Reports.plain c.behaviour (svcAttrs K A c.version k x))
    (reports_anyway x.reg.isSome "regulatingTerminal" .v11 c (refElems A "regulatingTerminal" x.reg))
  rw [hsub, ← hlost] at hrep
  refine ⟨_, _, by unfold writeSvc; rw [hk1, Out.bind_ok]; exact hrep, ?_⟩
  have hno : NoHead (svcAttrs K A c.version k x) := ⟨by lkv, by lkv⟩
  unfold readSvc
  exact readElem_step (v := c.version) (a := (x.bMin, x.bMax, x.voltage, x.reactive, x.mode, x.term)) (s1 := x.reg) (b := keptSvc c.version x) h.ident hno (by decide) rfl rfl
    (svc_root hK h hk2) (svc_sub h.reg) (fun _ => rfl)

theorem svc_kept {K : XCodec} (hK : K.Integers) {A : Anon} (c : Ctx) {x : Svc} (h : SvcOk K A x) (hr : c.version ≠ .v10 ∨ x.reg = none) :
    Kept c.behaviour "staticVarCompensator" (writeSvc K A c x) (readSvc K A c.version) (keptSvc c.version x) (lostSvc c.version x) := by
  obtain ⟨as, body, h1, h2, _⟩ := svc_old hK c h
  refine ⟨as, body, h1, h2 ?_⟩
  rcases hr with hv | hr
  · cases hc : c.version <;> first | exact absurd hc hv | (simp; exact .inr (by decide))
  · simp [hr]

/-- **C86** A static VAR compensator is read back as it was written, less what its version does not have.  Partial: not in version 1.0 if it has a regulating terminal
(`svc_old_refused`). -/
theorem svc_old_partial {K : XCodec} (hK : K.Integers) {A : Anon} (c : Ctx) {x : Svc} (h : SvcOk K A x) (hr : c.version ≠ .v10 ∨ x.reg = none) :
    ∃ doc, Reports c.behaviour (writeSvc K A c x) doc (lostSvc c.version x) ∧ RoundTrip doc (readSvc K A c.version) (keptSvc c.version x) := (svc_kept hK c h hr).doc

example : ∃ doc, Reports .logError (writeSvc toyX .none ⟨.v11, .logError⟩ someSvc) doc [] ∧ RoundTrip doc (readSvc toyX .none .v11) someSvc :=
  svc_old_partial toyX_integers ⟨.v11, .logError⟩ someSvc_ok (.inl (by decide))

/-- **C86, violation** In version 1.0 a regulating terminal is reported and, if errors are only logged, written all the same: the reader refuses the element
(`StaticVarCompensatorXml.cpp` l. 84-87 and 58-59). -/
theorem svc_old_refused {K : XCodec} (hK : K.Integers) {A : Anon} {x : Svc} (h : SvcOk K A x) (hr : x.reg ≠ none) :
    writeSvc K A ⟨.v10, .throwException⟩ x = .thrown ∧
    ∃ doc, writeSvc K A ⟨.v10, .logError⟩ x = .ok ⟨doc, ["regulatingTerminal"]⟩ ∧ Refused doc (readSvc K A .v10) := by
  obtain ⟨r, hr'⟩ := Option.ne_none_iff_exists'.1 hr
  have hlost : lostSvc .v10 x = ["regulatingTerminal"] := by simp [lostSvc, hr', named]
  constructor
  · obtain ⟨_, _, h1, _⟩ := svc_old hK (A := A) ⟨.v10, .throwException⟩ h
    exact h1.2 (by simp [hlost]) (by simp)
  · obtain ⟨_, _, h1, _, h2⟩ := svc_old hK (A := A) ⟨.v10, .logError⟩ h
    refine ⟨_, ?_, h2 (by rw [hr']; rfl)⟩
    have := h1.1 (.inr rfl)
    rw [show (⟨.v10, .logError⟩ : Ctx).version = .v10 from rfl, hlost] at this
    exact this

example : ∃ doc, writeSvc toyX .none ⟨.v10, .logError⟩ someSvc = .ok ⟨doc, ["regulatingTerminal"]⟩ ∧ Refused doc (readSvc toyX .none .v10) :=
  (svc_old_refused toyX_integers someSvc_ok (by simp [someSvc])).2

/-! ### Dangling lines -/

/-- The load that is written until version 1.2 is a number and is read back. -/
structure LoadOk (K : XCodec) (sub : Dbl → Dbl → Dbl) (x : Dl) : Prop where
  p0 : (lessGen sub x).p0.isNan = false ∧ K.Keeps (lessGen sub x).p0
  q0 : (lessGen sub x).q0.isNan = false ∧ K.Keeps (lessGen sub x).q0

theorem dlLoad_eq (sub : Dbl → Dbl → Dbl) (v : Ver) (x : Dl) : dlLoad sub v x = ((keptDl sub v x).p0, (keptDl sub v x).q0) := by
  unfold dlLoad
  cases hg : x.gen with
  | none => cases v <;> simp [keptDl, lessGen, hg]
  | some g => cases v <;> simp [keptDl, lessGen, hg, show Ver.le .v10 .v12 = true by decide, show Ver.le .v11 .v12 = true by decide, show Ver.le .v12 .v12 = true by decide,
      show Ver.le .v13 .v12 = false by decide, show Ver.le .v14 .v12 = false by decide, show Ver.le .v15 .v12 = false by decide]

/-- The generation, where there is one. -/
def gen13 (v : Ver) (x : Dl) : Option DlGen := if v.ge .v13 then x.gen else none

theorem keptDl_eq (sub : Dbl → Dbl → Dbl) (v : Ver) (x : Dl) :
    keptDl sub v x = ⟨keptIdent v x.ident, (keptDl sub v x).p0, (keptDl sub v x).q0, x.r, x.x, x.g, x.b, gen13 v x, x.ucte, x.term, only15 v x.active, only15 v x.apparent, x.current⟩ := by
  obtain ⟨i, p0, q0, r, xx, g, b, gen, ucte, term, a, ap, cu⟩ := x
  cases gen <;> cases v <;> rfl

theorem dlAttrs_gen (K : XCodec) (A : Anon) (v : Ver) (x : Dl) (l : Dbl × Dbl) :
    dlAttrs K A v x l = XmlNet.dlAttrs K A { x with p0 := l.1, q0 := l.2, gen := gen13 v x } := by
  unfold dlAttrs XmlNet.dlAttrs gen13
  cases v.ge .v13 <;> rfl

macro "lkx" : tactic => `(tactic| simp [XmlNet.dlAttrs, lookup_append, lookup_cons, lookup_nil, lookup_attrD, lookup_place, lookup_ite, pqAttrs, lookup_headAttrs, lookup_dlGen_none])

theorem readDlGen_old {K : XCodec} {A : Anon} {v : Ver} {x : Dl} (h : ∀ y, x.gen = some y → DlGenOk K y) (e : Bool) (tl : List Tok) :
    readDlGen K (.start "danglingLine" (headAttrs A v x.ident.head ++ XmlNet.dlAttrs K A x) e :: tl) = .ok (x.gen.map fun y => { y with limits := defaultReactive }) := by
  have hg : ∀ k, k ∈ ["generationMinP", "generationMaxP", "generationVoltageRegulationOn", "generationTargetP", "generationTargetV", "generationTargetQ"] →
      lookup k (headAttrs A v x.ident.head ++ XmlNet.dlAttrs K A x) = lookup k (dlGenAttrs K x.gen) := by
    intro k hk
    simp only [List.mem_cons, List.not_mem_nil, or_false] at hk
    rcases hk with rfl | rfl | rfl | rfl | rfl | rfl <;> lk XmlNet.dlAttrs
  have h1 := hg "generationMinP" (by decide)
  have h2 := hg "generationMaxP" (by decide)
  have h3 := hg "generationVoltageRegulationOn" (by decide)
  have h4 := hg "generationTargetP" (by decide)
  have h5 := hg "generationTargetV" (by decide)
  have h6 := hg "generationTargetQ" (by decide)
  generalize headAttrs A v x.ident.head ++ XmlNet.dlAttrs K A x = as at h1 h2 h3 h4 h5 h6
  unfold readDlGen
  cases hx : x.gen with
  | none =>
    rw [hx] at h3
    simp only [rawAttr, h3, dlGenAttrs, lookup_nil, Out.monad_bind_ok]
    rfl
  | some y =>
    rw [hx] at h1 h2 h3 h4 h5 h6
    have hy := h y hx
    have h3' : lookup "generationVoltageRegulationOn" as = some (if y.on then "true" else "false") := by rw [h3]; lk dlGenAttrs
    simp only [rawAttr, h3', Out.monad_bind_ok, isTrue_show]
    rw [optDOr_attr (d := y.minP) (by rw [h1]; lk dlGenAttrs) hy.minP.2, optDOr_attr (d := y.maxP) (by rw [h2]; lk dlGenAttrs) hy.maxP.2,
      optDOr_attr (d := y.targetP) (by rw [h4]; lk dlGenAttrs) hy.targetP.2, optDOr_attr (d := y.targetV) (by rw [h5]; lk dlGenAttrs) hy.targets.1,
      optDOr_attr (d := y.targetQ) (by rw [h6]; lk dlGenAttrs) hy.targets.2]
    simp only [Out.monad_bind_ok, hy.range, hy.targetP.1, hy.minP.1, hy.maxP.1, check_false, checkControl_ok hy.control]
    rfl

theorem dl_root {K : XCodec} (hK : K.Integers) {A : Anon} {v : Ver} {x : Dl} (h : DlOk K A x) (hgen : v.ge .v13 = false → x.gen = none) (e : Bool) (tl : List Tok) :
    readDlRoot K A v (.start "danglingLine" (headAttrs A v x.ident.head ++ XmlNet.dlAttrs K A x) e :: tl) =
      .ok ⟨x.p0, x.q0, x.r, x.x, x.g, x.b, x.gen.map fun y => { y with limits := defaultReactive }, x.ucte, x.term⟩ := by
  unfold readDlRoot
  have hu : optSOr "ucteXnodeCode" "" (.start "danglingLine" (headAttrs A v x.ident.head ++ XmlNet.dlAttrs K A x) e :: tl) = .ok x.ucte := by
    have : lookup "ucteXnodeCode" (headAttrs A v x.ident.head ++ XmlNet.dlAttrs K A x) = if x.ucte ≠ "" then some x.ucte else none := by lkx
    by_cases hu : x.ucte = "" <;> simp [optSOr, rawAttr, this, hu]
  have hg : runFromMinimumVersion .v13 v (fun _ => readDlGen K (.start "danglingLine" (headAttrs A v x.ident.head ++ XmlNet.dlAttrs K A x) e :: tl)) none =
      .ok (x.gen.map fun y => { y with limits := defaultReactive }) := by
    unfold runFromMinimumVersion
    cases hv : v.ge .v13 with
    | true => rw [if_pos rfl]; exact readDlGen_old h.gen e tl
    | false => simp [hgen hv]
  rw [getD_at (d := x.p0) (by lkx) h.p0.1 h.p0.2, getD_at (d := x.q0) (by lkx) h.q0.1 h.q0.2, getD_at (d := x.r) (by lkx) h.r.1 h.r.2,
    getD_at (d := x.x) (by lkx) h.x.1 h.x.2, getD_at (d := x.g) (by lkx) h.g.1 h.g.2, getD_at (d := x.b) (by lkx) h.b.1 h.b.2, hg, hu,
    readPlace_at hK.naturals (pl := x.term.place) ⟨by lkx, by lkx, by lkx⟩ h.term.place]
  simp only [Out.monad_bind_ok, h.p0.1, h.q0.1, h.r.1, h.x.1, h.g.1, h.b.1, check_false]
  rw [readTerm_at (t := x.term) (by lkx) (by lkx) h.term.p h.term.q]
  rfl

theorem dl_sub {K : XCodec} (hK : K.Integers) {A : Anon} {v : Ver} {x : Dl} (h : DlOk K A x) (hgen : v.ge .v13 = false → x.gen = none) :
    Body A v (dlSub K v) "danglingLine" (dlGenElems K x.gen ++ (limitsElems K "activePowerLimits" (only15 v x.active) ++ (limitsElems K "apparentPowerLimits" (only15 v x.apparent) ++
      limitsElems K "currentLimits" x.current))) ⟨none, none, none, none⟩ ⟨x.gen.map DlGen.limits, only15 v x.active, only15 v x.apparent, x.current⟩ := by
  refine Body.append (s' := ⟨x.gen.map DlGen.limits, none, none, none⟩) ?_ (Body.append (s' := ⟨x.gen.map DlGen.limits, only15 v x.active, none, none⟩) ?_
    (Body.append (s' := ⟨x.gen.map DlGen.limits, only15 v x.active, only15 v x.apparent, none⟩) ?_ ?_))
  · cases hg : x.gen with
    | none => exact body_nil _ _ _ _ _
    | some y =>
      have hv : v.ge .v13 = true := by
        cases hv : v.ge .v13 with
        | true => rfl
        | false => rw [hgen hv] at hg; cases hg
      obtain ⟨n, hn, as, body, hw, hrt⟩ := reactive_ert (h.gen y hg).limits
      simp only [Out.ok.injEq] at hw
      show Body A v (dlSub K v) "danglingLine" (writeReactive K.toCodec y.limits) _ _
      rw [hw]
      have hh : dlSub K v n = some (onlySince .v13 v (reactiveCb K fun s r => { s with limits := some r })) := by rcases hn with rfl | rfl <;> rfl
      refine body_item hrt hh fun toks rest hr => ?_
      simp only [onlySince_ok hv, reactiveCb, hr, Out.monad_bind_ok]
      rfl
  · have := limits15_body hK.naturals (A := A) (v := v) (h := dlSub K v) (root := "danglingLine") (el := "activePowerLimits") (set := fun s l => { s with active := some l }) rfl
      (fun hv s toks l r hr => by simp only [limitsSub15, onlySince_ok hv, limitsSub, hr, Out.monad_bind_ok]) h.active ⟨x.gen.map DlGen.limits, none, none, none⟩
    cases hl : only15 v x.active with
    | none => rw [hl] at this; exact this
    | some l => rw [hl] at this; exact this
  · have := limits15_body hK.naturals (A := A) (v := v) (h := dlSub K v) (root := "danglingLine") (el := "apparentPowerLimits") (set := fun s l => { s with apparent := some l }) rfl
      (fun hv s toks l r hr => by simp only [limitsSub15, onlySince_ok hv, limitsSub, hr, Out.monad_bind_ok]) h.apparent ⟨x.gen.map DlGen.limits, only15 v x.active, none, none⟩
    cases hl : only15 v x.apparent with
    | none => rw [hl] at this; exact this
    | some l => rw [hl] at this; exact this
  · have := limits_body hK.naturals (A := A) (v := v) (h := dlSub K v) (root := "danglingLine") (el := "currentLimits") (set := fun s l => { s with current := some l }) rfl
      (fun s toks l r _ hr => by simp only [limitsSub, hr, Out.monad_bind_ok]) h.current ⟨x.gen.map DlGen.limits, only15 v x.active, only15 v x.apparent, none⟩
    cases hl : x.current with
    | none => rw [hl] at this; exact this
    | some l => rw [hl] at this; exact this

theorem dl_reports {K : XCodec} {A : Anon} (sub : Dbl → Dbl → Dbl) (c : Ctx) (x : Dl) :
    Reports c.behaviour (writeDl K A sub c x)
      (elemCmds "danglingLine" (headAttrs A c.version x.ident.head ++ dlAttrs K A c.version x (dlLoad sub c.version x)) (aliasDoc A c.version x.ident ++ (propsCmds x.ident.props ++
        (dlGenElems K (gen13 c.version x) ++ (limitsElems K "activePowerLimits" (only15 c.version x.active) ++ (limitsElems K "apparentPowerLimits" (only15 c.version x.apparent) ++
          limitsElems K "currentLimits" x.current)))))) (lostDl c.version x) := by
  have h1 : Reports c.behaviour (dlReport c x) [] (if c.version.ge .v13 then [] else named "generation" x.gen) := by
    unfold dlReport
    cases hg : x.gen with
    | none => exact (Reports.plain _ _).cast rfl (by cases c.version.ge .v13 <;> rfl)
    | some g =>
      unfold assertMinimumVersion createExceptionOrLogError start
      rw [lt_ge]
      cases h : c.version.ge .v13 with
      | true => exact ⟨fun _ => by simp, fun h => absurd rfl h⟩
      | false =>
        refine ⟨fun hb => ?_, fun _ hb => ?_⟩
        · have : c.behaviour = .logError := hb.resolve_left (by simp [named])
          simp [this, named]
        · cases hc : c.behaviour with
          | throwException => simp
          | logError => exact absurd hc hb
          | other => simp
  have h2 := h1.andThen (Reports.plain c.behaviour (dlAttrs K A c.version x (dlLoad sub c.version x)))
  have h3 := (reports_run c.behaviour .v13 c.version (dlGenElems K x.gen)).andThen ((reports_limits K c "activePowerLimits" x.active).andThen
    ((reports_limits K c "apparentPowerLimits" x.apparent).andThen (Reports.plain c.behaviour (limitsElems K "currentLimits" x.current))))
  refine (reports_elem (A := A) (c := c) (root := "danglingLine") (x := x.ident) h2 h3).cast ?_ ?_
  · have : (if c.version.ge .v13 = true then dlGenElems K x.gen else []) = dlGenElems K (gen13 c.version x) := by
      unfold gen13; cases c.version.ge .v13 <;> rfl
    simp only [List.nil_append, this]
  · unfold lost15
    cases hv : c.version <;> simp [lostDl, show Ver.ge .v10 .v13 = false by decide, show Ver.ge .v11 .v13 = false by decide, show Ver.ge .v12 .v13 = false by decide,
      show Ver.ge .v13 .v13 = true by decide, show Ver.ge .v14 .v13 = true by decide, show Ver.ge .v15 .v13 = true by decide, show Ver.ge .v10 .v15 = false by decide,
      show Ver.ge .v11 .v15 = false by decide, show Ver.ge .v12 .v15 = false by decide, show Ver.ge .v13 .v15 = false by decide, show Ver.ge .v14 .v15 = false by decide,
      show Ver.ge .v15 .v15 = true by decide]

theorem dangling_line_kept {K : XCodec} (hK : K.Integers) {A : Anon} (sub : Dbl → Dbl → Dbl) (c : Ctx) {x : Dl} (h : DlOk K A x) (hl : LoadOk K sub x) :
    Kept c.behaviour "danglingLine" (writeDl K A sub c x) (readDl K A c.version) (keptDl sub c.version x) (lostDl c.version x) := by
  refine ⟨_, _, dl_reports sub c x, ?_⟩
  rw [dlLoad_eq, dlAttrs_gen]
  have hp : (keptDl sub c.version x).p0.isNan = false ∧ K.Keeps (keptDl sub c.version x).p0 := by
    cases c.version <;> first | exact h.p0 | exact hl.p0
  have hq : (keptDl sub c.version x).q0.isNan = false ∧ K.Keeps (keptDl sub c.version x).q0 := by
    cases c.version <;> first | exact h.q0 | exact hl.q0
  have hg : ∀ z, gen13 c.version x = some z → DlGenOk K z := by
    intro z hz
    unfold gen13 at hz
    split at hz
    · exact h.gen z hz
    · cases hz
  have hnone : c.version.ge .v13 = false → gen13 c.version x = none := fun hv => by simp [gen13, hv]
  have h' : DlOk K A { x with p0 := (keptDl sub c.version x).p0, q0 := (keptDl sub c.version x).q0, gen := gen13 c.version x } :=
    { h with p0 := hp, q0 := hq, gen := hg }
  have hsub := dl_sub (v := c.version) hK h' hnone
  refine readElem_rt (s1 := ⟨(gen13 c.version x).map DlGen.limits, only15 c.version x.active, only15 c.version x.apparent, x.current⟩) h.ident ⟨by lkx, by lkx⟩ (by decide) rfl rfl
    (dl_root hK h' hnone) hsub ?_
  rw [keptDl_eq]
  simp only
  cases gen13 c.version x <;> rfl

/-- **C86** A dangling line is read back as it was written, less what its version does not have: until version 1.2 its generation is taken off its load, until version 1.4 its
limits on powers are dropped; both are reported. -/
theorem dangling_line_old {K : XCodec} (hK : K.Integers) {A : Anon} (sub : Dbl → Dbl → Dbl) (c : Ctx) {x : Dl} (h : DlOk K A x) (hl : LoadOk K sub x) :
    ∃ doc, Reports c.behaviour (writeDl K A sub c x) doc (lostDl c.version x) ∧ RoundTrip doc (readDl K A c.version) (keptDl sub c.version x) := (dangling_line_kept hK sub c h hl).doc

theorem someDl_load : LoadOk toyX Dbl.sub someDl := ⟨⟨by decide +kernel, toyX_keeps _⟩, ⟨by decide +kernel, toyX_keeps _⟩⟩

/-- In version 1.2: the target of 3 is taken off the load of 1; the generation has no target of reactive power. -/
example : ∃ doc, Reports .logError (writeDl toyX .none Dbl.sub ⟨.v12, .logError⟩ someDl) doc ["generation"] ∧
    RoundTrip doc (readDl toyX .none .v12) { someDl with gen := none, p0 := .fin (-2) } := by
  have h := dangling_line_old toyX_integers (A := .none) Dbl.sub ⟨.v12, .logError⟩ someDl_ok someDl_load
  rw [show keptDl Dbl.sub (⟨.v12, .logError⟩ : Ctx).version someDl = { someDl with gen := none, p0 := .fin (-2) } by decide +kernel] at h
  exact h

example : writeDl toyX .none Dbl.sub ⟨.v12, .throwException⟩ someDl = .thrown := by
  obtain ⟨doc, h, _⟩ := dangling_line_old toyX_integers (A := .none) Dbl.sub ⟨.v12, .throwException⟩ someDl_ok someDl_load
  exact h.2 (by decide) (by decide)

/-- **C86** In a version before 1.3 the load is the difference, as `-` rounds it, of the load and of the target; there is no generation. -/
theorem net_load_kept {v : Ver} (hv : ¬ Supports .v13 v) {x : Dl} {g : DlGen} (hg : x.gen = some g) (hp : g.targetP.isNan = false) :
    (keptDl Dbl.sub v x).p0 = Dbl.sub x.p0 g.targetP ∧ (keptDl Dbl.sub v x).gen = none := by
  cases v <;> first | exact absurd (by decide) hv | simp [keptDl, lessGen, hg, hp]

/-! ### Losses that are not reported -/

/-- **C86, violation** Before version 1.2 the flag of a fictitious equipment is dropped, before 1.3 its aliases, in 1.3 their types, and nothing is reported, even with the
behaviour that throws (`AbstractIdentifiableXml.hxx` l. 72-74, 81-83; `AliasesXml.cpp` l. 41-43). -/
theorem silent_losses :
    (∀ v, ¬ Supports .v12 v → ∃ x : Ident, x.head.fictitious = true ∧ (keptIdent v x).head.fictitious = false) ∧
    (∀ v, ¬ Supports .v13 v → ∀ x : Ident, (keptIdent v x).aliases = []) ∧
    (∀ x : Ident, ∀ a ∈ (keptIdent .v13 x).aliases, a.2 = "") ∧
    ∀ v, ¬ Supports .v14 v → ∃ (x : Bbs) (doc : List Cmd), BbsOk .none x ∧ writeBbs toyX .none ⟨v, .throwException⟩ x (.nan, .nan) = .ok ⟨doc, []⟩ ∧
      RoundTrip doc (readBbs toyX .none v) (keptBbs v x, keptVoltage v (.nan, .nan)) ∧ keptBbs v x ≠ x := by
  refine ⟨fun v hv => ⟨⟨⟨"", "", true⟩, [], []⟩, rfl, ?_⟩, fun v hv x => ?_, fun x a ha => ?_, fun v hv => ?_⟩
  · cases v <;> first | rfl | exact absurd (by decide) hv
  · cases v <;> first | rfl | exact absurd (by decide) hv
  · simp only [keptIdent, List.mem_map] at ha
    obtain ⟨b, _, rfl⟩ := ha
    rfl
  · have hok : BbsOk Anon.none ⟨⟨⟨"BBS", "", false⟩, [("alias", "type")], []⟩, 7⟩ :=
      ⟨⟨none_head _, (by intro a ha; simp only [List.mem_cons, List.not_mem_nil, or_false] at ha; subst ha; exact ⟨⟨rfl, by decide⟩, by decide⟩), by simp, by simp,
        by simp [AMap.NodupKeys]⟩, by decide⟩
    obtain ⟨doc, h1, h2⟩ := busbar_section_old toyX_integers (A := .none) ⟨v, .throwException⟩ hok (va := (.nan, .nan)) (toyX_keeps _) (toyX_keeps _)
    refine ⟨_, doc, hok, h1.1 (.inl rfl), h2, ?_⟩
    cases v <;> first | decide | exact absurd (by decide) hv

/-- From version 1.4 on nothing of an identifiable is lost. -/
theorem kept_ident_whole {v : Ver} (hv : Supports .v14 v) (x : Ident) : keptIdent v x = x := by
  cases v <;> first | rfl | exact absurd hv (by decide)

end Verif.XmlOld
