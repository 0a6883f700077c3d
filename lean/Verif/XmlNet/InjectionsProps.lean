import Verif.XmlNet.AttrLemmas
import Verif.Enums.Props

/-!
C67: every equipment with one terminal, written in version 1.5, is read back as it was: attributes, names, aliases, properties, terminal, regulating
terminal, reactive and loading limits.
-/

namespace Verif.XmlNet

open Verif Verif.Xml

/-! ### A codec for the examples -/

/-- The codec `toy` with integers as marks. -/
def toyX : XCodec where
  toCodec := toy
  showI i := String.ofList ((if i < 0 then ['-'] else []) ++ List.replicate i.natAbs 'x')
  readI s := .ok ((if count '-' s = 0 then 1 else -1) * (count 'x' s : Int))
  readInt s := .ok ((if count '-' s = 0 then 1 else -1) * (count 'x' s : Int))

theorem toyX_int (i : Int) : ((if count '-' (toyX.showI i) = 0 then (1 : Int) else -1) * (count 'x' (toyX.showI i) : Int)) = i := by
  have hx : count 'x' (toyX.showI i) = i.natAbs := by
    unfold toyX count
    simp only [String.toList_ofList]
    split <;> simp
  have hm : count '-' (toyX.showI i) = if i < 0 then 1 else 0 := by
    unfold toyX count
    simp only [String.toList_ofList]
    split <;> simp
  rw [hx, hm]
  by_cases h : i < 0
  · simp [h]; omega
  · simp [h]; omega

theorem toyX_integers : toyX.Integers where
  naturals := toy_naturals
  long i _ _ := congrArg Out.ok (toyX_int i)
  int i _ _ := congrArg Out.ok (toyX_int i)
  intOfNat n _ := by
    show Out.ok ((if count '-' (marks 'x' n) = 0 then (1 : Int) else -1) * (count 'x' (marks 'x' n) : Int)) = .ok (n : Int)
    simp [count, marks]

theorem toyX_keeps (d : Dbl) : toyX.Keeps d := fun _ => toy_exact d

/-! ### Loads -/

/-- What holds of every load (`LoadAdder.cpp` l. 25-27), with names and values that can be read back. -/
structure LoadOk (K : XCodec) (A : Anon) (x : Load) : Prop where
  ident : IdentOk A x.ident
  kind : x.kind < Enums.loadType.names.length
  p0 : x.p0.isNan = false ∧ K.Keeps x.p0
  q0 : x.q0.isNan = false ∧ K.Keeps x.q0
  term : TermOk K A x.term

/-- **C67** A load is read back as it was written. -/
theorem load_round_trip {K : XCodec} (hK : K.Integers) {A : Anon} {x : Load} (h : LoadOk K A x) : ElemRT "load" (writeLoad K A x) (readLoad K A) x := by
  obtain ⟨k, hk1, hk2⟩ := Enums.value_round_trip (names := Enums.loadType.names) (by decide) h.kind
  have hk0 : k ≠ "" := by
    rintro rfl
    rw [show Enums.fromString Enums.loadType.names "" = .thrown by decide] at hk2
    cases hk2
  have hw : writeLoad K A x = .ok (writeElem A "load" x.ident (loadAttrs K A k x) []) := by
    simp only [writeLoad, hk1, Out.monad_bind_ok]
  rw [hw]
  refine readElem_ert (a := (x.kind, x.p0, x.q0, x.term)) h.ident ⟨by lk loadAttrs, by lk loadAttrs⟩ (by decide) rfl rfl (fun e tl => ?_) (body_nil _ _ _ _) rfl
  unfold readLoadRoot
  have hty : optSOr "loadType" "" (.start "load" (headAttrs A .v15 x.ident.head ++ loadAttrs K A k x) e :: tl) = .ok k := by
    have : lookup "loadType" (headAttrs A .v15 x.ident.head ++ loadAttrs K A k x) = some k := by lk loadAttrs
    simp [optSOr, rawAttr, this]
  simp only [hty, Out.monad_bind_ok, if_neg hk0, hk2]
  rw [getD_at (d := x.p0) (by lk loadAttrs) h.p0.1 h.p0.2, getD_at (d := x.q0) (by lk loadAttrs) h.q0.1 h.q0.2,
    readPlace_at hK.naturals (pl := x.term.place) ⟨by lk loadAttrs, by lk loadAttrs, by lk loadAttrs⟩ h.term.place]
  simp only [Out.monad_bind_ok, h.p0.1, h.q0.1, check_false]
  rw [readTerm_at (t := x.term) (by lk loadAttrs) (by lk loadAttrs) h.term.p h.term.q]
  rfl

/-- A load with a name, an alias and a property, disconnected from its bus. -/
def someLoad : Load := ⟨⟨⟨"L", "load", true⟩, [("alias", ""), ("other", "type")], [("k", "v")]⟩, 1, 12, .fin (-3), ⟨.bus "B" false, 2, .nan⟩⟩

theorem place_node {A : Anon} {n : Nat} (h : n < 2 ^ 64) : PlaceOk A (.node n) := h

theorem plain_ident {i n : String} {f : Bool} : IdentOk Anon.none ⟨⟨i, n, f⟩, [], []⟩ where
  head := none_head _
  aliases := by simp
  nodup := by simp
  types := by simp
  props := by simp [AMap.NodupKeys, AMap.keys]

theorem someLoad_ok : LoadOk toyX Anon.none someLoad :=
  ⟨⟨none_head _, (by intro a ha; simp only [someLoad, List.mem_cons, List.not_mem_nil, or_false] at ha; rcases ha with rfl | rfl <;> exact ⟨⟨rfl, by decide⟩, by decide⟩), by decide, by decide, by unfold AMap.NodupKeys; decide⟩, by decide, ⟨by decide, toyX_keeps _⟩, ⟨by decide, toyX_keeps _⟩, ⟨⟨by decide, rfl⟩, toyX_keeps _, toyX_keeps _⟩⟩

theorem someLoad_read : ElemRT "load" (writeLoad toyX Anon.none someLoad) (readLoad toyX Anon.none) someLoad :=
  load_round_trip toyX_integers someLoad_ok

/-! ### Generators -/

/-- The regulation of a voltage or of a reactive power has its target (`checkVoltageControl`, `ValidationUtils.cpp` l. 417-425). -/
def ControlOk (on : Bool) (v q : Dbl) : Prop := (on = true → Dbl.lt 0 v = true) ∧ (on = false → q.isNan = false)

theorem checkControl_ok {on : Bool} {v q : Dbl} (h : ControlOk on v q) : checkControl on v q = .ok () := by
  unfold checkControl
  cases on with
  | false => simp [h.2 rfl, check]
  | true =>
    have h1 := h.1 rfl
    simp [Dbl.not_le_of_lt h1, (Dbl.not_nan_of_lt h1).2, check]

/-- What holds of every generator (`GeneratorAdder.cpp` l. 25-33). -/
structure GenOk (K : XCodec) (A : Anon) (x : Gen) : Prop where
  ident : IdentOk A x.ident
  source : x.source < Enums.energySource.names.length
  minP : x.minP.isNan = false ∧ K.Keeps x.minP
  maxP : x.maxP.isNan = false ∧ K.Keeps x.maxP
  range : Dbl.lt x.maxP x.minP = false
  ratedS : (x.ratedS.isNan = true ∨ Dbl.lt 0 x.ratedS = true) ∧ K.Keeps x.ratedS
  targetP : x.targetP.isNan = false ∧ K.Keeps x.targetP
  control : ControlOk x.on x.targetV x.targetQ
  targets : K.Keeps x.targetV ∧ K.Keeps x.targetQ
  term : TermOk K A x.term
  reg : RefOk A x.reg
  limits : ReactiveOk K x.limits

theorem checkRatedS_ok {s : Dbl} (h : s.isNan = true ∨ Dbl.lt 0 s = true) : checkRatedS s = .ok () := by
  unfold checkRatedS
  rcases h with h | h
  · simp [h, check]
  · simp [Dbl.not_le_of_lt h, check]

/-- **C67** A generator is read back as it was written, with its regulating terminal and its reactive limits. -/
theorem generator_round_trip {K : XCodec} (hK : K.Integers) {A : Anon} {x : Gen} (h : GenOk K A x) : ElemRT "generator" (writeGen K A x) (readGen K A) x := by
  obtain ⟨k, hk1, hk2⟩ := Enums.value_round_trip (names := Enums.energySource.names) (by decide) h.source
  have hw : writeGen K A x = .ok (writeElem A "generator" x.ident (genAttrs K A k x) (refElems A "regulatingTerminal" x.reg ++ writeReactive K.toCodec x.limits)) := by
    simp only [writeGen, hk1, Out.monad_bind_ok]
  rw [hw]
  refine readElem_ert (a := ⟨x.source, x.minP, x.maxP, x.ratedS, x.on, x.targetP, x.targetV, x.targetQ, x.term⟩) (s1 := (x.reg, x.limits)) h.ident ⟨by lk genAttrs, by lk genAttrs⟩
    (by decide) rfl rfl (fun e tl => ?_) ?_ rfl
  · unfold readGenRoot
    rw [getS_attr (v := k) (by lk genAttrs)]
    simp only [hk2, Out.monad_bind_ok]
    rw [getD_at (d := x.minP) (by lk genAttrs) h.minP.1 h.minP.2, getD_at (d := x.maxP) (by lk genAttrs) h.maxP.1 h.maxP.2, optDOr_attr (d := x.ratedS) (by lk genAttrs) h.ratedS.2,
      getB_attr (b := x.on) (by lk genAttrs), getD_at (d := x.targetP) (by lk genAttrs) h.targetP.1 h.targetP.2, optDOr_attr (d := x.targetV) (by lk genAttrs) h.targets.1,
      optDOr_attr (d := x.targetQ) (by lk genAttrs) h.targets.2, readPlace_at hK.naturals (pl := x.term.place) ⟨by lk genAttrs, by lk genAttrs, by lk genAttrs⟩ h.term.place]
    simp only [Out.monad_bind_ok, h.minP.1, h.maxP.1, h.targetP.1, h.range, check_false, checkControl_ok h.control, checkRatedS_ok h.ratedS.1]
    rw [readTerm_at (t := x.term) (by lk genAttrs) (by lk genAttrs) h.term.p h.term.q]
    rfl
  · have h1 := ref_body (A := A) (h := genSub K A) (root := "generator") (el := "regulatingTerminal") (required := false) (set := fun s r => (some r, s.2)) rfl h.reg (none, defaultReactive)
    have h2 := reactive_body (A := A) (h := genSub K A) (root := "generator") (set := fun s r => (s.1, r)) rfl rfl h.limits (x.reg, defaultReactive)
    refine Body.append ?_ h2
    cases hr : x.reg with
    | none => rw [hr] at h1; exact h1
    | some r => rw [hr] at h1; exact h1

/-- A generator that regulates the voltage at one side of a branch, with a reactive capability curve. -/
def someGen : Gen :=
  ⟨⟨⟨"G", "", false⟩, [], []⟩, 1, 0, 10, .nan, true, 5, 400, .nan, ⟨.node 3, .nan, 1⟩, some ⟨"T", "TWO"⟩, .curve [⟨0, .fin (-1), 1⟩, ⟨10, .fin (-2), 2⟩]⟩

theorem someGen_ok : GenOk toyX Anon.none someGen :=
  ⟨plain_ident, by decide, ⟨by decide, toyX_keeps _⟩, ⟨by decide, toyX_keeps _⟩, by decide, ⟨.inl (by decide), toyX_keeps _⟩, ⟨by decide, toyX_keeps _⟩, ⟨by decide, by decide⟩,
      ⟨toyX_keeps _, toyX_keeps _⟩, ⟨place_node (by decide), toyX_keeps _, toyX_keeps _⟩, (by rintro r ⟨⟩; exact ⟨by decide, rfl⟩),
      ⟨[⟨0, .fin (-1), 1⟩, ⟨10, .fin (-2), 2⟩], by decide, fun x _ => ⟨toy_exact _, toy_exact _, toy_exact _⟩⟩⟩

theorem someGen_read : ElemRT "generator" (writeGen toyX Anon.none someGen) (readGen toyX Anon.none) someGen :=
  generator_round_trip toyX_integers someGen_ok

/-! ### Batteries -/

/-- What holds of every battery (`BatteryAdder.cpp` l. 26-30). -/
structure BatOk (K : XCodec) (A : Anon) (x : Bat) : Prop where
  ident : IdentOk A x.ident
  p0 : x.p0.isNan = false ∧ K.Keeps x.p0
  q0 : x.q0.isNan = false ∧ K.Keeps x.q0
  minP : x.minP.isNan = false ∧ K.Keeps x.minP
  maxP : x.maxP.isNan = false ∧ K.Keeps x.maxP
  range : Dbl.lt x.maxP x.minP = false
  term : TermOk K A x.term
  limits : ReactiveOk K x.limits

/-- **C67** A battery is read back as it was written. -/
theorem battery_round_trip {K : XCodec} (hK : K.Integers) {A : Anon} {x : Bat} (h : BatOk K A x) : ElemRT "battery" (writeBat K A x) (readBat K A) x := by
  refine readElem_ert (a := (x.p0, x.q0, x.minP, x.maxP, x.term)) (s1 := x.limits) h.ident ⟨by lk batAttrs, by lk batAttrs⟩ (by decide) rfl rfl (fun e tl => ?_) ?_ rfl
  · unfold readBatRoot
    rw [getD_at (d := x.p0) (by lk batAttrs) h.p0.1 h.p0.2, getD_at (d := x.q0) (by lk batAttrs) h.q0.1 h.q0.2, getD_at (d := x.minP) (by lk batAttrs) h.minP.1 h.minP.2,
      getD_at (d := x.maxP) (by lk batAttrs) h.maxP.1 h.maxP.2, readPlace_at hK.naturals (pl := x.term.place) ⟨by lk batAttrs, by lk batAttrs, by lk batAttrs⟩ h.term.place]
    simp only [Out.monad_bind_ok, h.p0.1, h.q0.1, h.minP.1, h.maxP.1, h.range, check_false]
    rw [readTerm_at (t := x.term) (by lk batAttrs) (by lk batAttrs) h.term.p h.term.q]
    rfl
  · exact reactive_body (A := A) (h := holderSub K) (root := "battery") (set := fun _ r => r) rfl rfl h.limits defaultReactive

def someBat : Bat := ⟨⟨⟨"BAT", "", false⟩, [], []⟩, 1, 2, .fin (-3), 4, ⟨.bus "B" true, .nan, .nan⟩, .minMax 1 2⟩

theorem someBat_ok : BatOk toyX Anon.none someBat :=
  ⟨plain_ident, ⟨by decide, toyX_keeps _⟩, ⟨by decide, toyX_keeps _⟩, ⟨by decide, toyX_keeps _⟩, ⟨by decide, toyX_keeps _⟩, by decide, ⟨⟨by decide, rfl⟩, toyX_keeps _, toyX_keeps _⟩,
      ⟨by decide, toy_exact _, toy_exact _⟩⟩

theorem someBat_read : ElemRT "battery" (writeBat toyX Anon.none someBat) (readBat toyX Anon.none) someBat :=
  battery_round_trip toyX_integers someBat_ok

/-! ### Busbar sections -/

structure BbsOk (A : Anon) (x : Bbs) : Prop where
  ident : IdentOk A x.ident
  node : x.node < 2 ^ 64

/-- **C67** A busbar section is read back as it was written. -/
theorem busbar_section_round_trip {K : XCodec} (hK : K.Integers) {A : Anon} {x : Bbs} (h : BbsOk A x) : ElemRT "busbarSection" (writeBbs K A x) (readBbs K A) x := by
  refine readElem_ert (a := x.node) h.ident ⟨by lk attrN, by lk attrN⟩ (by decide) rfl rfl (fun e tl => ?_) (body_nil _ _ _ _) rfl
  exact getN_attr hK.naturals (by lk attrN) h.node

def someBbs : Bbs := ⟨⟨⟨"BBS", "section 1", true⟩, [], []⟩, 7⟩

theorem someBbs_ok : BbsOk Anon.none someBbs :=
  ⟨plain_ident, by decide⟩

theorem someBbs_read : ElemRT "busbarSection" (writeBbs toyX Anon.none someBbs) (readBbs toyX Anon.none) someBbs :=
  busbar_section_round_trip toyX_integers someBbs_ok

/-! ### Converter stations -/

/-- `checkLossFactor`, `ValidationUtils.cpp` l. 174-182. -/
def LossOk (f : Dbl) : Prop := Dbl.le 0 f = true ∧ Dbl.le f 100 = true

/-- `checkPowerFactor`, l. 276-284. -/
def PowerFactorOk (f : Dbl) : Prop := Dbl.le (.fin (-1)) f = true ∧ Dbl.le f 1 = true

theorem not_lt_of_le' {a b : Dbl} (h : Dbl.le a b = true) : Dbl.lt b a = false := by
  cases h' : Dbl.lt b a with
  | false => rfl
  | true => rw [Dbl.not_le_of_lt h'] at h; cases h

theorem checkLoss_ok {f : Dbl} (h : LossOk f) : f.isNan = false ∧ checkLoss f = .ok () := by
  have h1 := Dbl.not_nan_of_le h.1
  have h2 := not_lt_of_le' h.1
  have h3 := not_lt_of_le' h.2
  exact ⟨h1.2, by simp [checkLoss, h1.2, h2, h3, check]⟩

theorem checkPowerFactor_ok {f : Dbl} (h : PowerFactorOk f) : checkPowerFactor f = .ok () := by
  have h1 := Dbl.not_nan_of_le h.1
  have h2 := not_lt_of_le' h.1
  have h3 := not_lt_of_le' h.2
  simp [checkPowerFactor, h1.2, h2, h3, check]

/-- What holds of every LCC station (`LccConverterStationAdder.cpp` l. 46-49). -/
structure LccOk (K : XCodec) (A : Anon) (x : Lcc) : Prop where
  ident : IdentOk A x.ident
  lossFactor : LossOk x.lossFactor ∧ K.Keeps x.lossFactor
  powerFactor : PowerFactorOk x.powerFactor ∧ K.Keeps x.powerFactor
  term : TermOk K A x.term

/-- **C67** An LCC converter station is read back as it was written. -/
theorem lcc_round_trip {K : XCodec} (hK : K.Integers) {A : Anon} {x : Lcc} (h : LccOk K A x) : ElemRT "lccConverterStation" (writeLcc K A x) (readLcc K A) x := by
  obtain ⟨hl1, hl2⟩ := checkLoss_ok h.lossFactor.1
  refine readElem_ert (a := (x.lossFactor, x.powerFactor, x.term)) h.ident ⟨by lk lccAttrs, by lk lccAttrs⟩ (by decide) rfl rfl (fun e tl => ?_) (body_nil _ _ _ _) rfl
  unfold readLccRoot
  rw [getD_at (d := x.lossFactor) (by lk lccAttrs) hl1 h.lossFactor.2, optDOr_attr (d := x.powerFactor) (by lk lccAttrs) h.powerFactor.2,
    readPlace_at hK.naturals (pl := x.term.place) ⟨by lk lccAttrs, by lk lccAttrs, by lk lccAttrs⟩ h.term.place]
  simp only [Out.monad_bind_ok, hl2, checkPowerFactor_ok h.powerFactor.1]
  rw [readTerm_at (t := x.term) (by lk lccAttrs) (by lk lccAttrs) h.term.p h.term.q]
  rfl

def someLcc : Lcc := ⟨⟨⟨"LCC", "", false⟩, [], []⟩, 2, 1, ⟨.node 4, 7, .nan⟩⟩

theorem someLcc_ok : LccOk toyX Anon.none someLcc :=
  ⟨plain_ident, ⟨⟨by decide, by decide⟩, toyX_keeps _⟩, ⟨⟨by decide, by decide⟩, toyX_keeps _⟩, ⟨place_node (by decide), toyX_keeps _, toyX_keeps _⟩⟩

theorem someLcc_read : ElemRT "lccConverterStation" (writeLcc toyX Anon.none someLcc) (readLcc toyX Anon.none) someLcc :=
  lcc_round_trip toyX_integers someLcc_ok

/-- What holds of every VSC station (`VscConverterStationAdder.cpp` l. 56-60). -/
structure VscOk (K : XCodec) (A : Anon) (x : Vsc) : Prop where
  ident : IdentOk A x.ident
  lossFactor : LossOk x.lossFactor ∧ K.Keeps x.lossFactor
  control : ControlOk x.on x.voltage x.reactive
  setpoints : K.Keeps x.voltage ∧ K.Keeps x.reactive
  term : TermOk K A x.term
  limits : ReactiveOk K x.limits

/-- **C67** A VSC converter station is read back as it was written. -/
theorem vsc_round_trip {K : XCodec} (hK : K.Integers) {A : Anon} {x : Vsc} (h : VscOk K A x) : ElemRT "vscConverterStation" (writeVsc K A x) (readVsc K A) x := by
  obtain ⟨hl1, hl2⟩ := checkLoss_ok h.lossFactor.1
  refine readElem_ert (a := (x.on, x.lossFactor, x.voltage, x.reactive, x.term)) (s1 := x.limits) h.ident ⟨by lk vscAttrs, by lk vscAttrs⟩ (by decide) rfl rfl (fun e tl => ?_) ?_ rfl
  · unfold readVscRoot
    rw [getB_attr (b := x.on) (by lk vscAttrs), getD_at (d := x.lossFactor) (by lk vscAttrs) hl1 h.lossFactor.2, optDOr_attr (d := x.voltage) (by lk vscAttrs) h.setpoints.1,
      optDOr_attr (d := x.reactive) (by lk vscAttrs) h.setpoints.2, readPlace_at hK.naturals (pl := x.term.place) ⟨by lk vscAttrs, by lk vscAttrs, by lk vscAttrs⟩ h.term.place]
    simp only [Out.monad_bind_ok, hl2, checkControl_ok h.control]
    rw [readTerm_at (t := x.term) (by lk vscAttrs) (by lk vscAttrs) h.term.p h.term.q]
    rfl
  · exact reactive_body (A := A) (h := holderSub K) (root := "vscConverterStation") (set := fun _ r => r) rfl rfl h.limits defaultReactive

def someVsc : Vsc := ⟨⟨⟨"VSC", "", false⟩, [], []⟩, false, 3, .nan, .fin (-20), ⟨.bus "B" true, .nan, .nan⟩, .minMax 1 2⟩

theorem someVsc_ok : VscOk toyX Anon.none someVsc :=
  ⟨plain_ident, ⟨⟨by decide, by decide⟩, toyX_keeps _⟩, ⟨by decide, by decide⟩, ⟨toyX_keeps _, toyX_keeps _⟩, ⟨⟨by decide, rfl⟩, toyX_keeps _, toyX_keeps _⟩,
    ⟨by decide, toy_exact _, toy_exact _⟩⟩

theorem someVsc_read : ElemRT "vscConverterStation" (writeVsc toyX Anon.none someVsc) (readVsc toyX Anon.none) someVsc :=
  vsc_round_trip toyX_integers someVsc_ok

/-! ### Static VAR compensators -/

/-- What holds of every static VAR compensator (`StaticVarCompensatorAdder.cpp` l. 25-28, `ValidationUtils.cpp` l. 358-381). -/
structure SvcOk (K : XCodec) (A : Anon) (x : Svc) : Prop where
  ident : IdentOk A x.ident
  bMin : x.bMin.isNan = false ∧ K.Keeps x.bMin
  bMax : x.bMax.isNan = false ∧ K.Keeps x.bMax
  mode : x.mode < Enums.staticVarCompensatorRegulationMode.names.length
  voltage : (x.mode = 0 → x.voltage.isNan = false) ∧ K.Keeps x.voltage
  reactive : (x.mode = 1 → x.reactive.isNan = false) ∧ K.Keeps x.reactive
  term : TermOk K A x.term
  reg : RefOk A x.reg

theorem checkSvc_ok {mode : Nat} {v q : Dbl} (h1 : mode = 0 → v.isNan = false) (h2 : mode = 1 → q.isNan = false) : checkSvc mode v q = .ok () := by
  unfold checkSvc
  by_cases h0 : mode = 0
  · simp [h0, h1 h0, check]
  · by_cases h3 : mode = 1
    · simp [h3, h2 h3, check]
    · simp [h0, h3, check]

/-- **C67** A static VAR compensator is read back as it was written, with its regulating terminal. -/
theorem svc_round_trip {K : XCodec} (hK : K.Integers) {A : Anon} {x : Svc} (h : SvcOk K A x) : ElemRT "staticVarCompensator" (writeSvc K A x) (readSvc K A) x := by
  obtain ⟨k, hk1, hk2⟩ := Enums.value_round_trip (names := Enums.staticVarCompensatorRegulationMode.names) (by decide) h.mode
  have hw : writeSvc K A x = .ok (writeElem A "staticVarCompensator" x.ident (svcAttrs K A k x) (refElems A "regulatingTerminal" x.reg)) := by
    simp only [writeSvc, hk1, Out.monad_bind_ok]
  rw [hw]
  refine readElem_ert (a := (x.bMin, x.bMax, x.voltage, x.reactive, x.mode, x.term)) (s1 := x.reg) h.ident ⟨by lk svcAttrs, by lk svcAttrs⟩ (by decide) rfl rfl (fun e tl => ?_) ?_ rfl
  · unfold readSvcRoot
    rw [getS_attr (v := k) (by lk svcAttrs), getD_at (d := x.bMin) (by lk svcAttrs) h.bMin.1 h.bMin.2, getD_at (d := x.bMax) (by lk svcAttrs) h.bMax.1 h.bMax.2,
      optDOr_attr (d := x.voltage) (by lk svcAttrs) h.voltage.2, optDOr_attr (d := x.reactive) (by lk svcAttrs) h.reactive.2,
      readPlace_at hK.naturals (pl := x.term.place) ⟨by lk svcAttrs, by lk svcAttrs, by lk svcAttrs⟩ h.term.place]
    simp only [Out.monad_bind_ok, hk2, h.bMin.1, h.bMax.1, check_false, checkSvc_ok h.voltage.1 h.reactive.1]
    rw [readTerm_at (t := x.term) (by lk svcAttrs) (by lk svcAttrs) h.term.p h.term.q]
    rfl
  · have h1 := ref_body (A := A) (h := svcSub A) (root := "staticVarCompensator") (el := "regulatingTerminal") (required := true) (set := fun _ r => some r) rfl h.reg none
    cases hr : x.reg with
    | none => rw [hr] at h1; exact h1
    | some r => rw [hr] at h1; exact h1

def someSvc : Svc := ⟨⟨⟨"SVC", "", false⟩, [], []⟩, .fin (-1), 1, .nan, 10, 1, ⟨.node 4, .nan, .nan⟩, some ⟨"L", ""⟩⟩

theorem someSvc_ok : SvcOk toyX Anon.none someSvc :=
  ⟨plain_ident, ⟨by decide, toyX_keeps _⟩, ⟨by decide, toyX_keeps _⟩, by decide, ⟨by decide, toyX_keeps _⟩, ⟨by decide, toyX_keeps _⟩,
    ⟨place_node (by decide), toyX_keeps _, toyX_keeps _⟩, (by rintro r ⟨⟩; exact ⟨by decide, rfl⟩)⟩

theorem someSvc_read : ElemRT "staticVarCompensator" (writeSvc toyX Anon.none someSvc) (readSvc toyX Anon.none) someSvc :=
  svc_round_trip toyX_integers someSvc_ok

/-! ### Shunt compensators -/

/-- What holds of every shunt compensator (see `built_shunt_wf`). -/
structure ShOk (K : XCodec) (A : Anon) (x : Sh) : Prop where
  ident : IdentOk A x.ident
  wf : ShuntWF x.model x.per
  exact : ShuntExact K.toCodec x.model x.per
  term : TermOk K A x.term
  reg : RefOk A x.reg

theorem model_ert {K : Codec} (hN : K.Naturals) {m : Shunt.Model} (hm : ModelWF m) (he : ModelExact K m) (o : Option Shunt.Model) :
    ∃ n, (n = "shuntLinearModel" ∨ n = "shuntNonLinearModel") ∧ ElemRT n (.ok (modelCmds K m)) (shuntCb K .v15 o) (some m) := by
  have hassert : readAssertMinimumVersion .v13 .v15 = .ok () := rfl
  cases m with
  | linear b g max =>
    obtain ⟨h1, h2, h3⟩ := hm
    obtain ⟨e1, e2⟩ := he
    refine ⟨_, .inl rfl, _, _, rfl, roundTrip_intro fun i => ⟨[], emits_nil i, fun rest => ?_⟩⟩
    show shuntCb K .v15 o (.start "shuntLinearModel" (attrD K "bPerSection" b ++ (attrD K "gPerSection" g ++ attrN K "maximumSectionCount" max)) true :: rest) = _
    unfold shuntCb
    rw [getD_attr (d := b) (by simp [lookup_append, lookup_attrD, h1]) e1,
      optDOr_attr (d := g) (by cases hg : g.isNan <;> simp [lookup_append, lookup_attrD, lookup_attrN, hg]) e2,
      getN_attr hN (d := max) (by simp [lookup_append, lookup_attrD, lookup_attrN]) h3]
    have : max ≠ 0 := by omega
    simp [localName, hassert, Shunt.buildLinear, Shunt.checkBPerSection, h1, this, Out.map, last1, coreToks]
  | nonLinear ss =>
    refine ⟨_, .inr rfl, _, _, rfl, roundTrip_intro fun i => ?_⟩
    obtain ⟨bt, h1, h2, h3⟩ := sections_read (K := K) "shuntNonLinearModel" i ss [] hm.2 he
    refine ⟨bt, h1, fun rest => ?_⟩
    have hl : localName (coreToks i "shuntNonLinearModel" [] bt ++ rest) = .ok "shuntNonLinearModel" := by
      obtain ⟨e, tl, hc⟩ := core_start i "shuntNonLinearModel" [] bt
      rw [hc]; rfl
    unfold shuntCb
    rw [hl, Out.bind_ok, if_neg (by decide), if_pos rfl, hassert, Out.bind_ok, readUntilEnd_core i (by simpa using h2) (fun hb => by simpa using h3 hb), Out.bind_ok]
    have : ss.isEmpty = false := by cases ss with | nil => exact absurd rfl hm.1 | cons _ _ => rfl
    simp [this]

/-- **C67** A shunt compensator is read back as it was written, with its model, its regulation and its regulating terminal. -/
theorem shunt_element_round_trip {K : XCodec} (hK : K.Integers) {A : Anon} {x : Sh} (h : ShOk K A x) : ElemRT "shunt" (writeSh K A x) (readSh K A) x := by
  refine readElem_ert (a := (x.per, x.term)) (s1 := (some x.model, x.reg)) h.ident ⟨by lk shAttrs, by lk shAttrs⟩ (by decide) rfl rfl (fun e tl => ?_) ?_ ?_
  · unfold readShRoot
    rw [optBOr_attr (b := x.per.on) (by lk shAttrs), optDOr_attr (d := x.per.targetV) (by lk shAttrs) h.exact.targetV, optDOr_attr (d := x.per.deadband) (by lk shAttrs) h.exact.deadband,
      getN_attr hK.naturals (d := x.per.count) (by lk shAttrs) h.wf.count.2, readPlace_at hK.naturals (pl := x.term.place) ⟨by lk shAttrs, by lk shAttrs, by lk shAttrs⟩ h.term.place]
    simp only [Out.monad_bind_ok]
    rw [readTerm_at (t := x.term) (by lk shAttrs) (by lk shAttrs) h.term.p h.term.q]
    rfl
  · have h2 := ref_body (A := A) (h := shSub K A) (root := "shunt") (el := "regulatingTerminal") (required := true) (set := fun s r => (s.1, some r)) rfl h.reg (some x.model, none)
    refine Body.append (s' := (some x.model, none)) ?_ ?_
    · obtain ⟨n, hn, as, body, hw, hrt⟩ := model_ert hK.naturals h.wf.model h.exact.model none
      simp only [Out.ok.injEq] at hw
      rw [hw]
      have hh : ∃ cb, shSub K A n = some cb ∧ ∀ toks r, shuntCb K.toCodec .v15 none toks = .ok (some x.model, r) → cb (none, none) toks = .ok ((some x.model, none), r) := by
        refine ⟨_, (by rcases hn with rfl | rfl <;> rfl), fun toks r hr => ?_⟩
        simp only [hr, Out.monad_bind_ok]
      obtain ⟨cb, h3, h4⟩ := hh
      exact body_item hrt h3 h4
    · cases hr : x.reg with
      | none => rw [hr] at h2; exact h2
      | some r => rw [hr] at h2; exact h2
  · unfold buildSh
    simp only [wf_build h.wf, Out.monad_bind_ok]
    cases hr : x.reg with
    | none => rw [← hr]; simp [hr]; obtain ⟨⟩ := x; simp_all
    | some r =>
      have := (h.reg r hr).1
      obtain ⟨⟩ := x
      simp_all

def someSh : Sh := ⟨⟨⟨"SH", "", false⟩, [], []⟩, .nonLinear [⟨1, 0⟩, ⟨.fin (-2), 3⟩], ⟨1, true, 225, 2⟩, ⟨.bus "B" true, .nan, 3⟩, some ⟨"L", ""⟩⟩

theorem someSh_ok : ShOk toyX Anon.none someSh :=
  ⟨plain_ident, ⟨⟨by decide, by decide⟩, ⟨by decide, by decide⟩, by decide, by decide, by decide⟩, ⟨fun s _ => ⟨toy_exact _, toy_exact _⟩, fun _ => toy_exact _, fun _ => toy_exact _⟩,
      ⟨⟨by decide, rfl⟩, toyX_keeps _, toyX_keeps _⟩, (by rintro r ⟨⟩; exact ⟨by decide, rfl⟩)⟩

theorem someSh_read : ElemRT "shunt" (writeSh toyX Anon.none someSh) (readSh toyX Anon.none) someSh :=
  shunt_element_round_trip toyX_integers someSh_ok

/-! ### Dangling lines -/

/-- What holds of the generation of every dangling line (`DanglingLineGenerationAdder.cpp` l. 25-27, `DanglingLineGeneration.cpp` l. 26-27). -/
structure DlGenOk (K : XCodec) (y : DlGen) : Prop where
  minP : y.minP.isNan = false ∧ K.Keeps y.minP
  maxP : y.maxP.isNan = false ∧ K.Keeps y.maxP
  range : Dbl.lt y.maxP y.minP = false
  targetP : y.targetP.isNan = false ∧ K.Keeps y.targetP
  control : ControlOk y.on y.targetV y.targetQ
  targets : K.Keeps y.targetV ∧ K.Keeps y.targetQ
  limits : ReactiveOk K y.limits

/-- What holds of every dangling line (`DanglingLineAdder.cpp` l. 26-31). -/
structure DlOk (K : XCodec) (A : Anon) (y : Dl) : Prop where
  ident : IdentOk A y.ident
  p0 : y.p0.isNan = false ∧ K.Keeps y.p0
  q0 : y.q0.isNan = false ∧ K.Keeps y.q0
  r : y.r.isNan = false ∧ K.Keeps y.r
  x : y.x.isNan = false ∧ K.Keeps y.x
  g : y.g.isNan = false ∧ K.Keeps y.g
  b : y.b.isNan = false ∧ K.Keeps y.b
  gen : ∀ z, y.gen = some z → DlGenOk K z
  term : TermOk K A y.term
  active : LimitsOk K y.active
  apparent : LimitsOk K y.apparent
  current : LimitsOk K y.current

theorem lookup_dlGen_none (K : XCodec) (k : String) (o : Option DlGen)
    (hk : k ∉ ["generationMinP", "generationMaxP", "generationVoltageRegulationOn", "generationTargetP", "generationTargetV", "generationTargetQ"]) : lookup k (dlGenAttrs K o) = none := by
  simp only [List.mem_cons, List.not_mem_nil, or_false, not_or] at hk
  obtain ⟨h1, h2, h3, h4, h5, h6⟩ := hk
  cases o with
  | none => rfl
  | some y => simp [dlGenAttrs, lookup_append, lookup_attrD, lookup_attrB, Ne.symm h1, Ne.symm h2, Ne.symm h3, Ne.symm h4, Ne.symm h5, Ne.symm h6]

/-- The generation that the attributes give: the one written, with the default reactive limits. -/
theorem readDlGen_at {K : XCodec} {A : Anon} {x : Dl} (h : ∀ y, x.gen = some y → DlGenOk K y) (e : Bool) (tl : List Tok) :
    readDlGen K (.start "danglingLine" (headAttrs A .v15 x.ident.head ++ dlAttrs K A x) e :: tl) = .ok (x.gen.map fun y => { y with limits := defaultReactive }) := by
  have hg : ∀ k, k ∈ ["generationMinP", "generationMaxP", "generationVoltageRegulationOn", "generationTargetP", "generationTargetV", "generationTargetQ"] →
      lookup k (headAttrs A .v15 x.ident.head ++ dlAttrs K A x) = lookup k (dlGenAttrs K x.gen) := by
    intro k hk
    simp only [List.mem_cons, List.not_mem_nil, or_false] at hk
    rcases hk with rfl | rfl | rfl | rfl | rfl | rfl <;> lk dlAttrs
  have h1 := hg "generationMinP" (by decide)
  have h2 := hg "generationMaxP" (by decide)
  have h3 := hg "generationVoltageRegulationOn" (by decide)
  have h4 := hg "generationTargetP" (by decide)
  have h5 := hg "generationTargetV" (by decide)
  have h6 := hg "generationTargetQ" (by decide)
  generalize headAttrs A .v15 x.ident.head ++ dlAttrs K A x = as at h1 h2 h3 h4 h5 h6
  unfold readDlGen
  cases hx : x.gen with
  | none =>
    rw [hx] at h3
    simp only [rawAttr, h3, dlGenAttrs, lookup_nil, Out.monad_bind_ok]
    rfl
  | some y =>
    rw [hx] at h1 h2 h3 h4 h5 h6
    have hy := h y hx
    have h3' : lookup "generationVoltageRegulationOn" as = some (if y.on then "true" else "false") := by rw [h3]; lk dlGenAttrs
    simp only [rawAttr, h3', Out.monad_bind_ok, isTrue_show]
    rw [optDOr_attr (d := y.minP) (by rw [h1]; lk dlGenAttrs) hy.minP.2, optDOr_attr (d := y.maxP) (by rw [h2]; lk dlGenAttrs) hy.maxP.2,
      optDOr_attr (d := y.targetP) (by rw [h4]; lk dlGenAttrs) hy.targetP.2, optDOr_attr (d := y.targetV) (by rw [h5]; lk dlGenAttrs) hy.targets.1,
      optDOr_attr (d := y.targetQ) (by rw [h6]; lk dlGenAttrs) hy.targets.2]
    simp only [Out.monad_bind_ok, hy.range, hy.targetP.1, hy.minP.1, hy.maxP.1, check_false, checkControl_ok hy.control]
    rfl

macro "lkd" : tactic => `(tactic| simp [dlAttrs, lookup_append, lookup_cons, lookup_nil, lookup_attrD, lookup_place, lookup_ite, pqAttrs, lookup_headAttrs, lookup_dlGen_none])

/-- **C67** A dangling line is read back as it was written, with its generation, its reactive limits and its loading limits. -/
theorem dangling_line_round_trip {K : XCodec} (hK : K.Integers) {A : Anon} {x : Dl} (h : DlOk K A x) : ElemRT "danglingLine" (writeDl K A x) (readDl K A) x := by
  refine readElem_ert (a := ⟨x.p0, x.q0, x.r, x.x, x.g, x.b, x.gen.map fun y => { y with limits := defaultReactive }, x.ucte, x.term⟩)
    (s1 := ⟨x.gen.map DlGen.limits, x.active, x.apparent, x.current⟩) h.ident ⟨?_, ?_⟩ (by decide) rfl rfl (fun e tl => ?_) ?_ ?_
  · lkd
  · lkd
  · unfold readDlRoot
    have hu : optSOr "ucteXnodeCode" "" (.start "danglingLine" (headAttrs A .v15 x.ident.head ++ dlAttrs K A x) e :: tl) = .ok x.ucte := by
      have : lookup "ucteXnodeCode" (headAttrs A .v15 x.ident.head ++ dlAttrs K A x) = if x.ucte ≠ "" then some x.ucte else none := by
        lkd
      by_cases hu : x.ucte = "" <;> simp [optSOr, rawAttr, this, hu]
    rw [getD_at (d := x.p0) (by lkd) h.p0.1 h.p0.2, getD_at (d := x.q0) (by lkd) h.q0.1 h.q0.2, getD_at (d := x.r) (by lkd) h.r.1 h.r.2,
      getD_at (d := x.x) (by lkd) h.x.1 h.x.2, getD_at (d := x.g) (by lkd) h.g.1 h.g.2, getD_at (d := x.b) (by lkd) h.b.1 h.b.2, readDlGen_at h.gen, hu,
      readPlace_at hK.naturals (pl := x.term.place)
        ⟨by lkd,
          by lkd,
          by lkd⟩ h.term.place]
    simp only [Out.monad_bind_ok, h.p0.1, h.q0.1, h.r.1, h.x.1, h.g.1, h.b.1, check_false]
    rw [readTerm_at (t := x.term) (by lkd)
      (by lkd) h.term.p h.term.q]
    rfl
  · refine Body.append (s' := ⟨x.gen.map DlGen.limits, none, none, none⟩) ?_ (Body.append (s' := ⟨x.gen.map DlGen.limits, x.active, none, none⟩) ?_
      (Body.append (s' := ⟨x.gen.map DlGen.limits, x.active, x.apparent, none⟩) ?_ ?_))
    · cases hg : x.gen with
      | none => exact body_nil _ _ _ _
      | some y => exact reactive_body (A := A) (h := dlSub K) (root := "danglingLine") (set := fun s r => { s with limits := some r }) rfl rfl (h.gen y hg).limits _
    · have := limits_body hK.naturals (A := A) (h := dlSub K) (root := "danglingLine") (el := "activePowerLimits") (set := fun s l => { s with active := some l }) rfl h.active
        ⟨x.gen.map DlGen.limits, none, none, none⟩
      cases hl : x.active with
      | none => rw [hl] at this; exact this
      | some l => rw [hl] at this; exact this
    · have := limits_body hK.naturals (A := A) (h := dlSub K) (root := "danglingLine") (el := "apparentPowerLimits") (set := fun s l => { s with apparent := some l }) rfl h.apparent
        ⟨x.gen.map DlGen.limits, x.active, none, none⟩
      cases hl : x.apparent with
      | none => rw [hl] at this; exact this
      | some l => rw [hl] at this; exact this
    · have := limits_body hK.naturals (A := A) (h := dlSub K) (root := "danglingLine") (el := "currentLimits") (set := fun s l => { s with current := some l }) rfl h.current
        ⟨x.gen.map DlGen.limits, x.active, x.apparent, none⟩
      cases hl : x.current with
      | none => rw [hl] at this; exact this
      | some l => rw [hl] at this; exact this
  · obtain ⟨i, p0, q0, r, xx, g, b, gen, ucte, term, a, ap, cu⟩ := x
    cases gen <;> rfl

def someDl : Dl :=
  ⟨⟨⟨"DL", "", false⟩, [], []⟩, 1, 2, 3, 4, 5, 6, some ⟨.fin (-10), 10, true, 3, 225, .nan, .minMax (.fin (-5)) 5⟩, "X1", ⟨.node 2, 1, 1⟩, none, none, some someLimits⟩

theorem someLimits_ok : LimitsOk toyX (some someLimits) := by
  rintro l ⟨⟩
  refine ⟨⟨by decide, by simp [someLimits], by simp [someLimits], ?_⟩, ⟨fun _ => toy_exact _, fun _ _ => toy_exact _⟩, .inl (by decide)⟩
  intro t ht
  simp only [someLimits, List.mem_cons, List.not_mem_nil, or_false] at ht
  rcases ht with rfl | rfl | rfl
  · decide
  · decide
  · exact ⟨by
      have h : (0 : Rat) < (2 ^ 53 - 1) * 2 ^ 971 := by grind
      exact decide_eq_true h, by decide, by decide⟩

theorem someDl_ok : DlOk toyX Anon.none someDl :=
  ⟨plain_ident, ⟨by decide, toyX_keeps _⟩, ⟨by decide, toyX_keeps _⟩, ⟨by decide, toyX_keeps _⟩, ⟨by decide, toyX_keeps _⟩, ⟨by decide, toyX_keeps _⟩, ⟨by decide, toyX_keeps _⟩,
      (by
        rintro y ⟨⟩
        exact ⟨⟨by decide, toyX_keeps _⟩, ⟨by decide, toyX_keeps _⟩, by decide, ⟨by decide, toyX_keeps _⟩, ⟨by decide, by decide⟩, ⟨toyX_keeps _, toyX_keeps _⟩,
          ⟨by decide, toy_exact _, toy_exact _⟩⟩),
      ⟨place_node (by decide), toyX_keeps _, toyX_keeps _⟩, limitsOk_none, limitsOk_none, someLimits_ok⟩

theorem someDl_read : ElemRT "danglingLine" (writeDl toyX Anon.none someDl) (readDl toyX Anon.none) someDl :=
  dangling_line_round_trip toyX_integers someDl_ok

end Verif.XmlNet
