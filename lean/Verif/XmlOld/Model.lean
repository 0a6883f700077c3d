import Verif.XmlOld.Base

/-!
Writers and readers of the equipment whose XML depends on the version of IIDM-XML, in any version from 1.0 to 1.5.

Modelled code (`src/iidm/converter/xml`, except for the last files):
* `BusbarSectionXml.cpp` l. 35-58
* `StaticVarCompensatorXml.cpp` l. 37-88
* `DanglingLineXml.cpp` l. 37-154
* `LineXml.cpp` l. 35-117
* `TieLineXml.cpp` l. 24-29, 44-181
* `AbstractTransformerXml.hxx` l. 43-265
* `TwoWindingsTransformerXml.cpp` l. 35-131
* `ThreeWindingsTransformerXml.cpp` l. 39-239, `ThreeWindingsTransformerAdder.cpp` l. 54-57, 91-101

The attributes that do not depend on the version, and the checks of the adders, are those of `Verif.XmlNet` (C67, C68).  Subtraction of doubles is a
parameter, so that nothing is assumed about its rounding.  The flows at the boundary of a tie line, which the network computes, are parameters too.
-/

namespace Verif.XmlOld

open Verif Verif.Xml Verif.XmlNet

/-! ### Busbar sections -/

/-- `writeRootElementAttributes`, `BusbarSectionXml.cpp` l. 52-58; `va` is what `getV` and `getAngle` give. -/
def writeBbs (K : XCodec) (A : Anon) (c : Ctx) (x : Bbs) (va : Dbl × Dbl) : Piece Cmd :=
  writeElem A c "busbarSection" x.ident (plain (attrN K.toCodec "node" x.node) >+>
    runUntilMaximumVersion .v10 c.version (fun w => .ok { w with doc := w.doc ++ (attrD K.toCodec "v" va.1 ++ attrD K.toCodec "angle" va.2) }) start) (plain [])

/-- `readRootElementAttributes`, l. 35-50: with the busbar section, the voltage and angle that the end task gives to its bus, if there is such a task. -/
def readBbs (K : XCodec) (A : Anon) (v : Ver) : List Tok → Out ((Bbs × Option (Dbl × Dbl)) × List Tok) :=
  readElem A v "busbarSection" (fun toks => do
    let n ← getN K.toCodec "node" toks
    let va ← runUntilMaximumVersion .v10 v (fun _ => do
      let u ← optDOr K.toCodec "v" .nan toks
      let a ← optDOr K.toCodec "angle" .nan toks
      .ok (some (u, a))) none
    .ok (n, va)) noSub () fun x a _ => .ok (⟨x, a.1⟩, a.2)

/-! ### Static VAR compensators -/

/-- Name of the attribute of the voltage, l. 40, 74. -/
def voltageName (v : Ver) : String := if v.le .v12 then "voltageSetPoint" else "voltageSetpoint"

/-- Name of the attribute of the reactive power, l. 41, 75. -/
def reactiveName (v : Ver) : String := if v.le .v12 then "reactivePowerSetPoint" else "reactivePowerSetpoint"

/-- `writeRootElementAttributes`, `StaticVarCompensatorXml.cpp` l. 71-81. -/
def svcAttrs (K : XCodec) (A : Anon) (v : Ver) (mode : String) (x : Svc) : List (String × String) :=
  attrD K.toCodec "bMin" x.bMin ++ (attrD K.toCodec "bMax" x.bMax ++ (attrD K.toCodec (voltageName v) x.voltage ++ (attrD K.toCodec (reactiveName v) x.reactive ++
    (("regulationMode", mode) :: (placeAttrs K A "" x.term.place ++ pqAttrs K "" x.term)))))

/-- With `writeSubElements`, l. 83-88. -/
def writeSvc (K : XCodec) (A : Anon) (c : Ctx) (x : Svc) : Piece Cmd :=
  (Enums.toString Enums.staticVarCompensatorRegulationMode.names x.mode).bind fun m => writeElem A c "staticVarCompensator" x.ident (plain (svcAttrs K A c.version m x))
    (anyway x.reg.isSome "regulatingTerminal" .v11 c (.ok (refElems A "regulatingTerminal" x.reg)))

/-- `readRootElementAttributes`, l. 37-54, with the checks of `StaticVarCompensatorAdder.cpp` l. 25-28. -/
def readSvcRoot (K : XCodec) (A : Anon) (v : Ver) (toks : List Tok) : Out (Dbl × Dbl × Dbl × Dbl × Nat × Term) := do
  let bMin ← getD K.toCodec "bMin" toks
  let bMax ← getD K.toCodec "bMax" toks
  let u ← optDOr K.toCodec (voltageName v) .nan toks
  let q ← optDOr K.toCodec (reactiveName v) .nan toks
  let name ← getS "regulationMode" toks
  let mode ← Enums.fromString Enums.staticVarCompensatorRegulationMode.names name
  let place ← readPlace K A toks
  check bMin.isNan
  check bMax.isNan
  checkSvc mode u q
  let term ← readTerm K "" toks place
  .ok (bMin, bMax, u, q, mode, term)

/-- `readSubElements`, l. 56-69. -/
def svcSub (A : Anon) (v : Ver) : Handler (Option Ref) := fun n =>
  if n = "regulatingTerminal" then some (onlySince .v11 v (refCb A true fun _ r => some r)) else none

def readSvc (K : XCodec) (A : Anon) (v : Ver) : List Tok → Out (Svc × List Tok) :=
  readElem A v "staticVarCompensator" (readSvcRoot K A v) (svcSub A v) none fun x a s => .ok ⟨x, a.1, a.2.1, a.2.2.1, a.2.2.2.1, a.2.2.2.2.1, a.2.2.2.2.2, s⟩

/-! ### Dangling lines -/

/-- l. 105-116: until version 1.2 the targets of the generation are taken off the load. -/
def dlLoad (sub : Dbl → Dbl → Dbl) (v : Ver) (x : Dl) : Dbl × Dbl :=
  match x.gen with
  | none => (x.p0, x.q0)
  | some g => if v.le .v12 then (if g.targetP.isNan then x.p0 else sub x.p0 g.targetP, if g.targetQ.isNan then x.q0 else sub x.q0 g.targetQ) else (x.p0, x.q0)

/-- `writeRootElementAttributes`, `DanglingLineXml.cpp` l. 101-137. -/
def dlAttrs (K : XCodec) (A : Anon) (v : Ver) (x : Dl) (load : Dbl × Dbl) : List (String × String) :=
  attrD K.toCodec "p0" load.1 ++ (attrD K.toCodec "q0" load.2 ++ (attrD K.toCodec "r" x.r ++ (attrD K.toCodec "x" x.x ++ (attrD K.toCodec "g" x.g ++ (attrD K.toCodec "b" x.b ++
    ((if v.ge .v13 then dlGenAttrs K x.gen else []) ++ ((if x.ucte ≠ "" then [("ucteXnodeCode", x.ucte)] else []) ++ (placeAttrs K A "" x.term.place ++ pqAttrs K "" x.term))))))))

/-- l. 105-106: a generation is reported before version 1.3. -/
def dlReport (c : Ctx) (x : Dl) : Piece (String × String) :=
  match x.gen with
  | none => plain []
  | some _ => assertMinimumVersion "generation" .v13 c start

/-- With `writeSubElements`, l. 139-154. -/
def writeDl (K : XCodec) (A : Anon) (sub : Dbl → Dbl → Dbl) (c : Ctx) (x : Dl) : Piece Cmd :=
  writeElem A c "danglingLine" x.ident (dlReport c x >+> plain (dlAttrs K A c.version x (dlLoad sub c.version x)))
    (runFromMinimumVersion .v13 c.version (fun w => .ok { w with doc := w.doc ++ dlGenElems K x.gen }) start >+> limitsSince K c "activePowerLimits" x.active >+>
      limitsSince K c "apparentPowerLimits" x.apparent >+> plain (limitsElems K "currentLimits" x.current))

/-- `readRootElementAttributes`, l. 37-75, with the checks of `DanglingLineAdder.cpp` l. 26-31. -/
def readDlRoot (K : XCodec) (A : Anon) (v : Ver) (toks : List Tok) : Out DlRoot := do
  let p0 ← getD K.toCodec "p0" toks
  let q0 ← getD K.toCodec "q0" toks
  let r ← getD K.toCodec "r" toks
  let x ← getD K.toCodec "x" toks
  let g ← getD K.toCodec "g" toks
  let b ← getD K.toCodec "b" toks
  let gen ← runFromMinimumVersion .v13 v (fun _ => readDlGen K toks) none
  let ucte ← optSOr "ucteXnodeCode" "" toks
  let place ← readPlace K A toks
  check p0.isNan
  check q0.isNan
  check r.isNan
  check x.isNan
  check g.isNan
  check b.isNan
  let term ← readTerm K "" toks place
  .ok ⟨p0, q0, r, x, g, b, gen, ucte, term⟩

/-- `readSubElements`, l. 77-99. -/
def dlSub (K : XCodec) (v : Ver) : Handler DlSub := fun n =>
  if n = "activePowerLimits" then some (limitsSub15 K v "activePowerLimits" fun s l => { s with active := some l })
  else if n = "apparentPowerLimits" then some (limitsSub15 K v "apparentPowerLimits" fun s l => { s with apparent := some l })
  else if n = "currentLimits" then some (limitsSub K "currentLimits" fun s l => { s with current := some l })
  else if n = "reactiveCapabilityCurve" ∨ n = "minMaxReactiveLimits" then some (onlySince .v13 v (reactiveCb K fun s r => { s with limits := some r }))
  else none

def readDl (K : XCodec) (A : Anon) (v : Ver) : List Tok → Out (Dl × List Tok) :=
  readElem A v "danglingLine" (readDlRoot K A v) (dlSub K v) ⟨none, none, none, none⟩ buildDl

/-! ### Lines -/

/-- `LineXml.cpp` l. 81-117. -/
def writeLine (K : XCodec) (A : Anon) (c : Ctx) (x : Line) : Piece Cmd :=
  writeElem A c "line" x.ident (plain (lineAttrs K A x)) (branchElems K c x.lims)

/-- l. 35-79. -/
def readLine (K : XCodec) (A : Anon) (v : Ver) : List Tok → Out (Line × List Tok) :=
  readElem A v "line" (readLineRoot K A) (branchSub K v) ⟨noLims, noLims⟩ fun i a l => .ok ⟨i, a.1, a.2.1, a.2.2, l⟩

/-! ### Tie lines -/

/-- Active and reactive power at the boundary, of each half. -/
structure Xnode where
  p1 : Dbl
  p2 : Dbl
  q1 : Dbl
  q2 : Dbl
  deriving DecidableEq, Repr

/-- `writeHalf`, `TieLineXml.cpp` l. 124-144: `p` and `q` are the power at the boundary. -/
def halfAttrs (K : XCodec) (A : Anon) (v : Ver) (s : String) (h : Half) (p q : Dbl) : List (String × String) :=
  ("id" ++ s, A.anon h.id) :: ((if h.id ≠ h.name then [("name" ++ s, A.anon h.name)] else []) ++ (characAttrs K s h.z ++
    ((if v.le .v14 then attrD K.toCodec ("xnodeP" ++ s) p ++ attrD K.toCodec ("xnodeQ" ++ s) q else []) ++ (if v.ge .v13 then attrOptB ("fictitious" ++ s) h.fictitious false else []))))

/-- `writeRootElementAttributes`, l. 146-156. -/
def tieAttrs (K : XCodec) (A : Anon) (v : Ver) (x : TieLine) (b : Xnode) : List (String × String) :=
  ("ucteXnodeCode", x.ucte) :: (sidesAttrs K A x.side1 x.side2 ++ (halfAttrs K A v "_1" x.half1 b.p1 b.q1 ++ halfAttrs K A v "_2" x.half2 b.p2 b.q2))

def writeTie (K : XCodec) (A : Anon) (c : Ctx) (x : TieLine) (b : Xnode) : Piece Cmd :=
  writeElem A c "tieLine" x.ident (plain (tieAttrs K A c.version x b)) (branchElems K c x.lims)

/-- `readHalf`, l. 44-67. -/
def readHalf (K : XCodec) (A : Anon) (v : Ver) (s : String) (toks : List Tok) : Out Half := do
  let i ← getS ("id" ++ s) toks
  let id ← A.dean i
  let n ← optSOr ("name" ++ s) "" toks
  let name ← A.dean n
  let z ← readCharac K s toks
  let f ← runFromMinimumVersion .v13 v (fun _ => optBOr ("fictitious" ++ s) false toks) false
  check (id == "")
  .ok ⟨id, if name = "" then id else name, f, z⟩

/-- What `readRootElementAttributes` keeps for its end task, l. 77-81: the reactive power of the second half is read from the attribute of the first one. -/
def readXnode (K : XCodec) (v : Ver) (toks : List Tok) : Out (Option Xnode) :=
  runUntilMaximumVersion .v14 v (fun _ => do
    let p1 ← optDOr K.toCodec "xnodeP_1" .nan toks
    let p2 ← optDOr K.toCodec "xnodeP_2" .nan toks
    let q1 ← optDOr K.toCodec "xnodeQ_1" .nan toks
    let q2 ← optDOr K.toCodec "xnodeQ_1" .nan toks
    .ok (some ⟨p1, p2, q1, q2⟩)) none

/-- `readRootElementAttributes`, l. 69-90, with the check of `TieLineAdder.cpp` l. 30. -/
def readTieRoot (K : XCodec) (A : Anon) (v : Ver) (toks : List Tok) : Out ((String × Half × Half × Side × Side) × Option Xnode) := do
  let h1 ← readHalf K A v "_1" toks
  let h2 ← readHalf K A v "_2" toks
  let s ← readSides K A toks
  let u ← optSOr "ucteXnodeCode" "" toks
  check (u == "")
  let b ← readXnode K v toks
  .ok ((u, h1, h2, s.1, s.2), b)

/-- The tie line, and what its end task compares. -/
def readTie (K : XCodec) (A : Anon) (v : Ver) : List Tok → Out ((TieLine × Option Xnode) × List Tok) :=
  readElem A v "tieLine" (readTieRoot K A v) (branchSub K v) ⟨noLims, noLims⟩ fun i a l => .ok (⟨i, a.1.1, a.1.2.1, a.1.2.2.1, a.1.2.2.2.1, a.1.2.2.2.2, l⟩, a.2)

/-- `checkBoundaryValue`, l. 24-29: the name is logged when a value is there and is not the computed one (`operator!=`, true of NaN). -/
def boundaryWarning (imported calculated : Dbl) (name : String) : List String :=
  if !imported.isNan && (Dbl.lt imported calculated || Dbl.lt calculated imported || calculated.isNan) then [name] else []

/-- The end task, l. 82-87: the last name is `xnodeP_2` though the value is a reactive power. -/
def boundaryWarnings (imported calculated : Xnode) : List String :=
  boundaryWarning imported.p1 calculated.p1 "xnodeP_1" ++ (boundaryWarning imported.p2 calculated.p2 "xnodeP_2" ++
    (boundaryWarning imported.q1 calculated.q1 "xnodeQ_1" ++ boundaryWarning imported.q2 calculated.q2 "xnodeP_2"))

/-! ### Tap changers -/

/-- `writeTargetDeadband`, `AbstractTransformerXml.hxx` l. 255-265: until version 1.1 a dead band of 0 is not written. -/
def deadbandAttrs (K : XCodec) (v : Ver) (d : Dbl) : List (String × String) :=
  (if v.le .v11 then attrOptD K.toCodec "targetDeadband" d 0 else []) ++ (if v.ge .v12 then attrD K.toCodec "targetDeadband" d else [])

/-- `readTargetDeadband`, l. 156-172: until version 1.1 a missing dead band is 0 if the tap changer regulates. -/
def readDeadband (K : XCodec) (v : Ver) (on : Bool) (toks : List Tok) : Out Dbl := do
  let d ← runUntilMaximumVersion .v11 v (fun _ => do
    let d ← optDOr K.toCodec "targetDeadband" .nan toks
    .ok (if on && d.isNan then 0 else d)) .nan
  runFromMinimumVersion .v12 v (fun _ => optDOr K.toCodec "targetDeadband" .nan toks) d

/-- `writeRatioTapChanger`, l. 217-235, `writeTapChanger`, l. 237-243. -/
def rtcAttrs (K : XCodec) (v : Ver) (t : Rtc) : List (String × String) :=
  attrI K "lowTapPosition" t.low ++ (attrI K "tapPosition" t.tap ++ (deadbandAttrs K v t.deadband ++ (attrB "loadTapChangingCapabilities" t.ltc ++
    ((if t.ltc || t.on then attrB "regulating" t.on else []) ++ attrD K.toCodec "targetV" t.targetV))))

def writeRtc (K : XCodec) (A : Anon) (v : Ver) (el : String) (t : Rtc) : List Cmd := elemCmds el (rtcAttrs K v t) (refElems A "terminalRef" t.reg ++ rtcSteps K t.steps)

def rtcElems (K : XCodec) (A : Anon) (v : Ver) (el : String) : Option Rtc → List Cmd
  | none => []
  | some t => writeRtc K A v el t

/-- `readRatioTapChanger`, l. 107-118. -/
def readRtcRoot (K : XCodec) (v : Ver) (toks : List Tok) : Out (Int × Int × Dbl × Bool × Bool × Dbl) := do
  let low ← getI K "lowTapPosition" toks
  let tap ← getI K "tapPosition" toks
  let on ← optBOr "regulating" false toks
  let d ← readDeadband K v on toks
  let ltc ← getB "loadTapChangingCapabilities" toks
  let u ← optDOr K.toCodec "targetV" .nan toks
  .ok (low, tap, d, ltc, on, u)

def readRtc (K : XCodec) (A : Anon) (v : Ver) (el : String) : List Tok → Out (Rtc × List Tok) := readPlain el (readRtcRoot K v) (rtcSub K A) (none, []) buildRtc

/-- `writePhaseTapChanger`, l. 186-207. -/
def ptcAttrs (K : XCodec) (v : Ver) (mode : String) (t : Ptc) : List (String × String) :=
  attrI K "lowTapPosition" t.low ++ (attrI K "tapPosition" t.tap ++ (deadbandAttrs K v t.deadband ++ (("regulationMode", mode) ::
    ((if t.mode ≠ fixedTap ∨ t.value.isNan = false then attrD K.toCodec "regulationValue" t.value else []) ++ (if t.mode ≠ fixedTap ∨ t.on = true then attrB "regulating" t.on else [])))))

def writePtc (K : XCodec) (A : Anon) (v : Ver) (el : String) (t : Ptc) : Out (List Cmd) := do
  let m ← Enums.toString Enums.phaseTapChangerRegulationMode.names t.mode
  .ok (elemCmds el (ptcAttrs K v m t) (refElems A "terminalRef" t.reg ++ ptcSteps K t.steps))

def ptcElems (K : XCodec) (A : Anon) (v : Ver) (el : String) : Option Ptc → Out (List Cmd)
  | none => .ok []
  | some t => writePtc K A v el t

/-- `readPhaseTapChanger`, l. 45-57. -/
def readPtcRoot (K : XCodec) (v : Ver) (toks : List Tok) : Out (Int × Int × Dbl × Nat × Dbl × Bool) := do
  let low ← getI K "lowTapPosition" toks
  let tap ← getI K "tapPosition" toks
  let on ← optBOr "regulating" false toks
  let d ← readDeadband K v on toks
  let m ← getS "regulationMode" toks
  let mode ← Enums.fromString Enums.phaseTapChangerRegulationMode.names m
  let u ← optDOr K.toCodec "regulationValue" .nan toks
  .ok (low, tap, d, mode, u, on)

def readPtc (K : XCodec) (A : Anon) (v : Ver) (el : String) : List Tok → Out (Ptc × List Tok) := readPlain el (readPtcRoot K v) (ptcSub K A) (none, []) buildPtc

def rtcCb {σ : Type} (K : XCodec) (A : Anon) (v : Ver) (el : String) (set : σ → Rtc → σ) : Callback σ := fun s toks => do
  let r ← readRtc K A v el toks
  .ok (set s r.1, r.2)

def ptcCb {σ : Type} (K : XCodec) (A : Anon) (v : Ver) (el : String) (set : σ → Ptc → σ) : Callback σ := fun s toks => do
  let r ← readPtc K A v el toks
  .ok (set s r.1, r.2)

/-- `writeRatedS`, l. 209-214: from version 1.2 on. -/
def ratedSAttrs (K : XCodec) (v : Ver) (k : String) (d : Dbl) : List (String × String) := if v.ge .v12 then attrD K.toCodec k d else []

/-! ### Two windings transformers -/

/-- `TwoWindingsTransformerXml.cpp` l. 86-100. -/
def tw2Attrs (K : XCodec) (A : Anon) (v : Ver) (y : Tw2) : List (String × String) :=
  attrD K.toCodec "r" y.r ++ (attrD K.toCodec "x" y.x ++ (attrD K.toCodec "g" y.g ++ (attrD K.toCodec "b" y.b ++ (attrD K.toCodec "ratedU1" y.ratedU1 ++
    (attrD K.toCodec "ratedU2" y.ratedU2 ++ (ratedSAttrs K v "ratedS" y.ratedS ++ sidesAttrs K A y.side1 y.side2))))))

/-- With `writeSubElements`, l. 102-131. -/
def writeTw2 (K : XCodec) (A : Anon) (c : Ctx) (y : Tw2) : Piece Cmd :=
  writeElem A c "twoWindingsTransformer" y.ident (plain (tw2Attrs K A c.version y))
    (plain (rtcElems K A c.version "ratioTapChanger" y.rtc) >+> (ptcElems K A c.version "phaseTapChanger" y.ptc).bind plain >+> branchElems K c y.lims)

/-- `readSubElements`, l. 58-84. -/
def tw2Sub (K : XCodec) (A : Anon) (v : Ver) : Handler Tw2Sub := fun n =>
  if n = "ratioTapChanger" then some (rtcCb K A v "ratioTapChanger" fun s t => { s with rtc := some t })
  else if n = "phaseTapChanger" then some (ptcCb K A v "phaseTapChanger" fun s t => { s with ptc := some t })
  else liftSub Tw2Sub.lims (fun s l => { s with lims := l }) (branchSub K v) n

/-- l. 35-84: `ratedS` is looked for in every version (l. 48-50). -/
def readTw2 (K : XCodec) (A : Anon) (v : Ver) : List Tok → Out (Tw2 × List Tok) :=
  readElem A v "twoWindingsTransformer" (readTw2Root K A) (tw2Sub K A v) ⟨none, none, ⟨noLims, noLims⟩⟩ buildTw2

/-! ### Three windings transformers -/

/-- The values of the first leg, `ThreeWindingsTransformerXml.cpp` l. 174-179. -/
def leg1Attrs (K : XCodec) (v : Ver) (z : LegZ) : List (String × String) :=
  attrD K.toCodec "r1" z.r ++ (attrD K.toCodec "x1" z.x ++ (attrD K.toCodec "g1" z.g ++ (attrD K.toCodec "b1" z.b ++ (attrD K.toCodec "ratedU1" z.ratedU ++ ratedSAttrs K v "ratedS1" z.ratedS))))

/-- The values of the second and of the third leg, l. 180-195: the shunt admittance from version 1.1 on. -/
def legAttrs (K : XCodec) (c : Ctx) (s : String) (z : LegZ) : Piece (String × String) :=
  plain (attrD K.toCodec ("r" ++ s) z.r ++ attrD K.toCodec ("x" ++ s) z.x) >+> attrSince K ("g" ++ s) z.g 0 .v11 c >+> attrSince K ("b" ++ s) z.b 0 .v11 c >+>
    plain (attrD K.toCodec ("ratedU" ++ s) z.ratedU ++ ratedSAttrs K c.version ("ratedS" ++ s) z.ratedS)

/-- The connections and the flows, l. 198-205. -/
def legSidesAttrs (K : XCodec) (A : Anon) (y : Tw3) : List (String × String) :=
  sideAttrs K A "1" y.leg1.side ++ (sideAttrs K A "2" y.leg2.side ++ (sideAttrs K A "3" y.leg3.side ++
    (pqAttrs K "1" y.leg1.side.term ++ (pqAttrs K "2" y.leg2.side.term ++ pqAttrs K "3" y.leg3.side.term))))

/-- `writeRootElementAttributes`, l. 173-206. -/
def tw3Attrs (K : XCodec) (A : Anon) (c : Ctx) (y : Tw3) : Piece (String × String) :=
  plain (leg1Attrs K c.version y.leg1.z) >+> legAttrs K c "2" y.leg2.z >+> legAttrs K c "3" y.leg3.z >+> attrSince K "ratedU0" y.ratedU0 y.leg1.z.ratedU .v11 c >+>
    plain (legSidesAttrs K A y)

/-- A ratio tap changer that only exists from version 1.1 on, l. 209-211. -/
def rtcSince (K : XCodec) (A : Anon) (c : Ctx) (el : String) (o : Option Rtc) : Piece Cmd := anyway o.isSome el .v11 c (.ok (rtcElems K A c.version el o))

/-- A phase tap changer that only exists from version 1.1 on, l. 212-214, 216-218, 220-222. -/
def ptcSince (K : XCodec) (A : Anon) (c : Ctx) (el : String) (o : Option Ptc) : Piece Cmd := anyway o.isSome el .v11 c (ptcElems K A c.version el o)

/-- `writeSubElements`, l. 208-239. -/
def writeTw3 (K : XCodec) (A : Anon) (c : Ctx) (y : Tw3) : Piece Cmd :=
  writeElem A c "threeWindingsTransformer" y.ident (tw3Attrs K A c y)
    (rtcSince K A c "ratioTapChanger1" y.leg1.sub.rtc >+> ptcSince K A c "phaseTapChanger1" y.leg1.sub.ptc >+>
      plain (rtcElems K A c.version "ratioTapChanger2" y.leg2.sub.rtc) >+> ptcSince K A c "phaseTapChanger2" y.leg2.sub.ptc >+>
      plain (rtcElems K A c.version "ratioTapChanger3" y.leg3.sub.rtc) >+> ptcSince K A c "phaseTapChanger3" y.leg3.sub.ptc >+>
      limsElems K c "activePowerLimits1" "apparentPowerLimits1" "currentLimits1" y.leg1.sub.lims >+>
      limsElems K c "activePowerLimits2" "apparentPowerLimits2" "currentLimits2" y.leg2.sub.lims >+>
      limsElems K c "activePowerLimits3" "apparentPowerLimits3" "currentLimits3" y.leg3.sub.lims)

/-- The values of one leg, l. 40-87: `first` for the first leg, whose admittance exists in every version; the adders of the others start with 0
(`ThreeWindingsTransformerAdder.cpp` l. 95-101). -/
def readLegZ (K : XCodec) (v : Ver) (s : String) (first : Bool) (toks : List Tok) : Out LegZ := do
  let r ← getD K.toCodec ("r" ++ s) toks
  let x ← getD K.toCodec ("x" ++ s) toks
  let g ← if first then getD K.toCodec ("g" ++ s) toks else runFromMinimumVersion .v11 v (fun _ => getD K.toCodec ("g" ++ s) toks) 0
  let b ← if first then getD K.toCodec ("b" ++ s) toks else runFromMinimumVersion .v11 v (fun _ => getD K.toCodec ("b" ++ s) toks) 0
  let u ← getD K.toCodec ("ratedU" ++ s) toks
  let rs ← runFromMinimumVersion .v12 v (fun _ => optDOr K.toCodec ("ratedS" ++ s) .nan toks) .nan
  check (r.isNan || x.isNan || g.isNan || b.isNan || u.isNan)
  checkRatedS rs
  .ok ⟨r, x, g, b, u, rs⟩

/-- `readRootElementAttributes`, l. 39-99, with the default of `ThreeWindingsTransformerAdder.cpp` l. 54-57. -/
def readTw3Root (K : XCodec) (A : Anon) (v : Ver) (toks : List Tok) : Out Tw3Root := do
  let z1 ← readLegZ K v "1" true toks
  let z2 ← readLegZ K v "2" false toks
  let z3 ← readLegZ K v "3" false toks
  let u0 ← runFromMinimumVersion .v11 v (fun _ => getD K.toCodec "ratedU0" toks) .nan
  let s1 ← readLegSide K A "1" toks
  let s2 ← readLegSide K A "2" toks
  let s3 ← readLegSide K A "3" toks
  .ok ⟨z1, z2, z3, if u0.isNan then z1.ratedU else u0, s1, s2, s3⟩

/-- The elements of one leg: the ratio tap changer of the first leg only exists from version 1.1 on. -/
def legSub (K : XCodec) (A : Anon) (v : Ver) (first : Bool) (rt pt ac ap cu : String) : Handler LegSub := fun n =>
  if n = rt then some (if first then onlySince .v11 v (rtcCb K A v rt fun s t => { s with rtc := some t }) else rtcCb K A v rt fun s t => { s with rtc := some t })
  else if n = pt then some (onlySince .v11 v (ptcCb K A v pt fun s t => { s with ptc := some t }))
  else if n = ac then some (limitsSub15 K v ac fun s l => { s with lims := { s.lims with active := some l } })
  else if n = ap then some (limitsSub15 K v ap fun s l => { s with lims := { s.lims with apparent := some l } })
  else if n = cu then some (limitsSub K cu fun s l => { s with lims := { s.lims with current := some l } })
  else none

/-- `readSubElements`, l. 101-159. -/
def tw3Sub (K : XCodec) (A : Anon) (v : Ver) : Handler Tw3Sub := fun n =>
  match liftSub Tw3Sub.one (fun t s => { t with one := s }) (legSub K A v true "ratioTapChanger1" "phaseTapChanger1" "activePowerLimits1" "apparentPowerLimits1" "currentLimits1") n with
  | some cb => some cb
  | none =>
    match liftSub Tw3Sub.two (fun t s => { t with two := s }) (legSub K A v false "ratioTapChanger2" "phaseTapChanger2" "activePowerLimits2" "apparentPowerLimits2" "currentLimits2") n with
    | some cb => some cb
    | none =>
      liftSub Tw3Sub.three (fun t s => { t with three := s }) (legSub K A v false "ratioTapChanger3" "phaseTapChanger3" "activePowerLimits3" "apparentPowerLimits3" "currentLimits3") n

def readTw3 (K : XCodec) (A : Anon) (v : Ver) : List Tok → Out (Tw3 × List Tok) :=
  readElem A v "threeWindingsTransformer" (readTw3Root K A v) (tw3Sub K A v) ⟨noSubs, noSubs, noSubs⟩ buildTw3

end Verif.XmlOld
