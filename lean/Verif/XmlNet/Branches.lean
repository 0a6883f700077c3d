import Verif.XmlNet.Injections

/-!
Writers and readers of the equipment with several terminals, in version 1.5, at the full level of topology and with the flows of branches (the
defaults of `ExportOptions`).

Modelled code (`src/iidm/converter/xml` and `src/iidm`):
* `LineXml.cpp` l. 35-117, `LineAdder.cpp` l. 27-53
* `TieLineXml.cpp` l. 44-181, `TieLineAdder.cpp` l. 24-55, `HalfLineAdder.cpp` l. 25-65, `HalfLine.cpp` (`getName`)
* `HvdcLineXml.cpp` l. 33-65, `HvdcLineAdder.cpp` l. 25-41
* `AbstractTransformerXml.hxx` l. 43-265, `RatioTapChangerAdder.cpp` l. 27-92, `PhaseTapChangerAdder.cpp` l. 26-97
* `TwoWindingsTransformerXml.cpp` l. 35-131, `TwoWindingsTransformerAdder.cpp` l. 25-56
* `ThreeWindingsTransformerXml.cpp` l. 39-239, `ThreeWindingsTransformerAdder.cpp` l. 24-71, `ThreeWindingsTransformerLegAdder.cpp` l. 28-53

Simplifications: the steps of a tap changer are written by a loop over the positions (l. 199, 228), here over the list of the steps; a tap changer
whose element has a terminal reference is added by an end task, here at once, since every failure makes the whole reading fail: a second element for
the same tap changer, which the schema forbids, replaces the first one.
-/

namespace Verif.XmlNet

open Verif Verif.Xml

/-- A callback that refuses the elements it does not know. -/
def plainCb {σ : Type} (h : Handler σ) : Callback σ := fun s toks => do
  let n ← localName toks
  match h n with
  | some cb => cb s toks
  | none => .thrown

/-- An element that is not an identifiable: attributes, then sub elements. -/
def readPlain {α σ β : Type} (root : String) (rd : List Tok → Out α) (h : Handler σ) (s0 : σ) (mk : α → σ → Out β) (toks : List Tok) : Out (β × List Tok) := do
  let a ← rd toks
  let r ← readUntilEnd (plainCb h) root s0 toks
  let b ← mk a r.1
  .ok (b, r.2)

/-! ### Loading limits of one side -/

structure Lims where
  active : Option Limits.LL
  apparent : Option Limits.LL
  current : Option Limits.LL
  deriving DecidableEq, Repr

def noLims : Lims := ⟨none, none, none⟩

/-- One side of `writeSubElements` of the branches and of the legs: active power, apparent power, current. -/
def limsElems (K : XCodec) (a p c : String) (l : Lims) : List Cmd := limitsElems K a l.active ++ (limitsElems K p l.apparent ++ limitsElems K c l.current)

/-- The limits of the two sides of a branch. -/
structure BranchLims where
  one : Lims
  two : Lims
  deriving DecidableEq, Repr

/-- `readSubElements` of lines and tie lines, `LineXml.cpp` l. 57-72, `TieLineXml.cpp` l. 94-117. -/
def branchSub (K : XCodec) : Handler BranchLims := fun n =>
  if n = "activePowerLimits1" then some (limitsSub K "activePowerLimits1" fun s l => { s with one := { s.one with active := some l } })
  else if n = "apparentPowerLimits1" then some (limitsSub K "apparentPowerLimits1" fun s l => { s with one := { s.one with apparent := some l } })
  else if n = "currentLimits1" then some (limitsSub K "currentLimits1" fun s l => { s with one := { s.one with current := some l } })
  else if n = "activePowerLimits2" then some (limitsSub K "activePowerLimits2" fun s l => { s with two := { s.two with active := some l } })
  else if n = "apparentPowerLimits2" then some (limitsSub K "apparentPowerLimits2" fun s l => { s with two := { s.two with apparent := some l } })
  else if n = "currentLimits2" then some (limitsSub K "currentLimits2" fun s l => { s with two := { s.two with current := some l } })
  else none

/-- `writeSubElements`, `LineXml.cpp` l. 94-117, `TieLineXml.cpp` l. 158-181. -/
def branchElems (K : XCodec) (l : BranchLims) : List Cmd :=
  limsElems K "activePowerLimits1" "apparentPowerLimits1" "currentLimits1" l.one ++ limsElems K "activePowerLimits2" "apparentPowerLimits2" "currentLimits2" l.two

/-- Both sides of a branch, then their flows. -/
def sidesAttrs (K : XCodec) (A : Anon) (x1 x2 : Side) : List (String × String) :=
  sideAttrs K A "1" x1 ++ (sideAttrs K A "2" x2 ++ (pqAttrs K "1" x1.term ++ pqAttrs K "2" x2.term))

/-- `readNodeOrBus`, `AbstractConnectableXml.hxx` l. 66-95, and `readPQ` of both sides. -/
def readSides (K : XCodec) (A : Anon) (toks : List Tok) : Out (Side × Side) := do
  let p1 ← readBranchPlace K A "1" toks
  let p2 ← readBranchPlace K A "2" toks
  let t1 ← readTerm K "1" toks p1.2
  let t2 ← readTerm K "2" toks p2.2
  .ok (⟨p1.1, t1⟩, ⟨p2.1, t2⟩)

/-! ### Lines -/

/-- Series impedance and the shunt admittances of both ends, `LineCharacteristics`. -/
structure Charac where
  r : Dbl
  x : Dbl
  g1 : Dbl
  b1 : Dbl
  g2 : Dbl
  b2 : Dbl
  deriving DecidableEq, Repr

structure Line where
  ident : Ident
  z : Charac
  side1 : Side
  side2 : Side
  lims : BranchLims
  deriving DecidableEq, Repr

/-- The six values, `LineXml.cpp` l. 80-85 (`s` empty), `TieLineXml.cpp` l. 130-135 (`s` the suffix of the side). -/
def characAttrs (K : XCodec) (s : String) (z : Charac) : List (String × String) :=
  attrD K.toCodec ("r" ++ s) z.r ++ (attrD K.toCodec ("x" ++ s) z.x ++ (attrD K.toCodec ("g1" ++ s) z.g1 ++ (attrD K.toCodec ("b1" ++ s) z.b1 ++
    (attrD K.toCodec ("g2" ++ s) z.g2 ++ attrD K.toCodec ("b2" ++ s) z.b2))))

/-- `LineXml.cpp` l. 36-41, `TieLineXml.cpp` l. 47-52, with the checks of `LineAdder.cpp` l. 33-38 and of `HalfLineAdder.cpp` l. 29-46. -/
def readCharac (K : XCodec) (s : String) (toks : List Tok) : Out Charac := do
  let r ← getD K.toCodec ("r" ++ s) toks
  let x ← getD K.toCodec ("x" ++ s) toks
  let g1 ← getD K.toCodec ("g1" ++ s) toks
  let b1 ← getD K.toCodec ("b1" ++ s) toks
  let g2 ← getD K.toCodec ("g2" ++ s) toks
  let b2 ← getD K.toCodec ("b2" ++ s) toks
  check (b1.isNan || b2.isNan || g1.isNan || g2.isNan || r.isNan || x.isNan)
  .ok ⟨r, x, g1, b1, g2, b2⟩

/-- `LineXml.cpp` l. 79-92. -/
def lineAttrs (K : XCodec) (A : Anon) (x : Line) : List (String × String) := characAttrs K "" x.z ++ sidesAttrs K A x.side1 x.side2

def writeLine (K : XCodec) (A : Anon) (x : Line) : Out (List Cmd) := .ok (writeElem A "line" x.ident (lineAttrs K A x) (branchElems K x.lims))

/-- `LineXml.cpp` l. 35-53. -/
def readLineRoot (K : XCodec) (A : Anon) (toks : List Tok) : Out (Charac × Side × Side) := do
  let z ← readCharac K "" toks
  let s ← readSides K A toks
  .ok (z, s.1, s.2)

def readLine (K : XCodec) (A : Anon) : List Tok → Out (Line × List Tok) :=
  readElem A "line" (readLineRoot K A) (branchSub K) ⟨noLims, noLims⟩ fun i a l => .ok ⟨i, a.1, a.2.1, a.2.2, l⟩

/-! ### Tie lines -/

/-- A half line; its name is the one that `getName` gives: the identifier when no other is set (`HalfLine.cpp`). -/
structure Half where
  id : String
  name : String
  fictitious : Bool
  z : Charac
  deriving DecidableEq, Repr

/-- `writeHalf`, `TieLineXml.cpp` l. 124-144. -/
def halfAttrs (K : XCodec) (A : Anon) (s : String) (h : Half) : List (String × String) :=
  ("id" ++ s, A.anon h.id) :: ((if h.id ≠ h.name then [("name" ++ s, A.anon h.name)] else []) ++ (characAttrs K s h.z ++ attrOptB ("fictitious" ++ s) h.fictitious false))

/-- `readHalf`, l. 44-67, with the checks of `HalfLineAdder.cpp` l. 25-46: a missing name is the empty string, deanonymized. -/
def readHalf (K : XCodec) (A : Anon) (s : String) (toks : List Tok) : Out Half := do
  let i ← getS ("id" ++ s) toks
  let id ← A.dean i
  let n ← optSOr ("name" ++ s) "" toks
  let name ← A.dean n
  let z ← readCharac K s toks
  let f ← optBOr ("fictitious" ++ s) false toks
  check (id == "")
  .ok ⟨id, if name = "" then id else name, f, z⟩

structure TieLine where
  ident : Ident
  ucte : String
  half1 : Half
  half2 : Half
  side1 : Side
  side2 : Side
  lims : BranchLims
  deriving DecidableEq, Repr

/-- `writeRootElementAttributes`, l. 146-156. -/
def tieAttrs (K : XCodec) (A : Anon) (x : TieLine) : List (String × String) :=
  ("ucteXnodeCode", x.ucte) :: (sidesAttrs K A x.side1 x.side2 ++ (halfAttrs K A "_1" x.half1 ++ halfAttrs K A "_2" x.half2))

def writeTie (K : XCodec) (A : Anon) (x : TieLine) : Out (List Cmd) := .ok (writeElem A "tieLine" x.ident (tieAttrs K A x) (branchElems K x.lims))

/-- `readRootElementAttributes`, l. 69-90, with the check of `TieLineAdder.cpp` l. 30. -/
def readTieRoot (K : XCodec) (A : Anon) (toks : List Tok) : Out (String × Half × Half × Side × Side) := do
  let h1 ← readHalf K A "_1" toks
  let h2 ← readHalf K A "_2" toks
  let s ← readSides K A toks
  let u ← optSOr "ucteXnodeCode" "" toks
  check (u == "")
  .ok (u, h1, h2, s.1, s.2)

def readTie (K : XCodec) (A : Anon) : List Tok → Out (TieLine × List Tok) :=
  readElem A "tieLine" (readTieRoot K A) (branchSub K) ⟨noLims, noLims⟩ fun i a l => .ok ⟨i, a.1, a.2.1, a.2.2.1, a.2.2.2.1, a.2.2.2.2, l⟩

/-! ### HVDC lines -/

structure HvdcLine where
  ident : Ident
  r : Dbl
  nominalV : Dbl
  mode : Nat
  setpoint : Dbl
  maxP : Dbl
  station1 : String
  station2 : String
  deriving DecidableEq, Repr

/-- `HvdcLineXml.cpp` l. 57-65: the identifiers of the stations are not anonymized. -/
def hvdcAttrs (K : XCodec) (mode : String) (x : HvdcLine) : List (String × String) :=
  attrD K.toCodec "r" x.r ++ (attrD K.toCodec "nominalV" x.nominalV ++ (("convertersMode", mode) :: (attrD K.toCodec "activePowerSetpoint" x.setpoint ++
    (attrD K.toCodec "maxP" x.maxP ++ [("converterStation1", x.station1), ("converterStation2", x.station2)]))))

def writeHvdc (K : XCodec) (A : Anon) (x : HvdcLine) : Out (List Cmd) := do
  let m ← Enums.toString Enums.hvdcLineConvertersMode.names x.mode
  .ok (writeElem A "hvdcLine" x.ident (hvdcAttrs K m x) [])

/-- `checkNominalVoltage`, `ValidationUtils.cpp` l. 198-206. -/
def checkNominal (v : Dbl) : Out Unit := check (v.isNan || Dbl.le v 0)

/-- `checkHvdcActivePowerSetpoint`, l. 131-139, and `checkHvdcMaxP`, l. 141-149. -/
def checkPositive (p : Dbl) : Out Unit := check (p.isNan || Dbl.lt p 0)

/-- `HvdcLineXml.cpp` l. 33-49, with the checks of `HvdcLineAdder.cpp` l. 26-31, 44. -/
def readHvdcRoot (K : XCodec) (toks : List Tok) : Out (Dbl × Dbl × Nat × Dbl × Dbl × String × String) := do
  let r ← getD K.toCodec "r" toks
  let v ← getD K.toCodec "nominalV" toks
  let m ← getS "convertersMode" toks
  let mode ← Enums.fromString Enums.hvdcLineConvertersMode.names m
  let sp ← getD K.toCodec "activePowerSetpoint" toks
  let maxP ← getD K.toCodec "maxP" toks
  let s1 ← getS "converterStation1" toks
  let s2 ← getS "converterStation2" toks
  check r.isNan
  checkNominal v
  checkPositive sp
  checkPositive maxP
  check (s1 == "" || s2 == "")
  .ok (r, v, mode, sp, maxP, s1, s2)

def readHvdc (K : XCodec) (A : Anon) : List Tok → Out (HvdcLine × List Tok) :=
  readElem A "hvdcLine" (readHvdcRoot K) noSub () fun i a _ => .ok ⟨i, a.1, a.2.1, a.2.2.1, a.2.2.2.1, a.2.2.2.2.1, a.2.2.2.2.2.1, a.2.2.2.2.2.2⟩

/-! ### Tap changers -/

structure Step where
  r : Dbl
  x : Dbl
  g : Dbl
  b : Dbl
  rho : Dbl
  deriving DecidableEq, Repr

/-- `writeTapChangerStep`, `AbstractTransformerXml.hxx` l. 245-253. -/
def stepAttrs (K : XCodec) (y : Step) : List (String × String) :=
  attrD K.toCodec "r" y.r ++ (attrD K.toCodec "x" y.x ++ (attrD K.toCodec "g" y.g ++ (attrD K.toCodec "b" y.b ++ attrD K.toCodec "rho" y.rho)))

/-- `readSteps`, l. 147-154, with the checks of `RatioTapChangerAdder.cpp` l. 28-32 and of `PhaseTapChangerAdder.cpp` l. 28-32. -/
def readStep (K : XCodec) (toks : List Tok) : Out Step := do
  let r ← getD K.toCodec "r" toks
  let x ← getD K.toCodec "x" toks
  let g ← getD K.toCodec "g" toks
  let b ← getD K.toCodec "b" toks
  let rho ← getD K.toCodec "rho" toks
  check (rho.isNan || r.isNan || x.isNan || g.isNan || b.isNan)
  .ok ⟨r, x, g, b, rho⟩

/-- `m_lowTapPosition + m_steps.size() - 1`, an `unsigned long` converted to `long`. -/
def highTap (low : Int) (n : Nat) : Int := (low + n - 1 + 2 ^ 63) % 2 ^ 64 - 2 ^ 63

/-- At least one step, and the position among them: `RatioTapChangerAdder.cpp` l. 69-74, `PhaseTapChangerAdder.cpp` l. 74-79, `checkTapPosition`
(`ValidationUtils.cpp` l. 383-388), `checkTargetDeadband` (l. 390-398). -/
def checkTaps (low tap : Int) (n : Nat) (on : Bool) (deadband : Dbl) : Out Unit := do
  check (n == 0)
  check (decide (tap < low) || decide (highTap low n < tap))
  check (on && deadband.isNan)
  check (Dbl.lt deadband 0)

structure Rtc where
  low : Int
  tap : Int
  deadband : Dbl
  ltc : Bool
  on : Bool
  targetV : Dbl
  reg : Option Ref
  steps : List Step
  deriving DecidableEq, Repr

def rtcAttrs (K : XCodec) (t : Rtc) : List (String × String) :=
  attrI K "lowTapPosition" t.low ++ (attrI K "tapPosition" t.tap ++ (attrD K.toCodec "targetDeadband" t.deadband ++ (attrB "loadTapChangingCapabilities" t.ltc ++
    ((if t.ltc || t.on then attrB "regulating" t.on else []) ++ attrD K.toCodec "targetV" t.targetV))))

def rtcSteps (K : XCodec) : List Step → List Cmd
  | [] => []
  | y :: ys => elemCmds "step" (stepAttrs K y) [] ++ rtcSteps K ys

/-- `writeRatioTapChanger`, l. 217-235, `writeTapChanger`, l. 237-243. -/
def writeRtc (K : XCodec) (A : Anon) (el : String) (t : Rtc) : List Cmd := elemCmds el (rtcAttrs K t) (refElems A "terminalRef" t.reg ++ rtcSteps K t.steps)

def rtcElems (K : XCodec) (A : Anon) (el : String) : Option Rtc → List Cmd
  | none => []
  | some t => writeRtc K A el t

/-- `readRatioTapChanger`, l. 107-118. -/
def readRtcRoot (K : XCodec) (toks : List Tok) : Out (Int × Int × Dbl × Bool × Bool × Dbl) := do
  let low ← getI K "lowTapPosition" toks
  let tap ← getI K "tapPosition" toks
  let on ← optBOr "regulating" false toks
  let d ← optDOr K.toCodec "targetDeadband" .nan toks
  let ltc ← getB "loadTapChangingCapabilities" toks
  let v ← optDOr K.toCodec "targetV" .nan toks
  .ok (low, tap, d, ltc, on, v)

/-- l. 120-139. -/
def rtcSub (K : XCodec) (A : Anon) : Handler (Option Ref × List Step) := fun n =>
  if n = "terminalRef" then some (refCb A true fun s r => (some r, s.2))
  else if n = "step" then some fun s toks => do
    let y ← readStep K toks
    .ok ((s.1, s.2 ++ [y]), toks)
  else none

/-- `checkRatioTapChangerRegulation`, `ValidationUtils.cpp` l. 323-338: without load tap changing capabilities the value is only warned about, but the
missing terminal is dereferenced, which throws. -/
def checkRtc (on ltc : Bool) (v : Dbl) (reg : Option Ref) : Out Unit := check (on && (ltc && (v.isNan || Dbl.le v 0) || reg.isNone))

/-- `RatioTapChangerAdder::add`, l. 66-92. -/
def buildRtc (a : Int × Int × Dbl × Bool × Bool × Dbl) (s : Option Ref × List Step) : Out Rtc := do
  checkTaps a.1 a.2.1 s.2.length a.2.2.2.2.1 a.2.2.1
  checkRtc a.2.2.2.2.1 a.2.2.2.1 a.2.2.2.2.2 s.1
  .ok ⟨a.1, a.2.1, a.2.2.1, a.2.2.2.1, a.2.2.2.2.1, a.2.2.2.2.2, s.1, s.2⟩

def readRtc (K : XCodec) (A : Anon) (el : String) : List Tok → Out (Rtc × List Tok) := readPlain el (readRtcRoot K) (rtcSub K A) (none, []) buildRtc

structure Ptc where
  low : Int
  tap : Int
  deadband : Dbl
  mode : Nat
  value : Dbl
  on : Bool
  reg : Option Ref
  steps : List (Step × Dbl)
  deriving DecidableEq, Repr

/-- Index of `FIXED_TAP` in `PhaseTapChanger::RegulationMode`. -/
def fixedTap : Nat := 2

def ptcAttrs (K : XCodec) (mode : String) (t : Ptc) : List (String × String) :=
  attrI K "lowTapPosition" t.low ++ (attrI K "tapPosition" t.tap ++ (attrD K.toCodec "targetDeadband" t.deadband ++ (("regulationMode", mode) ::
    ((if t.mode ≠ fixedTap ∨ t.value.isNan = false then attrD K.toCodec "regulationValue" t.value else []) ++ (if t.mode ≠ fixedTap ∨ t.on = true then attrB "regulating" t.on else [])))))

def ptcSteps (K : XCodec) : List (Step × Dbl) → List Cmd
  | [] => []
  | y :: ys => elemCmds "step" (stepAttrs K y.1 ++ attrD K.toCodec "alpha" y.2) [] ++ ptcSteps K ys

/-- `writePhaseTapChanger`, l. 186-207. -/
def writePtc (K : XCodec) (A : Anon) (el : String) (t : Ptc) : Out (List Cmd) := do
  let m ← Enums.toString Enums.phaseTapChangerRegulationMode.names t.mode
  .ok (elemCmds el (ptcAttrs K m t) (refElems A "terminalRef" t.reg ++ ptcSteps K t.steps))

def ptcElems (K : XCodec) (A : Anon) (el : String) : Option Ptc → Out (List Cmd)
  | none => .ok []
  | some t => writePtc K A el t

/-- `readPhaseTapChanger`, l. 45-57. -/
def readPtcRoot (K : XCodec) (toks : List Tok) : Out (Int × Int × Dbl × Nat × Dbl × Bool) := do
  let low ← getI K "lowTapPosition" toks
  let tap ← getI K "tapPosition" toks
  let on ← optBOr "regulating" false toks
  let d ← optDOr K.toCodec "targetDeadband" .nan toks
  let m ← getS "regulationMode" toks
  let mode ← Enums.fromString Enums.phaseTapChangerRegulationMode.names m
  let v ← optDOr K.toCodec "regulationValue" .nan toks
  .ok (low, tap, d, mode, v, on)

/-- l. 59-80, with the check of `PhaseTapChangerAdder.cpp` l. 27. -/
def ptcSub (K : XCodec) (A : Anon) : Handler (Option Ref × List (Step × Dbl)) := fun n =>
  if n = "terminalRef" then some (refCb A true fun s r => (some r, s.2))
  else if n = "step" then some fun s toks => do
    let y ← readStep K toks
    let a ← getD K.toCodec "alpha" toks
    check a.isNan
    .ok ((s.1, s.2 ++ [(y, a)]), toks)
  else none

/-- `checkPhaseTapChangerRegulation`, `ValidationUtils.cpp` l. 249-274. -/
def checkPtc (mode : Nat) (v : Dbl) (on : Bool) (reg : Option Ref) : Out Unit := check (on && (decide (mode = fixedTap) || v.isNan || reg.isNone))

/-- `PhaseTapChangerAdder::add`, l. 71-97. -/
def buildPtc (a : Int × Int × Dbl × Nat × Dbl × Bool) (s : Option Ref × List (Step × Dbl)) : Out Ptc := do
  checkTaps a.1 a.2.1 s.2.length a.2.2.2.2.2 a.2.2.1
  checkPtc a.2.2.2.1 a.2.2.2.2.1 a.2.2.2.2.2 s.1
  .ok ⟨a.1, a.2.1, a.2.2.1, a.2.2.2.1, a.2.2.2.2.1, a.2.2.2.2.2, s.1, s.2⟩

def readPtc (K : XCodec) (A : Anon) (el : String) : List Tok → Out (Ptc × List Tok) := readPlain el (readPtcRoot K) (ptcSub K A) (none, []) buildPtc

def rtcCb {σ : Type} (K : XCodec) (A : Anon) (el : String) (set : σ → Rtc → σ) : Callback σ := fun s toks => do
  let r ← readRtc K A el toks
  .ok (set s r.1, r.2)

def ptcCb {σ : Type} (K : XCodec) (A : Anon) (el : String) (set : σ → Ptc → σ) : Callback σ := fun s toks => do
  let r ← readPtc K A el toks
  .ok (set s r.1, r.2)

/-- Number of regulating tap changers of one winding. -/
def regCount (r : Option Rtc) (p : Option Ptc) : Nat := (match r with | some t => t.on.toNat | none => 0) + (match p with | some t => t.on.toNat | none => 0)

/-! ### Two windings transformers -/

structure Tw2 where
  ident : Ident
  r : Dbl
  x : Dbl
  g : Dbl
  b : Dbl
  ratedU1 : Dbl
  ratedU2 : Dbl
  ratedS : Dbl
  side1 : Side
  side2 : Side
  rtc : Option Rtc
  ptc : Option Ptc
  lims : BranchLims
  deriving DecidableEq, Repr

/-- `TwoWindingsTransformerXml.cpp` l. 86-100. -/
def tw2Attrs (K : XCodec) (A : Anon) (y : Tw2) : List (String × String) :=
  attrD K.toCodec "r" y.r ++ (attrD K.toCodec "x" y.x ++ (attrD K.toCodec "g" y.g ++ (attrD K.toCodec "b" y.b ++ (attrD K.toCodec "ratedU1" y.ratedU1 ++
    (attrD K.toCodec "ratedU2" y.ratedU2 ++ (attrD K.toCodec "ratedS" y.ratedS ++ sidesAttrs K A y.side1 y.side2))))))

/-- With `writeSubElements`, l. 102-131. -/
def writeTw2 (K : XCodec) (A : Anon) (y : Tw2) : Out (List Cmd) := do
  let p ← ptcElems K A "phaseTapChanger" y.ptc
  .ok (writeElem A "twoWindingsTransformer" y.ident (tw2Attrs K A y) (rtcElems K A "ratioTapChanger" y.rtc ++ (p ++ branchElems K y.lims)))

structure Tw2Root where
  r : Dbl
  x : Dbl
  g : Dbl
  b : Dbl
  ratedU1 : Dbl
  ratedU2 : Dbl
  ratedS : Dbl
  side1 : Side
  side2 : Side

/-- l. 35-56, with the checks of `TwoWindingsTransformerAdder.cpp` l. 35-41. -/
def readTw2Root (K : XCodec) (A : Anon) (toks : List Tok) : Out Tw2Root := do
  let r ← getD K.toCodec "r" toks
  let x ← getD K.toCodec "x" toks
  let g ← getD K.toCodec "g" toks
  let b ← getD K.toCodec "b" toks
  let u1 ← getD K.toCodec "ratedU1" toks
  let u2 ← getD K.toCodec "ratedU2" toks
  let rs ← optDOr K.toCodec "ratedS" .nan toks
  let s ← readSides K A toks
  check (r.isNan || x.isNan || g.isNan || b.isNan || u1.isNan || u2.isNan)
  checkRatedS rs
  .ok ⟨r, x, g, b, u1, u2, rs, s.1, s.2⟩

structure Tw2Sub where
  rtc : Option Rtc
  ptc : Option Ptc
  lims : BranchLims

/-- The callback of the limits of both sides, inside a larger state. -/
def liftSub {σ τ : Type} (get : τ → σ) (put : τ → σ → τ) (h : Handler σ) : Handler τ := fun n =>
  match h n with
  | some cb => some fun t toks => do
    let r ← cb (get t) toks
    .ok (put t r.1, r.2)
  | none => none

/-- `readSubElements`, l. 58-84. -/
def tw2Sub (K : XCodec) (A : Anon) : Handler Tw2Sub := fun n =>
  if n = "ratioTapChanger" then some (rtcCb K A "ratioTapChanger" fun s t => { s with rtc := some t })
  else if n = "phaseTapChanger" then some (ptcCb K A "phaseTapChanger" fun s t => { s with ptc := some t })
  else liftSub Tw2Sub.lims (fun s l => { s with lims := l }) (branchSub K) n

/-- At most one regulating tap changer: `checkOnlyOneTapChangerRegulatingEnabled`, `ValidationUtils.cpp` l. 222-226. -/
def buildTw2 (i : Ident) (a : Tw2Root) (s : Tw2Sub) : Out Tw2 := do
  check (decide (1 < regCount s.rtc s.ptc))
  .ok ⟨i, a.r, a.x, a.g, a.b, a.ratedU1, a.ratedU2, a.ratedS, a.side1, a.side2, s.rtc, s.ptc, s.lims⟩

def readTw2 (K : XCodec) (A : Anon) : List Tok → Out (Tw2 × List Tok) :=
  readElem A "twoWindingsTransformer" (readTw2Root K A) (tw2Sub K A) ⟨none, none, ⟨noLims, noLims⟩⟩ buildTw2

/-! ### Three windings transformers -/

structure LegZ where
  r : Dbl
  x : Dbl
  g : Dbl
  b : Dbl
  ratedU : Dbl
  ratedS : Dbl
  deriving DecidableEq, Repr

structure LegSub where
  rtc : Option Rtc
  ptc : Option Ptc
  lims : Lims
  deriving DecidableEq, Repr

structure Leg where
  z : LegZ
  side : Side
  sub : LegSub
  deriving DecidableEq, Repr

structure Tw3 where
  ident : Ident
  leg1 : Leg
  leg2 : Leg
  leg3 : Leg
  ratedU0 : Dbl
  deriving DecidableEq, Repr

/-- The values of one leg, `ThreeWindingsTransformerXml.cpp` l. 174-195. -/
def legAttrs (K : XCodec) (s : String) (z : LegZ) : List (String × String) :=
  attrD K.toCodec ("r" ++ s) z.r ++ (attrD K.toCodec ("x" ++ s) z.x ++ (attrD K.toCodec ("g" ++ s) z.g ++ (attrD K.toCodec ("b" ++ s) z.b ++
    (attrD K.toCodec ("ratedU" ++ s) z.ratedU ++ attrD K.toCodec ("ratedS" ++ s) z.ratedS))))

/-- `writeRootElementAttributes`, l. 173-206. -/
def tw3Attrs (K : XCodec) (A : Anon) (y : Tw3) : List (String × String) :=
  legAttrs K "1" y.leg1.z ++ (legAttrs K "2" y.leg2.z ++ (legAttrs K "3" y.leg3.z ++ (attrD K.toCodec "ratedU0" y.ratedU0 ++
    (sideAttrs K A "1" y.leg1.side ++ (sideAttrs K A "2" y.leg2.side ++ (sideAttrs K A "3" y.leg3.side ++
      (pqAttrs K "1" y.leg1.side.term ++ (pqAttrs K "2" y.leg2.side.term ++ pqAttrs K "3" y.leg3.side.term))))))))

/-- `writeSubElements`, l. 208-239: all the tap changers, then the limits of every leg. -/
def writeTw3 (K : XCodec) (A : Anon) (y : Tw3) : Out (List Cmd) := do
  let p1 ← ptcElems K A "phaseTapChanger1" y.leg1.sub.ptc
  let p2 ← ptcElems K A "phaseTapChanger2" y.leg2.sub.ptc
  let p3 ← ptcElems K A "phaseTapChanger3" y.leg3.sub.ptc
  .ok (writeElem A "threeWindingsTransformer" y.ident (tw3Attrs K A y)
    (rtcElems K A "ratioTapChanger1" y.leg1.sub.rtc ++ (p1 ++ (rtcElems K A "ratioTapChanger2" y.leg2.sub.rtc ++ (p2 ++ (rtcElems K A "ratioTapChanger3" y.leg3.sub.rtc ++ (p3 ++
      (limsElems K "activePowerLimits1" "apparentPowerLimits1" "currentLimits1" y.leg1.sub.lims ++
        (limsElems K "activePowerLimits2" "apparentPowerLimits2" "currentLimits2" y.leg2.sub.lims ++
          limsElems K "activePowerLimits3" "apparentPowerLimits3" "currentLimits3" y.leg3.sub.lims)))))))))

/-- Values of one leg, l. 40-87, with the checks of `ThreeWindingsTransformerLegAdder.cpp` l. 29-34. -/
def readLegZ (K : XCodec) (s : String) (toks : List Tok) : Out LegZ := do
  let r ← getD K.toCodec ("r" ++ s) toks
  let x ← getD K.toCodec ("x" ++ s) toks
  let g ← getD K.toCodec ("g" ++ s) toks
  let b ← getD K.toCodec ("b" ++ s) toks
  let u ← getD K.toCodec ("ratedU" ++ s) toks
  let rs ← optDOr K.toCodec ("ratedS" ++ s) .nan toks
  check (r.isNan || x.isNan || g.isNan || b.isNan || u.isNan)
  checkRatedS rs
  .ok ⟨r, x, g, b, u, rs⟩

/-- Connection and flows of one leg, l. 88-97. -/
def readLegSide (K : XCodec) (A : Anon) (s : String) (toks : List Tok) : Out Side := do
  let p ← readLegPlace K A s toks
  let t ← readTerm K s toks p.2
  .ok ⟨p.1, t⟩

structure Tw3Root where
  z1 : LegZ
  z2 : LegZ
  z3 : LegZ
  ratedU0 : Dbl
  side1 : Side
  side2 : Side
  side3 : Side

/-- `readRootElementAttributes`, l. 39-99, with the default of `ThreeWindingsTransformerAdder.cpp` l. 54-57. -/
def readTw3Root (K : XCodec) (A : Anon) (toks : List Tok) : Out Tw3Root := do
  let z1 ← readLegZ K "1" toks
  let z2 ← readLegZ K "2" toks
  let z3 ← readLegZ K "3" toks
  let u0 ← getD K.toCodec "ratedU0" toks
  let s1 ← readLegSide K A "1" toks
  let s2 ← readLegSide K A "2" toks
  let s3 ← readLegSide K A "3" toks
  .ok ⟨z1, z2, z3, if u0.isNan then z1.ratedU else u0, s1, s2, s3⟩

structure Tw3Sub where
  one : LegSub
  two : LegSub
  three : LegSub

/-- The elements of one leg. -/
def legSub (K : XCodec) (A : Anon) (rt pt ac ap cu : String) : Handler LegSub := fun n =>
  if n = rt then some (rtcCb K A rt fun s t => { s with rtc := some t })
  else if n = pt then some (ptcCb K A pt fun s t => { s with ptc := some t })
  else if n = ac then some (limitsSub K ac fun s l => { s with lims := { s.lims with active := some l } })
  else if n = ap then some (limitsSub K ap fun s l => { s with lims := { s.lims with apparent := some l } })
  else if n = cu then some (limitsSub K cu fun s l => { s with lims := { s.lims with current := some l } })
  else none

/-- `readSubElements`, l. 101-159. -/
def tw3Sub (K : XCodec) (A : Anon) : Handler Tw3Sub := fun n =>
  match liftSub Tw3Sub.one (fun t s => { t with one := s }) (legSub K A "ratioTapChanger1" "phaseTapChanger1" "activePowerLimits1" "apparentPowerLimits1" "currentLimits1") n with
  | some cb => some cb
  | none =>
    match liftSub Tw3Sub.two (fun t s => { t with two := s }) (legSub K A "ratioTapChanger2" "phaseTapChanger2" "activePowerLimits2" "apparentPowerLimits2" "currentLimits2") n with
    | some cb => some cb
    | none =>
      liftSub Tw3Sub.three (fun t s => { t with three := s }) (legSub K A "ratioTapChanger3" "phaseTapChanger3" "activePowerLimits3" "apparentPowerLimits3" "currentLimits3") n

/-- `Leg::getRegulatingTapChangerCount`, `ThreeWindingsTransformerLeg.cpp` l. 94-111: over the three legs. -/
def regCount3 (s : Tw3Sub) : Nat := regCount s.one.rtc s.one.ptc + (regCount s.two.rtc s.two.ptc + regCount s.three.rtc s.three.ptc)

def buildTw3 (i : Ident) (a : Tw3Root) (s : Tw3Sub) : Out Tw3 := do
  check (decide (1 < regCount3 s))
  .ok ⟨i, ⟨a.z1, a.side1, s.one⟩, ⟨a.z2, a.side2, s.two⟩, ⟨a.z3, a.side3, s.three⟩, a.ratedU0⟩

def noSubs : LegSub := ⟨none, none, noLims⟩

def readTw3 (K : XCodec) (A : Anon) : List Tok → Out (Tw3 × List Tok) :=
  readElem A "threeWindingsTransformer" (readTw3Root K A) (tw3Sub K A) ⟨noSubs, noSubs, noSubs⟩ buildTw3

end Verif.XmlNet
