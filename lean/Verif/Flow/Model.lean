import Mathlib.Analysis.SpecialFunctions.Complex.Arg

/-! Model of the computation of the other side of a branch (SV.cpp, LinkData.cpp) and of the current of a terminal (Terminal.cpp).

Numbers are exact reals and complex numbers (rounding and overflow are not modelled); `none` stands for a result that is not a number
(division by zero) or not defined (`std::polar` of a negative magnitude), and propagates. -/

namespace Verif.Flow

open Complex

noncomputable section

/-- Side of a branch. -/
inductive Side where
  | one | two
  deriving DecidableEq, Repr

/-- `SV` (SV.cpp l.20-26): powers, voltage magnitude and angle in degrees, side. -/
structure SV where
  p : ℝ
  q : ℝ
  u : ℝ
  a : ℝ
  side : Side

/-- `LinkData::BranchAdmittanceMatrix` (LinkData.hpp). -/
structure Adm where
  y11 : ℂ
  y12 : ℂ
  y21 : ℂ
  y22 : ℂ

/-- `stdcxx::toRadians` (math.hpp l.40). -/
def toRadians : ℝ := Real.pi / 180

/-- `stdcxx::toDegrees` (math.hpp l.39). -/
def toDegrees : ℝ := 180 / Real.pi

/-- `std::polar`, defined for a non-negative magnitude. -/
def polar (rho theta : ℝ) : Option ℂ := if 0 ≤ rho then some (rho * exp (theta * I)) else none

/-- Complex division. -/
def cdiv (a b : ℂ) : Option ℂ := if b = 0 then none else some (a / b)

/-- Real division. -/
def rdiv (a b : ℝ) : Option ℝ := if b = 0 then none else some (a / b)

/-- Complex conjugate. -/
def conj (z : ℂ) : ℂ := starRingEnd ℂ z

/-- The series admittance computed by `calculateBranchAdmittance` (LinkData.cpp l.21-22). -/
def seriesAdmittance (r x : ℝ) : Option ℂ := if r ≠ 0 ∨ x ≠ 0 then cdiv 1 (⟨r, x⟩ : ℂ) else some 0

/-- `calculateBranchAdmittance` (LinkData.cpp l.16-34). -/
def calculateBranchAdmittance (r x ratio1 angle1 ratio2 angle2 : ℝ) (ysh1 ysh2 : ℂ) : Option Adm := do
  let a1 ← polar ratio1 angle1
  let a2 ← polar ratio2 angle2
  let ytr ← seriesAdmittance r x
  let y11 ← cdiv (ytr + ysh1) (conj a1 * a1)
  let y12 ← cdiv (-ytr) (conj a1 * a2)
  let y21 ← cdiv (-ytr) (conj a2 * a1)
  let y22 ← cdiv (ytr + ysh2) (conj a2 * a2)
  return ⟨y11, y12, y21, y22⟩

/-- `flowAtEnd1` (SV.cpp l.28-30). -/
def flowAtEnd1 (m : Adm) (v1 v2 : ℂ) : ℂ := conj ((m.y11 * v1 + m.y12 * v2) * conj v1)

/-- `flowAtEnd2` (SV.cpp l.32-34). -/
def flowAtEnd2 (m : Adm) (v1 v2 : ℂ) : ℂ := conj ((m.y21 * v1 + m.y22 * v2) * conj v2)

/-- `voltageAtEnd1` (SV.cpp l.285-287). -/
def voltageAtEnd1 (m : Adm) (v2 s2 : ℂ) : Option ℂ := do
  let i ← cdiv (conj s2) (conj v2)
  cdiv (i - m.y22 * v2) m.y21

/-- `voltageAtEnd2` (SV.cpp l.289-291). -/
def voltageAtEnd2 (m : Adm) (v1 s1 : ℂ) : Option ℂ := do
  let i ← cdiv (conj s1) (conj v1)
  cdiv (i - m.y11 * v1) m.y12

/-- Result of `otherSide` (SV.cpp l.168). -/
def mkSV (s v : ℂ) (side : Side) : SV := ⟨s.re, s.im, ‖v‖, v.arg * toDegrees, side⟩

/-- `otherSide(adm)` (SV.cpp l.151-169). -/
def otherSideAdm (m : Adm) (sv : SV) : Option SV :=
  match sv.side with
  | .one => do
    let v1 ← polar sv.u (sv.a * toRadians)
    let v ← voltageAtEnd2 m v1 ⟨sv.p, sv.q⟩
    return mkSV (flowAtEnd2 m v1 v) v .two
  | .two => do
    let v2 ← polar sv.u (sv.a * toRadians)
    let v ← voltageAtEnd1 m v2 ⟨sv.p, sv.q⟩
    return mkSV (flowAtEnd1 m v v2) v .one

/-- `otherSide(r, x, g1, b1, g2, b2, rho, alpha)` (SV.cpp l.119-123). -/
def otherSide (r x g1 b1 g2 b2 rho alpha : ℝ) (sv : SV) : Option SV := do
  let ratio ← rdiv 1 rho
  let m ← calculateBranchAdmittance r x ratio (-alpha) 1 0 ⟨g1, b1⟩ ⟨g2, b2⟩
  otherSideAdm m sv

/-- `otherSideV` (SV.cpp l.271-283). -/
def otherSideV (m : Adm) (sv : SV) : Option ℂ :=
  match sv.side with
  | .one => do
    let v1 ← polar sv.u (sv.a * toRadians)
    voltageAtEnd2 m v1 ⟨sv.p, sv.q⟩
  | .two => do
    let v2 ← polar sv.u (sv.a * toRadians)
    voltageAtEnd1 m v2 ⟨sv.p, sv.q⟩

/-- `otherSideU(adm)` (SV.cpp l.267-269). -/
def otherSideU (m : Adm) (sv : SV) : Option ℝ := (otherSideV m sv).map fun v => ‖v‖

/-- `otherSideA(adm)` (SV.cpp l.192-194). -/
def otherSideA (m : Adm) (sv : SV) : Option ℝ := (otherSideV m sv).map fun v => v.arg * toDegrees

/-- `otherSideP(adm)` (SV.cpp l.217-219). -/
def otherSideP (m : Adm) (sv : SV) : Option ℝ := (otherSideAdm m sv).map (·.p)

/-- `otherSideQ(adm)` (SV.cpp l.242-244). -/
def otherSideQ (m : Adm) (sv : SV) : Option ℝ := (otherSideAdm m sv).map (·.q)

/-- `otherSide(line)` (SV.cpp l.136-138). -/
def otherSideLine (r x g1 b1 g2 b2 : ℝ) (sv : SV) : Option SV := otherSide r x g1 b1 g2 b2 1 0 sv

/-- `otherSide(danglingLine, split)` (SV.cpp l.140-149). -/
def otherSideDangling (r x g b : ℝ) (split : Bool) (sv : SV) : Option SV :=
  if split then otherSide r x (g * 0.5) (b * 0.5) (g * 0.5) (b * 0.5) 1 0 sv else otherSide r x g b 0 0 1 0 sv

/-- A step of a tap changer: r, x, g, b in percent, rho, alpha in degrees. -/
structure Step where
  r : ℝ
  x : ℝ
  g : ℝ
  b : ℝ
  rho : ℝ
  alpha : ℝ

/-- The values of a two-windings transformer used by `SV` and the current steps of its tap changers. -/
structure Transformer where
  r : ℝ
  x : ℝ
  g : ℝ
  b : ℝ
  ratedU1 : ℝ
  ratedU2 : ℝ
  ratio : Option Step
  phase : Option Step

/-- A value corrected by the steps (`getB`, `getG`, `getR`, `getX`, SV.cpp l.48-68, 78-87, 108-117). -/
def corrected (v : ℝ) (f : Step → ℝ) (t : Transformer) : ℝ :=
  let v := match t.ratio with
    | some s => v * (1 + f s / 100)
    | none => v
  match t.phase with
  | some s => v * (1 + f s / 100)
  | none => v

/-- `getRho` (SV.cpp l.89-98). -/
def getRho (t : Transformer) : Option ℝ := do
  let rho ← rdiv t.ratedU2 t.ratedU1
  let rho := match t.ratio with
    | some s => rho * s.rho
    | none => rho
  return match t.phase with
    | some s => rho * s.rho
    | none => rho

/-- `getAlpha` (SV.cpp l.40-46). -/
def getAlpha (t : Transformer) : ℝ :=
  (match t.phase with
    | some s => s.alpha
    | none => 0) * toRadians

/-- `otherSide(twt, split)` (SV.cpp l.125-134). -/
def otherSideTransformer (t : Transformer) (split : Bool) (sv : SV) : Option SV := do
  let rho ← getRho t
  let r := corrected t.r (·.r) t
  let x := corrected t.x (·.x) t
  let g := corrected t.g (·.g) t
  let b := corrected t.b (·.b) t
  if split then otherSide r x (g * 0.5) (b * 0.5) (g * 0.5) (b * 0.5) rho (getAlpha t) sv
  else otherSide r x g b 0 0 rho (getAlpha t) sv

/-! ### Current of a terminal -/

/-- What `getI` reads: whether the equipment is a busbar section, the powers and the voltage (`none` for NaN). -/
structure TermState where
  busbarSection : Bool
  p : Option ℝ
  q : Option ℝ
  v : Option ℝ

/-- `BusTerminal::getV` (BusTerminal.cpp l.86-90): the voltage of the bus when connected. -/
def busTerminalV (connected : Bool) (busV : Option ℝ) : Option ℝ := if connected then busV else none

/-- `getI` (Terminal.cpp l.65-71). -/
def getI (t : TermState) : Option ℝ :=
  if t.busbarSection then some 0
  else do
    let p ← t.p
    let q ← t.q
    let v ← t.v
    return Real.sqrt (p ^ 2 + q ^ 2) / Real.sqrt 3 * v / 1000

end

end Verif.Flow
