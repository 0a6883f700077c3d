import Verif.Flow.Model

/-! Model of the boundaries of tie lines and dangling lines (HalfLineBoundary.cpp, DanglingLineBoundary.cpp, Boundary.cpp, TieLine.cpp).  Numbers as in
`Verif.Flow.Model`: exact, `none` for a result that is not a (finite) number. -/

namespace Verif.Flow

noncomputable section

/-- `LineCharacteristics` (LineCharacteristics.cpp l.21-29), of a line or of half a tie line. -/
structure Charac where
  r : ℝ
  x : ℝ
  g1 : ℝ
  b1 : ℝ
  g2 : ℝ
  b2 : ℝ

/-- What a boundary reads of its terminal: the powers, and the voltage and the angle of the bus of the bus view when there is one. -/
structure EndState where
  p : Option ℝ
  q : Option ℝ
  bus : Option (Option ℝ × Option ℝ)

/-- `Boundary::getV(bus)` (Boundary.cpp l.21-23). -/
def EndState.v (t : EndState) : Option ℝ := t.bus.bind (·.1)

/-- `Boundary::getAngle(bus)` (Boundary.cpp l.17-19). -/
def EndState.angle (t : EndState) : Option ℝ := t.bus.bind (·.2)

/-- The `SV` that every getter of a boundary makes (HalfLineBoundary.cpp l.30, 44, 50, 68); a value that is not a number makes the results so. -/
def EndState.sv (t : EndState) (side : Side) : Option SV := do
  let p ← t.p
  let q ← t.q
  let u ← t.v
  let a ← t.angle
  return ⟨p, q, u, a, side⟩

/-- The matrix that `otherSideA`, `otherSideP`, `otherSideQ`, `otherSideU` of a half line make (SV.cpp l.171-179, 196-204, 221-229, 246-254), with a ratio
of 1 and a phase of 0. -/
def Charac.adm (c : Charac) : Option Adm := do
  let ratio ← rdiv 1 1
  calculateBranchAdmittance c.r c.x ratio (-0) 1 0 ⟨c.g1, c.b1⟩ ⟨c.g2, c.b2⟩

/-- `half_line::Boundary::getV` (HalfLineBoundary.cpp l.65-69). -/
def boundaryV (c : Charac) (side : Side) (t : EndState) : Option ℝ := do
  let sv ← t.sv side
  let m ← c.adm
  otherSideU m sv

/-- `half_line::Boundary::getAngle` (l.27-31). -/
def boundaryAngle (c : Charac) (side : Side) (t : EndState) : Option ℝ := do
  let sv ← t.sv side
  let m ← c.adm
  otherSideA m sv

/-- `half_line::Boundary::getP` (l.41-45). -/
def boundaryP (c : Charac) (side : Side) (t : EndState) : Option ℝ := do
  let sv ← t.sv side
  let m ← c.adm
  otherSideP m sv

/-- `half_line::Boundary::getQ` (l.47-51). -/
def boundaryQ (c : Charac) (side : Side) (t : EndState) : Option ℝ := do
  let sv ← t.sv side
  let m ← c.adm
  otherSideQ m sv

/-- The characteristics that `otherSideX(dl, true)` gives to a dangling line (SV.cpp l.185-190, 210-215, 235-240, 260-265): the getters of
`dangling_line::Boundary` (DanglingLineBoundary.cpp l.26-30, 40-50, 56-60) are those of a half line with them, from side ONE. -/
def danglingCharac (r x g b : ℝ) : Charac := ⟨r, x, g * 0.5, b * 0.5, g * 0.5, b * 0.5⟩

/-- `TieLine::getR`, `getX`, `getG1`, `getB1`, `getG2`, `getB2` (TieLine.cpp l.33-47, 80-82, 94-96). -/
def tieCharac (h1 h2 : Charac) : Charac := ⟨h1.r + h2.r, h1.x + h2.x, h1.g1 + h2.g1, h1.b1 + h2.b1, h1.g2 + h2.g2, h1.b2 + h2.b2⟩

end

end Verif.Flow
