import Verif.Common.DblArith
import Verif.Common.Out

/-! Model of reactive capability curves and of min/max reactive limits. -/

namespace Verif.Curve

open Verif

/-- `ReactiveCapabilityCurve::Point`. -/
structure Pt where
  p : Dbl
  minQ : Dbl
  maxQ : Dbl
  deriving DecidableEq, Repr

/-- `stdcxx::isEqual` (math.hpp l.42-48). -/
def isEqual (a b : Dbl) : Bool :=
  if xor a.isNan b.isNan then false else !(Dbl.lt a b || Dbl.lt b a)

/-- `m_points.find(p) != m_points.end()`: a key is found when it is equivalent for `<`. -/
def found (p : Dbl) (pts : List Pt) : Bool := pts.any fun x => !Dbl.lt x.p p && !Dbl.lt p x.p

/-- `std::map::insert` of an absent key: the entries are kept in increasing order of the keys. -/
def insertPt (x : Pt) : List Pt → List Pt
  | [] => [x]
  | y :: ys => if Dbl.lt y.p x.p then y :: insertPt x ys else x :: y :: ys

/-- `PointAdder::endPoint` then `addPoint` (ReactiveCapabilityCurveAdder.cpp l.25-33, l.67-82). -/
def addPoint (x : Pt) (pts : List Pt) : Out (List Pt) :=
  if x.p.isNan || x.minQ.isNan || x.maxQ.isNan then .thrown
  else if found x.p pts then .thrown
  else .ok (insertPt x pts)

/-- Successive `addPoint` calls, none of them throwing. -/
def addPoints (pts : List Pt) : List Pt → Out (List Pt)
  | [] => .ok pts
  | x :: xs => (addPoint x pts).bind fun pts => addPoints pts xs

/-- `ReactiveCapabilityCurveAdder::add` (ReactiveCapabilityCurveAdder.cpp l.54-65) after the given points. -/
def build (args : List Pt) : Out (List Pt) :=
  (addPoints [] args).bind fun pts => if pts.length < 2 then .thrown else .ok pts

/-- `q1 + (q2 - q1) / (p2 - p1) * (p - p1)` (ReactiveCapabilityCurve.cpp l.74, l.105).  A division whose result depends on the sign of a zero
    does not happen for distinct abscissas; it is an outcome of its own here. -/
def interpolate (q1 q2 p1 p2 p : Dbl) : Out Dbl :=
  match Dbl.div (Dbl.sub q2 q1) (Dbl.sub p2 p1) with
  | none => .ub
  | some k => .ok (Dbl.add q1 (Dbl.mul k (Dbl.sub p p1)))

/-- Search of `lower_bound(p)`, `prev` being the entry before (ReactiveCapabilityCurve.cpp l.56-77, l.87-108); `q` selects the bound. -/
def lookup (q : Pt → Dbl) (p : Dbl) (prev : Option Pt) : List Pt → Out Dbl
  | [] =>
    match prev with
    | none => .thrown
    | some a => .ok (q a)
  | b :: bs =>
    if Dbl.lt b.p p then lookup q p (some b) bs
    else if isEqual b.p p then .ok (q b)
    else
      match prev with
      | none => .ok (q b)
      | some a => interpolate (q a) (q b) a.p b.p p

/-- `ReactiveCapabilityCurve::getMaxQ` (ReactiveCapabilityCurve.cpp l.53-78). -/
def getMaxQ (c : List Pt) (p : Dbl) : Out Dbl := lookup Pt.maxQ p none c

/-- `ReactiveCapabilityCurve::getMinQ` (ReactiveCapabilityCurve.cpp l.84-109). -/
def getMinQ (c : List Pt) (p : Dbl) : Out Dbl := lookup Pt.minQ p none c

/-- `getMinP` (ReactiveCapabilityCurve.cpp l.80-82): dereferences `begin()`. -/
def getMinP (c : List Pt) : Out Dbl :=
  match c.head? with
  | some x => .ok x.p
  | none => .ub

/-- `getMaxP` (ReactiveCapabilityCurve.cpp l.49-51): dereferences `rbegin()`. -/
def getMaxP (c : List Pt) : Out Dbl :=
  match c.getLast? with
  | some x => .ok x.p
  | none => .ub

/-- `MinMaxReactiveLimitsAdder::add` (MinMaxReactiveLimitsAdder.cpp l.33-46): the bounds (minQ, maxQ), the same at every active power. -/
def buildMinMax (minQ maxQ : Dbl) : Out (Dbl × Dbl) :=
  if minQ.isNan || maxQ.isNan then .thrown
  else if Dbl.lt maxQ minQ then .thrown
  else .ok (minQ, maxQ)

end Verif.Curve
