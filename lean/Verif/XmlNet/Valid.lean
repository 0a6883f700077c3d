import Verif.XmlNet.Branches
import Verif.Curve.Props
import Verif.Limits.Props

/-!
What a network may contain, said without the readers: the specification of C69.
-/

namespace Verif.XmlNet

open Verif Verif.Xml

/-- The value is set. -/
abbrev IsSet (d : Dbl) : Prop := d.isNan = false

/-- Aliases are distinct from each other and from the identifier, and no type is used twice. -/
structure IdentValid (x : Ident) : Prop where
  ids : ∀ a ∈ x.aliases, a.1 ≠ x.head.id
  nodup : (x.aliases.map Prod.fst).Nodup
  types : x.aliases.Pairwise fun a b => a.2 ≠ "" → a.2 ≠ b.2
  props : AMap.NodupKeys x.props

/-- A bus has a name. -/
def PlaceValid : Adders.Place → Prop
  | .node _ => True
  | .bus b _ => b ≠ ""

def ReactiveValid : Reactive → Prop
  | .minMax a b => IsSet a ∧ IsSet b ∧ Dbl.lt b a = false
  | .curve pts => Curve.Sorted pts ∧ 2 ≤ pts.length ∧ ∀ x ∈ pts, IsSet x.minQ ∧ IsSet x.maxQ

/-- The permanent limit is positive or unset, the temporary limits are positive, named and ordered by duration, without two of the same name. -/
structure LimitsValid (l : Limits.LL) : Prop where
  permanent : Dbl.le l.permanent 0 = false
  desc : l.temps.Pairwise fun t u => u.duration < t.duration
  names : l.temps.Pairwise fun t u => t.name ≠ u.name
  temps : ∀ t ∈ l.temps, Dbl.lt 0 t.value = true ∧ t.name ≠ ""

def LimsValid (l : Lims) : Prop :=
  (∀ x, l.active = some x → LimitsValid x) ∧ (∀ x, l.apparent = some x → LimitsValid x) ∧ (∀ x, l.current = some x → LimitsValid x)

/-- A regulation has its target. -/
def ControlValid (on : Bool) (v q : Dbl) : Prop := (on = true → Dbl.lt 0 v = true) ∧ (on = false → IsSet q)

def RatedValid (s : Dbl) : Prop := IsSet s → Dbl.lt 0 s = true

structure LoadValid (x : Load) : Prop where
  ident : IdentValid x.ident
  place : PlaceValid x.term.place
  kind : x.kind < Enums.loadType.enumerators.length
  p0 : IsSet x.p0
  q0 : IsSet x.q0

structure GenValid (x : Gen) : Prop where
  ident : IdentValid x.ident
  place : PlaceValid x.term.place
  source : x.source < Enums.energySource.enumerators.length
  range : Dbl.le x.minP x.maxP = true
  targetP : IsSet x.targetP
  control : ControlValid x.on x.targetV x.targetQ
  ratedS : RatedValid x.ratedS
  limits : ReactiveValid x.limits

structure BatValid (x : Bat) : Prop where
  ident : IdentValid x.ident
  place : PlaceValid x.term.place
  p0 : IsSet x.p0
  q0 : IsSet x.q0
  range : Dbl.le x.minP x.maxP = true
  limits : ReactiveValid x.limits

structure LccValid (x : Lcc) : Prop where
  ident : IdentValid x.ident
  place : PlaceValid x.term.place
  loss : Dbl.le 0 x.lossFactor = true ∧ Dbl.le x.lossFactor 100 = true
  power : Dbl.le (.fin (-1)) x.powerFactor = true ∧ Dbl.le x.powerFactor 1 = true

structure VscValid (x : Vsc) : Prop where
  ident : IdentValid x.ident
  place : PlaceValid x.term.place
  loss : Dbl.le 0 x.lossFactor = true ∧ Dbl.le x.lossFactor 100 = true
  control : ControlValid x.on x.voltage x.reactive
  limits : ReactiveValid x.limits

/-- Regulation modes: voltage, reactive power, off. -/
structure SvcValid (x : Svc) : Prop where
  ident : IdentValid x.ident
  place : PlaceValid x.term.place
  mode : x.mode < Enums.staticVarCompensatorRegulationMode.enumerators.length
  bMin : IsSet x.bMin
  bMax : IsSet x.bMax
  voltage : x.mode = 0 → IsSet x.voltage
  reactive : x.mode = 1 → IsSet x.reactive

structure ShValid (x : Sh) : Prop where
  ident : IdentValid x.ident
  place : PlaceValid x.term.place
  sections : 0 < x.model.maximum ∧ x.per.count ≤ x.model.maximum
  values : match x.model with
    | .linear b _ _ => IsSet b
    | .nonLinear ss => ∀ s ∈ ss, IsSet s.b ∧ IsSet s.g
  target : x.per.on = true → Dbl.lt 0 x.per.targetV = true
  deadband : Dbl.lt x.per.deadband 0 = false ∧ (x.per.on = true → IsSet x.per.deadband)

/-- The range is not empty, unless an infinite bound is given without the other one. -/
structure DlGenValid (y : DlGen) : Prop where
  range : Dbl.le y.minP y.maxP = true ∨ y.minP = .posInf ∨ y.maxP = .negInf
  bounds : IsSet y.minP ∧ IsSet y.maxP
  targetP : IsSet y.targetP
  control : ControlValid y.on y.targetV y.targetQ
  limits : ReactiveValid y.limits

structure DlValid (y : Dl) : Prop where
  ident : IdentValid y.ident
  place : PlaceValid y.term.place
  values : IsSet y.p0 ∧ IsSet y.q0 ∧ IsSet y.r ∧ IsSet y.x ∧ IsSet y.g ∧ IsSet y.b
  gen : ∀ z, y.gen = some z → DlGenValid z
  lims : LimsValid ⟨y.active, y.apparent, y.current⟩

def CharacValid (z : Charac) : Prop := IsSet z.r ∧ IsSet z.x ∧ IsSet z.g1 ∧ IsSet z.b1 ∧ IsSet z.g2 ∧ IsSet z.b2

structure LineValid (y : Line) : Prop where
  ident : IdentValid y.ident
  places : PlaceValid y.side1.term.place ∧ PlaceValid y.side2.term.place
  z : CharacValid y.z
  lims : LimsValid y.lims.one ∧ LimsValid y.lims.two

structure HalfValid (y : Half) : Prop where
  id : y.id ≠ ""
  name : y.name ≠ ""
  z : CharacValid y.z

structure TieValid (y : TieLine) : Prop where
  ident : IdentValid y.ident
  places : PlaceValid y.side1.term.place ∧ PlaceValid y.side2.term.place
  ucte : y.ucte ≠ ""
  halves : HalfValid y.half1 ∧ HalfValid y.half2
  lims : LimsValid y.lims.one ∧ LimsValid y.lims.two

structure HvdcValid (y : HvdcLine) : Prop where
  ident : IdentValid y.ident
  mode : y.mode < Enums.hvdcLineConvertersMode.enumerators.length
  r : IsSet y.r
  nominalV : Dbl.lt 0 y.nominalV = true
  setpoint : Dbl.le 0 y.setpoint = true
  maxP : Dbl.le 0 y.maxP = true
  stations : y.station1 ≠ "" ∧ y.station2 ≠ ""

def StepValid (y : Step) : Prop := IsSet y.r ∧ IsSet y.x ∧ IsSet y.g ∧ IsSet y.b ∧ IsSet y.rho

/-- The position is one of those of the steps, provided that the last position is a number of 64 bits. -/
structure TapsValid (low tap : Int) (n : Nat) (on : Bool) (d : Dbl) : Prop where
  steps : n ≠ 0
  inside : -2 ^ 63 ≤ low → low + n - 1 < 2 ^ 63 → low ≤ tap ∧ tap ≤ low + n - 1
  deadband : Dbl.lt d 0 = false
  regulating : on = true → IsSet d

structure RtcValid (t : Rtc) : Prop where
  taps : TapsValid t.low t.tap t.steps.length t.on t.deadband
  regulating : t.on = true → t.reg ≠ none ∧ (t.ltc = true → Dbl.lt 0 t.targetV = true)
  steps : ∀ y ∈ t.steps, StepValid y

structure PtcValid (t : Ptc) : Prop where
  mode : t.mode < Enums.phaseTapChangerRegulationMode.enumerators.length
  taps : TapsValid t.low t.tap t.steps.length t.on t.deadband
  regulating : t.on = true → t.reg ≠ none ∧ IsSet t.value ∧ t.mode ≠ 2
  steps : ∀ y ∈ t.steps, StepValid y.1 ∧ IsSet y.2

structure LegSubValid (s : LegSub) : Prop where
  rtc : ∀ t, s.rtc = some t → RtcValid t
  ptc : ∀ t, s.ptc = some t → PtcValid t
  lims : LimsValid s.lims

/-- The regulation flags of a winding. -/
def flags (r : Option Rtc) (p : Option Ptc) : List Bool := (r.map Rtc.on).toList ++ (p.map Ptc.on).toList

structure Tw2Valid (y : Tw2) : Prop where
  ident : IdentValid y.ident
  places : PlaceValid y.side1.term.place ∧ PlaceValid y.side2.term.place
  values : IsSet y.r ∧ IsSet y.x ∧ IsSet y.g ∧ IsSet y.b ∧ IsSet y.ratedU1 ∧ IsSet y.ratedU2
  ratedS : RatedValid y.ratedS
  rtc : ∀ t, y.rtc = some t → RtcValid t
  ptc : ∀ t, y.ptc = some t → PtcValid t
  single : (flags y.rtc y.ptc).countP id ≤ 1
  lims : LimsValid y.lims.one ∧ LimsValid y.lims.two

structure LegValid (y : Leg) : Prop where
  place : PlaceValid y.side.term.place
  values : IsSet y.z.r ∧ IsSet y.z.x ∧ IsSet y.z.g ∧ IsSet y.z.b ∧ IsSet y.z.ratedU
  ratedS : RatedValid y.z.ratedS
  sub : LegSubValid y.sub

structure Tw3Valid (y : Tw3) : Prop where
  ident : IdentValid y.ident
  legs : LegValid y.leg1 ∧ LegValid y.leg2 ∧ LegValid y.leg3
  ratedU0 : IsSet y.ratedU0
  single : (flags y.leg1.sub.rtc y.leg1.sub.ptc ++ (flags y.leg2.sub.rtc y.leg2.sub.ptc ++ flags y.leg3.sub.rtc y.leg3.sub.ptc)).countP id ≤ 1

end Verif.XmlNet
