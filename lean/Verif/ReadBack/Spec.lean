import Verif.XmlNet.NetValid

/-!
What a document has room for, and the numbers of a network, said without the writers and the readers: the specification of C95.

`NetFits` is about sizes and texts only.  Nothing in it can be read off the checks of the adders: these are the networks that the code lets exist (`NetValid`)
and whose documents it does not read back, or not as they were (`empty_limits_lost`, `blank_alias_unreadable`, `decorated_bus_unreadable`, `empty_tag_lost`).
-/

namespace Verif.ReadBack

open Verif Verif.Xml Verif.XmlNet

/-- The text of an alias is the text of an element, where a blank one is not seen (`blank_alias_unreadable`). -/
def IdentFits (x : Ident) : Prop := ∀ a ∈ x.aliases, ¬ Blank a.1

/-- Nodes are numbers of 64 bits (`unsigned long`). -/
def PlaceFits : Adders.Place → Prop
  | .node n => n < 2 ^ 64
  | .bus _ _ => True

/-- The nodes of a branch are read with `std::stoi` (AbstractConnectableXml.hxx l. 66-95). -/
def BranchFits : Adders.Place → Prop
  | .node n => n < 2 ^ 31
  | .bus _ _ => True

def RefFits (o : Option Ref) : Prop := ∀ r, o = some r → r.id ≠ ""

/-- Limits without any value are not written (`empty_limits_lost`); durations are `unsigned long`. -/
structure LimitsFit (l : Limits.LL) : Prop where
  some : IsSet l.permanent ∨ l.temps ≠ []
  durations : ∀ t ∈ l.temps, t.duration < 2 ^ 64

structure LimsFit (l : Lims) : Prop where
  active : ∀ x, l.active = some x → LimitsFit x
  apparent : ∀ x, l.apparent = some x → LimitsFit x
  current : ∀ x, l.current = some x → LimitsFit x

structure InjectionFits (x : Ident) (t : Term) (r : Option Ref) : Prop where
  ident : IdentFits x
  place : PlaceFits t.place
  reg : RefFits r

/-- Section counts are `unsigned long`; the maximum is written for a linear model only. -/
structure ShFits (x : Sh) : Prop where
  common : InjectionFits x.ident x.term x.reg
  count : x.per.count < 2 ^ 64
  maximum : ∀ b g m, x.model = .linear b g m → m < 2 ^ 64

structure DlFits (x : Dl) : Prop where
  common : InjectionFits x.ident x.term none
  /-- The range of the generation is refused on import when it is empty, whatever the bounds. -/
  range : ∀ z, x.gen = some z → Dbl.lt z.maxP z.minP = false
  lims : LimsFit ⟨x.active, x.apparent, x.current⟩

/-- Tap positions are `long`. -/
structure TapsFit (low : Int) (n : Nat) : Prop where
  first : -2 ^ 63 ≤ low
  last : low + n - 1 < 2 ^ 63

structure WindingFits (r : Option Rtc) (p : Option Ptc) : Prop where
  rtc : ∀ t, r = some t → TapsFit t.low t.steps.length ∧ RefFits t.reg
  ptc : ∀ t, p = some t → TapsFit t.low t.steps.length ∧ RefFits t.reg

structure Tw2Fits (x : Tw2) : Prop where
  ident : IdentFits x.ident
  places : BranchFits x.side1.term.place ∧ BranchFits x.side2.term.place
  taps : WindingFits x.rtc x.ptc
  lims : LimsFit x.lims.one ∧ LimsFit x.lims.two

structure LegFits (x : Leg) : Prop where
  place : PlaceFits x.side.term.place
  taps : WindingFits x.sub.rtc x.sub.ptc
  lims : LimsFit x.sub.lims

structure Tw3Fits (x : Tw3) : Prop where
  ident : IdentFits x.ident
  legs : LegFits x.leg1 ∧ LegFits x.leg2 ∧ LegFits x.leg3

def AnyLineFits : AnyLine → Prop
  | .line x => IdentFits x.ident ∧ (BranchFits x.side1.term.place ∧ BranchFits x.side2.term.place) ∧ LimsFit x.lims.one ∧ LimsFit x.lims.two
  | .tie x => IdentFits x.ident ∧ (BranchFits x.side1.term.place ∧ BranchFits x.side2.term.place) ∧ LimsFit x.lims.one ∧ LimsFit x.lims.two

/-- After the aliases and the properties of a configured bus, the reader does not stop at the end of the bus (BusXml.cpp l. 41, `decorated_bus_unreadable`). -/
def TopoFits : Topo → Prop
  | .node bbs sws conns _ => (∀ x ∈ bbs, IdentFits x.ident ∧ x.node < 2 ^ 64) ∧ (∀ x ∈ sws, IdentFits x.ident ∧ x.node1 < 2 ^ 64 ∧ x.node2 < 2 ^ 64) ∧
      ∀ x ∈ conns, x.1 < 2 ^ 64 ∧ x.2 < 2 ^ 64
  | .bus buses sws => (∀ b ∈ buses, b.ident.aliases = [] ∧ b.ident.props = []) ∧ ∀ x ∈ sws, IdentFits x.ident

structure EquipFits (e : Equip) : Prop where
  gens : ∀ x ∈ e.gens, InjectionFits x.ident x.term x.reg
  bats : ∀ x ∈ e.bats, InjectionFits x.ident x.term none
  loads : ∀ x ∈ e.loads, InjectionFits x.ident x.term none
  shs : ∀ x ∈ e.shs, ShFits x
  dls : ∀ x ∈ e.dls, DlFits x
  svcs : ∀ x ∈ e.svcs, InjectionFits x.ident x.term x.reg
  vscs : ∀ x ∈ e.vscs, InjectionFits x.ident x.term none
  lccs : ∀ x ∈ e.lccs, InjectionFits x.ident x.term none

structure VLFits (x : VL) : Prop where
  ident : IdentFits x.ident
  topo : TopoFits x.topo
  equip : EquipFits x.equip

/-- The tags of a substation are in one attribute, separated by commas (SubstationXml.cpp l. 54-61, 94-98). -/
structure SubstationFits (x : Substation) : Prop where
  ident : IdentFits x.ident
  tags : (∀ t ∈ x.tags, ',' ∉ t.toList) ∧ x.tags ≠ [""]
  vls : ∀ v ∈ x.vls, VLFits v
  tw2s : ∀ t ∈ x.tw2s, Tw2Fits t
  tw3s : ∀ t ∈ x.tw3s, Tw3Fits t

/-- The forecast distance is an `int`; `D.Exact`: the date is one that the format of dates gives back. -/
structure NetFits {T : Type} (D : Dates T) (x : Net T) : Prop where
  ident : IdentFits x.ident
  forecast : x.forecast < 2 ^ 31
  date : D.Exact x.date
  subs : ∀ s ∈ x.subs, SubstationFits s
  lines : ∀ l ∈ x.lines, AnyLineFits l
  hvdcs : ∀ l ∈ x.hvdcs, IdentFits l.ident

/-! ### The numbers of a network -/

def termNumbers (t : Term) : List Dbl := [t.p, t.q]

def reactiveNumbers : Reactive → List Dbl
  | .minMax a b => [a, b]
  | .curve pts => pts.flatMap fun x => [x.p, x.minQ, x.maxQ]

def limitsNumbers (l : Limits.LL) : List Dbl := l.permanent :: l.temps.map fun t => t.value

def limsNumbers (l : Lims) : List Dbl := l.active.toList.flatMap limitsNumbers ++ l.apparent.toList.flatMap limitsNumbers ++ l.current.toList.flatMap limitsNumbers

def loadNumbers (x : Load) : List Dbl := [x.p0, x.q0] ++ termNumbers x.term
def genNumbers (x : Gen) : List Dbl := [x.minP, x.maxP, x.ratedS, x.targetP, x.targetV, x.targetQ] ++ termNumbers x.term ++ reactiveNumbers x.limits
def batNumbers (x : Bat) : List Dbl := [x.p0, x.q0, x.minP, x.maxP] ++ termNumbers x.term ++ reactiveNumbers x.limits
def lccNumbers (x : Lcc) : List Dbl := [x.lossFactor, x.powerFactor] ++ termNumbers x.term
def vscNumbers (x : Vsc) : List Dbl := [x.lossFactor, x.voltage, x.reactive] ++ termNumbers x.term ++ reactiveNumbers x.limits
def svcNumbers (x : Svc) : List Dbl := [x.bMin, x.bMax, x.voltage, x.reactive] ++ termNumbers x.term

def modelNumbers : Shunt.Model → List Dbl
  | .linear b g _ => [b, g]
  | .nonLinear ss => ss.flatMap fun s => [s.b, s.g]

def shNumbers (x : Sh) : List Dbl := modelNumbers x.model ++ [x.per.targetV, x.per.deadband] ++ termNumbers x.term
def dlGenNumbers (x : DlGen) : List Dbl := [x.minP, x.maxP, x.targetP, x.targetV, x.targetQ] ++ reactiveNumbers x.limits
def dlNumbers (x : Dl) : List Dbl :=
  [x.p0, x.q0, x.r, x.x, x.g, x.b] ++ x.gen.toList.flatMap dlGenNumbers ++ termNumbers x.term ++ limsNumbers ⟨x.active, x.apparent, x.current⟩

def characNumbers (z : Charac) : List Dbl := [z.r, z.x, z.g1, z.b1, z.g2, z.b2]

def anyLineNumbers : AnyLine → List Dbl
  | .line x => characNumbers x.z ++ termNumbers x.side1.term ++ termNumbers x.side2.term ++ limsNumbers x.lims.one ++ limsNumbers x.lims.two
  | .tie x => characNumbers x.half1.z ++ characNumbers x.half2.z ++ termNumbers x.side1.term ++ termNumbers x.side2.term ++ limsNumbers x.lims.one ++ limsNumbers x.lims.two

def hvdcNumbers (x : HvdcLine) : List Dbl := [x.r, x.nominalV, x.setpoint, x.maxP]
def stepNumbers (x : Step) : List Dbl := [x.r, x.x, x.g, x.b, x.rho]
def rtcNumbers (x : Rtc) : List Dbl := [x.deadband, x.targetV] ++ x.steps.flatMap stepNumbers
def ptcNumbers (x : Ptc) : List Dbl := [x.deadband, x.value] ++ x.steps.flatMap fun y => y.2 :: stepNumbers y.1
def windingNumbers (r : Option Rtc) (p : Option Ptc) : List Dbl := r.toList.flatMap rtcNumbers ++ p.toList.flatMap ptcNumbers
def tw2Numbers (x : Tw2) : List Dbl :=
  [x.r, x.x, x.g, x.b, x.ratedU1, x.ratedU2, x.ratedS] ++ termNumbers x.side1.term ++ termNumbers x.side2.term ++ windingNumbers x.rtc x.ptc ++
    limsNumbers x.lims.one ++ limsNumbers x.lims.two
def legNumbers (x : Leg) : List Dbl :=
  [x.z.r, x.z.x, x.z.g, x.z.b, x.z.ratedU, x.z.ratedS] ++ termNumbers x.side.term ++ windingNumbers x.sub.rtc x.sub.ptc ++ limsNumbers x.sub.lims
def tw3Numbers (x : Tw3) : List Dbl := x.ratedU0 :: (legNumbers x.leg1 ++ legNumbers x.leg2 ++ legNumbers x.leg3)

def topoNumbers : Topo → List Dbl
  | .node _ _ _ calcs => calcs.flatMap fun c => [c.v, c.angle]
  | .bus buses _ => buses.flatMap fun b => [b.v, b.angle]

def equipNumbers (e : Equip) : List Dbl :=
  e.gens.flatMap genNumbers ++ e.bats.flatMap batNumbers ++ e.loads.flatMap loadNumbers ++ e.shs.flatMap shNumbers ++ e.dls.flatMap dlNumbers ++
    e.svcs.flatMap svcNumbers ++ e.vscs.flatMap vscNumbers ++ e.lccs.flatMap lccNumbers

def vlNumbers (x : VL) : List Dbl := [x.nominalV, x.low, x.high] ++ topoNumbers x.topo ++ equipNumbers x.equip
def substationNumbers (x : Substation) : List Dbl := x.vls.flatMap vlNumbers ++ x.tw2s.flatMap tw2Numbers ++ x.tw3s.flatMap tw3Numbers
def netNumbers {T : Type} (x : Net T) : List Dbl := x.subs.flatMap substationNumbers ++ x.lines.flatMap anyLineNumbers ++ x.hvdcs.flatMap hvdcNumbers

/-- Every one of these numbers is given back by the texts of the numbers, if it is written at all. -/
def Kept (K : XCodec) (l : List Dbl) : Prop := ∀ d ∈ l, K.Keeps d

end Verif.ReadBack
