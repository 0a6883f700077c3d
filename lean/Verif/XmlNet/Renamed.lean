import Verif.XmlNet.Accept

/-!
The network with other names, said without the writers: the specification of C73.  What an anonymized export hides is exactly what is replaced here: identifiers,
names, aliases, buses and voltage levels of the terminals, references to terminals, buses of the switches, owners and geographical tags of the substations.  The
rest is left as it is: identifier of the network, types of the aliases, properties, countries, `UCTE` codes, names of the temporary limits, converter stations of the
HVDC lines, and all the values.
-/

namespace Verif.XmlNet

open Verif Verif.Xml

/-- A name that may be missing. -/
def optional (f : String → String) (s : String) : String := if s = "" then "" else f s

def Ident.renamed (f : String → String) (x : Ident) : Ident := ⟨⟨f x.head.id, optional f x.head.name, x.head.fictitious⟩, x.aliases.map fun a => (f a.1, a.2), x.props⟩

def renamedPlace (f : String → String) : Adders.Place → Adders.Place
  | .node n => .node n
  | .bus b connected => .bus (f b) connected

def Term.renamed (f : String → String) (t : Term) : Term := { t with place := renamedPlace f t.place }
def Side.renamed (f : String → String) (s : Side) : Side := ⟨f s.vl, s.term.renamed f⟩
def Ref.renamed (f : String → String) (r : Ref) : Ref := ⟨f r.id, r.side⟩

def Load.renamed (f : String → String) (x : Load) : Load := { x with ident := x.ident.renamed f, term := x.term.renamed f }
def Gen.renamed (f : String → String) (x : Gen) : Gen := { x with ident := x.ident.renamed f, term := x.term.renamed f, reg := x.reg.map (Ref.renamed f) }
def Bat.renamed (f : String → String) (x : Bat) : Bat := { x with ident := x.ident.renamed f, term := x.term.renamed f }
def Bbs.renamed (f : String → String) (x : Bbs) : Bbs := { x with ident := x.ident.renamed f }
def Lcc.renamed (f : String → String) (x : Lcc) : Lcc := { x with ident := x.ident.renamed f, term := x.term.renamed f }
def Vsc.renamed (f : String → String) (x : Vsc) : Vsc := { x with ident := x.ident.renamed f, term := x.term.renamed f }
def Svc.renamed (f : String → String) (x : Svc) : Svc := { x with ident := x.ident.renamed f, term := x.term.renamed f, reg := x.reg.map (Ref.renamed f) }
def Sh.renamed (f : String → String) (x : Sh) : Sh := { x with ident := x.ident.renamed f, term := x.term.renamed f, reg := x.reg.map (Ref.renamed f) }
def Dl.renamed (f : String → String) (x : Dl) : Dl := { x with ident := x.ident.renamed f, term := x.term.renamed f }
def Line.renamed (f : String → String) (x : Line) : Line := { x with ident := x.ident.renamed f, side1 := x.side1.renamed f, side2 := x.side2.renamed f }
def Half.renamed (f : String → String) (x : Half) : Half := { x with id := f x.id, name := f x.name }
def TieLine.renamed (f : String → String) (x : TieLine) : TieLine :=
  { x with ident := x.ident.renamed f, half1 := x.half1.renamed f, half2 := x.half2.renamed f, side1 := x.side1.renamed f, side2 := x.side2.renamed f }
/-- The converter stations keep their identifiers. -/
def HvdcLine.renamed (f : String → String) (x : HvdcLine) : HvdcLine := { x with ident := x.ident.renamed f }
def Rtc.renamed (f : String → String) (x : Rtc) : Rtc := { x with reg := x.reg.map (Ref.renamed f) }
def Ptc.renamed (f : String → String) (x : Ptc) : Ptc := { x with reg := x.reg.map (Ref.renamed f) }
def Tw2.renamed (f : String → String) (x : Tw2) : Tw2 :=
  { x with ident := x.ident.renamed f, side1 := x.side1.renamed f, side2 := x.side2.renamed f, rtc := x.rtc.map (Rtc.renamed f), ptc := x.ptc.map (Ptc.renamed f) }
def Leg.renamed (f : String → String) (x : Leg) : Leg :=
  { x with side := x.side.renamed f, sub := { x.sub with rtc := x.sub.rtc.map (Rtc.renamed f), ptc := x.sub.ptc.map (Ptc.renamed f) } }
def Tw3.renamed (f : String → String) (x : Tw3) : Tw3 := { x with ident := x.ident.renamed f, leg1 := x.leg1.renamed f, leg2 := x.leg2.renamed f, leg3 := x.leg3.renamed f }

def Bus.renamed (f : String → String) (x : Bus) : Bus := { x with ident := x.ident.renamed f }
def NSw.renamed (f : String → String) (x : NSw) : NSw := { x with ident := x.ident.renamed f }
def BSw.renamed (f : String → String) (x : BSw) : BSw := { x with ident := x.ident.renamed f, bus1 := f x.bus1, bus2 := f x.bus2 }

def Topo.renamed (f : String → String) : Topo → Topo
  | .node bbs sws conns calcs => .node (bbs.map (Bbs.renamed f)) (sws.map (NSw.renamed f)) conns calcs
  | .bus buses sws => .bus (buses.map (Bus.renamed f)) (sws.map (BSw.renamed f))

def Equip.renamed (f : String → String) (e : Equip) : Equip :=
  ⟨e.gens.map (Gen.renamed f), e.bats.map (Bat.renamed f), e.loads.map (Load.renamed f), e.shs.map (Sh.renamed f), e.dls.map (Dl.renamed f), e.svcs.map (Svc.renamed f),
    e.vscs.map (Vsc.renamed f), e.lccs.map (Lcc.renamed f)⟩

def VL.renamed (f : String → String) (x : VL) : VL := { x with ident := x.ident.renamed f, topo := x.topo.renamed f, equip := x.equip.renamed f }

/-- The tags are listed in the order of the names that they had. -/
def Substation.renamed (f : String → String) (x : Substation) : Substation :=
  { x with ident := x.ident.renamed f, tso := optional f x.tso, tags := x.tags.map f, vls := x.vls.map (VL.renamed f), tw2s := x.tw2s.map (Tw2.renamed f),
           tw3s := x.tw3s.map (Tw3.renamed f) }

def AnyLine.renamed (f : String → String) : AnyLine → AnyLine
  | .line x => .line (x.renamed f)
  | .tie x => .tie (x.renamed f)

/-- The network keeps its identifier and its name. -/
def Net.renamed {T : Type} (f : String → String) (x : Net T) : Net T :=
  { x with ident := { x.ident with aliases := x.ident.aliases.map fun a => (f a.1, a.2) }, subs := x.subs.map (Substation.renamed f), lines := x.lines.map (AnyLine.renamed f),
           hvdcs := x.hvdcs.map (HvdcLine.renamed f) }

end Verif.XmlNet
