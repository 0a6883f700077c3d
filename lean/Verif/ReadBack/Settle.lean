import Verif.XmlNet.Accept

/-!
What the import keeps of the names by which objects are referred to.

In the network there are references to objects, not names: a voltage level, a converter station or an equipment that a document calls by an alias is written by its
identifier afterwards, a side that was given for the only terminal of an equipment is not written again, and a generator that was told to regulate its own terminal is
written as one that was told nothing.  `Net.settled` is the network as its getters and the writers show it; `importSettled` is the import with that network for result and
`exportNet` the export of a network whose references may have been given by any name.

Modelled code:
* `NetworkIndex.cpp` l. 86-92 (`find`), `BranchAdder.hxx` l. 39-65, `ThreeWindingsTransformerLegAdder.cpp` l. 67-79, `HvdcLineAdder.cpp` l. 44-52: names become references
* `AbstractConnectableXml.hxx` l. 211, `HvdcLineXml.cpp` l. 63-64, `TerminalRefXml.cpp` l. 76-99: references become identifiers and sides
* `GeneratorXml.cpp` l. 91-94, `ShuntCompensatorXml.cpp` l. 176-182, `StaticVarCompensatorXml.cpp` l. 83-88: a regulating terminal of the equipment itself is not written
* `Generator.cpp` l. 157-165, `ShuntCompensator.cpp` l. 122-126, `StaticVarCompensator.cpp` l. 110-114: no terminal stands for the terminal of the equipment
-/

namespace Verif.ReadBack

open Verif Verif.Xml Verif.XmlNet

/-- The object with this name: `NetworkIndex::find`. -/
def called (l : List Item) (n : String) : Option Item := l.find? fun x => (x.id :: x.ident.aliases.map Prod.fst).contains n

/-- `getId` of the object with this name; a name that nobody has is kept (such a network is not imported). -/
def idOf (l : List Item) (n : String) : String := ((called l n).map Item.id).getD n

/-- `writeTerminalRefAttribute` of the terminal that `readTerminalRef` gives. -/
def refOf (l : List Item) (r : Ref) : Ref := match called l r.id with
  | some x => ⟨x.id, if x.obj.terminals = some 1 then "" else r.side⟩
  | none => r

/-- The regulating terminal of the equipment `i`. -/
def regOf (l : List Item) (i : String) (o : Option Ref) : Option Ref := (o.map (refOf l)).filter fun r => r.id != i

def settleSide (l : List Item) (s : Side) : Side := { s with vl := idOf l s.vl }
def settleGen (l : List Item) (x : Gen) : Gen := { x with reg := regOf l x.ident.head.id x.reg }
def settleSh (l : List Item) (x : Sh) : Sh := { x with reg := regOf l x.ident.head.id x.reg }
def settleSvc (l : List Item) (x : Svc) : Svc := { x with reg := regOf l x.ident.head.id x.reg }
def settleRtc (l : List Item) (t : Rtc) : Rtc := { t with reg := t.reg.map (refOf l) }
def settlePtc (l : List Item) (t : Ptc) : Ptc := { t with reg := t.reg.map (refOf l) }
def settleTw2 (l : List Item) (x : Tw2) : Tw2 :=
  { x with side1 := settleSide l x.side1, side2 := settleSide l x.side2, rtc := x.rtc.map (settleRtc l), ptc := x.ptc.map (settlePtc l) }
def settleLeg (l : List Item) (x : Leg) : Leg :=
  { x with side := settleSide l x.side, sub := { x.sub with rtc := x.sub.rtc.map (settleRtc l), ptc := x.sub.ptc.map (settlePtc l) } }
def settleTw3 (l : List Item) (x : Tw3) : Tw3 := { x with leg1 := settleLeg l x.leg1, leg2 := settleLeg l x.leg2, leg3 := settleLeg l x.leg3 }
def settleLine (l : List Item) : AnyLine → AnyLine
  | .line x => .line { x with side1 := settleSide l x.side1, side2 := settleSide l x.side2 }
  | .tie x => .tie { x with side1 := settleSide l x.side1, side2 := settleSide l x.side2 }
def settleHvdc (l : List Item) (x : HvdcLine) : HvdcLine := { x with station1 := idOf l x.station1, station2 := idOf l x.station2 }
def settleEquip (l : List Item) (e : Equip) : Equip := { e with gens := e.gens.map (settleGen l), shs := e.shs.map (settleSh l), svcs := e.svcs.map (settleSvc l) }
def settleVL (l : List Item) (x : VL) : VL := { x with equip := settleEquip l x.equip }
def settleSubstation (l : List Item) (x : Substation) : Substation :=
  { x with vls := x.vls.map (settleVL l), tw2s := x.tw2s.map (settleTw2 l), tw3s := x.tw3s.map (settleTw3 l) }

def settleNet {T : Type} (l : List Item) (x : Net T) : Net T :=
  { x with subs := x.subs.map (settleSubstation l), lines := x.lines.map (settleLine l), hvdcs := x.hvdcs.map (settleHvdc l) }

/-- The network as it is shown. -/
def settled {T : Type} (x : Net T) : Net T := settleNet (netItems x) x

/-- The import, with the network that it makes. -/
def importSettled {T : Type} (K : XCodec) (D : Dates T) (toks : List Tok) : Out (Net T) := (importNet K .none D toks).map fun r => settled r.1

/-- The export of a network whose references were given by names. -/
def exportNet {T : Type} (K : XCodec) (D : Dates T) (x : Net T) : Out (List Cmd) := writeNet K .none D (settled x)

end Verif.ReadBack
