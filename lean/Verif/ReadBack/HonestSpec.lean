import Verif.Setters.Model
import Verif.XmlNet.AcceptSpec
import Verif.ReadBack.QuietSpec

/-!
The calls whose arguments tell the truth about the network: the specification of C97.

Where the code looks into the network (an alias that is already a name, a bus that the voltage level has, a regulating terminal), the calls of C94 have an argument that
stands for the answer.  `NetOp.Honest x` says that these answers are those of the network `x`; it leaves out no call of the code.
-/

namespace Verif.Setters

open Verif Verif.Xml Verif.XmlNet

/-- The voltage level of this name has the bus. -/
def HasBus (l : List Item) (vl b : String) : Prop := ∃ v ∈ l, vl ∈ v.names ∧ ∃ y ∈ l, y.id = b ∧ y.obj = .bus v.id

/-- A terminal of an equipment of the network, by the identifier of the equipment. -/
def RefById (l : List Item) (r : Ref) : Prop := ∃ x ∈ l, r.id = x.id ∧ ∃ n, x.obj.Terminals n ∧ (n = 1 ∨ r.side ∈ ["ONE", "TWO", "THREE"].take n)

/-- The names of the network are taken. -/
def IdentOp.Honest (l : List Item) : IdentOp → Prop
  | .addAlias others _ _ _ => ∀ x ∈ l, ∀ n ∈ x.names, others n = true
  | _ => True

def TermOp.Honest (l : List Item) (vl : String) : TermOp → Prop
  | .setConnectableBus b known => known = true → HasBus l vl b
  | _ => True

def LoadOp.Honest (l : List Item) (vl : String) : LoadOp → Prop
  | .ident o => o.Honest l
  | .term o => o.Honest l vl
  | _ => True

def GenOp.Honest (l : List Item) (vl : String) : GenOp → Prop
  | .ident o => o.Honest l
  | .term o => o.Honest l vl
  | .setRegulatingTerminal r _ => Refers (RefById l) r
  | _ => True

def BatOp.Honest (l : List Item) (vl : String) : BatOp → Prop
  | .ident o => o.Honest l
  | .term o => o.Honest l vl
  | _ => True

def LccOp.Honest (l : List Item) (vl : String) : LccOp → Prop
  | .ident o => o.Honest l
  | .term o => o.Honest l vl
  | _ => True

def VscOp.Honest (l : List Item) (vl : String) : VscOp → Prop
  | .ident o => o.Honest l
  | .term o => o.Honest l vl
  | _ => True

def SvcOp.Honest (l : List Item) (vl : String) : SvcOp → Prop
  | .ident o => o.Honest l
  | .term o => o.Honest l vl
  | .setRegulatingTerminal r _ => Refers (RefById l) r
  | _ => True

def ShOp.Honest (l : List Item) (vl : String) : ShOp → Prop
  | .ident o => o.Honest l
  | .term o => o.Honest l vl
  | .setRegulatingTerminal r _ => Refers (RefById l) r
  | _ => True

def DlOp.Honest (l : List Item) (vl : String) : DlOp → Prop
  | .ident o => o.Honest l
  | .term o => o.Honest l vl
  | _ => True

def LineOp.Honest (l : List Item) (x : Line) : LineOp → Prop
  | .ident o => o.Honest l
  | .term .one o => o.Honest l x.side1.vl
  | .term .two o => o.Honest l x.side2.vl
  | _ => True

def TieOp.Honest (l : List Item) (x : TieLine) : TieOp → Prop
  | .ident o => o.Honest l
  | .term .one o => o.Honest l x.side1.vl
  | .term .two o => o.Honest l x.side2.vl
  | _ => True

def HvdcOp.Honest (l : List Item) : HvdcOp → Prop
  | .ident o => o.Honest l
  | _ => True

def Tw2Op.Honest (l : List Item) (x : Tw2) : Tw2Op → Prop
  | .ident o => o.Honest l
  | .term .one o => o.Honest l x.side1.vl
  | .term .two o => o.Honest l x.side2.vl
  | .taps o => o.Quiet (RefById l)
  | _ => True

def LegOp.Honest (l : List Item) (x : Leg) : LegOp → Prop
  | .term o => o.Honest l x.side.vl
  | .taps o => o.Quiet (RefById l)
  | _ => True

def Tw3Op.Honest (l : List Item) (x : Tw3) : Tw3Op → Prop
  | .ident o => o.Honest l
  | .leg1 o => o.Honest l x.leg1
  | .leg2 o => o.Honest l x.leg2
  | .leg3 o => o.Honest l x.leg3

def BusOp.Honest (l : List Item) : BusOp → Prop
  | .ident o => o.Honest l
  | _ => True

def SwOp.Honest (l : List Item) : SwOp → Prop
  | .ident o => o.Honest l
  | _ => True

def VLOp.Honest (l : List Item) (v : VL) : VLOp → Prop
  | .ident o => o.Honest l
  | .bbs _ o => o.Honest l
  | .bus _ o => o.Honest l
  | .sw _ o => o.Honest l
  | .gen _ o => o.Honest l v.ident.head.id
  | .bat _ o => o.Honest l v.ident.head.id
  | .load _ o => o.Honest l v.ident.head.id
  | .sh _ o => o.Honest l v.ident.head.id
  | .dl _ o => o.Honest l v.ident.head.id
  | .svc _ o => o.Honest l v.ident.head.id
  | .vsc _ o => o.Honest l v.ident.head.id
  | .lcc _ o => o.Honest l v.ident.head.id
  | _ => True

def SubOp.Honest (l : List Item) (s : Substation) : SubOp → Prop
  | .ident o => o.Honest l
  | .vl i o => ∀ v, s.vls[i]? = some v → o.Honest l v
  | .tw2 i o => ∀ t, s.tw2s[i]? = some t → o.Honest l t
  | .tw3 i o => ∀ t, s.tw3s[i]? = some t → o.Honest l t
  | _ => True

def AnyLineOp.Honest (l : List Item) : AnyLine → AnyLineOp → Prop
  | .line x, .line o => o.Honest l x
  | .tie x, .tie o => o.Honest l x
  | _, _ => True

def NetOp.Honest {T : Type} (x : Net T) : NetOp T → Prop
  | .ident o => o.Honest (netItems x)
  | .sub i o => ∀ s, x.subs[i]? = some s → o.Honest (netItems x) s
  | .line i o => ∀ y, x.lines[i]? = some y → o.Honest (netItems x) y
  | .hvdc _ o => o.Honest (netItems x)
  | _ => True

/-- Every call is honest about the network in which it is made. -/
def HonestHistory {T : Type} (x : Net T) : List (NetOp T) → Prop
  | [] => True
  | o :: os => o.Honest x ∧ (∀ y, o.set x = .ok y → HonestHistory y os) ∧ (o.set x = .thrown → HonestHistory x os)

end Verif.Setters
