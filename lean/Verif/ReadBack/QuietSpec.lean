import Verif.Setters.Model
import Verif.XmlNet.AcceptSpec

/-!
The calls that change neither the names nor the places of the objects of a network, and that refer to terminals of the network only: the specification of
`quiet_network_goes_together` and `edited_network_imported` (C95).

`N` is what may be referred to.  In the code a regulating terminal is a terminal of the network (`checkRegulatingTerminal`, ValidationUtils.cpp); here it is what is
written of it, an identifier and a side.
-/

namespace Verif.Setters

open Verif Verif.Xml Verif.XmlNet

/-- Aliases stay. -/
def IdentOp.Quiet : IdentOp → Prop
  | .setFictitious _ => True
  | .setProperty _ _ => True
  | .addAlias .. => False
  | .removeAlias _ => False

/-- Connecting and disconnecting are quiet, moving is not. -/
def TermOp.Quiet : TermOp → Prop
  | .setConnectableBus .. => False
  | _ => True

def Refers (N : Ref → Prop) (o : Option Ref) : Prop := ∀ r, o = some r → N r

def LoadOp.Quiet : LoadOp → Prop
  | .ident o => o.Quiet
  | .term o => o.Quiet
  | _ => True

def GenOp.Quiet (N : Ref → Prop) : GenOp → Prop
  | .ident o => o.Quiet
  | .term o => o.Quiet
  | .setRegulatingTerminal r _ => Refers N r
  | _ => True

def BatOp.Quiet : BatOp → Prop
  | .ident o => o.Quiet
  | .term o => o.Quiet
  | _ => True

def LccOp.Quiet : LccOp → Prop
  | .ident o => o.Quiet
  | .term o => o.Quiet
  | _ => True

def VscOp.Quiet : VscOp → Prop
  | .ident o => o.Quiet
  | .term o => o.Quiet
  | _ => True

def SvcOp.Quiet (N : Ref → Prop) : SvcOp → Prop
  | .ident o => o.Quiet
  | .term o => o.Quiet
  | .setRegulatingTerminal r _ => Refers N r
  | _ => True

def ShOp.Quiet (N : Ref → Prop) : ShOp → Prop
  | .ident o => o.Quiet
  | .term o => o.Quiet
  | .setRegulatingTerminal r _ => Refers N r
  | _ => True

def DlOp.Quiet : DlOp → Prop
  | .ident o => o.Quiet
  | .term o => o.Quiet
  | _ => True

def LineOp.Quiet : LineOp → Prop
  | .ident o => o.Quiet
  | .term _ o => o.Quiet
  | _ => True

def TieOp.Quiet : TieOp → Prop
  | .ident o => o.Quiet
  | .term _ o => o.Quiet
  | _ => True

def HvdcOp.Quiet : HvdcOp → Prop
  | .ident o => o.Quiet
  | _ => True

def TapsOp.Quiet (N : Ref → Prop) : TapsOp → Prop
  | .rtc (.setRegulationTerminal r _) => Refers N r
  | .ptc (.setRegulationTerminal r _) => Refers N r
  | .newRtc _ t _ => Refers N t.reg
  | .newPtc _ t _ => Refers N t.reg
  | _ => True

def Tw2Op.Quiet (N : Ref → Prop) : Tw2Op → Prop
  | .ident o => o.Quiet
  | .term _ o => o.Quiet
  | .taps o => o.Quiet N
  | _ => True

def LegOp.Quiet (N : Ref → Prop) : LegOp → Prop
  | .term o => o.Quiet
  | .taps o => o.Quiet N
  | _ => True

def Tw3Op.Quiet (N : Ref → Prop) : Tw3Op → Prop
  | .ident o => o.Quiet
  | .leg1 o => o.Quiet N
  | .leg2 o => o.Quiet N
  | .leg3 o => o.Quiet N

def BusOp.Quiet : BusOp → Prop
  | .ident o => o.Quiet
  | _ => True

def SwOp.Quiet : SwOp → Prop
  | .ident o => o.Quiet
  | _ => True

def VLOp.Quiet (N : Ref → Prop) : VLOp → Prop
  | .ident o => o.Quiet
  | .bbs _ o => o.Quiet
  | .bus _ o => o.Quiet
  | .sw _ o => o.Quiet
  | .gen _ o => o.Quiet N
  | .bat _ o => o.Quiet
  | .load _ o => o.Quiet
  | .sh _ o => o.Quiet N
  | .dl _ o => o.Quiet
  | .svc _ o => o.Quiet N
  | .vsc _ o => o.Quiet
  | .lcc _ o => o.Quiet
  | _ => True

def SubOp.Quiet (N : Ref → Prop) : SubOp → Prop
  | .ident o => o.Quiet
  | .vl _ o => o.Quiet N
  | .tw2 _ o => o.Quiet N
  | .tw3 _ o => o.Quiet N
  | _ => True

def AnyLineOp.Quiet : AnyLineOp → Prop
  | .line o => o.Quiet
  | .tie o => o.Quiet

def NetOp.Quiet {T : Type} (N : Ref → Prop) : NetOp T → Prop
  | .ident o => o.Quiet
  | .sub _ o => o.Quiet N
  | .line _ o => o.Quiet
  | .hvdc _ o => o.Quiet
  | _ => True

end Verif.Setters
