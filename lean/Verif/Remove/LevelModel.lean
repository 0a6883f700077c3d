import Verif.Remove.AllModel

/-! Model of the removal of a voltage level from a whole network, in one variant.  The order in which its objects go, one by one, is that of C27. -/

namespace Verif.Remove

open Verif Verif.Xml Verif.XmlNet Verif.Setters Verif.Build

/-- `getSubstation().remove(*this)` and `getIndex().remove`, VoltageLevel.cpp l. 249-250, after its connectables and its topology. -/
def dropLevel {T : Type} (vl : String) (x : Net T) : Net T := { x with subs := x.subs.map fun s => { s with vls := s.vls.filter fun v => other vl v.ident } }

/-- `VoltageLevels::checkRemovability`, VoltageLevels.cpp l. 24-37: an equipment of several terminals (lines and transformers) with one in the voltage level. -/
def crosses (vl : String) (y : Item) : Bool := decide (2 ≤ y.ends.length) && y.ends.any fun e => e.vl == vl

/-- The same: a converter station of the voltage level that an HVDC line has. -/
def converts {T : Type} (vl : String) (x : Net T) (y : Item) : Bool := y.obj == .station && (y.ends.any fun e => e.vl == vl) && x.hvdcs.any (uses y.id)

/-- `network.getVoltageLevel(vl).remove()`, VoltageLevel.cpp l. 237-251.  The objects are taken away together: what the code does one by one always ends (C27). -/
def removeLevel {T : Type} (vl : String) (x : Net T) : Out (Net T) :=
  grd (!(x.subs.any fun s => s.vls.any fun v => v.ident.head.id == vl) || (netItems x).any (crosses vl) || (netItems x).any (converts vl x)) (dropLevel vl x)

end Verif.Remove
