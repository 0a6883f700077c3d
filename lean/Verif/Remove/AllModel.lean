import Verif.Remove.UndoProps

/-! Model of the removal of all the buses of a voltage level, and removals in turn. -/

namespace Verif.Remove

open Verif Verif.Xml Verif.XmlNet Verif.Setters Verif.Build

/-- `BusBreakerVoltageLevel::removeAllBuses`, BusBreakerVoltageLevel.cpp l. 295-312: no switch (l. 296), no terminal on a bus (l. 299-304), and then the buses go (l. 305-311).
As in `Removal.run` the terminals are looked for in the equipment of the network, here `l`; node/breaker voltage levels have no such function. -/
def clearBuses (l : List Item) : Topo → Out Topo
  | .bus buses sws => grd (!sws.isEmpty || buses.any fun b => l.any fun y => y.ends.any (onBus b.ident.head.id)) (.bus [] [])
  | .node _ _ _ _ => .thrown

/-- `network.getVoltageLevel(vl).getBusBreakerView().removeAllBuses()`, BusBreakerVoltageLevelViews.cpp. -/
def removeAllBuses {T : Type} (vl : String) (x : Net T) : Out (Net T) := (inSubs vl (clearBuses (netItems x)) x.subs).map fun ss => { x with subs := ss }

/-- Removals, each of which has to be accepted. -/
def inTurn {T : Type} (x : Net T) : List Removal → Out (Net T)
  | [] => .ok x
  | o :: os => (o.run x).bind fun y => inTurn y os

end Verif.Remove
