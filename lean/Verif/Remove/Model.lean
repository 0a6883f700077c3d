import Verif.Build.Props

/-!
Model of the removals of a whole network, in one variant: equipment, HVDC lines, buses, switches and internal connections.

An object is removed by its identifier, the one by which `NetworkIndex::remove` finds it (NetworkIndex.cpp l. 154-174), and the caller gets it from the network with a function
that throws when there is none.  As for the adders (C98), the terminals of a bus are looked for in the equipment, and the calculated buses are not recomputed.

Not represented, and `ub` here: the state after the removal of an HVDC line of which a station is used by another line (C28: the station is then free for the removal, although
it is used).  Removing all the buses of a voltage level is in `Verif.Remove.AllModel`, removing a voltage level in `Verif.Remove.LevelModel`; removing substations is not modelled here.
-/

namespace Verif.Remove

open Verif Verif.Xml Verif.XmlNet Verif.Setters Verif.Build

/-! ### A network without an object -/

/-- The comparison of `m_objectsById.find`, NetworkIndex.cpp l. 155. -/
def other (n : String) (i : Ident) : Bool := i.head.id != n

def anyIdent : AnyLine → Ident
  | .line x => x.ident
  | .tie x => x.ident

/-- `identifiables.erase`, `m_objectsById.erase`, NetworkIndex.cpp l. 170-171, for the injections. -/
def dropEquip (n : String) (e : Equip) : Equip :=
  ⟨e.gens.filter fun x => other n x.ident, e.bats.filter fun x => other n x.ident, e.loads.filter fun x => other n x.ident, e.shs.filter fun x => other n x.ident,
    e.dls.filter fun x => other n x.ident, e.svcs.filter fun x => other n x.ident, e.vscs.filter fun x => other n x.ident, e.lccs.filter fun x => other n x.ident⟩

/-- The same for buses, switches and busbar sections: BusBreakerVoltageLevel.cpp l. 342-345, 354-356, NodeBreakerVoltageLevel.cpp l. 378-382. -/
def dropTopo (n : String) : Topo → Topo
  | .node bbs sws conns calcs => .node (bbs.filter fun x => other n x.ident) (sws.filter fun x => other n x.ident) conns calcs
  | .bus buses sws => .bus (buses.filter fun x => other n x.ident) (sws.filter fun x => other n x.ident)

def dropVL (n : String) (v : VL) : VL := { v with topo := dropTopo n v.topo, equip := dropEquip n v.equip }

def dropSub (n : String) (s : Substation) : Substation :=
  { s with vls := s.vls.map (dropVL n), tw2s := s.tw2s.filter fun x => other n x.ident, tw3s := s.tw3s.filter fun x => other n x.ident }

/-- `network.remove(*this)`: Connectable.cpp l. 103, HvdcLine.cpp l. 132. -/
def drop {T : Type} (n : String) (x : Net T) : Net T :=
  { x with subs := x.subs.map (dropSub n), lines := x.lines.filter fun y => other n (anyIdent y), hvdcs := x.hvdcs.filter fun y => other n y.ident }

/-! ### Removals -/

inductive Removal
  | connectable (n : String)
  | hvdcLine (n : String)
  | bus (vl n : String)
  | switch (vl n : String)
  | allSwitches (vl : String)
  | connections (vl : String) (node1 node2 : Nat)

/-- A line has this converter station: `m_hvdcLine` is set, HvdcLine.cpp l. 31-32. -/
def uses (s : String) (h : HvdcLine) : Bool := h.station1 == s || h.station2 == s

/-- `m_switches.find`: BusBreakerVoltageLevel.cpp l. 349, NodeBreakerVoltageLevel.cpp l. 373. -/
def hasSwitch (n : String) : Topo → Bool
  | .node _ sws _ _ => sws.any fun x => x.ident.head.id == n
  | .bus _ sws => sws.any fun x => x.ident.head.id == n

/-- A terminal of the bus: `getTerminalCount`, BusBreakerVoltageLevel.cpp l. 325. -/
def onBus (n : String) (e : End) : Bool := match e.place with
  | .bus b _ => b == n
  | .node _ => false

/-- BusBreakerVoltageLevel.cpp l. 314-321: node/breaker voltage levels have no such function. -/
def clearSwitches : Topo → Out Topo
  | .bus buses _ => .ok (.bus buses [])
  | .node _ _ _ _ => .thrown

/-- The filter of NodeBreakerVoltageLevel.cpp l. 357-359, in both directions. -/
def between (i j : Nat) (c : Nat × Nat) : Bool := (c.1 == i && c.2 == j) || (c.1 == j && c.2 == i)

/-- NodeBreakerVoltageLevel.cpp l. 356-370. -/
def clearConnections (i j : Nat) : Topo → Out Topo
  | .bus _ _ => .thrown
  | .node bbs sws conns calcs => grd (!conns.any (between i j)) (.node bbs sws (conns.filter fun c => !between i j c) calcs)

/-- `network.getVoltageLevel(vl)`, then a function of its topology. -/
def onLevels (vl : String) (f : Topo → Out Topo) : List VL → Out (List VL)
  | [] => .thrown
  | v :: vs => if v.ident.head.id = vl then (f v.topo).map fun t => { v with topo := t } :: vs else (onLevels vl f vs).map (v :: ·)

def inSubs (vl : String) (f : Topo → Out Topo) : List Substation → Out (List Substation)
  | [] => .thrown
  | s :: ss => if s.vls.any fun v => v.ident.head.id == vl then (onLevels vl f s.vls).map fun vs => { s with vls := vs } :: ss else (inSubs vl f ss).map (s :: ·)

def Removal.run {T : Type} (o : Removal) (x : Net T) : Out (Net T) :=
  let l := netItems x
  match o with
  -- Connectable.cpp l. 95-104, HvdcConverterStation.cpp l. 34-39
  | .connectable n => match l.find? fun y => y.id == n with
    | none => .thrown
    | some y => match y.obj with
      | .equip _ => .ok (drop n x)
      | .station => grd (x.hvdcs.any (uses n)) (drop n x)
      | _ => .thrown
  -- HvdcLine.cpp l. 123-133
  | .hvdcLine n => match x.hvdcs.find? fun h => h.ident.head.id == n with
    | none => .thrown
    | some h => if x.hvdcs.any fun k => other n k.ident && (uses h.station1 k || uses h.station2 k) then .ub else .ok (drop n x)
  -- BusBreakerVoltageLevel.cpp l. 323-346
  | .bus vl n => grd (!(l.any fun y => y.id == n && y.obj == .bus vl) || l.any (fun y => y.ends.any (onBus n)) || l.any fun y => y.needs.any fun m => m.2 == n) (drop n x)
  -- BusBreakerVoltageLevel.cpp l. 348-357, NodeBreakerVoltageLevel.cpp l. 372-383
  | .switch vl n => grd (!x.subs.any fun s => s.vls.any fun v => v.ident.head.id == vl && hasSwitch n v.topo) (drop n x)
  | .allSwitches vl => (inSubs vl clearSwitches x.subs).map fun ss => { x with subs := ss }
  | .connections vl i j => (inSubs vl (clearConnections i j) x.subs).map fun ss => { x with subs := ss }

/-! ### Histories -/

inductive Step (T : Type)
  | call (o : Call T)
  | remove (o : Removal)

def Step.run {T : Type} : Step T → Net T → Out (Net T)
  | .call o, x => o.run x
  | .remove o, x => o.run x

/-- The network after calls: one that throws changes nothing. -/
def runSteps {T : Type} (x : Net T) : List (Step T) → Out (Net T)
  | [] => .ok x
  | o :: os => match o.run x with
    | .ok y => runSteps y os
    | .thrown => runSteps x os
    | .ub => .ub

end Verif.Remove
