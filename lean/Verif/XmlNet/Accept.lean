import Verif.XmlNet.Net

/-!
What the import of a network checks against the rest of the network: names, nodes, buses, voltage levels, substations, converter stations, and the
references to terminals, which the end tasks resolve.

Modelled code:
* names: `include/powsybl/iidm/IdentifiableAdder.hxx` l. 25-47, `NetworkIndex.hxx` l. 33-52, `src/iidm/NetworkIndex.cpp` l. 53-79, 86-92
* attachments: `src/iidm/NodeBreakerVoltageLevel.cpp` l. 55-84, `BusBreakerVoltageLevel.cpp` l. 34-53, 60-86, 269-281
* voltage levels: `include/powsybl/iidm/BranchAdder.hxx` l. 39-65, `TwoWindingsTransformerAdder.cpp` l. 26-31, `ThreeWindingsTransformerLegAdder.cpp` l. 67-79
* stations: `HvdcLineAdder.cpp` l. 33-34, 44-52
* end tasks: `NetworkXml.cpp` l. 273-275, `TerminalRefXml.cpp` l. 33-51

The import is the list of the operations on the network, in the order of a document written by `writeNet`.  In a document in another order an equipment may
come before what it refers to; the code refuses it and this model, which puts the elements in the usual order, may accept it: what the code accepts is
accepted here.  Inside one adder the checks come in any order: all of them throw, and an import that throws gives no network.
-/

namespace Verif.XmlNet

open Verif Verif.Xml

/-- What the import has to know of the class of an object: the substation and the topology of a voltage level, the voltage level of a bus, the number of
terminals of an equipment. -/
inductive Obj
  | other
  | level (sub : String) (node : Bool)
  | bus (vl : String)
  | equip (terminals : Nat)
  | station
  deriving DecidableEq, Repr

/-- A terminal to attach: the name of a voltage level and a place; `lookup` when the voltage level is looked for by name; `only` is the substation of a
transformer. -/
structure End where
  vl : String
  place : Adders.Place
  lookup : Bool
  only : Option String
  deriving DecidableEq, Repr

/-- The network being built: objects (`m_objectsById`), aliases with the identifiers they stand for (`m_idByAlias`), terminals with the identifier of their
voltage level, HVDC lines with the identifiers of their stations. -/
structure St where
  objs : List (String × Obj)
  aliases : List (String × String)
  ends : List (String × Adders.Place)
  hvdcs : List (String × String × String)
  deriving DecidableEq, Repr

def St.empty : St := ⟨[], [], [], []⟩

/-- `m_objectsById.find`. -/
def St.byId (st : St) (i : String) : Option (String × Obj) := st.objs.find? fun o => o.1 == i

/-- `NetworkIndex::find`, l. 86-92: the object with this name, an alias or an identifier. -/
def St.find (st : St) (n : String) : Option (String × Obj) :=
  match st.aliases.find? fun a => a.1 == n with
  | some a => st.byId a.2
  | none => st.byId n

/-- Whether a terminal can be attached to a voltage level: `checkTerminal`, the node is free (NodeBreakerVoltageLevel.cpp l. 62-67), the bus is one of this
voltage level (`getConfiguredBus`). -/
def St.accepts (st : St) (v : String) (node : Bool) : Adders.Place → Bool
  | .node n => node && !st.ends.contains (v, .node n)
  | .bus b _ => !node && st.objs.contains (b, .bus v)

/-- One operation. -/
inductive Op
  | new (i : String) (o : Obj)
  | alias (i a : String)
  | need (vl b : String)
  | attach (e : End)
  | hvdc (i s1 s2 : String)
  deriving DecidableEq, Repr

/-- `attach`, to a voltage level that was found (`find<VoltageLevel>` gives nothing for an object of another class). -/
def attachTo (st : St) (e : End) : Option (String × Obj) → Out St
  | some (v, .level sub node) =>
    if st.accepts v node e.place && e.only.all fun s => s == sub then .ok { st with ends := st.ends ++ [(v, e.place)] } else .thrown
  | _ => .thrown

/-- The name of a converter station: `getConverterStation`, l. 44-52. -/
def St.station (st : St) (n : String) : Option String :=
  if n = "" then none
  else
    match st.find n with
    | some (i, .station) => some i
    | _ => none

/-- An object that has its aliases, a voltage level that has its equipment, are in the network: `ub` otherwise (it never happens). -/
def step (st : St) : Op → Out St
  | .new i o => if i = "" ∨ (st.find i).isSome then .thrown else .ok { st with objs := st.objs ++ [(i, o)] }
  | .alias i a =>
    match st.byId i with
    | none => .ub
    | some _ =>
      if (st.byId a).isSome then (if a = i then .ok st else .thrown)
      else
        match st.aliases.find? fun p => p.1 == a with
        | some p => if p.2 = i then .ok st else .thrown
        | none => .ok { st with aliases := st.aliases ++ [(a, i)] }
  | .need vl b => if st.objs.contains (b, .bus vl) then .ok st else .thrown
  | .attach e =>
    if e.lookup then (if e.vl = "" then .thrown else attachTo st e (st.find e.vl))
    else if (st.byId e.vl).isSome then attachTo st e (st.byId e.vl) else .ub
  | .hvdc i s1 s2 =>
    match st.station s1, st.station s2 with
    | some t1, some t2 => .ok { st with hvdcs := st.hvdcs ++ [(i, t1, t2)] }
    | _, _ => .thrown

def run : St → List Op → Out St
  | st, [] => .ok st
  | st, o :: os => do
    let st' ← step st o
    run st' os

/-! ### The objects of a network -/

/-- An object: what is common to all identifiables, its class, the buses that it needs in its voltage level, its terminals, its stations. -/
structure Item where
  ident : Ident
  obj : Obj
  needs : List (String × String)
  ends : List End
  stations : Option (String × String)
  deriving DecidableEq, Repr

def Item.id (x : Item) : String := x.ident.head.id

/-- The buses of a switch are looked for before it is added (BusBreakerVoltageLevel.cpp l. 45-48); aliases are read when the object is in the network. -/
def itemOps (x : Item) : List Op :=
  x.needs.map (fun n => .need n.1 n.2) ++ .new x.id x.obj :: (x.ends.map .attach ++ ((x.stations.map fun s => Op.hvdc x.id s.1 s.2).toList ++
    x.ident.aliases.map fun a => .alias x.id a.1))

/-- An object without references. -/
def plain (x : Ident) (o : Obj) : Item := ⟨x, o, [], [], none⟩

/-- An equipment with one terminal, in a voltage level that the adder knows. -/
def injection (vl : String) (x : Ident) (o : Obj) (p : Adders.Place) : Item := ⟨x, o, [], [⟨vl, p, false, none⟩], none⟩

/-- An equipment with several terminals, in voltage levels that are looked for. -/
def branch (only : Option String) (x : Ident) (sides : List Side) : Item := ⟨x, .equip sides.length, [], sides.map fun s => ⟨s.vl, s.term.place, true, only⟩, none⟩

def busItem (vl : String) (x : Bus) : Item := plain x.ident (.bus vl)
def bswItem (vl : String) (x : BSw) : Item := ⟨x.ident, .other, [(vl, x.bus1), (vl, x.bus2)], [], none⟩
def bbsItem (vl : String) (x : Bbs) : Item := injection vl x.ident (.equip 1) (.node x.node)
def nswItem (x : NSw) : Item := plain x.ident .other

def topoItems (vl : String) : Topo → List Item
  | .node bbs sws _ _ => bbs.map (bbsItem vl) ++ sws.map nswItem
  | .bus buses sws => buses.map (busItem vl) ++ sws.map (bswItem vl)

def equipItems (vl : String) (e : Equip) : List Item :=
  e.gens.map (fun x => injection vl x.ident (.equip 1) x.term.place) ++ (e.bats.map (fun x => injection vl x.ident (.equip 1) x.term.place) ++
  (e.loads.map (fun x => injection vl x.ident (.equip 1) x.term.place) ++ (e.shs.map (fun x => injection vl x.ident (.equip 1) x.term.place) ++
  (e.dls.map (fun x => injection vl x.ident (.equip 1) x.term.place) ++ (e.svcs.map (fun x => injection vl x.ident (.equip 1) x.term.place) ++
  (e.vscs.map (fun x => injection vl x.ident .station x.term.place) ++ e.lccs.map (fun x => injection vl x.ident .station x.term.place)))))))

def Topo.isNode : Topo → Bool
  | .node .. => true
  | .bus .. => false

def vlItem (sub : String) (x : VL) : Item := plain x.ident (.level sub x.topo.isNode)

def vlItems (sub : String) (x : VL) : List Item := vlItem sub x :: (topoItems x.ident.head.id x.topo ++ equipItems x.ident.head.id x.equip)

def tw2Item (sub : String) (x : Tw2) : Item := branch (some sub) x.ident [x.side1, x.side2]
def tw3Item (sub : String) (x : Tw3) : Item := branch (some sub) x.ident [x.leg1.side, x.leg2.side, x.leg3.side]

def substationItems (x : Substation) : List Item :=
  plain x.ident .other :: (x.vls.flatMap (vlItems x.ident.head.id) ++ (x.tw2s.map (tw2Item x.ident.head.id) ++ x.tw3s.map (tw3Item x.ident.head.id)))

def lineItem : AnyLine → Item
  | .line x => branch none x.ident [x.side1, x.side2]
  | .tie x => branch none x.ident [x.side1, x.side2]

def hvdcItem (x : HvdcLine) : Item := ⟨x.ident, .other, [], [], some (x.station1, x.station2)⟩

/-- The objects of a network, in the order of the document. -/
def netItems {T : Type} (x : Net T) : List Item := plain x.ident .other :: (x.subs.flatMap substationItems ++ (x.lines.map lineItem ++ x.hvdcs.map hvdcItem))

/-! ### End tasks -/

/-- The references of a tap changer, if any. -/
def rtcRefs (x : Option Rtc) : List Ref := (x.bind Rtc.reg).toList
def ptcRefs (x : Option Ptc) : List Ref := (x.bind Ptc.reg).toList
def legRefs (x : Leg) : List Ref := rtcRefs x.sub.rtc ++ ptcRefs x.sub.ptc
def vlRefs (x : VL) : List Ref := x.equip.gens.flatMap (fun g => g.reg.toList) ++ x.equip.shs.flatMap (fun g => g.reg.toList) ++ x.equip.svcs.flatMap fun g => g.reg.toList
def substationRefs (x : Substation) : List Ref :=
  x.vls.flatMap vlRefs ++ x.tw2s.flatMap (fun t => rtcRefs t.rtc ++ ptcRefs t.ptc) ++ x.tw3s.flatMap fun t => legRefs t.leg1 ++ legRefs t.leg2 ++ legRefs t.leg3
def netRefs {T : Type} (x : Net T) : List Ref := x.subs.flatMap substationRefs

/-- The names of the sides, in order (`Branch::Side`, `ThreeWindingsTransformer::Side`). -/
def sideNames : List String := ["ONE", "TWO", "THREE"]

/-- How many terminals an object has, none if it is not connectable. -/
def Obj.terminals : Obj → Option Nat
  | .equip n => some n
  | .station => some 1
  | _ => none

/-- `readTerminalRef`, l. 33-51: the equipment and the rank of the terminal.  The name of the side is not looked at for an equipment with one terminal. -/
def resolveRef (st : St) (r : Ref) : Out (String × Nat) :=
  match st.find r.id with
  | none => .thrown
  | some (i, o) =>
    match o.terminals with
    | none => .thrown
    | some n =>
      if n = 1 then .ok (i, 0)
      else
        match (sideNames.take n).findIdx? fun s => s == r.side with
        | none => .thrown
        | some k => .ok (i, k)

def resolveRefs (st : St) : List Ref → Out (List (String × Nat))
  | [] => .ok []
  | r :: rs => do
    let t ← resolveRef st r
    let ts ← resolveRefs st rs
    .ok (t :: ts)

/-- What the import makes of a network: the operations, then the end tasks. -/
def accept {T : Type} (x : Net T) : Out (St × List (String × Nat)) := do
  let st ← run St.empty ((netItems x).flatMap itemOps)
  let ts ← resolveRefs st (netRefs x)
  .ok (st, ts)

/-- The whole import. -/
def importNet {T : Type} (K : XCodec) (A : Anon) (D : Dates T) (toks : List Tok) : Out (Net T × St × List (String × Nat)) := do
  let x ← readNet K A D toks
  let r ← accept x
  .ok (x, r)

end Verif.XmlNet
