import Verif.Electric.Model

/-!
Model of the references to buses (BusRef.cpp, IdBasedBusRef.cpp) and of the terminals of branches and three windings
transformers by side and by voltage level (Branch.cpp, ThreeWindingsTransformer.cpp).

The buses of the views are those of `Verif.Electric`; a bus is given by its id.  Exceptions are not distinguished.
-/

namespace Verif.BusRefs

open Verif
open Verif.CompBuses (Level)
open Verif.Electric (End levelAt viewBus)

/-- `TopologyLevel`. -/
inductive Topo where
  | nodeBreaker
  | busBreaker
  | busBranch
  deriving DecidableEq, Repr

/-- `Branch::Side`. -/
inductive Side where
  | one
  | two
  deriving DecidableEq, Repr

/-- What a name designates. -/
inductive Obj where
  /-- a configured bus: its id, its voltage level and its address -/
  | bus (id : String) (vl : String) (handle : Nat)
  /-- an injection: its terminal -/
  | injection (a : End)
  /-- a line or a two windings transformer: its terminals -/
  | branch (a b : End)
  /-- a substation, a voltage level, a switch, a three windings transformer, an HVDC line, the network -/
  | other
  deriving DecidableEq, Repr

/-- The network in the working variant. -/
structure Net where
  levels : List Level
  /-- `Network::find` (C04) -/
  find : String → Option Obj
  /-- the terminals of each configured bus, connected or not (`ConfiguredBus::m_terminals`) -/
  attached : String → Nat → List End

/-- The id of a configured bus of a voltage level. -/
def confId (g : BusBreaker.BGr) (h : Nat) : Option String :=
  ((g.vertices.filterMap Option.join).find? fun b => b.handle == h).map fun b => b.id

/-- `getBusBreakerView().getBus()` of a terminal (NodeTerminalViews.cpp l.23-33, BusTerminalViews.cpp l.23-41). -/
def breakerBus (levels : List Level) : End → Out (Option String)
  | .node vl n =>
    match levelAt levels vl with
    | some (.node id g opened retained) => (NodeBreaker.compute id .busBreaker g opened retained).bind fun c => c.getBus n
    | _ => .thrown
  | .bus vl h connected =>
    if connected then
      match levelAt levels vl with
      | some (.conf _ g _ _) =>
        match confId g h with
        | some i => .ok (some i)
        | none => .thrown
      | _ => .thrown
    else .ok none

/-- `BusRef::chooseBusByLevel` (BusRef.cpp l.21-26). -/
def chooseBus (levels : List Level) (a : End) (level : Topo) : Out (Option String) :=
  if level = .busBranch then viewBus levels a else breakerBus levels a

/-- `isConnected()` of a terminal of a configured bus. -/
def connected : End → Bool
  | .node _ _ => false
  | .bus _ _ c => c

/-- The search of the first connected terminal with a bus (IdBasedBusRef.cpp l.38-42). -/
def firstView (levels : List Level) : List End → Out (Option String)
  | [] => .ok none
  | a :: as =>
    (viewBus levels a).bind fun r =>
      match r with
      | some i => .ok (some i)
      | none => firstView levels as

/-- A reference: the id and, for a branch, the side. -/
structure Ref where
  id : String
  side : Option Side
  deriving DecidableEq, Repr

/-- `IdBasedBusRef::resolveByLevel` (IdBasedBusRef.cpp l.28-68). -/
def resolveByLevel (net : Net) (r : Ref) (level : Topo) : Out (Option String) :=
  match net.find r.id with
  | none => .ok none
  | some o =>
    match r.side with
    | none =>
      match o with
      | .bus id vl h => if level = .busBranch then firstView net.levels ((net.attached vl h).filter connected) else .ok (some id)
      | .injection a => chooseBus net.levels a level
      | _ => .thrown
    | some s =>
      match o with
      | .branch a b =>
        match s with
        | .one => chooseBus net.levels a level
        | .two => chooseBus net.levels b level
      | _ => .thrown

/-- `BusRef::resolve` (BusRef.cpp l.28-33). -/
def resolve (net : Net) (r : Ref) (level : Topo) : Out (Option String) :=
  if level = .nodeBreaker then .thrown else resolveByLevel net r level

/-! ### Sides -/

/-- A terminal: its address and its voltage level. -/
structure T where
  addr : Nat
  vl : String
  deriving DecidableEq, Repr

/-- `getTerminals().at(i)`. -/
def at' (ts : List T) (i : Nat) : Out T :=
  match ts[i]? with
  | some t => .ok t
  | none => .thrown

/-- `Branch::getSide` (Branch.cpp l.242-251): addresses are compared. -/
def getSide (ts : List T) (addr : Nat) : Out Side :=
  (at' ts 0).bind fun t1 => if addr = t1.addr then .ok .one else (at' ts 1).bind fun t2 => if addr = t2.addr then .ok .two else .thrown

/-- `Branch::getTerminal` by side (Branch.cpp l.253-264). -/
def getTerminal (ts : List T) : Side → Out T
  | .one => at' ts 0
  | .two => at' ts 1

/-- `Branch::getTerminal` by voltage level (Branch.cpp l.270-284). -/
def getTerminalIn (ts : List T) (vl : String) : Out T :=
  (getTerminal ts .one).bind fun t1 => (getTerminal ts .two).bind fun t2 =>
    let side1 := t1.vl == vl
    let side2 := t2.vl == vl
    if side1 && side2 then .thrown else if side1 then .ok t1 else if side2 then .ok t2 else .thrown

/-- `ThreeWindingsTransformer::Side`. -/
inductive Side3 where
  | one
  | two
  | three
  deriving DecidableEq, Repr

/-- The three legs: `m_legs[i].getTerminal()`. -/
structure Legs where
  leg1 : T
  leg2 : T
  leg3 : T

/-- `ThreeWindingsTransformer::getSide` (ThreeWindingsTransformer.cpp l.102-113). -/
def getSide3 (l : Legs) (addr : Nat) : Out Side3 :=
  if l.leg1.addr = addr then .ok .one else if l.leg2.addr = addr then .ok .two else if l.leg3.addr = addr then .ok .three else .thrown

/-- `ThreeWindingsTransformer::getTerminal` (ThreeWindingsTransformer.cpp l.123-134). -/
def getTerminal3 (l : Legs) : Side3 → T
  | .one => l.leg1
  | .two => l.leg2
  | .three => l.leg3

end Verif.BusRefs
