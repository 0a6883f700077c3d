import Verif.Common.Out
import Verif.Common.DblArith

/-!
Model of the equipment of a bus: its listings, its balance and the visits of its equipment (Bus.cpp, TopologyVisitor.cpp,
AbstractTerminalTopologyVisitor.cpp), for the three kinds of bus (CalculatedBus.cpp, ConfiguredBus.cpp, MergedBus.cpp).

Terminals and equipment are objects at addresses.  Values are those of the working variant (C10 to C15 tell how they follow the
variants).  Which terminals a bus holds is the subject of C18 to C25; here a bus is any list of terminals.  The ranges given by
the code are lazy: they are read here at the time of the call.
-/

namespace Verif.BusEquip

open Verif

/-- The classes of equipment that can be built, one per adder. -/
inductive Cls
  | busbarSection | line | tieLine | twoWindings | threeWindings | generator | battery | load | shunt | danglingLine | svc
  | lcc | vsc
  deriving DecidableEq, Repr

/-- `ConnectableType` (ConnectableType.hpp l.17-29). -/
inductive CType
  | busbarSection | line | twoWindings | threeWindings | generator | battery | load | shunt | danglingLine | svc | station
  deriving DecidableEq, Repr

/-- The type given by each constructor to `Connectable` (Battery.cpp l.18, BusbarSection.cpp l.17, DanglingLine.cpp l.22,
    Generator.cpp l.21, HvdcConverterStation.cpp l.17, Line.cpp l.17-22, Load.cpp l.19, ShuntCompensator.cpp l.20,
    StaticVarCompensator.cpp l.21, ThreeWindingsTransformer.cpp l.20, TwoWindingsTransformer.cpp l.22). -/
def Cls.type : Cls → CType
  | .busbarSection => .busbarSection
  | .line => .line
  | .tieLine => .line
  | .twoWindings => .twoWindings
  | .threeWindings => .threeWindings
  | .generator => .generator
  | .battery => .battery
  | .load => .load
  | .shunt => .shunt
  | .danglingLine => .danglingLine
  | .svc => .svc
  | .lcc => .station
  | .vsc => .station

/-- The classes the code casts to. -/
inductive Ty
  | busbarSection | line | twoWindings | threeWindings | generator | battery | load | shunt | danglingLine | svc
  | lcc | vsc | station
  deriving DecidableEq, Repr

/-- `dynamic_cast<const T*>(object) != nullptr` (instanceof.hpp l.17-20): the class or one of its bases (TieLine.hpp l.19,
    LccConverterStation.hpp l.17, VscConverterStation.hpp l.18). -/
def Cls.isA : Cls → Ty → Bool
  | .busbarSection, .busbarSection => true
  | .line, .line => true
  | .tieLine, .line => true
  | .twoWindings, .twoWindings => true
  | .threeWindings, .threeWindings => true
  | .generator, .generator => true
  | .battery, .battery => true
  | .load, .load => true
  | .shunt, .shunt => true
  | .danglingLine, .danglingLine => true
  | .svc, .svc => true
  | .lcc, .lcc => true
  | .lcc, .station => true
  | .vsc, .vsc => true
  | .vsc, .station => true
  | _, _ => false

/-- Number of terminals that the adder adds (`addTerminal` is called once by the adders of injections, twice by LineAdder.cpp,
    TieLineAdder.cpp and TwoWindingsTransformerAdder.cpp, three times by ThreeWindingsTransformerAdder.cpp). -/
def Cls.arity : Cls → Nat
  | .line => 2
  | .tieLine => 2
  | .twoWindings => 2
  | .threeWindings => 3
  | _ => 1

/-- An equipment: its class and `m_terminals`. -/
structure Equip where
  cls : Cls
  terms : List Nat
  deriving DecidableEq, Repr

/-- A terminal: `m_connectable`, whether it is connected (`BusTerminal::isConnected`), `m_p` and `m_q`. -/
structure Term where
  owner : Option Nat
  connected : Bool
  p : Dbl
  q : Dbl
  deriving DecidableEq, Repr

/-- The objects that are alive, and the next address that was never used. -/
structure Net where
  equips : Nat → Option Equip
  terms : Nat → Option Term
  next : Nat

/-- An empty network. -/
def Net.init : Net := ⟨fun _ => none, fun _ => none, 0⟩

/-- `Connectable::addTerminal` (Connectable.cpp l.30-35) for each terminal the adder made, the equipment being at address
    `next` and its terminals after it.  The powers are NaN (Terminal.cpp l.26-31). -/
def Net.add (n : Net) (c : Cls) (connected : Bool) : Net :=
  { equips := fun a => if a = n.next then some ⟨c, (List.range c.arity).map (fun i => n.next + 1 + i)⟩ else n.equips a
    terms := fun a => if n.next < a ∧ a ≤ n.next + c.arity then some ⟨some n.next, connected, .nan, .nan⟩ else n.terms a
    next := n.next + 1 + c.arity }

/-- `m_connectable.get()`: a null reference throws (reference.hpp l.73-78), a dangling one is undefined. -/
def Net.connectable (n : Net) (t : Nat) : Out (Nat × Equip) :=
  match n.terms t with
  | none => .ub
  | some x =>
    match x.owner with
    | none => .thrown
    | some e =>
      match n.equips e with
      | none => .ub
      | some q => .ok (e, q)

/-- The terminal at `t` is replaced. -/
def Net.put (n : Net) (t : Nat) (x : Term) : Net :=
  { n with terms := fun a => if a = t then some x else n.terms a }

/-- `Terminal::setP` (Terminal.cpp l.108-121). -/
def Net.setP (n : Net) (t : Nat) (p : Dbl) : Out Unit × Net :=
  match n.connectable t, n.terms t with
  | .ok (_, q), some x =>
    if q.cls.type = .busbarSection then (.thrown, n)
    else if p.isNan = false ∧ q.cls.type = .shunt then (.thrown, n)
    else (.ok (), n.put t { x with p := p })
  | .thrown, _ => (.thrown, n)
  | _, _ => (.ub, n)

/-- `Terminal::setQ` (Terminal.cpp l.123-133). -/
def Net.setQ (n : Net) (t : Nat) (q : Dbl) : Out Unit × Net :=
  match n.connectable t, n.terms t with
  | .ok (_, e), some x =>
    if e.cls.type = .busbarSection then (.thrown, n)
    else (.ok (), n.put t { x with q := q })
  | .thrown, _ => (.thrown, n)
  | _, _ => (.ub, n)

/-- `BusTerminal::setConnected`, as `connect` and `disconnect` of a bus/breaker voltage level do (BusBreakerVoltageLevel.cpp
    l.88-106 and l.122-137); other effects are the subject of C23 to C25. -/
def Net.setConnected (n : Net) (t : Nat) (b : Bool) : Out Unit × Net :=
  match n.terms t with
  | some x => (.ok (), n.put t { x with connected := b })
  | none => (.ub, n)

/-- `Connectable::remove` (Connectable.cpp l.95-104): the index destroys the equipment and its terminals with it.  The
    caller must hold a live object. -/
def Net.remove (n : Net) (e : Nat) : Out Unit × Net :=
  match n.equips e with
  | none => (.ub, n)
  | some q => (.ok (), { n with
      equips := fun a => if a = e then none else n.equips a
      terms := fun a => if a ∈ q.terms then none else n.terms a })

/-- A side of a branch or of a three windings transformer. -/
inductive Side
  | one | two | three
  deriving DecidableEq, Repr

/-- `Branch::getSide` (Branch.cpp l.242-251); `at` throws out of range. -/
def branchSide (e : Equip) (t : Nat) : Out Side :=
  match e.terms[0]? with
  | none => .thrown
  | some a =>
    if t = a then .ok .one
    else
      match e.terms[1]? with
      | none => .thrown
      | some b => if t = b then .ok .two else .thrown

/-- `ThreeWindingsTransformer::getSide` (ThreeWindingsTransformer.cpp l.102-113), the terminal of a leg being
    `m_terminals.at(m_legNumber - 1)` (ThreeWindingsTransformerLeg.cpp l.112-118). -/
def legSide (e : Equip) (t : Nat) : Out Side :=
  match e.terms[0]? with
  | none => .thrown
  | some a =>
    if a = t then .ok .one
    else
      match e.terms[1]? with
      | none => .thrown
      | some b =>
        if b = t then .ok .two
        else
          match e.terms[2]? with
          | none => .thrown
          | some c => if c = t then .ok .three else .thrown

/-- A call of a method of a `TopologyVisitor` (TopologyVisitor.hpp), with the equipment given to it. -/
inductive Call
  | busbarSection (e : Nat)
  | line (e : Nat) (s : Side)
  | twoWindings (e : Nat) (s : Side)
  | threeWindings (e : Nat) (s : Side)
  | generator (e : Nat)
  | battery (e : Nat)
  | load (e : Nat)
  | shunt (e : Nat)
  | danglingLine (e : Nat)
  | svc (e : Nat)
  | station (e : Nat)
  deriving DecidableEq, Repr

/-- `dynamic_cast<const T&>`: throws `std::bad_cast` when the object is not one. -/
def castTo (q : Equip) (ty : Ty) : Out Unit := if q.cls.isA ty then .ok () else .thrown

/-- The body of the loop of `TopologyVisitor::visitEquipments` (TopologyVisitor.cpp l.42-96): the method called for a
    terminal.  The `default` cannot be taken by a type that has a name. -/
def callOf (n : Net) (t : Nat) : Out Call :=
  (n.connectable t).bind fun (e, q) =>
    match q.cls.type with
    | .busbarSection => (castTo q .busbarSection).bind fun _ => .ok (.busbarSection e)
    | .line => (castTo q .line).bind fun _ => (branchSide q t).map (.line e)
    | .generator => (castTo q .generator).bind fun _ => .ok (.generator e)
    | .battery => (castTo q .battery).bind fun _ => .ok (.battery e)
    | .shunt => (castTo q .shunt).bind fun _ => .ok (.shunt e)
    | .twoWindings => (castTo q .twoWindings).bind fun _ => (branchSide q t).map (.twoWindings e)
    | .threeWindings => (castTo q .threeWindings).bind fun _ => (legSide q t).map (.threeWindings e)
    | .load => (castTo q .load).bind fun _ => .ok (.load e)
    | .danglingLine => (castTo q .danglingLine).bind fun _ => .ok (.danglingLine e)
    | .svc => (castTo q .svc).bind fun _ => .ok (.svc e)
    | .station => (castTo q .station).bind fun _ => .ok (.station e)

/-- `TopologyVisitor::visitEquipments` (TopologyVisitor.cpp l.41-97) with any visitor, that has a state and may throw.  The
    visitor is given constant objects and does not change the network. -/
def visitEquipments {σ : Type} (n : Net) (v : Call → σ → Out σ) : List Nat → σ → Out σ
  | [], s => .ok s
  | t :: ts, s => (callOf n t).bind fun c => (v c s).bind fun s' => visitEquipments n v ts s'

/-- `Connectable::getTerminal(index)` (Connectable.cpp l.69-75). -/
def Net.terminalOf (n : Net) (e : Nat) (k : Nat) : Out Nat :=
  match n.equips e with
  | none => .ub
  | some q =>
    match q.terms[k]? with
    | none => .thrown
    | some t => .ok t

/-- `Branch::getTerminal(side)` (Branch.cpp l.253-264). -/
def Net.branchTerminal (n : Net) (e : Nat) : Side → Out Nat
  | .one => n.terminalOf e 0
  | .two => n.terminalOf e 1
  | .three => .thrown

/-- The terminal that each method of `AbstractTerminalTopologyVisitor` gives to `visitTerminal`
    (AbstractTerminalTopologyVisitor.cpp l.28-93, Injection.cpp l.18-20). -/
def Net.visited (n : Net) : Call → Out Nat
  | .busbarSection e => n.terminalOf e 0
  | .line e s => n.branchTerminal e s
  | .twoWindings e s => n.branchTerminal e s
  | .threeWindings e .one => n.terminalOf e 0
  | .threeWindings e .two => n.terminalOf e 1
  | .threeWindings e .three => n.terminalOf e 2
  | .generator e => n.terminalOf e 0
  | .battery e => n.terminalOf e 0
  | .load e => n.terminalOf e 0
  | .shunt e => n.terminalOf e 0
  | .danglingLine e => n.terminalOf e 0
  | .svc e => n.terminalOf e 0
  | .station e => n.terminalOf e 0

/-- An `AbstractTerminalTopologyVisitor` with the given `visitTerminal`. -/
def terminalVisitor {σ : Type} (n : Net) (f : Nat → σ → Out σ) (c : Call) (s : σ) : Out σ :=
  (n.visited c).bind fun t => f t s

/-- The three kinds of bus.  A merged bus is the list of its configured buses; `valid` is `m_valid`. -/
inductive Bus
  | calculated (valid : Bool) (terms : List Nat)
  | configured (terms : List Nat)
  | merged (valid : Bool) (buses : List (List Nat))
  deriving DecidableEq, Repr

/-- `ConfiguredBus::getConnectedTerminals` (ConfiguredBus.cpp l.101-123). -/
def Net.filterConnected (n : Net) : List Nat → Out (List Nat)
  | [] => .ok []
  | t :: ts =>
    match n.terms t with
    | none => .ub
    | some x => (n.filterConnected ts).map fun r => if x.connected then t :: r else r

/-- The flattened range of a merged bus (MergedBus.cpp l.77-95). -/
def Net.flatConnected (n : Net) : List (List Nat) → Out (List Nat)
  | [] => .ok []
  | b :: bs => (n.filterConnected b).bind fun r => (n.flatConnected bs).map fun s => r ++ s

/-- `getConnectedTerminals` (CalculatedBus.cpp l.83-97, ConfiguredBus.cpp l.101-123, MergedBus.cpp l.77-95). -/
def Net.connectedTerminals (n : Net) : Bus → Out (List Nat)
  | .calculated valid ts => if valid then .ok ts else .thrown
  | .configured ts => n.filterConnected ts
  | .merged valid bs => if valid then n.flatConnected bs else .thrown

/-- `ConfiguredBus::getConnectedTerminalCount` (ConfiguredBus.cpp l.88-99), `count` so far. -/
def Net.countConnected (n : Net) : List Nat → Nat → Out Nat
  | [], count => .ok count
  | t :: ts, count =>
    match n.terms t with
    | none => .ub
    | some x => n.countConnected ts (if x.connected then count + 1 else count)

/-- `MergedBus::getConnectedTerminalCount` (MergedBus.cpp l.66-75), `count` so far. -/
def Net.countMerged (n : Net) : List (List Nat) → Nat → Out Nat
  | [], count => .ok count
  | b :: bs, count => (n.countConnected b 0).bind fun k => n.countMerged bs (count + k)

/-- `getConnectedTerminalCount` (CalculatedBus.cpp l.77-81, ConfiguredBus.cpp l.88-99, MergedBus.cpp l.66-75). -/
def Net.connectedCount (n : Net) : Bus → Out Nat
  | .calculated valid ts => if valid then .ok ts.length else .thrown
  | .configured ts => n.countConnected ts 0
  | .merged valid bs => if valid then n.countMerged bs 0 else .thrown

/-- `filtered(Terminal::isInstanceOf<T>) | transformed(Terminal::map<T>)` (Terminal.hxx l.20-29). -/
def Net.allOf (n : Net) (ty : Ty) : List Nat → Out (List Nat)
  | [] => .ok []
  | t :: ts =>
    match n.terms t with
    | none => .ub
    | some x =>
      match x.owner with
      | none => n.allOf ty ts
      | some e =>
        match n.equips e with
        | none => .ub
        | some q => if q.cls.isA ty then (n.allOf ty ts).map (e :: ·) else n.allOf ty ts

/-- `Bus::getAll<T>` (Bus.cpp l.37-45). -/
def Net.getAll (n : Net) (ty : Ty) (b : Bus) : Out (List Nat) := (n.connectedTerminals b).bind (n.allOf ty)

/-- The listings of `Bus`: `getBatteries`, `getDanglingLines`, `getGenerators`, `getLccConverterStations`, `getLines`,
    `getLoads`, `getShuntCompensators`, `getStaticVarCompensators`, `getThreeWindingsTransformers`,
    `getTwoWindingsTransformers`, `getVscConverterStations` (Bus.cpp l.47-93 and l.167-205). -/
def listings : List Ty :=
  [.battery, .danglingLine, .generator, .lcc, .line, .load, .shunt, .svc, .threeWindings, .twoWindings, .vsc]

/-- The types that `Bus::getP` adds up (Bus.cpp l.110-130). -/
def CType.inP : CType → Bool
  | .busbarSection => false
  | .shunt => false
  | .svc => false
  | .line => false
  | .twoWindings => false
  | .threeWindings => false
  | .danglingLine => false
  | .generator => true
  | .battery => true
  | .load => true
  | .station => true

/-- The types that `Bus::getQ` adds up (Bus.cpp l.142-162). -/
def CType.inQ : CType → Bool
  | .busbarSection => false
  | .line => false
  | .twoWindings => false
  | .threeWindings => false
  | .danglingLine => false
  | .generator => true
  | .battery => true
  | .load => true
  | .shunt => true
  | .svc => true
  | .station => true

/-- The loop of `Bus::getP` and `Bus::getQ`: `add` is the addition of the machine. -/
def Net.sumLoop (n : Net) (add : Dbl → Dbl → Dbl) (kind : CType → Bool) (value : Term → Dbl) : List Nat → Dbl → Out Dbl
  | [], acc => .ok acc
  | t :: ts, acc =>
    (n.connectable t).bind fun (_, q) =>
      match n.terms t with
      | none => .ub
      | some x =>
        if kind q.cls.type then
          if (value x).isNan then n.sumLoop add kind value ts acc
          else n.sumLoop add kind value ts (add acc (value x))
        else n.sumLoop add kind value ts acc

/-- `Bus::getP` (Bus.cpp l.103-133). -/
def Net.getP (n : Net) (add : Dbl → Dbl → Dbl) (b : Bus) : Out Dbl :=
  (n.connectedCount b).bind fun k =>
    if k = 0 then .ok .nan else (n.connectedTerminals b).bind fun ts => n.sumLoop add CType.inP Term.p ts 0

/-- `Bus::getQ` (Bus.cpp l.135-165). -/
def Net.getQ (n : Net) (add : Dbl → Dbl → Dbl) (b : Bus) : Out Dbl :=
  (n.connectedCount b).bind fun k =>
    if k = 0 then .ok .nan else (n.connectedTerminals b).bind fun ts => n.sumLoop add CType.inQ Term.q ts 0

/-- `Bus::visitConnectedEquipments` (Bus.cpp l.223-225). -/
def Net.visitConnected {σ : Type} (n : Net) (v : Call → σ → Out σ) (b : Bus) (s : σ) : Out σ :=
  (n.connectedTerminals b).bind fun ts => visitEquipments n v ts s

/-- The loop of `MergedBus::visitConnectedOrConnectableEquipments` (MergedBus.cpp l.185-190). -/
def visitMerged {σ : Type} (n : Net) (v : Call → σ → Out σ) : List (List Nat) → σ → Out σ
  | [], s => .ok s
  | b :: bs, s => (visitEquipments n v b s).bind (visitMerged n v bs)

/-- `visitConnectedOrConnectableEquipments` (CalculatedBus.cpp l.163-166, ConfiguredBus.cpp l.214-217, MergedBus.cpp l.185-190).
    A calculated bus does not check that it is valid; `invalidate` has emptied its list (CalculatedBus.cpp l.124-129). -/
def Net.visitAll {σ : Type} (n : Net) (v : Call → σ → Out σ) (b : Bus) (s : σ) : Out σ :=
  match b with
  | .calculated _ ts => visitEquipments n v ts s
  | .configured ts => visitEquipments n v ts s
  | .merged valid bs => if valid then visitMerged n v bs s else .thrown

/-- A call that changes the network. -/
inductive Op
  | add (c : Cls) (connected : Bool)
  | setP (t : Nat) (p : Dbl)
  | setQ (t : Nat) (q : Dbl)
  | setConnected (t : Nat) (b : Bool)
  | remove (e : Nat)
  deriving DecidableEq, Repr

/-- One call. -/
def step (n : Net) : Op → Out Unit × Net
  | .add c b => (.ok (), n.add c b)
  | .setP t p => n.setP t p
  | .setQ t q => n.setQ t q
  | .setConnected t b => n.setConnected t b
  | .remove e => n.remove e

/-- The networks made by calls that are defined. -/
inductive Reach : Net → Prop
  | init : Reach Net.init
  | step {n : Net} (op : Op) : Reach n → (step n op).1 ≠ .ub → Reach (step n op).2

end Verif.BusEquip
