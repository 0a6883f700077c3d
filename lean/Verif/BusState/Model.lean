import Verif.NodeBreaker.Model
import Verif.Graph.Stateful
import Verif.Common.Dbl

/-!
Model of the voltage and of the angle of a bus: `CalculatedBus` (CalculatedBus.cpp), `ConfiguredBus` (ConfiguredBus.cpp),
`MergedBus` (MergedBus.cpp), and of the terminals that keep them in a node/breaker voltage level (NodeTerminal.cpp).

Terminals and configured buses are named by numbers.  The vectors indexed by the variant are functions of the variant; the
working variant is a parameter, and is assumed to be one of the network.
-/

namespace Verif.BusState

open Verif Verif.Graph Verif.NodeBreaker

/-- The vectors `m_v` and `m_angle` of the terminals (NodeTerminal.cpp l.24-25) and of the configured buses
    (ConfiguredBus.cpp l.35-36): object, variant, value. -/
structure St where
  tv : Nat → Nat → Dbl
  ta : Nat → Nat → Dbl
  bv : Nat → Nat → Dbl
  ba : Nat → Nat → Dbl

/-- The three classes of buses.  A calculated bus keeps its terminals and its reference terminal (CalculatedBus.hpp), a
    merged bus its configured buses in order of insertion (MergedBus.hpp). -/
inductive Bus where
  | calculated (valid : Bool) (terminals : List Nat) (ref : Option Nat)
  | conf (bus : Nat)
  | merged (valid : Bool) (buses : List Nat)
  deriving DecidableEq, Repr

/-- Writes a value in a vector of an object. -/
def put (f : Nat → Nat → Dbl) (o w : Nat) (x : Dbl) : Nat → Nat → Dbl :=
  fun o' w' => if o' = o ∧ w' = w then x else f o' w'

/-- `checkVoltage` (ValidationUtils.cpp l.400-405). -/
def checkVoltage (x : Dbl) : Out Unit := if !x.isNan && x.lt (.fin 0) then .thrown else .ok ()

/-- `NodeTerminal::setV` (NodeTerminal.cpp l.130-136). -/
def termSetV (w : Nat) (x : Dbl) (s : St) (t : Nat) : Out Unit × St :=
  match checkVoltage x with
  | .ok _ => (.ok (), { s with tv := put s.tv t w x })
  | .thrown => (.thrown, s)
  | .ub => (.ub, s)

/-- `NodeTerminal::setAngle` (NodeTerminal.cpp l.112-116). -/
def termSetAngle (w : Nat) (x : Dbl) (s : St) (t : Nat) : Out Unit × St := (.ok (), { s with ta := put s.ta t w x })

/-- `ConfiguredBus::setV` (ConfiguredBus.cpp l.206-212). -/
def confSetV (w : Nat) (x : Dbl) (s : St) (b : Nat) : Out Unit × St :=
  match checkVoltage x with
  | .ok _ => (.ok (), { s with bv := put s.bv b w x })
  | .thrown => (.thrown, s)
  | .ub => (.ub, s)

/-- `ConfiguredBus::setAngle` (ConfiguredBus.cpp l.190-194). -/
def confSetAngle (w : Nat) (x : Dbl) (s : St) (b : Nat) : Out Unit × St := (.ok (), { s with ba := put s.ba b w x })

/-- A loop over references; an exception leaves it. -/
def each (f : St → Nat → Out Unit × St) : List Nat → St → Out Unit × St
  | [], s => (.ok (), s)
  | o :: os, s =>
    match f s o with
    | (.ok _, s') => each f os s'
    | (.thrown, s') => (.thrown, s')
    | (.ub, s') => (.ub, s')

/-- `setV` of a bus (CalculatedBus.cpp `setV`, ConfiguredBus.cpp l.206-212, MergedBus.cpp `setV`). -/
def setV (s : St) (w : Nat) (b : Bus) (x : Dbl) : Out Unit × St :=
  match b with
  | .calculated valid ts _ => if valid then each (termSetV w x) ts s else (.thrown, s)
  | .conf c => confSetV w x s c
  | .merged valid bs => if valid then each (confSetV w x) bs s else (.thrown, s)

/-- `setAngle` of a bus (CalculatedBus.cpp l.131-138, ConfiguredBus.cpp l.190-194, MergedBus.cpp `setAngle`). -/
def setAngle (s : St) (w : Nat) (b : Bus) (x : Dbl) : Out Unit × St :=
  match b with
  | .calculated valid ts _ => if valid then each (termSetAngle w x) ts s else (.thrown, s)
  | .conf c => confSetAngle w x s c
  | .merged valid bs => if valid then each (confSetAngle w x) bs s else (.thrown, s)

/-- The loops of `MergedBus::getV` and `MergedBus::getAngle`: the first value that is a number. -/
def firstKnown (f : Nat → Dbl) : List Nat → Dbl
  | [] => .nan
  | b :: bs => if !(f b).isNan then f b else firstKnown f bs

/-- `getV` of a bus (CalculatedBus.cpp `getV`, ConfiguredBus.cpp l.155-157, MergedBus.cpp `getV`, which does not check the
    validity). -/
def getV (s : St) (w : Nat) : Bus → Out Dbl
  | .calculated valid _ ref =>
    if valid then .ok (match ref with | some t => s.tv t w | none => .nan) else .thrown
  | .conf c => .ok (s.bv c w)
  | .merged _ bs => .ok (firstKnown (fun b => s.bv b w) bs)

/-- `getAngle` of a bus (CalculatedBus.cpp l.60-64, ConfiguredBus.cpp l.74-76, MergedBus.cpp `getAngle`). -/
def getAngle (s : St) (w : Nat) : Bus → Out Dbl
  | .calculated valid _ ref =>
    if valid then .ok (match ref with | some t => s.ta t w | none => .nan) else .thrown
  | .conf c => .ok (s.ba c w)
  | .merged valid bs => if valid then .ok (firstKnown (fun b => s.ba b w) bs) else .thrown

/-- `invalidate` (CalculatedBus.cpp l.124-129, MergedBus.cpp `invalidate`); a configured bus has none. -/
def invalidate : Bus → Bus
  | .calculated _ _ _ => .calculated false [] none
  | .conf c => .conf c
  | .merged _ _ => .merged false []

/-! ### The reference terminal of a calculated bus -/

/-- `graph.getVertexObject` (NodeBreakerVoltageLevel.cpp l.302-304). -/
def terminalAt (g : Gr) (node : Nat) : Out (Option Term) :=
  match g.vertexAt node with
  | some o => .ok o
  | none => .thrown

/-- The traverser of `findTerminal` (CalculatedBus.cpp l.44-54) behind `NodeBreakerView::traverse`
    (NodeBreakerVoltageLevelViews.cpp l.314-320), which asks the graph for the switch of the edge. -/
def refCb (g : Gr) (opened : Nat → Bool) (found : Option Term) (_n1 e n2 : Nat) : Out (Option Term × Bool) :=
  match g.edgeAt e with
  | none => .thrown
  | some ed =>
    match found with
    | some t => .ok (some t, false)
    | none =>
      if (match ed.obj with | some sw => opened sw.handle | none => false) then .ok (none, false)
      else (terminalAt g n2).bind fun r => .ok (r, r.isNone)

/-- `findTerminal` (CalculatedBus.cpp l.37-58).  `nodes.front()` of an empty vector is undefined behaviour. -/
def findTerminal (g : Gr) (opened : Nat → Bool) (nodes : List Nat) (terminals : List Term) : Out (Option Term) :=
  match terminals with
  | t :: _ => .ok (some t)
  | [] =>
    match nodes with
    | [] => .ub
    | v :: _ => g.sTraverse (refCb g opened) none v

/-- The constructor of a calculated bus (CalculatedBus.cpp l.24-29). -/
def construct (g : Gr) (opened : Nat → Bool) (b : NodeBreaker.Bus) : Out Bus :=
  (findTerminal g opened b.nodes b.terminals).map fun r => .calculated true (b.terminals.map Term.handle) (r.map Term.handle)

/-- The constructor of a merged bus (MergedBus.cpp l.25-32). -/
def merge (buses : List Nat) : Out Bus := if buses.isEmpty then .thrown else .ok (.merged true buses)

end Verif.BusState
