import Verif.Xml.Stream
import Verif.Xml.Version
import Verif.Limits.Model
import Verif.Curve.Model
import Verif.Shunt.Model
import Verif.Enums.Tables
import Verif.Index.Model
import Verif.PropMap.Model

/-!
Writers and readers of parts of a network: loading limits, reactive limits, shunt compensators, switches, internal connections,
aliases and properties.

Modelled code (`src/iidm/converter/xml` and `include/powsybl/iidm/converter/xml`):
* `AbstractConnectableXml.hxx` l. 43-63, 170-186
* `ReactiveLimitsXml.cpp` l. 31-93
* `ShuntCompensatorXml.cpp` l. 38-60, 68-112, 132-182, except terminal, regulating terminal, p and q
* `AbstractSwitchXml.hxx` l. 31-45, `NodeBreakerViewSwitchXml.cpp` l. 27-50, `BusBreakerViewSwitchXml.cpp` l. 32-53
* `NodeBreakerViewInternalConnectionXml.cpp` l. 30-41
* `AbstractIdentifiableXml.hxx` l. 34-92, `AliasesXml.cpp` l. 28-49, `PropertiesXml.cpp` l. 25-39

The anonymizer of the context is a pair of functions (`Verif.Anonymizer` says when the second inverts the first).
-/

namespace Verif.Xml

open Verif

/-- `context.getAnonymizer()`. -/
structure Anon where
  anon : String → String
  dean : String → Out String

/-- The name is given back. -/
def Anon.Inverts (A : Anon) (s : String) : Prop := A.dean (A.anon s) = .ok s

/-- No anonymization (`FakeAnonymizer`). -/
def Anon.none : Anon := ⟨id, .ok⟩

/-! ### Loading limits -/

/-- The largest double. -/
def dblMax : Dbl := .fin Dbl.maxRat

/-- The largest `unsigned long`. -/
def ulongMax : Nat := 2 ^ 64 - 1

/-- Attributes of a temporary limit, `AbstractConnectableXml.hxx` l. 178-181. -/
def tempAttrs (K : Codec) (t : Limits.TL) : List (String × String) :=
  ("name", t.name) :: (attrOptN K "acceptableDuration" t.duration ulongMax ++ (attrOptD K "value" t.value dblMax ++ attrOptB "fictitious" t.fictitious false))

/-- Loop on the temporary limits, l. 176-183. -/
def tempsCmds (K : Codec) : Limits.TLs → List Cmd
  | [] => []
  | t :: ts => elemCmds "temporaryLimit" (tempAttrs K t) [] ++ tempsCmds K ts

/-- `writeLoadingLimits`, l. 171-186, `el` being the name of the element. -/
def writeLimits (K : Codec) (el : String) (l : Limits.LL) : List Cmd :=
  if !l.permanent.isNan || !l.temps.isEmpty then elemCmds el (attrD K "permanentLimit" l.permanent) (tempsCmds K l.temps) else []

/-- Callback of `readLoadingLimits`, l. 48-61. -/
def limitsCb (K : Codec) : Callback Limits.TLs := fun ts toks =>
  (localName toks).bind fun n =>
  if n = "temporaryLimit" then
    (getS "name" toks).bind fun name =>
    (optNOr K "acceptableDuration" ulongMax toks).bind fun duration =>
    (optDOr K "value" dblMax toks).bind fun value =>
    (optBOr "fictitious" false toks).bind fun fictitious =>
    match Limits.endTemporaryLimit ⟨name, value, some duration, fictitious, false⟩ ts with
    | (.ok _, ts') => .ok (ts', toks)
    | (.thrown, _) => .thrown
    | (.ub, _) => .ub
  else .ok (ts, toks)

/-- `readLoadingLimits`, l. 44-63. -/
def readLimits (K : Codec) (el : String) (toks : List Tok) : Out (Limits.LL × List Tok) :=
  (optDOr K "permanentLimit" .nan toks).bind fun permanent =>
  (readUntilEnd (limitsCb K) el [] toks).bind fun r =>
  (Limits.add permanent r.1).map fun l => (l, r.2)

/-! ### Reactive limits -/

/-- What a `ReactiveLimitsHolder` holds. -/
inductive Reactive
  | minMax (min max : Dbl)
  | curve (pts : List Curve.Pt)
  deriving DecidableEq, Repr

/-- Attributes of a point, `ReactiveLimitsXml.cpp` l. 72-74. -/
def ptAttrs (K : Codec) (x : Curve.Pt) : List (String × String) := attrD K "p" x.p ++ (attrD K "minQ" x.minQ ++ attrD K "maxQ" x.maxQ)

/-- Loop on the points, l. 70-76. -/
def ptsCmds (K : Codec) : List Curve.Pt → List Cmd
  | [] => []
  | x :: xs => elemCmds "point" (ptAttrs K x) [] ++ ptsCmds K xs

/-- `write`, l. 61-93. -/
def writeReactive (K : Codec) : Reactive → List Cmd
  | .minMax a b => elemCmds "minMaxReactiveLimits" (attrD K "minQ" a ++ attrD K "maxQ" b) []
  | .curve pts => elemCmds "reactiveCapabilityCurve" [] (ptsCmds K pts)

/-- Callback of `read`, l. 34-47. -/
def curveCb (K : Codec) : Callback (List Curve.Pt) := fun pts toks =>
  (localName toks).bind fun n =>
  if n = "point" then
    (getD K "p" toks).bind fun p =>
    (getD K "minQ" toks).bind fun minQ =>
    (getD K "maxQ" toks).bind fun maxQ =>
    (Curve.addPoint ⟨p, minQ, maxQ⟩ pts).map fun pts' => (pts', toks)
  else .thrown

/-- `read`, l. 31-59. -/
def readReactive (K : Codec) (toks : List Tok) : Out (Reactive × List Tok) :=
  (localName toks).bind fun n =>
  if n = "reactiveCapabilityCurve" then
    (readUntilEnd (curveCb K) "reactiveCapabilityCurve" [] toks).bind fun r =>
    if r.1.length < 2 then .thrown else .ok (.curve r.1, r.2)
  else if n = "minMaxReactiveLimits" then
    (getD K "minQ" toks).bind fun a =>
    (getD K "maxQ" toks).bind fun b =>
    (Curve.buildMinMax a b).map fun x => (.minMax x.1 x.2, toks)
  else .thrown

/-! ### Shunt compensators -/

/-- Loop on the sections, `ShuntCompensatorXml.cpp` l. 142-147. -/
def sectionsCmds (K : Codec) : List Shunt.Section → List Cmd
  | [] => []
  | s :: ss => elemCmds "section" (attrD K "b" s.b ++ attrD K "g" s.g) [] ++ sectionsCmds K ss

/-- `writeModel`, l. 132-153 (called from version 1.3 on only). -/
def modelCmds (K : Codec) : Shunt.Model → List Cmd
  | .linear b g m => elemCmds "shuntLinearModel" (attrD K "bPerSection" b ++ (attrD K "gPerSection" g ++ attrN K "maximumSectionCount" m)) []
  | .nonLinear ss => elemCmds "shuntNonLinearModel" [] (sectionsCmds K ss)

/-- Attributes until version 1.2, l. 159-167; `getB` of the shunt compensator may throw. -/
def shuntOldAttrs (K : Codec) (m : Shunt.Model) (p : Shunt.Per) : Out (List (String × String)) :=
  match m with
  | .linear b _ max => .ok (attrD K "bPerSection" b ++ (attrN K "maximumSectionCount" max ++ attrN K "currentSectionCount" p.count))
  | .nonLinear _ => (m.getB p.count).map fun b => attrD K "bPerSection" b ++ (attrN K "maximumSectionCount" 1 ++ attrN K "currentSectionCount" 1)

/-- The document and log after some more attributes. -/
def addAttrs (as : List (String × String)) (d : List Cmd) : Out (List Cmd) := .ok (d ++ attrCmds as)

/-- `writeRootElementAttributes`, l. 155-171. -/
def shuntAttrs (K : Codec) (c : Ctx) (m : Shunt.Model) (p : Shunt.Per) (w : Written (List Cmd)) : Out (Written (List Cmd)) :=
  (match m with
    | .nonLinear _ => assertMinimumVersion "shuntNonLinearModel" .v13 c w
    | .linear _ _ _ => .ok w).bind fun w =>
  (runUntilMaximumVersion .v12 c.version (fun w : Written (List Cmd) => (shuntOldAttrs K m p).map fun as => { w with doc := w.doc ++ attrCmds as }) w).bind fun w =>
  (runFromMinimumVersion .v13 c.version (fun w : Written (List Cmd) => .ok { w with doc := w.doc ++ attrCmds (attrN K "sectionCount" p.count) }) w).bind fun w =>
  (writeAttributeFromMinimumVersion "voltageRegulatorOn" (p.on != false) .v12 (addAttrs (attrB "voltageRegulatorOn" p.on)) c w).bind fun w =>
  (writeAttributeFromMinimumVersion "targetV" (!isEqual p.targetV .nan) .v12 (addAttrs (attrD K "targetV" p.targetV)) c w).bind fun w =>
  writeAttributeFromMinimumVersion "targetDeadband" (!isEqual p.deadband .nan) .v12 (addAttrs (attrD K "targetDeadband" p.deadband)) c w

/-- The whole element: start tag, attributes l. 155-171, sub elements l. 176-177, end tag (`AbstractIdentifiableXml.hxx` l. 67, 79, 87, 89). -/
def writeShunt (K : Codec) (c : Ctx) (m : Shunt.Model) (p : Shunt.Per) : Out (Written (List Cmd)) :=
  (shuntAttrs K c m p ⟨[.start "shunt"], []⟩).bind fun w =>
  (runFromMinimumVersion .v13 c.version (fun w : Written (List Cmd) => .ok { w with doc := w.doc ++ modelCmds K m }) w).bind fun w =>
  .ok { w with doc := w.doc ++ [.stop] }

/-- Callback on the sections, l. 94-105. -/
def sectionCb (K : Codec) : Callback (List Shunt.Section) := fun ss toks =>
  (localName toks).bind fun n =>
  if n = "section" then
    (getD K "b" toks).bind fun b =>
    (getD K "g" toks).bind fun g =>
    (Shunt.endSection b g ss).map fun ss' => (ss', toks)
  else .thrown

/-- Callback of `readElement`, l. 68-110; the state is the model of the adder. -/
def shuntCb (K : Codec) (v : Ver) : Callback (Option Shunt.Model) := fun m toks =>
  (localName toks).bind fun n =>
  if n = "shuntLinearModel" then
    (readAssertMinimumVersion .v13 v).bind fun _ =>
    (getD K "bPerSection" toks).bind fun b =>
    (optDOr K "gPerSection" .nan toks).bind fun g =>
    (getN K "maximumSectionCount" toks).bind fun max =>
    (Shunt.buildLinear b g (some max)).map fun m' => (some m', toks)
  else if n = "shuntNonLinearModel" then
    (readAssertMinimumVersion .v13 v).bind fun _ =>
    (readUntilEnd (sectionCb K) "shuntNonLinearModel" [] toks).bind fun r =>
    if r.1.isEmpty then .thrown else .ok (some (.nonLinear r.1), r.2)
  else .thrown

/-- What the adder holds before the sub elements are read. -/
structure ShuntArgs where
  count : Option Nat
  on : Bool
  targetV : Dbl
  deadband : Dbl
  model : Option Shunt.Model

/-- `readElement`, l. 39-46: the regulation of the adder, its defaults being those of the adder (`ShuntCompensatorAdder.hpp`). -/
def readRegulation (K : Codec) (v : Ver) (toks : List Tok) (a : ShuntArgs) : Out ShuntArgs :=
  runFromMinimumVersion .v12 v (fun a =>
    (optBOr "voltageRegulatorOn" false toks).bind fun on =>
    (optDOr K "targetV" .nan toks).bind fun t =>
    (optDOr K "targetDeadband" .nan toks).bind fun d =>
    .ok { a with on := on, targetV := t, deadband := d }) a

/-- `readElement`, l. 47-56. -/
def readOldModel (K : Codec) (v : Ver) (toks : List Tok) (a : ShuntArgs) : Out ShuntArgs :=
  runUntilMaximumVersion .v12 v (fun a =>
    (getD K "bPerSection" toks).bind fun b =>
    (getN K "maximumSectionCount" toks).bind fun max =>
    (getN K "currentSectionCount" toks).bind fun count =>
    (Shunt.buildLinear b .nan (some max)).bind fun m =>
    .ok { a with count := some count, model := some m }) a

/-- `readElement`, l. 57-60. -/
def readCount (K : Codec) (v : Ver) (toks : List Tok) (a : ShuntArgs) : Out ShuntArgs :=
  runFromMinimumVersion .v13 v (fun a => (getN K "sectionCount" toks).bind fun n => .ok { a with count := some n }) a

/-- `readElement`, l. 38-60, 68-112. -/
def readShunt (K : Codec) (v : Ver) (toks : List Tok) : Out ((Shunt.Model × Shunt.Per) × List Tok) :=
  (readRegulation K v toks ⟨none, false, .nan, .nan, none⟩).bind fun a =>
  (readOldModel K v toks a).bind fun a =>
  (readCount K v toks a).bind fun a =>
  (readUntilEnd (shuntCb K v) "shunt" a.model toks).bind fun r =>
  (Shunt.build r.1 a.count a.on a.targetV a.deadband).map fun x => (x, r.2)

/-! ### Identifiables -/

/-- Identifier, name (empty when unset) and fictitious flag. -/
structure Head where
  id : String
  name : String
  fictitious : Bool
  deriving DecidableEq, Repr

/-- `AbstractIdentifiableXml::write`, l. 69-77. -/
def headAttrs (A : Anon) (v : Ver) (h : Head) : List (String × String) :=
  ("id", A.anon h.id) :: ((if h.name ≠ "" then [("name", A.anon h.name)] else []) ++ (if v.ge .v12 then attrOptB "fictitious" h.fictitious false else []))

/-- `AbstractIdentifiableXml::read`, l. 36-43. -/
def readHead (A : Anon) (v : Ver) (toks : List Tok) : Out Head :=
  (getS "id" toks).bind fun i =>
  (A.dean i).bind fun id =>
  (optSOr "name" "" toks).bind fun n =>
  (A.dean n).bind fun name =>
  runFromMinimumVersion .v12 v (fun h => (optBOr "fictitious" false toks).map fun f => { h with fictitious := f }) ⟨id, name, false⟩

/-! ### Switches and internal connections -/

/-- A switch of a node/breaker voltage level, with its nodes. -/
structure NodeSwitch where
  head : Head
  kind : Nat
  retained : Bool
  opened : Bool
  node1 : Nat
  node2 : Nat
  deriving DecidableEq, Repr

/-- A switch of a bus/breaker view, with its buses. -/
structure BusSwitch where
  head : Head
  kind : Nat
  retained : Bool
  opened : Bool
  bus1 : String
  bus2 : String
  deriving DecidableEq, Repr

/-- `AbstractSwitchXml::writeRootElementAttributes`, `AbstractSwitchXml.hxx` l. 38-45. -/
def switchAttrs (v : Ver) (kind : Nat) (retained opened fictitious : Bool) : Out (List (String × String)) :=
  (Enums.toString Enums.switchKind.names kind).map fun k =>
    ("kind", k) :: (attrB "retained" retained ++ (attrB "open" opened ++ (if v.le .v11 then attrOptB "fictitious" fictitious false else [])))

/-- `NodeBreakerViewSwitchXml::write` without aliases nor properties: `AbstractIdentifiableXml.hxx` l. 67-89,
`NodeBreakerViewSwitchXml.cpp` l. 45-50. -/
def writeNodeSwitch (K : Codec) (A : Anon) (v : Ver) (s : NodeSwitch) : Out (List Cmd) :=
  (switchAttrs v s.kind s.retained s.opened s.head.fictitious).map fun as =>
    elemCmds "switch" (headAttrs A v s.head ++ (as ++ (attrN K "node1" s.node1 ++ attrN K "node2" s.node2))) []

/-- The flag read by the switches until version 1.1, `NodeBreakerViewSwitchXml.cpp` l. 31-34. -/
def readOldFictitious (v : Ver) (toks : List Tok) (h : Head) : Out Head :=
  runUntilMaximumVersion .v11 v (fun h => (optBOr "fictitious" false toks).map fun f => { h with fictitious := f }) h

/-- `NodeBreakerViewSwitchXml::read`, `NodeBreakerViewSwitchXml.cpp` l. 27-43: what the adder makes the switch from
(`SwitchAdder.cpp` l. 26-37). -/
def readNodeSwitch (K : Codec) (A : Anon) (v : Ver) (toks : List Tok) : Out NodeSwitch :=
  (readHead A v toks).bind fun h =>
  (getB "open" toks).bind fun o =>
  (getS "kind" toks).bind fun k =>
  (Enums.fromString Enums.switchKind.names k).bind fun kind =>
  (getB "retained" toks).bind fun r =>
  (readOldFictitious v toks h).bind fun h =>
  (getN K "node1" toks).bind fun n1 =>
  (getN K "node2" toks).bind fun n2 =>
  .ok ⟨h, kind, r, o, n1, n2⟩

/-- `BusBreakerViewSwitchXml::write` without aliases nor properties, `BusBreakerViewSwitchXml.cpp` l. 46-53. -/
def writeBusSwitch (A : Anon) (v : Ver) (s : BusSwitch) : Out (List Cmd) :=
  (switchAttrs v s.kind s.retained s.opened s.head.fictitious).map fun as =>
    elemCmds "switch" (headAttrs A v s.head ++ (as ++ [("bus1", A.anon s.bus1), ("bus2", A.anon s.bus2)])) []

/-- `BusBreakerViewSwitchXml::read`, `BusBreakerViewSwitchXml.cpp` l. 32-44; the adder makes a retained breaker
(`SwitchAdder.cpp` l. 67-77, 0 being the rank of `BREAKER`). -/
def readBusSwitch (A : Anon) (v : Ver) (toks : List Tok) : Out BusSwitch :=
  (readHead A v toks).bind fun h =>
  (getB "open" toks).bind fun o =>
  (readOldFictitious v toks h).bind fun h =>
  (getS "bus1" toks).bind fun b1 =>
  (A.dean b1).bind fun bus1 =>
  (getS "bus2" toks).bind fun b2 =>
  (A.dean b2).bind fun bus2 =>
  if bus1 = "" ∨ bus2 = "" then .thrown else .ok ⟨h, 0, true, o, bus1, bus2⟩

/-- `NodeBreakerViewInternalConnectionXml::write`, l. 36-41. -/
def writeConnection (K : Codec) (x : Nat × Nat) : List Cmd := elemCmds "internalConnection" (attrN K "node1" x.1 ++ attrN K "node2" x.2) []

/-- `NodeBreakerViewInternalConnectionXml::read`, l. 30-34: what the adder receives. -/
def readConnection (K : Codec) (toks : List Tok) : Out (Nat × Nat) :=
  (getN K "node1" toks).bind fun a => (getN K "node2" toks).bind fun b => .ok (a, b)

/-! ### Aliases and properties -/

/-- One alias with its type, `AliasesXml.cpp` l. 39-47. -/
def aliasCmds (A : Anon) (v : Ver) (a t : String) : List Cmd :=
  elemCmds "alias" (if v.ge .v14 then (if t ≠ "" then [("type", t)] else []) else []) [.chars (A.anon a)]

/-- Loop of `AliasesXml::write`, l. 38-48. -/
def aliasesCmds (A : Anon) (v : Ver) (o : Index.Obj) : List String → List Cmd
  | [] => []
  | a :: as => aliasCmds A v a (o.aliasType a) ++ aliasesCmds A v o as

/-- `AliasesXml::write`, l. 36-49. -/
def writeAliases (A : Anon) (c : Ctx) (o : Index.Obj) (w : Written (List Cmd)) : Out (Written (List Cmd)) :=
  (assertMinimumVersionIfNotDefault (!o.aliases.isEmpty) "alias" .v13 c w).map fun w => { w with doc := w.doc ++ aliasesCmds A c.version o o.aliases }

/-- Loop of `PropertiesXml::write`, `PropertiesXml.cpp` l. 32-38: `getPropertyNames` and `getProperty` list the entries of the map. -/
def propsCmds : PropMap.Props → List Cmd
  | [] => []
  | (k, x) :: ps => elemCmds "property" [("name", k), ("value", x)] [] ++ propsCmds ps

/-- `AbstractIdentifiableXml::write`, l. 66-89, `attrs` and `sub` being what the class of the identifiable adds. -/
def writeIdentifiable (A : Anon) (c : Ctx) (root : String) (h : Head) (attrs : List (String × String)) (o : Index.Obj) (ps : PropMap.Props)
    (sub : List Cmd) (w : Written (List Cmd)) : Out (Written (List Cmd)) :=
  (runFromMinimumVersion .v13 c.version (writeAliases A c o) { w with doc := w.doc ++ .start root :: attrCmds (headAttrs A c.version h ++ attrs) }).map fun w =>
    { w with doc := w.doc ++ (propsCmds ps ++ (sub ++ [.stop])) }

/-- The identifiable being read: the index of its network, its handle, its properties. -/
structure Target where
  index : Index.State
  uid : Nat
  props : PropMap.Props

/-- `AliasesXml::read`, `AliasesXml.cpp` l. 28-34. -/
def readAlias (A : Anon) (v : Ver) (x : Target) (toks : List Tok) : Out (Target × List Tok) :=
  (runFromMinimumVersion .v14 v (fun _ => optSOr "type" "" toks) "").bind fun t =>
  (readCharacters toks).bind fun r =>
  (A.dean r.1).bind fun a =>
  match Index.addAlias x.index x.uid a t false with
  | (.ok _, i) => .ok ({ x with index := i }, r.2)
  | (.thrown, _) => .thrown
  | (.ub, _) => .ub

/-- `AbstractIdentifiableXml::readSubElements`, l. 54-63. -/
def subCb (A : Anon) (v : Ver) : Callback Target := fun x toks =>
  (localName toks).bind fun n =>
  if n = "property" then
    (getS "name" toks).bind fun k =>
    (getS "value" toks).bind fun val =>
    .ok ({ x with props := (PropMap.set k val x.props).2 }, toks)
  else if n = "alias" then
    (readAssertMinimumVersion .v13 v).bind fun _ => readAlias A v x toks
  else .thrown

end Verif.Xml
