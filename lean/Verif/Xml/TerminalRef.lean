import Verif.Xml.Elements

/-!
References to terminals.

Modelled code: `src/iidm/converter/xml/TerminalRefXml.cpp` l. 33-100, `src/iidm/Branch.cpp` l. 242-264,
`src/iidm/ThreeWindingsTransformer.cpp` l. 102-134, `GeneratorXml.cpp` l. 63-68, 91-94, `ShuntCompensatorXml.cpp` l. 69-71, 113-117,
178-181, `StaticVarCompensatorXml.cpp` l. 58-64, 84-87, `AbstractTransformerXml.hxx` l. 176-183.

A terminal is a number standing for its address.  The end tasks run once the whole network is read
(`NetworkXml.cpp` l. 273-275): `resolve` is applied to the index of the complete network.
-/

namespace Verif.Xml

open Verif

/-- The classes that the code tells apart (`stdcxx::isInstanceOf`). -/
inductive Cls
  | injection | branch | threeWindings | other
  deriving DecidableEq, Repr

/-- A connectable: its class, whether it is a busbar section, its terminals in order of their sides. -/
structure Conn where
  cls : Cls
  busbar : Bool
  terminals : List Nat
  deriving DecidableEq, Repr

/-- `std::vector::at`. -/
def at? (l : List Nat) (i : Nat) : Out Nat :=
  match l[i]? with
  | some t => .ok t
  | none => .thrown

/-- `Branch::getSide`, l. 242-251, as the value of the enumeration. -/
def branchSideOf (c : Conn) (t : Nat) : Out Nat :=
  (at? c.terminals 0).bind fun t0 => if t = t0 then .ok 0 else
  (at? c.terminals 1).bind fun t1 => if t = t1 then .ok 1 else .thrown

/-- `Branch::getTerminal(side)`, l. 253-264. -/
def branchTerminal (c : Conn) (side : Nat) : Out Nat :=
  if side = 0 then at? c.terminals 0 else if side = 1 then at? c.terminals 1 else .thrown

/-- `ThreeWindingsTransformer::getSide`, l. 102-113 (there are always three legs). -/
def twtSideOf (c : Conn) (t : Nat) : Out Nat :=
  (at? c.terminals 0).bind fun t0 => if t0 = t then .ok 0 else
  (at? c.terminals 1).bind fun t1 => if t1 = t then .ok 1 else
  (at? c.terminals 2).bind fun t2 => if t2 = t then .ok 2 else .thrown

/-- `ThreeWindingsTransformer::getTerminal`, l. 123-134. -/
def twtTerminal (c : Conn) (side : Nat) : Out Nat :=
  if side = 0 then at? c.terminals 0 else if side = 1 then at? c.terminals 1 else if side = 2 then at? c.terminals 2 else .thrown

/-- What the writer asks about the export: the bus filter keeps the connectable; the voltage level of the terminal is in node/breaker
topology; the export is at the node/breaker level. -/
structure RefEnv where
  kept : Bool
  nodeBreaker : Bool
  fullLevel : Bool
  deriving DecidableEq, Repr

/-- Attributes written by `writeTerminalRefAttribute`, l. 76-100. -/
def refAttrs (A : Anon) (e : RefEnv) (id : String) (c : Conn) (t : Nat) : Out (List (String × String)) :=
  if !e.kept then .thrown
  else if e.nodeBreaker && !e.fullLevel && c.busbar then .thrown
  else if 1 < c.terminals.length then
    match c.cls with
    | .injection => .ok [("id", A.anon id)]
    | .branch => (branchSideOf c t).bind fun s => (Enums.toString Enums.branchSide.names s).map fun n => [("id", A.anon id), ("side", n)]
    | .threeWindings => (twtSideOf c t).bind fun s => (Enums.toString Enums.threeWindingsTransformerSide.names s).map fun n => [("id", A.anon id), ("side", n)]
    | .other => .thrown
  else .ok [("id", A.anon id)]

/-- `writeTerminalRef`, l. 61-74. -/
def writeRef (A : Anon) (e : RefEnv) (el id : String) (c : Conn) (t : Nat) : Out (List Cmd) :=
  (refAttrs A e id c t).map fun as => elemCmds el as []

/-- What the readers keep for the end task: `GeneratorXml.cpp` l. 64-65 (`required` false), `ShuntCompensatorXml.cpp` l. 70-71,
`StaticVarCompensatorXml.cpp` l. 60-61, `AbstractTransformerXml.hxx` l. 177-178 (`required` true). -/
def readRef (A : Anon) (required : Bool) (toks : List Tok) : Out (String × String) :=
  (if required then getS "id" toks else optSOr "id" "" toks).bind fun i =>
  (A.dean i).bind fun id =>
  (optSOr "side" "" toks).map fun side => (id, side)

/-- `readTerminalRef`, l. 33-51, `conns` giving the connectable behind each handle. -/
def resolve (s : Index.State) (conns : Nat → Conn) (r : String × String) : Out Nat :=
  (Index.find s r.1).bind fun
    | none => .thrown
    | some o =>
      match (conns o.uid).cls with
      | .injection => at? (conns o.uid).terminals 0
      | .branch => (Enums.fromString Enums.branchSide.names r.2).bind (branchTerminal (conns o.uid))
      | .threeWindings => (Enums.fromString Enums.threeWindingsTransformerSide.names r.2).bind (twtTerminal (conns o.uid))
      | .other => .thrown

/-- The ways a regulating terminal is written: generators (always), shunt compensators (from 1.2), static var compensators (from 1.1). -/
inductive Regulated
  | generator | shunt | svc
  deriving DecidableEq, Repr

/-- `GeneratorXml.cpp` l. 92-94, `ShuntCompensatorXml.cpp` l. 178-181, `StaticVarCompensatorXml.cpp` l. 84-87.  `own` is the terminal of
the equipment, an injection: comparing terminals or connectables is the same. -/
def writeRegulating (A : Anon) (c : Ctx) (k : Regulated) (e : RefEnv) (own t : Nat) (id : String) (conn : Conn) (w : Written (List Cmd)) : Out (Written (List Cmd)) :=
  let run : List Cmd → Out (List Cmd) := fun d => (writeRef A e "regulatingTerminal" id conn t).map fun cs => d ++ cs
  match k with
  | .generator => if own = t then .ok w else (run w.doc).map fun d => { w with doc := d }
  | .shunt =>
    if own = t then .ok w
    else (assertMinimumVersion "regulatingTerminal" .v12 c w).bind fun w =>
      runFromMinimumVersion .v12 c.version (fun w : Written (List Cmd) => (run w.doc).map fun d => { w with doc := d }) w
  | .svc => assertMinimumVersionAndRunIfNotDefault (own != t) "regulatingTerminal" .v11 run c w

end Verif.Xml
