import Verif.XmlOld.Spec
import Verif.XmlOld.NetModel

/-!
What an export of a network in each version of IIDM-XML keeps, and what it reports that it does not keep: what `Verif.XmlOld.Spec` says of an equipment,
for the rest of a network.  One clause per version; nothing here uses the comparisons of versions, the readers or the writers.
-/

namespace Verif.XmlOld

open Verif Verif.Xml Verif.XmlNet

/-! ### What changes only as an identifiable -/

def keptLoad (v : Ver) (x : Load) : Load := { x with ident := keptIdent v x.ident }
def keptGen (v : Ver) (x : Gen) : Gen := { x with ident := keptIdent v x.ident }
def keptBat (v : Ver) (x : Bat) : Bat := { x with ident := keptIdent v x.ident }
def keptLcc (v : Ver) (x : Lcc) : Lcc := { x with ident := keptIdent v x.ident }
def keptVsc (v : Ver) (x : Vsc) : Vsc := { x with ident := keptIdent v x.ident }
def keptHvdc (v : Ver) (x : HvdcLine) : HvdcLine := { x with ident := keptIdent v x.ident }
def keptBus (v : Ver) (x : Bus) : Bus := { x with ident := keptIdent v x.ident }

/-! ### Switches -/

/-- Switches had a flag of their own before version 1.2: it is kept in all versions. -/
def keptSwitch (v : Ver) (x : Ident) : Ident := { keptIdent v x with head := x.head }

def keptNSw (v : Ver) (x : NSw) : NSw := { x with ident := keptSwitch v x.ident }
def keptBSw (v : Ver) (x : BSw) : BSw := { x with ident := keptSwitch v x.ident }

/-! ### Shunt compensators -/

/-- The susceptance of the sections in service of a non linear model. -/
def inService (ss : List Shunt.Section) : Nat → Dbl
  | 0 => 0
  | n + 1 => ((ss[n]?).map fun s => s.b).getD 0

/-- Models came with version 1.3: before, a shunt compensator has sections of one susceptance without conductance; a non linear one is seen as a single section,
in service, of its current susceptance. -/
def keptModel : Ver → Shunt.Model → Nat → Shunt.Model × Nat
  | .v15, m, n => (m, n)
  | .v14, m, n => (m, n)
  | .v13, m, n => (m, n)
  | _, .linear b _ max, n => (.linear b .nan max, n)
  | _, .nonLinear ss, n => (.linear (inService ss n) .nan 1, 1)

/-- The voltage regulation came with version 1.2. -/
def keptPer : Ver → Shunt.Per → Shunt.Per
  | .v10, p => ⟨p.count, false, .nan, .nan⟩
  | .v11, p => ⟨p.count, false, .nan, .nan⟩
  | _, p => p

def keptShReg : Ver → Option Ref → Option Ref
  | .v10, _ => none
  | .v11, _ => none
  | _, r => r

def keptSh (v : Ver) (x : Sh) : Sh :=
  ⟨keptIdent v x.ident, (keptModel v x.model x.per.count).1, { keptPer v x.per with count := (keptModel v x.model x.per.count).2 }, x.term, keptShReg v x.reg⟩

def lostModel : Ver → Shunt.Model → List String
  | .v10, .nonLinear _ => ["shuntNonLinearModel"]
  | .v11, .nonLinear _ => ["shuntNonLinearModel"]
  | .v12, .nonLinear _ => ["shuntNonLinearModel"]
  | _, _ => []

def lostPer : Ver → Shunt.Per → List String
  | .v10, p => (if p.on then ["voltageRegulatorOn"] else []) ++ (differs "targetV" p.targetV .nan ++ differs "targetDeadband" p.deadband .nan)
  | .v11, p => (if p.on then ["voltageRegulatorOn"] else []) ++ (differs "targetV" p.targetV .nan ++ differs "targetDeadband" p.deadband .nan)
  | _, _ => []

def lostShReg : Ver → Option Ref → List String
  | .v10, r => named "regulatingTerminal" r
  | .v11, r => named "regulatingTerminal" r
  | _, _ => []

def lostSh (v : Ver) (x : Sh) : List String := lostModel v x.model ++ (lostPer v x.per ++ lostShReg v x.reg)

/-! ### Voltage levels -/

/-- Calculated buses came with version 1.1. -/
def keptCalcs : Ver → List Calc → List Calc
  | .v10, _ => []
  | _, l => l

def keptTopo (v : Ver) : Topo → Topo
  | .node bbs sws conns calcs => .node (bbs.map (keptBbs v)) (sws.map (keptNSw v)) conns (keptCalcs v calcs)
  | .bus buses sws => .bus (buses.map (keptBus v)) (sws.map (keptBSw v))

def keptEquip (sub : Dbl → Dbl → Dbl) (v : Ver) (e : Equip) : Equip :=
  ⟨e.gens.map (keptGen v), e.bats.map (keptBat v), e.loads.map (keptLoad v), e.shs.map (keptSh v), e.dls.map (keptDl sub v), e.svcs.map (keptSvc v), e.vscs.map (keptVsc v),
    e.lccs.map (keptLcc v)⟩

def lostEquip (v : Ver) (e : Equip) : List String := e.shs.flatMap (lostSh v) ++ (e.dls.flatMap (lostDl v) ++ e.svcs.flatMap (lostSvc v))

def keptVL (sub : Dbl → Dbl → Dbl) (v : Ver) (x : VL) : VL := { x with ident := keptIdent v x.ident, topo := keptTopo v x.topo, equip := keptEquip sub v x.equip }

/-- Version 1.0 gives the voltage and the angle of the busbar sections. -/
def keptVolts (busbar : Bbs → Dbl × Dbl) : Ver → Topo → List Volt
  | .v10, .node bbs _ _ _ => bbs.map fun b => (b.ident.head.id, busbar b)
  | _, _ => []

/-! ### Substations and networks -/

def keptSubstation (sub : Dbl → Dbl → Dbl) (v : Ver) (x : Substation) : Substation :=
  { x with ident := keptIdent v x.ident, vls := x.vls.map (keptVL sub v), tw2s := x.tw2s.map (keptTw2 v), tw3s := x.tw3s.map (keptTw3 v) }

def lostSubstation (v : Ver) (x : Substation) : List String :=
  x.vls.flatMap (fun y => lostEquip v y.equip) ++ (x.tw2s.flatMap (fun y => lostBranch v y.lims) ++ x.tw3s.flatMap (lostTw3 v))

def keptAnyLine (v : Ver) : AnyLine → AnyLine
  | .line x => .line (keptLine v x)
  | .tie x => .tie (keptTie v x)

def lostAnyLine (v : Ver) : AnyLine → List String
  | .line x => lostBranch v x.lims
  | .tie x => lostBranch v x.lims

/-- The flag of the network is not kept, in any version. -/
def keptNet {T : Type} (sub : Dbl → Dbl → Dbl) (v : Ver) (x : Net T) : Net T :=
  { x with ident := { keptIdent v x.ident with head := { x.ident.head with fictitious := false } }, subs := x.subs.map (keptSubstation sub v), lines := x.lines.map (keptAnyLine v), hvdcs := x.hvdcs.map (keptHvdc v) }

def lostNet {T : Type} (v : Ver) (x : Net T) : List String := x.subs.flatMap (lostSubstation v) ++ x.lines.flatMap (lostAnyLine v)

/-- Until version 1.4, the flows at the boundary of a tie line are compared with those that are computed. -/
def keptFlow (flow : TieLine → Xnode) (v : Ver) : AnyLine → List (String × Xnode)
  | .line _ => []
  | .tie x => match keptXnode v (flow x) with
    | none => []
    | some b => [(x.ident.head.id, b)]

/-- All that is read of the document of a network. -/
def keptAll {T : Type} (E : Env) (v : Ver) (x : Net T) : ReadNet T :=
  ⟨keptNet E.sub v x, x.subs.flatMap fun s => s.vls.flatMap fun y => keptVolts E.busbar v y.topo, x.lines.flatMap (keptFlow E.flow v)⟩

end Verif.XmlOld
