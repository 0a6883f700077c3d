import Verif.XmlOld.Model
import Verif.Xml.ElementsProps

/-!
What an export in each version of IIDM-XML keeps of an equipment, and what it reports that it does not keep.  One clause per version; nothing here
uses the comparisons of versions, the readers or the writers.
-/

namespace Verif.XmlOld

open Verif Verif.Xml Verif.XmlNet

/-! ### Outcomes -/

/-- What a writer does with the behaviour `b` when `lost` cannot be kept: if there is nothing of the kind, or if errors are only logged, it writes `d` and
logs each of them once, in order; otherwise it throws. -/
def Reports {δ : Type} (b : Behaviour) (x : Out (Written (List δ))) (d : List δ) (lost : List String) : Prop :=
  (lost = [] ∨ b = .logError → x = .ok ⟨d, lost.reverse⟩) ∧ (lost ≠ [] → b ≠ .logError → x = .thrown)

/-- The calls write an element that the reader refuses. -/
def Refused {α : Type} (cs : List Cmd) (read : List Tok → Out (α × List Tok)) : Prop :=
  ∀ i : Bool, ∃ ts : List Tok, ts ≠ [] ∧ (∀ w : W, w.stack ≠ [] → wrun i w cs = .ok ⟨w.closed ++ (sp i ++ ts), w.stack, none⟩) ∧ ∀ rest, read (ts ++ rest) = .thrown

/-! ### Identifiables -/

/-- The flag of fictitious equipment came with version 1.2, aliases with 1.3, the types of the aliases with 1.4. -/
def keptIdent : Ver → Ident → Ident
  | .v10, x => ⟨{ x.head with fictitious := false }, [], x.props⟩
  | .v11, x => ⟨{ x.head with fictitious := false }, [], x.props⟩
  | .v12, x => ⟨x.head, [], x.props⟩
  | .v13, x => ⟨x.head, x.aliases.map fun a => (a.1, ""), x.props⟩
  | .v14, x => x
  | .v15, x => x

/-! ### Loading limits -/

/-- Limits on powers came with version 1.5. -/
def keptLims : Ver → Lims → Lims
  | .v15, l => l
  | _, l => ⟨none, none, l.current⟩

def keptBranch (v : Ver) (l : BranchLims) : BranchLims := ⟨keptLims v l.one, keptLims v l.two⟩

/-- The name is reported if there is something to lose. -/
def named {α : Type} (name : String) : Option α → List String
  | none => []
  | some _ => [name]

def lostLims (active apparent : String) : Ver → Lims → List String
  | .v15, _ => []
  | _, l => named active l.active ++ named apparent l.apparent

def lostBranch (v : Ver) (l : BranchLims) : List String := lostLims "activePowerLimits1" "apparentPowerLimits1" v l.one ++ lostLims "activePowerLimits2" "apparentPowerLimits2" v l.two

/-! ### Busbar sections -/

def keptBbs (v : Ver) (x : Bbs) : Bbs := { x with ident := keptIdent v x.ident }

/-- The voltage and the angle are only in version 1.0. -/
def keptVoltage : Ver → Dbl × Dbl → Option (Dbl × Dbl)
  | .v10, va => some va
  | _, _ => none

/-! ### Static VAR compensators -/

def keptSvc (v : Ver) (x : Svc) : Svc := { x with ident := keptIdent v x.ident }

/-- Regulating terminals came with version 1.1. -/
def lostSvc : Ver → Svc → List String
  | .v10, x => named "regulatingTerminal" x.reg
  | _, _ => []

/-! ### Dangling lines -/

/-- The load less the targets of the generation; a target that is not set counts for nothing. -/
def lessGen (sub : Dbl → Dbl → Dbl) (x : Dl) : Dl :=
  match x.gen with
  | none => x
  | some g => { x with gen := none, p0 := if g.targetP.isNan then x.p0 else sub x.p0 g.targetP, q0 := if g.targetQ.isNan then x.q0 else sub x.q0 g.targetQ }

/-- Generations came with version 1.3. -/
def keptDl (sub : Dbl → Dbl → Dbl) : Ver → Dl → Dl
  | .v15, x => x
  | .v14, x => { x with ident := keptIdent .v14 x.ident, active := none, apparent := none }
  | .v13, x => { x with ident := keptIdent .v13 x.ident, active := none, apparent := none }
  | v, x => { lessGen sub x with ident := keptIdent v x.ident, active := none, apparent := none }

def lostDl : Ver → Dl → List String
  | .v15, _ => []
  | .v14, x => named "activePowerLimits" x.active ++ named "apparentPowerLimits" x.apparent
  | .v13, x => named "activePowerLimits" x.active ++ named "apparentPowerLimits" x.apparent
  | _, x => named "generation" x.gen ++ (named "activePowerLimits" x.active ++ named "apparentPowerLimits" x.apparent)

/-! ### Lines and tie lines -/

def keptLine (v : Ver) (x : Line) : Line := { x with ident := keptIdent v x.ident, lims := keptBranch v x.lims }

/-- The flag of the halves came with version 1.3. -/
def keptHalf : Ver → Half → Half
  | .v10, h => { h with fictitious := false }
  | .v11, h => { h with fictitious := false }
  | .v12, h => { h with fictitious := false }
  | _, h => h

def keptTie (v : Ver) (x : TieLine) : TieLine :=
  { x with ident := keptIdent v x.ident, half1 := keptHalf v x.half1, half2 := keptHalf v x.half2, lims := keptBranch v x.lims }

/-- What the reader compares with the computed flows: before version 1.5, the reactive power of the first half stands for that of the second one. -/
def keptXnode : Ver → Xnode → Option Xnode
  | .v15, _ => none
  | _, b => some ⟨b.p1, b.p2, b.q1, b.q1⟩

/-! ### Transformers -/

/-- Before version 1.2, a dead band of 0 is not written, and only a tap changer that regulates gets it back. -/
def keptDeadband : Ver → Bool → Dbl → Dbl
  | .v10, on, d => if on = false ∧ d = 0 then .nan else d
  | .v11, on, d => if on = false ∧ d = 0 then .nan else d
  | _, _, d => d

def keptRtc (v : Ver) (t : Rtc) : Rtc := { t with deadband := keptDeadband v t.on t.deadband }

def keptPtc (v : Ver) (t : Ptc) : Ptc := { t with deadband := keptDeadband v t.on t.deadband }

/-- The rated apparent power came with version 1.2. -/
def keptRatedS : Ver → Dbl → Dbl
  | .v10, _ => .nan
  | .v11, _ => .nan
  | _, s => s

def keptTw2 (v : Ver) (y : Tw2) : Tw2 :=
  { y with ident := keptIdent v y.ident, ratedS := keptRatedS v y.ratedS, rtc := y.rtc.map (keptRtc v), ptc := y.ptc.map (keptPtc v), lims := keptBranch v y.lims }

/-- The shunt admittance of the second and of the third leg came with version 1.1. -/
def keptShunt : Ver → Dbl → Dbl
  | .v10, _ => 0
  | _, d => d

def keptSub (v : Ver) (s : LegSub) : LegSub := ⟨s.rtc.map (keptRtc v), s.ptc.map (keptPtc v), keptLims v s.lims⟩

def keptLeg1 (v : Ver) (y : Leg) : Leg := { y with z := { y.z with ratedS := keptRatedS v y.z.ratedS }, sub := keptSub v y.sub }

def keptLeg (v : Ver) (y : Leg) : Leg := { y with z := { y.z with g := keptShunt v y.z.g, b := keptShunt v y.z.b, ratedS := keptRatedS v y.z.ratedS }, sub := keptSub v y.sub }

/-- The rated voltage of the star point came with version 1.1: before, it is that of the first leg. -/
def keptRatedU0 : Ver → Tw3 → Dbl
  | .v10, y => y.leg1.z.ratedU
  | _, y => y.ratedU0

def keptTw3 (v : Ver) (y : Tw3) : Tw3 :=
  { y with ident := keptIdent v y.ident, leg1 := keptLeg1 v y.leg1, leg2 := keptLeg v y.leg2, leg3 := keptLeg v y.leg3, ratedU0 := keptRatedU0 v y }

/-- A value is reported if it is not the one that the reader assumes. -/
def differs (name : String) (d dflt : Dbl) : List String := if d = dflt then [] else [name]

def lostTw3Values : Ver → Tw3 → List String
  | .v10, y => differs "g2" y.leg2.z.g 0 ++ (differs "b2" y.leg2.z.b 0 ++ (differs "g3" y.leg3.z.g 0 ++ (differs "b3" y.leg3.z.b 0 ++ differs "ratedU0" y.ratedU0 y.leg1.z.ratedU)))
  | _, _ => []

/-- In version 1.0 only the second and the third leg have a tap changer, for the ratio. -/
def lostTw3Taps : Ver → Tw3 → List String
  | .v10, y => named "ratioTapChanger1" y.leg1.sub.rtc ++ (named "phaseTapChanger1" y.leg1.sub.ptc ++ (named "phaseTapChanger2" y.leg2.sub.ptc ++ named "phaseTapChanger3" y.leg3.sub.ptc))
  | _, _ => []

def lostTw3Limits (v : Ver) (y : Tw3) : List String :=
  lostLims "activePowerLimits1" "apparentPowerLimits1" v y.leg1.sub.lims ++ (lostLims "activePowerLimits2" "apparentPowerLimits2" v y.leg2.sub.lims ++
    lostLims "activePowerLimits3" "apparentPowerLimits3" v y.leg3.sub.lims)

def lostTw3 (v : Ver) (y : Tw3) : List String := lostTw3Values v y ++ (lostTw3Taps v y ++ lostTw3Limits v y)

end Verif.XmlOld
