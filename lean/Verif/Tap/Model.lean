import Verif.Common.Dbl
import Verif.Common.Multi

/-!
Model of the tap changers (include/powsybl/iidm/TapChanger.hxx, src/iidm/RatioTapChanger.cpp, src/iidm/PhaseTapChanger.cpp), of
their adders and of the transformer that owns them.

Simplifications: `long` is `Int` (no overflow); the electrical values of a step are an abstract type `α`; a reference to a terminal
is a handle with the result of `areSame(terminal.getVoltageLevel().getNetwork(), network)`; references are not followed when the
terminal's equipment is removed; log messages are left out.
-/

namespace Verif.Tap

open Verif

/-- A terminal given as regulation terminal; `sameNet` tells whether its voltage level belongs to the network of the transformer. -/
structure RTerm where
  handle : Nat
  sameNet : Bool
  deriving DecidableEq, Repr

/-- Attributes of `TapChanger` shared by the variants (TapChanger.hpp l.98-102). -/
structure Base (α : Type) where
  low : Int
  steps : List α
  term : Option RTerm
  deriving DecidableEq, Repr

/-- Attributes of `TapChanger` per variant (TapChanger.hpp l.104-108). -/
structure BasePer where
  pos : Int
  regulating : Bool
  deadband : Dbl
  deriving DecidableEq, Repr

/-- `checkTapPosition` (ValidationUtils.cpp l.383-388). -/
def checkTapPosition (pos low high : Int) : Out Unit :=
  if pos < low ∨ pos > high then .thrown else .ok ()

/-- `checkTargetDeadband` (ValidationUtils.cpp l.390-398). -/
def checkTargetDeadband (regulating : Bool) (d : Dbl) : Out Unit :=
  if regulating && d.isNan then .thrown
  else if Dbl.lt d 0 then .thrown
  else .ok ()

/-- `getHighTapPosition` (TapChanger.hxx l.88-90). -/
def Base.high (b : Base α) : Int := b.low + b.steps.length - 1

/-- `getStep` (TapChanger.hxx l.128-137); the index of the vector is not checked by `operator[]`. -/
def Base.getStep (b : Base α) (pos : Int) : Out α :=
  (checkTapPosition pos b.low b.high).bind fun _ =>
    if pos - b.low < 0 then .ub
    else match b.steps[(pos - b.low).toNat]? with
      | some s => .ok s
      | none => .ub

/-- `getCurrentStep` (TapChanger.hxx l.78-86). -/
def Base.getCurrentStep (b : Base α) (p : BasePer) : Out α := b.getStep p.pos

/-- `setTapPosition` (TapChanger.hxx l.194-198). -/
def setTapPosition (pos : Int) : Act (Base α) BasePer :=
  needVariant fun b p =>
    match checkTapPosition pos b.low b.high with
    | .ok _ => (.ok (), b, { p with pos := pos })
    | o => (o, b, p)

/-- `setLowTapPosition` (TapChanger.hxx l.167-173): the shared lower bound is written before the working variant is read. -/
def setLowTapPosition (low : Int) : Act (Base α) BasePer := fun b p =>
  match p with
  | none => (.thrown, { b with low := low }, none)
  | some p => (.ok (), { b with low := low }, some { p with pos := p.pos + low - b.low })

/-- `TapChanger::setRegulating` (TapChanger.hxx l.176-181). -/
def setRegulating (r : Bool) : Act (Base α) BasePer :=
  needVariant fun b p =>
    match checkTargetDeadband r p.deadband with
    | .ok _ => (.ok (), b, { p with regulating := r })
    | o => (o, b, p)

/-- `TapChanger::setRegulationTerminal` (TapChanger.hxx l.184-191). -/
def setRegulationTerminal (t : Option RTerm) : Act (Base α) BasePer := fun b p =>
  match t with
  | some x => if x.sameNet then (.ok (), { b with term := t }, p) else (.thrown, b, p)
  | none => (.ok (), { b with term := t }, p)

/-- `setTargetDeadband` (TapChanger.hxx l.201-205). -/
def setTargetDeadband (d : Dbl) : Act (Base α) BasePer :=
  needVariant fun b p =>
    match checkTargetDeadband p.regulating d with
    | .ok _ => (.ok (), b, { p with deadband := d })
    | o => (o, b, p)

/-! ### Ratio tap changer -/

/-- Shared attributes of `RatioTapChanger`. -/
structure RtcS (α : Type) where
  base : Base α
  ltc : Bool
  deriving DecidableEq, Repr

/-- Per variant attributes of `RatioTapChanger`. -/
structure RtcP where
  base : BasePer
  targetV : Dbl
  deriving DecidableEq, Repr

/-- `checkRatioTapChangerRegulation` (ValidationUtils.cpp l.323-338).  `throwExceptionOrWarningForRtc` (l.23-29) throws only with
    on-load capability; `regulationTerminal.get()` l.334 throws on a null reference in any case. -/
def checkRatio (regulating ltc : Bool) (term : Option RTerm) (targetV : Dbl) : Out Unit :=
  if regulating then
    if ltc && targetV.isNan then .thrown
    else if ltc && Dbl.le targetV 0 then .thrown
    else match term with
      | none => .thrown
      | some t => if ltc && !t.sameNet then .thrown else .ok ()
  else .ok ()

/-- Calls made on a ratio tap changer. -/
inductive RtcOp where
  | setTapPosition (pos : Int)
  | setLowTapPosition (low : Int)
  | setTargetDeadband (d : Dbl)
  | setRegulating (r : Bool)
  | setRegulationTerminal (t : Option RTerm)
  | setTargetV (v : Dbl)
  | setLoadTapChangingCapabilities (b : Bool)
  deriving DecidableEq, Repr

/-- A call of the base class on a ratio tap changer. -/
def liftR (f : Act (Base α) BasePer) : Act (RtcS α) RtcP := fun s p =>
  let x := f s.base (p.map (·.base))
  (x.1, { s with base := x.2.1 },
    match p, x.2.2 with
    | some p, some b => some { p with base := b }
    | p, _ => p)

/-- The calls of `RatioTapChanger` (RatioTapChanger.cpp l.58-78). -/
def rtcAct : RtcOp → Act (RtcS α) RtcP
  | .setTapPosition pos => liftR (setTapPosition pos)
  | .setLowTapPosition low => liftR (setLowTapPosition low)
  | .setTargetDeadband d => liftR (setTargetDeadband d)
  | .setRegulating r => fun s p =>
    match p with
    | none => (.thrown, s, none)
    | some q =>
      match checkRatio r s.ltc s.base.term q.targetV with
      | .ok _ => liftR (setRegulating r) s (some q)
      | o => (o, s, some q)
  | .setRegulationTerminal t => fun s p =>
    match p with
    | none => (.thrown, s, none)
    | some q =>
      match checkRatio q.base.regulating s.ltc t q.targetV with
      | .ok _ => liftR (setRegulationTerminal t) s (some q)
      | o => (o, s, some q)
  | .setTargetV v => needVariant fun s q =>
    match checkRatio q.base.regulating s.ltc s.base.term v with
    | .ok _ => (.ok (), s, { q with targetV := v })
    | o => (o, s, q)
  | .setLoadTapChangingCapabilities b => needVariant fun s q =>
    match checkRatio q.base.regulating s.ltc s.base.term q.targetV with
    | .ok _ => (.ok (), { s with ltc := b }, q)
    | o => (o, s, q)

/-- Values given to a `RatioTapChangerAdder` (RatioTapChangerAdder.hpp l.99-113). -/
structure RtcArgs (α : Type) where
  low : Int
  pos : Option Int
  steps : List α
  ltc : Bool
  regulating : Bool
  targetV : Dbl
  term : Option RTerm
  deadband : Dbl

/-- `RatioTapChangerAdder::add` up to the construction of the tap changer (RatioTapChangerAdder.cpp l.69-79; the constructor
    repeats the same checks); the result holds in every variant. -/
def RtcArgs.build (a : RtcArgs α) : Out (RtcS α × RtcP) :=
  match a.pos with
  | none => .thrown
  | some pos =>
    if a.steps = [] then .thrown
    else
      (checkTapPosition pos a.low (a.low + a.steps.length - 1)).bind fun _ =>
      (checkRatio a.regulating a.ltc a.term a.targetV).bind fun _ =>
      (checkTargetDeadband a.regulating a.deadband).bind fun _ =>
      .ok ({ base := { low := a.low, steps := a.steps, term := a.term }, ltc := a.ltc },
           { base := { pos := pos, regulating := a.regulating, deadband := a.deadband }, targetV := a.targetV })

/-! ### Phase tap changer -/

/-- `PhaseTapChanger::RegulationMode` (PhaseTapChanger.hpp). -/
inductive PMode where
  | currentLimiter | activePowerControl | fixedTap
  deriving DecidableEq, Repr

/-- Shared attributes of `PhaseTapChanger`. -/
structure PtcS (α : Type) where
  base : Base α
  mode : PMode
  deriving DecidableEq, Repr

/-- Per variant attributes of `PhaseTapChanger`. -/
structure PtcP where
  base : BasePer
  value : Dbl
  deriving DecidableEq, Repr

/-- `checkPhaseTapChangerRegulation` (ValidationUtils.cpp l.249-274). -/
def checkPhase (mode : PMode) (value : Dbl) (regulating : Bool) (term : Option RTerm) : Out Unit :=
  if regulating = true ∧ mode ≠ .fixedTap ∧ value.isNan = true then .thrown
  else if regulating = true ∧ mode ≠ .fixedTap ∧ term = none then .thrown
  else if regulating = true ∧ mode = .fixedTap then .thrown
  else match term with
    | some t => if t.sameNet then .ok () else .thrown
    | none => .ok ()

/-- Calls made on a phase tap changer. -/
inductive PtcOp where
  | setTapPosition (pos : Int)
  | setLowTapPosition (low : Int)
  | setTargetDeadband (d : Dbl)
  | setRegulating (r : Bool)
  | setRegulationTerminal (t : Option RTerm)
  | setRegulationMode (m : PMode)
  | setRegulationValue (v : Dbl)
  deriving DecidableEq, Repr

/-- A call of the base class on a phase tap changer. -/
def liftP (f : Act (Base α) BasePer) : Act (PtcS α) PtcP := fun s p =>
  let x := f s.base (p.map (·.base))
  (x.1, { s with base := x.2.1 },
    match p, x.2.2 with
    | some p, some b => some { p with base := b }
    | p, _ => p)

/-- The calls of `PhaseTapChanger` (PhaseTapChanger.cpp l.60-75); `setRegulating` is that of the base class (PhaseTapChanger.hpp
    declares no override). -/
def ptcAct : PtcOp → Act (PtcS α) PtcP
  | .setTapPosition pos => liftP (setTapPosition pos)
  | .setLowTapPosition low => liftP (setLowTapPosition low)
  | .setTargetDeadband d => liftP (setTargetDeadband d)
  | .setRegulating r => liftP (setRegulating r)
  | .setRegulationTerminal t => fun s p =>
    match p with
    | none => (.thrown, s, none)
    | some q =>
      match checkPhase s.mode q.value q.base.regulating t with
      | .ok _ => liftP (setRegulationTerminal t) s (some q)
      | o => (o, s, some q)
  | .setRegulationMode m => needVariant fun s q =>
    match checkPhase m q.value q.base.regulating s.base.term with
    | .ok _ => (.ok (), { s with mode := m }, q)
    | o => (o, s, q)
  | .setRegulationValue v => needVariant fun s q =>
    match checkPhase s.mode v q.base.regulating s.base.term with
    | .ok _ => (.ok (), s, { q with value := v })
    | o => (o, s, q)

/-- Values given to a `PhaseTapChangerAdder` (PhaseTapChangerAdder.hpp l.103-117). -/
structure PtcArgs (α : Type) where
  low : Int
  pos : Option Int
  steps : List α
  mode : PMode
  value : Dbl
  regulating : Bool
  term : Option RTerm
  deadband : Dbl

/-- `PhaseTapChangerAdder::add` up to the construction of the tap changer (PhaseTapChangerAdder.cpp l.74-84). -/
def PtcArgs.build (a : PtcArgs α) : Out (PtcS α × PtcP) :=
  match a.pos with
  | none => .thrown
  | some pos =>
    if a.steps = [] then .thrown
    else
      (checkTapPosition pos a.low (a.low + a.steps.length - 1)).bind fun _ =>
      (checkPhase a.mode a.value a.regulating a.term).bind fun _ =>
      (checkTargetDeadband a.regulating a.deadband).bind fun _ =>
      .ok ({ base := { low := a.low, steps := a.steps, term := a.term }, mode := a.mode },
           { base := { pos := pos, regulating := a.regulating, deadband := a.deadband }, value := a.value })

/-- A tap changer just built, in a network with the given variants: the same values in every variant (TapChanger.hxx l.32-34). -/
def fresh (x : σ × ρ) (variants : List Nat) (working : Option Nat) : Multi σ ρ :=
  { shared := x.1, per := fun _ => x.2, variants := variants, working := working }

/-! ### Transformers -/

/-- A tap changer held by a transformer. -/
inductive TapCh (α β : Type) where
  | rtc (s : RtcS α) (per : Nat → RtcP)
  | ptc (s : PtcS β) (per : Nat → PtcP)

/-- `isRegulating` in a variant. -/
def TapCh.regulating : TapCh α β → Nat → Bool
  | .rtc _ per, v => (per v).base.regulating
  | .ptc _ per, v => (per v).base.regulating

/-- A transformer: one slot per tap changer it may hold (two for `TwoWindingsTransformer`, two per leg for
    `ThreeWindingsTransformer`), in the order in which `getRegulatingTapChangerCount` looks at them. -/
structure Tfo (α β : Type) where
  slots : List (Option (TapCh α β))
  variants : List Nat
  working : Option Nat

/-- One term of the count: `hasXxxTapChanger() && getXxxTapChanger().isRegulating()`. -/
def slotReg (w : Nat) : Option (TapCh α β) → Bool
  | some c => c.regulating w
  | none => false

/-- `getRegulatingTapChangerCount` (TwoWindingsTransformer.cpp l.209-215, ThreeWindingsTransformerLeg.cpp l.94-110); `isRegulating`
    throws when no variant is selected. -/
def Tfo.count (t : Tfo α β) : Out Nat :=
  match t.working with
  | some w => .ok (t.slots.countP (slotReg w))
  | none => if t.slots.all Option.isNone then .ok 0 else .thrown

/-- `wasRegulating` (RatioTapChangerAdder.cpp l.81, PhaseTapChangerAdder.cpp l.86). -/
def Tfo.slotRegulating (t : Tfo α β) (i : Nat) : Out Bool :=
  match t.slots[i]? with
  | some (some c) => match t.working with
    | some w => .ok (c.regulating w)
    | none => .thrown
  | _ => .ok false

/-- `checkOnlyOneTapChangerRegulatingEnabled` (ValidationUtils.cpp l.222-226). -/
def checkOnlyOne (count : Nat) (regulating : Bool) : Out Unit :=
  if regulating ∧ count > 0 then .thrown else .ok ()

/-- End of the adders (RatioTapChangerAdder.cpp l.81-89, PhaseTapChangerAdder.cpp l.86-94). -/
def Tfo.install (t : Tfo α β) (i : Nat) (c : TapCh α β) (regulating : Bool) : Out Unit × Tfo α β :=
  match t.slotRegulating i, t.count with
  | .ok was, .ok n =>
    match checkOnlyOne (n - (if was then 1 else 0)) regulating with
    | .ok _ => (.ok (), { t with slots := t.slots.set i (some c) })
    | o => (o, t)
  | _, _ => (.thrown, t)

/-- Steps of the history of a transformer.  Slots must exist. -/
inductive TOp (α β : Type) where
  | callRtc (i : Nat) (a : RtcOp)
  | callPtc (i : Nat) (a : PtcOp)
  | addRtc (i : Nat) (args : RtcArgs α)
  | addPtc (i : Nat) (args : PtcArgs β)
  | removeTap (i : Nat)
  | select (v : Nat)
  | clone (s d : Nat)
  | remove (v : Nat)

/-- Applies a call to the values of one variant. -/
def applyAt (f : Act σ ρ) (s : σ) (per : Nat → ρ) (w : Option Nat) : Out Unit × σ × (Nat → ρ) :=
  let x := f s (w.map per)
  (x.1, x.2.1, fun v => if w = some v then (match x.2.2 with | some r => r | none => per v) else per v)

/-- A copy of variant `s` in variant `d`. -/
def TapCh.clone (s d : Nat) : TapCh α β → TapCh α β
  | .rtc x per => .rtc x fun v => if v = d then per s else per v
  | .ptc x per => .ptc x fun v => if v = d then per s else per v

/-- One step of the history of a transformer. -/
def Tfo.step (t : Tfo α β) : TOp α β → Out Unit × Tfo α β
  | .callRtc i a =>
    match t.slots[i]? with
    | some (some (.rtc s per)) =>
      let x := applyAt (rtcAct a) s per t.working
      (x.1, { t with slots := t.slots.set i (some (.rtc x.2.1 x.2.2)) })
    | _ => (.thrown, t)
  | .callPtc i a =>
    match t.slots[i]? with
    | some (some (.ptc s per)) =>
      let x := applyAt (ptcAct a) s per t.working
      (x.1, { t with slots := t.slots.set i (some (.ptc x.2.1 x.2.2)) })
    | _ => (.thrown, t)
  | .addRtc i args =>
    match args.build with
    | .ok x => t.install i (.rtc x.1 fun _ => x.2) args.regulating
    | _ => (.thrown, t)
  | .addPtc i args =>
    match args.build with
    | .ok x => t.install i (.ptc x.1 fun _ => x.2) args.regulating
    | _ => (.thrown, t)
  | .removeTap i => (.ok (), { t with slots := t.slots.set i none })
  | .select v => if v ∈ t.variants then (.ok (), { t with working := some v }) else (.thrown, t)
  | .clone s d =>
    if s ∈ t.variants then
      (.ok (), { t with
        slots := t.slots.map (Option.map (TapCh.clone s d))
        variants := if d ∈ t.variants then t.variants else t.variants ++ [d] })
    else (.thrown, t)
  | .remove v =>
    if v ∈ t.variants ∧ v ≠ 0 then
      (.ok (), { t with
        variants := t.variants.filter (· ≠ v)
        working := if t.working = some v then none else t.working })
    else (.thrown, t)

/-- The state after a history. -/
def Tfo.run (t : Tfo α β) (ops : List (TOp α β)) : Tfo α β := ops.foldl (fun t o => (t.step o).2) t

end Verif.Tap
