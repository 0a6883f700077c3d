import Verif.Limits.Model

/-!
Model of the limits an equipment carries: on each of its sides (two for a branch, one for a dangling line or for a leg of a transformer) one
object at most for the active power, one for the apparent power, one for the current.  An object is known by a number that is never used again.
Built on the adder of loading limits of C38.
-/

namespace Verif.LimitSet

open Verif Verif.Limits

/-- `LimitType` (LimitType.hpp l.15-20). -/
inductive Kind where
  | active
  | apparent
  | current
  | voltage
  deriving DecidableEq, Repr

/-- The order of the enumerators, which is that of the keys of `std::map<LimitType, …>`. -/
def Kind.rank : Kind → Nat
  | .active => 0
  | .apparent => 1
  | .current => 2
  | .voltage => 3

/-- A limits object: its number, its class (`getLimitType`, CurrentLimits.cpp l.20-23, ActivePowerLimits.cpp, ApparentPowerLimits.cpp) and what it
    holds. -/
structure Obj where
  id : Nat
  cls : Kind
  ll : LL
  deriving DecidableEq, Repr

/-- `m_operationalLimits` (OperationalLimitsHolder.hpp l.78), by increasing key. -/
abbrev Holder := List (Kind × Obj)

/-- `m_operationalLimits[limitType] = std::move(operationalLimits)`: what was there is destroyed. -/
def Holder.put (k : Kind) (o : Obj) : Holder → Holder
  | [] => [(k, o)]
  | (k', o') :: r =>
    if k.rank < k'.rank then (k, o) :: (k', o') :: r
    else if k = k' then (k, o) :: r
    else (k', o') :: Holder.put k o r

/-- `m_operationalLimits.erase(limitType)`. -/
def Holder.erase (k : Kind) (h : Holder) : Holder := h.filter fun p => !decide (p.1 = k)

/-- `m_operationalLimits.find(type)`. -/
def Holder.find (k : Kind) : Holder → Option Obj
  | [] => none
  | (k', o) :: r => if k' = k then some o else Holder.find k r

/-- An equipment: the holder of each side (`m_operationalLimitsHolder1`, `m_operationalLimitsHolder2`, Branch.hpp; the only one of
    FlowsLimitsHolder.hpp), and the next number. -/
structure Eqp where
  sides : List Holder
  next : Nat
  deriving DecidableEq, Repr

/-- An equipment with `n` sides and no limits (Branch.cpp l.44-48, FlowsLimitsHolder.cpp l.21-27). -/
def fresh (n : Nat) : Eqp := ⟨List.replicate n [], 0⟩

/-- `getOperationalLimits<T>(type)` (OperationalLimitsHolder.hxx l.22-32): an object of another class than asked for throws. -/
def Holder.getAs (k cls : Kind) (h : Holder) : Out (Option Obj) :=
  match h.find k with
  | none => .ok none
  | some o => if o.cls = cls then .ok (some o) else .thrown

/-- `getActivePowerLimits`, `getApparentPowerLimits`, `getCurrentLimits` of a side (Branch.cpp l.116-209, FlowsLimitsHolder.cpp l.29-51). -/
def typed (w : Eqp) (side : Nat) (k : Kind) : Out (Option Obj) :=
  match w.sides[side]? with
  | none => .thrown
  | some h => h.getAs k k

/-- `Branch::getLimits(type, side)` (Branch.cpp l.211-226). -/
def getLimits (w : Eqp) (k : Kind) (side : Nat) : Out (Option Obj) :=
  match k with
  | .current => typed w side .current
  | .active => typed w side .active
  | .apparent => typed w side .apparent
  | .voltage => .thrown

/-- `getOperationalLimits()` (OperationalLimitsHolder.cpp l.35-41): all the limits of a side, by increasing key. -/
def all (w : Eqp) (side : Nat) : Out (List Obj) :=
  match w.sides[side]? with
  | none => .thrown
  | some h => .ok (h.map (·.2))

/-- `new…Limits()…add()` on a side (CurrentLimitsAdder.cpp l.21-25, ActivePowerLimitsAdder.cpp, ApparentPowerLimitsAdder.cpp,
    OperationalLimitsHolder.cpp l.59-67); there is no adder for the voltage. -/
def add (w : Eqp) (side : Nat) (k : Kind) (permanent : Dbl) (ts : TLs) : Out Nat × Eqp :=
  match w.sides[side]? with
  | none => (.thrown, w)
  | some h =>
    if k = .voltage then (.thrown, w)
    else
      match Limits.add permanent ts with
      | .ok ll => (.ok w.next, ⟨w.sides.set side (h.put k ⟨w.next, k, ll⟩), w.next + 1⟩)
      | .thrown => (.thrown, w)
      | .ub => (.ub, w)

/-- The place of an object: the side and the key it is under. -/
def placeIn (n : Nat) : Nat → List Holder → Option (Nat × Kind × Obj)
  | _, [] => none
  | i, h :: hs =>
    match h.find? (fun p => p.2.id == n) with
    | some p => some (i, p.1, p.2)
    | none => placeIn n (i + 1) hs

/-- The object with a number, if it is alive. -/
def place (w : Eqp) (n : Nat) : Option (Nat × Kind × Obj) := placeIn n 0 w.sides

/-- `OperationalLimits::remove` (OperationalLimits.cpp l.20-22) called on an object: the owner, which is the holder of its side, forgets what it
    has under the type of the object. -/
def remove (w : Eqp) (n : Nat) : Out Unit × Eqp :=
  match place w n with
  | none => (.ub, w)
  | some (side, _, o) => (.ok (), { w with sides := w.sides.modify side (Holder.erase o.cls) })

/-- `LoadingLimits::setPermanentLimit` (LoadingLimits.cpp l.73-77) called on an object. -/
def setPermanent (w : Eqp) (n : Nat) (x : Dbl) : Out Unit × Eqp :=
  match place w n with
  | none => (.ub, w)
  | some (side, k, o) =>
    match Limits.setPermanentLimit x o.ll with
    | (.ok _, ll) => (.ok (), { w with sides := w.sides.modify side (Holder.put k { o with ll := ll }) })
    | (.thrown, _) => (.thrown, w)
    | (.ub, _) => (.ub, w)

/-- What is measured at a terminal: active power, reactive power, current (`getP`, `getQ`, `getI`). -/
structure Meas where
  p : Dbl
  q : Dbl
  i : Dbl
  deriving DecidableEq, Repr

/-- `Branch::getValueForLimit` (Branch.cpp l.306-321); `sqrt` is `std::sqrt`. -/
def valueForLimit (sqrt : Dbl → Dbl) (m : Meas) : Kind → Out Dbl
  | .active => .ok m.p
  | .apparent => .ok (sqrt (Dbl.add (Dbl.mul m.p m.p) (Dbl.mul m.q m.q)))
  | .current => .ok m.i
  | .voltage => .thrown

/-- `Branch::checkPermanentLimit(side, limitReduction, type)` (Branch.cpp l.54-81, LimitViolationUtils.cpp l.20-26); `m` is measured at the terminal
    of the side. -/
def checkPermanent (sqrt : Dbl → Dbl) (w : Eqp) (side : Nat) (m : Meas) (reduction : Dbl) (k : Kind) : Out Bool :=
  match valueForLimit sqrt m k with
  | .ok v =>
    match getLimits w k side with
    | .ok o => .ok (Limits.checkPermanentLimit (o.map (·.ll)) reduction v)
    | .thrown => .thrown
    | .ub => .ub
  | .thrown => .thrown
  | .ub => .ub

/-- `Branch::checkTemporaryLimits(side, limitReduction, type)` (Branch.cpp l.87-114, LimitViolationUtils.cpp l.28-45). -/
def checkTemporary (sqrt : Dbl → Dbl) (w : Eqp) (side : Nat) (m : Meas) (reduction : Dbl) (k : Kind) : Out (Option Overload) :=
  match valueForLimit sqrt m k with
  | .ok v =>
    match getLimits w k side with
    | .ok o => .ok (Limits.checkTemporaryLimits (o.map (·.ll)) reduction v)
    | .thrown => .thrown
    | .ub => .ub
  | .thrown => .thrown
  | .ub => .ub

/-- `Branch::isOverloaded(limitReduction)` (Branch.cpp l.327-329): the second side is looked at only if the first is not overloaded. -/
def overloaded (sqrt : Dbl → Dbl) (w : Eqp) (m1 m2 : Meas) (reduction : Dbl) : Out Bool :=
  match checkPermanent sqrt w 0 m1 reduction .current with
  | .ok true => .ok true
  | .ok false => checkPermanent sqrt w 1 m2 reduction .current
  | .thrown => .thrown
  | .ub => .ub

/-- `Branch::getOverloadDuration` (Branch.cpp l.232-240). -/
def overloadDuration (sqrt : Dbl → Dbl) (w : Eqp) (m1 m2 : Meas) : Out Nat :=
  match checkTemporary sqrt w 0 m1 1 .current, checkTemporary sqrt w 1 m2 1 .current with
  | .ok o1, .ok o2 =>
    .ok (min ((o1.map (·.limit.duration)).getD UniqueId.ulongMax) ((o2.map (·.limit.duration)).getD UniqueId.ulongMax))
  | .ub, _ => .ub
  | .thrown, _ => .thrown
  | _, .ub => .ub
  | _, .thrown => .thrown

/-- Calls. -/
inductive Op where
  | add (side : Nat) (k : Kind) (permanent : Dbl) (ts : TLs)
  | remove (n : Nat)
  | setPermanent (n : Nat) (x : Dbl)
  deriving DecidableEq, Repr

/-- A call; the number is that of the object added. -/
def step (w : Eqp) : Op → Out (Option Nat) × Eqp
  | .add side k permanent ts =>
    match add w side k permanent ts with
    | (.ok n, w') => (.ok (some n), w')
    | (.thrown, w') => (.thrown, w')
    | (.ub, w') => (.ub, w')
  | .remove n =>
    match remove w n with
    | (.ok _, w') => (.ok none, w')
    | (.thrown, w') => (.thrown, w')
    | (.ub, w') => (.ub, w')
  | .setPermanent n x =>
    match setPermanent w n x with
    | (.ok _, w') => (.ok none, w')
    | (.thrown, w') => (.thrown, w')
    | (.ub, w') => (.ub, w')

/-- One initialiser of a constructor: the member it gives a value to and the members it reads. -/
structure Init where
  gives : String
  reads : List String
  deriving DecidableEq, Repr

/-- The initialisers are run in the order of the bases, then of the members; reading a member that has no value yet is undefined. -/
def construct : List String → List Init → Out Unit
  | _, [] => .ok ()
  | done, i :: is => if i.reads.all (fun m => done.contains m) then construct (i.gives :: done) is else .ub

/-- `Leg::Leg` (ThreeWindingsTransformerLeg.cpp l.23-32, members as declared in ThreeWindingsTransformerLeg.hpp l.114-132), with values that are
    valid: the base `FlowsLimitsHolder` is given a name made from `m_legNumber`.  The parameters of the constructor are not members. -/
def legInits : List Init :=
  [⟨"FlowsLimitsHolder", ["m_legNumber"]⟩, ⟨"m_transformer", []⟩, ⟨"m_legNumber", []⟩, ⟨"m_r", []⟩, ⟨"m_x", []⟩, ⟨"m_g", []⟩, ⟨"m_b", []⟩,
   ⟨"m_ratedU", []⟩, ⟨"m_ratedS", []⟩, ⟨"m_phaseTapChanger", []⟩, ⟨"m_ratioTapChanger", []⟩]

/-- `Branch::Branch` (Branch.cpp l.44-48). -/
def branchInits : List Init := [⟨"Connectable", []⟩, ⟨"m_operationalLimitsHolder1", []⟩, ⟨"m_operationalLimitsHolder2", []⟩]

end Verif.LimitSet
