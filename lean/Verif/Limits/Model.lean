import Verif.Common.DblArith
import Verif.Common.Out
import Verif.UniqueId.Model

/-!
Model of loading limits: their adder, lookups by duration, and the overload checks of branches.

Not modelled: the log messages of `checkTemporaryLimits`.  Active and apparent power limits, and who owns the limits, are in LimitSet.
-/

namespace Verif.Limits

open Verif

/-- `LoadingLimits::TemporaryLimit`. -/
structure TL where
  name : String
  value : Dbl
  duration : Nat
  fictitious : Bool
  deriving DecidableEq, Repr

/-- `std::map<unsigned long, TemporaryLimit, std::greater>` (LoadingLimits.hpp l.52): entries in decreasing order of duration. -/
abbrev TLs := List TL

/-- `std::map::emplace` (used at LoadingLimitsAdder.hxx l.101): an existing key keeps its value. -/
def emplace (t : TL) : TLs → TLs
  | [] => [t]
  | u :: us =>
    if t.duration < u.duration then u :: emplace t us
    else if u.duration < t.duration then t :: u :: us
    else u :: us

/-- `nameExists` (LoadingLimitsAdder.hxx l.158-164). -/
def nameExists (ts : TLs) (name : String) : Bool := ts.any fun t => t.name == name

/-- The `while` loop of `checkAndGetUniqueName` (LoadingLimitsAdder.hxx l.54-60); `fuel` is what is left until `i` reaches the largest
    `unsigned long`. -/
def uniqueLoop (ts : TLs) (base : String) : Nat → Nat → String → String
  | 0, _, cur => cur
  | fuel + 1, i, cur => if nameExists ts cur then uniqueLoop ts base fuel (i + 1) (UniqueId.candidate base i) else cur

/-- What is given to a `TemporaryLimitAdder` before `endTemporaryLimit`. -/
structure Args where
  name : String
  value : Dbl
  duration : Option Nat
  fictitious : Bool
  ensureNameUnicity : Bool
  deriving DecidableEq, Repr

/-- `TemporaryLimitAdder::endTemporaryLimit` and `addTemporaryLimit` (LoadingLimitsAdder.hxx l.33-62, l.99-103). -/
def endTemporaryLimit (a : Args) (ts : TLs) : Out Unit × TLs :=
  if a.value.isNan then (.thrown, ts)
  else if Dbl.le a.value 0 then (.thrown, ts)
  else match a.duration with
    | none => (.thrown, ts)
    | some d =>
      if a.name = "" then (.thrown, ts)
      else
        let name := if a.ensureNameUnicity then uniqueLoop ts a.name UniqueId.ulongMax 0 a.name else a.name
        (.ok (), emplace ⟨name, a.value, d, a.fictitious⟩ ts)

/-- The state of the adder after a history of calls, those that throw being handled by the caller. -/
def runAdder (ts : TLs) : List Args → TLs
  | [] => ts
  | a :: as => runAdder (endTemporaryLimit a ts).2 as

/-- Name unicity check (LoadingLimitsAdder.hxx l.133-140): stops at the first name seen before. -/
def namesOk (seen : List String) : TLs → Bool
  | [] => true
  | t :: ts => if t.name ∈ seen then false else namesOk (t.name :: seen) ts

/-- `LoadingLimits`. -/
structure LL where
  permanent : Dbl
  temps : TLs
  deriving DecidableEq, Repr

/-- `checkLoadingLimits` and `CurrentLimitsAdder::add` (LoadingLimitsAdder.hxx l.110-141, CurrentLimitsAdder.cpp l.21-25,
    ValidationUtils.cpp l.242-247). -/
def add (permanent : Dbl) (ts : TLs) : Out LL :=
  if Dbl.le permanent 0 then .thrown
  else if namesOk [] ts then .ok ⟨permanent, ts⟩
  else .thrown

/-- `setPermanentLimit` (LoadingLimits.cpp l.73-77). -/
def setPermanentLimit (x : Dbl) (l : LL) : Out Unit × LL :=
  if Dbl.le x 0 then (.thrown, l) else (.ok (), { l with permanent := x })

/-- `getTemporaryLimit(duration)` (LoadingLimits.cpp l.52-58): `std::map::at` throws for an absent key. -/
def getTemporaryLimit (l : LL) (d : Nat) : Out TL :=
  match l.temps.find? (fun t => t.duration == d) with
  | some t => .ok t
  | none => .thrown

/-- `getTemporaryLimitValue(duration)` (LoadingLimits.cpp l.68-71). -/
def getTemporaryLimitValue (l : LL) (d : Nat) : Dbl :=
  match l.temps.find? (fun t => t.duration == d) with
  | some t => t.value
  | none => .nan

/-- `LimitViolationUtils::checkPermanentLimit` (LimitViolationUtils.cpp l.20-26); `limits` is `none` when the side has none. -/
def checkPermanentLimit (limits : Option LL) (reduction i : Dbl) : Bool :=
  match limits with
  | none => false
  | some l => !l.permanent.isNan && !i.isNan && Dbl.le (Dbl.mul l.permanent reduction) i

/-- `Branch::Overload`. -/
structure Overload where
  limit : TL
  previousName : String
  previous : Dbl
  deriving DecidableEq, Repr

/-- Loop of `checkTemporaryLimits` (LimitViolationUtils.cpp l.34-41). -/
def scan (reduction i : Dbl) (prevName : String) (prev : Dbl) : TLs → Option Overload
  | [] => none
  | t :: ts =>
    if Dbl.le (Dbl.mul prev reduction) i && Dbl.lt i (Dbl.mul t.value reduction) then some ⟨t, prevName, prev⟩
    else scan reduction i t.name t.value ts

/-- `LimitViolationUtils::checkTemporaryLimits` (LimitViolationUtils.cpp l.28-45). -/
def checkTemporaryLimits (limits : Option LL) (reduction i : Dbl) : Option Overload :=
  match limits with
  | none => none
  | some l => if l.permanent.isNan || i.isNan then none else scan reduction i "" l.permanent l.temps

/-- One side of a branch: its current limits and the current through it (`Terminal::getI`). -/
structure Side where
  limits : Option LL
  i : Dbl
  deriving DecidableEq, Repr

/-- `Branch::isOverloaded(limitReduction)` (Branch.cpp l.327-329). -/
def isOverloaded (s1 s2 : Side) (reduction : Dbl) : Bool :=
  checkPermanentLimit s1.limits reduction s1.i || checkPermanentLimit s2.limits reduction s2.i

/-- `Branch::getOverloadDuration` (Branch.cpp l.232-240). -/
def getOverloadDuration (s1 s2 : Side) : Nat :=
  let d (s : Side) := match checkTemporaryLimits s.limits 1 s.i with
    | some o => o.limit.duration
    | none => UniqueId.ulongMax
  min (d s1) (d s2)

end Verif.Limits
