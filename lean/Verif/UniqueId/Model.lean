/-!
Model of `Identifiables::getUniqueId` (src/iidm/util/Identifiables.cpp l.19-42).
-/

namespace Verif.UniqueId

/-- `checkedBaseId + '#' + std::to_string(i)` (Identifiables.cpp l.35). -/
def candidate (base : String) (i : Nat) : String := base ++ "#" ++ toString i

/-- The `do ... while` loop of Identifiables.cpp l.33-37.  `fuel` is the number of times the condition
    `i < max && containsId(uniqueId)` can still evaluate its second operand; when it reaches 0 the
    candidate is returned without being checked, as the C++ loop does when `i` reaches
    `std::numeric_limits<unsigned long>::max()`. -/
def searchLoop (contains : String → Bool) (base : String) : Nat → Nat → String
  | 0, i => candidate base i
  | fuel + 1, i =>
    if contains (candidate base i) then searchLoop contains base fuel (i + 1) else candidate base i

/-- Number of candidates checked by the loop on a platform where `max` is the largest `unsigned long`:
    indexes `0 .. max - 2` (l.37: the counter is incremented before the test). -/
def loopFuel (max : Nat) : Nat := max - 1

/-- `getUniqueId` (Identifiables.cpp l.19-42) for a given `unsigned long` maximum. -/
def getUniqueIdMax (max : Nat) (baseId : String) (contains : String → Bool) : String :=
  if baseId ≠ "" then
    if contains baseId then searchLoop contains baseId (loopFuel max) 0 else baseId
  else
    searchLoop contains "autoId" (loopFuel max) 0

/-- `std::numeric_limits<unsigned long>::max()` on a 64-bit platform. -/
def ulongMax : Nat := 18446744073709551615

/-- `getUniqueId` (Identifiables.cpp l.19-42), 64-bit `unsigned long`. -/
def getUniqueId (baseId : String) (contains : String → Bool) : String :=
  getUniqueIdMax ulongMax baseId contains

end Verif.UniqueId
