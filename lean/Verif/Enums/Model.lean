import Verif.Common.Out

/-! Model of `Enum::fromString` and `Enum::toString` (Enum.hxx).  An enumeration value is its rank; `names` is what `getNames` returns. -/

namespace Verif.Enums

open Verif

/-- An enumeration: its enumerators in the order of declaration (none has an explicit value) and its table of names. -/
structure Table where
  enumerators : List String
  names : List String
  deriving Repr

/-- `std::find`, from rank `k` on. -/
def findFrom (name : String) : List String → Nat → Option Nat
  | [], _ => none
  | x :: xs, k => if x = name then some k else findFrom name xs (k + 1)

/-- `fromString` (Enum.hxx l.23-32). -/
def fromString (names : List String) (name : String) : Out Nat :=
  match findFrom name names 0 with
  | some k => .ok k
  | none => .thrown

/-- `toString` (Enum.hxx l.34-42). -/
def toString (names : List String) (value : Nat) : Out String :=
  if value ≥ names.length then .thrown
  else match names[value]? with
    | some n => .ok n
    | none => .ub

end Verif.Enums
