import Verif.Common.Out
import Verif.Common.AMap

/-! Model of `stdcxx::Properties` (Properties.cpp) and of the property functions of `Identifiable` (Identifiable.cpp l.137-159, 189-191),
which only forward to it.  The map is ordered by key in the code; only the listing depends on it, and the order is not modelled. -/

namespace Verif.PropMap

open Verif

/-- `m_properties`. -/
abbrev Props := AMap String String

/-- `get(key)` (Properties.cpp l.46-53). -/
def get (k : String) (m : Props) : Out String :=
  match m.get? k with
  | some v => .ok v
  | none => .thrown

/-- `get(key, defaultValue)` (Properties.cpp l.55-58). -/
def getOr (k d : String) (m : Props) : String :=
  match m.get? k with
  | some v => v
  | none => d

/-- `contains` (Properties.cpp l.64-66). -/
def contains (k : String) (m : Props) : Bool := (m.get? k).isSome

/-- `isEmpty` (Properties.cpp l.68-70). -/
def isEmpty (m : Props) : Bool := m.isEmpty

/-- `getKeys` (Properties.cpp l.60-62). -/
def getKeys (m : Props) : List String := m.keys

/-- `size` (Properties.cpp l.89-91). -/
def size (m : Props) : Nat := m.length

/-- `remove` (Properties.cpp l.72-75). -/
def remove (k : String) (m : Props) : Props := m.erase k

/-- `clear` (Properties.cpp l.33-36). -/
def clear (_ : Props) : Props := []

/-- `set` (Properties.cpp l.77-87): `insert`, and when refused the value of the entry is kept aside and overwritten. -/
def set (k v : String) (m : Props) : Option String × Props :=
  match m.get? k with
  | none => (none, m.emplace k v)
  | some old => (some old, m.set k v)

/-- A modifying call. -/
inductive Op where
  | set (k v : String)
  | remove (k : String)
  | clear
  deriving DecidableEq, Repr

/-- Performs a call; the result is the one of `set`. -/
def step (o : Op) (m : Props) : Option String × Props :=
  match o with
  | .set k v => set k v m
  | .remove k => (none, remove k m)
  | .clear => (none, clear m)

/-- Performs calls in sequence. -/
def run : List Op → Props → Props
  | [], m => m
  | o :: os, m => run os (step o m).2

end Verif.PropMap
