import Verif.Common.Out

/-!
The vector of `unique_ptr` that `Measurements` and `DiscreteMeasurements` share the code of (Measurements.cpp l.30-32, 46-75, 91-99,
DiscreteMeasurements.cpp l.42-80, 96-104, MeasurementAdder.cpp l.26-36, DiscreteMeasurementAdder.cpp l.27-38).

An element is its address and its content.  A new element gets an address that was never used; a call through a reference to an element that was
destroyed is undefined behaviour.  The public `add` of the two classes, which takes an element made by the caller without any check, is not modelled:
elements are made by the adders.
-/

namespace Verif.Measure

open Verif

/-- `m_measurements` or `m_discreteMeasurements`, and the next address. -/
structure Box (α : Type) where
  items : List (Nat × α)
  next : Nat
  deriving DecidableEq, Repr

/-- A new extension. -/
def Box.empty {α : Type} : Box α := ⟨[], 0⟩

/-- `find_if` on the identifiers (Measurements.cpp l.46-51, DiscreteMeasurements.cpp l.47-52). -/
def Box.find {α : Type} (idOf : α → String) (id : String) (s : Box α) : Option (Nat × α) := s.items.find? fun x => idOf x.2 = id

/-- The element at an address, if it is there. -/
def Box.at? {α : Type} (p : Nat) (s : Box α) : Option α := (s.items.find? fun x => x.1 = p).map (·.2)

/-- `getMeasurements(type)` (Measurements.cpp l.61-75, DiscreteMeasurements.cpp l.66-80): the filter keeps a reference to the argument.  The first
element to return is looked for at once, the following ones when the range is gone through; `alive` says whether the argument still exists then. -/
def Box.listByType {α τ : Type} [DecidableEq τ] (typeOf : α → τ) (t : τ) (alive : Bool) (s : Box α) : Out (List (Nat × α)) :=
  if alive then .ok (s.items.filter fun x => typeOf x.2 = t)
  else
    match s.items.dropWhile fun x => typeOf x.2 ≠ t with
    | [] => .ok []
    | [x] => .ok [x]
    | _ :: _ :: _ => .ub

/-- A call: of an adder with this identifier, `mk` being the outcome of the checks and of the construction after the identifier was checked; of
`remove` of an element; of a setter of an element. -/
inductive Call (α : Type) where
  | add (id : String) (mk : Out α)
  | remove (p : Nat)
  | edit (p : Nat) (f : α → Out α)

/-- Writes the element at an address. -/
def Box.put {α : Type} (p : Nat) (x : α) (s : Box α) : Box α := { s with items := s.items.map fun y => if y.1 = p then (p, x) else y }

/-- A call; the result of an adder is the address of the element whose reference is returned, found by its identifier
(MeasurementAdder.cpp l.35, DiscreteMeasurementAdder.cpp l.37; a reference to nothing throws). -/
def step {α : Type} (idOf : α → String) (c : Call α) (s : Box α) : Out (Option Nat) × Box α :=
  match c with
  | .add id mk =>
    if id ≠ "" ∧ (s.find idOf id).isSome then (.thrown, s)
    else
      match mk with
      | .ok x =>
        let s' : Box α := ⟨s.items ++ [(s.next, x)], s.next + 1⟩
        match s'.find idOf id with
        | some y => (.ok (some y.1), s')
        | none => (.thrown, s')
      | .thrown => (.thrown, s)
      | .ub => (.ub, s)
  | .remove p =>
    if (s.at? p).isSome then (.ok none, { s with items := s.items.eraseP fun x => x.1 = p }) else (.ub, s)
  | .edit p f =>
    match s.at? p with
    | none => (.ub, s)
    | some x =>
      match f x with
      | .ok y => (.ok none, s.put p y)
      | .thrown => (.thrown, s)
      | .ub => (.ub, s)

/-- A sequence of calls, in order; an exception is caught by the caller, undefined behaviour ends everything. -/
def run {α : Type} (idOf : α → String) : List (Call α) → Box α → Option (Box α)
  | [], s => some s
  | c :: cs, s =>
    match step idOf c s with
    | (.ub, _) => none
    | (_, s') => run idOf cs s'

end Verif.Measure
