/-! Model of the listings filtered by `DistinctPredicate` (VoltageLevel.hxx l.72-85, Substation.cpp l.59-102) and of the flattened ranges
(flattened.hpp).

A terminal is its connectable's id and type.  The filtered range of Boost holds an iterator already advanced, at construction, to the first
accepted element; the predicate shares its set of seen ids between all copies of the range and of its iterators.  Iterating copies that
iterator, then tests the predicate on every following element.  (`boost::any_range` wraps these two iterators and changes nothing.) -/

namespace Verif.Listing

/-- A terminal as seen by the listings: id and type of its connectable. -/
structure Term where
  id : Nat
  kind : Nat
  deriving DecidableEq, Repr

/-- `DistinctPredicate::operator()` (DistinctPredicate.cpp l.22-29) with the shared set of ids seen. -/
def distinct (id : Nat) (seen : List Nat) : Bool × List Nat :=
  if id ∈ seen then (false, seen) else (true, id :: seen)

/-- A range filtered by a `DistinctPredicate`: the elements from the position of its begin iterator on, and the ids seen. -/
structure Range where
  from_ : List Nat
  seen : List Nat
  deriving DecidableEq, Repr

/-- `filter_iterator::satisfy_predicate`: advance to the first accepted element. -/
def satisfy : List Nat → List Nat → List Nat × List Nat
  | [], seen => ([], seen)
  | x :: xs, seen =>
    let p := distinct x seen
    if p.1 then (x :: xs, p.2) else satisfy xs p.2

/-- `elements | filtered(DistinctPredicate())`. -/
def mkRange (elements : List Nat) : Range :=
  let p := satisfy elements []
  ⟨p.1, p.2⟩

/-- Elements listed from an iterator standing on `x`, before `xs`: `x`, then every accepted element. -/
def walk : List Nat → List Nat → List Nat × List Nat
  | [], seen => ([], seen)
  | x :: xs, seen =>
    let p := distinct x seen
    let q := walk xs p.2
    (if p.1 then x :: q.1 else q.1, q.2)

/-- One whole iteration over the range. -/
def iterate (r : Range) : List Nat × Range :=
  match r.from_ with
  | [] => ([], r)
  | x :: xs =>
    let q := walk xs r.seen
    (x :: q.1, { r with seen := q.2 })

/-- Results of `n` successive iterations over the same range. -/
def iterations : Nat → Range → List (List Nat)
  | 0, _ => []
  | n + 1, r => let p := iterate r; p.1 :: iterations n p.2

/-- `getConnectables<T>` (VoltageLevel.hxx l.77-85); `isT` is `Terminal::isInstanceOf<T>`. -/
def getConnectables (isT : Nat → Bool) (ts : List Term) : Range := mkRange ((ts.filter fun t => isT t.kind).map (·.id))

/-- `getConnectableCount<T>` (VoltageLevel.hxx l.72-75): `boost::size` of a new range. -/
def getConnectableCount (isT : Nat → Bool) (ts : List Term) : Nat := (iterate (getConnectables isT ts)).1.length

/-! ### Flattened ranges -/

/-- A `FlatteningIterator` (flattened.hpp l.24-102): what remains of the current inner range and the outer ranges after it, or the end of the
    outer range. -/
inductive Flat where
  | at (inner : List Nat) (outer : List (List Nat))
  | done
  deriving DecidableEq, Repr

/-- `skipEmptyRanges` (flattened.hpp l.86-94). -/
def skipEmpty : List Nat → List (List Nat) → Flat
  | x :: xs, outer => .at (x :: xs) outer
  | [], [] => .done
  | [], inner :: outer => skipEmpty inner outer

/-- Constructor (flattened.hpp l.49-58). -/
def mkFlat : List (List Nat) → Flat
  | [] => .done
  | inner :: outer => skipEmpty inner outer

/-- `dereference` (flattened.hpp l.82-84): `none` when there is nothing to read. -/
def Flat.deref : Flat → Option Nat
  | .at (x :: _) _ => some x
  | _ => none

/-- `increment` (flattened.hpp l.73-80). -/
def Flat.next : Flat → Flat
  | .at (_ :: xs) outer => skipEmpty xs outer
  | f => f

/-- Elements read in at most `n` steps until the iterator is at the end (`==` compares the outer positions). -/
def Flat.read : Nat → Flat → List (Option Nat)
  | 0, _ => []
  | n + 1, f => match f with
    | .done => []
    | .at i o => (Flat.at i o).deref :: Flat.read n (Flat.at i o).next

/-- `getThreeWindingsTransformers` and `getTwoWindingsTransformers` of a substation (Substation.cpp l.59-78, 84-102): the listings of the voltage
    levels, flattened, then filtered again.  Every inner range is new. -/
def substationListing (isT : Nat → Bool) (vls : List (List Term)) : Range :=
  mkRange (vls.map fun ts => (iterate (getConnectables isT ts)).1).flatten

end Verif.Listing
