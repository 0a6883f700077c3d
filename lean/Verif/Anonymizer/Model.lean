import Verif.Common.Out

/-!
Model of `SimpleAnonymizer`.

A `std::string` is a sequence of bytes; it is a `List Char` here, one `Char` per byte.  Countries are not modelled (they are returned
unchanged).
-/

namespace Verif.Anonymizer

open Verif

/-- A `std::string`. -/
abbrev Str := List Char

/-- Contents of `m_mapping` (`boost::bimap<std::string, std::string>`), in order of insertion.  The code only finds, inserts, counts, and
    lists in the order of the left keys (`write`). -/
abbrev Mapping := List (Str × Str)

/-- Loop of `getAlpha` (SimpleAnonymizer.cpp l.58-69), `acc` being `result`. -/
def alphaLoop (n : Nat) (acc : Str) : Str :=
  if h : n = 0 then acc
  else
    let m := n - 1
    let r := m % 26
    have : (m - r) / 26 < n := by omega
    alphaLoop ((m - r) / 26) (Char.ofNat (r + 'A'.toNat) :: acc)
termination_by n

/-- `getAlpha` (SimpleAnonymizer.cpp l.58-69). -/
def getAlpha (n : Nat) : Str := alphaLoop n []

/-- `m_mapping.left.find`. -/
def findLeft (m : Mapping) (s : Str) : Option Str := (m.find? fun p => p.1 == s).map (·.2)

/-- `m_mapping.right.find`. -/
def findRight (m : Mapping) (s : Str) : Option Str := (m.find? fun p => p.2 == s).map (·.1)

/-- `bimap::insert`: nothing is inserted when the left or the right value is already there. -/
def insert (m : Mapping) (p : Str × Str) : Mapping :=
  if (findLeft m p.1).isSome || (findRight m p.2).isSome then m else m ++ [p]

/-- `anonymizeString` (SimpleAnonymizer.cpp l.28-40). -/
def anonymize (s : Str) (m : Mapping) : Str × Mapping :=
  if s = [] then ([], m)
  else match findLeft m s with
    | some a => (a, m)
    | none =>
      let a := getAlpha (m.length + 1)
      (a, insert m (s, a))

/-- `deanonymizeString` (SimpleAnonymizer.cpp l.46-56). -/
def deanonymize (s : Str) (m : Mapping) : Out Str :=
  if s = [] then .ok []
  else match findRight m s with
    | some a => .ok a
    | none => .thrown

/-- The names given to a sequence of strings, and the final mapping. -/
def anonymizeAll : List Str → Mapping → List Str × Mapping
  | [], m => ([], m)
  | s :: ss, m =>
    let x := anonymize s m
    let y := anonymizeAll ss x.2
    (x.1 :: y.1, y.2)

/-- `write` (SimpleAnonymizer.cpp l.90-94), for the entries listed in the order of the left keys: one line per entry. -/
def writeEntries : Mapping → Str
  | [] => []
  | p :: ps => p.1 ++ ';' :: (p.2 ++ '\n' :: writeEntries ps)

/-- Lines returned by `std::getline`: the last line needs no end of line, and nothing after the last end of line is no line. -/
def getLines : Str → Str → List Str
  | cur, [] => if cur = [] then [] else [cur]
  | cur, c :: cs => if c = '\n' then cur :: getLines [] cs else getLines (cur ++ [c]) cs

/-- `boost::split(cells, line, is_any_of(";"))`. -/
def split : Str → Str → List Str
  | cur, [] => [cur]
  | cur, c :: cs => if c = ';' then cur :: split [] cs else split (cur ++ [c]) cs

/-- Loop of `read` (SimpleAnonymizer.cpp l.77-87). -/
def readLines : List Str → Mapping → Out Unit × Mapping
  | [], m => (.ok (), m)
  | l :: ls, m =>
    match split [] l with
    | [a, b] => readLines ls (insert m (a, b))
    | _ => (.thrown, m)

/-- `read` (SimpleAnonymizer.cpp l.75-88). -/
def read (content : Str) (m : Mapping) : Out Unit × Mapping := readLines (getLines [] content) m

/-- Later use of an anonymiser. -/
inductive Op where
  | anonymize (s : Str)
  | deanonymize (s : Str)
  | count
  deriving DecidableEq, Repr

/-- What such a call answers. -/
inductive Answer where
  | str (x : Out Str)
  | num (n : Nat)
  deriving DecidableEq, Repr

/-- One call; `getStringCount` is SimpleAnonymizer.cpp l.71-73. -/
def step (o : Op) (m : Mapping) : Answer × Mapping :=
  match o with
  | .anonymize s => let x := anonymize s m; (.str (.ok x.1), x.2)
  | .deanonymize s => (.str (deanonymize s m), m)
  | .count => (.num m.length, m)

/-- The answers to a sequence of calls. -/
def answers : List Op → Mapping → List Answer
  | [], _ => []
  | o :: os, m => let x := step o m; x.1 :: answers os x.2

end Verif.Anonymizer
