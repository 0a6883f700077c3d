/-! Model of the terminal finder (TerminalFinder.cpp).

A terminal is a value of any type with decidable equality (its address); a rule is a predicate on it. -/

namespace Verif.Finder

variable {τ : Type}

/-- Loop of the comparator (TerminalFinder.cpp l.32-37). -/
def compareRules : List (τ → Bool) → τ → τ → Bool
  | [], _, _ => false
  | p :: ps, t1, t2 => if p t1 || p t2 then !p t1 && p t2 else compareRules ps t1 t2

/-- `getComparator` (TerminalFinder.cpp l.27-39). -/
def comparator [DecidableEq τ] (rules : List (τ → Bool)) (t1 t2 : τ) : Bool :=
  if t1 = t2 then false else compareRules rules t1 t2

/-- Loop of `std::max_element`: the candidate is replaced only by an element it is less than. -/
def maxLoop (lt : τ → τ → Bool) : τ → List τ → τ
  | best, [] => best
  | best, t :: ts => if lt best t then maxLoop lt t ts else maxLoop lt best ts

/-- `find` with a comparator (TerminalFinder.cpp l.60-68). -/
def findWith (lt : τ → τ → Bool) : List τ → Option τ
  | [] => none
  | t :: ts => some (maxLoop lt t ts)

/-- `find` with a list of rules (TerminalFinder.cpp l.52-58). -/
def find [DecidableEq τ] (rules : List (τ → Bool)) (ts : List τ) : Option τ := findWith (comparator rules) ts

/-- Types of connectable, for the default rules. -/
inductive Kind where
  | busbarSection | injection | hvdcStation | branch | threeWindings
  deriving DecidableEq, Repr

/-- A terminal: its address and the type of its connectable. -/
structure Terminal where
  addr : Nat
  kind : Kind
  deriving DecidableEq, Repr

/-- `getDefaultRules` (TerminalFinder.cpp l.41-50).  `BusbarSection` and `HvdcConverterStation` are subclasses of `Injection` (BusbarSection.hpp,
    HvdcConverterStation.hpp). -/
def defaultRules : List (Terminal → Bool) := [
  fun t => t.kind == .busbarSection,
  fun t => t.kind == .busbarSection || t.kind == .injection || t.kind == .hvdcStation,
  fun t => t.kind == .branch,
  fun t => t.kind == .threeWindings,
  fun t => t.kind == .hvdcStation]

end Verif.Finder
