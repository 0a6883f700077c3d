import Verif.LimitSet.Model

/-! What the limits of an equipment should be: told from the calls that were accepted. -/

namespace Verif.LimitSet

open Verif Verif.Limits

/-- What an accepted call has done. -/
inductive Fact where
  | nothing
  | added (side : Nat) (k : Kind) (n : Nat) (ll : LL)
  | removed (n : Nat)
  | changed (n : Nat) (x : Dbl)
  deriving DecidableEq, Repr

def fact : Op → Out (Option Nat) → Fact
  | .add side k p ts, .ok (some n) => .added side k n ⟨p, ts⟩
  | .remove n, .ok _ => .removed n
  | .setPermanent n x, .ok _ => .changed n x
  | _, _ => .nothing

/-- The facts, the last one first, and the equipment they lead to; nothing is said after an undefined call. -/
inductive Reach (sides : Nat) : List Fact → Eqp → Prop where
  | init : Reach sides [] (fresh sides)
  | step {h w} (o : Op) : Reach sides h w → (step w o).1 ≠ .ub → Reach sides (fact o (step w o).1 :: h) (step w o).2

/-- The limits of a kind on a side: those of the last addition, with the permanent limit last given to that object, unless that object was
    removed. -/
def latest (side : Nat) (k : Kind) : List Fact → Option (Nat × LL)
  | [] => none
  | .added side' k' n ll :: h => if side' = side ∧ k' = k then some (n, ll) else latest side k h
  | .removed n :: h => (latest side k h).filter fun p => p.1 != n
  | .changed n x :: h => (latest side k h).map fun p => if p.1 = n then (n, { p.2 with permanent := x }) else p
  | .nothing :: h => latest side k h

/-- The kinds there are limits of, in the order of the enumeration. -/
def kinds : List Kind := [.active, .apparent, .current]

/-- An object is there: it is the one of some kind on some side. -/
def Alive (h : List Fact) (n : Nat) : Prop := ∃ side k ll, latest side k h = some (n, ll)

/-- The size of a flow, whichever way it goes. -/
def size : Dbl → Dbl
  | .nan => .nan
  | .negInf => .posInf
  | .fin q => .fin (if q < 0 then -q else q)
  | .posInf => .posInf

/-- What is to be compared with the limits of a kind: the size of the active power, the apparent power, the current. -/
def flow (sqrt : Dbl → Dbl) (m : Meas) : Kind → Dbl
  | .active => size m.p
  | .apparent => sqrt (Dbl.add (Dbl.mul m.p m.p) (Dbl.mul m.q m.q))
  | _ => m.i

/-- The permanent limit in force is reached. -/
def Reached (x : Option (Nat × LL)) (reduction v : Dbl) : Prop :=
  ∃ n ll, x = some (n, ll) ∧ ll.permanent.isNan = false ∧ v.isNan = false ∧ Dbl.le (Dbl.mul ll.permanent reduction) v = true

end Verif.LimitSet
