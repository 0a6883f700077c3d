/-!
Values of the C++ type `double` as seen by the validation code: comparisons, `std::isnan`.

A value is a NaN, an infinity or a finite number.  Finite numbers are rationals: every finite `double` is one, and the
validation code only compares and stores them.  All NaN values are identified.  `-0.0` and `0.0` are identified (no modelled
code distinguishes them).
-/

namespace Verif

/-- A `double`. -/
inductive Dbl where
  | nan
  | negInf
  | fin (q : Rat)
  | posInf
  deriving DecidableEq, Repr

namespace Dbl

instance : OfNat Dbl n := ⟨fin (OfNat.ofNat n)⟩

/-- `std::isnan`. -/
def isNan : Dbl → Bool
  | nan => true
  | _ => false

/-- `a < b` of C++ (false when an operand is NaN). -/
def lt : Dbl → Dbl → Bool
  | nan, _ => false
  | _, nan => false
  | negInf, negInf => false
  | negInf, _ => true
  | _, negInf => false
  | posInf, _ => false
  | _, posInf => true
  | fin a, fin b => decide (a < b)

/-- `a <= b` of C++, also `std::islessequal` (false when an operand is NaN). -/
def le : Dbl → Dbl → Bool
  | nan, _ => false
  | _, nan => false
  | negInf, _ => true
  | _, negInf => false
  | _, posInf => true
  | posInf, _ => false
  | fin a, fin b => decide (a ≤ b)

/-- `std::numeric_limits<double>::max()`. -/
def maxRat : Rat := (2 ^ 53 - 1) * 2 ^ 971

/-- A value that the type `double` can hold: a NaN, an infinity, or a finite number not larger than the largest one.
    (Necessary, not sufficient: the precision is not constrained.) -/
def InRange : Dbl → Prop
  | fin q => -maxRat ≤ q ∧ q ≤ maxRat
  | _ => True

theorem not_le_of_lt {a b : Dbl} (h : lt a b = true) : le b a = false := by
  cases a <;> cases b <;> simp_all [lt, le]
  grind

theorem le_of_not_lt {a b : Dbl} (ha : a.isNan = false) (hb : b.isNan = false) (h : lt a b = false) : le b a = true := by
  cases a <;> cases b <;> simp_all [lt, le, isNan]
  grind

theorem lt_of_not_le {a b : Dbl} (ha : a.isNan = false) (hb : b.isNan = false) (h : le a b = false) : lt b a = true := by
  cases a <;> cases b <;> simp_all [lt, le, isNan]
  grind

theorem not_nan_of_lt {a b : Dbl} (h : lt a b = true) : a.isNan = false ∧ b.isNan = false := by
  cases a <;> cases b <;> simp_all [lt, isNan]

theorem not_nan_of_le {a b : Dbl} (h : le a b = true) : a.isNan = false ∧ b.isNan = false := by
  cases a <;> cases b <;> simp_all [le, isNan]

theorem le_trans {a b c : Dbl} (h : le a b = true) (h' : le b c = true) : le a c = true := by
  cases a <;> cases b <;> cases c <;> simp_all [le]
  grind

theorem lt_trans {a b c : Dbl} (h : lt a b = true) (h' : lt b c = true) : lt a c = true := by
  cases a <;> cases b <;> cases c <;> simp_all [lt]
  grind

theorem le_refl {a : Dbl} (h : a.isNan = false) : le a a = true := by
  cases a <;> simp_all [le, isNan]

theorem lt_irrefl (a : Dbl) : lt a a = false := by
  cases a <;> simp [lt]

theorem le_of_lt {a b : Dbl} (h : lt a b = true) : le a b = true := by
  cases a <;> cases b <;> simp_all [lt, le]
  grind

theorem lt_of_lt_of_le {a b c : Dbl} (h : lt a b = true) (h' : le b c = true) : lt a c = true := by
  cases a <;> cases b <;> cases c <;> simp_all [lt, le]
  grind

theorem lt_of_le_of_lt {a b c : Dbl} (h : le a b = true) (h' : lt b c = true) : lt a c = true := by
  cases a <;> cases b <;> cases c <;> simp_all [lt, le]
  grind

end Dbl

end Verif
