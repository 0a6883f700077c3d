import Verif.Common.Dbl

/-!
Arithmetic on `double`: the IEEE rules for NaN and infinities; exact on finite values (no rounding, no overflow).

Division by zero depends on the sign of the zero, which is not modelled: `div` gives `none` there, and callers must treat that case.
-/

namespace Verif.Dbl

/-- Unary minus. -/
def neg : Dbl → Dbl
  | nan => nan
  | negInf => posInf
  | fin q => fin (-q)
  | posInf => negInf

/-- `a + b`. -/
def add : Dbl → Dbl → Dbl
  | nan, _ => nan
  | _, nan => nan
  | fin a, fin b => fin (a + b)
  | posInf, negInf => nan
  | negInf, posInf => nan
  | posInf, _ => posInf
  | negInf, _ => negInf
  | fin _, b => b

/-- `a - b`. -/
def sub (a b : Dbl) : Dbl := add a (neg b)

/-- An infinity with the sign of the rational, NaN for zero (`inf * 0`). -/
def signedInf (q : Rat) : Dbl := if q = 0 then nan else if 0 < q then posInf else negInf

/-- `a * b`. -/
def mul : Dbl → Dbl → Dbl
  | nan, _ => nan
  | _, nan => nan
  | fin a, fin b => fin (a * b)
  | posInf, posInf => posInf
  | posInf, negInf => negInf
  | negInf, posInf => negInf
  | negInf, negInf => posInf
  | posInf, fin q => signedInf q
  | fin q, posInf => signedInf q
  | negInf, fin q => signedInf (-q)
  | fin q, negInf => signedInf (-q)

/-- `a / b`; `none` when the result depends on the sign of a zero. -/
def div : Dbl → Dbl → Option Dbl
  | nan, _ => some nan
  | _, nan => some nan
  | fin a, fin b => if b = 0 then (if a = 0 then some nan else none) else some (fin (a / b))
  | fin _, posInf => some 0
  | fin _, negInf => some 0
  | posInf, fin b => if b = 0 then none else some (signedInf b)
  | negInf, fin b => if b = 0 then none else some (signedInf (-b))
  | _, _ => some nan

/-- Multiplication by a positive number is monotone. -/
theorem mul_le_mul {a b : Dbl} {q : Rat} (hq : 0 < q) (h : le a b = true) : le (mul a (fin q)) (mul b (fin q)) = true := by
  have h0 : ¬ q = 0 := by grind
  have h1 : ¬ -q = 0 := by grind
  have h2 : ¬ 0 < -q := by grind
  cases a <;> cases b <;> simp_all [le, mul, signedInf]
  exact Rat.mul_le_mul_of_nonneg_right h (Rat.le_of_lt hq)

/-- Multiplying a number by a positive one never gives NaN. -/
theorem mul_not_nan {a : Dbl} {q : Rat} (hq : 0 < q) (h : a.isNan = false) : (mul a (fin q)).isNan = false := by
  have h0 : ¬ q = 0 := by grind
  have h1 : ¬ -q = 0 := by grind
  have h2 : ¬ 0 < -q := by grind
  cases a <;> simp_all [mul, signedInf, isNan]

end Verif.Dbl
