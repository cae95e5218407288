import Mathlib.Algebra.Order.Floor.Ring
import Mathlib.Data.Int.Log
import Mathlib.Algebra.Order.Field.Power

/-!
# Rounded arithmetic

What IEEE 754 promises about the result of one operation, away from overflow and underflow: the exact result is
rounded, and rounding is as `Rounding` says. `Rounding.binary` is rounding to the nearest number of `p` significant
bits, ties to even, with no limit on the exponent; `p = 53` is `f64`.
-/

namespace QM.Rounded

variable {K : Type} [Field K] [LinearOrder K]

/-- A way of rounding exact results. -/
structure Rounding (K : Type) [Field K] [LinearOrder K] where
  /-- The rounded value. -/
  rnd : K → K
  /-- The largest relative error. -/
  unit : K
  mono : ∀ x y, x ≤ y → rnd x ≤ rnd y
  idem : ∀ x, rnd (rnd x) = rnd x
  neg : ∀ x, rnd (-x) = -rnd x
  /-- Every `i32`, and every difference of two, is a float. -/
  int : ∀ n : ℤ, |n| ≤ 2 ^ 32 → rnd n = n
  /-- The relative error is bounded. -/
  close : ∀ x, |rnd x - x| ≤ unit * |x|
  small : unit < 1

/-- A number that rounding leaves alone. -/
def Rounding.IsFloat (r : Rounding K) (x : K) : Prop := r.rnd x = x

section
variable [FloorRing K]

/-- The nearest integer, ties to even. -/
def nearest (x : K) : ℤ :=
  if x - ⌊x⌋ < 1 / 2 then ⌊x⌋
  else if 1 / 2 < x - ⌊x⌋ then ⌊x⌋ + 1
  else if 2 ∣ ⌊x⌋ then ⌊x⌋ else ⌊x⌋ + 1

/-- The weight of the last of `p` bits of a number as large as `x`. -/
def lastBit (p : ℕ) (x : K) : K := 2 ^ (Int.log 2 |x| - (p - 1))

/-- The nearest number of `p` significant bits, ties to even. -/
def toBits (p : ℕ) (x : K) : K := nearest (x / lastBit p x) * lastBit p x

end

end QM.Rounded
