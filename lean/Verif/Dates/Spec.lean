/-!
# Specification: the Gregorian calendar

Independent of the Julian-day formulas: month lengths, leap years, the successor of a day, and
the weekday obtained by counting days from a known Monday (1 January 2018).
-/

namespace QM.Dates.Spec

/-- Gregorian leap year. -/
def isLeap (y : Int) : Bool := y % 4 == 0 && (y % 100 != 0 || y % 400 == 0)

/-- Number of days in a month. -/
def daysInMonth (y m : Int) : Int :=
  if m = 2 then (if isLeap y then 29 else 28)
  else if m = 4 ∨ m = 6 ∨ m = 9 ∨ m = 11 then 30
  else 31

/-- A year, month, day. -/
abbrev Ymd := Int × Int × Int

/-- `(y, m, d)` is a real calendar day. -/
def IsDay (t : Ymd) : Prop :=
  1 ≤ t.2.1 ∧ t.2.1 ≤ 12 ∧ 1 ≤ t.2.2 ∧ t.2.2 ≤ daysInMonth t.1 t.2.1

instance (t : Ymd) : Decidable (IsDay t) := by unfold IsDay; infer_instance

/-- The next calendar day. -/
def next (t : Ymd) : Ymd :=
  if t.2.2 < daysInMonth t.1 t.2.1 then (t.1, t.2.1, t.2.2 + 1)
  else if t.2.1 < 12 then (t.1, t.2.1 + 1, 1)
  else (t.1 + 1, 1, 1)

/-- `k` days later. -/
def later : Nat → Ymd → Ymd
  | 0, t => t
  | k + 1, t => next (later k t)

/-- Calendar order: lexicographic in year, month, day. -/
def Before (s t : Ymd) : Prop :=
  s.1 < t.1 ∨ (s.1 = t.1 ∧ (s.2.1 < t.2.1 ∨ (s.2.1 = t.2.1 ∧ s.2.2 < t.2.2)))

/-- The decimal digits. -/
def digits : List Char := "0123456789".toList

/-- A string of decimal digits, with its value. -/
inductive Digits : List Char → Nat → Prop
  | nil : Digits [] 0
  | snoc {ds : List Char} {v : Nat} (n : Nat) (c : Char) : Digits ds v → digits[n]? = some c → Digits (ds ++ [c]) (10 * v + n)

/-- A number as text, with an optional sign, that fits in 32 bits. -/
def Numeral (p : List Char) (v : Int) : Prop :=
  (∃ ds n, Digits ds n ∧ ds ≠ [] ∧ ((p = ds ∧ v = n) ∨ (p = '+' :: ds ∧ v = n) ∨ (p = '-' :: ds ∧ v = -n))) ∧
    -2 ^ 31 ≤ v ∧ v < 2 ^ 31

end QM.Dates.Spec
