import Verif.Fixings.Model
import Verif.Rounded.Model

/-!
# Model of `src/dates/datetime.rs`

`TimeOfDay` and `DateTime` are those of `Verif.Fixings.Model`. Dates are day numbers without bounds: `i32` overflow is not
modelled. A day fraction may be NaN. Sums and differences of fractions are rounded by any rounding `r`.
-/

namespace QM.Times
open QM.Fixings (TimeOfDay DateTime)
open QM.Interp (Num)
open QM.Rounded (Rounding dateDiff)

/-- The derived `Ord` of `TimeOfDay`, `datetime.rs:21-26`: the order of the variants. -/
def TimeOfDay.cmp : TimeOfDay → TimeOfDay → Ordering
  | .open, .open => .eq
  | .open, _ => .lt
  | .edsp, .open => .gt
  | .edsp, .edsp => .eq
  | .edsp, .close => .lt
  | .close, .close => .eq
  | .close, _ => .gt

/-- The derived `Ord` of `DateTime`, `datetime.rs:40-44`: field by field. -/
def DateTime.cmp (a b : DateTime) : Ordering :=
  match compare a.date b.date with
  | .eq => TimeOfDay.cmp a.timeOfDay b.timeOfDay
  | o => o

/-- `DateTime + i32`, `datetime.rs:55-61`, and `+=`, `63-67`. -/
def DateTime.add (a : DateTime) (n : Int) : DateTime := ⟨a.date + n, a.timeOfDay⟩

/-- `DateDayFraction`, `datetime.rs:83-87`. The derived `Deserialize` fills the fields with whatever numbers it reads. -/
structure DateDayFraction (K : Type) where
  date : Int
  fraction : Num K
deriving DecidableEq

variable {K : Type} [Field K] [LinearOrder K]

/-- `DateDayFraction::new`, `datetime.rs:90-93`. -/
def DateDayFraction.new (date : Int) (fraction : Num K) : Outcome (DateDayFraction K) :=
  match fraction with
  | .nan => .error .panic
  | .val x => if x ≥ 0 ∧ x < 1 then .ok ⟨date, .val x⟩ else .error .panic

/-- `DateDayFraction + i32`, `datetime.rs:99-105`: through the constructor. -/
def DateDayFraction.add (a : DateDayFraction K) (n : Int) : Outcome (DateDayFraction K) :=
  DateDayFraction.new (a.date + n) a.fraction

/-- `DateDayFraction += i32`, `datetime.rs:107-111`: in place. -/
def DateDayFraction.addAssign (a : DateDayFraction K) (n : Int) : DateDayFraction K := ⟨a.date + n, a.fraction⟩

/-- `f64::partial_cmp`. -/
def partialCmp : Num K → Num K → Option Ordering
  | .val x, .val y => some (if x < y then .lt else if y < x then .gt else .eq)
  | _, _ => none

/-- The derived `PartialOrd` of `DateDayFraction`, `datetime.rs:83`: field by field. -/
def DateDayFraction.partialCmp (a b : DateDayFraction K) : Option Ordering :=
  match compare a.date b.date with
  | .eq => Times.partialCmp a.fraction b.fraction
  | o => some o

/-- `Ord::cmp`, `datetime.rs:113-117`, and `interp_cmp`, `136-146`: both panic if there is no order. -/
def DateDayFraction.cmp (a b : DateDayFraction K) : Outcome Ordering :=
  match a.partialCmp b with
  | some o => .ok o
  | none => .error .panic

/-- `interp_diff`, `datetime.rs:131-134`. -/
def DateDayFraction.interpDiff (r : Rounding K) (a b : DateDayFraction K) : Num K :=
  match a.fraction, b.fraction with
  | .val x, .val y => .val (r.rnd (r.rnd (dateDiff r a.date b.date + y) - x))
  | _, _ => .nan

end QM.Times
