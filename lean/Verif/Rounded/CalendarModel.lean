import Verif.Rounded.Spec
import Verif.Calendar.Model

/-!
# Business time and flat volatility in rounded arithmetic

`count_business_days`, `standard_basis` and `year_fraction` of `src/dates/calendar.rs`, and the variances of a flat surface
(`src/data/volsurface.rs`), with every floating-point operation rounded. Dates are integers, as in `Calendar/Model.lean`, and the
conversion of a number of days to `f64` is exact (it is an `i32`). Values that are NaN or infinite, overflow and underflow are not
modelled.
-/

namespace QM.Rounded
open QM.Calendar (Cal slipToNextWeekday slipToNext countHolidays isHolidayWH)
open QM.Dates (dayOfWeek)

variable {K : Type} [Field K] [LinearOrder K]

/-- `WeekdayCalendar::count_business_days`, `calendar.rs:196-228`. -/
def countWeekday (r : Rounding K) (from_ : Int) (fromFraction : K) (to_ : Int) (toFraction : K) : Outcome K := do
  let adjFrom ← slipToNextWeekday from_ true
  let adjTo ← slipToNextWeekday to_ false
  if adjFrom > adjTo then pure 0
  else
    let wholeDays := adjTo - adjFrom
    let wholeWeeks := wholeDays.tdiv 7
    let weekDays := wholeWeeks * 5
    let wTo ← dayOfWeek adjTo
    let wFrom ← dayOfWeek adjFrom
    let diff := wTo - wFrom
    let partialWeekDays := if diff ≥ 0 then diff else 5 + diff
    let fromIsHoliday := decide ((← dayOfWeek from_) > 4)
    let toIsHoliday := decide ((← dayOfWeek to_) > 4)
    let fromAdj := if fromIsHoliday then 0 else fromFraction
    let toAdj := if toIsHoliday then 1 else toFraction
    let adj := r.rnd (toAdj - fromAdj)
    pure (r.rnd (((weekDays + partialWeekDays : Int) : K) + adj))

/-- `WeekdayAndHolidayCalendar::count_business_days`, `calendar.rs:373-409`. -/
def countWH (r : Rounding K) (holidays : List Int) (from_ : Int) (fromFraction : K) (to_ : Int) (toFraction : K) : Outcome K := do
  let adjFrom ← slipToNext holidays true from_
  let adjTo ← slipToNext holidays false to_
  if adjFrom > adjTo then pure 0
  else
    let wholeDays := adjTo - adjFrom
    let wholeWeeks := wholeDays.tdiv 7
    let weekDays := wholeWeeks * 5
    let wTo ← dayOfWeek adjTo
    let wFrom ← dayOfWeek adjFrom
    let diff := wTo - wFrom
    let partialWeekDays := if diff ≥ 0 then diff else 5 + diff
    let holidayCount := countHolidays holidays adjFrom adjTo
    let fromIsHoliday ← isHolidayWH holidays from_
    let toIsHoliday ← isHolidayWH holidays to_
    let fromAdj := if fromIsHoliday then 0 else fromFraction
    let toAdj := if toIsHoliday then 1 else toFraction
    let adj := r.rnd (toAdj - fromAdj)
    pure (r.rnd (((weekDays + partialWeekDays - holidayCount : Int) : K) + adj))

/-- `Calendar::count_business_days` for each kind (`calendar.rs:141-152`, `196-228`, `373-409`, `518-538`). -/
def countBusinessDays (r : Rounding K) : Cal K → Int → K → Int → K → Outcome K
  | .everyDay, from_, fromFraction, to_, toFraction =>
    if from_ > to_ then .ok 0
    else .ok (r.rnd (r.rnd (((to_ - from_ : Int) : K) + toFraction) - fromFraction))
  | .weekday, from_, fromFraction, to_, toFraction => countWeekday r from_ fromFraction to_ toFraction
  | .weekdayAndHoliday hs, from_, fromFraction, to_, toFraction => countWH r hs from_ fromFraction to_ toFraction
  | .volatility c w, from_, fromFraction, to_, toFraction =>
    if from_ > to_ then .ok 0
    else do
      let businessDays ← countBusinessDays r c from_ fromFraction to_ toFraction
      let allDays := r.rnd (r.rnd (((to_ - from_ : Int) : K) + toFraction) - fromFraction)
      pure (r.rnd (r.rnd (businessDays * r.rnd (1 - w)) + r.rnd (allDays * w)))

/-- `standard_basis` for each kind (`calendar.rs:158-163`, `264-269`, `468-473`, `607-612`). -/
def standardBasis (r : Rounding K) : Cal K → K
  | .everyDay => 365
  | .weekday => 252
  | .weekdayAndHoliday _ => 252
  | .volatility c w => r.rnd (r.rnd (standardBasis r c * r.rnd (1 - w)) + r.rnd (365 * w))

/-- `Calendar::year_fraction`, `calendar.rs:75-80`. -/
def yearFraction (r : Rounding K) (c : Cal K) (from_ to_ : Int × K) : Outcome K := do
  let days ← countBusinessDays r c from_.1 from_.2 to_.1 to_.2
  pure (r.rnd (days / standardBasis r c))

/-- `FlatVolSurface`, `volsurface.rs:407-411`. -/
structure Flat (K : Type) where
  vol : K
  calendar : Cal K
  baseDate : Int × K

/-- `variances`, `volsurface.rs:80-98`, on `FlatVolSurface::volatilities`, `volsurface.rs:418-431`. -/
def Flat.variances (r : Rounding K) (s : Flat K) (t : Int × K) (strikes : List K) : Outcome (List K) := do
  let time ← yearFraction r s.calendar s.baseDate t
  pure (strikes.map fun _ => r.rnd (r.rnd (time * s.vol) * s.vol))

/-- The differences of `volsurface.rs:176-182`: the first one that is negative ends the loop with an error. -/
def differences (r : Rounding K) : List K → List K → Outcome (List K)
  | a :: as, b :: bs =>
    let fwd := r.rnd (a - b)
    if fwd < 0 then .error .err
    else do
      let rest ← differences r as bs
      pure (fwd :: rest)
  | _, _ => .ok []

/-- `forward_variances`, `volsurface.rs:124-186`; a flat surface has no forward. The order of points in time is that of
`datetime.rs:83`, first by date. -/
def Flat.forwardVariances (r : Rounding K) (s : Flat K) (from_ to_ : Int × K) (strikes : List K) : Outcome (List K) :=
  if from_.1 < s.baseDate.1 ∨ (from_.1 = s.baseDate.1 ∧ from_.2 ≤ s.baseDate.2) then s.variances r to_ strikes
  else do
    let fromVariances ← s.variances r from_ strikes
    let variances ← s.variances r to_ strikes
    differences r variances fromVariances

end QM.Rounded
