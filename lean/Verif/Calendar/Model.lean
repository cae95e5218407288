import Verif.Dates.Model
import Mathlib.Algebra.Order.Floor.Ring

/-!
# Model of `src/dates/calendar.rs` and `src/dates/rules.rs`

Day fractions, weights and counts are `f64` in the code; here they live in an arbitrary ordered
field `K` (exact arithmetic), so results hold for the reals and can be evaluated over the
rationals. Dates and steps are unbounded integers (`i32` in the code).
-/

namespace QM.Calendar
open QM.Dates

/-- The four calendar kinds. Names are omitted.
`EveryDayCalendar` (`calendar.rs:116`), `WeekdayCalendar` (`:169`),
`WeekdayAndHolidayCalendar` (`:290-294`), `VolatilityCalendar` (`:484-488`). -/
inductive Cal (K : Type) where
  | everyDay
  | weekday
  | weekdayAndHoliday (holidays : List Int)
  | volatility (calendar : Cal K) (holidayWeight : K)

variable {K : Type} [Field K] [LinearOrder K] [IsStrictOrderedRing K] [FloorRing K]

/-- `remaining_holidays`, `calendar.rs:313-320`. The standard library binary search is replaced by
its contract on a sorted list: the offset of the first element not before `from`, and whether that
element is `from`. -/
def remainingHolidays (holidays : List Int) (d : Int) : Nat × Bool :=
  let offset := (holidays.takeWhile (fun h => decide (h < d))).length
  (offset, holidays[offset]? == some d)

/-- `WeekdayCalendar::is_holiday`, `calendar.rs:192-194`. -/
def isWeekend (d : Int) : Outcome Bool := do
  let w ← dayOfWeek d
  pure (decide (w > 4))

/-- `WeekdayAndHolidayCalendar::is_holiday`, `calendar.rs:364-371`. -/
def isHolidayWH (holidays : List Int) (d : Int) : Outcome Bool := do
  let w ← dayOfWeek d
  if w > 4 then pure true else pure (remainingHolidays holidays d).2

theorem isHolidayWH_valid {holidays : List Int} {d : Int} {r : Bool}
    (h : isHolidayWH holidays d = .ok r) : 0 < d ∧ d < 73000 := by
  unfold isHolidayWH dayOfWeek at h
  by_cases hv : isValid d = true
  · simpa [isValid] using hv
  · simp [hv, bind, Except.bind] at h

/-- `Calendar::is_holiday` for each kind (`calendar.rs:137-139`, `192-194`, `364-371`, `514-516`). -/
def isHoliday : Cal K → Int → Outcome Bool
  | .everyDay, _ => .ok false
  | .weekday, d => isWeekend d
  | .weekdayAndHoliday hs, d => isHolidayWH hs d
  | .volatility c _, d => isHoliday c d

/-- `slip_to_next_weekday`, `calendar.rs:274-284`. -/
def slipToNextWeekday (d : Int) (slipForward : Bool) : Outcome Int := do
  let w ← dayOfWeek d
  if w < 5 then pure d
  else if slipForward then pure (d + 7 - w)
  else pure (d + 4 - w)

/-- `WeekdayAndHolidayCalendar::slip_to_next`, `calendar.rs:324-334`; the step argument is `1` or
`-1` at every call site, here a Boolean. -/
def slipToNext (holidays : List Int) (fwd : Bool) (d : Int) : Outcome Int :=
  match h : isHolidayWH holidays d with
  | .error e => .error e
  | .ok false => .ok d
  | .ok true => slipToNext holidays fwd (if fwd then d + 1 else d - 1)
termination_by (if fwd then 73000 - d else d).toNat
decreasing_by
  have := isHolidayWH_valid h
  cases fwd <;> simp <;> omega

/-- `count_holidays`, `calendar.rs:338-351`. -/
def countHolidays (holidays : List Int) (from_ to_ : Int) : Int :=
  let s := remainingHolidays holidays from_
  let e := remainingHolidays holidays to_
  let count := (e.1 : Int) - (s.1 : Int)
  if s.2 then count - 1 else count

/-- `WeekdayCalendar::count_business_days`, `calendar.rs:196-228`. -/
def countWeekday (from_ : Int) (fromFraction : K) (to_ : Int) (toFraction : K) : Outcome K := do
  let adjFrom ← slipToNextWeekday from_ true
  let adjTo ← slipToNextWeekday to_ false
  if adjFrom > adjTo then pure 0
  else
    let wholeDays := adjTo - adjFrom
    let wholeWeeks := wholeDays.tdiv 7
    let weekDays := wholeWeeks * 5
    let wTo ← dayOfWeek adjTo
    let wFrom ← dayOfWeek adjFrom
    let diff := wTo - wFrom
    let partialWeekDays := if diff ≥ 0 then diff else 5 + diff
    let fromIsHoliday := decide ((← dayOfWeek from_) > 4)
    let toIsHoliday := decide ((← dayOfWeek to_) > 4)
    let fromAdj := if fromIsHoliday then 0 else fromFraction
    let toAdj := if toIsHoliday then 1 else toFraction
    let adj := toAdj - fromAdj
    pure (((weekDays + partialWeekDays : Int) : K) + adj)

/-- `WeekdayAndHolidayCalendar::count_business_days`, `calendar.rs:373-409`. -/
def countWH (holidays : List Int) (from_ : Int) (fromFraction : K) (to_ : Int) (toFraction : K) :
    Outcome K := do
  let adjFrom ← slipToNext holidays true from_
  let adjTo ← slipToNext holidays false to_
  if adjFrom > adjTo then pure 0
  else
    let wholeDays := adjTo - adjFrom
    let wholeWeeks := wholeDays.tdiv 7
    let weekDays := wholeWeeks * 5
    let wTo ← dayOfWeek adjTo
    let wFrom ← dayOfWeek adjFrom
    let diff := wTo - wFrom
    let partialWeekDays := if diff ≥ 0 then diff else 5 + diff
    let holidayCount := countHolidays holidays adjFrom adjTo
    let fromIsHoliday ← isHolidayWH holidays from_
    let toIsHoliday ← isHolidayWH holidays to_
    let fromAdj := if fromIsHoliday then 0 else fromFraction
    let toAdj := if toIsHoliday then 1 else toFraction
    let adj := toAdj - fromAdj
    pure (((weekDays + partialWeekDays - holidayCount : Int) : K) + adj)

/-- `Calendar::count_business_days` for each kind (`calendar.rs:141-152`, `196-228`, `373-409`,
`518-538`). -/
def countBusinessDays : Cal K → Int → K → Int → K → Outcome K
  | .everyDay, from_, fromFraction, to_, toFraction =>
    if from_ > to_ then .ok 0
    else .ok (((to_ - from_ : Int) : K) + toFraction - fromFraction)
  | .weekday, from_, fromFraction, to_, toFraction => countWeekday from_ fromFraction to_ toFraction
  | .weekdayAndHoliday hs, from_, fromFraction, to_, toFraction =>
    countWH hs from_ fromFraction to_ toFraction
  | .volatility c w, from_, fromFraction, to_, toFraction =>
    if from_ > to_ then .ok 0
    else do
      let businessDays ← countBusinessDays c from_ fromFraction to_ toFraction
      let allDays := ((to_ - from_ : Int) : K) + toFraction - fromFraction
      pure (businessDays * (1 - w) + allDays * w)

/-- Calendar days for a number of business days, the formula shared by
`calendar.rs:241-248` and `423-430`. -/
def calendarDays (weekDay step : Int) : Int :=
  if step > 0 then step + ((weekDay + step).tdiv 5) * 2
  else step - ((4 - weekDay - step).tdiv 5) * 2

/-- `WeekdayCalendar::step`, `calendar.rs:230-262`. -/
def stepWeekday (from_ step : Int) (slipForward : Bool) : Outcome Int := do
  let adjFrom ← slipToNextWeekday from_ slipForward
  if step = 0 then pure adjFrom
  else
    let weekDay ← dayOfWeek adjFrom
    let to_ := adjFrom + calendarDays weekDay step
    let weekDay' ← dayOfWeek to_
    if weekDay' < 5 then pure to_
    else if step > 0 then pure (to_ + 2)
    else pure (to_ - 2)

/-- The closing loop of `WeekdayAndHolidayCalendar::step`, `calendar.rs:442-451` (forward) and
`455-464` (backward). `extra` is an `i32` that the code only decrements while positive. -/
def stepLoop (holidays : List Int) (fwd : Bool) (d extra : Int) : Outcome Int :=
  match h : isHolidayWH holidays d with
  | .error e => .error e
  | .ok true => stepLoop holidays fwd (if fwd then d + 1 else d - 1) extra
  | .ok false =>
    if extra > 0 then stepLoop holidays fwd (if fwd then d + 1 else d - 1) (extra - 1)
    else .ok d
termination_by (if fwd then 73000 - d else d).toNat
decreasing_by
  all_goals
    have := isHolidayWH_valid h
    cases fwd <;> simp <;> omega

/-- `WeekdayAndHolidayCalendar::step`, `calendar.rs:411-466`. -/
def stepWH (holidays : List Int) (from_ step : Int) (slipForward : Bool) : Outcome Int := do
  let adjFrom ← slipToNext holidays slipForward from_
  if step = 0 then pure adjFrom
  else
    let weekDay ← dayOfWeek adjFrom
    let to_ := adjFrom + calendarDays weekDay step
    let weekDay' ← dayOfWeek to_
    if step > 0 then
      let weekendDays := max (weekDay' - 4) 0
      stepLoop holidays true to_ (countHolidays holidays adjFrom to_ + weekendDays)
    else
      let weekendDays := if weekDay' = 5 then 1 else 0
      stepLoop holidays false to_ (countHolidays holidays to_ adjFrom + weekendDays)

/-- `f as i32` for a float: truncation towards zero (range ignored). -/
def truncToInt (x : K) : Int := if 0 ≤ x then ⌊x⌋ else ⌈x⌉

/-- `f64::round`: nearest integer, halves away from zero. -/
def roundHalfAway (x : K) : Int := if 0 ≤ x then ⌊x + 1 / 2⌋ else ⌈x - 1 / 2⌉

/-- The loop of `VolatilityCalendar::step_partial`, `calendar.rs:571-605`, run for at most `fuel`
turns. `none` means it has not finished; a finished run does not depend on the fuel.
`count` is `self.count_business_days`. -/
def partialLoop (count : Int → K → Int → K → Outcome K) (from_ : Int) (fwd : Bool) (total : K) :
    Nat → Int → K → Int → K → Option (Outcome Int)
  | fuel, date, needed, prevDate, prevSteps =>
    if needed > 0 then
      match fuel with
      | 0 => none
      | fuel + 1 =>
        let whole := ⌊needed + 1 / 10 ^ 12⌋
        let nextStep := max whole 1
        let date' := if fwd then date + nextStep else date - nextStep
        let taken := if fwd then count from_ 0 date' 0 else count date' 1 from_ 1
        match taken with
        | .error e => some (.error e)
        | .ok taken =>
          let needed' := total - taken
          if needed' ≥ -1 then partialLoop count from_ fwd total fuel date' needed' date needed
          else some (.error .panic)
    else if needed < 0 ∧ -needed > prevSteps then some (.ok prevDate)
    else some (.ok date)

/-- `VolatilityCalendar::step_partial` past the zero-weight shortcut, `calendar.rs:556-605`. -/
def stepVolatility (count : Int → K → Int → K → Outcome K) (fuel : Nat) (from_ : Int) (step : K)
    (slipForward : Bool) : Option (Outcome Int) :=
  if step = 0 ∨ slipForward = decide (step > 0) then
    partialLoop count from_ slipForward |step| fuel from_ |step| from_ |step|
  else some (.error .panic)

/-- `Calendar::step_partial` (default `calendar.rs:69-71`; volatility `549-605`) and, through it,
`Calendar::step` of a volatility calendar (`540-547`). `fuel` bounds the turns of the volatility
loop; the other calendars do not use it. -/
def stepPartial (fuel : Nat) : Cal K → Int → K → Bool → Option (Outcome Int)
  | .everyDay, from_, step, _ => some (.ok (from_ + roundHalfAway step))
  | .weekday, from_, step, slipForward => some (stepWeekday from_ (roundHalfAway step) slipForward)
  | .weekdayAndHoliday hs, from_, step, slipForward => some (stepWH hs from_ (roundHalfAway step) slipForward)
  | .volatility c w, from_, step, slipForward =>
    if w < 1 / 10 ^ 12 then
      -- `self.calendar.step(from, step as i32, slip_forward)`
      stepPartial fuel c from_ ((truncToInt step : Int) : K) slipForward
    else
      stepVolatility (countBusinessDays (.volatility c w)) fuel from_ step slipForward

/-- `Calendar::step` for each kind (`calendar.rs:154-156`, `230-262`, `411-466`, `540-547`). -/
def step (fuel : Nat) : Cal K → Int → Int → Bool → Option (Outcome Int)
  | .everyDay, from_, n, _ => some (.ok (from_ + n))
  | .weekday, from_, n, slipForward => some (stepWeekday from_ n slipForward)
  | .weekdayAndHoliday hs, from_, n, slipForward => some (stepWH hs from_ n slipForward)
  | .volatility c w, from_, n, slipForward =>
    stepPartial fuel (.volatility c w) from_ (n : K) slipForward

/-- `Calendar::day_weight` (`calendar.rs:62-64`, volatility `614-616`). -/
def dayWeight : Cal K → Int → Outcome K
  | .volatility c w, d => do
    let h ← isHoliday c d
    pure (if h then w else 1)
  | c, d => do
    let h ← isHoliday c d
    pure (if h then 0 else 1)

/-- `Calendar::standard_basis` (`calendar.rs:158-163`, `264-269`, `468-473`, `607-612`). -/
def standardBasis : Cal K → K
  | .everyDay => 365
  | .weekday => 252
  | .weekdayAndHoliday _ => 252
  | .volatility c w => standardBasis c * (1 - w) + 365 * w

/-- `Calendar::year_fraction`, `calendar.rs:75-80`. A point in time is a date with a day fraction. -/
def yearFraction (c : Cal K) (from_ to_ : Int × K) : Outcome K := do
  let days ← countBusinessDays c from_.1 from_.2 to_.1 to_.2
  pure (days / standardBasis c)

/-! ## Date rules, `src/dates/rules.rs` -/

/-- `NullRule`, `BusinessDays` and `ModifiedFollowing` (`rules.rs:50-167`). -/
inductive Rule (K : Type) where
  | null
  | businessDays (calendar : Cal K) (step : Int) (slipForward : Bool)
  | modifiedFollowing (calendar : Cal K)

/-- `DateRule::apply` (`rules.rs:57-59`, `126-130`, `153-168`). -/
def Rule.apply (fuel : Nat) : Rule K → Int → Option (Outcome Int)
  | .null, d => some (.ok d)
  | .businessDays c n slipForward, d => Calendar.step fuel c d n slipForward
  | .modifiedFollowing c, d =>
    match Calendar.step fuel c d 0 true with
    | none => none
    | some (.error e) => some (.error e)
    | some (.ok forward) =>
      if (ymd forward).2.1 = (ymd d).2.1 then some (.ok forward)
      else Calendar.step fuel c d 0 false

end QM.Calendar
