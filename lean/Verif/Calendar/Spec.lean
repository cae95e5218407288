import Verif.Calendar.Model
import Mathlib.Algebra.BigOperators.Group.Finset.Basic
import Mathlib.Order.Interval.Finset.Basic
import Mathlib.Data.Int.Interval

/-!
# Specification of calendars

Written from the trait documentation (`src/dates/calendar.rs:27-81`), day by day, without the
week arithmetic of the implementation.
-/

namespace QM.Calendar.Spec

/-- Monday to Friday. Day number 18120, 1 January 2018, is a Monday (see `C04`). -/
def Weekday (d : Int) : Prop := (d - 18120) % 7 < 5

instance : DecidablePred Weekday := fun d => by unfold Weekday; infer_instance

/-- Business days of each kind of calendar. -/
def Biz {K : Type} : Cal K → Int → Prop
  | .everyDay, _ => True
  | .weekday, d => Weekday d
  | .weekdayAndHoliday hs, d => Weekday d ∧ d ∉ hs
  | .volatility c _, d => Biz c d

instance instDecBiz {K : Type} : (c : Cal K) → DecidablePred (Biz c)
  | .everyDay => fun _ => isTrue trivial
  | .weekday => fun d => (inferInstance : Decidable (Weekday d))
  | .weekdayAndHoliday hs => fun d => (inferInstance : Decidable (Weekday d ∧ d ∉ hs))
  | .volatility c _ => fun d => instDecBiz c d

/-- The documented requirement on a holiday list (`calendar.rs:292-293`): in date order, no
duplicates, no weekend dates. -/
def GoodHolidays (hs : List Int) : Prop := hs.Pairwise (· < ·) ∧ ∀ h ∈ hs, Weekday h

/-- The same requirement for a calendar built from others. -/
def Good {K : Type} : Cal K → Prop
  | .everyDay => True
  | .weekday => True
  | .weekdayAndHoliday hs => GoodHolidays hs
  | .volatility c _ => Good c

/-- Valid dates, the only ones for which a weekday is defined. -/
def Valid (d : Int) : Prop := 0 < d ∧ d < 73000

instance : DecidablePred Valid := fun d => by unfold Valid; infer_instance

/-- `e` is where a zero step from `d` must end: the nearest business day at or after `d`
(slipping forward), or at or before it. -/
def IsSlip (biz : Int → Prop) (fwd : Bool) (d e : Int) : Prop :=
  biz e ∧ if fwd then d ≤ e ∧ ∀ x, d ≤ x → x < e → ¬ biz x
          else e ≤ d ∧ ∀ x, e < x → x ≤ d → ¬ biz x

/-- `e` is the first business day after `d` (forward), or the last one before it. -/
def IsNext (biz : Int → Prop) (fwd : Bool) (d e : Int) : Prop :=
  biz e ∧ if fwd then d < e ∧ ∀ x, d < x → x < e → ¬ biz x
          else e < d ∧ ∀ x, e < x → x < d → ¬ biz x

/-- `n` single moves from business day to business day. -/
def Moves (biz : Int → Prop) (fwd : Bool) : Nat → Int → Int → Prop
  | 0, a, b => a = b
  | n + 1, a, c => ∃ b, Moves biz fwd n a b ∧ IsNext biz fwd b c

/-- The documented meaning of `step`: a zero step, then single moves in the direction of the sign
of the step. -/
def IsStep (biz : Int → Prop) (slipForward : Bool) (from_ n to_ : Int) : Prop :=
  ∃ a, IsSlip biz slipForward from_ a ∧ Moves biz (decide (0 ≤ n)) n.natAbs a to_

open scoped BigOperators in
/-- Day-by-day weighted count between two points in time, as in the tests' `manual_count`
(`calendar.rs:860-876`): every day from first to last inclusive with its weight, less the elapsed
part of the first and the remaining part of the last. -/
def manualCount {K : Type} [Field K] (weight : Int → K) (from_ : Int) (fromFraction : K) (to_ : Int)
    (toFraction : K) : K :=
  (∑ d ∈ Finset.Icc from_ to_, weight d) - weight from_ * fromFraction
    - weight to_ * (1 - toFraction)

/-- Weight of a day: one on business days, `w` on the others. -/
def weightOf {K : Type} [Field K] (biz : Int → Prop) [DecidablePred biz] (w : K) (d : Int) : K :=
  if biz d then 1 else w

/-- Calendars that step in whole business days: all but volatility calendars whose holiday weight
is non-zero (to the precision of the code, `1e-12`). -/
def Whole {K : Type} [Field K] [LinearOrder K] : Cal K → Prop
  | .everyDay => True
  | .weekday => True
  | .weekdayAndHoliday _ => True
  | .volatility c w => w < 1 / 10 ^ 12 ∧ Whole c

/-- Calendars that give holidays no weight at all. -/
def NoHolidayWeight {K : Type} [Field K] : Cal K → Prop
  | .everyDay => True
  | .weekday => True
  | .weekdayAndHoliday _ => True
  | .volatility c w => w = 0 ∧ NoHolidayWeight c

/-- A calendar that is not a volatility calendar. -/
def Plain {K : Type} : Cal K → Prop
  | .volatility _ _ => False
  | _ => True

/-- A volatility calendar, if there is one, decorates a plain calendar. -/
def NotNested {K : Type} : Cal K → Prop
  | .volatility c _ => Plain c
  | _ => True

/-- All holiday weights are between zero and one. -/
def GoodWeights {K : Type} [Field K] [LinearOrder K] : Cal K → Prop
  | .everyDay => True
  | .weekday => True
  | .weekdayAndHoliday _ => True
  | .volatility c w => 0 ≤ w ∧ w ≤ 1 ∧ GoodWeights c

/-- Length of a conventional year in weighted days: 365 days of which, on calendars with weekends, 252 are business days, when
the others have the weight `w`. -/
def yearLength {K : Type} [Field K] (everyDayIsBusiness : Bool) (w : K) : K :=
  if everyDayIsBusiness then 365 else 252 + (365 - 252) * w

/-- The calendar on which every day is a business day. -/
def isEveryDay {K : Type} : Cal K → Bool
  | .everyDay => true
  | _ => false

/-- `n` successive calls of a partial function given as a relation. -/
def Chain (r : Int → Int → Prop) : Nat → Int → Int → Prop
  | 0, a, b => a = b
  | n + 1, a, c => ∃ b, Chain r n a b ∧ r b c

/-- Two days in the same month of the same year. -/
def SameMonth (a b : Int) : Prop :=
  (Dates.ymd a).1 = (Dates.ymd b).1 ∧ (Dates.ymd a).2.1 = (Dates.ymd b).2.1

end QM.Calendar.Spec
