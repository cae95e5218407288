import Verif.Basic

/-!
# Model of `src/dates/mod.rs`

A `Date` is its truncated Julian day number (an `i32`, `src/dates/mod.rs:30-40`), here an `Int`.
Rust's `/` and `%` on `i32` truncate towards zero: `Int.tdiv`, `Int.tmod`.
-/

namespace QM.Dates

/-- `Date(i32)`, `src/dates/mod.rs`. `Add<i32>`, `Sub<i32>`, `Sub<Date>` and `Ord` are those of the
day number (lines 41-96), so they are those of `Int` here. -/
scoped notation "Date" => Int

/-- `truncated_julian_from_ymd`, `src/dates/mod.rs:244-251`. -/
def truncatedJulianFromYmd (year month date : Int) : Int :=
  let yearMonth := (month - 14).tdiv 12
  let julian := date - 32075
    + (1461 * (year + 4800 + yearMonth)).tdiv 4
    + (367 * (month - 2 - yearMonth * 12)).tdiv 12
    - (3 * ((year + 4900 + yearMonth).tdiv 100)).tdiv 4
  julian - 2440000

/-- `ymd_from_truncated_julian`, `src/dates/mod.rs:255-268`. -/
def ymdFromTruncatedJulian (truncatedJulian : Int) : Int × Int × Int :=
  let julian := truncatedJulian + 2440000
  let l1 := julian + 68569
  let n := (4 * l1).tdiv 146097
  let l2 := l1 - (146097 * n + 3).tdiv 4
  let i1 := (4000 * (l2 + 1)).tdiv 1461001
  let l3 := l2 - (1461 * i1).tdiv 4 + 31
  let j1 := (80 * l3).tdiv 2447
  let k1 := l3 - (2447 * j1).tdiv 80
  let l4 := j1.tdiv 11
  let j2 := j1 + 2 - 12 * l4
  let i2 := 100 * (n - 49) + i1 + l4
  (i2, j2, k1)

/-- `Date::from_ymd`, `src/dates/mod.rs:211-214`. -/
def fromYmd (y m d : Int) : Date := truncatedJulianFromYmd y m d

/-- `Date::ymd`, `src/dates/mod.rs:217-219`. -/
def ymd (d : Date) : Int × Int × Int := ymdFromTruncatedJulian d

/-- `Date::from_nil`, `src/dates/mod.rs:197-199`. -/
def fromNil : Date := 0

/-- `Date::is_valid`, `src/dates/mod.rs:229-232`. -/
def isValid (d : Date) : Bool := decide (d > 0) && decide (d < 200 * 365)

/-- `Date::day_of_week`, `src/dates/mod.rs:236-239`; the `assert!` is a panic. -/
def dayOfWeek (d : Date) : Outcome Int :=
  if isValid d then .ok ((d + 3).tmod 7) else .error .panic

end QM.Dates
