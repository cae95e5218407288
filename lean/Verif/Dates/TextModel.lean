import Verif.Dates.Model

/-!
# Model of date text and of 32-bit arithmetic in `src/dates/mod.rs`

Rust `i32` arithmetic panics on overflow in a debug build and wraps in a release build. Both are
modelled, so that the absence of overflow is a theorem and not an assumption.
-/

namespace QM.Dates

/-- How the crate was compiled: overflow checks on, or off. -/
inductive Build where
  | debug
  | release
  deriving DecidableEq, Repr

/-- The value fits in an `i32`. -/
def InI32 (x : Int) : Prop := -2147483648 ≤ x ∧ x ≤ 2147483647

instance (x : Int) : Decidable (InI32 x) := by unfold InI32; infer_instance

/-- Result of one `i32` operation whose mathematical value is `x`. -/
def i32 (b : Build) (x : Int) : Outcome Int :=
  if InI32 x then .ok x
  else match b with
    | .debug => .error .panic
    | .release => .ok (x.bmod 4294967296)

/-- `truncated_julian_from_ymd`, `src/dates/mod.rs:244-251`, with every operation done in `i32`. -/
def truncatedJulianFromYmd32 (b : Build) (year month date : Int) : Outcome Int := do
  let yearMonth := (← i32 b (month - 14)).tdiv 12
  let t0 ← i32 b (date - 32075)
  let a1 ← i32 b (year + 4800)
  let a2 ← i32 b (a1 + yearMonth)
  let a3 ← i32 b (1461 * a2)
  let t1 ← i32 b (t0 + a3.tdiv 4)
  let m1 ← i32 b (month - 2)
  let m2 ← i32 b (yearMonth * 12)
  let m3 ← i32 b (m1 - m2)
  let m4 ← i32 b (367 * m3)
  let t2 ← i32 b (t1 + m4.tdiv 12)
  let c1 ← i32 b (year + 4900)
  let c2 ← i32 b (c1 + yearMonth)
  let c3 ← i32 b (3 * c2.tdiv 100)
  let t3 ← i32 b (t2 - c3.tdiv 4)
  i32 b (t3 - 2440000)

/-- `ymd_from_truncated_julian`, `src/dates/mod.rs:255-268`, with every operation done in `i32`. -/
def ymdFromTruncatedJulian32 (b : Build) (tj : Int) : Outcome (Int × Int × Int) := do
  let julian ← i32 b (tj + 2440000)
  let l1 ← i32 b (julian + 68569)
  let n := (← i32 b (4 * l1)).tdiv 146097
  let p1 ← i32 b (146097 * n)
  let p2 ← i32 b (p1 + 3)
  let l2 ← i32 b (l1 - p2.tdiv 4)
  let p3 ← i32 b (l2 + 1)
  let p4 ← i32 b (4000 * p3)
  let i1 := p4.tdiv 1461001
  let p5 ← i32 b (1461 * i1)
  let p6 ← i32 b (l2 - p5.tdiv 4)
  let l3 ← i32 b (p6 + 31)
  let p7 ← i32 b (80 * l3)
  let j1 := p7.tdiv 2447
  let p8 ← i32 b (2447 * j1)
  let k1 ← i32 b (l3 - p8.tdiv 80)
  let l4 := j1.tdiv 11
  let p9 ← i32 b (j1 + 2)
  let p10 ← i32 b (12 * l4)
  let j2 ← i32 b (p9 - p10)
  let p11 ← i32 b (n - 49)
  let p12 ← i32 b (100 * p11)
  let p13 ← i32 b (p12 + i1)
  let i2 ← i32 b (p13 + l4)
  pure (i2, j2, k1)

/-- `str::split("-")` on the characters of a string (`src/dates/mod.rs:108`). -/
def splitDash : List Char → List (List Char)
  | [] => [[]]
  | c :: cs =>
    if c = '-' then [] :: splitDash cs
    else match splitDash cs with
      | [] => [[c]]
      | p :: ps => (c :: p) :: ps

/-- Value of an ASCII digit. -/
def digitVal (c : Char) : Option Int :=
  if '0' ≤ c ∧ c ≤ '9' then some (Int.ofNat (c.toNat - '0'.toNat)) else none

/-- Decimal digits accumulated from the left; `none` on a non-digit. -/
def parseDigits : Int → List Char → Option Int
  | acc, [] => some acc
  | acc, c :: cs => match digitVal c with
    | none => none
    | some v => parseDigits (acc * 10 + v) cs

/-- Optional sign, then at least one ASCII digit. -/
def parseSigned : List Char → Option Int
  | '+' :: c :: cs => parseDigits 0 (c :: cs)
  | '-' :: c :: cs => (parseDigits 0 (c :: cs)).map (fun v => -v)
  | c :: cs => parseDigits 0 (c :: cs)
  | [] => none

/-- `str::parse::<i32>` (standard library, used at `src/dates/mod.rs:112`): an optional sign, at
least one ASCII digit, value within range. -/
def parseI32 (s : List Char) : Option Int :=
  match parseSigned s with
  | some v => if InI32 v then some v else none
  | none => none

/-- One turn of the parsing loop, `src/dates/mod.rs:111-116`: `ymd[i]` panics when there is no
such part; a failed parse is an error. -/
def parsePart (parts : List (List Char)) (i : Nat) : Outcome Int :=
  match parts[i]? with
  | none => .error .panic
  | some p => match parseI32 p with
    | none => .error .err
    | some v => .ok v

/-- `Date::from_str`, `src/dates/mod.rs:103-126`. -/
def fromStr (b : Build) (s : List Char) : Outcome Int := do
  let parts := splitDash s
  let y ← parsePart parts 0
  let m ← parsePart parts 1
  let d ← parsePart parts 2
  let result ← truncatedJulianFromYmd32 b y m d
  if isValid result then .ok result else .error .err

/-- Character of a decimal digit. -/
def digitChar (n : Nat) : Char := Char.ofNat ('0'.toNat + n)

/-- Decimal representation of a natural number. -/
def natDigits (n : Nat) : List Char :=
  if n < 10 then [digitChar n] else natDigits (n / 10) ++ [digitChar (n % 10)]

/-- `{:0w}` formatting of an integer: sign, then zeros up to the width (standard library, used at
`src/dates/mod.rs:158`). -/
def fmtPad (w : Nat) (x : Int) : List Char :=
  if x < 0 then
    let ds := natDigits x.natAbs
    '-' :: (List.replicate (w - 1 - ds.length) '0' ++ ds)
  else
    let ds := natDigits x.natAbs
    List.replicate (w - ds.length) '0' ++ ds

/-- ISO text of a triple, the format string at `src/dates/mod.rs:158`. -/
def isoText (t : Int × Int × Int) : List Char :=
  fmtPad 4 t.1 ++ '-' :: (fmtPad 2 t.2.1 ++ '-' :: fmtPad 2 t.2.2)

/-- `Display for Date`, `src/dates/mod.rs:155-160`; also the serialised form (lines 129-138). -/
def display (d : Date) : List Char := isoText (ymd d)

/-- `Debug for Date`, `src/dates/mod.rs:164-180`: the day of the week, whose `assert!` panics, and the ISO text. -/
def debugText (d : Date) : Outcome (List Char) := do
  let day := match ← dayOfWeek d with
    | 0 => "Mon"
    | 1 => "Tue"
    | 2 => "Wed"
    | 3 => "Thu"
    | 4 => "Fri"
    | 5 => "Sat"
    | 6 => "Sun"
    | _ => "???"
  pure (day.toList ++ ' ' :: isoText (ymd d))

end QM.Dates
