import Verif.Calendar.Model

/-!
# Model of the constructors of business day rules, `src/dates/rules.rs:85-119`

The number of steps is a `u32` in the constructors and an `i32` in the rule. It is a natural number below `2 ^ 32` here; the
conversion is the one of Rust's `as`, and a negation that overflows panics (as in a debug build).
-/

namespace QM.Calendar
variable {K : Type}

/-- `step as i32`, `rules.rs:109` and `117`: the value modulo `2 ^ 32`, from the range of `i32`. -/
def asI32 (n : Nat) : Int := if n < 2 ^ 31 then n else (n : Int) - 2 ^ 32

/-- `BusinessDays::new_next`, `rules.rs:89-94`. -/
def newNext (calendar : Cal K) : Rule K := .businessDays calendar 0 true

/-- `BusinessDays::new_prev`, `rules.rs:98-103`. -/
def newPrev (calendar : Cal K) : Rule K := .businessDays calendar 0 false

/-- `BusinessDays::new_step`, `rules.rs:106-111`. -/
def newStep (calendar : Cal K) (n : Nat) : Rule K := .businessDays calendar (asI32 n) true

/-- `BusinessDays::new_back`, `rules.rs:114-119`. The negation overflows for the least `i32`. -/
def newBack (calendar : Cal K) (n : Nat) : Outcome (Rule K) :=
  if asI32 n = -2 ^ 31 then .error .panic else .ok (.businessDays calendar (-asI32 n) false)

end QM.Calendar
