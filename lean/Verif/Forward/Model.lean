import Verif.Dividends.Model

/-!
# Model of `src/data/forward.rs`

Over the real numbers. A NaN rate is treated as a failure of the query, so that forwards are numbers.
The settlement rule is an arbitrary total function of dates (its model is `Verif/Calendar/Model.lean`).
-/

namespace QM.Forward
open QM.Interp (Num)
open QM.Curves QM.Dividends

/-- A NaN is treated as a failure. -/
def number : Outcome (Num ℝ) → Outcome ℝ
  | .error e => .error e
  | .ok .nan => .error .err
  | .ok (.val x) => .ok x

/-- `log_discount_with_borrow`, `forward.rs:177-183`. -/
noncomputable def logDiscountWithBorrow (rate borrow : RateCurve) (date : Int) : Outcome ℝ := do
  let rt ← number (rate.rt date)
  let qt ← number (borrow.rt date)
  pure (qt - rt)

/-- `discount_with_borrow`, `forward.rs:167-172`. -/
noncomputable def discountWithBorrow (rate borrow : RateCurve) (baseQtMinusRt : ℝ) (date : Int) : Outcome ℝ := do
  let logDiscount ← logDiscountWithBorrow rate borrow date
  pure (Real.exp (logDiscount - baseQtMinusRt))

/-- The discounting used by the dividend bootstrap, `divstream.rs:224`, `257` and `271`. -/
noncomputable def bootstrapDiscount (rate borrow : RateCurve) (baseDate : Int) : Outcome (Int → Outcome ℝ) := do
  let base ← logDiscountWithBorrow rate borrow baseDate
  pure (discountWithBorrow rate borrow base)

/-- `DividendBootstrap::new` on a stream and two curves, `divstream.rs:198-304`. -/
noncomputable def bootstrapStream (divs : DividendStream) (rate borrow : RateCurve) (spot : ℝ) (baseDate highWaterMark : Int) :
    Outcome (Bootstrap ℝ) :=
  Bootstrap.new divs.dividends divs.lastCash divs.divYield.isZero divs.divYield.baseDate
    (bootstrapDiscount rate borrow baseDate) spot baseDate highWaterMark

/-- `EquityForward`, `forward.rs:82-90`. -/
structure EquityForward where
  settlement : Int → Int
  rate : RateCurve
  borrow : RateCurve
  divYield : RateCurve
  bootstrap : Bootstrap ℝ
  referenceSpot : ℝ
  baseLogDiscount : ℝ

/-- `EquityForward::forward`, `forward.rs:95-111`. -/
noncomputable def EquityForward.forward (f : EquityForward) (date : Int) : Outcome ℝ := do
  let divs ← f.bootstrap.discountedSumFromBase date
  let payDate := f.settlement date
  let logDf ← logDiscountWithBorrow f.rate f.borrow payDate
  let logDivYield ← number (f.divYield.rt payDate)
  let growth := Real.exp (f.baseLogDiscount + logDivYield - logDf)
  pure ((f.referenceSpot - divs) * growth)

/-- `fixed_divs_after`, `forward.rs:113-115`. -/
noncomputable def EquityForward.fixedDivsAfter (f : EquityForward) (date : Int) : Outcome (Num ℝ) :=
  f.bootstrap.discountedCashDivsAfter date

/-- `EquityForward::new`, `forward.rs:119-153`. -/
noncomputable def EquityForward.new (baseDate : Int) (spot : ℝ) (settlement : Int → Int) (rate borrow : RateCurve)
    (divs : DividendStream) (highWaterMark : Int) : Outcome EquityForward := do
  let baseLogDiscount ← logDiscountWithBorrow rate borrow baseDate
  let spotDate := settlement baseDate
  let spotDf ← discountWithBorrow rate borrow baseLogDiscount spotDate
  let referenceSpot := spot * spotDf
  let b ← bootstrapStream divs rate borrow referenceSpot baseDate highWaterMark
  pure ⟨settlement, rate, borrow, divs.divYield, b, referenceSpot, baseLogDiscount⟩

end QM.Forward
