import Verif.Rounded.CurveModel
import Verif.Dividends.Model

/-!
# Forwards in rounded arithmetic

`src/data/forward.rs` and the bootstrap of `src/data/divstream.rs`, with every floating-point operation rounded, in the order in which the code does them. A NaN rate is treated as a
failure of the query, as in `Verif/Forward/Model.lean`, whose comments on the data apply. The cash
that remains after a date is filled in without rounding; nothing here reads it.
-/

namespace QM.Rounded
open QM.Interp (Num)
open QM.Dividends (Dividend Accumulation Bootstrap LoopState)

/-- `base_date`, `curves.rs:104`, `153-155`, `204-206`, `237-239`, `272-274`. -/
def RateCurve.baseDate : RateCurve → Int
  | .zero base => base
  | .act365 base _ => base
  | .annualisedFlatBump curve _ => curve.baseDate
  | .continuouslyCompoundedFlatBump curve _ => curve.baseDate
  | .relativeBump curve _ => curve.baseDate

/-- `is_zero`, `curves.rs:30`, `105`. -/
def RateCurve.isZero : RateCurve → Bool
  | .zero _ => true
  | _ => false

/-- A NaN is treated as a failure. -/
def number : Outcome (Num ℝ) → Outcome ℝ
  | .error e => .error e
  | .ok .nan => .error .err
  | .ok (.val x) => .ok x

/-- `log_discount_with_borrow`, `forward.rs:177-183`. -/
noncomputable def logDiscountWithBorrow (r : Rounding ℝ) (lib : Library) (rate borrow : RateCurve) (date : Int) : Outcome ℝ := do
  let rt ← number (rate.rt r lib date)
  let qt ← number (borrow.rt r lib date)
  pure (r.rnd (qt - rt))

/-- `discount_with_borrow`, `forward.rs:167-172`. -/
noncomputable def discountWithBorrow (r : Rounding ℝ) (lib : Library) (rate borrow : RateCurve) (baseQtMinusRt : ℝ) (date : Int) : Outcome ℝ := do
  let logDiscount ← logDiscountWithBorrow r lib rate borrow date
  pure (lib.exp (r.rnd (logDiscount - baseQtMinusRt)))

/-- Adding one dividend to the sums, `divstream.rs:255-276`. -/
noncomputable def addDividend (r : Rounding ℝ) (spot : ℝ) (df : Int → Outcome ℝ) (d : Dividend ℝ) (s : LoopState ℝ) : Outcome (LoopState ℝ) := do
  let f ← df d.payDate
  let cashPv := r.rnd (d.cash * f)
  let s := { s with
    undiscountedSum := r.rnd (s.undiscountedSum + d.cash)
    discountedSum := r.rnd (s.discountedSum + cashPv)
    discountedCash := r.rnd (s.discountedCash + cashPv) }
  if d.relative ≠ 0 then
    let g ← df d.exDate
    let growth := r.rnd (1 / g)
    let fwd := r.rnd (r.rnd (spot - s.prevDiscountedSum) * growth)
    let relativeAmount := r.rnd (d.relative * fwd)
    pure { s with
      undiscountedSum := r.rnd (s.undiscountedSum + relativeAmount)
      discountedSum := r.rnd (s.discountedSum + r.rnd (relativeAmount * f)) }
  else pure s

/-- The bootstrap loop, `divstream.rs:232-277`. -/
noncomputable def bootstrapLoop (r : Rounding ℝ) (baseDate bootstrapTo : Int) (spot : ℝ) (df : Int → Outcome ℝ) :
    List (Dividend ℝ) → LoopState ℝ → Outcome (LoopState ℝ)
  | [], s => .ok s
  | d :: rest, s =>
    if d.exDate < baseDate then bootstrapLoop r baseDate bootstrapTo spot df rest s
    else if d.exDate < s.prevExDate then .error .err
    else if d.exDate > bootstrapTo then .ok s
    else do
      let s := if d.exDate > s.prevExDate then
          { s with accumulation := s.pushed, prevExDate := d.exDate, prevDiscountedSum := s.discountedSum }
        else s
      let s ← addDividend r spot df d s
      bootstrapLoop r baseDate bootstrapTo spot df rest s

/-- `DividendStream`, `divstream.rs:78-83`. -/
structure DividendStream where
  dividends : List (Dividend ℝ)
  divYield : RateCurve
  lastCash : Int

/-- `DividendBootstrap::new`, `divstream.rs:198-304`. -/
noncomputable def bootstrapStream (r : Rounding ℝ) (lib : Library) (divs : DividendStream) (rate borrow : RateCurve) (spot : ℝ) (baseDate highWaterMark : Int) :
    Outcome (Bootstrap ℝ) :=
  match divs.dividends.getLast? with
  | none => .ok ⟨baseDate, highWaterMark, []⟩
  | some last =>
    if !divs.divYield.isZero ∧ last.exDate > divs.divYield.baseDate then .error .err
    else do
      let bootstrapTo := max highWaterMark divs.lastCash
      let base ← logDiscountWithBorrow r lib rate borrow baseDate
      let s ← bootstrapLoop r baseDate bootstrapTo spot (discountWithBorrow r lib rate borrow base) divs.dividends ⟨baseDate, 0, 0, 0, 0, []⟩
      let acc := if s.prevExDate > baseDate then s.pushed else s.accumulation
      pure ⟨baseDate, bootstrapTo, QM.Dividends.fillRemaining acc⟩

/-- `EquityForward`, `forward.rs:82-90`. -/
structure EquityForward where
  settlement : Int → Int
  rate : RateCurve
  borrow : RateCurve
  divYield : RateCurve
  bootstrap : Bootstrap ℝ
  referenceSpot : ℝ
  baseLogDiscount : ℝ

/-- `EquityForward::forward`, `forward.rs:95-111`. -/
noncomputable def EquityForward.forward (r : Rounding ℝ) (lib : Library) (f : EquityForward) (date : Int) : Outcome ℝ := do
  let divs ← f.bootstrap.discountedSumFromBase date
  let payDate := f.settlement date
  let logDf ← logDiscountWithBorrow r lib f.rate f.borrow payDate
  let logDivYield ← number (f.divYield.rt r lib payDate)
  let growth := lib.exp (r.rnd (r.rnd (f.baseLogDiscount + logDivYield) - logDf))
  pure (r.rnd (r.rnd (f.referenceSpot - divs) * growth))

/-- `EquityForward::new`, `forward.rs:119-153`. -/
noncomputable def EquityForward.new (r : Rounding ℝ) (lib : Library) (baseDate : Int) (spot : ℝ) (settlement : Int → Int) (rate borrow : RateCurve)
    (divs : DividendStream) (highWaterMark : Int) : Outcome EquityForward := do
  let baseLogDiscount ← logDiscountWithBorrow r lib rate borrow baseDate
  let spotDate := settlement baseDate
  let spotDf ← discountWithBorrow r lib rate borrow baseLogDiscount spotDate
  let referenceSpot := r.rnd (spot * spotDf)
  let b ← bootstrapStream r lib divs rate borrow referenceSpot baseDate highWaterMark
  pure ⟨settlement, rate, borrow, divs.divYield, b, referenceSpot, baseLogDiscount⟩

end QM.Rounded
