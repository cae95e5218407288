import Verif.Interp.Model
import Mathlib.Analysis.SpecialFunctions.Log.Basic

/-!
# Model of `src/data/curves.rs` and `src/data/bumpyield.rs`

Rates are exact real numbers or NaN. The logarithm of a number that is not positive is NaN (for zero
Rust gives minus infinity, which is not modelled separately). Dates are day numbers. Reference counting
is not modelled: decorators hold the curve they decorate.
-/

namespace QM.Curves
open QM.Interp

/-- The implementations of `RateCurve`, `curves.rs:92-294`. -/
inductive RateCurve where
  /-- `ZeroRateCurve`, `curves.rs:92-95` -/
  | zero (base : Int)
  /-- `RateCurveAct365`, `curves.rs:130-134` -/
  | act365 (base : Int) (interp : Linear ℝ)
  /-- `AnnualisedFlatBump`, `curves.rs:174-178` -/
  | annualisedFlatBump (curve : RateCurve) (bump : ℝ)
  /-- `ContinuouslyCompoundedFlatBump`, `curves.rs:220-224` -/
  | continuouslyCompoundedFlatBump (curve : RateCurve) (bump : ℝ)
  /-- `RelativeBump`, `curves.rs:255-259` -/
  | relativeBump (curve : RateCurve) (onePlusBump : ℝ)

/-- `base_date`, `curves.rs:104`, `153-155`, `204-206`, `237-239`, `272-274`. -/
def RateCurve.baseDate : RateCurve → Int
  | .zero base => base
  | .act365 base _ => base
  | .annualisedFlatBump curve _ => curve.baseDate
  | .continuouslyCompoundedFlatBump curve _ => curve.baseDate
  | .relativeBump curve _ => curve.baseDate

/-- `is_zero`, `curves.rs:30`, `105`. -/
def RateCurve.isZero : RateCurve → Bool
  | .zero _ => true
  | _ => false

/-- Apply a function of numbers to a number or NaN. -/
def onNum (f : ℝ → Num ℝ) : Num ℝ → Num ℝ
  | .nan => .nan
  | .val x => f x

open Classical in
/-- `f64::ln`. -/
noncomputable def ln (x : ℝ) : Num ℝ := if 0 < x then .val (Real.log x) else .nan

/-- `r_and_t`, `curves.rs:101-103`, `141-151`, `186-202`, `232-235`, `267-270`. -/
noncomputable def RateCurve.rAndT : RateCurve → Int → Outcome (Num ℝ × ℝ)
  | .zero _, _ => .ok (.val 0, 0)
  | .act365 base interp, date =>
    if date - base = 0 then .ok (.val 0, 0)
    else do
      let r ← interp.interpolate (.val (date : ℝ))
      pure (r, ((date - base : Int) : ℝ) / 365)
  | .annualisedFlatBump curve bump, date => do
    let (r, t) ← curve.rAndT date
    pure (onNum (fun r => ln (Real.exp r + bump)) r, t)
  | .continuouslyCompoundedFlatBump curve bump, date => do
    let (r, t) ← curve.rAndT date
    pure (onNum (fun r => .val (r + bump)) r, t)
  | .relativeBump curve onePlusBump, date => do
    let (r, t) ← curve.rAndT date
    pure (onNum (fun r => .val (r * onePlusBump)) r, t)

/-- `rt`, `curves.rs:40-43`. -/
noncomputable def RateCurve.rt (c : RateCurve) (date : Int) : Outcome (Num ℝ) := do
  let (r, t) ← c.rAndT date
  pure (onNum (fun r => .val (r * t)) r)

/-- `df`, `curves.rs:48-56`. -/
noncomputable def RateCurve.df (c : RateCurve) (from_ to_ : Int) : Outcome (Num ℝ) :=
  if from_ = to_ then .ok (.val 1)
  else do
    let fromRt ← c.rt from_
    let toRt ← c.rt to_
    pure (match fromRt, toRt with
      | .val f, .val t => .val (Real.exp (t - f))
      | _, _ => .nan)

/-- `RateCurveAct365::new`, `curves.rs:161-166`. -/
noncomputable def RateCurve.newAct365 (base : Int) (curve : List (Int × ℝ)) (left right : Extrap) : Outcome RateCurve := do
  let interp ← Linear.new (curve.map (fun p => (.val (p.1 : ℝ), p.2))) left right
  pure (.act365 base interp)

/-- `AnnualisedFlatBump::new`, `curves.rs:210-212`. -/
def RateCurve.newAnnualisedFlatBump (curve : RateCurve) (bump : ℝ) : RateCurve := .annualisedFlatBump curve bump

/-- `ContinuouslyCompoundedFlatBump::new`, `curves.rs:243-246`. -/
def RateCurve.newContinuouslyCompoundedFlatBump (curve : RateCurve) (bump : ℝ) : RateCurve :=
  .continuouslyCompoundedFlatBump curve bump

/-- `RelativeBump::new`, `curves.rs:278-280`: the bump itself is stored as `one_plus_bump`. -/
def RateCurve.newRelativeBump (curve : RateCurve) (bump : ℝ) : RateCurve := .relativeBump curve bump

/-- `BumpYield`, `bumpyield.rs:9-12`. -/
inductive BumpYield where
  | flatAnnualised (size : ℝ)
  | flatContinuouslyCompounded (size : ℝ)

/-- `Bumper::apply` for `BumpYield`, `bumpyield.rs:24-41`. -/
def BumpYield.apply : BumpYield → RateCurve → RateCurve
  | .flatAnnualised size, c => .newAnnualisedFlatBump c size
  | .flatContinuouslyCompounded size, c => .newContinuouslyCompoundedFlatBump c size

end QM.Curves
