import Verif.Rounded.Model
import Mathlib.Analysis.SpecialFunctions.Log.Basic

/-!
# Rate curves and portfolio values in rounded arithmetic

`src/data/curves.rs` and the sum of `src/pricers/selfpricer.rs`, with every floating-point operation rounded. The functions `exp` and `ln` are those of a
maths library, of which only what `Library` says is known. Values that are infinite, overflow and underflow are not modelled.
-/

namespace QM.Rounded
open QM.Interp (Num Extrap)

/-- What is assumed of the maths library: its functions keep the order, are exact at nought, and have a small relative error. -/
structure Library where
  exp : ℝ → ℝ
  ln : ℝ → ℝ
  /-- The largest relative error. -/
  error : ℝ
  expMono : ∀ x y, x ≤ y → exp x ≤ exp y
  lnMono : ∀ x y, 0 < x → x ≤ y → ln x ≤ ln y
  expZero : exp 0 = 1
  expClose : ∀ x, |exp x - Real.exp x| ≤ error * Real.exp x
  lnClose : ∀ x, 0 < x → |ln x - Real.log x| ≤ error * |Real.log x|
  small : error ≤ 1 / 2

/-- The curves of `curves.rs`: `ZeroRateCurve` at 91-94, `RateCurveAct365` at 131-135, `AnnualisedFlatBump` at 175-179,
`ContinuouslyCompoundedFlatBump` at 220-224, `RelativeBump` at 254-259. -/
inductive RateCurve where
  | zero (base : Int)
  | act365 (base : Int) (interp : Linear ℝ)
  | annualisedFlatBump (curve : RateCurve) (bump : ℝ)
  | continuouslyCompoundedFlatBump (curve : RateCurve) (bump : ℝ)
  | relativeBump (curve : RateCurve) (onePlusBump : ℝ)

/-- Applies a function to a number. -/
def onVal (f : ℝ → Num ℝ) : Num ℝ → Num ℝ
  | .nan => .nan
  | .val x => f x

/-- The time of `RateCurveAct365::r_and_t`, `curves.rs:145-150`: days over 365. -/
noncomputable def act365 (r : Rounding ℝ) (base date : Int) : ℝ := r.rnd (r.rnd ((date - base : Int) : ℝ) / 365)

/-- `r_and_t`, `curves.rs:101-103`, `curves.rs:140-153`, `curves.rs:186-205`, `curves.rs:232-235` and `curves.rs:267-270`. The logarithm of a number that is not positive is no number. -/
noncomputable def RateCurve.rAndT (r : Rounding ℝ) (lib : Library) : RateCurve → Int → Outcome (Num ℝ × ℝ)
  | .zero _, _ => .ok (.val 0, 0)
  | .act365 base interp, date =>
    if date - base = 0 then .ok (.val 0, 0)
    else do
      let rate ← interp.interpolate r date
      pure (rate, Rounded.act365 r base date)
  | .annualisedFlatBump curve bump, date => do
    let (rate, t) ← curve.rAndT r lib date
    pure (onVal (fun x => if 0 < r.rnd (lib.exp x + bump) then .val (lib.ln (r.rnd (lib.exp x + bump))) else .nan) rate, t)
  | .continuouslyCompoundedFlatBump curve bump, date => do
    let (rate, t) ← curve.rAndT r lib date
    pure (onVal (fun x => .val (r.rnd (x + bump))) rate, t)
  | .relativeBump curve onePlusBump, date => do
    let (rate, t) ← curve.rAndT r lib date
    pure (onVal (fun x => .val (r.rnd (x * onePlusBump))) rate, t)

/-- `rt`, `curves.rs:40-43`. -/
noncomputable def RateCurve.rt (r : Rounding ℝ) (lib : Library) (c : RateCurve) (date : Int) : Outcome (Num ℝ) := do
  let (rate, t) ← c.rAndT r lib date
  pure (onVal (fun x => .val (r.rnd (x * t))) rate)

/-- `df`, `curves.rs:48-56`. -/
noncomputable def RateCurve.df (r : Rounding ℝ) (lib : Library) (c : RateCurve) (from_ to_ : Int) : Outcome (Num ℝ) :=
  if from_ = to_ then .ok (.val 1)
  else do
    let fromRt ← c.rt r lib from_
    let toRt ← c.rt r lib to_
    pure (onVal (fun f => onVal (fun t => .val (lib.exp (r.rnd (t - f)))) toRt) fromRt)

/-- `RateCurveAct365::new`, `curves.rs:161-166`. -/
noncomputable def RateCurve.newAct365 (r : Rounding ℝ) (base : Int) (curve : List (Int × ℝ)) (left right : Extrap) : Outcome RateCurve := do
  let interp ← Linear.new r curve left right
  pure (.act365 base interp)

variable {K : Type} [Field K] [LinearOrder K]

/-- The sum of `SelfPricer::price`, `selfpricer.rs:114-120`, given what each position is worth. -/
def total (r : Rounding K) (positions : List (K × K)) : K :=
  positions.foldl (fun total p => r.rnd (total + r.rnd (p.1 * p.2))) 0

end QM.Rounded
