import Verif.Vol.Model
import Mathlib.Probability.CDF
import Mathlib.Probability.Distributions.Gaussian.Real

/-!
# Model of `src/math/optionpricing.rs`

The formula divides by the square root of a variance and takes the logarithm of a ratio, so infinities matter
here: a strike of zero and a variance of zero give infinite arguments of the normal distribution.
The cumulative normal distribution of the `statrs` crate is replaced by the exact one.
-/

namespace QM.Instruments
open QM.Interp QM.Vol

/-- The standard normal cumulative distribution, `Normal::cdf` of the `statrs` crate. -/
noncomputable def Phi (x : ℝ) : ℝ := ProbabilityTheory.cdf (ProbabilityTheory.gaussianReal 0 1) x

/-- A floating point number: NaN, an infinity or a number. -/
inductive Ext where
  | nan | ninf | pinf | val (x : ℝ)

open Classical in
/-- `(forward / strike).ln()`, `optionpricing.rs:26` and `36`. -/
noncomputable def logMoneyness : Num ℝ → Num ℝ → Ext
  | .val f, .val k =>
    if k = 0 then
      (if f = 0 then .nan else if 0 < f then .pinf else .nan)
    else if f = 0 then .ninf
    else if 0 < f / k then .val (Real.log (f / k))
    else .nan
  | _, _ => .nan

open Classical in
/-- Division of a floating point number by a number that is not negative. -/
noncomputable def Ext.div : Ext → ℝ → Ext
  | .nan, _ => .nan
  | .ninf, _ => .ninf
  | .pinf, _ => .pinf
  | .val x, y => if y = 0 then (if 0 < x then .pinf else if x < 0 then .ninf else .nan) else .val (x / y)

/-- Addition of a number. -/
noncomputable def Ext.add : Ext → ℝ → Ext
  | .nan, _ => .nan
  | .ninf, _ => .ninf
  | .pinf, _ => .pinf
  | .val x, y => .val (x + y)

/-- Negation. -/
noncomputable def Ext.neg : Ext → Ext
  | .nan => .nan
  | .ninf => .pinf
  | .pinf => .ninf
  | .val x => .val (-x)

/-- `d_plus_minus`, `optionpricing.rs:49-53`. -/
noncomputable def dPlusMinus (logMoneyness : Ext) : Num ℝ → Ext × Ext
  | .nan => (.nan, .nan)
  | .val s =>
    let dPlus := (logMoneyness.div s).add (0.5 * s)
    (dPlus, dPlus.add (-s))

/-- `cdf`, `optionpricing.rs:42-44`. -/
noncomputable def cdf : Ext → Num ℝ
  | .nan => .nan
  | .ninf => .val 0
  | .pinf => .val 1
  | .val x => .val (Phi x)

/-- `Black76::call_price`, `optionpricing.rs:23-30`. -/
noncomputable def callPrice (df forward strike sqrtVariance : Num ℝ) : Num ℝ :=
  let d := dPlusMinus (logMoneyness forward strike) sqrtVariance
  num2 (· * ·) df (num2 (· - ·) (num2 (· * ·) (cdf d.1) forward) (num2 (· * ·) (cdf d.2) strike))

/-- `Black76::put_price`, `optionpricing.rs:33-40`. -/
noncomputable def putPrice (df forward strike sqrtVariance : Num ℝ) : Num ℝ :=
  let d := dPlusMinus (logMoneyness forward strike) sqrtVariance
  num2 (· * ·) df (num2 (· - ·) (num2 (· * ·) (cdf d.2.neg) strike) (num2 (· * ·) (cdf d.1.neg) forward))

end QM.Instruments
