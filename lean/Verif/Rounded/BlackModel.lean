import Verif.Rounded.CurveModel
import Verif.Instruments.Normal

/-!
# Black's formula in rounded arithmetic

`src/math/optionpricing.rs`, with every floating-point operation rounded, in the order in which the code does them. The forward, the strike and the square root of the variance are positive
numbers in every theorem, since the code divides by two of them; infinities and NaN are not modelled here. The normal distribution of `statrs` is anything that keeps the promises of `NormalLibrary`.
-/

namespace QM.Rounded

/-- What is asked of `Normal::cdf` of the `statrs` crate, `optionpricing.rs:42-44`: it keeps the order, gives probabilities, and is within an error of the distribution function. -/
structure NormalLibrary where
  cdf : ℝ → ℝ
  /-- The largest absolute error. -/
  error : ℝ
  mono : ∀ x y, x ≤ y → cdf x ≤ cdf y
  nonneg : ∀ x, 0 ≤ cdf x
  le_one : ∀ x, cdf x ≤ 1
  close : ∀ x, |cdf x - QM.Instruments.Phi x| ≤ error

/-- `d_plus_minus`, `optionpricing.rs:49-53`. -/
noncomputable def dPlusMinus (r : Rounding ℝ) (logMoneyness sqrtVariance : ℝ) : ℝ × ℝ :=
  let dPlus := r.rnd (r.rnd (logMoneyness / sqrtVariance) + r.rnd (1 / 2 * sqrtVariance))
  (dPlus, r.rnd (dPlus - sqrtVariance))

/-- `Black76::call_price`, `optionpricing.rs:23-30`. -/
noncomputable def callPrice (r : Rounding ℝ) (lib : Library) (normal : NormalLibrary) (df forward strike sqrtVariance : ℝ) : ℝ :=
  let logMoneyness := lib.ln (r.rnd (forward / strike))
  let d := dPlusMinus r logMoneyness sqrtVariance
  r.rnd (df * r.rnd (r.rnd (normal.cdf d.1 * forward) - r.rnd (normal.cdf d.2 * strike)))

/-- `Black76::put_price`, `optionpricing.rs:33-40`. -/
noncomputable def putPrice (r : Rounding ℝ) (lib : Library) (normal : NormalLibrary) (df forward strike sqrtVariance : ℝ) : ℝ :=
  let logMoneyness := lib.ln (r.rnd (forward / strike))
  let d := dPlusMinus r logMoneyness sqrtVariance
  r.rnd (df * r.rnd (r.rnd (normal.cdf (-d.2) * strike) - r.rnd (normal.cdf (-d.1) * forward)))

end QM.Rounded
