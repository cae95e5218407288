import Verif.MonteCarlo.Model
import Mathlib.Probability.Distributions.Gaussian.Real

/-!
# Specification of Monte-Carlo pricing
-/

namespace QM.MonteCarlo.Spec
open QM.Interp QM.Vol QM.Instruments MeasureTheory ProbabilityTheory

/-- Independent standard normal draws, by path, step and asset. -/
structure StandardNormal {Ω : Type} [MeasurableSpace Ω] (μ : Measure Ω) (draw : Ω → Draws) : Prop where
  law : ∀ path step asset, HasLaw (fun ω => draw ω path step asset) (gaussianReal 0 1) μ
  independent : iIndepFun (fun (k : ℕ × ℕ × ℕ) ω => draw ω k.1 k.2.1 k.2.2) μ

/-- What the market says about an asset at the observations: its forward, the total variance at the forward and the
displacement, all numbers. -/
structure Market (fuel : Nat) (ctx : PricingContext) (u : Instrument) (observations : List Point) (F w δ : Nat → ℝ) : Prop where
  seen : ∃ last fwd surface, observations.getLast? = some last ∧ ctx.forwardCurve u last.1 = .ok fwd ∧
    ctx.volSurface u last.1 (fun _ => .ok fwd) = .ok surface ∧
    ∀ i pt, observations[i]? = some pt → fwd.forward pt.1 = .ok (.val (F i)) ∧
      surface.variance fuel pt (.val (F i)) = .ok (.val (w i)) ∧ surface.displacement pt.1 = .ok (.val (δ i))

/-- The variance up to the previous observation. -/
def before (w : Nat → ℝ) : Nat → ℝ
  | 0 => 0
  | i + 1 => w i

/-- How many steps come before observation `i`, if `n i` steps lead to it from the one before. -/
def start (n : Nat → Nat) : Nat → Nat
  | 0 => 0
  | i + 1 => start n i + n i

/-- The standard deviation of each of the `n i` steps that lead to observation `i`. -/
noncomputable def stepSize (w : Nat → ℝ) (n : Nat → Nat) (i : Nat) : ℝ := Real.sqrt ((w i - before w i) / n i)

/-- The driftless walk with draws `g`, after the observations before `i`. -/
noncomputable def level (w : Nat → ℝ) (n : Nat → Nat) (g : Nat → ℝ) : Nat → ℝ
  | 0 => 1
  | i + 1 => level w n g i * ∏ k ∈ Finset.range (n i), (1 + g (start n i + k) * stepSize w n i)

/-- The number of steps that lead to observation `i`, so that none has a variance above `h`. -/
noncomputable def steps (h : ℝ) (w : Nat → ℝ) (i : Nat) : Nat := max 1 ⌈(w i - before w i) / h⌉₊

/-- The value of the asset at observation `i` along a path with draws `g`. -/
noncomputable def pathValue (F w δ : Nat → ℝ) (n : Nat → Nat) (g : Nat → ℝ) (i : Nat) : ℝ :=
  (F i - δ i) * level w n g (i + 1) + δ i

/-- The average of a quantity over the paths. -/
noncomputable def average (nPaths : Nat) (x : Nat → ℝ) : ℝ := (∑ p ∈ Finset.range nPaths, x p) / nPaths

end QM.MonteCarlo.Spec
