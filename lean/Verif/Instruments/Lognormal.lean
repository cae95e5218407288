import Verif.Instruments.BlackLemmas
import Verif.Instruments.Spec

/-!
# Lognormal values and their expected payoffs
-/

namespace QM.Instruments
open MeasureTheory ProbabilityTheory

namespace Spec

/-- A lognormal value of mean `F` whose logarithm has the standard deviation `s`, as a function of a standard normal number. -/
noncomputable def lognormal (F s z : ℝ) : ℝ := F * Real.exp (s * z - s ^ 2 / 2)

end Spec

open Spec

/-! ## Changing the measure -/

/-- Weighting with the exponential of a multiple moves the mean. -/
theorem tilt (f : ℝ → ℝ) (s : ℝ) :
    ∫ x, f x * Real.exp (s * x - s ^ 2 / 2) ∂gaussianReal 0 1 = ∫ x, f (x + s) ∂gaussianReal 0 1 := by
  rw [integral_gaussianReal_eq_integral_smul one_ne_zero, integral_gaussianReal_eq_integral_smul one_ne_zero]
  simp only [smul_eq_mul]
  rw [← integral_sub_right_eq_self (fun x => gaussianPDFReal 0 1 x * f (x + s)) s]
  apply integral_congr_ae
  filter_upwards with x
  have : gaussianPDFReal 0 1 (x - s) = gaussianPDFReal 0 1 x * Real.exp (s * x - s ^ 2 / 2) := by
    have := dens_shift x (-s)
    unfold dens at this
    rw [← sub_eq_add_neg] at this
    rw [this]
    congr 2
    ring
  rw [this, sub_add_cancel]
  ring

theorem exp_integrable (s : ℝ) : Integrable (fun x => Real.exp (s * x - s ^ 2 / 2)) (gaussianReal 0 1) := by
  have := (integrable_exp_mul_gaussianReal (μ := 0) (v := 1) s).mul_const (Real.exp (-(s ^ 2 / 2)))
  refine this.congr ?_
  filter_upwards with x
  rw [← Real.exp_add]
  congr 1

theorem lognormal_integrable (F s : ℝ) : Integrable (lognormal F s) (gaussianReal 0 1) := (exp_integrable s).const_mul F

theorem lognormal_mean (F s : ℝ) : ∫ x, lognormal F s x ∂gaussianReal 0 1 = F := by
  unfold lognormal
  rw [integral_const_mul]
  have := tilt (fun _ => 1) s
  simp only [one_mul] at this
  rw [this]
  simp

theorem payoff_integrable (kind : PutOrCall) (F K s : ℝ) :
    Integrable (fun x => payoff kind (lognormal F s x) K) (gaussianReal 0 1) := by
  cases kind
  · exact ((integrable_const K).sub (lognormal_integrable F s)).sup (integrable_const 0)
  · exact ((lognormal_integrable F s).sub (integrable_const K)).sup (integrable_const 0)

theorem Phi_indicator (d : ℝ) : ∫ x, (Set.Iic d).indicator (fun _ => (1 : ℝ)) x ∂gaussianReal 0 1 = Phi d := by
  rw [integral_indicator measurableSet_Iic]
  simp [Phi, cdf_eq_real]

theorem mean_put {F K s : ℝ} (hF : 0 < F) (hK : 0 < K) (hs : 0 < s) :
    ∫ x, payoff .put (lognormal F s x) K ∂gaussianReal 0 1 = black K F s := by
  have key : ∀ x, payoff .put (lognormal F s x) K =
      K * (Set.Iic (Real.log (K / F) / s + s / 2)).indicator (fun _ => (1 : ℝ)) x -
        F * ((Set.Iic (Real.log (K / F) / s + s / 2)).indicator (fun _ => (1 : ℝ)) x * Real.exp (s * x - s ^ 2 / 2)) := by
    intro x
    have hiff : x ∈ Set.Iic (Real.log (K / F) / s + s / 2) ↔ lognormal F s x ≤ K := by
      rw [Set.mem_Iic, show Real.log (K / F) / s + s / 2 = (Real.log (K / F) + s ^ 2 / 2) / s by field_simp, le_div_iff₀ hs]
      unfold lognormal
      rw [← le_div_iff₀' hF, ← Real.le_log_iff_exp_le (div_pos hK hF)]
      constructor <;> intro h <;> linarith
    by_cases h : x ∈ Set.Iic (Real.log (K / F) / s + s / 2)
    · rw [Set.indicator_of_mem h]
      have := hiff.1 h
      simp only [payoff]
      rw [max_eq_left (by linarith)]
      unfold lognormal
      ring
    · rw [Set.indicator_of_notMem h]
      have := not_le.1 (mt hiff.2 h)
      simp only [payoff]
      rw [max_eq_right (by linarith)]
      ring
  have hi : Integrable (fun x => (Set.Iic (Real.log (K / F) / s + s / 2)).indicator (fun _ => (1 : ℝ)) x) (gaussianReal 0 1) :=
    (integrable_const (1 : ℝ)).indicator measurableSet_Iic
  have he : Integrable (fun x => (Set.Iic (Real.log (K / F) / s + s / 2)).indicator (fun _ => (1 : ℝ)) x * Real.exp (s * x - s ^ 2 / 2))
      (gaussianReal 0 1) := by
    have := (exp_integrable s).indicator (measurableSet_Iic (a := Real.log (K / F) / s + s / 2))
    refine this.congr ?_
    filter_upwards with x
    by_cases h : x ∈ Set.Iic (Real.log (K / F) / s + s / 2)
    · rw [Set.indicator_of_mem h, Set.indicator_of_mem h, one_mul]
    · rw [Set.indicator_of_notMem h, Set.indicator_of_notMem h, zero_mul]
  rw [integral_congr_ae (Filter.Eventually.of_forall key), integral_sub (hi.const_mul K) (he.const_mul F), integral_const_mul,
    integral_const_mul, Phi_indicator, tilt]
  have hshift : ∀ x, (Set.Iic (Real.log (K / F) / s + s / 2)).indicator (fun _ => (1 : ℝ)) (x + s) =
      (Set.Iic (Real.log (K / F) / s - s / 2)).indicator (fun _ => (1 : ℝ)) x := by
    intro x
    simp only [Set.indicator, Set.mem_Iic]
    congr 1
    exact propext ⟨fun h => by linarith, fun h => by linarith⟩
  simp only [hshift]
  rw [Phi_indicator]
  rfl

theorem payoff_parity (S K : ℝ) : payoff .call S K = payoff .put S K + (S - K) := by
  simp only [payoff]
  rcases le_total S K with h | h
  · rw [max_eq_right (by linarith), max_eq_left (by linarith)]
    ring
  · rw [max_eq_left (by linarith), max_eq_right (by linarith)]
    ring

theorem mean_call {F K s : ℝ} (hF : 0 < F) (hK : 0 < K) (hs : 0 < s) :
    ∫ x, payoff .call (lognormal F s x) K ∂gaussianReal 0 1 = black F K s := by
  simp only [payoff_parity]
  have hi : Integrable (fun x => lognormal F s x - K) (gaussianReal 0 1) := (lognormal_integrable F s).sub (integrable_const K)
  rw [integral_add (payoff_integrable .put F K s) hi, integral_sub (lognormal_integrable F s) (integrable_const K), lognormal_mean, mean_put hF hK hs]
  have := black_swap (s := s) hF hK
  simp
  linarith

/-! ## Strict monotonicity in the strike -/

theorem Phi_strictMono : StrictMono Phi := by
  apply strictMono_of_deriv_pos
  intro x
  rw [(Phi_deriv x).deriv]
  exact dens_pos x

theorem Phi_pos (x : ℝ) : 0 < Phi x := lt_of_le_of_lt (Phi_nonneg (x - 1)) (Phi_strictMono (by linarith))
theorem Phi_lt_one (x : ℝ) : Phi x < 1 := lt_of_lt_of_le (Phi_strictMono (show x < x + 1 by linarith)) (Phi_le_one (x + 1))

theorem black_strike_lt {F K L s : ℝ} (hF : 0 < F) (hs : 0 < s) (hK : 0 < K) (h : K < L) : black F L s < black F K s := by
  have : StrictAntiOn (fun K => black F K s) (Set.Ioi 0) := by
    refine strictAntiOn_of_deriv_neg (convex_Ioi 0) (fun K hK => (black_deriv_strike hF hK hs).continuousAt.continuousWithinAt) ?_
    intro K hK
    rw [interior_Ioi] at hK
    rw [(black_deriv_strike hF hK hs).deriv]
    have := Phi_pos (Real.log (F / K) / s - s / 2)
    linarith
  exact this hK (hK.trans h) h

theorem black_pos {F K s : ℝ} (hF : 0 < F) (hK : 0 < K) (hs : 0 < s) : 0 < black F K s :=
  lt_of_le_of_lt (black_nonneg hF (by linarith) hs) (black_strike_lt hF hs hK (show K < K + 1 by linarith))

theorem black_forward_lt {F K L s : ℝ} (hF : 0 < F) (hs : 0 < s) (hK : 0 < K) (h : K < L) : black K F s < black L F s := by
  have hm : StrictMonoOn (fun x => black F x s + x) (Set.Ioi 0) := by
    have hd (x : ℝ) (hx : 0 < x) := (black_deriv_strike hF hx hs).add (hasDerivAt_id x)
    refine strictMonoOn_of_deriv_pos (convex_Ioi 0) (fun x hx => (hd x hx).continuousAt.continuousWithinAt) ?_
    intro x hx
    rw [interior_Ioi] at hx
    have hder : deriv (fun x => black F x s + x) x = _ := (hd x hx).deriv
    rw [hder]
    have := Phi_lt_one (Real.log (F / x) / s - s / 2)
    linarith
  have := hm hK (hK.trans h) h
  have ea := black_swap (s := s) hF hK
  have eb := black_swap (s := s) hF (hK.trans h)
  dsimp only at this
  linarith

end QM.Instruments
