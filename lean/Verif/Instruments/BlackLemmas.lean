import Verif.Instruments.Lemmas
import Mathlib.MeasureTheory.Integral.IntervalIntegral.FundThmCalculus
import Mathlib.Analysis.Calculus.Deriv.MeanValue
import Mathlib.Analysis.SpecialFunctions.Log.Deriv

/-!
# Helper lemmas about the Black formula
-/

namespace QM.Instruments
open MeasureTheory ProbabilityTheory Filter Topology

/-- The standard normal density. -/
noncomputable def dens (x : ℝ) : ℝ := gaussianPDFReal 0 1 x

theorem dens_eq (x : ℝ) : dens x = (Real.sqrt (2 * Real.pi))⁻¹ * Real.exp (-x ^ 2 / 2) := by
  unfold dens
  rw [gaussianPDFReal_def]
  simp

theorem dens_pos (x : ℝ) : 0 < dens x := gaussianPDFReal_pos 0 1 x one_ne_zero

theorem dens_continuous : Continuous dens := by
  have : dens = fun x => (Real.sqrt (2 * Real.pi))⁻¹ * Real.exp (-x ^ 2 / 2) := funext dens_eq
  rw [this]
  fun_prop

theorem Phi_integral (x : ℝ) : Phi x = ∫ t in Set.Iic x, dens t := by
  unfold Phi dens
  rw [cdf_eq_real, Measure.real, gaussianReal_apply_eq_integral 0 one_ne_zero, ENNReal.toReal_ofReal]
  exact setIntegral_nonneg measurableSet_Iic (fun t _ => gaussianPDFReal_nonneg 0 1 t)

theorem Phi_deriv (x : ℝ) : HasDerivAt Phi (dens x) x := by
  have hi : Integrable dens := integrable_gaussianPDFReal 0 1
  have e : Phi = fun y => Phi 0 + ∫ t in (0 : ℝ)..y, dens t := by
    funext y
    rw [← intervalIntegral.integral_Iic_sub_Iic hi.integrableOn hi.integrableOn, Phi_integral, Phi_integral]
    ring
  rw [e]
  refine HasDerivAt.const_add _ ?_
  exact intervalIntegral.integral_hasDerivAt_right (hi.intervalIntegrable)
    (dens_continuous.stronglyMeasurableAtFilter _ _) dens_continuous.continuousAt

theorem Phi_nonneg (x : ℝ) : 0 ≤ Phi x := cdf_nonneg _ _
theorem Phi_le_one (x : ℝ) : Phi x ≤ 1 := cdf_le_one _ _
theorem Phi_atBot : Tendsto Phi atBot (𝓝 0) := tendsto_cdf_atBot _

/-- Black's formula for a call, without discounting, in ordinary arithmetic. -/
noncomputable def black (F K s : ℝ) : ℝ :=
  F * Phi (Real.log (F / K) / s + s / 2) - K * Phi (Real.log (F / K) / s - s / 2)

theorem dens_shift (x s : ℝ) : dens (x + s) = dens x * Real.exp (-(s * x + s ^ 2 / 2)) := by
  rw [dens_eq, dens_eq, mul_assoc, ← Real.exp_add]
  congr 2
  ring

theorem dens_balance {F K s : ℝ} (hF : 0 < F) (hK : 0 < K) (hs : 0 < s) :
    F * dens (Real.log (F / K) / s + s / 2) = K * dens (Real.log (F / K) / s - s / 2) := by
  have e : Real.log (F / K) / s + s / 2 = (Real.log (F / K) / s - s / 2) + s := by ring
  rw [e, dens_shift]
  have : -(s * (Real.log (F / K) / s - s / 2) + s ^ 2 / 2) = -Real.log (F / K) := by
    field_simp
    ring
  rw [this, Real.exp_neg, Real.exp_log (div_pos hF hK)]
  field_simp

/-- The formula is not negative. -/
theorem black_nonneg {F K s : ℝ} (hF : 0 < F) (hK : 0 < K) (hs : 0 < s) : 0 ≤ black F K s := by
  set d := Real.log (F / K) / s - s / 2 with hd
  let h : ℝ → ℝ := fun x => F * Phi (x + s) - K * Phi x
  have hh (x : ℝ) : HasDerivAt h (F * dens (x + s) - K * dens x) x := by
    have h1 : HasDerivAt (fun x => Phi (x + s)) (dens (x + s)) x := by
      have := HasDerivAt.comp (h₂ := Phi) (h := fun x => x + s) x (Phi_deriv (x + s)) ((hasDerivAt_id x).add_const s)
      exact this.congr_deriv (by ring)
    exact (h1.const_mul F).sub ((Phi_deriv x).const_mul K)
  have hmono : MonotoneOn h (Set.Iic d) := by
    refine monotoneOn_of_deriv_nonneg (convex_Iic d) (fun x _ => (hh x).continuousAt.continuousWithinAt)
      (fun x _ => (hh x).differentiableAt.differentiableWithinAt) ?_
    intro x hx
    rw [interior_Iic] at hx
    rw [(hh x).deriv, dens_shift]
    have hx : x < d := hx
    have hsx : s * x ≤ Real.log (F / K) - s ^ 2 / 2 := by
      have : s * x ≤ s * d := mul_le_mul_of_nonneg_left (le_of_lt hx) (le_of_lt hs)
      have e : s * d = Real.log (F / K) - s ^ 2 / 2 := by
        rw [hd]; field_simp
      linarith
    have : K / F ≤ Real.exp (-(s * x + s ^ 2 / 2)) := by
      have e : K / F = Real.exp (-Real.log (F / K)) := by
        rw [Real.exp_neg, Real.exp_log (div_pos hF hK)]
        field_simp
      rw [e]
      exact Real.exp_le_exp.2 (by linarith)
    have h2 : K ≤ F * Real.exp (-(s * x + s ^ 2 / 2)) := by
      rw [div_le_iff₀ hF] at this
      linarith
    have := mul_le_mul_of_nonneg_left h2 (le_of_lt (dens_pos x))
    nlinarith
  have hlim : Tendsto h atBot (𝓝 0) := by
    have h1 : Tendsto (fun x => Phi (x + s)) atBot (𝓝 0) := Phi_atBot.comp (tendsto_atBot_add_const_right _ s tendsto_id)
    have := (h1.const_mul F).sub (Phi_atBot.const_mul K)
    simpa using this
  have hle : 0 ≤ h d := by
    refine le_of_tendsto hlim ?_
    filter_upwards [eventually_le_atBot d] with x hx
    exact hmono hx (le_refl d) hx
  have : black F K s = h d := by
    unfold black
    simp only [h]
    rw [hd]
    congr 3
    ring
  rw [this]
  exact hle

/-- Parity: the formula with forward and strike exchanged is the put. -/
theorem black_swap {F K s : ℝ} (hF : 0 < F) (hK : 0 < K) : black F K s - black K F s = F - K := by
  unfold black
  have e : Real.log (K / F) = - Real.log (F / K) := by
    rw [← Real.log_inv, inv_div]
  rw [e]
  have e1 : -Real.log (F / K) / s + s / 2 = -(Real.log (F / K) / s - s / 2) := by ring
  have e2 : -Real.log (F / K) / s - s / 2 = -(Real.log (F / K) / s + s / 2) := by ring
  rw [e1, e2, Phi_neg, Phi_neg]
  ring

theorem black_upper {F K s : ℝ} (hF : 0 < F) (hK : 0 < K) : black F K s ≤ F := by
  unfold black
  have h1 := Phi_le_one (Real.log (F / K) / s + s / 2)
  have h2 := Phi_nonneg (Real.log (F / K) / s - s / 2)
  nlinarith

theorem black_lower {F K s : ℝ} (hF : 0 < F) (hK : 0 < K) (hs : 0 < s) : F - K ≤ black F K s := by
  have h1 := black_swap (s := s) hF hK
  have h2 := black_nonneg hK hF hs
  linarith

theorem black_deriv {F K s : ℝ} (hF : 0 < F) (hK : 0 < K) (hs : 0 < s) :
    HasDerivAt (black F K) (F * dens (Real.log (F / K) / s + s / 2)) s := by
  set l := Real.log (F / K) with hl
  have hd1 : HasDerivAt (fun s => l / s + s / 2) (-l / s ^ 2 + 1 / 2) s := by
    have h1 : HasDerivAt (fun s : ℝ => l / s) (-l / s ^ 2) s :=
      ((hasDerivAt_const s l).fun_div (hasDerivAt_id s) (ne_of_gt hs)).congr_deriv (by simp)
    exact h1.add ((hasDerivAt_id s).div_const 2)
  have hd2 : HasDerivAt (fun s => l / s - s / 2) (-l / s ^ 2 - 1 / 2) s := by
    have h1 : HasDerivAt (fun s : ℝ => l / s) (-l / s ^ 2) s :=
      ((hasDerivAt_const s l).fun_div (hasDerivAt_id s) (ne_of_gt hs)).congr_deriv (by simp)
    exact h1.sub ((hasDerivAt_id s).div_const 2)
  have h1 := ((Phi_deriv (l / s + s / 2)).comp s hd1).const_mul F
  have h2 := ((Phi_deriv (l / s - s / 2)).comp s hd2).const_mul K
  have h := h1.sub h2
  have hb := dens_balance hF hK hs
  rw [← hl] at hb
  refine h.congr_deriv ?_
  have : F * (dens (l / s + s / 2) * (-l / s ^ 2 + 1 / 2)) - K * (dens (l / s - s / 2) * (-l / s ^ 2 - 1 / 2)) =
      (F * dens (l / s + s / 2)) * (-l / s ^ 2 + 1 / 2) - (K * dens (l / s - s / 2)) * (-l / s ^ 2 - 1 / 2) := by ring
  rw [this, ← hb]
  ring

theorem black_strictMono {F K : ℝ} (hF : 0 < F) (hK : 0 < K) : StrictMonoOn (black F K) (Set.Ioi 0) := by
  refine strictMonoOn_of_deriv_pos (convex_Ioi 0) (fun s hs => (black_deriv hF hK hs).continuousAt.continuousWithinAt) ?_
  intro s hs
  rw [interior_Ioi] at hs
  rw [(black_deriv hF hK hs).deriv]
  exact mul_pos hF (dens_pos _)

theorem black_deriv_strike {F K s : ℝ} (hF : 0 < F) (hK : 0 < K) (hs : 0 < s) :
    HasDerivAt (fun K => black F K s) (-Phi (Real.log (F / K) / s - s / 2)) K := by
  have hlog : HasDerivAt (fun K : ℝ => Real.log (F / K)) (-K⁻¹) K := by
    have h1 : HasDerivAt (fun K : ℝ => F / K) (-F / K ^ 2) K :=
      ((hasDerivAt_const K F).fun_div (hasDerivAt_id K) (ne_of_gt hK)).congr_deriv (by simp)
    have h2 := h1.log (ne_of_gt (div_pos hF hK))
    exact h2.congr_deriv (by field_simp)
  have hd1 : HasDerivAt (fun K : ℝ => Real.log (F / K) / s + s / 2) (-K⁻¹ / s) K := (hlog.div_const s).add_const _
  have hd2 : HasDerivAt (fun K : ℝ => Real.log (F / K) / s - s / 2) (-K⁻¹ / s) K := (hlog.div_const s).sub_const _
  have h1 := ((Phi_deriv _).comp K hd1).const_mul F
  have h2 := (hasDerivAt_id K).mul ((Phi_deriv _).comp K hd2)
  have h := h1.sub h2
  have hb := dens_balance hF hK hs
  refine h.congr_deriv ?_
  simp only [Function.comp, id]
  linear_combination (-(K⁻¹ / s)) * hb

theorem black_antitone_strike {F s : ℝ} (hF : 0 < F) (hs : 0 < s) : AntitoneOn (fun K => black F K s) (Set.Ioi 0) := by
  refine antitoneOn_of_deriv_nonpos (convex_Ioi 0) (fun K hK => (black_deriv_strike hF hK hs).continuousAt.continuousWithinAt)
    (fun K hK => ?_) ?_
  · rw [interior_Ioi] at hK
    exact (black_deriv_strike hF hK hs).differentiableAt.differentiableWithinAt
  · intro K hK
    rw [interior_Ioi] at hK
    rw [(black_deriv_strike hF hK hs).deriv]
    have := Phi_nonneg (Real.log (F / K) / s - s / 2)
    linarith

end QM.Instruments
