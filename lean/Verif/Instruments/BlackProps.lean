import Verif.Instruments.BlackLemmas
import Verif.Instruments.OptionProps

/-!
# Property C60: Black's formula
-/

namespace QM.Instruments
open QM.Interp QM.Vol QM.Fixings Spec
open QM.Curves (RateCurve)

variable {fuel : Nat} {ctx : PricingContext}

theorem call_black {D F K s : ℝ} (hF : 0 < F) (hK : 0 < K) (hs : 0 < s) :
    callPrice (.val D) (.val F) (.val K) (.val s) = .val (D * black F K s) := by
  unfold callPrice logMoneyness dPlusMinus
  dsimp only
  rw [if_neg (ne_of_gt hK), if_neg (ne_of_gt hF), if_pos (div_pos hF hK)]
  have : (Ext.val (Real.log (F / K))).div s = .val (Real.log (F / K) / s) := by
    unfold Ext.div
    simp [ne_of_gt hs]
  simp only [this, Ext.add, cdf, num2, black]
  congr 1
  rw [show Real.log (F / K) / s + 0.5 * s + -s = Real.log (F / K) / s - s / 2 by ring,
    show Real.log (F / K) / s + 0.5 * s = Real.log (F / K) / s + s / 2 by ring]
  ring

theorem put_black {D F K s : ℝ} (hF : 0 < F) (hK : 0 < K) (hs : 0 < s) :
    putPrice (.val D) (.val F) (.val K) (.val s) = .val (D * black K F s) := by
  rcases call_put (.val D) (.val F) (.val K) (.val s) with ⟨h, _⟩ | ⟨D', F', K', c, p, e1, e2, e3, ec, ep, e⟩
  · rw [call_black hF hK hs] at h
    cases h
  · cases e1
    cases e2
    cases e3
    rw [call_black hF hK hs] at ec
    cases ec
    rw [ep]
    have := black_swap (s := s) hF hK
    congr 1
    linear_combination (-1 : ℝ) * e + D * this

/-- C60, calls. With a positive forward, strike and standard deviation and a discount factor that is not negative, the
price is a number between the discounted payoff on the forward and the discounted forward. -/
theorem C60_call_bounds {D F K s : ℝ} (hD : 0 ≤ D) (hF : 0 < F) (hK : 0 < K) (hs : 0 < s) :
    ∃ c, callPrice (.val D) (.val F) (.val K) (.val s) = .val c ∧ D * payoff .call F K ≤ c ∧ c ≤ D * F := by
  refine ⟨_, call_black hF hK hs, mul_le_mul_of_nonneg_left ?_ hD, mul_le_mul_of_nonneg_left (black_upper hF hK) hD⟩
  exact max_le (black_lower hF hK hs) (black_nonneg hF hK hs)

/-- C60, puts: between the discounted payoff on the forward and the discounted strike. -/
theorem C60_put_bounds {D F K s : ℝ} (hD : 0 ≤ D) (hF : 0 < F) (hK : 0 < K) (hs : 0 < s) :
    ∃ p, putPrice (.val D) (.val F) (.val K) (.val s) = .val p ∧ D * payoff .put F K ≤ p ∧ p ≤ D * K := by
  refine ⟨_, put_black hF hK hs, mul_le_mul_of_nonneg_left ?_ hD, mul_le_mul_of_nonneg_left (black_upper hK hF) hD⟩
  exact max_le (black_lower hK hF hs) (black_nonneg hK hF hs)

/-- C60, volatility. Both prices strictly increase with the standard deviation. -/
theorem C60_volatility {D F K s t c c' p p' : ℝ} (hD : 0 < D) (hF : 0 < F) (hK : 0 < K) (hs : 0 < s) (hst : s < t)
    (hc : callPrice (.val D) (.val F) (.val K) (.val s) = .val c) (hc' : callPrice (.val D) (.val F) (.val K) (.val t) = .val c')
    (hp : putPrice (.val D) (.val F) (.val K) (.val s) = .val p) (hp' : putPrice (.val D) (.val F) (.val K) (.val t) = .val p') :
    c < c' ∧ p < p' := by
  have ht := lt_trans hs hst
  rw [call_black hF hK hs] at hc
  rw [call_black hF hK ht] at hc'
  rw [put_black hF hK hs] at hp
  rw [put_black hF hK ht] at hp'
  cases hc
  cases hc'
  cases hp
  cases hp'
  exact ⟨mul_lt_mul_of_pos_left (black_strictMono hF hK hs ht hst) hD, mul_lt_mul_of_pos_left (black_strictMono hK hF hs ht hst) hD⟩

/-- C60, strike. A higher strike never makes a call dearer, nor a put cheaper; and the call price falls by at most the
discounted difference of the strikes. -/
theorem C60_strike {D F K L s c c' p p' : ℝ} (hD : 0 ≤ D) (hF : 0 < F) (hK : 0 < K) (hs : 0 < s) (hKL : K ≤ L)
    (hc : callPrice (.val D) (.val F) (.val K) (.val s) = .val c) (hc' : callPrice (.val D) (.val F) (.val L) (.val s) = .val c')
    (hp : putPrice (.val D) (.val F) (.val K) (.val s) = .val p) (hp' : putPrice (.val D) (.val F) (.val L) (.val s) = .val p') :
    c' ≤ c ∧ p ≤ p' ∧ c - c' ≤ D * (L - K) := by
  have hL := lt_of_lt_of_le hK hKL
  rw [call_black hF hK hs] at hc
  rw [call_black hF hL hs] at hc'
  rw [put_black hF hK hs] at hp
  rw [put_black hF hL hs] at hp'
  cases hc
  cases hc'
  cases hp
  cases hp'
  have h1 : black F L s ≤ black F K s := black_antitone_strike hF hs hK hL hKL
  have h2 : black K F s ≤ black L F s := by
    have hmono : MonotoneOn (fun x => black x F s) (Set.Ioi 0) := by
      -- by parity, the put is the call less forward plus strike
      intro a ha b hb hab
      have ea := black_swap (s := s) hF (show 0 < a from ha)
      have eb := black_swap (s := s) hF (show 0 < b from hb)
      have : black F a s - black F b s ≤ b - a := by
        have hm : MonotoneOn (fun x => black F x s + x) (Set.Ioi 0) := by
          refine monotoneOn_of_deriv_nonneg (convex_Ioi 0)
            (fun x hx => ((black_deriv_strike hF hx hs).add (hasDerivAt_id x)).continuousAt.continuousWithinAt) (fun x hx => ?_) ?_
          · rw [interior_Ioi] at hx
            exact ((black_deriv_strike hF hx hs).add (hasDerivAt_id x)).differentiableAt.differentiableWithinAt
          · intro x hx
            rw [interior_Ioi] at hx
            have hder : deriv (fun x => black F x s + x) x = _ := ((black_deriv_strike hF hx hs).add (hasDerivAt_id x)).deriv
            rw [hder]
            have := Phi_le_one (Real.log (F / x) / s - s / 2)
            linarith
        have := hm ha hb hab
        dsimp only at this
        linarith
      dsimp only
      linarith
    exact hmono hK hL hKL
  refine ⟨mul_le_mul_of_nonneg_left h1 hD, mul_le_mul_of_nonneg_left h2 hD, ?_⟩
  rw [← mul_sub]
  refine mul_le_mul_of_nonneg_left ?_ hD
  have ea := black_swap (s := s) hF hK
  have eb := black_swap (s := s) hF hL
  linarith

/-- C60 for priced options. On a volatility surface without displacement, with a positive forward and strike, an option
that has a price is worth at least the discounted payoff on its forward and at most the discounted forward (call) or strike
(put). -/
theorem C60_option {v : Vanilla} {u : Instrument} {K F x : ℝ} {d : DateTime} {vol : VolSurface}
    (h : (Instrument.spotStarting v u K).price fuel ctx d = .ok (.val x)) (hd : notAfter d v.expiry)
    (hvol : ctx.volSurface u v.expiry.date (fun _ => ctx.forwardCurve u v.expiry.date) = .ok vol)
    (hdiv : vol.divAssumptions ≠ .fixedDivs)
    (hF : u.price fuel ctx v.expiry = .ok (.val F)) (hF0 : 0 < F) (hK : 0 < K) :
    ∃ yc D, ctx.yieldCurve u.creditId v.payDate = .ok yc ∧ yc.df v.payDate (v.settlement d.date) = .ok (.val D) ∧
      D * payoff v.putOrCall F K ≤ x ∧ x ≤ D * (match v.putOrCall with | .call => F | .put => K) := by
  rw [price_iff, Instrument.prices, vanillaPrices_cons] at h
  obtain ⟨yc, vol', K', F', rt, δ, h1, h2, h3, h4, h5, _, h7⟩ := h
  rw [hvol] at h2
  cases h2
  have := displacement_zero vol hdiv h5
  subst this
  obtain ⟨e, hF'⟩ := spot_strike h3
  subst e
  rw [hF] at hF'
  cases hF'
  cases h7 with
  | cons h7 _ =>
    obtain ⟨rs, vd, va, sv, a1, a2, a3, a4, a5⟩ := (vanillaValue_ok hd).1 h7
    simp only [num2, sub_zero, add_zero] at a5
    cases hdf : num2 (· * ·) (num1 (fun x => Real.exp (-x)) rt) (num1 Real.exp rs) with
    | nan =>
      unfold num2 at hdf
      rw [hdf] at a5
      exfalso
      cases hk : v.putOrCall <;> rw [hk] at a5 <;> simp [formula, callPrice, putPrice, num2] at a5
    | val D =>
      have hD := df_product h4 a1 hdf
      have hD0 : 0 ≤ D := by
        cases rt with
        | nan => simp [num1, num2] at hdf
        | val a =>
          cases rs with
          | nan => simp [num1, num2] at hdf
          | val b =>
            simp only [num1, num2, Num.val.injEq] at hdf
            rw [← hdf]
            positivity
      unfold num2 at hdf
      rw [hdf] at a5
      refine ⟨yc, D, h1, hD, ?_⟩
      unfold optionSqrtVariance at a4
      cases hn : nonNegative va with
      | error e => rw [hn] at a4; cases a4
      | ok w =>
        rw [hn] at a4
        dsimp only at a4
        cases a4
        obtain ⟨rfl, hw⟩ := nonNegative_ok hn
        cases va with
        | nan =>
          exfalso
          cases hk : v.putOrCall <;> rw [hk] at a5 <;> simp [formula, callPrice, putPrice, num2, nsqrt, dPlusMinus, cdf, Ext.neg] at a5
        | val w =>
          have hw := hw w rfl
          have es : nsqrt (.val w) = .val (Real.sqrt w) := by
            unfold nsqrt
            simp [not_lt.2 hw]
          rw [es] at a5
          rcases eq_or_lt_of_le hw with hw0 | hwp
          · rw [← hw0, Real.sqrt_zero] at a5
            by_cases hne : F = K
            · exfalso
              subst hne
              cases hk : v.putOrCall <;> rw [hk] at a5 <;>
                simp [formula, callPrice, putPrice, logMoneyness, dPlusMinus, Ext.div, Ext.add, cdf, num2, Ext.neg, ne_of_gt hF0] at a5
            · rw [formula_expired _ _ _ _ (le_of_lt hF0) (le_of_lt hK) hne] at a5
              cases a5
              refine ⟨le_refl _, mul_le_mul_of_nonneg_left ?_ hD0⟩
              cases v.putOrCall
              · exact max_le (by linarith) (le_of_lt hK)
              · exact max_le (by linarith) (le_of_lt hF0)
          · have hs := Real.sqrt_pos.2 hwp
            cases hk : v.putOrCall with
            | call =>
              rw [hk] at a5
              obtain ⟨c, e, h8, h9⟩ := C60_call_bounds hD0 hF0 hK hs
              simp only [formula] at a5
              rw [e] at a5
              cases a5
              exact ⟨h8, h9⟩
            | put =>
              rw [hk] at a5
              obtain ⟨c, e, h8, h9⟩ := C60_put_bounds hD0 hF0 hK hs
              simp only [formula] at a5
              rw [e] at a5
              cases a5
              exact ⟨h8, h9⟩

/-- C60: such options exist. -/
example : ∃ x, (Instrument.spotStarting (call sampleTerms) (.equity "A" "C" id) 90).price fuel
    (flatContext (.flat (.val 0.2) .everyDay (0, 0))) ⟨0, .open⟩ = .ok (.val x) ∧ 10 ≤ x ∧ x ≤ 100 := by
  have hw : (VolSurface.flat (.val 0.2) .everyDay (0, 0)).forwardVariance fuel (0, 0) (10, 0) (.val 90) = .ok (.val (0.2 ^ 2 * (2 / 73))) := by
    rw [flat_forward]
    left
    exact ⟨before_irrefl _, 2 / 73, by have := everyDay_year 10; norm_num at this; exact this, rfl⟩
  have h := sample_price (fuel := fuel) call (.inl rfl) (.flat (.val 0.2) .everyDay (0, 0)) 90 0 _ 0 (by norm_num) rfl (by norm_num) hw
    (by norm_num)
  have es : nsqrt (.val (0.2 ^ 2 * (2 / 73))) = .val (Real.sqrt (0.2 ^ 2 * (2 / 73))) := by
    unfold nsqrt
    dsimp only
    rw [if_neg (by norm_num)]
  rw [es] at h
  obtain ⟨c, e, h1, h2⟩ := C60_call_bounds (D := 1) (F := 100 - 0) (K := 90 + 0) (s := Real.sqrt (0.2 ^ 2 * (2 / 73)))
    (by norm_num) (by norm_num) (by norm_num) (Real.sqrt_pos.2 (by norm_num))
  refine ⟨c, by rw [h]; exact congrArg _ e, ?_, ?_⟩
  · norm_num [payoff] at h1
    exact h1
  · norm_num at h2
    exact h2

end QM.Instruments
