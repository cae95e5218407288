import Verif.Instruments.Lognormal
import Verif.Instruments.ValueProps

/-!
# Property C90: an option is worth its discounted expected payoff
-/

namespace QM.Instruments
open QM.Interp QM.Vol QM.Fixings Spec MeasureTheory ProbabilityTheory
open QM.Curves (RateCurve)

variable {fuel : Nat} {ctx : PricingContext} {Ω : Type} [MeasurableSpace Ω] {μ : Measure Ω} {Z : Ω → ℝ}

theorem law_payoff (hZ : HasLaw Z (gaussianReal 0 1) μ) (kind : PutOrCall) (F K s : ℝ) :
    ∫ ω, payoff kind (lognormal F s (Z ω)) K ∂μ = ∫ x, payoff kind (lognormal F s x) K ∂gaussianReal 0 1 :=
  hZ.integral_comp (payoff_integrable kind F K s).aestronglyMeasurable

theorem formula_mean {kind : PutOrCall} {D F K s : ℝ} (hF : 0 ≤ F) (hK : 0 ≤ K) (hs : 0 ≤ s) (hn : ¬ (F = K ∧ (F = 0 ∨ s = 0))) :
    formula kind (.val D) (.val F) (.val K) (.val s) =
      .val (D * ∫ x, payoff kind (lognormal F s x) K ∂gaussianReal 0 1) := by
  rcases eq_or_lt_of_le hs with rfl | hs
  · rw [formula_expired kind D F K hF hK (fun h => hn ⟨h, .inr rfl⟩)]
    simp [lognormal]
  rcases eq_or_lt_of_le hF with rfl | hF
  · have hK : 0 < K := lt_of_le_of_ne hK (fun h => hn ⟨h, .inl rfl⟩)
    have hp : ∀ x, payoff kind (lognormal 0 s x) K = payoff kind 0 K := by
      intro x
      simp [lognormal]
    simp only [hp, integral_const, probReal_univ, one_smul]
    cases kind
    · show putPrice _ _ _ _ = _
      unfold putPrice logMoneyness dPlusMinus
      simp only [if_neg hK.ne', if_true, Ext.div, Ext.add, Ext.neg, cdf, num2, payoff]
      rw [max_eq_left (by linarith)]
      congr 1
      ring
    · show callPrice _ _ _ _ = _
      unfold callPrice logMoneyness dPlusMinus
      simp only [if_neg hK.ne', if_true, Ext.div, Ext.add, cdf, num2, payoff]
      rw [max_eq_right (by linarith)]
      congr 1
      ring
  rcases eq_or_lt_of_le hK with rfl | hK
  · have hpos : ∀ x, 0 < lognormal F s x := fun x => mul_pos hF (Real.exp_pos _)
    cases kind
    · have hp : ∀ x, payoff .put (lognormal F s x) 0 = 0 := fun x => max_eq_right (by have := hpos x; linarith)
      simp only [hp, integral_zero]
      show putPrice _ _ _ _ = _
      unfold putPrice logMoneyness dPlusMinus
      simp only [if_true, if_neg hF.ne', if_pos hF, Ext.div, Ext.add, Ext.neg, cdf, num2]
      congr 1
      ring
    · have hp : ∀ x, payoff .call (lognormal F s x) 0 = lognormal F s x := fun x => by
        simp only [payoff, sub_zero]
        exact max_eq_left (hpos x).le
      simp only [hp, lognormal_mean]
      show callPrice _ _ _ _ = _
      unfold callPrice logMoneyness dPlusMinus
      simp only [if_true, if_neg hF.ne', if_pos hF, Ext.div, Ext.add, cdf, num2]
      congr 1
      ring
  rw [formula_black hF hK hs]
  cases kind
  · rw [mean_put hF hK hs]
    rfl
  · rw [mean_call hF hK hs]
    rfl

theorem formula_nan {kind : PutOrCall} {D F s : ℝ} (h : F = 0 ∨ s = 0) :
    formula kind (.val D) (.val F) (.val F) (.val s) = .nan := by
  rcases h with rfl | rfl
  · cases kind <;> simp [formula, callPrice, putPrice, logMoneyness, dPlusMinus, Ext.div, Ext.add, cdf, num2, Ext.neg]
  · by_cases hF : F = 0 <;> cases kind <;>
      simp [formula, callPrice, putPrice, logMoneyness, dPlusMinus, Ext.div, Ext.add, cdf, num2, Ext.neg, hF]

/-- C90, the formulas. Given a forward, a strike and a standard deviation that are not negative, the formula for calls is
the discount factor times the expected payoff of a call on a lognormal value with the forward as its mean; the formula
for puts likewise. The only exception is NaN: forward and strike are equal, and they or the standard deviation are zero. -/
theorem C90_formula {D F K s : ℝ} (hF : 0 ≤ F) (hK : 0 ≤ K) (hs : 0 ≤ s) (hZ : HasLaw Z (gaussianReal 0 1) μ) :
    (¬ (F = K ∧ (F = 0 ∨ s = 0)) →
      callPrice (.val D) (.val F) (.val K) (.val s) = .val (D * ∫ ω, payoff .call (lognormal F s (Z ω)) K ∂μ) ∧
      putPrice (.val D) (.val F) (.val K) (.val s) = .val (D * ∫ ω, payoff .put (lognormal F s (Z ω)) K ∂μ)) ∧
    (F = K ∧ (F = 0 ∨ s = 0) →
      callPrice (.val D) (.val F) (.val K) (.val s) = .nan ∧ putPrice (.val D) (.val F) (.val K) (.val s) = .nan) := by
  rw [law_payoff hZ, law_payoff hZ]
  refine ⟨fun h => ⟨formula_mean (kind := .call) hF hK hs h, formula_mean (kind := .put) hF hK hs h⟩, ?_⟩
  rintro ⟨rfl, h⟩
  exact ⟨formula_nan (kind := .call) h, formula_nan (kind := .put) h⟩

/-- The lognormal value has the forward as its mean. -/
theorem C90_mean (F s : ℝ) (hZ : HasLaw Z (gaussianReal 0 1) μ) : ∫ ω, lognormal F s (Z ω) ∂μ = F := by
  have h : ∫ ω, lognormal F s (Z ω) ∂μ = ∫ x, lognormal F s x ∂gaussianReal 0 1 :=
    hZ.integral_comp (lognormal_integrable F s).aestronglyMeasurable
  rw [h, lognormal_mean]

/-- A price that is a number comes from numbers. -/
theorem vanilla_number {v : Vanilla} {u : Instrument} {volFrom : Point} {sf : Outcome (Num ℝ × Num ℝ)} {d : DateTime} {x : ℝ}
    (h : vanillaPrices fuel ctx v u volFrom sf [d] = .ok [.val x]) (hd : notAfter d v.expiry) :
    ∃ yc vol K F δ D t w, ctx.yieldCurve u.creditId v.payDate = .ok yc ∧
      ctx.volSurface u v.expiry.date (fun _ => ctx.forwardCurve u v.expiry.date) = .ok vol ∧ sf = .ok (.val K, .val F) ∧
      vol.displacement v.expiry.date = .ok (.val δ) ∧ 0 ≤ F - δ ∧ yc.df v.payDate (v.settlement d.date) = .ok (.val D) ∧
      u.timeToDayFraction d = .ok t ∧ vol.forwardVariance fuel (later volFrom t) v.expiryTime (.val K) = .ok (.val w) ∧ 0 ≤ w ∧
      formula v.putOrCall (.val D) (.val (F - δ)) (.val (K + δ)) (.val (Real.sqrt w)) = .val x := by
  rw [vanillaPrices_cons] at h
  obtain ⟨yc, vol, K, F, rt, δ, h1, h2, h3, h4, h5, h6, h7⟩ := h
  cases h7 with
  | cons h7 _ =>
    obtain ⟨rs, t, va, sv, a1, a2, a3, a4, a5⟩ := (vanillaValue_ok hd).1 h7
    rcases call_put (num2 (· * ·) (num1 (fun x => Real.exp (-x)) rt) (num1 Real.exp rs)) (num2 (· - ·) F δ) (num2 (· + ·) K δ) sv with
      ⟨b1, b2⟩ | ⟨D, F', K', c, p, eD, eF, eK, ec, ep, _⟩
    · exfalso
      cases hk : v.putOrCall <;> rw [hk] at a5 <;> simp only [formula, b1, b2] at a5 <;> cases a5
    · cases F with
      | nan => simp [num2] at eF
      | val F =>
        cases δ with
        | nan => simp [num2] at eF
        | val δ =>
          cases K with
          | nan => simp [num2] at eK
          | val K =>
            unfold optionSqrtVariance at a4
            cases hn : nonNegative va with
            | error e => rw [hn] at a4; cases a4
            | ok w =>
              rw [hn] at a4
              dsimp only at a4
              cases a4
              obtain ⟨rfl, hw⟩ := nonNegative_ok hn
              cases va with
              | nan =>
                exfalso
                cases hk : v.putOrCall <;> rw [hk] at a5 <;>
                  simp [formula, callPrice, putPrice, num2, nsqrt, dPlusMinus, cdf, Ext.neg] at a5
              | val w =>
                have hw := hw w rfl
                have es : nsqrt (.val w) = .val (Real.sqrt w) := by
                  unfold nsqrt
                  simp [not_lt.2 hw]
                rw [es, eD] at a5
                refine ⟨yc, vol, K, F, δ, D, t, w, h1, h2, h3, h5, ?_, df_product h4 a1 eD, a2, a3, hw, a5.symm⟩
                simp only [num2, nlt] at h6
                exact not_lt.1 h6

theorem number_mean {kind : PutOrCall} {D F K s x : ℝ} (hF : 0 ≤ F) (hK : 0 ≤ K) (hs : 0 ≤ s)
    (h : formula kind (.val D) (.val F) (.val K) (.val s) = .val x) :
    x = D * ∫ z, payoff kind (lognormal F s z) K ∂gaussianReal 0 1 := by
  by_cases hn : F = K ∧ (F = 0 ∨ s = 0)
  · obtain ⟨rfl, hn⟩ := hn
    rw [formula_nan hn] at h
    cases h
  · rw [formula_mean hF hK hs hn] at h
    cases h
    rfl

theorem later_is (a b : Point) : LaterOf a b (later a b) := by
  unfold later before
  split
  · rename_i h
    refine ⟨.inl rfl, ?_⟩
    rintro x (rfl | rfl)
    · exact .inr ⟨rfl, le_refl _⟩
    · rcases h with h | ⟨h, h'⟩
      · exact .inl h
      · exact .inr ⟨h, h'.le⟩
  · rename_i h
    push Not at h
    refine ⟨.inr rfl, ?_⟩
    rintro x (rfl | rfl)
    · rcases lt_or_eq_of_le h.1 with g | g
      · exact .inl g
      · exact .inr ⟨g, h.2 g.symm⟩
    · exact .inr ⟨rfl, le_refl _⟩

/-- C90, spot-starting options. Whenever the price of an option at a date up to expiry is a number, it is the discount
factor from the payment date to settlement times the expected payoff of a lognormal value: its mean is the forward of
the underlying, and its logarithm has the variance that the surface has from the valuation time to expiry at the strike. What is
missing, surfaces that assume fixed dividends, is false: `C90_displaced_false`. -/
theorem C90_spot_partial {v : Vanilla} {u : Instrument} {K x : ℝ} {d : DateTime} {vol : VolSurface}
    (h : (Instrument.spotStarting v u K).price fuel ctx d = .ok (.val x)) (hd : NotLater d v.expiry) (hK : 0 ≤ K)
    (hvol : ctx.volSurface u v.expiry.date (fun _ => ctx.forwardCurve u v.expiry.date) = .ok vol)
    (hdiv : vol.divAssumptions ≠ .fixedDivs) (hZ : HasLaw Z (gaussianReal 0 1) μ) :
    ∃ yc D F from_ w, ctx.yieldCurve u.creditId v.payDate = .ok yc ∧ yc.df v.payDate (v.settlement d.date) = .ok (.val D) ∧
      u.price fuel ctx v.expiry = .ok (.val F) ∧ LaterOf (0, 0) (d.date, gone d) from_ ∧
      vol.forwardVariance fuel from_ v.expiryTime (.val K) = .ok (.val w) ∧ 0 ≤ w ∧
      x = D * ∫ ω, payoff v.putOrCall (lognormal F (Real.sqrt w) (Z ω)) K ∂μ := by
  rw [price_iff, Instrument.prices] at h
  obtain ⟨yc, vol', K', F, δ, D, t, w, h1, h2, h3, h4, h5, h6, h7, h8, h9, h10⟩ := vanilla_number h ((notAfter_iff _ _).2 hd)
  rw [hvol] at h2
  cases h2
  have hδ := displacement_zero vol hdiv h4
  cases hδ
  obtain ⟨e, hF⟩ := spot_strike h3
  cases e
  rw [sub_zero, add_zero] at h10
  rw [sub_zero] at h5
  obtain ⟨_, rfl⟩ := time_iff.1 h7
  refine ⟨yc, D, F, _, w, h1, h6, hF, later_is _ _, h8, h9, ?_⟩
  rw [law_payoff hZ]
  exact number_mean h5 hK (Real.sqrt_nonneg w) h10

theorem payoff_scale (kind : PutOrCall) {c : ℝ} (hc : 0 ≤ c) (S K : ℝ) : payoff kind (c * S) (c * K) = c * payoff kind S K := by
  cases kind
  · simp only [payoff]
    rw [← mul_sub, mul_max_of_nonneg _ _ hc, mul_zero]
  · simp only [payoff]
    rw [← mul_sub, mul_max_of_nonneg _ _ hc, mul_zero]

/-- What happens before the strike date does not matter. -/
theorem mean_forward [IsProbabilityMeasure μ] {Y : Ω → ℝ} (hY : HasLaw Y (gaussianReal 0 1) μ) (hZ : HasLaw Z (gaussianReal 0 1) μ)
    (hi : IndepFun Y Z μ) (kind : PutOrCall) (S F φ r s : ℝ) :
    ∫ ω, payoff kind (Real.exp (r * Y ω - r ^ 2 / 2) * lognormal F s (Z ω)) (φ * lognormal S r (Y ω)) ∂μ =
      ∫ x, payoff kind (lognormal F s x) (S * φ) ∂gaussianReal 0 1 := by
  have e : ∀ ω, payoff kind (Real.exp (r * Y ω - r ^ 2 / 2) * lognormal F s (Z ω)) (φ * lognormal S r (Y ω)) =
      Real.exp (r * Y ω - r ^ 2 / 2) * payoff kind (lognormal F s (Z ω)) (S * φ) := by
    intro ω
    rw [← payoff_scale kind (Real.exp_pos _).le]
    congr 1
    unfold lognormal
    ring
  simp only [e]
  have m1 : Measurable (fun y : ℝ => Real.exp (r * y - r ^ 2 / 2)) := by fun_prop
  have m2 : Measurable (fun z : ℝ => payoff kind (lognormal F s z) (S * φ)) := by
    cases kind <;> simp only [payoff, lognormal] <;> fun_prop
  have h := (hi.comp m1 m2).integral_mul_eq_mul_integral (m1.comp_aemeasurable hY.aemeasurable).aestronglyMeasurable
    (m2.comp_aemeasurable hZ.aemeasurable).aestronglyMeasurable
  simp only [Pi.mul_apply, Function.comp] at h
  rw [h, law_payoff hZ]
  have h1 := C90_mean 1 r hY
  unfold lognormal at h1
  simp only [one_mul] at h1
  rw [h1, one_mul]

/-- C90, forward-starting options. Whenever the price at a date up to expiry is a number, it is the discounted expected
payoff of a walk in two independent lognormal moves. The first leads from the forward `S` of the strike date to the value at
the strike date, which sets the strike; its deviation `r` does not matter. The second has the variance that the surface has
from the strike date, or the valuation date if that is later, to expiry at the strike `φ S`. What is missing, surfaces that assume
fixed dividends, is false. -/
theorem C90_forward_partial [IsProbabilityMeasure μ] {v : Vanilla} {u : Instrument} {φ x : ℝ} {strikeDate d : DateTime}
    {strikeTime : Point} {vol : VolSurface} {Y : Ω → ℝ} (r : ℝ)
    (h : (Instrument.forwardStarting v u φ strikeDate strikeTime).price fuel ctx d = .ok (.val x)) (hd : NotLater d v.expiry)
    (hvol : ctx.volSurface u v.expiry.date (fun _ => ctx.forwardCurve u v.expiry.date) = .ok vol)
    (hdiv : vol.divAssumptions ≠ .fixedDivs)
    (hS : ∀ S F, u.prices fuel ctx [strikeDate, v.expiry] = .ok [.val S, .val F] → 0 ≤ S * φ)
    (hY : HasLaw Y (gaussianReal 0 1) μ) (hZ : HasLaw Z (gaussianReal 0 1) μ) (hi : IndepFun Y Z μ) :
    ∃ yc D S F from_ w, ctx.yieldCurve u.creditId v.payDate = .ok yc ∧ yc.df v.payDate (v.settlement d.date) = .ok (.val D) ∧
      u.prices fuel ctx [strikeDate, v.expiry] = .ok [.val S, .val F] ∧ LaterOf strikeTime (d.date, gone d) from_ ∧
      vol.forwardVariance fuel from_ v.expiryTime (.val (S * φ)) = .ok (.val w) ∧ 0 ≤ w ∧
      x = D * ∫ ω, payoff v.putOrCall (Real.exp (r * Y ω - r ^ 2 / 2) * lognormal F (Real.sqrt w) (Z ω))
        (φ * lognormal S r (Y ω)) ∂μ := by
  rw [price_iff, Instrument.prices] at h
  split at h
  · cases h
  obtain ⟨yc, vol', K', F, δ, D, t, w, h1, h2, h3, h4, h5, h6, h7, h8, h9, h10⟩ := vanilla_number h ((notAfter_iff _ _).2 hd)
  rw [hvol] at h2
  cases h2
  have hδ := displacement_zero vol hdiv h4
  cases hδ
  obtain ⟨S, hF, e⟩ := forward_strike h3
  cases S with
  | nan => cases e
  | val S =>
    cases e
    rw [sub_zero, add_zero] at h10
    rw [sub_zero] at h5
    obtain ⟨_, rfl⟩ := time_iff.1 h7
    refine ⟨yc, D, S, F, _, w, h1, h6, hF, later_is _ _, h8, h9, ?_⟩
    rw [mean_forward hY hZ hi]
    exact number_mean h5 (hS S F hF) (Real.sqrt_nonneg w) h10

/-- C90 violated by every surface that assumes fixed dividends and has any. If the cash still to come is `δ`, the value at
expiry is `δ` and a lognormal part whose mean is the rest of the forward. The price is never the discounted expected payoff of that:
the code adds `δ` to the strike, where it should take it off (`options.rs:119`). -/
theorem C90_displaced_false {v : Vanilla} {u : Instrument} {K F δ D w x : ℝ} {d : DateTime} {yc : RateCurve} {vol : VolSurface}
    (h : (Instrument.spotStarting v u K).price fuel ctx d = .ok (.val x)) (hd : NotLater d v.expiry) (hd0 : 0 ≤ d.date)
    (hvol : ctx.volSurface u v.expiry.date (fun _ => ctx.forwardCurve u v.expiry.date) = .ok vol)
    (hyc : ctx.yieldCurve u.creditId v.payDate = .ok yc) (hD : yc.df v.payDate (v.settlement d.date) = .ok (.val D)) (hD0 : D ≠ 0)
    (hF : u.price fuel ctx v.expiry = .ok (.val F)) (hδ : vol.displacement v.expiry.date = .ok (.val δ)) (hδ0 : δ ≠ 0)
    (hw : vol.forwardVariance fuel (d.date, gone d) v.expiryTime (.val K) = .ok (.val w)) (hw0 : 0 < w)
    (hF0 : 0 < F - δ) (hK1 : 0 < K + δ) (hK2 : 0 < K - δ) (hZ : HasLaw Z (gaussianReal 0 1) μ) :
    x ≠ D * ∫ ω, payoff v.putOrCall (δ + lognormal (F - δ) (Real.sqrt w) (Z ω)) K ∂μ := by
  rw [price_iff, Instrument.prices] at h
  obtain ⟨yc', vol', K', F', δ', D', t, w', h1, h2, h3, h4, h5, h6, h7, h8, h9, h10⟩ := vanilla_number h ((notAfter_iff _ _).2 hd)
  rw [hvol] at h2
  cases h2
  rw [hyc] at h1
  cases h1
  rw [hδ] at h4
  cases h4
  obtain ⟨e, hF'⟩ := spot_strike h3
  cases e
  rw [hF] at hF'
  cases hF'
  rw [hD] at h6
  cases h6
  obtain ⟨_, rfl⟩ := time_iff.1 h7
  have hl : later (0, 0) (d.date, gone d) = (d.date, gone d) := by
    refine later_latest ⟨.inr rfl, ?_⟩
    have hg : 0 ≤ gone d := by unfold gone; split <;> norm_num
    rintro x (rfl | rfl)
    · by_cases h : 0 < d.date
      · exact .inl h
      · exact .inr ⟨by dsimp only; omega, hg⟩
    · exact .inr ⟨rfl, le_refl _⟩
  rw [hl, hw] at h8
  cases h8
  have hs := Real.sqrt_pos.2 hw0
  rw [formula_black hF0 hK1 hs] at h10
  cases h10
  have e : ∀ ω, payoff v.putOrCall (δ + lognormal (F - δ) (Real.sqrt w) (Z ω)) K =
      payoff v.putOrCall (lognormal (F - δ) (Real.sqrt w) (Z ω)) (K - δ) := by
    intro ω
    cases v.putOrCall <;> simp only [payoff] <;> congr 1 <;> ring
  simp only [e]
  rw [law_payoff hZ]
  intro hx
  have hx := mul_left_cancel₀ hD0 hx
  revert hx
  cases v.putOrCall
  · rw [mean_put hF0 hK2 hs]
    rcases lt_or_gt_of_ne hδ0 with h | h
    · exact (black_forward_lt hF0 hs hK1 (show K + δ < K - δ by linarith)).ne
    · exact (black_forward_lt hF0 hs hK2 (show K - δ < K + δ by linarith)).ne'
  · rw [mean_call hF0 hK2 hs]
    rcases lt_or_gt_of_ne hδ0 with h | h
    · exact (black_strike_lt hF0 hs hK1 (show K + δ < K - δ by linarith)).ne'
    · exact (black_strike_lt hF0 hs hK2 (show K - δ < K + δ by linarith)).ne

/-! ## Cases -/

/-- A standard normal number. -/
theorem normal_exists : HasLaw (fun x : ℝ => x) (gaussianReal 0 1) (gaussianReal 0 1) := ⟨aemeasurable_id, Measure.map_id⟩

/-- C90: a call struck at 90 on an underlying at 100, ten days before expiry. -/
example : (Instrument.spotStarting (call sampleTerms) sampleEquity 90).price fuel (flatContext (.flat (.val 0.2) .everyDay (0, 0)))
    ⟨0, .open⟩ = .ok (.val (∫ z, max (lognormal 100 (Real.sqrt (0.2 ^ 2 * (2 / 73))) z - 90) 0 ∂gaussianReal 0 1)) := by
  have hw : (VolSurface.flat (.val 0.2) .everyDay (0, 0)).forwardVariance fuel (0, 0) (10, 0) (.val 90) = .ok (.val (0.2 ^ 2 * (2 / 73))) := by
    rw [flat_forward]
    left
    exact ⟨before_irrefl _, 2 / 73, by have := everyDay_year 10; norm_num at this; exact this, rfl⟩
  have hp := sample_price (fuel := fuel) call (.inl rfl) (.flat (.val 0.2) .everyDay (0, 0)) 90 0 _ 0 (by norm_num) rfl (by norm_num) hw
    (by norm_num)
  have es : nsqrt (.val (0.2 ^ 2 * (2 / 73))) = .val (Real.sqrt (0.2 ^ 2 * (2 / 73))) := by
    unfold nsqrt
    dsimp only
    rw [if_neg (by norm_num)]
  rw [es, formula_black (by norm_num) (by norm_num) (Real.sqrt_pos.2 (by norm_num))] at hp
  obtain ⟨yc, D, F, from_, w, h1, h2, h3, h4, h5, _, h7⟩ := C90_spot_partial hp (.inl (by simp [call, sampleTerms])) (by norm_num) rfl
    (by simp [VolSurface.divAssumptions]) normal_exists
  have hf := later_latest h4
  rw [show gone ⟨0, .open⟩ = 0 by simp [gone], later_self_zero _ (by unfold before; simp)] at hf
  subst hf
  have h5' : (VolSurface.flat (.val 0.2) .everyDay (0, 0)).forwardVariance fuel (0, 0) (10, 0) (.val 90) = .ok (.val w) := h5
  rw [hw] at h5'
  cases h5'
  rw [price_iff, equity_flat] at h3
  cases h3
  cases h1
  have hD : D = 1 := by
    have h2' : (RateCurve.zero 0).df 10 0 = .ok (.val D) := h2
    rw [Curves.df_eq (Forward.zero_rt _ _) (Forward.zero_rt _ _)] at h2'
    cases h2'
    norm_num
  subst hD
  rw [show sampleEquity = .equity "A" "C" id from rfl, hp, h7, one_mul]
  rfl

/-- C90 violated in a case: a surface that assumes fixed dividends of 5 after expiry. -/
example : ∃ s, VolSurface.newByProbability fixedPillar = .ok s ∧ ∃ x,
    (Instrument.spotStarting (call sampleTerms) sampleEquity 100).price fuel (flatContext s) ⟨0, .open⟩ = .ok (.val x) ∧
    x ≠ ∫ z, max (5 + lognormal 95 (Real.sqrt (10 / 365 * 0.2 * 0.2)) z - 100) 0 ∂gaussianReal 0 1 := by
  obtain ⟨pi, hs⟩ := fixedPillar_new
  refine ⟨_, hs, ?_⟩
  have hδ : (VolSurface.byProbability fixedPillar [pi]).displacement 10 = .ok (.val 5) := by
    unfold VolSurface.displacement displacementBy
    exact constant_forward 0 10 5
  have hw : (VolSurface.byProbability fixedPillar [pi]).forwardVariance fuel (0, 0) (10, 0) (.val 100) =
      .ok (.val (10 / 365 * 0.2 * 0.2)) := by
    have hv := fixedPillar_vols (fuel := fuel) pi 10 (by norm_num) (.val 100)
    unfold VolSurface.forwardVariance VolSurface.forwardVariances
    rw [if_pos (by exact before_irrefl _)]
    unfold VolSurface.variances
    norm_num at hv
    rw [hv]
    simp only [ok_bind, List.map_cons, List.map_nil, num2]
    show first [_] = _
    unfold first
    norm_num
  have hp := sample_price (fuel := fuel) call (.inl rfl) _ 100 5 _ 0 (by norm_num) hδ (by norm_num) hw (by norm_num)
  have es : nsqrt (.val (10 / 365 * 0.2 * 0.2)) = .val (Real.sqrt (10 / 365 * 0.2 * 0.2)) := by
    unfold nsqrt
    dsimp only
    rw [if_neg (by norm_num)]
  rw [es, formula_black (by norm_num) (by norm_num) (Real.sqrt_pos.2 (by norm_num))] at hp
  refine ⟨_, hp, ?_⟩
  have h := C90_displaced_false (yc := .zero 0) (D := 1) (F := 100) hp (.inl (by simp [call, sampleTerms])) (le_refl _) rfl rfl (by
      show (RateCurve.zero 0).df 10 0 = _
      rw [Curves.df_eq (Forward.zero_rt _ _) (Forward.zero_rt _ _)]
      norm_num) one_ne_zero (by rw [price_iff]; exact equity_flat _ _) hδ (by norm_num)
    (by rw [show gone ⟨0, .open⟩ = 0 by simp [gone]]; exact hw) (by norm_num) (by norm_num) (by norm_num) (by norm_num) normal_exists
  rw [one_mul (∫ _, _ ∂_), show (100 : ℝ) - 5 = 95 by norm_num] at h
  rw [show (100 : ℝ) - 5 = 95 by norm_num]
  exact h

/-- C90: two independent standard normal numbers. -/
theorem normal_pair : HasLaw Prod.fst (gaussianReal 0 1) ((gaussianReal 0 1).prod (gaussianReal 0 1)) ∧
    HasLaw Prod.snd (gaussianReal 0 1) ((gaussianReal 0 1).prod (gaussianReal 0 1)) ∧
    IndepFun (Prod.fst : ℝ × ℝ → ℝ) Prod.snd ((gaussianReal 0 1).prod (gaussianReal 0 1)) :=
  ⟨⟨by fun_prop, by rw [Measure.map_fst_prod]; simp⟩, ⟨by fun_prop, by rw [Measure.map_snd_prod]; simp⟩,
    indepFun_prod measurable_id measurable_id⟩

/-- C90: a forward-starting put that fixes its strike on day 5, valued on day 0. -/
example (r : ℝ) : ∃ x w, (Instrument.forwardStarting (put sampleTerms) sampleEquity 1 ⟨5, .open⟩ (5, 0)).price fuel
    (flatContext (.flat (.val 0.2) .everyDay (0, 0))) ⟨0, .open⟩ = .ok (.val x) ∧ 0 < w ∧
    x = ∫ z, max (1 * lognormal 100 r z.1 - Real.exp (r * z.1 - r ^ 2 / 2) * lognormal 100 (Real.sqrt w) z.2) 0
      ∂((gaussianReal 0 1).prod (gaussianReal 0 1)) := by
  have hu : ∀ (a b : DateTime), sampleEquity.prices fuel (flatContext (.flat (.val 0.2) .everyDay (0, 0))) [a, b] =
      .ok [.val 100, .val 100] := by
    intro a b
    unfold sampleEquity
    rw [Instrument.prices]
    unfold equityPrices
    rfl
  have hf : LaterOf (5, 0) ((0 : Int), gone ⟨0, .open⟩) (5, 0) := by
    refine ⟨.inl rfl, ?_⟩
    rintro y (rfl | rfl)
    · exact .inr ⟨rfl, le_refl _⟩
    · exact .inl (by norm_num)
  have hw : (VolSurface.flat (.val 0.2) .everyDay (0, 0)).forwardVariance fuel (5, 0) (10, 0) (.val (100 * 1)) =
      .ok (.val (0.2 ^ 2 * (2 / 73 - 1 / 73))) := by
    rw [flat_forward]
    right
    refine ⟨by left; norm_num, 1 / 73, 2 / 73, ?_, ?_, ?_, ?_⟩
    · have := everyDay_year 5; norm_num at this; exact this
    · have := everyDay_year 10; norm_num at this; exact this
    · norm_num
    · norm_num
  have hp := C72_option_forward (fuel := fuel) (ctx := flatContext (.flat (.val 0.2) .everyDay (0, 0))) (v := put sampleTerms)
    (u := sampleEquity) (fraction := 1) (strikeDate := ⟨5, .open⟩) (d := ⟨0, .open⟩) (strikeTime := (5, 0)) (yc := .zero 0) (δ := 0)
    (.inl ⟨_, _, _, rfl⟩) (.inl (by simp [put, sampleTerms])) (by simp [flatContext]) rfl rfl (hu _ _) rfl (Forward.zero_rt _ _)
    (Forward.zero_rt _ _) hf hw (by norm_num) (by norm_num) (by norm_num)
  obtain ⟨n1, n2, n3⟩ := normal_pair
  obtain ⟨yc, D, S, F, from_, w, h1, h2, h3, h4, h5, _, h7⟩ := C90_forward_partial r hp (.inl (by simp [put, sampleTerms])) rfl
    (by simp [VolSurface.divAssumptions]) (by
      intro S F h
      rw [hu] at h
      cases h
      norm_num) n1 n2 n3
  rw [hu] at h3
  cases h3
  have hl := later_latest hf
  rw [later_latest h4] at hl
  subst hl
  have h5' : (VolSurface.flat (.val 0.2) .everyDay (0, 0)).forwardVariance fuel (5, 0) (10, 0) (.val (100 * 1)) = .ok (.val w) := h5
  rw [hw] at h5'
  cases h5'
  cases h1
  have hD : D = 1 := by
    have h2' : (RateCurve.zero 0).df 10 0 = .ok (.val D) := h2
    rw [Curves.df_eq (Forward.zero_rt _ _) (Forward.zero_rt _ _)] at h2'
    cases h2'
    norm_num
  subst hD
  refine ⟨_, 0.2 ^ 2 * (2 / 73 - 1 / 73), hp, by norm_num, ?_⟩
  rw [h7, one_mul]
  rfl

end QM.Instruments
