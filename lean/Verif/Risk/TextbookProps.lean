import Verif.Risk.GreeksProps
import Mathlib.Analysis.Calculus.LHopital

/-!
# Property C104: small bumps give the Greeks of the textbook
-/

namespace QM.Risk.Spec
open QM.Instruments ProbabilityTheory

/-- The argument of the normal distribution in the formula of Black, usually called `d₁`, for forward `F`, strike `K` and standard deviation `s`. -/
noncomputable def d1 (F K s : ℝ) : ℝ := Real.log (F / K) / s + s / 2

/-- `d₂`. -/
noncomputable def d2 (F K s : ℝ) : ℝ := Real.log (F / K) / s - s / 2

/-- The delta of the textbook, with discount factor `D`, where the forward moves by `a` for one unit of spot. -/
noncomputable def textDelta (kind : PutOrCall) (D a F K s : ℝ) : ℝ :=
  match kind with
  | .call => D * a * cdf (gaussianReal 0 1) (d1 F K s)
  | .put => - (D * a * cdf (gaussianReal 0 1) (- d1 F K s))

/-- The gamma of the textbook, of calls and puts. -/
noncomputable def textGamma (D a F K s : ℝ) : ℝ := D * a ^ 2 * gaussianPDFReal 0 1 (d1 F K s) / (F * s)

/-- The vega of the textbook, for a volatility `σ` that applies for a time `T`. -/
noncomputable def textVega (D F K σ T : ℝ) : ℝ := D * F * gaussianPDFReal 0 1 (d1 F K (Real.sqrt T * σ)) * Real.sqrt T

/-- The volga of the textbook. -/
noncomputable def textVolga (D F K σ T : ℝ) : ℝ := textVega D F K σ T * (d1 F K (Real.sqrt T * σ) * d2 F K (Real.sqrt T * σ)) / σ

end QM.Risk.Spec

namespace QM.Risk
open QM.Interp QM.Curves QM.Vol QM.Fixings QM.Instruments QM.Instruments.Spec QM.Market QM.Market.Spec QM.Risk.Spec
open MeasureTheory ProbabilityTheory Filter Topology

variable {fuel : Nat} {md : MarketData} {v : Vanilla} {id credit : String} {settle : Int → Int} {K S a c δ D w : ℝ} {vol : VolSurface}

/-! ## Differences and derivatives -/

/-- Taylor's formula to second order, with the remainder of Peano. -/
theorem peano {f f' : ℝ → ℝ} {x f'' : ℝ} (h1 : ∀ᶠ y in 𝓝 x, HasDerivAt f (f' y) y) (h2 : HasDerivAt f' f'' x) :
    Tendsto (fun h => (f (x + h) - f x - f' x * h) / h ^ 2) (𝓝[≠] 0) (𝓝 (f'' / 2)) := by
  have hmove : Tendsto (fun h : ℝ => x + h) (𝓝 0) (𝓝 x) := by
    have : ContinuousAt (fun h : ℝ => x + h) 0 := by fun_prop
    have h := this.tendsto
    rwa [add_zero] at h
  have hd : ∀ᶠ h in 𝓝 (0 : ℝ), HasDerivAt (fun h => f (x + h) - f x - f' x * h) (f' (x + h) - f' x) h := by
    filter_upwards [hmove.eventually h1] with h hh
    have e1 : HasDerivAt (fun h => f (x + h)) (f' (x + h)) h := HasDerivAt.comp_const_add x h hh
    have e2 : HasDerivAt (fun h => f' x * h) (f' x) h := ((hasDerivAt_id h).const_mul (f' x)).congr_deriv (by simp)
    exact (e1.sub_const (f x)).sub e2
  have h0 : HasDerivAt f (f' x) x := h1.self_of_nhds
  refine HasDerivAt.lhopital_zero_nhdsNE (hd.filter_mono nhdsWithin_le_nhds) (g' := fun h => 2 * h) ?_ ?_ ?_ ?_ ?_
  · exact Eventually.of_forall fun h => (hasDerivAt_pow 2 h).congr_deriv (by norm_num)
  · filter_upwards [self_mem_nhdsWithin] with h hh
    exact mul_ne_zero two_ne_zero hh
  · have : ContinuousAt (fun h => f (x + h) - f x - f' x * h) 0 := hd.self_of_nhds.continuousAt
    have h := this.tendsto
    simp only [add_zero, mul_zero, sub_self] at h
    exact h.mono_left nhdsWithin_le_nhds
  · have : ContinuousAt (fun h : ℝ => h ^ 2) 0 := by fun_prop
    have h := this.tendsto
    norm_num at h
    exact h.mono_left nhdsWithin_le_nhds
  · have := (hasDerivAt_iff_tendsto_slope_zero.1 h2).div_const 2
    refine this.congr' ?_
    filter_upwards [self_mem_nhdsWithin] with h hh
    have hh : h ≠ 0 := hh
    rw [smul_eq_mul]
    field_simp

/-- Differences over two small steps, up and down, that are not quite opposite. -/
theorem differences {f f' : ℝ → ℝ} {x f'' κ : ℝ} {u d : ℝ → ℝ} (h1 : ∀ᶠ y in 𝓝 x, HasDerivAt f (f' y) y) (h2 : HasDerivAt f' f'' x)
    (hu : Tendsto (fun b => u b / b) (𝓝[>] 0) (𝓝 1)) (hd : Tendsto (fun b => d b / b) (𝓝[>] 0) (𝓝 (-1)))
    (hk : Tendsto (fun b => (u b + d b) / b ^ 2) (𝓝[>] 0) (𝓝 κ)) :
    Tendsto (fun b => (f (x + u b) - f (x + d b)) / (2 * b)) (𝓝[>] 0) (𝓝 (f' x)) ∧
    Tendsto (fun b => (f (x + u b) + f (x + d b) - 2 * f x) / b ^ 2) (𝓝[>] 0) (𝓝 (f'' + κ * f' x)) := by
  have hpos : ∀ᶠ b : ℝ in 𝓝[>] 0, 0 < b := self_mem_nhdsWithin
  have hid : Tendsto (fun b : ℝ => b) (𝓝[>] 0) (𝓝 0) := tendsto_id.mono_left nhdsWithin_le_nhds
  have step : ∀ {s : ℝ → ℝ} {l : ℝ}, l ≠ 0 → Tendsto (fun b => s b / b) (𝓝[>] 0) (𝓝 l) →
      Tendsto (fun b => (f (x + s b) - f x - f' x * s b) / b ^ 2) (𝓝[>] 0) (𝓝 (f'' / 2 * l ^ 2)) := by
    intro s l hl hs
    have hne : ∀ᶠ b in 𝓝[>] (0 : ℝ), s b ≠ 0 := by
      filter_upwards [hs.eventually_ne hl] with b hb h
      exact hb (by rw [h, zero_div])
    have h0 : Tendsto s (𝓝[>] 0) (𝓝 0) := by
      have := hs.mul hid
      rw [mul_zero] at this
      refine this.congr' ?_
      filter_upwards [hpos] with b hb
      field_simp
    have := ((peano h1 h2).comp (tendsto_nhdsWithin_iff.2 ⟨h0, hne⟩)).mul (hs.pow 2)
    refine this.congr' ?_
    filter_upwards [hpos, hne] with b hb hb'
    simp only [Function.comp]
    field_simp
  have su := step one_ne_zero hu
  have sd := step (by norm_num) hd
  constructor
  · have := ((su.sub sd).mul hid).add ((hu.sub hd).const_mul (f' x))
    have := this.div_const 2
    rw [show (((f'' / 2 * 1 ^ 2 - f'' / 2 * (-1) ^ 2) * 0 + f' x * (1 - -1)) / 2 : ℝ) = f' x by ring] at this
    refine this.congr' ?_
    filter_upwards [hpos] with b hb
    field_simp
    ring
  · have := (su.add sd).add (hk.const_mul (f' x))
    rw [show f'' / 2 * 1 ^ 2 + f'' / 2 * (-1) ^ 2 + f' x * κ = f'' + κ * f' x by ring] at this
    refine this.congr' ?_
    filter_upwards [hpos] with b hb
    field_simp
    ring

/-! ## Derivatives of Black's formula -/

theorem dens_deriv (x : ℝ) : HasDerivAt dens (-x * dens x) x := by
  have : dens = fun x => (Real.sqrt (2 * Real.pi))⁻¹ * Real.exp (-x ^ 2 / 2) := funext dens_eq
  rw [this]
  have h1 : HasDerivAt (fun x : ℝ => -x ^ 2 / 2) (-x) x := (((hasDerivAt_pow 2 x).neg).div_const 2).congr_deriv (by norm_num; ring)
  exact (h1.exp.const_mul _).congr_deriv (by ring)

theorem d1_forward {F s : ℝ} (hF : 0 < F) (hK : 0 < K) : HasDerivAt (fun F => d1 F K s) (1 / (F * s)) F := by
  have h1 : HasDerivAt (fun F : ℝ => Real.log (F / K)) (1 / K / (F / K)) F := ((hasDerivAt_id F).div_const K).log (div_pos hF hK).ne'
  exact ((h1.div_const s).add_const (s / 2)).congr_deriv (by field_simp)

theorem black_forward {F s : ℝ} (hF : 0 < F) (hK : 0 < K) (hs : 0 < s) : HasDerivAt (fun F => black F K s) (Phi (d1 F K s)) F := by
  have h1 : HasDerivAt (fun F : ℝ => Real.log (F / K)) (1 / K / (F / K)) F := ((hasDerivAt_id F).div_const K).log (div_pos hF hK).ne'
  have h2 : HasDerivAt (fun F : ℝ => Real.log (F / K) / s - s / 2) (1 / (F * s)) F := ((h1.div_const s).sub_const (s / 2)).congr_deriv (by field_simp)
  have k1 := (hasDerivAt_id F).mul ((Phi_deriv _).comp F (d1_forward (s := s) hF hK))
  have k2 := ((Phi_deriv _).comp F h2).const_mul K
  have hb := dens_balance hF hK hs
  refine (k1.sub k2).congr_deriv ?_
  simp only [Function.comp, id, d1]
  linear_combination (1 / (F * s)) * hb

theorem black_forward_twice {F s : ℝ} (hF : 0 < F) (hK : 0 < K) : HasDerivAt (fun F => Phi (d1 F K s)) (dens (d1 F K s) / (F * s)) F :=
  ((Phi_deriv _).comp F (d1_forward hF hK)).congr_deriv (by ring)

theorem black_twice {F s : ℝ} (hs : 0 < s) : HasDerivAt (fun s => F * dens (d1 F K s)) (F * dens (d1 F K s) * (d1 F K s * d2 F K s) / s) s := by
  have hd : HasDerivAt (fun s => d1 F K s) (- d2 F K s / s) s := by
    have h1 : HasDerivAt (fun s : ℝ => Real.log (F / K) / s) (-Real.log (F / K) / s ^ 2) s :=
      ((hasDerivAt_const s _).fun_div (hasDerivAt_id s) (ne_of_gt hs)).congr_deriv (by simp)
    refine (h1.add ((hasDerivAt_id s).div_const 2)).congr_deriv ?_
    unfold d2
    field_simp
    ring
  exact (((dens_deriv _).comp s hd).const_mul F).congr_deriv (by field_simp)

/-- The value of an option moves with the forward by the probability of exercise, in the measure of the share. -/
theorem value_forward (kind : PutOrCall) {F s : ℝ} (hF : 0 < F) (hK : 0 < K) (hs : 0 < s) :
    HasDerivAt (fun F => blackValue kind F K s) (textDelta kind 1 1 F K s) F := by
  cases kind
  · have h := ((black_forward hF hK hs).sub ((hasDerivAt_id F).sub_const K))
    have e : textDelta .put 1 1 F K s = Phi (d1 F K s) - 1 := by
      show -(1 * 1 * Phi (-d1 F K s)) = _
      rw [Phi_neg]
      ring
    rw [e]
    refine h.congr_of_eventuallyEq ?_
    filter_upwards [lt_mem_nhds hF] with y hy
    have := black_swap (s := s) hy hK
    show black K y s = black y K s - (y - K)
    linarith
  · have e : textDelta .call 1 1 F K s = Phi (d1 F K s) := by
      show 1 * 1 * Phi (d1 F K s) = _
      ring
    rw [e]
    exact black_forward hF hK hs

theorem value_forward_twice (kind : PutOrCall) {F s : ℝ} (hF : 0 < F) (hK : 0 < K) :
    HasDerivAt (fun F => textDelta kind 1 1 F K s) (textGamma 1 1 F K s) F := by
  have e' : textGamma 1 1 F K s = dens (d1 F K s) / (F * s) := by
    unfold textGamma dens
    ring
  rw [e']
  cases kind
  · have e : (fun F => textDelta .put 1 1 F K s) = fun F => Phi (d1 F K s) - 1 := by
      funext F
      show -(1 * 1 * Phi (-d1 F K s)) = _
      rw [Phi_neg]
      ring
    rw [e]
    exact (black_forward_twice hF hK).sub_const 1
  · have e : (fun F => textDelta .call 1 1 F K s) = fun F => Phi (d1 F K s) := by
      funext F
      show 1 * 1 * Phi (d1 F K s) = _
      ring
    rw [e]
    exact black_forward_twice hF hK

/-! ## Delta and gamma -/

theorem mean_black (kind : PutOrCall) {F s : ℝ} (hF : 0 < F) (hK : 0 < K) (hs : 0 < s) :
    ∫ x, payoff kind (lognormal F s x) K ∂gaussianReal 0 1 = blackValue kind F K s := by
  cases kind
  · exact mean_put hF hK hs
  · exact mean_call hF hK hs

/-- The delta-gamma report of an option, in full. -/
theorem setting_delta (h : Setting fuel md v id credit settle K S a c δ D w vol) {b : ℝ} (hb0 : 0 < b) (hS : 0 < S)
    (hup : 0 < a * (S * (1 + b)) - c - δ) (hdown : 0 < a * (S * (1 - b)) - c - δ) (hK : 0 < K + δ) (hw : 0 < w) (kind : PutOrCall) (n : ℝ) :
    ∃ p x results p', SelfPricer.new [(n, euro kind v id credit settle K)] md = .ok p ∧ p.price fuel = .ok (.val x) ∧
      generate (selfPricer fuel) (.deltaGamma b) p .new (.val x) = (.ok (.deltaGamma (.val b) results), p', .new) ∧
      results.get id = some
        (.val (n * (D * ((blackValue kind (a * (S * (1 + b)) - c - δ) (K + δ) (Real.sqrt w) -
          blackValue kind (a * (S * (1 - b)) - c - δ) (K + δ) (Real.sqrt w)) / (2 * (b * S))))),
        .val (n * (D * ((blackValue kind (a * (S * (1 + b)) - c - δ) (K + δ) (Real.sqrt w) +
          blackValue kind (a * (S * (1 - b)) - c - δ) (K + δ) (Real.sqrt w) -
          2 * blackValue kind (a * S - c - δ) (K + δ) (Real.sqrt w)) / (b * S) ^ 2)))) ∧
      ∀ k, k ≠ id → results.get k = none := by
  have hF0 : 0 < a * S - c - δ := by nlinarith
  have hs := Real.sqrt_pos.2 hw
  obtain ⟨p, hp, hx⟩ := setting_new h n kind hF0 hK hw
  have hu := setting_value h n kind hup hK hw
  have hd := setting_value h n kind hdown hK hw
  rw [mean_black kind hF0 hK hs] at hx
  rw [mean_black kind hup hK hs] at hu
  rw [mean_black kind hdown hK hs] at hd
  obtain ⟨o2, o3, o4⟩ := only_option hp id
  obtain ⟨results, p', g1, g2⟩ := C44_differences_partial (b := b) (v := n * (D * blackValue kind (a * S - c - δ) (K + δ) (Real.sqrt w))) (S := fun _ => S)
    (u := fun _ => n * (D * blackValue kind (a * (S * (1 + b)) - c - δ) (K + δ) (Real.sqrt w)))
    (d := fun _ => n * (D * blackValue kind (a * (S * (1 - b)) - c - δ) (K + δ) (Real.sqrt w))) hp
    (option_unambiguous n kind _) hb0.ne' (by linarith) (by
      intro k hk
      cases (only_option hp k).1.1 hk
      exact ⟨o3, h.spot, hS.ne', hu, hd⟩)
  refine ⟨p, _, results, p', hp, hx, g1, ?_, ?_⟩
  · rw [(g2 id).1 (o2.2 rfl)]
    congr 3 <;> ring
  · intro k hk
    refine (g2 k).2 ?_
    by_contra hne
    exact hk ((only_option hp k).1.1 hne)

/-- C104, delta and gamma. For an option of either kind there are figures, for each size of bump, that tend to the delta and the gamma of the textbook as
the bump shrinks. For every bump that is small enough the report succeeds and has just these figures, times the amount held. The forward and the strike
exceed what the surface takes for dividends, and the variance is positive. -/
theorem C104_delta_partial (h : Setting fuel md v id credit settle K S a c δ D w vol) (hS : 0 < S) (hF : 0 < a * S - c - δ) (hK : 0 < K + δ)
    (hw : 0 < w) (kind : PutOrCall) :
    ∃ delta gamma : ℝ → ℝ, Tendsto delta (𝓝[>] 0) (𝓝 (textDelta kind D a (a * S - c - δ) (K + δ) (Real.sqrt w))) ∧
      Tendsto gamma (𝓝[>] 0) (𝓝 (textGamma D a (a * S - c - δ) (K + δ) (Real.sqrt w))) ∧
      ∃ β > 0, ∀ b, 0 < b → b < β → ∀ n, ∃ p x results p', SelfPricer.new [(n, euro kind v id credit settle K)] md = .ok p ∧
        p.price fuel = .ok (.val x) ∧
        generate (selfPricer fuel) (.deltaGamma b) p .new (.val x) = (.ok (.deltaGamma (.val b) results), p', .new) ∧
        results.get id = some (.val (n * delta b), .val (n * gamma b)) ∧ ∀ k, k ≠ id → results.get k = none := by
  have hs := Real.sqrt_pos.2 hw
  have hline : ∀ s, HasDerivAt (fun s => a * s - c - δ) a s := fun s =>
    ((((hasDerivAt_id s).const_mul a).sub_const c).sub_const δ).congr_deriv (by simp)
  have hcont : ContinuousAt (fun s => a * s - c - δ) S := (hline S).continuousAt
  have hnear : ∀ᶠ s in 𝓝 S, 0 < a * s - c - δ := hcont.eventually (lt_mem_nhds hF)
  have h1 : ∀ᶠ s in 𝓝 S, HasDerivAt (fun s => blackValue kind (a * s - c - δ) (K + δ) (Real.sqrt w))
      (textDelta kind 1 1 (a * s - c - δ) (K + δ) (Real.sqrt w) * a) s := by
    filter_upwards [hnear] with s hs'
    exact HasDerivAt.comp (h₂ := fun F => blackValue kind F (K + δ) (Real.sqrt w)) s (value_forward kind hs' hK hs) (hline s)
  have h2 : HasDerivAt (fun s => textDelta kind 1 1 (a * s - c - δ) (K + δ) (Real.sqrt w) * a)
      (textGamma 1 1 (a * S - c - δ) (K + δ) (Real.sqrt w) * a * a) S :=
    (HasDerivAt.comp (h₂ := fun F => textDelta kind 1 1 F (K + δ) (Real.sqrt w)) S (value_forward_twice kind hF hK) (hline S)).mul_const a
  have hpos : ∀ᶠ b : ℝ in 𝓝[>] 0, 0 < b := self_mem_nhdsWithin
  obtain ⟨t1, t2⟩ := differences (u := fun b => b) (d := fun b => -b) (κ := 0) h1 h2
    (tendsto_const_nhds.congr' (by filter_upwards [hpos] with b hb; field_simp))
    (tendsto_const_nhds.congr' (by filter_upwards [hpos] with b hb; field_simp))
    (tendsto_const_nhds.congr' (by filter_upwards [hpos] with b hb; simp))
  have hscale : Tendsto (fun b : ℝ => b * S) (𝓝[>] 0) (𝓝[>] 0) := by
    refine tendsto_nhdsWithin_iff.2 ⟨?_, ?_⟩
    · have : ContinuousAt (fun b : ℝ => b * S) 0 := by fun_prop
      have h := this.tendsto
      rw [zero_mul] at h
      exact h.mono_left nhdsWithin_le_nhds
    · filter_upwards [hpos] with b hb
      exact mul_pos hb hS
  have k1 := (t1.comp hscale).const_mul D
  have k2 := (t2.comp hscale).const_mul D
  have eu : ∀ b, S + b * S = S * (1 + b) := fun b => by ring
  have ed : ∀ b, S + -(b * S) = S * (1 - b) := fun b => by ring
  simp only [Function.comp, eu, ed] at k1 k2
  rw [show D * (textGamma 1 1 (a * S - c - δ) (K + δ) (Real.sqrt w) * a * a + 0 * (textDelta kind 1 1 (a * S - c - δ) (K + δ) (Real.sqrt w) * a)) =
    textGamma D a (a * S - c - δ) (K + δ) (Real.sqrt w) by unfold textGamma; ring] at k2
  rw [show D * (textDelta kind 1 1 (a * S - c - δ) (K + δ) (Real.sqrt w) * a) =
    textDelta kind D a (a * S - c - δ) (K + δ) (Real.sqrt w) by cases kind <;> unfold textDelta <;> ring] at k1
  refine ⟨_, _, k1, k2, ?_⟩
  have hm : ∀ g : ℝ → ℝ, ContinuousAt g 0 → g 0 = S → ∀ᶠ b in 𝓝 (0 : ℝ), 0 < a * g b - c - δ := by
    intro g hg h0
    have := hg.tendsto
    rw [h0] at this
    exact this.eventually hnear
  have hu := hm (fun b => S * (1 + b)) (by fun_prop) (by ring)
  have hd := hm (fun b => S * (1 - b)) (by fun_prop) (by ring)
  obtain ⟨β, hβ, hball⟩ := Metric.eventually_nhds_iff.1 (hu.and hd)
  refine ⟨β, hβ, ?_⟩
  intro b hb0 hb n
  obtain ⟨hu, hd⟩ := hball (y := b) (by rw [Real.dist_eq, sub_zero, abs_of_pos hb0]; exact hb)
  exact setting_delta h hb0 hS hu hd hK hw kind n

/-! ## Vega and volga -/

/-- The value of an option at the surface shifted in parallel. -/
theorem shifted_value (h : Setting fuel md v id credit settle K S a c δ D w vol) (hF : 0 < a * S - c - δ) (hK : 0 < K + δ) (kind : PutOrCall) (n : ℝ)
    {vol' : VolSurface} {w' : ℝ} (hw' : 0 < w') (hb : vol'.baseDate.1 = md.spotDate) (hδ : vol'.displacement v.expiry.date = .ok (.val δ))
    (hv : vol'.forwardVariance fuel (later (0, 0) (md.spotDate, 0)) v.expiryTime (.val K) = .ok (.val w')) :
    value fuel [(n, euro kind v id credit settle K)] (withVol md id vol') =
      .ok (.val (n * (D * blackValue kind (a * S - c - δ) (K + δ) (Real.sqrt w')))) := by
  obtain ⟨f, k1, k2⟩ := h.forward S
  obtain ⟨yc, r, r', k3, k4, k5, rfl⟩ := h.rates
  have k1' : (withVol md id vol').forwardCurve (.equity id credit settle) v.expiry.date = .ok f := by
    rw [← k1]
    refine forwardCurve_congr _ _ rfl ?_
    intro y hy
    rw [withVol_data, withSpot_data]
    rw [update_same (x := .spot id) (f := data md) h.spot, Function.update_of_ne]
    rintro rfl
    simp at hy
  rw [option_value (md := withVol md id vol') n kind h.ahead k1' k2 k3 k4 k5
    (surface_today (md := withVol md id vol') (by unfold withVol; simp) hb _) hδ hv hF.le hw'.le, formula_black hF hK (Real.sqrt_pos.2 hw')]
  rfl

/-- The vega-volga report of an option, in full. -/
theorem setting_vega (h : Setting fuel md v id credit settle K S a c δ D w vol) (hs : md.volSurfaces.get id = some vol)
    (hbase : vol.baseDate.1 = md.spotDate) (hfrom : ¬ before vol.baseDate (later (0, 0) (md.spotDate, 0))) {σ T b : ℝ}
    (hσ : vol.volatilities fuel v.expiryTime [.val K] = .ok (T, [.val σ])) (hT : 0 < T) (hσ0 : 0 < σ) (hb0 : 0 < b) (hdown : 0 < σ + b + -2 * b / (1 + b))
    (hF : 0 < a * S - c - δ) (hK : 0 < K + δ) (kind : PutOrCall) (n : ℝ) :
    ∃ p x results p', SelfPricer.new [(n, euro kind v id credit settle K)] md = .ok p ∧ p.price fuel = .ok (.val x) ∧
      generate (selfPricer fuel) (.vegaVolga (.flatAdditive (.val b))) p .new (.val x) = (.ok (.vegaVolga (.val b) results), p', .new) ∧
      results.get id = some
        (.val (n * (D * ((blackValue kind (a * S - c - δ) (K + δ) (Real.sqrt T * (σ + b)) -
          blackValue kind (a * S - c - δ) (K + δ) (Real.sqrt T * (σ + b + -2 * b / (1 + b)))) / (2 * b)))),
        .val (n * (D * ((blackValue kind (a * S - c - δ) (K + δ) (Real.sqrt T * (σ + b)) +
          blackValue kind (a * S - c - δ) (K + δ) (Real.sqrt T * (σ + b + -2 * b / (1 + b))) -
          2 * blackValue kind (a * S - c - δ) (K + δ) (Real.sqrt T * σ)) / b ^ 2)))) ∧
      ∀ k, k ≠ id → results.get k = none := by
  have hroot : ∀ {s : ℝ}, 0 < s → Real.sqrt (T * s * s) = Real.sqrt T * s := fun {s} h0 => by
    rw [mul_assoc, Real.sqrt_mul hT.le, Real.sqrt_mul_self h0.le]
  have hpos : ∀ {s : ℝ}, 0 < s → 0 < T * s * s := fun h0 => mul_pos (mul_pos hT h0) h0
  have hw := plain_variance hfrom hσ
  have hw0 : 0 < w := by
    have := h.variance
    rw [hw] at this
    cases this
    exact hpos hσ0
  obtain ⟨u1, u2⟩ := bumped_variance (b := b) hfrom hσ (by linarith)
  obtain ⟨d1, d2⟩ := bumped_variance (vol := .parallelBump vol (.val b)) (b := -2 * b / (1 + b)) (by exact hfrom) u1 hdown.le
  have hup := shifted_value h hF hK kind n (hpos (by linarith)) (by exact hbase) (by exact h.displacement) u2
  have hdn := shifted_value h hF hK kind n (hpos hdown) (by exact hbase) (by exact h.displacement) d2
  have hno := shifted_value h hF hK kind n (hpos hσ0) hbase h.displacement hw
  rw [hroot (by linarith)] at hup
  rw [hroot hdown] at hdn
  rw [hroot hσ0] at hno
  obtain ⟨p, hp, _⟩ := setting_new h n kind hF hK hw0
  have hx := (at_new hp).price (fuel := fuel) (md := withVol md id vol) rfl (by
    intro y
    rw [withVol_data]
    exact congrFun (update_same (x := .vol id) (f := data md) hs) y) hno
  obtain ⟨o2, o3, o4⟩ := only_option hp id
  obtain ⟨results, p', g1, g2⟩ := C45_differences_partial (b := b)
    (v := n * (D * blackValue kind (a * S - c - δ) (K + δ) (Real.sqrt T * σ))) (surface := fun _ => vol)
    (u := fun _ => n * (D * blackValue kind (a * S - c - δ) (K + δ) (Real.sqrt T * (σ + b))))
    (d := fun _ => n * (D * blackValue kind (a * S - c - δ) (K + δ) (Real.sqrt T * (σ + b + -2 * b / (1 + b))))) hp
    (option_unambiguous n kind _) hb0.ne' (by linarith) (by
      intro k hk
      cases (only_option hp k).1.1 hk
      exact ⟨o3, o4, hs, hup, hdn⟩)
  refine ⟨p, _, results, p', hp, hx, g1, ?_, ?_⟩
  · rw [(g2 id).1 (o2.2 rfl)]
    congr 3 <;> ring
  · intro k hk
    refine (g2 k).2 ?_
    by_contra hne
    exact hk ((only_option hp k).1.1 hne)

theorem value_volatility (kind : PutOrCall) {F T σ : ℝ} (hF : 0 < F) (hK : 0 < K) (hT : 0 < T) (hσ : 0 < σ) :
    HasDerivAt (fun σ => blackValue kind F K (Real.sqrt T * σ)) (textVega 1 F K σ T) σ := by
  have hs : 0 < Real.sqrt T * σ := mul_pos (Real.sqrt_pos.2 hT) hσ
  have hl : HasDerivAt (fun σ => Real.sqrt T * σ) (Real.sqrt T) σ := ((hasDerivAt_id σ).const_mul _).congr_deriv (by simp)
  have hc : HasDerivAt (fun σ => black F K (Real.sqrt T * σ)) (textVega 1 F K σ T) σ :=
    (HasDerivAt.comp (h₂ := black F K) σ (black_deriv hF hK hs) hl).congr_deriv (by unfold textVega dens d1; ring)
  cases kind
  · have e : (fun σ => blackValue .put F K (Real.sqrt T * σ)) = fun σ => black F K (Real.sqrt T * σ) - (F - K) := by
      funext σ
      have := black_swap (s := Real.sqrt T * σ) hF hK
      show black K F _ = _
      linarith
    rw [e]
    exact hc.sub_const _
  · exact hc

theorem value_volatility_twice {F T σ : ℝ} (hT : 0 < T) (hσ : 0 < σ) : HasDerivAt (fun σ => textVega 1 F K σ T) (textVolga 1 F K σ T) σ := by
  have hT' := Real.sqrt_pos.2 hT
  have hs : 0 < Real.sqrt T * σ := mul_pos hT' hσ
  have hl : HasDerivAt (fun σ => Real.sqrt T * σ) (Real.sqrt T) σ := ((hasDerivAt_id σ).const_mul _).congr_deriv (by simp)
  have h := (HasDerivAt.comp (h₂ := fun s => F * dens (d1 F K s)) σ (black_twice hs) hl).mul_const (Real.sqrt T)
  have e : (fun σ => textVega 1 F K σ T) = fun σ => ((fun s => F * dens (d1 F K s)) ∘ fun σ => Real.sqrt T * σ) σ * Real.sqrt T := by
    funext σ
    unfold textVega dens
    simp [Function.comp]
  rw [e]
  refine h.congr_deriv ?_
  unfold textVolga textVega dens
  field_simp

/-- C104, vega. The vega of the report tends to that of the textbook as the shift shrinks, but the volga to that of the textbook and twice the vega: the bump
down is not the opposite of the bump up. Missing is therefore volga, see `C104_volga_false`. -/
theorem C104_vega_partial (h : Setting fuel md v id credit settle K S a c δ D w vol) (hs : md.volSurfaces.get id = some vol)
    (hbase : vol.baseDate.1 = md.spotDate) (hfrom : ¬ before vol.baseDate (later (0, 0) (md.spotDate, 0))) {σ T : ℝ}
    (hσ : vol.volatilities fuel v.expiryTime [.val K] = .ok (T, [.val σ])) (hT : 0 < T) (hσ0 : 0 < σ) (hF : 0 < a * S - c - δ) (hK : 0 < K + δ)
    (kind : PutOrCall) :
    ∃ vega volga : ℝ → ℝ, Tendsto vega (𝓝[>] 0) (𝓝 (textVega D (a * S - c - δ) (K + δ) σ T)) ∧
      Tendsto volga (𝓝[>] 0) (𝓝 (textVolga D (a * S - c - δ) (K + δ) σ T + 2 * textVega D (a * S - c - δ) (K + δ) σ T)) ∧
      ∃ β > 0, ∀ b, 0 < b → b < β → ∀ n, ∃ p x results p', SelfPricer.new [(n, euro kind v id credit settle K)] md = .ok p ∧
        p.price fuel = .ok (.val x) ∧
        generate (selfPricer fuel) (.vegaVolga (.flatAdditive (.val b))) p .new (.val x) = (.ok (.vegaVolga (.val b) results), p', .new) ∧
        results.get id = some (.val (n * vega b), .val (n * volga b)) ∧ ∀ k, k ≠ id → results.get k = none := by
  have hpos : ∀ᶠ b : ℝ in 𝓝[>] 0, 0 < b := self_mem_nhdsWithin
  have hlim : ∀ {g : ℝ → ℝ}, ContinuousAt g 0 → Tendsto g (𝓝[>] 0) (𝓝 (g 0)) := fun hg => hg.tendsto.mono_left nhdsWithin_le_nhds
  obtain ⟨t1, t2⟩ := differences (x := σ) (f := fun σ => blackValue kind (a * S - c - δ) (K + δ) (Real.sqrt T * σ)) (u := fun b => b)
    (d := fun b => b + -2 * b / (1 + b)) (κ := 2)
    (by
      filter_upwards [lt_mem_nhds hσ0] with y hy
      exact value_volatility kind hF hK hT hy)
    (value_volatility_twice hT hσ0)
    (tendsto_const_nhds.congr' (by filter_upwards [hpos] with b hb; field_simp))
    (by
      have := hlim (g := fun b => 1 - 2 / (1 + b)) (by fun_prop (disch := norm_num))
      norm_num at this
      refine this.congr' ?_
      filter_upwards [hpos] with b hb
      field_simp
      ring)
    (by
      have := hlim (g := fun b => 2 / (1 + b)) (by fun_prop (disch := norm_num))
      norm_num at this
      refine this.congr' ?_
      filter_upwards [hpos] with b hb
      field_simp
      ring)
  have k1 := t1.const_mul D
  have k2 := t2.const_mul D
  simp only [← add_assoc] at k1 k2
  rw [show D * textVega 1 (a * S - c - δ) (K + δ) σ T = textVega D (a * S - c - δ) (K + δ) σ T by unfold textVega; ring] at k1
  rw [show D * (textVolga 1 (a * S - c - δ) (K + δ) σ T + 2 * textVega 1 (a * S - c - δ) (K + δ) σ T) =
    textVolga D (a * S - c - δ) (K + δ) σ T + 2 * textVega D (a * S - c - δ) (K + δ) σ T by unfold textVolga textVega; ring] at k2
  refine ⟨_, _, k1, k2, σ, hσ0, ?_⟩
  intro b hb0 hb n
  refine setting_vega h hs hbase hfrom hσ hT hσ0 hb0 ?_ hF hK kind n
  have : -2 * b / (1 + b) = -(2 * b) + 2 * b * b / (1 + b) := by field_simp; ring
  have h2 : 0 < 2 * b * b / (1 + b) := by positivity
  linarith

theorem textVega_pos {F σ T : ℝ} (hD : 0 < D) (hF : 0 < F) (hT : 0 < T) : 0 < textVega D F K σ T :=
  mul_pos (mul_pos (mul_pos hD hF) (gaussianPDFReal_pos 0 1 _ one_ne_zero)) (Real.sqrt_pos.2 hT)

/-- C104 violated: for every small enough shift the volga in the report of any option exceeds that of the textbook by more than the vega, which is
positive, so that it does not tend to the volga of the textbook. -/
theorem C104_volga_false (h : Setting fuel md v id credit settle K S a c δ D w vol) (hs : md.volSurfaces.get id = some vol)
    (hbase : vol.baseDate.1 = md.spotDate) (hfrom : ¬ before vol.baseDate (later (0, 0) (md.spotDate, 0))) {σ T : ℝ}
    (hσ : vol.volatilities fuel v.expiryTime [.val K] = .ok (T, [.val σ])) (hT : 0 < T) (hσ0 : 0 < σ) (hF : 0 < a * S - c - δ) (hK : 0 < K + δ)
    (kind : PutOrCall) :
    0 < textVega D (a * S - c - δ) (K + δ) σ T ∧
    ∃ β > 0, ∀ b, 0 < b → b < β → ∃ p x results p' vega volga, SelfPricer.new [(1, euro kind v id credit settle K)] md = .ok p ∧
      p.price fuel = .ok (.val x) ∧
      generate (selfPricer fuel) (.vegaVolga (.flatAdditive (.val b))) p .new (.val x) = (.ok (.vegaVolga (.val b) results), p', .new) ∧
      results.get id = some (.val vega, .val volga) ∧
      textVolga D (a * S - c - δ) (K + δ) σ T + textVega D (a * S - c - δ) (K + δ) σ T < volga := by
  have hD : 0 < D := by
    obtain ⟨_, _, _, _, _, _, rfl⟩ := h.rates
    exact Real.exp_pos _
  have hv : 0 < textVega D (a * S - c - δ) (K + δ) σ T := textVega_pos hD hF hT
  refine ⟨hv, ?_⟩
  obtain ⟨vega, volga, _, t, β, hβ, hr⟩ := C104_vega_partial h hs hbase hfrom hσ hT hσ0 hF hK kind
  have := t.eventually (lt_mem_nhds (show textVolga D (a * S - c - δ) (K + δ) σ T + textVega D (a * S - c - δ) (K + δ) σ T < _ by linarith))
  obtain ⟨β', hβ', hb'⟩ := mem_nhdsGT_iff_exists_Ioo_subset.1 this
  refine ⟨min β β', lt_min hβ hβ', ?_⟩
  intro b hb0 hb
  obtain ⟨p, x, results, p', g1, g2, g3, g4, _⟩ := hr b hb0 (lt_of_lt_of_le hb (min_le_left _ _)) 1
  refine ⟨p, x, results, p', _, _, g1, g2, g3, g4, ?_⟩
  rw [one_mul]
  exact hb' ⟨hb0, lt_of_lt_of_le hb (min_le_right _ _)⟩

/-- C104, the relation of the two: the textbook gamma of an option, in units of the forward, is its vega but for the variance. The limits of the
reports have it too. -/
theorem C104_relation {F σ T : ℝ} (hF : 0 < F) (hT : 0 < T) (hσ : 0 < σ) :
    textGamma D a F K (Real.sqrt T * σ) * (F ^ 2 * σ * T) = textVega D F K σ T * a ^ 2 := by
  unfold textGamma textVega
  have h1 := Real.sqrt_pos.2 hT
  have h2 : T = Real.sqrt T * Real.sqrt T := (Real.mul_self_sqrt hT.le).symm
  rw [div_mul_eq_mul_div, div_eq_iff (by positivity)]
  generalize gaussianPDFReal 0 1 _ = g
  nth_rw 1 [h2]
  ring

/-! ## Cases -/

/-- C104, delta: the hypotheses are met by an option at 50 on an equity worth 100, with a volatility of 20 percent. -/
example : ∃ delta gamma : ℝ → ℝ, Tendsto delta (𝓝[>] 0) (𝓝 (textDelta .put 1 1 100 50 (Real.sqrt (2 / 73 * 0.2 ^ 2)))) ∧
    Tendsto gamma (𝓝[>] 0) (𝓝 (textGamma 1 1 100 50 (Real.sqrt (2 / 73 * 0.2 ^ 2)))) ∧
    ∃ β > 0, ∀ b, 0 < b → b < β → ∃ p x results p',
      SelfPricer.new [(3, euro .put sampleTerms "A" "C" _root_.id 50)] (withVol (sampleMarket 100 (.zero 0)) "A" (.flat (.val 0.2) .everyDay (0, 0))) = .ok p ∧
      generate (selfPricer fuel) (.deltaGamma b) p .new (.val x) = (.ok (.deltaGamma (.val b) results), p', .new) ∧
      results.get "A" = some (.val (3 * delta b), .val (3 * gamma b)) := by
  obtain ⟨delta, gamma, h1, h2, β, hβ, h3⟩ := C104_delta_partial (sample_setting (fuel := fuel) 0.2 100 50) (by norm_num) (by norm_num) (by norm_num)
    (by norm_num) .put
  norm_num at h1 h2
  refine ⟨delta, gamma, by norm_num; exact h1, by norm_num; exact h2, β, hβ, fun b hb0 hb => ?_⟩
  obtain ⟨p, x, results, p', g1, _, g3, g4, _⟩ := h3 b hb0 hb 3
  exact ⟨p, x, results, p', g1, g3, g4⟩

/-- C104, vega and volga: likewise. -/
example : 0 < textVega 1 100 50 0.2 (2 / 73) ∧ ∃ β > 0, ∀ b, 0 < b → b < β → ∃ p x results p' vega volga,
    SelfPricer.new [(1, euro .put sampleTerms "A" "C" _root_.id 50)] (withVol (sampleMarket 100 (.zero 0)) "A" (.flat (.val 0.2) .everyDay (0, 0))) = .ok p ∧
      generate (selfPricer fuel) (.vegaVolga (.flatAdditive (.val b))) p .new (.val x) = (.ok (.vegaVolga (.val b) results), p', .new) ∧
      results.get "A" = some (.val vega, .val volga) ∧ textVolga 1 100 50 0.2 (2 / 73) + textVega 1 100 50 0.2 (2 / 73) < volga := by
  have hy := everyDay_year 10
  norm_num at hy
  obtain ⟨h1, β, hβ, h2⟩ := C104_volga_false (sample_setting (fuel := fuel) 0.2 100 50) rfl rfl (by
      rw [later_self_zero _ (by unfold before; simp [withVol, sampleMarket])]
      exact before_irrefl _) (σ := 0.2) (T := 2 / 73) (by
        rw [VolSurface.volatilities, show sampleTerms.expiryTime = (10, 0) from rfl, hy]
        rfl) (by norm_num) (by norm_num) (by norm_num) (by norm_num) .put
  rw [show (1 * 100 - 0 - 0 : ℝ) = 100 by norm_num, show (50 + 0 : ℝ) = 50 by norm_num] at h1 h2
  refine ⟨h1, β, hβ, fun b hb0 hb => ?_⟩
  obtain ⟨p, x, results, p', vega, volga, g1, _, g3, g4, g5⟩ := h2 b hb0 hb
  exact ⟨p, x, results, p', vega, volga, g1, g3, g4, g5⟩

end QM.Risk
