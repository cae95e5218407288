import Verif.MonteCarlo.Convergence
import Verif.MonteCarlo.Agreement
import Verif.Vol.PanicProps

/-!
# Property C91: Monte-Carlo prices converge to the analytic price
-/

namespace QM.MonteCarlo
open QM.Interp QM.Vol QM.Instruments QM.Market QM.Risk QM.Fixings QM.Curves Spec MeasureTheory ProbabilityTheory
open QM.Instruments.Spec (payoff lognormal NotLater LaterOf gone)
open Filter (Tendsto atTop Eventually)
open Topology

namespace Spec

/-- The Monte-Carlo prices of a portfolio in a market, for substeps of size `h` and given draws, by the number of paths. -/
def Prices (fuel : Nat) (l : List (ℝ × Instrument)) (md : MarketData) (draw : Draws) (h : ℝ) (y : ℕ → ℝ) : Prop :=
  ∀ n, n ≠ 0 → ∃ p, MonteCarlo.new fuel ⟨h, n⟩ l md draw = .ok p ∧ p.price fuel = .ok (.val (y n))

end Spec

variable {fuel : Nat} {md : MarketData} {Ω : Type} [MeasurableSpace Ω] {μ : Measure Ω} [IsProbabilityMeasure μ] {draws : Ω → Draws}

/-! ## Lemmas -/

/-- The walk up to an observation, next to the exponential of the same draws. -/
theorem level_near (hd : StandardNormal μ draws) {w : Nat → ℝ} {h : ℝ} (hh : 0 < h) {N : Nat} (hw : ∀ j < N, Spec.before w j ≤ w j) :
    ∃ s : ℕ → ℝ, (∀ M ≤ N, ∑ k ∈ Finset.range (start (steps h w) M), s k ^ 2 = Spec.before w M) ∧
      ∀ M ≤ N, Integrable (fun ω => level w (steps h w) (fun k => draws ω 0 k 0) M -
          Real.exp (∑ k ∈ Finset.range (start (steps h w) M), s k * draws ω 0 k 0 - Spec.before w M / 2)) μ ∧
        ∫ ω, |level w (steps h w) (fun k => draws ω 0 k 0) M -
          Real.exp (∑ k ∈ Finset.range (start (steps h w) M), s k * draws ω 0 k 0 - Spec.before w M / 2)| ∂μ ≤
          Real.sqrt (Real.exp (Spec.before w M) * (1 - Real.exp (-(Spec.before w M * h / 2)))) := by
  obtain ⟨s, h1, h2, h3⟩ := level_steps (h := h) N hw
  obtain ⟨hl, hi⟩ := one_path hd 0
  refine ⟨s, h2, fun M hM => ?_⟩
  obtain ⟨c1, c2⟩ := coupling hi hl s (start (steps h w) M)
  have e : ∀ ω, ∏ k ∈ Finset.range (start (steps h w) M), Real.exp (s k * draws ω 0 k 0 - s k ^ 2 / 2) =
      Real.exp (∑ k ∈ Finset.range (start (steps h w) M), s k * draws ω 0 k 0 - Spec.before w M / 2) := by
    intro ω
    rw [← Real.exp_sum, Finset.sum_sub_distrib, ← Finset.sum_div, h2 M hM]
  simp only [e, ← h1 M hM (fun k => draws _ 0 k 0)] at c1 c2
  have hle : Real.exp (Spec.before w M * (1 - h / 2)) ≤ ∏ k ∈ Finset.range (start (steps h w) M), (1 + s k ^ 2) := by
    cases M with
    | zero => simp [Spec.before, start]
    | succ i =>
      have := (C63_second_moment hd hh (i := i) (fun j hj => hw j (by omega)) 0).1
      simp only [h1 (i + 1) hM] at this
      rw [(factor_square hi hl s _).2] at this
      exact this
  refine mean_abs_le ?_ c1 (c2.le.trans ?_)
  · refine AEStronglyMeasurable.sub ?_ ?_
    · exact ((level_measurable w (steps h w) M).comp_aemeasurable (path_law hd 0).aemeasurable).aestronglyMeasurable
    · have hm : AEMeasurable (fun ω => ∑ k ∈ Finset.range (start (steps h w) M), s k * draws ω 0 k 0) μ :=
        Finset.aemeasurable_fun_sum _ fun k _ => (hl k).aemeasurable.const_mul (s k)
      exact (Real.measurable_exp.comp_aemeasurable (hm.sub_const _)).aestronglyMeasurable
  · rw [← Real.exp_sum, h2 M hM]
    have : Real.exp (Spec.before w M) * (1 - Real.exp (-(Spec.before w M * h / 2))) =
        Real.exp (Spec.before w M) - Real.exp (Spec.before w M * (1 - h / 2)) := by
      rw [mul_sub, mul_one, ← Real.exp_add]
      congr 2
      ring
    rw [this]
    linarith

theorem payoff_measurable {α : Type} [MeasurableSpace α] (kind : PutOrCall) {S K : α → ℝ} (hS : Measurable S) (hK : Measurable K) :
    Measurable fun x => payoff kind (S x) (K x) := by
  cases kind
  · exact (hK.sub hS).max measurable_const
  · exact (hS.sub hK).max measurable_const

theorem payoff_of_integrable (kind : PutOrCall) {S K : Ω → ℝ} (hS : Integrable S μ) (hK : Integrable K μ) :
    Integrable (fun ω => payoff kind (S ω) (K ω)) μ := by
  cases kind
  · exact (hK.sub hS).sup (integrable_const 0)
  · exact (hS.sub hK).sup (integrable_const 0)

theorem payoff_shift (kind : PutOrCall) (δ S K : ℝ) : payoff kind (δ + S) K = payoff kind S (K - δ) := by
  cases kind <;> simp only [payoff] <;> congr 1 <;> ring

/-- The mean payoff of an option on the simulated asset is near the expected payoff. -/
theorem spot_near (hd : StandardNormal μ draws) {F w δ h K : ℝ} (hh : 0 < h) (hw : 0 ≤ w) (kind : PutOrCall) :
    |∫ ω, payoff kind (pathValue (fun _ => F) (fun _ => w) (fun _ => δ) (steps h fun _ => w) (fun k => draws ω 0 k 0) 0) K ∂μ -
      ∫ z, payoff kind (δ + lognormal (F - δ) (Real.sqrt w) z) K ∂gaussianReal 0 1| ≤
      |F - δ| * Real.sqrt (Real.exp w * (1 - Real.exp (-(w * h / 2)))) := by
  obtain ⟨s, h2, h3⟩ := level_near hd (w := fun _ => w) hh (N := 1) (by
    intro j hj
    obtain rfl : j = 0 := by omega
    simpa [Spec.before] using hw)
  obtain ⟨hl, hi⟩ := one_path hd 0
  obtain ⟨i1, i2⟩ := h3 1 le_rfl
  obtain ⟨Z, hZ, hZ'⟩ := sum_normal hi hl s (start (steps h fun _ => w) 1) (h2 1 le_rfl)
  simp only [Spec.before, hZ'] at i1 i2
  have el : ∀ ω, (F - δ) * Real.exp (Real.sqrt w * Z ω - w / 2) = lognormal (F - δ) (Real.sqrt w) (Z ω) := by
    intro ω
    unfold lognormal
    rw [Real.sq_sqrt hw]
  have hs : ∫ z, payoff kind (δ + lognormal (F - δ) (Real.sqrt w) z) K ∂gaussianReal 0 1 =
      ∫ ω, payoff kind (δ + (F - δ) * Real.exp (Real.sqrt w * Z ω - w / 2)) K ∂μ := by
    simp only [payoff_shift, el]
    exact (law_payoff hZ kind _ _ _).symm
  rw [hs]
  have hE : Integrable (fun ω => δ + (F - δ) * Real.exp (Real.sqrt w * Z ω - w / 2)) μ := by
    have := (exp_mean hZ (Real.sqrt w)).1
    rw [Real.sq_sqrt hw] at this
    exact (integrable_const δ).add (this.const_mul (F - δ))
  have hP := (C52_value_mean hd (fun _ => F) (fun _ => w) (fun _ => δ) (steps h fun _ => w) 0 0).1
  have ed : ∀ ω, pathValue (fun _ => F) (fun _ => w) (fun _ => δ) (steps h fun _ => w) (fun k => draws ω 0 k 0) 0 -
      (δ + (F - δ) * Real.exp (Real.sqrt w * Z ω - w / 2)) =
      (F - δ) * (level (fun _ => w) (steps h fun _ => w) (fun k => draws ω 0 k 0) 1 - Real.exp (Real.sqrt w * Z ω - w / 2)) := by
    intro ω
    unfold pathValue
    ring
  have := mean_payoff_near (μ := μ) (kind := kind) (K := fun _ => K) (K' := fun _ => K) (d := 0)
    (c := |F - δ| * Real.sqrt (Real.exp w * (1 - Real.exp (-(w * h / 2)))))
    (payoff_of_integrable kind hP (integrable_const K)) (payoff_of_integrable kind hE (integrable_const K)) (hP.sub hE)
    (by simp) (by
      simp only [ed, abs_mul]
      rw [integral_const_mul]
      exact mul_le_mul_of_nonneg_left i2 (abs_nonneg _)) (by simp)
  rwa [add_zero] at this

/-! ## C91 -/

/-- C91, convergence. Under standard normal draws, almost surely, the Monte-Carlo prices of an option converge as the number
of paths grows. How far the limit is from the discounted expected payoff of the displaced lognormal value tends to zero with the
size of the substeps. -/
theorem C91_converges {a K F w δ D h : ℝ} {v : Vanilla} {u : Instrument} {context : Prefetch} (hd : StandardNormal μ draws) (hh : 0 < h)
    (hw : 0 ≤ w) (hc : Prefetch.new md (collect md.spotDate [(a, .spotStarting v u K)]) = .ok context)
    (hm : Spec.Market fuel context.pricingContext u [v.expiryTime] (fun _ => F) (fun _ => w) (fun _ => δ))
    (hD : (expiryFlow v).price fuel context.pricingContext ⟨context.context.spotDate, .open⟩ = .ok (.val D)) :
    ∃ limit : ℝ, |limit - a * (D * ∫ z, payoff v.putOrCall (δ + lognormal (F - δ) (Real.sqrt w) z) K ∂gaussianReal 0 1)| ≤
        |a * D * (F - δ)| * Real.sqrt (Real.exp w * (1 - Real.exp (-(w * h / 2)))) ∧
      ∀ᵐ ω ∂μ, ∃ y, Prices fuel [(a, .spotStarting v u K)] md (draws ω) h y ∧ Tendsto y atTop (𝓝 limit) := by
  let G : (ℕ → ℝ) → ℝ := fun g => payoff v.putOrCall (pathValue (fun _ => F) (fun _ => w) (fun _ => δ) (steps h fun _ => w) g 0) K
  refine ⟨a * ((∫ ω, G (fun k => draws ω 0 k 0) ∂μ) * D), ?_, ?_⟩
  · have h1 := spot_near hd (F := F) (δ := δ) (K := K) hh hw v.putOrCall
    rw [show a * ((∫ ω, G (fun k => draws ω 0 k 0) ∂μ) * D) -
        a * (D * ∫ z, payoff v.putOrCall (δ + lognormal (F - δ) (Real.sqrt w) z) K ∂gaussianReal 0 1) =
        a * D * ((∫ ω, G (fun k => draws ω 0 k 0) ∂μ) - ∫ z, payoff v.putOrCall (δ + lognormal (F - δ) (Real.sqrt w) z) K ∂gaussianReal 0 1)
        by ring, abs_mul, abs_mul (a * D) (F - δ), mul_assoc]
    exact mul_le_mul_of_nonneg_left h1 (abs_nonneg _)
  · have hG : Measurable G :=
      payoff_measurable _ (((level_measurable _ _ 1).const_mul _).add_const _) measurable_const
    have hlocal : ∀ g g' : ℕ → ℝ, (∀ k < start (steps h fun _ => w) 1, g k = g' k) → G g = G g' := by
      intro g g' hg
      simp only [G, pathValue]
      rw [level_local _ _ _ hg]
    have hP := (C52_value_mean hd (fun _ => F) (fun _ => w) (fun _ => δ) (steps h fun _ => w) 0 0).1
    filter_upwards [paths_average hd hG hlocal (payoff_of_integrable _ hP (integrable_const K))] with ω hω
    refine ⟨fun n => a * (average n (fun path => G fun k => draws ω path k 0) * D), ?_, (hω.mul_const D).const_mul a⟩
    intro n hn
    obtain ⟨m, hmod⟩ := model_succeeds (fuel := fuel) (f := ⟨h, n⟩) (t := ⟨⟨[(u.id, u, [v.expiryTime])]⟩, [expiryFlow v]⟩) (draws ω)
      (k := u.id) (u := u) (obs := [v.expiryTime]) rfl hm (by
        intro i hi
        obtain rfl : i = 0 := by simpa using hi
        simpa [Spec.before] using hw) hh.ne' hn
    have hp : MonteCarlo.new fuel ⟨h, n⟩ [(a, .spotStarting v u K)] md (draws ω) = .ok ⟨⟨h, n⟩, [(a, .spotStarting v u K)], m⟩ := by
      unfold MonteCarlo.new
      rw [timeline_spot, ok_bind, hc, ok_bind, hmod, ok_bind]
      rfl
    have hctx : m.context = context := by
      obtain ⟨_, _, _, _, _, _, _, _, _, e⟩ := model_new_ok hmod
      rw [e]
    refine ⟨_, hp, ?_⟩
    subst hctx
    have hprice := C52_spot_partial hp hm hD
    exact hprice

/-- The distance of the limit vanishes with the substep. -/
theorem error_vanishes (c w : ℝ) : Tendsto (fun h : ℝ => c * Real.sqrt (Real.exp w * (1 - Real.exp (-(w * h / 2))))) (𝓝[>] 0) (𝓝 0) := by
  have hc : Continuous fun h : ℝ => c * Real.sqrt (Real.exp w * (1 - Real.exp (-(w * h / 2)))) := by fun_prop
  have := hc.tendsto 0
  simp only [mul_zero, zero_div, neg_zero, Real.exp_zero, sub_self, Real.sqrt_zero] at this
  exact this.mono_left nhdsWithin_le_nhds

/-- C91, the limit. Given any distance, for all small enough substeps and, almost surely, all large enough numbers of paths, the
Monte-Carlo price is that near to the discounted expected payoff. -/
theorem C91_limit {a K F w δ D ε : ℝ} {v : Vanilla} {u : Instrument} {context : Prefetch} (hd : StandardNormal μ draws)
    (hw : 0 ≤ w) (hc : Prefetch.new md (collect md.spotDate [(a, .spotStarting v u K)]) = .ok context)
    (hm : Spec.Market fuel context.pricingContext u [v.expiryTime] (fun _ => F) (fun _ => w) (fun _ => δ))
    (hD : (expiryFlow v).price fuel context.pricingContext ⟨context.context.spotDate, .open⟩ = .ok (.val D)) (hε : 0 < ε) :
    ∃ h₀ > 0, ∀ h, 0 < h → h < h₀ → ∀ᵐ ω ∂μ, ∃ y, Prices fuel [(a, .spotStarting v u K)] md (draws ω) h y ∧
      ∀ᶠ n in atTop, |y n - a * (D * ∫ z, payoff v.putOrCall (δ + lognormal (F - δ) (Real.sqrt w) z) K ∂gaussianReal 0 1)| < ε := by
  have h0 := error_vanishes |a * D * (F - δ)| w
  have h1 := h0.eventually (gt_mem_nhds (half_pos hε))
  obtain ⟨h₀, hpos, hsub⟩ := mem_nhdsGT_iff_exists_Ioo_subset.1 h1
  refine ⟨h₀, hpos, fun h hh hlt => ?_⟩
  have hb := hsub ⟨hh, hlt⟩
  obtain ⟨limit, hl, hconv⟩ := C91_converges hd hh hw hc hm hD
  filter_upwards [hconv] with ω hω
  obtain ⟨y, hy, ht⟩ := hω
  refine ⟨y, hy, ?_⟩
  filter_upwards [Metric.tendsto_nhds.1 ht _ (half_pos hε)] with n hn
  rw [Real.dist_eq] at hn
  have hb' : |a * D * (F - δ)| * Real.sqrt (Real.exp w * (1 - Real.exp (-(w * h / 2)))) < ε / 2 := hb
  calc _ ≤ |y n - limit| + |limit - _| := abs_sub_le _ limit _
    _ < ε / 2 + ε / 2 := add_lt_add_of_lt_of_le hn (hl.trans hb'.le)
    _ = ε := by ring

/-- What the self pricer says of one position. -/
theorem self_one {a x : ℝ} {i : Instrument} {q : SelfPricer} (hq : SelfPricer.new [(a, i)] md = .ok q) (h : q.price fuel = .ok (.val x)) :
    ∃ x₀, i.price fuel q.context.pricingContext ⟨q.context.context.spotDate, .open⟩ = .ok (.val x₀) ∧ x = a * x₀ := by
  unfold SelfPricer.price at h
  rw [(new_self hq).1, priceLoop] at h
  obtain ⟨o, h1, h2⟩ := bind_ok h
  rw [priceLoop] at h2
  cases o with
  | nan => cases h2
  | val o =>
    simp only [num1, num2, zero_add, Except.ok.injEq, Num.val.injEq] at h2
    exact ⟨o, h1, h2.symm⟩

/-- The flow of an option with the credit of its underlying is discounted as the self pricer does. -/
theorem flow_discount {v : Vanilla} {u : Instrument} {ctx : PricingContext} {d : DateTime} {yc : RateCurve} {D : ℝ} (hcredit : v.creditId = u.creditId)
    (hd : NotLater d v.expiry) (hyc : ctx.yieldCurve u.creditId v.payDate = .ok yc) (hD : yc.df v.payDate (v.settlement d.date) = .ok (.val D)) :
    (expiryFlow v).price fuel ctx d = .ok (.val D) := by
  rw [price_iff]
  unfold expiryFlow
  rw [Instrument.prices]
  unfold zeroCouponPrices
  rw [hcredit, hyc, ok_bind, each_iff]
  refine .cons ?_ .nil
  rw [if_pos ((notAfter_iff _ _).2 hd)]
  exact hD

/-- C91, agreement. Take an option with the credit of its underlying, that the self pricer gives a number. If the surface assumes no
fixed dividends and the variance at the strike is that at the forward, then given any distance, for all small enough substeps
and, almost surely, all large enough numbers of paths, the Monte-Carlo price is that near to the price of the self pricer. What is
missing: a smile, `C91_smile_false`, fixed dividends, `C91_displaced_false`, and another credit, `C62_false`. -/
theorem C91_agree_partial {a K F w x ε : ℝ} {v : Vanilla} {u : Instrument} {vol : VolSurface} {q : SelfPricer}
    (hd : StandardNormal μ draws) (hq : SelfPricer.new [(a, .spotStarting v u K)] md = .ok q) (hx : q.price fuel = .ok (.val x))
    (hcredit : v.creditId = u.creditId) (hdate : NotLater ⟨q.context.context.spotDate, .open⟩ v.expiry) (hK : 0 ≤ K)
    (hm : Spec.Market fuel q.context.pricingContext u [v.expiryTime] (fun _ => F) (fun _ => w) (fun _ => 0))
    (hF : u.price fuel q.context.pricingContext v.expiry = .ok (.val F))
    (hvol : q.context.pricingContext.volSurface u v.expiry.date (fun _ => q.context.pricingContext.forwardCurve u v.expiry.date) = .ok vol)
    (hdiv : vol.divAssumptions ≠ .fixedDivs)
    (hw : ∀ t, LaterOf (0, 0) (q.context.context.spotDate, gone ⟨q.context.context.spotDate, .open⟩) t →
      vol.forwardVariance fuel t v.expiryTime (.val K) = .ok (.val w)) (hε : 0 < ε) :
    ∃ h₀ > 0, ∀ h, 0 < h → h < h₀ → ∀ᵐ ω ∂μ, ∃ y, Prices fuel [(a, .spotStarting v u K)] md (draws ω) h y ∧
      ∀ᶠ n in atTop, |y n - x| < ε := by
  obtain ⟨x₀, h1, rfl⟩ := self_one hq hx
  obtain ⟨yc, D, F', t, w', g1, g2, g3, g4, g5, g6, g7⟩ := C90_spot_partial h1 hdate hK hvol hdiv normal_exists
  rw [hF] at g3
  cases g3
  rw [hw t g4] at g5
  cases g5
  have := C91_limit hd g6 (new_self hq).2 hm (flow_discount hcredit hdate g1 g2) hε
  simp only [sub_zero, zero_add] at this
  rw [g7]
  exact this

/-- C91: a number other than the discounted expected payoff is not approached. -/
theorem C91_away {a K F w δ D x : ℝ} {v : Vanilla} {u : Instrument} {context : Prefetch} (hd : StandardNormal μ draws)
    (hw : 0 ≤ w) (hc : Prefetch.new md (collect md.spotDate [(a, .spotStarting v u K)]) = .ok context)
    (hm : Spec.Market fuel context.pricingContext u [v.expiryTime] (fun _ => F) (fun _ => w) (fun _ => δ))
    (hD : (expiryFlow v).price fuel context.pricingContext ⟨context.context.spotDate, .open⟩ = .ok (.val D))
    (hx : x ≠ a * (D * ∫ z, payoff v.putOrCall (δ + lognormal (F - δ) (Real.sqrt w) z) K ∂gaussianReal 0 1)) :
    ∃ ε > 0, ∃ h₀ > 0, ∀ h, 0 < h → h < h₀ → ∀ᵐ ω ∂μ, ∃ y, Prices fuel [(a, .spotStarting v u K)] md (draws ω) h y ∧
      ∀ᶠ n in atTop, ε ≤ |y n - x| := by
  have hpos := abs_pos.2 (sub_ne_zero.2 hx)
  refine ⟨_, half_pos hpos, ?_⟩
  obtain ⟨h₀, h0, hh⟩ := C91_limit hd hw hc hm hD (half_pos hpos)
  refine ⟨h₀, h0, fun h p1 p2 => ?_⟩
  filter_upwards [hh h p1 p2] with ω hω
  obtain ⟨y, hy, hn⟩ := hω
  refine ⟨y, hy, ?_⟩
  filter_upwards [hn] with n hn
  have := abs_sub_le x (y n) (a * (D * ∫ z, payoff v.putOrCall (δ + lognormal (F - δ) (Real.sqrt w) z) K ∂gaussianReal 0 1))
  rw [abs_sub_comm x (y n)] at this
  linarith

/-- C91 violated, smiles: the Monte-Carlo pricer simulates with the variance at the forward, `blackdiffusion.rs:425-434`, whatever the strike,
and the self pricer uses the variance at the strike. Wherever the two variances differ, the Monte-Carlo prices stay
away from the price of the self pricer, however small the substeps and however many the paths. -/
theorem C91_smile_false {a K F w w' x : ℝ} {v : Vanilla} {u : Instrument} {vol : VolSurface} {q : SelfPricer}
    (hd : StandardNormal μ draws) (hq : SelfPricer.new [(a, .spotStarting v u K)] md = .ok q) (hx : q.price fuel = .ok (.val x))
    (hcredit : v.creditId = u.creditId) (hdate : NotLater ⟨q.context.context.spotDate, .open⟩ v.expiry) (hK : 0 < K)
    (hm : Spec.Market fuel q.context.pricingContext u [v.expiryTime] (fun _ => F) (fun _ => w) (fun _ => 0))
    (hF : u.price fuel q.context.pricingContext v.expiry = .ok (.val F))
    (hvol : q.context.pricingContext.volSurface u v.expiry.date (fun _ => q.context.pricingContext.forwardCurve u v.expiry.date) = .ok vol)
    (hdiv : vol.divAssumptions ≠ .fixedDivs)
    (hw : ∀ t, LaterOf (0, 0) (q.context.context.spotDate, gone ⟨q.context.context.spotDate, .open⟩) t →
      vol.forwardVariance fuel t v.expiryTime (.val K) = .ok (.val w')) (hF0 : 0 < F) (hw0 : 0 < w) (hw1 : 0 < w') (hne : w ≠ w') (hx0 : x ≠ 0) :
    ∃ ε > 0, ∃ h₀ > 0, ∀ h, 0 < h → h < h₀ → ∀ᵐ ω ∂μ, ∃ y, Prices fuel [(a, .spotStarting v u K)] md (draws ω) h y ∧
      ∀ᶠ n in atTop, ε ≤ |y n - x| := by
  obtain ⟨x₀, h1, rfl⟩ := self_one hq hx
  obtain ⟨yc, D, F', t, w'', g1, g2, g3, g4, g5, g6, g7⟩ := C90_spot_partial h1 hdate hK.le hvol hdiv normal_exists
  rw [hF] at g3
  cases g3
  rw [hw t g4] at g5
  cases g5
  refine C91_away hd hw0.le (new_self hq).2 hm (flow_discount hcredit hdate g1 g2) ?_
  intro he
  have ha : a ≠ 0 := left_ne_zero_of_mul hx0
  have hD : D ≠ 0 := by
    rintro rfl
    rw [zero_mul] at g7
    exact hx0 (by rw [g7, mul_zero])
  rw [g7] at he
  have he := mul_left_cancel₀ hD (mul_left_cancel₀ ha he)
  simp only [sub_zero, zero_add] at he
  have s1 := Real.sqrt_pos.2 hw0
  have s2 := Real.sqrt_pos.2 hw1
  have hs : Real.sqrt w = Real.sqrt w' := by
    revert he
    cases v.putOrCall
    · rw [mean_put hF0 hK s1, mean_put hF0 hK s2]
      exact fun h => ((black_strictMono hK hF0).injOn s2 s1 h).symm
    · rw [mean_call hF0 hK s1, mean_call hF0 hK s2]
      exact fun h => ((black_strictMono hF0 hK).injOn s2 s1 h).symm
  exact hne ((Real.sqrt_inj hw0.le hw1.le).1 hs)

/-- C91 violated, fixed dividends: wherever there is a displacement, the Monte-Carlo prices stay away from the price of the self
pricer, which moves the strike in the wrong direction. -/
theorem C91_displaced_false {a K F w δ x : ℝ} {v : Vanilla} {u : Instrument} {vol : VolSurface} {q : SelfPricer}
    (hd : StandardNormal μ draws) (hq : SelfPricer.new [(a, .spotStarting v u K)] md = .ok q) (hx : q.price fuel = .ok (.val x))
    (hcredit : v.creditId = u.creditId) (hdate : NotLater ⟨q.context.context.spotDate, .open⟩ v.expiry)
    (hday : 0 ≤ q.context.context.spotDate)
    (hm : Spec.Market fuel q.context.pricingContext u [v.expiryTime] (fun _ => F) (fun _ => w) (fun _ => δ))
    (hF : u.price fuel q.context.pricingContext v.expiry = .ok (.val F))
    (hvol : q.context.pricingContext.volSurface u v.expiry.date (fun _ => q.context.pricingContext.forwardCurve u v.expiry.date) = .ok vol)
    (hδ : vol.displacement v.expiry.date = .ok (.val δ)) (hδ0 : δ ≠ 0)
    (hw : vol.forwardVariance fuel (q.context.context.spotDate, gone ⟨q.context.context.spotDate, .open⟩) v.expiryTime (.val K) = .ok (.val w))
    (hw0 : 0 < w) (hF0 : 0 < F - δ) (hK1 : 0 < K + δ) (hK2 : 0 < K - δ) (hx0 : x ≠ 0) :
    ∃ ε > 0, ∃ h₀ > 0, ∀ h, 0 < h → h < h₀ → ∀ᵐ ω ∂μ, ∃ y, Prices fuel [(a, .spotStarting v u K)] md (draws ω) h y ∧
      ∀ᶠ n in atTop, ε ≤ |y n - x| := by
  obtain ⟨x₀, h1, rfl⟩ := self_one hq hx
  have h1' := h1
  rw [price_iff, Instrument.prices] at h1'
  obtain ⟨yc, vol', K', F', δ', D, t, w', g1, g2, g3, g4, g5, g6, g7, g8, g9, g10⟩ := vanilla_number h1' ((notAfter_iff _ _).2 hdate)
  refine C91_away hd hw0.le (new_self hq).2 hm (flow_discount hcredit hdate g1 g6) ?_
  intro he
  have he := mul_left_cancel₀ (left_ne_zero_of_mul hx0) he
  refine C90_displaced_false h1 hdate hday hvol g1 g6 ?_ hF hδ hδ0 hw hw0 hF0 hK1 hK2 normal_exists he
  rintro rfl
  rw [zero_mul] at he
  exact hx0 (by rw [he, mul_zero])

/-! ## Cases -/

/-- The sample market with another surface. -/
noncomputable def surfaceMarket (s : VolSurface) : MarketData := withVol (sampleMarket 100 (.zero 0)) "A" s

/-- A call struck at 90 in it. -/
theorem surface_case {s : VolSurface} {w w' δ : ℝ} (hb : s.baseDate = (0, 0)) (hw : s.variance fuel (10, 0) (.val 100) = .ok (.val w))
    (hw' : s.forwardVariance fuel (0, 0) (10, 0) (.val 90) = .ok (.val w')) (hδ : s.displacement 10 = .ok (.val δ)) (h0 : 0 < w')
    (h1 : 0 < 100 - δ) (h2 : 0 < 90 + δ) :
    ∃ q, SelfPricer.new [(1, optionA 90)] (surfaceMarket s) = .ok q ∧ q.price fuel = .ok (.val (black (100 - δ) (90 + δ) (Real.sqrt w'))) ∧
      q.context.context.spotDate = 0 ∧
      Spec.Market fuel q.context.pricingContext equityA [(10, 0)] (fun _ => 100) (fun _ => w) (fun _ => δ) ∧
      equityA.price fuel q.context.pricingContext ⟨10, .open⟩ = .ok (.val 100) ∧
      q.context.pricingContext.volSurface equityA 10 (fun _ => q.context.pricingContext.forwardCurve equityA 10) = .ok s := by
  obtain ⟨fw, f1, f2⟩ := sample_forward (md := surfaceMarket s) (S := 100) rfl rfl rfl rfl rfl rfl (Forward.zero_rt 0) (Forward.financing_zero 0 0) 10
  have f3 : fw.forward 10 = .ok (.val 100) := by rw [f2 10 le_rfl]; norm_num
  have hs : (surfaceMarket s).volSurface equityA 10 (fun _ => .ok fw) = .ok s := by
    unfold MarketData.volSurface
    rw [show find equityA.id (surfaceMarket s).volSurfaces = .ok s from rfl, ok_bind]
    unfold VolTimeDynamics.modify
    rw [if_pos (by rw [hb]; rfl)]
    rfl
  have hn := new_self_of (sample_new (md := surfaceMarket s) (c := collect 0 [(1, optionA 90)]) (v := s) rfl rfl f1 hs)
  have he : equityA.price fuel (Prefetch.pricingContext ⟨surfaceMarket s, collect 0 [(1, optionA 90)], ⟨[("A", fw)]⟩, ⟨[("A", s)]⟩⟩) ⟨10, .open⟩ =
      .ok (.val 100) := by
    rw [price_iff]
    unfold equityA
    rw [Instrument.prices]
    unfold equityPrices
    dsimp only
    rw [if_neg (by show ¬ (10 : Int) = 0; decide)]
    have : (Prefetch.pricingContext ⟨surfaceMarket s, collect 0 [(1, optionA 90)], ⟨[("A", fw)]⟩, ⟨[("A", s)]⟩⟩).forwardCurve
        (.equity "A" "C" id) 10 = .ok fw := rfl
    rw [this]
    simp only [ok_bind, each, f3]
    rfl
  refine ⟨_, hn, ?_, rfl, ?_, he, rfl⟩
  · have hp := C72_option_spot (fuel := fuel)
      (ctx := Prefetch.pricingContext ⟨surfaceMarket s, collect 0 [(1, optionA 90)], ⟨[("A", fw)]⟩, ⟨[("A", s)]⟩⟩)
      (v := sampleTerms) (u := equityA) (d := ⟨0, .open⟩) (K := 90) (vol := s) (w := w') (yc := .zero 0) (.inl ⟨_, _, _, rfl⟩)
      (.inl (by simp [sampleTerms])) (le_refl _) rfl rfl he hδ (Forward.zero_rt 0 _) (Forward.zero_rt 0 _)
      (by rw [show gone ⟨0, .open⟩ = 0 by simp [gone]]; exact hw') h0 h1 h2
    unfold SelfPricer.price
    dsimp only
    rw [priceLoop, show (surfaceMarket s).spotDate = 0 from rfl, show optionA 90 = .spotStarting sampleTerms equityA 90 from rfl]
    rw [show optionA 90 = .spotStarting sampleTerms equityA 90 from rfl] at hp
    rw [hp, ok_bind, priceLoop]
    rw [show sampleTerms.putOrCall = .call from rfl]
    simp [num1, num2, blackValue]
  · refine ⟨(10, 0), fw, s, rfl, rfl, rfl, ?_⟩
    intro i pt hi
    have : pt = (10, 0) := by simpa using List.mem_of_getElem? hi
    subst this
    exact ⟨f3, hw, hδ⟩

/-- The times from which the variance of the sample option may be asked. -/
theorem sample_from {t : Point} (h : LaterOf (0, 0) ((0 : Int), gone ⟨0, .open⟩) t) : t = (0, 0) := by
  rw [← later_latest h, show gone ⟨0, .open⟩ = 0 by simp [gone], later_self_zero _ (by unfold Vol.before; simp)]

/-- C91: in the sample market, with a flat volatility, Monte-Carlo prices approach the price of the self pricer. -/
example (hd : StandardNormal μ draws) {ε : ℝ} (hε : 0 < ε) : ∃ q x, SelfPricer.new [(1, optionA 90)] (surfaceMarket (.flat (.val 0.2) .everyDay (0, 0))) = .ok q ∧
    q.price fuel = .ok (.val x) ∧ 0 < x ∧
    ∃ h₀ > 0, ∀ h, 0 < h → h < h₀ → ∀ᵐ ω ∂μ, ∃ y, Prices fuel [(1, optionA 90)] (surfaceMarket (.flat (.val 0.2) .everyDay (0, 0))) (draws ω) h y ∧
      ∀ᶠ n in atTop, |y n - x| < ε := by
  have hy := everyDay_year 10
  norm_num at hy
  have hv : ∀ k, (VolSurface.flat (.val 0.2) .everyDay (0, 0)).variance fuel (10, 0) (.val k) = .ok (.val (0.2 ^ 2 * (2 / 73))) := by
    intro k
    have h2 := (flat_variances (fuel := fuel) (v := 0.2) (c := .everyDay) (base := (0, 0)) (t := (10, 0)) (ks := [.val k])
      (out := [.val (0.2 ^ 2 * (2 / 73))])).2 ⟨2 / 73, hy, rfl⟩
    unfold VolSurface.variance
    rw [h2]
    rfl
  have hf : (VolSurface.flat (.val 0.2) .everyDay (0, 0)).forwardVariance fuel (0, 0) (10, 0) (.val 90) = .ok (.val (0.2 ^ 2 * (2 / 73))) := by
    rw [flat_forward]
    left
    exact ⟨before_irrefl _, 2 / 73, hy, rfl⟩
  obtain ⟨q, hq, hp, hs, hm, he, hvol⟩ := surface_case (fuel := fuel) (s := .flat (.val 0.2) .everyDay (0, 0)) rfl (hv 100) hf rfl (by norm_num)
    (by norm_num) (by norm_num)
  refine ⟨q, _, hq, hp, black_pos (by norm_num) (by norm_num) (Real.sqrt_pos.2 (by norm_num)), ?_⟩
  refine C91_agree_partial hd hq hp rfl ?_ (by norm_num) hm he hvol (by simp [VolSurface.divAssumptions]) ?_ hε
  · rw [hs]
    exact .inl (by simp [sampleTerms])
  · rw [hs]
    intro t ht
    rw [sample_from ht]
    exact hf

/-- A smile that is 30 percent at 90 and 20 percent at 100. -/
theorem skew : ∃ c : CubicSpline ℝ, Smile.newCubicSpline [(.val 90, 0.3), (.val 100, 0.2)] = .ok (.cubicSpline c) ∧
    c.interpolate (.val 90) = .ok (.val 0.3) ∧ c.interpolate (.val 100) = .ok (.val 0.2) := by
  have hv : validateAbscissae [((.val 90 : Num ℝ), (0.3 : ℝ)), (.val 100, 0.2)] = .ok () := by
    simp only [validateAbscissae, validateFrom, apart]
    norm_num
  have hc : ∃ c, CubicSpline.new (plain [((90 : ℝ), (0.3 : ℝ)), (100, 0.2)]) .natural .natural = .ok c := by
    unfold CubicSpline.new plain
    simp only [List.map_cons, List.map_nil]
    rw [hv]
    simp only [ok_then, List.length_cons, List.length_nil]
    norm_num [pure, Except.pure]
  obtain ⟨c, hc⟩ := hc
  refine ⟨c, ?_, C18_pillar (p := (90, 0.3)) hc (by simp), C18_pillar (p := (100, 0.2)) hc (by simp)⟩
  unfold Smile.newCubicSpline
  have : plain [((90 : ℝ), (0.3 : ℝ)), (100, 0.2)] = [((.val 90 : Num ℝ), (0.3 : ℝ)), (.val 100, 0.2)] := rfl
  rw [this] at hc
  rw [hc]
  rfl

/-- C91 violated in a case: a call struck at 90 while the volatility is 30 percent at 90 and 20 percent at the forward of 100. -/
theorem C91_skew_false (hd : StandardNormal μ draws) : ∃ smile s q x, Smile.newCubicSpline [(.val 90, 0.3), (.val 100, 0.2)] = .ok smile ∧
    VolSurface.newByProbability (oneSpline smile) = .ok s ∧ SelfPricer.new [(1, optionA 90)] (surfaceMarket s) = .ok q ∧
    q.price fuel = .ok (.val x) ∧
    ∃ ε > 0, ∃ h₀ > 0, ∀ h, 0 < h → h < h₀ → ∀ᵐ ω ∂μ, ∃ y, Prices fuel [(1, optionA 90)] (surfaceMarket s) (draws ω) h y ∧
      ∀ᶠ n in atTop, ε ≤ |y n - x| := by
  obtain ⟨c, hc, c1, c2⟩ := skew
  have y := everyDay_year 10
  push_cast at y
  have n1 : ¬ nlt (.val ((10 : ℝ) / 365 * 0.2 * 0.2)) (.val 0) := by simp only [nlt]; norm_num
  have hnew : VolSurface.newByProbability (oneSpline (.cubicSpline c)) =
      .ok (.byProbability (oneSpline (.cubicSpline c)) [⟨.val 100, nsqrt (.val (10 / 365 * 0.2 * 0.2)), 10 / 365⟩]) := by
    unfold VolSurface.newByProbability
    simp only [oneSpline, buildPillars, constant_forward, Smile.volatility, ok_then, c2, y]
    rw [show num2 (· * ·) (num2 (· * ·) (.val ((10 : ℝ) / 365)) (.val 0.2)) (.val 0.2) = .val (10 / 365 * 0.2 * 0.2) from rfl, if_neg n1]
    rfl
  have hvar : ∀ k v, c.interpolate (.val k) = .ok (.val v) →
      (VolSurface.byProbability (oneSpline (.cubicSpline c)) [⟨.val 100, nsqrt (.val (10 / 365 * 0.2 * 0.2)), 10 / 365⟩]).variances fuel
        (10, 0) [.val k] = .ok [.val (10 / 365 * v * v)] := by
    intro k v hk
    have hse : searchSmile (oneSpline (.cubicSpline c)).smiles (10, 0) = (0, true) := by
      have := searchSmile_eq (l := []) (r := []) (p := (((10, 0) : Point), Smile.cubicSpline c)) (t := (10, 0)) (by simp) (before_irrefl _)
      simpa [oneSpline] using this
    unfold VolSurface.variances VolSurface.volatilities byProbabilityVolatilities
    simp only [hse]
    simp only [oneSpline, List.getElem?_cons_zero, ok_then, each, Smile.volatility, hk]
    simp [num2, pure, Except.pure, Bind.bind, Except.bind]
  have hw : ∀ k v, c.interpolate (.val k) = .ok (.val v) →
      (VolSurface.byProbability (oneSpline (.cubicSpline c)) [⟨.val 100, nsqrt (.val (10 / 365 * 0.2 * 0.2)), 10 / 365⟩]).variance fuel
        (10, 0) (.val k) = .ok (.val (10 / 365 * v * v)) := by
    intro k v hk
    unfold VolSurface.variance
    rw [hvar k v hk]
    rfl
  have hf : (VolSurface.byProbability (oneSpline (.cubicSpline c)) [⟨.val 100, nsqrt (.val (10 / 365 * 0.2 * 0.2)), 10 / 365⟩]).forwardVariance
      fuel (0, 0) (10, 0) (.val 90) = .ok (.val (10 / 365 * 0.3 * 0.3)) := by
    unfold VolSurface.forwardVariance VolSurface.forwardVariances
    rw [if_pos (by exact before_irrefl _), hvar _ _ c1]
    rfl
  obtain ⟨q, hq, hp, hs, hm, he, hvol⟩ := surface_case (fuel := fuel) rfl (hw _ _ c2) hf rfl (by norm_num) (by norm_num) (by norm_num)
  refine ⟨_, _, q, _, hc, hnew, hq, hp, ?_⟩
  refine C91_smile_false hd hq hp rfl ?_ (by norm_num) hm he hvol (by simp [VolSurface.divAssumptions, oneSpline]) ?_ (by norm_num) (by norm_num)
    (by norm_num : (0 : ℝ) < 10 / 365 * 0.3 * 0.3) (by norm_num) (black_pos (by norm_num) (by norm_num) (Real.sqrt_pos.2 (by norm_num))).ne'
  · rw [hs]
    exact .inl (by simp [sampleTerms])
  · rw [hs]
    intro t ht
    rw [sample_from ht]
    exact hf

/-- C91 violated in a case: a call struck at 90 on a surface that assumes fixed dividends of 5 after expiry. -/
example (hd : StandardNormal μ draws) : ∃ s q x, VolSurface.newByProbability fixedPillar = .ok s ∧
    SelfPricer.new [(1, optionA 90)] (surfaceMarket s) = .ok q ∧ q.price fuel = .ok (.val x) ∧
    ∃ ε > 0, ∃ h₀ > 0, ∀ h, 0 < h → h < h₀ → ∀ᵐ ω ∂μ, ∃ y, Prices fuel [(1, optionA 90)] (surfaceMarket s) (draws ω) h y ∧
      ∀ᶠ n in atTop, ε ≤ |y n - x| := by
  obtain ⟨pi, hnew⟩ := fixedPillar_new
  have hδ : (VolSurface.byProbability fixedPillar [pi]).displacement 10 = .ok (.val 5) := by
    unfold VolSurface.displacement displacementBy
    exact constant_forward 0 10 5
  have hv : ∀ k, (VolSurface.byProbability fixedPillar [pi]).variances fuel (10, 0) [.val k] = .ok [.val (10 / 365 * 0.2 * 0.2)] := by
    intro k
    have hv := fixedPillar_vols (fuel := fuel) pi 10 (by norm_num) (.val k)
    unfold VolSurface.variances
    norm_num at hv
    rw [hv]
    simp only [ok_bind, List.map_cons, List.map_nil, num2]
    norm_num [pure, Except.pure]
  have hf : (VolSurface.byProbability fixedPillar [pi]).forwardVariance fuel (0, 0) (10, 0) (.val 90) = .ok (.val (10 / 365 * 0.2 * 0.2)) := by
    unfold VolSurface.forwardVariance VolSurface.forwardVariances
    rw [if_pos (by exact before_irrefl _), hv]
    rfl
  have hw : (VolSurface.byProbability fixedPillar [pi]).variance fuel (10, 0) (.val 100) = .ok (.val (10 / 365 * 0.2 * 0.2)) := by
    unfold VolSurface.variance
    rw [hv]
    rfl
  obtain ⟨q, hq, hp, hs, hm, he, hvol⟩ := surface_case (fuel := fuel) rfl hw hf hδ (by norm_num) (by norm_num) (by norm_num)
  refine ⟨_, q, _, hnew, hq, hp, ?_⟩
  refine C91_displaced_false hd hq hp rfl ?_ (by rw [hs]) hm he hvol hδ (by norm_num) ?_ (by norm_num) (by norm_num) (by norm_num) (by norm_num)
    (black_pos (by norm_num) (by norm_num) (Real.sqrt_pos.2 (by norm_num))).ne'
  · rw [hs]
    exact .inl (by simp [sampleTerms])
  · rw [hs, show gone ⟨0, .open⟩ = 0 by simp [gone]]
    exact hf

end QM.MonteCarlo
