import Verif.MonteCarlo.ConvergenceProps
import Verif.Units.ScaleProps
import Mathlib.Probability.Independence.Integration

/-!
# Property C91 for forward-starting options
-/

namespace QM.MonteCarlo
open QM.Interp QM.Vol QM.Instruments QM.Market QM.Risk QM.Fixings QM.Curves Spec MeasureTheory ProbabilityTheory
open QM.Instruments.Spec (payoff lognormal NotLater LaterOf gone)
open Filter (Tendsto atTop Eventually)
open Topology

namespace Spec

/-- The value of an asset with forward `F` and cash dividends `δ` to come, after a lognormal move `m`. -/
def moved (F δ m : ℝ) : ℝ := δ + (F - δ) * m

/-- The expected payoff of an option that is struck at `φ` times the value of the asset at its first observation, and pays at the second. The asset
makes two independent lognormal moves, the first with variance `w 0`, the second with the rest of the variance `w 1`. -/
noncomputable def forwardPayoff (kind : PutOrCall) (F w δ : Nat → ℝ) (φ : ℝ) : ℝ :=
  ∫ z, payoff kind (moved (F 1) (δ 1) (lognormal 1 (Real.sqrt (w 0)) z.1 * lognormal 1 (Real.sqrt (w 1 - w 0)) z.2))
    (φ * moved (F 0) (δ 0) (lognormal 1 (Real.sqrt (w 0)) z.1)) ∂(gaussianReal 0 1).prod (gaussianReal 0 1)

end Spec

variable {fuel : Nat} {md : MarketData} {Ω : Type} [MeasurableSpace Ω] {μ : Measure Ω} [IsProbabilityMeasure μ] {draws : Ω → Draws}

/-! ## Lemmas -/

/-- The two parts of a sum of draws, together. -/
theorem sums_law {g : ℕ → Ω → ℝ} (hi : iIndepFun g μ) (hg : ∀ k, HasLaw (g k) (gaussianReal 0 1) μ) (s : ℕ → ℝ) (n m : ℕ) {a b : ℝ}
    (ha : ∑ k ∈ Finset.range n, s k ^ 2 = a) (hb : ∑ k ∈ Finset.range m, s (n + k) ^ 2 = b) {H : ℝ × ℝ → ℝ} (hH : Measurable H) :
    ∫ ω, H (∑ k ∈ Finset.range n, s k * g k ω, ∑ k ∈ Finset.range m, s (n + k) * g (n + k) ω) ∂μ =
      ∫ z, H (Real.sqrt a * z.1, Real.sqrt b * z.2) ∂(gaussianReal 0 1).prod (gaussianReal 0 1) := by
  have hA := sum_law hi hg s n
  have hi' : iIndepFun (fun k ω => g (n + k) ω) μ := hi.precomp (g := fun k => n + k) (fun x y h => by simpa using h)
  have hB := sum_law hi' (fun k => hg (n + k)) (fun k => s (n + k)) m
  have ha0 : 0 ≤ a := ha ▸ Finset.sum_nonneg fun k _ => sq_nonneg _
  have hb0 : 0 ≤ b := hb ▸ Finset.sum_nonneg fun k _ => sq_nonneg _
  rw [ha] at hA
  rw [hb] at hB
  have hind : IndepFun (fun ω => ∑ k ∈ Finset.range n, s k * g k ω) (fun ω => ∑ k ∈ Finset.range m, s (n + k) * g (n + k) ω) μ := by
    let S : Finset ℕ := Finset.range n
    let T : Finset ℕ := (Finset.range m).image fun k => n + k
    have hdis : Disjoint S T := by
      rw [Finset.disjoint_left]
      intro x h1 h2
      simp only [S, T, Finset.mem_image, Finset.mem_range] at h1 h2
      omega
    have h := hi.indepFun_finset₀ S T hdis (fun k => (hg k).aemeasurable)
    have h1 : Measurable fun x : S → ℝ => ∑ k : S, s k * x k := by fun_prop
    have h2 : Measurable fun x : T → ℝ => ∑ k : T, s k * x k := by fun_prop
    have h3 := h.comp h1 h2
    convert h3 using 1
    · funext ω
      simp only [Function.comp]
      exact (Finset.sum_coe_sort S fun k => s k * g k ω).symm
    · funext ω
      simp only [Function.comp]
      rw [Finset.sum_coe_sort T fun k => s k * g k ω, Finset.sum_image (fun x _ y _ h => by simpa using h)]
  have hpair := (indepFun_iff_map_prod_eq_prod_map_map hA.aemeasurable hB.aemeasurable).1 hind
  rw [hA.map_eq, hB.map_eq] at hpair
  have hsc : ∀ {c : ℝ}, 0 ≤ c → (gaussianReal 0 1).map (fun x => Real.sqrt c * x) = gaussianReal 0 (Real.toNNReal c) := by
    intro c hc
    rw [gaussianReal_map_const_mul]
    congr 1
    · simp
    · ext
      simp [Real.sq_sqrt hc, Real.coe_toNNReal c hc]
  rw [← integral_map (φ := fun ω => (∑ k ∈ Finset.range n, s k * g k ω, ∑ k ∈ Finset.range m, s (n + k) * g (n + k) ω))
    (hA.aemeasurable.prodMk hB.aemeasurable) hH.aestronglyMeasurable, hpair, ← hsc ha0, ← hsc hb0,
    Measure.map_prod_map _ _ (by fun_prop) (by fun_prop), integral_map (by fun_prop) hH.aestronglyMeasurable]
  rfl

/-- How far the walk up to a variance `w` is from the exponential, in the mean. -/
noncomputable def drift (w h : ℝ) : ℝ := Real.sqrt (Real.exp w * (1 - Real.exp (-(w * h / 2))))

theorem moved_measurable {α : Type} [MeasurableSpace α] (F δ : ℝ) {m : α → ℝ} (hm : Measurable m) : Measurable fun x => moved F δ (m x) := by
  unfold moved
  fun_prop

/-- The mean payoff of a forward-starting option on the simulated asset is near the expected payoff. -/
theorem forward_near (hd : StandardNormal μ draws) {F w δ : Nat → ℝ} {h φ : ℝ} (hh : 0 < h) (hw0 : 0 ≤ w 0) (hw1 : w 0 ≤ w 1) (kind : PutOrCall) :
    |∫ ω, payoff kind (pathValue F w δ (steps h w) (fun k => draws ω 0 k 0) 1) (φ * pathValue F w δ (steps h w) (fun k => draws ω 0 k 0) 0) ∂μ -
      forwardPayoff kind F w δ φ| ≤ |F 1 - δ 1| * drift (w 1) h + |φ * (F 0 - δ 0)| * drift (w 0) h := by
  obtain ⟨s, h2, h3⟩ := level_near hd (w := w) hh (N := 2) (by
    intro j hj
    interval_cases j
    · simpa [Spec.before] using hw0
    · simpa [Spec.before] using hw1)
  obtain ⟨hl, hi⟩ := one_path hd 0
  set n := steps h w with hn
  have e2 : start n 2 = start n 1 + n 1 := rfl
  have s1 := h2 1 (by norm_num)
  have s2 := h2 2 le_rfl
  rw [e2, Finset.sum_range_add, s1] at s2
  simp only [Spec.before] at s1 s2
  have s3 : ∑ k ∈ Finset.range (n 1), s (start n 1 + k) ^ 2 = w 1 - w 0 := by linarith
  obtain ⟨i1, j1⟩ := h3 1 (by norm_num)
  obtain ⟨i2, j2⟩ := h3 2 le_rfl
  simp only [Spec.before] at i1 i2 j1 j2
  set E1 : Ω → ℝ := fun ω => Real.exp (∑ k ∈ Finset.range (start n 1), s k * draws ω 0 k 0 - w 0 / 2) with hE1
  set E2 : Ω → ℝ := fun ω => Real.exp (∑ k ∈ Finset.range (start n 2), s k * draws ω 0 k 0 - w 1 / 2) with hE2
  have d1 : ∀ ω, pathValue F w δ n (fun k => draws ω 0 k 0) 0 - moved (F 0) (δ 0) (E1 ω) = (F 0 - δ 0) * (level w n (fun k => draws ω 0 k 0) 1 - E1 ω) := by
    intro ω
    unfold pathValue moved
    ring
  have d2 : ∀ ω, pathValue F w δ n (fun k => draws ω 0 k 0) 1 - moved (F 1) (δ 1) (E2 ω) = (F 1 - δ 1) * (level w n (fun k => draws ω 0 k 0) 2 - E2 ω) := by
    intro ω
    unfold pathValue moved
    ring
  have p1 := (C52_value_mean hd F w δ n 0 0).1
  have p2 := (C52_value_mean hd F w δ n 0 1).1
  have D1 : Integrable (fun ω => pathValue F w δ n (fun k => draws ω 0 k 0) 0 - moved (F 0) (δ 0) (E1 ω)) μ := by
    simp only [d1]
    exact i1.const_mul _
  have D2 : Integrable (fun ω => pathValue F w δ n (fun k => draws ω 0 k 0) 1 - moved (F 1) (δ 1) (E2 ω)) μ := by
    simp only [d2]
    exact i2.const_mul _
  have q1 : Integrable (fun ω => moved (F 0) (δ 0) (E1 ω)) μ := by
    refine (p1.sub D1).congr (Filter.Eventually.of_forall fun ω => ?_)
    simp
  have q2 : Integrable (fun ω => moved (F 1) (δ 1) (E2 ω)) μ := by
    refine (p2.sub D2).congr (Filter.Eventually.of_forall fun ω => ?_)
    simp
  have href : forwardPayoff kind F w δ φ = ∫ ω, payoff kind (moved (F 1) (δ 1) (E2 ω)) (φ * moved (F 0) (δ 0) (E1 ω)) ∂μ := by
    have hH : Measurable fun z : ℝ × ℝ => payoff kind (moved (F 1) (δ 1) (Real.exp (z.1 - w 0 / 2) * Real.exp (z.2 - (w 1 - w 0) / 2)))
        (φ * moved (F 0) (δ 0) (Real.exp (z.1 - w 0 / 2))) :=
      payoff_measurable kind (moved_measurable _ _ (by fun_prop)) ((moved_measurable _ _ (by fun_prop)).const_mul _)
    have := sums_law hi hl s (start n 1) (n 1) s1 s3 hH
    unfold forwardPayoff lognormal
    rw [Real.sq_sqrt hw0, Real.sq_sqrt (by linarith : 0 ≤ w 1 - w 0)]
    simp only [one_mul]
    rw [← this]
    congr 1
    funext ω
    have : E2 ω = Real.exp (∑ k ∈ Finset.range (start n 1), s k * draws ω 0 k 0 - w 0 / 2) *
        Real.exp (∑ k ∈ Finset.range (n 1), s (start n 1 + k) * draws ω 0 (start n 1 + k) 0 - (w 1 - w 0) / 2) := by
      rw [hE2, ← Real.exp_add]
      dsimp only
      rw [e2, Finset.sum_range_add]
      congr 1
      ring
    rw [this]
  rw [href]
  refine mean_payoff_near (μ := μ) (kind := kind) (payoff_of_integrable kind p2 (p1.const_mul φ)) (payoff_of_integrable kind q2 (q1.const_mul φ)) D2 ?_ ?_ ?_
  · simp only [← mul_sub]
    exact D1.const_mul φ
  · simp only [d2, abs_mul]
    rw [integral_const_mul]
    exact mul_le_mul_of_nonneg_left j2 (abs_nonneg _)
  · simp only [← mul_sub, d1, abs_mul, ← mul_assoc]
    rw [integral_const_mul]
    exact mul_le_mul_of_nonneg_left j1 (by positivity)

/-! ## C91 -/

/-- C91, convergence, for forward-starting options. Under standard normal draws, almost surely, the Monte-Carlo prices converge as the number of paths grows. How far
the limit is from the discounted expected payoff tends to zero with the size of the substeps. -/
theorem C91_forward_converges {a φ D h : ℝ} {F w δ : Nat → ℝ} {v : Vanilla} {u : Instrument} {d : DateTime} {s : Point} {context : Prefetch}
    (hd : StandardNormal μ draws) (hh : 0 < h) (hw0 : 0 ≤ w 0) (hw1 : w 0 ≤ w 1)
    (hc : Prefetch.new md (collect md.spotDate [(a, .forwardStarting v u φ d s)]) = .ok context)
    (hm : Spec.Market fuel context.pricingContext u [s, v.expiryTime] F w δ)
    (hD : (expiryFlow v).price fuel context.pricingContext ⟨context.context.spotDate, .open⟩ = .ok (.val D)) :
    ∃ limit : ℝ, |limit - a * (D * forwardPayoff v.putOrCall F w δ φ)| ≤
        |a * D| * (|F 1 - δ 1| * Real.sqrt (Real.exp (w 1) * (1 - Real.exp (-(w 1 * h / 2)))) +
          |φ * (F 0 - δ 0)| * Real.sqrt (Real.exp (w 0) * (1 - Real.exp (-(w 0 * h / 2))))) ∧
      ∀ᵐ ω ∂μ, ∃ y, Prices fuel [(a, .forwardStarting v u φ d s)] md (draws ω) h y ∧ Tendsto y atTop (𝓝 limit) := by
  let G : (ℕ → ℝ) → ℝ := fun g => payoff v.putOrCall (pathValue F w δ (steps h w) g 1) (φ * pathValue F w δ (steps h w) g 0)
  refine ⟨a * ((∫ ω, G (fun k => draws ω 0 k 0) ∂μ) * D), ?_, ?_⟩
  · have h1 := forward_near hd (F := F) (δ := δ) (φ := φ) hh hw0 hw1 v.putOrCall
    rw [show a * ((∫ ω, G (fun k => draws ω 0 k 0) ∂μ) * D) - a * (D * forwardPayoff v.putOrCall F w δ φ) =
        a * D * ((∫ ω, G (fun k => draws ω 0 k 0) ∂μ) - forwardPayoff v.putOrCall F w δ φ) by ring, abs_mul]
    exact mul_le_mul_of_nonneg_left h1 (abs_nonneg _)
  · have hG : Measurable G :=
      payoff_measurable _ (((level_measurable _ _ 2).const_mul _).add_const _) ((((level_measurable _ _ 1).const_mul _).add_const _).const_mul _)
    have hlocal : ∀ g g' : ℕ → ℝ, (∀ k < start (steps h w) 2, g k = g' k) → G g = G g' := by
      intro g g' hg
      simp only [G, pathValue]
      rw [level_local _ _ 2 hg, level_local _ _ 1 (fun k hk => hg k (lt_of_lt_of_le hk (start_mono _ (by norm_num))))]
    have p1 := (C52_value_mean hd F w δ (steps h w) 0 0).1
    have p2 := (C52_value_mean hd F w δ (steps h w) 0 1).1
    filter_upwards [paths_average hd hG hlocal (payoff_of_integrable _ p2 (p1.const_mul φ))] with ω hω
    refine ⟨fun n => a * (Spec.average n (fun path => G fun k => draws ω path k 0) * D), ?_, (hω.mul_const D).const_mul a⟩
    intro n hn
    obtain ⟨m, hmod⟩ := model_succeeds (fuel := fuel) (f := ⟨h, n⟩) (t := ⟨⟨[(u.id, u, [s, v.expiryTime])]⟩, [expiryFlow v]⟩) (draws ω)
      (k := u.id) (u := u) (obs := [s, v.expiryTime]) rfl hm (by
        intro i hi
        simp only [List.length_cons, List.length_nil] at hi
        interval_cases i
        · simpa [Spec.before] using hw0
        · simpa [Spec.before] using hw1) hh.ne' hn
    have hp : MonteCarlo.new fuel ⟨h, n⟩ [(a, .forwardStarting v u φ d s)] md (draws ω) = .ok ⟨⟨h, n⟩, [(a, .forwardStarting v u φ d s)], m⟩ := by
      unfold MonteCarlo.new
      rw [timeline_forward, ok_bind, hc, ok_bind, hmod, ok_bind]
      rfl
    have hctx : m.context = context := by
      obtain ⟨_, _, _, _, _, _, _, _, _, e⟩ := model_new_ok hmod
      rw [e]
    refine ⟨_, hp, ?_⟩
    subst hctx
    have hprice := C52_forward_partial hp hm hD
    exact hprice

/-- C91, the limit, for forward-starting options. Given any distance, for all small enough substeps and, almost surely, all large enough numbers of paths, the
Monte-Carlo price is that near to the discounted expected payoff. -/
theorem C91_forward_limit {a φ D ε : ℝ} {F w δ : Nat → ℝ} {v : Vanilla} {u : Instrument} {d : DateTime} {s : Point} {context : Prefetch}
    (hd : StandardNormal μ draws) (hw0 : 0 ≤ w 0) (hw1 : w 0 ≤ w 1)
    (hc : Prefetch.new md (collect md.spotDate [(a, .forwardStarting v u φ d s)]) = .ok context)
    (hm : Spec.Market fuel context.pricingContext u [s, v.expiryTime] F w δ)
    (hD : (expiryFlow v).price fuel context.pricingContext ⟨context.context.spotDate, .open⟩ = .ok (.val D)) (hε : 0 < ε) :
    ∃ h₀ > 0, ∀ h, 0 < h → h < h₀ → ∀ᵐ ω ∂μ, ∃ y, Prices fuel [(a, .forwardStarting v u φ d s)] md (draws ω) h y ∧
      ∀ᶠ n in atTop, |y n - a * (D * forwardPayoff v.putOrCall F w δ φ)| < ε := by
  have h0 := (error_vanishes (|a * D| * |F 1 - δ 1|) (w 1)).add (error_vanishes (|a * D| * |φ * (F 0 - δ 0)|) (w 0))
  rw [add_zero] at h0
  have h1 := h0.eventually (gt_mem_nhds (half_pos hε))
  obtain ⟨h₀, hpos, hsub⟩ := mem_nhdsGT_iff_exists_Ioo_subset.1 h1
  refine ⟨h₀, hpos, fun h hh hlt => ?_⟩
  have hb := hsub ⟨hh, hlt⟩
  obtain ⟨limit, hl, hconv⟩ := C91_forward_converges (a := a) hd hh hw0 hw1 hc hm hD
  filter_upwards [hconv] with ω hω
  obtain ⟨y, hy, ht⟩ := hω
  refine ⟨y, hy, ?_⟩
  filter_upwards [Metric.tendsto_nhds.1 ht _ (half_pos hε)] with n hn
  rw [Real.dist_eq] at hn
  simp only [Set.mem_ofPred_eq] at hb
  have hl' : |limit - a * (D * forwardPayoff v.putOrCall F w δ φ)| ≤ ε / 2 := hl.trans (by rw [mul_add, ← mul_assoc |a * D|, ← mul_assoc |a * D|]; exact hb.le)
  calc _ ≤ |y n - limit| + |limit - _| := abs_sub_le _ limit _
    _ < ε / 2 + ε / 2 := add_lt_add_of_lt_of_le hn hl'
    _ = ε := by ring

/-- C91, agreement, for forward-starting options with the credit of their underlying, that the self pricer gives a number. If the surface assumes no fixed dividends and the variance
from the strike date to expiry at the strike is the difference of those at the forwards, then given any distance, for all small enough substeps and, almost surely, all
large enough numbers of paths, the Monte-Carlo price is that near to the price of the self pricer. What is missing, as for other options: a smile, fixed dividends and another
credit. -/
theorem C91_forward_agree_partial {a φ x ε : ℝ} {F w : Nat → ℝ} {v : Vanilla} {u : Instrument} {d : DateTime} {s : Point} {vol : VolSurface} {q : SelfPricer}
    (hd : StandardNormal μ draws) (hq : SelfPricer.new [(a, .forwardStarting v u φ d s)] md = .ok q) (hx : q.price fuel = .ok (.val x))
    (hcredit : v.creditId = u.creditId) (hdate : NotLater ⟨q.context.context.spotDate, .open⟩ v.expiry) (hK : 0 ≤ F 0 * φ)
    (hw0 : 0 ≤ w 0) (hm : Spec.Market fuel q.context.pricingContext u [s, v.expiryTime] F w (fun _ => 0))
    (hF : u.prices fuel q.context.pricingContext [d, v.expiry] = .ok [.val (F 0), .val (F 1)])
    (hvol : q.context.pricingContext.volSurface u v.expiry.date (fun _ => q.context.pricingContext.forwardCurve u v.expiry.date) = .ok vol)
    (hdiv : vol.divAssumptions ≠ .fixedDivs)
    (hw : ∀ t, LaterOf s (q.context.context.spotDate, gone ⟨q.context.context.spotDate, .open⟩) t →
      vol.forwardVariance fuel t v.expiryTime (.val (F 0 * φ)) = .ok (.val (w 1 - w 0))) (hε : 0 < ε) :
    ∃ h₀ > 0, ∀ h, 0 < h → h < h₀ → ∀ᵐ ω ∂μ, ∃ y, Prices fuel [(a, .forwardStarting v u φ d s)] md (draws ω) h y ∧
      ∀ᶠ n in atTop, |y n - x| < ε := by
  obtain ⟨x₀, h1, rfl⟩ := self_one hq hx
  obtain ⟨yc, D, S, F', t, w', g1, g2, g3, g4, g5, g6, g7⟩ := C90_forward_partial (μ := (gaussianReal 0 1).prod (gaussianReal 0 1)) (Y := Prod.fst) (Z := Prod.snd)
    (Real.sqrt (w 0)) h1 hdate hvol hdiv (by
      intro S F' h
      rw [hF] at h
      cases h
      exact hK) ⟨by fun_prop, by simp [Measure.map_fst_prod]⟩ ⟨by fun_prop, by simp [Measure.map_snd_prod]⟩
    (indepFun_prod (X := fun x : ℝ => x) (Y := fun x : ℝ => x) measurable_id measurable_id)
  rw [hF] at g3
  cases g3
  rw [hw t g4] at g5
  cases g5
  have := C91_forward_limit (a := a) hd hw0 (by linarith) (new_self hq).2 hm (flow_discount hcredit hdate g1 g2) hε
  have e : forwardPayoff v.putOrCall F w (fun _ => 0) φ = ∫ z, payoff v.putOrCall
      (Real.exp (Real.sqrt (w 0) * z.1 - Real.sqrt (w 0) ^ 2 / 2) * lognormal (F 1) (Real.sqrt (w 1 - w 0)) z.2)
      (φ * lognormal (F 0) (Real.sqrt (w 0)) z.1) ∂(gaussianReal 0 1).prod (gaussianReal 0 1) := by
    unfold forwardPayoff
    congr 1
    funext z
    congr 1
    · unfold moved lognormal
      ring
    · unfold moved lognormal
      ring
  rw [e] at this
  rw [g7]
  exact this

/-- C91: in the sample market, Monte-Carlo prices of a call struck on day 5 at half of what the asset is worth then approach the price of the self pricer. -/
example (hd : StandardNormal μ draws) {ε : ℝ} (hε : 0 < ε) : ∃ q x, SelfPricer.new [(1, .forwardStarting sampleTerms equityA (1 / 2) ⟨5, .open⟩ (5, 0))]
      (sampleMarket 100 (.zero 0)) = .ok q ∧ q.price fuel = .ok (.val x) ∧
    ∃ h₀ > 0, ∀ h, 0 < h → h < h₀ → ∀ᵐ ω ∂μ, ∃ y, Prices fuel [(1, .forwardStarting sampleTerms equityA (1 / 2) ⟨5, .open⟩ (5, 0))]
      (sampleMarket 100 (.zero 0)) (draws ω) h y ∧ ∀ᶠ n in atTop, |y n - x| < ε := by
  obtain ⟨f, hf, hf'⟩ := sample_forward_flat 100 10
  have hn := new_self_of (sample_new (md := sampleMarket 100 (.zero 0)) (v := .flat (.val 0.2) .everyDay (0, 0))
    (c := collect 0 [((1 : ℝ), .forwardStarting sampleTerms equityA (1 / 2) ⟨5, .open⟩ (5, 0))]) rfl rfl hf rfl)
  obtain ⟨V, hV⟩ := Units.sample_struck (fuel := fuel) (ctx := Prefetch.pricingContext ⟨sampleMarket 100 (.zero 0),
    collect 0 [((1 : ℝ), .forwardStarting sampleTerms equityA (1 / 2) ⟨5, .open⟩ (5, 0))], ⟨[("A", f)]⟩,
    ⟨[("A", .flat (.val 0.2) .everyDay (0, 0))]⟩⟩) rfl (fun _ => rfl) (fun _ => rfl) hf' (fun _ _ => rfl)
  have hy5 := everyDay_year 5
  have hy10 := everyDay_year 10
  norm_num at hy5 hy10
  have hv : ∀ {t : Point} {y : ℝ}, Calendar.yearFraction (.everyDay : Calendar.Cal ℝ) ((0, 0) : Point) t = .ok y →
      (VolSurface.flat (.val 0.2) .everyDay (0, 0)).variance fuel t (.val 100) = .ok (.val (0.2 ^ 2 * y)) := by
    intro t y hy
    have h2 := (flat_variances (fuel := fuel) (v := 0.2) (c := .everyDay) (base := (0, 0)) (t := t) (ks := [.val 100])
      (out := [.val (0.2 ^ 2 * y)])).2 ⟨y, hy, rfl⟩
    unfold VolSurface.variance
    rw [h2]
    rfl
  refine ⟨_, 1 * V, hn, ?_, ?_⟩
  · unfold SelfPricer.price
    dsimp only
    rw [priceLoop, show (sampleMarket 100 (.zero 0)).spotDate = 0 from rfl, hV, ok_bind, priceLoop]
    simp [num1, num2]
  · refine C91_forward_agree_partial (F := fun _ => 100) (w := fun i => 0.2 ^ 2 * ((i + 1) / 73)) (vol := .flat (.val 0.2) .everyDay (0, 0)) hd hn ?_ rfl
      (.inl (by show (0 : Int) < 10; norm_num)) (by norm_num) (by norm_num) ?_ ?_ rfl (by simp [VolSurface.divAssumptions]) ?_ hε
    · unfold SelfPricer.price
      dsimp only
      rw [priceLoop, show (sampleMarket 100 (.zero 0)).spotDate = 0 from rfl, hV, ok_bind, priceLoop]
      simp [num1, num2]
    · refine ⟨(10, 0), f, _, rfl, rfl, rfl, ?_⟩
      intro i pt hi
      match i, hi with
      | 0, hi =>
        cases hi
        refine ⟨hf' 5 (by norm_num), ?_, rfl⟩
        rw [hv hy5]
        norm_num
      | 1, hi =>
        cases hi
        refine ⟨hf' 10 (by norm_num), ?_, rfl⟩
        rw [show sampleTerms.expiryTime = (10, 0) from rfl, hv hy10]
        norm_num
      | i + 2, hi => simp at hi
    · have hfw : ∀ d, (Prefetch.pricingContext ⟨sampleMarket 100 (.zero 0), collect 0 [((1 : ℝ), .forwardStarting sampleTerms equityA (1 / 2) ⟨5, .open⟩ (5, 0))],
          ⟨[("A", f)]⟩, ⟨[("A", .flat (.val 0.2) .everyDay (0, 0))]⟩⟩).forwardCurve equityA d = .ok f := fun _ => rfl
      dsimp only
      generalize Prefetch.pricingContext _ = ctx at hfw
      unfold equityA at hfw ⊢
      rw [Instrument.prices, show sampleTerms.expiry = ⟨10, .open⟩ from rfl]
      simp only [equityPrices, hfw, ok_bind, each, hf' 5 (by norm_num), hf' 10 (by norm_num)]
      rfl
    · intro t ht
      have hl : LaterOf (5, 0) ((0 : Int), gone ⟨0, .open⟩) (5, 0) := by
        refine ⟨.inl rfl, ?_⟩
        rintro y (rfl | rfl)
        · exact .inr ⟨rfl, le_refl _⟩
        · exact .inl (by norm_num)
      have e : t = (5, 0) := (later_latest ht).symm.trans (later_latest hl)
      subst e
      rw [flat_forward]
      right
      refine ⟨by left; norm_num [sampleTerms], 1 / 73, 2 / 73, hy5, hy10, by norm_num, by norm_num⟩

end QM.MonteCarlo
