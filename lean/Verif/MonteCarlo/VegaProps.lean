import Verif.MonteCarlo.RiskProps
import Mathlib.Analysis.SpecialFunctions.Complex.LogBounds

/-!
# Property C106, continued: vega and volga of Monte-Carlo pricers
-/

namespace QM.MonteCarlo
open QM.Interp QM.Vol QM.Instruments QM.Market QM.Market.Spec QM.Risk QM.Fixings QM.Curves Spec MeasureTheory ProbabilityTheory
open QM.Instruments.Spec (payoff lognormal)
open QM.Risk.Spec (Setting euro)
open Filter (Tendsto atTop Eventually)
open Topology

variable {fuel : Nat} {f : ModelFactory} {md md' : MarketData} {draw draw' : Draws}
  {Ω : Type} [MeasurableSpace Ω] {μ : Measure Ω} [IsProbabilityMeasure μ] {draws : Ω → Draws}
  {v : Vanilla} {id credit : String} {settle : Int → Int} {K S a c D w : ℝ} {vol : VolSurface} {kind : PutOrCall} {p p' : MonteCarlo}

/-! ## Any number of steps -/

theorem level_one (w : ℝ) (N : ℕ) (g : ℕ → ℝ) : level (fun _ => w) (fun _ => N) g 1 = ∏ k ∈ Finset.range N, (1 + g k * Real.sqrt (w / N)) := by
  simp [level, start, stepSize, Spec.before]

/-- With many steps the mean payoff on the simulated asset is near the expected payoff. -/
theorem steps_near (hd : StandardNormal μ draws) {F w K : ℝ} (hw : 0 ≤ w) {N : ℕ} (hN : N ≠ 0) (kind : PutOrCall) :
    |∫ ω, payoff kind (pathValue (fun _ => F) (fun _ => w) (fun _ => 0) (fun _ => N) (fun k => draws ω 0 k 0) 0) K ∂μ -
      ∫ z, payoff kind (lognormal F (Real.sqrt w) z) K ∂gaussianReal 0 1| ≤ |F| * Real.sqrt (Real.exp w - (1 + w / N) ^ N) := by
  obtain ⟨hl, hi⟩ := one_path hd 0
  have hN' : (0 : ℝ) < N := by positivity
  have hs : ∑ _k ∈ Finset.range N, Real.sqrt (w / N) ^ 2 = w := by
    rw [Finset.sum_const, Finset.card_range, nsmul_eq_mul, Real.sq_sqrt (by positivity)]
    field_simp
  obtain ⟨Z, hZ, hZ'⟩ := sum_normal hi hl (fun _ => Real.sqrt (w / N)) N hs
  obtain ⟨c1, c2⟩ := coupling hi hl (fun _ => Real.sqrt (w / N)) N
  have e : ∀ ω, ∏ k ∈ Finset.range N, Real.exp (Real.sqrt (w / N) * draws ω 0 k 0 - Real.sqrt (w / N) ^ 2 / 2) = Real.exp (Real.sqrt w * Z ω - w / 2) := by
    intro ω
    rw [← Real.exp_sum, Finset.sum_sub_distrib, ← Finset.sum_div, hs, hZ']
  simp only [e, ← level_one w N (fun k => draws _ 0 k 0)] at c1 c2
  have hc : ∏ _k ∈ Finset.range N, Real.exp (Real.sqrt (w / N) ^ 2) - ∏ _k ∈ Finset.range N, (1 + Real.sqrt (w / N) ^ 2) = Real.exp w - (1 + w / N) ^ N := by
    rw [← Real.exp_sum, hs, Finset.prod_const, Finset.card_range, Real.sq_sqrt (by positivity)]
  rw [hc] at c2
  obtain ⟨i1, i2⟩ := mean_abs_le (c := Real.exp w - (1 + w / N) ^ N) (by
    refine AEStronglyMeasurable.sub ?_ ?_
    · exact ((level_measurable (fun _ => w) (fun _ => N) 1).comp_aemeasurable (path_law hd 0).aemeasurable).aestronglyMeasurable
    · exact (Real.measurable_exp.comp_aemeasurable ((hZ.aemeasurable.const_mul _).sub_const _)).aestronglyMeasurable) c1 c2.le
  have el : ∀ ω, F * Real.exp (Real.sqrt w * Z ω - w / 2) = lognormal F (Real.sqrt w) (Z ω) := by
    intro ω
    unfold lognormal
    rw [Real.sq_sqrt hw]
  have hs' : ∫ z, payoff kind (lognormal F (Real.sqrt w) z) K ∂gaussianReal 0 1 =
      ∫ ω, payoff kind (F * Real.exp (Real.sqrt w * Z ω - w / 2)) K ∂μ := by
    simp only [el]
    exact (law_payoff hZ kind _ _ _).symm
  rw [hs']
  have hE : Integrable (fun ω => F * Real.exp (Real.sqrt w * Z ω - w / 2)) μ := by
    have := (exp_mean hZ (Real.sqrt w)).1
    rw [Real.sq_sqrt hw] at this
    exact this.const_mul F
  have hP := (C52_value_mean hd (fun _ => F) (fun _ => w) (fun _ => 0) (fun _ => N) 0 0).1
  have ed : ∀ ω, pathValue (fun _ => F) (fun _ => w) (fun _ => 0) (fun _ => N) (fun k => draws ω 0 k 0) 0 - F * Real.exp (Real.sqrt w * Z ω - w / 2) =
      F * (level (fun _ => w) (fun _ => N) (fun k => draws ω 0 k 0) 1 - Real.exp (Real.sqrt w * Z ω - w / 2)) := by
    intro ω
    unfold pathValue
    ring
  have := mean_payoff_near (μ := μ) (kind := kind) (K := fun _ => K) (K' := fun _ => K) (d := 0)
    (c := |F| * Real.sqrt (Real.exp w - (1 + w / N) ^ N))
    (payoff_of_integrable kind hP (integrable_const K)) (payoff_of_integrable kind hE (integrable_const K)) (hP.sub hE)
    (by simp) (by
      simp only [ed, abs_mul]
      rw [integral_const_mul]
      exact mul_le_mul_of_nonneg_left i2 (abs_nonneg _)) (by simp)
  rwa [add_zero] at this

theorem steps_vanish (x w : ℝ) : Tendsto (fun N : ℕ => x * Real.sqrt (Real.exp w - (1 + w / N) ^ N)) atTop (𝓝 0) := by
  have h1 : Tendsto (fun N : ℕ => Real.exp w - (1 + w / N) ^ N) atTop (𝓝 (Real.exp w - Real.exp w)) :=
    tendsto_const_nhds.sub (Real.tendsto_one_add_div_pow_exp w)
  rw [sub_self] at h1
  have h2 := (Real.continuous_sqrt.tendsto 0).comp h1
  rw [Real.sqrt_zero] at h2
  have := h2.const_mul x
  rwa [mul_zero] at this

/-- With many steps and many paths the average payoff is near the expected payoff. -/
theorem average_near (hd : StandardNormal μ draws) {n F w K D η : ℝ} (hw : 0 ≤ w) (hη : 0 < η) (kind : PutOrCall) :
    ∃ N₀ : ℕ, ∀ N ≥ N₀, N ≠ 0 → ∀ᵐ ω ∂μ, ∀ᶠ paths in atTop,
      |n * (Spec.average paths (fun path => payoff kind (pathValue (fun _ => F) (fun _ => w) (fun _ => 0) (fun _ => N) (fun k => draws ω path k 0) 0) K) * D) -
        n * (D * ∫ z, payoff kind (lognormal F (Real.sqrt w) z) K ∂gaussianReal 0 1)| < η := by
  have h1 := (steps_vanish (|n * D| * |F|) w).eventually (gt_mem_nhds (half_pos hη))
  obtain ⟨N₀, h1⟩ := Filter.eventually_atTop.1 h1
  refine ⟨N₀, fun N hN hN0 => ?_⟩
  let G : (ℕ → ℝ) → ℝ := fun g => payoff kind (pathValue (fun _ => F) (fun _ => w) (fun _ => 0) (fun _ => N) g 0) K
  have hG : Measurable G := payoff_measurable _ (((level_measurable _ _ 1).const_mul _).add_const _) measurable_const
  have hlocal : ∀ g g' : ℕ → ℝ, (∀ k < start (fun _ => N) 1, g k = g' k) → G g = G g' := by
    intro g g' hg
    simp only [G, pathValue]
    rw [level_local _ _ _ hg]
  have hP := (C52_value_mean hd (fun _ => F) (fun _ => w) (fun _ => 0) (fun _ => N) 0 0).1
  filter_upwards [paths_average hd hG hlocal (payoff_of_integrable _ hP (integrable_const K))] with ω hω
  have ht := (hω.mul_const D).const_mul n
  filter_upwards [Metric.tendsto_nhds.1 ht _ (half_pos hη)] with k hk
  rw [Real.dist_eq] at hk
  have hnear := steps_near hd (F := F) (K := K) hw hN0 kind
  have hb : |n * ((∫ ω, G (fun k => draws ω 0 k 0) ∂μ) * D) - n * (D * ∫ z, payoff kind (lognormal F (Real.sqrt w) z) K ∂gaussianReal 0 1)| < η / 2 := by
    rw [show n * ((∫ ω, G (fun k => draws ω 0 k 0) ∂μ) * D) - n * (D * ∫ z, payoff kind (lognormal F (Real.sqrt w) z) K ∂gaussianReal 0 1) =
      n * D * ((∫ ω, G (fun k => draws ω 0 k 0) ∂μ) - ∫ z, payoff kind (lognormal F (Real.sqrt w) z) K ∂gaussianReal 0 1) by ring, abs_mul]
    have := mul_le_mul_of_nonneg_left hnear (abs_nonneg (n * D))
    rw [← mul_assoc] at this
    exact this.trans_lt (h1 N hN)
  have := abs_sub_le (n * (Spec.average k (fun path => G fun j => draws ω path j 0) * D)) (n * ((∫ ω, G (fun k => draws ω 0 k 0) ∂μ) * D))
    (n * (D * ∫ z, payoff kind (lognormal F (Real.sqrt w) z) K ∂gaussianReal 0 1))
  show |n * (Spec.average k (fun path => G fun j => draws ω path j 0) * D) - _| < η
  linarith

/-! ## Bumped volatilities -/

/-- A market says what an option needs: forward, surface, discount factor, with the variance of the paths. -/
structure Ready (fuel : Nat) (md : MarketData) (n : ℝ) (kind : PutOrCall) (v : Vanilla) (id credit : String) (settle : Int → Int) (K F w D : ℝ) : Prop where
  context : ∃ q, SelfPricer.new [(n, euro kind v id credit settle K)] md = .ok q ∧
    Spec.Market fuel q.context.pricingContext (.equity id credit settle) [v.expiryTime] (fun _ => F) (fun _ => w) (fun _ => 0) ∧
    (expiryFlow { v with putOrCall := kind }).price fuel q.context.pricingContext ⟨md.spotDate, .open⟩ = .ok (.val D)

theorem ready_of {F : ℝ} {g : Fwd} {yc : RateCurve} {r r' n : ℝ} (hahead : md.spotDate < v.expiry.date) (hcredit : v.creditId = credit)
    (hex : v.expiryTime.1 = v.expiry.date) (hf : md.forwardCurve (.equity id credit settle) v.expiry.date = .ok g)
    (hF : g.forward v.expiry.date = .ok (.val F)) (hv : ∀ k, md.volSurface (.equity id credit settle) v.expiry.date k = .ok vol)
    (hvar : vol.variance fuel v.expiryTime (.val F) = .ok (.val w)) (hδ : vol.displacement v.expiry.date = .ok (.val 0))
    (hy : md.yieldCurves.get credit = some yc) (hr : yc.rt v.payDate = .ok (.val r)) (hr' : yc.rt (v.settlement md.spotDate) = .ok (.val r')) :
    Ready fuel md n kind v id credit settle K F w (Real.exp (r' - r)) := by
  obtain ⟨c1, c2, c3⟩ := collect_option (v := v) (id := id) (credit := credit) (settle := settle) (K := K) n kind md.spotDate
  have hnew : Prefetch.new md (collect md.spotDate [(n, euro kind v id credit settle K)]) =
      .ok ⟨md, collect md.spotDate [(n, euro kind v id credit settle K)], ⟨[(id, g)]⟩, ⟨[(id, vol)]⟩⟩ := by
    unfold Prefetch.new
    rw [c1, c2]
    unfold walkDependencies
    rw [hf]
    dsimp only
    rw [show Map.get ⟨[(id, Instrument.equity id credit settle, v.expiry.date)]⟩ (Instrument.equity id credit settle).id =
      some (Instrument.equity id credit settle, v.expiry.date) by simp [Map.get, Instrument.id]]
    dsimp only
    rw [hv]
    rfl
  refine ⟨_, new_self_of hnew, ⟨v.expiryTime, g, vol, rfl, ?_, ?_, ?_⟩, ?_⟩
  · show find id ⟨[(id, g)]⟩ = _
    simp [find, Map.get]
  · show find id ⟨[(id, vol)]⟩ = _
    simp [find, Map.get]
  · intro i pt hi
    have : pt = v.expiryTime := by simpa using List.mem_of_getElem? hi
    subst this
    rw [hex]
    exact ⟨hF, hvar, hδ⟩
  · refine flow_discount (u := .equity id credit settle) (yc := yc) (v := { v with putOrCall := kind }) hcredit (.inl hahead) ?_ (df_eq hr hr')
    show find credit md.yieldCurves = _
    unfold find
    rw [hy]

/-- In a context with the data of such a market paths can be made. -/
theorem Ready.fetch {n F : ℝ} (h : Ready fuel md n kind v id credit settle K F w D) (hw : 0 ≤ w) {N : ℕ} (hN : N ≠ 0) {sp : SelfPricer}
    (hc : At [(n, euro kind v id credit settle K)] md.spotDate (data md) sp) (k : ℕ) (draw : Draws) :
    ∃ paths, fetchPath fuel (.equity id credit settle) sp.context.pricingContext [v.expiryTime] (rows k [N].sum draw) [N] = .ok paths := by
  obtain ⟨q, hq, hm, _⟩ := h.context
  have ha := at_new hq
  have hal := hc.coherent.unique ha.coherent (hc.dependencies.trans ha.dependencies.symm) (hc.spotDate.trans ha.spotDate.symm)
    fun x => (hc.data x).trans (ha.data x).symm
  rw [show sp.context.pricingContext = q.context.pricingContext from pricing_congr hal.answers hal.spotDate]
  refine rows_fetch (n := fun _ => N) (fun _ => hN) hm ?_ rfl k draw
  intro i hi
  obtain rfl : i = 0 := by simpa using hi
  simpa [Spec.before] using hw

/-- And a pricer whose paths follow it charges the average payoff along them. -/
theorem Ready.price {n F : ℝ} (h : Ready fuel md n kind v id credit settle K F w D) {N : ℕ} (hN : N ≠ 0) (hk : f.nPaths ≠ 0)
    (hp : Tied fuel f [(n, euro kind v id credit settle K)] md.spotDate draw (.equity id credit settle) [v.expiryTime] [N]
      [expiryFlow { v with putOrCall := kind }] (data md) p) :
    p.price fuel = .ok (.val (n * (Spec.average f.nPaths (fun path =>
      payoff kind (pathValue (fun _ => F) (fun _ => w) (fun _ => 0) (fun _ => N) (fun k => draw path k 0) 0) K) * D))) := by
  obtain ⟨q, hq, hm, hD⟩ := h.context
  have ha := at_new hq
  have hc := hp.context
  have hal := hc.coherent.unique ha.coherent (hc.dependencies.trans ha.dependencies.symm) (hc.spotDate.trans ha.spotDate.symm)
    fun x => (hc.data x).trans (ha.data x).symm
  have hctx : p.model.context.pricingContext = q.context.pricingContext := pricing_congr hal.answers hal.spotDate
  obtain ⟨paths, h1, h2⟩ := hp.step.paths
  rw [hctx] at h2
  have := rows_paths (n := fun _ => N) (fun _ => hN) hm rfl h2
  subst this
  rw [← hp.nPaths]
  refine spot_price (v := { v with putOrCall := kind }) (u := .equity id credit settle) (K := K) hp.context.instruments ?_ hp.step.observations hp.flows
    (by rw [hp.nPaths]; exact hk) ?_
  · unfold BlackDiffusion.pathsOf
    rw [hp.step.key, h1, hp.nPaths]
    simp [Map.get]
  · rw [hctx, show p.model.context.context.spotDate = md.spotDate from hp.context.spotDate]
    exact hD

/-- One underlying in the vega report. -/
theorem mc_vega_step {n b F w₁ w₂ : ℝ} {x : Num ℝ} {N : ℕ} (hN : N ≠ 0) (hk : f.nPaths ≠ 0)
    (hp : Tied fuel f [(n, euro kind v id credit settle K)] md.spotDate draw (.equity id credit settle) [v.expiryTime] [N]
      [expiryFlow { v with putOrCall := kind }] (data md) p) (hs : md.volSurfaces.get id = some vol) (hb : b ≠ -1)
    (hup : Ready fuel (withVol md id (.parallelBump vol (.val b))) n kind v id credit settle K F w₁ D) (hw₁ : 0 ≤ w₁)
    (hdown : Ready fuel (withVol md id (.parallelBump (.parallelBump vol (.val b)) (.val (-2 * b / (1 + b))))) n kind v id credit settle K F w₂ D) (hw₂ : 0 ≤ w₂) :
    ∃ p' s', vegaStep (monteCarlo fuel draw') (.flatAdditive (.val b)) x id p .new =
      (.ok (Risk.first (.val (n * (Spec.average f.nPaths (fun path =>
        payoff kind (pathValue (fun _ => F) (fun _ => w₁) (fun _ => 0) (fun _ => N) (fun k => draw path k 0) 0) K) * D)))
          (.val (n * (Spec.average f.nPaths (fun path =>
        payoff kind (pathValue (fun _ => F) (fun _ => w₂) (fun _ => 0) (fun _ => N) (fun k => draw path k 0) 0) K) * D))) (.val b),
        Risk.second (.val (n * (Spec.average f.nPaths (fun path =>
        payoff kind (pathValue (fun _ => F) (fun _ => w₁) (fun _ => 0) (fun _ => N) (fun k => draw path k 0) 0) K) * D)))
          (.val (n * (Spec.average f.nPaths (fun path =>
        payoff kind (pathValue (fun _ => F) (fun _ => w₂) (fun _ => 0) (fun _ => N) (fun k => draw path k 0) 0) K) * D))) x (.val b)), p', s') := by
  obtain ⟨t1, t2, t3⟩ := collect_option (v := v) (id := id) (credit := credit) (settle := settle) (K := K) n kind md.spotDate
  have hu := option_unambiguous (v := v) (id := id) (credit := credit) (settle := settle) (K := K) n kind md.spotDate
  have hi : (collect md.spotDate [(n, euro kind v id credit settle K)]).instruments.get id ≠ none := by rw [t3]; simp [Map.get]
  have hf : (collect md.spotDate [(n, euro kind v id credit settle K)]).forwardCurves.get id ≠ none := by rw [t1]; simp [Map.get]
  have hv : (collect md.spotDate [(n, euro kind v id credit settle K)]).volSurfaces.get id ≠ none := by rw [t2]; simp [Map.get]
  have hs' : data md (.vol id) = some vol := hs
  obtain ⟨n1, hn1, _⟩ := hup.context
  obtain ⟨n2, hn2, _⟩ := hdown.context
  have d1 : Function.update (data md) (.vol id) (some (bumped (.vol id (.flatAdditive (.val b))) (.vol id) vol)) = data (withVol md id (.parallelBump vol (.val b))) := by
    funext y
    rw [withVol_data]
    rfl
  have hu1 : data (withVol md id (.parallelBump vol (.val b))) (.vol id) = some (.parallelBump vol (.val b)) := by
    rw [withVol_data, Function.update_self]
  have d2 : Function.update (data (withVol md id (.parallelBump vol (.val b)))) (.vol id)
      (some (bumped (.vol id (.flatAdditive (.val (-2 * b / (1 + b))))) (.vol id) (.parallelBump vol (.val b)))) =
      data (withVol md id (.parallelBump (.parallelBump vol (.val b)) (.val (-2 * b / (1 + b))))) := by
    funext y
    rw [withVol_data, ← d1, Function.update_idem]
    rfl
  obtain ⟨q1, s1, b1⟩ := hp.context.bump_vol hu (b := .flatAdditive (.val b)) hs' hi hf hv (md := withVol md id (.parallelBump vol (.val b))) rfl
    (fun y => (congrFun d1 y).symm) hn1 (some .new)
  obtain ⟨_, b1⟩ := self_bump b1
  obtain ⟨p1, u1, m1, a1⟩ := hp.bump_of (b := .vol id (.flatAdditive (.val b))) hu rfl rfl hs' (save := some .new) b1 (by
    intro hc
    rw [d1] at hc
    exact hup.fetch hw₁ hN hc _ _)
  rw [d1] at a1
  obtain ⟨q2, s2, b2⟩ := a1.context.bump_vol hu (b := .flatAdditive (.val (-2 * b / (1 + b)))) hu1 hi hf hv
    (md := withVol md id (.parallelBump (.parallelBump vol (.val b)) (.val (-2 * b / (1 + b))))) rfl (fun y => (congrFun d2 y).symm) hn2 none
  obtain ⟨_, b2⟩ := self_bump b2
  obtain ⟨p2, u2, m2, a2⟩ := a1.bump_of (b := .vol id (.flatAdditive (.val (-2 * b / (1 + b))))) hu rfl rfl hu1 (save := none) b2 (by
    intro hc
    rw [d2] at hc
    exact hdown.fetch hw₂ hN hc _ _)
  rw [d2] at a2
  have f1 := hup.price hN hk a1
  have f2 := hdown.price hN hk a2
  have g1 : bumpedPrice (monteCarlo fuel draw') (.vol id (.flatAdditive (.val b))) p (some .new) x = _ :=
    bumpedPrice_of m1 (fun _ => f1) (fun h => by cases h)
  have g2 : bumpedPrice (monteCarlo fuel draw') (.vol id (.flatAdditive (.val (-2 * b / (1 + b))))) p1 none x = _ :=
    bumpedPrice_of m2 (fun _ => f2) (fun h => by cases h)
  unfold vegaStep upAndDown
  rw [opposite_flat hb, g1]
  dsimp only
  rw [g2]
  exact ⟨_, _, rfl⟩

theorem variance_of {fuel : Nat} {vol : VolSurface} {t : Point} {x T σ : ℝ} (h : vol.volatilities fuel t [.val x] = .ok (T, [.val σ])) :
    vol.variance fuel t (.val x) = .ok (.val (T * σ * σ)) := by
  unfold VolSurface.variance VolSurface.variances
  rw [h]
  rfl

theorem mean_black {F K s : ℝ} (hF : 0 < F) (hK : 0 < K) (hs : 0 < s) (kind : PutOrCall) :
    ∫ z, payoff kind (lognormal F s z) K ∂gaussianReal 0 1 = blackValue kind F K s := by
  cases kind
  · exact mean_put hF hK hs
  · exact mean_call hF hK hs

/-- A setting is ready for the paths of any surface of the day put in the place of its own. -/
theorem ready_shifted {n w' : ℝ} (h : Setting fuel md v id credit settle K S a c 0 D w vol) (hcredit : v.creditId = credit)
    (hex : v.expiryTime.1 = v.expiry.date) {vol' : VolSurface} (hb : vol'.baseDate.1 = md.spotDate)
    (hδ : vol'.displacement v.expiry.date = .ok (.val 0)) (hv : vol'.variance fuel v.expiryTime (.val (a * S - c)) = .ok (.val w')) :
    Ready fuel (withVol md id vol') n kind v id credit settle K (a * S - c) w' D := by
  obtain ⟨f, k1, k2⟩ := h.forward S
  obtain ⟨yc, r, r', k3, k4, k5, rfl⟩ := h.rates
  have k1' : (withVol md id vol').forwardCurve (.equity id credit settle) v.expiry.date = .ok f := by
    rw [← k1]
    refine forwardCurve_congr _ _ rfl ?_
    intro y hy
    rw [withVol_data, withSpot_data]
    rw [update_same (x := .spot id) (f := data md) h.spot, Function.update_of_ne]
    rintro rfl
    simp at hy
  exact ready_of (md := withVol md id vol') h.ahead hcredit hex k1' k2 (surface_today (md := withVol md id vol') (by unfold withVol; simp) hb _) hv hδ k3 k4 k5

/-! ## C106 -/

/-- C106, vega. Take an option with the credit of its underlying, on a surface of the day without fixed dividends that gives the same
volatility at the strike and at the forward. Given any distance, for all small enough substeps and, almost surely, all large enough
numbers of paths, the Monte-Carlo pricer reports a vega and a volga that near to those that the self pricer reports, although it
keeps the steps that the market before the bumps asked for. What is missing: the cases in which the prices themselves stay apart,
`C91_smile_false`, `C91_displaced_false` and `C62_false`. -/
theorem C106_vega_partial {b n ε σ T : ℝ} (hd : StandardNormal μ draws) (h : Setting fuel md v id credit settle K S a c 0 D w vol)
    (hcredit : v.creditId = credit) (hex : v.expiryTime.1 = v.expiry.date) (hs : md.volSurfaces.get id = some vol)
    (hbase : vol.baseDate.1 = md.spotDate) (hfrom : ¬ Vol.before vol.baseDate (later (0, 0) (md.spotDate, 0)))
    (hσ : vol.volatilities fuel v.expiryTime [.val K] = .ok (T, [.val σ])) (hσF : vol.volatilities fuel v.expiryTime [.val (a * S - c)] = .ok (T, [.val σ]))
    (hT : 0 < T) (hσ0 : 0 < σ) (hb0 : 0 < b) (hdown : 0 < σ + b + -2 * b / (1 + b)) (hF : 0 < a * S - c) (hK : 0 < K) (kind : PutOrCall) (hε : 0 < ε) :
    ∃ vega volga : ℝ,
      (∃ p x r p', SelfPricer.new [(n, euro kind v id credit settle K)] md = .ok p ∧ p.price fuel = .ok (.val x) ∧
        generate (selfPricer fuel) (.vegaVolga (.flatAdditive (.val b))) p .new (.val x) = (.ok (.vegaVolga (.val b) r), p', .new) ∧
        r.get id = some (.val vega, .val volga) ∧ ∀ k, k ≠ id → r.get k = none) ∧
      ∃ h₀ > 0, ∀ h, 0 < h → h < h₀ → ∀ᵐ ω ∂μ, ∀ᶠ paths in atTop, ∃ p x r p' vega' volga',
        MonteCarlo.new fuel ⟨h, paths⟩ [(n, euro kind v id credit settle K)] md (draws ω) = .ok p ∧ p.price fuel = .ok (.val x) ∧
        generate (monteCarlo fuel draw') (.vegaVolga (.flatAdditive (.val b))) p .new (.val x) = (.ok (.vegaVolga (.val b) r), p', .new) ∧
        r.get id = some (.val vega', .val volga') ∧ (∀ k, k ≠ id → r.get k = none) ∧ |vega' - vega| < ε ∧ |volga' - volga| < ε := by
  have hup : 0 < σ + b := by linarith
  have hroot : ∀ {s : ℝ}, 0 < s → Real.sqrt (T * s * s) = Real.sqrt T * s := fun {s} h0 => by
    rw [mul_assoc, Real.sqrt_mul hT.le, Real.sqrt_mul_self h0.le]
  have hpos : ∀ {s : ℝ}, 0 < s → 0 < T * s * s := fun h0 => mul_pos (mul_pos hT h0) h0
  have hmean : ∀ {s : ℝ}, 0 < s → ∫ z, payoff kind (lognormal (a * S - c) (Real.sqrt (T * s * s)) z) K ∂gaussianReal 0 1 =
      blackValue kind (a * S - c) K (Real.sqrt T * s) := fun {s} h0 => by
    rw [hroot h0, mean_black hF hK (mul_pos (Real.sqrt_pos.2 hT) h0)]
  obtain ⟨p, x, r, p', k1, k2, k3, k4, k5⟩ := setting_vega h hs hbase hfrom hσ hT hσ0 hb0 hdown (by rwa [sub_zero]) (by rwa [add_zero]) kind n
  simp only [sub_zero, add_zero] at k4
  refine ⟨_, _, ⟨p, x, r, p', k1, k2, k3, k4, k5⟩, ?_⟩
  have hw : w = T * σ * σ := by
    have := h.variance
    rw [plain_variance hfrom hσ] at this
    cases this
    rfl
  -- how near the prices have to be
  obtain ⟨η, hη, e1, e2⟩ : ∃ η > 0, η / b ≤ ε ∧ 4 * η / b ^ 2 ≤ ε := by
    refine ⟨min (ε * b) (ε * b ^ 2 / 4), lt_min (by positivity) (by positivity), ?_, ?_⟩
    · rw [div_le_iff₀ hb0]
      exact min_le_left _ _
    · rw [div_le_iff₀ (by positivity)]
      linarith [min_le_right (ε * b) (ε * b ^ 2 / 4)]
  have w0 := variance_of hσF
  obtain ⟨u1, _⟩ := bumped_variance (b := b) hfrom hσF hup.le
  obtain ⟨d1, _⟩ := bumped_variance (vol := .parallelBump vol (.val b)) (b := -2 * b / (1 + b)) (by exact hfrom) u1 hdown.le
  have r1 : Ready fuel (withVol md id (.parallelBump vol (.val b))) n kind v id credit settle K (a * S - c) _ D :=
    ready_shifted h hcredit hex (by exact hbase) (by exact h.displacement) (variance_of u1)
  have r2 : Ready fuel (withVol md id (.parallelBump (.parallelBump vol (.val b)) (.val (-2 * b / (1 + b))))) n kind v id credit settle K (a * S - c) _ D :=
    ready_shifted h hcredit hex (by exact hbase) (by exact h.displacement) (variance_of d1)
  rw [← hw] at w0
  obtain ⟨h0, p0, q0⟩ := setting_limit (n := n) (kind := kind) hd h hcredit hex w0 (hw ▸ (hpos hσ0).le) hη (setting_here h)
  obtain ⟨N1, a1⟩ := average_near (n := n) (F := a * S - c) (K := K) (D := D) hd (hpos hup).le hη kind
  obtain ⟨N2, a2⟩ := average_near (n := n) (F := a * S - c) (K := K) (D := D) hd (hpos hdown).le hη kind
  refine ⟨min h0 (w / ((max N1 N2 : ℕ) + 1)), lt_min p0 (div_pos (hw ▸ hpos hσ0) (by positivity)), fun h' hh hlt => ?_⟩
  obtain ⟨l0, l1⟩ := lt_min_iff.1 hlt
  set N := steps h' (fun _ => w) 0 with hNdef
  have hN0 : N ≠ 0 := by
    have : 1 ≤ N := le_max_left _ _
    omega
  have hbig : max N1 N2 ≤ N := by
    have hle : (w - 0) / h' ≤ (⌈(w - 0) / h'⌉₊ : ℝ) := Nat.le_ceil _
    have h2 : ((max N1 N2 : ℕ) : ℝ) + 1 ≤ (w - 0) / h' := by
      rw [sub_zero, le_div_iff₀ hh]
      rw [lt_div_iff₀ (by positivity)] at l1
      linarith
    have h3 : ((max N1 N2 : ℕ) : ℝ) ≤ (⌈(w - 0) / h'⌉₊ : ℝ) := by linarith
    have h4 : max N1 N2 ≤ ⌈(w - 0) / h'⌉₊ := by exact_mod_cast h3
    exact h4.trans (le_max_right _ _)
  filter_upwards [q0 h' hh l0, a1 N (le_of_max_le_left hbig) hN0, a2 N (le_of_max_le_right hbig) hN0] with ω c0 c1 c2
  obtain ⟨y, b0, s0, d0⟩ := c0
  filter_upwards [d0, c1, c2, Filter.eventually_ne_atTop 0] with k z0 z1 z2 hk
  obtain ⟨m, n0, v0⟩ := b0 k hk
  have hshape : m.model.instruments = [.equity id credit settle] ∧ m.model.observations = [v.expiryTime] ∧
      m.model.flows = [expiryFlow { v with putOrCall := kind }] := by
    obtain ⟨t, context, ht, _, hbm, _, _⟩ := new_ok n0
    have ht' := ht
    rw [euro, timeline_spot] at ht'
    cases ht'
    obtain ⟨k', u', obs, ks, paths, he, _, _, _, e⟩ := model_new_ok hbm
    cases he
    rw [e]
    exact ⟨rfl, rfl, rfl⟩
  have tied := tied_new n0 hshape.1
  rw [hshape.2.1, hshape.2.2, s0 k hk m n0] at tied
  obtain ⟨t1, t2, t3⟩ := collect_option (v := v) (id := id) (credit := credit) (settle := settle) (K := K) n kind md.spotDate
  have hdep : m.model.context.dependencies = collect md.spotDate [(n, euro kind v id credit settle K)] := tied.context.dependencies
  have hids : ∀ k, m.model.context.dependencies.instruments.get k ≠ none ↔ k = id := by
    intro k
    rw [hdep, t3]
    by_cases e : id = k
    · simp [Map.get, e]
    · simp [Map.get, e, Ne.symm e]
  obtain ⟨M, m', g1, g2, g3, _⟩ := figures_one (new := SavedBlackDiffusion.new)
    (step := vegaStep (monteCarlo fuel draw') (.flatAdditive (.val b)) (.val (y k))) (fun q => SameModel q m) (k := id)
    (ids := (monteCarlo fuel draw').ids m) (x := (_, _))
    (fun id hid => (hids id).1 ((keys_get _ _).1 hid)) ((keys_get _ _).2 ((hids _).2 rfl))
    (by
      intro q hq
      obtain ⟨q', s', hst⟩ := mc_vega_step (draw' := draw') (x := .val (y k)) hN0 hk (tied.same hq) hs (by linarith) r1 (hpos hup).le r2 (hpos hdown).le
      obtain ⟨_, _, kk, _⟩ := vegaStep_ok hst
      obtain ⟨rfl, k2⟩ := mc_upAndDown (id := id) (by rfl) (by rfl) (by rfl) kk
      rw [first_val hb0.ne', second_val hb0.ne'] at hst
      exact ⟨q', hst, k2.trans hq⟩) (.refl m)
  have hg : generate (monteCarlo fuel draw') (.vegaVolga (.flatAdditive (.val b))) m .new (.val (y k)) = (.ok (.vegaVolga (.val b) M), m', .new) := by
    rw [generate, vega_loop]
    have g1 : figuresLoop (vegaStep (monteCarlo fuel draw') (.flatAdditive (.val b)) (.val (y k))) ((monteCarlo fuel draw').ids m) m .new .empty =
      (.ok M, m', .new) := g1
    rw [g1]
    rfl
  refine ⟨m, y k, M, m', _, _, n0, v0, hg, g2, g3, ?_⟩
  rw [hmean hup] at z1
  rw [hmean hdown] at z2
  rw [hw, hmean hσ0] at z0
  obtain ⟨o1, o2⟩ := differences_near hb0 z1 z2 z0
  constructor
  · refine lt_of_lt_of_le (lt_of_eq_of_lt ?_ o1) e1
    congr 1
    dsimp only
    ring
  · refine lt_of_lt_of_le (lt_of_eq_of_lt ?_ o2) e2
    congr 1
    dsimp only
    ring

/-- The hypotheses are met by the put struck at 90 on the share worth 100, with a volatility of 20% bumped by one percent. -/
example (hd : StandardNormal μ draws) {ε : ℝ} (hε : 0 < ε) :
    ∃ vega volga : ℝ,
      (∃ p x r p', SelfPricer.new [(3, Risk.Spec.euro .put sampleTerms "A" "C" _root_.id 90)]
          (withVol (sampleMarket 100 (.zero 0)) "A" (.flat (.val 0.2) .everyDay (0, 0))) = .ok p ∧ p.price fuel = .ok (.val x) ∧
        generate (selfPricer fuel) (.vegaVolga (.flatAdditive (.val 0.01))) p .new (.val x) = (.ok (.vegaVolga (.val 0.01) r), p', .new) ∧
        r.get "A" = some (.val vega, .val volga)) ∧
      ∃ h₀ > 0, ∀ h, 0 < h → h < h₀ → ∀ᵐ ω ∂μ, ∀ᶠ paths in atTop, ∃ p x r p' vega' volga',
        MonteCarlo.new fuel ⟨h, paths⟩ [(3, Risk.Spec.euro .put sampleTerms "A" "C" _root_.id 90)]
          (withVol (sampleMarket 100 (.zero 0)) "A" (.flat (.val 0.2) .everyDay (0, 0))) (draws ω) = .ok p ∧ p.price fuel = .ok (.val x) ∧
        generate (monteCarlo fuel draw') (.vegaVolga (.flatAdditive (.val 0.01))) p .new (.val x) = (.ok (.vegaVolga (.val 0.01) r), p', .new) ∧
        r.get "A" = some (.val vega', .val volga') ∧ |vega' - vega| < ε ∧ |volga' - volga| < ε := by
  have hy := everyDay_year 10
  norm_num at hy
  have hv : ∀ x : ℝ, (VolSurface.flat (.val 0.2) .everyDay (0, 0)).volatilities fuel sampleTerms.expiryTime [.val x] = .ok (2 / 73, [.val 0.2]) := by
    intro x
    rw [VolSurface.volatilities, show sampleTerms.expiryTime = (10, 0) from rfl, hy]
    rfl
  obtain ⟨vega, volga, ⟨p, x, r, p', g1, g2, g3, g4, _⟩, h₀, hpos, far⟩ := C106_vega_partial (draw' := draw') (b := 0.01) (n := 3) hd
    (sample_setting (fuel := fuel) 0.2 100 90) rfl rfl rfl rfl (by
      rw [later_self_zero _ (by unfold Vol.before; simp [withVol, sampleMarket])]
      exact before_irrefl _) (hv _) (hv _) (by norm_num) (by norm_num) (by norm_num) (by norm_num) (by norm_num) (by norm_num) .put hε
  refine ⟨vega, volga, ⟨p, x, r, p', g1, g2, g3, g4⟩, h₀, hpos, fun h a1 a2 => ?_⟩
  filter_upwards [far h a1 a2] with ω hω
  filter_upwards [hω] with paths
  rintro ⟨p, x, r, p', a, b, k1, k2, k3, k4, _, k5, k6⟩
  exact ⟨p, x, r, p', a, b, k1, k2, k3, k4, k5, k6⟩

end QM.MonteCarlo
