import Verif.Risk.DeltaProps
import Verif.Instruments.BlackProps

/-!
# Property C45: the figures of vega reports
-/

namespace QM.Risk
open QM.Interp QM.Vol QM.Instruments QM.Instruments.Spec QM.Market QM.Market.Spec QM.Risk.Spec QM.Calendar

variable {fuel : Nat} {instruments : List (ℝ × Instrument)} {md : MarketData} {p p' : SelfPricer} {s' : SavedPrefetch}

/-- The report lists the underlyings of the dependencies, and nothing else. -/
theorem C45_covers {b : BumpVol} {size v : Num ℝ} {results : Map String (Num ℝ × Num ℝ)}
    (h : generate (selfPricer fuel) (.vegaVolga b) p .new v = (.ok (.vegaVolga size results), p', s')) (id : String) :
    size = b.bumpsize ∧ (results.get id ≠ none ↔ p.context.dependencies.instruments.get id ≠ none) := by
  rw [generate] at h
  generalize hr : vegaVolgaLoop (selfPricer fuel) b v ((selfPricer fuel).ids p) p .new .empty = l at h
  obtain ⟨l, p1, s1⟩ := l
  cases l with
  | error e => cases h
  | ok m =>
    cases h
    rw [vega_loop] at hr
    obtain ⟨_, _, h3, h4, _⟩ := figuresLoop_ok (fun q => Same q p) (fun _ _ => True) (by
      intro id q x q' s'' hq hs
      obtain ⟨_, _, h2, _⟩ := vegaStep_ok hs
      obtain ⟨g1, g2, _⟩ := upAndDown_same (show Simple (.vol id b) from trivial) (by rfl) h2
      exact ⟨g2.trans hq, g1, trivial⟩) _ (.refl p) hr
    refine ⟨rfl, ?_⟩
    rw [← keys_get p.context.dependencies.instruments]
    by_cases hm : id ∈ (selfPricer fuel).ids p
    · obtain ⟨x, hx, _⟩ := h3 id hm
      exact ⟨fun _ => hm, fun _ => by rw [hx]; simp⟩
    · rw [h4 id hm]
      exact ⟨fun h => absurd rfl h, fun h => absurd h hm⟩

/-- What there is instead of C45: the figures of one underlying for a value that is quadratic in the flat shift, if the report succeeds. The value
only needs to be known without a shift, after the up bump, and after the down bump that follows it, which leaves a shift of
`b - 2 b / (1 + b)`. That the figures are not the derivatives is `C45_false`; what is true of them is `C45_unaffected_partial` and
`C45_limit_partial`. -/
theorem C45_figures_partial {b a m c : ℝ} {id : String} {surface : VolSurface} {size : Num ℝ} {results : Map String (Num ℝ × Num ℝ)}
    (hp : SelfPricer.new instruments md = .ok p) (hu : Unambiguous (collect md.spotDate instruments))
    (h : generate (selfPricer fuel) (.vegaVolga (.flatAdditive (.val b))) p .new (.val c) = (.ok (.vegaVolga size results), p', s'))
    (hid : p.context.dependencies.instruments.get id ≠ none) (hs : md.volSurfaces.get id = some surface) (hb0 : b ≠ 0) (hb : b ≠ -1)
    (h1 : value fuel instruments (withVol md id (.parallelBump surface (.val b))) = .ok (.val (a * b ^ 2 + m * b + c)))
    (h2 : value fuel instruments (withVol md id (.parallelBump (.parallelBump surface (.val b)) (.val (-2 * b / (1 + b))))) =
      .ok (.val (a * (b + -2 * b / (1 + b)) ^ 2 + m * (b + -2 * b / (1 + b)) + c))) :
    results.get id = some (.val ((m + 2 * a * b ^ 2 / (1 + b)) / (1 + b)), .val (a * (1 + ((1 - b) / (1 + b)) ^ 2) + 2 * m / (1 + b))) := by
  have ha := at_new hp
  rw [generate] at h
  generalize hr : vegaVolgaLoop (selfPricer fuel) (.flatAdditive (.val b)) (.val c) ((selfPricer fuel).ids p) p .new .empty = l at h
  obtain ⟨l, p1, s1⟩ := l
  cases l with
  | error e => cases h
  | ok r =>
    cases h
    rw [vega_loop] at hr
    obtain ⟨_, _, h3, _⟩ := figuresLoop_ok (fun q => Same q p)
      (fun i x => i = id → x = (.val ((m + 2 * a * b ^ 2 / (1 + b)) / (1 + b)), .val (a * (1 + ((1 - b) / (1 + b)) ^ 2) + 2 * m / (1 + b)))) (by
      intro i q x q' s'' hq' hst
      obtain ⟨_, _, k, _⟩ := vegaStep_ok hst
      obtain ⟨g1, g2, _⟩ := upAndDown_same (show Simple (.vol i (.flatAdditive (.val b))) from trivial) (by rfl) k
      refine ⟨g2.trans hq', g1, ?_⟩
      rintro rfl
      rw [← vega_algebra hb0 hb]
      subst g1
      exact vega_figures (ha.same hq') hu hs hb h1 h2 hst) _ (.refl p) hr
    obtain ⟨x, hx, hx'⟩ := h3 id ((keys_get _ _).2 hid)
    rw [hx, hx' rfl]

/-- The same for all underlyings at once, with the success of the report: it succeeds if forwards and surfaces of all underlyings are among the
dependencies and the bumped markets can be priced. -/
theorem C45_partial {b c : ℝ} {surface : String → VolSurface} {a m : String → ℝ} (hp : SelfPricer.new instruments md = .ok p)
    (hu : Unambiguous (collect md.spotDate instruments)) (hb0 : b ≠ 0) (hb : b ≠ -1)
    (hf : ∀ id, p.context.dependencies.instruments.get id ≠ none →
      p.context.dependencies.forwardCurves.get id ≠ none ∧ p.context.dependencies.volSurfaces.get id ≠ none ∧
      md.volSurfaces.get id = some (surface id) ∧
      value fuel instruments (withVol md id (.parallelBump (surface id) (.val b))) = .ok (.val (a id * b ^ 2 + m id * b + c)) ∧
      value fuel instruments (withVol md id (.parallelBump (.parallelBump (surface id) (.val b)) (.val (-2 * b / (1 + b))))) =
        .ok (.val (a id * (b + -2 * b / (1 + b)) ^ 2 + m id * (b + -2 * b / (1 + b)) + c))) :
    ∃ results p', generate (selfPricer fuel) (.vegaVolga (.flatAdditive (.val b))) p .new (.val c) =
        (.ok (.vegaVolga (.val b) results), p', .new) ∧
      ∀ id, (p.context.dependencies.instruments.get id ≠ none →
        results.get id = some (.val ((m id + 2 * a id * b ^ 2 / (1 + b)) / (1 + b)), .val (a id * (1 + ((1 - b) / (1 + b)) ^ 2) + 2 * m id / (1 + b)))) ∧
        (p.context.dependencies.instruments.get id = none → results.get id = none) := by
  have ha := at_new hp
  have hs : ∃ results p', figuresLoop (vegaStep (selfPricer fuel) (.flatAdditive (.val b)) (.val c)) ((selfPricer fuel).ids p) p .new .empty =
      (.ok results, p', .new) := by
    refine figuresLoop_succeeds (fun q => Same q p) _ ?_ p _ (.refl p)
    intro id hid q hq
    have hid' := (keys_get _ _).1 hid
    obtain ⟨f1, f2, f3, f4, f5⟩ := hf id hid'
    obtain ⟨x, q', s', h⟩ := vega_succeeds (v := .val c) (ha.same hq) hu f3 hb (ha.dependencies ▸ hid') (ha.dependencies ▸ f1)
      (ha.dependencies ▸ f2) f4 f5
    obtain ⟨_, _, h2, _⟩ := vegaStep_ok h
    obtain ⟨g1, g2, _⟩ := upAndDown_same (show Simple (.vol id (.flatAdditive (.val b))) from trivial) (by rfl) h2
    subst g1
    exact ⟨x, q', h, g2.trans hq⟩
  obtain ⟨results, p', hs⟩ := hs
  have hg : generate (selfPricer fuel) (.vegaVolga (.flatAdditive (.val b))) p .new (.val c) = (.ok (.vegaVolga (.val b) results), p', .new) := by
    rw [generate, vega_loop, hs]
    rfl
  refine ⟨results, p', hg, fun id => ⟨?_, ?_⟩⟩
  · intro hid
    obtain ⟨_, _, f3, f4, f5⟩ := hf id hid
    exact C45_figures_partial hp hu hg hid f3 hb0 hb f4 f5
  · intro hid
    by_contra hne
    exact (C45_covers hg id).2.1 hne hid

/-- The report in terms of the values after the two bumps, which may be NaN. -/
theorem vega_report {b : ℝ} {v : Num ℝ} {surface : String → VolSurface} {u d : String → Num ℝ} (hp : SelfPricer.new instruments md = .ok p)
    (hu : Unambiguous (collect md.spotDate instruments)) (hb : b ≠ -1)
    (hf : ∀ id, p.context.dependencies.instruments.get id ≠ none →
      p.context.dependencies.forwardCurves.get id ≠ none ∧ p.context.dependencies.volSurfaces.get id ≠ none ∧
      md.volSurfaces.get id = some (surface id) ∧
      value fuel instruments (withVol md id (.parallelBump (surface id) (.val b))) = .ok (u id) ∧
      value fuel instruments (withVol md id (.parallelBump (.parallelBump (surface id) (.val b)) (.val (-2 * b / (1 + b))))) = .ok (d id)) :
    ∃ results p', generate (selfPricer fuel) (.vegaVolga (.flatAdditive (.val b))) p .new v =
        (.ok (.vegaVolga (.val b) results), p', .new) ∧
      ∀ id, (p.context.dependencies.instruments.get id ≠ none →
        results.get id = some (first (u id) (d id) (.val b), second (u id) (d id) v (.val b))) ∧
        (p.context.dependencies.instruments.get id = none → results.get id = none) := by
  have ha := at_new hp
  have hs : ∃ results p', figuresLoop (vegaStep (selfPricer fuel) (.flatAdditive (.val b)) v) ((selfPricer fuel).ids p) p .new .empty =
      (.ok results, p', .new) := by
    refine figuresLoop_succeeds (fun q => Same q p) _ ?_ p _ (.refl p)
    intro id hid q hq
    have hid' := (keys_get _ _).1 hid
    obtain ⟨f1, f2, f3, f4, f5⟩ := hf id hid'
    obtain ⟨x, q', s', h⟩ := vega_succeeds (v := v) (ha.same hq) hu f3 hb (ha.dependencies ▸ hid') (ha.dependencies ▸ f1)
      (ha.dependencies ▸ f2) f4 f5
    obtain ⟨_, _, h2, _⟩ := vegaStep_ok h
    obtain ⟨g1, g2, _⟩ := upAndDown_same (show Simple (.vol id (.flatAdditive (.val b))) from trivial) (by rfl) h2
    subst g1
    exact ⟨x, q', h, g2.trans hq⟩
  obtain ⟨results, p', hs⟩ := hs
  have hg : generate (selfPricer fuel) (.vegaVolga (.flatAdditive (.val b))) p .new v = (.ok (.vegaVolga (.val b) results), p', .new) := by
    rw [generate, vega_loop, hs]
    rfl
  refine ⟨results, p', hg, fun id => ⟨?_, ?_⟩⟩
  · intro hid
    obtain ⟨f1, f2, f3, f4, f5⟩ := hf id hid
    obtain ⟨_, _, h3, _⟩ := figuresLoop_ok (fun q => Same q p) (fun i x => i = id →
        x = (first (u id) (d id) (.val b), second (u id) (d id) v (.val b))) (by
      intro i q x q' s'' hq' hst
      obtain ⟨_, _, k, _⟩ := vegaStep_ok hst
      obtain ⟨g1, g2, _⟩ := upAndDown_same (show Simple (.vol i (.flatAdditive (.val b))) from trivial) (by rfl) k
      refine ⟨g2.trans hq', g1, ?_⟩
      rintro rfl
      subst g1
      rw [vega_figures (ha.same hq') hu f3 hb f4 f5 hst]) _ (.refl p) hs
    obtain ⟨x, hx, hx'⟩ := h3 id ((keys_get _ _).2 hid)
    rw [hx, hx' rfl]
  · intro hid
    by_contra hne
    exact (C45_covers hg id).2.1 hne hid

/-- The same in terms of the values after the two bumps, with no quadratic through them. -/
theorem C45_differences_partial {b v : ℝ} {surface : String → VolSurface} {u d : String → ℝ} (hp : SelfPricer.new instruments md = .ok p)
    (hu : Unambiguous (collect md.spotDate instruments)) (hb0 : b ≠ 0) (hb : b ≠ -1)
    (hf : ∀ id, p.context.dependencies.instruments.get id ≠ none →
      p.context.dependencies.forwardCurves.get id ≠ none ∧ p.context.dependencies.volSurfaces.get id ≠ none ∧
      md.volSurfaces.get id = some (surface id) ∧
      value fuel instruments (withVol md id (.parallelBump (surface id) (.val b))) = .ok (.val (u id)) ∧
      value fuel instruments (withVol md id (.parallelBump (.parallelBump (surface id) (.val b)) (.val (-2 * b / (1 + b))))) = .ok (.val (d id))) :
    ∃ results p', generate (selfPricer fuel) (.vegaVolga (.flatAdditive (.val b))) p .new (.val v) =
        (.ok (.vegaVolga (.val b) results), p', .new) ∧
      ∀ id, (p.context.dependencies.instruments.get id ≠ none →
        results.get id = some (.val ((u id - d id) / (2 * b)), .val ((u id + d id - 2 * v) / b ^ 2))) ∧
        (p.context.dependencies.instruments.get id = none → results.get id = none) := by
  obtain ⟨results, p', g1, g2⟩ := vega_report (v := .val v) (u := fun id => .val (u id)) (d := fun id => .val (d id)) hp hu hb hf
  refine ⟨results, p', g1, fun id => ⟨fun hid => ?_, (g2 id).2⟩⟩
  rw [(g2 id).1 hid, first_val hb0, second_val hb0]

/-- C45 for a value that the bumps of a volatility do not change: vega and volga are zero. -/
theorem C45_unaffected_partial {b c : ℝ} {id : String} {surface : VolSurface} {size : Num ℝ} {results : Map String (Num ℝ × Num ℝ)}
    (hp : SelfPricer.new instruments md = .ok p) (hu : Unambiguous (collect md.spotDate instruments))
    (h : generate (selfPricer fuel) (.vegaVolga (.flatAdditive (.val b))) p .new (.val c) = (.ok (.vegaVolga size results), p', s'))
    (hid : p.context.dependencies.instruments.get id ≠ none) (hs : md.volSurfaces.get id = some surface) (hb0 : b ≠ 0) (hb : b ≠ -1)
    (h1 : value fuel instruments (withVol md id (.parallelBump surface (.val b))) = .ok (.val c))
    (h2 : value fuel instruments (withVol md id (.parallelBump (.parallelBump surface (.val b)) (.val (-2 * b / (1 + b))))) = .ok (.val c)) :
    results.get id = some (.val 0, .val 0) := by
  have := C45_figures_partial (a := 0) (m := 0) (c := c) hp hu h hid hs hb0 hb (by rw [h1]; simp) (by rw [h2]; simp)
  simpa using this

/-- C45 in the limit of small bumps: the vega of a quadratic tends to its first derivative, but its volga to the second derivative and twice the
first. -/
theorem C45_limit_partial (a m : ℝ) :
    Filter.Tendsto (fun b : ℝ => (m + 2 * a * b ^ 2 / (1 + b)) / (1 + b)) (nhds 0) (nhds m) ∧
    Filter.Tendsto (fun b : ℝ => a * (1 + ((1 - b) / (1 + b)) ^ 2) + 2 * m / (1 + b)) (nhds 0) (nhds (2 * a + 2 * m)) := by
  constructor
  · have : ContinuousAt (fun b : ℝ => (m + 2 * a * b ^ 2 / (1 + b)) / (1 + b)) 0 := by
      fun_prop (disch := norm_num)
    have h := this.tendsto
    norm_num at h
    exact h
  · have : ContinuousAt (fun b : ℝ => a * (1 + ((1 - b) / (1 + b)) ^ 2) + 2 * m / (1 + b)) 0 := by
      fun_prop (disch := norm_num)
    have h := this.tendsto
    norm_num at h
    rw [show a * 2 + 2 * m = 2 * a + 2 * m by ring] at h
    exact h

/-! ### A case -/

theorem priced_value {md : MarketData} {surface : VolSurface} {S K w : ℝ} (hS : 0 ≤ S) (hbase : surface.baseDate = (0, 0))
    (hfwd : surface.forward = none) (hδ : surface.displacement 10 = .ok (.val 0))
    (hw : surface.forwardVariance fuel (0, 0) (10, 0) (.val K) = .ok (.val w)) (hw0 : 0 ≤ w)
    (hmd : ∀ x, data md x = data (withVol (sampleMarket S (.zero 0)) "A" surface) x) (hs : md.spotDate = 0) :
    value fuel [(1, optionA K)] md = .ok (callPrice (.val 1) (.val S) (.val K) (.val (Real.sqrt w))) := by
  obtain ⟨f, hf, hf'⟩ := sample_forward_flat S 10
  have hF : md.forwardCurve equityA 10 = .ok f := by
    rw [← hf]
    refine forwardCurve_congr equityA 10 hs ?_
    intro x hx
    rw [hmd x, withVol_data, Function.update_of_ne]
    rintro rfl
    simp at hx
  have hV : md.volSurface equityA 10 (fun _ => .ok f) = .ok surface := by
    have : md.volSurfaces.get "A" = some surface := (hmd (.vol "A")).trans rfl
    unfold MarketData.volSurface find
    rw [show equityA.id = "A" from rfl, this, hs]
    dsimp only
    rw [ok_bind]
    have : VolTimeDynamics.modify equityA.volTimeDynamics surface 0 = .ok surface := by
      unfold VolTimeDynamics.modify
      rw [hbase]
      rfl
    rw [this, ok_bind]
    unfold VolForwardDynamics.modify
    rw [hfwd]
    simp
  unfold value
  rw [new_self_of (sample_new (c := collect md.spotDate [(1, optionA K)]) rfl rfl hF hV)]
  show SelfPricer.price fuel _ = _
  unfold SelfPricer.price
  dsimp only
  rw [priceLoop, hs]
  have hprice : (optionA K).price fuel (Prefetch.pricingContext ⟨md, collect 0 [(1, optionA K)], ⟨[("A", f)]⟩, ⟨[("A", surface)]⟩⟩) ⟨0, .open⟩ =
      .ok (callPrice (.val 1) (.val S) (.val K) (.val (Real.sqrt w))) := by
    unfold optionA
    rw [price_iff, Instrument.prices, vanillaPrices_cons]
    refine ⟨.zero 0, surface, .val K, .val S, .val 0, .val 0, ?_, rfl, ?_, Forward.zero_rt 0 10, hδ, ?_, .cons ?_ .nil⟩
    · show find "C" md.yieldCurves = _
      unfold find
      rw [show md.yieldCurves.get "C" = some (.zero 0) from (hmd (.yield "C")).trans rfl]
    · rw [show sampleTerms.expiry = ⟨10, .open⟩ from rfl]
      unfold equityA
      rw [Instrument.prices]
      unfold equityPrices
      dsimp only
      rw [if_neg (by rw [show (Prefetch.pricingContext _).spotDate = md.spotDate from rfl, hs]; decide)]
      show Bind.bind (Bind.bind (Except.ok f) _) _ = _
      simp only [ok_bind, each, hf' 10 le_rfl]
      rfl
    · simp only [num2, nlt]
      linarith
    · rw [vanillaValue_ok (by unfold notAfter rank; simp [sampleTerms])]
      refine ⟨.val 0, (0, 0), .val w, .val (Real.sqrt w), Forward.zero_rt 0 0, rfl, ?_, ?_, ?_⟩
      · rw [later_self_zero _ (by unfold before; simp)]
        exact hw
      · unfold optionSqrtVariance nonNegative nlt
        rw [if_neg (by linarith)]
        simp [nsqrt, hw0]
      · rw [show sampleTerms.putOrCall = .call from rfl]
        unfold formula
        simp only [num1, num2, sub_zero, add_zero]
        norm_num
  rw [hprice]
  cases callPrice (.val 1) (.val S) (.val K) (.val (Real.sqrt w)) <;> simp [ok_bind, priceLoop, num1, num2]

theorem volatile_value {md : MarketData} {surface : VolSurface} {S w : ℝ} (hS : 0 < S) (hbase : surface.baseDate = (0, 0))
    (hfwd : surface.forward = none) (hδ : surface.displacement 10 = .ok (.val 0))
    (hw : surface.forwardVariance fuel (0, 0) (10, 0) (.val 50) = .ok (.val w)) (hw0 : 0 < w)
    (hmd : ∀ x, data md x = data (withVol (sampleMarket S (.zero 0)) "A" surface) x) (hs : md.spotDate = 0) :
    value fuel [(1, optionA 50)] md = .ok (.val (black S 50 (Real.sqrt w))) := by
  rw [priced_value hS.le hbase hfwd hδ hw hw0.le hmd hs, call_black hS (by norm_num) (Real.sqrt_pos.2 hw0), one_mul]

/-- The volatility of a flat surface that has been bumped. -/
theorem flat_bumped {σ b : ℝ} (h : 0 < σ + b) :
    (VolSurface.parallelBump (.flat (.val σ) .everyDay (0, 0)) (.val b)).forwardVariance fuel (0, 0) (10, 0) (.val 50) =
      .ok (.val (2 / 73 * (σ + b) ^ 2)) := by
  have hy := everyDay_year 10
  norm_num at hy
  unfold VolSurface.forwardVariance VolSurface.forwardVariances
  rw [if_pos (by exact before_irrefl _)]
  unfold VolSurface.variances VolSurface.volatilities VolSurface.volatilities
  rw [hy]
  simp [ok_bind, nmax, num2, Vol.first, h.le, pure, Except.pure]
  ring

theorem flat_bumped_twice {σ b b' : ℝ} (h : 0 < σ + b) (h' : 0 < σ + b + b') :
    (VolSurface.parallelBump (.parallelBump (.flat (.val σ) .everyDay (0, 0)) (.val b)) (.val b')).forwardVariance fuel (0, 0) (10, 0) (.val 50) =
      .ok (.val (2 / 73 * (σ + b + b') ^ 2)) := by
  have hy := everyDay_year 10
  norm_num at hy
  unfold VolSurface.forwardVariance VolSurface.forwardVariances
  rw [if_pos (by exact before_irrefl _)]
  unfold VolSurface.variances VolSurface.volatilities VolSurface.volatilities VolSurface.volatilities
  rw [hy]
  simp [ok_bind, nmax, num2, Vol.first, h.le, pure, Except.pure]
  rw [max_eq_left h'.le]
  ring

/-- C45: the report on an option in a market with a flat volatility of 20 percent, for a bump of one percent. Some quadratic goes through the three
values. -/
example : ∃ p results p' vega volga, SelfPricer.new [(1, optionA 50)] (sampleMarket 100 (.zero 0)) = .ok p ∧
    generate (selfPricer fuel) (.vegaVolga (.flatAdditive (.val 0.01))) p .new (.val (black 100 50 (Real.sqrt (2 / 73 * 0.2 ^ 2)))) =
      (.ok (.vegaVolga (.val 0.01) results), p', .new) ∧ results.get "A" = some (.val vega, .val volga) := by
  have hv := volatile_value (fuel := fuel) (md := sampleMarket 100 (.zero 0)) (surface := .flat (.val 0.2) .everyDay (0, 0)) (S := 100)
    (w := 2 / 73 * 0.2 ^ 2) (by norm_num) rfl rfl rfl (by
      have hy := everyDay_year 10
      norm_num at hy
      rw [flat_forward]
      left
      exact ⟨before_irrefl _, 2 / 73, hy, by norm_num⟩) (by norm_num) (by
        intro y
        rw [withVol_data]
        exact (congrFun (update_same (x := .vol "A") rfl) y).symm) rfl
  obtain ⟨p, hp, hv⟩ := value_new hv
  have hd := (at_new hp).dependencies
  have hi : ∀ id, p.context.dependencies.instruments.get id ≠ none → id = "A" := by
    intro id h
    rw [hd] at h
    by_contra hne
    exact h (by
      show Map.get ⟨[("A", equityA)]⟩ id = none
      simp [Map.get, Ne.symm hne])
  have h1 := volatile_value (fuel := fuel) (md := withVol (sampleMarket 100 (.zero 0)) "A" (.parallelBump (.flat (.val 0.2) .everyDay (0, 0)) (.val 0.01)))
    (surface := .parallelBump (.flat (.val 0.2) .everyDay (0, 0)) (.val 0.01)) (S := 100) (by norm_num) rfl rfl rfl
    (flat_bumped (by norm_num)) (by norm_num) (fun _ => rfl) rfl
  have h2 := volatile_value (fuel := fuel)
    (md := withVol (sampleMarket 100 (.zero 0)) "A" (.parallelBump (.parallelBump (.flat (.val 0.2) .everyDay (0, 0)) (.val 0.01)) (.val (-2 * 0.01 / (1 + 0.01)))))
    (surface := .parallelBump (.parallelBump (.flat (.val 0.2) .everyDay (0, 0)) (.val 0.01)) (.val (-2 * 0.01 / (1 + 0.01)))) (S := 100) (by norm_num)
    rfl rfl rfl (flat_bumped_twice (by norm_num) (by norm_num)) (by norm_num) (fun _ => rfl) rfl
  generalize black 100 50 (Real.sqrt (2 / 73 * 0.2 ^ 2)) = c at hv ⊢
  generalize black 100 50 _ = u at h1
  generalize black 100 50 _ = d at h2
  obtain ⟨a, m, e1, e2⟩ : ∃ a m : ℝ, a * 0.01 ^ 2 + m * 0.01 + c = u ∧ a * (0.01 + -2 * 0.01 / (1 + 0.01)) ^ 2 + m * (0.01 + -2 * 0.01 / (1 + 0.01)) + c = d := by
    refine ⟨((u - c) / 0.01 - (d - c) / (0.01 + -2 * 0.01 / (1 + 0.01))) / (2 * 0.01 / (1 + 0.01)),
      (u - c) / 0.01 - ((u - c) / 0.01 - (d - c) / (0.01 + -2 * 0.01 / (1 + 0.01))) / (2 * 0.01 / (1 + 0.01)) * 0.01, ?_, ?_⟩ <;>
    · norm_num
      ring
  obtain ⟨results, p', g1, g2⟩ := C45_partial (b := 0.01) (c := c) (surface := fun _ => .flat (.val 0.2) .everyDay (0, 0)) (a := fun _ => a) (m := fun _ => m)
    hp (by
      intro id i hwm j h1 h2
      have e1 : (collect (sampleMarket 100 (.zero 0)).spotDate [(1, optionA 50)]).forwardCurves = ⟨[("A", equityA, 10)]⟩ := rfl
      have e2 : (collect (sampleMarket 100 (.zero 0)).spotDate [(1, optionA 50)]).instruments = ⟨[("A", equityA)]⟩ := rfl
      rw [e1] at h1
      rw [e2] at h2
      by_cases e : id = "A"
      · subst e
        have h1' : some (equityA, (10 : Int)) = some (i, hwm) := h1
        have h2' : some equityA = some j := h2
        cases h1'
        cases h2'
        rfl
      · rw [show Map.get ⟨[("A", equityA, (10 : Int))]⟩ id = none by simp [Map.get, Ne.symm e]] at h1
        cases h1) (by norm_num) (by norm_num) (by
      intro id h
      cases hi id h
      rw [hd]
      refine ⟨?_, ?_, rfl, by rw [h1, e1], by rw [h2, e2]⟩
      · rw [show (collect (sampleMarket 100 (.zero 0)).spotDate [(1, optionA 50)]).forwardCurves.get "A" = some (equityA, 10) from rfl]
        simp
      · rw [show (collect (sampleMarket 100 (.zero 0)).spotDate [(1, optionA 50)]).volSurfaces.get "A" = some (equityA, 10) from rfl]
        simp)
  refine ⟨p, results, p', _, _, hp, g1, (g2 "A").1 ?_⟩
  rw [hd, show (collect (sampleMarket 100 (.zero 0)).spotDate [(1, optionA 50)]).instruments.get "A" = some equityA from rfl]
  simp

/-! ### The violation -/

/-- A pricer of something worth as much as its volatility has been shifted by. Its save area is a previous state. -/
noncomputable def shiftPricer : Pricer ℝ ℝ where
  bump
    | .vol _ (.flatAdditive (.val x)), p, save => (.ok true, p + x, save.map fun _ => p)
    | _, p, save => (.ok false, p, save)
  restore _ s := s
  newSave := 0
  price p := .ok (.val p)
  ids _ := ["A"]
  spot _ _ := .error .err
  bumpTime _ p := (.ok (), p)

/-- C45 violated: for a value that is the shift itself and a bump of one vol point, whose derivatives are one and zero, the report gives a vega
of 100/101 and a volga of 200/101. The second bump, which is made as if the first had been relative (`bumpvol.rs:42-54`), does not
bring the shift to the opposite side. -/
theorem C45_false : generate shiftPricer (.vegaVolga (.flatAdditive (.val 0.01))) 0 0 (.val 0) =
    (.ok (.vegaVolga (.val 0.01) ⟨[("A", .val (100 / 101), .val (200 / 101))]⟩), 0, 0) := by
  rw [generate]
  have hids : shiftPricer.ids 0 = ["A"] := rfl
  have hu : upAndDown shiftPricer (.vol "A" (.flatAdditive (.val 0.01))) (.vol "A" (.flatAdditive (.val (-2 * 0.01 / (1 + 0.01))))) 0 0 (.val 0) =
      (.ok (.val (0 + 0.01), .val (0 + 0.01 + -2 * 0.01 / (1 + 0.01))), 0, 0) := rfl
  have hl : vegaVolgaLoop shiftPricer (.flatAdditive (.val 0.01)) (.val 0) (shiftPricer.ids 0) 0 0 .empty =
      (.ok ⟨[("A", .val (100 / 101), .val (200 / 101))]⟩, 0, 0) := by
    rw [hids, vegaVolgaLoop, opposite_flat (by norm_num), hu]
    dsimp only [BumpVol.bumpsize]
    rw [first_val (by norm_num), second_val (by norm_num), vegaVolgaLoop]
    norm_num [Map.insert, Map.empty]
  rw [hl]
  rfl

end QM.Risk
