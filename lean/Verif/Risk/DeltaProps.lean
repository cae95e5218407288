import Verif.Risk.DeltaLemmas

/-!
# Property C44: the figures of delta reports
-/

namespace QM.Risk
open QM.Interp QM.Vol QM.Instruments QM.Instruments.Spec QM.Market QM.Market.Spec QM.Risk.Spec

variable {fuel : Nat} {instruments : List (ℝ × Instrument)} {md : MarketData} {p p' : SelfPricer} {s' : SavedPrefetch}

/-! ## C44 -/

/-- The report lists the underlyings of the dependencies, and nothing else. -/
theorem C44_covers {b : ℝ} {size v : Num ℝ} {results : Map String (Num ℝ × Num ℝ)}
    (h : generate (selfPricer fuel) (.deltaGamma b) p .new v = (.ok (.deltaGamma size results), p', s')) (id : String) :
    results.get id ≠ none ↔ p.context.dependencies.instruments.get id ≠ none := by
  rw [generate] at h
  generalize hr : deltaGammaLoop (selfPricer fuel) b v ((selfPricer fuel).ids p) p .new .empty = l at h
  obtain ⟨l, p1, s1⟩ := l
  cases l with
  | error e => cases h
  | ok m =>
    cases h
    rw [delta_loop] at hr
    obtain ⟨_, _, h3, h4, _⟩ := figuresLoop_ok (fun q => Same q p) (fun _ _ => True) (by
      intro id q x q' s'' hq hs
      obtain ⟨_, _, _, _, h2, _⟩ := deltaStep_ok hs
      obtain ⟨g1, g2, _⟩ := upAndDown_same (show Simple (.spot id (.relative b)) from trivial) (by rfl) h2
      exact ⟨g2.trans hq, g1, trivial⟩) _ (.refl p) hr
    rw [← keys_get p.context.dependencies.instruments]
    by_cases hm : id ∈ (selfPricer fuel).ids p
    · obtain ⟨x, hx, _⟩ := h3 id hm
      exact ⟨fun _ => hm, fun _ => by rw [hx]; simp⟩
    · rw [h4 id hm]
      exact ⟨fun h => absurd rfl h, fun h => absurd h hm⟩

/-- C44 for one underlying: if the report succeeds and the value is quadratic in the spot, the report gives the derivatives. The value is what a
pricer freshly built on the market with another spot says; it only needs to be quadratic between the bumped spots. -/
theorem C44_figures_partial {b S a m c : ℝ} {id : String} {size v : Num ℝ} {results : Map String (Num ℝ × Num ℝ)}
    (hp : SelfPricer.new instruments md = .ok p) (hu : Unambiguous (collect md.spotDate instruments)) (hv : p.price fuel = .ok v)
    (h : generate (selfPricer fuel) (.deltaGamma b) p .new v = (.ok (.deltaGamma size results), p', s'))
    (hid : p.context.dependencies.instruments.get id ≠ none) (hS : md.spots.get id = some S) (hS0 : S ≠ 0) (hb0 : b ≠ 0) (hb : b ≠ -1)
    (hq : ∀ x, |x - S| ≤ |b * S| → value fuel instruments (withSpot md id x) = .ok (.val (a * x ^ 2 + m * x + c))) :
    results.get id = some (.val (2 * a * S + m), .val (2 * a)) := by
  have ha := at_new hp
  rw [generate] at h
  generalize hr : deltaGammaLoop (selfPricer fuel) b v ((selfPricer fuel).ids p) p .new .empty = l at h
  obtain ⟨l, p1, s1⟩ := l
  cases l with
  | error e => cases h
  | ok r =>
    cases h
    rw [delta_loop] at hr
    obtain ⟨_, _, h3, _⟩ := figuresLoop_ok (fun q => Same q p)
      (fun i x => i = id → x = (.val (2 * a * S + m), .val (2 * a))) (by
      intro i q x q' s'' hq' hs
      obtain ⟨_, _, _, _, h2, _⟩ := deltaStep_ok hs
      obtain ⟨g1, g2, _⟩ := upAndDown_same (show Simple (.spot i (.relative b)) from trivial) (by rfl) h2
      refine ⟨g2.trans hq', g1, ?_⟩
      rintro rfl
      exact delta_figures (ha.same hq') hu hS hS0 hb0 hb ((hq'.price fuel).trans hv) hq hs) _ (.refl p) hr
    obtain ⟨x, hx, hx'⟩ := h3 id ((keys_get _ _).2 hid)
    rw [hx, hx' rfl]

/-- C44 when every underlying has its forward among the dependencies: the report succeeds, and for each underlying in whose spot the value is
quadratic it gives the derivatives. What is missing, underlyings whose forward nobody asks for, is false: `C44_false`. -/
theorem C44_partial {b : ℝ} {S a m c : String → ℝ} (hp : SelfPricer.new instruments md = .ok p)
    (hu : Unambiguous (collect md.spotDate instruments)) (hb0 : b ≠ 0) (hb : b ≠ -1)
    (hf : ∀ id, p.context.dependencies.instruments.get id ≠ none → p.context.dependencies.forwardCurves.get id ≠ none ∧
      md.spots.get id = some (S id) ∧ S id ≠ 0 ∧
      ∀ x, |x - S id| ≤ |b * S id| → value fuel instruments (withSpot md id x) = .ok (.val (a id * x ^ 2 + m id * x + c id)))
    {v : Num ℝ} (hv : p.price fuel = .ok v) :
    ∃ results p', generate (selfPricer fuel) (.deltaGamma b) p .new v = (.ok (.deltaGamma (.val b) results), p', .new) ∧
      ∀ id, (p.context.dependencies.instruments.get id ≠ none → results.get id = some (.val (2 * a id * S id + m id), .val (2 * a id))) ∧
        (p.context.dependencies.instruments.get id = none → results.get id = none) := by
  have ha := at_new hp
  have hs : ∃ results p', figuresLoop (deltaStep (selfPricer fuel) b v) ((selfPricer fuel).ids p) p .new .empty = (.ok results, p', .new) := by
    refine figuresLoop_succeeds (fun q => Same q p) _ ?_ p _ (.refl p)
    intro id hid q hq
    have hid' := (keys_get _ _).1 hid
    obtain ⟨f1, f2, f3, f4⟩ := hf id hid'
    obtain ⟨x, q', s', h⟩ := delta_succeeds (v := v) (ha.same hq) hu f2 hb (ha.dependencies ▸ hid') (ha.dependencies ▸ f1)
      (f4 _ (by rw [show S id * (1 + b) - S id = b * S id by ring])) (f4 _ (by rw [show S id * (1 - b) - S id = -(b * S id) by ring, abs_neg]))
    obtain ⟨_, _, _, _, h2, _⟩ := deltaStep_ok h
    obtain ⟨g1, g2, _⟩ := upAndDown_same (show Simple (.spot id (.relative b)) from trivial) (by rfl) h2
    subst g1
    exact ⟨x, q', h, g2.trans hq⟩
  obtain ⟨results, p', hs⟩ := hs
  have hg : generate (selfPricer fuel) (.deltaGamma b) p .new v = (.ok (.deltaGamma (.val b) results), p', .new) := by
    rw [generate, delta_loop, hs]
  refine ⟨results, p', hg, fun id => ⟨?_, ?_⟩⟩
  · intro hid
    obtain ⟨_, f2, f3, f4⟩ := hf id hid
    exact C44_figures_partial hp hu hv hg hid f2 f3 hb0 hb f4
  · intro hid
    by_contra hne
    exact (C44_covers hg id).1 hne hid

/-- C44 for any portfolio whose value before and after the bumps is a number, with no assumption on how it depends on the spots: the report
succeeds, and its figures are the central differences of the value around the spot. -/
theorem C44_differences_partial {b v : ℝ} {S u d : String → ℝ} (hp : SelfPricer.new instruments md = .ok p)
    (hu : Unambiguous (collect md.spotDate instruments)) (hb0 : b ≠ 0) (hb : b ≠ -1)
    (hf : ∀ id, p.context.dependencies.instruments.get id ≠ none → p.context.dependencies.forwardCurves.get id ≠ none ∧
      md.spots.get id = some (S id) ∧ S id ≠ 0 ∧ value fuel instruments (withSpot md id (S id * (1 + b))) = .ok (.val (u id)) ∧
      value fuel instruments (withSpot md id (S id * (1 - b))) = .ok (.val (d id))) :
    ∃ results p', generate (selfPricer fuel) (.deltaGamma b) p .new (.val v) = (.ok (.deltaGamma (.val b) results), p', .new) ∧
      ∀ id, (p.context.dependencies.instruments.get id ≠ none →
          results.get id = some (.val ((u id - d id) / (2 * (b * S id))), .val ((u id + d id - 2 * v) / (b * S id) ^ 2))) ∧
        (p.context.dependencies.instruments.get id = none → results.get id = none) := by
  have ha := at_new hp
  have hs : ∃ results p', figuresLoop (deltaStep (selfPricer fuel) b (.val v)) ((selfPricer fuel).ids p) p .new .empty = (.ok results, p', .new) := by
    refine figuresLoop_succeeds (fun q => Same q p) _ ?_ p _ (.refl p)
    intro id hid q hq
    have hid' := (keys_get _ _).1 hid
    obtain ⟨f1, f2, f3, f4, f5⟩ := hf id hid'
    obtain ⟨x, q', s', h⟩ := delta_succeeds (v := .val v) (ha.same hq) hu f2 hb (ha.dependencies ▸ hid') (ha.dependencies ▸ f1) f4 f5
    obtain ⟨_, _, _, _, h2, _⟩ := deltaStep_ok h
    obtain ⟨g1, g2, _⟩ := upAndDown_same (show Simple (.spot id (.relative b)) from trivial) (by rfl) h2
    subst g1
    exact ⟨x, q', h, g2.trans hq⟩
  obtain ⟨results, p', hs⟩ := hs
  have hg : generate (selfPricer fuel) (.deltaGamma b) p .new (.val v) = (.ok (.deltaGamma (.val b) results), p', .new) := by
    rw [generate, delta_loop, hs]
  refine ⟨results, p', hg, fun id => ⟨?_, ?_⟩⟩
  · intro hid
    obtain ⟨f1, f2, f3, f4, f5⟩ := hf id hid
    have hh : b * S id ≠ 0 := mul_ne_zero hb0 f3
    obtain ⟨_, _, h3, _⟩ := figuresLoop_ok (fun q => Same q p) (fun i x => i = id →
        x = (.val ((u id - d id) / (2 * (b * S id))), .val ((u id + d id - 2 * v) / (b * S id) ^ 2))) (by
      intro i q x q' s'' hq' hst
      obtain ⟨_, _, _, _, k, _⟩ := deltaStep_ok hst
      obtain ⟨g1, g2, _⟩ := upAndDown_same (show Simple (.spot i (.relative b)) from trivial) (by rfl) k
      refine ⟨g2.trans hq', g1, ?_⟩
      rintro rfl
      subst g1
      rw [delta_differences (ha.same hq') hu f2 hb f4 f5 hst, first_val hh, second_val hh]) _ (.refl p) hs
    obtain ⟨x, hx, hx'⟩ := h3 id ((keys_get _ _).2 hid)
    rw [hx, hx' rfl]
  · intro hid
    by_contra hne
    exact (C44_covers hg id).1 hne hid

/-- C44: an underlying that does not affect the value has no delta and no gamma. -/
theorem C44_unaffected_partial {b S c : ℝ} {id : String} {size v : Num ℝ} {results : Map String (Num ℝ × Num ℝ)}
    (hp : SelfPricer.new instruments md = .ok p) (hu : Unambiguous (collect md.spotDate instruments)) (hv : p.price fuel = .ok v)
    (h : generate (selfPricer fuel) (.deltaGamma b) p .new v = (.ok (.deltaGamma size results), p', s'))
    (hid : p.context.dependencies.instruments.get id ≠ none) (hS : md.spots.get id = some S) (hS0 : S ≠ 0) (hb0 : b ≠ 0) (hb : b ≠ -1)
    (hq : ∀ x, value fuel instruments (withSpot md id x) = .ok (.val c)) : results.get id = some (.val 0, .val 0) := by
  have := C44_figures_partial (a := 0) (m := 0) (c := c) hp hu hv h hid hS hS0 hb0 hb (fun x _ => by rw [hq x]; simp)
  simpa using this

/-! ### A case -/

/-- A market without rates or volatility. -/
noncomputable def calmMarket (spot : ℝ) : MarketData := withVol (sampleMarket spot (.zero 0)) "A" (.flat (.val 0) .everyDay (0, 0))

theorem calm_new {md : MarketData} {S : ℝ} {c : Collector} (hc : c.forwardCurves.entries = [("A", equityA, 10)])
    (hv : (c.volSurfaces.get "A").map Prod.snd = some 10) (hmd : ∀ x, data md x = data (calmMarket S) x) (hs : md.spotDate = 0) :
    ∃ f, Prefetch.new md c = .ok ⟨md, c, ⟨[("A", f)]⟩, ⟨[("A", .flat (.val 0) .everyDay (0, 0))]⟩⟩ ∧ f.forward 10 = .ok (.val S) := by
  obtain ⟨f, hf, hf'⟩ := sample_forward_flat S 10
  refine ⟨f, sample_new hc hv ?_ ?_, hf' 10 le_rfl⟩
  · rw [← hf]
    refine forwardCurve_congr equityA 10 hs ?_
    intro x hx
    rw [hmd x]
    unfold calmMarket
    rw [withVol_data, Function.update_of_ne]
    rintro rfl
    simp at hx
  · have : md.volSurfaces.get "A" = some (.flat (.val 0) .everyDay (0, 0)) := (hmd (.vol "A")).trans rfl
    unfold MarketData.volSurface find
    rw [show equityA.id = "A" from rfl, this, hs]
    rfl

theorem calm_price {ctx : PricingContext} {S : ℝ} {f : Fwd} (hsd : ctx.spotDate = 0) (hS : 50 < S) (hy : ∀ d, ctx.yieldCurve "C" d = .ok (.zero 0))
    (hf : ∀ d, ctx.forwardCurve equityA d = .ok f) (hf' : f.forward 10 = .ok (.val S))
    (hv : ∀ d g, ctx.volSurface equityA d g = .ok (.flat (.val 0) .everyDay (0, 0))) :
    (optionA 50).price fuel ctx ⟨0, .open⟩ = .ok (.val (S - 50)) := by
  have h := C59_partial (fuel := fuel) (ctx := ctx) (v := sampleTerms) (u := equityA) (K := 50) (F := S) (D := 1) (yc := .zero 0)
    (vol := .flat (.val 0) .everyDay (0, 0)) (valDate := (0, 0)) (d := ⟨0, .open⟩) (hy _) (hv _ _) ⟨0, Forward.zero_rt 0 10⟩ ⟨0, Forward.zero_rt 0 0⟩
    (by
      rw [show sampleTerms.payDate = 10 from rfl, show sampleTerms.settlement 0 = 0 from rfl]
      rw [Curves.df_eq (Forward.zero_rt 0 10) (Forward.zero_rt 0 0)]
      norm_num)
    (by
      rw [price_iff, show sampleTerms.expiry = ⟨10, .open⟩ from rfl]
      unfold equityA
      rw [Instrument.prices]
      unfold equityPrices
      dsimp only
      rw [if_neg (by rw [hsd]; decide)]
      have := hf 10
      unfold equityA at this
      rw [this]
      simp only [ok_bind, each, hf']
      rfl)
    rfl (by unfold notAfter rank; simp [sampleTerms]) rfl (by
      rw [later_self_zero _ (by unfold before; simp)]
      rw [flat_forward]
      left
      have hy := everyDay_year 10
      norm_num at hy
      exact ⟨before_irrefl _, 2 / 73, hy, by norm_num⟩) (by linarith) (by norm_num) (by linarith)
  unfold optionA
  rw [h]
  unfold payoff
  rw [show sampleTerms.putOrCall = .call from rfl]
  dsimp only
  rw [max_eq_left (by linarith)]
  norm_num

/-- One option, in a market without rates or volatility, is worth the spot less the strike. -/
theorem calm_value {md : MarketData} {S : ℝ} (hS : 50 < S) (hmd : ∀ x, data md x = data (calmMarket S) x) (hs : md.spotDate = 0) :
    value fuel [(1, optionA 50)] md = .ok (.val (S - 50)) := by
  unfold value
  obtain ⟨f, h1, h2⟩ := calm_new (md := md) (c := collect md.spotDate [(1, optionA 50)]) rfl rfl hmd hs
  rw [new_self_of h1]
  show SelfPricer.price fuel _ = _
  unfold SelfPricer.price
  dsimp only
  rw [priceLoop, hs]
  rw [calm_price (f := f) (S := S) hs hS (by
    intro d
    show find "C" md.yieldCurves = _
    unfold find
    rw [show md.yieldCurves.get "C" = some (.zero 0) from (hmd (.yield "C")).trans rfl]) (fun d => rfl) h2 (fun _ _ => rfl)]
  simp [ok_bind, priceLoop, num1, num2]

/-- C44: the delta of that option is one and its gamma zero, for a spot of 100 and bumps of one percent. -/
example : ∃ p results p', SelfPricer.new [(1, optionA 50)] (calmMarket 100) = .ok p ∧
    generate (selfPricer fuel) (.deltaGamma 0.01) p .new (.val 50) = (.ok (.deltaGamma (.val 0.01) results), p', .new) ∧
    results.get "A" = some (.val 1, .val 0) := by
  obtain ⟨p, hp, hv⟩ := value_new (calm_value (fuel := fuel) (md := calmMarket 100) (S := 100) (by norm_num) (fun _ => rfl) rfl)
  have hd := (at_new hp).dependencies
  have hi : ∀ id, p.context.dependencies.instruments.get id ≠ none → id = "A" := by
    intro id h
    rw [hd] at h
    by_contra hne
    exact h (by
      show Map.get ⟨[("A", equityA)]⟩ id = none
      simp [Map.get, Ne.symm hne])
  rw [show (100 : ℝ) - 50 = 50 by norm_num] at hv
  obtain ⟨results, p', h1, h2⟩ := C44_partial (b := 0.01) (S := fun _ => 100) (a := fun _ => 0) (m := fun _ => 1) (c := fun _ => -50) hp (by
      intro id i hwm j h1 h2
      have e1 : (collect (calmMarket 100).spotDate [(1, optionA 50)]).forwardCurves = ⟨[("A", equityA, 10)]⟩ := rfl
      have e2 : (collect (calmMarket 100).spotDate [(1, optionA 50)]).instruments = ⟨[("A", equityA)]⟩ := rfl
      rw [e1] at h1
      rw [e2] at h2
      by_cases e : id = "A"
      · subst e
        have h1' : some (equityA, (10 : Int)) = some (i, hwm) := h1
        have h2' : some equityA = some j := h2
        cases h1'
        cases h2'
        rfl
      · rw [show Map.get ⟨[("A", equityA, (10 : Int))]⟩ id = none by simp [Map.get, Ne.symm e]] at h1
        cases h1) (by norm_num) (by norm_num) (by
      intro id h
      cases hi id h
      rw [hd]
      refine ⟨by rw [show (collect (calmMarket 100).spotDate [(1, optionA 50)]).forwardCurves.get "A" = some (equityA, 10) from rfl]; simp, rfl,
        by norm_num, ?_⟩
      intro x hx
      have : 50 < x := by
        have := (abs_le.1 hx).1
        have h2 : |(0.01 : ℝ) * 100| = 1 := by norm_num
        rw [h2] at this
        linarith
      rw [calm_value this (S := x) (by
        intro y
        rw [withSpot_data]
        by_cases e : y = .spot "A"
        · subst e; rw [Function.update_self]; rfl
        · rw [Function.update_of_ne e]
          cases y <;> first | rfl | skip
          rename_i id
          show Map.get ⟨[("A", (100 : ℝ))]⟩ id = Map.get ⟨[("A", x)]⟩ id
          have : id ≠ "A" := fun h => e (by rw [h])
          simp [Map.get, Ne.symm this]) rfl]
      congr 2
      ring) hv
  refine ⟨p, results, p', hp, h1, ?_⟩
  have := (h2 "A").1 (by rw [hd, show (collect (calmMarket 100).spotDate [(1, optionA 50)]).instruments.get "A" = some equityA from rfl]; simp)
  rw [this]
  norm_num

/-- C44 violated: a portfolio that holds one share is worth its spot, but the report on it is an error, because nobody asked for the forward of
the share, which the bump of the spot wants to renew. -/
theorem C44_false : ∃ p, SelfPricer.new [(1, equityA)] (sampleMarket 100 (.zero 0)) = .ok p ∧
    (∀ x, value fuel [(1, equityA)] (withSpot (sampleMarket 100 (.zero 0)) "A" x) = .ok (.val x)) ∧
    ∀ b, (generate (selfPricer fuel) (.deltaGamma b) p .new (.val 100)).1 = .error .err := by
  refine ⟨_, rfl, ?_, ?_⟩
  · intro x
    have : value fuel [(1, equityA)] (withSpot (sampleMarket 100 (.zero 0)) "A" x) = .ok (.val (0 + 1 * x)) := rfl
    rw [this]
    norm_num
  · intro b
    rw [generate]
    rfl

/-- C44 for a spot of zero: the figures are not numbers. -/
theorem C44_zero_spot {b : ℝ} {id : String} {size v : Num ℝ} {results : Map String (Num ℝ × Num ℝ)}
    (hp : SelfPricer.new instruments md = .ok p)
    (h : generate (selfPricer fuel) (.deltaGamma b) p .new v = (.ok (.deltaGamma size results), p', s'))
    (hid : p.context.dependencies.instruments.get id ≠ none) (hS : md.spots.get id = some 0) : results.get id = some (.nan, .nan) := by
  have ha := at_new hp
  rw [generate] at h
  generalize hr : deltaGammaLoop (selfPricer fuel) b v ((selfPricer fuel).ids p) p .new .empty = l at h
  obtain ⟨l, p1, s1⟩ := l
  cases l with
  | error e => cases h
  | ok r =>
    cases h
    rw [delta_loop] at hr
    obtain ⟨_, _, h3, _⟩ := figuresLoop_ok (fun q => Same q p) (fun i x => i = id → x = (.nan, .nan)) (by
      intro i q x q' s'' hq' hs
      obtain ⟨spot, u, d, h1, h2, e⟩ := deltaStep_ok hs
      obtain ⟨g1, g2, _⟩ := upAndDown_same (show Simple (.spot i (.relative b)) from trivial) (by rfl) h2
      refine ⟨g2.trans hq', g1, ?_⟩
      rintro rfl
      rw [(ha.same hq').spot (f := data md) (S := (0 : ℝ)) hS] at h1
      cases h1
      rw [e]
      have z : ∀ y, ndiv y (.val 0) = .nan := by
        intro y
        cases y with
        | nan => rfl
        | val y => simp [ndiv]
      unfold first second
      simp [num1, z]) _ (.refl p) hr
    obtain ⟨x, hx, hx'⟩ := h3 id ((keys_get _ _).2 hid)
    rw [hx, hx' rfl]

end QM.Risk
