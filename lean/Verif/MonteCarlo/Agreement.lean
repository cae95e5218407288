import Verif.MonteCarlo.Props

/-!
# Property C62: Monte-Carlo and self pricers agree where nothing is random
-/

namespace QM.MonteCarlo
open QM.Interp QM.Vol QM.Instruments QM.Market QM.Risk QM.Fixings QM.Curves Spec
open QM.Instruments.Spec (payoff)

variable {fuel : Nat} {f : ModelFactory} {md : MarketData} {draw : Draws} {p : MonteCarlo} {q : SelfPricer}

theorem still (n : Nat → Nat) (g : Nat → ℝ) : ∀ i, level (fun _ => 0) n g i = 1
  | 0 => rfl
  | i + 1 => by
    rw [level, still n g i, one_mul]
    apply Finset.prod_eq_one
    intro k _
    have : stepSize (fun _ => 0) n i = 0 := by
      unfold stepSize
      cases i <;> simp [Spec.before]
    rw [this]
    ring

theorem average_const {n : Nat} (hn : n ≠ 0) (x : ℝ) : average n (fun _ => x) = x := by
  unfold average
  rw [Finset.sum_const, Finset.card_range, nsmul_eq_mul]
  field_simp

/-- Both pricers of a portfolio keep the same prefetched market data. -/
theorem same_context {l : List (ℝ × Instrument)} (hp : MonteCarlo.new fuel f l md draw = .ok p) (hq : SelfPricer.new l md = .ok q) :
    p.model.context = q.context := by
  obtain ⟨t, c, _, hc, hb, _, _⟩ := new_ok hp
  rw [(new_self hq).2] at hc
  cases hc
  obtain ⟨_, _, _, _, _, _, _, _, _, e⟩ := model_new_ok hb
  rw [e]

/-- The number of paths of a pricer is not zero. -/
theorem paths_pos {l : List (ℝ × Instrument)} (hp : MonteCarlo.new fuel f l md draw = .ok p) : f.nPaths ≠ 0 := by
  obtain ⟨t, c, _, hc, hb, _, _⟩ := new_ok hp
  obtain ⟨_, _, _, _, _, _, _, _, h, _⟩ := model_new_ok hb
  exact h

/-- C62, for an option with the credit of its underlying that is not exactly at the money: without variance, whatever the draws,
the Monte-Carlo price is the price of the self pricer. What is missing, another credit, is false: `C62_false`. -/
theorem C62_partial {a K F D : ℝ} {v : Vanilla} {u : Instrument} {yc : RateCurve} {vol : VolSurface} {valDate : Point}
    (hp : MonteCarlo.new fuel f [(a, .spotStarting v u K)] md draw = .ok p)
    (hq : SelfPricer.new [(a, .spotStarting v u K)] md = .ok q) (hcredit : v.creditId = u.creditId)
    (hm : Spec.Market fuel q.context.pricingContext u [v.expiryTime] (fun _ => F) (fun _ => 0) (fun _ => 0))
    (hyc : q.context.pricingContext.yieldCurve u.creditId v.payDate = .ok yc)
    (hvol : q.context.pricingContext.volSurface u v.expiry.date (fun _ => q.context.pricingContext.forwardCurve u v.expiry.date) = .ok vol)
    (hq1 : Curves.Spec.Quotes yc v.payDate) (hq2 : Curves.Spec.Quotes yc (v.settlement q.context.context.spotDate))
    (hD : yc.df v.payDate (v.settlement q.context.context.spotDate) = .ok (.val D))
    (hF : u.price fuel q.context.pricingContext v.expiry = .ok (.val F))
    (hδ : vol.displacement v.expiry.date = .ok (.val 0)) (hd : notAfter ⟨q.context.context.spotDate, .open⟩ v.expiry)
    (ht : u.timeToDayFraction ⟨q.context.context.spotDate, .open⟩ = .ok valDate)
    (hw : vol.forwardVariance fuel (later (0, 0) valDate) v.expiryTime (.val K) = .ok (.val 0))
    (hF0 : 0 ≤ F) (hK : 0 ≤ K) (hne : F ≠ K) :
    p.price fuel = .ok (.val (a * (D * payoff v.putOrCall F K))) ∧ q.price fuel = p.price fuel := by
  have hc := same_context hp hq
  have h1 : p.price fuel = .ok (.val (a * (D * payoff v.putOrCall F K))) := by
    rw [C52_spot_partial hp (by rw [hc]; exact hm) (D := D) (by
      rw [hc, price_iff]
      unfold expiryFlow
      rw [Instrument.prices]
      unfold zeroCouponPrices
      rw [hcredit, hyc, ok_bind, each_iff]
      refine .cons ?_ .nil
      rw [if_pos hd]
      exact hD)]
    unfold pathValue
    simp only [still, mul_one, sub_zero, add_zero]
    rw [average_const (paths_pos hp), mul_comm D]
  refine ⟨h1, ?_⟩
  rw [h1]
  unfold SelfPricer.price
  rw [(new_self hq).1, priceLoop, C59_partial hyc hvol hq1 hq2 hD hF hδ hd ht hw hF0 hK hne, ok_bind, priceLoop]
  simp [num1, num2]

/-! ## A case -/

/-- The terms of an option with a credit of its own. -/
noncomputable def creditTerms (credit : String) : Vanilla := { sampleTerms with creditId := credit }

/-- A market without volatility, with a curve for another credit. -/
noncomputable def creditMarket (c : RateCurve) : MarketData := { calmMarket 100 with yieldCurves := ⟨[("C", .zero 0), ("B", c)]⟩ }

theorem credit_self (c : RateCurve) (credit : String) :
    ∃ q fw, SelfPricer.new [(1, .spotStarting (creditTerms credit) equityA 50)] (creditMarket c) = .ok q ∧ fw.forward 10 = .ok (.val 100) ∧
      q.context = ⟨creditMarket c, collect 0 [(1, .spotStarting (creditTerms credit) equityA 50)], ⟨[("A", fw)]⟩,
        ⟨[("A", .flat (.val 0) .everyDay (0, 0))]⟩⟩ := by
  obtain ⟨fw, h1, h2⟩ := sample_forward (md := creditMarket c) (S := 100) rfl rfl rfl rfl rfl rfl (Forward.zero_rt 0) (Forward.financing_zero 0 0) 10
  exact ⟨_, fw, new_self_of (sample_new (md := creditMarket c) (c := collect 0 [(1, .spotStarting (creditTerms credit) equityA 50)]) rfl rfl h1 rfl),
    by rw [h2 10 le_rfl]; norm_num, rfl⟩

theorem credit_market (md : MarketData) (c : Collector) {fw : Fwd} (hf : fw.forward 10 = .ok (.val 100)) :
    Spec.Market fuel (Prefetch.pricingContext ⟨md, c, ⟨[("A", fw)]⟩, ⟨[("A", .flat (.val 0) .everyDay (0, 0))]⟩⟩) equityA [((10, 0) : Point)]
      (fun _ => 100) (fun _ => 0) (fun _ => 0) := by
  refine ⟨(10, 0), fw, .flat (.val 0) .everyDay (0, 0), rfl, rfl, rfl, ?_⟩
  intro i pt hi
  have : pt = (10, 0) := by
    have := List.mem_of_getElem? hi
    simpa using this
  subst this
  refine ⟨hf, ?_, rfl⟩
  have hy := everyDay_year 10
  norm_num at hy
  have h2 := (flat_variances (fuel := fuel) (v := 0) (c := .everyDay) (base := (0, 0)) (t := (10, 0)) (ks := [.val 100])
    (out := [.val (0 ^ 2 * (2 / 73))])).2 ⟨2 / 73, hy, rfl⟩
  unfold VolSurface.variance
  rw [h2]
  show Except.ok _ = Except.ok _
  norm_num

theorem credit_monte (c : RateCurve) (credit : String) (hh : f.pathSubstep ≠ 0) (hn : f.nPaths ≠ 0) :
    ∃ p, MonteCarlo.new fuel f [(1, .spotStarting (creditTerms credit) equityA 50)] (creditMarket c) draw = .ok p := by
  obtain ⟨q, fw, hq, hf, hc⟩ := credit_self c credit
  have hcq := (new_self hq).2
  have hm := credit_market (fuel := fuel) (creditMarket c) (collect 0 [(1, .spotStarting (creditTerms credit) equityA 50)]) hf
  rw [← hc] at hm
  obtain ⟨m, hm⟩ := model_succeeds (fuel := fuel) (f := f) (t := ⟨⟨[("A", equityA, [(10, 0)])]⟩, [expiryFlow (creditTerms credit)]⟩) draw
    (k := "A") (u := equityA) (obs := [(10, 0)]) rfl hm (fun i _ => by cases i <;> simp [Spec.before]) hh hn
  refine ⟨⟨f, [(1, .spotStarting (creditTerms credit) equityA 50)], m⟩, ?_⟩
  unfold MonteCarlo.new
  rw [hcq]
  have ht : timeline [(1, .spotStarting (creditTerms credit) equityA 50)] .new =
      .ok ⟨⟨[("A", equityA, [(10, 0)])]⟩, [expiryFlow (creditTerms credit)]⟩ := timeline_spot 1 50 (creditTerms credit) equityA
  rw [ht, ok_bind, ok_bind, hm, ok_bind]
  rfl

theorem credit_forward (c : RateCurve) (k : Collector) {fw : Fwd} (hf : fw.forward 10 = .ok (.val 100)) (vs : Map String VolSurface) :
    equityA.price fuel (Prefetch.pricingContext ⟨creditMarket c, k, ⟨[("A", fw)]⟩, vs⟩) ⟨10, .open⟩ = .ok (.val 100) := by
  rw [price_iff]
  unfold equityA
  rw [Instrument.prices]
  unfold equityPrices
  dsimp only
  rw [if_neg (by show ¬ (10 : Int) = 0; decide)]
  have : (Prefetch.pricingContext ⟨creditMarket c, k, ⟨[("A", fw)]⟩, vs⟩).forwardCurve (.equity "A" "C" id) 10 = .ok fw := rfl
  rw [this]
  simp only [ok_bind, each, hf]
  rfl

theorem zero_df : (RateCurve.zero 0).df (10 : Int) 0 = .ok (.val 1) := by
  rw [Curves.df_eq (Forward.zero_rt 0 10) (Forward.zero_rt 0 0)]
  norm_num

theorem credit_variance : (VolSurface.flat (.val 0) .everyDay (0, 0)).forwardVariance fuel (later (0, 0) (0, 0)) (10, 0) (.val 50) = .ok (.val 0) := by
  rw [later_self_zero _ (by unfold Vol.before; simp), flat_forward]
  left
  have hy := everyDay_year 10
  norm_num at hy
  exact ⟨before_irrefl _, 2 / 73, hy, by norm_num⟩

theorem credit_priced (c : RateCurve) (credit : String) {fw : Fwd} (hf : fw.forward 10 = .ok (.val 100)) :
    (Instrument.spotStarting (creditTerms credit) equityA 50).price fuel (Prefetch.pricingContext ⟨creditMarket c,
      collect 0 [(1, .spotStarting (creditTerms credit) equityA 50)], ⟨[("A", fw)]⟩, ⟨[("A", .flat (.val 0) .everyDay (0, 0))]⟩⟩) ⟨0, .open⟩ =
      .ok (.val 50) := by
  have h := C59_partial (fuel := fuel) (ctx := Prefetch.pricingContext ⟨creditMarket c,
      collect 0 [(1, .spotStarting (creditTerms credit) equityA 50)], ⟨[("A", fw)]⟩, ⟨[("A", .flat (.val 0) .everyDay (0, 0))]⟩⟩)
    (v := creditTerms credit) (u := equityA) (K := 50) (d := ⟨0, .open⟩) (D := 1) (F := 100) (yc := .zero 0)
    (vol := .flat (.val 0) .everyDay (0, 0)) (valDate := (0, 0)) rfl rfl ⟨0, Forward.zero_rt 0 10⟩ ⟨0, Forward.zero_rt 0 0⟩ zero_df
    (credit_forward _ _ hf _) rfl (by unfold notAfter rank; simp [creditTerms, sampleTerms]) rfl credit_variance
    (by norm_num) (by norm_num) (by norm_num)
  rw [h, show (creditTerms credit).putOrCall = .call from rfl]
  norm_num [payoff]

/-- C62: an option with the credit of its underlying. -/
example (c : RateCurve) (hh : f.pathSubstep ≠ 0) (hn : f.nPaths ≠ 0) :
    ∃ p q, MonteCarlo.new fuel f [(1, .spotStarting (creditTerms "C") equityA 50)] (creditMarket c) draw = .ok p ∧
      SelfPricer.new [(1, .spotStarting (creditTerms "C") equityA 50)] (creditMarket c) = .ok q ∧
      p.price fuel = .ok (.val 50) ∧ q.price fuel = p.price fuel := by
  obtain ⟨p, hp⟩ := credit_monte (fuel := fuel) (draw := draw) c "C" hh hn
  obtain ⟨q, fw, hq, hf, hc⟩ := credit_self c "C"
  have h := C62_partial (D := 1) (F := 100) (yc := .zero 0) (vol := .flat (.val 0) .everyDay (0, 0)) (valDate := (0, 0)) hp hq rfl
    (by rw [hc]; exact credit_market _ _ hf) (by rw [hc]; rfl) (by rw [hc]; rfl) ⟨0, Forward.zero_rt 0 10⟩
    ⟨0, by rw [hc]; exact Forward.zero_rt 0 0⟩ (by rw [hc]; exact zero_df) (by rw [hc]; exact credit_forward _ _ hf _) rfl
    (by rw [hc]; unfold notAfter rank; simp [creditTerms, sampleTerms, creditMarket, calmMarket, withVol, sampleMarket]) (by rw [hc]; rfl) credit_variance
    (by norm_num) (by norm_num) (by norm_num)
  refine ⟨p, q, hp, hq, ?_, h.2⟩
  rw [h.1, show (creditTerms "C").putOrCall = .call from rfl]
  norm_num [payoff]

/-- C62 violated: an option whose credit is not that of its underlying. The self pricer discounts with the credit of the
underlying, `options.rs:102`, and the Monte-Carlo pricer with that of the option, `options.rs:496`. Without any variance one
says 50 and the other less. -/
theorem C62_false (hh : f.pathSubstep ≠ 0) (hn : f.nPaths ≠ 0) :
    ∃ c p q x, MonteCarlo.new fuel f [(1, .spotStarting (creditTerms "B") equityA 50)] (creditMarket c) draw = .ok p ∧
      SelfPricer.new [(1, .spotStarting (creditTerms "B") equityA 50)] (creditMarket c) = .ok q ∧
      q.price fuel = .ok (.val 50) ∧ p.price fuel = .ok (.val x) ∧ x < 50 := by
  obtain ⟨c, _, _, _, hr⟩ := flat_curve (-1) 0 0.05
  obtain ⟨p, hp⟩ := credit_monte (fuel := fuel) (draw := draw) c "B" hh hn
  obtain ⟨q, fw, hq, hf, hc⟩ := credit_self c "B"
  have hrt := rt_of_rAndT (hr 10 (by norm_num))
  have hrt0 := rt_of_rAndT (hr 0 (by norm_num))
  refine ⟨c, p, q, _, hp, hq, ?_, C52_spot_partial hp (F := fun _ => 100) (w := fun _ => 0) (δ := fun _ => 0)
    (D := Real.exp (0.05 * Curves.Spec.years (-1) 0 - 0.05 * Curves.Spec.years (-1) 10))
    (by rw [same_context hp hq, hc]; exact credit_market _ _ hf) ?_, ?_⟩
  · unfold SelfPricer.price
    rw [(new_self hq).1, priceLoop, hc]
    have := credit_priced (fuel := fuel) c "B" hf
    rw [show (creditMarket c).spotDate = 0 from rfl, this, ok_bind, priceLoop]
    norm_num [num1, num2]
  · rw [same_context hp hq, hc, price_iff]
    unfold expiryFlow
    rw [Instrument.prices]
    unfold zeroCouponPrices
    have hy : (Prefetch.pricingContext ⟨creditMarket c, collect 0 [(1, .spotStarting (creditTerms "B") equityA 50)], ⟨[("A", fw)]⟩,
        ⟨[("A", .flat (.val 0) .everyDay (0, 0))]⟩⟩).yieldCurve (creditTerms "B").creditId (creditTerms "B").payDate = .ok c := rfl
    rw [hy, ok_bind, each_iff]
    refine .cons ?_ .nil
    rw [if_pos (by unfold notAfter rank; simp [creditTerms, sampleTerms, creditMarket, calmMarket, withVol, sampleMarket])]
    show c.df 10 0 = _
    rw [Curves.df_eq hrt hrt0]
  · unfold pathValue
    simp only [still, mul_one, sub_zero, add_zero]
    rw [average_const (paths_pos hp), show (creditTerms "B").putOrCall = .call from rfl]
    have : Real.exp (0.05 * Curves.Spec.years (-1) 0 - 0.05 * Curves.Spec.years (-1) 10) < 1 := by
      rw [Real.exp_lt_one_iff]
      unfold Curves.Spec.years
      norm_num
    simp only [payoff]
    norm_num at this ⊢
    linarith

end QM.MonteCarlo
