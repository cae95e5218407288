import Verif.Risk.RatesLemmas
import Verif.Risk.OrderProps
import Verif.Curves.MixProps

/-!
# Property C111: a curve matters only through its rates
-/

namespace QM.Risk
open QM.Interp QM.Curves QM.Curves.Spec QM.Dividends QM.Forward QM.Vol QM.Fixings QM.Instruments QM.Instruments.Spec QM.Market QM.Market.Spec QM.Risk.Spec

variable {fuel : Nat} {instruments : List (ℝ × Instrument)} {md md' : MarketData} {p q q' : SelfPricer}

/-! ## Prices and reports -/

/-- C111. In markets that differ only in how their curves are made, a portfolio has the same price, or fails in the same way. -/
theorem C111_price (h : SameMarket md md') : value fuel instruments md = value fuel instruments md' := by
  unfold value
  refine both_eq (both_bind (self_new_same h instruments) (fun p q hpq => ?_))
  rw [self_price_same hpq]
  exact both_self _

/-- C111. So are all the reports that can be asked for, of any instrument with any past fixings, nested to any depth. -/
theorem C111_reports (h : SameMarket md md') (i : Instrument) (table : FixingTable ℝ) (reports : List Generator) :
    calculate (selfPricer fuel) (selfPricerFactory i table md) reports = calculate (selfPricer fuel) (selfPricerFactory i table md') reports := by
  refine calculate_matched self_bisimilar ?_ reports
  unfold selfPricerFactory
  refine both_bind (both_self _) ?_
  rintro o _ rfl
  cases o with
  | none => exact self_new_same h _
  | some l => exact self_new_same h _

/-- C111. Discount factors say everything: two curves that quote nothing on some common day, as on their base date, have the same rates exactly
when they have the same discount factors. -/
theorem C111_discounts {c c' : RateCurve} {b : Int} (h : c.rt b = .ok (.val 0)) (h' : c'.rt b = .ok (.val 0)) :
    SameRates c c' ↔ SameDiscounts c c' := by
  constructor
  · exact fun hs x y => df_same hs x y
  · intro hs d
    by_cases hd : d = b
    · rw [hd, h, h']
    · have := hs d b
      unfold RateCurve.df at this
      rw [if_neg hd, if_neg hd, h, h'] at this
      cases hx : c.rt d with
      | error e =>
        rw [hx] at this
        cases hy : c'.rt d with
        | error e' => rw [hy] at this; exact this
        | ok y => rw [hy] at this; exact absurd this (by simp [Bind.bind, Except.bind, pure, Except.pure])
      | ok x =>
        rw [hx] at this
        cases hy : c'.rt d with
        | error e' => rw [hy] at this; exact absurd this (by simp [Bind.bind, Except.bind, pure, Except.pure])
        | ok y =>
          rw [hy] at this
          cases x <;> cases y <;> simp [Bind.bind, Except.bind, pure, Except.pure] at this ⊢
          exact this

/-! ## Bumps -/

/-- Two bumps of a curve by continuously compounded amounts are one bump by their sum. -/
theorem flat_twice (c : RateCurve) (a b : ℝ) :
    SameRates ((BumpYield.flatContinuouslyCompounded b).apply ((BumpYield.flatContinuouslyCompounded a).apply c))
      ((BumpYield.flatContinuouslyCompounded (a + b)).apply c) := by
  intro d
  simp only [BumpYield.apply, RateCurve.newContinuouslyCompoundedFlatBump, RateCurve.rt, RateCurve.rAndT]
  cases c.rAndT d with
  | error e => rfl
  | ok x =>
    obtain ⟨r, t⟩ := x
    cases r <;> simp [onNum, Bind.bind, Except.bind, pure, Except.pure, add_assoc]

theorem bump_twice (md : MarketData) (id : String) (a b : ℝ) (B : String → BumpYield → Bump) (hB : B = .yield ∨ B = .borrow) :
    SameMarket (changed md [B id (.flatContinuouslyCompounded a), B id (.flatContinuouslyCompounded b)])
      (changed md [B id (.flatContinuouslyCompounded (a + b))]) := by
  have key : ∀ m : Map String RateCurve, Entrywise SameRates
      (applyBump id (BumpYield.flatContinuouslyCompounded b).apply
        (applyBump id (BumpYield.flatContinuouslyCompounded a).apply m none).2.1 none).2.1
      (applyBump id (BumpYield.flatContinuouslyCompounded (a + b)).apply m none).2.1 := by
    intro m
    unfold applyBump
    cases hm : m.get id with
    | none =>
      dsimp only
      rw [hm]
      exact entrywise_refl sameRates_refl m
    | some c =>
      dsimp only
      rw [Map.get_insert_self]
      dsimp only
      intro k
      by_cases hk : k = id
      · subst hk
        rw [Map.get_insert_self, Map.get_insert_self]
        exact flat_twice c a b
      · rw [Map.get_insert_ne _ _ hk, Map.get_insert_ne _ _ hk, Map.get_insert_ne _ _ hk]
        exact entrywise_refl sameRates_refl m k
  rcases hB with rfl | rfl
  · exact ⟨rfl, rfl, rfl, key md.yieldCurves, entrywise_refl sameRates_refl _, entrywise_refl sameStream_refl _⟩
  · exact ⟨rfl, rfl, rfl, entrywise_refl sameRates_refl _, key md.borrowCurves, entrywise_refl sameStream_refl _⟩

/-- C111. Raising a yield curve or a borrow curve twice by continuously compounded amounts changes prices and reports as raising it once by the sum does. -/
theorem C111_twice (md : MarketData) (id : String) (a b : ℝ) (B : String → BumpYield → Bump) (hB : B = .yield ∨ B = .borrow) :
    value fuel instruments (changed md [B id (.flatContinuouslyCompounded a), B id (.flatContinuouslyCompounded b)]) =
      value fuel instruments (changed md [B id (.flatContinuouslyCompounded (a + b))]) ∧
    ∀ i table reports,
      calculate (selfPricer fuel) (selfPricerFactory i table (changed md [B id (.flatContinuouslyCompounded a), B id (.flatContinuouslyCompounded b)])) reports =
        calculate (selfPricer fuel) (selfPricerFactory i table (changed md [B id (.flatContinuouslyCompounded (a + b))])) reports :=
  ⟨C111_price (bump_twice md id a b B hB), fun i table reports => C111_reports (bump_twice md id a b B hB) i table reports⟩

/-- C111. The same when the changes are made to a pricer. -/
theorem C111_bumped (ho : OwnNames instruments) (hp : SelfPricer.new instruments md = .ok p) (id : String) (a b : ℝ)
    (B : String → BumpYield → Bump) (hB : B = .yield ∨ B = .borrow)
    (hq : Applied p [B id (.flatContinuouslyCompounded a), B id (.flatContinuouslyCompounded b)] q)
    (hq' : Applied p [B id (.flatContinuouslyCompounded (a + b))] q') : q.price fuel = q'.price fuel := by
  have ht : ∀ x, (target (B id x)).isSome := by rcases hB with rfl | rfl <;> exact fun _ => rfl
  obtain ⟨r, h1, h2, _⟩ := C110_market (fuel := fuel) ho hp (by simp [ht]) hq
  obtain ⟨r', h1', h2', _⟩ := C110_market (fuel := fuel) ho hp (by simp [ht]) hq'
  have := self_new_same (bump_twice md id a b B hB) instruments
  rw [h1, h1'] at this
  rw [h2, h2', self_price_same this]

/-- C111. Quoting every rate of a yield curve higher by some amount changes prices and reports as bumping the curve by that amount does, unless a side of
the curve is extrapolated as zero. -/
theorem C111_quoted_partial {base : Int} {points : List (Int × ℝ)} {left right : Extrap} {c c' : RateCurve} (id : String) (b : ℝ) (hl : left ≠ .zero)
    (hr : right ≠ .zero) (h : RateCurve.newAct365 base points left right = .ok c)
    (h' : RateCurve.newAct365 base (points.map fun p => (p.1, p.2 + b)) left right = .ok c') (hc : md.yieldCurves.get id = some c) :
    value fuel instruments { md with yieldCurves := md.yieldCurves.insert id c' } =
      value fuel instruments (changed md [.yield id (.flatContinuouslyCompounded b)]) ∧
    ∀ i table reports,
      calculate (selfPricer fuel) (selfPricerFactory i table { md with yieldCurves := md.yieldCurves.insert id c' }) reports =
        calculate (selfPricer fuel) (selfPricerFactory i table (changed md [.yield id (.flatContinuouslyCompounded b)])) reports := by
  have hs : SameMarket { md with yieldCurves := md.yieldCurves.insert id c' } (changed md [.yield id (.flatContinuouslyCompounded b)]) := by
    refine ⟨rfl, rfl, rfl, ?_, entrywise_refl sameRates_refl _, entrywise_refl sameStream_refl _⟩
    show Entrywise SameRates (md.yieldCurves.insert id c') (applyBump id (BumpYield.flatContinuouslyCompounded b).apply md.yieldCurves none).2.1
    unfold applyBump
    rw [hc]
    refine entrywise_insert (entrywise_refl sameRates_refl _) ?_ id
    obtain ⟨c'', e, hd⟩ := C102_rates_partial b hl hr h
    rw [h'] at e
    cases e
    obtain ⟨A, _, rfl⟩ := newAct365_ok h
    obtain ⟨A', _, rfl⟩ := newAct365_ok h'
    refine (C111_discounts (b := base) ?_ ?_).2 hd <;>
      simp [BumpYield.apply, RateCurve.newContinuouslyCompoundedFlatBump, RateCurve.rt, RateCurve.rAndT, onNum, Bind.bind, Except.bind, pure, Except.pure]
  exact ⟨C111_price hs, fun i table reports => C111_reports hs i table reports⟩

/-! ## Dividend yields -/

/-- A market with a dividend of 1 on day 5 and some dividend yield. -/
noncomputable def yieldingMarket (y : RateCurve) : MarketData :=
  { sampleMarket 100 (.zero 0) with dividends := ⟨[("A", .new [⟨1, 0, 5, 5⟩] y)]⟩ }

/-- C111 violated by dividend yields: a yield of zero and one made by bumping it by zero have the same rates, but with dividends after the base date of
the yield the forward exists only for the first. -/
theorem C111_zero_false : SameRates (.zero 0) ((BumpYield.flatContinuouslyCompounded 0).apply (.zero 0)) ∧
    (∃ f, (yieldingMarket (.zero 0)).forwardCurve equityA 10 = .ok f) ∧
    (yieldingMarket ((BumpYield.flatContinuouslyCompounded 0).apply (.zero 0))).forwardCurve equityA 10 = .error .err := by
  refine ⟨?_, ?_, ?_⟩
  · intro d
    simp [BumpYield.apply, RateCurve.newContinuouslyCompoundedFlatBump, RateCurve.rt, RateCurve.rAndT, onNum, Bind.bind, Except.bind, pure, Except.pure]
  · have hz : ∀ d, logDiscountWithBorrow (.zero 0) (.zero 0) d = .ok 0 := by
      intro d
      simp [logDiscountWithBorrow, RateCurve.rt, RateCurve.rAndT, onNum, number, Bind.bind, Except.bind, pure, Except.pure]
    have hd : ∀ x d, discountWithBorrow (.zero 0) (.zero 0) x d = .ok (Real.exp (0 - x)) := by
      intro x d
      simp [discountWithBorrow, hz, Bind.bind, Except.bind, pure, Except.pure]
    simp [yieldingMarket, sampleMarket, MarketData.forwardCurve, MarketData.equityForward, find, Map.get, equityA, Instrument.id, Instrument.creditId,
      Instrument.settlement, EquityForward.new, hz, hd, bootstrapStream, Bootstrap.new, DividendStream.new, RateCurve.isZero, bootstrapDiscount,
      bootstrapLoop, addDividend, Bind.bind, Except.bind, pure, Except.pure]
  · have hz : ∀ d, logDiscountWithBorrow (.zero 0) (.zero 0) d = .ok 0 := by
      intro d
      simp [logDiscountWithBorrow, RateCurve.rt, RateCurve.rAndT, onNum, number, Bind.bind, Except.bind, pure, Except.pure]
    have hd : ∀ x d, discountWithBorrow (.zero 0) (.zero 0) x d = .ok (Real.exp (0 - x)) := by
      intro x d
      simp [discountWithBorrow, hz, Bind.bind, Except.bind, pure, Except.pure]
    simp [yieldingMarket, sampleMarket, MarketData.forwardCurve, MarketData.equityForward, find, Map.get, equityA, Instrument.id, Instrument.creditId,
      Instrument.settlement, EquityForward.new, hz, hd, bootstrapStream, Bootstrap.new, DividendStream.new, RateCurve.isZero, RateCurve.baseDate,
      BumpYield.apply, RateCurve.newContinuouslyCompoundedFlatBump, Bind.bind, Except.bind, pure, Except.pure]

/-! ## A case -/

/-- A yield curve of zero, and one that is raised by 1% and lowered again, make the same market. -/
theorem same_markets : SameMarket (sampleMarket 100 (.zero 0))
    (sampleMarket 100 ((BumpYield.flatContinuouslyCompounded (-0.01)).apply ((BumpYield.flatContinuouslyCompounded 0.01).apply (.zero 0)))) := by
  refine ⟨rfl, rfl, rfl, ?_, entrywise_refl sameRates_refl _, entrywise_refl sameStream_refl _⟩
  refine entrywise_insert (m := ⟨[]⟩) (m' := ⟨[]⟩) (entrywise_refl sameRates_refl _) ?_ "C"
  intro d
  rw [flat_twice (.zero 0) 0.01 (-0.01) d]
  simp [BumpYield.apply, RateCurve.newContinuouslyCompoundedFlatBump, RateCurve.rt, RateCurve.rAndT, onNum, Bind.bind, Except.bind, pure, Except.pure]

/-- C111: a call that is worth the same number in both. -/
example : ∃ x, value fuel [(1, euro .call sampleTerms "A" "C" _root_.id 90)] (sampleMarket 100 (.zero 0)) = .ok (.val x) ∧
    value fuel [(1, euro .call sampleTerms "A" "C" _root_.id 90)]
      (sampleMarket 100 ((BumpYield.flatContinuouslyCompounded (-0.01)).apply ((BumpYield.flatContinuouslyCompounded 0.01).apply (.zero 0)))) = .ok (.val x) := by
  have h := setting_value (sample_setting (fuel := fuel) 0.2 100 90) 1 .call (s := 100) (by norm_num) (by norm_num) (by norm_num)
  have e : withSpot (withVol (sampleMarket 100 (.zero 0)) "A" (.flat (.val 0.2) .everyDay (0, 0))) "A" 100 = sampleMarket 100 (.zero 0) := by
    simp [withSpot, withVol, sampleMarket, Map.insert]
  rw [e] at h
  exact ⟨_, h, (C111_price same_markets).symm.trans h⟩

end QM.Risk
