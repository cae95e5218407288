import Verif.Instruments.OptionProps
import Verif.Vol.PanicProps

/-!
# Property C88, continued: pricing does not bring the program down
-/

namespace QM.Instruments
open QM.Interp QM.Vol QM.Fixings QM.Calendar Spec
open QM.Curves (RateCurve BumpYield)

variable {fuel : Nat}

/-! ## Curves -/

theorem linear_safe (x : ℝ) (ps : List (ℝ × ℝ)) (left right : Extrap) : interpolateNumbers x ps left right ≠ .error .panic := by
  have hs : ∀ (l r : ℝ × ℝ) x, linearInterpolate (K := ℝ) l r x ≠ .error .panic := by
    intro l r x
    unfold linearInterpolate
    simp only
    try split
    all_goals simp [pure, Except.pure]
  have he : ∀ (e : Extrap) (v : ℝ), e.extrapolate v ≠ .error .panic := by
    intro e v
    cases e <;> simp [Extrap.extrapolate]
  unfold interpolateNumbers
  dsimp only
  split
  · simp
  · split
    · simp
    · split
      · split
        · exact hs _ _ _
        · exact he _ _
      · split
        · split
          · exact hs _ _ _
          · exact he _ _
        · exact hs _ _ _

/-- Curves as the constructors make them: the zero curve, a curve through points at dates, and these bumped any number of
times. -/
inductive Made : RateCurve → Prop where
  | zero (base : Int) : Made (.zero base)
  | act365 {base : Int} {points : List (Int × ℝ)} {left right : Extrap} {c : RateCurve}
      (h : RateCurve.newAct365 base points left right = .ok c) : Made c
  | bumped {c : RateCurve} (h : Made c) (b : BumpYield) : Made (b.apply c)
  | relative {c : RateCurve} (h : Made c) (b : ℝ) : Made (.newRelativeBump c b)

theorem made_rAndT {c : RateCurve} (h : Made c) (d : Int) : c.rAndT d ≠ .error .panic := by
  induction h with
  | zero base => simp [RateCurve.rAndT]
  | @act365 base points left right c h =>
    obtain ⟨l, hl, h⟩ := bind_ok h
    have := pure_ok h
    subst this
    obtain ⟨_, _, hl⟩ := bind_ok hl
    have := pure_ok hl
    subst this
    simp only [RateCurve.rAndT]
    split
    · simp
    · refine bind_safe ?_ (fun _ _ => by simp [pure, Except.pure])
      unfold Linear.interpolate linearInterpolateExtrapolate
      have hn : numbers (points.map (fun p => ((.val (p.1 : ℝ) : Num ℝ), p.2))) = some (points.map (fun p => ((p.1 : ℝ), p.2))) := by
        have := numbers_lift (points.map (fun p => ((p.1 : ℝ), p.2)))
        simpa [lift, Function.comp_def] using this
      rw [hn]
      cases points with
      | nil => simp
      | cons p ps => exact linear_safe _ _ _ _
  | bumped _ b ih =>
    cases b with
    | flatAnnualised s => exact bind_safe ih (fun _ _ => by simp [pure, Except.pure])
    | flatContinuouslyCompounded s => exact bind_safe ih (fun _ _ => by simp [pure, Except.pure])
  | relative _ b ih => exact bind_safe ih (fun _ _ => by simp [pure, Except.pure])

/-- C88. A rate curve does not panic at any date, before, between or after its points, however it is bumped. -/
theorem C88_curves {c : RateCurve} (h : Made c) (d d' : Int) : c.rt d ≠ .error .panic ∧ c.df d d' ≠ .error .panic := by
  have hrt : ∀ d, c.rt d ≠ .error .panic := fun d => bind_safe (made_rAndT h d) (fun _ _ => by simp [pure, Except.pure])
  refine ⟨hrt d, ?_⟩
  unfold RateCurve.df
  split
  · simp
  · exact bind_safe (hrt d) (fun _ _ => bind_safe (hrt d') (fun _ _ => by simp [pure, Except.pure]))

/-- C88: a curve through two points, bumped twice. -/
example : ∃ c, RateCurve.newAct365 0 [(30, 0.01), (60, 0.02)] .flat .natural = .ok c ∧
    Made ((BumpYield.flatAnnualised 0.001).apply (.newRelativeBump c 1.1)) := by
  have h : ∃ c, RateCurve.newAct365 0 [(30, 0.01), (60, 0.02)] .flat .natural = .ok c := by
    refine ⟨.act365 0 ⟨.flat, .natural, [(.val ((30 : Int) : ℝ), 0.01), (.val ((60 : Int) : ℝ), 0.02)]⟩, ?_⟩
    have hv : validateAbscissae [((.val ((30 : Int) : ℝ) : Num ℝ), (0.01 : ℝ)), (.val ((60 : Int) : ℝ), 0.02)] = .ok () := by
      simp only [validateAbscissae, validateFrom, apart]
      norm_num
    unfold RateCurve.newAct365 Linear.new
    simp only [List.map_cons, List.map_nil]
    rw [hv]
    rfl
  obtain ⟨c, hc⟩ := h
  exact ⟨c, hc, .bumped (.relative (.act365 hc) _) _⟩

/-! ## Instruments -/

/-- Market data that give values or errors and do not panic: the curves, spots, forwards and surfaces of the context, and what is
asked of them. -/
structure Calm (fuel : Nat) (ctx : PricingContext) : Prop where
  yield : ∀ id d, ctx.yieldCurve id d ≠ .error .panic
  curve : ∀ id d yc, ctx.yieldCurve id d = .ok yc → Made yc
  spot : ∀ id, ctx.spot id ≠ .error .panic
  forwards : ∀ i d, ctx.forwardCurve i d ≠ .error .panic
  forward : ∀ i d fc, ctx.forwardCurve i d = .ok fc → ∀ t, fc.forward t ≠ .error .panic
  surfaces : ∀ i d f, f () ≠ .error .panic → ctx.volSurface i d f ≠ .error .panic
  displacement : ∀ i d f vol, ctx.volSurface i d f = .ok vol → ∀ t, vol.displacement t ≠ .error .panic
  variance : ∀ i d f vol, ctx.volSurface i d f = .ok vol → ∀ a b k, vol.forwardVariance fuel a b k ≠ .error .panic

theorem time_safe (i : Instrument) (t : DateTime) : i.timeToDayFraction t ≠ .error .panic := by
  cases i <;> simp [Instrument.timeToDayFraction]

theorem sqrt_safe (v : Num ℝ) : optionSqrtVariance v ≠ .error .panic := by
  classical
  unfold optionSqrtVariance nonNegative
  by_cases h : nlt v (.val 0)
  · rw [if_pos h]; simp
  · rw [if_neg h]; simp

theorem vanilla_safe {ctx : PricingContext} (hc : Calm fuel ctx) (v : Vanilla) (u : Instrument) (from_ : Point)
    {sf : Outcome (Num ℝ × Num ℝ)} (hsf : sf ≠ .error .panic) (dates : List DateTime) :
    vanillaPrices fuel ctx v u from_ sf dates ≠ .error .panic := by
  cases dates with
  | nil => simp [vanillaPrices]
  | cons d ds =>
    unfold vanillaPrices
    refine bind_safe (hc.yield _ _) (fun yc hyc => bind_safe (hc.surfaces _ _ _ (hc.forwards _ _)) (fun vol hvol =>
      bind_safe hsf (fun p _ => bind_safe (C88_curves (hc.curve _ _ _ hyc) _ 0).1 (fun rt _ =>
        bind_safe (hc.displacement _ _ _ _ hvol _) (fun disp _ => ?_)))))
    dsimp only
    split
    · simp
    · refine each_safe (fun t _ => ?_)
      unfold vanillaValue
      split
      · refine bind_safe (C88_curves (hc.curve _ _ _ hyc) _ 0).1 (fun _ _ => bind_safe (time_safe _ _) (fun _ _ =>
          bind_safe (hc.variance _ _ _ _ hvol _ _ _) (fun w _ => bind_safe (sqrt_safe w) (fun _ _ => ?_))))
        split <;> simp [pure, Except.pure]
      · simp [pure, Except.pure]

theorem equity_safe {ctx : PricingContext} (hc : Calm fuel ctx) (i : Instrument) (dates : List DateTime) :
    equityPrices ctx i dates ≠ .error .panic := by
  unfold equityPrices
  split
  · simp
  · split
    · exact bind_safe (hc.spot _) (fun _ _ => by simp [pure, Except.pure])
    · exact bind_safe (hc.forwards _ _) (fun fc hfc => each_safe (fun t _ => hc.forward _ _ _ hfc _))
  · exact bind_safe (hc.forwards _ _) (fun fc hfc => each_safe (fun t _ => hc.forward _ _ _ hfc _))

mutual
/-- C88. If the market data do not panic, no instrument panics when it is priced, whatever the dates and however deeply baskets
and options are nested. -/
theorem C88_prices {ctx : PricingContext} (hc : Calm fuel ctx) : ∀ (i : Instrument) (dates : List DateTime),
    i.prices fuel ctx dates ≠ .error .panic
  | .currency _ _, dates => by rw [Instrument.prices]; simp
  | .creditEntity _ _, dates => by rw [Instrument.prices]; simp
  | .equity _ _ _, dates => by rw [Instrument.prices]; exact equity_safe hc _ _
  | .zeroCoupon _ _ _ _ _, dates => by
    rw [Instrument.prices]
    refine bind_safe (hc.yield _ _) (fun yc hyc => each_safe (fun t _ => ?_))
    split
    · exact (C88_curves (hc.curve _ _ _ hyc) _ _).2
    · simp [pure, Except.pure]
  | .basket _ _ _ parts, dates => by
    rw [Instrument.prices]
    exact basket_safe hc parts dates _
  | .spotStarting v u k, dates => by
    rw [Instrument.prices]
    refine vanilla_safe hc v u _ (bind_safe (C88_prices hc u _) (fun values hv => bind_safe ?_ (fun _ _ => by simp [pure, Except.pure]))) dates
    have := prices_length u hv
    match values, this with
    | a :: _, _ => simp [only]
  | .forwardStarting v u k d t, dates => by
    rw [Instrument.prices]
    split
    · simp
    · refine vanilla_safe hc v u _ (bind_safe (C88_prices hc u _) (fun values hv => ?_)) dates
      have := prices_length u hv
      match values, this with
      | a :: b :: _, _ => simp [pair]

theorem basket_safe {ctx : PricingContext} (hc : Calm fuel ctx) : ∀ (parts : List (ℝ × Instrument)) (dates : List DateTime)
    (out : List (Num ℝ)), basketPrices fuel ctx parts dates out ≠ .error .panic
  | [], dates, out => by rw [basketPrices]; simp
  | (w, u) :: rest, dates, out => by
    rw [basketPrices]
    exact bind_safe (C88_prices hc u _) (fun temp _ => basket_safe hc rest dates _)
end

/-- C88. Nor does the price on one date. -/
theorem C88_price {ctx : PricingContext} (hc : Calm fuel ctx) (i : Instrument) (d : DateTime) :
    i.price fuel ctx d ≠ .error .panic := by
  refine bind_safe (C88_prices hc i _) (fun values hv => ?_)
  have := prices_length i hv
  match values, this with
  | a :: _, _ => simp [only]

/-- C88: a context with a flat volatility meets the hypotheses. -/
example : Calm fuel (flatContext (.flat (.val 0.2) .everyDay (0, 0))) := by
  have hy : ∀ t : Point, yearFraction (.everyDay : Cal ℝ) ((0, 0) : Point) t ≠ .error .panic := by
    intro t
    unfold yearFraction countBusinessDays
    split <;> simp [Bind.bind, Except.bind, pure, Except.pure]
  have hv : ∀ (t : Point) (ks : List (Num ℝ)),
      (VolSurface.flat (.val 0.2) .everyDay (0, 0)).variances fuel t ks ≠ .error .panic := by
    intro t ks
    exact (C88_variances fuel _ t ks (bind_safe (hy t) (fun _ _ => by simp [pure, Except.pure]))).1
  have hlen : ∀ (t : Point) (k : Num ℝ) vs, (VolSurface.flat (.val 0.2) .everyDay (0, 0)).variances fuel t [k] = .ok vs →
      vs.length = 1 := by
    intro t k vs h
    obtain ⟨⟨T, out⟩, h1, h2⟩ := bind_ok h
    have := pure_ok h2
    subst this
    obtain ⟨T', _, h1⟩ := bind_ok h1
    have := pure_ok h1
    cases this
    rfl
  refine ⟨by simp [flatContext], ?_, by simp [flatContext], by simp [flatContext], ?_, by simp [flatContext], ?_, ?_⟩
  · intro id d yc h
    cases h
    exact .zero 0
  · intro i d fc h t
    cases h
    simp
  · intro i d f vol h t
    cases h
    simp [VolSurface.displacement]
  · intro i d f vol h a b k
    cases h
    unfold VolSurface.forwardVariance VolSurface.forwardVariances
    split
    · refine bind_safe (hv _ _) (fun vs hvs => ?_)
      have := hlen _ _ _ hvs
      match vs, this with
      | a :: _, _ => simp [first]
    · simp only [VolSurface.forward]
      refine bind_safe (bind_safe (hv _ _) (fun _ _ => bind_safe (hv _ _) (fun _ _ => each_safe (fun v _ => ?_)))) (fun vs hvs => ?_)
      · classical
        unfold nonNegative
        split <;> simp
      · obtain ⟨v1, h1, hvs⟩ := bind_ok hvs
        obtain ⟨v2, h2, hvs⟩ := bind_ok hvs
        have e1 := hlen _ _ _ h1
        have e2 := hlen _ _ _ h2
        have e3 := each_length hvs
        rw [List.length_zipWith, e1, e2] at e3
        match vs, e3 with
        | a :: _, _ => simp [first]

/-- C88 violated: the price of an option that expires now, struck exactly at the spot, is a panic if its underlying has a
volatility surface with a cubic spline smile. -/
theorem C88_false : ∃ smile s, Smile.newCubicSpline [(.val 80, 0.2), (.val 120, 0.2)] = .ok smile ∧
    VolSurface.newByProbability (oneSpline smile) = .ok s ∧
    (Instrument.equity "A" "C" id).price fuel (flatContext s) ⟨0, .open⟩ = .ok (.val 100) ∧
    (Instrument.spotStarting ⟨"O", "C", id, ⟨0, .open⟩, .call, .cash, (0, 0), 0⟩ (.equity "A" "C" id) 100).price fuel
      (flatContext s) ⟨0, .open⟩ = .error .panic := by
  obtain ⟨smile, s, h1, h2, h3⟩ := C88_base_false fuel
  refine ⟨smile, s, h1, h2, by rw [price_iff, equity_flat], ?_⟩
  obtain ⟨ps, _, rfl⟩ := Vol.new_ok h2
  have hb : (VolSurface.byProbability (oneSpline smile) ps).baseDate = (0, 0) := rfl
  have hd : (VolSurface.byProbability (oneSpline smile) ps).displacement 0 = .ok (.val 0) := rfl
  have hfv : (VolSurface.byProbability (oneSpline smile) ps).forwardVariance fuel (0, 0) (0, 0) (.val 100) = .error .panic := by
    unfold VolSurface.forwardVariance VolSurface.forwardVariances VolSurface.variances
    rw [hb, if_pos (before_irrefl _), h3]
    rfl
  unfold Instrument.price
  rw [Instrument.prices, equity_flat]
  unfold vanillaPrices
  simp only [flatContext, ok_bind, only, pure, Except.pure, Forward.zero_rt, hd]
  rw [if_neg (by simp [num2, nlt])]
  simp only [each, vanillaValue]
  rw [if_pos (by unfold notAfter rank; simp)]
  simp only [Forward.zero_rt, ok_bind, Instrument.timeToDayFraction, dayFraction]
  rw [later_self_zero _ (before_irrefl _), hfv]
  rfl

end QM.Instruments
