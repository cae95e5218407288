{
 "claims": [
  {
   "property": "C01",
   "status": "proved",
   "theorems": [
    "QM.Dates.C01_date_roundtrip",
    "QM.Dates.C01_ymd_roundtrip"
   ],
   "note": ""
  },
  {
   "property": "C02",
   "status": "proved",
   "theorems": [
    "QM.Dates.C02_ymd_is_day",
    "QM.Dates.C02_next_day",
    "QM.Dates.C02_add_days",
    "QM.Dates.C02_anchor"
   ],
   "note": ""
  },
  {
   "property": "C03",
   "status": "proved",
   "theorems": [
    "QM.Dates.C03_order",
    "QM.Dates.C03_difference"
   ],
   "note": ""
  },
  {
   "property": "C04",
   "status": "proved",
   "theorems": [
    "QM.Dates.C04_panics_iff_invalid",
    "QM.Dates.C04_range",
    "QM.Dates.C04_cycle",
    "QM.Dates.C04_calendar_weekday_after",
    "QM.Dates.C04_calendar_weekday_before",
    "QM.Dates.C04_valid_days"
   ],
   "note": ""
  },
  {
   "property": "C05",
   "status": "partial",
   "theorems": [
    "QM.Dates.C05_parse_display",
    "QM.Dates.C05_format",
    "QM.Dates.C05_debug",
    "QM.Dates.C05_debug_false",
    "QM.Dates.C05_negative_years",
    "QM.Dates.C05_display_injective",
    "QM.Dates.C05_only_valid",
    "QM.Dates.C05_iso_text",
    "QM.Dates.C05_no_panic_false",
    "QM.Dates.C05_overflow_false",
    "QM.Dates.C05_no_panic_partial",
    "QM.Dates.C05_not_numbers",
    "QM.Dates.C05_numbers"
   ],
   "note": "Round trip, injectivity and rejection hold for all valid dates, and C05_format gives the digits of the text. The no-panic part is false in the code: text with fewer than three parts panics, a huge year overflows (panic in debug, wrong date in release), and debug printing an invalid date panics; witnesses C05_no_panic_false, C05_overflow_false, C05_debug_false."
  },
  {
   "property": "C06",
   "status": "proved",
   "theorems": [
    "QM.Dates.C06_ymd_no_overflow",
    "QM.Dates.C06_from_ymd_no_overflow"
   ],
   "note": ""
  },
  {
   "property": "C07",
   "status": "partial",
   "theorems": [
    "QM.Calendar.C07_step_lands_on_business_day_partial",
    "QM.Calendar.C07_step_defined",
    "QM.Calendar.C07_is_holiday",
    "QM.Calendar.C07_volatility_step_false",
    "QM.Calendar.C07_search",
    "QM.Calendar.C07_unsorted_false"
   ],
   "note": "Proved for every calendar that steps in whole business days. Volatility calendars with a holiday weight step onto and stay on holidays: C07_volatility_step_false."
  },
  {
   "property": "C08",
   "status": "partial",
   "theorems": [
    "QM.Calendar.C08_step_is_single_steps_partial",
    "QM.Calendar.C08_step_spec_partial",
    "QM.Calendar.C08_volatility_step_false"
   ],
   "note": "Proved (both as an equivalence with repeated API calls and against the day-by-day specification) except for volatility calendars with a holiday weight: C08_volatility_step_false."
  },
  {
   "property": "C09",
   "status": "partial",
   "theorems": [
    "QM.Calendar.C09_zero_step_nearest_partial",
    "QM.Calendar.C09_volatility_zero_step_false"
   ],
   "note": "Proved except for volatility calendars with a holiday weight: C09_volatility_zero_step_false."
  },
  {
   "property": "C10",
   "status": "partial",
   "theorems": [
    "QM.Calendar.C10_count_is_sum_of_day_weights_partial",
    "QM.Calendar.C10_count_by_business_days",
    "QM.Calendar.C10_counts_add",
    "QM.Calendar.C10_wrong_order",
    "QM.Calendar.C10_count_defined",
    "QM.Calendar.C10_nested_volatility_false"
   ],
   "note": "Proved for all calendars in terms of business days, and in terms of day_weight except for volatility calendars that decorate volatility calendars, where day_weight and the count disagree: C10_nested_volatility_false. Additivity holds for all."
  },
  {
   "property": "C11",
   "status": "partial",
   "theorems": [
    "QM.Calendar.C11_count_undoes_step_partial",
    "QM.Calendar.C11_volatility_false"
   ],
   "note": "Proved except for volatility calendars with a holiday weight, where the step rounds: C11_volatility_false."
  },
  {
   "property": "C12",
   "status": "partial",
   "theorems": [
    "QM.Calendar.C12_step_back_partial",
    "QM.Calendar.C12_step_strict_mono_partial",
    "QM.Calendar.C12_volatility_false"
   ],
   "note": "Proved except for volatility calendars with a holiday weight: C12_volatility_false."
  },
  {
   "property": "C13",
   "status": "partial",
   "theorems": [
    "QM.Calendar.C13_modified_following_partial",
    "QM.Calendar.C13_stays_in_month_partial",
    "QM.Calendar.C13_long_gap_false",
    "QM.Calendar.C13_idempotent_partial",
    "QM.Calendar.C13_month_iff_partial",
    "QM.Calendar.C13_monotone_partial",
    "QM.Calendar.C13_order_false"
   ],
   "note": "C13_month_iff_partial says exactly when the result is in the month of the input; proved to be so when the month has a business day and the next business day is less than 300 days away; the code compares month numbers only, so a gap of most of a year breaks it: C13_long_gap_false."
  },
  {
   "property": "C14",
   "status": "proved",
   "theorems": [
    "QM.Calendar.C14_mixture",
    "QM.Calendar.C14_nonneg",
    "QM.Calendar.C14_additive",
    "QM.Calendar.C14_monotone",
    "QM.Calendar.C14_business_day_adds_one",
    "QM.Calendar.C14_same_day_backwards"
   ],
   "note": ""
  },
  {
   "property": "C15",
   "status": "proved",
   "theorems": [
    "QM.Interp.C15_pillar",
    "QM.Interp.C15_between",
    "QM.Interp.C15_bounds",
    "QM.Interp.C15_search"
   ],
   "note": "C15_search proves that the binary chop of the standard library answers the contract the model uses."
  },
  {
   "property": "C16",
   "status": "partial",
   "theorems": [
    "QM.Interp.C16_accepted_iff",
    "QM.Interp.C16_refusal_is_error",
    "QM.Interp.C16_nan_refused_partial",
    "QM.Interp.C16_in_range_succeeds",
    "QM.Interp.C16_nan_pillar_false"
   ],
   "note": "Proved for lists of ordinary numbers and for two or more points containing a NaN; a single point with a NaN abscissa is accepted and every query then panics: C16_nan_pillar_false."
  },
  {
   "property": "C17",
   "status": "partial",
   "theorems": [
    "QM.Interp.C17_left",
    "QM.Interp.C17_right_partial",
    "QM.Interp.C17_single",
    "QM.Interp.C17_flyweight",
    "QM.Interp.C17_right_false",
    "QM.Interp.C17_right_flat_false",
    "QM.Interp.C17_spline_left",
    "QM.Interp.C17_spline_right_partial",
    "QM.Interp.C17_spline_right_false"
   ],
   "note": "The left side is proved for all choices. The right side is proved when both or neither side is Natural; otherwise the code asks the left choice whether to continue on the right: C17_right_false, C17_right_flat_false, C17_spline_right_false."
  },
  {
   "property": "C18",
   "status": "partial",
   "theorems": [
    "QM.Interp.C18_line",
    "QM.Interp.C18_line_outside",
    "QM.Interp.C18_constant_false",
    "QM.Interp.C18_construction_partial",
    "QM.Interp.C18_refused",
    "QM.Interp.C18_pillar",
    "QM.Interp.C18_in_range_succeeds",
    "QM.Interp.C18_smooth_partial",
    "QM.Interp.C18_smooth_later",
    "QM.Interp.C18_right_natural",
    "QM.Interp.C18_left_natural",
    "QM.Interp.C18_right_clamped_partial",
    "QM.Interp.C18_single_point_false",
    "QM.Interp.C18_left_end_false"
   ],
   "note": "Pillars, in-range success, right end and natural left end are proved, and twice differentiability in the interior when the left side is Natural (and from the second pillar on otherwise). False in the code: a single point panics (C18_single_point_false), and a left choice other than Natural leaves a kink at the second pillar and a non-zero end slope (C18_left_end_false), and makes a spline through equal values bulge above them (C18_constant_false). With a Natural left side a spline through points on a line is that line (C18_line, and C18_line_outside beyond the ends)."
  },
  {
   "property": "C19",
   "status": "partial",
   "theorems": [
    "QM.Root.C19_numbers",
    "QM.Root.C19_last",
    "QM.Root.C19_nan_false",
    "QM.Root.C19_nan_partial",
    "QM.Root.C19_result",
    "QM.Root.C19_evaluations",
    "QM.Root.C19_error_passed_on",
    "QM.Root.C19_same_sign_refused",
    "QM.Root.C19_end_is_root",
    "QM.Root.C19_root_near",
    "QM.Root.C19_in_interval_partial",
    "QM.Root.C19_outside_interval_false",
    "QM.Root.C19_sufficient",
    "QM.Root.C19_near_partial"
   ],
   "note": "Root or sign change within the tolerance, evaluation count, error passing, refusal of same signs and exact end roots are proved for every function; a true root near the result for continuous functions. The search succeeds for every function once it is allowed (k+3)^2 iterations for an interval of 2^k tolerances (C19_sufficient), and never goes further from the interval than four times its width (C19_near_partial). The result can leave the interval because of the bound written at line 73: C19_outside_interval_false. Functions that answer NaN are modelled separately: C19_numbers shows that the two searches agree on numbers, and C19_nan_false that a NaN at one end is taken for a change of sign."
  },
  {
   "property": "C20",
   "status": "proved",
   "theorems": [
    "QM.Curves.C20_same_date",
    "QM.Curves.C20_positive",
    "QM.Curves.C20_compose",
    "QM.Curves.C20_inverse"
   ],
   "note": ""
  },
  {
   "property": "C21",
   "status": "partial",
   "theorems": [
    "QM.Curves.C21_zero_continuous",
    "QM.Curves.C21_zero_annualised",
    "QM.Curves.C21_compose_continuous",
    "QM.Curves.C21_compose_annualised",
    "QM.Curves.C21_annualised_effect",
    "QM.Curves.C21_relative_partial",
    "QM.Curves.C21_relative_false",
    "QM.Curves.C21_bump_annualised",
    "QM.Curves.C21_bump_continuous"
   ],
   "note": "Zero bumps, composition of flat bumps and the effect of annualised bumps are proved for every curve. RelativeBump::new stores the bump itself instead of one plus the bump: C21_relative_false."
  },
  {
   "property": "C22",
   "status": "proved",
   "theorems": [
    "QM.Fixings.C22_built_iff",
    "QM.Fixings.C22_supplied",
    "QM.Fixings.C22_not_supplied"
   ],
   "note": ""
  },
  {
   "property": "C23",
   "status": "partial",
   "theorems": [
    "QM.Fixings.C23_other_ids_partial",
    "QM.Fixings.C23_insert",
    "QM.Fixings.C23_refused_insert_false"
   ],
   "note": "Other instruments are unaffected; the instrument itself has its fixings replaced although the insert is refused: C23_refused_insert_false."
  },
  {
   "property": "C24",
   "status": "partial",
   "theorems": [
    "QM.Dividends.C24_from_base_partial",
    "QM.Dividends.C24_between_partial",
    "QM.Dividends.C24_adjacent",
    "QM.Dividends.C24_adjacent_discounted",
    "QM.Dividends.C24_base_date_false",
    "QM.Dividends.C24_search"
   ],
   "note": "Proved for streams in ex-date order with no dividend on the base date; adjacent totals add up for every bootstrap. A dividend on the base date is counted when a later dividend exists: C24_base_date_false."
  },
  {
   "property": "C25",
   "status": "partial",
   "theorems": [
    "QM.Dividends.C25_none_left_partial",
    "QM.Dividends.C25_nan",
    "QM.Dividends.C25_remaining_false"
   ],
   "note": "The walk backwards subtracts the old value of the field it writes, which is NaN; so the answer is NaN whenever a dividend remains (C25_nan, C25_remaining_false) and right only when none remains (C25_none_left_partial)."
  },
  {
   "property": "C26",
   "status": "proved",
   "theorems": [
    "QM.Forward.C26_line",
    "QM.Forward.C26_spot",
    "QM.Forward.C26_horizon",
    "QM.Forward.C26_growth_and_drop",
    "QM.Forward.C26_growth",
    "QM.Forward.C26_cash_drop",
    "QM.Forward.C26_remains",
    "QM.Forward.C26_drop"
   ],
   "note": "C26_remains is the whole forward for dividends of both kinds on different dates, and C26_drop the drop across one of them; C26_growth_and_drop covers any number, also on one date. The settlement rule is an arbitrary total function."
  },
  {
   "property": "C27",
   "status": "partial",
   "theorems": [
    "QM.Forward.C27_yield_effect_partial",
    "QM.Forward.C27_not_raised_partial",
    "QM.Forward.C27_raises_false"
   ],
   "note": "The yield enters with the wrong sign: C27_raises_false. What holds is that the forward is multiplied by exp(+accrued yield): C27_yield_effect_partial."
  },
  {
   "property": "C28",
   "status": "partial",
   "theorems": [
    "QM.Dividends.C28_explicit",
    "QM.Dividends.C28_zero_explicit",
    "QM.Dividends.C28_last_cash",
    "QM.Dividends.C28_totals",
    "QM.Dividends.C28_yield_partial",
    "QM.Dividends.C28_yield_false"
   ],
   "note": "Proved for explicit dividends and for totals of cash streams. The yield is multiplied by the bump instead of one plus the bump: C28_yield_false."
  },
  {
   "property": "C29",
   "status": "proved",
   "theorems": [
    "QM.Vol.C29_variance",
    "QM.Vol.C29_adjacent",
    "QM.Vol.C29_nonneg",
    "QM.Vol.C29_never_refused",
    "QM.Vol.C29_spot"
   ],
   "note": "Variance, additivity of forward variances over adjacent intervals, non-negativity, no spurious refusal and the spot case, for calendars that satisfy their documented requirements. Exact reals."
  },
  {
   "property": "C30",
   "status": "partial",
   "theorems": [
    "QM.Vol.C30_difference_partial",
    "QM.Vol.C30_forward_zero",
    "QM.Vol.C30_forward_false",
    "QM.Vol.C30_onePillar_skewless",
    "QM.Vol.C30_smile_partial",
    "QM.Vol.C30_smile_time"
   ],
   "note": "Proved for surfaces without a forward curve. With a forward curve the claim is false: C30_forward_zero shows that every forward variance of a skewless surface is zero, C30_forward_false is a concrete surface (both at-the-money variances are taken at the from date, volsurface.rs:144-145). C30_smile_time says which moment the smile date is given: the time of day of the later moment."
  },
  {
   "property": "C31",
   "status": "partial",
   "theorems": [
    "QM.Vol.C31_falls_false",
    "QM.Vol.C31_pillar",
    "QM.Vol.C31_between",
    "QM.Vol.C31_within",
    "QM.Vol.C31_calendar",
    "QM.Vol.C31_outside",
    "QM.Vol.C31_same_time_false",
    "QM.Vol.C31_search",
    "QM.Vol.C31_built_iff",
    "QM.Vol.C31_refused"
   ],
   "note": "Pillar dates, the straight line in time at fixed normalised strike, bounds and monotonicity between the same two pillars, and extrapolation are proved for results that are numbers. Violated when two pillars have the same volatility time: C31_same_time_false gives NaN without an error. Violated off the money on pillar dates: C31_falls_false gives an accepted surface whose variance at a strike falls from one pillar date to the next without an error. C31_refused: a surface whose pillar variances fall is refused with an error. Infinities are not modelled."
  },
  {
   "property": "C32",
   "status": "partial",
   "theorems": [
    "QM.Vol.C32_nonneg",
    "QM.Vol.C32_zero_parallel",
    "QM.Vol.C32_zero_time_partial",
    "QM.Vol.C32_zero_time_false",
    "QM.Vol.C32_replace",
    "QM.Vol.C32_size",
    "QM.Vol.C32_size_time"
   ],
   "note": "Non-negativity under any nesting, parallel zero bumps, replacement and the size of parallel and time-scaled bumps are proved. A zero time-scaled bump with a zero floor changes the volatility at time zero: C32_zero_time_false."
  },
  {
   "property": "C33",
   "status": "partial",
   "theorems": [
    "QM.Market.C33_spot",
    "QM.Vol.C33_vol_partial",
    "QM.Vol.C33_vol_iff",
    "QM.Vol.C33_vol_false",
    "QM.Vol.C33_time_partial"
   ],
   "note": "The spot half is proved. For volatilities the opposite bump is off by 2b^2/(1+b): C33_vol_false, C33_vol_iff shows it is right for b = 0 only."
  },
  {
   "property": "C34",
   "status": "partial",
   "theorems": [
    "QM.Market.C34_data_partial",
    "QM.Market.C34_false",
    "QM.Market.C34_prefetch_partial",
    "QM.Market.C34_prices_partial",
    "QM.Market.C34_false_prefetch",
    "QM.Market.C34_false_spot_date"
   ],
   "note": "Proved for series of bumps in which each thing is saved when it is first bumped and only then (market data), and for disciplined series on the prefetching context, including series that end in a failure. C34_false, C34_false_prefetch and C34_false_spot_date show that bumping with the save area twice, bumping two things one forward is made from, and moving the spot date are not undone."
  },
  {
   "property": "C35",
   "status": "proved",
   "theorems": [
    "QM.Market.C35_frame",
    "QM.Market.C35_absent",
    "QM.Market.C35_present",
    "QM.Market.C35_prefetch"
   ],
   "note": "Frame, absence and effect for market data; the frame also for the prefetching context, where the prefetched forwards and surfaces made from the bumped data are exempt."
  },
  {
   "property": "C36",
   "status": "partial",
   "theorems": [
    "QM.Market.C36_partial",
    "QM.Market.C36_prices_partial",
    "QM.Market.C36_false"
   ],
   "note": "Proved for histories of successful bumps of any kind (also of the spot date) and of disciplined series of bumps, failing or not, followed by a restore. C36_false: with two options on one underlying, a saved yield curve bump followed by a restore leaves the bumped forward in the cache."
  },
  {
   "property": "C37",
   "status": "partial",
   "theorems": [
    "QM.Market.C37_data",
    "QM.Market.C37_restored_partial",
    "QM.Market.C37_sticky_forward_partial",
    "QM.Market.C37_false"
   ],
   "note": "Market data alone satisfies it. The prefetching context does not (C37_false); a failed bump with a fresh save area is undone by restoring, and a sticky forward move of the spot date that fails while making the new spots leaves everything as it was."
  },
  {
   "property": "C38",
   "status": "proved",
   "theorems": [
    "QM.Instruments.C38_latest",
    "QM.Instruments.C38_held",
    "QM.Instruments.C38_order",
    "QM.Instruments.C38_grows"
   ],
   "note": "For every sequence of calls of the dependency context, with instruments nested to any depth: the recorded date is the latest asked for, none exactly when never asked; spots and fixings are exactly those asked for; order and repetition are irrelevant."
  },
  {
   "property": "C39",
   "status": "partial",
   "theorems": [
    "QM.Instruments.C39_partial",
    "QM.Instruments.C39_fixings",
    "QM.Instruments.C39_false_credit",
    "QM.Instruments.C39_false_basket",
    "QM.Instruments.C39_false_equity"
   ],
   "note": "Proved for instruments satisfying Kept (equities outside options only on the spot date; the underlying of an option an equity, or kept itself; discounting on the declared curve), and for fixings without restriction. Three witnesses show that the code asks for undeclared data otherwise: C39_false_credit, C39_false_basket, C39_false_equity."
  },
  {
   "property": "C40",
   "status": "proved",
   "theorems": [
    "QM.Instruments.C40_sum",
    "QM.Instruments.C40_fails",
    "QM.Instruments.C40_price",
    "QM.Instruments.C40_nested",
    "QM.Instruments.C40_nested_fails"
   ],
   "note": "Prices, failures and any depth of nesting."
  },
  {
   "property": "C41",
   "status": "partial",
   "theorems": [
    "QM.Instruments.C41_spot_displaced",
    "QM.Instruments.C41_spot_partial",
    "QM.Instruments.C41_forward_partial",
    "QM.Instruments.C41_fails",
    "QM.Instruments.C41_forward_fails",
    "QM.Instruments.C41_nan",
    "QM.Instruments.C41_after",
    "QM.Instruments.C41_false"
   ],
   "note": "Proved for all volatility surfaces that do not assume fixed dividends, spot- and forward-starting, on all dates up to expiry; also that call and put fail together and are NaN together. C41_spot_displaced is the general law of the code. With fixed dividends the claim is false: C41_false (the displacement is added to the strike, options.rs:118)."
  },
  {
   "property": "C42",
   "status": "proved",
   "theorems": [
    "QM.Instruments.C42_cash",
    "QM.Instruments.C42_physical",
    "QM.Instruments.C42_value",
    "QM.Instruments.C42_unknown",
    "QM.Instruments.C42_forward",
    "QM.Instruments.C42_forward_unknown"
   ],
   "note": "Both settlements, both kinds, unknown and missing fixings, forward-starting options."
  },
  {
   "property": "C43",
   "status": "proved",
   "theorems": [
    "QM.Instruments.C43_fix_all",
    "QM.Instruments.C43_no_change",
    "QM.Instruments.C43_value",
    "QM.Instruments.C43_basket",
    "QM.Instruments.C43_basket_price"
   ],
   "note": "Replacement, no-change report and preservation of value, for portfolios and for baskets."
  },
  {
   "property": "C44",
   "status": "partial",
   "theorems": [
    "QM.Risk.C44_covers",
    "QM.Risk.C44_figures_partial",
    "QM.Risk.C44_partial",
    "QM.Risk.C44_differences_partial",
    "QM.Risk.C44_unaffected_partial",
    "QM.Risk.C44_false",
    "QM.Risk.C44_zero_spot"
   ],
   "note": "C44_partial gives the exact derivatives of any value that is quadratic between the bumped spots, for self pricers whose dependencies include the forward of every underlying. C44_false: a portfolio of bare shares makes the report fail. C44_zero_spot: a zero spot gives NaN."
  },
  {
   "property": "C45",
   "status": "partial",
   "theorems": [
    "QM.Risk.C45_covers",
    "QM.Risk.C45_figures_partial",
    "QM.Risk.C45_partial",
    "QM.Risk.C45_differences_partial",
    "QM.Risk.C45_unaffected_partial",
    "QM.Risk.C45_limit_partial",
    "QM.Risk.C45_false"
   ],
   "note": "C45_partial gives the figures in closed form for values quadratic in the shift; C45_false shows that they are not the derivatives, because the opposite of an additive bump is computed as if it were relative; C45_limit_partial: volga tends to the second derivative plus twice the first."
  },
  {
   "property": "C46",
   "status": "proved",
   "theorems": [
    "QM.MonteCarlo.C46_mc_independent",
    "QM.MonteCarlo.C46_mc_order",
    "QM.Risk.C46_restores",
    "QM.Risk.C46_price",
    "QM.Risk.C46_independent",
    "QM.Risk.C46_order"
   ],
   "note": "For both pricers of the crate and every kind and nesting of reports: C46_restores, C46_price, C46_independent (reports equal the ones made one at a time) and C46_order for the self pricer; C64_restores, C46_mc_independent and C46_mc_order for the Monte-Carlo pricer, for any draws."
  },
  {
   "property": "C47",
   "status": "partial",
   "theorems": [
    "QM.Risk.C47_unchanged",
    "QM.Risk.C47_theta",
    "QM.Risk.C47_no_fixings",
    "QM.Risk.C47_false",
    "QM.Risk.C47_shared_refused",
    "QM.Risk.C47_fixed",
    "QM.Risk.C47_rolls_iff"
   ],
   "note": "C47_unchanged holds for every pricer; C47_theta identifies price and theta with the value of the fixed instruments on the moved market. C47_rolls_iff: when nothing is overdue and every fixing left in the past has a value, the roll succeeds exactly when no two options wait for the same observation and the moved market serves the old and the new instruments. C47_false: two options on one share with one expiry make the roll fail because their fixing is entered twice; C47_shared_refused: always, and the pricer is left as it was."
  },
  {
   "property": "C48",
   "status": "partial",
   "theorems": [
    "QM.Risk.C48_figures",
    "QM.Risk.C48_report",
    "QM.Risk.C48_assert",
    "QM.Risk.C48_self_partial",
    "QM.Risk.C48_generated",
    "QM.Risk.C48_generatedAll",
    "QM.Risk.C48_self_false"
   ],
   "note": "C48_report, C48_assert: no differences exactly if the reports match, for nested reports too; C48_generated: every report that is made qualifies. C48_self_partial: a report matches itself if figures are numbers and bumps positive; C48_self_false: otherwise it need not."
  },
  {
   "property": "C49",
   "status": "partial",
   "theorems": [
    "QM.Serial.C49_writeOnce_partial",
    "QM.Serial.C49_exactly_once_partial",
    "QM.Serial.C49_inline",
    "QM.Serial.C49_missing",
    "QM.Serial.C49_missing_read_partial",
    "QM.Serial.C49_unknown",
    "QM.Serial.C49_supplied",
    "QM.Serial.C49_clash_false",
    "QM.Serial.C49_stale_false",
    "QM.Serial.C49_readable",
    "QM.Serial.C49_state",
    "QM.Serial.C49_learned",
    "QM.Serial.C49_filed"
   ],
   "note": "Write-once round trip and written-exactly-once are proved for all finite graphs in which equal ids mean equal parts (also against the supplied map); inline and error-if-missing claims hold for all graphs. The code does not check ids: C49_clash_false and C49_stale_false show graphs with clashing ids, or a supplied part that differs, written without complaint and read back as something else."
  },
  {
   "property": "C50",
   "status": "proved",
   "theorems": [
    "QM.Serial.C50_shared",
    "QM.Serial.C50_restored",
    "QM.Serial.C50_others",
    "QM.Serial.C50_session",
    "QM.Serial.C50_nested",
    "QM.Serial.C50_innermost",
    "QM.Serial.C50_round_trip",
    "QM.Serial.C50_panic_false"
   ],
   "note": "For every computation and nesting depth, outcome ok or error. C50_panic_false records that a panic leaves the session active (outside the claim)."
  },
  {
   "property": "C51",
   "status": "partial",
   "theorems": [
    "QM.Serial.C51_loaded",
    "QM.Serial.C51_saved_partial",
    "QM.Serial.C51_round_trip_iff",
    "QM.Serial.C51_crate",
    "QM.Serial.C51_partial",
    "QM.Serial.C51_unknown",
    "QM.Serial.C51_no_panic",
    "QM.Serial.C51_spline_false",
    "QM.Serial.C51_unregistered_false",
    "QM.Serial.C51_collection"
   ],
   "note": "Round trip characterised exactly for all registries and all nested values (C51_round_trip_iff); with the registries of the crate it holds for all values free of five vol surface types. C51_spline_false and C51_unregistered_false prove the violations for those. serde derive code is trusted."
  },
  {
   "property": "C52",
   "status": "partial",
   "theorems": [
    "QM.MonteCarlo.C52_spot_partial",
    "QM.MonteCarlo.C52_forward_partial",
    "QM.MonteCarlo.C52_single",
    "QM.MonteCarlo.C52_false",
    "QM.MonteCarlo.C52_value_mean",
    "QM.MonteCarlo.C52_mean_partial"
   ],
   "note": "C52_spot_partial and C52_forward_partial: with one spot- or forward-starting option the price is weight times the average over paths of the payoff times the discounted flow, with the path values given by an independent formula. C52_single: no price exists for a portfolio of any other size. C52_false: a portfolio of two options panics, so the full statement fails. C52_value_mean and C52_mean_partial: each simulated path value has the forward as its mean, under independent standard normal draws. Missing: the case of several instruments, which the code does not support."
  },
  {
   "property": "C53",
   "status": "partial",
   "theorems": [
    "QM.Solvers.C53_accuracy_falling_partial",
    "QM.Solvers.C53_european_partial",
    "QM.Solvers.C53_ambiguous",
    "QM.Solvers.C53_partial",
    "QM.Solvers.C53_accuracy_partial",
    "QM.Solvers.C53_option_partial",
    "QM.Solvers.C53_false",
    "QM.Solvers.C53_nan_false",
    "QM.Solvers.C53_found_partial",
    "QM.Solvers.C53_implied_partial",
    "QM.Solvers.C53_refused",
    "QM.Solvers.C53_refused_high"
   ],
   "note": "C53_european_partial: for any European option, call or put, bought or sold, away from the money forward, in any market, the solver finds the volatility that explains a price within the tolerance if the iterations are enough. More generally, for self pricers whose value is a number for every flat volatility, a volatility is found (C53_found_partial, C53_implied_partial), a success gives the target or a crossing of it within the tolerance, and the pricer is left at the last trial (C53_partial); for values that grow or fall with the volatility the result is within the tolerance of the implied one (C53_accuracy_partial, C53_accuracy_falling_partial). Failures of the pricer at the bounds are passed on (C53_refused, C53_refused_high). The pricer is not put back (C53_false), and a NaN price at one end misleads the search (C53_nan_false)."
  },
  {
   "property": "C54",
   "status": "partial",
   "theorems": [
    "QM.Facade.C54_partial",
    "QM.Facade.C54_no_leak",
    "QM.Facade.C54_others",
    "QM.Facade.C54_calculate",
    "QM.Facade.C54_instrument",
    "QM.Facade.C54_load",
    "QM.Facade.C54_compare",
    "QM.Facade.C54_error",
    "QM.Facade.C54_clone",
    "QM.Facade.C54_false",
    "QM.Facade.C54_same_false",
    "QM.Facade.C54_message_false",
    "QM.Facade.C54_file",
    "QM.Facade.C54_message",
    "QM.Facade.C54_written"
   ],
   "note": "Memory safety and absence of leaks for all sessions that use what they hold, for any allocator, with what every call returns. The documentation does not say that the two handles of a comparison must differ, and comparing reports with themselves frees them twice (C54_false, C54_same_false); a message with a zero byte is lost (C54_message_false)."
  },
  {
   "property": "C55",
   "status": "partial",
   "theorems": [
    "QM.Dividends.C55_iff",
    "QM.Dividends.C55_overlap_refused",
    "QM.Dividends.C55_order_partial",
    "QM.Dividends.C55_disorder_refused",
    "QM.Dividends.C55_order_false",
    "QM.Dividends.C55_queries",
    "QM.Dividends.C55_cash_included"
   ],
   "note": "Overlap, queries and inclusion of cash dividends are proved; C55_iff says exactly which streams are accepted where discounts exist; disorder is refused up to the first dividend past the horizon and unnoticed behind it: C55_order_false."
  },
  {
   "property": "C56",
   "status": "proved",
   "theorems": [
    "QM.Calendar.C56_volatility_step_nearest",
    "QM.Calendar.C56_volatility_step_finishes",
    "QM.Calendar.C56_truncation_false",
    "QM.Calendar.C56_other_calendars"
   ],
   "note": "Also records that the default step_partial rounds although its documentation says truncate: C56_truncation_false."
  },
  {
   "property": "C57",
   "status": "partial",
   "theorems": [
    "QM.Curves.C57_discount_at_most_one_partial",
    "QM.Curves.C57_formula_partial",
    "QM.Curves.C57_direction_false"
   ],
   "note": "The documented formula holds with the two dates exchanged; as written the code returns the reciprocal: C57_direction_false."
  },
  {
   "property": "C58",
   "status": "partial",
   "theorems": [
    "QM.Curves.C58_flat_effect_partial",
    "QM.Curves.C58_zero_curve_false"
   ],
   "note": "Proved for every curve built on interpolated rates; on the zero curve bumps have no effect because its time is always zero: C58_zero_curve_false."
  },
  {
   "property": "C59",
   "status": "partial",
   "theorems": [
    "QM.Instruments.C59_iff",
    "QM.Instruments.C59_displaced_false",
    "QM.Instruments.C59_partial",
    "QM.Instruments.C59_flat",
    "QM.Instruments.C59_false"
   ],
   "note": "C59_partial: proved away from the money on surfaces without a displacement. C59_iff: there, exactly, the price is the payoff when forward and strike differ and NaN when they are equal. C59_false: a sample. C59_displaced_false: with a displacement the value without variance is the payoff on the forward less the displacement and the strike plus the displacement, which is not the payoff of an option in the money."
  },
  {
   "property": "C60",
   "status": "proved",
   "theorems": [
    "QM.Instruments.C60_call_bounds",
    "QM.Instruments.C60_put_bounds",
    "QM.Instruments.C60_volatility",
    "QM.Instruments.C60_strike",
    "QM.Instruments.C60_option"
   ],
   "note": "Over the exact normal distribution; the approximation of it by the statrs crate is not modelled."
  },
  {
   "property": "C61",
   "status": "partial",
   "theorems": [
    "QM.MonteCarlo.C61_covariance",
    "QM.MonteCarlo.C61_partial",
    "QM.MonteCarlo.C61_total",
    "QM.MonteCarlo.C61_false",
    "QM.MonteCarlo.C61_unreachable"
   ],
   "note": "C61_covariance: the covariance of the draws is the transpose of the root times the root, for all sizes. C61_partial: this is what was asked for exactly when all correlations are zero. C61_false: a correlation of 1/2 gives a variance of 5/4. C61_unreachable: a pricer built from market data always has one underlying, so the defect cannot be reached today."
  },
  {
   "property": "C62",
   "status": "partial",
   "theorems": [
    "QM.MonteCarlo.C62_partial",
    "QM.MonteCarlo.C62_false"
   ],
   "note": "C62_partial: equality holds when the option has the credit id of its underlying. C62_false: with different credit ids the self pricer gives 50 and Monte-Carlo less."
  },
  {
   "property": "C63",
   "status": "proved",
   "theorems": [
    "QM.MonteCarlo.C63_second_moment"
   ],
   "note": "C63_second_moment, over the specification path formula that C52_mean_partial ties to the code."
  },
  {
   "property": "C64",
   "status": "proved",
   "theorems": [
    "QM.MonteCarlo.C64_restores",
    "QM.MonteCarlo.C64_restores_all",
    "QM.MonteCarlo.C64_price",
    "QM.MonteCarlo.C64_common_draws",
    "QM.MonteCarlo.C64_bumped_price"
   ],
   "note": "C64_restores and C64_restores_all cover every report generator, including nested ones; C64_price; C64_common_draws."
  },
  {
   "property": "C65",
   "status": "partial",
   "theorems": [
    "QM.MonteCarlo.C65_options_only",
    "QM.MonteCarlo.C65_false",
    "QM.MonteCarlo.C65_passed_over",
    "QM.MonteCarlo.C65_lost_false",
    "QM.MonteCarlo.C65_partial",
    "QM.MonteCarlo.C65_struck_partial"
   ],
   "note": "C65_partial: rolling succeeds with the self pricer when nothing expires or strikes before the new date and variances at the new date do not fall. C65_struck_partial: the same where the strike of a forward-starting option is set before the new date, which leaves the option with its strike. C65_options_only: a roll that succeeds leaves options only. C65_passed_over: the price passes over anything that is not an option. C65_false: one option rolled past its expiry works for the self pricer and fails for Monte-Carlo. C65_lost_false: after that failure the pricer holds a certain payment of 50 and reports a value of 0."
  },
  {
   "property": "C66",
   "status": "partial",
   "theorems": [
    "QM.Dates.C66_days",
    "QM.Dates.C66_example",
    "QM.Dates.C66_months_partial",
    "QM.Dates.C66_months_false"
   ],
   "note": "Day numbers outside the month roll over for every input (C66_days); month numbers up to fourteen roll over (C66_months_partial); month fifteen lands two days off (C66_months_false), so the full statement is false of the code."
  },
  {
   "property": "C67",
   "status": "proved",
   "theorems": [
    "QM.Calendar.C67_year_fraction",
    "QM.Calendar.C67_add"
   ],
   "note": "Year fractions of the counting calendars are the weighted day count over the conventional year, and add up over adjacent intervals."
  },
  {
   "property": "C68",
   "status": "proved",
   "theorems": [
    "QM.Curves.C68_built_iff",
    "QM.Curves.C68_pillar",
    "QM.Curves.C68_between",
    "QM.Curves.C68_base",
    "QM.Curves.C68_discount"
   ],
   "note": "Built exactly from increasing dates; pillars, straight lines between them, the base date and the discounting of pillar payments, for all curves."
  },
  {
   "property": "C69",
   "status": "partial",
   "theorems": [
    "QM.Vol.C69_same_date",
    "QM.Vol.C69_base_date",
    "QM.Vol.C69_constant_vols",
    "QM.Vol.C69_time",
    "QM.Vol.C69_rolling_partial",
    "QM.Vol.C69_rolling_weekend_false",
    "QM.Vol.C69_rolling_fraction_false",
    "QM.Vol.C69_nonneg"
   ],
   "note": "Proved for constant expiries and, when no volatility is attached to holidays, the base is at the beginning of a day and the expiry is a business day, for rolling ones. The general statement is false of the code: C69_rolling_weekend_false and C69_rolling_fraction_false."
  },
  {
   "property": "C70",
   "status": "partial",
   "theorems": [
    "QM.Vol.C70_unaffected",
    "QM.Vol.C70_moneyness_partial",
    "QM.Vol.C70_same_spot_false"
   ],
   "note": "Proved for sticky strikes and for new forwards whose spot differs from the old one. The general statement is false of the code: C70_same_spot_false, a forward with the same spot is ignored."
  },
  {
   "property": "C71",
   "status": "partial",
   "theorems": [
    "QM.Vol.C71_built",
    "QM.Vol.C71_flat",
    "QM.Vol.C71_kept",
    "QM.Vol.C71_shifted",
    "QM.Vol.C71_replace_false"
   ],
   "note": "Proved for surfaces built from pillars, flat ones, stacks of parallel and time-scaled bumps and time evolutions, and sticky delta shifts. A replacement bump loses the displacement: C71_replace_false."
  },
  {
   "property": "C72",
   "status": "proved",
   "theorems": [
    "QM.Instruments.C72_currency",
    "QM.Instruments.C72_equity_spot",
    "QM.Instruments.C72_equity_forward",
    "QM.Instruments.C72_equity_dates",
    "QM.Instruments.C72_zero_coupon",
    "QM.Instruments.C72_zero_coupon_after",
    "QM.Instruments.C72_zero_coupon_par",
    "QM.Instruments.C72_option_spot",
    "QM.Instruments.C72_option_forward",
    "QM.Instruments.C72_option_started"
   ],
   "note": "The value of every kind of instrument other than baskets, which are C40. Option values are in ordinary arithmetic, for positive displaced forward and strike and positive variance; C59 has the value without variance."
  },
  {
   "property": "C73",
   "status": "partial",
   "theorems": [
    "QM.Instruments.C73_spot",
    "QM.Instruments.C73_forward",
    "QM.Instruments.C73_refusal",
    "QM.Instruments.C73_order_false"
   ],
   "note": "Exactly which options are accepted is proved. That the strike is fixed no later than expiry is not checked by the code: C73_order_false."
  },
  {
   "property": "C74",
   "status": "partial",
   "theorems": [
    "QM.Instruments.C74_dates",
    "QM.Market.C74_market_partial",
    "QM.Market.C74_false"
   ],
   "note": "Proved for contexts whose forwards do not depend on the horizon and start at the spot, which is proved of markets without dividend yields and without dividends on the spot date. With a dividend on the spot date it is false: C74_false."
  },
  {
   "property": "C75",
   "status": "proved",
   "theorems": [
    "QM.Market.C75_sticky_spot",
    "QM.Market.C75_sticky_forward",
    "QM.Market.C75_growth",
    "QM.Market.C75_steps",
    "QM.Market.C75_prefetch",
    "QM.Market.C75_spot_bump"
   ],
   "note": "C75_growth and C75_steps are for instruments without dividends on the way, as the property says."
  },
  {
   "property": "C76",
   "status": "partial",
   "theorems": [
    "QM.Market.C76_data",
    "QM.Market.C76_forward",
    "QM.Market.C76_vol",
    "QM.Market.C76_prefetch",
    "QM.Market.C76_prices_partial",
    "QM.Market.C76_false"
   ],
   "note": "The market side, forwards and vol surfaces are proved in full. Prices agree for instruments whose equities are priced at the spot date, whose options start no later than they expire, and whose underlyings do not share an id (C76_prices_partial); C76_false shows that an equity on a later date has no price in a prefetching context."
  },
  {
   "property": "C77",
   "status": "partial",
   "theorems": [
    "QM.Risk.C77_weighted",
    "QM.Risk.C77_market_partial",
    "QM.Risk.C77_factory",
    "QM.Risk.C77_single_partial"
   ],
   "note": "C77_weighted and C77_factory hold for all portfolios. The link to prices in the market (C77_market_partial) has the conditions of C76_prices_partial."
  },
  {
   "property": "C78",
   "status": "proved",
   "theorems": [
    "QM.Risk.C78_rolled"
   ],
   "note": "Holds for every roll that succeeds; C47 is about which rolls do."
  },
  {
   "property": "C79",
   "status": "proved",
   "theorems": [
    "QM.MonteCarlo.C79_follows",
    "QM.MonteCarlo.C79_rolled"
   ],
   "note": "For every series of bumps that succeed, and every roll that does."
  },
  {
   "property": "C80",
   "status": "proved",
   "theorems": [
    "QM.MonteCarlo.C80_collected",
    "QM.MonteCarlo.C80_unknown",
    "QM.MonteCarlo.C80_key",
    "QM.MonteCarlo.C80_flows",
    "QM.MonteCarlo.C80_refused",
    "QM.MonteCarlo.C80_no_panic",
    "QM.MonteCarlo.C80_variance",
    "QM.MonteCarlo.C80_factory"
   ],
   "note": "C80_key is about the index alone, since models with two assets cannot be made at present (C61)."
  },
  {
   "property": "C81",
   "status": "partial",
   "theorems": [
    "QM.Times.C81_datetime",
    "QM.Times.C81_datetime_eq",
    "QM.Times.C81_datetime_add",
    "QM.Times.C81_new",
    "QM.Times.C81_order",
    "QM.Times.C81_diff",
    "QM.Times.C81_add",
    "QM.Times.C81_loaded_false"
   ],
   "note": "Orders, distances under every rounding, construction and moving by days. Fails for moments that are loaded from a text, because the derived deserialiser does not check the fraction (C81_loaded_false)."
  },
  {
   "property": "C82",
   "status": "partial",
   "theorems": [
    "QM.Load.C82_fixings",
    "QM.Load.C82_last_wins",
    "QM.Load.C82_fixings_false",
    "QM.Load.C82_linear_partial",
    "QM.Load.C82_spline_partial",
    "QM.Load.C82_linear_false",
    "QM.Load.C82_spline_false",
    "QM.Load.C82_option_false",
    "QM.Load.C82_dividends_false"
   ],
   "note": "Round trips of fixing tables in every order of writing; curves and splines that a constructor accepts. That other texts are refused fails for every type (C82_fixings_false, C82_linear_false, C82_spline_false, C82_option_false, C82_dividends_false)."
  },
  {
   "property": "C83",
   "status": "partial",
   "theorems": [
    "QM.Rounded.C83_accepted",
    "QM.Rounded.C83_pillar",
    "QM.Rounded.C83_outside",
    "QM.Rounded.C83_ends",
    "QM.Rounded.C83_positive",
    "QM.Rounded.C83_between_partial",
    "QM.Rounded.C83_monotone_partial",
    "QM.Rounded.C83_close",
    "QM.Rounded.C83_natural",
    "QM.Rounded.C83_single",
    "QM.Rounded.C83_flat_false"
   ],
   "note": "Construction, pillars, ends, sign and accuracy for every rounding. Range and monotonicity hold if the neighbours do not have the same sign (C83_between_partial, C83_monotone_partial) and fail in f64 otherwise (C83_flat_false)."
  },
  {
   "property": "C84",
   "status": "partial",
   "theorems": [
    "QM.Rounded.C84_exact",
    "QM.Rounded.C84_same_sign_refused",
    "QM.Rounded.C84_evaluations",
    "QM.Rounded.C84_error_passed_on",
    "QM.Rounded.C84_result",
    "QM.Rounded.C84_end_is_root",
    "QM.Rounded.C84_sufficient",
    "QM.Rounded.C84_near_partial",
    "QM.Rounded.C84_outside_interval_false"
   ],
   "note": "Everything holds for every rounding, or every rounding as fine as f64, except that the search stays in the interval: it may leave it (same bound at brent.rs:73 as in C19), by at most thirteen widths. Witness in f64: C84_outside_interval_false."
  },
  {
   "property": "C85",
   "status": "partial",
   "theorems": [
    "QM.Calendar.C85_nearest_partial",
    "QM.Calendar.C85_forward_partial",
    "QM.Calendar.C85_back_partial",
    "QM.Calendar.C85_far_false",
    "QM.Calendar.C85_compose_partial",
    "QM.Calendar.C85_undo_partial",
    "QM.Calendar.C85_monotone_partial"
   ],
   "note": "The constructors cast the u32 number of steps to i32: from 2^31 on rules move the wrong way or cannot be made (C85_far_false). Volatility calendars that give holidays a weight do not step in business days (C08_volatility_step_false). Below that, all proved."
  },
  {
   "property": "C86",
   "status": "partial",
   "theorems": [
    "QM.Rounded.C86_exact",
    "QM.Rounded.C86_defined",
    "QM.Rounded.C86_nonneg",
    "QM.Rounded.C86_monotone_partial",
    "QM.Rounded.C86_start_partial",
    "QM.Rounded.C86_years_partial",
    "QM.Rounded.C86_forward_partial",
    "QM.Rounded.C86_years_exact",
    "QM.Rounded.C86_variance_exact",
    "QM.Rounded.C86_accuracy",
    "QM.Rounded.C86_whole_days",
    "QM.Rounded.C86_monotone_false",
    "QM.Rounded.C86_forward_false",
    "QM.Rounded.C86_start_false",
    "QM.Rounded.C86_additive_false"
   ],
   "note": "Proved for all calendars: counts are defined alike, not negative, accurate, and exact between midnights. False of the code: over a weekend or holiday a count that starts within a day can fall by a unit in the last place (C86_monotone_false), so the flat forward variance over that weekend is refused (C86_forward_false); putting the start off to midnight can lengthen the time (C86_start_false); times do not add up (C86_additive_false). The partial theorems ask that the earlier end is a business day or the start is at the beginning of a day or on a holiday."
  },
  {
   "property": "C87",
   "status": "partial",
   "theorems": [
    "QM.Rounded.C87_exact",
    "QM.Rounded.C87_vega_exact",
    "QM.Rounded.C87_no_dependence",
    "QM.Rounded.C87_spots_ordered",
    "QM.Rounded.C87_delta_sign",
    "QM.Rounded.C87_vols_ordered",
    "QM.Rounded.C87_vega_sign",
    "QM.Rounded.C87_spots_close",
    "QM.Rounded.C87_slope_close",
    "QM.Rounded.C87_curvature_close",
    "QM.Rounded.C87_shares",
    "QM.Rounded.C87_gamma_false"
   ],
   "note": "C87_exact and C87_vega_exact tie the rounded formulas to the exact ones. C87_no_dependence: exactly zero where nothing depends. C87_spots_ordered, C87_spots_close: the spots used. C87_delta_sign, C87_vega_sign: signs survive rounding. C87_slope_close, C87_curvature_close: error bounds for any price; C87_shares: for a holding of shares. C87_gamma_false: gamma does not keep its sign when the bump is small."
  },
  {
   "property": "C88",
   "status": "partial",
   "theorems": [
    "QM.Instruments.C88_curves",
    "QM.Instruments.C88_prices",
    "QM.Instruments.C88_price",
    "QM.Instruments.C88_false",
    "QM.MonteCarlo.C88_model",
    "QM.MonteCarlo.C88_monte",
    "QM.MonteCarlo.C88_monte_reports",
    "QM.MonteCarlo.C88_no_paths",
    "QM.Risk.C88_forwards",
    "QM.Risk.C88_plain",
    "QM.Risk.C88_market",
    "QM.Risk.C88_prefetch",
    "QM.Risk.C88_pricer",
    "QM.Risk.C88_bump",
    "QM.Risk.C88_fix",
    "QM.Risk.C88_reports",
    "QM.Vol.C88_flat_smiles",
    "QM.Vol.C88_partial",
    "QM.Vol.C88_falling",
    "QM.Vol.C88_variances",
    "QM.Vol.C88_bumps",
    "QM.Vol.C88_base_false"
   ],
   "note": "Violated: a surface with smiles by expiry panics at its base date for the strike that is the forward, 0/0 (C88_base_false), and so does pricing an at-the-money option that expires now (C88_false); a Monte-Carlo pricer asked for no paths panics (C88_no_paths). Proved: curves as constructed and flat volatilities, bumped and moved in time, never panic in forwards, pricing, bumps, rolls and reports nested to any depth, for the self pricer (C88_reports) and for the Monte-Carlo pricer with paths and a step (C88_monte_reports). Surfaces with smiles do not panic under the stated conditions (C88_partial), and give an error where variance falls (C88_falling)."
  },
  {
   "property": "C89",
   "status": "partial",
   "theorems": [
    "QM.MonteCarlo.C89_variance",
    "QM.MonteCarlo.C89_deviation_partial",
    "QM.MonteCarlo.C89_false",
    "QM.MonteCarlo.C89_positive_partial",
    "QM.MonteCarlo.C89_positive_false",
    "QM.MonteCarlo.C89_put_false"
   ],
   "note": "The number of steps is the smallest, from one up, for which the variance of a step is no more than the substep (C89_variance), so its standard deviation is no more than the square root of the substep; the documentation promises the substep itself, which is false below one (C89_false). An asset with forward above the cash dividends to come stays positive where the draws stay above minus one over the square root of the substep (C89_positive_partial). In general it does not: under independent standard normal draws every uncertain asset is below any number with positive probability on every path (C89_positive_false), and a simulated put is above any number (C89_put_false)."
  },
  {
   "property": "C90",
   "status": "partial",
   "theorems": [
    "QM.Instruments.C90_formula",
    "QM.Instruments.C90_mean",
    "QM.Instruments.C90_spot_partial",
    "QM.Instruments.C90_forward_partial",
    "QM.Instruments.C90_displaced_false"
   ],
   "note": "The call and put formulas are the discounted expected payoff of a lognormal value, or NaN exactly where forward and strike agree and either the forward or the standard deviation is zero (C90_formula, C90_mean). Every spot-starting option price that is a number is such an expectation (C90_spot_partial), and so is every forward-starting one, whatever the variance up to the strike date (C90_forward_partial), if the surface assumes no fixed dividends. What is missing, surfaces with fixed dividends, is false wherever there is a displacement: the strike is moved in the wrong direction (C90_displaced_false)."
  },
  {
   "property": "C91",
   "status": "partial",
   "theorems": [
    "QM.MonteCarlo.C91_converges",
    "QM.MonteCarlo.C91_limit",
    "QM.MonteCarlo.C91_agree_partial",
    "QM.MonteCarlo.C91_away",
    "QM.MonteCarlo.C91_smile_false",
    "QM.MonteCarlo.C91_displaced_false",
    "QM.MonteCarlo.C91_skew_false",
    "QM.MonteCarlo.C91_forward_converges",
    "QM.MonteCarlo.C91_forward_limit",
    "QM.MonteCarlo.C91_forward_agree_partial"
   ],
   "note": "With independent standard normal draws the Monte-Carlo prices of an option, spot or forward starting, converge with probability one as paths are added, with an explicit bound on the distance of the limit from the discounted expected payoff that vanishes with the substep (C91_converges, C91_limit, C91_forward_converges, C91_forward_limit). They approach the price of the self pricer if the credit ids agree, the surface assumes no fixed dividends and the variance at the strike is that at the forward (C91_agree_partial, C91_forward_agree_partial). What is missing is false: with a smile (C91_smile_false; a concrete skew in C91_skew_false) or with a displacement (C91_displaced_false) the prices stay away from that of the self pricer, however small the steps and many the paths (C91_away); for different credit ids see C62_false."
  },
  {
   "property": "C92",
   "status": "partial",
   "theorems": [
    "QM.Risk.C92_held_partial",
    "QM.Risk.C92_order_partial",
    "QM.Risk.C92_split_partial",
    "QM.Risk.C92_together_partial",
    "QM.Risk.C92_sum_partial",
    "QM.Risk.C92_false"
   ],
   "note": "False as stated: instruments are told apart by their ids alone, and if two underlyings share an id the forward of the one that comes first is used for both, so that the price depends on the order of the positions (C92_false). If no two underlyings of options share an id, the price depends only on how much of each instrument is held (C92_held_partial, with C92_order_partial and C92_split_partial as cases). If moreover the market is orderly, as for C77, two portfolios that can be priced can be priced together (C92_together_partial), and the price is the sum, with NaN passed on (C92_sum_partial)."
  },
  {
   "property": "C93",
   "status": "partial",
   "theorems": [
    "QM.Risk.C93_delta_partial",
    "QM.Risk.C93_setting",
    "QM.Risk.C93_vega_partial",
    "QM.Risk.C93_false"
   ],
   "note": "The forward is a straight line in the spot (C26_line), and orderly markets give the setting the theorems ask for (C93_setting). Delta and gamma of calls and puts have their signs and bounds, call less put is the discounted slope and the gammas agree (C93_delta_partial), if the slope is not negative, the forward after the down bump and the strike exceed the displacement and the variance is positive. Vega is positive and the same for both (C93_vega_partial), if the surface is one of the spot date and the shift is not more than the volatility. With a larger shift it is false: a call at the money forward has a price, but its vega is NaN (C93_false)."
  },
  {
   "property": "C94",
   "status": "partial",
   "theorems": [
    "QM.Risk.C94_static_partial",
    "QM.Risk.C94_spread_partial",
    "QM.Risk.C94_butterfly_partial",
    "QM.Risk.C94_false"
   ],
   "note": "C94_static_partial proves both bounds for all books of any size where the strikes share one variance, with C94_spread_partial and C94_butterfly_partial as consequences. With a smile it is false: the code accepts smiles under which a call spread has a negative price, witness C94_false."
  },
  {
   "property": "C95",
   "status": "proved",
   "theorems": [
    "QM.MonteCarlo.C95_simulated",
    "QM.MonteCarlo.C95_simulated_bumps",
    "QM.MonteCarlo.C95_simulated_reports",
    "QM.MonteCarlo.C95_simulated_fixed",
    "QM.Units.C95_prices",
    "QM.Units.C95_portfolio",
    "QM.Units.C95_bumps",
    "QM.Units.C95_reports",
    "QM.Units.C95_fixed",
    "QM.Units.C95_options",
    "QM.Units.C95_surfaces",
    "QM.Units.C95_smiles",
    "QM.Units.C95_accepted",
    "QM.Units.C95_refused"
   ],
   "note": "C95_prices, C95_portfolio, C95_bumps, C95_reports and C95_fixed hold for every positive factor. C95_simulated, C95_simulated_bumps, C95_simulated_reports and C95_simulated_fixed say the same of Monte-Carlo pricers, along the same draws. Quotable says that no option is written on money; the constructors of options ensure it (C95_options). Smiles: accepted in every smaller unit (C95_smiles), the same whenever accepted (C95_accepted); C95_refused shows that a far larger unit can have them refused, since strikes must be an absolute 1e-12 apart. Exact arithmetic."
  },
  {
   "property": "C96",
   "status": "partial",
   "theorems": [
    "QM.Risk.C96_partial",
    "QM.Risk.C96_flat",
    "QM.Risk.C96_false"
   ],
   "note": "C96_partial: for equities that pay nothing, prices of both options exist and are in order where the variance at the strike does not fall, with the strict cases; C96_flat: for flat volatilities in any good calendar the variance condition is proved. C96_false: the surface constructor accepts variances that fall off the money, and then the later call costs less. Options without any variance until expiry are left out (C59_iff says what they are worth)."
  },
  {
   "property": "C97",
   "status": "partial",
   "theorems": [
    "QM.Risk.C97_spot_partial",
    "QM.Risk.C97_forward_partial",
    "QM.Risk.C97_weekend_false"
   ],
   "note": "C97_spot_partial and C97_forward_partial: theta for equities that pay nothing, for surfaces of any kind dated at the spot date, exactly as reported. C97_weekend_false: if the calendar of a surface with a forward counts no time until the new date, as over a weekend, the surface is not aged, and an option out of the money loses all of its value."
  },
  {
   "property": "C98",
   "status": "proved",
   "theorems": [
    "QM.MonteCarlo.C98_simulated",
    "QM.MonteCarlo.C98_simulated_delta",
    "QM.Units.C98_proportional",
    "QM.Units.C98_delta",
    "QM.Units.C98_hedged"
   ],
   "note": "The value is homogeneous in the spot by the change of unit of C95, and only the data of the share matter. The same for Monte-Carlo pricers: C98_simulated, C98_simulated_delta."
  },
  {
   "property": "C99",
   "status": "partial",
   "theorems": [
    "QM.Currency.C99_erase",
    "QM.Currency.C99_fix",
    "QM.Currency.C99_portfolio",
    "QM.Currency.C99_outer",
    "QM.Currency.C99_flow",
    "QM.Currency.C99_basket_false"
   ],
   "note": "What is missing, that a basket has members in its own currency only, is false: C99_basket_false. Baskets that start out so stay so."
  },
  {
   "property": "C100",
   "status": "proved",
   "theorems": [
    "QM.MonteCarlo.C100_simulated_yields",
    "QM.MonteCarlo.C100_simulated_borrow",
    "QM.MonteCarlo.C100_simulated_needed",
    "QM.Risk.C100_yields",
    "QM.Risk.C100_annualised",
    "QM.Risk.C100_borrow",
    "QM.Risk.C100_bond"
   ],
   "note": "Yields by continuously compounded and annualised bumps, borrow and zero coupons; by Monte-Carlo in the bumped markets along the same draws. The curves are interpolated ones: bumps of the zero curve have no effect, see C58."
  },
  {
   "property": "C101",
   "status": "partial",
   "theorems": [
    "QM.Risk.C101_mixed_forward_partial",
    "QM.Risk.C101_mixed_options_partial",
    "QM.Risk.C101_forward_partial",
    "QM.Risk.C101_options_partial",
    "QM.Risk.C101_rejected",
    "QM.Risk.C101_false"
   ],
   "note": "C101_forward_partial and C101_options_partial: cash dividends, any number a day. C101_mixed_forward_partial and C101_mixed_options_partial: dividends of both kinds, at most one a day, where the forward need not be a straight line in the bump. C101_rejected and C101_false: dividends cannot be bumped if the curve of the dividend yield starts before the last dividend, even if it is the zero curve."
  },
  {
   "property": "C102",
   "status": "partial",
   "theorems": [
    "QM.Interp.C102_linear",
    "QM.Interp.C102_spline_partial",
    "QM.Interp.C102_spline_shift",
    "QM.Interp.C102_spline_false",
    "QM.Curves.C102_rates_partial",
    "QM.Curves.C102_zero_false"
   ],
   "note": "C102_linear is full for linear interpolators, with every extrapolation, up to constants on curves extrapolated as zero. C102_spline_partial needs a spline that is Natural at the left or weights that add up to one; C102_spline_false: doubling the points of any other spline never doubles the curve. C102_rates_partial: rates; C102_zero_false: not so if a side is extrapolated as zero."
  },
  {
   "property": "C103",
   "status": "proved",
   "theorems": [
    "QM.MonteCarlo.C103_book",
    "QM.MonteCarlo.C103_call_falls",
    "QM.MonteCarlo.C103_put_rises",
    "QM.MonteCarlo.C103_butterfly",
    "QM.MonteCarlo.C103_bounds",
    "QM.MonteCarlo.C103_parity",
    "QM.MonteCarlo.C103_parity_mean",
    "QM.MonteCarlo.C103_parity_false",
    "QM.MonteCarlo.C103_runs_false",
    "QM.MonteCarlo.C103_struck_book",
    "QM.MonteCarlo.C103_struck_butterfly",
    "QM.MonteCarlo.C103_struck_bounds",
    "QM.MonteCarlo.C103_struck_fractions",
    "QM.MonteCarlo.C103_struck_parity",
    "QM.MonteCarlo.C103_struck_parity_mean",
    "QM.MonteCarlo.C103_struck_fractions_false"
   ],
   "note": "`C103_book`, `C103_call_falls`, `C103_put_rises`, `C103_butterfly`, `C103_bounds` and `C103_parity` for options priced with the same draws; `C103_parity_mean` for the expectation. `C103_struck_book`, `C103_struck_butterfly`, `C103_struck_bounds`, `C103_struck_fractions`, `C103_struck_parity` and `C103_struck_parity_mean` for forward-starting options. `C103_runs_false` and `C103_parity_false` show what does not hold between runs and of a single run, `C103_struck_fractions_false` what does not hold below nought."
  },
  {
   "property": "C104",
   "status": "partial",
   "theorems": [
    "QM.Risk.C104_delta_partial",
    "QM.Risk.C104_vega_partial",
    "QM.Risk.C104_volga_false",
    "QM.Risk.C104_relation"
   ],
   "note": "C104_delta_partial: delta and gamma, for every European option with positive displaced forward and strike and positive variance. C104_vega_partial: vega, on surfaces of the spot date; volga tends to that of the textbook plus twice the vega, so that part is false of the code: C104_volga_false, for every such option. C104_relation: the limits of gamma and vega stand in the usual proportion."
  },
  {
   "property": "C105",
   "status": "partial",
   "theorems": [
    "QM.Risk.C105_delta_partial",
    "QM.Risk.C105_vega_partial",
    "QM.Risk.C105_delta_scaled_partial",
    "QM.Risk.C105_vega_scaled_partial",
    "QM.Risk.C105_theta_partial",
    "QM.Risk.C105_theta_scaled_partial"
   ],
   "note": "Proved for delta, gamma, vega and volga, for sums and for multiples of books of any instruments, if each part has a report. C105_theta_partial and C105_theta_scaled_partial: price and theta on another date at which nothing has fixed, sums with the spots held. Missing: books with shares on which there is no option, for which there is no report (C44_false); ids shared by different equities, where the first one decides (C92_false); markets where a dividend goes ex on the spot date; dates at which something has fixed, where the whole may have no report though the parts have one (C47_false), and sums with spots that move along their forwards."
  },
  {
   "property": "C106",
   "status": "partial",
   "theorems": [
    "QM.MonteCarlo.C106_delta_partial",
    "QM.MonteCarlo.C106_converges_partial",
    "QM.MonteCarlo.C106_textbook_partial",
    "QM.MonteCarlo.C106_vega_partial"
   ],
   "note": "C106_delta_partial identifies the delta and gamma of a Monte-Carlo pricer with the differences of fresh pricers with the same draws; C106_converges_partial and C106_vega_partial have delta, gamma, vega and volga converge almost surely to those of the self pricer, and C106_textbook_partial delta and gamma to the textbook. Missing: the cases in which the Monte-Carlo prices themselves converge elsewhere (a smile, a displacement, a credit other than that of the underlying: C91_smile_false, C91_displaced_false, C62_false), which are faults of the code."
  },
  {
   "property": "C107",
   "status": "partial",
   "theorems": [
    "QM.MonteCarlo.C107_delta_partial",
    "QM.MonteCarlo.C107_put_false"
   ],
   "note": "C107_delta_partial: for every draw, gammas are nought or more and agree between call and put, deltas of calls are nought or more, and the deltas differ by the discounted share of the forward times the average growth of the paths. Missing: the sign of the delta of a put, which the code violates, since a step of the Euler scheme can take the share below nought: C107_put_false."
  },
  {
   "property": "C108",
   "status": "partial",
   "theorems": [
    "QM.Rounded.C108_one",
    "QM.Rounded.C108_compose",
    "QM.Rounded.C108_flat",
    "QM.Rounded.C108_bumps",
    "QM.Rounded.C108_bumped",
    "QM.Rounded.C108_relative",
    "QM.Rounded.C108_close",
    "QM.Rounded.C108_total",
    "QM.Rounded.C108_total_order",
    "QM.Rounded.C108_total_false"
   ],
   "note": "The maths library is assumed to keep the order and to have a small relative error (`Library`), and a library that rounds the exact values is shown to do so; overflow and underflow are not modelled. What fails is that totals do not depend on the order of positions: C108_total_false."
  },
  {
   "property": "C109",
   "status": "partial",
   "theorems": [
    "QM.Risk.C109_bumps_partial",
    "QM.Risk.C109_moves_partial",
    "QM.MonteCarlo.C109_simulated_partial",
    "QM.Risk.C109_gross_partial",
    "QM.Risk.C109_sold_partial"
   ],
   "note": "Moves by the bump: every book whose equities go by ids of their own, each the underlying of an option, without which the report fails (C44_false). Other moves: books with one expiry whose forwards stay above the displacement, held long (C109_moves_partial), sold (C109_sold_partial) or mixed, with the gross gamma and for moves up to the bump (C109_gross_partial); for Monte-Carlo pricers single options held long without displacement, whose moved forwards have the same variance. Mixed books have no bound for larger moves, as they are not convex in the spot."
  },
  {
   "property": "C110",
   "status": "partial",
   "theorems": [
    "QM.MonteCarlo.C110_simulated",
    "QM.MonteCarlo.C110_simulated_partial",
    "QM.MonteCarlo.C110_simulated_back",
    "QM.Risk.C110_data",
    "QM.Risk.C110_order",
    "QM.Risk.C110_market",
    "QM.Risk.C110_spot",
    "QM.Risk.C110_back"
   ],
   "note": "C110_data: market data; C110_order: pricers, of which C110_market says that they are as good as new ones; C110_spot and C110_back: bumps of one spot; C110_simulated: Monte-Carlo pricers in two orders, and C110_simulated_back there and back. Bumps that fail are left out (C37_false: they leave their effect behind), as are portfolios in which two instruments share an id (C92_false). C110_simulated_partial: a bumped Monte-Carlo pricer is as good as a new one where the new market asks for the same numbers of steps; otherwise it keeps its own."
  },
  {
   "property": "C111",
   "status": "partial",
   "theorems": [
    "QM.MonteCarlo.C111_monte_carlo",
    "QM.MonteCarlo.C111_monte_carlo_price",
    "QM.Risk.C111_price",
    "QM.Risk.C111_reports",
    "QM.Risk.C111_discounts",
    "QM.Risk.C111_twice",
    "QM.Risk.C111_bumped",
    "QM.Risk.C111_quoted_partial",
    "QM.Risk.C111_zero_false"
   ],
   "note": "Full for prices and reports of both pricers (C111_price, C111_reports, C111_monte_carlo, C111_monte_carlo_price), discount factors (C111_discounts) and repeated bumps (C111_twice, C111_bumped). Quoting points higher is bumping only where neither side extrapolates as zero (C111_quoted_partial). Dividend yields also matter by being the zero curve or not: bumping one by nothing can make forwards fail (C111_zero_false)."
  },
  {
   "property": "C112",
   "status": "proved",
   "theorems": [
    "QM.Interp.C112_linear",
    "QM.Interp.C112_constant",
    "QM.Risk.C112_curve",
    "QM.Risk.C112_price"
   ],
   "note": "In exact arithmetic; C83_flat_false shows what rounding does to a curve of equal values."
  },
  {
   "property": "C113",
   "status": "proved",
   "theorems": [
    "QM.MonteCarlo.C113_simulated",
    "QM.Risk.C113_price",
    "QM.Risk.C113_bumped",
    "QM.Risk.C113_common",
    "QM.Risk.C113_delta",
    "QM.Risk.C113_vega",
    "QM.Risk.C113_delta_common",
    "QM.Risk.C113_vega_common"
   ],
   "note": "Baskets are not covered. The self pricer discounts an option at the credit of its underlying, and Monte-Carlo at the credit of the option itself: the theorems say which."
  },
  {
   "property": "C114",
   "status": "proved",
   "theorems": [
    "QM.Rounded.C114_cash",
    "QM.Rounded.C114_ordered",
    "QM.Rounded.C114_today",
    "QM.Rounded.C114_carry",
    "QM.Rounded.C114_close",
    "QM.Rounded.C114_exact",
    "QM.Rounded.C114_whole"
   ],
   "note": "Order of forwards for cash dividends, exactness today, order in the carry and relative accuracy for shares that pay nothing, accuracy with cash dividends of any number (C114_cash), exactness for whole amounts without rates, and agreement with exact arithmetic where nothing is rounded. The maths library is assumed to keep the order and to have a small relative error (`Library`); overflow and underflow are not modelled, and a NaN rate counts as a failure."
  },
  {
   "property": "C115",
   "status": "proved",
   "theorems": [
    "QM.Rounded.C115_bounds",
    "QM.Rounded.C115_nonneg",
    "QM.Rounded.C115_parity",
    "QM.Rounded.C115_close",
    "QM.Rounded.C115_floor",
    "QM.Rounded.C115_outside_false"
   ],
   "note": "Bounds, signs in the money, parity and accuracy of both prices, in rounded arithmetic with any distribution function that keeps order and has an absolute error. C115_outside_false shows that the condition on the strike cannot be dropped from the claim about signs. Infinities and NaN are not part of this model; they are in the exact one (C41, C59)."
  },
  {
   "property": "C116",
   "status": "proved",
   "theorems": [
    "QM.Rounded.C116_simulated",
    "QM.Rounded.C116_order",
    "QM.Rounded.C116_nonneg",
    "QM.Rounded.C116_average",
    "QM.Rounded.C116_close",
    "QM.Rounded.C116_whole",
    "QM.Rounded.C116_range_false"
   ],
   "note": "Order, signs, accuracy of averages and prices, exact sums of whole numbers, for every way to add the paths; C116_simulated relates the rounded price to the exact model of evaluate_flows. C116_range_false shows in f64 that ten payoffs of a tenth average to less than a tenth. The drawing of the paths is not rounded in this model."
  },
  {
   "property": "C117",
   "status": "proved",
   "theorems": [
    "QM.Rounded.C117_sound",
    "QM.Rounded.C117_complete",
    "QM.Rounded.C117_edge_false",
    "QM.Rounded.C117_symmetric",
    "QM.Rounded.C117_wider",
    "QM.Rounded.C117_line",
    "QM.Rounded.C117_line_alike"
   ],
   "note": "Soundness needs the tolerance to be a number of the machine, which it always is in the code; the reports scale it, so C117_line has the roundings of the scaling. C117_edge_false shows in f64 that a difference just below the tolerance may be refused. NaN is in the exact model (C48)."
  },
  {
   "property": "C118",
   "status": "partial",
   "theorems": [
    "QM.Rounded.C118_close",
    "QM.Rounded.C118_fractions",
    "QM.Rounded.C118_parity",
    "QM.Rounded.C118_strikes",
    "QM.Rounded.C118_nonneg",
    "QM.Rounded.C118_forward_partial",
    "QM.Rounded.C118_forward_false",
    "QM.Rounded.C118_bounds",
    "QM.Rounded.C118_still"
   ],
   "note": "The claim about forwards needs every step to keep at least nothing of the path: C118_forward_false shows a put that costs more on a higher forward after a draw that takes away more than everything, which the code allows (see C89). All else is proved as stated, for one observation and one flow."
  }
 ]
}