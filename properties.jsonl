{"id": "C01", "title": "Date and year/month/day convert back and forth without loss", "statement": "For every valid Date d, building a date from the year, month and day reported for d gives d back; and for every real Gregorian calendar day in the supported range, building a Date from it and asking for its year, month and day gives the same triple back.", "quantifier": "all 72,999 valid dates, and all Gregorian days in the range (in fact every day from the year -4600 onwards)", "why_tests_cant": "The conversion is a chain of truncating integer divisions whose error modes sit at century, leap-year and month boundaries; unit tests sample a handful of dates.", "anchors": ["src/dates/mod.rs: Date::from_ymd, Date::ymd, truncated_julian_from_ymd, ymd_from_truncated_julian"]}
{"id": "C02", "title": "Adding one day moves to the next Gregorian calendar day", "statement": "For every Date d, the year/month/day of d+1 is the Gregorian successor of the year/month/day of d (month lengths, leap years every 4 years except centuries not divisible by 400), and the reported triple is always a real calendar day.", "quantifier": "all dates in the supported range", "why_tests_cant": "Needs agreement with the Gregorian rule at every day, including every leap-century case.", "anchors": ["src/dates/mod.rs: Date::ymd, Add<i32> for Date, ymd_from_truncated_julian"]}
{"id": "C03", "title": "Date order is calendar order", "statement": "For all valid dates a and b, a < b exactly when (year, month, day) of a is lexicographically before that of b, and b - a is the number of calendar days between them.", "quantifier": "all pairs of dates", "why_tests_cant": "Quantifies over all pairs; a single non-monotone boundary would be invisible to sampled tests.", "anchors": ["src/dates/mod.rs: Date Ord, Sub<Date> for Date, ymd_from_truncated_julian"]}
{"id": "C04", "title": "Weekdays follow a seven-day cycle and invalid dates are rejected", "statement": "day_of_week answers a number in 0..6 for every valid date, adding k days moves it by k modulo 7, it is 0 exactly on Mondays of the real calendar, and it panics exactly on dates that is_valid rejects.", "quantifier": "all dates and all day offsets", "why_tests_cant": "The rule must hold for all offsets, and the panic domain must be exactly the invalid dates.", "anchors": ["src/dates/mod.rs: Date::day_of_week, Date::is_valid, is_valid_truncated_julian, day_of_week_from_truncated_julian"]}
{"id": "C05", "title": "Dates survive being written as text and read back; bad text is an error", "statement": "Parsing the text form of any valid date gives that date back, two different valid dates never share a text form, and no input text whatever makes parsing panic: it either yields a valid date or an error.", "quantifier": "all valid dates and all input strings", "why_tests_cant": "The domain of strings is infinite; tests only try well-formed text.", "anchors": ["src/dates/mod.rs: FromStr for Date, Display for Date, Serialize/Deserialize for Date"]}
{"id": "C06", "title": "Date conversions never overflow 32-bit arithmetic", "statement": "Every intermediate value computed while converting a valid date to year/month/day, or a Gregorian day in the supported range to a date, fits in a signed 32-bit integer.", "quantifier": "all valid dates, all in-range triples, all intermediate results", "why_tests_cant": "Overflow is a property of every intermediate on every input.", "anchors": ["src/dates/mod.rs: truncated_julian_from_ymd, ymd_from_truncated_julian"]}
{"id": "C07", "title": "A calendar step always lands on a business day", "statement": "Whatever the start date, number of steps (positive, zero or negative) and slip direction, the date returned by Calendar::step is a business day of that calendar, as the Calendar documentation says.", "quantifier": "all calendars (every holiday list), all start dates, all step counts, both slip directions", "why_tests_cant": "Interaction of weekends with arbitrary runs of holidays gives an unbounded space of cases.", "anchors": ["src/dates/calendar.rs: Calendar::step, WeekdayCalendar, WeekdayAndHolidayCalendar, VolatilityCalendar, EveryDayCalendar"]}
{"id": "C08", "title": "A multi-step calendar move equals that many single steps", "statement": "Stepping by n business days is the same as a zero step (which slips off a holiday) followed by |n| single steps in the same direction.", "quantifier": "all calendars, start dates and step counts", "why_tests_cant": "The implementation uses closed-form week arithmetic plus a holiday correction; equality with iteration must hold for all n and all holiday lists.", "anchors": ["src/dates/calendar.rs: Calendar::step docs lines 34-47, WeekdayCalendar::step, WeekdayAndHolidayCalendar::step"]}
{"id": "C09", "title": "A zero step is the nearest business day in the slip direction", "statement": "A zero step from a business day stays there; from a holiday it gives the first business day after it (slipping forward) or the last one before it (slipping back), with no business day skipped.", "quantifier": "all calendars, dates, slip directions", "why_tests_cant": "Runs of holidays are unbounded.", "anchors": ["src/dates/calendar.rs: slip_to_next_weekday, WeekdayAndHolidayCalendar::slip_to_next, Calendar::step"]}
{"id": "C10", "title": "Business-day counts equal a day-by-day count", "statement": "The number of business days between two date/day-fraction points equals the sum of the weights of the days from the first to the last inclusive, less the elapsed part of the first day and the remaining part of the last day; consequently counts over adjacent intervals add up.", "quantifier": "all calendars, all pairs of dates, all day fractions in [0,1]", "why_tests_cant": "Closed-form week arithmetic with holiday subtraction against an unbounded day-by-day sum.", "anchors": ["src/dates/calendar.rs: Calendar::count_business_days for all four calendars; tests' manual_count"]}
{"id": "C11", "title": "Counting undoes stepping", "statement": "The business-day count between a business day and the date reached by stepping n business days from it is n (or -n stepping back, with the ends swapped).", "quantifier": "all calendars, business-day start dates, step counts", "why_tests_cant": "Relates two independent closed-form algorithms on all inputs.", "anchors": ["src/dates/calendar.rs: Calendar::step, Calendar::count_business_days"]}
{"id": "C12", "title": "Stepping back undoes stepping forward", "statement": "From any business day, stepping forward n and then back n (or the other way round) returns to the start; stepping is strictly monotone in the number of steps.", "quantifier": "all calendars, business-day start dates, step counts", "why_tests_cant": "The forward and backward code paths are different formulas; they must be inverse on all inputs.", "anchors": ["src/dates/calendar.rs: WeekdayCalendar::step, WeekdayAndHolidayCalendar::step"]}
{"id": "C13", "title": "Modified-following stays in the month", "statement": "ModifiedFollowing returns a business day; it is the next business day when that lies in the same month, otherwise the previous one; whenever the month of the input has any business day the result is in that month.", "quantifier": "all calendars and dates", "why_tests_cant": "Month ends combined with arbitrary holiday runs.", "anchors": ["src/dates/rules.rs: ModifiedFollowing::apply, BusinessDays::apply"]}
{"id": "C14", "title": "Volatility time is a weighted mixture and never runs backwards", "statement": "The volatility calendar's count from a base point is the holiday-weighted mixture of all days and business days, is additive, never negative for an end at or after the start, and never decreases as the end date moves later.", "quantifier": "all base calendars, weights in [0,1], dates and day fractions", "why_tests_cant": "Monotonicity over all pairs and weights.", "anchors": ["src/dates/calendar.rs: VolatilityCalendar::count_business_days, year_fraction"]}
{"id": "C15", "title": "Linear interpolation goes through its pillars and stays between neighbours", "statement": "At each pillar the interpolator returns that pillar's value; strictly between two pillars it returns the straight-line value, which lies between the two pillar values.", "quantifier": "all validated lists of points (any length), all query points", "why_tests_cant": "Binary search plus interpolation over any number of points.", "anchors": ["src/math/interpolation.rs: Linear, linear_interpolate_extrapolate, linear_interpolate, lerp"]}
{"id": "C16", "title": "Interpolator construction accepts exactly increasing abscissae", "statement": "Building an interpolator succeeds exactly when there is at least one point and the abscissae are strictly increasing by more than the tolerance; a successful build makes every in-range query succeed.", "quantifier": "all lists of points", "why_tests_cant": "All lengths and orders of input.", "anchors": ["src/math/interpolation.rs: Linear::new, CubicSpline::new, validate_abscissae"]}
{"id": "C17", "title": "Extrapolation follows the choice made for that side", "statement": "To the left of the first point the `left` choice decides and to the right of the last point the `right` choice decides (Flat: end value, Natural: continue, NotANumber: NaN, Zero: zero, Throw: error), independently of the other side's choice.", "quantifier": "all point lists, all 25 combinations of choices, all query points outside the range", "why_tests_cant": "Tests cover a few combinations; the claim is independence over all of them.", "anchors": ["src/math/interpolation.rs: linear_interpolate_extrapolate lines 126-159, CubicSpline::interpolate lines 280-330, Extrap"]}
{"id": "C18", "title": "A cubic spline goes through its pillars and satisfies the spline equations", "statement": "Construction succeeds without panicking on any validated list of points; the curve passes through every pillar, its slope is continuous at interior pillars, and the end conditions follow the extrapolation choice on each side.", "quantifier": "all validated lists of points and end conditions", "why_tests_cant": "Correctness of a tridiagonal elimination of any size.", "anchors": ["src/math/interpolation.rs: CubicSpline, nr_spline, nr_splint"]}
{"id": "C19", "title": "The root finder returns a bracketed root or an error", "statement": "If zbrent succeeds, the result lies in the original interval and either the function is exactly zero there or the function changes sign within the stated tolerance of it; it evaluates the function at most max_iter+2 times; an error from the function is passed on; ends with the same strict sign are refused.", "quantifier": "all functions (including ones that return errors), intervals, tolerances and iteration limits", "why_tests_cant": "All functions; the loop has data-dependent branches.", "anchors": ["src/math/brent.rs: zbrent"]}
{"id": "C20", "title": "Discount factors compose", "statement": "df(a,a)=1, df(a,b)*df(b,c)=df(a,c), df(a,b)*df(b,a)=1 and df is positive, for every curve that can quote the dates involved.", "quantifier": "all curves including nested bump decorators, all dates", "why_tests_cant": "All curves and date triples, including the from==to shortcut.", "anchors": ["src/data/curves.rs: RateCurve::df, RateCurve::rt"]}
{"id": "C21", "title": "Rate curve bumps do what their size says", "statement": "A zero bump leaves every discount factor unchanged; bumping by a and then by b equals bumping by a+b (flat bumps); a relative bump of size b multiplies every rate by 1+b.", "quantifier": "all curves, bump sizes and dates", "why_tests_cant": "Any nesting of decorators.", "anchors": ["src/data/curves.rs: AnnualisedFlatBump, ContinuouslyCompoundedFlatBump, RelativeBump"]}
{"id": "C22", "title": "Fixing lookup: known value, absent today, error in the past", "statement": "A fixing that was supplied is returned unchanged; a fixing that was not supplied is an error when its date is before the known-until date and absent otherwise; supplying the same date-time twice for one instrument, or one instrument twice, is refused.", "quantifier": "all fixing tables and queries", "why_tests_cant": "All histories of construction and all queries.", "anchors": ["src/data/fixings.rs: FixingTable::get, FixingTable::from_fixings, Fixings::new"]}
{"id": "C23", "title": "A refused fixing insert leaves the table unchanged", "statement": "If inserting a fixing curve into a table is refused with an error, later lookups give the same answers as before the attempt.", "quantifier": "all tables and inserts", "why_tests_cant": "A statement about the state after an error, for all histories.", "anchors": ["src/data/fixings.rs: FixingTable::insert"]}
{"id": "C24", "title": "Dividend sums cover exactly the dates after the first up to the second", "statement": "The dividend total between two dates is the sum of the (projected) amounts of the dividends that go ex after the first and on or before the second date; totals over adjacent intervals add up; dividends at or before the base date never count.", "quantifier": "all dividend streams, spots, curves and date pairs", "why_tests_cant": "Any number of dividends on arbitrary (possibly equal) dates.", "anchors": ["src/data/divstream.rs: DividendBootstrap::new, undiscounted_sum, undiscounted_sum_from_base, discounted_sum_from_base"]}
{"id": "C25", "title": "Remaining fixed cash dividends after a date", "statement": "discounted_cash_divs_after(date) is the discounted total of the cash dividends that go ex after that date, for every date up to the high water mark.", "quantifier": "all dividend streams and dates", "why_tests_cant": "All streams and dates, including dates between dividends.", "anchors": ["src/data/divstream.rs: DividendBootstrap::discounted_cash_divs_after, lines 280-292 and 391-414"]}
{"id": "C26", "title": "The equity forward is consistent with spot and drops by its dividends", "statement": "With no dividend at the base date and no dividend yield accrued, the forward at the base date is the spot; between dividends it grows at the financing rate; across an ex-date it drops by the dividend carried to that date.", "quantifier": "all dividend streams, curves, spots and dates", "why_tests_cant": "All streams and all dates.", "anchors": ["src/data/forward.rs: EquityForward::new, EquityForward::forward, log_discount_with_borrow"]}
{"id": "C27", "title": "A dividend yield lowers the forward", "statement": "Adding a positive dividend yield never raises an equity forward.", "quantifier": "all streams with a yield, all dates", "why_tests_cant": "Comparison between all pairs of curves.", "anchors": ["src/data/forward.rs: EquityForward::forward lines 95-111, src/data/divstream.rs: DividendStream"]}
{"id": "C28", "title": "Bumping dividends scales them by one plus the bump", "statement": "A relative dividend bump of size b multiplies every explicit dividend and the dividend yield by 1+b; a bump of zero changes nothing.", "quantifier": "all dividend streams and bump sizes", "why_tests_cant": "All streams.", "anchors": ["src/data/divstream.rs: DividendStream::new_bump_all, src/data/bumpdivs.rs, src/data/curves.rs: RelativeBump"]}
{"id": "C29", "title": "Flat volatility: variance is vol squared times time and forward variances add up", "statement": "On a flat surface the variance to a date is vol^2 times the calendar's year fraction, whatever the strike; forward variance over adjacent intervals adds up, is never negative and forward variance from on or before the base date is the spot variance.", "quantifier": "all calendars, vols, dates and strikes", "why_tests_cant": "All dates and calendars.", "anchors": ["src/data/volsurface.rs: FlatVolSurface, VolSurface::variances, VolSurface::forward_variances"]}
{"id": "C30", "title": "Forward variance of a skewless surface is the difference of variances", "statement": "When the surface's volatility does not depend on strike, the forward variance between two dates is the variance to the later date less the variance to the earlier date, whether or not the surface carries a forward curve.", "quantifier": "all skewless surfaces, forward curves, dates and strikes", "why_tests_cant": "All surfaces.", "anchors": ["src/data/volsurface.rs: VolSurface::forward_variances lines 124-187"]}
{"id": "C31", "title": "Interpolated surfaces hit their pillars and never return a calendar-arbitrage variance", "statement": "A volatility-by-probability surface returns the pillar volatility at pillar dates; between pillars the variance at fixed normalised strike lies between the two pillar variances and is non-decreasing in time, or an error is returned.", "quantifier": "all surfaces with any number of pillars, all dates and strikes", "why_tests_cant": "Any number of pillars.", "anchors": ["src/data/volsurface.rs: VolByProbability::volatilities, pillar_variances, interpolate"]}
{"id": "C32", "title": "Bumped volatilities are never negative and zero bumps change nothing", "statement": "Every volatility returned by a bumped surface is at least zero; bumping a surface of non-negative vols by zero leaves every volatility unchanged; a replace bump gives exactly the replacement volatility.", "quantifier": "all surfaces, nested bumps, dates and strikes", "why_tests_cant": "Any nesting of decorators.", "anchors": ["src/data/voldecorators.rs: ParallelBumpVol, TimeScaledBumpVol; src/data/bumpvol.rs: BumpVol::apply"]}
{"id": "C33", "title": "The down bump used for two-sided risk is the mirror image of the up bump", "statement": "Applying an up bump of size b and then the matching down bump leaves the spot (or volatility) exactly b below its starting value, so up and down values are symmetric about the start.", "quantifier": "all bump sizes and starting values", "why_tests_cant": "An identity over all reals.", "anchors": ["src/risk/deltagamma.rs: generate lines 141-146; src/data/bumpvol.rs: BumpVol::opposite; src/data/bumpspot.rs"]}
{"id": "C34", "title": "Bump then restore puts market data back exactly", "statement": "After any sequence of bumps made with a save area, restoring from that save area makes every spot, curve, dividend, borrow and volatility answer what it answered before the first of those bumps.", "quantifier": "all market data, all bump sequences sharing a save area", "why_tests_cant": "All histories of bumps.", "anchors": ["src/risk/marketdata.rs: MarketData::bump, apply_bump, restore, SavedData"]}
{"id": "C35", "title": "A bump touches only what it names", "statement": "A bump of one kind on one id changes no data of another kind and no data of another id; a bump of an id that is not present changes nothing and reports false.", "quantifier": "all market data and bumps", "why_tests_cant": "Frame property over all states.", "anchors": ["src/risk/marketdata.rs: MarketData::bump, apply_bump"]}
{"id": "C36", "title": "Prefetched pricing data always equals a fresh fetch", "statement": "After any history of bumps and restores, the spot, yield curve, forward curve and volatility surface served by the prefetching context are what a freshly built context over the current market data would serve.", "quantifier": "all dependency sets, market data and histories of bumps and restores", "why_tests_cant": "Cache coherence is a property of all histories.", "anchors": ["src/risk/cache.rs: PricingContextPrefetch::new, bump, restore, refetch"]}
{"id": "C37", "title": "A failed bump leaves the pricing context as it was", "statement": "If bumping the prefetching context returns an error, later queries answer what they answered before.", "quantifier": "all contexts and bumps", "why_tests_cant": "State after error for all histories.", "anchors": ["src/risk/cache.rs: PricingContextPrefetch::bump, refetch lines 70-137"]}
{"id": "C38", "title": "Declared dependencies are the furthest requests, in any order", "statement": "The high-water mark recorded for a yield curve or forward is the latest date any instrument asked for, regardless of the order and repetition of requests.", "quantifier": "all sequences of dependency requests", "why_tests_cant": "All orders and multiplicities.", "anchors": ["src/risk/dependencies.rs: DependencyCollector, set_hwm"]}
{"id": "C39", "title": "Pricing asks only for declared dependencies", "statement": "Every market data request an instrument makes while pricing was declared beforehand when its dependencies were collected, to at least as far a date.", "quantifier": "all instruments (nested baskets and options), all pricing dates", "why_tests_cant": "All nested instruments.", "anchors": ["src/instruments/mod.rs: DependencyContext docs 318-320; src/instruments/options.rs: dependencies, prices; basket.rs; bonds.rs; assets.rs"]}
{"id": "C40", "title": "A basket is worth the weighted sum of its parts", "statement": "The price of a basket on each date is the weighted sum of its components' prices on that date, at any nesting depth, and it fails exactly when a component fails.", "quantifier": "all baskets at any nesting depth, all pricing contexts and date lists", "why_tests_cant": "Recursive structure of any depth and width.", "anchors": ["src/instruments/basket.rs: Priceable for Basket"]}
{"id": "C41", "title": "Put-call parity", "statement": "For a call and a put with the same strike, expiry and settlement, the call price less the put price is the discounted difference of forward and strike, on every pricing date up to expiry.", "quantifier": "all market data, strikes, dates and dividend assumptions", "why_tests_cant": "All market states.", "anchors": ["src/instruments/options.rs: VanillaOption::prices lines 88-164; src/math/optionpricing.rs: Black76"]}
{"id": "C42", "title": "Option fixing pays the payoff", "statement": "When its expiry fixing is known, a European option turns into cash worth max(S-K,0) (call) or max(K-S,0) (put) paid on the pay date, or for physical settlement into a position worth the same; out of the money it vanishes; when not known it is unchanged; if in the past and missing it is an error.", "quantifier": "all strikes, spots, option kinds, fixing tables", "why_tests_cant": "All fixings and all kinds.", "anchors": ["src/instruments/options.rs: SpotStartingEuropean::fix lines 343-390, ForwardStartingEuropean::fix"]}
{"id": "C43", "title": "Fixing a portfolio multiplies weights through and preserves the rest", "statement": "fix_all replaces each instrument by its fixed components with weights multiplied, keeps the others in order, and reports no change exactly when no instrument changes; the total value of the portfolio is preserved whenever each instrument's fix preserves value.", "quantifier": "all portfolios and fixing tables", "why_tests_cant": "Any number of instruments with changes at any positions.", "anchors": ["src/instruments/mod.rs: fix_all lines 138-175; src/instruments/basket.rs: fix"]}
{"id": "C44", "title": "Delta and gamma are exact for quadratic value functions", "statement": "If the value is a quadratic function of a spot, the delta and gamma report for that underlying equals its first and second derivatives exactly, and underlyings that do not affect the value have zero delta and gamma.", "quantifier": "all value functions quadratic in each spot, all non-zero bump sizes, any number of underlyings", "why_tests_cant": "An algebraic identity over all quadratics and a loop over any number of underlyings.", "anchors": ["src/risk/deltagamma.rs: DeltaGammaReportGenerator::generate"]}
{"id": "C45", "title": "Vega and volga are exact for quadratic value functions", "statement": "If the value is a quadratic function of a flat volatility shift, the vega and volga report equals its first and second derivatives exactly.", "quantifier": "all quadratics and bump sizes", "why_tests_cant": "An algebraic identity over all quadratics.", "anchors": ["src/risk/vegavolga.rs: VegaVolgaReportGenerator::generate; src/data/bumpvol.rs: BumpVol::opposite"]}
{"id": "C46", "title": "Risk reports leave the pricer as they found it", "statement": "After a delta/gamma or vega/volga report succeeds, the pricer answers every query as before and the save area is empty, so the order of reports does not matter.", "quantifier": "all pricers, underlyings and sequences of reports", "why_tests_cant": "Any number of underlyings and reports sharing one save area.", "anchors": ["src/risk/deltagamma.rs: generate; src/risk/vegavolga.rs: generate; src/facade/mod.rs: calculate"]}
{"id": "C47", "title": "Time-bumped reports do not disturb the original pricer", "statement": "Generating a time-bumped report leaves the original pricer unchanged and its theta is the bumped price less the unbumped price; rolling time past the expiry of several options on one underlying does not fail.", "quantifier": "all pricers, bumps and portfolios", "why_tests_cant": "Any portfolio; includes coincident expiries.", "anchors": ["src/risk/timebumped.rs: generate; src/risk/bumptime.rs: apply, update_instruments"]}
{"id": "C48", "title": "Report comparison accepts exactly equal-within-tolerance reports", "statement": "Comparing two delta/gamma (or vega/volga) reports finds no differences exactly when both cover the same underlyings and each figure agrees within the scaled tolerance; a report always matches itself for positive tolerances.", "quantifier": "all pairs of reports and tolerances", "why_tests_cant": "All maps of any size.", "anchors": ["src/risk/deltagamma.rs: validate; src/risk/vegavolga.rs: validate; src/risk/mod.rs: validate; src/facade/mod.rs: assert_approx_eq_reports"]}
{"id": "C49", "title": "Deduplicated serialisation round-trips and writes each shared part once", "statement": "Writing an object graph in write-once mode and reading it back gives an equal graph, with each identified part written in full exactly once; in inline mode the text stands alone; in error-if-missing mode every shared part must be supplied beforehand and the text contains only ids.", "quantifier": "all finite object graphs with identified shared parts, all three modes, all pre-supplied maps", "why_tests_cant": "Recursive graphs of any depth and sharing pattern.", "anchors": ["src/core/dedup.rs: serialize_with_dedup, deserialize_with_dedup, string_or_struct"]}
{"id": "C50", "title": "Dedup sessions nest without leaking", "statement": "Running any computation inside a dedup session, whether it succeeds or returns an error, restores the previously active session afterwards, at any nesting depth.", "quantifier": "all computations and nesting depths", "why_tests_cant": "All nestings and outcomes.", "anchors": ["src/core/dedup.rs: Dedup::with lines 40-59"]}
{"id": "C51", "title": "Tagged values load as the type they were saved as", "statement": "Saving a polymorphic value and loading it back through the registry gives the same kind of value with the same content at any nesting depth; a tag that is not registered is an error.", "quantifier": "all nested polymorphic values, all registries", "why_tests_cant": "Recursive nesting of decorators of any depth.", "anchors": ["src/core/factories.rs: Registry, Qrc; src/data/curves.rs: get_registry"]}
{"id": "C52", "title": "Monte-Carlo price of a portfolio is the weighted sum of discounted average flows", "statement": "The Monte-Carlo price of a portfolio is the sum over its instruments of weight times the average over paths of its discounted flows; every simulated path value has the forward as its mean under the random draws.", "quantifier": "all path counts, instruments and variance schedules", "why_tests_cant": "All portfolios and path counts.", "anchors": ["src/models/blackdiffusion.rs: evaluate_flows, fetch_path; src/pricers/montecarlopricer.rs: price"]}
{"id": "C53", "title": "Implied volatility reprices the target and leaves the pricer unchanged", "statement": "When the implied volatility solver succeeds, pricing with the returned flat volatility matches the target within the solver's bracket, and afterwards the pricer gives its original price.", "quantifier": "all pricers and targets", "why_tests_cant": "All value functions.", "anchors": ["src/solvers/impliedvol.rs: ImpliedVol, Solver1D; src/math/brent.rs"]}
{"id": "C54", "title": "Handles are used and released safely", "statement": "Through the C interface, asking a handle for the wrong kind of object gives an error rather than undefined behaviour, an error handle passes its error on, a panic inside a call becomes an error handle, and no sequence of documented calls frees a handle twice or reads a freed handle.", "quantifier": "all sequences of interface calls", "why_tests_cant": "All call sequences.", "anchors": ["src/facade/handle.rs: Handle, extern_handle; src/facade/c_interface.rs"]}
{"id": "C55", "title": "Bootstrapping from a dividend stream respects order and horizon", "statement": "Bootstrapping fails if dividends are out of ex-date order or overlap the dividend yield; when it succeeds, every query up to the high water mark succeeds and queries past it are errors; explicit cash dividends are always included even past the requested horizon.", "quantifier": "all streams, horizons and queries", "why_tests_cant": "All lists of dividends.", "anchors": ["src/data/divstream.rs: DividendBootstrap::new lines 198-302, undiscounted_sum_from_base"]}
{"id": "C56", "title": "A volatility-calendar step ends on the nearest date in volatility time", "statement": "Stepping a volatility calendar by any whole or fractional number of days ends on the date, on the requested side of the start, whose weighted day count from the start is closest to the number requested; the search always finishes and never trips its internal assertion.", "quantifier": "all base calendars, all holiday weights from 2e-12 to 1, all start dates, all real step sizes of either sign", "why_tests_cant": "The search is a loop with a data-dependent stride; its result and termination depend on every holiday pattern.", "anchors": ["src/dates/calendar.rs: VolatilityCalendar::step_partial lines 549-605, Calendar::step_partial default lines 66-71"]}
{"id": "C57", "title": "Discount factors follow the documented direction", "statement": "df(from, to) is the documented exp(-r(t2)*t2)/exp(-r(t1)*t1) with t1 the time to `from` and t2 the time to `to`; so with rates that are not negative a later `to` never gives a factor above one.", "quantifier": "all curves and pairs of dates", "why_tests_cant": "All curves and dates; tests compare rt, not df.", "anchors": ["src/data/curves.rs: RateCurve documentation lines 17-24, df lines 48-56"]}
{"id": "C58", "title": "A flat rate bump moves every discount factor by the bump over the time between the dates", "statement": "Bumping a curve by a flat continuously compounded amount b multiplies the factor between two dates by exp(b * days/365).", "quantifier": "all curves including the zero curve and nested bumps, all bump sizes and dates", "why_tests_cant": "All curves and decorators.", "anchors": ["src/data/curves.rs: ContinuouslyCompoundedFlatBump lines 229-239, ZeroRateCurve lines 100-106; src/data/bumpyield.rs"]}
{"id": "C59", "title": "An option at its expiry is worth its payoff", "statement": "Priced at its own expiry, or whenever no variance is left, an option is worth the discounted payoff on its forward, whether it is in, at or out of the money.", "quantifier": "all strikes, forwards, option kinds and discount curves", "why_tests_cant": "The boundary case of zero variance is a 0/0 in the formula at one exact strike, which no sampled test hits.", "anchors": ["src/math/optionpricing.rs: d_plus_minus lines 49-53; src/instruments/options.rs: VanillaOption::prices lines 126-158"]}
{"id": "C60", "title": "Black-Scholes prices respect the no-arbitrage bounds and rise with volatility", "statement": "A call is worth at least the discounted payoff on the forward and at most the discounted forward, a put at most the discounted strike; both strictly increase with volatility; a higher strike never makes a call dearer or a put cheaper.", "quantifier": "all positive forwards, strikes and standard deviations, all discount factors", "why_tests_cant": "A statement about a continuum of arguments of a transcendental function.", "anchors": ["src/math/optionpricing.rs: Black76::call_price, put_price; src/instruments/options.rs"]}
{"id": "C61", "title": "Correlated draws have the requested correlations", "statement": "When draws for several underlyings are correlated, each has variance one and each pair has the correlation the market asked for.", "quantifier": "all numbers of underlyings, all positive definite correlation matrices, paths and steps", "why_tests_cant": "A statement about the distribution of the draws; a test can only sample it.", "anchors": ["src/models/blackdiffusion.rs: fetch_correlated_gaussians, correlation root"]}
{"id": "C62", "title": "Monte-Carlo and analytic prices agree when nothing is uncertain", "statement": "If no variance is left to an option's observations, its Monte-Carlo price is exactly its price from the self pricer, whatever the draws and number of paths.", "quantifier": "all options, markets without variance, draws and path counts", "why_tests_cant": "All draws and all markets.", "anchors": ["src/models/blackdiffusion.rs; src/pricers/montecarlo.rs; src/instruments/options.rs: mc_price, prices, mc_dependencies lines 490-500"]}
{"id": "C63", "title": "The simulated asset has nearly the log-normal second moment", "statement": "The second moment of the simulated martingale at each observation is at most exp(variance) and at least exp(variance * (1 - substep/2)), so the variance lost to discretisation is controlled by the substep.", "quantifier": "all variance schedules that do not decrease, substep sizes, observations and paths", "why_tests_cant": "An expectation over the draws for all schedules.", "anchors": ["src/models/blackdiffusion.rs: calculate_substepping, fetch_path"]}
{"id": "C64", "title": "Risk reports leave a Monte-Carlo pricer as they found it and reuse its draws", "statement": "After any report succeeds, the Monte-Carlo pricer holds the paths and market it started with, so its price is the same; a bumped price is computed along the same draws, with the same number of steps, as the unbumped one.", "quantifier": "all portfolios, markets, draws, reports and groups of reports", "why_tests_cant": "All reports on all pricers; restoring is spread over several layers of saved data.", "anchors": ["src/models/blackdiffusion.rs: bump, restore, refetch; src/pricers/montecarlo.rs; src/risk/deltagamma.rs; src/risk/vegavolga.rs; src/risk/timebumped.rs"]}
{"id": "C65", "title": "A Monte-Carlo pricer can be rolled forward wherever the self pricer can", "statement": "Bumping the time of a Monte-Carlo pricer succeeds whenever the same bump of the self pricer for the same portfolio does.", "quantifier": "all portfolios, markets and dates", "why_tests_cant": "All portfolios and roll dates.", "anchors": ["src/pricers/montecarlo.rs: bump_time; src/risk/bumptime.rs; src/instruments/mod.rs: is_mc_priceable"]}
{"id": "C66", "title": "Dates out of range roll over", "statement": "from_ymd with a day past the end or before the beginning of its month gives the day that many days away, and month m + 12 of a year is month m of the next, as the documentation promises ('2001-02-30 is a synonym for' 2 March).", "quantifier": "all years, months, days and offsets", "why_tests_cant": "An identity over four unbounded integers; the division truncates, so signs matter.", "anchors": ["src/dates/mod.rs: Date::from_ymd, truncated_julian_from_ymd"]}
{"id": "C67", "title": "Year fractions are weighted days in conventional years", "statement": "year_fraction between two points is the day-by-day weighted count divided by the length of a conventional year: 365 for the every-day calendar, 252 for business-day calendars, and 252 plus the weight of the other 113 days for volatility calendars; year fractions over adjacent intervals add up.", "quantifier": "all calendars, holiday lists, weights, dates and day fractions", "why_tests_cant": "The count is computed by a closed formula with week and holiday corrections; agreement with the day-by-day definition is for all intervals.", "anchors": ["src/dates/calendar.rs: Calendar::year_fraction, standard_basis lines 75-80, 158-163, 264-269, 468-473, 607-612"]}
{"id": "C68", "title": "Curves quote the rates they were given", "statement": "A rate curve can be built exactly from dated rates in strictly increasing order of date. It quotes each supplied rate at its date, lies on the straight line between neighbouring dates, measures time as actual days from the base date over 365, and quotes zero over no time at its base date.", "quantifier": "All base dates, lists of dated rates, extrapolation choices and query dates.", "why_tests_cant": "Tests check a few curves at a few dates; they cannot cover pillars before, on and after the base date for every curve.", "anchors": ["src/data/curves.rs:130-166"]}
{"id": "C69", "title": "Evolving a vol surface to a later date", "statement": "A surface moved to a new base date reports that base date. With constant expiries it answers the volatilities it answered before, and measures the time to expiry from the new base date. With rolling expiries it answers, for an expiry so many business days after the new base date, what it answered for one as far from the old. Moving to the date it is on changes nothing.", "quantifier": "All surfaces whose time is counted from their base date, however decorated; all new base dates, expiries and lists of strikes.", "why_tests_cant": "Tests move one or two surfaces over a few days of one calendar; they cannot cover every stack of decorators, weekends and fractions of days.", "anchors": ["src/data/volsurface.rs:298-343", "src/data/voldecorators.rs:18-155"]}
{"id": "C70", "title": "Vols follow the forward as the dynamics say", "statement": "When the forward moves, a sticky strike surface answers as before, and a sticky delta surface answers, at a strike that is a given multiple of the new forward, what it answered at the same multiple of the old forward. Surfaces without a forward are unaffected.", "quantifier": "All surfaces, old and new forward curves, expiries and lists of strikes.", "why_tests_cant": "Tests compare one surface under one parallel move of the spot; they cannot cover moves of the forward that leave the spot alone or zero strikes and forwards.", "anchors": ["src/data/volsurface.rs:345-395", "src/data/voldecorators.rs:292-385"]}
{"id": "C71", "title": "Strikes are displaced by the cash dividends to come", "statement": "A vol surface displaces strikes by nothing when it assumes no cash dividends or independent lognormals, by the cash still to be paid when it assumes fixed dividends, and refuses to answer for jump dividends. Bumps and the passing of time leave this, the forward and the calendar of the surface alone; a surface that follows a new forward uses the cash of that forward.", "quantifier": "All surfaces, however many bumps and time evolutions are stacked on them; all dates, cash curves and dividend assumptions.", "why_tests_cant": "Tests use surfaces without cash dividends, or one decorator at a time.", "anchors": ["src/data/volsurface.rs:262-296", "src/data/volsurface.rs:583-600", "src/data/voldecorators.rs:60-90", "src/data/voldecorators.rs:355-385"]}
{"id": "C72", "title": "Instruments are worth what their terms say", "statement": "A currency is worth one; an equity the quoted spot today and the forward on other dates; a zero coupon the discount from its payment date to the settlement of the valuation date until its ex-date and nothing after; an option Black's formula, discounted the same way, on the value of its underlying at expiry with the variance from the valuation time (or the strike time, if later) to expiry at its strike. A forward-starting option whose strike date has passed is refused.", "quantifier": "All instruments of each kind, contexts, valuation dates and times of day.", "why_tests_cant": "Tests price a handful of contracts in one market; the formula has to hold for all terms, times of day and contexts.", "anchors": ["src/instruments/assets.rs:124-132", "src/instruments/assets.rs:281-303", "src/instruments/bonds.rs:124-141", "src/instruments/options.rs:88-164", "src/instruments/options.rs:446-476"]}
{"id": "C73", "title": "Only sensible options can be made", "statement": "A spot-starting option can be made exactly with a strike that is not negative, and a forward-starting one exactly with a positive fraction of a strike fixed no later than expiry, on an equity or a basket. Either pays on the settlement date of its expiry, and expires at the beginning of the day at the open or delivery settlement and after four fifths of it at the close.", "quantifier": "All underlyings, terms, strikes and times of day.", "why_tests_cant": "Tests make a few valid options; acceptance is a statement about every combination of terms.", "anchors": ["src/instruments/options.rs:67-84", "src/instruments/options.rs:221-274", "src/instruments/assets.rs:227-237", "src/instruments/basket.rs:80-90"]}
{"id": "C74", "title": "Valuing on several dates at once gives the values on each", "statement": "Valuing an instrument on a list of dates in order gives on each date the value it has when valued on that date alone.", "quantifier": "All instruments, however deep their baskets; all markets and increasing lists of dates.", "why_tests_cant": "Tests price on one date or compare with stored numbers; the shortcut for a single spot date is taken or not depending on the length of the list.", "anchors": ["src/instruments/assets.rs:281-303", "src/instruments/basket.rs:147-168", "src/instruments/mod.rs:423-429", "src/risk/marketdata.rs:182-205"]}
{"id": "C75", "title": "Moving the spot date of a market", "statement": "Moving the spot date with sticky spots changes the date and no data. With sticky forwards it also replaces the spot of each instrument in the dependencies by its forward on the new date; without dividends on the way the spot grows at the rate less the borrow, and moving in two steps leads to the same spot as moving in one. A context says whether the date was another one. A relative bump moves a spot by that fraction of itself and a replacement puts another in its place.", "quantifier": "All markets, dependencies, dates, curves and instruments.", "why_tests_cant": "Tests move one market by a few days and compare stored numbers.", "anchors": ["src/risk/marketdata.rs:87-138", "src/data/bumpspot.rs", "src/data/bumpspotdate.rs", "src/risk/cache.rs"]}
{"id": "C76", "title": "A context answers with the data it was given", "statement": "A market answers with the spot date, and with the yield curves, spots and vol surfaces stored under the ids asked for; the forward without dividends grows at the rate less the borrow from settlement to settlement; the vol surface is moved to the spot date. A prefetching context answers like the market it was made from for whatever was declared, so every instrument declared has the same price in both.", "quantifier": "All markets, instruments however nested, lists of declared instruments and valuation dates.", "why_tests_cant": "Tests compare the two contexts on one or two options.", "anchors": ["src/risk/marketdata.rs:174-243", "src/risk/cache.rs: PricingContextPrefetch"]}
{"id": "C77", "title": "A portfolio is worth the weighted sum of its parts", "statement": "The price of a pricer is the sum of the prices of its instruments at the open of the spot date, times their weights, and an error if one of them has none; the instruments are worth what they are worth in the market the pricer was made from. The factory makes a pricer for the instrument given, or for what past fixings turn it into, on the market given.", "quantifier": "All portfolios, weights, markets and fixing tables.", "why_tests_cant": "Tests price portfolios of one instrument.", "anchors": ["src/pricers/selfpricer.rs:59-124"]}
{"id": "C78", "title": "Rolling fixes what the portfolio needs, and only that", "statement": "When a pricer is rolled to a later date, every fixing its instruments declare from the old date up to the day before the new one is given a value, and no other fixing is. The value is the spot with sticky spots and the forward on the date of the fixing with sticky forwards. The portfolio becomes what these fixings, known until the new date, turn it into.", "quantifier": "All portfolios, markets, roll dates and dynamics for which the roll succeeds.", "why_tests_cant": "Tests roll one option past one date.", "anchors": ["src/risk/bumptime.rs:35-120", "src/pricers/selfpricer.rs:152-170", "src/data/fixings.rs"]}
{"id": "C79", "title": "Simulated paths follow the market", "statement": "Whatever is bumped, spot, dividends, borrow, vol, yield or date, any number of times, the paths of a Monte-Carlo pricer are those that the market as it now is specifies along the draws it was made with. Rolling forward keeps the draws unless an instrument changes, in which case a new pricer is made from the rolled market and new draws.", "quantifier": "All pricers, markets and finite series of bumps that succeed.", "why_tests_cant": "Tests bump a pricer once; the paths are held separately from the market, so every kind of bump, in every order, has to fetch them again.", "anchors": ["src/models/blackdiffusion.rs:204-244", "src/models/blackdiffusion.rs:548-604", "src/pricers/montecarlo.rs:147-177"]}
{"id": "C80", "title": "A Monte-Carlo model holds what its options need", "statement": "A pricer that is made observes its asset exactly when its options look at it, has one payment for each option, knows paths for no other asset, and is made only if the variance does not fall from one observation to the next. Quantities of payments are worth the average quantity times the value of the payment, summed, and anything but payments is refused. The factory makes a pricer for the instrument given, or what past fixings turn it into.", "quantifier": "All portfolios, markets, model sizes, quantities and fixing tables.", "why_tests_cant": "Tests price one option in one market.", "anchors": ["src/models/mod.rs:100-150", "src/models/blackdiffusion.rs:151-201", "src/models/blackdiffusion.rs:489-539", "src/pricers/montecarlo.rs:66-115"]}
{"id": "C81", "title": "Moments are ordered as time passes", "statement": "Fixing times are ordered by date, and within a day the open comes before the settlement price and that before the close. Moments given as a date and a fraction of a day are ordered as the date plus the fraction, the comparison does not panic, and the signed distance between two of them has the sign of their order, however the arithmetic rounds. Adding days keeps the order. The constructor accepts exactly fractions from zero up to one; nothing outside that range ever enters.", "quantifier": "All dates, times of day, fractions and numbers of days; every rounding that keeps the promises of IEEE 754.", "why_tests_cant": "Tests compare four moments; that order and distance agree depends on the range of every fraction and on rounding.", "anchors": ["src/dates/datetime.rs:14-111", "src/dates/datetime.rs:113-147"]}
{"id": "C82", "title": "What is loaded is what was saved, and was checked", "statement": "An object that a constructor made, saved and loaded behaves as before: fixing tables answer alike whatever order their hash maps are written in, curves and splines are the same. A text describing an object that no constructor would make is refused with an error, and loading never panics.", "quantifier": "All objects that constructors make, all orders of writing, and all texts with well-typed fields.", "why_tests_cant": "Tests load what they have just saved; they never load a text that was edited.", "anchors": ["src/data/fixings.rs:155-213", "src/math/interpolation.rs:223-230", "src/math/interpolation.rs:338-357", "src/instruments/options.rs:44-57", "src/instruments/options.rs:179-214", "src/data/divstream.rs:79-84"]}
{"id": "C83", "title": "Interpolation between dates in floating-point arithmetic", "statement": "In the arithmetic of f64, a curve of dates is accepted exactly when its dates increase, answers a pillar's own value on its date without error, and in between answers a value that lies between those of the neighbouring pillars, has their sign, does not fall if they rise, and differs from the straight line by a few units in the last place only. The interpolation formula meets its end points exactly.", "quantifier": "All curves, dates and values; every rounding that keeps the promises of IEEE 754, without overflow and underflow.", "why_tests_cant": "Tests compare with a tolerance, which hides whether guarantees survive rounding; and the number of pairs of floats is beyond sampling.", "anchors": ["src/math/interpolation.rs:98-159", "src/math/interpolation.rs:166-191", "src/dates/mod.rs:185-193"]}
{"id": "C84", "title": "Finding roots in floating-point arithmetic", "statement": "In the arithmetic of f64, a root that the search returns is an exact zero, or the function has the opposite sign at a point within the tolerance, up to a few units in the last place. Ends of the same sign are refused, an end that is a zero is returned, errors of the function are passed on. If the ends bracket a root, a number of iterations that depends only on the width of the interval and the tolerance is enough. The function is evaluated at floats in the interval only.", "quantifier": "All functions, ends that are floats, positive tolerances and numbers of iterations; every rounding that keeps the promises of IEEE 754 with errors as small as those of f64, without overflow and underflow.", "why_tests_cant": "Tests solve three smooth functions; that the search does not stall when a step is rounded away cannot be sampled.", "anchors": ["src/math/brent.rs:12-104"]}
{"id": "C85", "title": "Business-day rules move the number of days they were made for", "statement": "A rule made by BusinessDays::new_next or new_prev moves a date to the nearest business day at or after, or at or before, it and leaves business days alone. A rule made by new_step(n) then moves n business days on, and one made by new_back(n) moves n business days back, for every n the constructor accepts. Rules compose (n days and then m days are n + m days), stepping back undoes stepping forward from a business day, and every rule keeps the order of dates.", "quantifier": "All calendars with good holiday lists, all dates, all numbers of steps of type u32.", "why_tests_cant": "Tests apply a rule of two steps to a few dates on a calendar without holidays; whether the direction survives the conversion of the number of steps, and whether rules compose on every holiday list, is not settled by examples.", "anchors": ["src/dates/rules.rs:85-130", "src/dates/calendar.rs:230-262", "src/dates/calendar.rs:411-466"]}
{"id": "C86", "title": "Business time in floating-point arithmetic", "statement": "In the arithmetic of f64, the number of business days and the year fraction from one moment to a later one are not negative, do not fall when the later moment is put off or the earlier one is brought forward, differ from the exact ones by a few units of rounding per day of the span, and are exact between midnights on calendars without weights. Rounding makes no count fail. The variance of a flat vol surface between two moments is found and is not negative.", "quantifier": "All calendars with good holiday lists and weights between zero and one, however stacked; all dates and day fractions that DateDayFraction accepts; all volatilities and lists of strikes; every rounding that keeps the promises of IEEE 754 and has no float between one less its unit and one, without overflow and underflow.", "why_tests_cant": "Tests compare counts with a tolerance; that time does not run backwards by a unit in the last place, which makes a forward variance negative and an error, is a statement about every pair of floats.", "anchors": ["src/dates/calendar.rs:75-80", "src/dates/calendar.rs:141-163", "src/dates/calendar.rs:196-228", "src/dates/calendar.rs:373-409", "src/dates/calendar.rs:518-538", "src/data/volsurface.rs:80-186", "src/data/volsurface.rs:407-455"]}
{"id": "C87", "title": "Bumped risk in floating-point arithmetic", "statement": "In the arithmetic of f64, no delta, gamma, vega or volga is reported to a number that the price does not depend on. The spot bumped down is not above the spot bumped up and is not negative, and both are within a few units of rounding of the spots that are meant. The delta of a price that rises with the spot is not negative, and so for vega. The errors of delta and gamma are rounding errors of the prices divided by the bump and by its square: a holding of w shares has a delta of w and no gamma to that accuracy. The gamma of a smooth price has the right sign.", "quantifier": "All prices as functions of the bumped number, all positive spots, all bump sizes up to one; every rounding that keeps the promises of IEEE 754, without overflow and underflow.", "why_tests_cant": "Tests compare one delta and one gamma at two bump sizes with recorded values; how the error grows as the bump shrinks, and that unrelated spots get exactly zero, is a statement about all prices and bumps.", "anchors": ["src/risk/deltagamma.rs:139-176", "src/risk/vegavolga.rs:145-177", "src/data/bumpspot.rs:20-28", "src/data/bumpvol.rs:38-55"]}
{"id": "C88", "title": "Pricing does not bring the program down", "statement": "With curves as their constructors make them and flat volatilities, bumped and moved in time, making a pricer, pricing and every risk report give a result or an error and do not panic: for the self pricer always, and for the Monte-Carlo pricer if it is asked for at least one path and for steps that are not zero. A vol surface with smiles by expiry does not panic if strikes and forwards are positive and the expiries lie apart in business time, and gives an error where its variance falls in time.", "quantifier": "All curves, dividends, instruments nested to any depth, fixings, dates, bumps and nested report generators; for surfaces with smiles all strikes, expiries and smiles.", "why_tests_cant": "A panic takes the whole process with it. Tests that price do not panic on their inputs; that no input does is a statement about all of them, through every index, search and assertion.", "anchors": ["src/data/volsurface.rs:660-753", "src/math/interpolation.rs:30-42", "src/instruments/options.rs:88-164", "src/risk/cache.rs:71-137", "src/risk/bumptime.rs:57-103", "src/models/blackdiffusion.rs:251-477"]}
{"id": "C89", "title": "Simulated steps are as small as asked for, and simulated assets stay positive", "statement": "The Monte-Carlo model reaches each observation in the smallest number of steps, at least one, for which no step is larger than the path_substep asked for, which is documented as the largest square root of the variance of a step. An asset whose forward is above its cash dividends to come stays positive on every path, so that no simulated put is worth more than its strike, discounted.", "quantifier": "All markets that give the asset forwards, variances and displacements, all substeps, numbers of paths, observations and draws; for what happens with positive probability, all spaces of independent standard normal draws.", "why_tests_cant": "Tests price one option with recorded draws at one substep. A negative asset is rare at small substeps, so sampling does not find it, and the size of the steps shows only in the bias of the price.", "anchors": ["src/models/blackdiffusion.rs:138-155", "src/models/blackdiffusion.rs:251-290", "src/models/blackdiffusion.rs:408-477"]}
{"id": "C90", "title": "Options are worth their expected payoff", "statement": "The price of an option is the discount factor to its payment times the expected payoff, where the underlying at expiry is lognormal: its mean is the forward, and its logarithm has the variance of the surface from now to expiry at the strike. With cash dividends assumed fixed, what is lognormal is the underlying less the dividends to come. A forward-starting option is worth the expected payoff against the fraction of the value at the strike date, whatever the variance up to that date.", "quantifier": "All options, strikes, forwards, variances, curves and valuation dates for which the price is a number; all probability spaces with a standard normal variable.", "why_tests_cant": "Tests compare the formula with recorded numbers, which says nothing about what it is the price of; an integral over all outcomes, for all parameters, cannot be sampled.", "anchors": ["src/math/optionpricing.rs:12-46", "src/instruments/options.rs:88-164", "src/instruments/options.rs:446-476"]}
{"id": "C91", "title": "Monte-Carlo prices converge to the analytic price", "statement": "As the number of paths grows, the Monte-Carlo price of an option converges with probability one, and the distance of the limit from the discounted expected payoff of the lognormal asset is bounded by a multiple of a number that goes to nought with the substep. So a large enough number of paths and small enough steps give the price of the self pricer to any accuracy.", "quantifier": "All options on one asset, weights, markets, substeps and accuracies; all probability spaces with independent standard normal draws.", "why_tests_cant": "A test compares one price at one number of paths within a tolerance; a limit, its bias and events of probability one are beyond sampling.", "anchors": ["src/models/blackdiffusion.rs:251-290", "src/models/blackdiffusion.rs:408-477", "src/pricers/montecarlo.rs:118-145", "src/instruments/options.rs:88-164"]}
{"id": "C92", "title": "A position is worth the same in any portfolio", "statement": "The price of a portfolio depends only on how much of each instrument it holds: not on the order of the positions, nor on whether a position is held in one line or in two. Two portfolios that can each be priced in a market can be priced together, and the price of both together is the sum of the two prices.", "quantifier": "All portfolios of instruments nested to any depth, with any weights, all markets.", "why_tests_cant": "Every portfolio is priced from one prefetched set of forwards and surfaces, keyed by id and reaching to the latest date any instrument asks for, so that a position can change what the others see. Tests price portfolios of one or two positions in one order.", "anchors": ["src/pricers/selfpricer.rs:75-121", "src/risk/dependencies.rs:123-194", "src/risk/cache.rs:30-137", "src/instruments/mod.rs:210-238"]}
{"id": "C93", "title": "The risks of options have the signs and sizes they should", "statement": "The delta report of a call gives a delta between zero and the discounted growth of the forward, that of the put with the same terms a delta smaller by just this growth. Gamma is not negative and the same for both. The vega report gives a positive vega, the same for both. All of them are proportional to the amount held, and no other underlying appears in the reports.", "quantifier": "All European options on equities, strikes, expiries, amounts, markets with rates, borrow, dividends and surfaces, and all bump sizes, such that the forward after the down bump is positive.", "why_tests_cant": "Tests compare the figures of one option with recorded values; a sign or a bound that holds for every market and bump size cannot be sampled, nor can the identity between call and put.", "anchors": ["src/risk/deltagamma.rs:139-176", "src/risk/vegavolga.rs:145-177", "src/math/optionpricing.rs:12-46", "src/data/forward.rs:118-167", "src/instruments/options.rs:88-164", "src/data/bumpvol.rs:38-55"]}
{"id": "C94", "title": "Options of one expiry admit no arbitrage", "statement": "A book of calls and puts on one underlying with one expiry is never worth less than any amount of cash and forward that never pays more than the book does, and is worth more if the book sometimes pays more. So a call spread and a put spread are worth between zero and the discounted distance of their strikes, and a butterfly is worth something.", "quantifier": "All books of European options on an equity with any number of strikes and any amounts, long or short; all amounts of cash and forward; all markets with rates, borrow, dividends and surfaces that give a forward above its displacement.", "why_tests_cant": "Tests price single options. That no combination of strikes and amounts can be bought for less than it must pay quantifies over all books, and over every value the underlying can take.", "anchors": ["src/pricers/selfpricer.rs:103-121", "src/instruments/options.rs:88-164", "src/math/optionpricing.rs:12-46", "src/data/volsmile.rs:88-97", "src/data/volsurface.rs:613-658"]}
{"id": "C95", "title": "Prices and risks do not depend on the unit of account", "statement": "Quoting the whole market and portfolio in another unit, such as pence instead of pounds, changes nothing but the unit: spots, cash dividends, strikes, fixings, forwards and the holdings of money are multiplied by the number of new units, everything else stays. Every price, vega, volga and theta is then multiplied by the same number, every delta is the same, every gamma is divided by it, and what fails in one unit fails in the same way in the other. Options and surfaces are accepted in both units or in neither. All this also holds by Monte-Carlo, along the same draws. A smile is the same in both units if its strikes are accepted in both; they are accepted in every smaller unit.", "quantifier": "All positive numbers of new units, all draws, all portfolios of instruments nested to any depth, all markets with rates, borrow, dividends and surfaces of every kind, all fixings, all sequences of changes of the market, and all nested report generators.", "why_tests_cant": "Tests use prices near 100 in one unit; an absolute threshold, a missed displacement or a strike left in the old unit shows only when everything is rescaled, for every scale.", "anchors": ["src/pricers/selfpricer.rs:75-159", "src/risk/deltagamma.rs:138-175", "src/risk/vegavolga.rs:146-176", "src/math/optionpricing.rs:12-46", "src/data/forward.rs:95-153", "src/data/volsurface.rs:545-753", "src/data/volsmile.rs:67-120", "src/instruments/options.rs:88-164"]}
{"id": "C96", "title": "Options of different expiries admit no arbitrage", "statement": "A call on an equity that pays no dividends and costs nothing to borrow costs no less if it expires later, as long as rates are not negative between the two payments, and a put does so as long as they are not positive. It costs strictly more if there is interest between the two dates, or if there is more variance until the second.", "quantifier": "All European options on equities, strikes, pairs of expiries, calendars, markets with rates and surfaces whose variance at the strike does not fall between the expiries; with a flat volatility, all markets and calendars.", "why_tests_cant": "Tests price single options. That no pair of expiries is mispriced, for any curve and calendar, ties together the forward, the discounting with its settlement dates, the business time and Black's formula, and cannot be sampled.", "anchors": ["src/instruments/options.rs:88-164", "src/math/optionpricing.rs:12-46", "src/data/forward.rs:118-167", "src/data/volsurface.rs:99-165", "src/data/volsurface.rs:417-450", "src/data/volsurface.rs:545-753"]}
{"id": "C97", "title": "Options lose value as time passes", "statement": "If only the date moves, an option on an equity that pays no dividends and costs nothing to borrow loses value: the time-bumped report of a holding has a theta of the sign opposite to the holding, and less than its price. With the spot held this is so for calls where rates are not negative until the new date, and for puts where they are not positive. With the spot moved along its forward it is so for both, whatever the rates, once the interest on the price is taken off. The report leaves the pricer as it was.", "quantifier": "All European options on equities, amounts, strikes, settlement conventions, dates before expiry until which some volatility time passes, rate curves, and surfaces of any kind dated at the spot date.", "why_tests_cant": "Tests compare one theta with a recorded figure. Its sign for every curve, calendar, surface and date ties together the roll of the spot date, the ageing of the surface, the forward, the discounting from the new settlement date and Black's formula.", "anchors": ["src/risk/timebumped.rs:122-144", "src/pricers/selfpricer.rs:132-159", "src/data/volsurface.rs:312-343", "src/data/voldecorators.rs:51-65", "src/risk/marketdata.rs:87-136", "src/instruments/options.rs:88-164"]}
{"id": "C98", "title": "An option that is not struck yet is worth a number of shares", "statement": "Until its strike is set, the value of a forward-starting option is proportional to the spot, as long as the share pays no cash dividends and its volatility does not depend on the strike. The delta report of shares and such options gives the value divided by the spot as the delta, and no gamma. Holding as many shares against them leaves nothing, wherever the spot goes. By Monte-Carlo, the price of one run and its report obey the same, whatever was drawn.", "quantifier": "All portfolios of any number of shares and forward-starting options on them, amounts, strike fractions, strike dates and expiries; all rates, borrow and proportional dividends; all flat surfaces however moved and bumped; all spots and all bump sizes below one; for Monte-Carlo, all substeps, numbers of paths and draws.", "why_tests_cant": "Tests compare the delta of one forward-starting option with a recorded figure. That gamma is exactly zero for every portfolio and every bump size holds only if the strike, the forward and the displacement all move together with the spot.", "anchors": ["src/instruments/options.rs:88-164", "src/instruments/options.rs:404-476", "src/risk/deltagamma.rs:139-176", "src/pricers/selfpricer.rs:75-121", "src/data/forward.rs:95-167"]}
{"id": "C99", "title": "Payments stay in the currency of the contract", "statement": "Whatever an instrument turns into when it is fixed pays in the currency the instrument pays in: payments of options, the underlyings they deliver, options whose strike is set, and baskets together with their members. So does the payment an option declares to a Monte-Carlo pricer. A basket has members in its own currency only.", "quantifier": "All instruments nested to any depth, all portfolios and tables of fixings.", "why_tests_cant": "Tests use one currency. That it is handed on through every kind of decomposition and every depth of basket is an induction over instruments.", "anchors": ["src/instruments/options.rs:343-439", "src/instruments/options.rs:489-497", "src/instruments/basket.rs:48-108", "src/instruments/mod.rs:138-175"]}
{"id": "C100", "title": "Prices respond to yields and to borrow the right way", "statement": "The higher the yields of its credit, the less a zero coupon is worth, the more a call and the less a put on an equity without dividends. The higher the cost of borrow, the less a call and the more a put. This is so of the price that the pricer gives after a continuously compounded bump of any size, and after an annualised bump where trades settle on the base date of the curve. A Monte-Carlo pricer agrees whatever was drawn, with the same draws in both markets and a volatility that is the same at every strike: a call is worth no less and a put no more the higher the yields, a call no more the higher the cost of borrow, and a put no less if no path ends below nought. That condition is needed.", "quantifier": "All interpolated curves of rates and borrow, bump sizes, spots, strikes, expiries and settlement rules; all surfaces with variance at the strike that do not look at the forward.", "why_tests_cant": "Tests bump one curve by one basis point and compare with a recorded figure. The direction for every size and every curve comes from the monotonicity of Black's formula, and needs the discounting and the forward to use the same curve with opposite signs.", "anchors": ["src/data/curves.rs:36-60", "src/data/curves.rs:196-262", "src/data/forward.rs:110-167", "src/risk/cache.rs:224-291", "src/instruments/options.rs:122-164", "src/instruments/bonds.rs:119-145"]}
{"id": "C101", "title": "Larger dividends lower forwards and calls", "statement": "A bump of all dividends by a fraction lowers the forward, lowers calls and raises puts; the forward falls by that fraction of what the dividends amount to with interest, if they are all in cash. Dividends of a share that can be priced can be bumped.", "quantifier": "All streams of dividends in cash and in fractions of the share, rates, borrow, bump sizes, strikes and expiries.", "why_tests_cant": "Tests bump dividends of one stream and compare one forward. The size of the effect for every stream needs an induction over the bootstrap, and the failure of the bump depends on how the dividend yield was given.", "anchors": ["src/data/divstream.rs:108-122", "src/data/divstream.rs:198-304", "src/data/forward.rs:110-167", "src/data/curves.rs:265-280", "src/risk/cache.rs:224-291"]}
{"id": "C102", "title": "Curves follow their points", "statement": "Where the values of the points of an interpolated curve are mixed from those of two other curves, plus a constant, so is every value of the curve; in particular moving or scaling all points moves or scales the curve. This is so of linear interpolators and of cubic splines. Raising all the rates a rate curve is made from by the same amount gives the discount factors of the curve with a continuously compounded bump of that amount.", "quantifier": "All lists of points, weights, constants, extrapolation choices and queries; all rate curves and pairs of dates.", "why_tests_cant": "Tests interpolate a few fixed lists. That a spline depends linearly on its values is an induction over the elimination and the back substitution, for every number of points.", "anchors": ["src/math/interpolation.rs:103-159", "src/math/interpolation.rs:278-431", "src/data/curves.rs:141-166", "src/data/curves.rs:220-246"]}
{"id": "C103", "title": "Monte-Carlo prices of one run admit no arbitrage", "statement": "Options with the same terms but for name, kind and strike, priced with the same draws, are priced on the same paths. So a book of them that never asks its holder to pay costs nought or more, calls fall and puts rise with the strike, prices are convex in the strike, and a call less a put is worth the discounted average of the simulated asset less the discounted strike, which is expected to be the forward less the strike. The same holds of options that are not struck yet, by the fraction of the price at which they will be struck: a book that never pays out costs nought or more, prices are convex in the fraction, and parity holds with the simulated price at the time of striking; calls fall and puts rise with the fraction if no path is below nought at the time of striking, which is needed. With different draws, which is what two pricers have, none of this holds: a call can cost more than one with a lower strike.", "quantifier": "All books of options, markets, surfaces with smiles, draws, numbers of paths and substeps.", "why_tests_cant": "Tests price a call or a put in one run within a tolerance. That strikes cannot be played off against each other holds for every book and every draw only because the paths do not depend on the strike.", "anchors": ["src/models/blackdiffusion.rs:251-290", "src/models/blackdiffusion.rs:345-375", "src/models/blackdiffusion.rs:408-477", "src/pricers/montecarlo.rs:75-139", "src/instruments/options.rs:482-545"]}
{"id": "C104", "title": "Small bumps give the Greeks of the textbook", "statement": "As the bump size shrinks, the delta and gamma that are reported for a European option tend to those of the textbook (the discounted derivatives of Black's formula, by the spot), and vega and volga to those of the textbook (its derivatives by the volatility). The reports succeed for all small bumps.", "quantifier": "All European calls and puts, amounts, strikes, rates, dividends, borrow, surfaces with smiles and displacements.", "why_tests_cant": "Tests compare reports for one bump size with numbers recorded earlier. A limit over all bump sizes, and its equality with a formula, is a statement about infinitely many reports.", "anchors": ["src/risk/deltagamma.rs:138-176", "src/risk/vegavolga.rs:146-180", "src/data/bumpvol.rs:30-60", "src/math/optionpricing.rs:23-55", "src/instruments/options.rs:95-150"]}
{"id": "C105", "title": "The risks of a book are the sums of the risks of its parts", "statement": "When two books are put together, the delta and gamma reported for each equity are the sums of those reported for the parts, and so are vega and volga, and the price and theta on another date; a part without options on that equity counts for nothing. A book held several times over has that many times the figures. So risks can be computed book by book.", "quantifier": "All books of all instruments, including options on baskets of options, whose equities and underlyings each go by an id of their own; all markets, bump sizes and amounts.", "why_tests_cant": "Tests compute the report of one option. That what is declared, prefetched, bumped and restored for one part never touches the figures of another is a statement about every pair of books.", "anchors": ["src/risk/deltagamma.rs:138-176", "src/risk/vegavolga.rs:146-180", "src/pricers/selfpricer.rs:60-158", "src/risk/cache.rs:60-367", "src/risk/dependencies.rs:115-260"]}
{"id": "C106", "title": "Monte-Carlo risks are differences along the same draws, and converge to the risks of the self pricer", "statement": "The delta and gamma that a Monte-Carlo pricer reports are the central differences of what fresh pricers with the same draws charge in the markets with the spot up and down. As substeps shrink and the number of paths grows, delta, gamma, vega and volga almost surely tend to those the self pricer reports for the same bump, and for small bumps delta and gamma to those of the textbook.", "quantifier": "All European calls and puts, amounts, strikes, bump sizes, rates, dividends; all sequences of draws but for a set of probability nought.", "why_tests_cant": "Tests compare one seeded run with a recorded number. That bumps keep the draws and the steps, and that noise vanishes from a difference divided by a small bump, concerns every draw and a limit.", "anchors": ["src/pricers/montecarlo.rs:75-185", "src/models/blackdiffusion.rs:150-290", "src/models/blackdiffusion.rs:408-660", "src/risk/deltagamma.rs:138-176", "src/risk/vegavolga.rs:146-180"]}
{"id": "C107", "title": "Along every run of draws, Monte-Carlo risks have the right signs", "statement": "Whatever the draws, the number of paths and the substeps, gamma of a European option held long is nought or more, and the same for call and put; delta of a call is nought or more and of a put nought or less; and the deltas of call and put differ by the discounted sensitivity of the forward, times the average growth of the simulated paths.", "quantifier": "All options, markets, bump sizes, draws, numbers of paths, substeps.", "why_tests_cant": "Tests run one seed. A claim about every sequence of draws rests on the bump keeping the paths apart from their forward, and on the convexity of the payoff.", "anchors": ["src/pricers/montecarlo.rs:75-185", "src/models/blackdiffusion.rs:150-290", "src/models/blackdiffusion.rs:408-660", "src/risk/deltagamma.rs:138-176"]}
{"id": "C108", "title": "Discounting and totals in floating-point arithmetic", "statement": "With every operation rounded, and an `exp` and `ln` that keep the order and have a small relative error: the factor from a date to itself, and every factor of the zero curve, is exactly one. A factor of a curve is the exponential of the difference of rates times times, up to a few roundings. Factors over two periods multiply to the factor over both, up to a few roundings. On a flat curve factors follow the dates exactly. A bump adds to the rate, scales it or adds to its exponential, up to a few roundings, and a larger bump never gives a smaller factor. The total of a portfolio is the sum of amounts times values up to one rounding more than it has positions, and never falls when a position of positive value is added. It does depend on the order of the positions.", "quantifier": "All roundings that keep the promises of IEEE 754 (without overflow and underflow), maths libraries within an error, curves of any number of points, dates, bumps and lists of positions.", "why_tests_cant": "Tests compare a few factors within a tolerance, on one machine and one maths library. Bounds on what rounding can do, and orders that it cannot disturb, concern every curve, date and list of positions.", "anchors": ["src/data/curves.rs:35-56", "src/data/curves.rs:100-110", "src/data/curves.rs:139-173", "src/data/curves.rs:184-270", "src/pricers/selfpricer.rs:105-122"]}
{"id": "C109", "title": "Price, delta and gamma say what a move of the spot does", "statement": "For every book that a delta-gamma report can be made of, price plus delta times the bump plus half of gamma times its square is exactly what the book is worth with the spot bumped up, and likewise down. For a book of European options held long, after any smaller move the book is worth what price and delta say, up to half of gamma times bump times move, and after any larger move it is worth at least that much more than they say; for a book sold the bounds are turned around. For a book in which options are bought and sold the error after a smaller move is no more than half of the gross gamma, that of the book with everything held long, times bump times move. The same holds of a Monte-Carlo pricer along the same draws.", "quantifier": "All books, equities and bump sizes; for other moves, all books of calls and puts on an equity with one expiry and any strikes, surfaces with smiles, dividends and rates, all moves; for Monte-Carlo, all draws, numbers of paths and substeps.", "why_tests_cant": "Tests compare the figures of one option with recorded ones. That the report bounds the profit of every move rests on the figures being the differences of repriced books, and on the price being convex in the spot.", "anchors": ["src/risk/deltagamma.rs:138-176", "src/pricers/selfpricer.rs:60-158", "src/pricers/montecarlo.rs:75-185", "src/math/optionpricing.rs:23-55", "src/instruments/options.rs:95-150"]}
{"id": "C110", "title": "Changes of different things can be made in any order", "statement": "Bumps of different things, spots, volatilities, yields, borrow and dividends, leave the same market in whatever order they are made, and the same prices. After any bumps, also of one thing several times, a pricer gives the prices that a new pricer gives in the market with those bumps. A Monte-Carlo pricer does too, along the same draws. Two proportional bumps of a spot are one by the product of the factors, and a bump followed by its inverse leaves the pricer as it was.", "quantifier": "All portfolios in which an id names one instrument, nested to any depth; all markets; all lists of bumps that succeed, with or without save areas, in any two orders.", "why_tests_cant": "Tests apply one bump and restore it. That what is prefetched never depends on the way in which the market was reached is a statement about every list of bumps and all of its permutations.", "anchors": ["src/risk/cache.rs:60-130", "src/risk/cache.rs:140-290", "src/risk/marketdata.rs:284-372", "src/pricers/selfpricer.rs:60-158"]}
{"id": "C111", "title": "A curve matters only through its rates", "statement": "Two market data sets that differ only in how their yield, borrow and dividend curves are put together, but give the same rate-times-time for every date, give every portfolio the same price and the same reports from either pricer, or fail in the same way. It does not matter which day is the base date of a yield or borrow curve, which and how many points a curve has, or whether it has been bumped and in how many steps: two parallel bumps of a curve by continuously compounded amounts are worth what one bump by their sum is, and quoting every point higher is worth what bumping the curve is. The exceptions are visible to the caller: of a dividend yield the base date counts too, and bumping by nothing turns a dividend yield of zero into one that is not zero and needs the dividends' curve, and a curve that extrapolates as zero does not shift as its quotes do.", "quantifier": "all pairs of market data with the same rates, portfolios, past fixings, lists of reports, numbers of paths and draws, sizes of bumps", "why_tests_cant": "Tests take a curve as it is and look at one price. That nothing in the pricing stack looks at a curve other than through its rates is a statement about pairs of markets and every instrument and report.", "anchors": ["src/data/curves.rs:20-60", "src/data/curves.rs:90-260", "src/data/forward.rs:92-190", "src/data/bumpyield.rs:14-42", "src/risk/marketdata.rs:100-372", "src/risk/cache.rs:60-290", "src/pricers/selfpricer.rs:60-158", "src/pricers/montecarlo.rs:84-195"]}
{"id": "C112", "title": "A point on the line between its neighbours adds nothing", "statement": "Leaving a point out of a linear interpolator has no effect on any query, inside or outside the points and with any extrapolation, exactly when the point lies on the straight line between its neighbours. The remaining points are always accepted. For a yield curve this means that such a point changes no discount factor, no price and no report of either pricer. An interpolator whose points all have the same height and whose ends are flat answers that height everywhere, however many points there are.", "quantifier": "all lists of points, positions of the point, extrapolations and queries (NaN included), all instruments, fixings, reports and draws", "why_tests_cant": "Tests interpolate between a handful of points. That a table may be thinned without effect is a comparison of two tables for every query and every way of extrapolating.", "anchors": ["src/math/interpolation.rs:99-191", "src/math/interpolation.rs:225-250", "src/data/curves.rs:135-166"]}
{"id": "C113", "title": "Yields and borrow costs that rise together only discount", "statement": "If the yields of every credit rise by any amount per date, and the cost of borrowing each share rises by as much as the yields of the credit that finances it, then forwards stay as they are, cash dividends included, and every cash holding, share, zero coupon and option is worth what it was, times the change of the discount factor from payment to settlement. A pricer fails in the new market exactly when it fails in the old one, in the same way. A pricer whose yield and borrow curves are bumped by the same amount gives these prices. A Monte-Carlo pricer walks the same paths in both markets, and its price changes by the same factor. Delta, gamma, vega and volga are those of the book with each position multiplied by that factor.", "quantifier": "all pairs of such markets, rises that vary with the date and the credit, portfolios of cash, shares, zero coupons and options (spot- and forward-starting) held long or short, dividends of both kinds, surfaces with smiles; all draws and numbers of paths", "why_tests_cant": "Tests price one option in one market. That yields and borrow enter forwards only by their difference, on every date and for every dividend, compares two markets for every term structure.", "anchors": ["src/data/forward.rs:95-183", "src/data/divstream.rs:198-304", "src/instruments/options.rs:88-164", "src/instruments/bonds.rs:124-141", "src/pricers/selfpricer.rs:75-121", "src/risk/cache.rs:60-130", "src/models/blackdiffusion.rs:408-539"]}
{"id": "C114", "title": "Forwards in floating-point arithmetic", "statement": "With every operation of the forward and of the dividend bootstrap rounded, and an `exp` that keeps the order and has a small relative error: a share that costs no less, and pays no more cash on the same dates, has a forward that is no lower, on every date. If trades settle at once and nothing goes ex today, the forward to today is exactly the spot. For a share that pays nothing, more interest or less borrow never lowers the forward, and the forward is the spot times the exponential of the interest less borrow between the settlement dates, up to a few roundings. For a share that pays cash the forward is that of exact arithmetic up to a few roundings and one more for each dividend, plus a multiple of the error of the rates, measured by the forward without dividends and by what is paid. Without rates, and with whole amounts, no forward is rounded at all. Where nothing is rounded, the forwards are those of exact arithmetic, relative dividends and dividend yields included.", "quantifier": "All roundings that keep the promises of IEEE 754 (without overflow and underflow), maths libraries within an error, curves, settlement rules, spots, streams of dividends of any length, dates.", "why_tests_cant": "Tests compare a few forwards with recorded values, within a tolerance. That rounding cannot turn the order of two shares, and what it can add to a forward at most, concerns every stream of dividends and every library.", "anchors": ["src/data/forward.rs:82-183", "src/data/divstream.rs:198-304", "src/data/divstream.rs:364-386"]}
{"id": "C115", "title": "Rounding can make an option's Black price slightly wrong, but never absurd", "statement": "Black76 prices computed in floating-point arithmetic never exceed the discounted forward (calls) or the discounted strike (puts), are never negative for options at or in the money, keep put-call parity up to a few roundings, and are within an explicit bound of the exact formula. The sign of an option out of the money is only as good as the distribution function used.", "quantifier": "all rounding modes that keep order and have a relative error, all distribution functions that keep order and have an absolute error, all discount factors, forwards, strikes and variances", "why_tests_cant": "a price test compares a handful of prices with a tolerance; it cannot show that no pair of forward, strike and variance is rounded to a negative price, a price above its bound, or one that breaks parity", "anchors": ["src/math/optionpricing.rs:23-53"]}
{"id": "C116", "title": "Monte-Carlo averages in floating-point arithmetic", "statement": "`evaluate_flows` averages the payoffs of the paths and multiplies by the value of the flow, with every operation rounded and in an order of additions that the array library is free to choose. Whatever the order: paths that pay no less never give a smaller price, payoffs that are never negative never give a negative price, whole payoffs are added exactly, and the price is that of exact arithmetic up to one rounding for each addition that a path goes through. An average of equal payoffs need not be that payoff.", "quantifier": "all orders and bracketings of the additions, all numbers of paths and flows, all payoffs and values, all rounding modes that keep order and have a relative error", "why_tests_cant": "a simulation test uses one number of paths, one summation order and a tolerance far wider than the rounding; it cannot show that no order of additions turns a better payoff into a lower price", "anchors": ["src/models/blackdiffusion.rs:498-539"]}
{"id": "C117", "title": "Comparisons with a tolerance in floating-point arithmetic", "statement": "`approx_eq` rounds a difference before it compares it with a tolerance. It never accepts numbers that differ by the tolerance or more, accepts all that differ by clearly less, does not depend on the order of the two, and accepts more with a wider tolerance. Lines of risk reports that are found alike have deltas and gammas within the tolerances that the caller asked for, scaled by the bump, up to the roundings of the scaling. Numbers that differ by just less than the tolerance may be refused.", "quantifier": "all numbers and tolerances, all rounding modes that keep order and have a relative error", "why_tests_cant": "tests compare numbers that are far from the edge of the tolerance; they cannot show that rounding never lets a difference of the size of the tolerance through", "anchors": ["src/math/numerics.rs:5-8", "src/risk/deltagamma.rs:57-61", "src/risk/deltagamma.rs:106-111"]}
{"id": "C118", "title": "Simulated options in floating-point arithmetic", "statement": "With the same draws, every operation rounded and any order of additions, the Monte-Carlo price of a European option is never negative, a call with a higher strike never costs more and a put with a higher strike never less, a higher forward never makes a call cheaper or a put dearer, a call costs no more than its underlying and a put no more than its strike, and on each path a call less a put is the rounded difference of spot and strike. None of these is weakened by rounding. The price is that of the exact payoffs up to a few roundings more than additions. Options yet to be struck follow their strike fraction in the same way.", "quantifier": "all draws, numbers of paths and steps, forwards, displacements, volatilities, strikes and values of the flow, all orders of additions, all rounding modes that keep order and have a relative error", "why_tests_cant": "a risk computed as the difference of two simulated prices has the wrong sign as soon as rounding reverses one pair of prices; tests look at a few bumps that are much larger than the rounding", "anchors": ["src/models/blackdiffusion.rs:455-470", "src/instruments/options.rs:507-541", "src/instruments/options.rs:573-608"]}
