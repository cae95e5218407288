# QuantMath formal model: design

Target: MarcusRainbow/QuantMath (Rust), source in `/repo`, read as text only.
Prover: Lean 4.33.0 with individual Mathlib modules. Everything is under `lean/Verif`.

## Layout

For each area `X` there are up to four files, so that property theorems stay apart from helpers:

| file | content |
|---|---|
| `Verif/X/Model.lean` | the code, function by function, each definition citing file and lines |
| `Verif/X/Spec.lean`  | small independent specification (written from the docs, not from the code) |
| `Verif/X/Lemmas.lean`| helper lemmas |
| `Verif/X/Props.lean` | the property theorems, named `Cnn_...`, each followed by a non-vacuity example |

Conventions.

* Panics (`assert!`, index out of bounds, `unwrap`) are an explicit error value, `Except Fault _`
  with `Fault.panic` distinct from `Fault.err` (a returned `qm::Error`). Error message text is not modelled.
* `&mut self` becomes returning the new state. Where state after an error matters, the new state
  is returned next to the result, not inside it.
* Loops become structural recursion over lists, or well-founded recursion with a proved measure.
* `f64` is idealised as exact arithmetic: the real numbers `ℝ`, or an arbitrary linearly ordered field where no transcendental function is
  involved. `exp`/`ln`/`sqrt` are Mathlib's `Real.exp`, `Real.log`, `Real.sqrt`. NaN is explicit (`QM.Interp.Num`, `nan | val x`, with Rust's rules for
  comparison, `min` and `max`) in interpolation, root finding, dividends, forwards, volatilities, instruments, market data, risk and Monte-Carlo.
  Division by zero is NaN there, never zero. Infinities and signed zeros are not modelled. Rounding is modelled in `Rounded` and `Times` only, where every
  operation rounds its result; the theorems hold for any monotone, symmetric rounding with a relative error, and `f64` is an instance.
* `Date` is its `i32` day number, modelled as `Int`. Rust `/` and `%` truncate: `Int.tdiv`, `Int.tmod`.
  Absence of 32-bit overflow is a property (C06), not an assumption, for the date conversions.
* `HashMap` is a list of pairs with unique keys or a function `key → Option value`;
  iteration order is never relied on (where the code iterates, the theorem holds for every order).
* `Rc`/`Arc` sharing is erased (values are immutable), except in the dedup and handle models, where identity matters.

If the unchanged code violates a property, the file contains (a) the negation of the property with a concrete
witness, named `Cnn_..._false`, and (b) the strongest true version, named `Cnn_..._partial`.

## Areas

See `MANIFEST.json` for status and exact theorem names. `properties.jsonl` has the full statements.

| area (`Verif/..`) | source | properties | how it is proved |
|---|---|---|---|
| `Dates` | `dates/mod.rs` | C01-C06, C66 | closed form for the day number, `omega` on quotients, induction on days; text as `List Char` |
| `Calendar` | `dates/calendar.rs`, `dates/rules.rs` | C07-C14, C56, C67, C85 | loop invariants relating date, holidays passed and business days; the specification counts day by day |
| `Interp` | `math/interpolation.rs` | C15-C18, C102, C112 | list induction; elimination invariants of the spline; derivatives; the standard library's binary chop refines the search (`C15_search`) |
| `Root` | `math/brent.rs` | C19 | invariant on the bracket, for every function; a second model in which the function may answer NaN |
| `Curves` | `data/curves.rs`, `data/bumpyield.rs` | C20-C21, C57-C58, C68, C102 | `Real.exp` algebra, structural induction on decorators |
| `Fixings` | `data/fixings.rs` | C22-C23 | induction on construction against a relational specification |
| `Dividends` | `data/divstream.rs`, `data/bumpdivs.rs` | C24-C25, C28, C55 | loop invariant of the bootstrap against sums over the filtered stream |
| `Forward` | `data/forward.rs` | C26-C27 | algebra on the closed form of the forward |
| `Vol` | `data/volsurface.rs`, `volsmile.rs`, `voldecorators.rs`, `bumpvol.rs` | C29-C33, C69-C71, C88 | structural induction on decorated surfaces; list induction on pillars |
| `Instruments` | `instruments/*.rs`, `math/optionpricing.rs`, `risk/dependencies.rs` | C38-C43, C59-C60, C72-C73, C88, C90 | structural induction on the instrument tree; convexity and calculus for Black's formula; change of measure for the expected payoff |
| `Market` | `risk/marketdata.rs`, `risk/cache.rs`, `data/bump*.rs` | C33-C37, C74-C76 | invariants over all histories of bumps and restores; refinement of the prefetching context to the market |
| `Risk` | `risk/{mod,deltagamma,vegavolga,timebumped,bumptime}.rs`, `pricers/selfpricer.rs`, `facade::calculate` | C44-C48, C77-C78, C88, C92-C94, C96-C97, C100-C101, C104-C105, C110-C113 | loop invariants over the report generators, on top of `Market` |
| `Units` | the same code as `Risk`, in two units of account | C95, C98 | a simulation: every function of the pricing stack, and of the Monte-Carlo model, commutes with a change of the unit |
| `Currency` | `payoff_currency`, `fix` and the Monte-Carlo payments of `instruments/*.rs`, with the currencies that `Instruments` leaves out | C99 | erasing the currencies commutes with `fix`; induction on instruments |
| `Serial` | `core/dedup.rs`, `core/factories.rs` | C49-C51 | simultaneous induction on tree and map; induction on values |
| `MonteCarlo` | `models/*.rs`, `pricers/montecarlo.rs`, Monte-Carlo parts of `instruments/options.rs` | C52, C61-C65, C79-C80, C88-C89, C91, C95, C98, C100, C103, C106-C107, C109-C111, C113 | closed form of paths; expectations as finite products of moments; strong law and a coupling with the exponential of the same draws; refinement to the self pricer |
| `Solvers` | `solvers/impliedvol.rs` | C53 | from C19 and the market-data invariants |
| `Times` | `dates/datetime.rs` | C81 | comparison with numbers counting moments; sign of rounded differences |
| `Load` | serde code of `data/fixings.rs`, `math/interpolation.rs`, `instruments/options.rs`, `data/divstream.rs` | C82 | permutations of association lists; constructors as the reference |
| `Rounded` | date-valued `Linear` of `math/interpolation.rs` and `math/brent.rs`, business time of `dates/calendar.rs` and flat variances of `data/volsurface.rs`, the differences of `risk/deltagamma.rs` and `risk/vegavolga.rs`, curves of `data/curves.rs`, forwards of `data/forward.rs` with the bootstrap of `data/divstream.rs`, the total of `pricers/selfpricer.rs`, the formulae of `math/optionpricing.rs`, the paths and averages of `models/blackdiffusion.rs`, simulated payoffs of `instruments/options.rs`, and the comparisons of `math/numerics.rs` and `risk/deltagamma.rs`, with rounding | C83, C84, C86, C87, C108, C114, C115, C116, C117, C118 | `Rounding` as the promises of IEEE 754, rounding to `p` bits proved to keep them; `Library` as what is asked of `exp` and `ln`, rounding the exact values proved to do it; `NormalLibrary` as what is asked of `Normal::cdf`, likewise; `Adding` as every order of additions that `scalar_sum` may choose |
| `Facade` | `facade/handle.rs`, `facade/c_interface.rs` | C54 | state machine with an arbitrary allocator; `none` is undefined behaviour; invariant over sessions |

## Trusted base

* Lean's kernel (every module is replayed by the gate).
* The axioms each theorem depends on: at most `propext`, `Classical.choice`, `Quot.sound`. No axiom is added; no `sorry`, `native_decide`, `bv_decide`,
  `implemented_by` or `unsafe` is used.
* That the model definitions transcribe the cited Rust lines, under the idealisations above and those listed at the head of each `Model.lean`.
* Contracts of external code, each stated where it is used:
  * `slice::binary_search_by` on sorted keys: the index of an equal element, or of the first greater one (`Interp/Model.lean`, `Calendar/Model.lean`, `Dividends/Model.lean`,
    `Vol/Model.lean`). At every call site the loop of the standard library is proved to do that (`Interp/Search.lean`, `C07_search`, `C15_search`, `C24_search`, `C31_search`);
    what is trusted is the transcription of the loop.
  * `HashMap`: a finite map; iteration order is that of an association list, and theorems hold for every such list.
  * `nalgebra` Cholesky: a lower triangular matrix with positive diagonal whose product with its transpose is the argument, or nothing (`MonteCarlo/Model.lean`).
  * `rand`: the draws are an argument of the model; statements about means assume moments of independent standard normals.
  * `statrs` normal distribution function: the exact one (`Instruments/Normal.lean`); in `Rounded`, one that keeps order, stays between nought and one and has an absolute error.
  * `exp` and `ln` of the standard library in `Rounded`: they keep order and have a relative error of at most one half.
  * `ndarray` `scalar_sum`: adds each number once, in an order that does not depend on the numbers (`Rounded/AverageModel.lean`).
  * serde derive code and `serde_tagged`: what is written for a structure is read back field by field.
  * the Rust allocator: returns an address that is not in use (`Facade/Model.lean`).

### What is not modelled

* Floating point rounding (except in `Rounded` and `Times`), infinities, overflow (except 32-bit overflow of date conversions and date parsing), underflow.
* The text of error messages (except in `Facade`, where it is observable, and there only as data).
* JSON syntax, `Debug`/`Display` other than of `Date`, and serde implementations other than those of `Drc`, of tagged values and those in `Load`.
* Threads and reference counts (`Rc`/`Arc` identity is kept in `Serial` as identifiers only).
* Time-dependent behaviour (the `retain` on timing in tests, benchmarks), and the test modules.
* `examples/`.

Trivial accessors (`id()`, `as_any()`, ...) are field projections of the model structures and have no definition of their own.

## Where the code violates a property

Each line names the theorem with the witness; the partial theorem beside it proves what holds.

**Dates.** Text with fewer than three parts panics instead of giving an error (`C05_no_panic_false`). Debug printing an invalid date panics (`C05_debug_false`). A huge year overflows 32 bits: a panic in debug, a wrong
date in release (`C05_overflow_false`). Month numbers beyond fourteen do not roll over: month fifteen lands two days off
(`C66_months_false`).

**Calendars.** Volatility calendars with a holiday weight step onto holidays, and their steps do not compose, count or invert (`C07`-`C09`, `C11`, `C12_volatility_*_false`).
`day_weight` and the count disagree for nested volatility calendars (`C10_nested_volatility_false`). Modified-following compares month numbers only (`C13_long_gap_false`).
`step_partial` is documented to truncate but rounds (`C56_truncation_false`). A holiday list out of order is accepted, and listed holidays are then overlooked
(`C07_unsorted_false`). Modified-following does not keep the order of dates over long gaps (`C13_order_false`). Rules for stepping `2^31` days or more move the wrong way (`C85_far_false`).

**Interpolation.** A single point with a NaN abscissa is accepted, and then every query panics (`C16_nan_pillar_false`). The right side of an extrapolation asks the left choice whether
to be natural (`C17_right_false`, `C17_right_flat_false`, `C17_spline_right_false`). A spline with one point panics (`C18_single_point_false`); with a left choice other than
natural it has a kink at the second pillar, because the back substitution skips index zero (`C18_left_end_false`).
The first curvature of such a spline is always -1/2, so a spline through equal values bulges above them (`C18_constant_false`).

**Rounding.** A curve of equal values is not flat between its pillars: 5% five days apart is more than 5% on the next day (`C83_flat_false`).
Business time runs backwards over weekends by a unit in the last place if it starts within a day (`C86_monotone_false`), so a flat vol surface with base date Thursday, 11% of the day gone, and volatility 30% refuses
the forward variance from Saturday to Monday as negative (`C86_forward_false`). Putting the start off to midnight can lengthen the time on a calendar that counts every day (`C86_start_false`), and times do not add up (`C86_additive_false`).
With a bump of one hundredth of a millionth the gamma of the square of the spot is reported as zero at 100 and as less than minus six at 875 (`C87_gamma_false`).

**Loading.** Derived deserialisers skip the checks of the constructors. Fractions of a day outside the range load, and then order and distance disagree (`C81_loaded_false`).
Fixings given twice load (`C82_fixings_false`), curves and splines with falling abscissae load, splines with fewer than two points panic (`C82_linear_false`, `C82_spline_false`),
as do options with negative strikes or inconsistent dates (`C82_option_false`) and dividend streams with the wrong last cash date (`C82_dividends_false`).

**Root finding.** The bound at `brent.rs:73` is wrong, so the result can leave the interval (`C19_outside_interval_false`, and in `f64` `C84_outside_interval_false`). NaN at an end is taken for a change of sign (`C19_nan_false`).

**Curves.** `RelativeBump::new` stores the bump instead of one plus the bump (`C21_relative_false`). Discount factors go the other way than documented (`C57_direction_false`).
Bumping the zero curve has no effect (`C58_zero_curve_false`). Two Monte-Carlo pricers take different draws, so one may price a call above what the other makes of a call with a lower strike (`C103_runs_false`), and parity with the forward holds in the mean only (`C103_parity_false`). The steps of a path can take the share below nought, so that a put has a positive delta (`C107_put_false`), and a call that is yet to be struck can cost more the higher the fraction (`C103_struck_fractions_false`). A spline that is not Natural at the left does not scale with its values (`C102_spline_false`), and a curve that is extrapolated as zero does not follow its points outside them (`C102_zero_false`). In `f64` the total of a portfolio depends on the order of its positions (`C108_total_false`).

**Fixings.** A refused insert replaces what was there (`C23_refused_insert_false`).

**Dividends and forwards.** A dividend on the base date is counted when a later one exists (`C24_base_date_false`). The cash that remains after a date is NaN whenever there is any
(`C25_remaining_false`). Disorder behind the horizon goes unnoticed (`C55_order_false`). A dividend bump multiplies the yield by the bump (`C28_yield_false`). It also makes the zero curve look like a yield, so that the dividends of a share with the zero curve as dividend yield cannot be bumped if one goes ex after the base date of that curve (`C101_rejected`, `C101_false`). Even a parallel bump of nothing makes a zero dividend yield look like a yield, so that the forward fails (`C111_zero_false`).
The yield enters the forward with the wrong sign (`C27_raises_false`).

**Volatilities.** Forward variances of surfaces with a forward curve take both at-the-money variances at the first date (`C30_forward_false`). Two pillars with the same volatility time
give NaN (`C31_same_time_false`). The variance at a strike off the money can fall from one pillar date to the next without an error (`C31_falls_false`). A zero time-scaled bump can change a volatility (`C32_zero_time_false`). The opposite of an additive bump is that of a relative one
(`C33_vol_false`), which makes vega and volga wrong (`C45_false`), volga even in the limit of small bumps (`C104_volga_false`). Rolled surfaces misplace expiries on holidays and surfaces that begin within a day
(`C69_rolling_weekend_false`, `C69_rolling_fraction_false`). A sticky delta surface ignores a new forward with the old spot (`C70_same_spot_false`). Replacing the volatilities drops the displacement by fixed dividends (`C71_replace_false`).
A surface with smiles by expiry panics at its base date for the strike that is the forward: the moneyness is zero over zero, and the search in the spline panics on NaN (`C88_base_false`). So an option that expires now
at the money panics when it is priced (`C88_false`). A Monte-Carlo pricer asked for no paths panics (`C88_no_paths`).

**Instruments.** Options with another credit id than their underlying, options on baskets and equities on other dates ask for undeclared data (`C39_false_*`).
With fixed dividends the displacement is added to the strike, though it is taken off the forward, which breaks parity (`C41_false`) and makes the price another number than the expected payoff (`C90_displaced_false`). At the money at expiry the price is NaN (`C59_false`, and `C59_iff` for every such option), and with fixed dividends to come an option at expiry is not worth its payoff (`C59_displaced_false`).
A forward-starting option may fix its strike after it expires (`C73_order_false`). With a dividend going ex on the spot date, an equity is worth the spot when valued on that date alone and less when valued on that date and a later one (`C74_false`).

**Market data.** Bumping the same thing twice with one save area, two things one forward is made from, and the spot date are not undone by restoring
(`C34_false`, `C34_false_prefetch`, `C34_false_spot_date`). With two options on one underlying a saved yield bump poisons the cache (`C36_false`).
A failed bump leaves its effect behind (`C37_false`). A context made for an equity cannot value it on a later date, although the market can (`C76_false`).

**Risk.** A portfolio of bare shares makes the delta report fail (`C44_false`). Two options with one underlying and one expiry cannot be rolled past it (`C47_false`, and `C47_shared_refused` for every portfolio).
Reports with a NaN, with a negative bump, or with a replaced volatility do not match themselves (`C48_self_false`). `Basket::new` accepts members in any currency, although its comment says that it validates them (`C99_basket_false`). Instruments are told apart by id alone: with two underlyings of one id the price depends on the order of the positions (`C92_false`). Where the vol shift of a vega report exceeds the volatility, an option at the money forward has a price but no vega (`C93_false`). Nothing checks a smile for arbitrage: a steep enough one is accepted, and a call spread that never pays anything negative then has a negative price (`C94_false`). Nor is it checked that the variance off the money does not fall from one pillar to the next: of two calls on an equity without rates, dividends or borrow the one that expires later can then cost less (`C96_false`). A surface is aged only if its calendar counts some time until the new date; otherwise it keeps its old date, and the forward variance from there is the wrong one of `C30_forward_false`: rolled from a Saturday to a Sunday, an option out of the money loses all of its value (`C97_weekend_false`). Strikes of a smile have to be an absolute 1e-12 apart, so that a smile can be refused in a very large unit (`C95_refused`).

**Serialisation.** Identifiers are not checked: clashing or stale parts are written without complaint and read back as something else (`C49_clash_false`, `C49_stale_false`).
A panic leaves a dedup session active (`C50_panic_false`). Cubic spline smiles load as another type and flat smiles and sticky-delta bumps cannot be loaded
(`C51_spline_false`, `C51_unregistered_false`).

**Monte-Carlo.** A portfolio of more than one option panics (`C52_false`). The correlation root is transposed (`C61_false`; unreachable today, `C61_unreachable`).
The substep bounds the variance of a step, not its square root as documented (`C89_false`); a step is a factor of one plus a normal draw, so every uncertain asset is below zero, and the price of a put above its strike, with positive probability (`C89_positive_false`, `C89_put_false`). On such a path a put on a higher forward pays more (`C118_forward_false`).
Discounting differs from the self pricer when credit ids differ (`C62_false`). With a smile or fixed dividends Monte-Carlo prices converge, but not to the price of the self pricer (`C91_smile_false`, `C91_skew_false`, `C91_displaced_false`). The pricer cannot be rolled past an expiry (`C65_false`), and after the failed roll
it silently counts the payment that it now holds as nothing (`C65_lost_false`).

**Solvers.** The pricer is not put back (`C53_false`). A NaN price at an end misleads the search (`C53_nan_false`).

**C interface.** Comparing a handle of reports with itself frees it twice (`C54_false`, `C54_same_false`). A message with a zero byte is replaced (`C54_message_false`).

## Mutation testing

`seeded/LOG.jsonl` has one line per wrong program tried: the definition edited, the edit, the claim it breaks, the theorems that no longer
build, and the theorems that were tightened as a result.
