import Verif.Instruments.OptionLemmas
import Verif.Instruments.Props
import Verif.Vol.Props

/-!
# Properties C41, C42 and C59: put-call parity, the payoff and the value at expiry
-/

namespace QM.Instruments
open QM.Interp QM.Vol QM.Fixings QM.Calendar Spec
open QM.Curves (RateCurve)

variable {fuel : Nat} {ctx : PricingContext} {dates : List DateTime}

/-! ## C41 -/

/-- The call on given terms. -/
def call (v : Vanilla) : Vanilla := { v with putOrCall := .call }

/-- The put on given terms. -/
def put (v : Vanilla) : Vanilla := { v with putOrCall := .put }

theorem spot_strike {u : Instrument} {expiry : DateTime} {strike : ℝ} {K F : Num ℝ}
    (h : (do let values ← u.prices fuel ctx [expiry]; let forward ← only values; pure (.val strike, forward) :
      Outcome (Num ℝ × Num ℝ)) = .ok (K, F)) : K = .val strike ∧ u.price fuel ctx expiry = .ok F := by
  obtain ⟨vs, h1, h⟩ := bind_ok h
  obtain ⟨f, h2, h⟩ := bind_ok h
  have := pure_ok h
  cases this
  refine ⟨rfl, ?_⟩
  unfold Instrument.price
  rw [h1]
  exact h2

theorem forward_strike {u : Instrument} {strikeDate expiry : DateTime} {fraction : ℝ} {K F : Num ℝ}
    (h : (do let values ← u.prices fuel ctx [strikeDate, expiry]; pair fraction values : Outcome (Num ℝ × Num ℝ)) = .ok (K, F)) :
    ∃ S, u.prices fuel ctx [strikeDate, expiry] = .ok [S, F] ∧ K = num2 (· * ·) S (.val fraction) := by
  obtain ⟨vs, h1, h⟩ := bind_ok h
  have hl := prices_length u h1
  match vs, hl with
  | [s, e], _ =>
    cases h
    exact ⟨s, h1, rfl⟩

/-- C41 as the code has it. On any date up to expiry for which both prices are numbers, the call less the put is the
discounted difference of the forward less the displacement and the strike plus the displacement. -/
theorem C41_spot_displaced {v : Vanilla} {u : Instrument} {K : ℝ} {cs ps : List (Num ℝ)}
    (hc : (Instrument.spotStarting (call v) u K).prices fuel ctx dates = .ok cs)
    (hp : (Instrument.spotStarting (put v) u K).prices fuel ctx dates = .ok ps)
    {j : Nat} {d : DateTime} {c p : ℝ} (hd : dates[j]? = some d) (hex : notAfter d v.expiry)
    (hx : cs[j]? = some (.val c)) (hy : ps[j]? = some (.val p)) :
    ∃ yc vol F D δ, ctx.yieldCurve u.creditId v.payDate = .ok yc ∧
      yc.df v.payDate (v.settlement d.date) = .ok (.val D) ∧
      u.price fuel ctx v.expiry = .ok (.val F) ∧
      ctx.volSurface u v.expiry.date (fun _ => ctx.forwardCurve u v.expiry.date) = .ok vol ∧
      vol.displacement v.expiry.date = .ok (.val δ) ∧ c - p = D * ((F - δ) - (K + δ)) := by
  rw [Instrument.prices] at hc hp
  rcases vanilla_parity hc hp hd hx hy hex with ⟨h, _⟩ | ⟨c', p', yc, vol, K', F, δ, D, e1, e2, h1, h2, h3, h4, h5, h6⟩
  · cases h
  · cases e1
    cases e2
    obtain ⟨e, hF⟩ := spot_strike h4
    cases e
    exact ⟨yc, vol, F, D, δ, h1, h5, hF, h2, h3, h6⟩

/-- A surface that does not assume fixed dividends displaces nothing. -/
theorem displacement_zero (s : VolSurface) (h : s.divAssumptions ≠ .fixedDivs) {date : Int} {δ : Num ℝ}
    (hδ : s.displacement date = .ok δ) : δ = .val 0 := by
  induction s with
  | flat => cases hδ; rfl
  | byProbability input ps =>
    unfold VolSurface.displacement displacementBy at hδ
    unfold VolSurface.divAssumptions at h
    cases ha : input.divAssumptions <;> rw [ha] at hδ h
    · cases hδ; rfl
    · cases hδ; rfl
    · exact absurd rfl h
    · cases hδ
  | constantExpiry s _ _ ih => exact ih h hδ
  | rollingExpiry s _ _ ih => exact ih h hδ
  | parallelBump s _ ih => exact ih h hδ
  | timeScaledBump s _ _ ih => exact ih h hδ
  | stickyDeltaBump s f ih =>
    unfold VolSurface.displacement displacementBy at hδ
    unfold VolSurface.divAssumptions at h
    cases ha : s.divAssumptions <;> rw [ha] at hδ h
    · cases hδ; rfl
    · cases hδ; rfl
    · exact absurd rfl h
    · cases hδ

/-- C41 unless the volatility surface assumes fixed dividends: on every date up to expiry the call less the put is
the discounted difference of forward and strike. What is missing for fixed dividends is false: `C41_false`. -/
theorem C41_spot_partial {v : Vanilla} {u : Instrument} {K : ℝ} {cs ps : List (Num ℝ)}
    (hv : ∀ vol, ctx.volSurface u v.expiry.date (fun _ => ctx.forwardCurve u v.expiry.date) = .ok vol →
      vol.divAssumptions ≠ .fixedDivs)
    (hc : (Instrument.spotStarting (call v) u K).prices fuel ctx dates = .ok cs)
    (hp : (Instrument.spotStarting (put v) u K).prices fuel ctx dates = .ok ps)
    {j : Nat} {d : DateTime} {c p : ℝ} (hd : dates[j]? = some d) (hex : notAfter d v.expiry)
    (hx : cs[j]? = some (.val c)) (hy : ps[j]? = some (.val p)) :
    ∃ yc F D, ctx.yieldCurve u.creditId v.payDate = .ok yc ∧ yc.df v.payDate (v.settlement d.date) = .ok (.val D) ∧
      u.price fuel ctx v.expiry = .ok (.val F) ∧ c - p = D * (F - K) := by
  obtain ⟨yc, vol, F, D, δ, h1, h2, h3, h4, h5, h6⟩ := C41_spot_displaced hc hp hd hex hx hy
  have := displacement_zero vol (hv vol h4) h5
  cases this
  exact ⟨yc, F, D, h1, h2, h3, by rw [h6]; ring⟩

/-- C41 for forward-starting options: the strike is the fraction of the forward price on the strike date. -/
theorem C41_forward_partial {v : Vanilla} {u : Instrument} {fraction : ℝ} {strikeDate : DateTime} {strikeTime : Point}
    {cs ps : List (Num ℝ)}
    (hv : ∀ vol, ctx.volSurface u v.expiry.date (fun _ => ctx.forwardCurve u v.expiry.date) = .ok vol →
      vol.divAssumptions ≠ .fixedDivs)
    (hc : (Instrument.forwardStarting (call v) u fraction strikeDate strikeTime).prices fuel ctx dates = .ok cs)
    (hp : (Instrument.forwardStarting (put v) u fraction strikeDate strikeTime).prices fuel ctx dates = .ok ps)
    {j : Nat} {d : DateTime} {c p : ℝ} (hd : dates[j]? = some d) (hex : notAfter d v.expiry)
    (hx : cs[j]? = some (.val c)) (hy : ps[j]? = some (.val p)) :
    ∃ yc S F D, ctx.yieldCurve u.creditId v.payDate = .ok yc ∧ yc.df v.payDate (v.settlement d.date) = .ok (.val D) ∧
      u.prices fuel ctx [strikeDate, v.expiry] = .ok [.val S, .val F] ∧ c - p = D * (F - fraction * S) := by
  rw [Instrument.prices] at hc hp
  by_cases hs : ctx.spotDate > strikeDate.date
  · rw [if_pos hs] at hc
    cases hc
  · rw [if_neg hs] at hc hp
    rcases vanilla_parity hc hp hd hx hy hex with ⟨h, _⟩ | ⟨c', p', yc, vol, K', F, δ, D, e1, e2, h1, h2, h3, h4, h5, h6⟩
    · cases h
    · cases e1
      cases e2
      obtain ⟨S, hS, eK⟩ := forward_strike h4
      have := displacement_zero vol (hv vol h2) h3
      cases this
      cases S with
      | nan => cases eK
      | val S =>
        cases eK
        exact ⟨yc, S, F, D, h1, h5, hS, by rw [h6]; ring⟩

/-- C41. A call has prices exactly when the put has: they fail in the same way. -/
theorem C41_fails {v : Vanilla} {u : Instrument} {K : ℝ} {e : Fault} :
    (Instrument.spotStarting (call v) u K).prices fuel ctx dates = .error e ↔
      (Instrument.spotStarting (put v) u K).prices fuel ctx dates = .error e := by
  rw [Instrument.prices, Instrument.prices]
  exact ⟨vanillaPrices_kind rfl, vanillaPrices_kind rfl⟩

theorem C41_forward_fails {v : Vanilla} {u : Instrument} {fraction : ℝ} {strikeDate : DateTime} {strikeTime : Point} {e : Fault} :
    (Instrument.forwardStarting (call v) u fraction strikeDate strikeTime).prices fuel ctx dates = .error e ↔
      (Instrument.forwardStarting (put v) u fraction strikeDate strikeTime).prices fuel ctx dates = .error e := by
  rw [Instrument.prices, Instrument.prices]
  by_cases hs : ctx.spotDate > strikeDate.date
  · rw [if_pos hs, if_pos hs]
  · rw [if_neg hs, if_neg hs]
    exact ⟨vanillaPrices_kind rfl, vanillaPrices_kind rfl⟩

/-- C41. A call price is NaN exactly when the put price is. -/
theorem C41_nan {v : Vanilla} {u : Instrument} {K : ℝ} {cs ps : List (Num ℝ)}
    (hc : (Instrument.spotStarting (call v) u K).prices fuel ctx dates = .ok cs)
    (hp : (Instrument.spotStarting (put v) u K).prices fuel ctx dates = .ok ps)
    {j : Nat} {d : DateTime} {x y : Num ℝ} (hd : dates[j]? = some d) (hex : notAfter d v.expiry)
    (hx : cs[j]? = some x) (hy : ps[j]? = some y) : x = .nan ↔ y = .nan := by
  rw [Instrument.prices] at hc hp
  rcases vanilla_parity hc hp hd hx hy hex with ⟨rfl, rfl⟩ | ⟨c', p', yc, vol, K', F, δ, D, rfl, rfl, _⟩ <;> simp

/-- After expiry a priced option is worth nothing. -/
theorem C41_after {v : Vanilla} {u : Instrument} {K : ℝ} {xs : List (Num ℝ)}
    (h : (Instrument.spotStarting v u K).prices fuel ctx dates = .ok xs)
    {j : Nat} {d : DateTime} {x : Num ℝ} (hd : dates[j]? = some d) (hx : xs[j]? = some x) (hex : ¬ notAfter d v.expiry) :
    x = .val 0 := by
  rw [Instrument.prices] at h
  cases dates with
  | nil => simp at hd
  | cons d0 ds =>
    obtain ⟨yc, vol, K, F, rt, δ, h1, h2, h3, h4, h5, _, h7⟩ := vanillaPrices_cons.1 h
    have := forall2_getElem h7 hd hx
    rw [vanillaValue_after hex] at this
    cases this
    rfl

/-- A surface with one pillar and fixed dividends of 5 to come. -/
noncomputable def fixedPillar : Input :=
  ⟨[((0, 0), .flat (.val 0.2))], .everyDay, (0, 0), ⟨.flat, .flat, [(.val ((0 : Int) : ℝ), 100)]⟩,
    ⟨.flat, .flat, [(.val ((0 : Int) : ℝ), 5)]⟩, .fixedDivs⟩

theorem fixedPillar_new : ∃ p, VolSurface.newByProbability fixedPillar = .ok (.byProbability fixedPillar [p]) := by
  have y := everyDay_year 0
  norm_num at y
  refine ⟨⟨.val 100, nsqrt (num2 (· * ·) (num2 (· * ·) (.val 0) (.val 0.2)) (.val 0.2)), 0⟩, ?_⟩
  unfold VolSurface.newByProbability
  simp only [fixedPillar, buildPillars, constant_forward, Smile.volatility, Bind.bind, Except.bind, y]
  have : ¬ nlt (num2 (· * ·) (num2 (· * ·) (.val 0) (.val 0.2)) (.val 0.2)) (.val 0) := by
    simp [num2, nlt]
  simp only [this, if_false]
  rfl

theorem fixedPillar_vols (p : Pillar) (d : Nat) (hd : 0 < d) (k : Num ℝ) :
    (VolSurface.byProbability fixedPillar [p]).volatilities fuel ((d : Int), 0) [k] = .ok ((d : ℝ) / 365, [.val 0.2]) := by
  unfold VolSurface.volatilities byProbabilityVolatilities
  have : searchSmile fixedPillar.smiles ((d : Int), (0 : ℝ)) = (1, false) :=
    searchSmile_end (by
      intro q hq
      simp only [fixedPillar, List.mem_singleton] at hq
      subst hq
      left
      simpa using hd)
  simp only [this]
  simp only [fixedPillar, List.length_cons, List.length_nil, extrapolate, everyDay_year, constant_forward,
    Bind.bind, Except.bind, each, Smile.volatility, List.map_cons, List.map_nil, pure, Except.pure]
  norm_num

/-- A context without rates in which all equities and their forwards are 100. -/
noncomputable def flatContext (vol : VolSurface) : PricingContext :=
  ⟨0, fun _ _ => .ok (.zero 0), fun _ => .ok 100, fun _ _ => .ok ⟨fun _ => .ok (.val 100), fun _ => .ok (.val 0)⟩,
    fun _ _ _ => .ok vol⟩

theorem equity_flat (vol : VolSurface) (d : DateTime) :
    (Instrument.equity "A" "C" id).prices fuel (flatContext vol) [d] = .ok [.val 100] := by
  rw [Instrument.prices]
  unfold equityPrices
  dsimp only
  split <;> rfl

theorem Ext.div_zero (x : ℝ) : (Ext.val x).div 0 = if 0 < x then .pinf else if x < 0 then .ninf else .nan := by
  unfold Ext.div
  simp

/-- An option that expires at the open of day 10. -/
noncomputable def sampleTerms : Vanilla := ⟨"O", "C", id, ⟨10, .open⟩, .call, .cash, (10, 0), 10⟩

theorem later_self_zero (b : Point) (hb : ¬ before b (0, 0)) : later (0, 0) b = b := by
  unfold later
  rw [if_neg hb]

theorem sample_price (kind : Vanilla → Vanilla) (hk : kind = call ∨ kind = put) (vol : VolSurface) (K δ w : ℝ) (day : Int)
    (hday : 0 ≤ day ∧ day ≤ 10) (hδ : vol.displacement 10 = .ok (.val δ)) (hδ' : δ ≤ 100)
    (hw : vol.forwardVariance fuel (day, 0) (10, 0) (.val K) = .ok (.val w)) (h0 : 0 ≤ w) :
    (Instrument.spotStarting (kind sampleTerms) (.equity "A" "C" id) K).price fuel (flatContext vol) ⟨day, .open⟩ =
      .ok (formula (kind sampleTerms).putOrCall (.val 1) (.val (100 - δ)) (.val (K + δ)) (nsqrt (.val w))) := by
  rw [price_iff, Instrument.prices, vanillaPrices_cons]
  have hkind : (kind sampleTerms).expiry = ⟨10, .open⟩ ∧ (kind sampleTerms).payDate = 10 ∧ (kind sampleTerms).settlement = id ∧
      (kind sampleTerms).expiryTime = (10, 0) := by
    rcases hk with rfl | rfl <;> exact ⟨rfl, rfl, rfl, rfl⟩
  obtain ⟨k1, k2, k3, k4⟩ := hkind
  refine ⟨.zero 0, vol, .val K, .val 100, .val 0, .val δ, rfl, rfl, ?_, by rw [k2, Forward.zero_rt], by rw [k1]; exact hδ, ?_,
    .cons ?_ .nil⟩
  · rw [equity_flat]
    rfl
  · simp only [num2, nlt]
    linarith
  · rw [vanillaValue_ok (by rw [k1]; unfold notAfter rank; dsimp only; omega)]
    refine ⟨.val 0, (day, 0), .val w, nsqrt (.val w), by rw [Forward.zero_rt], rfl, ?_, ?_, ?_⟩
    · rw [later_self_zero _ (by unfold before; simp; exact hday.1), k4]
      exact hw
    · unfold optionSqrtVariance nonNegative
      rw [if_neg (by simp only [nlt]; linarith)]
    · simp [num1, num2]

/-- C41 violated: with a surface that assumes fixed dividends of 5 after expiry, a call and a put struck at the
forward of 100 have prices, but not the same price: the call is worth 10 less than the put. The code adds the
displacement to the strike although it takes it off the forward (`options.rs:118-119`). -/
theorem C41_false : ∃ s, VolSurface.newByProbability fixedPillar = .ok s ∧ ∃ c p,
    (Instrument.equity "A" "C" id).price fuel (flatContext s) ⟨10, .open⟩ = .ok (.val 100) ∧
    (Instrument.spotStarting (call sampleTerms) (.equity "A" "C" id) 100).price fuel (flatContext s) ⟨0, .open⟩ = .ok (.val c) ∧
    (Instrument.spotStarting (put sampleTerms) (.equity "A" "C" id) 100).price fuel (flatContext s) ⟨0, .open⟩ = .ok (.val p) ∧
    c - p = -10 := by
  obtain ⟨pi, hs⟩ := fixedPillar_new
  refine ⟨_, hs, ?_⟩
  have hδ : (VolSurface.byProbability fixedPillar [pi]).displacement 10 = .ok (.val 5) := by
    unfold VolSurface.displacement displacementBy
    exact constant_forward 0 10 5
  have hw : (VolSurface.byProbability fixedPillar [pi]).forwardVariance fuel (0, 0) (10, 0) (.val 100) =
      .ok (.val (10 / 365 * 0.2 * 0.2)) := by
    have hv := fixedPillar_vols (fuel := fuel) pi 10 (by norm_num) (.val 100)
    unfold VolSurface.forwardVariance VolSurface.forwardVariances
    rw [if_pos (by exact before_irrefl _)]
    unfold VolSurface.variances
    norm_num at hv
    rw [hv]
    simp only [ok_bind, List.map_cons, List.map_nil, num2]
    show first [_] = _
    unfold first
    norm_num
  have hc := sample_price call (.inl rfl) _ 100 5 _ 0 (by norm_num) hδ (by norm_num) hw (by norm_num)
  have hp := sample_price put (.inr rfl) _ 100 5 _ 0 (by norm_num) hδ (by norm_num) hw (by norm_num)
  rw [show (call sampleTerms).putOrCall = .call from rfl] at hc
  rw [show (put sampleTerms).putOrCall = .put from rfl] at hp
  simp only [formula] at hc hp
  rcases call_put (.val 1) (.val (100 - 5)) (.val (100 + 5)) (nsqrt (.val (10 / 365 * 0.2 * 0.2))) with ⟨h, _⟩ | ⟨D, F, K, c, p, e1, e2, e3, ec, ep, e⟩
  · exfalso
    have hne : Real.sqrt (10 / 365 * 0.2 * 0.2) ≠ 0 := by
      rw [Real.sqrt_ne_zero'] ; norm_num
    revert h
    unfold callPrice nsqrt logMoneyness dPlusMinus Ext.div
    norm_num
    norm_num at hne
    simp [Ext.add, cdf, num2, hne]
  · cases e1
    cases e2
    cases e3
    refine ⟨c, p, ?_, by rw [hc, ec], by rw [hp, ep], by rw [e]; norm_num⟩
    rw [price_iff, equity_flat]

/-! ## C59 -/

/-- The formulas with no variance left. -/
theorem formula_expired (kind : PutOrCall) (D F K : ℝ) (hF : 0 ≤ F) (hK : 0 ≤ K) (hne : F ≠ K) :
    formula kind (.val D) (.val F) (.val K) (.val 0) = .val (D * payoff kind F K) := by
  have key : cdf (dPlusMinus (logMoneyness (.val F) (.val K)) (.val 0)).1 = .val (if K < F then 1 else 0) ∧
      cdf (dPlusMinus (logMoneyness (.val F) (.val K)) (.val 0)).2 = .val (if K < F then 1 else 0) ∧
      cdf (dPlusMinus (logMoneyness (.val F) (.val K)) (.val 0)).1.neg = .val (if K < F then 0 else 1) ∧
      cdf (dPlusMinus (logMoneyness (.val F) (.val K)) (.val 0)).2.neg = .val (if K < F then 0 else 1) := by
    unfold logMoneyness dPlusMinus
    dsimp only
    by_cases hk0 : K = 0
    · subst hk0
      have : 0 < F := lt_of_le_of_ne hF (Ne.symm hne)
      rw [if_pos rfl, if_neg hne, if_pos this]
      simp [Ext.div, Ext.add, Ext.neg, cdf, this]
    · rw [if_neg hk0]
      have hKp : 0 < K := lt_of_le_of_ne hK (Ne.symm hk0)
      by_cases hf0 : F = 0
      · subst hf0
        rw [if_pos rfl]
        simp [Ext.div, Ext.add, Ext.neg, cdf, not_lt.2 hK]
      · have hFp : 0 < F := lt_of_le_of_ne hF (Ne.symm hf0)
        rw [if_neg hf0, if_pos (div_pos hFp hKp)]
        simp only [Ext.div_zero]
        by_cases hlt : K < F
        · have : 0 < Real.log (F / K) := Real.log_pos ((one_lt_div hKp).2 hlt)
          simp only [if_pos this]
          simp [Ext.add, Ext.neg, cdf, hlt]
        · have hlt' : F < K := lt_of_le_of_ne (not_lt.1 hlt) hne
          have : Real.log (F / K) < 0 := Real.log_neg (div_pos hFp hKp) ((div_lt_one hKp).2 hlt')
          simp only [if_neg (not_lt.2 (le_of_lt this)), if_pos this]
          simp [Ext.add, Ext.neg, cdf, hlt]
  obtain ⟨k1, k2, k3, k4⟩ := key
  cases kind with
  | call =>
    show callPrice _ _ _ _ = _
    unfold callPrice
    dsimp only
    rw [k1, k2]
    simp only [num2, payoff]
    by_cases hlt : K < F
    · rw [if_pos hlt, max_eq_left (by linarith)]
      congr 1
      ring
    · rw [if_neg hlt, max_eq_right (by linarith)]
      congr 1
      ring
  | put =>
    show putPrice _ _ _ _ = _
    unfold putPrice
    dsimp only
    rw [k3, k4]
    simp only [num2, payoff]
    by_cases hlt : K < F
    · rw [if_pos hlt, max_eq_right (by linarith)]
      congr 1
      ring
    · rw [if_neg hlt, max_eq_left (by linarith)]
      congr 1
      ring

/-- C59 for volatility surfaces without a displacement and options that are not exactly at the money: once no variance is
left, an option is worth its discounted payoff. What is missing, at the money, is false: `C59_false`. -/
theorem C59_partial {v : Vanilla} {u : Instrument} {K F D : ℝ} {yc : RateCurve} {vol : VolSurface} {valDate : Point} {d : DateTime}
    (hyc : ctx.yieldCurve u.creditId v.payDate = .ok yc)
    (hvol : ctx.volSurface u v.expiry.date (fun _ => ctx.forwardCurve u v.expiry.date) = .ok vol)
    (hq : Curves.Spec.Quotes yc v.payDate) (hq' : Curves.Spec.Quotes yc (v.settlement d.date))
    (hD : yc.df v.payDate (v.settlement d.date) = .ok (.val D))
    (hF : u.price fuel ctx v.expiry = .ok (.val F))
    (hδ : vol.displacement v.expiry.date = .ok (.val 0)) (hd : notAfter d v.expiry)
    (ht : u.timeToDayFraction d = .ok valDate)
    (hw : vol.forwardVariance fuel (later (0, 0) valDate) v.expiryTime (.val K) = .ok (.val 0))
    (hF0 : 0 ≤ F) (hK : 0 ≤ K) (hne : F ≠ K) :
    (Instrument.spotStarting v u K).price fuel ctx d = .ok (.val (D * payoff v.putOrCall F K)) := by
  obtain ⟨x, hx⟩ := hq
  obtain ⟨y, hy⟩ := hq'
  rw [price_iff, Instrument.prices, vanillaPrices_cons]
  refine ⟨yc, vol, .val K, .val F, .val x, .val 0, hyc, hvol, ?_, hx, hδ, ?_, .cons ?_ .nil⟩
  · rw [price_iff] at hF
    rw [hF]
    rfl
  · simp only [num2, nlt]
    linarith
  · rw [vanillaValue_ok hd]
    refine ⟨.val y, valDate, .val 0, .val 0, hy, ht, hw, ?_, ?_⟩
    · unfold optionSqrtVariance nonNegative nlt
      rw [if_neg (by norm_num)]
      simp [nsqrt]
    · have e : D = Real.exp (-x) * Real.exp y := by
        rw [Curves.df_eq hx hy] at hD
        cases hD
        rw [← Real.exp_add]
        congr 1
        ring
      simp only [num1, num2, sub_zero, add_zero]
      rw [← e, formula_expired v.putOrCall D F K hF0 hK hne]

/-- A flat surface has no variance left at expiry. -/
theorem C59_flat {σ : ℝ} {c : Cal ℝ} {base t : Point} {T : ℝ} (h : yearFraction c base t = .ok T) (hb : before base t) (K : Num ℝ) :
    (VolSurface.flat (.val σ) c base).forwardVariance fuel t t K = .ok (.val 0) := by
  rw [flat_forward]
  right
  exact ⟨hb, T, T, h, h, by linarith, by simp⟩

theorem sample_variance : (VolSurface.flat (.val 0.2) .everyDay (0, 0)).forwardVariance fuel (10, 0) (10, 0) (.val 100) = .ok (.val 0) :=
  C59_flat (T := 2 / 73) (by have := everyDay_year 10; norm_num at this; exact this) (by left; norm_num) _

/-- C59: a call struck at 90 on an underlying at 100 is worth 10 at expiry. -/
example : (Instrument.spotStarting (call sampleTerms) (.equity "A" "C" id) 90).price fuel
    (flatContext (.flat (.val 0.2) .everyDay (0, 0))) ⟨10, .open⟩ = .ok (.val 10) := by
  have h := C59_partial (fuel := fuel) (ctx := flatContext (.flat (.val 0.2) .everyDay (0, 0))) (v := call sampleTerms)
    (u := .equity "A" "C" id) (K := 90) (F := 100) (D := 1) (yc := .zero 0) (vol := .flat (.val 0.2) .everyDay (0, 0))
    (valDate := (10, 0)) (d := ⟨10, .open⟩) rfl rfl ⟨0, Forward.zero_rt 0 10⟩ ⟨0, Forward.zero_rt 0 10⟩ (by
      unfold RateCurve.df
      exact if_pos rfl) (by
      rw [price_iff, equity_flat]) rfl (by unfold notAfter rank; simp [call, sampleTerms]) rfl (by
      rw [later_self_zero _ (by unfold before; simp)]
      exact C59_flat (T := 2 / 73) (by have := everyDay_year 10; norm_num at this; exact this) (by left; norm_num) _)
      (by norm_num) (by norm_num) (by norm_num)
  rw [h, show (call sampleTerms).putOrCall = .call from rfl]
  norm_num [payoff]

/-- C59 violated: an option exactly at the money at its expiry, whose payoff is zero, has a price of NaN. -/
theorem C59_false : (Instrument.spotStarting (call sampleTerms) (.equity "A" "C" id) 100).price fuel
    (flatContext (.flat (.val 0.2) .everyDay (0, 0))) ⟨10, .open⟩ = .ok .nan ∧ payoff .call 100 100 = 0 := by
  refine ⟨?_, by norm_num [payoff]⟩
  have h := sample_price (fuel := fuel) call (.inl rfl) (.flat (.val 0.2) .everyDay (0, 0)) 100 0 0 10 (by norm_num) rfl (by norm_num)
    sample_variance (by norm_num)
  rw [h, show (call sampleTerms).putOrCall = .call from rfl]
  simp [formula, callPrice, logMoneyness, dPlusMinus, nsqrt, Ext.div, Ext.add, cdf, num2]

/-! ## C42 -/

theorem sign_payoff (kind : PutOrCall) (S K : ℝ) : (sign kind * (S - K) > 0 ↔ 0 < payoff kind S K) ∧
    (0 < payoff kind S K → sign kind * (S - K) = payoff kind S K) ∧ (¬ 0 < payoff kind S K → payoff kind S K = 0) := by
  cases kind with
  | call =>
    simp only [sign, payoff, one_mul, lt_max_iff, lt_irrefl, or_false, gt_iff_lt, true_and]
    refine ⟨fun h => (max_eq_left (le_of_lt h)).symm, fun h => max_eq_right (not_lt.1 h)⟩
  | put =>
    simp only [sign, payoff, lt_max_iff, lt_irrefl, or_false, gt_iff_lt]
    refine ⟨by constructor <;> intro h <;> linarith, fun h => ?_, fun h => max_eq_right (not_lt.1 h)⟩
    rw [max_eq_left (le_of_lt h)]
    ring

open Classical in
/-- C42, cash settlement. A known expiry fixing turns the option into as many units of cash on the pay date as its payoff;
out of the money it vanishes. -/
theorem C42_cash {table : FixingTable ℝ} {v : Vanilla} {u : Instrument} {K S : ℝ} (hcash : v.cashOrPhysical = .cash)
    (h : table.getOptional u.id v.expiry = some S) :
    (Instrument.spotStarting v u K).fix table = .ok (some (if 0 < payoff v.putOrCall S K then
      [(payoff v.putOrCall S K, .zeroCoupon (v.id ++ ":payment") v.creditId v.expiry v.payDate v.settlement)] else [])) := by
  rw [Instrument.fix, fixSpotStarting, FixingTable.get, h]
  simp only [ok_bind]
  show Except.ok (some (decompose v u K S)) = _
  unfold decompose
  rw [hcash]
  obtain ⟨h1, h2, h3⟩ := sign_payoff v.putOrCall S K
  dsimp only
  by_cases hp : 0 < payoff v.putOrCall S K
  · rw [if_pos hp, if_pos (h1.2 hp), h2 hp]
    rfl
  · rw [if_neg hp, if_neg (fun h => hp (h1.1 h))]

open Classical in
/-- C42, physical settlement. The option turns into the underlying, bought or sold, against the strike on the pay
date; out of the money it vanishes. -/
theorem C42_physical {table : FixingTable ℝ} {v : Vanilla} {u : Instrument} {K S : ℝ} (hphys : v.cashOrPhysical = .physical)
    (h : table.getOptional u.id v.expiry = some S) :
    (Instrument.spotStarting v u K).fix table = .ok (some (if 0 < payoff v.putOrCall S K then
      (match v.putOrCall with
        | .call => [(-K, .zeroCoupon (v.id ++ ":payment") v.creditId v.expiry v.payDate v.settlement), (1, u)]
        | .put => [(K, .zeroCoupon (v.id ++ ":payment") v.creditId v.expiry v.payDate v.settlement), (-1, u)]) else [])) := by
  rw [Instrument.fix, fixSpotStarting, FixingTable.get, h]
  simp only [ok_bind]
  show Except.ok (some (decompose v u K S)) = _
  unfold decompose
  rw [hphys]
  obtain ⟨h1, h2, h3⟩ := sign_payoff v.putOrCall S K
  dsimp only
  by_cases hp : 0 < payoff v.putOrCall S K
  · rw [if_pos hp, if_pos (h1.2 hp)]
    cases v.putOrCall <;> simp [sign, payment]
  · rw [if_neg hp, if_neg (fun h => hp (h1.1 h))]

/-- C42, value. Whatever the settlement, at expiry the fixed option is worth its payoff: for options made by the
constructor, and an underlying whose price at expiry is the fixing. -/
theorem C42_value {table : FixingTable ℝ} {id creditId : String} {u : Instrument} {settlement : Int → Int} {expiry : DateTime}
    {K S : ℝ} {kind : PutOrCall} {cashOrPhysical : OptionSettlement} {option : Instrument} {yc : RateCurve}
    (hnew : Instrument.newSpotStarting id creditId u settlement expiry K kind cashOrPhysical = .ok option)
    (h : table.getOptional u.id expiry = some S)
    (hyc : ctx.yieldCurve creditId (settlement expiry.date) = .ok yc)
    (hu : u.price fuel ctx expiry = .ok (.val S)) :
    ∃ parts values, option.fix table = .ok (some parts) ∧
      List.Forall₂ (fun p x => p.2.price fuel ctx expiry = .ok x) parts values ∧
      weightedSum (List.zipWith (fun p x => (p.1, x)) parts values) = .val (payoff kind S K) := by
  unfold Instrument.newSpotStarting at hnew
  split at hnew
  · cases hnew
  · obtain ⟨v, hv, hnew⟩ := bind_ok hnew
    have := pure_ok hnew
    subst this
    obtain ⟨t, _, hv⟩ := bind_ok hv
    have := pure_ok hv
    subst this
    obtain ⟨h1, h2, h3⟩ := sign_payoff kind S K
    have hzc : (Instrument.zeroCoupon (id ++ ":payment") creditId expiry (settlement expiry.date) settlement).price fuel ctx expiry =
        .ok (.val 1) := by
      rw [price_iff, Instrument.prices, zeroCouponPrices, hyc]
      simp only [ok_bind]
      rw [each_iff]
      refine .cons ?_ .nil
      rw [if_pos (.inr ⟨rfl, le_refl _⟩)]
      unfold RateCurve.df
      exact if_pos rfl
    by_cases hp : 0 < payoff kind S K
    · cases cashOrPhysical with
      | cash =>
        refine ⟨_, [.val 1], C42_cash rfl h, ?_, ?_⟩
        · dsimp only
          rw [if_pos hp]
          exact .cons hzc .nil
        · dsimp only
          rw [if_pos hp]
          simp [weightedSum, num1]
      | physical =>
        refine ⟨_, [.val 1, .val S], C42_physical rfl h, ?_, ?_⟩
        · dsimp only
          rw [if_pos hp]
          cases kind <;> exact .cons hzc (.cons hu .nil)
        · dsimp only
          rw [if_pos hp, ← h2 hp]
          cases kind <;> simp [weightedSum, num1, sign] <;> ring
    · rw [h3 hp]
      cases cashOrPhysical with
      | cash =>
        refine ⟨_, [], C42_cash rfl h, ?_, ?_⟩ <;> dsimp only <;> rw [if_neg hp]
        · exact .nil
        · rfl
      | physical =>
        refine ⟨_, [], C42_physical rfl h, ?_, ?_⟩ <;> dsimp only <;> rw [if_neg hp]
        · exact .nil
        · rfl

/-- C42, no fixing. The option stays as it is if the expiry fixing need not be known yet, and it is an error if it must. -/
theorem C42_unknown {table : FixingTable ℝ} {v : Vanilla} {u : Instrument} {K : ℝ} (h : table.getOptional u.id v.expiry = none) :
    (table.knownUntil ≤ v.expiry.date → (Instrument.spotStarting v u K).fix table = .ok none) ∧
    (v.expiry.date < table.knownUntil → (Instrument.spotStarting v u K).fix table = .error .err) := by
  rw [Instrument.fix, fixSpotStarting, FixingTable.get, h]
  refine ⟨fun hk => ?_, fun hk => ?_⟩
  · have : ¬ v.expiry.date < table.knownUntil := by omega
    dsimp only
    rw [if_neg this]
    rfl
  · dsimp only
    rw [if_pos hk]
    rfl

/-- C42 for forward-starting options. The strike fixing sets the strike: the option turns into whatever the option with
that strike turns into, or into that option itself if the expiry fixing is not known yet. -/
theorem C42_forward {table : FixingTable ℝ} {v : Vanilla} {u : Instrument} {fraction S : ℝ} {strikeDate : DateTime} {strikeTime : Point}
    (h : table.getOptional u.id strikeDate = some S) :
    (Instrument.forwardStarting v u fraction strikeDate strikeTime).fix table =
      match (Instrument.spotStarting v u (S * fraction)).fix table with
      | .error e => .error e
      | .ok (some parts) => .ok (some parts)
      | .ok none => .ok (some [(1, .spotStarting v u (S * fraction))]) := by
  rw [Instrument.fix, Instrument.fix, fixForwardStarting, FixingTable.get, h]
  simp only [ok_bind]
  cases fixSpotStarting table v u (S * fraction) with
  | error e => rfl
  | ok r => cases r <;> rfl

/-- C42 for forward-starting options without a strike fixing. -/
theorem C42_forward_unknown {table : FixingTable ℝ} {v : Vanilla} {u : Instrument} {fraction : ℝ} {strikeDate : DateTime}
    {strikeTime : Point} (h : table.getOptional u.id strikeDate = none) :
    (table.knownUntil ≤ strikeDate.date →
      (Instrument.forwardStarting v u fraction strikeDate strikeTime).fix table = .ok none) ∧
    (strikeDate.date < table.knownUntil →
      (Instrument.forwardStarting v u fraction strikeDate strikeTime).fix table = .error .err) := by
  rw [Instrument.fix, fixForwardStarting, FixingTable.get, h]
  refine ⟨fun hk => ?_, fun hk => ?_⟩
  · have : ¬ strikeDate.date < table.knownUntil := by omega
    dsimp only
    rw [if_neg this]
    rfl
  · dsimp only
    rw [if_pos hk]
    rfl

/-- C42: a put struck at 100 on an equity that fixes at 80, settled physically, is worth 20. -/
example : ∃ option parts values,
    Instrument.newSpotStarting "O" "C" (.equity "A" "C" id) id ⟨0, .close⟩ 100 .put .physical = .ok option ∧
    option.fix ⟨10, ⟨[("A", ⟨[(⟨0, .close⟩, 80)]⟩)]⟩⟩ = .ok (some parts) ∧
    List.Forall₂ (fun p x => p.2.price fuel ⟨0, fun _ _ => .ok (.zero 0), fun _ => .ok 80, fun _ _ => .error .err,
      fun _ _ _ => .error .err⟩ ⟨0, .close⟩ = .ok x) parts values ∧
    weightedSum (List.zipWith (fun p x => (p.1, x)) parts values) = .val 20 := by
  have hnew : ∃ o, Instrument.newSpotStarting "O" "C" (.equity "A" "C" id) id ⟨0, .close⟩ 100 .put .physical = .ok o := by
    unfold Instrument.newSpotStarting
    rw [if_neg (by norm_num)]
    exact ⟨_, rfl⟩
  obtain ⟨o, ho⟩ := hnew
  obtain ⟨parts, values, h1, h2, h3⟩ := C42_value (fuel := fuel) (ctx := ⟨0, fun _ _ => .ok (.zero 0), fun _ => .ok 80,
    fun _ _ => .error .err, fun _ _ _ => .error .err⟩) (table := ⟨10, ⟨[("A", ⟨[(⟨0, .close⟩, 80)]⟩)]⟩⟩) (S := 80) ho rfl rfl rfl
  exact ⟨o, parts, values, ho, h1, h2, by rw [h3]; norm_num [payoff]⟩

end QM.Instruments
