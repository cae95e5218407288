import Verif.Instruments.OptionProps
import Verif.Instruments.BlackProps

/-!
# Properties C72 and C73: what instruments are worth, and which options can be made
-/

namespace QM.Instruments
open QM.Interp QM.Vol QM.Fixings QM.Calendar Spec
open QM.Curves (RateCurve)

variable {fuel : Nat} {ctx : PricingContext} {dates : List DateTime}

theorem notAfter_iff (a b : DateTime) : notAfter a b ↔ NotLater a b := by
  unfold notAfter NotLater
  cases ha : a.timeOfDay <;> cases hb : b.timeOfDay <;> simp [rank]

theorem gone_eq (t : DateTime) : dayFraction t.timeOfDay = gone t := by
  unfold gone
  cases t.timeOfDay <;> simp [dayFraction] <;> norm_num

/-! ## C72 -/

/-- C72, money. A unit of a currency, or of what a credit entity owes, is worth one on every date. -/
theorem C72_currency {id : String} {s : Int → Int} {d : DateTime} :
    (Instrument.currency id s).price fuel ctx d = .ok (.val 1) ∧
      (Instrument.creditEntity id s).price fuel ctx d = .ok (.val 1) := by
  constructor <;> rw [price_iff, Instrument.prices] <;> rfl

/-- C72, an equity today. On the spot date an equity is worth the spot quoted for its id, whatever the time of day. -/
theorem C72_equity_spot {id c : String} {s : Int → Int} {d : DateTime} {x : ℝ} (hd : d.date = ctx.spotDate)
    (hx : ctx.spot id = .ok x) : (Instrument.equity id c s).price fuel ctx d = .ok (.val x) := by
  rw [price_iff, Instrument.prices]
  unfold equityPrices
  dsimp only
  rw [if_pos hd, show (Instrument.equity id c s).id = id from rfl, hx]
  rfl

/-- C72, an equity on any other date is worth the forward on that date. -/
theorem C72_equity_forward {id c : String} {s : Int → Int} {d : DateTime} {x : Num ℝ} {fc : Fwd} (hd : d.date ≠ ctx.spotDate)
    (hc : ctx.forwardCurve (.equity id c s) d.date = .ok fc) (hx : fc.forward d.date = .ok x) :
    (Instrument.equity id c s).price fuel ctx d = .ok x := by
  rw [price_iff, Instrument.prices]
  unfold equityPrices
  dsimp only
  rw [if_neg hd, hc]
  simp only [ok_bind]
  exact each_iff.2 (.cons hx .nil)

/-- C72, an equity on several dates is worth the forwards on those dates, of a curve that reaches the last of them. -/
theorem C72_equity_dates {id c : String} {s : Int → Int} {d d' : DateTime} {rest : List DateTime} {out : List (Num ℝ)} :
    (Instrument.equity id c s).prices fuel ctx (d :: d' :: rest) = .ok out ↔
      ∃ fc last, (d :: d' :: rest).getLast? = some last ∧ ctx.forwardCurve (.equity id c s) last.date = .ok fc ∧
        List.Forall₂ (fun d x => fc.forward d.date = .ok x) (d :: d' :: rest) out := by
  rw [Instrument.prices]
  unfold equityPrices
  dsimp only
  constructor
  · intro h
    obtain ⟨fc, h1, h⟩ := bind_ok h
    refine ⟨fc, _, ?_, h1, each_iff.1 h⟩
    rw [List.getLast?_cons_cons, List.getLast?_eq_some_getLast (by simp)]
  · rintro ⟨fc, last, hl, h1, h⟩
    rw [List.getLast?_cons_cons, List.getLast?_eq_some_getLast (by simp), Option.some.injEq] at hl
    rw [hl, h1]
    simp only [ok_bind]
    exact each_iff.2 h

/-- C72, a zero coupon. Up to its ex-date it is worth one unit discounted from the payment date to the date on which
a trade on the valuation date settles. -/
theorem C72_zero_coupon {id c : String} {ex d : DateTime} {pay : Int} {s : Int → Int} {yc : RateCurve} {p q : ℝ}
    (hd : NotLater d ex) (hyc : ctx.yieldCurve c pay = .ok yc) (hp : yc.rt pay = .ok (.val p))
    (hq : yc.rt (s d.date) = .ok (.val q)) :
    (Instrument.zeroCoupon id c ex pay s).price fuel ctx d = .ok (.val (Real.exp (q - p))) := by
  rw [price_iff, Instrument.prices]
  unfold zeroCouponPrices
  rw [hyc]
  simp only [ok_bind]
  refine each_iff.2 (.cons ?_ .nil)
  rw [if_pos ((notAfter_iff _ _).2 hd)]
  exact Curves.df_eq hp hq

/-- C72, a zero coupon after its ex-date is worth nothing. -/
theorem C72_zero_coupon_after {id c : String} {ex d : DateTime} {pay : Int} {s : Int → Int} {yc : RateCurve}
    (hd : ¬ NotLater d ex) (hyc : ctx.yieldCurve c pay = .ok yc) :
    (Instrument.zeroCoupon id c ex pay s).price fuel ctx d = .ok (.val 0) := by
  rw [price_iff, Instrument.prices]
  unfold zeroCouponPrices
  rw [hyc]
  simp only [ok_bind]
  refine each_iff.2 (.cons ?_ .nil)
  rw [if_neg (fun h => hd ((notAfter_iff _ _).1 h))]
  rfl

/-- C72, a bond that pays on the settlement date of the valuation date is worth par. -/
theorem C72_zero_coupon_par {id c : String} {ex d : DateTime} {pay : Int} {s : Int → Int} {yc : RateCurve}
    (hd : NotLater d ex) (hyc : ctx.yieldCurve c pay = .ok yc) (hs : s d.date = pay) :
    (Instrument.zeroCoupon id c ex pay s).price fuel ctx d = .ok (.val 1) := by
  rw [price_iff, Instrument.prices]
  unfold zeroCouponPrices
  rw [hyc]
  simp only [ok_bind]
  refine each_iff.2 (.cons ?_ .nil)
  rw [if_pos ((notAfter_iff _ _).2 hd), hs]
  unfold RateCurve.df
  rw [if_pos rfl]

/-- The value of an option in ordinary arithmetic, without discounting: Black's formula, with the roles of forward and
strike exchanged for a put. -/
noncomputable def blackValue : PutOrCall → ℝ → ℝ → ℝ → ℝ
  | .call, F, K, s => black F K s
  | .put, F, K, s => black K F s

theorem formula_black {kind : PutOrCall} {D F K s : ℝ} (hF : 0 < F) (hK : 0 < K) (hs : 0 < s) :
    formula kind (.val D) (.val F) (.val K) (.val s) = .val (D * blackValue kind F K s) := by
  cases kind
  · exact put_black hF hK hs
  · exact call_black hF hK hs

theorem later_latest {a b c : Point} (h : LaterOf a b c) : later a b = c := by
  obtain ⟨h1, h2⟩ := h
  unfold later before
  have ha := h2 a (.inl rfl)
  have hb := h2 b (.inr rfl)
  split
  · rename_i hlt
    rcases h1 with rfl | rfl
    · rfl
    · exfalso
      rcases hlt with h | ⟨h, h'⟩ <;> rcases ha with g | ⟨g, g'⟩
      · omega
      · omega
      · omega
      · linarith
  · rename_i hlt
    rcases h1 with rfl | rfl
    · push Not at hlt
      rcases hb with g | ⟨g, g'⟩
      · omega
      · have := hlt.2 g
        exact Prod.ext g (le_antisymm g' this)
    · rfl

theorem vanilla_black {v : Vanilla} {u : Instrument} {volFrom from_ : Point} {sf : Outcome (Num ℝ × Num ℝ)} {d : DateTime}
    {yc : RateCurve} {vol : VolSurface} {K F δ p q w : ℝ}
    (hu : Optionable u) (hd : NotLater d v.expiry) (hyc : ctx.yieldCurve u.creditId v.payDate = .ok yc)
    (hvol : ctx.volSurface u v.expiry.date (fun _ => ctx.forwardCurve u v.expiry.date) = .ok vol)
    (hsf : sf = .ok (.val K, .val F)) (hδ : vol.displacement v.expiry.date = .ok (.val δ))
    (hp : yc.rt v.payDate = .ok (.val p)) (hq : yc.rt (v.settlement d.date) = .ok (.val q))
    (hfrom : LaterOf volFrom (d.date, gone d) from_)
    (hw : vol.forwardVariance fuel from_ v.expiryTime (.val K) = .ok (.val w))
    (hw0 : 0 < w) (hF : 0 < F - δ) (hK : 0 < K + δ) :
    vanillaPrices fuel ctx v u volFrom sf [d] =
      .ok [.val (Real.exp (q - p) * blackValue v.putOrCall (F - δ) (K + δ) (Real.sqrt w))] := by
  rw [vanillaPrices_cons]
  refine ⟨yc, vol, .val K, .val F, .val p, .val δ, hyc, hvol, hsf, hp, hδ, ?_, .cons ?_ .nil⟩
  · simp only [num2, nlt]
    linarith
  · rw [vanillaValue_ok ((notAfter_iff _ _).2 hd)]
    refine ⟨.val q, (d.date, gone d), .val w, .val (Real.sqrt w), hq, ?_, ?_, ?_, ?_⟩
    · rcases hu with ⟨id, c, s, rfl⟩ | ⟨id, c, s, parts, rfl⟩ <;> rw [← gone_eq] <;> rfl
    · rw [later_latest hfrom]
      exact hw
    · unfold optionSqrtVariance nonNegative
      rw [if_neg (by simp only [nlt]; linarith)]
      simp [nsqrt, not_lt.2 hw0.le]
    · simp only [num1, num2]
      rw [formula_black hF hK (Real.sqrt_pos.2 hw0), ← Real.exp_add]
      congr 3
      ring_nf

/-- C72, a spot-starting option. On a date up to expiry it is worth Black's formula, discounted from the payment date to
the date on which a trade on the valuation date settles. The forward is the value of the underlying at expiry. The
variance is that of the surface from the valuation time to expiry at the strike. Forward and strike are displaced by
what the surface says; see `C41_false` for the sign. -/
theorem C72_option_spot {v : Vanilla} {u : Instrument} {d : DateTime} {yc : RateCurve} {vol : VolSurface} {K F δ p q w : ℝ}
    (hu : Optionable u) (hd : NotLater d v.expiry) (hd0 : 0 ≤ d.date) (hyc : ctx.yieldCurve u.creditId v.payDate = .ok yc)
    (hvol : ctx.volSurface u v.expiry.date (fun _ => ctx.forwardCurve u v.expiry.date) = .ok vol)
    (hF : u.price fuel ctx v.expiry = .ok (.val F)) (hδ : vol.displacement v.expiry.date = .ok (.val δ))
    (hp : yc.rt v.payDate = .ok (.val p)) (hq : yc.rt (v.settlement d.date) = .ok (.val q))
    (hw : vol.forwardVariance fuel (d.date, gone d) v.expiryTime (.val K) = .ok (.val w))
    (hw0 : 0 < w) (hF0 : 0 < F - δ) (hK0 : 0 < K + δ) :
    (Instrument.spotStarting v u K).price fuel ctx d =
      .ok (.val (Real.exp (q - p) * blackValue v.putOrCall (F - δ) (K + δ) (Real.sqrt w))) := by
  rw [price_iff, Instrument.prices]
  refine vanilla_black hu hd hyc hvol ?_ hδ hp hq ?_ hw hw0 hF0 hK0
  · rw [price_iff.1 hF]
    rfl
  · have hg : 0 ≤ gone d := by unfold gone; split <;> norm_num
    refine ⟨.inr rfl, ?_⟩
    rintro x (rfl | rfl)
    · by_cases h : 0 < d.date
      · exact .inl h
      · exact .inr ⟨by dsimp only; omega, hg⟩
    · exact .inr ⟨rfl, le_refl _⟩

/-- C72, a forward-starting option. The same, with the strike the fraction of the value of the underlying on the strike
date, and the variance from the strike time or the valuation time, whichever is later. -/
theorem C72_option_forward {v : Vanilla} {u : Instrument} {fraction : ℝ} {strikeDate d : DateTime} {strikeTime from_ : Point}
    {yc : RateCurve} {vol : VolSurface} {S F δ p q w : ℝ}
    (hu : Optionable u) (hd : NotLater d v.expiry) (hs : ctx.spotDate ≤ strikeDate.date)
    (hyc : ctx.yieldCurve u.creditId v.payDate = .ok yc)
    (hvol : ctx.volSurface u v.expiry.date (fun _ => ctx.forwardCurve u v.expiry.date) = .ok vol)
    (hF : u.prices fuel ctx [strikeDate, v.expiry] = .ok [.val S, .val F]) (hδ : vol.displacement v.expiry.date = .ok (.val δ))
    (hp : yc.rt v.payDate = .ok (.val p)) (hq : yc.rt (v.settlement d.date) = .ok (.val q))
    (hfrom : LaterOf strikeTime (d.date, gone d) from_)
    (hw : vol.forwardVariance fuel from_ v.expiryTime (.val (S * fraction)) = .ok (.val w))
    (hw0 : 0 < w) (hF0 : 0 < F - δ) (hK0 : 0 < S * fraction + δ) :
    (Instrument.forwardStarting v u fraction strikeDate strikeTime).price fuel ctx d =
      .ok (.val (Real.exp (q - p) * blackValue v.putOrCall (F - δ) (S * fraction + δ) (Real.sqrt w))) := by
  rw [price_iff, Instrument.prices, if_neg (by omega)]
  refine vanilla_black hu hd hyc hvol ?_ hδ hp hq hfrom hw hw0 hF0 hK0
  rw [hF]
  rfl

/-- C72, a forward-starting option whose strike date has passed has no price: it has to be fixed first. -/
theorem C72_option_started {v : Vanilla} {u : Instrument} {fraction : ℝ} {strikeDate d : DateTime} {strikeTime : Point}
    (h : strikeDate.date < ctx.spotDate) :
    (Instrument.forwardStarting v u fraction strikeDate strikeTime).price fuel ctx d = .error .err := by
  unfold Instrument.price
  rw [Instrument.prices, if_pos h]
  rfl

/-! ## C73 -/

theorem time_iff {u : Instrument} {t : DateTime} {x : Point} :
    u.timeToDayFraction t = .ok x ↔ Optionable u ∧ x = (t.date, gone t) := by
  rw [← gone_eq]
  cases u <;> simp [Instrument.timeToDayFraction, Optionable, eq_comm]

/-- C73, spot-starting. The constructor accepts exactly the strikes that are not negative on equities and baskets. The
option pays when a trade on the expiry date settles. -/
theorem C73_spot {id c : String} {u o : Instrument} {s : Int → Int} {expiry : DateTime} {strike : ℝ} {kind : PutOrCall}
    {how : OptionSettlement} :
    Instrument.newSpotStarting id c u s expiry strike kind how = .ok o ↔
      0 ≤ strike ∧ Optionable u ∧
        o = .spotStarting ⟨id, c, s, expiry, kind, how, (expiry.date, gone expiry), s expiry.date⟩ u strike := by
  unfold Instrument.newSpotStarting Vanilla.new
  by_cases h : strike < 0
  · rw [if_pos h]
    simp [not_le.2 h]
  · rw [if_neg h]
    constructor
    · intro h'
      obtain ⟨v, hv, h'⟩ := bind_ok h'
      obtain ⟨t, ht, hv⟩ := bind_ok hv
      obtain ⟨hu, rfl⟩ := time_iff.1 ht
      have e1 := pure_ok hv
      have e2 := pure_ok h'
      subst e1 e2
      exact ⟨not_lt.1 h, hu, rfl⟩
    · rintro ⟨_, hu, rfl⟩
      rw [time_iff.2 ⟨hu, rfl⟩]
      rfl

/-- C73, forward-starting. The constructor accepts exactly the positive fractions on equities and baskets. It does not
check that the strike date comes before expiry. -/
theorem C73_forward {id c : String} {u o : Instrument} {s : Int → Int} {expiry strikeDate : DateTime} {fraction : ℝ}
    {kind : PutOrCall} {how : OptionSettlement} :
    Instrument.newForwardStarting id c u s expiry fraction strikeDate kind how = .ok o ↔
      0 < fraction ∧ Optionable u ∧
        o = .forwardStarting ⟨id, c, s, expiry, kind, how, (expiry.date, gone expiry), s expiry.date⟩ u fraction strikeDate
          (strikeDate.date, gone strikeDate) := by
  unfold Instrument.newForwardStarting Vanilla.new
  by_cases h : fraction ≤ 0
  · rw [if_pos h]
    simp [not_lt.2 h]
  · rw [if_neg h]
    constructor
    · intro h'
      obtain ⟨t, ht, h'⟩ := bind_ok h'
      obtain ⟨v, hv, h'⟩ := bind_ok h'
      obtain ⟨t', ht', hv⟩ := bind_ok hv
      obtain ⟨hu, rfl⟩ := time_iff.1 ht
      obtain ⟨_, rfl⟩ := time_iff.1 ht'
      have e1 := pure_ok hv
      have e2 := pure_ok h'
      subst e1 e2
      exact ⟨not_le.1 h, hu, rfl⟩
    · rintro ⟨_, hu, rfl⟩
      rw [time_iff.2 ⟨hu, rfl⟩]
      simp only [ok_bind]
      rw [time_iff.2 ⟨hu, rfl⟩]
      rfl

/-- C73: a refusal is an error that the caller can handle, never a panic. -/
theorem C73_refusal {id c : String} {u : Instrument} {s : Int → Int} {expiry strikeDate : DateTime} {x : ℝ}
    {kind : PutOrCall} {how : OptionSettlement} :
    Instrument.newSpotStarting id c u s expiry x kind how ≠ .error .panic ∧
    Instrument.newForwardStarting id c u s expiry x strikeDate kind how ≠ .error .panic := by
  unfold Instrument.newSpotStarting Instrument.newForwardStarting Vanilla.new
  have ht : ∀ t, u.timeToDayFraction t ≠ .error .panic := by
    intro t
    cases u <;> simp [Instrument.timeToDayFraction]
  constructor
  · split_ifs
    · simp
    · cases h : u.timeToDayFraction expiry with
      | ok _ => simp [bind, Except.bind, pure, Except.pure]
      | error e => cases e <;> simp_all [bind, Except.bind]
  · split_ifs
    · simp
    · cases h : u.timeToDayFraction strikeDate with
      | ok _ =>
        cases h : u.timeToDayFraction expiry with
        | ok _ => simp [bind, Except.bind, pure, Except.pure]
        | error e => cases e <;> simp_all [bind, Except.bind]
      | error e => cases e <;> simp_all [bind, Except.bind]

/-- C73 fails as a promise that an accepted option makes sense: a forward-starting option that fixes its strike after it
has expired is accepted. -/
theorem C73_order_false {id c : String} {eid ec : String} {s es : Int → Int} {kind : PutOrCall} {how : OptionSettlement} :
    ∃ o, Instrument.newForwardStarting id c (.equity eid ec es) s ⟨10, .open⟩ 1 ⟨20, .open⟩ kind how = .ok o :=
  ⟨_, C73_forward.2 ⟨one_pos, .inl ⟨_, _, _, rfl⟩, rfl⟩⟩

/-- The sample equity. -/
def sampleEquity : Instrument := .equity "A" "C" id

/-- C72: a call struck at 90 on an underlying at 100, ten days before expiry and at a volatility of twenty percent, is worth
Black's formula with a variance of 0.04 times ten days. -/
example : (Instrument.spotStarting (call sampleTerms) sampleEquity 90).price fuel
    (flatContext (.flat (.val 0.2) .everyDay (0, 0))) ⟨0, .open⟩ =
      .ok (.val (black 100 90 (Real.sqrt (10 / 365 * 0.2 * 0.2)))) := by
  have h := C72_option_spot (fuel := fuel) (ctx := flatContext (.flat (.val 0.2) .everyDay (0, 0))) (v := call sampleTerms)
    (u := sampleEquity) (d := ⟨0, .open⟩) (yc := .zero 0) (vol := .flat (.val 0.2) .everyDay (0, 0)) (K := 90) (F := 100) (δ := 0)
    (p := 0) (q := 0) (w := 10 / 365 * 0.2 * 0.2) (.inl ⟨_, _, _, rfl⟩) (.inl (by simp [call, sampleTerms])) (le_refl _) rfl rfl
    (by rw [price_iff]; exact equity_flat _ _) rfl (Forward.zero_rt _ _) (Forward.zero_rt _ _) (by
      rw [show gone ⟨0, .open⟩ = 0 by simp [gone], flat_forward]
      left
      refine ⟨by unfold before; simp, 10 / 365, ?_, by norm_num⟩
      have := everyDay_year 10
      norm_num at this ⊢
      exact this) (by norm_num) (by norm_num) (by norm_num)
  rw [h, show (call sampleTerms).putOrCall = .call from rfl]
  norm_num [blackValue]

/-- C72: a zero coupon paying on day 12 whose valuation on day 10 settles on day 12, at the close of its ex-date. -/
example : (Instrument.zeroCoupon "Z" "C" ⟨10, .close⟩ 12 (· + 2)).price fuel
    (flatContext (.flat (.val 0.2) .everyDay (0, 0))) ⟨10, .edsp⟩ = .ok (.val 1) :=
  C72_zero_coupon_par (yc := .zero 0) (.inr ⟨rfl, .inr (.inr rfl)⟩) rfl rfl

/-- C73: a strike of zero is accepted, a fraction of zero is not. -/
example : (∃ o, Instrument.newSpotStarting "O" "C" sampleEquity id ⟨10, .close⟩ 0 .call .cash = .ok o) ∧
    ¬ ∃ o, Instrument.newForwardStarting "O" "C" sampleEquity id ⟨10, .close⟩ 0 ⟨5, .open⟩ .call .cash = .ok o :=
  ⟨⟨_, C73_spot.2 ⟨le_refl _, .inl ⟨_, _, _, rfl⟩, rfl⟩⟩, fun ⟨_, h⟩ => absurd (C73_forward.1 h).1 (lt_irrefl _)⟩

end QM.Instruments
