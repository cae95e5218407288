import Verif.Market.DatesProps
import Verif.Market.AlikeLemmas

/-!
# Lemmas about contexts on the same market data
-/

namespace QM.Market
open QM.Interp QM.Curves QM.Dividends QM.Dividends.Spec QM.Forward QM.Forward.Spec QM.Vol QM.Fixings QM.Instruments QM.Instruments.Spec Spec

/-- Forwards can be had for every horizon or for none, and agree. -/
theorem new_horizon {base : Int} {spot : ℝ} {settlement : Int → Int} {rate borrow : RateCurve} {divs : DividendStream} {a : Int}
    {f : EquityForward} {g : Int → ℝ} (hg : Financing rate borrow g) (ho : InOrder divs.dividends) (hb : ∀ d ∈ divs.dividends, d.exDate ≠ base)
    (h : EquityForward.new base spot settlement rate borrow divs a = .ok f) (b : Int) :
    ∃ f', EquityForward.new base spot settlement rate borrow divs b = .ok f' ∧ ∀ d, d ≤ a → d ≤ b → f.forward d = f'.forward d := by
  obtain ⟨_, _, _, _, e5, _, e7⟩ := new_parts hg h
  have hy : divs.divYield.isZero = true ∨ ∀ d ∈ divs.dividends.getLast?, d.exDate ≤ divs.divYield.baseDate := by
    unfold bootstrapStream Bootstrap.new at e7
    cases hl : divs.dividends.getLast? with
    | none => exact .inr (by simp)
    | some last =>
      rw [hl] at e7
      dsimp only at e7
      split at e7
      · cases e7
      · rename_i hc
        by_cases hz : divs.divYield.isZero = true
        · exact .inl hz
        · refine .inr ?_
          intro d hd
          cases hd
          by_contra hlt
          exact hc ⟨by simp [hz], not_le.1 hlt⟩
  obtain ⟨boot, hboot, _⟩ := bootstrap_ok (lastCash := divs.lastCash) (spot := f.referenceSpot) (hwm := b) (discounts hg base) ho hb hy
  have hs : EquityForward.new base spot settlement rate borrow divs b =
      .ok ⟨settlement, rate, borrow, divs.divYield, boot, f.referenceSpot, - g base⟩ := by
    unfold EquityForward.new
    rw [logDiscount_eq hg]
    simp only [Bind.bind, Except.bind, discount_eq hg]
    rw [show spot * Real.exp (-g (settlement base) - -g base) = f.referenceSpot by rw [e5]; congr 2; ring]
    unfold bootstrapStream
    rw [hboot]
    rfl
  exact ⟨_, hs, fun d h1 h2 => C26_horizon hg h hs ho hb h1 h2⟩

theorem forwardCurve_horizon {md : MarketData} (ho : Orderly md) {i : Instrument} {a : Int} {f : Fwd} (h : md.forwardCurve i a = .ok f) (b : Int) :
    ∃ f', md.forwardCurve i b = .ok f' ∧ ∀ d, d ≤ a → d ≤ b → f.forward d = f'.forward d := by
  obtain ⟨e, he, rfl⟩ := forwardCurve_parts h
  obtain ⟨spot, divs, borrow, yc, p1, p2, p3, p4, p5⟩ := equityForward_parts he
  obtain ⟨g, hg⟩ := ho.financing _ _ _ _ p3 p4
  obtain ⟨q1, q2⟩ := ho.dividends _ _ p2
  obtain ⟨e', h1, h2⟩ := new_horizon hg q1 q2 p5 b
  refine ⟨asFwd e', ?_, ?_⟩
  · unfold MarketData.forwardCurve MarketData.equityForward find
    rw [p1, p2, p3, p4]
    dsimp only
    simp only [ok_bind]
    rw [h1]
    rfl
  · intro d ha hb
    unfold asFwd
    dsimp only
    rw [h2 d ha hb]

/-- Contexts that agree on what was declared. -/
structure Agrees (c : Collector) (ctx ctx' : PricingContext) : Prop where
  spotDate : ctx.spotDate = ctx'.spotDate
  yieldCurve : ∀ id d, ctx.yieldCurve id d = ctx'.yieldCurve id d
  spot : ∀ id, ctx.spot id = ctx'.spot id
  forward : ∀ u hwm d, c.forwardCurves.get u.id = some (u, hwm) → d ≤ hwm →
    ∃ f f', ctx.forwardCurve u d = .ok f ∧ ctx'.forwardCurve u d = .ok f' ∧ ∀ e ≤ d, f.forward e = f'.forward e
  vol : ∀ u hwm j volHwm d f f', c.forwardCurves.get u.id = some (u, hwm) → c.volSurfaces.get u.id = some (j, volHwm) →
    ctx.volSurface u d f = ctx'.volSurface u d f'

theorem agrees_prefetch {md : MarketData} (ho : Orderly md) {c : Collector} (hw : WellFormed c) {p : Prefetch} (h : Prefetch.new md c = .ok p) :
    Agrees c p.pricingContext md.pricingContext := by
  obtain ⟨hc, rfl, rfl⟩ := coherent_new hw h
  refine ⟨rfl, fun _ _ => rfl, fun _ => rfl, ?_, ?_⟩
  · intro u hwm d hd hle
    obtain ⟨f, h1, h2⟩ := hc.forward _ _ _ hd
    obtain ⟨f', h3, h4⟩ := forwardCurve_horizon ho h2 d
    refine ⟨f, f', ?_, h3, fun e he => h4 e (he.trans hle) he⟩
    show find u.id p.forwardCurves = _
    unfold find
    rw [h1]
  · intro u hwm j volHwm d f f' hd hv
    obtain ⟨v, h1, h2⟩ := hc.surface _ _ _ _ _ hd hv f'
    show find u.id p.volSurfaces = _
    unfold find
    rw [h1]
    exact h2.symm

variable {fuel : Nat} {S : Ask → Prop} {c : Collector} {ctx ctx' : PricingContext}

theorem agree_vanilla (h : Recorded S c) (hc : Agrees c ctx ctx') {v : Vanilla} {u : Instrument} {volFrom : Point}
    {x y : Outcome (Num ℝ × Num ℝ)} {dates : List DateTime} (hu : ∀ j hwm, c.forwardCurves.get u.id = some (j, hwm) → j = u)
    (h2 : S (.forward u.id v.expiry.date)) (h4 : S (.vol u.id v.expiry.date)) (hxy : x = y) :
    vanillaPrices fuel ctx v u volFrom x dates = vanillaPrices fuel ctx' v u volFrom y dates := by
  subst hxy
  obtain ⟨hwm, e1, _⟩ := latest_reach (h.forwards u.id) h2
  obtain ⟨volHwm, e2, _⟩ := latest_reach (h.vols u.id) h4
  obtain ⟨⟨j, _⟩, f1, rfl⟩ := Option.map_eq_some_iff.1 e1
  obtain ⟨⟨k, _⟩, f2, rfl⟩ := Option.map_eq_some_iff.1 e2
  have := hu _ _ f1
  subst this
  unfold vanillaPrices
  rw [hc.yieldCurve, hc.vol _ _ _ _ _ _ _ f1 f2]

theorem each_congr {f f' : DateTime → Outcome (Num ℝ)} {dates : List DateTime} (h : ∀ d ∈ dates, f d = f' d) : each f dates = each f' dates := by
  induction dates with
  | nil => rfl
  | cons d ds ih =>
    unfold each
    rw [h d (by simp), ih (fun e he => h e (by simp [he]))]

theorem agree_equity (h : Recorded S c) (hc : Agrees c ctx ctx') {u : Instrument} (hn : needsSpot u)
    (hu : ∀ j hwm, c.forwardCurves.get u.id = some (j, hwm) → j = u) {date : DateTime} {dates : List DateTime}
    (hd : dates = [date] ∨ ∃ d, dates = [d, date] ∧ d.date ≤ date.date) (h2 : S (.forward u.id date.date)) :
    u.prices fuel ctx dates = u.prices fuel ctx' dates := by
  obtain ⟨hwm, e1, hle⟩ := latest_reach (h.forwards u.id) h2
  obtain ⟨⟨j, _⟩, f1, rfl⟩ := Option.map_eq_some_iff.1 e1
  have := hu _ _ f1
  subst this
  obtain ⟨f, f', g1, g2, g3⟩ := hc.forward _ _ _ f1 hle
  obtain ⟨id, cr, s, rfl⟩ : ∃ id cr s, j = .equity id cr s := by
    cases j <;> simp_all [needsSpot]
  rw [Instrument.prices, Instrument.prices]
  rcases hd with rfl | ⟨d, rfl, hd⟩
  · unfold equityPrices
    dsimp only
    rw [hc.spotDate, hc.spot, g1, g2]
    simp only [ok_bind]
    rw [each_congr (f := fun d => f.forward d.date) (f' := fun d => f'.forward d.date) (fun d hd => by
      rw [List.mem_singleton.1 hd]; exact g3 _ (le_refl _))]
  · unfold equityPrices
    dsimp only
    rw [show (([date] : List DateTime).getLast (by simp)) = date from rfl, g1, g2]
    simp only [ok_bind]
    refine each_congr fun e he => ?_
    simp only [List.mem_cons, List.not_mem_nil, or_false] at he
    rcases he with rfl | rfl
    · exact g3 _ hd
    · exact g3 _ (le_refl _)

mutual
theorem agree_prices (h : Recorded S c) (hc : Agrees c ctx ctx') (sd : Int) : ∀ (i : Instrument) (dates : List DateTime),
    (∀ a, asks sd i a → S a) → Covered ctx.spotDate i dates →
    (∀ u ∈ underlyings i, ∀ j hwm, c.forwardCurves.get u.id = some (j, hwm) → j = u) →
    i.prices fuel ctx dates = i.prices fuel ctx' dates
  | .currency id s, dates, _, _, _ => by rw [Instrument.prices, Instrument.prices]
  | .creditEntity id s, dates, _, _, _ => by rw [Instrument.prices, Instrument.prices]
  | .equity id cr s, dates, ha, hk, _ => by
    rw [Instrument.prices, Instrument.prices]
    rw [Covered] at hk
    rcases hk with rfl | ⟨d, rfl, e⟩
    · rfl
    · unfold equityPrices
      dsimp only
      rw [if_pos e, if_pos (e.trans hc.spotDate), hc.spot]
  | .zeroCoupon id cr e p s, dates, ha, _, _ => by
    rw [Instrument.prices, Instrument.prices]
    unfold zeroCouponPrices
    rw [hc.yieldCurve]
  | .basket id cr s parts, dates, ha, hk, hu => by
    rw [Instrument.prices, Instrument.prices]
    rw [Covered] at hk
    rw [underlyings] at hu
    exact agree_basket h hc sd parts dates _ (fun a h' => ha a (by rw [asks]; exact h')) hk hu
  | .spotStarting v u k, dates, ha, hk, hu => by
    rw [Instrument.prices, Instrument.prices]
    rw [Covered] at hk
    rw [underlyings] at hu
    simp only [asks] at ha
    have hp : u.prices fuel ctx [v.expiry] = u.prices fuel ctx' [v.expiry] := by
      by_cases hn : needsSpot u
      · exact agree_equity h hc hn (hu u (by simp)) (date := v.expiry) (.inl rfl) (ha _ (by simp))
      · exact agree_prices h hc sd u [v.expiry] (fun a h' => ha a (by simp [h'])) (hk.resolve_left hn)
          (fun w hw => hu w (by simp [hw]))
    exact agree_vanilla h hc (hu u (by simp)) (ha _ (by simp)) (ha _ (by simp)) (by rw [hp])
  | .forwardStarting v u k d t, dates, ha, hk, hu => by
    rw [Instrument.prices, Instrument.prices]
    rw [Covered] at hk
    rw [underlyings] at hu
    simp only [asks] at ha
    have hp : u.prices fuel ctx [d, v.expiry] = u.prices fuel ctx' [d, v.expiry] := by
      by_cases hn : needsSpot u
      · exact agree_equity h hc hn (hu u (by simp)) (date := v.expiry) (.inr ⟨_, rfl, hk.1⟩) (ha _ (by simp))
      · exact agree_prices h hc sd u [d, v.expiry] (fun a h' => ha a (by simp [h'])) (hk.2.resolve_left hn)
          (fun w hw => hu w (by simp [hw]))
    rw [hc.spotDate]
    split
    · rfl
    · exact agree_vanilla h hc (hu u (by simp)) (ha _ (by simp)) (ha _ (by simp)) (by rw [hp])

theorem agree_basket (h : Recorded S c) (hc : Agrees c ctx ctx') (sd : Int) : ∀ (parts : List (ℝ × Instrument)) (dates : List DateTime)
    (out : List (Num ℝ)), (∀ a, asksAll sd parts a → S a) → CoveredAll ctx.spotDate parts dates →
    (∀ u ∈ underlyingsAll parts, ∀ j hwm, c.forwardCurves.get u.id = some (j, hwm) → j = u) →
    basketPrices fuel ctx parts dates out = basketPrices fuel ctx' parts dates out
  | [], dates, out, _, _, _ => by rw [basketPrices, basketPrices]
  | (w, i) :: rest, dates, out, ha, hk, hu => by
    rw [basketPrices, basketPrices]
    simp only [asksAll] at ha
    rw [CoveredAll] at hk
    rw [underlyingsAll] at hu
    rw [agree_prices h hc sd i dates (fun a h' => ha a (.inl h')) hk.1 (fun u h' => hu u (List.mem_append_left _ h'))]
    refine bind_congr fun temp => ?_
    exact agree_basket h hc sd rest dates _ (fun a h' => ha a (.inr (.inr h'))) hk.2 (fun u h' => hu u (List.mem_append_right _ h'))
end

end QM.Market
