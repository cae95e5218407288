import Verif.Instruments.ValueProps
import Verif.Forward.Props
import Verif.Market.Props

/-!
# Property C74: valuing on several dates at once
-/

namespace QM.Instruments
open QM.Interp QM.Vol QM.Fixings Spec
open QM.Curves (RateCurve)

variable {fuel : Nat} {ctx : PricingContext}

theorem forall2_map {α β : Type} {R S : α → β → Prop} {xs : List α} {ys : List β} (h : List.Forall₂ R xs ys)
    (hRS : ∀ x ∈ xs, ∀ y, R x y → S x y) : List.Forall₂ S xs ys := by
  induction h with
  | nil => exact .nil
  | cons h1 _ ih => exact .cons (hRS _ (by simp) _ h1) (ih (fun x hx => hRS x (by simp [hx])))

theorem last_max {dates : List DateTime} {last : DateTime} (hs : dates.Pairwise (fun a b => a.date ≤ b.date))
    (hl : dates.getLast? = some last) : ∀ d ∈ dates, d.date ≤ last.date := by
  obtain ⟨init, rfl⟩ : ∃ init, dates = init ++ [last] := by
    rw [List.getLast?_eq_some_iff] at hl
    exact hl
  intro d hd
  rw [List.pairwise_append] at hs
  rcases List.mem_append.1 hd with h | h
  · exact hs.2.2 d h last (by simp)
  · rw [List.mem_singleton.1 h]

theorem equity_dates (hc : Steady ctx) {id c : String} {s : Int → Int} {dates : List DateTime} {out : List (Num ℝ)}
    (hs : dates.Pairwise (fun a b => a.date ≤ b.date)) (h : (Instrument.equity id c s).prices fuel ctx dates = .ok out) :
    List.Forall₂ (fun d x => ∀ y, (Instrument.equity id c s).price fuel ctx d = .ok y → y = x) dates out := by
  match dates with
  | [] => rw [Instrument.prices] at h; cases h; exact .nil
  | [d] =>
    have hl := prices_length _ h
    match out, hl with
    | [x], _ =>
      refine .cons ?_ .nil
      intro y hy
      rw [price_iff.2 h] at hy
      exact (Except.ok.inj hy).symm
  | d :: d' :: rest =>
    obtain ⟨fc, last, hl, hf, hx⟩ := C72_equity_dates.1 h
    refine forall2_map hx ?_
    intro e he x hx y hy
    have hle := last_max hs hl e he
    by_cases hd : e.date = ctx.spotDate
    · rw [price_iff, Instrument.prices] at hy
      unfold equityPrices at hy
      dsimp only at hy
      rw [if_pos hd] at hy
      obtain ⟨sp, h1, h2⟩ := bind_ok hy
      have h3 := pure_ok h2
      rw [hd] at hx hle
      have := hc.spot hf hle h1 hx
      rw [this]
      simpa using h3.symm
    · rw [price_iff, Instrument.prices] at hy
      unfold equityPrices at hy
      dsimp only at hy
      rw [if_neg hd] at hy
      obtain ⟨fd, h1, h2⟩ := bind_ok hy
      have h3 := each_iff.1 h2
      cases h3 with
      | cons h4 _ => exact hc.horizon h1 hf hle h4 hx

theorem vanilla_dates {v : Vanilla} {u : Instrument} {volFrom : Point} {sf : Outcome (Num ℝ × Num ℝ)} {dates : List DateTime}
    {out : List (Num ℝ)} (h : vanillaPrices fuel ctx v u volFrom sf dates = .ok out) :
    List.Forall₂ (fun d x => vanillaPrices fuel ctx v u volFrom sf [d] = .ok [x]) dates out := by
  cases dates with
  | nil => cases h; exact .nil
  | cons d ds =>
    obtain ⟨yc, vol, K, F, rt, δ, h1, h2, h3, h4, h5, h6, h7⟩ := vanillaPrices_cons.1 h
    refine forall2_map h7 ?_
    intro e _ x hx
    exact vanillaPrices_cons.2 ⟨yc, vol, K, F, rt, δ, h1, h2, h3, h4, h5, h6, .cons hx .nil⟩

theorem getElem_accumulate {w : ℝ} {temp o : List (Num ℝ)} {j : Nat} {t a : Num ℝ} (ht : temp[j]? = some t) (ha : o[j]? = some a) :
    (accumulate w temp o)[j]? = some (num2 (· + ·) a (num2 (· * ·) t (.val w))) := by
  unfold accumulate
  rw [List.getElem?_zipWith, ht, ha]

theorem forall2_of_getElem {α β : Type} {R : α → β → Prop} {xs : List α} {ys : List β} (hl : ys.length = xs.length)
    (h : ∀ (j : Nat) x y, xs[j]? = some x → ys[j]? = some y → R x y) : List.Forall₂ R xs ys := by
  induction xs generalizing ys with
  | nil =>
    have := List.length_eq_zero_iff.1 hl
    subst this
    exact .nil
  | cons x xs ih =>
    cases ys with
    | nil => simp at hl
    | cons y ys => exact .cons (h 0 x y rfl rfl) (ih (by simpa using hl) (fun j a b ha hb => h (j + 1) a b (by simpa using ha) (by simpa using hb)))

mutual
theorem dates_agree (hc : Steady ctx) : ∀ (i : Instrument) {dates : List DateTime} {out : List (Num ℝ)}
    (_ : dates.Pairwise (fun a b => a.date ≤ b.date)) (_ : i.prices fuel ctx dates = .ok out),
    List.Forall₂ (fun d x => ∀ y, i.price fuel ctx d = .ok y → y = x) dates out
  | .currency _ _, dates, out, _, h => by
    rw [Instrument.prices] at h
    cases h
    rw [List.forall₂_map_right_iff, List.forall₂_same]
    intro d _ y hy
    rw [(C72_currency (s := _)).1] at hy
    exact (Except.ok.inj hy).symm
  | .creditEntity _ _, dates, out, _, h => by
    rw [Instrument.prices] at h
    cases h
    rw [List.forall₂_map_right_iff, List.forall₂_same]
    intro d _ y hy
    rw [(C72_currency (s := _)).2] at hy
    exact (Except.ok.inj hy).symm
  | .equity _ _ _, dates, out, hs, h => equity_dates hc hs h
  | .zeroCoupon _ _ _ _ _, dates, out, _, h => by
    rw [Instrument.prices] at h
    unfold zeroCouponPrices at h
    obtain ⟨yc, h1, h⟩ := bind_ok h
    refine forall2_map (each_iff.1 h) ?_
    intro d _ x hx y hy
    rw [price_iff, Instrument.prices] at hy
    unfold zeroCouponPrices at hy
    rw [h1] at hy
    simp only [ok_bind] at hy
    have := each_iff.1 hy
    cases this with
    | cons h4 _ => rw [hx] at h4; exact (Except.ok.inj h4).symm
  | .basket _ _ _ parts, dates, out, hs, h => by
    rw [Instrument.prices] at h
    have hl := prices_length (.basket "" "" id parts) (fuel := fuel) (ctx := ctx) (dates := dates) (out := out) (by
      rw [Instrument.prices]; exact h)
    refine forall2_of_getElem hl ?_
    intro j d x hd hx y hy
    rw [price_iff, Instrument.prices] at hy
    have := basket_agree hc parts hs h (by simp) hd (a := .val 0) (by rw [List.getElem?_map, hd]; rfl) hx hy
    simpa using this
  | .spotStarting v u k, dates, out, _, h => by
    rw [Instrument.prices] at h
    refine forall2_map (vanilla_dates h) ?_
    intro d _ x hx y hy
    rw [price_iff, Instrument.prices, hx] at hy
    simpa using (Except.ok.inj hy).symm
  | .forwardStarting v u k sd st, dates, out, _, h => by
    rw [Instrument.prices] at h
    by_cases hsd : ctx.spotDate > sd.date
    · rw [if_pos hsd] at h; cases h
    · rw [if_neg hsd] at h
      refine forall2_map (vanilla_dates h) ?_
      intro d _ x hx y hy
      rw [price_iff, Instrument.prices, if_neg hsd, hx] at hy
      simpa using (Except.ok.inj hy).symm

theorem basket_agree (hc : Steady ctx) : ∀ (parts : List (ℝ × Instrument)) {dates : List DateTime} {o out : List (Num ℝ)}
    (_ : dates.Pairwise (fun a b => a.date ≤ b.date)) (_ : basketPrices fuel ctx parts dates o = .ok out)
    (_ : o.length = dates.length) {j : Nat} {d : DateTime} {a x : Num ℝ} {r : List (Num ℝ)} (_ : dates[j]? = some d)
    (_ : o[j]? = some a) (_ : out[j]? = some x) (_ : basketPrices fuel ctx parts [d] [a] = .ok r), r = [x]
  | [], dates, o, out, _, h, _, j, d, a, x, r, _, ha, hx, hr => by
    rw [basketPrices] at h hr
    cases h
    cases hr
    rw [ha] at hx
    cases hx
    rfl
  | (w, i) :: rest, dates, o, out, hs, h, hl, j, d, a, x, r, hd, ha, hx, hr => by
    rw [basketPrices] at h hr
    obtain ⟨temp, h1, h⟩ := bind_ok h
    obtain ⟨t1, r1, hr⟩ := bind_ok hr
    have hlen := prices_length i r1
    have hlen' := prices_length i h1
    match t1, hlen with
    | [t], _ =>
      obtain ⟨t', ht', hagree⟩ := forall2_get (dates_agree hc i hs h1) hd
      have e : t = t' := hagree t (price_iff.2 r1)
      subst e
      refine basket_agree hc rest hs h (by rw [accumulate_length w (by omega), hl]) hd (getElem_accumulate ht' ha) hx ?_
      exact hr
end

/-- C74. Where forwards do not depend on how far ahead they were asked for, and start at the spot, valuing an instrument on
several dates in order at once gives on each of them the value that it has when valued on that date alone, if it has one. -/
theorem C74_dates (hc : Steady ctx) {i : Instrument} {dates : List DateTime} {out : List (Num ℝ)}
    (hs : dates.Pairwise (fun a b => a.date ≤ b.date)) (h : i.prices fuel ctx dates = .ok out)
    {j : Nat} {d : DateTime} {x y : Num ℝ} (hd : dates[j]? = some d) (hx : out[j]? = some x) (hy : i.price fuel ctx d = .ok y) :
    y = x :=
  forall2_getElem (dates_agree hc i hs h) hd hx y hy

end QM.Instruments

namespace QM.Market
open QM.Interp QM.Curves QM.Dividends QM.Dividends.Spec QM.Forward QM.Forward.Spec QM.Vol QM.Fixings QM.Instruments QM.Instruments.Spec

variable {fuel : Nat}

theorem find_ok {V : Type} {id : String} {m : Map String V} {x : V} (h : find id m = .ok x) : m.get id = some x := by
  unfold find at h
  cases hg : m.get id with
  | none => rw [hg] at h; cases h
  | some y => rw [hg] at h; cases h; rfl

theorem equityForward_parts {md : MarketData} {i : Instrument} {hwm : Int} {f : EquityForward} (h : md.equityForward i hwm = .ok f) :
    ∃ spot divs borrow yc, md.spots.get i.id = some spot ∧ md.dividends.get i.id = some divs ∧
      md.borrowCurves.get i.id = some borrow ∧ md.yieldCurves.get i.creditId = some yc ∧
      EquityForward.new md.spotDate spot i.settlement yc borrow divs hwm = .ok f := by
  unfold MarketData.equityForward at h
  obtain ⟨spot, h1, h⟩ := bind_ok h
  obtain ⟨divs, h2, h⟩ := bind_ok h
  obtain ⟨borrow, h3, h⟩ := bind_ok h
  obtain ⟨yc, h4, h⟩ := bind_ok h
  exact ⟨spot, divs, borrow, yc, find_ok h1, find_ok h2, find_ok h3, find_ok h4, h⟩

theorem forwardCurve_parts {md : MarketData} {i : Instrument} {hwm : Int} {f : Fwd} (h : md.forwardCurve i hwm = .ok f) :
    ∃ e, md.equityForward i hwm = .ok e ∧ f = asFwd e := by
  unfold MarketData.forwardCurve at h
  obtain ⟨e, h1, h⟩ := bind_ok h
  exact ⟨e, h1, (pure_ok h).symm⟩

theorem asFwd_ok {e : EquityForward} {d : Int} {x : Num ℝ} (h : (asFwd e).forward d = .ok x) : ∃ y, e.forward d = .ok y ∧ x = .val y := by
  have h' : (e.forward d).map Num.val = .ok x := h
  cases hf : e.forward d with
  | error f => rw [hf] at h'; cases h'
  | ok y => rw [hf] at h'; exact ⟨y, rfl, (Except.ok.inj h').symm⟩

/-- C74 for market data, partial: with no dividend on the spot date and no dividend yields the market is steady, so that
prices on several dates are the prices on each. The full property has no condition on dividends; `C74_false` shows that a
dividend on the spot date breaks it. -/
theorem C74_market_partial {md : MarketData}
    (hf : ∀ i c borrow yc, md.borrowCurves.get i = some borrow → md.yieldCurves.get c = some yc → ∃ g, Financing yc borrow g)
    (hd : ∀ i divs, md.dividends.get i = some divs → InOrder divs.dividends ∧ (∀ d ∈ divs.dividends, d.exDate ≠ md.spotDate) ∧
      ∀ d, Accrued divs.divYield d 0) : Steady md.pricingContext := by
  constructor
  · intro i a b f g x y h1 h2 hab hx hy
    obtain ⟨e, he, rfl⟩ := forwardCurve_parts h1
    obtain ⟨e', he', rfl⟩ := forwardCurve_parts h2
    obtain ⟨spot, divs, borrow, yc, p1, p2, p3, p4, p5⟩ := equityForward_parts he
    obtain ⟨spot', divs', borrow', yc', q1, q2, q3, q4, q5⟩ := equityForward_parts he'
    rw [p1] at q1; cases q1
    rw [p2] at q2; cases q2
    rw [p3] at q3; cases q3
    rw [p4] at q4; cases q4
    obtain ⟨g, hg⟩ := hf _ _ _ _ p3 p4
    obtain ⟨ho, hb, _⟩ := hd _ _ p2
    obtain ⟨u, hu, rfl⟩ := asFwd_ok hx
    obtain ⟨u', hu', rfl⟩ := asFwd_ok hy
    have := C26_horizon hg p5 q5 ho hb (date := a) (le_refl _) hab
    rw [hu, hu'] at this
    cases this
    rfl
  · intro i b g s y h1 hb hs hy
    obtain ⟨e, he, rfl⟩ := forwardCurve_parts h1
    obtain ⟨spot, divs, borrow, yc, p1, p2, p3, p4, p5⟩ := equityForward_parts he
    obtain ⟨g, hg⟩ := hf _ _ _ _ p3 p4
    obtain ⟨ho, hne, hz⟩ := hd _ _ p2
    obtain ⟨u, hu, rfl⟩ := asFwd_ok hy
    have h2 : md.spots.get i.id = some s := find_ok hs
    rw [p1] at h2
    cases h2
    have := C26_spot hg p5 ho hne (hwm := b) hb (hz _)
    have hu' : e.forward md.spotDate = .ok u := hu
    rw [this] at hu'
    cases hu'
    rfl

/-- C74: the sample market meets the conditions. -/
example : Steady (sampleMarket 100 (.zero 0)).pricingContext := by
  apply C74_market_partial
  · intro i c borrow yc h1 h2
    simp only [sampleMarket, Map.get, List.find?_cons, List.find?_nil] at h1 h2
    have e1 : borrow = .zero 0 := by
      split at h1
      · exact (Option.some.inj h1).symm
      · cases h1
    have e2 : yc = .zero 0 := by
      split at h2
      · exact (Option.some.inj h2).symm
      · cases h2
    rw [e1, e2]
    exact ⟨_, financing_zero 0 0⟩
  · intro i divs h1
    simp only [sampleMarket, Map.get, List.find?_cons, List.find?_nil] at h1
    split at h1
    · cases h1
      exact ⟨List.Pairwise.nil, by simp [DividendStream.new], fun d => zero_rt 0 d⟩
    · cases h1

/-- The sample market with dividends on the spot date and ten days later. -/
noncomputable def exToday : MarketData :=
  { sampleMarket 100 (.zero 0) with dividends := ⟨[("A", .new [⟨5, 0, 0, 0⟩, ⟨1, 0, 10, 10⟩] (.zero 0))]⟩ }

/-- C74 violated: with a dividend of 5 going ex on the spot date and another later, the equity is worth 100 on the spot date when
valued on that date alone, and 95 on the same date when valued on that date and ten days later. -/
theorem C74_false : equityA.price fuel exToday.pricingContext ⟨0, .open⟩ = .ok (.val 100) ∧
    equityA.prices fuel exToday.pricingContext [⟨0, .open⟩, ⟨10, .open⟩] = .ok [.val 95, .val 94] := by
  constructor
  · exact C72_equity_spot rfl rfl
  · have hg := financing_zero 0 0
    have hboot : bootstrapStream (.new [⟨5, 0, 0, 0⟩, ⟨1, 0, 10, 10⟩] (.zero 0)) (.zero 0) (.zero 0) 100 0 10 =
        .ok ⟨0, 10, [⟨0, 5, 5, 5, .nan⟩, ⟨10, 6, 6, 6, .nan⟩]⟩ := by
      unfold bootstrapStream bootstrapDiscount
      rw [logDiscount_eq hg]
      simp [DividendStream.new, Bootstrap.new, bootstrapLoop, addDividend, discount_eq hg, LoopState.pushed, fillRemaining, Bind.bind,
        Except.bind, pure, Except.pure, lastCashExDate, RateCurve.isZero]
      norm_num
    have hnew : exToday.equityForward equityA 10 =
        .ok ⟨id, .zero 0, .zero 0, .zero 0, ⟨0, 10, [⟨0, 5, 5, 5, .nan⟩, ⟨10, 6, 6, 6, .nan⟩]⟩, 100, -0⟩ := by
      unfold MarketData.equityForward find
      show EquityForward.new 0 100 id (.zero 0) (.zero 0) (.new [⟨5, 0, 0, 0⟩, ⟨1, 0, 10, 10⟩] (.zero 0)) 10 = _
      unfold EquityForward.new
      rw [logDiscount_eq hg]
      simp only [Bind.bind, Except.bind, discount_eq hg]
      rw [show (100 : ℝ) * Real.exp (-0 - -0) = 100 by simp, hboot]
      rfl
    rw [show equityA = .equity "A" "C" id from rfl, C72_equity_dates]
    refine ⟨asFwd ⟨id, .zero 0, .zero 0, .zero 0, ⟨0, 10, [⟨0, 5, 5, 5, .nan⟩, ⟨10, 6, 6, 6, .nan⟩]⟩, 100, -0⟩, ⟨10, .open⟩, rfl, ?_, ?_⟩
    · show exToday.forwardCurve equityA 10 = _
      unfold MarketData.forwardCurve
      rw [hnew]
      rfl
    · refine .cons ?_ (.cons ?_ .nil)
      · unfold asFwd
        dsimp only
        rw [forward_eq (f := ⟨id, .zero 0, .zero 0, .zero 0, ⟨0, 10, [⟨0, 5, 5, 5, .nan⟩, ⟨10, 6, 6, 6, .nan⟩]⟩, 100, -0⟩)
          (g := fun _ => 0) (date := 0) (divs := 5) (y := 0) hg rfl (zero_rt 0 0)]
        norm_num [Except.map]
      · unfold asFwd
        dsimp only
        rw [forward_eq (f := ⟨id, .zero 0, .zero 0, .zero 0, ⟨0, 10, [⟨0, 5, 5, 5, .nan⟩, ⟨10, 6, 6, 6, .nan⟩]⟩, 100, -0⟩)
          (g := fun _ => 0) (date := 10) (divs := 6) (y := 0) hg rfl (zero_rt 0 10)]
        norm_num [Except.map]

end QM.Market
