import Verif.Market.ContextLemmas

/-!
# Properties C75 and C76: moving the spot date, and what contexts answer
-/

namespace QM.Market
open QM.Interp QM.Curves QM.Dividends QM.Dividends.Spec QM.Forward QM.Forward.Spec QM.Vol QM.Fixings QM.Instruments QM.Instruments.Spec Spec

variable {md md' : MarketData} {c : Collector} {i : Instrument}

/-! ## C76: what contexts answer -/

/-- C76. Market data answer with the spot date, the yield curve under the credit id and the spot under the id, and with nothing else. -/
theorem C76_data : md.pricingContext.spotDate = md.spotDate ∧
    (∀ creditId d (yc : RateCurve), md.pricingContext.yieldCurve creditId d = .ok yc ↔ data md (.yield creditId) = some yc) ∧
    ∀ id (s : ℝ), md.pricingContext.spot id = .ok s ↔ data md (.spot id) = some s := by
  refine ⟨rfl, fun creditId d yc => ?_, fun id s => ?_⟩
  · show find creditId md.yieldCurves = .ok yc ↔ md.yieldCurves.get creditId = some yc
    unfold find
    cases md.yieldCurves.get creditId <;> simp
  · show find id md.spots = .ok s ↔ md.spots.get id = some s
    unfold find
    cases md.spots.get id <;> simp

theorem equityForward_of {spot : ℝ} {divs : DividendStream} {borrow yc : RateCurve} (h1 : md.spots.get i.id = some spot)
    (h2 : md.dividends.get i.id = some divs) (h3 : md.borrowCurves.get i.id = some borrow) (h4 : md.yieldCurves.get i.creditId = some yc)
    (hwm : Int) : md.equityForward i hwm = EquityForward.new md.spotDate spot i.settlement yc borrow divs hwm := by
  unfold MarketData.equityForward find
  rw [h1, h2, h3, h4]
  rfl

/-- C76. The forward of an instrument, as long as it pays no dividends: from the spot under its id on the spot date, it grows at the rate
under its credit id less the borrow under its id, from settlement to settlement. -/
theorem C76_forward {S : ℝ} {divs : DividendStream} {borrow yc : RateCurve} {g : Int → ℝ} (h1 : data md (.spot i.id) = some S)
    (h2 : data md (.divs i.id) = some divs) (h3 : data md (.borrow i.id) = some borrow) (h4 : data md (.yield i.creditId) = some yc)
    (hg : Financing yc borrow g) (ho : InOrder divs.dividends) {hwm d : Int} (hd : md.spotDate ≤ d) (hm : d ≤ hwm)
    (hb : ∀ e ∈ divs.dividends, e.exDate < md.spotDate ∨ d < e.exDate) (hy : ∀ e, Accrued divs.divYield e 0) {f : Fwd}
    (hf : md.pricingContext.forwardCurve i hwm = .ok f) :
    f.forward d = .ok (.val (S * Real.exp (g (i.settlement d) - g (i.settlement md.spotDate)))) := by
  obtain ⟨e, he, rfl⟩ := forwardCurve_parts hf
  rw [equityForward_of h1 h2 h3 h4] at he
  have hne : ∀ e ∈ divs.dividends, e.exDate ≠ md.spotDate := fun e h => by have := hb e h; omega
  have hs := C26_spot hg he ho hne (hd.trans hm) (hy _)
  obtain ⟨fa, q1, q2⟩ := C26_growth hg he ho hne hd (fun e h => by have := hb e h; omega) hm (hy _) (hy _)
  rw [hs] at q1
  cases q1
  unfold asFwd
  dsimp only
  rw [q2]
  rfl

/-- C76. The vol surface of an instrument is the one under its id, moved to the spot date; it is left where it is if no vol time passes
in between. -/
theorem C76_vol {hwm : Int} {f : Unit → Outcome Fwd} {v : VolSurface} (h : md.pricingContext.volSurface i hwm f = .ok v) :
    ∃ v0, data md (.vol i.id) = some v0 ∧ (v = v0 ∨ v.baseDate = (md.spotDate, 0)) ∧
      (v0.baseDate.1 ≠ md.spotDate → ∃ t : ℝ, QM.Calendar.yearFraction v0.calendar v0.baseDate (md.spotDate, 0) = .ok t ∧
        (1 / 10 ^ 12 ≤ |t| → v.baseDate = (md.spotDate, 0))) := by
  have h' : md.volSurface i hwm f = .ok v := h
  unfold MarketData.volSurface at h'
  obtain ⟨v0, h1, h'⟩ := bind_ok h'
  obtain ⟨v1, h2, h3⟩ := bind_ok h'
  refine ⟨v0, find_ok h1, ?_⟩
  have e : v1 = v := Except.ok.inj h3
  subst e
  unfold VolTimeDynamics.modify at h2
  by_cases hb : md.spotDate = v0.baseDate.1
  · rw [if_pos hb] at h2
    have e := Except.ok.inj h2
    exact ⟨.inl e.symm, fun h => absurd hb.symm h⟩
  · rw [if_neg hb] at h2
    dsimp only at h2
    obtain ⟨t, h4, h5⟩ := bind_ok h2
    by_cases ht : |t - 0| < 1 / 10 ^ 12
    · rw [if_pos ht] at h5
      have e := pure_ok h5
      refine ⟨.inl e.symm, fun _ => ⟨t, h4, fun h => ?_⟩⟩
      rw [sub_zero] at ht
      exact absurd ht (not_lt.2 h)
    · rw [if_neg ht] at h5
      have e : v1.baseDate = (md.spotDate, 0) := by
        cases hd : i.volTimeDynamics <;> rw [hd] at h5 <;> have e := pure_ok h5 <;> rw [← e] <;> rfl
      exact ⟨.inr e, fun _ => ⟨t, h4, fun _ => e⟩⟩

/-- C76. A prefetching context answers like the market data it was made from: the same spot date, yield curves and spots, and for what
was declared the same forwards as far as was declared and the same vol surfaces. -/
theorem C76_prefetch (ho : Orderly md) {sd : Int} {calls : List Call} {p : Prefetch}
    (h : Prefetch.new md (calls.foldl run (.new sd)) = .ok p) :
    p.pricingContext.spotDate = md.pricingContext.spotDate ∧
    (∀ creditId d, p.pricingContext.yieldCurve creditId d = md.pricingContext.yieldCurve creditId d) ∧
    (∀ id, p.pricingContext.spot id = md.pricingContext.spot id) ∧
    (∀ u hwm d, (calls.foldl run (.new sd)).forwardCurves.get u.id = some (u, hwm) → d ≤ hwm →
      ∃ f f', p.pricingContext.forwardCurve u d = .ok f ∧ md.pricingContext.forwardCurve u d = .ok f' ∧ ∀ e ≤ d, f.forward e = f'.forward e) ∧
    ∀ u hwm j volHwm d f f', (calls.foldl run (.new sd)).forwardCurves.get u.id = some (u, hwm) →
      (calls.foldl run (.new sd)).volSurfaces.get u.id = some (j, volHwm) →
      p.pricingContext.volSurface u d f = md.pricingContext.volSurface u d f' := by
  have h1 := agrees_prefetch ho (wellFormed_runs (wellFormed_new sd) calls) h
  exact ⟨h1.spotDate, h1.yieldCurve, h1.spot, h1.forward, h1.vol⟩

/-- C76 for prices, partial: an instrument whose dependencies were declared has the same price in a prefetching context as in the
market data it was made from. What is missing is equities that are priced on other dates than the spot date, options that start after
they expire, and underlyings that share their id with another; `C76_false` shows that the property fails there. -/
theorem C76_prices_partial (ho : Orderly md) {sd : Int} {calls : List Call} {p : Prefetch}
    (h : Prefetch.new md (calls.foldl run (.new sd)) = .ok p) (hi : .spot i ∈ calls) {dates : List DateTime}
    (hk : Covered md.spotDate i dates)
    (hu : ∀ u ∈ underlyings i, ∀ j hwm, (calls.foldl run (.new sd)).forwardCurves.get u.id = some (j, hwm) → j = u) (fuel : Nat) :
    i.prices fuel p.pricingContext dates = i.prices fuel md.pricingContext dates := by
  have hw := wellFormed_runs (wellFormed_new sd) calls
  have h1 := agrees_prefetch ho hw h
  refine agree_prices (recorded_runs (recorded_new sd) calls) h1 sd i dates (fun a ha => .inr ⟨_, hi, .inl ha⟩) ?_ hu
  rw [h1.spotDate]
  exact hk

theorem sample_orderly (S : ℝ) : Orderly (sampleMarket S (.zero 0)) := by
  constructor
  · intro i c borrow yc h1 h2
    simp only [sampleMarket, Map.get, List.find?_cons, List.find?_nil] at h1 h2
    have e1 : borrow = .zero 0 := by
      split at h1
      · exact (Option.some.inj h1).symm
      · cases h1
    have e2 : yc = .zero 0 := by
      split at h2
      · exact (Option.some.inj h2).symm
      · cases h2
    rw [e1, e2]
    exact ⟨_, financing_zero 0 0⟩
  · intro i divs h1
    simp only [sampleMarket, Map.get, List.find?_cons, List.find?_nil] at h1
    split at h1
    · cases h1
      exact ⟨List.Pairwise.nil, by simp [DividendStream.new]⟩
    · cases h1

/-- C76: an option in the sample market meets the conditions. -/
example : Orderly (sampleMarket 100 (.zero 0)) ∧ (∃ p, Prefetch.new (sampleMarket 100 (.zero 0)) ([Call.spot (optionA 90)].foldl run (.new 0)) = .ok p) ∧
    Covered 0 (optionA 90) [⟨0, .open⟩] ∧
    ∀ u ∈ underlyings (optionA 90), ∀ j hwm, ([Call.spot (optionA 90)].foldl run (.new 0)).forwardCurves.get u.id = some (j, hwm) → j = u := by
  refine ⟨sample_orderly 100, sample_built 100, ?_, ?_⟩
  · unfold optionA
    rw [Covered]
    exact .inl trivial
  · intro u hu j hwm h
    have e : u = equityA := by
      unfold optionA at hu
      rw [underlyings, show underlyings equityA = [] by unfold equityA; rw [underlyings]] at hu
      exact List.mem_singleton.1 hu
    subst e
    have h' : some (equityA, (10 : Int)) = some (j, hwm) := h
    cases h'
    rfl

/-- C76 violated: an equity asks for a spot only, so that a context made for it has no forward to value it on a later date, although
the market data have. -/
theorem C76_false (fuel : Nat) : ∃ p, Prefetch.new (sampleMarket 100 (.zero 0)) ([Call.spot equityA].foldl run (.new 0)) = .ok p ∧
    equityA.price fuel (sampleMarket 100 (.zero 0)).pricingContext ⟨10, .open⟩ = .ok (.val 100) ∧
    equityA.price fuel p.pricingContext ⟨10, .open⟩ = .error .err := by
  refine ⟨_, rfl, ?_, rfl⟩
  obtain ⟨f, h1, h2⟩ := sample_forward_flat 100 10
  exact C72_equity_forward (by decide) h1 (h2 10 (le_refl _))

/-! ## C75: moving the spot date -/

/-- C75. With sticky spots, the date moves and all data stay. -/
theorem C75_sticky_spot {d : Int} (hd : (md.spots.entries.map Prod.fst).Nodup)
    (h : md.bumpSpotDate ⟨d, .stickySpot⟩ c = (.ok (), md')) : md'.spotDate = d ∧ ∀ x, data md' x = data md x := by
  obtain ⟨h1, _, h3, h4⟩ := bumpSpotDate_ok hd h
  refine ⟨h1, fun x => ?_⟩
  by_cases hx : ∃ id, x = .spot id
  · obtain ⟨id, rfl⟩ := hx
    exact h4 id
  · exact h3 x (fun id e => hx ⟨id, e⟩)

/-- C75. With sticky forwards, the date moves, the spot of every known instrument becomes its forward on the new date, and all other
data stay. -/
theorem C75_sticky_forward {d : Int} (hd : (md.spots.entries.map Prod.fst).Nodup)
    (h : md.bumpSpotDate ⟨d, .stickyForward⟩ c = (.ok (), md')) :
    md'.spotDate = d ∧ (∀ x, (∀ id, x ≠ .spot id) → data md' x = data md x) ∧
    (∀ id, md.spots.get id = none → md'.spots.get id = none) ∧
    (∀ id, c.instruments.get id = none → md'.spots.get id = md.spots.get id) ∧
    ∀ id j S, c.instruments.get id = some j → md.spots.get id = some S →
      ∃ f S', md.pricingContext.forwardCurve j d = .ok f ∧ f.forward d = .ok (.val S') ∧ md'.spots.get id = some S' := by
  obtain ⟨h1, _, h3, h4⟩ := bumpSpotDate_ok hd h
  have hm : ∀ id, (md.spots.get id = none → md'.spots.get id = none) ∧
      ∀ S, md.spots.get id = some S → ∃ y, movedSpot md d c id S = .ok y ∧ md'.spots.get id = some y := h4
  refine ⟨h1, h3, fun id => (hm id).1, ?_, ?_⟩
  · intro id hc
    cases hs : md.spots.get id with
    | none => exact (hm id).1 hs
    | some S =>
      obtain ⟨y, q1, q2⟩ := (hm id).2 S hs
      unfold movedSpot at q1
      rw [hc] at q1
      cases q1
      exact q2
  · intro id j S hc hs
    obtain ⟨y, q1, q2⟩ := (hm id).2 S hs
    unfold movedSpot at q1
    rw [hc] at q1
    obtain ⟨e, q3, q4⟩ := bind_ok q1
    refine ⟨asFwd e, y, ?_, ?_, q2⟩
    · show md.forwardCurve j d = _
      unfold MarketData.forwardCurve
      rw [q3]
      rfl
    · unfold asFwd
      dsimp only
      rw [q4]
      rfl

/-- C75. With sticky forwards, the spot of an instrument that pays no dividends on the way grows at the rate under its credit id less the
borrow under its id. -/
theorem C75_growth {d : Int} (hd : (md.spots.entries.map Prod.fst).Nodup)
    (h : md.bumpSpotDate ⟨d, .stickyForward⟩ c = (.ok (), md')) (hle : md.spotDate ≤ d) {S : ℝ} {divs : DividendStream} {borrow yc : RateCurve} {g : Int → ℝ}
    (hc : c.instruments.get i.id = some i) (h1 : data md (.spot i.id) = some S)
    (h2 : data md (.divs i.id) = some divs) (h3 : data md (.borrow i.id) = some borrow) (h4 : data md (.yield i.creditId) = some yc)
    (hg : Financing yc borrow g) (ho : InOrder divs.dividends) (hb : ∀ e ∈ divs.dividends, e.exDate < md.spotDate ∨ d < e.exDate)
    (hy : ∀ e, Accrued divs.divYield e 0) :
    data md' (.spot i.id) = some (S * Real.exp (g (i.settlement d) - g (i.settlement md.spotDate)) : ℝ) := by
  obtain ⟨_, _, _, _, q⟩ := C75_sticky_forward hd h
  obtain ⟨f, S', q1, q2, q3⟩ := q i.id i S hc h1
  rw [C76_forward h1 h2 h3 h4 hg ho hle (le_refl _) hb hy q1] at q2
  have e := Num.val.inj (Except.ok.inj q2)
  rw [e]
  exact q3

/-- C75. Moving with sticky forwards in two steps leads to the same spot as moving in one, for an instrument that pays no dividends on
the way. -/
theorem C75_steps {md1 md2 : MarketData} {d d' : Int} (hd : (md.spots.entries.map Prod.fst).Nodup)
    (h : md.bumpSpotDate ⟨d, .stickyForward⟩ c = (.ok (), md1)) (h' : md1.bumpSpotDate ⟨d', .stickyForward⟩ c = (.ok (), md2))
    (hone : md.bumpSpotDate ⟨d', .stickyForward⟩ c = (.ok (), md'))
    (hle : md.spotDate ≤ d) (hle' : d ≤ d') {S : ℝ} {divs : DividendStream} {borrow yc : RateCurve} {g : Int → ℝ}
    (hc : c.instruments.get i.id = some i) (h1 : data md (.spot i.id) = some S)
    (h2 : data md (.divs i.id) = some divs) (h3 : data md (.borrow i.id) = some borrow) (h4 : data md (.yield i.creditId) = some yc)
    (hg : Financing yc borrow g) (ho : InOrder divs.dividends) (hb : ∀ e ∈ divs.dividends, e.exDate < md.spotDate ∨ d' < e.exDate)
    (hy : ∀ e, Accrued divs.divYield e 0) : data md2 (.spot i.id) = data md' (.spot i.id) := by
  have k1 := C75_growth hd h hle hc h1 h2 h3 h4 hg ho (fun e he => by have := hb e he; omega) hy
  have k2 := C75_growth hd hone (hle.trans hle') hc h1 h2 h3 h4 hg ho hb hy
  obtain ⟨e1, e2, e3, _⟩ := bumpSpotDate_ok hd h
  have e1' : md1.spotDate = d := e1
  have k3 := C75_growth e2 h' (by omega) hc k1 ((e3 _ (by simp)).trans h2) ((e3 _ (by simp)).trans h3) ((e3 _ (by simp)).trans h4) hg ho
    (fun e he => by have := hb e he; omega) hy
  rw [k3, k2, e1', mul_assoc, ← Real.exp_add]
  congr 3
  ring

/-- C75 for a prefetching context: it moves its market data, says whether the date was another one, and leaves the save area alone. -/
theorem C75_prefetch {p p' : Prefetch} {b : BumpSpotDate} {save save' : Option SavedPrefetch} {changed : Bool}
    (h : p.bump (.spotDate b) save = (.ok changed, p', save')) :
    (changed = true ↔ b.spotDate ≠ p.context.spotDate) ∧ save' = save ∧ p'.dependencies = p.dependencies ∧ p'.context.spotDate = b.spotDate ∧
    (changed = false → p' = p) ∧ (changed = true → p.context.bumpSpotDate b p.dependencies = (.ok (), p'.context)) := by
  unfold Prefetch.bump at h
  dsimp only at h
  by_cases hne : b.spotDate ≠ p.context.spotDate
  · rw [if_pos hne] at h
    cases hb : p.context.bumpSpotDate b p.dependencies with
    | mk r md =>
      rw [hb] at h
      cases r with
      | error e => cases h
      | ok u =>
        dsimp only at h
        have hs : md.spotDate = b.spotDate := by
          unfold MarketData.bumpSpotDate at hb
          cases hdyn : b.spotDynamics with
          | stickySpot => rw [hdyn] at hb; cases hb; rfl
          | stickyForward =>
            rw [hdyn] at hb
            dsimp only at hb
            split at hb <;> cases hb
            rfl
        cases hr : Prefetch.refetchAll { p with context := md } with
        | mk r q =>
          rw [hr] at h
          cases r with
          | error e => cases h
          | ok u' =>
            cases h
            unfold Prefetch.refetchAll at hr
            dsimp only at hr
            obtain ⟨-, rfl⟩ := Prod.mk.inj hr
            exact ⟨by simp [hne], rfl, rfl, hs, by simp, fun _ => rfl⟩
  · rw [if_neg hne] at h
    cases h
    rw [not_not] at hne
    exact ⟨by simp [hne], rfl, rfl, hne.symm, fun _ => rfl, by simp⟩

/-- C75: the sample market can be moved both ways. -/
example : (∃ md', (sampleMarket 100 (.zero 0)).bumpSpotDate ⟨5, .stickySpot⟩ oneOption = (.ok (), md')) ∧
    ∃ md', (sampleMarket 100 (.zero 0)).bumpSpotDate ⟨5, .stickyForward⟩ oneOption = (.ok (), md') := by
  refine ⟨⟨_, rfl⟩, ?_⟩
  refine bumpSpotDate_succeeds (by simp [sampleMarket, Distinct]) ?_
  intro _ id S hS
  have e : id = "A" := by
    simp only [sampleMarket, Map.get, List.find?_cons, List.find?_nil] at hS
    split at hS
    · rename_i h; exact (show "A" = id by simpa using h).symm
    · cases hS
  subst e
  obtain ⟨f, h1, h2⟩ := sample_forward_flat 100 5
  obtain ⟨e, he, rfl⟩ := forwardCurve_parts h1
  obtain ⟨y, hy, _⟩ := asFwd_ok (h2 5 (le_refl _))
  refine ⟨y, ?_⟩
  have hi : oneOption.instruments.get "A" = some equityA := rfl
  unfold movedSpot
  rw [hi]
  dsimp only
  rw [he]
  exact hy

/-! ## Bumps of the spot -/

/-- C75 for spots: a relative bump moves the spot by that fraction of itself, and a replacement puts another in its place. -/
theorem C75_spot_bump {id : String} {S : ℝ} (h : data md (.spot id) = some S) (b : BumpSpot) (save : Option SavedData) :
    ∃ md' save', ∃ S' : ℝ, md.bump (.spot id b) save = (.ok true, md', save') ∧ data md' (.spot id) = some S' ∧
      (∀ r, b = .relative r → S' - S = r * S) ∧ ∀ x, b = .replace x → S' = x := by
  obtain ⟨md', save', h1, h2, _⟩ := C35_present (b := .spot id b) rfl h save
  refine ⟨md', save', b.apply S, h1, h2, ?_, ?_⟩
  · rintro r rfl
    unfold BumpSpot.apply
    ring
  · rintro x rfl
    rfl

end QM.Market
