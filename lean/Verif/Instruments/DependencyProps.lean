import Verif.Instruments.DependencyLemmas
import Verif.Instruments.OptionProps

/-!
# Properties C38 and C39: dependencies
-/

namespace QM.Instruments
open QM.Interp QM.Vol QM.Fixings QM.Calendar Spec
open QM.Curves (RateCurve)

variable {fuel : Nat} {ctx : PricingContext}

/-! ## C38 -/

/-- C38. Whatever has been asked of the collector, directly or by instruments inside instruments, the date it has for each
yield curve, forward and vol surface is the latest that was asked for, and it has none exactly when there was none. -/
theorem C38_latest (sd : Int) (calls : List Call) (id : String) :
    Latest (fun d => ∃ call ∈ calls, callAsks sd call (.yieldCurve id d)) ((calls.foldl run (.new sd)).yieldCurves.get id) ∧
    Latest (fun d => ∃ call ∈ calls, callAsks sd call (.forward id d)) (((calls.foldl run (.new sd)).forwardCurves.get id).map Prod.snd) ∧
    Latest (fun d => ∃ call ∈ calls, callAsks sd call (.vol id d)) (((calls.foldl run (.new sd)).volSurfaces.get id).map Prod.snd) := by
  have h := recorded_runs (recorded_new sd) calls
  refine ⟨latest_congr (h.yields id) ?_, latest_congr (h.forwards id) ?_, latest_congr (h.vols id) ?_⟩ <;>
  · intro d
    simp only [false_or]
    rfl

/-- C38. The spots and fixings it has are those that were asked for. -/
theorem C38_held (sd : Int) (calls : List Call) (id : String) :
    (((calls.foldl run (.new sd)).spots.get id).isSome ↔ ∃ call ∈ calls, callAsks sd call (.spot id)) ∧
    ∀ dt, dt ∈ ((calls.foldl run (.new sd)).fixings.get id).getD [] ↔ ∃ call ∈ calls, callAsks sd call (.fixing id dt) := by
  have h := recorded_runs (recorded_new sd) calls
  refine ⟨(h.spots id).trans ?_, fun dt => (h.fixings id dt).trans ?_⟩ <;>
  · simp only [false_or]
    rfl

/-- C38. Order and repetition do not matter. -/
theorem C38_order (sd : Int) {calls calls' : List Call} (same : ∀ call, call ∈ calls ↔ call ∈ calls') (id : String) :
    (calls.foldl run (.new sd)).yieldCurves.get id = (calls'.foldl run (.new sd)).yieldCurves.get id ∧
    ((calls.foldl run (.new sd)).forwardCurves.get id).map Prod.snd = ((calls'.foldl run (.new sd)).forwardCurves.get id).map Prod.snd ∧
    ((calls.foldl run (.new sd)).volSurfaces.get id).map Prod.snd = ((calls'.foldl run (.new sd)).volSurfaces.get id).map Prod.snd ∧
    ((calls.foldl run (.new sd)).spots.get id).isSome = ((calls'.foldl run (.new sd)).spots.get id).isSome := by
  obtain ⟨y, f, v⟩ := C38_latest sd calls id
  obtain ⟨y', f', v'⟩ := C38_latest sd calls' id
  have hs := (C38_held sd calls id).1
  have hs' := (C38_held sd calls' id).1
  simp only [same] at y f v hs
  exact ⟨latest_unique y y', latest_unique f f', latest_unique v v', by rw [Bool.eq_iff_iff, hs, hs']⟩

/-- C38. Nor does what is already there go back: a further request never brings a date forward. -/
theorem C38_grows (sd : Int) (calls more : List Call) (id : String) {d : Int}
    (h : (calls.foldl run (.new sd)).yieldCurves.get id = some d) :
    ∃ d', ((calls ++ more).foldl run (.new sd)).yieldCurves.get id = some d' ∧ d ≤ d' := by
  have h1 := (C38_latest sd calls id).1
  have h2 := (C38_latest sd (calls ++ more) id).1
  rw [h] at h1
  obtain ⟨call, hc, ha⟩ := h1.1
  exact latest_reach h2 ⟨call, List.mem_append_left _ hc, ha⟩

/-- An option on an equity asks for the curve of the equity until it pays, and for the forward until it expires; a bond for
longer. -/
example :
    let calls := [Call.spot (.spotStarting { sampleTerms with payDate := 12 } (.equity "A" "C" (· + 2)) 100),
      .spot (.zeroCoupon "Z" "C" ⟨20, .close⟩ 22 (· + 2)), .spot (.equity "A" "C" (· + 2))]
    (calls.foldl run (.new 0)).yieldCurves.get "C" = some 22 ∧
      ((calls.foldl run (.new 0)).forwardCurves.get "A").map Prod.snd = some 10 ∧
      ((calls.foldl run (.new 0)).spots.get "A").isSome ∧ (calls.foldl run (.new 0)).yieldCurves.get "A" = none := by
  decide +kernel

/-! ## C39 -/

/-- C39, for the instruments and dates of `Kept`: a context that refuses every request that was not declared, or not that
far, gives the same prices. What is missing is options that are discounted on another curve than their own, options on baskets that hold
equities, and equities priced on other dates than the spot date. -/
theorem C39_partial (sd : Int) {calls : List Call} {i : Instrument} (hi : .spot i ∈ calls) {dates : List DateTime}
    (hk : Kept ctx.spotDate i dates) :
    i.prices fuel (restrict ctx (calls.foldl run (.new sd))) dates = i.prices fuel ctx dates := by
  have h := recorded_runs (recorded_new sd) calls
  refine restrict_prices h sd i dates (fun a ha => .inr ⟨_, hi, .inl ha⟩) (fun hn => .inr ⟨_, hi, .inr ⟨hn, rfl⟩⟩) hk

/-- C39 for fixings, for all instruments: only the declared fixings are looked at. -/
theorem C39_fixings (sd : Int) {calls : List Call} {i : Instrument} (hi : .spot i ∈ calls) {t t' : FixingTable ℝ}
    (h : AgreeOnDeclared (calls.foldl run (.new sd)) t t') : i.fix t = i.fix t' := by
  refine fix_agree h.1 sd i fun id dt ha => h.2 id dt ?_
  exact ((C38_held sd calls id).2 dt).2 ⟨_, hi, .inl ha⟩

/-- A basket of an equity, a bond and an option of either kind is covered on the spot date. -/
example : Kept 0 (.basket "B" "C" id [(1, .equity "A" "C" id), (-3, .zeroCoupon "Z" "D" ⟨20, .close⟩ 22 id),
    (2, .spotStarting (call { sampleTerms with payDate := 12 }) (.equity "A" "C" id) 100),
    (1, .forwardStarting (put sampleTerms) (.equity "A" "C" id) 1 ⟨5, .open⟩ (5, 0))]) [⟨0, .open⟩] := by
  simp [Kept, KeptAll, needsSpot, call, put, sampleTerms, Instrument.creditId]

/-- Two different tables that agree on the one fixing that an option declares. -/
example : AgreeOnDeclared ([Call.spot (.spotStarting sampleTerms (.equity "A" "C" id) 90)].foldl run (.new 0))
    ⟨20, ⟨[("A", ⟨[(⟨10, .open⟩, 80), (⟨11, .open⟩, 81)]⟩)]⟩⟩ ⟨20, ⟨[("A", ⟨[(⟨10, .open⟩, 80)]⟩), ("B", ⟨[(⟨10, .open⟩, 70)]⟩)]⟩⟩ := by
  refine ⟨rfl, fun id dt h => ?_⟩
  obtain ⟨call, hc, h⟩ := ((C38_held 0 _ id).2 dt).1 h
  cases List.mem_singleton.1 hc
  simp [callAsks, asks, needsSpot, sampleTerms, Instrument.id] at h
  obtain ⟨rfl, rfl⟩ := h
  rfl

theorem refused_yield {c : Collector} {id : String} {d hwm : Int} (h : c.yieldCurves.get id = some hwm) (hd : hwm < d) :
    (restrict ctx c).yieldCurve id d = .error .err := by
  unfold restrict
  dsimp only
  rw [if_neg]
  rintro ⟨w, e, hw⟩
  rw [h] at e
  cases e
  omega

theorem refused_forward {c : Collector} {i : Instrument} {d : Int} (h : (c.forwardCurves.get i.id).map Prod.snd = none) :
    (restrict ctx c).forwardCurve i d = .error .err := by
  unfold restrict
  dsimp only
  rw [if_neg]
  rintro ⟨w, e, hw⟩
  rw [h] at e
  cases e

theorem allowed_yield {c : Collector} {id : String} {d hwm : Int} (h : c.yieldCurves.get id = some hwm) (hd : d ≤ hwm) :
    (restrict ctx c).yieldCurve id d = ctx.yieldCurve id d := if_pos ⟨hwm, h, hd⟩

theorem allowed_vol {c : Collector} {i : Instrument} {d hwm : Int} (h : (c.volSurfaces.get i.id).map Prod.snd = some hwm) (hd : d ≤ hwm)
    (f : Unit → Outcome Fwd) : (restrict ctx c).volSurface i d f = ctx.volSurface i d f := if_pos ⟨hwm, h, hd⟩

/-- The option whose curve is not the curve of the underlying. -/
noncomputable def elsewhere : Vanilla := { sampleTerms with creditId := "D", payDate := 12 }

/-- A market in which all is known and nothing moves. -/
noncomputable abbrev allKnown : PricingContext := flatContext (.flat (.val 0.2) .everyDay (0, 0))

/-- At expiry an option in this market has a price, whatever its underlying, as long as that is worth a hundred. -/
theorem priced {v : Vanilla} {u : Instrument} (hs : v.settlement = id) (he : v.expiry = ⟨10, .open⟩) (ht : v.expiryTime = (10, 0))
    (hu : u.price fuel allKnown v.expiry = .ok (.val 100)) (hp : u.timeToDayFraction ⟨10, .open⟩ = .ok (10, 0)) :
    ∃ x, (Instrument.spotStarting v u 90).price fuel allKnown ⟨10, .open⟩ = .ok x := by
  have hdf : ∃ D, (RateCurve.zero 0).df v.payDate (v.settlement 10) = .ok (.val D) := by
    rw [hs]
    unfold RateCurve.df
    split
    · exact ⟨_, rfl⟩
    · rw [Forward.zero_rt, Forward.zero_rt]
      exact ⟨_, rfl⟩
  obtain ⟨D, hD⟩ := hdf
  exact ⟨_, C59_partial (fuel := fuel) (ctx := allKnown) (v := v)
    (u := u) (K := 90) (F := 100) (D := D) (yc := .zero 0) (vol := .flat (.val 0.2) .everyDay (0, 0))
    (valDate := (10, 0)) (d := ⟨10, .open⟩) rfl rfl ⟨0, Forward.zero_rt 0 _⟩ ⟨0, Forward.zero_rt 0 _⟩ hD hu (by rw [he]; rfl)
      (by rw [he]; unfold notAfter rank; simp) hp (by
      rw [later_self_zero _ (by unfold before; simp), ht]
      exact C59_flat (T := 2 / 73) (by have := everyDay_year 10; norm_num at this; exact this) (by left; norm_num) _)
      (by norm_num) (by norm_num) (by norm_num)⟩

/-- C39 is false: an option with another credit id than its underlying declares that curve until it pays, and discounts on
the curve of the underlying, which it declared until expiry. -/
theorem C39_false_credit :
    ∃ i : Instrument, (∃ x, i.price fuel allKnown ⟨10, .open⟩ = .ok x) ∧
      i.price fuel (restrict allKnown ((Collector.new 0).spot i)) ⟨10, .open⟩ = .error .err := by
  refine ⟨.spotStarting elsewhere (.equity "A" "C" id) 90, ?_, ?_⟩
  · refine priced rfl rfl rfl ?_ rfl
    rw [price_iff, equity_flat]
  · have hy := refused_yield (ctx := allKnown) (c := (Collector.new 0).spot (.spotStarting elsewhere (.equity "A" "C" id) 90)) (id := "C")
      (hwm := 10) (d := 12) (by decide +kernel) (by norm_num)
    unfold Instrument.price
    rw [Instrument.prices]
    unfold vanillaPrices
    dsimp only
    rw [show (Instrument.equity "A" "C" id).creditId = "C" from rfl, show elsewhere.payDate = 12 from rfl, hy]
    rfl

/-- C39 is false: an option on a basket prices it at expiry, which takes the forwards of the equities in it, and it declares
only the forward of the basket. -/
theorem C39_false_basket :
    ∃ i : Instrument, (∃ x, i.price fuel allKnown ⟨10, .open⟩ = .ok x) ∧
      i.price fuel (restrict allKnown ((Collector.new 0).spot i)) ⟨10, .open⟩ = .error .err := by
  refine ⟨.spotStarting sampleTerms (.basket "B" "C" id [(1, .equity "A" "C" id)]) 90, ?_, ?_⟩
  · refine priced rfl rfl rfl ?_ rfl
    rw [price_iff, Instrument.prices, basketPrices, equity_flat]
    simp [basketPrices, accumulate, num2, ok_bind]
  · have hf := refused_forward (ctx := allKnown) (c := (Collector.new 0).spot (.spotStarting sampleTerms
      (.basket "B" "C" id [(1, .equity "A" "C" id)]) 90)) (i := .equity "A" "C" id) (d := 10) (by decide +kernel)
    have hy := allowed_yield (ctx := allKnown) (c := (Collector.new 0).spot (.spotStarting sampleTerms
      (.basket "B" "C" id [(1, .equity "A" "C" id)]) 90)) (id := "C") (hwm := 10) (d := 10) (by decide +kernel) (le_refl _)
    have hv := allowed_vol (ctx := allKnown) (c := (Collector.new 0).spot (.spotStarting sampleTerms
      (.basket "B" "C" id [(1, .equity "A" "C" id)]) 90)) (i := .basket "B" "C" id [(1, .equity "A" "C" id)]) (hwm := 10) (d := 10)
      (by decide +kernel) (le_refl _)
    generalize hc : (Collector.new 0).spot (.spotStarting sampleTerms (.basket "B" "C" id [(1, .equity "A" "C" id)]) 90) = c at hf hy hv ⊢
    have h : (Instrument.basket "B" "C" id [(1, .equity "A" "C" id)]).prices fuel (restrict allKnown c) [sampleTerms.expiry] = .error .err := by
      rw [Instrument.prices, basketPrices, Instrument.prices]
      unfold equityPrices
      dsimp only
      rw [if_neg (by show ¬ (10 : Int) = 0; norm_num), show sampleTerms.expiry.date = 10 from rfl, hf]
      rfl
    unfold Instrument.price
    rw [Instrument.prices, h]
    unfold vanillaPrices
    dsimp only
    rw [show (Instrument.basket "B" "C" id [(1, .equity "A" "C" id)]).creditId = "C" from rfl, show sampleTerms.payDate = 10 from rfl,
      show sampleTerms.expiry.date = 10 from rfl, hy, hv]
    rfl

/-- C39 is false: an equity priced on another date than the spot date asks for a forward, and declares only its spot. -/
theorem C39_false_equity :
    ∃ i : Instrument, (∃ x, i.price fuel allKnown ⟨10, .open⟩ = .ok x) ∧
      i.price fuel (restrict allKnown ((Collector.new 0).spot i)) ⟨10, .open⟩ = .error .err := by
  refine ⟨.equity "A" "C" id, ⟨.val 100, ?_⟩, ?_⟩
  · rw [price_iff, equity_flat]
  · have hf := refused_forward (ctx := allKnown) (c := (Collector.new 0).spot (.equity "A" "C" id)) (i := .equity "A" "C" id) (d := 10)
      (by decide +kernel)
    unfold Instrument.price
    rw [Instrument.prices]
    unfold equityPrices
    dsimp only
    rw [if_neg (by show ¬ (10 : Int) = 0; norm_num), hf]
    rfl

end QM.Instruments
