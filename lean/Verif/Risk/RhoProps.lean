import Verif.Risk.CalendarProps

/-!
# Property C100: prices respond to yields and to borrow the right way
-/

namespace QM.Risk.Spec
open QM.Interp QM.Curves QM.Vol QM.Instruments QM.Instruments.Spec QM.Market QM.Market.Spec QM.Dividends QM.Dividends.Spec QM.Forward.Spec

/-- An equity with spot `S` that pays no dividends up to the date `last`, in a market whose rate of its credit accrues to `r` and whose cost of
borrow accrues to `q`. -/
structure Carries (md : MarketData) (id credit : String) (S : ℝ) (r q : Int → ℝ) (last : Int) : Prop where
  spot : md.spots.get id = some S
  rates : ∃ yc, md.yieldCurves.get credit = some yc ∧ ∀ d, yc.rt d = .ok (.val (r d))
  borrow : ∃ b, md.borrowCurves.get id = some b ∧ ∀ d, b.rt d = .ok (.val (q d))
  dividends : ∃ s, md.dividends.get id = some s ∧ InOrder s.dividends ∧ (∀ d, Accrued s.divYield d 0) ∧
    (∀ e ∈ s.dividends, e.exDate < md.spotDate ∨ last < e.exDate) ∧ ∀ e ∈ s.dividends, s.divYield.isZero = true ∨ e.exDate ≤ s.divYield.baseDate

end QM.Risk.Spec

namespace QM.Risk
open QM.Interp QM.Curves QM.Curves.Spec QM.Vol QM.Fixings QM.Instruments QM.Instruments.Spec QM.Market QM.Market.Spec QM.Risk.Spec

variable {fuel : Nat} {md : MarketData} {v : Vanilla} {id credit : String} {settle : Int → Int} {K S w : ℝ} {r q r' q' : Int → ℝ} {last : Int}

/-- The same market with another yield curve. -/
def withYield (md : MarketData) (id : String) (c : RateCurve) : MarketData := { md with yieldCurves := md.yieldCurves.insert id c }

/-- The same market with another borrow curve. -/
def withBorrow (md : MarketData) (id : String) (c : RateCurve) : MarketData := { md with borrowCurves := md.borrowCurves.insert id c }

theorem withYield_data (md : MarketData) (id : String) (x : RateCurve) (y : Slot) :
    data (withYield md id x) y = Function.update (data md) (.yield id) (some x) y :=
  congrFun (data_put md (x := .yield id) trivial x) y

theorem withBorrow_data (md : MarketData) (id : String) (x : RateCurve) (y : Slot) :
    data (withBorrow md id x) y = Function.update (data md) (.borrow id) (some x) y :=
  congrFun (data_put md (x := .borrow id) trivial x) y

/-- The forward grows at the rate less the cost of borrow. -/
theorem carries_forward (h : Carries md id credit S r q last) (settle : Int → Int) (hwm : Int) :
    ∃ f, md.equityForward (.equity id credit settle) hwm = .ok f ∧ ∀ d, md.spotDate ≤ d → d ≤ hwm → d ≤ last →
      f.forward d = .ok (S * Real.exp ((r (settle d) - q (settle d)) - (r (settle md.spotDate) - q (settle md.spotDate)))) := by
  obtain ⟨yc, y1, y2⟩ := h.rates
  obtain ⟨b, b1, b2⟩ := h.borrow
  obtain ⟨ds, d1, d2, d3, d4, d5⟩ := h.dividends
  set g : Int → ℝ := fun d => r d - q d with hgdef
  have hg : Forward.Spec.Financing yc b g := fun d => ⟨r d, q d, y2 d, b2 d, rfl⟩
  obtain ⟨boot, hb⟩ := (Dividends.C55_iff (dividends := ds.dividends) (lastCash := ds.lastCash) (yieldIsZero := ds.divYield.isZero)
    (yieldBase := ds.divYield.baseDate) (discount := Forward.bootstrapDiscount yc b md.spotDate) (df := fun d => Real.exp (-g d - -g md.spotDate))
    (by
      unfold Forward.bootstrapDiscount
      rw [Forward.logDiscount_eq hg]
      exact ⟨_, rfl, fun d => Forward.discount_eq hg _ d⟩) (spot := S * Real.exp (-g (settle md.spotDate) - -g md.spotDate)) (base := md.spotDate) (hwm := hwm)).2
    ⟨fun e he => d5 e (List.mem_of_getLast? he), (d2.filter _).sublist (List.takeWhile_sublist _)⟩
  have hnew : ∃ f, Forward.EquityForward.new md.spotDate S settle yc b ds hwm = .ok f := by
    unfold Forward.EquityForward.new Forward.bootstrapStream
    rw [Forward.logDiscount_eq hg]
    simp only [Bind.bind, Except.bind, Forward.discount_eq hg]
    rw [hb]
    exact ⟨_, rfl⟩
  obtain ⟨f, hf⟩ := hnew
  have he : md.equityForward (.equity id credit settle) hwm = .ok f := by
    rw [equityForward_of (i := .equity id credit settle) h.spot d1 b1 y1]
    exact hf
  refine ⟨f, he, ?_⟩
  intro d q1 q2 q3
  have hF := C76_forward (i := .equity id credit settle) (S := S) (g := g) (f := asFwd f) h.spot d1 b1 y1 hg d2 q1 q2
    (fun e he => by have := d4 e he; omega) d3 (by
      show md.forwardCurve _ _ = _
      unfold MarketData.forwardCurve
      rw [he]
      rfl)
  unfold asFwd at hF
  dsimp only at hF
  cases hx : f.forward d with
  | error e => rw [hx] at hF; cases hF
  | ok x =>
    rw [hx] at hF
    cases hF
    rfl

/-- What an option on such an equity is worth: Black's formula on the spot less the cost of borrow and the discounted strike. -/
theorem carries_value (h : Carries md id credit S r q last) (hq : Quoted fuel md v id credit settle K w) (hlast : v.expiry.date ≤ last)
    (hS : 0 < S) (hK : 0 < K) (hw : 0 < w) (n : ℝ) (kind : PutOrCall) :
    value fuel [(n, euro kind v id credit settle K)] md =
      .ok (.val (n * blackValue kind (S * Real.exp (q (settle md.spotDate) - q v.payDate)) (K * Real.exp (r (settle md.spotDate) - r v.payDate))
        (Real.sqrt w))) := by
  obtain ⟨yc, y1, y2⟩ := h.rates
  obtain ⟨f, hf, hF⟩ := carries_forward h settle v.expiry.date
  obtain ⟨vol, s1, s2, s3⟩ := hq.surface
  have hf : md.forwardCurve (.equity id credit settle) v.expiry.date = .ok (asFwd f) := by
    unfold MarketData.forwardCurve
    rw [hf]
    rfl
  have hF : (asFwd f).forward v.expiry.date =
      .ok (.val (S * Real.exp ((r v.payDate - q v.payDate) - (r (settle md.spotDate) - q (settle md.spotDate))))) := by
    unfold asFwd
    dsimp only
    rw [hF _ hq.ahead.le le_rfl hlast, hq.pays]
    rfl
  have hF0 : 0 < S * Real.exp ((r v.payDate - q v.payDate) - (r (settle md.spotDate) - q (settle md.spotDate))) := mul_pos hS (Real.exp_pos _)
  rw [option_value n kind hq.ahead hf hF y1 (y2 _) (by rw [hq.settles]; exact y2 _) s1 s2 s3 (by linarith) hw.le, sub_zero, add_zero,
    formula_black hF0 hK (Real.sqrt_pos.2 hw)]
  have e1 : Real.exp (r (settle md.spotDate) - r v.payDate) * (S * Real.exp ((r v.payDate - q v.payDate) - (r (settle md.spotDate) - q (settle md.spotDate)))) =
      S * Real.exp (q (settle md.spotDate) - q v.payDate) := by
    rw [mul_left_comm, ← Real.exp_add]
    congr 2
    ring
  cases kind
  · show _ = Except.ok (Num.val (n * black _ _ _))
    rw [← e1, mul_comm K, ← black_scale (Real.exp_pos _)]
    rfl
  · show _ = Except.ok (Num.val (n * black _ _ _))
    rw [← e1, mul_comm K, ← black_scale (Real.exp_pos _)]
    rfl

/-- A forward can be computed again after data has changed, if the changed market can be priced. -/
theorem At.refetch_put {instruments : List (ℝ × Instrument)} {sd : Int} {f : Answers} {p p₂ : SelfPricer} (h : At instruments sd f p)
    (hu : Unambiguous (collect sd instruments)) {x : Slot} (hx : isData x) (y : x.Val)
    (hi : (collect sd instruments).instruments.get id ≠ none) (hf : (collect sd instruments).forwardCurves.get id ≠ none) (hs : md.spotDate = sd)
    (hd : ∀ z, Market.Spec.data md z = Function.update f x (some y) z) (hq : SelfPricer.new instruments md = .ok p₂) (save : Option SavedPrefetch) :
    ∃ p' save', Prefetch.refetch { p.context with context := p.context.context.put x y } id true false save = (.ok true, p', save') := by
  obtain ⟨i, hi⟩ := Option.ne_none_iff_exists'.1 hi
  obtain ⟨⟨j, hwm⟩, hj⟩ := Option.ne_none_iff_exists'.1 hf
  have hw := collect_wellFormed sd instruments
  have hij := hu id j hwm i hj hi
  subst hij
  have hid := hw.instrumentKey id i hi
  have hq' := at_new hq
  rw [hs] at hq'
  obtain ⟨g, _, hg⟩ := hq'.coherent.forward id i hwm (by rw [hq'.dependencies]; exact hj)
  have hg' : (p.context.context.put x y).forwardCurve i hwm = .ok g := by
    rw [← hg]
    refine forwardCurve_congr i hwm ?_ ?_
    · rw [put_spotDate, h.spotDate, hq'.spotDate]
    · intro z _
      rw [hq'.data z, hd z, data_put _ hx]
      congr 1
      funext z
      exact h.data z
  obtain ⟨fwd, hfwd, _⟩ := h.coherent.forward id i hwm (by rw [h.dependencies]; exact hj)
  unfold Prefetch.refetch
  dsimp only
  rw [if_neg (by simp), hfwd]
  dsimp only
  rw [show p.context.dependencies.instruments.get id = some i by rw [h.dependencies]; exact hi]
  dsimp only
  rw [if_pos rfl]
  unfold Prefetch.refetchForward
  dsimp only
  rw [hid, show p.context.dependencies.forwardCurves.get id = some (i, hwm) by rw [h.dependencies]; exact hj]
  dsimp only
  rw [hg']
  exact ⟨_, _, rfl⟩

theorem option_forwardIds (n : ℝ) (kind : PutOrCall) (sd : Int) :
    (collect sd [(n, euro kind v id credit settle K)]).forwardIds.get credit = some [id] := by
  simp [collect, euro, Collector.spot, Instrument.dependencies, finishVanilla, startVanilla, Collector.new, Collector.noteSpot, Collector.noteForward,
    Collector.volSurface, Collector.addInstrument, Collector.yieldCurve, Collector.fixing, Collector.setHwm, Map.get, Map.insert, Map.empty, Instrument.id, Instrument.creditId]

/-- What a bump of yields does to the price of an option: the price is that in the market with the bumped curve. -/
theorem option_bump_yield {n y : ℝ} {kind : PutOrCall} {p : SelfPricer} {yc : RateCurve} {b : BumpYield}
    (hp : SelfPricer.new [(n, euro kind v id credit settle K)] md = .ok p) (hyc : md.yieldCurves.get credit = some yc)
    (hy : value fuel [(n, euro kind v id credit settle K)] (withYield md credit (b.apply yc)) = .ok (.val y)) (save : Option SavedPrefetch) :
    ∃ p' save', p.bump (.yield credit b) save = (.ok true, p', save') ∧ p'.price fuel = .ok (.val y) := by
  obtain ⟨p₂, k1, k2⟩ := value_new hy
  have hat := at_new hp
  have hu := option_unambiguous (v := v) (id := id) (credit := credit) (settle := settle) (K := K) n kind md.spotDate
  obtain ⟨c1, _, c3⟩ := collect_option (v := v) (id := id) (credit := credit) (settle := settle) (K := K) n kind md.spotDate
  have hslot : data md (.yield credit) = some yc := hyc
  have hdata := withYield_data md credit (b.apply yc)
  have hex : ∃ p' save', p.bump (.yield credit b) save = (.ok true, p', save') := by
    obtain ⟨saved, s, rfl⟩ : ∃ saved s, save = area saved s := by
      cases save with
      | none => exact ⟨false, .new, rfl⟩
      | some s => exact ⟨true, s, rfl⟩
    have hS' : Market.Spec.answers p.context (.yield credit) = some yc := (hat.answers (x := .yield credit) trivial).trans hslot
    obtain ⟨s', _, h2⟩ := bump_present (b := .yield credit b) rfl hS' saved s
    dsimp only at h2
    obtain ⟨c, save', hr⟩ := hat.refetch_put (md := withYield md credit (b.apply yc)) (id := id) hu (x := .yield credit) trivial (bumped (.yield credit b) (.yield credit) yc)
      (by rw [c3]; simp [Map.get]) (by rw [c1]; simp [Map.get]) rfl hdata k1 (area saved s')
    rw [show (p.context.dependencies.forwardIds.get credit).getD [] = [id] by rw [hat.dependencies, option_forwardIds]; rfl] at h2
    unfold Prefetch.refetchAllOf at h2
    rw [hr] at h2
    exact ⟨_, _, self_bump_of h2⟩
  obtain ⟨p', save', hb⟩ := hex
  obtain ⟨_, hat'⟩ := hat.bump hu (b := .yield credit b) (x := .yield credit) rfl hslot hb
  exact ⟨p', save', hb, hat'.price (md := withYield md credit (b.apply yc)) rfl hdata hy⟩

/-- What a bump of the cost of borrow does to the price of an option: the price is that in the market with the bumped curve. -/
theorem option_bump_borrow {n y : ℝ} {kind : PutOrCall} {p : SelfPricer} {bc : RateCurve} {b : BumpYield}
    (hp : SelfPricer.new [(n, euro kind v id credit settle K)] md = .ok p) (hbc : md.borrowCurves.get id = some bc)
    (hy : value fuel [(n, euro kind v id credit settle K)] (withBorrow md id (b.apply bc)) = .ok (.val y)) (save : Option SavedPrefetch) :
    ∃ p' save', p.bump (.borrow id b) save = (.ok true, p', save') ∧ p'.price fuel = .ok (.val y) := by
  obtain ⟨p₂, k1, k2⟩ := value_new hy
  have hat := at_new hp
  have hu := option_unambiguous (v := v) (id := id) (credit := credit) (settle := settle) (K := K) n kind md.spotDate
  obtain ⟨c1, _, c3⟩ := collect_option (v := v) (id := id) (credit := credit) (settle := settle) (K := K) n kind md.spotDate
  have hslot : data md (.borrow id) = some bc := hbc
  have hdata := withBorrow_data md id (b.apply bc)
  have hex : ∃ p' save', p.bump (.borrow id b) save = (.ok true, p', save') := by
    obtain ⟨saved, s, rfl⟩ : ∃ saved s, save = area saved s := by
      cases save with
      | none => exact ⟨false, .new, rfl⟩
      | some s => exact ⟨true, s, rfl⟩
    have hS' : Market.Spec.answers p.context (.borrow id) = some bc := (hat.answers (x := .borrow id) trivial).trans hslot
    obtain ⟨s', _, h2⟩ := bump_present (b := .borrow id b) rfl hS' saved s
    dsimp only at h2
    obtain ⟨c, save', hr⟩ := hat.refetch_put (md := withBorrow md id (b.apply bc)) (id := id) hu (x := .borrow id) trivial (bumped (.borrow id b) (.borrow id) bc)
      (by rw [c3]; simp [Map.get]) (by rw [c1]; simp [Map.get]) rfl hdata k1 (area saved s')
    rw [hr] at h2
    exact ⟨_, _, self_bump_of h2⟩
  obtain ⟨p', save', hb⟩ := hex
  obtain ⟨_, hat'⟩ := hat.bump hu (b := .borrow id b) (x := .borrow id) rfl hslot hb
  exact ⟨p', save', hb, hat'.price (md := withBorrow md id (b.apply bc)) rfl hdata hy⟩

/-- What a continuously compounded bump adds to the accrued rate. -/
theorem bump_rt {c : RateCurve} (hc : Interpolated c) {d : Int} {x : ℝ} (h : c.rt d = .ok (.val x)) (b : ℝ) :
    ((BumpYield.flatContinuouslyCompounded b).apply c).rt d = .ok (.val (x + b * years c.baseDate d)) := by
  obtain ⟨r, t, h1, h2⟩ := rAndT_of_rt h
  have ht := time_eq hc h1
  have h3 : ((BumpYield.flatContinuouslyCompounded b).apply c).rAndT d = .ok (.val (r + b), t) := by
    unfold BumpYield.apply RateCurve.newContinuouslyCompoundedFlatBump
    rw [RateCurve.rAndT, h1]
    rfl
  rw [rt_of_rAndT h3, ← h2, ht]
  congr 2
  ring

theorem quoted_withYield (h : Quoted fuel md v id credit settle K w) (k : String) (c : RateCurve) :
    Quoted fuel (withYield md k c) v id credit settle K w := ⟨h.ahead, h.pays, h.settles, h.surface⟩

theorem quoted_withBorrow (h : Quoted fuel md v id credit settle K w) (k : String) (c : RateCurve) :
    Quoted fuel (withBorrow md k c) v id credit settle K w := ⟨h.ahead, h.pays, h.settles, h.surface⟩

theorem carries_withYield (h : Carries md id credit S r q last) {c : RateCurve} (hc : ∀ d, c.rt d = .ok (.val (r' d))) :
    Carries (withYield md credit c) id credit S r' q last :=
  ⟨h.spot, ⟨c, by unfold withYield; exact Map.get_insert_self .., hc⟩, h.borrow, h.dividends⟩

theorem carries_withBorrow (h : Carries md id credit S r q last) {c : RateCurve} (hc : ∀ d, c.rt d = .ok (.val (q' d))) :
    Carries (withBorrow md id c) id credit S r q' last :=
  ⟨h.spot, h.rates, ⟨c, by unfold withBorrow; exact Map.get_insert_self .., hc⟩, h.dividends⟩

/-! ## C100 -/

/-- C100, yields. An option on an equity without dividends is bought with money borrowed at the yields: after any continuously compounded bump of the
yields a call is worth the more, and a put the less, the higher they are. -/
theorem C100_yields {yc : RateCurve} (h : Carries md id credit S r q last) (hq : Quoted fuel md v id credit settle K w)
    (hyc : md.yieldCurves.get credit = some yc) (hi : Interpolated yc) (hlast : v.expiry.date ≤ last) (hpay : settle md.spotDate < v.payDate)
    (hS : 0 < S) (hK : 0 < K) (hw : 0 < w) (kind : PutOrCall) :
    ∃ (p : SelfPricer) (x : ℝ → ℝ), SelfPricer.new [(1, euro kind v id credit settle K)] md = .ok p ∧ p.price fuel = .ok (.val (x 0)) ∧
      (∀ b save, ∃ p' save', p.bump (.yield credit (.flatContinuouslyCompounded b)) save = (.ok true, p', save') ∧ p'.price fuel = .ok (.val (x b))) ∧
      match kind with | .call => StrictMono x | .put => StrictAnti x := by
  have hr : ∀ d, yc.rt d = .ok (.val (r d)) := by
    obtain ⟨c, h1, h2⟩ := h.rates
    rw [hyc] at h1
    cases h1
    exact h2
  set F := S * Real.exp (q (settle md.spotDate) - q v.payDate)
  set L : ℝ → ℝ := fun b => K * Real.exp ((r (settle md.spotDate) + b * years yc.baseDate (settle md.spotDate)) - (r v.payDate + b * years yc.baseDate v.payDate))
  have hF : 0 < F := mul_pos hS (Real.exp_pos _)
  have hL : ∀ b, 0 < L b := fun b => mul_pos hK (Real.exp_pos _)
  have hanti : ∀ {a b}, a < b → L b < L a := by
    intro a b hab
    refine mul_lt_mul_of_pos_left (Real.exp_lt_exp.2 ?_) hK
    have ht : years yc.baseDate (settle md.spotDate) < years yc.baseDate v.payDate := by
      unfold years
      have : ((settle md.spotDate - yc.baseDate : Int) : ℝ) < ((v.payDate - yc.baseDate : Int) : ℝ) := by exact_mod_cast (by omega)
      linarith
    nlinarith
  have hs := Real.sqrt_pos.2 hw
  have hval : ∀ b, value fuel [(1, euro kind v id credit settle K)] (withYield md credit ((BumpYield.flatContinuouslyCompounded b).apply yc)) =
      .ok (.val (blackValue kind F (L b) (Real.sqrt w))) := by
    intro b
    have := carries_value (carries_withYield h (fun d => bump_rt hi (hr d) b)) (quoted_withYield hq credit _) hlast hS hK hw 1 kind
    rw [one_mul] at this
    exact this
  have h0 := carries_value h hq hlast hS hK hw 1 kind
  obtain ⟨p, k1, k2⟩ := value_new h0
  refine ⟨p, fun b => blackValue kind F (L b) (Real.sqrt w), k1, ?_, fun b save => option_bump_yield k1 hyc (hval b) save, ?_⟩
  · rw [k2]
    simp only [L, F, one_mul, zero_mul, add_zero]
  · cases kind
    · exact fun a b hab => black_forward_lt hF hs (hL b) (hanti hab)
    · exact fun a b hab => black_strike_lt hF hs (hL b) (hanti hab)

/-- C100, yields, by an annualised bump, where trades settle on the base date of the curve. -/
theorem C100_annualised {yc : RateCurve} (h : Carries md id credit S r q last) (hq : Quoted fuel md v id credit settle K w)
    (hyc : md.yieldCurves.get credit = some yc) (hi : Interpolated yc) (hlast : v.expiry.date ≤ last) (hbase : settle md.spotDate = yc.baseDate)
    (hpay : settle md.spotDate < v.payDate) (hS : 0 < S) (hK : 0 < K) (hw : 0 < w) (kind : PutOrCall) :
    ∃ (p : SelfPricer) (x : ℝ → ℝ), SelfPricer.new [(1, euro kind v id credit settle K)] md = .ok p ∧ p.price fuel = .ok (.val (x 0)) ∧
      (∀ b save, 0 ≤ b → ∃ p' save', p.bump (.yield credit (.flatAnnualised b)) save = (.ok true, p', save') ∧ p'.price fuel = .ok (.val (x b))) ∧
      match kind with | .call => StrictMonoOn x (Set.Ici 0) | .put => StrictAntiOn x (Set.Ici 0) := by
  have hr : ∀ d, yc.rt d = .ok (.val (r d)) := by
    obtain ⟨c, h1, h2⟩ := h.rates
    rw [hyc] at h1
    cases h1
    exact h2
  have hrate : ∀ d, ∃ y, y * years yc.baseDate d = r d ∧ ∀ b, 0 ≤ b →
      ((BumpYield.flatAnnualised b).apply yc).rt d = .ok (.val (Real.log (Real.exp y + b) * years yc.baseDate d)) := by
    intro d
    obtain ⟨y, t, h1, h2⟩ := rAndT_of_rt (hr d)
    have ht := time_eq hi h1
    subst ht
    refine ⟨y, h2, fun b hb => ?_⟩
    have h3 : ((BumpYield.flatAnnualised b).apply yc).rAndT d = .ok (.val (Real.log (Real.exp y + b)), years yc.baseDate d) := by
      unfold BumpYield.apply RateCurve.newAnnualisedFlatBump
      rw [RateCurve.rAndT, h1]
      have : 0 < Real.exp y + b := by positivity
      simp [onNum, ln, this, Bind.bind, Except.bind, pure, Except.pure]
    exact rt_of_rAndT h3
  choose y hy1 hy2 using hrate
  have ht0 : years yc.baseDate (settle md.spotDate) = 0 := by rw [hbase]; simp [years]
  have ht1 : 0 < years yc.baseDate v.payDate := by
    unfold years
    have : (0 : ℝ) < ((v.payDate - yc.baseDate : Int) : ℝ) := by exact_mod_cast (by omega)
    positivity
  set F := S * Real.exp (q (settle md.spotDate) - q v.payDate)
  set L : ℝ → ℝ := fun b => K * Real.exp (Real.log (Real.exp (y (settle md.spotDate)) + b) * years yc.baseDate (settle md.spotDate) -
    Real.log (Real.exp (y v.payDate) + b) * years yc.baseDate v.payDate)
  have hF : 0 < F := mul_pos hS (Real.exp_pos _)
  have hL : ∀ b, 0 < L b := fun b => mul_pos hK (Real.exp_pos _)
  have hanti : ∀ {a b}, 0 ≤ a → a < b → L b < L a := by
    intro a b ha hab
    refine mul_lt_mul_of_pos_left (Real.exp_lt_exp.2 ?_) hK
    rw [ht0]
    have hp : 0 < Real.exp (y v.payDate) + a := by positivity
    have := mul_lt_mul_of_pos_right (Real.log_lt_log hp (by linarith : Real.exp (y v.payDate) + a < Real.exp (y v.payDate) + b)) ht1
    linarith
  have hs := Real.sqrt_pos.2 hw
  have hval : ∀ b, 0 ≤ b → value fuel [(1, euro kind v id credit settle K)] (withYield md credit ((BumpYield.flatAnnualised b).apply yc)) =
      .ok (.val (blackValue kind F (L b) (Real.sqrt w))) := by
    intro b hb
    have := carries_value (carries_withYield h (fun d => hy2 d b hb)) (quoted_withYield hq credit _) hlast hS hK hw 1 kind
    rw [one_mul] at this
    exact this
  have h0 := carries_value h hq hlast hS hK hw 1 kind
  obtain ⟨p, k1, k2⟩ := value_new h0
  refine ⟨p, fun b => blackValue kind F (L b) (Real.sqrt w), k1, ?_, fun b save hb => option_bump_yield k1 hyc (hval b hb) save, ?_⟩
  · rw [k2]
    simp only [L, F, one_mul, add_zero, Real.log_exp, hy1]
  · cases kind
    · exact fun a ha b _ hab => black_forward_lt hF hs (hL b) (hanti ha hab)
    · exact fun a ha b _ hab => black_strike_lt hF hs (hL b) (hanti ha hab)

/-- C100, borrow. The holder of a call forgoes what the shares earn by being lent: the higher the cost of borrow, the less a call is worth and the
more a put. -/
theorem C100_borrow {bc : RateCurve} (h : Carries md id credit S r q last) (hq : Quoted fuel md v id credit settle K w)
    (hbc : md.borrowCurves.get id = some bc) (hi : Interpolated bc) (hlast : v.expiry.date ≤ last) (hpay : settle md.spotDate < v.payDate)
    (hS : 0 < S) (hK : 0 < K) (hw : 0 < w) (kind : PutOrCall) :
    ∃ (p : SelfPricer) (x : ℝ → ℝ), SelfPricer.new [(1, euro kind v id credit settle K)] md = .ok p ∧ p.price fuel = .ok (.val (x 0)) ∧
      (∀ b save, ∃ p' save', p.bump (.borrow id (.flatContinuouslyCompounded b)) save = (.ok true, p', save') ∧ p'.price fuel = .ok (.val (x b))) ∧
      match kind with | .call => StrictAnti x | .put => StrictMono x := by
  have hr : ∀ d, bc.rt d = .ok (.val (q d)) := by
    obtain ⟨c, h1, h2⟩ := h.borrow
    rw [hbc] at h1
    cases h1
    exact h2
  set F := K * Real.exp (r (settle md.spotDate) - r v.payDate)
  set L : ℝ → ℝ := fun b => S * Real.exp ((q (settle md.spotDate) + b * years bc.baseDate (settle md.spotDate)) - (q v.payDate + b * years bc.baseDate v.payDate))
  have hF : 0 < F := mul_pos hK (Real.exp_pos _)
  have hL : ∀ b, 0 < L b := fun b => mul_pos hS (Real.exp_pos _)
  have hanti : ∀ {a b}, a < b → L b < L a := by
    intro a b hab
    refine mul_lt_mul_of_pos_left (Real.exp_lt_exp.2 ?_) hS
    have ht : years bc.baseDate (settle md.spotDate) < years bc.baseDate v.payDate := by
      unfold years
      have : ((settle md.spotDate - bc.baseDate : Int) : ℝ) < ((v.payDate - bc.baseDate : Int) : ℝ) := by exact_mod_cast (by omega)
      linarith
    nlinarith
  have hs := Real.sqrt_pos.2 hw
  have hval : ∀ b, value fuel [(1, euro kind v id credit settle K)] (withBorrow md id ((BumpYield.flatContinuouslyCompounded b).apply bc)) =
      .ok (.val (blackValue kind (L b) F (Real.sqrt w))) := by
    intro b
    have := carries_value (carries_withBorrow h (fun d => bump_rt hi (hr d) b)) (quoted_withBorrow hq id _) hlast hS hK hw 1 kind
    rw [one_mul] at this
    exact this
  have h0 := carries_value h hq hlast hS hK hw 1 kind
  obtain ⟨p, k1, k2⟩ := value_new h0
  refine ⟨p, fun b => blackValue kind (L b) F (Real.sqrt w), k1, ?_, fun b save => option_bump_borrow k1 hbc (hval b) save, ?_⟩
  · rw [k2]
    simp only [L, F, one_mul, zero_mul, add_zero]
  · cases kind
    · exact fun a b hab => black_strike_lt hF hs (hL b) (hanti hab)
    · exact fun a b hab => black_forward_lt hF hs (hL b) (hanti hab)

/-- What a zero coupon is worth. -/
theorem bond_value {id credit : String} {ex : DateTime} {pay : Int} {settle : Int → Int} {yc : RateCurve} {x y : ℝ} (n : ℝ)
    (hyc : md.yieldCurves.get credit = some yc) (hex : NotLater ⟨md.spotDate, .open⟩ ex) (hp : yc.rt pay = .ok (.val x))
    (hs : yc.rt (settle md.spotDate) = .ok (.val y)) :
    value fuel [(n, .zeroCoupon id credit ex pay settle)] md = .ok (.val (n * Real.exp (y - x))) := by
  have hc : (collect md.spotDate [(n, .zeroCoupon id credit ex pay settle)]).forwardCurves = ⟨[]⟩ := by
    simp [collect, Collector.spot, Instrument.dependencies, Collector.new, Collector.noteSpot, Collector.yieldCurve, Map.empty]
  have hnew : Prefetch.new md (collect md.spotDate [(n, .zeroCoupon id credit ex pay settle)]) =
      .ok ⟨md, collect md.spotDate [(n, .zeroCoupon id credit ex pay settle)], .empty, .empty⟩ := by
    unfold Prefetch.new
    rw [hc]
    rfl
  unfold value
  rw [new_self_of hnew]
  show SelfPricer.price fuel _ = _
  unfold SelfPricer.price
  dsimp only
  rw [priceLoop, C72_zero_coupon (fuel := fuel) (yc := yc) (p := x) (q := y) hex (by
    show find credit md.yieldCurves = _
    unfold find
    rw [hyc]) hp hs, ok_bind, priceLoop]
  simp [num1, num2]

/-- C100, bonds. The higher the yields of its credit, the less a zero coupon that is still to be paid is worth. -/
theorem C100_bond {id credit : String} {ex : DateTime} {pay : Int} {settle : Int → Int} {yc : RateCurve} {n x y : ℝ}
    (hyc : md.yieldCurves.get credit = some yc) (hi : Interpolated yc) (hex : NotLater ⟨md.spotDate, .open⟩ ex) (hp : yc.rt pay = .ok (.val x))
    (hs : yc.rt (settle md.spotDate) = .ok (.val y)) (hn : 0 < n) (hpay : settle md.spotDate < pay) :
    ∃ (p : SelfPricer) (f : ℝ → ℝ), SelfPricer.new [(n, .zeroCoupon id credit ex pay settle)] md = .ok p ∧ p.price fuel = .ok (.val (f 0)) ∧
      (∀ b save, ∃ p' save', p.bump (.yield credit (.flatContinuouslyCompounded b)) save = (.ok true, p', save') ∧ p'.price fuel = .ok (.val (f b))) ∧
      StrictAnti f := by
  have hc : (collect md.spotDate [(n, .zeroCoupon id credit ex pay settle)]).forwardCurves = ⟨[]⟩ ∧
      (collect md.spotDate [(n, .zeroCoupon id credit ex pay settle)]).forwardIds = ⟨[]⟩ := by
    constructor <;> simp [collect, Collector.spot, Instrument.dependencies, Collector.new, Collector.noteSpot, Collector.yieldCurve, Map.empty]
  have hu : Unambiguous (collect md.spotDate [(n, .zeroCoupon id credit ex pay settle)]) := by
    intro k i hwm j h1
    rw [hc.1] at h1
    cases h1
  have hval : ∀ b, value fuel [(n, .zeroCoupon id credit ex pay settle)] (withYield md credit ((BumpYield.flatContinuouslyCompounded b).apply yc)) =
      .ok (.val (n * Real.exp ((y + b * years yc.baseDate (settle md.spotDate)) - (x + b * years yc.baseDate pay)))) := fun b =>
    bond_value (md := withYield md credit _) n (by unfold withYield; exact Map.get_insert_self ..) hex (bump_rt hi hp b) (bump_rt hi hs b)
  obtain ⟨p, k1, k2⟩ := value_new (bond_value (fuel := fuel) (id := id) n hyc hex hp hs)
  have hat := at_new k1
  have hslot : data md (.yield credit) = some yc := hyc
  refine ⟨p, fun b => n * Real.exp ((y + b * years yc.baseDate (settle md.spotDate)) - (x + b * years yc.baseDate pay)), k1, ?_, ?_, ?_⟩
  · rw [k2]
    simp only [zero_mul, add_zero]
  · intro b save
    have hb : ∃ p' save', p.bump (.yield credit (.flatContinuouslyCompounded b)) save = (.ok true, p', save') := by
      obtain ⟨saved, s, rfl⟩ : ∃ saved s, save = area saved s := by
        cases save with
        | none => exact ⟨false, .new, rfl⟩
        | some s => exact ⟨true, s, rfl⟩
      have hS' : Market.Spec.answers p.context (.yield credit) = some yc := (hat.answers (x := .yield credit) trivial).trans hslot
      obtain ⟨s', _, h2⟩ := bump_present (b := .yield credit (.flatContinuouslyCompounded b)) rfl hS' saved s
      dsimp only at h2
      rw [show (p.context.dependencies.forwardIds.get credit).getD [] = [] by rw [hat.dependencies, hc.2]; rfl] at h2
      unfold Prefetch.refetchAllOf at h2
      exact ⟨_, _, self_bump_of h2⟩
    obtain ⟨p', save', hb⟩ := hb
    obtain ⟨_, hat'⟩ := hat.bump hu (b := .yield credit (.flatContinuouslyCompounded b)) (x := .yield credit) rfl hslot hb
    exact ⟨p', save', hb, hat'.price (md := withYield md credit ((BumpYield.flatContinuouslyCompounded b).apply yc)) rfl (withYield_data md credit _) (hval b)⟩
  · intro a b hab
    refine mul_lt_mul_of_pos_left (Real.exp_lt_exp.2 ?_) hn
    have ht : years yc.baseDate (settle md.spotDate) < years yc.baseDate pay := by
      unfold years
      have : ((settle md.spotDate - yc.baseDate : Int) : ℝ) < ((pay - yc.baseDate : Int) : ℝ) := by exact_mod_cast (by omega)
      linarith
    nlinarith

/-! ## Cases -/

/-- The sample market with flat rates of 5 percent, a cost of borrow of 1 percent and a volatility of 20 percent. -/
theorem carry_case : ∃ (yc bc : RateCurve) (r q : Int → ℝ), RateCurve.newAct365 0 [(0, 0.05)] .flat .flat = .ok yc ∧
    RateCurve.newAct365 0 [(0, 0.01)] .flat .flat = .ok bc ∧ Interpolated yc ∧ Interpolated bc ∧ yc.baseDate = 0 ∧ (∀ d, yc.rt d = .ok (.val (r d))) ∧
    Carries (withVol (withBorrow (sampleMarket 100 yc) "A" bc) "A" (.flat (.val 0.2) .everyDay (0, 0))) "A" "C" 100 r q 10 ∧
    Quoted fuel (withVol (withBorrow (sampleMarket 100 yc) "A" bc) "A" (.flat (.val 0.2) .everyDay (0, 0))) (dayTerms 10) "A" "C" _root_.id 110
      (0.2 ^ 2 * (10 / 365)) := by
  obtain ⟨yc, y1, y2, y3, y4⟩ := flat_curve 0 0 0.05
  obtain ⟨bc, b1, b2, b3, b4⟩ := flat_curve 0 0 0.01
  have hrt : ∀ {c : RateCurve} {x : ℝ}, RateCurve.newAct365 0 [(0, x)] .flat .flat = .ok c → (∀ d, d ≠ 0 → c.rAndT d = .ok (.val x, years 0 d)) →
      ∀ d, c.rt d = .ok (.val (x * years 0 d)) := by
    intro c x hc h d
    by_cases hd : d = 0
    · subst hd
      have h0 : c.rAndT 0 = .ok (.val 0, 0) := by
        cases hc
        unfold RateCurve.rAndT
        exact if_pos rfl
      rw [rt_of_rAndT h0]
      simp [years]
    · exact rt_of_rAndT (h d hd)
  refine ⟨yc, bc, _, _, y1, b1, y2, b2, y3, hrt y1 y4, ⟨rfl, ⟨_, rfl, hrt y1 y4⟩, ⟨_, rfl, hrt b1 b4⟩, ⟨_, rfl, by
    simp [Dividends.DividendStream.new, Dividends.Spec.InOrder], Forward.zero_rt 0, by simp [Dividends.DividendStream.new],
    by simp [Dividends.DividendStream.new]⟩⟩, ?_⟩
  refine ⟨by show (0 : Int) < 10; norm_num, rfl, rfl, .flat (.val 0.2) .everyDay (0, 0), surface_today rfl rfl _, rfl, ?_⟩
  rw [later_self_zero _ (by unfold before; simp [withVol, withBorrow, sampleMarket])]
  exact flat_forward.2 (.inl ⟨before_irrefl _, _, everyDay_year 10, by norm_num⟩)

/-- C100: calls, puts and bonds in that market. -/
example : ∃ (yc bc : RateCurve), Interpolated yc ∧ Interpolated bc ∧
    (∃ p x, SelfPricer.new [(1, euro .call (dayTerms 10) "A" "C" _root_.id 110)]
      (withVol (withBorrow (sampleMarket 100 yc) "A" bc) "A" (.flat (.val 0.2) .everyDay (0, 0))) = .ok p ∧ p.price fuel = .ok (.val x) ∧
      ∃ p' s' x', p.bump (.yield "C" (.flatContinuouslyCompounded 0.01)) none = (.ok true, p', s') ∧ p'.price fuel = .ok (.val x') ∧ x < x') ∧
    (∃ p x, SelfPricer.new [(1, euro .put (dayTerms 10) "A" "C" _root_.id 110)]
      (withVol (withBorrow (sampleMarket 100 yc) "A" bc) "A" (.flat (.val 0.2) .everyDay (0, 0))) = .ok p ∧ p.price fuel = .ok (.val x) ∧
      ∃ p' s' x', p.bump (.yield "C" (.flatAnnualised 0.01)) none = (.ok true, p', s') ∧ p'.price fuel = .ok (.val x') ∧ x' < x) ∧
    (∃ p x, SelfPricer.new [(1, euro .put (dayTerms 10) "A" "C" _root_.id 110)]
      (withVol (withBorrow (sampleMarket 100 yc) "A" bc) "A" (.flat (.val 0.2) .everyDay (0, 0))) = .ok p ∧ p.price fuel = .ok (.val x) ∧
      ∃ p' s' x', p.bump (.borrow "A" (.flatContinuouslyCompounded (-0.02))) none = (.ok true, p', s') ∧ p'.price fuel = .ok (.val x') ∧ x' < x) ∧
    ∃ p x, SelfPricer.new [(1, .zeroCoupon "Z" "C" ⟨10, .open⟩ 12 _root_.id)]
      (withVol (withBorrow (sampleMarket 100 yc) "A" bc) "A" (.flat (.val 0.2) .everyDay (0, 0))) = .ok p ∧ p.price fuel = .ok (.val x) ∧
      ∃ p' s' x', p.bump (.yield "C" (.flatContinuouslyCompounded 0.01)) none = (.ok true, p', s') ∧ p'.price fuel = .ok (.val x') ∧ x' < x := by
  obtain ⟨yc, bc, r, q, _, _, y2, b2, y3, hr, hc, hq⟩ := carry_case (fuel := fuel)
  refine ⟨yc, bc, y2, b2, ?_, ?_, ?_, ?_⟩
  · obtain ⟨p, x, h1, h2, h3, h4⟩ := C100_yields hc hq rfl y2 (by show (10 : Int) ≤ 10; norm_num) (by show (0 : Int) < 10; norm_num) (by norm_num)
      (by norm_num) (by norm_num) .call
    obtain ⟨p', s', h5, h6⟩ := h3 0.01 none
    exact ⟨p, _, h1, h2, p', s', _, h5, h6, h4 (by norm_num)⟩
  · obtain ⟨p, x, h1, h2, h3, h4⟩ := C100_annualised hc hq rfl y2 (by show (10 : Int) ≤ 10; norm_num) (by rw [y3]; rfl) (by show (0 : Int) < 10; norm_num)
      (by norm_num) (by norm_num) (by norm_num) .put
    obtain ⟨p', s', h5, h6⟩ := h3 0.01 none (by norm_num)
    exact ⟨p, _, h1, h2, p', s', _, h5, h6, h4 (Set.mem_Ici.2 le_rfl) (Set.mem_Ici.2 (by norm_num)) (by norm_num)⟩
  · obtain ⟨p, x, h1, h2, h3, h4⟩ := C100_borrow hc hq rfl b2 (by show (10 : Int) ≤ 10; norm_num) (by show (0 : Int) < 10; norm_num) (by norm_num)
      (by norm_num) (by norm_num) .put
    obtain ⟨p', s', h5, h6⟩ := h3 (-0.02) none
    exact ⟨p, _, h1, h2, p', s', _, h5, h6, h4 (by norm_num)⟩
  · obtain ⟨p, x, h1, h2, h3, h4⟩ := C100_bond (fuel := fuel) (id := "Z") (credit := "C") (ex := ⟨10, .open⟩) (pay := 12) (settle := _root_.id)
      (md := withVol (withBorrow (sampleMarket 100 yc) "A" bc) "A" (.flat (.val 0.2) .everyDay (0, 0))) (yc := yc) rfl y2
      (by left; show (0 : Int) < 10; norm_num) (hr 12) (hr _) one_pos (by show (0 : Int) < 12; norm_num)
    obtain ⟨p', s', h5, h6⟩ := h3 0.01 none
    exact ⟨p, _, h1, h2, p', s', _, h5, h6, h4 (by norm_num)⟩

end QM.Risk
