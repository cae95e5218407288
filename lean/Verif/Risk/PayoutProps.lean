import Verif.Risk.RhoProps
import Verif.Forward.LineProps

/-!
# Property C101: larger dividends lower forwards and calls
-/

namespace QM.Risk.Spec
open QM.Interp QM.Curves QM.Vol QM.Instruments QM.Instruments.Spec QM.Market QM.Market.Spec QM.Dividends QM.Dividends.Spec QM.Forward.Spec

/-- An equity with spot `S` that pays the dividends `ds`, all of them cash up to the date `last`, in a market whose rate of its credit accrues to `r`
and whose cost of borrow accrues to `q`. There is no dividend yield. -/
structure PaysCash (md : MarketData) (id credit : String) (S : ℝ) (r q : Int → ℝ) (ds : DividendStream) (last : Int) : Prop where
  spot : md.spots.get id = some S
  rates : ∃ yc, md.yieldCurves.get credit = some yc ∧ ∀ d, yc.rt d = .ok (.val (r d))
  borrow : ∃ b, md.borrowCurves.get id = some b ∧ ∀ d, b.rt d = .ok (.val (q d))
  dividends : md.dividends.get id = some ds
  order : InOrder ds.dividends
  noYield : ∀ d, Accrued ds.divYield d 0
  cash : ∀ e ∈ ds.dividends, e.exDate ≠ md.spotDate ∧ (ds.divYield.isZero = true ∨ e.exDate ≤ ds.divYield.baseDate) ∧
    (md.spotDate < e.exDate → e.exDate ≤ last → e.relative = 0)

/-- What the dividends that go ex after the first date, and not after the second, amount to when the shares are settled: each with interest from the
date on which it is paid. -/
noncomputable def payout (ds : List (Dividend ℝ)) (from_ to_ : Int) (g : Int → ℝ) (settle : Int → Int) : ℝ :=
  ((ds.filter fun e => decide (from_ < e.exDate) && decide (e.exDate ≤ to_)).map fun e => e.cash * Real.exp (g (settle to_) - g e.payDate)).sum

end QM.Risk.Spec

namespace QM.Risk
open QM.Interp QM.Curves QM.Curves.Spec QM.Vol QM.Fixings QM.Instruments QM.Instruments.Spec QM.Market QM.Market.Spec QM.Risk.Spec QM.Dividends
open QM.Dividends.Spec (InOrder Projected total projectFrom project amount)
open QM.Forward.Spec (Accrued)

variable {fuel : Nat} {md : MarketData} {v : Vanilla} {id credit : String} {settle : Int → Int} {K S w : ℝ} {r q : Int → ℝ} {ds : DividendStream} {last : Int}

/-- The present value of cash dividends. -/
theorem projectFrom_total (df : Int → ℝ) (p : Int → Bool) (l : List (Dividend ℝ)) (hl : ∀ d ∈ l, p d.exDate = true → d.relative = 0) :
    ∀ (E : List (Projected ℝ)) (s : ℝ), total (·.pv) p (projectFrom s df E l) =
      total (·.pv) p E + ((l.filter fun e => p e.exDate).map fun e => e.cash * df e.payDate).sum := by
  induction l with
  | nil => intro E s; simp [projectFrom]
  | cons d l ih =>
    intro E s
    simp only [projectFrom]
    rw [ih (fun e he => hl e (by simp [he])), Dividends.total_append, Dividends.total_single]
    by_cases hp : p d.exDate = true
    · rw [if_pos hp, List.filter_cons_of_pos (p := fun e : Dividend ℝ => p e.exDate) hp, List.map_cons, List.sum_cons]
      simp only [amount, hl d (by simp) hp, zero_mul, add_zero]
      ring
    · rw [if_neg hp, List.filter_cons_of_neg (p := fun e : Dividend ℝ => p e.exDate) hp]
      ring

/-- The same market with other dividends. -/
def withDivs (md : MarketData) (id : String) (x : DividendStream) : MarketData := { md with dividends := md.dividends.insert id x }

theorem withDivs_data (md : MarketData) (id : String) (x : DividendStream) (y : Slot) :
    data (withDivs md id x) y = Function.update (data md) (.divs id) (some x) y :=
  congrFun (data_put md (x := .divs id) trivial x) y

/-- The forward of such an equity: the spot with interest less the dividends with interest. -/
theorem paysCash_forward (h : PaysCash md id credit S r q ds last) (settle : Int → Int) (hwm : Int) :
    ∃ f, md.equityForward (.equity id credit settle) hwm = .ok f ∧ ∀ d, d ≤ hwm → d ≤ last →
      f.forward d = .ok (S * Real.exp ((r (settle d) - q (settle d)) - (r (settle md.spotDate) - q (settle md.spotDate))) -
        payout ds.dividends md.spotDate d (fun d => r d - q d) settle) := by
  obtain ⟨yc, y1, y2⟩ := h.rates
  obtain ⟨b, b1, b2⟩ := h.borrow
  set g : Int → ℝ := fun d => r d - q d with hgdef
  have hg : Forward.Spec.Financing yc b g := fun d => ⟨r d, q d, y2 d, b2 d, rfl⟩
  have hne : ∀ e ∈ ds.dividends, e.exDate ≠ md.spotDate := fun e he => (h.cash e he).1
  obtain ⟨boot, hboot, _⟩ := Dividends.bootstrap_ok (lastCash := ds.lastCash) (yieldIsZero := ds.divYield.isZero) (yieldBase := ds.divYield.baseDate)
    (spot := S * Real.exp (-g (settle md.spotDate) - -g md.spotDate)) (hwm := hwm) (Forward.discounts hg md.spotDate) h.order hne
    (by
      by_cases hz : ds.divYield.isZero = true
      · exact .inl hz
      · exact .inr fun e he => (h.cash e (List.mem_of_getLast? he)).2.1.resolve_left hz)
  have hnew : ∃ f, Forward.EquityForward.new md.spotDate S settle yc b ds hwm = .ok f := by
    unfold Forward.EquityForward.new Forward.bootstrapStream
    rw [Forward.logDiscount_eq hg]
    simp only [Bind.bind, Except.bind, Forward.discount_eq hg]
    rw [hboot]
    exact ⟨_, rfl⟩
  obtain ⟨f, hf⟩ := hnew
  refine ⟨f, ?_, ?_⟩
  · rw [equityForward_of (i := .equity id credit settle) h.spot h.dividends b1 y1]
    exact hf
  · intro d hd hlast
    obtain ⟨e1, e2, e3, e4, e5, e6, e7⟩ := Forward.new_parts hg hf
    have hmark := Forward.mark_of_bootstrap e7
    have hsum := (Dividends.C24_from_base_partial (Forward.discounts hg md.spotDate) h.order hne e7 (to_ := d) (by omega)).2
    rw [Forward.forward_eq (g := g) (y := 0) (by rw [e2, e3]; exact hg) hsum (by rw [e1, e4]; exact h.noYield _), e5, e6, e1]
    unfold project
    rw [projectFrom_total _ _ _ (by
      intro e he hp
      obtain ⟨m1, m2⟩ := List.mem_filter.1 he
      have hp' : e.exDate ≤ d := by simpa using hp
      exact (h.cash e m1).2.2 (by simpa using m2) (hp'.trans hlast))]
    congr 1
    rw [show total (·.pv) (fun x => decide (x ≤ d)) ([] : List (Projected ℝ)) = 0 by simp [total], zero_add, List.filter_filter, sub_mul, mul_assoc,
      ← Real.exp_add]
    congr 1
    · congr 2
      simp only [hgdef]
      ring
    · unfold payout
      rw [← List.sum_map_mul_right]
      rw [show (fun e : Dividend ℝ => decide (e.exDate ≤ d) && decide (md.spotDate < e.exDate)) =
        fun e => decide (md.spotDate < e.exDate) && decide (e.exDate ≤ d) from funext fun e => Bool.and_comm _ _]
      congr 1
      refine List.map_congr_left fun e _ => ?_
      rw [mul_assoc, ← Real.exp_add]
      congr 2
      ring

/-- A bump of all dividends scales what they amount to. -/
theorem payout_bump (l : List (Dividend ℝ)) (b : ℝ) (from_ to_ : Int) (g : Int → ℝ) (settle : Int → Int) :
    payout (l.map fun d => (⟨d.cash * (1 + b), d.relative * (1 + b), d.exDate, d.payDate⟩ : Dividend ℝ)) from_ to_ g settle =
      (1 + b) * payout l from_ to_ g settle := by
  unfold payout
  rw [List.filter_map, List.map_map, ← List.sum_map_mul_left]
  congr 1
  refine List.map_congr_left fun e _ => ?_
  simp only [Function.comp]
  ring

theorem paysCash_bump (h : PaysCash md id credit S r q ds last) (hyield : ∀ e ∈ ds.dividends, e.exDate ≤ ds.divYield.baseDate) (b : ℝ) :
    PaysCash (withDivs md id ((BumpDivs.bumpAllRelative b).apply ds)) id credit S r q ((BumpDivs.bumpAllRelative b).apply ds) last := by
  refine ⟨h.spot, h.rates, h.borrow, by unfold withDivs; exact Map.get_insert_self .., ?_, ?_, ?_⟩
  · rw [C28_explicit]
    unfold InOrder
    rw [List.pairwise_map]
    exact h.order
  · intro d
    obtain ⟨x, t, h1, h2⟩ := rAndT_of_rt (h.noYield d)
    obtain ⟨t', h3⟩ := C28_yield_partial ds b (d := d) (r := x) ⟨t, h1⟩
    have ht : t' = t := by
      have : ((BumpDivs.bumpAllRelative b).apply ds).divYield.rAndT d = .ok (.val (x * b), t) := by
        unfold BumpDivs.apply DividendStream.newBumpAll RateCurve.newRelativeBump
        simp only
        rw [RateCurve.rAndT, h1]
        rfl
      rw [this] at h3
      cases h3
      rfl
    show ((BumpDivs.bumpAllRelative b).apply ds).divYield.rt d = _
    rw [rt_of_rAndT h3, ht]
    congr 2
    linear_combination b * h2
  · intro e he
    rw [C28_explicit, List.mem_map] at he
    obtain ⟨e', h1, rfl⟩ := he
    obtain ⟨c1, _, c3⟩ := h.cash e' h1
    exact ⟨c1, .inr (hyield e' h1), fun p1 p2 => by
      show e'.relative * (1 + b) = 0
      rw [c3 p1 p2, zero_mul]⟩

/-! ## C101 -/

/-- C101, the forward. A bump of all dividends by a fraction `b` lowers the forward by that fraction of what they amount to, where the curve of the
dividend yield starts after the last dividend. Missing are relative dividends, and all other streams, on which `C101_rejected` shows that the bump fails. -/
theorem C101_forward_partial (h : PaysCash md id credit S r q ds last) (hyield : ∀ e ∈ ds.dividends, e.exDate ≤ ds.divYield.baseDate)
    (settle : Int → Int) {d hwm : Int} (hd : d ≤ hwm) (hlast : d ≤ last) :
    ∃ f₀ F, md.equityForward (.equity id credit settle) hwm = .ok f₀ ∧ f₀.forward d = .ok F ∧
      ∀ b, ∃ f, (withDivs md id ((BumpDivs.bumpAllRelative b).apply ds)).equityForward (.equity id credit settle) hwm = .ok f ∧
        f.forward d = .ok (F - b * payout ds.dividends md.spotDate d (fun d => r d - q d) settle) := by
  obtain ⟨f₀, a1, a2⟩ := paysCash_forward h settle hwm
  refine ⟨f₀, _, a1, a2 d hd hlast, fun b => ?_⟩
  obtain ⟨f, h1, h2⟩ := paysCash_forward (paysCash_bump h hyield b) settle hwm
  refine ⟨f, h1, ?_⟩
  rw [h2 d hd hlast, C28_explicit, payout_bump]
  congr 1
  rw [show (withDivs md id ((BumpDivs.bumpAllRelative b).apply ds)).spotDate = md.spotDate from rfl]
  ring

/-- What a bump of dividends does to the price of an option: the price is that in the market with the bumped dividends. -/
theorem option_bump_divs {n y : ℝ} {kind : PutOrCall} {p : SelfPricer} {b : BumpDivs}
    (hp : SelfPricer.new [(n, euro kind v id credit settle K)] md = .ok p) (hds : md.dividends.get id = some ds)
    (hy : value fuel [(n, euro kind v id credit settle K)] (withDivs md id (b.apply ds)) = .ok (.val y)) (save : Option SavedPrefetch) :
    ∃ p' save', p.bump (.divs id b) save = (.ok true, p', save') ∧ p'.price fuel = .ok (.val y) := by
  obtain ⟨p₂, k1, k2⟩ := value_new hy
  have hat := at_new hp
  have hu := option_unambiguous (v := v) (id := id) (credit := credit) (settle := settle) (K := K) n kind md.spotDate
  obtain ⟨c1, _, c3⟩ := collect_option (v := v) (id := id) (credit := credit) (settle := settle) (K := K) n kind md.spotDate
  have hslot : data md (.divs id) = some ds := hds
  have hdata := withDivs_data md id (b.apply ds)
  have hex : ∃ p' save', p.bump (.divs id b) save = (.ok true, p', save') := by
    obtain ⟨saved, s, rfl⟩ : ∃ saved s, save = area saved s := by
      cases save with
      | none => exact ⟨false, .new, rfl⟩
      | some s => exact ⟨true, s, rfl⟩
    have hS' : Market.Spec.answers p.context (.divs id) = some ds := (hat.answers (x := .divs id) trivial).trans hslot
    obtain ⟨s', _, h2⟩ := bump_present (b := .divs id b) rfl hS' saved s
    dsimp only at h2
    obtain ⟨c, save', hr⟩ := hat.refetch_put (md := withDivs md id (b.apply ds)) (id := id) hu (x := .divs id) trivial (bumped (.divs id b) (.divs id) ds)
      (by rw [c3]; simp [Map.get]) (by rw [c1]; simp [Map.get]) rfl hdata k1 (area saved s')
    rw [hr] at h2
    exact ⟨_, _, self_bump_of h2⟩
  obtain ⟨p', save', hb⟩ := hex
  obtain ⟨_, hat'⟩ := hat.bump hu (b := .divs id b) (x := .divs id) rfl hslot hb
  exact ⟨p', save', hb, hat'.price (md := withDivs md id (b.apply ds)) rfl hdata hy⟩

/-- C101, options. As long as the forward stays positive, a call is worth the less, and a put the more, the larger the dividends. -/
theorem C101_options_partial (h : PaysCash md id credit S r q ds last) (hyield : ∀ e ∈ ds.dividends, e.exDate ≤ ds.divYield.baseDate)
    (hq : Quoted fuel md v id credit settle K w) (hlast : v.expiry.date ≤ last) (hK : 0 < K) (hw : 0 < w) (hpay : 0 < payout ds.dividends md.spotDate v.expiry.date (fun d => r d - q d) settle) (kind : PutOrCall) {F : ℝ}
    (hF : F = S * Real.exp ((r v.payDate - q v.payDate) - (r (settle md.spotDate) - q (settle md.spotDate))) -
      payout ds.dividends md.spotDate v.expiry.date (fun d => r d - q d) settle) (hF0 : 0 < F) :
    ∃ (p : SelfPricer) (x : ℝ → ℝ), SelfPricer.new [(1, euro kind v id credit settle K)] md = .ok p ∧ p.price fuel = .ok (.val (x 0)) ∧
      (∀ b save, b * payout ds.dividends md.spotDate v.expiry.date (fun d => r d - q d) settle < F →
        ∃ p' save', p.bump (.divs id (.bumpAllRelative b)) save = (.ok true, p', save') ∧ p'.price fuel = .ok (.val (x b))) ∧
      match kind with
      | .call => StrictAntiOn x {b | b * payout ds.dividends md.spotDate v.expiry.date (fun d => r d - q d) settle < F}
      | .put => StrictMonoOn x {b | b * payout ds.dividends md.spotDate v.expiry.date (fun d => r d - q d) settle < F} := by
  set C := payout ds.dividends md.spotDate v.expiry.date (fun d => r d - q d) settle with hC
  obtain ⟨yc, y1, y2⟩ := h.rates
  obtain ⟨vol, s1, s2, s3⟩ := hq.surface
  set D := Real.exp (r (settle md.spotDate) - r v.payDate)
  have hD : 0 < D := Real.exp_pos _
  have hs := Real.sqrt_pos.2 hw
  have hval : ∀ {md' : MarketData} {ds' : DividendStream} {F' : ℝ}, PaysCash md' id credit S r q ds' last → Quoted fuel md' v id credit settle K w →
      md'.spotDate = md.spotDate → S * Real.exp ((r v.payDate - q v.payDate) - (r (settle md.spotDate) - q (settle md.spotDate))) -
        payout ds'.dividends md.spotDate v.expiry.date (fun d => r d - q d) settle = F' → 0 < F' →
      value fuel [(1, euro kind v id credit settle K)] md' = .ok (.val (D * blackValue kind F' K (Real.sqrt w))) := by
    intro md' ds' F' h' hq' hsd hF' hpos
    obtain ⟨yc, y1, y2⟩ := h'.rates
    obtain ⟨f, hf, hfwd⟩ := paysCash_forward h' settle v.expiry.date
    obtain ⟨vol, s1, s2, s3⟩ := hq'.surface
    have hf : md'.forwardCurve (.equity id credit settle) v.expiry.date = .ok (asFwd f) := by
      unfold MarketData.forwardCurve
      rw [hf]
      rfl
    have hfwd : (asFwd f).forward v.expiry.date = .ok (.val F') := by
      unfold asFwd
      dsimp only
      rw [hfwd _ le_rfl hlast, hsd, ← hq'.pays, hF']
      rfl
    rw [option_value 1 kind hq'.ahead hf hfwd y1 (y2 _) (by rw [hq'.settles]; exact y2 _) s1 s2 s3 (by linarith) hw.le, sub_zero, add_zero,
      formula_black hpos hK hs, hsd]
    simp [num1, num2, D]
  have h0 := hval h hq rfl hF.symm hF0
  have hb : ∀ b, b * C < F → value fuel [(1, euro kind v id credit settle K)] (withDivs md id ((BumpDivs.bumpAllRelative b).apply ds)) =
      .ok (.val (D * blackValue kind (F - b * C) K (Real.sqrt w))) := by
    intro b hb
    refine hval (paysCash_bump h hyield b) ⟨hq.ahead, hq.pays, hq.settles, hq.surface⟩ rfl ?_ (by linarith)
    rw [C28_explicit, payout_bump, hF, ← hC]
    ring
  obtain ⟨p, k1, k2⟩ := value_new h0
  refine ⟨p, fun b => D * blackValue kind (F - b * C) K (Real.sqrt w), k1, ?_, fun b save hlt => option_bump_divs k1 h.dividends (hb b hlt) save, ?_⟩
  · rw [k2]
    simp only [zero_mul, sub_zero]
  · cases kind
    · intro a ha b hb hab
      exact mul_lt_mul_of_pos_left (black_strike_lt hK hs (by have : b * C < F := hb; linarith) (by nlinarith)) hD
    · intro a ha b hb hab
      exact mul_lt_mul_of_pos_left (black_forward_lt hK hs (by have : b * C < F := hb; linarith) (by nlinarith)) hD

/-- C101 violated: if the curve of the dividend yield starts before the last dividend then no dividends can be bumped, by any amount, not even where
the curve is the zero curve, with which the option has a price. The bumped zero curve no longer says that it is zero. -/
theorem C101_rejected {n : ℝ} {kind : PutOrCall} {p : SelfPricer} {e : Dividend ℝ} (h : PaysCash md id credit S r q ds last)
    (hp : SelfPricer.new [(n, euro kind v id credit settle K)] md = .ok p) (he : ds.dividends.getLast? = some e) (hlate : ds.divYield.baseDate < e.exDate)
    (b : ℝ) (save : Option SavedPrefetch) : ∃ p' save', p.bump (.divs id (.bumpAllRelative b)) save = (.error .err, p', save') := by
  have hat := at_new hp
  have hw := collect_wellFormed md.spotDate [(n, euro kind v id credit settle K)]
  obtain ⟨c1, _, c3⟩ := collect_option (v := v) (id := id) (credit := credit) (settle := settle) (K := K) n kind md.spotDate
  obtain ⟨yc, y1, y2⟩ := h.rates
  obtain ⟨bc, b1, b2⟩ := h.borrow
  have hg : Forward.Spec.Financing yc bc (fun d => r d - q d) := fun d => ⟨r d, q d, y2 d, b2 d, rfl⟩
  have hslot : data md (.divs id) = some ds := h.dividends
  obtain ⟨saved, s, rfl⟩ : ∃ saved s, save = area saved s := by
    cases save with
    | none => exact ⟨false, .new, rfl⟩
    | some s => exact ⟨true, s, rfl⟩
  have hS' : Market.Spec.answers p.context (.divs id) = some ds := (hat.answers (x := .divs id) trivial).trans hslot
  obtain ⟨s', _, h2⟩ := bump_present (b := .divs id (.bumpAllRelative b)) rfl hS' saved s
  dsimp only at h2
  have hj : (collect md.spotDate [(n, euro kind v id credit settle K)]).forwardCurves.get id = some (.equity id credit settle, v.expiry.date) := by
    rw [c1]
    simp [Map.get]
  obtain ⟨fwd, hfwd, _⟩ := hat.coherent.forward id _ _ (by rw [hat.dependencies]; exact hj)
  have hfail : (withDivs md id ((BumpDivs.bumpAllRelative b).apply ds)).forwardCurve (.equity id credit settle) v.expiry.date = .error .err := by
    unfold MarketData.forwardCurve
    rw [equityForward_of (md := withDivs md id ((BumpDivs.bumpAllRelative b).apply ds)) (i := .equity id credit settle) h.spot
      (show (md.dividends.insert id ((BumpDivs.bumpAllRelative b).apply ds)).get id = some _ from Map.get_insert_self ..) b1 y1]
    unfold Forward.EquityForward.new Forward.bootstrapStream Bootstrap.new
    rw [Forward.logDiscount_eq hg]
    simp only [Bind.bind, Except.bind, Forward.discount_eq hg]
    rw [C28_explicit, List.getLast?_map, he, Option.map_some]
    dsimp only
    rw [if_pos ⟨by simp [BumpDivs.apply, DividendStream.newBumpAll, RateCurve.newRelativeBump, RateCurve.isZero], hlate⟩]
  have hfail' : (p.context.context.put (.divs id) (bumped (.divs id (.bumpAllRelative b)) (.divs id) ds)).forwardCurve (.equity id credit settle) v.expiry.date =
      .error .err := by
    rw [← hfail]
    refine forwardCurve_congr _ _ ?_ ?_
    · rw [put_spotDate, hat.spotDate]
      rfl
    · intro z _
      rw [data_put _ (show isData (.divs id) from trivial), withDivs_data]
      congr 1
      funext z
      exact hat.data z
  have hr : ∃ p' save', Prefetch.refetch { p.context with context := p.context.context.put (.divs id) (bumped (.divs id (.bumpAllRelative b)) (.divs id) ds) } id
      true false (area saved s') = (.error .err, p', save') := by
    unfold Prefetch.refetch
    dsimp only
    rw [if_neg (by simp), hfwd]
    dsimp only
    rw [show p.context.dependencies.instruments.get id = some (.equity id credit settle) by rw [hat.dependencies, c3]; simp [Map.get]]
    dsimp only
    rw [if_pos rfl]
    unfold Prefetch.refetchForward
    dsimp only
    rw [show (Instrument.equity id credit settle).id = id from rfl, show p.context.dependencies.forwardCurves.get id = some (.equity id credit settle, v.expiry.date)
      by rw [hat.dependencies]; exact hj]
    dsimp only
    rw [hfail']
    exact ⟨_, _, rfl⟩
  obtain ⟨c, save', hr⟩ := hr
  rw [hr] at h2
  exact ⟨_, _, self_bump_of h2⟩

/-! ## Cases -/

/-- The sample market with a dividend of five on day 5, paid on day 7, and a curve of the dividend yield from a given day. -/
noncomputable def payingMarket (day : Int) : MarketData :=
  withDivs (withVol (sampleMarket 100 (.zero 0)) "A" (.flat (.val 0.2) .everyDay (0, 0))) "A" (.new [⟨5, 0, 5, 7⟩] (.zero day))

theorem paying_case (day : Int) : PaysCash (payingMarket day) "A" "C" 100 (fun _ => 0) (fun _ => 0) (.new [⟨5, 0, 5, 7⟩] (.zero day)) 10 ∧
    Quoted fuel (payingMarket day) (dayTerms 10) "A" "C" _root_.id 90 (0.2 ^ 2 * (10 / 365)) ∧
    payout [⟨5, 0, 5, 7⟩] 0 10 (fun _ => (0 : ℝ) - 0) _root_.id = 5 := by
  refine ⟨⟨rfl, ⟨_, rfl, Forward.zero_rt 0⟩, ⟨_, rfl, Forward.zero_rt 0⟩, rfl, by simp [DividendStream.new, InOrder], Forward.zero_rt day, ?_⟩, ?_, ?_⟩
  · intro e he
    have he : e ∈ [(⟨5, 0, 5, 7⟩ : Dividend ℝ)] := he
    rw [List.mem_singleton] at he
    subst he
    exact ⟨by show (5 : Int) ≠ 0; norm_num, .inl rfl, fun _ _ => rfl⟩
  · refine ⟨by show (0 : Int) < 10; norm_num, rfl, rfl, .flat (.val 0.2) .everyDay (0, 0), surface_today rfl rfl _, rfl, ?_⟩
    rw [later_self_zero _ (by unfold before; simp [payingMarket, withDivs, withVol, sampleMarket])]
    exact flat_forward.2 (.inl ⟨before_irrefl _, _, everyDay_year 10, by norm_num⟩)
  · simp [payout]

/-- C101: with the curve of the dividend yield from day 5 on, ten percent more of the dividend makes the call cheaper. -/
example : ∃ p x p' s' x', SelfPricer.new [(1, euro .call (dayTerms 10) "A" "C" _root_.id 90)] (payingMarket 5) = .ok p ∧ p.price fuel = .ok (.val x) ∧
    p.bump (.divs "A" (.bumpAllRelative 0.1)) none = (.ok true, p', s') ∧ p'.price fuel = .ok (.val x') ∧ x' < x := by
  obtain ⟨h, hq, hC⟩ := paying_case (fuel := fuel) 5
  have hC' : payout (DividendStream.new [⟨5, 0, 5, 7⟩] (.zero 5)).dividends (payingMarket 5).spotDate (dayTerms 10).expiry.date (fun _ => (0 : ℝ) - 0) _root_.id = 5 := hC
  obtain ⟨p, x, h1, h2, h3, h4⟩ := C101_options_partial (F := 95) h (by
      intro e he
      have he : e ∈ [(⟨5, 0, 5, 7⟩ : Dividend ℝ)] := he
      rw [List.mem_singleton] at he
      subst he
      exact le_rfl) hq (by show (10 : Int) ≤ 10; norm_num) (by norm_num) (by norm_num) (by rw [hC']; norm_num) .call (by rw [hC']; norm_num) (by norm_num)
  obtain ⟨p', s', h5, h6⟩ := h3 0.1 none (by rw [hC']; norm_num)
  exact ⟨p, _, p', s', _, h1, h2, h5, h6, h4 (by show 0 * _ < (95 : ℝ); norm_num) (by show 0.1 * _ < (95 : ℝ); rw [hC']; norm_num) (by norm_num)⟩

/-- C101 violated: with the zero curve from day 0 as the dividend yield the call has a price, but its dividend cannot be bumped. -/
theorem C101_false : ∃ p x, SelfPricer.new [(1, euro .call (dayTerms 10) "A" "C" _root_.id 90)] (payingMarket 0) = .ok p ∧ p.price fuel = .ok (.val x) ∧
    ∀ b save, ∃ p' save', p.bump (.divs "A" (.bumpAllRelative b)) save = (.error .err, p', save') := by
  obtain ⟨h, hq, hC⟩ := paying_case (fuel := fuel) 0
  obtain ⟨f, hf, hfwd⟩ := paysCash_forward h _root_.id 10
  obtain ⟨vol, s1, s2, s3⟩ := hq.surface
  have hf : (payingMarket 0).forwardCurve (.equity "A" "C" _root_.id) (dayTerms 10).expiry.date = .ok (asFwd f) := by
    unfold MarketData.forwardCurve
    rw [show (dayTerms 10).expiry.date = 10 from rfl, hf]
    rfl
  have hx := hfwd 10 le_rfl le_rfl
  have hfwd : (asFwd f).forward (dayTerms 10).expiry.date = .ok (.val 95) := by
    unfold asFwd
    dsimp only
    rw [show (dayTerms 10).expiry.date = 10 from rfl, hx, show payout (DividendStream.new [⟨5, 0, 5, 7⟩] (.zero 0)).dividends (payingMarket 0).spotDate 10
      (fun _ => (0 : ℝ) - 0) _root_.id = 5 from hC]
    norm_num
    rfl
  have hv := option_value (fuel := fuel) (K := 90) (δ := 0) (w := 0.2 ^ 2 * (10 / 365)) 1 .call hq.ahead hf hfwd (yc := .zero 0) rfl (Forward.zero_rt 0 _)
    (Forward.zero_rt 0 _) s1 s2 s3 (by norm_num) (by norm_num)
  rw [sub_zero, add_zero, formula_black (by norm_num) (by norm_num) (Real.sqrt_pos.2 (by norm_num))] at hv
  obtain ⟨p, k1, k2⟩ := value_new hv
  refine ⟨p, _, k1, k2, fun b save => C101_rejected h k1 (e := ⟨5, 0, 5, 7⟩) rfl (by show (0 : Int) < 5; norm_num) b save⟩

end QM.Risk
