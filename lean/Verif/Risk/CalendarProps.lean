import Verif.Risk.ArbitrageProps
import Verif.Market.ContextProps
import Verif.Vol.DynamicsProps
import Verif.Dividends.AcceptProps

/-!
# Property C96: options of different expiries admit no arbitrage
-/

namespace QM.Risk.Spec
open QM.Interp QM.Curves QM.Vol QM.Instruments QM.Instruments.Spec QM.Market QM.Market.Spec QM.Dividends QM.Dividends.Spec QM.Forward.Spec

/-- An equity with spot `S` that pays no dividends up to the date `last` and costs nothing to borrow, in a market whose rate of its credit accrues to `r`. -/
structure PaysNothing (md : MarketData) (id credit : String) (S : ℝ) (r : Int → ℝ) (last : Int) : Prop where
  spot : md.spots.get id = some S
  rates : ∃ yc, md.yieldCurves.get credit = some yc ∧ ∀ d, yc.rt d = .ok (.val (r d))
  borrow : ∃ b, md.borrowCurves.get id = some b ∧ ∀ d, b.rt d = .ok (.val 0)
  dividends : ∃ s, md.dividends.get id = some s ∧ InOrder s.dividends ∧ (∀ d, Accrued s.divYield d 0) ∧
    (∀ e ∈ s.dividends, e.exDate < md.spotDate ∨ last < e.exDate) ∧ ∀ e ∈ s.dividends, s.divYield.isZero = true ∨ e.exDate ≤ s.divYield.baseDate

/-- What the market says about one option: it has not expired, it settles as its underlying does, and the variance until at the strike `K` is `w`. -/
structure Quoted (fuel : Nat) (md : MarketData) (v : Vanilla) (id credit : String) (settle : Int → Int) (K w : ℝ) : Prop where
  ahead : md.spotDate < v.expiry.date
  pays : v.payDate = settle v.expiry.date
  settles : v.settlement md.spotDate = settle md.spotDate
  surface : ∃ vol, (∀ g, md.volSurface (.equity id credit settle) v.expiry.date g = .ok vol) ∧ vol.displacement v.expiry.date = .ok (.val 0) ∧
    vol.forwardVariance fuel (later (0, 0) (md.spotDate, 0)) v.expiryTime (.val K) = .ok (.val w)

end QM.Risk.Spec

namespace QM.Risk
open QM.Interp QM.Curves QM.Vol QM.Fixings QM.Instruments QM.Instruments.Spec QM.Market QM.Market.Spec QM.Risk.Spec

variable {fuel : Nat} {md : MarketData} {v v₁ v₂ : Vanilla} {id credit : String} {settle : Int → Int} {K S w w₁ w₂ : ℝ} {r : Int → ℝ} {last : Int}

/-- Black's formula with forward and strike in another unit. -/
theorem black_scale {D F K s : ℝ} (hD : 0 < D) : D * black F K s = black (D * F) (D * K) s := by
  unfold black
  rw [mul_div_mul_left _ _ hD.ne']
  ring

/-- The forward of such an equity grows at the rate, from settlement to settlement. -/
theorem pays_nothing_forward (h : PaysNothing md id credit S r last) (settle : Int → Int) (hwm : Int) :
    ∃ f, md.equityForward (.equity id credit settle) hwm = .ok f ∧ ∀ d, md.spotDate ≤ d → d ≤ hwm → d ≤ last →
      f.forward d = .ok (S * Real.exp (r (settle d) - r (settle md.spotDate))) := by
  obtain ⟨yc, y1, y2⟩ := h.rates
  obtain ⟨b, b1, b2⟩ := h.borrow
  obtain ⟨ds, d1, d2, d3, d4, d5⟩ := h.dividends
  have hg : Forward.Spec.Financing yc b r := fun d => ⟨r d, 0, y2 d, b2 d, (sub_zero _).symm⟩
  obtain ⟨boot, hb⟩ := (Dividends.C55_iff (dividends := ds.dividends) (lastCash := ds.lastCash) (yieldIsZero := ds.divYield.isZero)
    (yieldBase := ds.divYield.baseDate) (discount := Forward.bootstrapDiscount yc b md.spotDate) (df := fun d => Real.exp (-r d - -r md.spotDate))
    (by
      unfold Forward.bootstrapDiscount
      rw [Forward.logDiscount_eq hg]
      exact ⟨_, rfl, fun d => Forward.discount_eq hg _ d⟩) (spot := S * Real.exp (-r (settle md.spotDate) - -r md.spotDate)) (base := md.spotDate) (hwm := hwm)).2
    ⟨fun e he => d5 e (List.mem_of_getLast? he), (d2.filter _).sublist (List.takeWhile_sublist _)⟩
  have hnew : ∃ f, Forward.EquityForward.new md.spotDate S settle yc b ds hwm = .ok f := by
    unfold Forward.EquityForward.new Forward.bootstrapStream
    rw [Forward.logDiscount_eq hg]
    simp only [Bind.bind, Except.bind, Forward.discount_eq hg]
    rw [hb]
    exact ⟨_, rfl⟩
  obtain ⟨f, hf⟩ := hnew
  have he : md.equityForward (.equity id credit settle) hwm = .ok f := by
    rw [equityForward_of (i := .equity id credit settle) h.spot d1 b1 y1]
    exact hf
  refine ⟨f, he, ?_⟩
  intro d q1 q2 q3
  have hF := C76_forward (i := .equity id credit settle) (S := S) (g := r) (f := asFwd f) h.spot d1 b1 y1 hg d2 q1 q2
    (fun e he => by have := d4 e he; omega) d3 (by
      show md.forwardCurve _ _ = _
      unfold MarketData.forwardCurve
      rw [he]
      rfl)
  unfold asFwd at hF
  dsimp only at hF
  cases hx : f.forward d with
  | error e => rw [hx] at hF; cases hF
  | ok x =>
    rw [hx] at hF
    cases hF
    rfl

/-- What an option on such an equity is worth: Black's formula on the spot and the discounted strike. -/
theorem pays_nothing_value (h : PaysNothing md id credit S r last) (q : Quoted fuel md v id credit settle K w) (hlast : v.expiry.date ≤ last)
    (hS : 0 < S) (hK : 0 < K) (hw : 0 < w) (n : ℝ) (kind : PutOrCall) :
    value fuel [(n, euro kind v id credit settle K)] md =
      .ok (.val (n * blackValue kind S (K * Real.exp (r (settle md.spotDate) - r v.payDate)) (Real.sqrt w))) := by
  obtain ⟨yc, y1, y2⟩ := h.rates
  obtain ⟨f, hf, hF⟩ := pays_nothing_forward h settle v.expiry.date
  obtain ⟨vol, s1, s2, s3⟩ := q.surface
  have hf : md.forwardCurve (.equity id credit settle) v.expiry.date = .ok (asFwd f) := by
    unfold MarketData.forwardCurve
    rw [hf]
    rfl
  have hF : (asFwd f).forward v.expiry.date = .ok (.val (S * Real.exp (r v.payDate - r (settle md.spotDate)))) := by
    unfold asFwd
    dsimp only
    rw [hF _ q.ahead.le le_rfl hlast, q.pays]
    rfl
  have hF0 : 0 < S * Real.exp (r v.payDate - r (settle md.spotDate)) := mul_pos hS (Real.exp_pos _)
  rw [option_value n kind q.ahead hf hF y1 (y2 _) (by rw [q.settles]; exact y2 _) s1 s2 s3 (by linarith) hw.le, sub_zero, add_zero,
    formula_black hF0 hK (Real.sqrt_pos.2 hw)]
  have e1 : Real.exp (r (settle md.spotDate) - r v.payDate) * (S * Real.exp (r v.payDate - r (settle md.spotDate))) = S := by
    rw [mul_left_comm, ← Real.exp_add]
    simp
  cases kind
  · show _ = Except.ok (Num.val (n * black _ _ _))
    rw [← e1, mul_comm K]
    rw [← black_scale (Real.exp_pos _), e1]
    rfl
  · show _ = Except.ok (Num.val (n * black _ _ _))
    conv_rhs => rw [← e1]
    rw [mul_comm K, ← black_scale (Real.exp_pos _)]
    rfl

/-- C96. A call on an equity that pays nothing costs no less if it expires later, where rates are not negative between the two dates of payment
and the variance at the strike does not fall; it costs more if there is interest or if the variance rises. A put does so where rates are not
positive. Missing are the surfaces whose variance falls, of which `C96_false` is one, and options at the strike without any variance, whose price is not
a number. -/
theorem C96_partial (h : PaysNothing md id credit S r last) (q₁ : Quoted fuel md v₁ id credit settle K w₁) (q₂ : Quoted fuel md v₂ id credit settle K w₂)
    (hlast₁ : v₁.expiry.date ≤ last) (hlast₂ : v₂.expiry.date ≤ last) (hS : 0 < S) (hK : 0 < K) (hw₁ : 0 < w₁) (hw : w₁ ≤ w₂) (kind : PutOrCall)
    (hr : match kind with | .call => r v₁.payDate ≤ r v₂.payDate | .put => r v₂.payDate ≤ r v₁.payDate) :
    ∃ p₁ p₂ x₁ x₂, SelfPricer.new [(1, euro kind v₁ id credit settle K)] md = .ok p₁ ∧ p₁.price fuel = .ok (.val x₁) ∧
      SelfPricer.new [(1, euro kind v₂ id credit settle K)] md = .ok p₂ ∧ p₂.price fuel = .ok (.val x₂) ∧ x₁ ≤ x₂ ∧
      (r v₁.payDate ≠ r v₂.payDate ∨ w₁ ≠ w₂ → x₁ < x₂) := by
  have hw₂ : 0 < w₂ := lt_of_lt_of_le hw₁ hw
  obtain ⟨p₁, h1, h2⟩ := value_new (pays_nothing_value h q₁ hlast₁ hS hK hw₁ 1 kind)
  obtain ⟨p₂, h3, h4⟩ := value_new (pays_nothing_value h q₂ hlast₂ hS hK hw₂ 1 kind)
  rw [one_mul] at h2 h4
  refine ⟨p₁, p₂, _, _, h1, h2, h3, h4, ?_⟩
  have hs₁ := Real.sqrt_pos.2 hw₁
  have hs₂ := Real.sqrt_pos.2 hw₂
  have hss : Real.sqrt w₁ ≤ Real.sqrt w₂ := Real.sqrt_le_sqrt hw
  set D₁ := K * Real.exp (r (settle md.spotDate) - r v₁.payDate) with hD₁
  set D₂ := K * Real.exp (r (settle md.spotDate) - r v₂.payDate) with hD₂
  have k1 : 0 < D₁ := mul_pos hK (Real.exp_pos _)
  have k2 : 0 < D₂ := mul_pos hK (Real.exp_pos _)
  have hlt : r v₁.payDate < r v₂.payDate → D₂ < D₁ := fun h => mul_lt_mul_of_pos_left (Real.exp_lt_exp.2 (by linarith)) hK
  have hgt : r v₂.payDate < r v₁.payDate → D₁ < D₂ := fun h => mul_lt_mul_of_pos_left (Real.exp_lt_exp.2 (by linarith)) hK
  have heq : r v₁.payDate = r v₂.payDate → D₁ = D₂ := fun h => by rw [hD₁, hD₂, h]
  have hroot : w₁ ≠ w₂ → Real.sqrt w₁ < Real.sqrt w₂ := fun h => Real.sqrt_lt_sqrt hw₁.le (lt_of_le_of_ne hw h)
  have step : ∀ {F L : ℝ}, 0 < F → 0 < L → black F L (Real.sqrt w₁) ≤ black F L (Real.sqrt w₂) ∧
      (w₁ ≠ w₂ → black F L (Real.sqrt w₁) < black F L (Real.sqrt w₂)) := by
    intro F L hF hL
    exact ⟨(black_strictMono hF hL).monotoneOn hs₁ hs₂ hss, fun h => black_strictMono hF hL hs₁ hs₂ (hroot h)⟩
  cases kind
  · show black D₁ S _ ≤ black D₂ S _ ∧ (_ → black D₁ S _ < black D₂ S _)
    obtain ⟨m1, m2⟩ := step k2 hS
    rcases eq_or_lt_of_le (show r v₂.payDate ≤ r v₁.payDate from hr) with he | he
    · rw [heq he.symm]
      exact ⟨m1, fun h => m2 (h.resolve_left (fun h => h he.symm))⟩
    · have := black_forward_lt hS hs₁ k1 (hgt he)
      exact ⟨by linarith, fun _ => by linarith⟩
  · show black S D₁ _ ≤ black S D₂ _ ∧ (_ → black S D₁ _ < black S D₂ _)
    obtain ⟨m1, m2⟩ := step hS k2
    rcases eq_or_lt_of_le (show r v₁.payDate ≤ r v₂.payDate from hr) with he | he
    · rw [heq he]
      exact ⟨m1, fun h => m2 (h.resolve_left (fun h => h he))⟩
    · have := black_strike_lt hS hs₁ k2 (hlt he)
      exact ⟨by linarith, fun _ => by linarith⟩

/-- C96 with a flat volatility, where the variance never falls: whatever the calendar, of two calls or, without rates, two puts the one that expires
later costs no less, if there is any business time until the first expiry. -/
theorem C96_flat {c : Calendar.Cal ℝ} {σ T₁ T₂ : ℝ} (h : PaysNothing md id credit S r last)
    (hvol : md.volSurfaces.get id = some (.flat (.val σ) c (md.spotDate, 0))) (h0 : 0 ≤ md.spotDate) (hσ : σ ≠ 0) (hg : Calendar.Spec.Good c)
    (hgw : Calendar.Spec.GoodWeights c)
    (hv : ∀ v ∈ [v₁, v₂], md.spotDate < v.expiry.date ∧ v.expiry.date ≤ last ∧ v.payDate = settle v.expiry.date ∧ v.settlement md.spotDate = settle md.spotDate ∧
      v.expiryTime.1 = v.expiry.date ∧ 0 ≤ v.expiryTime.2 ∧ v.expiryTime.2 ≤ 1)
    (hT₁ : Calendar.yearFraction c (md.spotDate, 0) v₁.expiryTime = .ok T₁) (hT₂ : Calendar.yearFraction c (md.spotDate, 0) v₂.expiryTime = .ok T₂)
    (hT : 0 < T₁) (hle : ¬ before v₂.expiryTime v₁.expiryTime) (hS : 0 < S) (hK : 0 < K) (kind : PutOrCall)
    (hr : match kind with | .call => r v₁.payDate ≤ r v₂.payDate | .put => r v₂.payDate ≤ r v₁.payDate) :
    ∃ p₁ p₂ x₁ x₂, SelfPricer.new [(1, euro kind v₁ id credit settle K)] md = .ok p₁ ∧ p₁.price fuel = .ok (.val x₁) ∧
      SelfPricer.new [(1, euro kind v₂ id credit settle K)] md = .ok p₂ ∧ p₂.price fuel = .ok (.val x₂) ∧ x₁ ≤ x₂ ∧ (T₁ < T₂ → x₁ < x₂) := by
  obtain ⟨a1, a2, a3, a4, a5, a6, a7⟩ := hv v₁ (by simp)
  obtain ⟨b1, b2, b3, b4, b5, b6, b7⟩ := hv v₂ (by simp)
  have hsurf : ∀ d g, md.volSurface (.equity id credit settle) d g = .ok (.flat (.val σ) c (md.spotDate, 0)) := fun d g => surface_today hvol rfl d g
  have hlater : later (0, 0) (md.spotDate, 0) = ((md.spotDate, 0) : Point) := later_self_zero _ (by unfold before; simp; omega)
  have hsq : 0 < σ ^ 2 := by positivity
  have hmono : T₁ ≤ T₂ := yf_mono hg hgw (by dsimp only; omega) a7 b6 hle hT₁ hT₂
  have q₁ : Quoted fuel md v₁ id credit settle K (σ ^ 2 * T₁) :=
    ⟨a1, a3, a4, _, hsurf _, rfl, by rw [hlater]; exact flat_forward.2 (.inl ⟨before_irrefl _, T₁, hT₁, rfl⟩)⟩
  have q₂ : Quoted fuel md v₂ id credit settle K (σ ^ 2 * T₂) :=
    ⟨b1, b3, b4, _, hsurf _, rfl, by rw [hlater]; exact flat_forward.2 (.inl ⟨before_irrefl _, T₂, hT₂, rfl⟩)⟩
  obtain ⟨p₁, p₂, x₁, x₂, h1, h2, h3, h4, h5, h6⟩ := C96_partial h q₁ q₂ a2 b2 hS hK (mul_pos hsq hT) (mul_le_mul_of_nonneg_left hmono hsq.le) kind hr
  exact ⟨p₁, p₂, x₁, x₂, h1, h2, h3, h4, h5, fun ht => h6 (.inr (mul_lt_mul_of_pos_left ht hsq).ne)⟩

/-! ## Cases -/

/-- Options at the open of a given day, settled at once. -/
noncomputable def dayTerms (n : Nat) : Vanilla := ⟨"O", "C", _root_.id, ⟨n, .open⟩, .call, .cash, (n, 0), n⟩

/-- The sample equity pays nothing. -/
theorem sample_pays_nothing (vol : VolSurface) (S : ℝ) (last : Int) :
    PaysNothing (withVol (sampleMarket S (.zero 0)) "A" vol) "A" "C" S (fun _ => 0) last :=
  ⟨rfl, ⟨_, rfl, Forward.zero_rt 0⟩, ⟨_, rfl, Forward.zero_rt 0⟩, ⟨_, rfl, by simp [Dividends.DividendStream.new, Dividends.Spec.InOrder], Forward.zero_rt 0,
    by simp [Dividends.DividendStream.new], by simp [Dividends.DividendStream.new]⟩⟩

theorem day_quoted {vol : VolSurface} (n : Nat) (hn : 0 < n) (hbase : vol.baseDate.1 = 0) (hδ : vol.displacement n = .ok (.val 0))
    (hw : vol.forwardVariance fuel (0, 0) (n, 0) (.val K) = .ok (.val w)) :
    Quoted fuel (withVol (sampleMarket S (.zero 0)) "A" vol) (dayTerms n) "A" "C" _root_.id K w := by
  refine ⟨by show (0 : Int) < n; omega, rfl, rfl, vol, surface_today rfl hbase _, hδ, ?_⟩
  rw [later_self_zero _ (by unfold before; simp [withVol, sampleMarket])]
  exact hw

/-- C96: with a flat volatility of 20 percent the call that expires on day 20 costs more than that of day 10. -/
example : ∃ p₁ p₂ x₁ x₂, SelfPricer.new [(1, euro .call (dayTerms 10) "A" "C" _root_.id 100)]
      (withVol (sampleMarket 100 (.zero 0)) "A" (.flat (.val 0.2) .everyDay (0, 0))) = .ok p₁ ∧ p₁.price fuel = .ok (.val x₁) ∧
    SelfPricer.new [(1, euro .call (dayTerms 20) "A" "C" _root_.id 100)]
      (withVol (sampleMarket 100 (.zero 0)) "A" (.flat (.val 0.2) .everyDay (0, 0))) = .ok p₂ ∧ p₂.price fuel = .ok (.val x₂) ∧ x₁ < x₂ := by
  have hq : ∀ n : Nat, 0 < n → Quoted fuel (withVol (sampleMarket 100 (.zero 0)) "A" (.flat (.val 0.2) .everyDay (0, 0))) (dayTerms n) "A" "C" _root_.id 100
      (0.2 ^ 2 * (n / 365)) := by
    intro n hn
    refine day_quoted n hn rfl rfl (flat_forward.2 (.inl ⟨before_irrefl _, _, everyDay_year n, rfl⟩))
  obtain ⟨p₁, p₂, x₁, x₂, h1, h2, h3, h4, h5, h6⟩ := C96_partial (last := 20) (sample_pays_nothing _ 100 20) (hq 10 (by norm_num)) (hq 20 (by norm_num))
    (by show ((10 : Nat) : Int) ≤ 20; norm_num) (by show ((20 : Nat) : Int) ≤ 20; norm_num) (by norm_num) (by norm_num) (by norm_num) (by norm_num) .call le_rfl
  exact ⟨p₁, p₂, x₁, x₂, h1, h2, h3, h4, h6 (.inr (by norm_num))⟩

/-- C96, flat: the hypotheses are met by puts on days 10 and 20. -/
example : ∃ p₁ p₂ x₁ x₂, SelfPricer.new [(1, euro .put (dayTerms 10) "A" "C" _root_.id 90)]
      (withVol (sampleMarket 100 (.zero 0)) "A" (.flat (.val 0.2) .everyDay (0, 0))) = .ok p₁ ∧ p₁.price fuel = .ok (.val x₁) ∧
    SelfPricer.new [(1, euro .put (dayTerms 20) "A" "C" _root_.id 90)]
      (withVol (sampleMarket 100 (.zero 0)) "A" (.flat (.val 0.2) .everyDay (0, 0))) = .ok p₂ ∧ p₂.price fuel = .ok (.val x₂) ∧ x₁ < x₂ := by
  obtain ⟨p₁, p₂, x₁, x₂, h1, h2, h3, h4, _, h6⟩ := C96_flat (fuel := fuel) (c := .everyDay) (K := 90) (v₁ := dayTerms 10) (v₂ := dayTerms 20) (settle := _root_.id)
    (sample_pays_nothing _ 100 20) rfl le_rfl (by norm_num : (0.2 : ℝ) ≠ 0) trivial trivial (by
      intro v hv
      simp only [List.mem_cons, List.not_mem_nil, or_false] at hv
      rcases hv with rfl | rfl
      · exact ⟨by show (0 : Int) < 10; norm_num, by show (10 : Int) ≤ 20; norm_num, rfl, rfl, rfl, le_rfl, zero_le_one⟩
      · exact ⟨by show (0 : Int) < 20; norm_num, by show (20 : Int) ≤ 20; norm_num, rfl, rfl, rfl, le_rfl, zero_le_one⟩)
    (everyDay_year 10) (everyDay_year 20) (by norm_num) (by unfold before dayTerms; norm_num) (by norm_num) (by norm_num) .put le_rfl
  exact ⟨p₁, p₂, x₁, x₂, h1, h2, h3, h4, h6 (by norm_num)⟩

/-- C96 violated: a surface with a smile of 30 percent at 90, 25 percent at 100 and 20 percent at 110 on day 100 and 25 percent flat on day 120 is
accepted. There are no rates, dividends or borrow, but of the calls at 90 the one that expires on day 120 costs less than the one of day 100. -/
theorem C96_false : ∃ smile s p₁ p₂ x₁ x₂, Smile.newCubicSpline (Interp.Spec.plain [(90, 0.3), (100, 0.25), (110, 0.2)]) = .ok smile ∧
    VolSurface.newByProbability ⟨[((100, 0), smile), ((120, 0), .flat (.val 0.25))], .everyDay, (0, 0),
      ⟨.flat, .flat, [(.val ((0 : Int) : ℝ), 100)]⟩, ⟨.flat, .flat, [(.val ((0 : Int) : ℝ), 0)]⟩, .noCashDivs⟩ = .ok s ∧
    SelfPricer.new [(1, euro .call (dayTerms 100) "A" "C" _root_.id 90)] (withVol (sampleMarket 100 (.zero 0)) "A" s) = .ok p₁ ∧ p₁.price fuel = .ok (.val x₁) ∧
    SelfPricer.new [(1, euro .call (dayTerms 120) "A" "C" _root_.id 90)] (withVol (sampleMarket 100 (.zero 0)) "A" s) = .ok p₂ ∧ p₂.price fuel = .ok (.val x₂) ∧
    0 < x₂ ∧ x₂ < x₁ := by
  obtain ⟨smile, s, h1, h2, x, y, h3, h4, h0, h5⟩ := C31_falls_false fuel
  have hb : s.baseDate = (0, 0) := by
    obtain ⟨ps, _, rfl⟩ := new_ok h2
    rfl
  have hδ : ∀ d, s.displacement d = .ok (.val 0) := by
    intro d
    obtain ⟨ps, _, rfl⟩ := new_ok h2
    rfl
  have hv : ∀ (n : Nat) {z : ℝ}, s.variance fuel (n, 0) (.val 90) = .ok (.val z) → s.forwardVariance fuel (0, 0) (n, 0) (.val 90) = .ok (.val z) := by
    intro n z h
    unfold VolSurface.forwardVariance VolSurface.forwardVariances
    rw [if_pos (by rw [hb]; exact before_irrefl _)]
    exact h
  have hq₁ := day_quoted (fuel := fuel) (S := 100) 100 (by norm_num) (by rw [hb]) (hδ _) (hv 100 h3)
  have hq₂ := day_quoted (fuel := fuel) (S := 100) 120 (by norm_num) (by rw [hb]) (hδ _) (hv 120 h4)
  obtain ⟨p₁, k1, k2⟩ := value_new (pays_nothing_value (sample_pays_nothing s 100 120) hq₁ (by show ((100 : Nat) : Int) ≤ 120; norm_num) (by norm_num)
    (by norm_num) (h0.trans h5) 1 .call)
  obtain ⟨p₂, k3, k4⟩ := value_new (pays_nothing_value (sample_pays_nothing s 100 120) hq₂ (by show ((120 : Nat) : Int) ≤ 120; norm_num) (by norm_num)
    (by norm_num) h0 1 .call)
  rw [sub_self, Real.exp_zero, mul_one, one_mul] at k2 k4
  refine ⟨smile, s, p₁, p₂, _, _, h1, h2, k1, k2, k3, k4, ?_, ?_⟩
  · exact lt_of_lt_of_le (by norm_num : (0 : ℝ) < 100 - 90) (black_lower (by norm_num) (by norm_num) (Real.sqrt_pos.2 h0))
  · exact black_strictMono (by norm_num) (by norm_num) (Real.sqrt_pos.2 h0) (Real.sqrt_pos.2 (h0.trans h5)) (Real.sqrt_lt_sqrt h0.le h5)

end QM.Risk
