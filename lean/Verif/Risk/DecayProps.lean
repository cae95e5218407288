import Verif.Risk.CalendarProps
import Verif.Risk.ReportProps

/-!
# Property C97: options lose value as time passes
-/

namespace QM.Risk.Spec
open QM.Interp QM.Curves QM.Vol QM.Calendar QM.Instruments QM.Instruments.Spec QM.Market QM.Market.Spec

/-- An option and a later date before its expiry: the surface is one of the spot date, the volatility at the strike `K` until expiry is `σ` over a time `T`, of
which `o` passes until the date `d`. -/
structure Ageing (fuel : Nat) (md : MarketData) (v : Vanilla) (id : String) (settle : Int → Int) (d : Int) (K σ T o : ℝ) : Prop where
  today : 0 ≤ md.spotDate
  later : md.spotDate < d
  ahead : d < v.expiry.date
  pays : v.payDate = settle v.expiry.date
  settles : v.settlement = settle
  surface : ∃ vol, md.volSurfaces.get id = some vol ∧ vol.baseDate = (md.spotDate, 0) ∧ vol.displacement v.expiry.date = .ok (.val 0) ∧
    vol.volatilities fuel v.expiryTime [.val K] = .ok (T, [.val σ]) ∧ yearFraction vol.calendar vol.baseDate (d, 0) = .ok o
  passes : 1 / 10 ^ 12 ≤ o
  remains : o < T

end QM.Risk.Spec

namespace QM.Risk
open QM.Interp QM.Curves QM.Vol QM.Fixings QM.Instruments QM.Instruments.Spec QM.Market QM.Market.Spec QM.Risk.Spec

variable {fuel : Nat} {md : MarketData} {v : Vanilla} {id credit : String} {settle : Int → Int} {K S σ T o : ℝ} {r : Int → ℝ} {last d : Int}

/-- A roll over no fixings is reported as the difference between the prices in two markets. -/
theorem roll_quiet {instruments : List (ℝ × Instrument)} {md md' : MarketData} {b : BumpSpotDate} {p : SelfPricer} {y u : Num ℝ}
    (hp : SelfPricer.new instruments md = .ok p) (hne : b.spotDate ≠ md.spotDate)
    (hn : ∀ id l, (collect md.spotDate instruments).fixings.get id = some l → ∀ e ∈ l, ¬ (md.spotDate ≤ e.date ∧ e.date < b.spotDate))
    (hb : md.bumpSpotDate b (collect md.spotDate instruments) = (.ok (), md')) (hv : value fuel instruments md' = .ok y) :
    generate (selfPricer fuel) (.timeBumped ⟨b⟩ []) p .new u = (.ok (.timeBumped y (num2 (· - ·) y u) []), p, .new) := by
  obtain ⟨q, q1, q2⟩ := value_new hv
  obtain ⟨e1, e2⟩ := new_self hp
  obtain ⟨e3, e4⟩ := new_context e2
  obtain ⟨f1, f2⟩ := new_self q1
  have hnew := new_rest (rest_collect md'.spotDate md.spotDate instruments) f2
  have hup : updateInstruments b p.instruments p.context.pricingContext p.context.dependencies = .ok (false, instruments) := by
    rw [e1, e4]
    exact update_none (fun id l hl e he => by
      have := hn id l hl e he
      show ¬ (p.context.context.spotDate ≤ _ ∧ _)
      rw [e3]
      exact this)
  have hbump := bump_date_of (p := p.context) (b := b) (md := md') (by rw [e3]; exact hne) (by rw [e3, e4]; exact hb) (by rw [e4]; exact hnew) none
  have ht : p.bumpTime ⟨b⟩ = (.ok (), ⟨instruments, { q.context with dependencies := collect md.spotDate instruments }⟩) := by
    unfold SelfPricer.bumpTime
    dsimp only
    rw [hup]
    dsimp only
    rw [hbump]
    rfl
  obtain ⟨modified, held, md'', g1, g2, g3, g4, g5⟩ := moved_price (fuel := fuel) hp ht
  rw [if_neg hne, hb] at g2
  injection g2 with _ g2
  subst g2
  dsimp only at g3
  subst g3
  rw [hv] at g5
  unfold generate
  have ht' : (selfPricer fuel).bumpTime ⟨b⟩ p = (.ok (), ⟨instruments, { q.context with dependencies := collect md.spotDate instruments }⟩) := ht
  have g5' : (selfPricer fuel).price ⟨instruments, { q.context with dependencies := collect md.spotDate instruments }⟩ = .ok y := g5
  rw [ht']
  dsimp only
  rw [g5']
  dsimp only
  unfold generateAll
  rfl

/-- The only fixing of an option is that at its expiry. -/
theorem option_fixings (n : ℝ) (kind : PutOrCall) (sd : Int) {k : String} {l : List DateTime}
    (h : (collect sd [(n, euro kind v id credit settle K)]).fixings.get k = some l) : ∀ e ∈ l, e.date = v.expiry.date := by
  have hf : (collect sd [(n, euro kind v id credit settle K)]).fixings = ⟨[(id, [v.expiry])]⟩ := by
    simp [collect, euro, Collector.spot, Instrument.dependencies, finishVanilla, startVanilla, Collector.new, Collector.noteSpot, Collector.noteForward,
      Collector.volSurface, Collector.addInstrument, Collector.yieldCurve, Collector.fixing, Collector.setHwm, Map.get, Map.insert, Map.empty, Instrument.id]
  rw [hf] at h
  intro e he
  by_cases hk : k = id
  · subst hk
    simp [Map.get] at h
    subst h
    simp at he
    rw [he]
  · simp [Map.get, Ne.symm hk] at h

/-- The terms today. -/
theorem ageing_quoted (h : Ageing fuel md v id settle d K σ T o) (credit : String) : Quoted fuel md v id credit settle K (T * σ * σ) := by
  obtain ⟨vol, h1, h2, h3, h4, h5⟩ := h.surface
  refine ⟨h.later.trans h.ahead, h.pays, by rw [h.settles], vol, surface_today h1 (by rw [h2]) _, h3, plain_variance ?_ h4⟩
  rw [later_self_zero _ (by have := h.today; unfold before; simp; omega), h2]
  exact before_irrefl _

/-- The terms when the date has come, in a market that has the same surface. -/
theorem ageing_quoted_later {md' : MarketData} (h : Ageing fuel md v id settle d K σ T o) (credit : String) (hd : md'.spotDate = d)
    (hs : md'.volSurfaces = md.volSurfaces) : Quoted fuel md' v id credit settle K ((T - o) * σ * σ) := by
  obtain ⟨vol, h1, h2, h3, h4, h5⟩ := h.surface
  have hpos : (0 : ℝ) < o := lt_of_lt_of_le (by norm_num) h.passes
  have hlate : later (0, 0) (d, 0) = ((d, 0) : Point) := later_self_zero _ (by have := h.today; have := h.later; unfold before; simp; omega)
  refine ⟨by rw [hd]; exact h.ahead, h.pays, by rw [h.settles], .constantExpiry vol o (d, 0), ?_, h3, ?_⟩
  · intro g
    unfold MarketData.volSurface find
    rw [show (Instrument.equity id credit settle).id = id from rfl, hs, h1]
    dsimp only
    rw [ok_bind]
    unfold VolTimeDynamics.modify
    rw [if_neg (by rw [h2, hd]; have := h.later; dsimp only; omega), hd]
    dsimp only
    rw [h5, ok_bind, if_neg (by rw [sub_zero, abs_of_pos hpos]; exact not_lt.2 h.passes)]
    rfl
  · rw [hd, hlate]
    refine plain_variance (before_irrefl _) ?_
    unfold VolSurface.volatilities
    rw [h4, ok_bind]
    dsimp only
    rw [max_eq_left (by have := h.remains; linarith)]
    rfl

/-- C97 with the spot held. A call on an equity that pays nothing loses value as the spot date is rolled towards its expiry, if rates are not negative
until the date, and a put if they are not positive: the theta reported for any amount of the option is that amount times a number below zero. Missing are
rates of the other sign, surfaces of another date than the spot date, and dates until which the calendar of the surface counts no time, for which see
`C97_weekend_false`. -/
theorem C97_spot_partial (h : PaysNothing md id credit S r last) (a : Ageing fuel md v id settle d K σ T o) (hlast : v.expiry.date ≤ last) (hS : 0 < S) (hK : 0 < K)
    (hσ : σ ≠ 0) (kind : PutOrCall)
    (hr : match kind with | .call => r (settle md.spotDate) ≤ r (settle d) | .put => r (settle d) ≤ r (settle md.spotDate)) :
    ∃ x t : ℝ, 0 < x ∧ -x < t ∧ t < 0 ∧ ∀ n, ∃ p, SelfPricer.new [(n, euro kind v id credit settle K)] md = .ok p ∧ p.price fuel = .ok (.val (n * x)) ∧
      generate (selfPricer fuel) (.timeBumped ⟨⟨d, .stickySpot⟩⟩ []) p .new (.val (n * x)) =
        (.ok (.timeBumped (.val (n * (x + t))) (.val (n * t)) []), p, .new) := by
  have hpos : (0 : ℝ) < o := lt_of_lt_of_le (by norm_num) a.passes
  have hsq : 0 < σ * σ := mul_self_pos.2 hσ
  have hw' : 0 < (T - o) * σ * σ := by rw [mul_assoc]; exact mul_pos (by have := a.remains; linarith) hsq
  have hww : (T - o) * σ * σ < T * σ * σ := by rw [mul_assoc, mul_assoc]; exact mul_lt_mul_of_pos_right (by linarith) hsq
  have hw := hw'.trans hww
  have h' : PaysNothing { md with spotDate := d } id credit S r last := by
    obtain ⟨e1, e2, e3, ds, e4, e5, e6, e7, e8⟩ := h
    exact ⟨e1, e2, e3, ds, e4, e5, e6, fun e he => by have := e7 e he; have := a.later; dsimp only; omega, e8⟩
  have v0 := fun n => pays_nothing_value h (ageing_quoted a credit) hlast hS hK hw n kind
  have v1 := fun n => pays_nothing_value h' (ageing_quoted_later a (md' := { md with spotDate := d }) credit rfl rfl) hlast hS hK hw' n kind
  dsimp only at v1
  set D := K * Real.exp (r (settle md.spotDate) - r v.payDate) with hD
  set D' := K * Real.exp (r (settle d) - r v.payDate) with hD'
  have k1 : 0 < D := mul_pos hK (Real.exp_pos _)
  have k2 : 0 < D' := mul_pos hK (Real.exp_pos _)
  have hs' := Real.sqrt_pos.2 hw'
  have hs := Real.sqrt_pos.2 hw
  have hss := Real.sqrt_lt_sqrt hw'.le hww
  have hlt : blackValue kind S D' (Real.sqrt ((T - o) * σ * σ)) < blackValue kind S D (Real.sqrt (T * σ * σ)) := by
    cases kind
    · show black D' S _ < black D S _
      have hle : D' ≤ D := mul_le_mul_of_nonneg_left (Real.exp_le_exp.2 (by have : r (settle d) ≤ r (settle md.spotDate) := hr; linarith)) hK.le
      refine lt_of_lt_of_le (black_strictMono k2 hS hs' hs hss) ?_
      rcases hle.eq_or_lt with he | he
      · rw [he]
      · exact (black_forward_lt hS hs k2 he).le
    · show black S D' _ < black S D _
      have hle : D ≤ D' := mul_le_mul_of_nonneg_left (Real.exp_le_exp.2 (by have : r (settle md.spotDate) ≤ r (settle d) := hr; linarith)) hK.le
      refine lt_of_lt_of_le (black_strictMono hS k2 hs' hs hss) ?_
      rcases hle.eq_or_lt with he | he
      · rw [he]
      · exact (black_strike_lt hS hs k1 he).le
  have hp' : 0 < blackValue kind S D' (Real.sqrt ((T - o) * σ * σ)) := by
    cases kind
    · exact black_pos k2 hS hs'
    · exact black_pos hS k2 hs'
  refine ⟨_, blackValue kind S D' (Real.sqrt ((T - o) * σ * σ)) - blackValue kind S D (Real.sqrt (T * σ * σ)), hp'.trans hlt, by linarith, by linarith, ?_⟩
  intro n
  obtain ⟨p, p1, p2⟩ := value_new (v0 n)
  refine ⟨p, p1, p2, ?_⟩
  have hroll := roll_quiet (fuel := fuel) (b := ⟨d, .stickySpot⟩) (u := .val (n * blackValue kind S D (Real.sqrt (T * σ * σ)))) p1 (by have := a.later; dsimp only; omega)
    (fun k l hl e he => by
      have := option_fixings n kind _ hl e he
      have := a.ahead
      dsimp only
      omega) rfl (v1 n)
  rw [hroll]
  unfold num2
  dsimp only
  congr 5 <;> ring_nf

/-- C97 with the spot moved along its forward, whatever the rates: the option grows by less than the interest on its price. -/
theorem C97_forward_partial (h : PaysNothing md id credit S r last) (hd : Distinct md.spots) (a : Ageing fuel md v id settle d K σ T o)
    (hlast : v.expiry.date ≤ last) (hS : 0 < S) (hK : 0 < K) (hσ : σ ≠ 0) (kind : PutOrCall) :
    ∃ x y : ℝ, 0 < y ∧ y < x * Real.exp (r (settle d) - r (settle md.spotDate)) ∧
      ∀ n, ∃ p, SelfPricer.new [(n, euro kind v id credit settle K)] md = .ok p ∧ p.price fuel = .ok (.val (n * x)) ∧
        generate (selfPricer fuel) (.timeBumped ⟨⟨d, .stickyForward⟩⟩ []) p .new (.val (n * x)) =
          (.ok (.timeBumped (.val (n * y)) (.val (n * (y - x))) []), p, .new) := by
  have hpos : (0 : ℝ) < o := lt_of_lt_of_le (by norm_num) a.passes
  have hsq : 0 < σ * σ := mul_self_pos.2 hσ
  have hw' : 0 < (T - o) * σ * σ := by rw [mul_assoc]; exact mul_pos (by have := a.remains; linarith) hsq
  have hww : (T - o) * σ * σ < T * σ * σ := by rw [mul_assoc, mul_assoc]; exact mul_lt_mul_of_pos_right (by linarith) hsq
  have hw := hw'.trans hww
  have ha := a.ahead
  have hl := a.later
  set g := Real.exp (r (settle d) - r (settle md.spotDate)) with hg
  have hg0 : 0 < g := Real.exp_pos _
  obtain ⟨f, f1, f2⟩ := pays_nothing_forward h settle d
  have f3 := f2 d hl.le le_rfl (by omega)
  have hmove : ∀ n k s, movedSpot md d (collect md.spotDate [(n, euro kind v id credit settle K)]) k s = .ok (if k = id then S * g else s) := by
    intro n k s
    unfold movedSpot
    rw [(collect_option n kind md.spotDate).2.2]
    by_cases hk : k = id
    · rw [hk, if_pos rfl, show (Map.get ⟨[(id, Instrument.equity id credit settle)]⟩ id : Option Instrument) = some (.equity id credit settle) by simp [Map.get]]
      dsimp only
      rw [f1, ok_bind, f3]
    · rw [if_neg hk, show (Map.get ⟨[(id, Instrument.equity id credit settle)]⟩ k : Option Instrument) = none by simp [Map.get, Ne.symm hk]]
  have hloop : ∀ n, ∃ m, stickyLoop md d (collect md.spotDate [(n, euro kind v id credit settle K)]) md.spots.entries .empty = .ok m ∧ m.get id = some (S * g) := by
    intro n
    obtain ⟨m, hm⟩ := stickyLoop_succeeds (md := md) (d := d) (c := collect md.spotDate [(n, euro kind v id credit settle K)]) md.spots.entries .empty
      (fun e _ => ⟨_, hmove n e.1 e.2⟩)
    refine ⟨m, hm, ?_⟩
    obtain ⟨y, y1, y2⟩ := (stickyLoop_ok md.spots.entries hd hm).1 (id, S) ((get_mem hd _ _).1 h.spot)
    rw [hmove, if_pos rfl] at y1
    injection y1 with y1
    rw [y2, y1]
  have v0 := fun n => pays_nothing_value h (ageing_quoted a credit) hlast hS hK hw n kind
  set D := K * Real.exp (r (settle md.spotDate) - r v.payDate) with hD
  have k1 : 0 < D := mul_pos hK (Real.exp_pos _)
  have hs' := Real.sqrt_pos.2 hw'
  have hs := Real.sqrt_pos.2 hw
  have hss := Real.sqrt_lt_sqrt hw'.le hww
  have hD' : K * Real.exp (r (settle d) - r v.payDate) = g * D := by
    rw [hD, hg, mul_left_comm, ← Real.exp_add]
    ring_nf
  have v1 : ∀ n m, m.get id = some (S * g) → value fuel [(n, euro kind v id credit settle K)] { md with spots := m, spotDate := d } =
      .ok (.val (n * (g * blackValue kind S D (Real.sqrt ((T - o) * σ * σ))))) := by
    intro n m hm
    have h' : PaysNothing { md with spots := m, spotDate := d } id credit (S * g) r last := by
      obtain ⟨e1, e2, e3, ds, e4, e5, e6, e7, e8⟩ := h
      exact ⟨hm, e2, e3, ds, e4, e5, e6, fun e he => by have := e7 e he; dsimp only; omega, e8⟩
    have := pays_nothing_value h' (ageing_quoted_later a (md' := { md with spots := m, spotDate := d }) credit rfl rfl) hlast (mul_pos hS hg0) hK hw' n kind
    dsimp only at this
    rw [this, hD', mul_comm S]
    cases kind
    · show Except.ok (Num.val (n * black (g * D) (g * S) _)) = Except.ok (Num.val (n * (g * black D S _)))
      rw [black_scale hg0]
    · show Except.ok (Num.val (n * black (g * S) (g * D) _)) = Except.ok (Num.val (n * (g * black S D _)))
      rw [black_scale hg0]
  have hlt : 0 < blackValue kind S D (Real.sqrt ((T - o) * σ * σ)) ∧
      blackValue kind S D (Real.sqrt ((T - o) * σ * σ)) < blackValue kind S D (Real.sqrt (T * σ * σ)) := by
    cases kind
    · exact ⟨black_pos k1 hS hs', black_strictMono k1 hS hs' hs hss⟩
    · exact ⟨black_pos hS k1 hs', black_strictMono hS k1 hs' hs hss⟩
  refine ⟨_, g * blackValue kind S D (Real.sqrt ((T - o) * σ * σ)), mul_pos hg0 hlt.1, by rw [mul_comm _ g]; exact mul_lt_mul_of_pos_left hlt.2 hg0, ?_⟩
  intro n
  obtain ⟨p, p1, p2⟩ := value_new (v0 n)
  refine ⟨p, p1, p2, ?_⟩
  obtain ⟨m, m1, m2⟩ := hloop n
  have hroll := roll_quiet (fuel := fuel) (b := ⟨d, .stickyForward⟩) (md' := { md with spots := m, spotDate := d })
    (u := .val (n * blackValue kind S D (Real.sqrt (T * σ * σ)))) p1 (by dsimp only; omega)
    (fun k l hl e he => by
      have := option_fixings n kind _ hl e he
      dsimp only
      omega) (by unfold MarketData.bumpSpotDate; dsimp only; rw [m1]) (v1 n m m2)
  rw [hroll]
  unfold num2
  dsimp only
  congr 5
  ring

/-! ## Cases -/

theorem day_ageing (n m : Nat) (hm : 0 < m) (hmn : m < n) (K S : ℝ) {σ : ℝ} :
    Ageing fuel (withVol (sampleMarket S (.zero 0)) "A" (.flat (.val σ) .everyDay (0, 0))) (dayTerms n) "A" _root_.id m K σ (n / 365) (m / 365) := by
  refine ⟨le_rfl, by show (0 : Int) < m; omega, by show (m : Int) < n; omega, rfl, rfl, ⟨_, rfl, rfl, rfl, ?_, everyDay_year m⟩, ?_, ?_⟩
  · unfold VolSurface.volatilities
    rw [show Calendar.yearFraction .everyDay (0, 0) (dayTerms n).expiryTime = .ok ((n : ℝ) / 365) from everyDay_year n, ok_bind]
    rfl
  · have : (1 : ℝ) ≤ m := by exact_mod_cast hm
    rw [div_le_div_iff₀ (by norm_num) (by norm_num)]
    linarith
  · have : (m : ℝ) < n := by exact_mod_cast hmn
    exact div_lt_div_of_pos_right this (by norm_num)

/-- C97: the put at 90 that expires on day 20 has a negative theta over the first day, and so has the call moved along the forward. -/
example : ∃ x t : ℝ, 0 < x ∧ -x < t ∧ t < 0 ∧ ∀ n, ∃ p, SelfPricer.new [(n, euro .put (dayTerms 20) "A" "C" _root_.id 90)]
      (withVol (sampleMarket 100 (.zero 0)) "A" (.flat (.val 0.2) .everyDay (0, 0))) = .ok p ∧ p.price fuel = .ok (.val (n * x)) ∧
    generate (selfPricer fuel) (.timeBumped ⟨⟨((1 : Nat) : Int), .stickySpot⟩⟩ []) p .new (.val (n * x)) =
      (.ok (.timeBumped (.val (n * (x + t))) (.val (n * t)) []), p, .new) :=
  C97_spot_partial (last := 20) (sample_pays_nothing _ 100 20) (day_ageing 20 1 (by norm_num) (by norm_num) 90 100) le_rfl (by norm_num) (by norm_num)
    (by norm_num) .put le_rfl

example : ∃ x y : ℝ, 0 < y ∧ y < x ∧ ∀ n, ∃ p, SelfPricer.new [(n, euro .call (dayTerms 20) "A" "C" _root_.id 90)]
      (withVol (sampleMarket 100 (.zero 0)) "A" (.flat (.val 0.2) .everyDay (0, 0))) = .ok p ∧ p.price fuel = .ok (.val (n * x)) ∧
    generate (selfPricer fuel) (.timeBumped ⟨⟨((1 : Nat) : Int), .stickyForward⟩⟩ []) p .new (.val (n * x)) =
      (.ok (.timeBumped (.val (n * y)) (.val (n * (y - x))) []), p, .new) := by
  have := C97_forward_partial (fuel := fuel) (last := 20) (sample_pays_nothing (.flat (.val 0.2) .everyDay (0, 0)) 100 20) (by simp [Distinct, withVol, sampleMarket])
    (day_ageing 20 1 (by norm_num) (by norm_num) 90 100) le_rfl (by norm_num) (by norm_num) (by norm_num) .call
  simpa using this

/-! ## A weekend -/

theorem weekend_counts : Calendar.countBusinessDays (.weekday : Calendar.Cal ℝ) 9 0 9 0 = .ok 0 ∧
    Calendar.countBusinessDays (.weekday : Calendar.Cal ℝ) 9 0 10 0 = .ok 0 ∧
    Calendar.countBusinessDays (.weekday : Calendar.Cal ℝ) 9 0 25 0 = .ok 10 ∧
    Calendar.countBusinessDays (.weekday : Calendar.Cal ℝ) 10 0 25 0 = .ok 10 := by
  have h1 : Calendar.slipToNextWeekday 9 true = .ok 11 := by decide +kernel
  have h2 : Calendar.slipToNextWeekday 10 true = .ok 11 := by decide +kernel
  have h3 : Calendar.slipToNextWeekday 9 false = .ok 8 := by decide +kernel
  have h4 : Calendar.slipToNextWeekday 10 false = .ok 8 := by decide +kernel
  have h5 : Calendar.slipToNextWeekday 25 false = .ok 25 := by decide +kernel
  have h6 : Dates.dayOfWeek 25 = .ok 0 := by decide +kernel
  have h7 : Dates.dayOfWeek 11 = .ok 0 := by decide +kernel
  have h8 : Dates.dayOfWeek 9 = .ok 5 := by decide +kernel
  have h9 : Dates.dayOfWeek 10 = .ok 6 := by decide +kernel
  refine ⟨?_, ?_, ?_, ?_⟩ <;> unfold Calendar.countBusinessDays Calendar.countWeekday <;> simp only [h1, h2, h3, h4, h5, h6, h7, h8, h9, ok_bind] <;>
    norm_num [show Int.tdiv 14 7 = 2 from rfl] <;> rfl

/-- A surface of a Saturday on the calendar of weekdays: 20 percent for every expiry and strike. -/
noncomputable def weekendInput : Input :=
  ⟨[((9, 0), .flat (.val 0.2))], .weekday, (9, 0), ⟨.flat, .flat, [(.val ((0 : Int) : ℝ), 100)]⟩,
    ⟨.flat, .flat, [(.val ((0 : Int) : ℝ), 0)]⟩, .noCashDivs⟩

/-- The sample market on another date. -/
noncomputable def marketOf (date : Int) (vol : VolSurface) : MarketData := { withVol (sampleMarket 100 (.zero 0)) "A" vol with spotDate := date }

theorem weekend_year {d : Int} {n : ℝ} (h : Calendar.countBusinessDays (.weekday : Calendar.Cal ℝ) 9 0 d 0 = .ok n) :
    Calendar.yearFraction (.weekday : Calendar.Cal ℝ) (9, 0) (d, 0) = .ok (n / 252) := by
  unfold Calendar.yearFraction
  dsimp only
  rw [h, ok_bind]
  rfl

theorem weekend_new : ∃ p, VolSurface.newByProbability weekendInput = .ok (.byProbability weekendInput [p]) := by
  have y := weekend_year weekend_counts.1
  refine ⟨⟨.val 100, nsqrt (num2 (· * ·) (num2 (· * ·) (.val (0 / 252)) (.val 0.2)) (.val 0.2)), 0 / 252⟩, ?_⟩
  unfold VolSurface.newByProbability
  simp only [weekendInput, buildPillars, constant_forward, Smile.volatility, Bind.bind, Except.bind, y]
  have : ¬ nlt (num2 (· * ·) (num2 (· * ·) (.val (0 / 252)) (.val 0.2)) (.val 0.2)) (.val 0) := by
    simp [num2, nlt]
  simp only [this, if_false]
  rfl

theorem weekend_variances (p : Pillar) {d : Int} (hd : 9 < d) {n : ℝ} (h : Calendar.countBusinessDays (.weekday : Calendar.Cal ℝ) 9 0 d 0 = .ok n) (k : Num ℝ) :
    (VolSurface.byProbability weekendInput [p]).variances fuel (d, 0) [k] = .ok [.val (n / 252 * 0.2 * 0.2)] := by
  unfold VolSurface.variances VolSurface.volatilities byProbabilityVolatilities
  have : searchSmile weekendInput.smiles (d, (0 : ℝ)) = (1, false) :=
    searchSmile_end (by
      intro q hq
      simp only [weekendInput, List.mem_singleton] at hq
      subst hq
      left
      exact hd)
  simp only [this]
  simp only [weekendInput, List.length_cons, List.length_nil, extrapolate, weekend_year h, constant_forward,
    Bind.bind, Except.bind, each, Smile.volatility, List.map_cons, List.map_nil, pure, Except.pure, num2]
  norm_num

/-- C97 violated: with the calendar of weekdays no volatility time passes from a Saturday to the Sunday after it. A put at 90 on an equity at 100 that
expires two weeks later is worth something on the Saturday. Rolled to the Sunday it has lost all of its value, though the date is the only thing that has
changed and all of its volatility is still to come. -/
theorem C97_weekend_false : ∃ s p x, VolSurface.newByProbability weekendInput = .ok s ∧ 0 < x ∧
    SelfPricer.new [(1, euro .put (dayTerms 25) "A" "C" _root_.id 90)] (marketOf 9 s) = .ok p ∧
    p.price fuel = .ok (.val x) ∧ Calendar.yearFraction weekendInput.calendar (9, 0) (10, 0) = .ok 0 ∧
    generate (selfPricer fuel) (.timeBumped ⟨⟨10, .stickySpot⟩⟩ []) p .new (.val x) = (.ok (.timeBumped (.val 0) (.val (-x)) []), p, .new) := by
  obtain ⟨c0, c1, c2, c3⟩ := weekend_counts
  obtain ⟨pl, hs⟩ := weekend_new
  set s := VolSurface.byProbability weekendInput [pl] with hsdef
  have hpay : ∀ sd : Int, PaysNothing (marketOf sd s) "A" "C" 100 (fun _ => 0) 25 := by
    intro sd
    obtain ⟨e1, e2, e3, ds, e4, e5, e6, e7, e8⟩ := sample_pays_nothing s 100 25
    cases e4
    exact ⟨e1, e2, e3, _, rfl, e5, e6, by simp [Dividends.DividendStream.new], e8⟩
  have v25 : ∀ k, s.variances fuel (25, 0) [k] = .ok [.val (10 / 252 * 0.2 * 0.2)] := fun k => weekend_variances (fuel := fuel) pl (show (9 : Int) < 25 by norm_num) c2 k
  have v10 : ∀ k, s.variances fuel (10, 0) [k] = .ok [.val (0 / 252 * 0.2 * 0.2)] := fun k => weekend_variances (fuel := fuel) pl (show (9 : Int) < 10 by norm_num) c1 k
  have q0 : Quoted fuel (marketOf 9 s) (dayTerms 25) "A" "C" _root_.id 90 (10 / 252 * 0.2 * 0.2) := by
    refine ⟨by show (9 : Int) < 25; norm_num, rfl, rfl, s, surface_today rfl rfl _, rfl, ?_⟩
    rw [later_self_zero _ (by unfold before; simp [marketOf])]
    show s.forwardVariance fuel (9, 0) (25, 0) (.val 90) = _
    unfold VolSurface.forwardVariance VolSurface.forwardVariances
    rw [if_pos (by exact before_irrefl _)]
    show (do let v ← s.variances fuel (25, 0) _; Vol.first v) = _
    rw [v25]
    rfl
  have hx0 := pays_nothing_value (hpay 9) q0 le_rfl (by norm_num) (by norm_num) (by norm_num) 1 .put
  have hfw : s.forward = some (fun _ => .ok (.val 100)) := by
    show some (atDate weekendInput.forward) = _
    congr 1
    funext d
    exact constant_forward 0 d 100
  have hsd : s.findSmileDate fuel (10, 0) (25, 0) = .ok (25, 0) := by
    unfold VolSurface.findSmileDate
    rw [show s.calendar = .weekday from rfl, show s.baseDate = (9, 0) from rfl]
    dsimp only
    rw [c3, ok_bind]
    have hr : Calendar.stepPartial fuel (.weekday : Calendar.Cal ℝ) 9 10 true = some (.ok 25) := by
      unfold Calendar.stepPartial
      rw [show (10 : ℝ) = ((10 : Int) : ℝ) by norm_num, Calendar.round_int]
      congr 1
    rw [hr]
    rfl
  have hfv : s.forwardVariance fuel (10, 0) (25, 0) (.val 90) = .ok (.val 0) := by
    unfold VolSurface.forwardVariance VolSurface.forwardVariances
    have hb : before s.baseDate (10, 0) := by
      left
      show (9 : Int) < 10
      norm_num
    have e (x : ℝ) : num2 (· - ·) (.val x) (.val x) = .val 0 := by simp [num2]
    have e' : num2 (· + ·) (.val 0) (.val 0) = .val 0 := by simp [num2]
    have hn : ¬ nlt (.val (0 : ℝ)) (.val 0) := by simp [nlt]
    have hn' : nonNegative (.val 0) = .ok (.val 0) := if_neg hn
    rw [hfw]
    simp only [hb, not_true_eq_false, if_false, VolSurface.variance, v10, Bind.bind, Except.bind, Vol.first]
    rw [e, if_neg hn]
    simp only [hsd, v25, each, Bind.bind, Except.bind]
    rw [e, e', hn']
    rfl
  have hsurf : ∀ g, (marketOf 10 s).volSurface (.equity "A" "C" _root_.id) 25 g = .ok s := by
    intro g
    have hm : VolTimeDynamics.constantExpiry.modify s 10 = .ok s := by
      unfold VolTimeDynamics.modify
      rw [if_neg (by show ¬ ((10 : Int) = 9); norm_num)]
      dsimp only
      rw [show s.calendar = .weekday from rfl, show s.baseDate = (9, 0) from rfl, weekend_year c1, ok_bind, if_pos (by norm_num)]
      rfl
    show (do let vol ← VolTimeDynamics.constantExpiry.modify s 10; VolForwardDynamics.stickyStrike.modify vol g) = _
    rw [hm]
    rfl
  obtain ⟨f, f1, f2⟩ := pays_nothing_forward (hpay 10) _root_.id 25
  have f3 := f2 25 (by show (10 : Int) ≤ 25; norm_num) le_rfl le_rfl
  obtain ⟨yc, y1, y2⟩ := (hpay 10).rates
  have hx1 := option_value (fuel := fuel) (md := marketOf 10 s) (v := dayTerms 25) (K := 90) (f := asFwd f) (F := 100)
    1 .put (by show (10 : Int) < 25; norm_num) (by unfold MarketData.forwardCurve; rw [show ((dayTerms 25).expiry.date) = 25 from rfl, f1]; rfl)
    (by
      unfold asFwd
      dsimp only
      rw [show ((dayTerms 25).expiry.date) = 25 from rfl, f3, sub_self, Real.exp_zero, mul_one]
      rfl) y1 (y2 _) (y2 _) hsurf (δ := 0) rfl (w := 0) (by
      rw [later_self_zero _ (by unfold before; simp [marketOf])]
      exact hfv) (by norm_num) le_rfl
  rw [Real.sqrt_zero, formula_expired .put _ _ _ (by norm_num) (by norm_num) (by norm_num)] at hx1
  obtain ⟨p, p1, p2⟩ := value_new hx0
  refine ⟨s, p, _, hs, ?_, p1, p2, ?_, ?_⟩
  · rw [one_mul]
    exact black_pos (mul_pos (by norm_num) (Real.exp_pos _)) (by norm_num) (Real.sqrt_pos.2 (by norm_num))
  · show Calendar.yearFraction (.weekday : Calendar.Cal ℝ) (9, 0) (10, 0) = _
    rw [weekend_year c1, zero_div]
  · rw [roll_quiet (fuel := fuel) (b := ⟨10, .stickySpot⟩) p1 (by show ¬ ((10 : Int) = 9); norm_num) (fun k l hl e he => by
      have := option_fixings 1 .put _ hl e he
      show ¬ ((9 : Int) ≤ _ ∧ _ < (10 : Int))
      rw [this]
      show ¬ ((9 : Int) ≤ 25 ∧ (25 : Int) < 10)
      norm_num) rfl hx1]
    simp only [num1, num2, payoff, sub_zero, add_zero, sub_self, Real.exp_zero]
    norm_num

end QM.Risk
