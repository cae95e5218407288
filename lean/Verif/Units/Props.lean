import Verif.Units.SmileLemmas
import Verif.Risk.GreeksProps

/-!
# Property C95: prices and risks do not depend on the unit of account
-/

namespace QM.Units.Spec
open QM.Market QM.Risk

/-- A pricer after changes of its market, one after the other. -/
noncomputable def afterBumps : List Bump → SelfPricer → SelfPricer
  | [], p => p
  | b :: rest, p => afterBumps rest (p.bump b none).2.1

/-- What each of the changes reports. -/
noncomputable def outcomes : List Bump → SelfPricer → List (Outcome Bool)
  | [], _ => []
  | b :: rest, p => (p.bump b none).1 :: outcomes rest (p.bump b none).2.1

end QM.Units.Spec

namespace QM.Units
open QM.Interp QM.Curves QM.Dividends QM.Vol QM.Fixings QM.Instruments QM.Market QM.Market.Spec QM.Risk QM.Risk.Spec QM.Units.Spec

variable {c : ℝ}

/-- C95, prices: a share, an option and a portfolio quoted in another unit are worth `c` times as much of that unit on any dates, and their prices fail in
the same way. Money and payments of money are worth the same. -/
theorem C95_prices (hc : 0 < c) (fuel : Nat) (md : MarketData) (i : Instrument) (hi : Quotable i) (dates : List DateTime) :
    (instrument c i).prices fuel (market c md).pricingContext dates =
      (i.prices fuel md.pricingContext dates).map (List.map (if isMoney i then id else amount c)) := by
  rw [prices_units hc fuel (market_requoted hc md) i dates hi]
  congr 2
  unfold unit
  split
  · funext x
    exact amount_one x
  · rfl

/-- C95, the value of a portfolio: so is what the pricer says that it is worth. -/
theorem C95_portfolio (hc : 0 < c) (fuel : Nat) (md : MarketData) (instruments : List (ℝ × Instrument)) (hi : QuotableAll instruments) :
    (do let p ← SelfPricer.new (positions c instruments) (market c md)
        p.price fuel) =
      (do let p ← SelfPricer.new instruments md
          p.price fuel).map (amount c) := by
  rw [pricer_new hc]
  cases h : SelfPricer.new instruments md with
  | error e => rfl
  | ok p =>
    simp only [map_ok, ok_to]
    exact pricer_price hc fuel p (by rw [pricer_new_instruments h]; exact hi)

/-- C95, changes of the market: after any changes, of which the new spots are given in the new unit, each succeeded, had no effect or failed
in both units, and the portfolio is again worth `c` times as much. -/
theorem C95_bumps (hc : 0 < c) (fuel : Nat) (md : MarketData) (instruments : List (ℝ × Instrument)) (hi : QuotableAll instruments) (bumps : List Bump)
    {p : SelfPricer} (hp : SelfPricer.new instruments md = .ok p) :
    ∃ p', SelfPricer.new (positions c instruments) (market c md) = .ok p' ∧ outcomes (bumps.map (bump c)) p' = outcomes bumps p ∧
      (afterBumps (bumps.map (bump c)) p').price fuel = ((afterBumps bumps p).price fuel).map (amount c) := by
  refine ⟨pricer c p, by rw [pricer_new hc, hp]; rfl, ?_⟩
  have hq : QuotableAll p.instruments := by rw [pricer_new_instruments hp]; exact hi
  clear hp
  induction bumps generalizing p with
  | nil => exact ⟨rfl, pricer_price hc fuel p hq⟩
  | cons b bs ih =>
    have h := pricer_bump hc b p none
    rw [Option.map_none] at h
    have k := @ih (p.bump b none).2.1 hq
    rw [List.map_cons, outcomes, outcomes, afterBumps, afterBumps, h]
    exact ⟨by rw [k.1], k.2⟩

/-- C95, reports: every report on the portfolio, of deltas and gammas, of vegas and volgas, and of those after moving the date, nested in
any way, is the report in the old unit with its amounts of money multiplied by `c`, its deltas as they were and its gammas divided by `c`. -/
theorem C95_reports (hc : 0 < c) (fuel : Nat) (md : MarketData) (instruments : List (ℝ × Instrument)) (hi : QuotableAll instruments) (generators : List Generator) :
    calculate (selfPricer fuel) (SelfPricer.new (positions c instruments) (market c md)) generators =
      (calculate (selfPricer fuel) (SelfPricer.new instruments md) generators).map (reports c) :=
  calculate_units hc fuel _ _ (pricer_new hc instruments md) (fun p hp => by rw [pricer_new_instruments hp]; exact hi) generators

/-- C95, fixings: the same holds for a portfolio or an option of which some fixings are known, given in the new unit. -/
theorem C95_fixed (hc : 0 < c) (fuel : Nat) (md : MarketData) (t : FixingTable ℝ) (i : Instrument) (hi : Quotable i) (hm : isMoney i = false)
    (generators : List Generator) :
    calculate (selfPricer fuel) (selfPricerFactory (instrument c i) (table c t) (market c md)) generators =
      (calculate (selfPricer fuel) (selfPricerFactory i t md) generators).map (reports c) := by
  have h1 : [(1, instrument c i)] = positions c [(1, i)] := by simp [positions, held, hm]
  apply calculate_units hc fuel
  · unfold selfPricerFactory
    rw [fix_units hc t i hi]
    cases i.fix t with
    | error e => rfl
    | ok o =>
      cases o with
      | none =>
        simp only [map_ok, ok_to, Option.map_none, h1]
        exact pricer_new hc _ _
      | some l => exact pricer_new hc _ _
  · intro p hp
    unfold selfPricerFactory at hp
    obtain ⟨o, ho, hp⟩ := bind_ok hp
    cases o with
    | none =>
      have := pricer_new_instruments hp
      rw [this]
      simp [QuotableAll, hi]
    | some l =>
      have := pricer_new_instruments hp
      rw [this]
      exact fix_quotable t i hi ho

/-- C95, options: options are made, or refused, in both units, and are not options on money. -/
theorem C95_options (hc : 0 < c) (id creditId : String) (u : Instrument) (hu : Quotable u) (settlement : Int → Int) (expiry : DateTime) (strike fraction : ℝ)
    (strikeDate : DateTime) (putOrCall : PutOrCall) (cashOrPhysical : OptionSettlement) :
    Instrument.newSpotStarting id creditId (instrument c u) settlement expiry (c * strike) putOrCall cashOrPhysical =
      (Instrument.newSpotStarting id creditId u settlement expiry strike putOrCall cashOrPhysical).map (instrument c) ∧
    Instrument.newForwardStarting id creditId (instrument c u) settlement expiry fraction strikeDate putOrCall cashOrPhysical =
      (Instrument.newForwardStarting id creditId u settlement expiry fraction strikeDate putOrCall cashOrPhysical).map (instrument c) ∧
    (∀ i, Instrument.newSpotStarting id creditId u settlement expiry strike putOrCall cashOrPhysical = .ok i → Quotable i) ∧
    ∀ i, Instrument.newForwardStarting id creditId u settlement expiry fraction strikeDate putOrCall cashOrPhysical = .ok i → Quotable i := by
  have hm : ∀ t p, u.timeToDayFraction t = .ok p → isMoney u = false := by
    intro t p h
    cases u <;> first | rfl | cases h
  refine ⟨?_, ?_, ?_, ?_⟩
  · unfold Instrument.newSpotStarting Vanilla.new
    rw [instrument_timeToDayFraction]
    by_cases h : strike < 0
    · rw [if_pos h, if_pos (by nlinarith)]
      rfl
    · rw [if_neg h, if_neg (by nlinarith)]
      cases u.timeToDayFraction expiry with
      | error e => rfl
      | ok p => simp only [ok_to, pure_is, map_ok, instrument]
  · unfold Instrument.newForwardStarting Vanilla.new
    rw [instrument_timeToDayFraction]
    split
    · rfl
    · cases u.timeToDayFraction strikeDate with
      | error e => rfl
      | ok p =>
        simp only [ok_to]
        cases u.timeToDayFraction expiry with
        | error e => rfl
        | ok p => simp only [ok_to, pure_is, map_ok, instrument]
  · intro i h
    unfold Instrument.newSpotStarting Vanilla.new at h
    split at h
    · cases h
    · obtain ⟨v, hv, h⟩ := bind_ok h
      obtain ⟨p, hp, hv⟩ := bind_ok hv
      cases h
      rw [Quotable]
      exact ⟨hm _ _ hp, hu⟩
  · intro i h
    unfold Instrument.newForwardStarting Vanilla.new at h
    split at h
    · cases h
    · obtain ⟨p, hp, h⟩ := bind_ok h
      obtain ⟨v, hv, h⟩ := bind_ok h
      cases h
      rw [Quotable]
      exact ⟨hm _ _ hp, hu⟩

/-- C95, surfaces: surfaces with smiles are made, or refused, in both units, and give the same volatility to the same strike. -/
theorem C95_surfaces (hc : 0 < c) (i : Input) :
    VolSurface.newByProbability (input c i) = (VolSurface.newByProbability i).map (surface c) ∧
    ∀ fuel (s : VolSurface) t strikes, (surface c s).volatilities fuel t (strikes.map (amount c)) = s.volatilities fuel t strikes :=
  ⟨newByProbability_units hc i, fun fuel s t ks => surface_volatilities hc fuel s t ks⟩

/-- C95, smiles: a smile made from pillars in a smaller unit is the smile in that unit. -/
theorem C95_smiles (hc : 1 ≤ c) (pillars : List (Num ℝ × ℝ)) (s : Smile) (h : Smile.newCubicSpline pillars = .ok s) :
    Smile.newCubicSpline (pillars.map fun p => (amount c p.1, p.2)) = .ok (smile c s) := by
  refine newCubicSpline_strikes (by linarith) pillars s h (validate_larger hc pillars ?_)
  unfold Smile.newCubicSpline CubicSpline.new at h
  obtain ⟨t, ht, _⟩ := bind_ok h
  obtain ⟨u, hu, _⟩ := bind_ok ht
  exact hu

/-- C95, smiles in a larger unit: the same, unless the pillars are refused there. -/
theorem C95_accepted (hc : 0 < c) (pillars : List (Num ℝ × ℝ)) (s s' : Smile) (h : Smile.newCubicSpline pillars = .ok s)
    (h' : Smile.newCubicSpline (pillars.map fun p => (amount c p.1, p.2)) = .ok s') : s' = smile c s := by
  have hv : validateAbscissae (pillars.map fun p => (amount c p.1, p.2)) = .ok () := by
    unfold Smile.newCubicSpline CubicSpline.new at h'
    obtain ⟨t, ht, _⟩ := bind_ok h'
    obtain ⟨u, hu, _⟩ := bind_ok ht
    exact hu
  rw [newCubicSpline_strikes hc pillars s h hv] at h'
  exact (Except.ok.inj h').symm

/-- C95, the distance of pillars: they may be refused, because strikes have to be an absolute distance apart. Here the unit is a million millions. -/
theorem C95_refused : ∃ (pillars : List (Num ℝ × ℝ)) (s : Smile), Smile.newCubicSpline pillars = .ok s ∧
    Smile.newCubicSpline (pillars.map fun p => (amount (1 / 10 ^ 12) p.1, p.2)) = .error .err := by
  have h : ∃ s, Smile.newCubicSpline [((.val 100 : Num ℝ), (0.2 : ℝ)), (.val 101, 0.3)] = .ok s := by
    have hv : validateAbscissae [((.val 100 : Num ℝ), (0.2 : ℝ)), (.val 101, 0.3)] = .ok () := by
      simp only [validateAbscissae, validateFrom, apart]
      norm_num
    unfold Smile.newCubicSpline CubicSpline.new
    rw [hv]
    exact ⟨_, rfl⟩
  obtain ⟨s, h⟩ := h
  refine ⟨_, s, h, ?_⟩
  have hv : validateAbscissae ([((.val 100 : Num ℝ), (0.2 : ℝ)), (.val 101, 0.3)].map fun p => (amount (1 / 10 ^ 12) p.1, p.2)) = .error .err := by
    simp only [List.map_cons, List.map_nil, amount_val, validateAbscissae, validateFrom, apart]
    norm_num
  unfold Smile.newCubicSpline CubicSpline.new
  rw [hv]
  rfl

/-! ## Examples -/

/-- C95: a portfolio of money, a share, a payment and a basket of options on the share and on a basket. -/
example : QuotableAll [(5, .currency "EUR" id), (3, .equity "A" "C" id), (2, .zeroCoupon "Z" "C" ⟨10, .close⟩ 12 id),
    (1, .basket "B" "C" id [(7, .spotStarting sampleTerms (.equity "A" "C" id) 50),
      (1, .forwardStarting sampleTerms (.basket "D" "C" id [(1, .currency "EUR" id), (1, .equity "A" "C" id)]) 1 ⟨5, .close⟩ (5, 0.8))])] := by
  simp [QuotableAll, Quotable, isMoney]

/-- C95, reports: three calls struck at 50 on a share at 100, quoted in hundredths: the delta is the same and the gamma a hundredth. -/
example (fuel : Nat) : ∃ delta gamma : ℝ, 0 < delta ∧ 0 ≤ gamma ∧ ∃ results results',
    calculate (selfPricer fuel) (SelfPricer.new [(3, euro .call sampleTerms "A" "C" _root_.id 50)]
      (withVol (sampleMarket 100 (.zero 0)) "A" (.flat (.val 0.2) .everyDay (0, 0)))) [.deltaGamma 0.01] = .ok [.deltaGamma (.val 0.01) results] ∧
    results.get "A" = some (.val (3 * delta), .val (3 * gamma)) ∧
    calculate (selfPricer fuel) (SelfPricer.new (positions 100 [(3, euro .call sampleTerms "A" "C" _root_.id 50)])
      (market 100 (withVol (sampleMarket 100 (.zero 0)) "A" (.flat (.val 0.2) .everyDay (0, 0))))) [.deltaGamma 0.01] = .ok [.deltaGamma (.val 0.01) results'] ∧
    results'.get "A" = some (.val (3 * delta), .val (3 * gamma / 100)) := by
  obtain ⟨delta, gamma, h1, _, _, _, _, _, h2, h3, _, _⟩ := C93_delta_partial (sample_setting (fuel := fuel) 0.2 100 50) (b := 0.01) (by norm_num) (by norm_num)
    (by norm_num) (by norm_num) (by norm_num) (by norm_num)
  obtain ⟨p, x, results, p', g1, g2, g3, g4, _⟩ := h1 .call 3
  have e : calculate (selfPricer fuel) (SelfPricer.new [(3, euro .call sampleTerms "A" "C" _root_.id 50)]
      (withVol (sampleMarket 100 (.zero 0)) "A" (.flat (.val 0.2) .everyDay (0, 0)))) [.deltaGamma 0.01] = .ok [.deltaGamma (.val 0.01) results] := by
    unfold calculate
    rw [g1]
    have e1 : (selfPricer fuel).price p = .ok (.val x) := g2
    simp only [ok_to, e1]
    show (generateAll (selfPricer fuel) [.deltaGamma 0.01] p .new (.val x)).1 = _
    rw [generateAll, g3]
    rfl
  refine ⟨delta .call, gamma .call, (h2 (by norm_num)).1, h3, results, onValues (fun r => (r.1, perAmount 100 r.2)) results, e, g4, ?_, ?_⟩
  · rw [C95_reports (by norm_num) fuel _ _ (by simp [QuotableAll, Quotable, euro, isMoney]), e]
    simp only [map_ok, reports, report]
  · rw [get_onValues, g4]
    rfl

end QM.Units
