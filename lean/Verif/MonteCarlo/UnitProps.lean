import Verif.MonteCarlo.UnitLemmas
import Verif.MonteCarlo.ExplainProps
import Verif.Units.Props

/-!
# Property C95 for Monte-Carlo pricers: prices and risks do not depend on the unit of account

The two units are those of `Verif/Units/Spec.lean`. The draws are the same in both.
-/

namespace QM.MonteCarlo
open QM.Interp QM.Vol QM.Fixings QM.Instruments QM.Market QM.Market.Spec QM.Risk QM.Risk.Spec
open QM.Units (amount perAmount instrument positions market table onValues reports report Quotable QuotableAll isMoney)

variable {c : ℝ} {fuel : Nat} {f : ModelFactory}

namespace Spec

/-- A Monte-Carlo pricer after changes of its market, one after the other. -/
noncomputable def afterBumps (fuel : Nat) : List Bump → MonteCarlo → MonteCarlo
  | [], p => p
  | b :: rest, p => afterBumps fuel rest (p.bump fuel b none).2.1

/-- What each of the changes reports. -/
noncomputable def outcomes (fuel : Nat) : List Bump → MonteCarlo → List (Outcome Bool)
  | [], _ => []
  | b :: rest, p => (p.bump fuel b none).1 :: outcomes fuel rest (p.bump fuel b none).2.1

end Spec

/-- C95, prices by Monte-Carlo: along the same draws, the price in the other unit is `c` times as much. A pricer that cannot be made, or that
fails, does so in both units and in the same way. -/
theorem C95_simulated (hc : 0 < c) (fuel : Nat) (f : ModelFactory) (md : MarketData) (instruments : List (ℝ × Instrument)) (draw : Draws) :
    (do let p ← MonteCarlo.new fuel f (positions c instruments) (market c md) draw
        p.price fuel) =
      (do let p ← MonteCarlo.new fuel f instruments md draw
          p.price fuel).map (amount c) := by
  rw [Requote.pricer_new hc]
  cases MonteCarlo.new fuel f instruments md draw with
  | error e => rfl
  | ok p => exact Requote.price_units hc fuel p

/-- C95, changes of the market by Monte-Carlo: likewise after any changes, each of which succeeded, had no effect or failed in both units. -/
theorem C95_simulated_bumps (hc : 0 < c) (fuel : Nat) (f : ModelFactory) (md : MarketData) (instruments : List (ℝ × Instrument)) (draw : Draws)
    (bumps : List Bump) {p : MonteCarlo} (hp : MonteCarlo.new fuel f instruments md draw = .ok p) :
    ∃ p', MonteCarlo.new fuel f (positions c instruments) (market c md) draw = .ok p' ∧
      Spec.outcomes fuel (bumps.map (Units.bump c)) p' = Spec.outcomes fuel bumps p ∧
      (Spec.afterBumps fuel (bumps.map (Units.bump c)) p').price fuel = ((Spec.afterBumps fuel bumps p).price fuel).map (amount c) := by
  refine ⟨Requote.pricer c p, by rw [Requote.pricer_new hc, hp]; rfl, ?_⟩
  clear hp
  induction bumps generalizing p with
  | nil => exact ⟨rfl, Requote.price_units hc fuel p⟩
  | cons b bs ih =>
    have h : MonteCarlo.bump fuel (Units.bump c b) (Requote.pricer c p) none = _ := (Requote.commutes hc fuel (fun _ _ _ => 0)).bump b p none
    have k := @ih (p.bump fuel b none).2.1
    rw [List.map_cons, Spec.outcomes, Spec.outcomes, Spec.afterBumps, Spec.afterBumps, h]
    exact ⟨by rw [← k.1]; rfl, k.2⟩

/-- C95, reports by Monte-Carlo: every report, nested in any way, is the report in the old unit with its amounts of money multiplied by `c`, its
deltas as they were and its gammas divided by `c`. The draws of the pricers made anew on a later date are `draw'`. -/
theorem C95_simulated_reports (hc : 0 < c) (fuel : Nat) (f : ModelFactory) (md : MarketData) (instruments : List (ℝ × Instrument))
    (hi : QuotableAll instruments) (draw draw' : Draws) (generators : List Generator) :
    calculate (monteCarlo fuel draw') (MonteCarlo.new fuel f (positions c instruments) (market c md) draw) generators =
      (calculate (monteCarlo fuel draw') (MonteCarlo.new fuel f instruments md draw) generators).map (reports c) :=
  Units.Any.calculate_units hc (Requote.commutes hc fuel draw') _ _ (Requote.pricer_new hc fuel f instruments md draw)
    (fun p hp => by rw [Requote.new_instruments hp]; exact hi) generators

/-- C95, fixings by Monte-Carlo: likewise for an instrument of which some fixings are known, given in the new unit. -/
theorem C95_simulated_fixed (hc : 0 < c) (fuel : Nat) (f : ModelFactory) (md : MarketData) (t : FixingTable ℝ) (i : Instrument) (hi : Quotable i)
    (hm : isMoney i = false) (draw draw' : Draws) (generators : List Generator) :
    calculate (monteCarlo fuel draw') (monteCarloFactory fuel f (instrument c i) (table c t) (market c md) draw) generators =
      (calculate (monteCarlo fuel draw') (monteCarloFactory fuel f i t md draw) generators).map (reports c) := by
  have h1 : [(1, instrument c i)] = positions c [(1, i)] := by simp [positions, Units.held, hm]
  apply Units.Any.calculate_units hc (Requote.commutes hc fuel draw')
  · unfold monteCarloFactory
    rw [Units.fix_units hc t i hi]
    cases i.fix t with
    | error e => rfl
    | ok o =>
      cases o with
      | none =>
        simp only [Units.map_ok, Units.ok_to, Option.map_none, h1]
        exact Requote.pricer_new hc fuel f _ _ draw
      | some l => exact Requote.pricer_new hc fuel f _ _ draw
  · intro p hp
    unfold monteCarloFactory at hp
    obtain ⟨o, ho, hp⟩ := bind_ok hp
    cases o with
    | none =>
      rw [Requote.new_instruments hp]
      simp [QuotableAll, hi]
    | some l =>
      rw [Requote.new_instruments hp]
      exact Units.fix_quotable t i hi ho

/-- C95: two calls on a share at 100, priced along a thousand paths with any draws, and quoted in hundredths: the price is a hundred times as much,
the delta is the same and the gamma a hundredth. -/
example (draw draw' : Draws) : ∃ x Δ Γ r r',
    (do let p ← MonteCarlo.new fuel ⟨0.001, 1000⟩ [(2, euro .call sampleTerms "A" "C" _root_.id 90)]
          (withVol (sampleMarket 100 (.zero 0)) "A" (.flat (.val 0.2) .everyDay (0, 0))) draw
        p.price fuel) = .ok (.val x) ∧
    (do let p ← MonteCarlo.new fuel ⟨0.001, 1000⟩ (positions 100 [(2, euro .call sampleTerms "A" "C" _root_.id 90)])
          (market 100 (withVol (sampleMarket 100 (.zero 0)) "A" (.flat (.val 0.2) .everyDay (0, 0)))) draw
        p.price fuel) = .ok (.val (100 * x)) ∧
    calculate (monteCarlo fuel draw') (MonteCarlo.new fuel ⟨0.001, 1000⟩ [(2, euro .call sampleTerms "A" "C" _root_.id 90)]
      (withVol (sampleMarket 100 (.zero 0)) "A" (.flat (.val 0.2) .everyDay (0, 0))) draw) [.deltaGamma 0.01] = .ok [.deltaGamma (.val 0.01) r] ∧
    r.get "A" = some (.val Δ, .val Γ) ∧
    calculate (monteCarlo fuel draw') (MonteCarlo.new fuel ⟨0.001, 1000⟩ (positions 100 [(2, euro .call sampleTerms "A" "C" _root_.id 90)])
      (market 100 (withVol (sampleMarket 100 (.zero 0)) "A" (.flat (.val 0.2) .everyDay (0, 0)))) draw) [.deltaGamma 0.01] = .ok [.deltaGamma (.val 0.01) r'] ∧
    r'.get "A" = some (.val Δ, .val (Γ / 100)) := by
  obtain ⟨p, x, r, p', Δ, Γ, g1, g2, g3, g4, _⟩ := C109_simulated_partial (fuel := fuel) (f := ⟨0.001, 1000⟩) (n := 2) (b := 0.01) (sample_setting 0.2 100 90) rfl rfl
    (fun s _ => sample_variance _ _) (by norm_num) (by norm_num) (by norm_num) (by norm_num) (by norm_num) (by norm_num) (by norm_num) draw draw' .call
  have e : calculate (monteCarlo fuel draw') (MonteCarlo.new fuel ⟨0.001, 1000⟩ [(2, euro .call sampleTerms "A" "C" _root_.id 90)]
      (withVol (sampleMarket 100 (.zero 0)) "A" (.flat (.val 0.2) .everyDay (0, 0))) draw) [.deltaGamma 0.01] = .ok [.deltaGamma (.val 0.01) r] := by
    unfold calculate
    rw [g1]
    have e1 : (monteCarlo fuel draw').price p = .ok (.val x) := g2
    simp only [Units.ok_to, e1]
    show (generateAll (monteCarlo fuel draw') [.deltaGamma 0.01] p .new (.val x)).1 = _
    rw [generateAll, g3]
    rfl
  have e0 : (do
      let p ← MonteCarlo.new fuel ⟨0.001, 1000⟩ [(2, euro .call sampleTerms "A" "C" _root_.id 90)]
        (withVol (sampleMarket 100 (.zero 0)) "A" (.flat (.val 0.2) .everyDay (0, 0))) draw
      p.price fuel) = .ok (.val x) := by
    rw [g1]
    exact g2
  refine ⟨x, Δ, Γ, r, onValues (fun r => (r.1, perAmount 100 r.2)) r, e0, ?_, e, g4, ?_, ?_⟩
  · rw [C95_simulated (by norm_num), e0]
    rfl
  · rw [C95_simulated_reports (by norm_num) fuel _ _ _ (by simp [QuotableAll, Quotable, euro, isMoney]), e]
    simp only [Units.map_ok, reports, report]
  · rw [Units.get_onValues, g4]
    rfl

end QM.MonteCarlo
