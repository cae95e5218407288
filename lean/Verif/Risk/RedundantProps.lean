import Verif.Interp.RedundantProps
import Verif.Risk.RatesProps
import Verif.MonteCarlo.RatesProps

/-!
# Property C112 at the level of prices: points of a yield curve that lie on the line add nothing
-/

namespace QM.Risk
open QM.Interp QM.Interp.Spec QM.Curves QM.Curves.Spec QM.Fixings QM.Instruments QM.Market QM.Risk.Spec QM.MonteCarlo

variable {fuel : Nat} {md : MarketData}

/-- A point of a curve, with its date as a number. -/
def dated (p : Int × ℝ) : ℝ × ℝ := (p.1, p.2)

theorem newAct365_plain (base : Int) (points : List (Int × ℝ)) (left right : Extrap) :
    RateCurve.newAct365 base points left right = (Linear.new (plain (points.map dated)) left right).map (RateCurve.act365 base) := by
  unfold RateCurve.newAct365
  have : plain (points.map dated) = points.map (fun p => (.val (p.1 : ℝ), p.2)) := by simp [plain, dated]
  rw [this]
  cases Linear.new (points.map fun p => (Num.val (p.1 : ℝ), p.2)) left right <;> rfl

/-- C112. A point of a yield curve that lies on the straight line between its neighbours can be left out, and no discount factor changes. -/
theorem C112_curve {base : Int} {l r : List (Int × ℝ)} {a m b : Int × ℝ} {left right : Extrap} {c : RateCurve}
    (h : RateCurve.newAct365 base (l ++ a :: m :: b :: r) left right = .ok c) (hm : m.2 = line (dated a) (dated b) m.1) :
    ∃ c', RateCurve.newAct365 base (l ++ a :: b :: r) left right = .ok c' ∧ SameRates c c' ∧ SameDiscounts c c' := by
  rw [newAct365_plain] at h
  cases hL : Linear.new (plain ((l ++ a :: m :: b :: r).map dated)) left right with
  | error e => rw [hL] at h; cases h
  | ok L =>
    rw [hL] at h
    have hc : c = .act365 base L := by cases h; rfl
    have hL' : Linear.new (plain (l.map dated ++ dated a :: dated m :: dated b :: r.map dated)) left right = .ok L := by simpa using hL
    obtain ⟨L', e, hx⟩ := C112_linear hL'
    have hs : SameRates c (.act365 base L') := by
      intro d
      rw [hc]
      simp only [RateCurve.rt, RateCurve.rAndT, hx.2 hm]
    refine ⟨.act365 base L', ?_, hs, fun x y => df_same hs x y⟩
    rw [newAct365_plain]
    have e' : Linear.new (plain ((l ++ a :: b :: r).map dated)) left right = .ok L' := by simpa using e
    rw [e']
    rfl

/-- C112. So no price and no report changes, with either pricer. -/
theorem C112_price {base : Int} {l r : List (Int × ℝ)} {a m b : Int × ℝ} {left right : Extrap} {c c' : RateCurve} (id : String)
    (h : RateCurve.newAct365 base (l ++ a :: m :: b :: r) left right = .ok c)
    (h' : RateCurve.newAct365 base (l ++ a :: b :: r) left right = .ok c') (hm : m.2 = line (dated a) (dated b) m.1)
    (i : Instrument) (table : FixingTable ℝ) (reports : List Generator) (f : ModelFactory) (draw draw' : Draws) :
    calculate (selfPricer fuel) (selfPricerFactory i table { md with yieldCurves := md.yieldCurves.insert id c }) reports =
      calculate (selfPricer fuel) (selfPricerFactory i table { md with yieldCurves := md.yieldCurves.insert id c' }) reports ∧
    calculate (monteCarlo fuel draw') (monteCarloFactory fuel f i table { md with yieldCurves := md.yieldCurves.insert id c } draw) reports =
      calculate (monteCarlo fuel draw') (monteCarloFactory fuel f i table { md with yieldCurves := md.yieldCurves.insert id c' } draw) reports := by
  obtain ⟨c'', e, hs, _⟩ := C112_curve h hm
  rw [h'] at e
  have hc : c' = c'' := by injection e
  subst hc
  have hm' : SameMarket { md with yieldCurves := md.yieldCurves.insert id c } { md with yieldCurves := md.yieldCurves.insert id c' } :=
    ⟨rfl, rfl, rfl, entrywise_insert (entrywise_refl sameRates_refl _) hs id, entrywise_refl sameRates_refl _, entrywise_refl sameStream_refl _⟩
  exact ⟨C111_reports hm' i table reports, C111_monte_carlo hm' f i table draw draw' reports⟩

/-- C112: a curve with a point halfway up. -/
example : ∃ c, RateCurve.newAct365 0 ([] ++ (0, 0.01) :: (365, 0.02) :: (730, 0.03) :: [(1095, (0.02 : ℝ))]) .flat .flat = .ok c ∧
    (0.02 : ℝ) = line (dated (0, 0.01)) (dated (730, 0.03)) ((365 : Int) : ℝ) := by
  refine ⟨_, by rw [newAct365_plain, new_of_valid]; · rfl
                · simp [plain, dated, validateAbscissae, validateFrom, apart]; norm_num, ?_⟩
  norm_num [line, dated]

end QM.Risk
