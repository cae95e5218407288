import Verif.Risk.Spec

/-!
# Specification for the implied volatility solver
-/

namespace QM.Solvers.Spec
open QM.Interp QM.Vol QM.Instruments QM.Market QM.Market.Spec QM.Risk QM.Risk.Spec

/-- The market with a flat volatility instead of the surface of one underlying, if one is given. -/
def withFlat (md : MarketData) (id : String) (surface : VolSurface) : Option ℝ → MarketData
  | none => md
  | some vol => withVol md id (.flat (.val vol) surface.calendar surface.baseDate)

/-- A portfolio on one vol surface, whose value in a market with the flat volatility `v` instead is `g v`. The forward of the underlying is among
the dependencies, and all underlyings with the same id are the same. -/
structure ValuedBy (fuel : Nat) (instruments : List (ℝ × Instrument)) (md : MarketData) (id : String) (surface : VolSurface) (g : ℝ → Num ℝ) : Prop where
  single : (collect md.spotDate instruments).volSurfaces.entries.map Prod.fst = [id]
  instrument : (collect md.spotDate instruments).instruments.get id ≠ none
  forward : (collect md.spotDate instruments).forwardCurves.get id ≠ none
  unambiguous : Unambiguous (collect md.spotDate instruments)
  present : md.volSurfaces.get id = some surface
  valued : ∀ vol, value fuel instruments (withFlat md id surface (some vol)) = .ok (g vol)

end QM.Solvers.Spec
