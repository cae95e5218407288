import Verif.Risk.Model

/-!
# Specification: markets whose curves have the same rates
-/

namespace QM.Risk.Spec
open QM.Interp QM.Curves QM.Dividends QM.Vol QM.Instruments QM.Market

/-- Two curves answer every question about rates in the same way: the rate to a date, times the time to it. -/
def SameRates (c c' : RateCurve) : Prop := ∀ d, c.rt d = c'.rt d

/-- Two streams of dividends are the same, except that their yields may be made in different ways. -/
structure SameStream (s s' : DividendStream) : Prop where
  dividends : s.dividends = s'.dividends
  lastCash : s.lastCash = s'.lastCash
  rates : SameRates s.divYield s'.divYield
  isZero : s.divYield.isZero = s'.divYield.isZero
  baseDate : s.divYield.baseDate = s'.divYield.baseDate

/-- Two tables have entries under the same names, and entries of the same name are related. -/
def Entrywise {V : Type} (R : V → V → Prop) (m m' : Map String V) : Prop :=
  ∀ id, match m.get id, m'.get id with
    | none, none => True
    | some x, some x' => R x x'
    | _, _ => False

/-- Two markets are the same, except that their curves may be made in different ways. -/
structure SameMarket (md md' : MarketData) : Prop where
  spotDate : md.spotDate = md'.spotDate
  spots : md.spots = md'.spots
  volSurfaces : md.volSurfaces = md'.volSurfaces
  yieldCurves : Entrywise SameRates md.yieldCurves md'.yieldCurves
  borrowCurves : Entrywise SameRates md.borrowCurves md'.borrowCurves
  dividends : Entrywise SameStream md.dividends md'.dividends

end QM.Risk.Spec
