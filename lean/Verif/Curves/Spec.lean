import Verif.Curves.Model

/-!
# Specification vocabulary for rate curves
-/

namespace QM.Curves.Spec
open QM.Interp QM.Curves

/-- The curve can quote the date: `rt` succeeds with an ordinary number. -/
def Quotes (c : RateCurve) (date : Int) : Prop := ∃ x, c.rt date = .ok (.val x)

/-- The rate quoted for a date. -/
def RateIs (c : RateCurve) (date : Int) (r : ℝ) : Prop := ∃ t, c.rAndT date = .ok (.val r, t)

/-- Two curves give the same discount factors (or the same failures) for all dates. -/
def SameDiscounts (c c' : RateCurve) : Prop := ∀ from_ to_, c.df from_ to_ = c'.df from_ to_

/-- Years between two dates, counting actual days over 365. -/
noncomputable def years (from_ to_ : Int) : ℝ := ((to_ - from_ : Int) : ℝ) / 365

/-- Built on an interpolated curve rather than on the zero curve. -/
def Interpolated : RateCurve → Prop
  | .zero _ => False
  | .act365 _ _ => True
  | .annualisedFlatBump c _ => Interpolated c
  | .continuouslyCompoundedFlatBump c _ => Interpolated c
  | .relativeBump c _ => Interpolated c

end QM.Curves.Spec
