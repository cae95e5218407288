import Verif.Forward.Model

/-!
# Specification vocabulary for forwards
-/

namespace QM.Forward.Spec
open QM.Interp (Num)
open QM.Curves QM.Dividends QM.Forward

/-- Financing an asset up to date `d` costs, in logarithms, the accrued rate less the accrued borrow: both curves
quote every date and `g` is their difference. -/
def Financing (rate borrow : RateCurve) (g : Int → ℝ) : Prop :=
  ∀ d, ∃ r q, rate.rt d = .ok (.val r) ∧ borrow.rt d = .ok (.val q) ∧ g d = r - q

/-- The dividend yield accrued up to a date. -/
def Accrued (y : RateCurve) (d : Int) (x : ℝ) : Prop := y.rt d = .ok (.val x)

end QM.Forward.Spec
