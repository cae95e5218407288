import Verif.Risk.RatesSpec
import Verif.Curves.Spec

/-!
# Specification: markets where yields and borrow costs are higher by the same
-/

namespace QM.Risk.Spec
open QM.Interp QM.Curves QM.Curves.Spec QM.Dividends QM.Vol QM.Instruments QM.Market

/-- The second curve quotes `a` more for every date: the rate to the date, times the time to it. -/
def Raised (a : Int → ℝ) (c c' : RateCurve) : Prop := ∀ d, c'.rt d = (c.rt d).map (num1 (· + a d))

/-- Two tables have entries under the same names, and entries of the same name are related, in a way that may depend on the name. -/
def Named {V : Type} (R : String → V → V → Prop) (m m' : Map String V) : Prop :=
  ∀ id, match m.get id, m'.get id with
    | none, none => True
    | some x, some x' => R id x x'
    | _, _ => False

/-- The second market is the first, with yields of each credit higher by `a`, and the borrow of each equity higher by as much as the yields of the
credit that it is financed at. -/
structure Financed (a : String → Int → ℝ) (creditOf : String → String) (md md' : MarketData) : Prop where
  spotDate : md'.spotDate = md.spotDate
  spots : md'.spots = md.spots
  volSurfaces : md'.volSurfaces = md.volSurfaces
  dividends : md'.dividends = md.dividends
  yieldCurves : Named (fun credit => Raised (a credit)) md.yieldCurves md'.yieldCurves
  borrowCurves : Named (fun id => Raised (a (creditOf id))) md.borrowCurves md'.borrowCurves

/-- An equity financed at its own credit. -/
def OwnCredit (creditOf : String → String) (i : Instrument) : Prop := ∃ id settle, i = .equity id (creditOf id) settle

/-- Cash, equities financed at their own credits, options on them, and zero coupons. -/
def Financeable (creditOf : String → String) : Instrument → Prop
  | .currency _ _ => True
  | .creditEntity _ _ => True
  | .equity id credit settle => OwnCredit creditOf (.equity id credit settle)
  | .zeroCoupon _ _ _ _ _ => True
  | .basket _ _ _ _ => False
  | .spotStarting _ u _ => OwnCredit creditOf u
  | .forwardStarting _ u _ _ _ => OwnCredit creditOf u

/-- What discounting changes by: from payment to settlement of a trade on `date` for what is paid later, nothing for what is delivered now. -/
noncomputable def discountRatio (a : String → Int → ℝ) (date : Int) : Instrument → ℝ
  | .zeroCoupon _ credit _ pay settle => Real.exp (a credit (settle date) - a credit pay)
  | .spotStarting v u _ => Real.exp (a u.creditId (v.settlement date) - a u.creditId v.payDate)
  | .forwardStarting v u _ _ _ => Real.exp (a u.creditId (v.settlement date) - a u.creditId v.payDate)
  | _ => 1

/-- What a rise of the yields of one credit by `b` a year adds to its rates, counting from `base`. -/
noncomputable def rise (credit : String) (base : Int) (b : ℝ) (k : String) (d : Int) : ℝ := if k = credit then b * years base d else 0

end QM.Risk.Spec
