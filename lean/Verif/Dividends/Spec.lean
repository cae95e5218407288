import Verif.Dividends.Model

/-!
# Specification of dividend totals

Written from the documentation (`divstream.rs:13-37`, `179-197`): cash amounts are known, relative amounts are
a fraction of the forward just before the ex-date, and totals count from, and not including, the base
date.
-/

namespace QM.Dividends.Spec
open QM.Dividends

variable {K : Type} [Field K] [LinearOrder K]

/-- A dividend with its projected amount and the present value of that amount. -/
structure Projected (K : Type) where
  exDate : Int
  amount : K
  pv : K

/-- Total of `f` over the entries whose ex-date satisfies `p`. -/
def total (f : Projected K → K) (p : Int → Bool) (l : List (Projected K)) : K :=
  ((l.filter (fun e => p e.exDate)).map f).sum

/-- The projected amount of a dividend, given the dividends before it in the list: its cash amount plus its
fraction of the forward at the ex-date, which has lost all dividends with an earlier ex-date. -/
def amount (spot : K) (df : Int → K) (earlier : List (Projected K)) (d : Dividend K) : K :=
  d.cash + d.relative * ((spot - total (·.pv) (· < d.exDate) earlier) / df d.exDate)

/-- Project the dividends of a list, one after the other. -/
def projectFrom (spot : K) (df : Int → K) (earlier : List (Projected K)) : List (Dividend K) → List (Projected K)
  | [] => earlier
  | d :: rest =>
    let a := amount spot df earlier d
    projectFrom spot df (earlier ++ [⟨d.exDate, a, a * df d.payDate⟩]) rest

/-- The projected dividends that go ex after the base date. -/
def project (spot : K) (df : Int → K) (base : Int) (dividends : List (Dividend K)) : List (Projected K) :=
  projectFrom spot df [] (dividends.filter (fun d => decide (base < d.exDate)))

/-- Ex-dates never decrease along the list. -/
def InOrder (dividends : List (Dividend K)) : Prop := dividends.Pairwise (fun a b => a.exDate ≤ b.exDate)

/-- The curves give a discount factor for every date. -/
def Discounts (discount : Outcome (Int → Outcome K)) (df : Int → K) : Prop :=
  ∃ g, discount = .ok g ∧ ∀ d, g d = .ok (df d)

end QM.Dividends.Spec
