import Verif.Rounded.CurveModel

/-!
# Monte-Carlo averages in rounded arithmetic

`BlackDiffusion::evaluate_flows`, `src/models/blackdiffusion.rs:498-539`, with every floating-point operation rounded. The sum over the paths is `scalar_sum` of `ndarray`, which does not say in
which order it adds; here it adds in any order and with any brackets, as long as the choice does not look at the numbers. All flows are pure rates flows with a value that is a number: anything
else is an error in the code, and part of the exact model. The number of paths is the length of each column, as the code asserts.
-/

namespace QM.Rounded

variable {K : Type} [Field K] [LinearOrder K]

/-- A way to add `n` numbers: which are added to which. -/
inductive Adding (n : Nat) where
  /-- The start of a running total. -/
  | zero
  | term (i : Fin n)
  | plus (a b : Adding n)

/-- What the additions give, each of them rounded. -/
def Adding.eval {n : Nat} (r : Rounding K) (x : Fin n → K) : Adding n → K
  | .zero => 0
  | .term i => x i
  | .plus a b => r.rnd (a.eval r x + b.eval r x)

/-- `average` in `evaluate_flows`, `blackdiffusion.rs:522`, of one column of quantities; the number of paths is converted at `:504`. -/
def average {n : Nat} (r : Rounding K) (how : Adding n) (quantity : Fin n → K) : K :=
  r.rnd (how.eval r quantity / r.rnd n)

/-- `evaluate_flows`, `blackdiffusion.rs:513-538`, given for each flow its quantities on the paths and its value. -/
def evaluateFlows {n : Nat} (r : Rounding K) (how : Adding n) (flows : List ((Fin n → K) × K)) : K :=
  flows.foldl (fun total f => r.rnd (total + r.rnd (average r how f.1 * f.2))) 0

end QM.Rounded
