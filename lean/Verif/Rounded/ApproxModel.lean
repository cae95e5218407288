import Verif.Rounded.Model

/-!
# Comparison with a tolerance in rounded arithmetic

`approx_eq`, `src/math/numerics.rs:5-8`, and the comparison of one line of two reports of delta and gamma, `src/risk/deltagamma.rs:57-61` and `106-111`, with every floating-point operation
rounded. Reports of vega and volga are compared in the same way, `src/risk/vegavolga.rs`. NaN and infinities are not modelled here.
-/

namespace QM.Rounded

variable {K : Type} [Field K] [LinearOrder K]

/-- `approx_eq`, `numerics.rs:5-8`. -/
def approxEq (r : Rounding K) (first second tolerance : K) : Bool :=
  let diff := r.rnd (first - second)
  decide (|diff| < tolerance)

/-- The tolerances for delta and gamma, `deltagamma.rs:59-60`, from `unit_risk` and the size of the bump. -/
def tolerances (r : Rounding K) (unitRisk bumpsize : K) : K × K :=
  let delta := r.rnd (unitRisk / bumpsize)
  (delta, r.rnd (delta / bumpsize))

/-- Whether nothing is written about one line of the reports, `deltagamma.rs:106-111`. A line is a delta and a gamma. -/
def sameLine (r : Rounding K) (unitRisk bumpsize : K) (a b : K × K) : Bool :=
  let tol := tolerances r unitRisk bumpsize
  approxEq r a.1 b.1 tol.1 && approxEq r a.2 b.2 tol.2

end QM.Rounded
