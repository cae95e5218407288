import Verif.Interp.Model
import Mathlib.Data.Real.Basic

/-!
# Specification of interpolation
-/

namespace QM.Interp.Spec
open QM.Interp

/-- What each extrapolation choice means, given the value at the end pillar and the value of the curve
continued past the end. `none` for "must be an error". -/
def extrapolated {K : Type} [Zero K] (e : Extrap) (endValue continued : K) : Option (Num K) :=
  match e with
  | .flat => some (.val endValue)
  | .natural => some (.val continued)
  | .notANumber => some .nan
  | .zero => some (.val 0)
  | .throw => none

/-- Height at `x` of the straight line through two points. -/
def line {K : Type} [Field K] (p q : K × K) (x : K) : K := p.2 + (q.2 - p.2) / (q.1 - p.1) * (x - p.1)

/-- A list of ordinary points. -/
def plain {K : Type} (ps : List (K × K)) : List (Num K × K) := ps.map (fun p => (.val p.1, p.2))

/-- Every abscissa exceeds the one before it by more than the tolerance. -/
def Increasing {K : Type} [Field K] [LinearOrder K] (ps : List (K × K)) : Prop :=
  ∀ l p q r, ps = l ++ p :: q :: r → q.1 > p.1 + 1 / 10 ^ 12

/-- The curve drawn by a spline over the reals; zero where it has no numerical value. -/
noncomputable def curve (s : CubicSpline ℝ) (t : ℝ) : ℝ :=
  match s.interpolate (.val t) with
  | .ok (.val y) => y
  | _ => 0

end QM.Interp.Spec
