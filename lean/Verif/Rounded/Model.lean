import Verif.Rounded.Spec
import Verif.Interp.Search

/-!
# Linear interpolation between dates, in rounded arithmetic

The part of `src/math/interpolation.rs` that rate curves and forward curves use (`Linear<Date>`), with every floating-point
operation rounded. Values that are NaN or infinite, overflow and underflow are not modelled. The search is the standard
library's loop (`Interp.binarySearch`).
-/

namespace QM.Rounded
open QM.Interp (Num Extrap binarySearch)

variable {K : Type} [Field K] [LinearOrder K]

/-- `lerp`, `interpolation.rs:103-105`. -/
def lerp (r : Rounding K) (y0 y1 t : K) : K := r.rnd (r.rnd (y0 * r.rnd (1 - t)) + r.rnd (y1 * t))

/-- `Interpolable::interp_diff` for dates, `dates/mod.rs:186-188`: the difference of the day numbers, as `f64`. -/
def dateDiff (r : Rounding K) (d e : Int) : K := r.rnd ((e - d : Int) : K)

/-- `linear_interpolate`, `interpolation.rs:110-123`. -/
def linearInterpolate (r : Rounding K) (p0 p1 : Int × K) (x : Int) : Outcome (Num K) :=
  let dx := dateDiff r p0.1 p1.1
  if |dx| < r.rnd (1 / 10 ^ 12) then .error .err
  else
    let dx0 := dateDiff r p0.1 x
    .ok (.val (lerp r p0.2 p1.2 (r.rnd (dx0 / dx))))

/-- `linear_interpolate_extrapolate`, `interpolation.rs:126-159`. -/
def linearInterpolateExtrapolate (r : Rounding K) (x : Int) (points : List (Int × K)) (left right : Extrap) :
    Outcome (Num K) :=
  let n := points.length
  let p (i : Nat) : Int × K := points.getD i (0, 0)
  if n = 0 then .error .err
  else
    let s := binarySearch points x
    if s.2 then .ok (.val (p s.1).2)
    else if s.1 = 0 then
      if left.isNatural ∧ n > 1 then linearInterpolate r (p 0) (p 1) x
      else left.extrapolate (p 0).2
    else if s.1 ≥ n then
      -- line 148 asks `left.is_natural()`
      if left.isNatural ∧ n > 1 then linearInterpolate r (p (n - 2)) (p (n - 1)) x
      else right.extrapolate (p (n - 1)).2
    else linearInterpolate r (p (s.1 - 1)) (p s.1) x

/-- The loop of `validate_abscissae`, `interpolation.rs:177-189`, with the previous date. -/
def validateFrom (r : Rounding K) (prev : Int) : List (Int × K) → Outcome Unit
  | [] => .ok ()
  | p :: rest => if dateDiff r prev p.1 > r.rnd (1 / 10 ^ 12) then validateFrom r p.1 rest else .error .err

/-- `validate_abscissae`, `interpolation.rs:166-191`. -/
def validateAbscissae (r : Rounding K) : List (Int × K) → Outcome Unit
  | [] => .error .err
  | p :: rest => validateFrom r p.1 rest

/-- `Linear<Date>`, `interpolation.rs:225-230`. -/
structure Linear (K : Type) where
  left : Extrap
  right : Extrap
  points : List (Int × K)

/-- `Linear::new`, `interpolation.rs:243-248`. -/
def Linear.new (r : Rounding K) (points : List (Int × K)) (left right : Extrap) : Outcome (Linear K) := do
  validateAbscissae r points
  pure ⟨left, right, points⟩

/-- `Interpolate::interpolate` for `Linear`, `interpolation.rs:232-237`. -/
def Linear.interpolate (r : Rounding K) (l : Linear K) (x : Int) : Outcome (Num K) :=
  linearInterpolateExtrapolate r x l.points l.left l.right

end QM.Rounded
