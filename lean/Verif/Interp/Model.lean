import Verif.Basic
import Mathlib.Algebra.Order.Field.Basic

/-!
# Model of `src/math/interpolation.rs`

Numbers are exact elements of an ordered field `K`; abscissae and results may also be NaN
(`Num.nan`). Ordinates are finite numbers. Dates and integers as abscissae are covered by the numbers
they stand for. Infinities are not modelled, except as the flag "natural" of `nr_spline`.
-/

namespace QM.Interp

/-- A float that may be NaN. -/
inductive Num (K : Type) where
  | nan
  | val (x : K)
deriving DecidableEq, Repr

/-- The number, or zero for NaN (only used where NaN has been excluded). -/
def Num.get {K : Type} [Zero K] : Num K → K
  | .nan => 0
  | .val x => x

/-- `Extrap`, `interpolation.rs:71-77`. -/
inductive Extrap where
  | flat | natural | notANumber | zero | throw
deriving DecidableEq, Repr

/-- `Extrap::is_natural`, `interpolation.rs:95-97`. -/
def Extrap.isNatural : Extrap → Bool
  | .natural => true
  | _ => false

variable {K : Type} [Field K] [LinearOrder K]

/-- `Extrap::extrapolate`, `interpolation.rs:80-93`. -/
def Extrap.extrapolate : Extrap → K → Outcome (Num K)
  | .flat, value => .ok (.val value)
  | .natural, _ => .error .err
  | .notANumber, _ => .ok .nan
  | .zero, _ => .ok (.val 0)
  | .throw, _ => .error .err

/-- `lerp`, `interpolation.rs:103-105`. -/
def lerp (y0 y1 t : K) : K := y0 * (1 - t) + y1 * t

/-- `linear_interpolate`, `interpolation.rs:110-123`. -/
def linearInterpolate (p0 p1 : K × K) (x : K) : Outcome (Num K) :=
  let dx := p1.1 - p0.1
  if |dx| < 1 / 10 ^ 12 then .error .err
  else
    let dx0 := x - p0.1
    .ok (.val (lerp p0.2 p1.2 (dx0 / dx)))

/-- `binary_search_by` on increasing abscissae, replaced by its contract: the position of the first
pillar not before `x`, and whether that pillar is `x`. -/
def search (points : List (K × K)) (x : K) : Nat × Bool :=
  let i := (points.takeWhile (fun p => decide (p.1 < x))).length
  (i, (points[i]?.map Prod.fst) == some x)

/-- The numbers of a list of points, if none of the abscissae is NaN. -/
def numbers : List (Num K × K) → Option (List (K × K))
  | [] => some []
  | (.nan, _) :: _ => none
  | (.val x, y) :: rest => (numbers rest).map ((x, y) :: ·)

/-- `linear_interpolate_extrapolate`, `interpolation.rs:126-159`, once the search has compared
only numbers. -/
def interpolateNumbers (x : K) (points : List (K × K)) (left right : Extrap) : Outcome (Num K) :=
  let n := points.length
  let p (i : Nat) : K × K := points.getD i (0, 0)
  if n = 0 then .error .err
  else
    let s := search points x
    if s.2 then .ok (.val (p s.1).2)
    else if s.1 = 0 then
      if left.isNatural ∧ n > 1 then linearInterpolate (p 0) (p 1) x
      else left.extrapolate (p 0).2
    else if s.1 ≥ n then
      -- line 148 asks `left.is_natural()`
      if left.isNatural ∧ n > 1 then linearInterpolate (p (n - 2)) (p (n - 1)) x
      else right.extrapolate (p (n - 1)).2
    else linearInterpolate (p (s.1 - 1)) (p s.1) x

/-- `linear_interpolate_extrapolate`, `interpolation.rs:126-159`. A comparison with NaN panics
(lines 33-42). -/
def linearInterpolateExtrapolate (x : Num K) (points : List (Num K × K)) (left right : Extrap) :
    Outcome (Num K) :=
  match points with
  | [] => .error .err
  | _ :: _ =>
    match x, numbers points with
    | .val x, some ps => interpolateNumbers x ps left right
    | _, _ => .error .panic

/-- `interp_diff(p, q) > tolerance`, false if either is NaN. -/
def apart (p q : Num K) : Bool :=
  match p, q with
  | .val a, .val b => decide (b - a > 1 / 10 ^ 12)
  | _, _ => false

/-- The loop of `validate_abscissae`, `interpolation.rs:177-189`, with the previous abscissa. -/
def validateFrom (prev : Num K) : List (Num K × K) → Outcome Unit
  | [] => .ok ()
  | p :: rest => if apart prev p.1 then validateFrom p.1 rest else .error .err

/-- `validate_abscissae`, `interpolation.rs:166-191`. -/
def validateAbscissae : List (Num K × K) → Outcome Unit
  | [] => .error .err
  | p :: rest => validateFrom p.1 rest

/-- `Linear`, `interpolation.rs:225-230`. -/
structure Linear (K : Type) where
  left : Extrap
  right : Extrap
  points : List (Num K × K)
deriving DecidableEq

/-- `Linear::new`, `interpolation.rs:243-248`. -/
def Linear.new (points : List (Num K × K)) (left right : Extrap) : Outcome (Linear K) := do
  validateAbscissae points
  pure ⟨left, right, points⟩

/-- `Interpolate::interpolate` for `Linear`, `interpolation.rs:232-237`. -/
def Linear.interpolate (l : Linear K) (x : Num K) : Outcome (Num K) :=
  linearInterpolateExtrapolate x l.points l.left l.right

/-- `FlyweightLinear::interpolate`, `interpolation.rs:213-220`: the points come with the query and
are not validated. -/
def flyweightInterpolate (left right : Extrap) (x : Num K) (points : List (Num K × K)) :
    Outcome (Num K) := linearInterpolateExtrapolate x points left right

/-! ## Cubic spline -/

/-- The decomposition loop of `nr_spline`, `interpolation.rs:374-395`: the pair `(y2[i], u[i])`.
`natural0` stands for an infinite slope at the left end; otherwise the slope there is zero. -/
def decompose (xy : Nat → K × K) (natural0 : Bool) : Nat → K × K
  | 0 =>
    if natural0 then (0, 0)
    else
      let diff := (xy 1).1 - (xy 0).1
      (-(1 / 2), (3 / diff) * (((xy 1).2 - (xy 0).2) / diff - 0))
  | i + 1 =>
    let prev := decompose xy natural0 i
    let sig := ((xy (i + 1)).1 - (xy i).1) / ((xy (i + 2)).1 - (xy i).1)
    let p := sig * prev.1 + 2
    let tmp := ((xy (i + 2)).2 - (xy (i + 1)).2) / ((xy (i + 2)).1 - (xy (i + 1)).1)
      - ((xy (i + 1)).2 - (xy i).2) / ((xy (i + 1)).1 - (xy i).1)
    ((sig - 1) / p, (6 * tmp / ((xy (i + 2)).1 - (xy i).1) - sig * prev.2) / p)

/-- Upper boundary of `nr_spline`, `interpolation.rs:398-406`: the last second derivative of `n`
points. -/
def lastSecond (xy : Nat → K × K) (natural0 naturalN : Bool) (n : Nat) : K :=
  let d := decompose xy natural0 (n - 2)
  let (qn, un) : K × K :=
    if naturalN then (0, 0)
    else
      let diff := (xy (n - 1)).1 - (xy (n - 2)).1
      (1 / 2, (3 / diff) * (0 - ((xy (n - 1)).2 - (xy (n - 2)).2) / diff))
  (un - qn * d.2) / (qn * d.1 + 1)

/-- Back substitution, `interpolation.rs:407-409`: the second derivative `k` places before the
last. -/
def backSub (xy : Nat → K × K) (natural0 naturalN : Bool) (n : Nat) : Nat → K
  | 0 => lastSecond xy natural0 naturalN n
  | k + 1 =>
    let d := decompose xy natural0 (n - 1 - (k + 1))
    d.1 * backSub xy natural0 naturalN n k + d.2

/-- The second derivatives left in `y2` by `nr_spline`, `interpolation.rs:366-410`. The loop at line
407 runs over `1..n-1`, so the first entry is the decomposition value. -/
def secondDeriv (xy : Nat → K × K) (natural0 naturalN : Bool) (n i : Nat) : K :=
  if i = 0 then (decompose xy natural0 0).1 else backSub xy natural0 naturalN n (n - 1 - i)

/-- `nr_splint`, `interpolation.rs:418-431`. -/
def splint (lo hi : K × K) (y2lo y2hi : K) (x : K) : Outcome (Num K) :=
  let h := hi.1 - lo.1
  if h = 0 then .error .err
  else
    let a := (hi.1 - x) / h
    let b := (x - lo.1) / h
    .ok (.val (a * lo.2 + b * hi.2 + ((a * a * a - a) * y2lo + (b * b * b - b) * y2hi) * (h * h) / 6))

/-- `CubicSpline`, `interpolation.rs:258-262`, `271-276`. -/
structure CubicSpline (K : Type) where
  left : Extrap
  right : Extrap
  points : List (K × K)
  second : List K
deriving DecidableEq

/-- `CubicSpline::new`, `interpolation.rs:318-338`, with the assertion of `nr_spline` (line 371). -/
def CubicSpline.new (points : List (Num K × K)) (left right : Extrap) : Outcome (CubicSpline K) := do
  validateAbscissae points
  if points.length > 1 then
    let ps := points.map (fun p => (p.1.get, p.2))
    pure ⟨left, right, ps, (List.range ps.length).map
      (secondDeriv (fun i => ps.getD i (0, 0)) left.isNatural right.isNatural ps.length)⟩
  else .error .panic

/-- `Interpolate::interpolate` for `CubicSpline`, `interpolation.rs:278-313`. -/
def CubicSpline.interpolate (s : CubicSpline K) (x : Num K) : Outcome (Num K) :=
  let n := s.points.length
  let p (i : Nat) : K × K := s.points.getD i (0, 0)
  let z (i : Nat) : K := s.second.getD i 0
  if n = 0 then .error .err
  else
    match x with
    | .nan => .error .panic
    | .val x =>
      let f := search s.points x
      if f.2 then .ok (.val (p f.1).2)
      else if f.1 = 0 then
        if s.left.isNatural ∧ n > 1 then splint (p 0) (p 1) (z 0) (z 1) x
        else s.left.extrapolate (p 0).2
      else if f.1 ≥ n then
        -- line 299 asks `left.is_natural()`
        if s.left.isNatural ∧ n > 1 then splint (p (n - 2)) (p (n - 1)) (z (n - 2)) (z (n - 1)) x
        else s.right.extrapolate (p (n - 1)).2
      else splint (p (f.1 - 1)) (p f.1) (z (f.1 - 1)) (z f.1) x

end QM.Interp
