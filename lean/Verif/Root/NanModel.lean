import Verif.Root.Model
import Verif.Interp.Model

/-!
# Model of `src/math/brent.rs` for functions that may answer NaN

The positions `a`, `b` and `c` are always numbers, because a trial step `d` is only added where it compares as larger than the
tolerance. The values `fa`, `fb`, `fc` and the steps `d` and `e` may be NaN. A comparison with NaN is false, and so is equality.
Division by zero counts as NaN.
-/

namespace QM.Root
open QM.Interp

variable {K : Type} [Field K] [LinearOrder K]

namespace N

/-- An operation on two numbers, NaN if either is. -/
def lift (f : K → K → K) : Num K → Num K → Num K
  | .val x, .val y => .val (f x y)
  | _, _ => .nan

/-- Division. -/
def div : Num K → Num K → Num K
  | .val x, .val y => if y = 0 then .nan else .val (x / y)
  | _, _ => .nan

/-- `abs`. -/
def abs : Num K → Num K
  | .val x => .val |x|
  | .nan => .nan

/-- Negation. -/
def neg : Num K → Num K
  | .val x => .val (- x)
  | .nan => .nan

/-- `<`. -/
def lt : Num K → Num K → Bool
  | .val x, .val y => decide (x < y)
  | _, _ => false

/-- `<=`. -/
def le : Num K → Num K → Bool
  | .val x, .val y => decide (x ≤ y)
  | _, _ => false

/-- `f64::min`, which ignores NaN. -/
def min : Num K → Num K → Num K
  | .val x, .val y => .val (Min.min x y)
  | .nan, y => y
  | x, .nan => x

end N

open N

/-- The test at `brent.rs:22` and `35`. -/
def sameSignN (x y : Num K) : Bool := (lt (.val 0) x && lt (.val 0) y) || (lt x (.val 0) && lt y (.val 0))

/-- The mutable variables of the loop, `brent.rs:16-33`. -/
structure VarsN (K : Type) where
  a : K
  b : K
  c : K
  d : Num K
  e : Num K
  fa : Num K
  fb : Num K
  fc : Num K

/-- Rename, `brent.rs:35-41`. -/
def renameN (v : VarsN K) : VarsN K :=
  if sameSignN v.fb v.fc then { v with c := v.a, fc := v.fa, d := .val (v.b - v.a), e := .val (v.b - v.a) } else v

/-- Swap so that `b` is the best guess, `brent.rs:42-49`. -/
def swapBestN (v : VarsN K) : VarsN K :=
  if lt (N.abs v.fc) (N.abs v.fb) then { v with a := v.b, b := v.c, c := v.b, fa := v.fb, fb := v.fc, fc := v.fb } else v

/-- `tol1`, `brent.rs:51`. -/
def tol1N (v : VarsN K) (tol : K) : K := 2 * epsilon * |v.b| + 1 / 2 * tol

/-- `xm`, `brent.rs:52`. -/
def xmN (v : VarsN K) : K := 1 / 2 * (v.c - v.b)

/-- The pair `(p, q)` before the sign adjustment, `brent.rs:58-67`. -/
def quadraticN (v : VarsN K) : Num K × Num K :=
  let s := N.div v.fb v.fa
  if v.a = v.c then (lift (· * ·) (.val (2 * xmN v)) s, lift (· - ·) (.val 1) s)
  else
    let q := N.div v.fa v.fc
    let r := N.div v.fb v.fc
    (lift (· * ·) s (lift (· - ·) (lift (· * ·) (lift (· * ·) (.val (2 * xmN v)) q) (lift (· - ·) q r))
        (lift (· * ·) (.val (v.b - v.a)) (lift (· - ·) r (.val 1)))),
      lift (· * ·) (lift (· * ·) (lift (· - ·) q (.val 1)) (lift (· - ·) r (.val 1))) (lift (· - ·) s (.val 1)))

/-- The new `(d, e)`, `brent.rs:56-89`. -/
def newStepN (v : VarsN K) (tol : K) : Num K × Num K :=
  if le (.val (tol1N v tol)) (N.abs v.e) && lt (N.abs v.fb) (N.abs v.fa) then
    let pq := quadraticN v
    let q := if lt (.val 0) pq.1 then neg pq.2 else pq.2
    let p := N.abs pq.1
    let min1 := lift (· * ·) (lift (· * ·) (.val (3 * xmN v)) q) (N.abs (lift (· - ·) (.val (tol1N v tol)) q))
    let min2 := N.abs (lift (· * ·) v.e q)
    if lt (lift (· * ·) (.val 2) p) (N.min min1 min2) then (N.div p q, v.d) else (.val (xmN v), .val (xmN v))
  else (.val (xmN v), .val (xmN v))

/-- The new trial root, `brent.rs:95-99`. -/
def newTrialN (v : VarsN K) (tol : K) : Num K → K
  | .val d => if |d| > tol1N v tol then v.b + d else v.b + |tol1N v tol| * signum (xmN v)
  | .nan => v.b + |tol1N v tol| * signum (xmN v)

/-- The `for` loop, `brent.rs:34-101`. -/
def loopN {σ : Type} (func : K → σ → Outcome (Num K) × σ) (tol : K) : Nat → VarsN K → σ → Outcome K × σ
  | 0, _, st => (.error .err, st)
  | n + 1, v, st =>
    let v := swapBestN (renameN v)
    if |xmN v| ≤ tol1N v tol ∨ v.fb = .val 0 then (.ok v.b, st)
    else
      let de := newStepN v tol
      let b := newTrialN v tol de.1
      match func b st with
      | (.error x, st) => (.error x, st)
      | (.ok fb, st) => loopN func tol n { v with a := v.b, fa := v.fb, d := de.1, e := de.2, b := b, fb := fb } st

/-- `zbrent`, `brent.rs:12-104`. -/
def zbrentN {σ : Type} (x1 x2 tol : K) (maxIter : Nat) (func : K → σ → Outcome (Num K) × σ) (st : σ) : Outcome K × σ :=
  match func x1 st with
  | (.error x, st) => (.error x, st)
  | (.ok fa, st) =>
    match func x2 st with
    | (.error x, st) => (.error x, st)
    | (.ok fb, st) =>
      if sameSignN fa fb then (.error .err, st)
      else loopN func tol maxIter { a := x1, b := x2, c := x2, d := .nan, e := .nan, fa := fa, fb := fb, fc := fb } st

end QM.Root
