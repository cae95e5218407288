import Verif.Basic
import Mathlib.Algebra.Order.Field.Basic
import Mathlib.Algebra.Order.Ring.Abs

/-!
# Model of `src/math/brent.rs`

Numbers are exact elements of an ordered field. The function being solved is a Rust `FnMut`: it takes a
number and a hidden state, and returns a number or an error together with the new state.

The Rust variables `d` and `e` start as NaN, here as zero. `NanModel.lean` has the same functions for a function that may answer
NaN, with `d` and `e` starting as NaN; `C19_numbers` shows that the two agree on functions that answer with numbers.
-/

namespace QM.Root

variable {K : Type} [Field K] [LinearOrder K]

/-- `std::f64::EPSILON`. -/
def epsilon : K := 1 / 2 ^ 52

/-- `f64::signum`. Differences that are zero are plus zero, whose `signum` is 1. -/
def signum (x : K) : K := if x ≥ 0 then 1 else -1

/-- Both strictly positive or both strictly negative: the test at `brent.rs:22` and `35`. -/
def sameSign (x y : K) : Bool := decide ((x > 0 ∧ y > 0) ∨ (x < 0 ∧ y < 0))

/-- The mutable variables of the loop, `brent.rs:16-33`. -/
structure Vars (K : Type) where
  a : K
  b : K
  c : K
  d : K
  e : K
  fa : K
  fb : K
  fc : K

/-- Rename, `brent.rs:35-41`. -/
def rename (v : Vars K) : Vars K :=
  if sameSign v.fb v.fc then { v with c := v.a, fc := v.fa, d := v.b - v.a, e := v.b - v.a } else v

/-- Swap so that `b` is the best guess, `brent.rs:42-49`. -/
def swapBest (v : Vars K) : Vars K :=
  if |v.fc| < |v.fb| then { v with a := v.b, b := v.c, c := v.b, fa := v.fb, fb := v.fc, fc := v.fb } else v

/-- `tol1`, `brent.rs:51`. -/
def tol1 (v : Vars K) (tol : K) : K := 2 * epsilon * |v.b| + 1 / 2 * tol

/-- `xm`, `brent.rs:52`. -/
def xm (v : Vars K) : K := 1 / 2 * (v.c - v.b)

/-- The pair `(p, q)` before the sign adjustment, `brent.rs:58-67`. -/
def quadratic (v : Vars K) : K × K :=
  let s := v.fb / v.fa
  if v.a = v.c then (2 * xm v * s, 1 - s)
  else
    let q := v.fa / v.fc
    let r := v.fb / v.fc
    (s * (2 * xm v * q * (q - r) - (v.b - v.a) * (r - 1)), (q - 1) * (r - 1) * (s - 1))

/-- The new `(d, e)`, `brent.rs:56-89`. The bound `min1` is as written at line 73. -/
def newStep (v : Vars K) (tol : K) : K × K :=
  if |v.e| ≥ tol1 v tol ∧ |v.fa| > |v.fb| then
    let pq := quadratic v
    let q := if pq.1 > 0 then -pq.2 else pq.2
    let p := |pq.1|
    let min1 := 3 * xm v * q * |tol1 v tol - q|
    let min2 := |v.e * q|
    if 2 * p < min min1 min2 then (p / q, v.d) else (xm v, xm v)
  else (xm v, xm v)

/-- The new trial root, `brent.rs:95-99`. -/
def newTrial (v : Vars K) (tol d : K) : K :=
  if |d| > tol1 v tol then v.b + d else v.b + |tol1 v tol| * signum (xm v)

/-- The `for` loop, `brent.rs:34-101`. -/
def loop {σ : Type} (func : K → σ → Outcome K × σ) (tol : K) : Nat → Vars K → σ → Outcome K × σ
  | 0, _, st => (.error .err, st)
  | n + 1, v, st =>
    let v := swapBest (rename v)
    if |xm v| ≤ tol1 v tol ∨ v.fb = 0 then (.ok v.b, st)
    else
      let de := newStep v tol
      let b := newTrial v tol de.1
      match func b st with
      | (.error x, st) => (.error x, st)
      | (.ok fb, st) => loop func tol n { v with a := v.b, fa := v.fb, d := de.1, e := de.2, b := b, fb := fb } st

/-- `zbrent`, `brent.rs:12-104`. -/
def zbrent {σ : Type} (x1 x2 tol : K) (maxIter : Nat) (func : K → σ → Outcome K × σ) (st : σ) : Outcome K × σ :=
  match func x1 st with
  | (.error x, st) => (.error x, st)
  | (.ok fa, st) =>
    match func x2 st with
    | (.error x, st) => (.error x, st)
    | (.ok fb, st) =>
      if sameSign fa fb then (.error .err, st)
      else loop func tol maxIter { a := x1, b := x2, c := x2, d := 0, e := 0, fa := fa, fb := fb, fc := fb } st

end QM.Root
