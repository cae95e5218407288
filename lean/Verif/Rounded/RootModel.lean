import Verif.Rounded.Spec
import Verif.Root.Model

/-!
# The root finder in rounded arithmetic

`src/math/brent.rs` with every floating-point operation rounded. The function being solved is arbitrary, and the search
sees its values as they are. Comparisons, absolute values, `min` and changes of sign are exact. NaN, overflow and underflow
are not modelled; `d` and `e` start as zero instead of NaN and are set before they are used (`Root/NanModel.lean`).
-/

namespace QM.Rounded
open QM.Root (Vars sameSign swapBest signum epsilon)

variable {K : Type} [Field K] [LinearOrder K]

/-- Rename, `brent.rs:35-41`. -/
def rename (r : Rounding K) (v : Vars K) : Vars K :=
  if sameSign v.fb v.fc then { v with c := v.a, fc := v.fa, d := r.rnd (v.b - v.a), e := r.rnd (v.b - v.a) } else v

/-- `tol1`, `brent.rs:51`. -/
def tol1 (r : Rounding K) (v : Vars K) (tol : K) : K := r.rnd (r.rnd (r.rnd (2 * epsilon) * |v.b|) + r.rnd (1 / 2 * tol))

/-- `xm`, `brent.rs:52`. -/
def xm (r : Rounding K) (v : Vars K) : K := r.rnd (1 / 2 * r.rnd (v.c - v.b))

/-- The pair `(p, q)` before the sign adjustment, `brent.rs:58-67`. -/
def quadratic (r : Rounding K) (v : Vars K) : K × K :=
  let s := r.rnd (v.fb / v.fa)
  if v.a = v.c then (r.rnd (r.rnd (2 * xm r v) * s), r.rnd (1 - s))
  else
    let q := r.rnd (v.fa / v.fc)
    let t := r.rnd (v.fb / v.fc)
    (r.rnd (s * r.rnd (r.rnd (r.rnd (r.rnd (2 * xm r v) * q) * r.rnd (q - t)) - r.rnd (r.rnd (v.b - v.a) * r.rnd (t - 1)))),
      r.rnd (r.rnd (r.rnd (q - 1) * r.rnd (t - 1)) * r.rnd (s - 1)))

/-- The new `(d, e)`, `brent.rs:56-89`. The bound `min1` is as written at line 73. -/
def newStep (r : Rounding K) (v : Vars K) (tol : K) : K × K :=
  if |v.e| ≥ tol1 r v tol ∧ |v.fa| > |v.fb| then
    let pq := quadratic r v
    let q := if pq.1 > 0 then -pq.2 else pq.2
    let p := |pq.1|
    let min1 := r.rnd (r.rnd (r.rnd (3 * xm r v) * q) * |r.rnd (tol1 r v tol - q)|)
    let min2 := |r.rnd (v.e * q)|
    if r.rnd (2 * p) < min min1 min2 then (r.rnd (p / q), v.d) else (xm r v, xm r v)
  else (xm r v, xm r v)

/-- The new trial root, `brent.rs:95-99`. -/
def newTrial (r : Rounding K) (v : Vars K) (tol d : K) : K :=
  if |d| > tol1 r v tol then r.rnd (v.b + d) else r.rnd (v.b + r.rnd (|tol1 r v tol| * signum (xm r v)))

/-- The `for` loop, `brent.rs:34-101`. -/
def searchLoop (r : Rounding K) {σ : Type} (func : K → σ → Outcome K × σ) (tol : K) : Nat → Vars K → σ → Outcome K × σ
  | 0, _, st => (.error .err, st)
  | n + 1, v, st =>
    let v := swapBest (rename r v)
    if |xm r v| ≤ tol1 r v tol ∨ v.fb = 0 then (.ok v.b, st)
    else
      let de := newStep r v tol
      let b := newTrial r v tol de.1
      match func b st with
      | (.error x, st) => (.error x, st)
      | (.ok fb, st) => searchLoop r func tol n { v with a := v.b, fa := v.fb, d := de.1, e := de.2, b := b, fb := fb } st

/-- `zbrent`, `brent.rs:12-104`. -/
def zbrent (r : Rounding K) {σ : Type} (x1 x2 tol : K) (maxIter : Nat) (func : K → σ → Outcome K × σ) (st : σ) : Outcome K × σ :=
  match func x1 st with
  | (.error x, st) => (.error x, st)
  | (.ok fa, st) =>
    match func x2 st with
    | (.error x, st) => (.error x, st)
    | (.ok fb, st) =>
      if sameSign fa fb then (.error .err, st)
      else searchLoop r func tol maxIter { a := x1, b := x2, c := x2, d := 0, e := 0, fa := fa, fb := fb, fc := fb } st

end QM.Rounded
