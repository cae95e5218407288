import Verif.Interp.Model

/-!
# Specification of mixtures of interpolated curves
-/

namespace QM.Interp.Spec
open QM.Interp

/-- The answers of three curves: the third is `c` times the first plus `d` times the second plus `e`, or all are NaN, or all fail
alike. -/
inductive Blend {K : Type} [Field K] (c d e : K) : Outcome (Num K) → Outcome (Num K) → Outcome (Num K) → Prop
  | value (v w : K) : Blend c d e (.ok (.val v)) (.ok (.val w)) (.ok (.val (c * v + d * w + e)))
  | nan : Blend c d e (.ok .nan) (.ok .nan) (.ok .nan)
  | error (f : Fault) : Blend c d e (.error f) (.error f) (.error f)

end QM.Interp.Spec
