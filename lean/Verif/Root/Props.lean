import Verif.Root.Lemmas
import Mathlib.Data.Rat.Floor
import Mathlib.Data.Real.Basic
import Mathlib.Topology.Order.IntermediateValue
import Mathlib.Topology.Instances.Real.Lemmas

/-!
# Property C19: the root finder
-/

namespace QM.Root
open Set Spec

section
variable {K : Type} [Field K] [LinearOrder K]


/-- C19. A successful result is an exact zero, or the function changes strictly from one sign to the other
between the result and a point within the tolerance of it. -/
theorem C19_result [IsStrictOrderedRing K] {σ : Type} {func : K → σ → Outcome K × σ} {f : K → Outcome K}
    (hf : Answers func f) {x1 x2 tol x : K} {maxIter : Nat} {st : σ}
    (h : (zbrent x1 x2 tol maxIter func st).1 = .ok x) :
    f x = .ok 0 ∨ ∃ y fx fy, f x = .ok fx ∧ f y = .ok fy ∧ ((fx < 0 ∧ 0 < fy) ∨ (0 < fx ∧ fy < 0)) ∧
      |y - x| ≤ tol + 4 * (1 / 2 ^ 52) * |x| := by
  unfold zbrent at h
  generalize hr1 : func x1 st = res1 at h
  obtain ⟨o1, st1⟩ := res1
  cases o1 with
  | error e => cases h
  | ok fa =>
    simp only at h
    generalize hr2 : func x2 st1 = res2 at h
    obtain ⟨o2, st2⟩ := res2
    cases o2 with
    | error e => cases h
    | ok fb =>
      simp only at h
      split at h
      · cases h
      · rename_i hs
        refine loop_result hf tol maxIter _ st2 x ⟨?_, ?_, ?_, ?_⟩ h
        · rw [← hf x1 st, hr1]
        · rw [← hf x2 st1, hr2]
        · rw [← hf x2 st1, hr2]
        · intro _; simpa using hs

/-- C19. The function is evaluated at most `maxIter + 2` times. -/
theorem C19_evaluations {σ : Type} (func : K → σ → Outcome K × σ) (x1 x2 tol : K) (maxIter : Nat) (st : σ) :
    (zbrent x1 x2 tol maxIter (counted func) (0, st)).2.1 ≤ maxIter + 2 := by
  unfold zbrent
  generalize hr : counted func x1 (0, st) = res
  obtain ⟨o, st1⟩ := res
  have h1 : st1.1 = 1 := by
    have := congrArg (fun r => r.2.1) hr
    simp only [counted] at this
    exact this.symm
  cases o with
  | error e => simp only; omega
  | ok fa =>
    simp only
    generalize hr : counted func x2 st1 = res
    obtain ⟨o, st2⟩ := res
    have h2 : st2.1 = 2 := by
      have := congrArg (fun r => r.2.1) hr
      simp only [counted] at this
      omega
    cases o with
    | error e => simp only; omega
    | ok fb =>
      simp only
      split
      · simp only; omega
      · exact le_trans (loop_count func tol maxIter _ st2) (by omega)

/-- C19. If any evaluation fails, the search stops with that error. -/
theorem C19_error_passed_on {σ : Type} (func : K → σ → Outcome K × σ) (x1 x2 tol : K) (maxIter : Nat) (st : σ) (e : Fault)
    (h : (zbrent x1 x2 tol maxIter (remembered func) (none, st)).2.1 = some e) :
    (zbrent x1 x2 tol maxIter (remembered func) (none, st)).1 = .error e := by
  unfold zbrent at h ⊢
  generalize hr : remembered func x1 (none, st) = res at h
  obtain ⟨o, st1⟩ := res
  have e1 := congrArg (fun r => r.1) hr
  have e2 := congrArg (fun r => r.2.1) hr
  simp only [remembered] at e1 e2
  cases o with
  | error x =>
    rw [e1] at e2
    simp only at h e2 ⊢
    rw [← e2] at h
    exact congrArg _ (Option.some.inj h)
  | ok fa =>
    rw [e1] at e2
    simp only at h e2 ⊢
    generalize hr' : remembered func x2 st1 = res at h
    obtain ⟨o, st2⟩ := res
    have e3 := congrArg (fun r => r.1) hr'
    have e4 := congrArg (fun r => r.2.1) hr'
    simp only [remembered] at e3 e4
    cases o with
    | error x =>
      rw [e3] at e4
      simp only at h e4 ⊢
      rw [← e4] at h
      exact congrArg _ (Option.some.inj h)
    | ok fb =>
      rw [e3] at e4
      simp only at h e4 ⊢
      split at h
      · rw [← e4, ← e2] at h; cases h
      · rename_i hc
        rw [if_neg hc]
        exact loop_error func tol e maxIter _ st2 (by rw [← e4, ← e2]) h

/-- C19. Ends at which the function has the same strict sign are refused after two evaluations. -/
theorem C19_same_sign_refused {σ : Type} {func : K → σ → Outcome K × σ} {f : K → Outcome K}
    (hf : Answers func f) (x1 x2 tol : K) (maxIter : Nat) (st : σ) {f1 f2 : K} (h1 : f x1 = .ok f1) (h2 : f x2 = .ok f2)
    (hs : (0 < f1 ∧ 0 < f2) ∨ (f1 < 0 ∧ f2 < 0)) : (zbrent x1 x2 tol maxIter func st).1 = .error .err := by
  unfold zbrent
  generalize hr : func x1 st = res
  obtain ⟨o, st1⟩ := res
  have e1 := hf x1 st
  rw [hr, h1] at e1
  simp only at e1
  subst e1
  simp only
  generalize hr : func x2 st1 = res
  obtain ⟨o, st2⟩ := res
  have e1 := hf x2 st1
  rw [hr, h2] at e1
  simp only at e1
  subst e1
  simp only
  rw [if_pos (by simpa [sameSign] using hs)]

/-- C19. Ends that bracket a root, or touch it, are not refused for their signs: any failure then comes
from the function or from running out of iterations. With at least one iteration, an end at which the function is exactly
zero is returned. -/
theorem C19_end_is_root [IsStrictOrderedRing K] {σ : Type} {func : K → σ → Outcome K × σ} {f : K → Outcome K}
    (hf : Answers func f) (x1 x2 tol : K) (maxIter : Nat) (st : σ) {f1 f2 : K} (h1 : f x1 = .ok f1) (h2 : f x2 = .ok f2)
    (hz : f1 = 0 ∨ f2 = 0) :
    (zbrent x1 x2 tol (maxIter + 1) func st).1 = .ok (if f2 = 0 then x2 else x1) := by
  unfold zbrent
  generalize hr : func x1 st = res
  obtain ⟨o, st1⟩ := res
  have e1 := hf x1 st
  rw [hr, h1] at e1
  simp only at e1
  subst e1
  simp only
  generalize hr : func x2 st1 = res
  obtain ⟨o, st2⟩ := res
  have e1 := hf x2 st1
  rw [hr, h2] at e1
  simp only at e1
  subst e1
  simp only
  have hns : sameSign f1 f2 = false := by
    simp only [sameSign, decide_eq_false_iff_not]
    rcases hz with h | h <;> rw [h] <;> simp
  rw [hns]
  simp only [Bool.false_eq_true, if_false]
  unfold loop
  by_cases h0 : f2 = 0
  · rw [if_pos h0]
    subst h0
    simp [rename, swapBest, sameSign]
  · have hf1 := hz.resolve_right h0
    subst hf1
    rw [if_neg h0]
    have hss : sameSign f2 f2 = true := by
      simp only [sameSign, decide_eq_true_eq, gt_iff_lt, and_self]
      exact (lt_or_gt_of_ne h0).symm
    simp [rename, swapBest, hss, h0]

end

/-- C19. For a continuous function of a real variable a true root lies within the tolerance of the result. -/
theorem C19_root_near {σ : Type} {func : ℝ → σ → Outcome ℝ × σ} {g : ℝ → ℝ} (hf : Answers func (fun x => .ok (g x)))
    (hg : Continuous g) {x1 x2 tol x : ℝ} {maxIter : Nat} {st : σ} (htol : 0 ≤ tol)
    (h : (zbrent x1 x2 tol maxIter func st).1 = .ok x) :
    ∃ root, g root = 0 ∧ |root - x| ≤ tol + 4 * (1 / 2 ^ 52) * |x| := by
  rcases C19_result hf h with h0 | ⟨y, fx, fy, hx, hy, hs, hd⟩
  · refine ⟨x, by simpa using h0, ?_⟩
    rw [sub_self, abs_zero]
    have : (0 : ℝ) ≤ 4 * (1 / 2 ^ 52) * |x| := by positivity
    linarith
  · simp only [Except.ok.injEq] at hx hy
    have hzero : (0 : ℝ) ∈ uIcc (g x) (g y) := by
      rw [hx, hy, mem_uIcc]
      rcases hs with ⟨p, q⟩ | ⟨p, q⟩
      · left; exact ⟨p.le, q.le⟩
      · right; exact ⟨q.le, p.le⟩
    obtain ⟨r, hr, hr0⟩ := intermediate_value_uIcc (hg.continuousOn (s := uIcc x y)) hzero
    refine ⟨r, hr0, le_trans ?_ hd⟩
    have := abs_sub_left_of_mem_uIcc hr
    simpa using this

/-- C19. If a continuous function has no root outside the interval, the result lies in the interval up to the
tolerance. The full property asks this of every function; `C19_outside_interval_false` shows that it
fails. -/
theorem C19_in_interval_partial {σ : Type} {func : ℝ → σ → Outcome ℝ × σ} {g : ℝ → ℝ} (hf : Answers func (fun x => .ok (g x)))
    (hg : Continuous g) {x1 x2 tol x : ℝ} {maxIter : Nat} {st : σ} (htol : 0 ≤ tol)
    (hroots : ∀ r, g r = 0 → x1 ≤ r ∧ r ≤ x2)
    (h : (zbrent x1 x2 tol maxIter func st).1 = .ok x) :
    x1 - (tol + 4 * (1 / 2 ^ 52) * |x|) ≤ x ∧ x ≤ x2 + (tol + 4 * (1 / 2 ^ 52) * |x|) := by
  obtain ⟨r, hr, hd⟩ := C19_root_near hf hg htol h
  obtain ⟨h1, h2⟩ := hroots r hr
  rw [abs_le] at hd
  exact ⟨by linarith [hd.2], by linarith [hd.1]⟩

/-- A function with a sign change between 0 and 1, given by a table. -/
def escaping (x : ℚ) : ℚ :=
  if x = 0 then 90 else if x = 1 then -96 else if x = 15 / 31 then 54 else if x = 147 / 155 then 8 else 0

/-- C19, violated: the search can leave the interval and return a point outside it, because the bound at
`brent.rs:73` is `3·xm·q·|tol1 − q|` instead of `3·xm·q − |tol1·q|`. -/
theorem C19_outside_interval_false :
    escaping 0 > 0 ∧ escaping 1 < 0 ∧
    (zbrent (0 : ℚ) 1 (1 / 1000) 10 (fun x (st : Unit) => (.ok (escaping x), st)) ()).1 = .ok (232077 / 231725) := by
  decide +kernel

/-- C19: the hypotheses are met by a concrete search that takes several turns. -/
example : ∃ x, (zbrent (0 : ℚ) 2 (1 / 100) 50 (fun x (st : Unit) => (.ok (x * x - 2), st)) ()).1 = .ok x ∧
    |x * x - 2| < 1 / 100 := by
  refine ⟨((zbrent (0 : ℚ) 2 (1 / 100) 50 (fun x (st : Unit) => (.ok (x * x - 2), st)) ()).1).toOption.getD 0, ?_, ?_⟩ <;>
    decide +kernel

/-- Running out of iterations is an error. -/
example : (zbrent (0 : ℚ) 2 (1 / 100) 2 (fun x (st : Unit) => (.ok (x * x - 2), st)) ()).1 = .error .err := by
  decide +kernel

end QM.Root
