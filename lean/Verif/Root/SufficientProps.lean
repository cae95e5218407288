import Verif.Root.Props
import Verif.Root.Sufficient
import Mathlib.Algebra.Order.Archimedean.Basic

/-!
# Property C19: the search succeeds if it is allowed enough turns, and stays near the interval

The documentation of `zbrent` promises a root "as long as it is allowed sufficient iterations". How many that is does not depend on
the function.
-/

namespace QM.Root
open Spec

variable {K : Type} [Field K] [LinearOrder K] [IsStrictOrderedRing K]

/-- C19: if the ends do not have the same sign, `(k + 3) ^ 2` iterations are enough for any function, where the interval is at most `2 ^ k` times
as wide as the tolerance. The function need only answer within four times the width of the interval from it. -/
theorem C19_sufficient {σ : Type} {func : K → σ → Outcome K × σ} {f : K → Outcome K} (hf : Answers func f) {x1 x2 tol f1 f2 : K} {k maxIter : Nat}
    (htol : 0 < tol) (hk : |x2 - x1| ≤ 2 ^ k * tol) (hmax : (k + 3) ^ 2 ≤ maxIter)
    (hnum : ∀ x, min x1 x2 - 4 * |x2 - x1| ≤ x → x ≤ max x1 x2 + 4 * |x2 - x1| → ∃ y, f x = .ok y)
    (h1 : f x1 = .ok f1) (h2 : f x2 = .ok f2) (hs : f1 * f2 ≤ 0) (st : σ) :
    ∃ x, (zbrent x1 x2 tol maxIter func st).1 = .ok x := by
  by_cases hz : f1 = 0 ∨ f2 = 0
  · have h9 : 0 < (k + 3) ^ 2 := by positivity
    obtain ⟨n, rfl⟩ : ∃ n, maxIter = n + 1 := ⟨maxIter - 1, by omega⟩
    exact ⟨_, C19_end_is_root hf x1 x2 tol n st h1 h2 hz⟩
  · rw [not_or] at hz
    have hne : x1 ≠ x2 := by
      rintro rfl
      rw [h1] at h2
      cases h2
      exact absurd hs (not_le.2 (mul_self_pos.2 hz.1))
    have hw : 0 < |x2 - x1| := abs_pos.2 (sub_ne_zero.2 (Ne.symm hne))
    obtain ⟨t, ht⟩ : ∃ t, t = |x2 - x1| / 2 ^ (k + 2) := ⟨_, rfl⟩
    have ht0 : 0 < t := by rw [ht]; positivity
    have hwt : |x2 - x1| = 2 ^ (k + 2) * t := by rw [ht]; field_simp
    have htt : 4 * t ≤ tol := by
      rw [hwt, pow_add] at hk
      have h2k : (0 : K) < 2 ^ k := by positivity
      have : 2 ^ k * (4 * t) ≤ 2 ^ k * tol := by linarith
      exact le_of_mul_le_mul_left this h2k
    have hreach : reach t (k + 2) (2 * (k + 2)) = 4 * |x2 - x1| := by
      unfold reach
      rw [show (2 * (k + 2) + 1) / 2 = k + 2 by omega, show 2 * (k + 2) / 2 = k + 2 by omega, hwt]
      ring
    unfold zbrent
    have e1 := hf x1 st
    rw [h1] at e1
    generalize func x1 st = r at e1
    obtain ⟨r, st1⟩ := r
    dsimp only at e1
    subst e1
    dsimp only
    have e2 := hf x2 st1
    rw [h2] at e2
    generalize func x2 st1 = r at e2
    obtain ⟨r, st2⟩ := r
    dsimp only at e2
    subst e2
    dsimp only
    rw [if_neg (by
      simp only [sameSign, decide_eq_true_eq, gt_iff_lt]
      rintro (⟨p, q⟩ | ⟨p, q⟩)
      · exact absurd hs (not_le.2 (mul_pos p q))
      · exact absurd hs (not_le.2 (mul_pos_of_neg_of_neg p q)))]
    refine loop_success hf ht0 htt maxIter (k + 2) (2 * (k + 2)) _ _ _ st2 ?_ (box_start hwt.le hz.2) ?_
    · refine le_trans (le_of_eq ?_) hmax
      ring
    · rw [hreach]
      exact hnum

/-- C19: the function is never evaluated further from the interval than four times its width, and the result is one of the points
of evaluation. What is missing is that they lie in the interval: `C19_outside_interval_false`. -/
theorem C19_near_partial [Archimedean K] {σ : Type} (func : K → σ → Outcome K × σ) {x1 x2 tol : K} (maxIter : Nat) (htol : 0 < tol) (st : σ) :
    (∀ x ∈ (zbrent x1 x2 tol maxIter (logged func) ([], st)).2.1, min x1 x2 - 4 * |x2 - x1| ≤ x ∧ x ≤ max x1 x2 + 4 * |x2 - x1|) ∧
    ∀ x, (zbrent x1 x2 tol maxIter func st).1 = .ok x →
      x ∈ (zbrent x1 x2 tol maxIter (logged func) ([], st)).2.1 := by
  have hw0 : 0 ≤ |x2 - x1| := abs_nonneg _
  have hin1 : min x1 x2 - 4 * |x2 - x1| ≤ x1 ∧ x1 ≤ max x1 x2 + 4 * |x2 - x1| := by
    constructor
    · linarith [min_le_left x1 x2]
    · linarith [le_max_left x1 x2]
  have hin2 : min x1 x2 - 4 * |x2 - x1| ≤ x2 ∧ x2 ≤ max x1 x2 + 4 * |x2 - x1| := by
    constructor
    · linarith [min_le_right x1 x2]
    · linarith [le_max_right x1 x2]
  unfold zbrent
  rw [show logged func x1 ([], st) = ((func x1 st).1, ([x1], (func x1 st).2)) from rfl]
  generalize func x1 st = r
  obtain ⟨r, st1⟩ := r
  cases r with
  | error e => exact ⟨fun x hx => by rw [List.mem_singleton.1 hx]; exact hin1, fun x hx => by cases hx⟩
  | ok fa =>
    dsimp only
    rw [show logged func x2 ([x1], st1) = ((func x2 st1).1, ([x2, x1], (func x2 st1).2)) from rfl]
    generalize func x2 st1 = r
    obtain ⟨r, st2⟩ := r
    have hboth : ∀ x ∈ [x2, x1], min x1 x2 - 4 * |x2 - x1| ≤ x ∧ x ≤ max x1 x2 + 4 * |x2 - x1| := by
      intro x hx
      rcases List.mem_cons.1 hx with rfl | hx
      · exact hin2
      · rw [List.mem_singleton.1 hx]
        exact hin1
    cases r with
    | error e => exact ⟨hboth, fun x hx => by cases hx⟩
    | ok fb =>
      dsimp only
      split
      · exact ⟨hboth, fun x hx => by cases hx⟩
      · refine ⟨?_, (loop_logged func tol maxIter ⟨x1, x2, x2, 0, 0, fa, fb, fb⟩ ([x2, x1], st2) (by simp) (by simp) (by simp)).2⟩
        by_cases hfb : fb = 0
        · cases maxIter with
          | zero => exact hboth
          | succ n =>
            unfold loop
            dsimp only
            rw [if_pos (.inr (by subst hfb; simp [rename, swapBest, sameSign]))]
            exact hboth
        · by_cases hne : x1 = x2
          · subst hne
            cases maxIter with
            | zero => exact hboth
            | succ n =>
              unfold loop
              dsimp only
              rw [if_pos (.inl (by
                have e : xm (swapBest (rename ⟨x1, x1, x1, 0, 0, fa, fb, fb⟩)) = 0 := by
                  unfold xm swapBest rename
                  split <;> split <;> simp
                rw [e, abs_zero]
                have := tol1_ge (swapBest (rename ⟨x1, x1, x1, 0, 0, fa, fb, fb⟩)) tol
                linarith))]
              exact hboth
          · have hw : 0 < |x2 - x1| := abs_pos.2 (sub_ne_zero.2 (Ne.symm hne))
            obtain ⟨k, hk⟩ := pow_unbounded_of_one_lt (4 * |x2 - x1| / tol) (one_lt_two (α := K))
            obtain ⟨t, ht⟩ : ∃ t, t = |x2 - x1| / 2 ^ k := ⟨_, rfl⟩
            have h2k : (0 : K) < 2 ^ k := by positivity
            have ht0 : 0 < t := by rw [ht]; positivity
            have hwt : |x2 - x1| = 2 ^ k * t := by rw [ht]; field_simp
            have htt : 4 * t ≤ tol := by
              rw [div_lt_iff₀ htol, hwt] at hk
              have : 2 ^ k * (4 * t) ≤ 2 ^ k * tol := by linarith
              exact le_of_mul_le_mul_left this h2k
            have hreach : reach t k (2 * k) = 4 * |x2 - x1| := by
              unfold reach
              rw [show (2 * k + 1) / 2 = k by omega, show 2 * k / 2 = k by omega, hwt]
              ring
            intro x hx
            have := loop_within func ht0 htt maxIter k (2 * k) _ _ ⟨x1, x2, x2, 0, 0, fa, fb, fb⟩ ([x2, x1], st2) (box_start hwt.le hfb) x hx
            rw [hreach] at this
            exact this.elim (hboth x) id

/-- C19: a search over an interval of one thousand and twenty-four tolerances for the cube root of two; 169 iterations are enough. -/
example : ∃ x, (zbrent (0 : ℚ) 2 (1 / 512) 169 (fun x (st : Unit) => (.ok (x ^ 3 - 2), st)) ()).1 = .ok x :=
  C19_sufficient (f := fun x => .ok (x ^ 3 - 2)) (k := 10) (fun _ _ => rfl) (by norm_num) (by norm_num) (by norm_num) (fun x _ _ => ⟨_, rfl⟩) rfl rfl
    (by norm_num) ()

end QM.Root
