import Verif.Rounded.RootSufficient
import Verif.Rounded.Props
import Mathlib.Algebra.Order.Archimedean.Basic

/-!
# Property C84: finding roots in floating-point arithmetic

Property C19 is about exact numbers. These theorems are about the same code when every operation of the search rounds its result. Two
kinds of rounding are allowed: any with a relative error of at most a hundredth, or any `Fine`, with errors no larger than those of `f64`.
-/

namespace QM.Rounded
open QM.Root (Vars sameSign swapBest signum epsilon epsilon_pos)
open QM.Root.Spec

variable {K : Type} [Field K] [LinearOrder K]

/-- C84: without rounding this is the search of C19. -/
theorem C84_exact {r : Rounding K} (hr : ∀ x, r.rnd x = x) {σ : Type} (x1 x2 tol : K) (maxIter : Nat) (func : K → σ → Outcome K × σ) (st : σ) :
    zbrent r x1 x2 tol maxIter func st = Root.zbrent x1 x2 tol maxIter func st := by
  unfold zbrent Root.zbrent
  simp only [loop_exact hr]
  rfl

/-- C84: ends at which the function has the same strict sign are refused. -/
theorem C84_same_sign_refused (r : Rounding K) {σ : Type} {func : K → σ → Outcome K × σ} {f : K → Outcome K}
    (hf : Answers func f) (x1 x2 tol : K) (maxIter : Nat) (st : σ) {f1 f2 : K} (h1 : f x1 = .ok f1) (h2 : f x2 = .ok f2)
    (hs : (0 < f1 ∧ 0 < f2) ∨ (f1 < 0 ∧ f2 < 0)) : (zbrent r x1 x2 tol maxIter func st).1 = .error .err := by
  unfold zbrent
  have e1 := hf x1 st
  rw [h1] at e1
  generalize func x1 st = res at e1
  obtain ⟨o, st1⟩ := res
  dsimp only at e1
  subst e1
  dsimp only
  have e2 := hf x2 st1
  rw [h2] at e2
  generalize func x2 st1 = res at e2
  obtain ⟨o, st2⟩ := res
  dsimp only at e2
  subst e2
  dsimp only
  rw [if_pos (by simpa [sameSign] using hs)]

/-- C84: the function is evaluated at most `maxIter + 2` times. -/
theorem C84_evaluations (r : Rounding K) {σ : Type} (func : K → σ → Outcome K × σ) (x1 x2 tol : K) (maxIter : Nat) (st : σ) :
    (zbrent r x1 x2 tol maxIter (counted func) (0, st)).2.1 ≤ maxIter + 2 := by
  unfold zbrent
  generalize hr : counted func x1 (0, st) = res
  obtain ⟨o, st1⟩ := res
  have h1 : st1.1 = 1 := by
    have := congrArg (fun r => r.2.1) hr
    simp only [counted] at this
    exact this.symm
  cases o with
  | error e => simp only; omega
  | ok fa =>
    simp only
    generalize hr : counted func x2 st1 = res
    obtain ⟨o, st2⟩ := res
    have h2 : st2.1 = 2 := by
      have := congrArg (fun r => r.2.1) hr
      simp only [counted] at this
      omega
    cases o with
    | error e => simp only; omega
    | ok fb =>
      simp only
      split
      · simp only; omega
      · exact le_trans (loop_count r func tol maxIter _ st2) (by omega)

/-- C84: if any evaluation fails, the search stops with that error. -/
theorem C84_error_passed_on (r : Rounding K) {σ : Type} (func : K → σ → Outcome K × σ) (x1 x2 tol : K) (maxIter : Nat) (st : σ) (e : Fault)
    (h : (zbrent r x1 x2 tol maxIter (remembered func) (none, st)).2.1 = some e) :
    (zbrent r x1 x2 tol maxIter (remembered func) (none, st)).1 = .error e := by
  unfold zbrent at h ⊢
  generalize hr : remembered func x1 (none, st) = res at h
  obtain ⟨o, st1⟩ := res
  have e1 := congrArg (fun r => r.1) hr
  have e2 := congrArg (fun r => r.2.1) hr
  simp only [remembered] at e1 e2
  cases o with
  | error x =>
    rw [e1] at e2
    simp only at h e2 ⊢
    rw [← e2] at h
    exact congrArg _ (Option.some.inj h)
  | ok fa =>
    rw [e1] at e2
    simp only at h e2 ⊢
    generalize hr' : remembered func x2 st1 = res at h
    obtain ⟨o, st2⟩ := res
    have e3 := congrArg (fun r => r.1) hr'
    have e4 := congrArg (fun r => r.2.1) hr'
    simp only [remembered] at e3 e4
    cases o with
    | error x =>
      rw [e3] at e4
      simp only at h e4 ⊢
      rw [← e4] at h
      exact congrArg _ (Option.some.inj h)
    | ok fb =>
      rw [e3] at e4
      simp only at h e4 ⊢
      split at h
      · rw [← e4, ← e2] at h; cases h
      · rename_i hc
        rw [if_neg hc]
        exact loop_error r func tol e maxIter _ st2 (by rw [← e4, ← e2]) h

variable [IsStrictOrderedRing K]

/-- C84: a successful result is an exact zero, or the function changes strictly from one sign to the other between the result and a point
near it. The distance is that of C19, but for at most six rounding errors. -/
theorem C84_result {r : Rounding K} (hu : r.unit ≤ 1 / 100) {σ : Type} {func : K → σ → Outcome K × σ} {f : K → Outcome K}
    (hf : Answers func f) {x1 x2 tol x : K} (htol : 0 ≤ tol) {maxIter : Nat} {st : σ}
    (h : (zbrent r x1 x2 tol maxIter func st).1 = .ok x) :
    f x = .ok 0 ∨ ∃ y fx fy, f x = .ok fx ∧ f y = .ok fy ∧ ((fx < 0 ∧ 0 < fy) ∨ (0 < fx ∧ fy < 0)) ∧
      |y - x| ≤ (1 + 6 * r.unit) * (tol + 4 * (1 / 2 ^ 52) * |x|) := by
  unfold zbrent at h
  generalize hr1 : func x1 st = res1 at h
  obtain ⟨o1, st1⟩ := res1
  cases o1 with
  | error e => cases h
  | ok fa =>
    simp only at h
    generalize hr2 : func x2 st1 = res2 at h
    obtain ⟨o2, st2⟩ := res2
    cases o2 with
    | error e => cases h
    | ok fb =>
      simp only at h
      split at h
      · cases h
      · rename_i hs
        have hinv : Root.Inv f ⟨x1, x2, x2, 0, 0, fa, fb, fb⟩ :=
          ⟨by rw [← hf x1 st, hr1], by rw [← hf x2 st1, hr2], by rw [← hf x2 st1, hr2], fun _ => by simpa using hs⟩
        rcases loop_bracket r hf tol maxIter _ st2 x hinv h with h0 | ⟨w, rfl, h1, h2, h3, h4⟩
        · exact .inl h0
        · refine .inr ⟨w.c, w.fb, w.fc, h1, h2, h3, ?_⟩
          have a := (le_xm r w).trans (h4.trans (tol1_le r w htol))
          have u0 := r.unit_nonneg
          have hpos : 0 < (1 - r.unit) ^ 2 := pow_pos (by linarith) _
          have hz : 0 ≤ tol + 4 * epsilon * |w.b| := by
            have := mul_nonneg (epsilon_pos (K := K)).le (abs_nonneg w.b)
            linarith
          have hu3 : (1 + r.unit) ^ 3 ≤ (1 - r.unit) ^ 2 * (1 + 6 * r.unit) := by
            have e : (1 - r.unit) ^ 2 * (1 + 6 * r.unit) - (1 + r.unit) ^ 3 = r.unit * (1 + r.unit * (5 * r.unit - 14)) := by ring
            have : r.unit * (14 - 5 * r.unit) ≤ 1 / 100 * 14 := mul_le_mul hu (by linarith) (by linarith) (by norm_num)
            have := mul_nonneg u0 (show 0 ≤ 1 + r.unit * (5 * r.unit - 14) by linarith)
            linarith
          have b : (1 - r.unit) ^ 2 * |w.c - w.b| ≤ (1 - r.unit) ^ 2 * ((1 + 6 * r.unit) * (tol + 4 * epsilon * |w.b|)) := by
            have := mul_le_mul_of_nonneg_right hu3 hz
            linarith
          exact le_of_mul_le_mul_left b hpos

/-- C84: with at least one iteration, an end at which the function is exactly zero is returned. -/
theorem C84_end_is_root (r : Rounding K) {σ : Type} {func : K → σ → Outcome K × σ} {f : K → Outcome K}
    (hf : Answers func f) (x1 x2 tol : K) (maxIter : Nat) (st : σ) {f1 f2 : K} (h1 : f x1 = .ok f1) (h2 : f x2 = .ok f2)
    (hz : f1 = 0 ∨ f2 = 0) :
    (zbrent r x1 x2 tol (maxIter + 1) func st).1 = .ok (if f2 = 0 then x2 else x1) := by
  unfold zbrent
  have e1 := hf x1 st
  rw [h1] at e1
  generalize func x1 st = res at e1
  obtain ⟨o, st1⟩ := res
  dsimp only at e1
  subst e1
  dsimp only
  have e2 := hf x2 st1
  rw [h2] at e2
  generalize func x2 st1 = res at e2
  obtain ⟨o, st2⟩ := res
  dsimp only at e2
  subst e2
  dsimp only
  have hns : sameSign f1 f2 = false := by
    simp only [sameSign, decide_eq_false_iff_not]
    rcases hz with h | h <;> rw [h] <;> simp
  rw [hns]
  simp only [Bool.false_eq_true, if_false]
  unfold searchLoop
  by_cases h0 : f2 = 0
  · rw [if_pos h0]
    subst h0
    simp [rename, swapBest, sameSign]
  · have hf1 := hz.resolve_right h0
    subst hf1
    rw [if_neg h0]
    have hss : sameSign f2 f2 = true := by
      simp only [sameSign, decide_eq_true_eq, gt_iff_lt, and_self]
      exact (lt_or_gt_of_ne h0).symm
    simp [rename, swapBest, hss, h0]

/-- C84: if the ends do not have the same sign, `(k + 5) ^ 2` iterations are enough for any function, where the interval is at most `1.5 ^ k`
times as wide as the tolerance. The function need only answer for floats within thirteen times the width of the interval from it. -/
theorem C84_sufficient {r : Rounding K} (hr : r.Fine) {σ : Type} {func : K → σ → Outcome K × σ} {f : K → Outcome K} (hf : Answers func f)
    {x1 x2 tol f1 f2 : K} {k maxIter : Nat} (htol : 0 < tol) (hx1 : r.IsFloat x1) (hx2 : r.IsFloat x2)
    (hk : |x2 - x1| ≤ (3 / 2) ^ k * tol) (hmax : (k + 5) ^ 2 ≤ maxIter)
    (hnum : ∀ x, r.IsFloat x → min x1 x2 - 13 * |x2 - x1| ≤ x → x ≤ max x1 x2 + 13 * |x2 - x1| → ∃ y, f x = .ok y)
    (h1 : f x1 = .ok f1) (h2 : f x2 = .ok f2) (hs : f1 * f2 ≤ 0) (st : σ) :
    ∃ x, (zbrent r x1 x2 tol maxIter func st).1 = .ok x := by
  by_cases hz : f1 = 0 ∨ f2 = 0
  · have h9 : 0 < (k + 5) ^ 2 := by positivity
    obtain ⟨n, rfl⟩ : ∃ n, maxIter = n + 1 := ⟨maxIter - 1, by omega⟩
    exact ⟨_, C84_end_is_root r hf x1 x2 tol n st h1 h2 hz⟩
  · rw [not_or] at hz
    have hne : x1 ≠ x2 := by
      rintro rfl
      rw [h1] at h2
      cases h2
      exact absurd hs (not_le.2 (mul_self_pos.2 hz.1))
    have hw : 0 < |x2 - x1| := abs_pos.2 (sub_ne_zero.2 (Ne.symm hne))
    obtain ⟨t, ht⟩ : ∃ t, t = 101 / 100 * |x2 - x1| / (3 / 2) ^ (k + 4) := ⟨_, rfl⟩
    have ht0 : 0 < t := by rw [ht]; positivity
    have hwt : 101 / 100 * |x2 - x1| = (3 / 2) ^ (k + 4) * t := by rw [ht]; field_simp
    have htt : 4 * t ≤ tol := by
      have h2k : (0 : K) < (3 / 2) ^ k := by positivity
      have e : (3 / 2 : K) ^ (k + 4) = (3 / 2) ^ k * (81 / 16) := by rw [pow_add]; norm_num
      rw [e] at hwt
      have : (3 / 2) ^ k * (4 * t) ≤ (3 / 2) ^ k * tol := by linarith
      exact le_of_mul_le_mul_left this h2k
    have hreach : reach t (k + 4) (2 * (k + 4)) = 1212 / 100 * |x2 - x1| := by
      unfold reach
      rw [show (2 * (k + 4) + 1) / 2 = k + 4 by omega, show 2 * (k + 4) / 2 = k + 4 by omega]
      linarith
    unfold zbrent
    have e1 := hf x1 st
    rw [h1] at e1
    generalize func x1 st = res at e1
    obtain ⟨res, st1⟩ := res
    dsimp only at e1
    subst e1
    dsimp only
    have e2 := hf x2 st1
    rw [h2] at e2
    generalize func x2 st1 = res at e2
    obtain ⟨res, st2⟩ := res
    dsimp only at e2
    subst e2
    dsimp only
    rw [if_neg (by
      simp only [sameSign, decide_eq_true_eq, gt_iff_lt]
      rintro (⟨p, q⟩ | ⟨p, q⟩)
      · exact absurd hs (not_le.2 (mul_pos p q))
      · exact absurd hs (not_le.2 (mul_pos_of_neg_of_neg p q)))]
    refine loop_success hr hf ht0 htt maxIter (k + 4) (2 * (k + 4)) _ _ _ st2 ?_ (box_start hr hwt.le hz.2 hx1 hx2) ?_
    · refine le_trans (le_of_eq ?_) hmax
      ring
    · rw [hreach]
      exact fun x h0 h3 h4 => hnum x h0 (by linarith) (by linarith)

/-- C84: between float ends the function is only evaluated at floats, never further from the interval than thirteen times its width, and the
result is one of the points of evaluation. What is missing is that they lie in the interval: `C84_outside_interval_false`. -/
theorem C84_near_partial [Archimedean K] {r : Rounding K} (hr : r.Fine) {σ : Type} (func : K → σ → Outcome K × σ) {x1 x2 tol : K} (maxIter : Nat)
    (htol : 0 < tol) (hx1 : r.IsFloat x1) (hx2 : r.IsFloat x2) (st : σ) :
    (∀ x ∈ (zbrent r x1 x2 tol maxIter (logged func) ([], st)).2.1,
      r.IsFloat x ∧ min x1 x2 - 13 * |x2 - x1| ≤ x ∧ x ≤ max x1 x2 + 13 * |x2 - x1|) ∧
    ∀ x, (zbrent r x1 x2 tol maxIter func st).1 = .ok x →
      x ∈ (zbrent r x1 x2 tol maxIter (logged func) ([], st)).2.1 := by
  have hw0 : 0 ≤ |x2 - x1| := abs_nonneg _
  have hin1 : r.IsFloat x1 ∧ min x1 x2 - 13 * |x2 - x1| ≤ x1 ∧ x1 ≤ max x1 x2 + 13 * |x2 - x1| := by
    refine ⟨hx1, ?_, ?_⟩
    · linarith [min_le_left x1 x2]
    · linarith [le_max_left x1 x2]
  have hin2 : r.IsFloat x2 ∧ min x1 x2 - 13 * |x2 - x1| ≤ x2 ∧ x2 ≤ max x1 x2 + 13 * |x2 - x1| := by
    refine ⟨hx2, ?_, ?_⟩
    · linarith [min_le_right x1 x2]
    · linarith [le_max_right x1 x2]
  unfold zbrent
  rw [show logged func x1 ([], st) = ((func x1 st).1, ([x1], (func x1 st).2)) from rfl]
  generalize func x1 st = res
  obtain ⟨res, st1⟩ := res
  cases res with
  | error e => exact ⟨fun x hx => by rw [List.mem_singleton.1 hx]; exact hin1, fun x hx => by cases hx⟩
  | ok fa =>
    dsimp only
    rw [show logged func x2 ([x1], st1) = ((func x2 st1).1, ([x2, x1], (func x2 st1).2)) from rfl]
    generalize func x2 st1 = res
    obtain ⟨res, st2⟩ := res
    have hboth : ∀ x ∈ [x2, x1], r.IsFloat x ∧ min x1 x2 - 13 * |x2 - x1| ≤ x ∧ x ≤ max x1 x2 + 13 * |x2 - x1| := by
      intro x hx
      rcases List.mem_cons.1 hx with rfl | hx
      · exact hin2
      · rw [List.mem_singleton.1 hx]
        exact hin1
    cases res with
    | error e => exact ⟨hboth, fun x hx => by cases hx⟩
    | ok fb =>
      dsimp only
      split
      · exact ⟨hboth, fun x hx => by cases hx⟩
      · obtain ⟨_, l1, l2⟩ := loop_logged r func tol maxIter ⟨x1, x2, x2, 0, 0, fa, fb, fb⟩ ([x2, x1], st2) (by simp) (by simp) (by simp)
          (fun x hx => (hboth x hx).1)
        refine ⟨?_, l1⟩
        by_cases hfb : fb = 0
        · cases maxIter with
          | zero => exact hboth
          | succ n =>
            unfold searchLoop
            dsimp only
            rw [if_pos (.inr (by subst hfb; simp [rename, swapBest, sameSign]))]
            exact hboth
        · by_cases hne : x1 = x2
          · subst hne
            cases maxIter with
            | zero => exact hboth
            | succ n =>
              unfold searchLoop
              dsimp only
              rw [if_pos (.inl (by
                have e : xm r (swapBest (rename r ⟨x1, x1, x1, 0, 0, fa, fb, fb⟩)) = 0 := by
                  unfold xm swapBest rename
                  split <;> split <;> simp [r.zero]
                rw [e, abs_zero]
                exact (smallest r htol.le).1))]
              exact hboth
          · have hw : 0 < |x2 - x1| := abs_pos.2 (sub_ne_zero.2 (Ne.symm hne))
            obtain ⟨k, hk⟩ := pow_unbounded_of_one_lt (5 * |x2 - x1| / tol) (show (1 : K) < 3 / 2 by norm_num)
            obtain ⟨t, ht⟩ : ∃ t, t = 101 / 100 * |x2 - x1| / (3 / 2) ^ k := ⟨_, rfl⟩
            have h2k : (0 : K) < (3 / 2) ^ k := by positivity
            have ht0 : 0 < t := by rw [ht]; positivity
            have hwt : 101 / 100 * |x2 - x1| = (3 / 2) ^ k * t := by rw [ht]; field_simp
            have htt : 4 * t ≤ tol := by
              rw [div_lt_iff₀ htol] at hk
              have : (3 / 2) ^ k * (4 * t) ≤ (3 / 2) ^ k * tol := by linarith
              exact le_of_mul_le_mul_left this h2k
            have hreach : reach t k (2 * k) = 1212 / 100 * |x2 - x1| := by
              unfold reach
              rw [show (2 * k + 1) / 2 = k by omega, show 2 * k / 2 = k by omega]
              linarith
            intro x hx
            have h3 := loop_within hr func ht0 htt maxIter k (2 * k) _ _ ⟨x1, x2, x2, 0, 0, fa, fb, fb⟩ ([x2, x1], st2)
              (box_start hr hwt.le hfb hx1 hx2) x hx
            rw [hreach] at h3
            rcases h3 with h3 | h3
            · exact hboth x h3
            · exact ⟨l2 x hx, by linarith [h3.1], by linarith [h3.2]⟩

/-- A function with a sign change between 0 and 1. -/
def escaping (x : ℚ) : ℚ := if x < 1 / 4 then 90 else if x < 3 / 4 then 54 else if x < 1 then 8 else if x = 1 then -96 else 0

/-- C84, violated as in `C19_outside_interval_false`: in `f64` too the search can leave the interval and return a point outside it. -/
theorem C84_outside_interval_false :
    escaping 0 > 0 ∧ escaping 1 < 0 ∧ 1 < (4510440784210865 / 2 ^ 52 : ℚ) ∧
    (zbrent f64 0 1 (f64.rnd (1 / 1000)) 10 (fun x (st : Unit) => (.ok (escaping x), st)) ()).1 = .ok (4510440784210865 / 2 ^ 52) := by
  decide +kernel

/-- `f64` is as fine as asked. -/
theorem f64_fine : f64.Fine := by
  change ((1 : ℚ) / 2) ^ 53 ≤ 1 / 2 ^ 52 / 2
  norm_num

/-- C84: the hypotheses are met by a search in `f64` for the cube root of two; 529 iterations are enough. -/
example : ∃ x, (zbrent f64 0 2 (1 / 512) 529 (fun x (st : Unit) => (.ok (x ^ 3 - 2), st)) ()).1 = .ok x :=
  C84_sufficient f64_fine (f := fun x => .ok (x ^ 3 - 2)) (k := 18) (fun _ _ => rfl) (by norm_num) f64.zero
    (by have := f64.int 2 (by norm_num); simpa [Rounding.IsFloat] using this) (by norm_num) (by norm_num) (fun x _ _ _ => ⟨_, rfl⟩) rfl rfl
    (by norm_num) ()

/-- The search in `f64` for the square root of two takes several turns and comes near. -/
example : ∃ x, (zbrent f64 0 2 (1 / 512) 50 (fun x (st : Unit) => (.ok (x * x - 2), st)) ()).1 = .ok x ∧ |x * x - 2| < 1 / 100 := by
  refine ⟨((zbrent f64 0 2 (1 / 512) 50 (fun x (st : Unit) => (.ok (x * x - 2), st)) ()).1).toOption.getD 0, ?_, ?_⟩ <;>
    decide +kernel

end QM.Rounded
