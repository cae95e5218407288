import Verif.Root.Lemmas
import Mathlib.Tactic.NormNum

/-!
# How far the root finder goes and how long it takes

Helper lemmas for `SufficientProps.lean`. The loop keeps a bracket of length at most `2 ^ k * t` and steps bounded by a count `j`. Each turn
either halves the bracket or takes one from `j`.
-/

namespace QM.Root
open Spec

variable {K : Type} [Field K] [LinearOrder K] [IsStrictOrderedRing K]

theorem epsilon_pos : (0 : K) < epsilon := by unfold epsilon; positivity

theorem epsilon_small : (epsilon : K) ≤ 1 / 4 := by
  unfold epsilon
  norm_num

/-- What is known of the variables after the swap: the length of the bracket, the last two steps, and where the ends are. -/
structure Box (t : K) (k j : Nat) (lo hi : K) (v : Vars K) : Prop where
  count : j ≤ 2 * k
  len : |v.c - v.b| ≤ 2 ^ k * t
  e : |v.e| ≤ 2 ^ ((j + 1) / 2) * t
  d : |v.d| ≤ 2 ^ (j / 2) * t
  blo : lo ≤ v.b
  bhi : v.b ≤ hi
  clo : lo ≤ v.c
  chi : v.c ≤ hi

theorem box_swap {t : K} {k j : Nat} {lo hi : K} {v : Vars K} (h : Box t k j lo hi v) : Box t k j lo hi (swapBest v) := by
  unfold swapBest
  split
  · exact ⟨h.count, by rw [abs_sub_comm]; exact h.len, h.e, h.d, h.clo, h.chi, h.blo, h.bhi⟩
  · exact h

theorem tol1_ge (v : Vars K) (tol : K) : 1 / 2 * tol ≤ tol1 v tol := by
  unfold tol1
  have : 0 ≤ 2 * epsilon * |v.b| := mul_nonneg (mul_nonneg zero_le_two epsilon_pos.le) (abs_nonneg _)
  linarith

/-- A step is a bisection, or an interpolation towards the other end by less than half of the step before the last. -/
theorem newStep_cases (v : Vars K) (tol : K) :
    newStep v tol = (xm v, xm v) ∨
      ∃ d, newStep v tol = (d, v.d) ∧ 2 * |d| < |v.e| ∧ 0 ≤ d * xm v ∧ tol1 v tol ≤ |v.e| := by
  unfold newStep
  split
  · rename_i hc
    dsimp only
    generalize (if (quadratic v).1 > 0 then -(quadratic v).2 else (quadratic v).2) = q
    split
    · rename_i h
      right
      refine ⟨_, rfl, ?_, ?_, hc.1⟩
      · have h2 := lt_of_lt_of_le h (min_le_right _ _)
        rw [abs_mul] at h2
        have hq : 0 < |q| := by
          rcases (abs_nonneg q).lt_or_eq with hq | hq
          · exact hq
          · rw [← hq, mul_zero] at h2
            exact absurd h2 (not_lt.2 (mul_nonneg zero_le_two (abs_nonneg _)))
        rw [abs_div, abs_abs, ← mul_div_assoc, div_lt_iff₀ hq]
        exact h2
      · have h1 := lt_of_lt_of_le h (min_le_left _ _)
        have h0 : 0 < 3 * xm v * q * |tol1 v tol - q| := lt_of_le_of_lt (mul_nonneg zero_le_two (abs_nonneg _)) h1
        have hx : 0 < 3 * xm v * q := by
          by_contra hn
          exact absurd h0 (not_lt.2 (mul_nonpos_of_nonpos_of_nonneg (not_lt.1 hn) (abs_nonneg _)))
        have hx' : 0 ≤ xm v * q := by
          have : 3 * xm v * q = 3 * (xm v * q) := by ring
          rw [this] at hx
          linarith
        have e : |(quadratic v).1| / q * xm v = |(quadratic v).1| * (xm v * q) / (q * q) := by
          rcases eq_or_ne q 0 with h0 | h0
          · subst h0; simp
          · rw [div_mul_eq_mul_div, ← mul_assoc, mul_div_mul_right _ _ h0]
        rw [e]
        exact div_nonneg (mul_nonneg (abs_nonneg _) hx') (mul_self_nonneg _)
    · exact .inl rfl
  · exact .inl rfl

/-- The trial is a step towards the other end, by `d` or by the smallest step. -/
theorem newTrial_cases {v : Vars K} {tol d : K} (ht : 0 < tol) (hx : tol1 v tol < |xm v|) (hd : 0 ≤ d * xm v) :
    (tol1 v tol < |d| ∧ newTrial v tol d = v.b + d) ∨
      (|d| ≤ tol1 v tol ∧ ∃ s, newTrial v tol d = v.b + s ∧ |s| = tol1 v tol ∧ 0 ≤ s * xm v) := by
  unfold newTrial
  have hp := tol1_ge v tol
  have hp : 0 < tol1 v tol := by linarith
  split
  · exact .inl ⟨by assumption, rfl⟩
  · right
    refine ⟨by rw [← not_lt]; assumption, _, rfl, ?_, ?_⟩
    · rw [abs_mul, abs_abs, abs_of_pos hp]
      unfold signum
      split <;> simp
    · rw [abs_of_pos hp]
      unfold signum
      split
      · rename_i h
        exact mul_nonneg (by linarith) h
      · rename_i h
        rw [not_le] at h
        exact mul_nonneg_of_nonpos_of_nonpos (by linarith) h.le

/-- The state after a trial. -/
def after (v : Vars K) (tol y : K) : Vars K :=
  { v with a := v.b, fa := v.fb, d := (newStep v tol).1, e := (newStep v tol).2, b := newTrial v tol (newStep v tol).1, fb := y }

/-- The bracket is small enough to stop. -/
def Done (v : Vars K) (tol : K) : Prop := |xm v| ≤ tol1 v tol

/-- A step towards `c` from `b` by `s` leaves `b` within the reach. -/
theorem step_within {b c s lo hi r : K} (hs : 0 ≤ s * (c - b)) (hr : |s| ≤ |c - b| + r) (blo : lo ≤ b) (bhi : b ≤ hi) (clo : lo ≤ c) (chi : c ≤ hi)
    (hne : c ≠ b) (hr0 : 0 ≤ r) : lo - r ≤ b + s ∧ b + s ≤ hi + r := by
  rcases lt_or_gt_of_ne hne with h | h
  · have h1 : s ≤ 0 := by
      by_contra hn
      have := mul_neg_of_pos_of_neg (not_le.1 hn) (sub_neg.2 h)
      linarith
    rw [abs_of_nonpos h1, abs_of_neg (sub_neg.2 h)] at hr
    constructor <;> linarith
  · have h1 : 0 ≤ s := by
      by_contra hn
      have := mul_neg_of_neg_of_pos (not_le.1 hn) (sub_pos.2 h)
      linarith
    rw [abs_of_nonneg h1, abs_of_pos (sub_pos.2 h)] at hr
    constructor <;> linarith

/-- The distance to `c` after a step towards it. -/
theorem step_length {b c s m : K} (hs : 0 ≤ s * (c - b)) (h1 : |c - b| ≤ m) (h2 : |s| ≤ m) (hne : c ≠ b) : |c - (b + s)| ≤ m := by
  rcases lt_or_gt_of_ne hne with h | h
  · have h3 : s ≤ 0 := by
      by_contra hn
      have := mul_neg_of_pos_of_neg (not_le.1 hn) (sub_neg.2 h)
      linarith
    rw [abs_of_nonpos h3] at h2
    rw [abs_of_neg (sub_neg.2 h)] at h1
    rw [abs_le]
    constructor <;> linarith
  · have h3 : 0 ≤ s := by
      by_contra hn
      have := mul_neg_of_neg_of_pos (not_le.1 hn) (sub_pos.2 h)
      linarith
    rw [abs_of_nonneg h3] at h2
    rw [abs_of_pos (sub_pos.2 h)] at h1
    rw [abs_le]
    constructor <;> linarith

/-- A bracket of one smallest step is small enough to stop, from either end. -/
theorem done_small {b s tol : K} (hs : |s| = 2 * epsilon * |b| + 1 / 2 * tol) (ht : 0 < tol) {x : K} (hx : x = b ∨ x = b + s) :
    1 / 2 * |s| ≤ 2 * epsilon * |x| + 1 / 2 * tol := by
  have he := epsilon_pos (K := K)
  have he' := epsilon_small (K := K)
  have hb : |b| - |s| ≤ |x| := by
    rcases hx with rfl | rfl
    · linarith [abs_nonneg s]
    · have := abs_sub_abs_le_abs_sub b (-s)
      rw [abs_neg, sub_neg_eq_add] at this
      exact this
  have h1 : 2 * epsilon * (|b| - |s|) ≤ 2 * epsilon * |x| := mul_le_mul_of_nonneg_left hb (by linarith)
  have h2 : 2 * epsilon * |s| ≤ 2 * (1 / 4) * |s| := mul_le_mul_of_nonneg_right (by linarith) (abs_nonneg s)
  have h3 : 2 * epsilon * (|b| - |s|) = |s| - 1 / 2 * tol - 2 * epsilon * |s| := by rw [hs]; ring
  linarith

theorem done_swap {v : Vars K} {tol : K} (h : |v.c - v.b| = |v.b - v.a| ∧ v.c = v.a) (ht : 0 < tol)
    (hs : |v.b - v.a| = 2 * epsilon * |v.a| + 1 / 2 * tol) : Done (swapBest v) tol := by
  have e1 : |1 / 2 * (v.c - v.b)| = 1 / 2 * |v.b - v.a| := by rw [abs_mul, h.1, abs_of_pos (by norm_num : (0 : K) < 1 / 2)]
  unfold Done swapBest xm tol1
  split
  · rw [show 1 / 2 * (v.b - v.c) = -(1 / 2 * (v.c - v.b)) by ring, abs_neg, e1]
    exact done_small hs ht (.inl h.2)
  · rw [e1]
    exact done_small hs ht (.inr (by ring))

/-- One turn of the loop. -/
theorem turn {t tol : K} {k j : Nat} {lo hi y : K} {v : Vars K} (ht : 0 < t) (htt : 4 * t ≤ tol) (h : Box t k j lo hi v) (hn : ¬ Done v tol) :
    (∃ k', k = k' + 1 ∧ lo ≤ newTrial v tol (newStep v tol).1 ∧ newTrial v tol (newStep v tol).1 ≤ hi ∧
      Box t k' (2 * k') lo hi (swapBest (rename (after v tol y)))) ∨
    (∃ j', j = j' + 1 ∧ lo - 2 ^ (j' / 2) * t ≤ newTrial v tol (newStep v tol).1 ∧ newTrial v tol (newStep v tol).1 ≤ hi + 2 ^ (j' / 2) * t ∧
      (Done (swapBest (rename (after v tol y))) tol ∨
        Box t k j' (lo - 2 ^ (j' / 2) * t) (hi + 2 ^ (j' / 2) * t) (swapBest (rename (after v tol y))))) := by
  have htol : 0 < tol := by linarith
  have hp := tol1_ge v tol
  unfold Done at hn
  rw [not_le] at hn
  have hlen : |xm v| = 1 / 2 * |v.c - v.b| := by
    unfold xm
    rw [abs_mul, abs_of_pos (by norm_num : (0 : K) < 1 / 2)]
  have hne : v.c ≠ v.b := by
    intro e
    rw [hlen, e, sub_self, abs_zero] at hn
    linarith
  rcases newStep_cases v tol with hs | ⟨d, hs, hd, hdx, he⟩
  · -- bisection
    left
    cases k with
    | zero =>
      exfalso
      have := h.len
      rw [pow_zero, one_mul] at this
      linarith
    | succ k =>
      have hxx : 0 ≤ xm v * xm v := mul_self_nonneg _
      have hb : newTrial v tol (xm v) = v.b + xm v := by
        rcases newTrial_cases htol hn hxx with ⟨_, e⟩ | ⟨e, _⟩
        · exact e
        · exact absurd hn (not_lt.2 e)
      have hx : |xm v| ≤ 2 ^ k * t := by
        have := h.len
        rw [hlen]
        rw [pow_succ] at this
        linarith
      have hw : lo ≤ v.b + xm v ∧ v.b + xm v ≤ hi := by
        have := h.blo; have := h.bhi; have := h.clo; have := h.chi
        unfold xm
        constructor <;> linarith
      refine ⟨k, rfl, by rw [hs, hb]; exact hw.1, by rw [hs, hb]; exact hw.2, box_swap ?_⟩
      unfold rename
      rw [show after v tol y = ⟨v.b, v.b + xm v, v.c, xm v, xm v, v.fb, y, v.fc⟩ by unfold after; rw [hs, hb]]
      dsimp only
      have e1 : (2 * k + 1) / 2 = k := by omega
      have e2 : 2 * k / 2 = k := by omega
      split
      · refine ⟨le_refl _, ?_, ?_, ?_, hw.1, hw.2, h.blo, h.bhi⟩ <;> dsimp only
        · rw [show v.b - (v.b + xm v) = -xm v by ring, abs_neg]; exact hx
        · rw [add_sub_cancel_left, e1]; exact hx
        · rw [add_sub_cancel_left, e2]; exact hx
      · refine ⟨le_refl _, ?_, ?_, ?_, hw.1, hw.2, h.clo, h.chi⟩ <;> dsimp only
        · rw [show v.c - (v.b + xm v) = xm v by unfold xm; ring]; exact hx
        · rw [e1]; exact hx
        · rw [e2]; exact hx
  · -- interpolation
    right
    cases j with
    | zero =>
      exfalso
      have := h.e
      rw [show (0 + 1) / 2 = 0 from rfl, pow_zero, one_mul] at this
      linarith
    | succ j =>
      have hd' : |d| ≤ 2 ^ (j / 2) * t := by
        have := h.e
        rw [show (j + 1 + 1) / 2 = j / 2 + 1 by omega, pow_succ] at this
        linarith
      have hr0 : 0 ≤ 2 ^ (j / 2) * t := by positivity
      have hdx' : 0 ≤ d * (v.c - v.b) := by
        have : d * (v.c - v.b) = 2 * (d * xm v) := by unfold xm; ring
        linarith
      have hk : 2 ^ (j / 2) * t ≤ 2 ^ k * t := by
        refine mul_le_mul_of_nonneg_right (pow_le_pow_right₀ one_le_two ?_) ht.le
        have := h.count
        omega
      have hj : 2 ^ (j / 2) * t ≤ 2 ^ ((j + 1) / 2) * t :=
        mul_le_mul_of_nonneg_right (pow_le_pow_right₀ one_le_two (by omega)) ht.le
      have hcount : j ≤ 2 * k := by
        have := h.count
        omega
      have hvd : |v.d| ≤ 2 ^ ((j + 1) / 2) * t := h.d
      refine ⟨j, rfl, ?_⟩
      rw [hs]
      dsimp only
      rcases newTrial_cases htol hn hdx with ⟨hbig, hb⟩ | ⟨hsmall, s, hb, hs1, hsx⟩
      · rw [hb]
        have hw := step_within (r := 2 ^ (j / 2) * t) hdx' (by linarith [abs_nonneg (v.c - v.b)]) h.blo h.bhi h.clo h.chi hne hr0
        refine ⟨hw.1, hw.2, .inr (box_swap ?_)⟩
        unfold rename
        rw [show after v tol y = ⟨v.b, v.b + d, v.c, d, v.d, v.fb, y, v.fc⟩ by unfold after; rw [hs, hb]]
        dsimp only
        split
        · refine ⟨hcount, ?_, ?_, ?_, hw.1, hw.2, by linarith [h.blo], by linarith [h.bhi]⟩ <;> dsimp only
          · rw [show v.b - (v.b + d) = -d by ring, abs_neg]; exact hd'.trans hk
          · rw [add_sub_cancel_left]; exact hd'.trans hj
          · rw [add_sub_cancel_left]; exact hd'
        · refine ⟨hcount, ?_, ?_, ?_, hw.1, hw.2, by linarith [h.clo], by linarith [h.chi]⟩ <;> dsimp only
          · exact step_length hdx' h.len (hd'.trans hk) hne
          · exact hvd
          · exact hd'
      · rw [hb]
        have hsx' : 0 ≤ s * (v.c - v.b) := by
          have : s * (v.c - v.b) = 2 * (s * xm v) := by unfold xm; ring
          linarith
        have hw := step_within (r := 2 ^ (j / 2) * t) hsx' (by linarith [abs_nonneg (v.c - v.b)]) h.blo h.bhi h.clo h.chi hne hr0
        refine ⟨hw.1, hw.2, ?_⟩
        unfold rename
        rw [show after v tol y = ⟨v.b, v.b + s, v.c, d, v.d, v.fb, y, v.fc⟩ by unfold after; rw [hs, hb]]
        dsimp only
        split
        · left
          refine done_swap ⟨abs_sub_comm _ _, rfl⟩ htol ?_
          dsimp only
          rw [add_sub_cancel_left, hs1]
          rfl
        · right
          refine box_swap ⟨hcount, ?_, ?_, ?_, hw.1, hw.2, by linarith [h.clo], by linarith [h.chi]⟩ <;> dsimp only
          · refine step_length hsx' h.len ?_ hne
            have := h.len
            linarith [abs_nonneg (v.c - v.b)]
          · exact hvd
          · exact hd'

/-- The furthest that the loop may still go. -/
def reach (t : K) (k j : Nat) : K := (2 ^ ((j + 1) / 2) + 2 ^ (j / 2) + 2 * 2 ^ k) * t

theorem reach_turn (t : K) (k j : Nat) : reach t k (j + 1) = reach t k j + 2 ^ (j / 2) * t := by
  unfold reach
  rw [show (j + 1 + 1) / 2 = j / 2 + 1 by omega, pow_succ]
  ring

theorem reach_halved {t : K} (ht : 0 < t) (k j : Nat) : reach t k (2 * k) ≤ reach t (k + 1) j := by
  unfold reach
  rw [show (2 * k + 1) / 2 = k by omega, show 2 * k / 2 = k by omega, pow_succ]
  refine mul_le_mul_of_nonneg_right ?_ ht.le
  have h1 : (0 : K) ≤ 2 ^ ((j + 1) / 2) := by positivity
  have h2 : (0 : K) ≤ 2 ^ (j / 2) := by positivity
  linarith

theorem reach_nonneg {t : K} (ht : 0 < t) (k j : Nat) : 0 ≤ reach t k j := by
  unfold reach
  positivity

/-- With enough turns the loop succeeds. -/
theorem loop_success {σ : Type} {func : K → σ → Outcome K × σ} {f : K → Outcome K} (hf : Answers func f) {t tol : K} (ht : 0 < t)
    (htt : 4 * t ≤ tol) : ∀ (n : Nat) (k j : Nat) (lo hi : K) (v : Vars K) (st : σ), j + 1 + k * k ≤ n → Box t k j lo hi (swapBest (rename v)) →
      (∀ x, lo - reach t k j ≤ x → x ≤ hi + reach t k j → ∃ y, f x = .ok y) → ∃ x, (loop func tol n v st).1 = .ok x
  | 0, k, j, _, _, _, _, hle, _, _ => by omega
  | n + 1, k, j, lo, hi, v, st, hle, hbox, hnum => by
    unfold loop
    dsimp only
    generalize swapBest (rename v) = w at hbox
    by_cases hc : |xm w| ≤ tol1 w tol ∨ w.fb = 0
    · rw [if_pos hc]
      exact ⟨_, rfl⟩
    · rw [if_neg hc]
      have hnd : ¬ Done w tol := fun h => hc (.inl h)
      have hr := reach_nonneg ht k j
      have hin : lo - reach t k j ≤ newTrial w tol (newStep w tol).1 ∧ newTrial w tol (newStep w tol).1 ≤ hi + reach t k j := by
        rcases turn (y := 0) ht htt hbox hnd with ⟨k', rfl, h1, h2, _⟩ | ⟨j', rfl, h1, h2, _⟩
        · constructor <;> linarith
        · have := reach_nonneg ht k j'
          rw [reach_turn]
          constructor <;> linarith
      obtain ⟨y, hy⟩ := hnum _ hin.1 hin.2
      have hy' := hf (newTrial w tol (newStep w tol).1) st
      rw [hy] at hy'
      generalize func (newTrial w tol (newStep w tol).1) st = r at hy'
      obtain ⟨r, st'⟩ := r
      dsimp only at hy'
      subst hy'
      dsimp only
      show ∃ x, (loop func tol n (after w tol y) st').1 = .ok x
      rcases turn (y := y) ht htt hbox hnd with ⟨k', rfl, _, _, h3⟩ | ⟨j', rfl, _, _, h3⟩
      · refine loop_success hf ht htt n k' (2 * k') lo hi _ st' ?_ h3 (fun x h1 h2 => hnum x ?_ ?_)
        · have : (k' + 1) * (k' + 1) = k' * k' + 2 * k' + 1 := by ring
          omega
        · linarith [reach_halved ht k' j]
        · linarith [reach_halved ht k' j]
      · rcases h3 with h3 | h3
        · obtain ⟨n, rfl⟩ : ∃ m, n = m + 1 := ⟨n - 1, by omega⟩
          unfold loop
          dsimp only
          rw [if_pos (.inl h3)]
          exact ⟨_, rfl⟩
        · refine loop_success hf ht htt n k j' _ _ _ st' (by omega) h3 (fun x h1 h2 => hnum x ?_ ?_)
          · rw [reach_turn]; linarith
          · rw [reach_turn]; linarith

/-- The loop only evaluates the function within reach. -/
theorem loop_within {σ : Type} (func : K → σ → Outcome K × σ) {t tol : K} (ht : 0 < t)
    (htt : 4 * t ≤ tol) : ∀ (n : Nat) (k j : Nat) (lo hi : K) (v : Vars K) (st : List K × σ), Box t k j lo hi (swapBest (rename v)) →
      ∀ x ∈ (loop (logged func) tol n v st).2.1, x ∈ st.1 ∨ lo - reach t k j ≤ x ∧ x ≤ hi + reach t k j
  | 0, _, _, _, _, _, _, _ => fun x hx => .inl hx
  | n + 1, k, j, lo, hi, v, st, hbox => by
    unfold loop
    dsimp only
    generalize swapBest (rename v) = w at hbox
    by_cases hc : |xm w| ≤ tol1 w tol ∨ w.fb = 0
    · rw [if_pos hc]
      exact fun x hx => .inl hx
    · rw [if_neg hc]
      have hnd : ¬ Done w tol := fun h => hc (.inl h)
      have hr := reach_nonneg ht k j
      have hin : lo - reach t k j ≤ newTrial w tol (newStep w tol).1 ∧ newTrial w tol (newStep w tol).1 ≤ hi + reach t k j := by
        rcases turn (y := 0) ht htt hbox hnd with ⟨k', rfl, h1, h2, _⟩ | ⟨j', rfl, h1, h2, _⟩
        · constructor <;> linarith
        · have := reach_nonneg ht k j'
          rw [reach_turn]
          constructor <;> linarith
      rw [show logged func (newTrial w tol (newStep w tol).1) st = ((func (newTrial w tol (newStep w tol).1) st.2).1,
        (newTrial w tol (newStep w tol).1 :: st.1, (func (newTrial w tol (newStep w tol).1) st.2).2)) from rfl]
      generalize func (newTrial w tol (newStep w tol).1) st.2 = r
      obtain ⟨r, st'⟩ := r
      cases r with
      | error e =>
        intro x hx
        rcases List.mem_cons.1 hx with rfl | hx
        · exact .inr hin
        · exact .inl hx
      | ok y =>
        dsimp only
        show ∀ x ∈ (loop (logged func) tol n (after w tol y) (newTrial w tol (newStep w tol).1 :: st.1, st')).2.1, _
        have hold {x : K} (hx : x ∈ newTrial w tol (newStep w tol).1 :: st.1) : x ∈ st.1 ∨ lo - reach t k j ≤ x ∧ x ≤ hi + reach t k j := by
          rcases List.mem_cons.1 hx with rfl | hx
          · exact .inr hin
          · exact .inl hx
        intro x hx
        rcases turn (y := y) ht htt hbox hnd with ⟨k', rfl, _, _, h3⟩ | ⟨j', rfl, _, _, h3⟩
        · rcases loop_within func ht htt n k' (2 * k') lo hi _ _ h3 x hx with h | ⟨h1, h2⟩
          · exact hold h
          · right
            have := reach_halved ht k' j
            constructor <;> linarith
        · rcases h3 with h3 | h3
          · cases n with
            | zero => exact hold hx
            | succ n =>
              unfold loop at hx
              dsimp only at hx
              rw [if_pos (.inl h3)] at hx
              exact hold hx
          · rcases loop_within func ht htt n k j' _ _ _ _ h3 x hx with h | ⟨h1, h2⟩
            · exact hold h
            · right
              rw [reach_turn]
              constructor <;> linarith

omit [IsStrictOrderedRing K] in
/-- Writing down the points changes nothing, and the result is one of them. -/
theorem loop_logged {σ : Type} (func : K → σ → Outcome K × σ) (tol : K) : ∀ (n : Nat) (v : Vars K) (st : List K × σ),
    v.a ∈ st.1 → v.b ∈ st.1 → v.c ∈ st.1 →
    (loop (logged func) tol n v st).1 = (loop func tol n v st.2).1 ∧
      ∀ x, (loop func tol n v st.2).1 = .ok x → x ∈ (loop (logged func) tol n v st).2.1
  | 0, _, _, _, _, _ => ⟨rfl, fun x hx => by cases hx⟩
  | n + 1, v, st, ha, hb, hc => by
    unfold loop
    dsimp only
    have hw : (swapBest (rename v)).b ∈ st.1 ∧ (swapBest (rename v)).c ∈ st.1 := by
      unfold swapBest rename
      split <;> split <;> exact ⟨by assumption, by assumption⟩
    generalize swapBest (rename v) = w at hw
    by_cases hx : |xm w| ≤ tol1 w tol ∨ w.fb = 0
    · rw [if_pos hx, if_pos hx]
      refine ⟨rfl, fun x hx => ?_⟩
      rw [← Except.ok.inj hx]
      exact hw.1
    · rw [if_neg hx, if_neg hx]
      rw [show logged func (newTrial w tol (newStep w tol).1) st = ((func (newTrial w tol (newStep w tol).1) st.2).1,
        (newTrial w tol (newStep w tol).1 :: st.1, (func (newTrial w tol (newStep w tol).1) st.2).2)) from rfl]
      generalize func (newTrial w tol (newStep w tol).1) st.2 = r
      obtain ⟨r, st'⟩ := r
      cases r with
      | error e => exact ⟨rfl, fun x hx => by cases hx⟩
      | ok y =>
        exact loop_logged func tol n (after w tol y) (newTrial w tol (newStep w tol).1 :: st.1, st') (List.mem_cons_of_mem _ hw.1)
          List.mem_cons_self (List.mem_cons_of_mem _ hw.2)

/-- The bracket at the start, unless the function is zero at the second end. -/
theorem box_start {t : K} {k : Nat} {x1 x2 fa fb : K} (h : |x2 - x1| ≤ 2 ^ k * t) (hfb : fb ≠ 0) :
    Box t k (2 * k) (min x1 x2) (max x1 x2) (swapBest (rename ⟨x1, x2, x2, 0, 0, fa, fb, fb⟩)) := by
  apply box_swap
  unfold rename
  rw [if_pos (by simp only [sameSign, decide_eq_true_eq, and_self]; exact (lt_or_gt_of_ne hfb).symm)]
  refine ⟨le_refl _, ?_, ?_, ?_, min_le_right _ _, le_max_right _ _, min_le_left _ _, le_max_left _ _⟩ <;> dsimp only
  · rwa [abs_sub_comm]
  · rwa [show (2 * k + 1) / 2 = k by omega]
  · rwa [show 2 * k / 2 = k by omega]

end QM.Root
