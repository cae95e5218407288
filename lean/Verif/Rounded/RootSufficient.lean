import Verif.Rounded.RootLemmas
import Mathlib.Tactic.GCongr

/-!
# How far the rounded root finder goes and how long it takes

Helper lemmas for `RootProps.lean`, following `Root/Sufficient.lean`. A turn shrinks the bracket, or the last step but one, by a third
instead of a half: the other sixth is lost to rounding at worst.
-/

namespace QM.Rounded
open QM.Root (Vars sameSign swapBest signum epsilon epsilon_pos step_within step_length)
open QM.Root.Spec

variable {K : Type} [Field K] [LinearOrder K] [IsStrictOrderedRing K]

/-- Rounding errors no larger than those of `f64`. -/
def Rounding.Fine (r : Rounding K) : Prop := r.unit ≤ epsilon / 2

variable {r : Rounding K}

theorem unit_small (hr : r.Fine) : r.unit ≤ 1 / 1000 := by
  refine hr.trans ?_
  unfold epsilon
  norm_num

theorem tol1_ge (hr : r.Fine) (v : Vars K) {tol : K} (ht : 0 ≤ tol) : 997 / 1000 * (2 * epsilon * |v.b| + 1 / 2 * tol) ≤ tol1 r v tol := by
  refine le_trans (mul_le_mul_of_nonneg_right ?_ ?_) (le_tol1 r v ht)
  · have := unit_small hr
    have h0 := r.unit_nonneg
    calc (997 / 1000 : K) ≤ (999 / 1000) ^ 3 := by norm_num
      _ ≤ (1 - r.unit) ^ 3 := by gcongr; linarith
  · have := mul_nonneg (epsilon_pos (K := K)).le (abs_nonneg v.b)
    linarith

theorem tol1_le' (hr : r.Fine) (v : Vars K) {tol : K} (ht : 0 ≤ tol) : tol1 r v tol ≤ 1004 / 1000 * (2 * epsilon * |v.b| + 1 / 2 * tol) := by
  refine (tol1_le r v ht).trans (mul_le_mul_of_nonneg_right ?_ ?_)
  · have := unit_small hr
    have h0 := r.unit_nonneg
    calc (1 + r.unit) ^ 3 ≤ (1001 / 1000) ^ 3 := by gcongr; linarith
      _ ≤ (1004 / 1000 : K) := by norm_num
  · have := mul_nonneg (epsilon_pos (K := K)).le (abs_nonneg v.b)
    linarith

/-- The rounding error of a number near `b` is about a quarter of the smallest step. -/
theorem unit_b (hr : r.Fine) (v : Vars K) {tol : K} (ht : 0 ≤ tol) : r.unit * |v.b| ≤ 26 / 100 * tol1 r v tol := by
  have h1 := tol1_ge hr v ht
  have h2 : r.unit * |v.b| ≤ epsilon / 2 * |v.b| := mul_le_mul_of_nonneg_right hr (abs_nonneg _)
  have h3 : 0 ≤ epsilon * |v.b| := mul_nonneg epsilon_pos.le (abs_nonneg _)
  linarith

theorem xm_le' (hr : r.Fine) (v : Vars K) : |xm r v| ≤ 502 / 1000 * |v.c - v.b| := by
  refine (xm_le r v).trans ?_
  rw [← mul_assoc]
  refine mul_le_mul_of_nonneg_right ?_ (abs_nonneg _)
  have := unit_small hr
  have h0 := r.unit_nonneg
  have : (1 + r.unit) ^ 2 ≤ (1001 / 1000) ^ 2 := by gcongr; linarith
  linarith

theorem xm_err (hr : r.Fine) (v : Vars K) : |xm r v - 1 / 2 * (v.c - v.b)| ≤ 2 / 1000 * |v.c - v.b| := by
  have hu := unit_small hr
  have h0 := r.unit_nonneg
  have h1 := r.close (v.c - v.b)
  have h2 := r.close (1 / 2 * r.rnd (v.c - v.b))
  have h3 := abs_rnd_le r (v.c - v.b)
  rw [abs_mul, abs_of_pos (by norm_num : (0 : K) < 1 / 2)] at h2
  have h4 : r.unit * |v.c - v.b| ≤ 1 / 1000 * |v.c - v.b| := mul_le_mul_of_nonneg_right hu (abs_nonneg _)
  have h5 : r.unit * (1 / 2 * |r.rnd (v.c - v.b)|) ≤ 1 / 1000 * (1 / 2 * (1001 / 1000 * |v.c - v.b|)) := by
    refine mul_le_mul hu ?_ (by positivity) (by norm_num)
    linarith
  have e : xm r v - 1 / 2 * (v.c - v.b) = (r.rnd (1 / 2 * r.rnd (v.c - v.b)) - 1 / 2 * r.rnd (v.c - v.b)) + 1 / 2 * (r.rnd (v.c - v.b) - (v.c - v.b)) := by
    unfold xm; ring
  have h6 : |1 / 2 * (r.rnd (v.c - v.b) - (v.c - v.b))| ≤ 1 / 2 * (1 / 1000 * |v.c - v.b|) := by
    rw [abs_mul, abs_of_pos (by norm_num : (0 : K) < 1 / 2)]
    linarith
  rw [e]
  refine (abs_add_le _ _).trans ?_
  have := abs_nonneg (v.c - v.b)
  linarith

/-- Half the bracket points from `b` to `c`. -/
theorem xm_pos (r : Rounding K) {v : Vars K} (h : v.b < v.c) : 0 < xm r v :=
  r.pos (mul_pos (by norm_num) (r.pos (sub_pos.2 h)))

theorem xm_neg (r : Rounding K) {v : Vars K} (h : v.c < v.b) : xm r v < 0 := by
  have h1 := r.pos (sub_pos.2 h)
  rw [← neg_sub, r.neg] at h1
  have h2 := r.pos (x := 1 / 2 * -r.rnd (v.c - v.b)) (by linarith)
  rw [mul_neg, r.neg] at h2
  unfold xm
  linarith

/-- Pointing like half the bracket is pointing from `b` to `c`. -/
theorem toward {v : Vars K} {s : K} (h : 0 ≤ s * xm r v) (hne : v.c ≠ v.b) : 0 ≤ s * (v.c - v.b) := by
  rcases lt_or_gt_of_ne hne with hl | hl
  · have hx := xm_neg r hl
    have : s ≤ 0 := by
      by_contra hn
      have := mul_neg_of_pos_of_neg (not_le.1 hn) hx
      linarith
    exact mul_nonneg_of_nonpos_of_nonpos this (by linarith)
  · have hx := xm_pos r hl
    have : 0 ≤ s := by
      by_contra hn
      have := mul_neg_of_neg_of_pos (not_le.1 hn) hx
      linarith
    exact mul_nonneg this (by linarith)

/-- A step, rounded. -/
theorem move (hr : r.Fine) {v : Vars K} {tol s : K} (ht : 0 ≤ tol) (hb : r.IsFloat v.b) (hs : tol1 r v tol ≤ |s|) :
    |r.rnd (v.b + s) - v.b| ≤ 127 / 100 * |s| ∧ |r.rnd (v.b + s) - (v.b + s)| ≤ 27 / 100 * |s| ∧
      ∀ m, 0 ≤ s * m → s ≠ 0 → 0 ≤ (r.rnd (v.b + s) - v.b) * m := by
  have hu := unit_small hr
  have h0 := r.unit_nonneg
  have h1 := r.close (v.b + s)
  have h2 : r.unit * |v.b + s| ≤ r.unit * |v.b| + r.unit * |s| := by
    rw [← mul_add]
    exact mul_le_mul_of_nonneg_left (abs_add_le _ _) h0
  have h3 := unit_b hr v ht
  have h4 : r.unit * |s| ≤ 1 / 1000 * |s| := mul_le_mul_of_nonneg_right hu (abs_nonneg _)
  have h5 : |r.rnd (v.b + s) - (v.b + s)| ≤ 27 / 100 * |s| := by
    have := abs_nonneg s
    linarith
  refine ⟨?_, h5, ?_⟩
  · have e : r.rnd (v.b + s) - v.b = (r.rnd (v.b + s) - (v.b + s)) + s := by ring
    rw [e]
    refine (abs_add_le _ _).trans ?_
    linarith
  · intro m hm hne
    rcases lt_or_gt_of_ne hne with hl | hl
    · have hm : m ≤ 0 := by
        by_contra hn
        have := mul_neg_of_neg_of_pos hl (not_le.1 hn)
        linarith
      have := r.mono (v.b + s) v.b (by linarith)
      rw [hb] at this
      exact mul_nonneg_of_nonpos_of_nonpos (by linarith) hm
    · have hm : 0 ≤ m := by
        by_contra hn
        have := mul_neg_of_pos_of_neg hl (not_le.1 hn)
        linarith
      have := r.mono v.b (v.b + s) (by linarith)
      rw [hb] at this
      exact mul_nonneg (by linarith) hm

/-- The same step as it is written down. -/
theorem moved (hr : r.Fine) {x s : K} (h : |x| ≤ 127 / 100 * |s|) : |r.rnd x| ≤ 128 / 100 * |s| := by
  have hu := unit_small hr
  have h1 := abs_rnd_le r x
  have h2 : r.unit * |x| ≤ 1 / 1000 * |x| := mul_le_mul_of_nonneg_right hu (abs_nonneg _)
  have := abs_nonneg s
  linarith

/-- A step is a bisection, or an interpolation towards the other end by about half of the step before the last. -/
theorem newStep_cases (hr : r.Fine) (v : Vars K) (tol : K) :
    newStep r v tol = (xm r v, xm r v) ∨
      ∃ d, newStep r v tol = (d, v.d) ∧ |d| ≤ 502 / 1000 * |v.e| ∧ 0 ≤ d * xm r v ∧ tol1 r v tol ≤ |v.e| := by
  unfold newStep
  split
  · rename_i hc
    dsimp only
    generalize (if (quadratic r v).1 > 0 then -(quadratic r v).2 else (quadratic r v).2) = q
    have hp := abs_nonneg (quadratic r v).1
    generalize |(quadratic r v).1| = p at hp
    split
    · rename_i h
      right
      refine ⟨_, rfl, ?_, ?_, hc.1⟩
      · have hu := unit_small hr
        have h0 := r.unit_nonneg
        have h2 := lt_of_lt_of_le h (min_le_right _ _)
        have hq : 0 < |q| := by
          rcases (abs_nonneg q).lt_or_eq with hq | hq
          · exact hq
          · rw [abs_eq_zero.1 hq.symm, mul_zero, r.zero, abs_zero] at h2
            exact absurd h2 (not_lt.2 (r.nonneg (by linarith)))
        have h3 := abs_rnd_le r (v.e * q)
        have h4 := le_rnd_of_nonneg r (x := 2 * p) (by linarith)
        have h5 := abs_rnd_le r (p / q)
        rw [abs_mul] at h3
        rw [abs_div, abs_of_nonneg hp] at h5
        have h6 : r.unit * (|v.e| * |q|) ≤ 1 / 1000 * (|v.e| * |q|) := mul_le_mul_of_nonneg_right hu (by positivity)
        have h7 : r.unit * (2 * p) ≤ 1 / 1000 * (2 * p) := mul_le_mul_of_nonneg_right hu (by positivity)
        have h8 : p ≤ 1001 / 1998 * |v.e| * |q| := by linarith
        have h9 : p / |q| ≤ 1001 / 1998 * |v.e| := (div_le_iff₀ hq).2 h8
        have h10 : r.unit * (p / |q|) ≤ 1 / 1000 * (p / |q|) := mul_le_mul_of_nonneg_right hu (by positivity)
        have := abs_nonneg v.e
        linarith
      · have h1 := lt_of_lt_of_le h (min_le_left _ _)
        have h2 := lt_of_le_of_lt (r.nonneg (x := 2 * p) (by linarith)) h1
        have h3 : 0 < r.rnd (3 * xm r v) * q := by
          by_contra hn
          have a := mul_nonpos_of_nonpos_of_nonneg (r.nonpos (not_lt.1 hn)) (abs_nonneg (r.rnd (tol1 r v tol - q)))
          exact absurd h2 (not_lt.2 (r.nonpos a))
        rcases lt_trichotomy (xm r v) 0 with hx | hx | hx
        · have a : r.rnd (3 * xm r v) ≤ 0 := r.nonpos (by linarith)
          have hq : q ≤ 0 := by
            by_contra hn
            have := mul_nonpos_of_nonpos_of_nonneg a (not_le.1 hn).le
            linarith
          exact mul_nonneg_of_nonpos_of_nonpos (r.nonpos (div_nonpos_of_nonneg_of_nonpos hp hq)) hx.le
        · rw [hx, mul_zero]
        · have a : 0 ≤ r.rnd (3 * xm r v) := r.nonneg (by linarith)
          have hq : 0 ≤ q := by
            by_contra hn
            have := mul_nonpos_of_nonneg_of_nonpos a (not_le.1 hn).le
            linarith
          exact mul_nonneg (r.nonneg (div_nonneg hp hq)) hx.le
    · exact .inl rfl
  · exact .inl rfl

/-- The smallest step is a float already. -/
theorem smallest (r : Rounding K) {v : Vars K} {tol : K} (ht : 0 ≤ tol) :
    0 ≤ tol1 r v tol ∧ ∃ s, r.rnd (|tol1 r v tol| * signum (xm r v)) = s ∧ |s| = tol1 r v tol ∧ 0 ≤ s * xm r v := by
  have hp : 0 ≤ tol1 r v tol := by
    unfold tol1
    have he := epsilon_pos (K := K)
    exact r.nonneg (add_nonneg (r.nonneg (mul_nonneg (r.nonneg (by linarith)) (abs_nonneg _))) (r.nonneg (by linarith)))
  have hi : r.rnd (tol1 r v tol) = tol1 r v tol := r.idem _
  refine ⟨hp, _, rfl, ?_⟩
  rw [abs_of_nonneg hp]
  unfold signum
  split
  · rename_i h
    rw [mul_one, hi]
    exact ⟨abs_of_nonneg hp, mul_nonneg hp h⟩
  · rename_i h
    rw [mul_neg, mul_one, r.neg, hi, abs_neg]
    exact ⟨abs_of_nonneg hp, mul_nonneg_of_nonpos_of_nonpos (by linarith) (not_le.1 h).le⟩

/-- The trial is a step towards the other end, by `d` or by the smallest step. -/
theorem newTrial_cases (r : Rounding K) {v : Vars K} {tol d : K} (ht : 0 ≤ tol) :
    (tol1 r v tol < |d| ∧ newTrial r v tol d = r.rnd (v.b + d)) ∨
      (|d| ≤ tol1 r v tol ∧ ∃ s, newTrial r v tol d = r.rnd (v.b + s) ∧ |s| = tol1 r v tol ∧ 0 ≤ s * xm r v) := by
  unfold newTrial
  split
  · exact .inl ⟨by assumption, rfl⟩
  · obtain ⟨_, s, h1, h2, h3⟩ := smallest r (v := v) ht
    refine .inr ⟨by rw [← not_lt]; assumption, s, by rw [h1], h2, h3⟩

/-- What is known of the variables after the swap: the length of the bracket, the last two steps, and where the ends are. -/
structure Box (r : Rounding K) (t : K) (k j : Nat) (lo hi : K) (v : Vars K) : Prop where
  count : j ≤ 2 * k
  len : |v.c - v.b| ≤ (3 / 2) ^ k * t
  e : |v.e| ≤ (3 / 2) ^ ((j + 1) / 2) * t
  d : |v.d| ≤ (3 / 2) ^ (j / 2) * t
  blo : lo ≤ v.b
  bhi : v.b ≤ hi
  clo : lo ≤ v.c
  chi : v.c ≤ hi
  bf : r.IsFloat v.b
  cf : r.IsFloat v.c

theorem box_swap {t : K} {k j : Nat} {lo hi : K} {v : Vars K} (h : Box r t k j lo hi v) : Box r t k j lo hi (swapBest v) := by
  unfold swapBest
  split
  · exact ⟨h.count, by rw [abs_sub_comm]; exact h.len, h.e, h.d, h.clo, h.chi, h.blo, h.bhi, h.cf, h.bf⟩
  · exact h

/-- The state after a trial. -/
def after (r : Rounding K) (v : Vars K) (tol y : K) : Vars K :=
  { v with a := v.b, fa := v.fb, d := (newStep r v tol).1, e := (newStep r v tol).2, b := newTrial r v tol (newStep r v tol).1, fb := y }

/-- The bracket is small enough to stop. -/
def Done (r : Rounding K) (v : Vars K) (tol : K) : Prop := |xm r v| ≤ tol1 r v tol

/-- A bracket of one smallest step is small enough to stop, from either end. -/
theorem done_small (hr : r.Fine) {v w : Vars K} {tol : K} (ht : 0 ≤ tol) (hw : |w.c - w.b| ≤ 127 / 100 * tol1 r v tol)
    (hx : |w.b - v.b| ≤ 127 / 100 * tol1 r v tol) : Done r w tol := by
  have he := epsilon_pos (K := K)
  have he' : (epsilon : K) ≤ 1 / 1000 := by unfold epsilon; norm_num
  have h1 := xm_le' hr w
  have h2 := tol1_ge hr w ht
  have h3 := tol1_le' hr v ht
  have h4 := abs_sub_abs_le_abs_sub v.b w.b
  rw [abs_sub_comm] at h4
  have h0 := (smallest r (v := v) ht).1
  have h5 : epsilon * (|v.b| - |w.b|) ≤ 1 / 1000 * (127 / 100 * tol1 r v tol) := by
    calc epsilon * (|v.b| - |w.b|) ≤ epsilon * (127 / 100 * tol1 r v tol) := mul_le_mul_of_nonneg_left (h4.trans hx) he.le
      _ ≤ _ := mul_le_mul_of_nonneg_right he' (by linarith)
  rw [mul_sub] at h5
  unfold Done
  linarith

theorem done_swap (hr : r.Fine) {v w : Vars K} {tol : K} (ht : 0 ≤ tol) (hc : w.c = v.b) (hx : |w.b - v.b| ≤ 127 / 100 * tol1 r v tol) :
    Done r (swapBest w) tol := by
  have h0 := (smallest r (v := v) ht).1
  unfold swapBest
  split
  · refine done_small (v := v) hr ht ?_ ?_ <;> dsimp only <;> rw [hc]
    · exact hx
    · rw [sub_self, abs_zero]; linarith
  · exact done_small hr ht (by rw [hc, abs_sub_comm]; exact hx) hx

/-- One turn of the loop. -/
theorem turn (hr : r.Fine) {t tol : K} {k j : Nat} {lo hi y : K} {v : Vars K} (ht : 0 < t) (htt : 4 * t ≤ tol) (h : Box r t k j lo hi v)
    (hn : ¬ Done r v tol) :
    (∃ k', k = k' + 1 ∧ lo ≤ newTrial r v tol (newStep r v tol).1 ∧ newTrial r v tol (newStep r v tol).1 ≤ hi ∧
      Box r t k' (2 * k') lo hi (swapBest (rename r (after r v tol y)))) ∨
    (∃ j', j = j' + 1 ∧ lo - (3 / 2) ^ (j' / 2) * t ≤ newTrial r v tol (newStep r v tol).1 ∧
      newTrial r v tol (newStep r v tol).1 ≤ hi + (3 / 2) ^ (j' / 2) * t ∧
      (Done r (swapBest (rename r (after r v tol y))) tol ∨
        Box r t k j' (lo - (3 / 2) ^ (j' / 2) * t) (hi + (3 / 2) ^ (j' / 2) * t) (swapBest (rename r (after r v tol y))))) := by
  have htol : 0 ≤ tol := by linarith
  have hp : 997 / 1000 * (2 * t) ≤ tol1 r v tol := by
    have := tol1_ge hr v htol
    have := mul_nonneg (epsilon_pos (K := K)).le (abs_nonneg v.b)
    linarith
  unfold Done at hn
  rw [not_le] at hn
  have hlen := xm_le' hr v
  have hne : v.c ≠ v.b := by
    intro e
    rw [e, sub_self, abs_zero] at hlen
    linarith
  have hfloat (s : K) : r.IsFloat (r.rnd s) := r.idem s
  rcases newStep_cases hr v tol with hs | ⟨d, hs, hd, hdx, he⟩
  · -- bisection
    left
    cases k with
    | zero =>
      exfalso
      have := h.len
      rw [pow_zero, one_mul] at this
      linarith
    | succ k =>
      have hb : newTrial r v tol (xm r v) = r.rnd (v.b + xm r v) := by
        rcases newTrial_cases r (d := xm r v) htol with ⟨_, e⟩ | ⟨e, _⟩
        · exact e
        · exact absurd hn (not_lt.2 e)
      obtain ⟨m1, m2, _⟩ := move hr htol h.bf hn.le
      have m3 := moved hr m1
      have hl : |v.c - v.b| ≤ 3 / 2 * ((3 / 2) ^ k * t) := by
        have := h.len
        rw [pow_succ] at this
        linarith
      have hx0 := abs_nonneg (v.c - v.b)
      have hw : lo ≤ r.rnd (v.b + xm r v) ∧ r.rnd (v.b + xm r v) ≤ hi := by
        have h1 := h.blo; have h2 := h.bhi; have h3 := h.clo; have h4 := h.chi
        rcases lt_or_gt_of_ne hne with hc | hc
        · have hx := xm_neg r hc
          rw [abs_of_neg hx, abs_of_neg (sub_neg.2 hc)] at hlen
          have l1 := r.mono v.c (v.b + xm r v) (by linarith)
          have l2 := r.mono (v.b + xm r v) v.b (by linarith)
          rw [h.cf] at l1
          rw [h.bf] at l2
          constructor <;> linarith
        · have hx := xm_pos r hc
          rw [abs_of_pos hx, abs_of_pos (sub_pos.2 hc)] at hlen
          have l1 := r.mono (v.b + xm r v) v.c (by linarith)
          have l2 := r.mono v.b (v.b + xm r v) (by linarith)
          rw [h.cf] at l1
          rw [h.bf] at l2
          constructor <;> linarith
      refine ⟨k, rfl, by rw [hs, hb]; exact hw.1, by rw [hs, hb]; exact hw.2, box_swap ?_⟩
      unfold rename
      rw [show after r v tol y = ⟨v.b, r.rnd (v.b + xm r v), v.c, xm r v, xm r v, v.fb, y, v.fc⟩ by unfold after; rw [hs, hb]]
      dsimp only
      have e1 : (2 * k + 1) / 2 = k := by omega
      have e2 : 2 * k / 2 = k := by omega
      split
      · refine ⟨le_refl _, ?_, ?_, ?_, hw.1, hw.2, h.blo, h.bhi, hfloat _, h.bf⟩ <;> dsimp only
        · rw [abs_sub_comm]; linarith
        · rw [e1]; linarith
        · rw [e2]; linarith
      · refine ⟨le_refl _, ?_, ?_, ?_, hw.1, hw.2, h.clo, h.chi, hfloat _, h.cf⟩ <;> dsimp only
        · have m4 := xm_err hr v
          have e : v.c - r.rnd (v.b + xm r v) = -(r.rnd (v.b + xm r v) - (v.b + xm r v)) + -(xm r v - 1 / 2 * (v.c - v.b)) + 1 / 2 * (v.c - v.b) := by ring
          have e' : |1 / 2 * (v.c - v.b)| = 1 / 2 * |v.c - v.b| := by rw [abs_mul, abs_of_pos (by norm_num : (0 : K) < 1 / 2)]
          rw [e]
          refine (abs_add_le _ _).trans ?_
          have := abs_add_le (-(r.rnd (v.b + xm r v) - (v.b + xm r v))) (-(xm r v - 1 / 2 * (v.c - v.b)))
          rw [abs_neg, abs_neg] at this
          linarith
        · rw [e1]; linarith
        · rw [e2]; linarith
  · -- interpolation
    right
    cases j with
    | zero =>
      exfalso
      have := h.e
      rw [show (0 + 1) / 2 = 0 from rfl, pow_zero, one_mul] at this
      linarith
    | succ j =>
      have hev : |v.e| ≤ 3 / 2 * ((3 / 2) ^ (j / 2) * t) := by
        have := h.e
        rw [show (j + 1 + 1) / 2 = j / 2 + 1 by omega, pow_succ] at this
        linarith
      have hr0 : 0 ≤ (3 / 2) ^ (j / 2) * t := by positivity
      have hdx' := toward hdx hne
      have h1 : (1 : K) ≤ 3 / 2 := by norm_num
      have hk : (3 / 2) ^ (j / 2) * t ≤ (3 / 2) ^ k * t := by
        refine mul_le_mul_of_nonneg_right (pow_le_pow_right₀ h1 ?_) ht.le
        have := h.count
        omega
      have hj : (3 / 2) ^ (j / 2) * t ≤ (3 / 2) ^ ((j + 1) / 2) * t :=
        mul_le_mul_of_nonneg_right (pow_le_pow_right₀ h1 (by omega)) ht.le
      have hcount : j ≤ 2 * k := by
        have := h.count
        omega
      have hvd : |v.d| ≤ (3 / 2) ^ ((j + 1) / 2) * t := h.d
      have hd' : |d| ≤ (3 / 2) ^ (j / 2) * t := by linarith
      refine ⟨j, rfl, ?_⟩
      rw [hs]
      dsimp only
      rcases newTrial_cases r (v := v) (tol := tol) (d := d) htol with ⟨hbig, hb⟩ | ⟨hsmall, s, hb, hs1, hsx⟩
      · rw [hb]
        obtain ⟨m1, _, m2⟩ := move hr htol h.bf hbig.le
        have m3 := moved hr m1
        have hd0 : d ≠ 0 := by
          rintro rfl
          rw [abs_zero] at hbig
          linarith
        have m4 := m2 _ hdx' hd0
        have m5 : |r.rnd (v.b + d) - v.b| ≤ (3 / 2) ^ (j / 2) * t := by linarith
        have hw := step_within (r := (3 / 2) ^ (j / 2) * t) m4 (by linarith [abs_nonneg (v.c - v.b)]) h.blo h.bhi h.clo h.chi hne hr0
        rw [add_sub_cancel] at hw
        refine ⟨hw.1, hw.2, .inr (box_swap ?_)⟩
        unfold rename
        rw [show after r v tol y = ⟨v.b, r.rnd (v.b + d), v.c, d, v.d, v.fb, y, v.fc⟩ by unfold after; rw [hs, hb]]
        dsimp only
        split
        · refine ⟨hcount, ?_, ?_, ?_, hw.1, hw.2, by linarith [h.blo], by linarith [h.bhi], hfloat _, h.bf⟩ <;> dsimp only
          · rw [abs_sub_comm]; exact m5.trans hk
          · refine le_trans ?_ hj; linarith
          · linarith
        · refine ⟨hcount, ?_, ?_, ?_, hw.1, hw.2, by linarith [h.clo], by linarith [h.chi], hfloat _, h.cf⟩ <;> dsimp only
          · have := step_length m4 h.len (m5.trans hk) hne
            rwa [add_sub_cancel] at this
          · exact hvd
          · exact hd'
      · rw [hb]
        have hsx' := toward hsx hne
        obtain ⟨m1, _, m2⟩ := move hr htol h.bf hs1.ge
        have hs0 : s ≠ 0 := by
          rintro rfl
          rw [abs_zero] at hs1
          linarith
        have m4 := m2 _ hsx' hs0
        rw [hs1] at m1
        have hw := step_within (r := (3 / 2) ^ (j / 2) * t) m4 (by linarith [abs_nonneg (v.c - v.b)]) h.blo h.bhi h.clo h.chi hne hr0
        rw [add_sub_cancel] at hw
        refine ⟨hw.1, hw.2, ?_⟩
        unfold rename
        rw [show after r v tol y = ⟨v.b, r.rnd (v.b + s), v.c, d, v.d, v.fb, y, v.fc⟩ by unfold after; rw [hs, hb]]
        dsimp only
        split
        · left
          exact done_swap (v := v) hr htol rfl m1
        · right
          refine box_swap ⟨hcount, ?_, ?_, ?_, hw.1, hw.2, by linarith [h.clo], by linarith [h.chi], hfloat _, h.cf⟩ <;> dsimp only
          · have h7 := h.len
            have := step_length m4 h.len (by linarith [abs_nonneg (v.c - v.b)]) hne
            rwa [add_sub_cancel] at this
          · exact hvd
          · exact hd'

/-- The furthest that the loop may still go. -/
def reach (t : K) (k j : Nat) : K := (2 * (3 / 2) ^ ((j + 1) / 2) + 2 * (3 / 2) ^ (j / 2) + 8 * (3 / 2) ^ k) * t

theorem reach_turn (t : K) (k j : Nat) : reach t k (j + 1) = reach t k j + (3 / 2) ^ (j / 2) * t := by
  unfold reach
  rw [show (j + 1 + 1) / 2 = j / 2 + 1 by omega, pow_succ]
  ring

theorem reach_shrunk {t : K} (ht : 0 < t) (k j : Nat) : reach t k (2 * k) ≤ reach t (k + 1) j := by
  unfold reach
  rw [show (2 * k + 1) / 2 = k by omega, show 2 * k / 2 = k by omega, pow_succ]
  refine mul_le_mul_of_nonneg_right ?_ ht.le
  have h1 : (0 : K) ≤ (3 / 2) ^ ((j + 1) / 2) := by positivity
  have h2 : (0 : K) ≤ (3 / 2) ^ (j / 2) := by positivity
  linarith

theorem reach_nonneg {t : K} (ht : 0 < t) (k j : Nat) : 0 ≤ reach t k j := by
  unfold reach
  positivity

/-- With enough turns the loop succeeds. -/
theorem loop_success (hr : r.Fine) {σ : Type} {func : K → σ → Outcome K × σ} {f : K → Outcome K} (hf : Answers func f) {t tol : K} (ht : 0 < t)
    (htt : 4 * t ≤ tol) : ∀ (n : Nat) (k j : Nat) (lo hi : K) (v : Vars K) (st : σ), j + 1 + k * k ≤ n → Box r t k j lo hi (swapBest (rename r v)) →
      (∀ x, r.IsFloat x → lo - reach t k j ≤ x → x ≤ hi + reach t k j → ∃ y, f x = .ok y) → ∃ x, (searchLoop r func tol n v st).1 = .ok x
  | 0, k, j, _, _, _, _, hle, _, _ => by omega
  | n + 1, k, j, lo, hi, v, st, hle, hbox, hnum => by
    unfold searchLoop
    dsimp only
    generalize swapBest (rename r v) = w at hbox
    by_cases hc : |xm r w| ≤ tol1 r w tol ∨ w.fb = 0
    · rw [if_pos hc]
      exact ⟨_, rfl⟩
    · rw [if_neg hc]
      have hnd : ¬ Done r w tol := fun h => hc (.inl h)
      have hr' := reach_nonneg ht k j
      have hin : lo - reach t k j ≤ newTrial r w tol (newStep r w tol).1 ∧ newTrial r w tol (newStep r w tol).1 ≤ hi + reach t k j := by
        rcases turn (y := 0) hr ht htt hbox hnd with ⟨k', rfl, h1, h2, _⟩ | ⟨j', rfl, h1, h2, _⟩
        · constructor <;> linarith
        · have := reach_nonneg ht k j'
          rw [reach_turn]
          constructor <;> linarith
      have hfl : r.IsFloat (newTrial r w tol (newStep r w tol).1) := by
        unfold newTrial
        split <;> exact r.idem _
      obtain ⟨y, hy⟩ := hnum _ hfl hin.1 hin.2
      have hy' := hf (newTrial r w tol (newStep r w tol).1) st
      rw [hy] at hy'
      generalize func (newTrial r w tol (newStep r w tol).1) st = res at hy'
      obtain ⟨res, st'⟩ := res
      dsimp only at hy'
      subst hy'
      dsimp only
      show ∃ x, (searchLoop r func tol n (after r w tol y) st').1 = .ok x
      rcases turn (y := y) hr ht htt hbox hnd with ⟨k', rfl, _, _, h3⟩ | ⟨j', rfl, _, _, h3⟩
      · refine loop_success hr hf ht htt n k' (2 * k') lo hi _ st' ?_ h3 (fun x h0 h1 h2 => hnum x h0 ?_ ?_)
        · have : (k' + 1) * (k' + 1) = k' * k' + 2 * k' + 1 := by ring
          omega
        · linarith [reach_shrunk ht k' j]
        · linarith [reach_shrunk ht k' j]
      · rcases h3 with h3 | h3
        · obtain ⟨n, rfl⟩ : ∃ m, n = m + 1 := ⟨n - 1, by omega⟩
          unfold searchLoop
          dsimp only
          rw [if_pos (.inl h3)]
          exact ⟨_, rfl⟩
        · refine loop_success hr hf ht htt n k j' _ _ _ st' (by omega) h3 (fun x h0 h1 h2 => hnum x h0 ?_ ?_)
          · rw [reach_turn]; linarith
          · rw [reach_turn]; linarith

/-- The loop only evaluates the function within reach. -/
theorem loop_within (hr : r.Fine) {σ : Type} (func : K → σ → Outcome K × σ) {t tol : K} (ht : 0 < t)
    (htt : 4 * t ≤ tol) : ∀ (n : Nat) (k j : Nat) (lo hi : K) (v : Vars K) (st : List K × σ), Box r t k j lo hi (swapBest (rename r v)) →
      ∀ x ∈ (searchLoop r (logged func) tol n v st).2.1, x ∈ st.1 ∨ lo - reach t k j ≤ x ∧ x ≤ hi + reach t k j
  | 0, _, _, _, _, _, _, _ => fun x hx => .inl hx
  | n + 1, k, j, lo, hi, v, st, hbox => by
    unfold searchLoop
    dsimp only
    generalize swapBest (rename r v) = w at hbox
    by_cases hc : |xm r w| ≤ tol1 r w tol ∨ w.fb = 0
    · rw [if_pos hc]
      exact fun x hx => .inl hx
    · rw [if_neg hc]
      have hnd : ¬ Done r w tol := fun h => hc (.inl h)
      have hr' := reach_nonneg ht k j
      have hin : lo - reach t k j ≤ newTrial r w tol (newStep r w tol).1 ∧ newTrial r w tol (newStep r w tol).1 ≤ hi + reach t k j := by
        rcases turn (y := 0) hr ht htt hbox hnd with ⟨k', rfl, h1, h2, _⟩ | ⟨j', rfl, h1, h2, _⟩
        · constructor <;> linarith
        · have := reach_nonneg ht k j'
          rw [reach_turn]
          constructor <;> linarith
      rw [show logged func (newTrial r w tol (newStep r w tol).1) st = ((func (newTrial r w tol (newStep r w tol).1) st.2).1,
        (newTrial r w tol (newStep r w tol).1 :: st.1, (func (newTrial r w tol (newStep r w tol).1) st.2).2)) from rfl]
      generalize func (newTrial r w tol (newStep r w tol).1) st.2 = res
      obtain ⟨res, st'⟩ := res
      have hold {x : K} (hx : x ∈ newTrial r w tol (newStep r w tol).1 :: st.1) : x ∈ st.1 ∨ lo - reach t k j ≤ x ∧ x ≤ hi + reach t k j := by
        rcases List.mem_cons.1 hx with rfl | hx
        · exact .inr hin
        · exact .inl hx
      cases res with
      | error e => exact fun x hx => hold hx
      | ok y =>
        dsimp only
        show ∀ x ∈ (searchLoop r (logged func) tol n (after r w tol y) (newTrial r w tol (newStep r w tol).1 :: st.1, st')).2.1, _
        intro x hx
        rcases turn (y := y) hr ht htt hbox hnd with ⟨k', rfl, _, _, h3⟩ | ⟨j', rfl, _, _, h3⟩
        · rcases loop_within hr func ht htt n k' (2 * k') lo hi _ _ h3 x hx with h | ⟨h1, h2⟩
          · exact hold h
          · right
            have := reach_shrunk ht k' j
            constructor <;> linarith
        · rcases h3 with h3 | h3
          · cases n with
            | zero => exact hold hx
            | succ n =>
              unfold searchLoop at hx
              dsimp only at hx
              rw [if_pos (.inl h3)] at hx
              exact hold hx
          · rcases loop_within hr func ht htt n k j' _ _ _ _ h3 x hx with h | ⟨h1, h2⟩
            · exact hold h
            · right
              rw [reach_turn]
              constructor <;> linarith

omit [IsStrictOrderedRing K] in
/-- Writing down the points changes nothing, they are floats, and the result is one of them. -/
theorem loop_logged (r : Rounding K) {σ : Type} (func : K → σ → Outcome K × σ) (tol : K) : ∀ (n : Nat) (v : Vars K) (st : List K × σ),
    v.a ∈ st.1 → v.b ∈ st.1 → v.c ∈ st.1 → (∀ x ∈ st.1, r.IsFloat x) →
    (searchLoop r (logged func) tol n v st).1 = (searchLoop r func tol n v st.2).1 ∧
      (∀ x, (searchLoop r func tol n v st.2).1 = .ok x → x ∈ (searchLoop r (logged func) tol n v st).2.1) ∧
      ∀ x ∈ (searchLoop r (logged func) tol n v st).2.1, r.IsFloat x
  | 0, _, _, _, _, _, hfl => ⟨rfl, (fun x hx => by cases hx), hfl⟩
  | n + 1, v, st, ha, hb, hc, hfl => by
    unfold searchLoop
    dsimp only
    have hw : (swapBest (rename r v)).b ∈ st.1 ∧ (swapBest (rename r v)).c ∈ st.1 := by
      unfold swapBest rename
      split <;> split <;> exact ⟨by assumption, by assumption⟩
    generalize swapBest (rename r v) = w at hw
    by_cases hx : |xm r w| ≤ tol1 r w tol ∨ w.fb = 0
    · rw [if_pos hx, if_pos hx]
      refine ⟨rfl, fun x hx => ?_, hfl⟩
      rw [← Except.ok.inj hx]
      exact hw.1
    · rw [if_neg hx, if_neg hx]
      rw [show logged func (newTrial r w tol (newStep r w tol).1) st = ((func (newTrial r w tol (newStep r w tol).1) st.2).1,
        (newTrial r w tol (newStep r w tol).1 :: st.1, (func (newTrial r w tol (newStep r w tol).1) st.2).2)) from rfl]
      have hnew : r.IsFloat (newTrial r w tol (newStep r w tol).1) := by
        unfold newTrial
        split <;> exact r.idem _
      have hfl' : ∀ x ∈ newTrial r w tol (newStep r w tol).1 :: st.1, r.IsFloat x := by
        intro x hx
        rcases List.mem_cons.1 hx with rfl | hx
        · exact hnew
        · exact hfl x hx
      generalize func (newTrial r w tol (newStep r w tol).1) st.2 = res
      obtain ⟨res, st'⟩ := res
      cases res with
      | error e => exact ⟨rfl, (fun x hx => by cases hx), hfl'⟩
      | ok y =>
        exact loop_logged r func tol n (after r w tol y) (newTrial r w tol (newStep r w tol).1 :: st.1, st') (List.mem_cons_of_mem _ hw.1)
          List.mem_cons_self (List.mem_cons_of_mem _ hw.2) hfl'

/-- The bracket at the start, unless the function is zero at the second end. -/
theorem box_start (hr : r.Fine) {t : K} {k : Nat} {x1 x2 fa fb : K} (h : 101 / 100 * |x2 - x1| ≤ (3 / 2) ^ k * t) (hfb : fb ≠ 0)
    (h1 : r.IsFloat x1) (h2 : r.IsFloat x2) :
    Box r t k (2 * k) (min x1 x2) (max x1 x2) (swapBest (rename r ⟨x1, x2, x2, 0, 0, fa, fb, fb⟩)) := by
  apply box_swap
  unfold rename
  rw [if_pos (by simp only [sameSign, decide_eq_true_eq, and_self]; exact (lt_or_gt_of_ne hfb).symm)]
  have h0 := abs_nonneg (x2 - x1)
  have h3 := abs_rnd_le r (x2 - x1)
  have h4 : r.unit * |x2 - x1| ≤ 1 / 1000 * |x2 - x1| := mul_le_mul_of_nonneg_right (unit_small hr) h0
  refine ⟨le_refl _, ?_, ?_, ?_, min_le_right _ _, le_max_right _ _, min_le_left _ _, le_max_left _ _, h2, h1⟩ <;> dsimp only
  · rw [abs_sub_comm]; linarith
  · rw [show (2 * k + 1) / 2 = k by omega]; linarith
  · rw [show 2 * k / 2 = k by omega]; linarith

end QM.Rounded
