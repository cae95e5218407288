import Verif.Rounded.AverageModel
import Verif.Rounded.CurveProps
import Mathlib.Data.List.Forall2

/-!
# C116: what rounding can do to Monte-Carlo averages
-/

namespace QM.Rounded

variable {K : Type} [Field K] [LinearOrder K] [IsStrictOrderedRing K] {n : Nat}

namespace Spec

/-- The numbers that are added, in order. -/
def indices : Adding n → List (Fin n)
  | .zero => []
  | .term i => [i]
  | .plus a b => indices a ++ indices b

/-- Every number is added once. -/
def Fair (how : Adding n) : Prop := (indices how).Perm (List.finRange n)

/-- The largest number of additions that any number goes through. -/
def depth : Adding n → Nat
  | .zero => 0
  | .term _ => 0
  | .plus a b => max (depth a) (depth b) + 1

/-- The mean. -/
def mean (x : Fin n → K) : K := (∑ i, x i) / n

/-- A running total of the numbers. -/
def running (l : List (Fin n)) : Adding n := l.foldl (fun a i => .plus a (.term i)) .zero

end Spec

open Spec

/-! ### Helper lemmas -/

theorem eval_from (r : Rounding K) (x : Fin n → K) (how : Adding n) :
    |how.eval r x - ((indices how).map x).sum| ≤ ((1 + r.unit) ^ depth how - 1) * ((indices how).map fun i => |x i|).sum := by
  have hu := r.unit_nonneg
  induction how with
  | zero => simp [Adding.eval, indices, depth]
  | term i => simp [Adding.eval, indices, depth]
  | plus a b iha ihb =>
    have up : ∀ {k l : Nat} {A : K}, k ≤ l → 0 ≤ A → ((1 + r.unit) ^ k - 1) * A ≤ ((1 + r.unit) ^ l - 1) * A := by
      intro k l A h hA
      exact mul_le_mul_of_nonneg_right (sub_le_sub_right (pow_le_pow_right₀ (by linarith) h) _) hA
    have pos : ∀ l : List (Fin n), 0 ≤ (l.map fun i => |x i|).sum := by
      intro l
      refine List.sum_nonneg ?_
      simp only [List.mem_map]
      rintro _ ⟨i, _, rfl⟩
      exact abs_nonneg _
    have big : ∀ l : List (Fin n), |(l.map x).sum| ≤ (l.map fun i => |x i|).sum := by
      intro l
      induction l with
      | nil => simp
      | cons i l ih =>
        simp only [List.map_cons, List.sum_cons]
        exact (abs_add_le _ _).trans (add_le_add le_rfl ih)
    simp only [Adding.eval, indices, depth, List.map_append, List.sum_append]
    have ha := iha.trans (up (le_max_left _ (depth b)) (pos _))
    have hb := ihb.trans (up (le_max_right (depth a) _) (pos _))
    set m := max (depth a) (depth b)
    set A := ((indices a).map fun i => |x i|).sum
    set B := ((indices b).map fun i => |x i|).sum
    have hA := big (indices a)
    have hB := big (indices b)
    set S := ((indices a).map x).sum
    set T := ((indices b).map x).sum
    set y := a.eval r x
    set z := b.eval r x
    set q := (1 + r.unit) ^ m with hq
    have s1 : |y + z - (S + T)| ≤ (q - 1) * (A + B) := by
      rw [abs_le] at ha hb ⊢
      constructor <;> linarith
    have s2 : |y + z| ≤ q * (A + B) := by
      rw [abs_le] at s1 hA hB ⊢
      constructor <;> linarith
    have s3 := (r.close (y + z)).trans (mul_le_mul_of_nonneg_left s2 hu)
    rw [pow_succ, ← hq]
    rw [abs_le] at s1 s3 ⊢
    constructor <;> linarith

theorem fair_sum {M : Type} [AddCommMonoid M] {how : Adding n} (h : Fair how) (x : Fin n → M) : ((indices how).map x).sum = ∑ i, x i := by
  rw [(h.map x).sum_eq, Fin.sum_univ_def]

theorem eval_mono (r : Rounding K) (how : Adding n) {x y : Fin n → K} (h : ∀ i, x i ≤ y i) : how.eval r x ≤ how.eval r y := by
  induction how with
  | zero => exact le_rfl
  | term i => exact h i
  | plus a b iha ihb => exact r.mono _ _ (add_le_add iha ihb)

omit [IsStrictOrderedRing K] in
theorem paths_exact (r : Rounding K) (hn : n ≤ 2 ^ 32) : r.rnd (n : K) = n := by
  have := r.int (n : ℤ) (by rw [abs_of_nonneg (by positivity)]; exact_mod_cast hn)
  simpa using this

theorem average_mono (r : Rounding K) (how : Adding n) {x y : Fin n → K} (h : ∀ i, x i ≤ y i) : average r how x ≤ average r how y :=
  r.mono _ _ (div_le_div_of_nonneg_right (eval_mono r how h) (r.nonneg (Nat.cast_nonneg n)))

theorem average_zero (r : Rounding K) (how : Adding n) : average r how (fun _ => (0 : K)) = 0 := by
  have : how.eval r (fun _ => (0 : K)) = 0 := by
    induction how with
    | zero => rfl
    | term i => rfl
    | plus a b iha ihb => rw [Adding.eval, iha, ihb, add_zero, r.zero]
  unfold average
  rw [this, zero_div, r.zero]

/-! ## C116 -/

/-- C116, order. In whatever order the paths are added: if every flow has a value of nought or more, and each path of one simulation pays at least what it pays in the other, then the price is no
smaller. Nothing is lost to rounding. -/
theorem C116_order (r : Rounding K) (_hn : 0 < n) (how : Adding n) {flows flows' : List ((Fin n → K) × K)}
    (h : List.Forall₂ (fun f g => (∀ i, f.1 i ≤ g.1 i) ∧ 0 ≤ f.2 ∧ f.2 = g.2) flows flows') : evaluateFlows r how flows ≤ evaluateFlows r how flows' := by
  have key : ∀ {fs gs : List ((Fin n → K) × K)}, List.Forall₂ (fun f g => (∀ i, f.1 i ≤ g.1 i) ∧ 0 ≤ f.2 ∧ f.2 = g.2) fs gs → ∀ {a b : K}, a ≤ b →
      fs.foldl (fun total f => r.rnd (total + r.rnd (average r how f.1 * f.2))) a ≤ gs.foldl (fun total f => r.rnd (total + r.rnd (average r how f.1 * f.2))) b := by
    intro fs gs hfg
    induction hfg with
    | nil => exact fun h => h
    | cons h1 _ ih =>
      intro a b hab
      refine ih (r.mono _ _ (add_le_add hab (r.mono _ _ ?_)))
      rw [← h1.2.2]
      exact mul_le_mul_of_nonneg_right (average_mono r how h1.1) h1.2.1
  exact key h le_rfl

/-- C116, sign. In whatever order the paths are added, flows that are never negative, each worth nought or more, never have a negative price. -/
theorem C116_nonneg (r : Rounding K) (hn : 0 < n) (how : Adding n) {flows : List ((Fin n → K) × K)} (h : ∀ f ∈ flows, (∀ i, 0 ≤ f.1 i) ∧ 0 ≤ f.2) :
    0 ≤ evaluateFlows r how flows := by
  have hz : evaluateFlows r how (flows.map fun f => ((fun _ => (0 : K)), f.2)) = 0 := by
    unfold evaluateFlows
    induction flows with
    | nil => rfl
    | cons f fs ih =>
      simp only [List.map_cons, List.foldl_cons, average_zero, zero_mul, r.zero, add_zero]
      have := ih fun g hg => h g (List.mem_cons_of_mem _ hg)
      simpa only [average_zero, zero_mul, r.zero, add_zero] using this
  rw [← hz]
  refine C116_order r hn how ?_
  rw [List.forall₂_map_left_iff, List.forall₂_same]
  exact fun f hf => ⟨(h f hf).1, (h f hf).2, rfl⟩

/-- C116, accuracy of one average. It is the mean of the paths up to one rounding more than additions that a path goes through, relative to the mean of the sizes. -/
theorem C116_average (r : Rounding K) (hn : 0 < n) (hm : n ≤ 2 ^ 32) {how : Adding n} (hf : Fair how) (x : Fin n → K) :
    |average r how x - mean x| ≤ ((1 + r.unit) ^ (depth how + 1) - 1) * mean fun i => |x i| := by
  have hu := r.unit_nonneg
  have hN : (0 : K) < n := Nat.cast_pos.2 hn
  have h := eval_from r x how
  rw [fair_sum hf, fair_sum hf] at h
  unfold average
  rw [paths_exact r hm]
  set q := (1 + r.unit) ^ depth how with hq
  have hb : |∑ i, x i| ≤ ∑ i, |x i| := Finset.abs_sum_le_sum_abs _ _
  have d1 : |how.eval r x / n - mean x| ≤ (q - 1) * mean fun i => |x i| := by
    unfold mean
    rw [← sub_div, abs_div, abs_of_pos hN, ← mul_div_assoc]
    exact div_le_div_of_nonneg_right h hN.le
  have d2 : |mean x| ≤ mean fun i => |x i| := by
    unfold mean
    rw [abs_div, abs_of_pos hN]
    exact div_le_div_of_nonneg_right hb hN.le
  set M := mean fun i => |x i|
  have d3 : |how.eval r x / n| ≤ q * M := by
    rw [abs_le] at d1 d2 ⊢
    constructor <;> linarith
  have d4 := (r.close (how.eval r x / n)).trans (mul_le_mul_of_nonneg_left d3 hu)
  rw [pow_succ, ← hq]
  rw [abs_le] at d1 d4 ⊢
  constructor <;> linarith

/-- C116, accuracy of the price. In whatever order the paths are added, the price is the sum of means times values, up to one rounding for each addition that a path or a flow goes through and two
more, relative to the same sum of sizes. -/
theorem C116_close (r : Rounding K) (hn : 0 < n) (hm : n ≤ 2 ^ 32) {how : Adding n} (hf : Fair how) (flows : List ((Fin n → K) × K)) :
    |evaluateFlows r how flows - (flows.map fun f => mean f.1 * f.2).sum| ≤
      ((1 + r.unit) ^ (depth how + flows.length + 2) - 1) * (flows.map fun f => (mean fun i => |f.1 i|) * |f.2|).sum := by
  have hu := r.unit_nonneg
  have e : evaluateFlows r how flows = total r (flows.map fun f => (average r how f.1, f.2)) := by
    unfold evaluateFlows total
    rw [List.foldl_map]
  have h := C108_total r (flows.map fun f => (average r how f.1, f.2))
  rw [← e, List.map_map, List.map_map, List.length_map] at h
  simp only [Function.comp_def] at h
  set p := (1 + r.unit) ^ (depth how + 1) with hp
  have hp1 : 1 ≤ p := one_le_pow₀ (by linarith)
  have hq1 : 1 ≤ (1 + r.unit) ^ (flows.length + 1) := one_le_pow₀ (by linarith)
  have hpq : (1 + r.unit) ^ (depth how + flows.length + 2) = (1 + r.unit) ^ (flows.length + 1) * p := by
    rw [hp, ← pow_add]
    congr 1
    omega
  rw [hpq]
  set q := (1 + r.unit) ^ (flows.length + 1)
  clear_value q
  have one : ∀ f : (Fin n → K) × K, |average r how f.1 * f.2 - mean f.1 * f.2| ≤ (p - 1) * ((mean fun i => |f.1 i|) * |f.2|) := by
    intro f
    rw [← sub_mul, abs_mul, ← mul_assoc]
    exact mul_le_mul_of_nonneg_right (C116_average r hn hm hf f.1) (abs_nonneg _)
  have hmean : ∀ f : (Fin n → K) × K, |mean f.1 * f.2| ≤ (mean fun i => |f.1 i|) * |f.2| := by
    intro f
    rw [abs_mul]
    refine mul_le_mul_of_nonneg_right ?_ (abs_nonneg _)
    unfold mean
    rw [abs_div, abs_of_nonneg (Nat.cast_nonneg n : (0 : K) ≤ n)]
    exact div_le_div_of_nonneg_right (Finset.abs_sum_le_sum_abs _ _) (Nat.cast_nonneg n)
  have s1 : |(flows.map fun f => average r how f.1 * f.2).sum - (flows.map fun f => mean f.1 * f.2).sum| ≤ (p - 1) * (flows.map fun f => (mean fun i => |f.1 i|) * |f.2|).sum := by
    clear h e hpq
    induction flows with
    | nil => simp
    | cons f fs ih =>
      simp only [List.map_cons, List.sum_cons]
      have h1 := one f
      rw [abs_le] at h1 ih ⊢
      constructor <;> linarith
  have s2 : (flows.map fun f => |average r how f.1 * f.2|).sum ≤ p * (flows.map fun f => (mean fun i => |f.1 i|) * |f.2|).sum := by
    clear h e hpq s1
    induction flows with
    | nil => simp
    | cons f fs ih =>
      simp only [List.map_cons, List.sum_cons]
      have h1 := one f
      have h2 := hmean f
      have h3 : |average r how f.1 * f.2| ≤ p * ((mean fun i => |f.1 i|) * |f.2|) := by
        rw [abs_le] at h1 h2 ⊢
        constructor <;> linarith
      linarith
  have s3 := h.trans (mul_le_mul_of_nonneg_left s2 (sub_nonneg.2 hq1))
  rw [abs_le] at s1 s3 ⊢
  constructor <;> linarith

omit [IsStrictOrderedRing K] in
/-- C116, whole numbers. Payoffs that are whole numbers, not more than 2^32 in all, are added without any error, in whatever order. -/
theorem C116_whole (r : Rounding K) {how : Adding n} (hf : Fair how) (k : Fin n → ℤ) (hk : ∑ i, |k i| ≤ 2 ^ 32) : how.eval r (fun i => (k i : K)) = ((∑ i, k i : ℤ) : K) := by
  have key : ∀ a : Adding n, ((indices a).map fun i => |k i|).sum ≤ 2 ^ 32 → a.eval r (fun i => (k i : K)) = ((((indices a).map k).sum : ℤ) : K) ∧
      |((indices a).map k).sum| ≤ ((indices a).map fun i => |k i|).sum := by
    intro a
    induction a with
    | zero => intro _; simp [Adding.eval, indices]
    | term i => intro _; simp [Adding.eval, indices]
    | plus a b iha ihb =>
      intro h
      simp only [indices, List.map_append, List.sum_append, Adding.eval] at h ⊢
      have pos : ∀ l : List (Fin n), 0 ≤ (l.map fun i => |k i|).sum := by
        intro l
        refine List.sum_nonneg ?_
        simp only [List.mem_map]
        rintro _ ⟨i, _, rfl⟩
        exact abs_nonneg _
      obtain ⟨a1, a2⟩ := iha (by linarith [pos (indices b)])
      obtain ⟨b1, b2⟩ := ihb (by linarith [pos (indices a)])
      have ab := (abs_add_le _ _).trans (add_le_add a2 b2)
      refine ⟨?_, ab⟩
      rw [a1, b1, ← Int.cast_add]
      exact r.int _ (ab.trans h)
  have h1 : ((indices how).map fun i => |k i|).sum = ∑ i, |k i| := fair_sum hf _
  have h2 : ((indices how).map k).sum = ∑ i, k i := fair_sum hf _
  rw [(key how (h1.trans_le hk)).1, h2]

/-- The `f64` nearest to a tenth. -/
def tenth : ℚ := 3602879701896397 / 2 ^ 55

/-- C116, an average may leave the range of what is averaged: ten paths that all pay the `f64` nearest to a tenth, added up one after the other, have a smaller average. -/
theorem C116_range_false : f64.rnd tenth = tenth ∧ average f64 (running (List.finRange 10)) (fun _ => tenth) < tenth := by
  constructor <;> decide +kernel

/-! ### The hypotheses can be met -/

theorem running_indices (l : List (Fin n)) (a : Adding n) : indices (l.foldl (fun a i => .plus a (.term i)) a) = indices a ++ l := by
  induction l generalizing a with
  | nil => simp
  | cons i l ih => rw [List.foldl_cons, ih]; simp [indices]

/-- A running total over all paths is fair, and each path goes through at most as many additions as there are paths. -/
theorem running_fair (n : Nat) : Fair (running (List.finRange n)) ∧ depth (running (List.finRange n)) = n := by
  constructor
  · unfold Fair running
    rw [running_indices]
    exact List.Perm.refl _
  · have : ∀ (l : List (Fin n)) (a : Adding n), depth (l.foldl (fun a i => Adding.plus a (.term i)) a) = depth a + l.length := by
      intro l
      induction l with
      | nil => simp
      | cons i l ih =>
        intro a
        rw [List.foldl_cons, ih]
        simp [depth]
        omega
    unfold running
    rw [this]
    simp [depth]

/-- Two paths and one flow with a value: the average of 3 and 4, and a discount factor of one half. -/
example : evaluateFlows f64 (running (List.finRange 2)) [(![3, 4], 1 / 2)] = 7 / 4 := by decide +kernel

/-- Pairs are added first: as fair, and fewer additions for each path. -/
example : Fair (n := 4) (.plus (.plus (.term 0) (.term 2)) (.plus (.term 1) (.term 3))) ∧ depth (n := 4) (.plus (.plus (.term 0) (.term 2)) (.plus (.term 1) (.term 3))) = 2 := by
  constructor
  · show ([0, 2, 1, 3] : List (Fin 4)).Perm (List.finRange 4)
    decide
  · rfl

end QM.Rounded
