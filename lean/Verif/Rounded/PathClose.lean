import Verif.Rounded.PathProps

/-!
# C118: the accuracy of simulated options, and options yet to be struck
-/

namespace QM.Rounded
open Spec

variable {K : Type} [Field K] [LinearOrder K] [IsStrictOrderedRing K] {n : Nat} {r : Rounding K} {v : K}

/-- What an option pays at a spot, in exact arithmetic. -/
def Spec.pays : QM.Instruments.PutOrCall → K → K → K
  | .call, spot, strike => max (spot - strike) 0
  | .put, spot, strike => max (strike - spot) 0

theorem payoff_close (r : Rounding K) (kind : QM.Instruments.PutOrCall) (S k : K) : |payoff r kind S k - pays kind S k| ≤ r.unit * |S - k| := by
  cases kind with
  | call =>
    rw [payoff_call]
    exact (abs_max_sub_max_le_abs _ _ _).trans (r.close _)
  | put =>
    rw [payoff_put]
    refine (abs_max_sub_max_le_abs _ _ _).trans ?_
    rw [abs_sub_comm S k]
    exact r.close _

theorem pays_le (kind : QM.Instruments.PutOrCall) (S k : K) : 0 ≤ pays kind S k ∧ pays kind S k ≤ |S - k| := by
  cases kind with
  | call => exact ⟨le_max_right _ _, max_le (le_abs_self _) (abs_nonneg _)⟩
  | put => exact ⟨le_max_right _ _, max_le (by rw [abs_sub_comm]; exact le_abs_self _) (abs_nonneg _)⟩

theorem mean_le {x y : Fin n → K} (h : ∀ i, x i ≤ y i) : mean x ≤ mean y :=
  div_le_div_of_nonneg_right (Finset.sum_le_sum fun i _ => h i) (Nat.cast_nonneg n)

omit [LinearOrder K] [IsStrictOrderedRing K] in
theorem mean_smul (a : K) (x : Fin n → K) : mean (fun i => a * x i) = a * mean x := by
  unfold mean
  rw [← Finset.mul_sum, mul_div_assoc]

omit [LinearOrder K] [IsStrictOrderedRing K] in
theorem mean_sub (x y : Fin n → K) : mean (fun i => x i - y i) = mean x - mean y := by
  unfold mean
  rw [Finset.sum_sub_distrib, sub_div]

theorem mean_abs (x : Fin n → K) : |mean x| ≤ mean fun i => |x i| := by
  unfold mean
  rw [abs_div, abs_of_nonneg (Nat.cast_nonneg n : (0 : K) ≤ n)]
  exact div_le_div_of_nonneg_right (Finset.abs_sum_le_sum_abs _ _) (Nat.cast_nonneg n)

/-- C118, accuracy. On given spots, the simulated price is the mean of the exact payoffs times the value of the flow, up to one rounding for each addition that a path goes through and four more,
relative to the mean distance of spot and strike. -/
theorem C118_close (hn : 0 < n) (hm : n ≤ 2 ^ 32) {how : Adding n} (hf : Fair how) (kind : QM.Instruments.PutOrCall) (spots : Fin n → K) (k : K) :
    |simulatedPrice r how kind spots k v - mean (fun i => pays kind (spots i) k) * v| ≤ ((1 + r.unit) ^ (depth how + 4) - 1) * ((mean fun i => |spots i - k|) * |v|) := by
  have hu := r.unit_nonneg
  have h := C116_close r hn hm hf [(fun i => payoff r kind (spots i) k, v)]
  simp only [List.map_cons, List.map_nil, List.sum_cons, List.sum_nil, add_zero, List.length_cons, List.length_nil, zero_add] at h
  have e1 : |mean (fun i => payoff r kind (spots i) k) - mean (fun i => pays kind (spots i) k)| ≤ r.unit * mean fun i => |spots i - k| := by
    rw [← mean_sub, ← mean_smul]
    exact (mean_abs _).trans (mean_le fun i => payoff_close r kind (spots i) k)
  have e2 : (mean fun i => |payoff r kind (spots i) k|) ≤ (1 + r.unit) * mean fun i => |spots i - k| := by
    rw [← mean_smul]
    refine mean_le fun i => ?_
    have h1 := payoff_close r kind (spots i) k
    have h2 := pays_le kind (spots i) k
    rw [abs_le] at h1 ⊢
    constructor <;> linarith [abs_nonneg (spots i - k), mul_nonneg hu (abs_nonneg (spots i - k))]
  set q := (1 + r.unit) ^ (depth how + 1 + 2) with hq
  have hq1 : 1 ≤ q := one_le_pow₀ (by linarith)
  have hpow : (1 + r.unit) ^ (depth how + 4) = q * (1 + r.unit) := by rw [hq, ← pow_succ]
  rw [hpow]
  have e3 : |mean (fun i => payoff r kind (spots i) k) * v - mean (fun i => pays kind (spots i) k) * v| ≤ r.unit * ((mean fun i => |spots i - k|) * |v|) := by
    rw [← sub_mul, abs_mul, ← mul_assoc]
    exact mul_le_mul_of_nonneg_right e1 (abs_nonneg v)
  have e4 := h.trans (mul_le_mul_of_nonneg_left (mul_le_mul_of_nonneg_right e2 (abs_nonneg v)) (sub_nonneg.2 hq1))
  change |simulatedPrice r how kind spots k v - _| ≤ _ at e4
  rw [abs_le] at e3 e4 ⊢
  constructor <;> linarith

/-- C118, options yet to be struck. On the same paths, a call struck at a higher fraction never costs more and a put never less, if the spots at which they are struck are not negative; neither ever
has a negative price. -/
theorem C118_fractions (hn : 0 < n) (how : Adding n) {start spots : Fin n → K} (hs : ∀ i, 0 ≤ start i) (hv : 0 ≤ v) {a a' : K} (h : a ≤ a') :
    0 ≤ struckPrice r how .call a' start spots v ∧ struckPrice r how .call a' start spots v ≤ struckPrice r how .call a start spots v ∧
      0 ≤ struckPrice r how .put a start spots v ∧ struckPrice r how .put a start spots v ≤ struckPrice r how .put a' start spots v := by
  have hk : ∀ i, r.rnd (a * start i) ≤ r.rnd (a' * start i) := fun i => r.mono _ _ (mul_le_mul_of_nonneg_right h (hs i))
  have pos : ∀ (kind : QM.Instruments.PutOrCall) (b : K), 0 ≤ struckPrice r how kind b start spots v := by
    intro kind b
    refine C116_nonneg r hn how ?_
    intro f hf
    rw [List.mem_singleton] at hf
    subst hf
    exact ⟨fun i => le_max_right _ _, hv⟩
  refine ⟨pos _ _, ?_, pos _ _, ?_⟩
  · refine price_mono hn how hv fun i => ?_
    rw [payoff_call, payoff_call]
    exact max_le_max (r.mono _ _ (by linarith [hk i])) le_rfl
  · refine price_mono hn how hv fun i => ?_
    rw [payoff_put, payoff_put]
    exact max_le_max (r.mono _ _ (by linarith [hk i])) le_rfl

/-- C118: two paths that start at a hundred and end at 90 and 120, and a call struck at the spot. -/
example : struckPrice f64 (.plus (.term 0) (.term 1)) .call 1 (fun _ : Fin 2 => (100 : ℚ)) ![90, 120] (1 / 2) = 5 ∧ Fair (n := 2) (.plus (.term 0) (.term 1)) := by
  constructor
  · decide +kernel
  · show ([0, 1] : List (Fin 2)).Perm (List.finRange 2)
    decide

end QM.Rounded
