import Verif.MonteCarlo.Props
import Verif.Instruments.ExpectationProps
import Mathlib.Probability.StrongLaw
import Mathlib.Probability.Independence.InfinitePi

/-!
# Lemmas about the convergence of Monte-Carlo prices
-/

namespace QM.MonteCarlo
open QM.Instruments Spec MeasureTheory ProbabilityTheory
open QM.Instruments.Spec (payoff lognormal)

variable {Ω : Type} [MeasurableSpace Ω] {μ : Measure Ω} [IsProbabilityMeasure μ]

/-! ## One step -/

section Step
variable {X : Ω → ℝ}

omit [IsProbabilityMeasure μ] in
theorem exp_mean (h : HasLaw X (gaussianReal 0 1) μ) (s : ℝ) :
    Integrable (fun ω => Real.exp (s * X ω - s ^ 2 / 2)) μ ∧ ∫ ω, Real.exp (s * X ω - s ^ 2 / 2) ∂μ = 1 := by
  have hi := exp_integrable s
  constructor
  · have := h.map_eq ▸ hi
    exact (integrable_map_measure this.aestronglyMeasurable h.aemeasurable).1 this
  · have := C90_mean 1 s h
    unfold lognormal at this
    simpa using this

omit [IsProbabilityMeasure μ] in
theorem exp_square (h : HasLaw X (gaussianReal 0 1) μ) (s : ℝ) :
    Integrable (fun ω => Real.exp (s * X ω - s ^ 2 / 2) ^ 2) μ ∧ ∫ ω, Real.exp (s * X ω - s ^ 2 / 2) ^ 2 ∂μ = Real.exp (s ^ 2) := by
  obtain ⟨h1, h2⟩ := exp_mean h (2 * s)
  have e : (fun ω => Real.exp (s * X ω - s ^ 2 / 2) ^ 2) =
      fun ω => Real.exp (2 * s * X ω - (2 * s) ^ 2 / 2) * Real.exp (s ^ 2) := by
    funext ω
    rw [← Real.exp_nat_mul, ← Real.exp_add]
    congr 1
    push_cast
    ring
  rw [e]
  refine ⟨h1.mul_const _, ?_⟩
  rw [integral_mul_const, h2, one_mul]

theorem exp_cross (h : HasLaw X (gaussianReal 0 1) μ) (s : ℝ) :
    Integrable (fun ω => (1 + X ω * s) * Real.exp (s * X ω - s ^ 2 / 2)) μ ∧
      ∫ ω, (1 + X ω * s) * Real.exp (s * X ω - s ^ 2 / 2) ∂μ = 1 + s ^ 2 := by
  have hm : AEStronglyMeasurable (fun x : ℝ => (1 + x * s) * Real.exp (s * x - s ^ 2 / 2)) (gaussianReal 0 1) := by fun_prop
  constructor
  · obtain ⟨h1, _, h3, _⟩ := standard_mean h
    have hsq : Integrable (fun ω => (1 + X ω * s) ^ 2) μ := by
      have e : (fun ω => (1 + X ω * s) ^ 2) = fun ω => 1 + (2 * s * X ω + s ^ 2 * X ω ^ 2) := by
        funext ω
        ring
      rw [e]
      exact (integrable_const 1).add ((h1.const_mul (2 * s)).add (h3.const_mul (s ^ 2)))
    have hmeas : AEStronglyMeasurable (fun ω => 1 + X ω * s) μ := ((integrable_const 1).add (h1.mul_const s)).aestronglyMeasurable
    have m1 : MemLp (fun ω => 1 + X ω * s) 2 μ := (memLp_two_iff_integrable_sq hmeas).2 hsq
    have m2 : MemLp (fun ω => Real.exp (s * X ω - s ^ 2 / 2)) 2 μ :=
      (memLp_two_iff_integrable_sq (exp_mean h s).1.aestronglyMeasurable).2 (exp_square h s).1
    exact m1.integrable_mul m2
  · have := h.integral_comp hm
    simp only [Function.comp_def] at this
    rw [this, tilt (fun x => 1 + x * s) s]
    have h1 : Integrable (fun x : ℝ => x) (gaussianReal 0 1) := (memLp_id_gaussianReal (μ := 0) (v := 1) 1).integrable le_rfl
    have e : ∀ x : ℝ, 1 + (x + s) * s = (1 + s ^ 2) + s * x := fun x => by ring
    simp only [e]
    rw [integral_add (integrable_const _) (h1.const_mul s), integral_const_mul, integral_id_gaussianReal]
    simp

end Step

/-! ## Many steps -/

section Steps
variable {g : ℕ → Ω → ℝ}

theorem prod_mean {X : ℕ → Ω → ℝ} {m : ℕ → ℝ} (hi : iIndepFun X μ) (hX : ∀ k, Integrable (X k) μ ∧ ∫ ω, X k ω ∂μ = m k) (N : ℕ) :
    Integrable (fun ω => ∏ k ∈ Finset.range N, X k ω) μ ∧ ∫ ω, ∏ k ∈ Finset.range N, X k ω ∂μ = ∏ k ∈ Finset.range N, m k := by
  have h := mean_prod hi (fun k => (hX k).1) N
  have e : (∏ k ∈ Finset.range N, X k) = fun ω => ∏ k ∈ Finset.range N, X k ω := by
    funext ω
    rw [Finset.prod_apply]
  rw [e] at h
  exact ⟨h.1, h.2.trans (Finset.prod_congr rfl fun k _ => (hX k).2)⟩

/-- The mean square distance between the product of the steps and the product of their exponentials. -/
theorem coupling (hi : iIndepFun g μ) (hg : ∀ k, HasLaw (g k) (gaussianReal 0 1) μ) (s : ℕ → ℝ) (N : ℕ) :
    Integrable (fun ω => (∏ k ∈ Finset.range N, (1 + g k ω * s k) - ∏ k ∈ Finset.range N, Real.exp (s k * g k ω - s k ^ 2 / 2)) ^ 2) μ ∧
      ∫ ω, (∏ k ∈ Finset.range N, (1 + g k ω * s k) - ∏ k ∈ Finset.range N, Real.exp (s k * g k ω - s k ^ 2 / 2)) ^ 2 ∂μ =
        ∏ k ∈ Finset.range N, Real.exp (s k ^ 2) - ∏ k ∈ Finset.range N, (1 + s k ^ 2) := by
  obtain ⟨a1, a2⟩ := factor_square hi hg s N
  obtain ⟨b1, b2⟩ := prod_mean (X := fun k ω => Real.exp (s k * g k ω - s k ^ 2 / 2) ^ 2)
    (hi.comp (fun k x => Real.exp (s k * x - s k ^ 2 / 2) ^ 2) (fun k => by fun_prop)) (fun k => exp_square (hg k) (s k)) N
  obtain ⟨c1, c2⟩ := prod_mean (X := fun k ω => (1 + g k ω * s k) * Real.exp (s k * g k ω - s k ^ 2 / 2))
    (hi.comp (fun k x => (1 + x * s k) * Real.exp (s k * x - s k ^ 2 / 2)) (fun k => by fun_prop)) (fun k => exp_cross (hg k) (s k)) N
  have e : (fun ω => (∏ k ∈ Finset.range N, (1 + g k ω * s k) - ∏ k ∈ Finset.range N, Real.exp (s k * g k ω - s k ^ 2 / 2)) ^ 2) =
      fun ω => ((∏ k ∈ Finset.range N, (1 + g k ω * s k)) ^ 2 + ∏ k ∈ Finset.range N, Real.exp (s k * g k ω - s k ^ 2 / 2) ^ 2) -
        2 * ∏ k ∈ Finset.range N, ((1 + g k ω * s k) * Real.exp (s k * g k ω - s k ^ 2 / 2)) := by
    funext ω
    rw [Finset.prod_mul_distrib, Finset.prod_pow]
    ring
  rw [e]
  have hab : Integrable (fun ω => (∏ k ∈ Finset.range N, (1 + g k ω * s k)) ^ 2 +
      ∏ k ∈ Finset.range N, Real.exp (s k * g k ω - s k ^ 2 / 2) ^ 2) μ := a1.add b1
  refine ⟨hab.sub (c1.const_mul 2), ?_⟩
  rw [integral_sub hab (c1.const_mul 2), integral_const_mul]
  have ha : ∫ ω, ((∏ k ∈ Finset.range N, (1 + g k ω * s k)) ^ 2 + ∏ k ∈ Finset.range N, Real.exp (s k * g k ω - s k ^ 2 / 2) ^ 2) ∂μ = _ :=
    integral_add a1 b1
  rw [ha, a2, b2, c2]
  ring

omit [IsProbabilityMeasure μ] in
theorem sum_law (hi : iIndepFun g μ) (hg : ∀ k, HasLaw (g k) (gaussianReal 0 1) μ) (s : ℕ → ℝ) : ∀ N,
    HasLaw (fun ω => ∑ k ∈ Finset.range N, s k * g k ω) (gaussianReal 0 (Real.toNNReal (∑ k ∈ Finset.range N, s k ^ 2))) μ
  | 0 => by
    have : IsProbabilityMeasure μ := hi.isProbabilityMeasure
    refine ⟨by simp only [Finset.range_zero, Finset.sum_empty]; fun_prop, ?_⟩
    simp
  | N + 1 => by
    have : IsProbabilityMeasure μ := hi.isProbabilityMeasure
    have ih := sum_law hi hg s N
    have hY : iIndepFun (fun k ω => s k * g k ω) μ := hi.comp (fun k x => s k * x) (fun k => by fun_prop)
    have hYm : ∀ k, AEMeasurable (fun ω => s k * g k ω) μ := fun k => (hg k).aemeasurable.const_mul (s k)
    have hind := hY.indepFun_sum_range_succ₀ hYm N
    have e : (∑ j ∈ Finset.range N, fun ω => s j * g j ω) = fun ω => ∑ k ∈ Finset.range N, s k * g k ω := by
      funext ω
      rw [Finset.sum_apply]
    rw [e] at hind
    have h1 := gaussianReal_const_mul (hg N) (s N)
    have h2 := gaussianReal_add_gaussianReal_of_indepFun hind ih.map_eq h1.map_eq
    refine ⟨?_, ?_⟩
    · simp only [Finset.sum_range_succ]
      exact ih.aemeasurable.add h1.aemeasurable
    · have e2 : ((fun ω => ∑ k ∈ Finset.range N, s k * g k ω) + fun ω => s N * g N ω) = fun ω => ∑ k ∈ Finset.range (N + 1), s k * g k ω := by
        funext ω
        rw [Finset.sum_range_succ]
        rfl
      rw [← e2, h2]
      congr 1
      · simp
      · rw [Finset.sum_range_succ, Real.toNNReal_add (Finset.sum_nonneg fun k _ => sq_nonneg _) (sq_nonneg _), mul_one]
        congr 1
        ext
        simp [sq_nonneg]

omit [IsProbabilityMeasure μ] in
/-- The steps add up to one normal number. -/
theorem sum_normal (hi : iIndepFun g μ) (hg : ∀ k, HasLaw (g k) (gaussianReal 0 1) μ) (s : ℕ → ℝ) (N : ℕ) {w : ℝ}
    (hw : ∑ k ∈ Finset.range N, s k ^ 2 = w) :
    ∃ Z : Ω → ℝ, HasLaw Z (gaussianReal 0 1) μ ∧ ∀ ω, ∑ k ∈ Finset.range N, s k * g k ω = Real.sqrt w * Z ω := by
  have hw0 : 0 ≤ w := hw ▸ Finset.sum_nonneg fun k _ => sq_nonneg _
  rcases eq_or_lt_of_le hw0 with h | h
  · refine ⟨g 0, hg 0, fun ω => ?_⟩
    rw [← h, Real.sqrt_zero, zero_mul]
    apply Finset.sum_eq_zero
    intro k hk
    rw [← h] at hw
    have := (Finset.sum_eq_zero_iff_of_nonneg (fun k _ => sq_nonneg (s k))).1 hw k hk
    rw [pow_eq_zero_iff two_ne_zero] at this
    rw [this, zero_mul]
  · have hs := Real.sqrt_pos.2 h
    refine ⟨fun ω => (∑ k ∈ Finset.range N, s k * g k ω) / Real.sqrt w, ?_, fun ω => by field_simp⟩
    have := gaussianReal_div_const (sum_law hi hg s N) (Real.sqrt w)
    rw [hw] at this
    convert this using 2
    · simp
    · ext
      simp [Real.sq_sqrt hw0, Real.coe_toNNReal _ hw0, h.ne']

end Steps

/-! ## Distances -/

theorem payoff_lipschitz (kind : PutOrCall) (S K S' K' : ℝ) : |payoff kind S K - payoff kind S' K'| ≤ |S - S'| + |K - K'| := by
  have h1 := abs_max_sub_max_le_abs (S - K) (S' - K') 0
  have h2 := abs_max_sub_max_le_abs (K - S) (K' - S') 0
  have h3 : |(S - K) - (S' - K')| ≤ |S - S'| + |K - K'| := by
    rw [show (S - K) - (S' - K') = (S - S') - (K - K') by ring]
    exact abs_sub _ _
  have h4 : |(K - S) - (K' - S')| ≤ |S - S'| + |K - K'| := by
    rw [show (K - S) - (K' - S') = (K - K') - (S - S') by ring]
    exact (abs_sub _ _).trans (by linarith)
  cases kind
  · exact h2.trans h4
  · exact h1.trans h3

/-- The mean of a distance is at most the root of the mean square distance. -/
theorem mean_abs_le {X : Ω → ℝ} {c : ℝ} (hm : AEStronglyMeasurable X μ) (hi : Integrable (fun ω => X ω ^ 2) μ) (h : ∫ ω, X ω ^ 2 ∂μ ≤ c) :
    Integrable X μ ∧ ∫ ω, |X ω| ∂μ ≤ Real.sqrt c := by
  have h2 : MemLp X 2 μ := (memLp_two_iff_integrable_sq hm).2 hi
  have h1 : Integrable X μ := h2.integrable (by norm_num)
  refine ⟨h1, Real.le_sqrt_of_sq_le ?_⟩
  have ha : MemLp (fun ω => |X ω|) 2 μ := h2.abs
  have hv := variance_nonneg (fun ω => |X ω|) μ
  rw [variance_eq_sub ha] at hv
  simp only [Pi.pow_apply, sq_abs] at hv
  linarith

theorem mean_payoff_near {kind : PutOrCall} {S S' K K' : Ω → ℝ} {c d : ℝ}
    (h1 : Integrable (fun ω => payoff kind (S ω) (K ω)) μ) (h2 : Integrable (fun ω => payoff kind (S' ω) (K' ω)) μ)
    (hS : Integrable (fun ω => S ω - S' ω) μ) (hK : Integrable (fun ω => K ω - K' ω) μ)
    (hc : ∫ ω, |S ω - S' ω| ∂μ ≤ c) (hd : ∫ ω, |K ω - K' ω| ∂μ ≤ d) :
    |∫ ω, payoff kind (S ω) (K ω) ∂μ - ∫ ω, payoff kind (S' ω) (K' ω) ∂μ| ≤ c + d := by
  rw [← integral_sub h1 h2]
  calc |∫ ω, (payoff kind (S ω) (K ω) - payoff kind (S' ω) (K' ω)) ∂μ| ≤ ∫ ω, |payoff kind (S ω) (K ω) - payoff kind (S' ω) (K' ω)| ∂μ :=
        abs_integral_le_integral_abs
    _ ≤ ∫ ω, (|S ω - S' ω| + |K ω - K' ω|) ∂μ :=
        integral_mono (h1.sub h2).abs (hS.abs.add hK.abs) (fun ω => payoff_lipschitz kind _ _ _ _)
    _ = ∫ ω, |S ω - S' ω| ∂μ + ∫ ω, |K ω - K' ω| ∂μ := integral_add hS.abs hK.abs
    _ ≤ c + d := add_le_add hc hd

/-! ## Paths are independent and alike -/

section Paths
variable {draws : Ω → Draws}

omit [IsProbabilityMeasure μ] in
theorem path_law (hd : StandardNormal μ draws) (path : ℕ) :
    HasLaw (fun ω (k : ℕ) => draws ω path k 0) (Measure.infinitePi fun _ : ℕ => gaussianReal 0 1) μ := by
  obtain ⟨hl, hi⟩ := one_path hd path
  exact hi.hasLaw_infinitePi hl (aemeasurable_pi_iff.2 fun k => (hl k).aemeasurable)

/-- The strong law for a quantity that looks at the first draws of each path. -/
theorem paths_average (hd : StandardNormal μ draws) {G : (ℕ → ℝ) → ℝ} (hG : Measurable G) {N : ℕ}
    (hN : ∀ g g' : ℕ → ℝ, (∀ k < N, g k = g' k) → G g = G g') (hi : Integrable (fun ω => G fun k => draws ω 0 k 0) μ) :
    ∀ᵐ ω ∂μ, Filter.Tendsto (fun n : ℕ => average n fun path => G fun k => draws ω path k 0) Filter.atTop
      (nhds (∫ ω, G (fun k => draws ω 0 k 0) ∂μ)) := by
  refine strong_law_ae_real (fun path ω => G fun k => draws ω path k 0) hi ?_ ?_
  · intro a b hab
    let S : ℕ → Finset (ℕ × ℕ × ℕ) := fun a => (Finset.range N).image fun k => (a, k, 0)
    have hdis : Disjoint (S a) (S b) := by
      rw [Finset.disjoint_left]
      intro x h1 h2
      simp only [S, Finset.mem_image] at h1 h2
      obtain ⟨k, _, rfl⟩ := h1
      obtain ⟨j, _, h⟩ := h2
      exact hab (Prod.ext_iff.1 h).1.symm
    have hind := hd.independent.indepFun_finset₀ (S a) (S b) hdis (fun k => (hd.law k.1 k.2.1 k.2.2).aemeasurable)
    have hmem : ∀ a k, k < N → ((a, k, 0) : ℕ × ℕ × ℕ) ∈ S a := fun a k hk => Finset.mem_image.2 ⟨k, Finset.mem_range.2 hk, rfl⟩
    let H : (a : ℕ) → (S a → ℝ) → ℝ := fun a y => G fun k => if h : k < N then y ⟨(a, k, 0), hmem a k h⟩ else 0
    have hH : ∀ a, Measurable (H a) := by
      intro a
      refine hG.comp (measurable_pi_iff.2 fun k => ?_)
      by_cases h : k < N
      · simp only [h, dif_pos]
        exact measurable_pi_apply _
      · simp only [h, dif_neg, not_false_iff]
        exact measurable_const
    have hX : ∀ a, (fun ω => G fun k => draws ω a k 0) = H a ∘ fun ω (i : S a) => draws ω i.1.1 i.1.2.1 i.1.2.2 := by
      intro a
      funext ω
      apply hN
      intro k hk
      simp [hk]
    show IndepFun (fun ω => G fun k => draws ω a k 0) (fun ω => G fun k => draws ω b k 0) μ
    rw [hX a, hX b]
    exact hind.comp (hH a) (hH b)
  · intro a
    have h0 := path_law hd 0
    have ha := path_law hd a
    have : IdentDistrib (fun ω (k : ℕ) => draws ω a k 0) (fun ω (k : ℕ) => draws ω 0 k 0) μ μ :=
      ⟨ha.aemeasurable, h0.aemeasurable, by rw [ha.map_eq, h0.map_eq]⟩
    exact this.comp hG

end Paths

/-! ## Walks -/

theorem level_measurable (w : Nat → ℝ) (n : Nat → Nat) : ∀ N, Measurable fun g : ℕ → ℝ => level w n g N
  | 0 => measurable_const
  | N + 1 => by
    unfold level
    exact (level_measurable w n N).mul (Finset.measurable_prod _ fun k _ => by fun_prop)

theorem level_local (w : Nat → ℝ) (n : Nat → Nat) {g g' : ℕ → ℝ} : ∀ N, (∀ k < start n N, g k = g' k) → level w n g N = level w n g' N
  | 0, _ => rfl
  | N + 1, h => by
    unfold level
    have e : start n (N + 1) = start n N + n N := rfl
    rw [level_local w n N (fun k hk => h k (by omega))]
    congr 1
    apply Finset.prod_congr rfl
    intro k hk
    rw [h _ (by have := Finset.mem_range.1 hk; omega)]

theorem start_mono (n : Nat → Nat) {M : Nat} : ∀ {N : Nat}, M ≤ N → start n M ≤ start n N
  | 0, h => by rw [Nat.le_zero.1 h]
  | N + 1, h => by
    rcases Nat.lt_or_ge N M with hlt | hle
    · rw [show M = N + 1 by omega]
    · exact (start_mono n hle).trans (Nat.le_add_right _ _)

/-- The steps one after the other, with the sum of their variances. -/
theorem level_steps {w : Nat → ℝ} {h : ℝ} : ∀ N, (∀ j < N, before w j ≤ w j) → ∃ s : ℕ → ℝ,
    (∀ M ≤ N, ∀ g, level w (steps h w) g M = ∏ k ∈ Finset.range (start (steps h w) M), (1 + g k * s k)) ∧
    (∀ M ≤ N, ∑ k ∈ Finset.range (start (steps h w) M), s k ^ 2 = before w M) ∧
    ∀ M ≤ N, ∏ k ∈ Finset.range (start (steps h w) M), (1 + s k ^ 2) = ∏ j ∈ Finset.range M, (1 + stepSize w (steps h w) j ^ 2) ^ steps h w j
  | 0, _ => ⟨fun _ => 0, by intro M hM g; obtain rfl : M = 0 := by omega
                            simp [level, start], by intro M hM; obtain rfl : M = 0 := by omega
                                                    simp [start, before], by intro M hM; obtain rfl : M = 0 := by omega
                                                                             simp [start]⟩
  | N + 1, hw => by
    obtain ⟨s, h1, h2, h3⟩ := level_steps (h := h) N (fun j hj => hw j (by omega))
    set n := steps h w with hn
    obtain ⟨t, ht1, ht2⟩ : ∃ t : ℕ → ℝ, (∀ k < start n N, t k = s k) ∧ ∀ k, t (start n N + k) = stepSize w n N :=
      ⟨fun k => if k < start n N then s k else stepSize w n N, fun k hk => if_pos hk, fun k => if_neg (by omega)⟩
    have hcong : ∀ M ≤ N, ∀ k < start n M, t k = s k := fun M hM k hk => ht1 k (lt_of_lt_of_le hk (start_mono n hM))
    refine ⟨t, ?_, ?_, ?_⟩
    · intro M hM g
      rcases Nat.lt_or_ge N M with hlt | hle
      · obtain rfl : M = N + 1 := by omega
        rw [level, start, Finset.prod_range_add, h1 N le_rfl]
        congr 1
        · exact Finset.prod_congr rfl fun k hk => by rw [ht1 k (Finset.mem_range.1 hk)]
        · exact Finset.prod_congr rfl fun k _ => by rw [ht2]
      · rw [h1 M hle]
        exact Finset.prod_congr rfl fun k hk => by rw [hcong M hle k (Finset.mem_range.1 hk)]
    · intro M hM
      rcases Nat.lt_or_ge N M with hlt | hle
      · obtain rfl : M = N + 1 := by omega
        rw [start, Finset.sum_range_add]
        have a : ∑ x ∈ Finset.range (start n N), t x ^ 2 = before w N := by
          rw [← h2 N le_rfl]
          exact Finset.sum_congr rfl fun k hk => by rw [ht1 k (Finset.mem_range.1 hk)]
        have b : ∑ x ∈ Finset.range (n N), t (start n N + x) ^ 2 = w N - before w N := by
          simp only [ht2]
          rw [Finset.sum_const, Finset.card_range, nsmul_eq_mul]
          have hpos : (0 : ℝ) < n N := by exact_mod_cast (le_max_left 1 _ : 1 ≤ steps h w N)
          unfold stepSize
          rw [Real.sq_sqrt (div_nonneg (sub_nonneg.2 (hw N (by omega))) hpos.le)]
          field_simp
        rw [a, b]
        simp only [before]
        ring
      · rw [← h2 M hle]
        exact Finset.sum_congr rfl fun k hk => by rw [hcong M hle k (Finset.mem_range.1 hk)]
    · intro M hM
      rcases Nat.lt_or_ge N M with hlt | hle
      · obtain rfl : M = N + 1 := by omega
        rw [start, Finset.prod_range_add, Finset.prod_range_succ, ← h3 N le_rfl]
        congr 1
        · exact Finset.prod_congr rfl fun k hk => by rw [ht1 k (Finset.mem_range.1 hk)]
        · rw [Finset.prod_congr rfl (fun k _ => by rw [ht2])]
          rw [Finset.prod_const, Finset.card_range]
      · rw [← h3 M hle]
        exact Finset.prod_congr rfl fun k hk => by rw [hcong M hle k (Finset.mem_range.1 hk)]

end QM.MonteCarlo
