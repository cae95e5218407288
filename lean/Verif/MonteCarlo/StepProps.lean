import Verif.MonteCarlo.ModelProps
import Verif.MonteCarlo.Agreement

/-!
# Property C89: the steps of a simulation, and the sign of what it simulates
-/

namespace QM.MonteCarlo
open QM.Interp QM.Vol QM.Instruments QM.Market QM.Risk QM.Fixings Spec MeasureTheory ProbabilityTheory
open QM.Instruments.Spec (payoff)

variable {fuel : Nat} {f : ModelFactory} {md : MarketData} {draw : Draws} {p : MonteCarlo}

/-! ## The size of a step -/

theorem substeps_of {l : List (ℝ × Instrument)} {u : Instrument} {F w δ : Nat → ℝ} (hp : MonteCarlo.new fuel f l md draw = .ok p)
    (hu : p.model.instruments = [u]) (hm : Spec.Market fuel p.model.context.pricingContext u p.model.observations F w δ) :
    p.model.substepping = (List.range p.model.observations.length).map (steps f.pathSubstep w) := by
  obtain ⟨ks, hs, h⟩ := new_inStep hp hu
  rw [h.substepping]
  exact substepping_val hm hs

theorem step_le {h : ℝ} (hh : 0 < h) (w : Nat → ℝ) (i : Nat) : (w i - before w i) / steps h w i ≤ h := by
  have hn : (0 : ℝ) < steps h w i := by exact_mod_cast (le_max_left 1 _ : 1 ≤ steps h w i)
  rw [div_le_iff₀ hn, mul_comm, ← div_le_iff₀ hh]
  refine (Nat.le_ceil _).trans ?_
  exact_mod_cast le_max_right _ _

/-- C89: the number of steps that lead to an observation is the smallest, from one up, for which the variance of a step is no more than the substep
asked for. -/
theorem C89_variance {l : List (ℝ × Instrument)} {u : Instrument} {F w δ : Nat → ℝ} (hh : 0 < f.pathSubstep)
    (hp : MonteCarlo.new fuel f l md draw = .ok p) (hu : p.model.instruments = [u])
    (hm : Spec.Market fuel p.model.context.pricingContext u p.model.observations F w δ) {i : Nat} (hi : i < p.model.observations.length) :
    ∃ n, p.model.substepping[i]? = some n ∧ 1 ≤ n ∧ (w i - before w i) / n ≤ f.pathSubstep ∧
      ∀ k : ℕ, 1 ≤ k → (w i - before w i) / k ≤ f.pathSubstep → n ≤ k := by
  refine ⟨steps f.pathSubstep w i, by simp [substeps_of hp hu hm, hi], le_max_left _ _, step_le hh w i, fun k hk h => max_le hk ?_⟩
  have hk' : (0 : ℝ) < k := by exact_mod_cast hk
  rw [Nat.ceil_le, div_le_iff₀ hh, mul_comm]
  rwa [div_le_iff₀ hk'] at h

/-- C89 in part: the standard deviation of a step is no more than the square root of the substep asked for, so it is no more than the
substep itself where that is one or more. What is missing, smaller substeps, is false: `C89_false`. -/
theorem C89_deviation_partial {l : List (ℝ × Instrument)} {u : Instrument} {F w δ : Nat → ℝ} (hh : 0 < f.pathSubstep)
    (hp : MonteCarlo.new fuel f l md draw = .ok p) (hu : p.model.instruments = [u])
    (hm : Spec.Market fuel p.model.context.pricingContext u p.model.observations F w δ) {i n : Nat} (hn : p.model.substepping[i]? = some n) :
    Real.sqrt ((w i - before w i) / n) ≤ Real.sqrt f.pathSubstep ∧ (1 ≤ f.pathSubstep → Real.sqrt ((w i - before w i) / n) ≤ f.pathSubstep) := by
  have hi : i < p.model.observations.length := by
    have := (List.getElem?_eq_some_iff.1 hn).1
    simpa [substeps_of hp hu hm] using this
  obtain ⟨n', h1, _, h2, _⟩ := C89_variance hh hp hu hm hi
  rw [hn] at h1
  cases h1
  refine ⟨Real.sqrt_le_sqrt h2, fun h => (Real.sqrt_le_sqrt h2).trans ?_⟩
  rw [Real.sqrt_le_left hh.le]
  nlinarith

/-- C89 violated: the substep is documented as the largest standard deviation of a step, but an asset with 20 percent volatility is
taken to its observation after ten days in one step, of standard deviation above 3 percent, although no more than 1 percent is asked for. -/
theorem C89_false (n : Nat) (hn : n ≠ 0) (draw : Draws) : ∃ (p : MonteCarlo) (F w δ : Nat → ℝ),
    MonteCarlo.new fuel ⟨0.01, n⟩ [(2, optionA 90)] (sampleMarket 100 (.zero 0)) draw = .ok p ∧ p.model.instruments = [equityA] ∧
      Spec.Market fuel p.model.context.pricingContext equityA p.model.observations F w δ ∧ p.model.substepping = [1] ∧
      0.03 < Real.sqrt ((w 0 - before w 0) / (1 : ℕ)) := by
  obtain ⟨p, fw, hp, hf, hc, ho, hu, _⟩ := sample_pricer (fuel := fuel) (f := ⟨0.01, n⟩) [(2, optionA 90)] (timeline_spot 2 90 sampleTerms equityA) rfl
    (by simp [sampleTerms]) (by simp) rfl rfl (by norm_num) hn draw
  have hm : Spec.Market fuel p.model.context.pricingContext equityA p.model.observations (fun _ => 100) (fun _ => 2 / 73 * 0.2 ^ 2) (fun _ => 0) := by
    rw [hc, ho]
    exact sample_market _ _ hf (by simp [sampleTerms]) (by simp)
  refine ⟨p, _, _, _, hp, hu, hm, ?_, ?_⟩
  · rw [substeps_of hp hu hm, ho]
    show [steps 0.01 _ 0] = [1]
    have : ⌈((2 / 73 * 0.2 ^ 2 : ℝ) - 0) / 0.01⌉₊ ≤ 1 := by
      rw [Nat.ceil_le]
      norm_num
    unfold steps Spec.before
    rw [max_eq_left this]
  · apply Real.lt_sqrt_of_sq_lt
    simp only [Spec.before]
    norm_num

/-! ## The sign of the asset -/

theorem level_pos {w : Nat → ℝ} {n : Nat → Nat} {g : Nat → ℝ} (h : ∀ i k, -1 < g k * stepSize w n i) : ∀ i, 0 < level w n g i
  | 0 => one_pos
  | i + 1 => mul_pos (level_pos h i) (Finset.prod_pos fun k _ => by have := h i (start n i + k); linarith)

/-- C89 in part: the asset stays positive along every path whose draws stay above minus one over the square root of the substep, provided the forward is
above the cash dividends to come. What is missing, other draws, is false: `C89_positive_false`. -/
theorem C89_positive_partial {l : List (ℝ × Instrument)} {u : Instrument} {F w δ : Nat → ℝ} (hh : 0 < f.pathSubstep)
    (hp : MonteCarlo.new fuel f l md draw = .ok p) (hu : p.model.instruments = [u])
    (hm : Spec.Market fuel p.model.context.pricingContext u p.model.observations F w δ) {path i : Nat} (hpath : path < f.nPaths)
    (hi : i < p.model.observations.length) (hF : δ i < F i) (hδ : 0 ≤ δ i) (hg : ∀ k, -1 < draw path k 0 * Real.sqrt f.pathSubstep) :
    ∃ paths x, p.model.pathsOf u = .ok paths ∧ (paths.getD path []).getD i .nan = .val x ∧ 0 < x := by
  obtain ⟨t, context, ht, hc, hb, _, _⟩ := new_ok hp
  refine ⟨_, pathValue F w δ (steps f.pathSubstep w) (fun k => draw path k 0) i, pathsOf_only hb hu, ?_, ?_⟩
  · rw [model_paths hb hu hm]
    simp [List.getD_eq_getElem?_getD, hpath, hi]
  · have h1 : 0 < level w (steps f.pathSubstep w) (fun k => draw path k 0) (i + 1) := by
      apply level_pos
      intro j k
      have h2 : stepSize w (steps f.pathSubstep w) j ≤ Real.sqrt f.pathSubstep := Real.sqrt_le_sqrt (step_le hh w j)
      have h3 : 0 ≤ stepSize w (steps f.pathSubstep w) j := Real.sqrt_nonneg _
      have h4 := hg k
      by_cases h0 : 0 ≤ draw path k 0
      · have := mul_nonneg h0 h3
        linarith
      · nlinarith
    unfold pathValue
    have := mul_pos (sub_pos.2 hF) h1
    linarith

variable {Ω : Type} [MeasurableSpace Ω] {μ : Measure Ω} [IsProbabilityMeasure μ] {draws : Ω → Draws}

omit [IsProbabilityMeasure μ] in
/-- A standard normal draw can fall anywhere. -/
theorem normal_anywhere {X : Ω → ℝ} (hX : HasLaw X (gaussianReal 0 1) μ) {U : Set ℝ} (ho : IsOpen U) (hne : U.Nonempty) : 0 < μ (X ⁻¹' U) := by
  have h1 : 0 < gaussianReal 0 1 U := by
    rw [pos_iff_ne_zero]
    intro h
    exact (ho.measure_pos volume hne).ne' (gaussianReal_absolutelyContinuous' 0 one_ne_zero h)
  rwa [← hX.map_eq, Measure.map_apply_of_aemeasurable hX.aemeasurable ho.measurableSet] at h1

/-- A product of independent steps can fall as low as one likes, unless no step moves. -/
theorem product_anywhere {g : ℕ → Ω → ℝ} (hi : iIndepFun g μ) (hg : ∀ k, HasLaw (g k) (gaussianReal 0 1) μ) {s : ℕ → ℝ} {N k0 : ℕ} (hk : k0 < N)
    (hs : s k0 ≠ 0) (x : ℝ) : 0 < μ {ω | ∏ k ∈ Finset.range N, (1 + g k ω * s k) < x} := by
  let sets : ℕ → Set ℝ := fun k => if k = k0 then {y | 1 + y * s k < - ((|x| + 1) * 2 ^ N)} else {y | 1 / 2 < 1 + y * s k}
  have hopen : ∀ k, IsOpen (sets k) := by
    intro k
    by_cases h : k = k0
    · simp only [sets, if_pos h]
      exact isOpen_lt (by fun_prop) (by fun_prop)
    · simp only [sets, if_neg h]
      exact isOpen_lt (by fun_prop) (by fun_prop)
  have hne : ∀ k, (sets k).Nonempty := by
    intro k
    by_cases h : k = k0
    · subst h
      refine ⟨(- ((|x| + 1) * 2 ^ N) - 2) / s k, ?_⟩
      simp only [sets, if_true, Set.mem_setOf_eq]
      rw [div_mul_cancel₀ _ hs]
      linarith
    · refine ⟨0, ?_⟩
      simp only [sets, if_neg h, Set.mem_setOf_eq]
      norm_num
  have h1 := hi.measure_inter_preimage_eq_mul (Finset.range N) (sets := sets) (fun k _ => (hopen k).measurableSet)
  have h2 : 0 < μ (⋂ k ∈ Finset.range N, g k ⁻¹' sets k) := by
    rw [h1, pos_iff_ne_zero, Finset.prod_ne_zero_iff]
    exact fun k _ => (normal_anywhere (hg k) (hopen k) (hne k)).ne'
  refine h2.trans_le (measure_mono fun ω hω => ?_)
  have hω' : ∀ k < N, g k ω ∈ sets k := by simpa using hω
  have hmem : k0 ∈ Finset.range N := Finset.mem_range.2 hk
  have ha : 1 + g k0 ω * s k0 < - ((|x| + 1) * 2 ^ N) := by simpa [sets] using hω' k0 hk
  have hb : (1 / 2 : ℝ) ^ N ≤ ∏ k ∈ (Finset.range N).erase k0, (1 + g k ω * s k) := by
    have hcard : ((Finset.range N).erase k0).card ≤ N := (Finset.card_erase_le).trans_eq (Finset.card_range N)
    calc (1 / 2 : ℝ) ^ N ≤ (1 / 2 : ℝ) ^ ((Finset.range N).erase k0).card := pow_le_pow_of_le_one (by norm_num) (by norm_num) hcard
      _ = ∏ _k ∈ (Finset.range N).erase k0, (1 / 2 : ℝ) := by rw [Finset.prod_const]
      _ ≤ _ := Finset.prod_le_prod (fun _ _ => by norm_num) fun k hk' => by
        have h3 := hω' k (Finset.mem_range.1 (Finset.mem_of_mem_erase hk'))
        simp only [sets, if_neg (Finset.ne_of_mem_erase hk'), Set.mem_setOf_eq] at h3
        exact h3.le
  show ∏ k ∈ Finset.range N, (1 + g k ω * s k) < x
  rw [← Finset.mul_prod_erase _ _ hmem]
  have hp : (0 : ℝ) < 2 ^ N := by positivity
  have e : (2 : ℝ) ^ N * (1 / 2) ^ N = 1 := by rw [← mul_pow]; norm_num
  have hx := neg_abs_le x
  have h5 : 0 ≤ (|x| + 1) * 2 ^ N := by positivity
  calc _ ≤ (1 + g k0 ω * s k0) * (1 / 2) ^ N := mul_le_mul_of_nonpos_left hb (by linarith)
    _ ≤ - ((|x| + 1) * 2 ^ N) * (1 / 2) ^ N := mul_le_mul_of_nonneg_right ha.le (by positivity)
    _ = - (|x| + 1) := by rw [neg_mul, mul_assoc, e, mul_one]
    _ < x := by linarith

theorem level_anywhere (hd : StandardNormal μ draws) {w : Nat → ℝ} {n : Nat → Nat} (hn : ∀ j, n j ≠ 0) {i : Nat} (hw : ∀ j ≤ i, Spec.before w j ≤ w j)
    (hpos : 0 < w i) (path : Nat) (x : ℝ) : 0 < μ {ω | level w n (fun k => draws ω path k 0) (i + 1) < x} := by
  obtain ⟨hl, hi⟩ := one_path hd path
  obtain ⟨s, hs, hs'⟩ := level_flat w n (i + 1)
  simp only [hs]
  have : ∃ k0 < start n (i + 1), s k0 ≠ 0 := by
    by_contra hno
    push Not at hno
    have h1 : ∏ k ∈ Finset.range (start n (i + 1)), (1 + s k ^ 2) = 1 :=
      Finset.prod_eq_one fun k hk => by rw [hno k (Finset.mem_range.1 hk)]; norm_num
    rw [h1] at hs'
    obtain ⟨j, hj, hlt⟩ : ∃ j ∈ Finset.range (i + 1), 0 < w j - Spec.before w j := by
      by_contra hnone
      push Not at hnone
      have := Finset.sum_nonpos hnone
      rw [before_sum] at this
      linarith
    have hstep : 0 < stepSize w n j := Real.sqrt_pos.2 (div_pos hlt (by exact_mod_cast Nat.pos_of_ne_zero (hn j)))
    have h2 : 1 < ∏ j ∈ Finset.range (i + 1), (1 + stepSize w n j ^ 2) ^ n j := by
      rw [← Finset.mul_prod_erase _ _ hj]
      have h3 : 1 < (1 + stepSize w n j ^ 2) ^ n j := one_lt_pow₀ (by have := pow_pos hstep 2; linarith) (hn j)
      have h4 : 1 ≤ ∏ j ∈ (Finset.range (i + 1)).erase j, (1 + stepSize w n j ^ 2) ^ n j :=
        Finset.prod_induction _ (fun y => 1 ≤ y) (fun a b ha hb => by nlinarith) le_rfl
          fun k _ => one_le_pow₀ (by have := sq_nonneg (stepSize w n k); linarith)
      nlinarith
    linarith
  obtain ⟨k0, hk, h0⟩ := this
  exact product_anywhere hi hl hk h0 x

/-- C89 violated by every simulation of an uncertain asset: under standard normal draws, the asset is below any number, and so below zero, with
positive probability, on every path and at every observation by which there is any variance. A factor of one plus a normal draw is not
log-normal. -/
theorem C89_positive_false {l : List (ℝ × Instrument)} {u : Instrument} {obs : List Point} {context : Prefetch} {F w δ : Nat → ℝ}
    {p : Ω → MonteCarlo} (hd : StandardNormal μ draws) (hp : ∀ ω, MonteCarlo.new fuel f l md (draws ω) = .ok (p ω))
    (hu : ∀ ω, (p ω).model.instruments = [u]) (ho : ∀ ω, (p ω).model.observations = obs)
    (hc : Prefetch.new md (collect md.spotDate l) = .ok context) (hm : Spec.Market fuel context.pricingContext u obs F w δ)
    {path i : Nat} (hpath : path < f.nPaths) (hi : i < obs.length) (hF : δ i < F i) (hw : 0 < w i) (x : ℝ) :
    0 < μ {ω | ∃ paths y, (p ω).model.pathsOf u = .ok paths ∧ (paths.getD path []).getD i .nan = .val y ∧ y < x} := by
  obtain ⟨ω0⟩ : Nonempty Ω := nonempty_of_isProbabilityMeasure μ
  have hcc : ∀ ω, (p ω).model.context = context := by
    intro ω
    obtain ⟨t, c, ht, hc', hb, _, _⟩ := new_ok (hp ω)
    rw [hc] at hc'
    cases hc'
    obtain ⟨_, _, _, _, _, _, _, _, _, e⟩ := model_new_ok hb
    rw [e]
  have hmono : ∀ j ≤ i, Spec.before w j ≤ w j := fun j hj =>
    C80_variance (hp ω0) (hu ω0) (by rw [ho ω0, hcc ω0]; exact hm) j (by rw [ho ω0]; omega)
  have h1 := level_anywhere hd (n := steps f.pathSubstep w) (fun j => by unfold steps; omega) hmono hw path ((x - δ i) / (F i - δ i))
  refine h1.trans_le (measure_mono fun ω hω => ?_)
  obtain ⟨t, c, ht, _, hb, _, _⟩ := new_ok (hp ω)
  refine ⟨_, pathValue F w δ (steps f.pathSubstep w) (fun k => draws ω path k 0) i, pathsOf_only hb (hu ω), ?_, ?_⟩
  · rw [model_paths hb (hu ω) (by rw [ho ω, hcc]; exact hm), ho ω]
    simp [List.getD_eq_getElem?_getD, hpath, hi]
  · have h2 : level w (steps f.pathSubstep w) (fun k => draws ω path k 0) (i + 1) < (x - δ i) / (F i - δ i) := hω
    rw [lt_div_iff₀ (sub_pos.2 hF)] at h2
    unfold pathValue
    linarith

/-- C89 violated in what a user sees: a put is worth no more than its strike, discounted, and yet its simulated price is above any number with
positive probability, whatever the number of paths. -/
theorem C89_put_false {a K D : ℝ} {v : Vanilla} {u : Instrument} {F w δ : Nat → ℝ} {p : Ω → MonteCarlo} (hd : StandardNormal μ draws)
    (hv : v.putOrCall = .put) (hp : ∀ ω, MonteCarlo.new fuel f [(a, .spotStarting v u K)] md (draws ω) = .ok (p ω))
    (hm : ∀ ω, Spec.Market fuel (p ω).model.context.pricingContext u [v.expiryTime] F w δ)
    (hD : ∀ ω, (expiryFlow v).price fuel (p ω).model.context.pricingContext ⟨(p ω).model.context.context.spotDate, .open⟩ = .ok (.val D))
    (ha : 0 < a) (hD0 : 0 < D) (hF : δ 0 < F 0) (hw : 0 < w 0) (x : ℝ) :
    0 < μ {ω | ∃ y, (p ω).price fuel = .ok (.val y) ∧ x < y} := by
  obtain ⟨ω0⟩ : Nonempty Ω := nonempty_of_isProbabilityMeasure μ
  have hn : (0 : ℝ) < f.nPaths := by exact_mod_cast Nat.pos_of_ne_zero (paths_pos (hp ω0))
  have h0 : 0 < f.nPaths := Nat.pos_of_ne_zero (paths_pos (hp ω0))
  let top : ℝ := f.nPaths * (|x| / (a * D) + 1)
  have h1 := level_anywhere hd (n := steps f.pathSubstep w) (i := 0) (fun j => by unfold steps; omega)
    (fun j hj => by obtain rfl : j = 0 := by omega
                    exact hw.le) hw 0 ((K - top - δ 0) / (F 0 - δ 0))
  refine h1.trans_le (measure_mono fun ω hω => ⟨_, C52_spot_partial (hp ω) (hm ω) (hD ω), ?_⟩)
  have h2 : level w (steps f.pathSubstep w) (fun k => draws ω 0 k 0) (0 + 1) < (K - top - δ 0) / (F 0 - δ 0) := hω
  rw [lt_div_iff₀ (sub_pos.2 hF)] at h2
  rw [hv]
  have h3 : top < ∑ path ∈ Finset.range f.nPaths, payoff .put (pathValue F w δ (steps f.pathSubstep w) (fun k => draws ω path k 0) 0) K := by
    have h4 : payoff .put (pathValue F w δ (steps f.pathSubstep w) (fun k => draws ω 0 k 0) 0) K
        ≤ ∑ path ∈ Finset.range f.nPaths, payoff .put (pathValue F w δ (steps f.pathSubstep w) (fun k => draws ω path k 0) 0) K :=
      Finset.single_le_sum (f := fun path => payoff .put (pathValue F w δ (steps f.pathSubstep w) (fun k => draws ω path k 0) 0) K)
        (fun path _ => le_max_right _ _) (Finset.mem_range.2 h0)
    refine lt_of_lt_of_le ?_ h4
    refine lt_of_lt_of_le ?_ (le_max_left _ _)
    unfold pathValue
    linarith
  unfold Spec.average
  have h5 : |x| / (a * D) + 1 < (∑ path ∈ Finset.range f.nPaths, payoff .put (pathValue F w δ (steps f.pathSubstep w) (fun k => draws ω path k 0) 0) K) / f.nPaths := by
    rw [lt_div_iff₀ hn, mul_comm]
    exact h3
  generalize (∑ path ∈ Finset.range f.nPaths, payoff .put (pathValue F w δ (steps f.pathSubstep w) (fun k => draws ω path k 0) 0) K) / (f.nPaths : ℝ) = s at h5
  have haD : 0 < a * D := mul_pos ha hD0
  have h6 : |x| / (a * D) < s := by linarith
  rw [div_lt_iff₀ haD] at h6
  have := le_abs_self x
  nlinarith

/-! ## Cases -/

/-- A put. -/
noncomputable def putTerms : Vanilla := { sampleTerms with putOrCall := .put }

/-- C89: in the sample market the equity falls below zero with positive probability, and a put struck at 90 costs more than 90. -/
example (hh : f.pathSubstep ≠ 0) (hn : f.nPaths ≠ 0) (hd : StandardNormal μ draws) :
    ∃ p : Ω → MonteCarlo, (∀ ω, MonteCarlo.new fuel f [(1, .spotStarting putTerms equityA 90)] (sampleMarket 100 (.zero 0)) (draws ω) = .ok (p ω)) ∧
      0 < μ {ω | ∃ paths y, (p ω).model.pathsOf equityA = .ok paths ∧ (paths.getD 0 []).getD 0 .nan = .val y ∧ y < 0} ∧
      0 < μ {ω | ∃ y, (p ω).price fuel = .ok (.val y) ∧ 90 < y} := by
  have h := fun ω => sample_pricer (fuel := fuel) (f := f) [(1, .spotStarting putTerms equityA 90)] (timeline_spot 1 90 putTerms equityA) rfl
    (by simp [putTerms, sampleTerms]) (by simp) rfl rfl hh hn (draws ω)
  choose p fw hp hf hc ho hi _ _ using h
  obtain ⟨ω0⟩ : Nonempty Ω := nonempty_of_isProbabilityMeasure μ
  obtain ⟨t, context, ht, hc', hb, _, _⟩ := new_ok (hp ω0)
  have hcc : context = (p ω0).model.context := by
    obtain ⟨_, _, _, _, _, _, _, _, _, e⟩ := model_new_ok hb
    rw [e]
  refine ⟨p, hp, ?_, ?_⟩
  · exact C89_positive_false hd hp hi ho hc' (F := fun _ => 100) (w := fun _ => 2 / 73 * 0.2 ^ 2) (δ := fun _ => 0)
      (by rw [hcc, hc ω0]; exact sample_market _ _ (hf ω0) (by simp [putTerms, sampleTerms]) (by simp)) (Nat.pos_of_ne_zero hn) (i := 0) (by simp)
      (by norm_num) (by norm_num) 0
  · exact C89_put_false hd rfl hp (F := fun _ => 100) (w := fun _ => 2 / 73 * 0.2 ^ 2) (δ := fun _ => 0) (D := 1)
      (fun ω => by rw [hc ω]; exact sample_market _ _ (hf ω) (by simp [putTerms, sampleTerms]) (by simp))
      (fun ω => by rw [hc ω]; exact sample_discount) one_pos one_pos (by norm_num) (by norm_num) 90

/-- C89: in the sample market, draws above minus the reciprocal of the square root of the substep keep the equity positive. -/
example (hh : 0 < f.pathSubstep) (hn : f.nPaths ≠ 0) (hg : ∀ path k, -1 < draw path k 0 * Real.sqrt f.pathSubstep) :
    ∃ p, MonteCarlo.new fuel f [(2, optionA 90)] (sampleMarket 100 (.zero 0)) draw = .ok p ∧
      ∃ paths y, p.model.pathsOf equityA = .ok paths ∧ (paths.getD 0 []).getD 0 .nan = .val y ∧ 0 < y := by
  obtain ⟨p, fw, hp, hf, hc, ho, hi, _⟩ := sample_pricer (fuel := fuel) (f := f) [(2, optionA 90)] (timeline_spot 2 90 sampleTerms equityA) rfl
    (by simp [sampleTerms]) (by simp) rfl rfl hh.ne' hn draw
  exact ⟨p, hp, C89_positive_partial hh hp hi (by rw [hc, ho]; exact sample_market _ _ hf (by simp [sampleTerms]) (by simp))
    (Nat.pos_of_ne_zero hn) (i := 0) (by rw [ho]; simp) (by norm_num) le_rfl (hg 0)⟩

end QM.MonteCarlo
