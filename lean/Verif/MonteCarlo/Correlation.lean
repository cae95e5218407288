import Verif.MonteCarlo.Props

/-!
# Property C61: correlated draws
-/

namespace QM.MonteCarlo
open QM.Interp QM.Vol QM.Instruments QM.Market QM.Risk QM.Fixings Spec MeasureTheory ProbabilityTheory

namespace Spec

/-- The draw for an asset on a path at a step. -/
def drawn (g : List (List (List ℝ))) (asset path step : Nat) : ℝ := ((g.getD asset []).getD path []).getD step 0

/-- The correlation function gives the entries of the matrix, which is symmetric with ones on the diagonal. -/
structure Requested (correlation : Instrument → Instrument → Outcome ℝ) (instruments : List Instrument)
    (ρ : Matrix (Fin instruments.length) (Fin instruments.length) ℝ) : Prop where
  given : ∀ i j, i ≠ j → correlation (instruments.get i) (instruments.get j) = .ok (ρ i j)
  symmetric : ∀ i j, ρ i j = ρ j i
  diagonal : ∀ i, ρ i i = 1

end Spec

section
variable {correlation : Instrument → Instrument → Outcome ℝ} {instruments : List Instrument}
  {ρ : Matrix (Fin instruments.length) (Fin instruments.length) ℝ}

theorem matrix_requested (h : Requested correlation instruments ρ) : correlationMatrix correlation instruments = .ok ρ := by
  unfold correlationMatrix
  have h1 : ∀ i : Fin instruments.length, each (fun j => correlation (instruments.get i) (instruments.get j))
      ((List.finRange instruments.length).filter (· < i)) = .ok (((List.finRange instruments.length).filter (· < i)).map (ρ i)) := by
    intro i
    apply each_ok_map
    intro j hj
    have : j < i := by simpa using (List.mem_filter.1 hj).2
    exact h.given i j (ne_of_gt this)
  rw [each_ok_map (g := fun i => ((List.finRange instruments.length).filter (· < i)).map (ρ i)) (fun i _ => h1 i), ok_bind]
  show Except.ok _ = Except.ok _
  congr 1
  funext i j
  by_cases hij : i = j
  · rw [if_pos hij, hij, h.diagonal]
  · rw [if_neg hij]
    split
    · rw [h.given i j hij]; rfl
    · rw [h.given j i (Ne.symm hij), h.symmetric i j]; rfl

theorem gaussians_eq (h : Requested correlation instruments ρ) {substepping : List Nat} {nPaths : Nat} {draw : Draws} {g : List (List (List ℝ))}
    (hg : fetchCorrelatedGaussians correlation instruments substepping nPaths draw = .ok g) :
    substepping.sum ≠ 0 ∧ nPaths ≠ 0 ∧ ∃ l, cholesky ρ = some l ∧ ∀ (i : Fin instruments.length) (path step : Nat), path < nPaths → step < substepping.sum →
      drawn g i path step = ∑ j, l j i * draw path step j := by
  unfold fetchCorrelatedGaussians at hg
  split at hg
  · cases hg
  · rename_i hne
    unfold correlationRoot at hg
    rw [matrix_requested h] at hg
    simp only [ok_bind] at hg
    cases hl : cholesky ρ with
    | none => rw [hl] at hg; cases hg
    | some l =>
      rw [hl] at hg
      cases hg
      refine ⟨fun e => hne (.inl e), fun e => hne (.inr (.inr e)), l, rfl, ?_⟩
      intro i path step hp hs
      unfold drawn
      have hi : i.1 < (List.finRange instruments.length).length := by simp
      simp [List.getD_eq_getElem?_getD, hp, hs, correlated, List.sum_ofFn, Matrix.transpose_apply]
end

variable {Ω : Type} [MeasurableSpace Ω] {μ : Measure Ω} [IsProbabilityMeasure μ] {draws : Ω → Draws}

theorem product_mean (hd : StandardNormal μ draws) (path step a b : Nat) :
    Integrable (fun ω => draws ω path step a * draws ω path step b) μ ∧
      ∫ ω, draws ω path step a * draws ω path step b ∂μ = if a = b then 1 else 0 := by
  by_cases hab : a = b
  · subst hab
    obtain ⟨_, _, h3, h4⟩ := standard_mean (hd.law path step a)
    simp only [← pow_two, if_true]
    exact ⟨h3, h4⟩
  · obtain ⟨a1, a2, _, _⟩ := standard_mean (hd.law path step a)
    obtain ⟨b1, b2, _, _⟩ := standard_mean (hd.law path step b)
    have hi : IndepFun (fun ω => draws ω path step a) (fun ω => draws ω path step b) μ :=
      hd.independent.indepFun (i := (path, step, a)) (j := (path, step, b)) (by simpa using hab)
    rw [if_neg hab]
    refine ⟨hi.integrable_mul a1 b1, ?_⟩
    have := hi.integral_mul_eq_mul_integral a1.aestronglyMeasurable b1.aestronglyMeasurable
    rw [a2] at this
    simpa using this

variable {correlation : Instrument → Instrument → Outcome ℝ} {instruments : List Instrument}
  {ρ : Matrix (Fin instruments.length) (Fin instruments.length) ℝ} {substepping : List Nat} {nPaths : Nat} {g : Ω → List (List (List ℝ))}

/-- What the covariances of the draws are instead of the requested ones: the root is transposed. -/
theorem C61_covariance (hd : StandardNormal μ draws) (h : Requested correlation instruments ρ)
    (hg : ∀ ω, fetchCorrelatedGaussians correlation instruments substepping nPaths (draws ω) = .ok (g ω)) :
    ∃ l, IsCholesky ρ l ∧ ∀ (i j : Fin instruments.length) (path step : Nat), path < nPaths → step < substepping.sum →
      ∫ ω, drawn (g ω) i path step * drawn (g ω) j path step ∂μ = (l.transpose * l) i j := by
  obtain ⟨ω0⟩ : Nonempty Ω := nonempty_of_isProbabilityMeasure μ
  obtain ⟨_, _, l, hl, _⟩ := gaussians_eq h (hg ω0)
  refine ⟨l, cholesky_spec hl, ?_⟩
  intro i j path step hp hs
  have e : (fun ω => drawn (g ω) i path step * drawn (g ω) j path step) =
      fun ω => ∑ a, ∑ b, l a i * l b j * (draws ω path step a * draws ω path step b) := by
    funext ω
    obtain ⟨_, _, l', hl', he⟩ := gaussians_eq h (hg ω)
    rw [hl] at hl'
    cases hl'
    rw [he i path step hp hs, he j path step hp hs, Finset.sum_mul_sum]
    refine Finset.sum_congr rfl fun a _ => Finset.sum_congr rfl fun b _ => ?_
    ring
  have hint : ∀ a b : Fin instruments.length, Integrable (fun ω => l a i * l b j * (draws ω path step a * draws ω path step b)) μ :=
    fun a b => (product_mean hd path step a b).1.const_mul _
  rw [e, integral_finset_sum _ (fun a _ => integrable_finset_sum _ fun b _ => hint a b)]
  rw [Matrix.mul_apply]
  refine Finset.sum_congr rfl fun a _ => ?_
  rw [integral_finset_sum _ (fun b _ => hint a b)]
  simp only [integral_const_mul, (product_mean hd path step _ _).2, Matrix.transpose_apply]
  simp [Fin.val_inj, eq_comm]

/-- A lower triangular root that also gives the matrix when transposed is diagonal. -/
theorem normal_root {n : Nat} {l : Matrix (Fin n) (Fin n) ℝ} (hl : ∀ i j, i < j → l i j = 0) (hd : ∀ i, (l * l.transpose) i i = (l.transpose * l) i i) :
    ∀ (m : Nat) (i : Fin n), i.1 = m → ∀ k, k ≠ i → l k i = 0 := by
  intro m
  induction m using Nat.strong_induction_on with
  | _ m ih =>
    intro i hi
    have e := hd i
    rw [Matrix.mul_apply, Matrix.mul_apply] at e
    simp only [Matrix.transpose_apply] at e
    have h1 : ∑ k, l i k * l i k = l i i * l i i := by
      apply Finset.sum_eq_single_of_mem i (Finset.mem_univ i)
      intro k _ hk
      rcases lt_or_gt_of_ne hk with hlt | hgt
      · rw [ih k.1 (by omega) k rfl i (Ne.symm hk)]; ring
      · rw [hl i k hgt]; ring
    rw [h1, ← Finset.add_sum_erase _ _ (Finset.mem_univ i)] at e
    have h0 : ∑ k ∈ Finset.univ.erase i, l k i * l k i = 0 := by linarith
    rw [Finset.sum_eq_zero_iff_of_nonneg (fun k _ => mul_self_nonneg _)] at h0
    intro k hk
    exact mul_self_eq_zero.1 (h0 k (Finset.mem_erase.2 ⟨hk, Finset.mem_univ k⟩))

theorem root_unit {n : Nat} {l : Matrix (Fin n) (Fin n) ℝ} (h : IsCholesky 1 l) : l = 1 := by
  have ht : l.transpose * l = 1 := mul_eq_one_comm.1 h.product
  have hz := normal_root h.lower (fun i => by rw [h.product, ht])
  funext i j
  by_cases hij : i = j
  · subst hij
    have e : (l * l.transpose) i i = 1 := by rw [h.product]; simp
    rw [Matrix.mul_apply, Finset.sum_eq_single_of_mem i (Finset.mem_univ i)
      (fun k _ hk => by rw [Matrix.transpose_apply, hz k.1 k rfl i (Ne.symm hk)]; ring), Matrix.transpose_apply] at e
    rw [Matrix.one_apply_eq]
    nlinarith [h.positive i]
  · rw [Matrix.one_apply_ne hij, hz j.1 j rfl i hij]

/-- C61 holds exactly when no correlation is requested: the draws have the requested covariances if and only if all requested
correlations are zero. -/
theorem C61_partial (hd : StandardNormal μ draws) (h : Requested correlation instruments ρ)
    (hg : ∀ ω, fetchCorrelatedGaussians correlation instruments substepping nPaths (draws ω) = .ok (g ω)) :
    (∀ (i j : Fin instruments.length) (path step : Nat), path < nPaths → step < substepping.sum →
      ∫ ω, drawn (g ω) i path step * drawn (g ω) j path step ∂μ = ρ i j) ↔ ∀ i j, i ≠ j → ρ i j = 0 := by
  obtain ⟨l, hl, hc⟩ := C61_covariance hd h hg
  obtain ⟨ω0⟩ : Nonempty Ω := nonempty_of_isProbabilityMeasure μ
  obtain ⟨hs, hn, _⟩ := gaussians_eq h (hg ω0)
  constructor
  · intro hall i j hij
    have hz := normal_root hl.lower (fun i => by rw [hl.product, ← hc i i 0 0 (by omega) (by omega), hall i i 0 0 (by omega) (by omega)])
    rw [← hl.product, Matrix.mul_apply]
    apply Finset.sum_eq_zero
    intro k _
    rw [Matrix.transpose_apply]
    by_cases hk : k = i
    · rw [hz k.1 k rfl j (by rw [hk]; exact Ne.symm hij)]; ring
    · rw [hz k.1 k rfl i (Ne.symm hk)]; ring
  · intro hz i j path step hp hs
    have h1 : ρ = 1 := by
      funext i j
      by_cases hij : i = j
      · rw [hij, h.diagonal, Matrix.one_apply_eq]
      · rw [hz i j hij, Matrix.one_apply_ne hij]
    rw [hc i j path step hp hs]
    rw [h1] at hl ⊢
    rw [root_unit hl]
    simp

/-- Of the requested variances only their sum survives. -/
theorem C61_total (hd : StandardNormal μ draws) (h : Requested correlation instruments ρ)
    (hg : ∀ ω, fetchCorrelatedGaussians correlation instruments substepping nPaths (draws ω) = .ok (g ω)) {path step : Nat}
    (hp : path < nPaths) (hs : step < substepping.sum) :
    ∑ i : Fin instruments.length, ∫ ω, drawn (g ω) i path step * drawn (g ω) i path step ∂μ = instruments.length := by
  obtain ⟨l, hl, hc⟩ := C61_covariance hd h hg
  have : ∀ i : Fin instruments.length, ∫ ω, drawn (g ω) i path step * drawn (g ω) i path step ∂μ = (l.transpose * l) i i := fun i => hc i i path step hp hs
  simp only [this]
  have e : ∑ i, (l.transpose * l) i i = ∑ i, (l * l.transpose) i i := Matrix.trace_mul_comm _ _
  rw [e, hl.product]
  simp [h.diagonal]

/-! ## Two assets -/

/-- The matrix of a correlation. -/
def pair (r : ℝ) : Matrix (Fin 2) (Fin 2) ℝ := fun i j => if i = j then 1 else r

/-- Its root. -/
noncomputable def rootOf (r : ℝ) : Matrix (Fin 2) (Fin 2) ℝ :=
  fun i j => if i = 0 then (if j = 0 then 1 else 0) else if j = 0 then r else Real.sqrt (1 - r ^ 2)

theorem pair_root {r : ℝ} (hr : r ^ 2 < 1) : IsCholesky (pair r) (rootOf r) := by
  have hs : Real.sqrt (1 - r ^ 2) * Real.sqrt (1 - r ^ 2) = 1 - r ^ 2 := Real.mul_self_sqrt (by linarith)
  refine ⟨?_, ?_, ?_⟩
  · intro i j hij
    fin_cases i <;> fin_cases j <;> simp_all [rootOf]
  · intro i
    fin_cases i
    · simp [rootOf]
    · simpa [rootOf] using hr
  · funext i j
    rw [Matrix.mul_apply, Fin.sum_univ_two]
    fin_cases i <;> fin_cases j <;> simp [pair, rootOf, Matrix.transpose_apply] <;> linarith [hs]

theorem pair_variance {r : ℝ} {l : Matrix (Fin 2) (Fin 2) ℝ} (hl : IsCholesky (pair r) l) : (l.transpose * l) 0 0 = 1 + r ^ 2 := by
  have h01 := hl.lower 0 1 (by simp)
  have e00 : (l * l.transpose) 0 0 = 1 := by rw [hl.product]; rfl
  have e10 : (l * l.transpose) 1 0 = r := by rw [hl.product]; rfl
  rw [Matrix.mul_apply, Fin.sum_univ_two] at e00 e10 ⊢
  simp only [Matrix.transpose_apply, h01] at e00 e10 ⊢
  have hp := hl.positive 0
  have : l 0 0 = 1 := by nlinarith
  rw [this] at e00 e10 ⊢
  have : l 1 0 = r := by linarith
  rw [this]
  ring

/-- C61 violated: two equities with a correlation of one half. The draws of the first have a variance of 5/4. -/
theorem C61_false (hd : StandardNormal μ draws) (hs : substepping.sum ≠ 0) (hn : nPaths ≠ 0) :
    ∃ g : Ω → List (List (List ℝ)),
      (∀ ω, fetchCorrelatedGaussians (fun _ _ => .ok (1 / 2)) [.equity "A" "C" id, .equity "B" "C" id] substepping nPaths (draws ω) = .ok (g ω)) ∧
      ∫ ω, drawn (g ω) 0 0 0 * drawn (g ω) 0 0 0 ∂μ = 5 / 4 := by
  have hreq : Requested (fun _ _ => .ok (1 / 2)) [.equity "A" "C" id, .equity "B" "C" id] (pair (1 / 2)) := by
    refine ⟨fun i j hij => ?_, fun i j => ?_, fun i => ?_⟩
    · unfold pair; rw [if_neg hij]
    · unfold pair; simp only [eq_comm]
    · unfold pair; rw [if_pos rfl]
  have hch : ∃ l, cholesky (pair (1 / 2)) = some l := by
    unfold cholesky
    rw [dif_pos ⟨_, pair_root (by norm_num)⟩]
    exact ⟨_, rfl⟩
  obtain ⟨l, hl⟩ := hch
  have hok : ∀ ω, ∃ g, fetchCorrelatedGaussians (fun _ _ => .ok (1 / 2)) [.equity "A" "C" id, .equity "B" "C" id] substepping nPaths (draws ω) = .ok g := by
    intro ω
    unfold fetchCorrelatedGaussians
    rw [if_neg (by simp [hs, hn])]
    unfold correlationRoot
    rw [matrix_requested hreq]
    simp only [ok_bind]
    have hl' : cholesky (n := ([.equity "A" "C" id, .equity "B" "C" id] : List Instrument).length) (pair (1 / 2)) = some l := hl
    rw [hl']
    exact ⟨_, rfl⟩
  choose g hg using hok
  refine ⟨g, hg, ?_⟩
  obtain ⟨l', hl', hc⟩ := C61_covariance hd hreq hg
  have := hc 0 0 0 0 (by omega) (by omega)
  rw [pair_variance (l := l') hl'] at this
  norm_num at this
  exact this

/-- C61 does not matter to a Monte-Carlo pricer on real market data: the market data has no correlations, so a portfolio on two
underlyings makes no pricer. -/
theorem C61_unreachable {fuel : Nat} {f : ModelFactory} {l : List (ℝ × Instrument)} {md : MarketData} {draw : Draws} {p : MonteCarlo}
    (hp : MonteCarlo.new fuel f l md draw = .ok p) : p.model.instruments.length = 1 := by
  obtain ⟨t, context, ht, hc, hb, _⟩ := new_ok hp
  obtain ⟨_, _, _, _, _, _, _, _, _, e⟩ := model_new_ok hb
  rw [e]
  rfl

end QM.MonteCarlo
