import Verif.MonteCarlo.Spec
import Verif.Vol.Lemmas
import Verif.Instruments.Spec
import Mathlib.Probability.Independence.Integration
import Mathlib.Probability.HasLawExists

/-!
# Lemmas about Monte-Carlo pricing
-/

namespace QM.MonteCarlo
open QM.Interp QM.Vol QM.Instruments QM.Market QM.Risk QM.Fixings Spec

/-! ## Paths -/

theorem list_range' {α : Type} (l : List α) (d : α) : l = (List.range' 0 l.length).map (fun i => l.getD i d) := by
  apply List.ext_getElem
  · simp
  · intro i h1 h2
    simp [List.getD_eq_getElem?_getD, List.getElem?_eq_getElem h1]

theorem advance_val (σ : ℝ) : ∀ (n : Nat) (p : ℝ) (gs : List ℝ), n ≤ gs.length →
    advance (.val σ) n (.val p) gs = .ok (.val (p * ∏ k ∈ Finset.range n, (1 + gs.getD k 0 * σ)), gs.drop n)
  | 0, p, gs, _ => by simp [advance]
  | n + 1, p, [], h => by simp at h
  | n + 1, p, g :: gs, h => by
    rw [advance]
    show advance (.val σ) n (.val (p * (1 + g * σ))) gs = _
    rw [advance_val σ n _ gs (by simpa using h), Finset.prod_range_succ']
    simp only [List.getD_cons_succ, List.getD_cons_zero, List.drop_succ_cons]
    congr 3
    ring

/-- The leg to observation `i`. -/
noncomputable def legAt (F w δ : Nat → ℝ) (n : Nat → Nat) (i : Nat) : Leg :=
  ⟨n i, .val (stepSize w n i), .val (F i - δ i), .val (δ i)⟩

theorem walk_val {F w δ : Nat → ℝ} {n : Nat → Nat} (gs : List ℝ) : ∀ (len o : Nat), start n (o + len) ≤ gs.length →
    walk (.val (level w n (fun k => gs.getD k 0) o)) (gs.drop (start n o)) ((List.range' o len).map (legAt F w δ n)) =
      .ok ((List.range' o len).map fun i => .val (pathValue F w δ n (fun k => gs.getD k 0) i))
  | 0, o, _ => rfl
  | len + 1, o, h => by
    have hmono : ∀ a, start n (o + 1) ≤ start n (o + 1 + a) := by
      intro a
      induction a with
      | zero => exact le_rfl
      | succ a ih => exact ih.trans (Nat.le_add_right _ _)
    have h1 : start n o + n o ≤ gs.length := (hmono len).trans (by rw [show o + 1 + len = o + (len + 1) by omega]; exact h)
    rw [List.range'_succ, List.map_cons, List.map_cons, walk]
    show (do
      let (point, gs) ← advance (.val (stepSize w n o)) (n o) (.val (level w n (fun k => gs.getD k 0) o)) (gs.drop (start n o))
      let values ← walk point gs ((List.range' (o + 1) len).map (legAt F w δ n))
      pure (num2 (· + ·) (num2 (· * ·) point (.val (F o - δ o))) (.val (δ o)) :: values)) = _
    rw [advance_val _ _ _ _ (by rw [List.length_drop]; omega)]
    have hl : level w n (fun k => gs.getD k 0) o * ∏ k ∈ Finset.range (n o), (1 + (gs.drop (start n o)).getD k 0 * stepSize w n o) =
        level w n (fun k => gs.getD k 0) (o + 1) := by
      rw [level]
      congr 1
      apply Finset.prod_congr rfl
      intro k _
      simp [List.getD_eq_getElem?_getD, List.getElem?_drop]
    rw [hl, List.drop_drop]
    have ih := walk_val (F := F) (w := w) (δ := δ) (n := n) gs len (o + 1) (by rw [show o + 1 + len = o + (len + 1) by omega]; exact h)
    have e : start n o + n o = start n (o + 1) := rfl
    rw [e]
    show (do
      let values ← walk _ (gs.drop (start n (o + 1))) _
      pure _) = _
    rw [ih]
    show Except.ok _ = Except.ok _
    simp only [num2, pathValue]
    congr 3
    ring

theorem legs_val {F w δ : Nat → ℝ} {n : Nat → Nat} (hn : ∀ i, n i ≠ 0) : ∀ (len o : Nat) {ls : List Leg},
    legs (.val (before w o)) (((List.range' o len).map fun i => (⟨.val (F i - δ i), .val (w i), .val (δ i)⟩ : Observed)).zip
      ((List.range' o len).map n)) = .ok ls → ls = (List.range' o len).map (legAt F w δ n)
  | 0, o, ls, h => by cases h; rfl
  | len + 1, o, ls, h => by
    rw [List.range'_succ, List.map_cons, List.map_cons, List.zip_cons_cons, legs] at h
    dsimp only at h
    have hd : ndiv (num2 (· - ·) (.val (w o)) (.val (before w o))) (.val ((n o : ℕ) : ℝ)) = .val ((w o - before w o) / n o) := by
      simp [ndiv, num2, hn o]
    rw [hd] at h
    split at h
    · cases h
    · rename_i hneg
      obtain ⟨more, h1, h⟩ := bind_ok h
      have := pure_ok h
      subst this
      rw [List.range'_succ, List.map_cons]
      rw [legs_val hn len (o + 1) h1]
      congr 1
      have : ¬ (w o - before w o) / n o < 0 := hneg
      simp only [legAt, nsqrt, this, if_false, stepSize]

theorem observe_val {fuel : Nat} {fwd : Fwd} {surface : VolSurface} {pt : Point} {F w δ : ℝ} (hF : fwd.forward pt.1 = .ok (.val F))
    (hw : surface.variance fuel pt (.val F) = .ok (.val w)) (hδ : surface.displacement pt.1 = .ok (.val δ)) :
    observe fuel fwd surface pt = .ok ⟨.val (F - δ), .val w, .val δ⟩ := by
  unfold observe
  rw [hF]
  show (surface.variance fuel pt (.val F) >>= _) = _
  rw [hw]
  show (surface.displacement pt.1 >>= _) = _
  rw [hδ]
  rfl

theorem each_ok_map {α β : Type} {f : α → Outcome β} {g : α → β} : ∀ {xs : List α}, (∀ x ∈ xs, f x = .ok (g x)) → each f xs = .ok (xs.map g)
  | [], _ => rfl
  | x :: xs, h => by
    rw [each, h x (by simp), each_ok_map (fun y hy => h y (by simp [hy]))]
    rfl

theorem start_sum (l : List Nat) : start (fun i => l.getD i 0) l.length = l.sum := by
  have : ∀ k ≤ l.length, start (fun i => l.getD i 0) k = (l.take k).sum := by
    intro k
    induction k with
    | zero => simp [start]
    | succ k ih =>
      intro hk
      rw [start, ih (by omega), List.take_add_one, List.sum_append]
      simp [List.getD_eq_getElem?_getD, List.getElem?_eq_getElem (show k < l.length by omega)]
  rw [this _ le_rfl, List.take_length]

theorem start_congr {n m : Nat → Nat} : ∀ k, (∀ i < k, n i = m i) → start n k = start m k
  | 0, _ => rfl
  | k + 1, h => by
    rw [start, start, start_congr k (fun i hi => h i (by omega)), h k (by omega)]

theorem fetchPath_val {fuel : Nat} {u : Instrument} {ctx : PricingContext} {observations : List Point} {gaussians : List (List ℝ)}
    {n : Nat → Nat} {F w δ : Nat → ℝ} (hm : Spec.Market fuel ctx u observations F w δ) (hn : ∀ i, n i ≠ 0)
    (hg : ∀ gs ∈ gaussians, start n observations.length ≤ gs.length) {paths : List (List (Num ℝ))}
    (h : fetchPath fuel u ctx observations gaussians ((List.range observations.length).map n) = .ok paths) :
    paths = gaussians.map fun gs => (List.range observations.length).map fun i => .val (pathValue F w δ n (fun k => gs.getD k 0) i) := by
  obtain ⟨last, fwd, surface, hl, hf, hv, hs⟩ := hm.seen
  unfold fetchPath at h
  rw [hl] at h
  dsimp only at h
  split at h
  · cases h
  rw [hf] at h
  change (ctx.volSurface u last.1 (fun _ => .ok fwd) >>= _) = _ at h
  rw [hv] at h
  change (each (observe fuel fwd surface) observations >>= _) = _ at h
  have ho : each (observe fuel fwd surface) observations =
      .ok ((List.range' 0 observations.length).map fun i => (⟨.val (F i - δ i), .val (w i), .val (δ i)⟩ : Observed)) := by
    rw [each_iff]
    rw [List.forall₂_iff_get]
    refine ⟨by simp, fun i h1 h2 => ?_⟩
    have := hs i (observations.get ⟨i, h1⟩) (by simp [List.getElem?_eq_getElem h1])
    rw [observe_val this.1 this.2.1 this.2.2]
    simp
  rw [ho] at h
  change (legs (.val 0) _ >>= _) = _ at h
  obtain ⟨ls, h1, h⟩ := bind_ok h
  rw [List.range_eq_range'] at h1
  have hls := legs_val (F := F) (w := w) (δ := δ) hn observations.length 0 h1
  subst hls
  have hw : each (fun gs => walk (.val 1) gs ((List.range' 0 observations.length).map (legAt F w δ n))) gaussians =
      .ok (gaussians.map fun gs => (List.range observations.length).map fun i => .val (pathValue F w δ n (fun k => gs.getD k 0) i)) := by
    apply each_ok_map
    intro gs hgs
    have := walk_val (F := F) (w := w) (δ := δ) (n := n) gs observations.length 0 (by rw [Nat.zero_add]; exact hg gs hgs)
    rw [List.range_eq_range']
    exact this
  rw [hw] at h
  cases h
  rfl

/-! ## Means -/

section Mean
open MeasureTheory ProbabilityTheory
variable {Ω : Type} [MeasurableSpace Ω] {μ : Measure Ω} [IsProbabilityMeasure μ]

theorem mean_prod {X : ℕ → Ω → ℝ} (hi : iIndepFun X μ) (hX : ∀ k, Integrable (X k) μ) : ∀ N,
    Integrable (∏ k ∈ Finset.range N, X k) μ ∧ ∫ ω, (∏ k ∈ Finset.range N, X k) ω ∂μ = ∏ k ∈ Finset.range N, ∫ ω, X k ω ∂μ
  | 0 => ⟨integrable_const (1 : ℝ), by simp⟩
  | N + 1 => by
    obtain ⟨h1, h2⟩ := mean_prod hi hX N
    have hind := hi.indepFun_prod_range_succ₀ (fun k => (hX k).aestronglyMeasurable.aemeasurable) N
    rw [Finset.prod_range_succ, Finset.prod_range_succ]
    refine ⟨hind.integrable_mul h1 (hX N), ?_⟩
    rw [hind.integral_mul_eq_mul_integral h1.aestronglyMeasurable (hX N).aestronglyMeasurable, h2]

theorem standard_mean {X : Ω → ℝ} (h : HasLaw X (gaussianReal 0 1) μ) : Integrable X μ ∧ ∫ ω, X ω ∂μ = 0 ∧
    Integrable (fun ω => X ω ^ 2) μ ∧ ∫ ω, X ω ^ 2 ∂μ = 1 := by
  have h2 : MemLp (id : ℝ → ℝ) 2 (gaussianReal 0 1) := memLp_id_gaussianReal 2
  have hi : Integrable (id : ℝ → ℝ) (gaussianReal 0 1) := h2.integrable (by norm_num)
  have hX2 : MemLp X 2 μ := by
    have := h.map_eq ▸ h2
    exact (memLp_map_measure_iff this.aestronglyMeasurable h.aemeasurable).1 this
  have hXi : Integrable X μ := hX2.integrable (by norm_num)
  have hm : ∫ ω, X ω ∂μ = 0 := by
    have := h.integral_eq
    rw [integral_id_gaussianReal] at this
    exact this
  refine ⟨hXi, hm, hX2.integrable_sq, ?_⟩
  have hv : variance X μ = 1 := by
    rw [h.variance_eq, variance_id_gaussianReal]
    simp
  rw [variance_eq_sub hX2] at hv
  simp only [Pi.pow_apply] at hv
  rw [hm] at hv
  simpa using hv

variable {g : ℕ → Ω → ℝ}

theorem factor_mean (hi : iIndepFun g μ) (hg : ∀ k, HasLaw (g k) (gaussianReal 0 1) μ) (s : ℕ → ℝ) (N : ℕ) :
    Integrable (fun ω => ∏ k ∈ Finset.range N, (1 + g k ω * s k)) μ ∧ ∫ ω, ∏ k ∈ Finset.range N, (1 + g k ω * s k) ∂μ = 1 := by
  have hX : iIndepFun (fun k ω => 1 + g k ω * s k) μ := hi.comp (fun k x => 1 + x * s k) (fun k => by fun_prop)
  have h := mean_prod hX (fun k => (integrable_const 1).add ((standard_mean (hg k)).1.mul_const (s k))) N
  have e : (∏ k ∈ Finset.range N, fun ω => 1 + g k ω * s k) = fun ω => ∏ k ∈ Finset.range N, (1 + g k ω * s k) := by
    funext ω
    rw [Finset.prod_apply]
  rw [e] at h
  refine ⟨h.1, h.2.trans ?_⟩
  apply Finset.prod_eq_one
  intro k _
  rw [integral_add (integrable_const 1) ((standard_mean (hg k)).1.mul_const (s k)), integral_mul_const, (standard_mean (hg k)).2.1]
  simp

theorem factor_square (hi : iIndepFun g μ) (hg : ∀ k, HasLaw (g k) (gaussianReal 0 1) μ) (s : ℕ → ℝ) (N : ℕ) :
    Integrable (fun ω => (∏ k ∈ Finset.range N, (1 + g k ω * s k)) ^ 2) μ ∧
      ∫ ω, (∏ k ∈ Finset.range N, (1 + g k ω * s k)) ^ 2 ∂μ = ∏ k ∈ Finset.range N, (1 + s k ^ 2) := by
  have hX : iIndepFun (fun k ω => (1 + g k ω * s k) ^ 2) μ := hi.comp (fun k x => (1 + x * s k) ^ 2) (fun k => by fun_prop)
  have hexp : ∀ k, (fun ω => (1 + g k ω * s k) ^ 2) = fun ω => 1 + (2 * s k * g k ω + s k ^ 2 * g k ω ^ 2) := by
    intro k
    funext ω
    ring
  have hint : ∀ k, Integrable (fun ω => (1 + g k ω * s k) ^ 2) μ ∧ ∫ ω, (1 + g k ω * s k) ^ 2 ∂μ = 1 + s k ^ 2 := by
    intro k
    obtain ⟨h1, h2, h3, h4⟩ := standard_mean (hg k)
    have a := (h1.const_mul (2 * s k))
    have b := (h3.const_mul (s k ^ 2))
    rw [hexp k]
    refine ⟨(integrable_const 1).add (a.add b), ?_⟩
    refine (integral_add (integrable_const 1) (a.add b)).trans ?_
    have e : ∫ ω, (2 * s k * g k ω + s k ^ 2 * g k ω ^ 2) ∂μ = s k ^ 2 := by
      rw [integral_add a b, integral_const_mul, integral_const_mul, h2, h4]
      simp
    refine (congrArg (_ + ·) e).trans ?_
    simp
  have h := mean_prod hX (fun k => (hint k).1) N
  have e : (∏ k ∈ Finset.range N, fun ω => (1 + g k ω * s k) ^ 2) = fun ω => (∏ k ∈ Finset.range N, (1 + g k ω * s k)) ^ 2 := by
    funext ω
    rw [Finset.prod_apply, Finset.prod_pow]
  rw [e] at h
  exact ⟨h.1, h.2.trans (Finset.prod_congr rfl fun k _ => (hint k).2)⟩

end Mean

/-- The steps one after the other. -/
theorem level_flat (w : Nat → ℝ) (n : Nat → Nat) : ∀ N, ∃ s : ℕ → ℝ, (∀ g, level w n g N = ∏ k ∈ Finset.range (start n N), (1 + g k * s k)) ∧
    ∏ k ∈ Finset.range (start n N), (1 + s k ^ 2) = ∏ j ∈ Finset.range N, (1 + stepSize w n j ^ 2) ^ n j
  | 0 => ⟨fun _ => 0, fun g => by simp [level, start], by simp [start]⟩
  | N + 1 => by
    obtain ⟨s, h1, h2⟩ := level_flat w n N
    obtain ⟨t, ht1, ht2⟩ : ∃ t : ℕ → ℝ, (∀ k < start n N, t k = s k) ∧ ∀ k, t (start n N + k) = stepSize w n N :=
      ⟨fun k => if k < start n N then s k else stepSize w n N, fun k hk => if_pos hk, fun k => if_neg (by omega)⟩
    refine ⟨t, fun g => ?_, ?_⟩
    · rw [level, start, Finset.prod_range_add, h1]
      congr 1
      · apply Finset.prod_congr rfl
        intro k hk
        rw [ht1 k (Finset.mem_range.1 hk)]
      · apply Finset.prod_congr rfl
        intro k _
        rw [ht2]
    · rw [start, Finset.prod_range_add, Finset.prod_range_succ, ← h2]
      congr 1
      · apply Finset.prod_congr rfl
        intro k hk
        rw [ht1 k (Finset.mem_range.1 hk)]
      · rw [Finset.prod_congr rfl (fun k _ => by rw [ht2])]
        rw [Finset.prod_const, Finset.card_range]

/-! ## Building the pricer -/

theorem substepsOf_ok {fuel : Nat} {fwd : Fwd} {surface : VolSurface} {h : ℝ} : ∀ {l : List (Point × Nat)} {prev : Num ℝ} {out : List Nat},
    substepsOf fuel fwd surface h prev l = .ok out → out.length = l.length ∧ ∀ i, (l.map Prod.snd).getD i 1 ≤ out.getD i 1
  | [], prev, out, hs => by
    rw [substepsOf] at hs
    cases hs
    exact ⟨rfl, fun i => le_rfl⟩
  | (obs, k) :: rest, prev, out, hs => by
    rw [substepsOf] at hs
    obtain ⟨atm, _, hs⟩ := bind_ok hs
    obtain ⟨var, _, hs⟩ := bind_ok hs
    dsimp only at hs
    split at hs
    · cases hs
    · obtain ⟨steps, _, hs⟩ := bind_ok hs
      obtain ⟨more, hm, hs⟩ := bind_ok hs
      have := pure_ok hs
      subst this
      obtain ⟨h1, h2⟩ := substepsOf_ok hm
      refine ⟨by simp [h1], fun i => ?_⟩
      cases i with
      | zero => simp
      | succ i => simpa using h2 i

theorem substepsAll_ok {fuel : Nat} {ctx : PricingContext} {observations : List Point} {hwm : Int} {h : ℝ} :
    ∀ {l : List Instrument} {ks out : List Nat}, ks.length = observations.length → (∀ i, 1 ≤ ks.getD i 1) →
    substepsAll fuel ctx observations hwm h l ks = .ok out → out.length = observations.length ∧ ∀ i, 1 ≤ out.getD i 1
  | [], ks, out, hl, hk, hs => by
    rw [substepsAll] at hs
    cases hs
    exact ⟨hl, hk⟩
  | i :: rest, ks, out, hl, hk, hs => by
    rw [substepsAll] at hs
    obtain ⟨fwd, _, hs⟩ := bind_ok hs
    obtain ⟨surface, _, hs⟩ := bind_ok hs
    obtain ⟨ks', h1, hs⟩ := bind_ok hs
    obtain ⟨e1, e2⟩ := substepsOf_ok h1
    refine substepsAll_ok (by rw [e1]; simp [hl]) (fun j => ?_) hs
    refine le_trans ?_ (e2 j)
    rw [List.map_snd_zip (by omega)]
    exact hk j

theorem substepping_ok {fuel : Nat} {ctx : PricingContext} {observations : List Point} {instruments : List Instrument} {h : ℝ} {out : List Nat}
    (hs : calculateSubstepping fuel ctx observations instruments h = .ok out) :
    observations ≠ [] ∧ out.length = observations.length ∧ ∀ i, 1 ≤ out.getD i 1 := by
  unfold calculateSubstepping at hs
  cases hl : observations.getLast? with
  | none => rw [hl] at hs; cases hs
  | some last =>
    rw [hl] at hs
    refine ⟨(fun e => by rw [e] at hl; cases hl), substepsAll_ok (by simp) (fun i => ?_) hs⟩
    rw [List.getD_eq_getElem?_getD, List.getElem?_map]
    cases observations[i]? <;> simp

theorem correlation_pair {instruments : List Instrument} (h : 2 ≤ instruments.length) :
    correlationMatrix marketCorrelation instruments = .error .err := by
  obtain ⟨m, hm⟩ : ∃ m, instruments.length = m + 2 := ⟨instruments.length - 2, by omega⟩
  unfold correlationMatrix
  generalize hg : (fun (i j : Fin instruments.length) => marketCorrelation (instruments.get i) (instruments.get j)) = c
  have hc : ∀ i j, c i j = .error .err := by
    intro i j
    rw [← hg]
    rfl
  have hall : each (fun i => each (fun j => c i j) ((List.finRange instruments.length).filter (· < i))) (List.finRange instruments.length) =
      .error .err := by
    clear hg
    revert c
    rw [hm]
    intro c hc
    rw [List.finRange_succ, each]
    have h0 : (List.filter (fun x => decide (x < (0 : Fin (m + 2)))) (0 :: List.map Fin.succ (List.finRange (m + 1)))) = [] := by
      rw [List.filter_eq_nil_iff]
      intro a _
      simp
    rw [h0]
    show (each _ (List.map Fin.succ (List.finRange (m + 1))) >>= _) = _
    rw [List.finRange_succ, List.map_cons, each]
    have h1 : ∃ l, (List.filter (fun x => decide (x < Fin.succ (0 : Fin (m + 1))))
        (0 :: Fin.succ 0 :: List.map Fin.succ (List.map Fin.succ (List.finRange m)))) = 0 :: l := by
      rw [List.filter_cons_of_pos (by simp)]
      exact ⟨_, rfl⟩
    obtain ⟨l, h1⟩ := h1
    rw [h1, each, hc]
    rfl
  have := hall
  subst hg
  rw [this]
  rfl

theorem correlation_single (i : Instrument) : correlationMatrix marketCorrelation [i] = .ok 1 := by
  unfold correlationMatrix
  have : each (fun i_1 => each (fun j => marketCorrelation ([i].get i_1) ([i].get j))
      (List.filter (fun x => decide (x < i_1)) (List.finRange [i].length))) (List.finRange [i].length) = .ok [[]] := rfl
  rw [this]
  show Except.ok _ = Except.ok _
  congr 1
  funext a b
  have : a = b := Subsingleton.elim (α := Fin 1) a b
  simp [this, Matrix.one_apply]

theorem cholesky_one {l : Matrix (Fin 1) (Fin 1) ℝ} (h : IsCholesky 1 l) : l = 1 := by
  have hp := h.positive 0
  have h1 : (l * l.transpose) 0 0 = 1 := by rw [h.product]; rfl
  rw [Matrix.mul_apply] at h1
  simp at h1
  have : l 0 0 = 1 := by nlinarith
  funext a b
  rw [Subsingleton.elim a 0, Subsingleton.elim b 0, this]
  rfl

theorem is_cholesky_one (n : Nat) : IsCholesky (1 : Matrix (Fin n) (Fin n) ℝ) 1 :=
  ⟨fun i j h => Matrix.one_apply_ne h.ne, fun i => by simp, by simp⟩

theorem cholesky_spec {n : Nat} {c l : Matrix (Fin n) (Fin n) ℝ} (h : cholesky c = some l) : IsCholesky c l := by
  unfold cholesky at h
  split at h
  · rename_i hex
    cases h
    exact hex.choose_spec
  · cases h

theorem correlationRoot_single (i : Instrument) : correlationRoot marketCorrelation [i] = .ok 1 := by
  have hc : cholesky (1 : Matrix (Fin [i].length) (Fin [i].length) ℝ) = some 1 := by
    cases h : cholesky (1 : Matrix (Fin [i].length) (Fin [i].length) ℝ) with
    | none =>
      unfold cholesky at h
      rw [dif_pos ⟨1, is_cholesky_one _⟩] at h
      cases h
    | some l => rw [cholesky_one (l := l) (cholesky_spec h)]
  unfold correlationRoot
  rw [correlation_single]
  simp only [bind, Except.bind]
  rw [hc]
  show Except.ok _ = _
  rw [Matrix.transpose_one]

/-- The draws for the only asset. -/
def rows (nPaths nSteps : Nat) (draw : Draws) : List (List ℝ) :=
  (List.range nPaths).map fun path => (List.range nSteps).map fun step => draw path step 0

theorem gaussians_single {i : Instrument} {substepping : List Nat} {nPaths : Nat} {draw : Draws} {out : List (List (List ℝ))}
    (h : fetchCorrelatedGaussians marketCorrelation [i] substepping nPaths draw = .ok out) :
    nPaths ≠ 0 ∧ out = [rows nPaths substepping.sum draw] := by
  unfold fetchCorrelatedGaussians at h
  split at h
  · cases h
  · rename_i hn
    rw [correlationRoot_single] at h
    have := pure_ok h
    subst this
    refine ⟨fun e => hn (.inr (.inr e)), ?_⟩
    show [_] = [_]
    congr 1
    unfold rows
    apply List.map_congr_left
    intro path _
    apply List.map_congr_left
    intro step _
    unfold correlated
    show (List.ofFn fun j : Fin 1 => (1 : Matrix (Fin 1) (Fin 1) ℝ) 0 j * draw path step j).sum = _
    rw [List.ofFn_succ]
    simp

theorem gaussians_pair {instruments : List Instrument} (hi : 2 ≤ instruments.length) {substepping : List Nat} {nPaths : Nat} {draw : Draws}
    {out : List (List (List ℝ))} : fetchCorrelatedGaussians marketCorrelation instruments substepping nPaths draw ≠ .ok out := by
  intro h
  unfold fetchCorrelatedGaussians at h
  split at h
  · cases h
  · unfold correlationRoot at h
    rw [correlation_pair hi] at h
    cases h

theorem model_new_ok {fuel : Nat} {f : ModelFactory} {t : Timeline} {context : Prefetch} {draw : Draws} {m : BlackDiffusion}
    (h : BlackDiffusion.new fuel f t context draw = .ok m) : ∃ k u obs substepping paths, t.observations.entries = [(k, u, obs)] ∧
      calculateSubstepping fuel context.pricingContext obs [u] f.pathSubstep = .ok substepping ∧
      fetchPath fuel u context.pricingContext obs (rows f.nPaths substepping.sum draw) substepping = .ok paths ∧ f.nPaths ≠ 0 ∧
      m = ⟨obs, t.flows, context, ⟨[(u.id, 0)]⟩, [u], substepping, [rows f.nPaths substepping.sum draw], [paths], f.nPaths⟩ := by
  unfold BlackDiffusion.new at h
  dsimp only at h
  match he : t.observations.entries with
  | [] =>
    rw [he] at h
    obtain ⟨s, hs, _⟩ := bind_ok h
    cases hs
  | [(k, u, obs)] =>
    rw [he] at h
    obtain ⟨substepping, hs, h⟩ := bind_ok h
    obtain ⟨gaussians, hg, h⟩ := bind_ok h
    obtain ⟨paths, hp, h⟩ := bind_ok h
    have := pure_ok h
    subst this
    obtain ⟨hn, rfl⟩ := gaussians_single hg
    unfold fetchPaths at hp
    split at hp
    · cases hp
    · have hp := each_iff.1 hp
      obtain ⟨path, hpath⟩ : ∃ path, paths = [path] := by
        have := hp.length_eq
        match paths, this with
        | [path], _ => exact ⟨path, rfl⟩
      subst hpath
      cases hp with
      | cons h1 _ => exact ⟨k, u, obs, substepping, path, rfl, hs, h1, hn, rfl⟩
  | a :: b :: rest =>
    rw [he] at h
    obtain ⟨substepping, hs, h⟩ := bind_ok h
    obtain ⟨gaussians, hg, h⟩ := bind_ok h
    exact absurd hg (gaussians_pair (by simp))

theorem new_ok {fuel : Nat} {f : ModelFactory} {l : List (ℝ × Instrument)} {md : MarketData} {draw : Draws} {p : MonteCarlo}
    (h : MonteCarlo.new fuel f l md draw = .ok p) : ∃ t context, timeline l .new = .ok t ∧
      Prefetch.new md (collect md.spotDate l) = .ok context ∧ BlackDiffusion.new fuel f t context draw = .ok p.model ∧
      p.factory = f ∧ p.instruments = l := by
  unfold MonteCarlo.new at h
  obtain ⟨t, h1, h⟩ := bind_ok h
  obtain ⟨c, h2, h⟩ := bind_ok h
  obtain ⟨m, h3, h⟩ := bind_ok h
  have := pure_ok h
  subst this
  exact ⟨t, c, h1, h2, h3, rfl, rfl⟩

theorem observation_flows (t : Timeline) (i : Instrument) (x : Point) : (t.observation i x).flows = t.flows := by
  unfold Timeline.observation
  split <;> rfl

theorem mcDependencies_flows {t t' : Timeline} {i : Instrument} (h : mcDependencies t i = .ok t') : t'.flows.length = t.flows.length + 1 := by
  cases i <;> simp only [mcDependencies, Except.ok.injEq, reduceCtorEq] at h
  all_goals
    subst h
    simp [Timeline.flow, observation_flows]

theorem timeline_flows : ∀ {l : List (ℝ × Instrument)} {t t' : Timeline}, timeline l t = .ok t' → t'.flows.length = t.flows.length + l.length
  | [], t, t', h => by
    rw [timeline] at h
    cases h
    simp
  | (w, i) :: rest, t, t', h => by
    rw [timeline] at h
    obtain ⟨t1, h1, h⟩ := bind_ok h
    rw [timeline_flows h, mcDependencies_flows h1, List.length_cons]
    omega

theorem level_congr {w : Nat → ℝ} {n : Nat → Nat} {g g' : Nat → ℝ} : ∀ i, (∀ k < start n i, g k = g' k) → level w n g i = level w n g' i
  | 0, _ => rfl
  | i + 1, h => by
    have h' : ∀ k < start n i + n i, g k = g' k := h
    rw [level, level, level_congr i (fun k hk => h' k (by omega))]
    congr 1
    apply Finset.prod_congr rfl
    intro k hk
    rw [h' _ (by have := Finset.mem_range.1 hk; omega)]

theorem stepCount_ok {x h : ℝ} {k : Nat} (hk : stepCount (.val x) h = .ok k) : k = ⌈x / h⌉₊ := by
  unfold stepCount at hk
  dsimp only at hk
  split at hk
  · rename_i h0
    split at hk
    · rename_i hx
      cases hk
      simp [hx]
    · cases hk
  · cases hk
    rfl

theorem substepsOf_val {fuel : Nat} {fwd : Fwd} {surface : VolSurface} {h : ℝ} {F w : Nat → ℝ} : ∀ {obs : List Point} {o : Nat} {out : List Nat},
    (∀ i pt, obs[i]? = some pt → fwd.forward pt.1 = .ok (.val (F (o + i))) ∧ surface.variance fuel pt (.val (F (o + i))) = .ok (.val (w (o + i)))) →
    substepsOf fuel fwd surface h (.val (before w o)) (obs.zip (obs.map fun _ => 1)) = .ok out →
    out = (List.range' o obs.length).map (steps h w)
  | [], o, out, hm, hs => by
    simp only [List.map_nil, List.zip_nil_right] at hs
    rw [substepsOf] at hs
    cases hs
    rfl
  | pt :: obs, o, out, hm, hs => by
    rw [List.map_cons, List.zip_cons_cons, substepsOf] at hs
    obtain ⟨hF, hw⟩ := hm 0 pt rfl
    rw [hF] at hs
    change (surface.variance fuel pt (.val (F (o + 0))) >>= _) = _ at hs
    rw [hw] at hs
    dsimp only [bind, Except.bind] at hs
    split at hs
    · cases hs
    · have hd : num2 (· - ·) (.val (w (o + 0))) (.val (before w o)) = .val (w o - before w o) := rfl
      rw [hd] at hs
      cases hc : stepCount (.val (w o - before w o)) h with
      | error e => rw [hc] at hs; cases hs
      | ok k =>
        rw [hc] at hs
        dsimp only at hs
        cases hr : substepsOf fuel fwd surface h (.val (w (o + 0))) (obs.zip (obs.map fun _ => 1)) with
        | error e => rw [hr] at hs; cases hs
        | ok more =>
          rw [hr] at hs
          have := pure_ok hs
          subst this
          have ih := substepsOf_val (F := F) (w := w) (o := o + 1) (obs := obs) (h := h) (fuel := fuel) (fwd := fwd) (surface := surface)
            (fun i pt hi => by
              have := hm (i + 1) pt (by simpa using hi)
              rw [show o + 1 + i = o + (i + 1) by omega]
              exact this) hr
          rw [ih, List.length_cons, List.range'_succ, List.map_cons, stepCount_ok hc]
          rfl

theorem substepping_val {fuel : Nat} {ctx : PricingContext} {u : Instrument} {observations : List Point} {h : ℝ} {F w δ : Nat → ℝ} {out : List Nat}
    (hm : Spec.Market fuel ctx u observations F w δ) (hs : calculateSubstepping fuel ctx observations [u] h = .ok out) :
    out = (List.range observations.length).map (steps h w) := by
  obtain ⟨last, fwd, surface, hl, hf, hv, hd⟩ := hm.seen
  unfold calculateSubstepping at hs
  rw [hl] at hs
  dsimp only at hs
  rw [substepsAll, hf] at hs
  change (ctx.volSurface u last.1 (fun _ => .ok fwd) >>= _) = _ at hs
  rw [hv] at hs
  change (substepsOf fuel fwd surface h (.val 0) _ >>= _) = _ at hs
  obtain ⟨ks, h1, hs⟩ := bind_ok hs
  rw [substepsAll] at hs
  cases hs
  rw [List.range_eq_range']
  exact substepsOf_val (F := F) (w := w) (o := 0) (fun i pt hi => by
    have := hd i pt hi
    rw [Nat.zero_add]
    exact ⟨this.1, this.2.1⟩) h1

/-- Paths along draws. -/
theorem rows_paths {fuel : Nat} {ctx : PricingContext} {u : Instrument} {obs : List Point} {F w δ : Nat → ℝ} {n : Nat → Nat} (hn : ∀ i, n i ≠ 0)
    (hm : Spec.Market fuel ctx u obs F w δ) {ks : List Nat} (hks : ks = (List.range obs.length).map n) {nPaths : Nat} {draw : Draws}
    {paths : List (List (Num ℝ))} (hp : fetchPath fuel u ctx obs (rows nPaths ks.sum draw) ks = .ok paths) :
    paths = (List.range nPaths).map fun path => (List.range obs.length).map fun i => .val (pathValue F w δ n (fun k => draw path k 0) i) := by
  have hst : start n obs.length = ks.sum := by
    rw [← start_sum, hks]
    rw [List.length_map, List.length_range]
    apply start_congr
    intro i hi
    simp [List.getD_eq_getElem?_getD, hi]
  have := fetchPath_val hm (n := n) hn (fun gs hgs => ?_) (hks ▸ hp)
  · rw [this]
    unfold rows
    rw [List.map_map]
    apply List.map_congr_left
    intro path _
    apply List.map_congr_left
    intro i hi
    congr 1
    unfold pathValue
    congr 2
    apply level_congr
    intro k hk
    have hmono : ∀ a b, a ≤ b → start n a ≤ start n b := by
      intro a b hab
      induction hab with
      | refl => exact le_rfl
      | step _ ih => exact ih.trans (Nat.le_add_right _ _)
    have hlt : k < ((List.range obs.length).map n).sum := by
      rw [← hks, ← hst]
      exact lt_of_lt_of_le hk (hmono _ _ (by have := List.mem_range.1 hi; omega))
    simp [List.getD_eq_getElem?_getD, hlt]
  · unfold rows at hgs
    obtain ⟨path, _, rfl⟩ := List.mem_map.1 hgs
    rw [hst, hks]
    simp

/-- The paths of a pricer. -/
theorem model_paths {fuel : Nat} {f : ModelFactory} {t : Timeline} {context : Prefetch} {draw : Draws} {m : BlackDiffusion}
    (h : BlackDiffusion.new fuel f t context draw = .ok m) {u : Instrument} {F w δ : Nat → ℝ} (hu : m.instruments = [u])
    (hm : Spec.Market fuel m.context.pricingContext u m.observations F w δ) :
    m.paths = [(List.range f.nPaths).map fun path => (List.range m.observations.length).map fun i =>
      .val (pathValue F w δ (steps f.pathSubstep w) (fun k => draw path k 0) i)] := by
  obtain ⟨k, u', obs, ks, paths, he, hs, hp, hn, rfl⟩ := model_new_ok h
  cases hu
  dsimp only at hm ⊢
  rw [rows_paths (n := steps f.pathSubstep w) (fun i => by unfold steps; omega) hm (substepping_val hm hs) hp]

theorem range_sum (n : Nat) (x : Nat → ℝ) : ((List.range n).map x).sum = ∑ p ∈ Finset.range n, x p := rfl

theorem payoff_val (v : Vanilla) (s k : ℝ) : pathPayoff v (.val s) (.val k) = Instruments.Spec.payoff v.putOrCall s k := by
  unfold pathPayoff
  simp only [num2, num1, nmax]
  cases v.putOrCall <;> simp [sign, Instruments.Spec.payoff]

/-- The value of one flow. -/
theorem evaluate_one {fuel : Nat} {m : BlackDiffusion} {v : Vanilla} {D : ℝ} (hf : m.flows = [expiryFlow v]) (hn : m.nPaths ≠ 0) (x : Nat → ℝ)
    (hD : (expiryFlow v).price fuel m.context.pricingContext ⟨m.context.context.spotDate, .open⟩ = .ok (.val D)) :
    m.evaluateFlows fuel [(List.range m.nPaths).map x] = .ok (.val (average m.nPaths x * D)) := by
  unfold BlackDiffusion.evaluateFlows
  rw [if_neg (by
    rw [hf]
    rintro (⟨q, hq, hl⟩ | h)
    · rw [List.mem_singleton.1 hq] at hl
      simp at hl
    · exact h rfl), hf]
  rw [List.zip_cons_cons, List.zip_nil_left, flowsLoop, if_pos (show isPureRates (expiryFlow v) = true from rfl)]
  dsimp only
  have hs : m.context.pricingContext.spotDate = m.context.context.spotDate := rfl
  rw [hs, hD]
  show flowsLoop fuel m.context.pricingContext m.nPaths [] _ = _
  rw [flowsLoop, range_sum]
  unfold average
  have : ((m.nPaths : ℕ) : ℝ) ≠ 0 := by exact_mod_cast hn
  simp [ndiv, num2, this]

/-! ## When the model can be built -/

theorem substepsOf_succeeds {fuel : Nat} {fwd : Fwd} {surface : VolSurface} {h : ℝ} (hh : h ≠ 0) {F w : Nat → ℝ} : ∀ {obs : List Point} {o : Nat},
    (∀ i pt, obs[i]? = some pt → fwd.forward pt.1 = .ok (.val (F (o + i))) ∧ surface.variance fuel pt (.val (F (o + i))) = .ok (.val (w (o + i))) ∧
      before w (o + i) ≤ w (o + i)) →
    ∃ out, substepsOf fuel fwd surface h (.val (before w o)) (obs.zip (obs.map fun _ => 1)) = .ok out
  | [], o, hm => ⟨[], by rw [List.map_nil, List.zip_nil_right, substepsOf]⟩
  | pt :: obs, o, hm => by
    obtain ⟨hF, hw, hle⟩ := hm 0 pt rfl
    obtain ⟨more, ih⟩ := substepsOf_succeeds (fuel := fuel) (fwd := fwd) (surface := surface) hh (F := F) (w := w) (obs := obs) (o := o + 1)
      (fun i pt hi => by
        have := hm (i + 1) pt (by simpa using hi)
        rw [show o + 1 + i = o + (i + 1) by omega]
        exact this)
    rw [List.map_cons, List.zip_cons_cons, substepsOf, hF]
    simp only [bind, Except.bind, hw]
    rw [if_neg (by simp only [num2, nlt, not_lt, sub_nonneg]; exact hle)]
    have hd : num2 (· - ·) (.val (w (o + 0))) (.val (before w o)) = .val (w o - before w o) := rfl
    rw [hd]
    unfold stepCount
    dsimp only
    rw [if_neg hh]
    have e : (Num.val (w (o + 0)) : Num ℝ) = .val (before w (o + 1)) := rfl
    rw [e]
    dsimp only
    rw [ih]
    exact ⟨_, rfl⟩

theorem legs_succeeds {F w δ : Nat → ℝ} {n : Nat → Nat} (hn : ∀ i, n i ≠ 0) : ∀ (len o : Nat), (∀ i < len, before w (o + i) ≤ w (o + i)) →
    ∃ ls, legs (.val (before w o)) (((List.range' o len).map fun i => (⟨.val (F i - δ i), .val (w i), .val (δ i)⟩ : Observed)).zip
      ((List.range' o len).map n)) = .ok ls
  | 0, o, h => ⟨[], rfl⟩
  | len + 1, o, h => by
    obtain ⟨ls, ih⟩ := legs_succeeds (F := F) (w := w) (δ := δ) hn len (o + 1) (fun i hi => by
      have := h (i + 1) (by omega)
      rw [show o + 1 + i = o + (i + 1) by omega]
      exact this)
    rw [List.range'_succ, List.map_cons, List.map_cons, List.zip_cons_cons, legs]
    dsimp only
    have hd : ndiv (num2 (· - ·) (.val (w o)) (.val (before w o))) (.val ((n o : ℕ) : ℝ)) = .val ((w o - before w o) / n o) := by
      simp [ndiv, num2, hn o]
    rw [hd, if_neg (by
      simp only [nlt, not_lt]
      exact div_nonneg (sub_nonneg.2 (h 0 (by omega))) (Nat.cast_nonneg _))]
    have e : (Num.val (w o) : Num ℝ) = .val (before w (o + 1)) := rfl
    rw [e, ih]
    exact ⟨_, rfl⟩

/-- Paths along rows of draws can be fetched from any market whose variances do not fall. -/
theorem rows_fetch {fuel : Nat} {ctx : PricingContext} {u : Instrument} {obs : List Point} {F w δ : Nat → ℝ} {n : Nat → Nat} (hn : ∀ i, n i ≠ 0)
    (hm : Spec.Market fuel ctx u obs F w δ) (hw : ∀ i < obs.length, before w i ≤ w i) {ks : List Nat} (hks : ks = (List.range obs.length).map n)
    (nPaths : Nat) (draw : Draws) : ∃ paths, fetchPath fuel u ctx obs (rows nPaths ks.sum draw) ks = .ok paths := by
  obtain ⟨last, fwd, surface, hl, hf, hv, hs⟩ := hm.seen
  have hst : start n obs.length = ks.sum := by
    rw [← start_sum, hks]
    rw [List.length_map, List.length_range]
    apply start_congr
    intro i hi
    simp [List.getD_eq_getElem?_getD, hi]
  have hge : ∀ a, a ≤ start n a := by
    intro a
    induction a with
    | zero => exact le_rfl
    | succ a ih =>
      rw [start]
      have := hn a
      omega
  obtain ⟨ls, hls⟩ := legs_succeeds (F := F) (w := w) (δ := δ) hn obs.length 0 (fun i hi => by rw [Nat.zero_add]; exact hw i hi)
  unfold fetchPath
  rw [hl]
  dsimp only
  rw [if_neg (by
    have := hge obs.length
    omega), hf]
  show ∃ paths, (ctx.volSurface u last.1 (fun _ => .ok fwd) >>= _) = .ok paths
  rw [hv]
  show ∃ paths, (each (observe fuel fwd surface) obs >>= _) = .ok paths
  have ho : each (observe fuel fwd surface) obs =
      .ok ((List.range' 0 obs.length).map fun i => (⟨.val (F i - δ i), .val (w i), .val (δ i)⟩ : Observed)) := by
    rw [each_iff]
    rw [List.forall₂_iff_get]
    refine ⟨by simp, fun i h1 h2 => ?_⟩
    have := hs i (obs.get ⟨i, h1⟩) (by simp [List.getElem?_eq_getElem h1])
    rw [observe_val this.1 this.2.1 this.2.2]
    simp
  rw [ho]
  show ∃ paths, (legs (.val 0) _ >>= _) = .ok paths
  have hls' := legs_val (F := F) (w := w) (δ := δ) hn obs.length 0 hls
  subst hls'
  have hsum : ks.sum = start n obs.length := hst.symm
  rw [hsum, hks, List.range_eq_range']
  rw [show legs (.val 0) _ = _ from hls]
  refine ⟨_, each_ok_map (g := fun gs => (List.range' 0 obs.length).map fun i =>
    Num.val (pathValue F w δ n (fun k => gs.getD k 0) i)) ?_⟩
  intro gs hgs
  have := walk_val (F := F) (w := w) (δ := δ) (n := n) gs obs.length 0 (by
    unfold rows at hgs
    obtain ⟨path, _, rfl⟩ := List.mem_map.1 hgs
    rw [Nat.zero_add]
    simp)
  exact this

theorem model_succeeds {fuel : Nat} {f : ModelFactory} {t : Timeline} {context : Prefetch} (draw : Draws) {k : String} {u : Instrument}
    {obs : List Point} (he : t.observations.entries = [(k, u, obs)]) {F w δ : Nat → ℝ} (hm : Spec.Market fuel context.pricingContext u obs F w δ)
    (hw : ∀ i < obs.length, before w i ≤ w i) (hh : f.pathSubstep ≠ 0) (hn : f.nPaths ≠ 0) :
    ∃ m, BlackDiffusion.new fuel f t context draw = .ok m := by
  obtain ⟨last, fwd, surface, hl, hf, hv, hs⟩ := hm.seen
  have hlt : ∀ {i : Nat} {pt : Point}, obs[i]? = some pt → i < obs.length := fun {i pt} h => (List.getElem?_eq_some_iff.1 h).1
  obtain ⟨ks, hks⟩ := substepsOf_succeeds (fuel := fuel) (fwd := fwd) (surface := surface) hh (F := F) (w := w) (obs := obs) (o := 0)
    (fun i pt hi => by
      rw [Nat.zero_add]
      exact ⟨(hs i pt hi).1, (hs i pt hi).2.1, hw i (hlt hi)⟩)
  have hsub : calculateSubstepping fuel context.pricingContext obs [u] f.pathSubstep = .ok ks := by
    unfold calculateSubstepping
    rw [hl]
    dsimp only
    rw [substepsAll, hf]
    show (context.pricingContext.volSurface u last.1 (fun _ => .ok fwd) >>= _) = _
    rw [hv]
    show (substepsOf fuel fwd surface f.pathSubstep (.val 0) _ >>= _) = _
    rw [show substepsOf fuel fwd surface f.pathSubstep (.val 0) _ = _ from hks]
    rfl
  have hks' := substepping_val hm hsub
  have hone : obs ≠ [] := (substepping_ok hsub).1
  have hlen : 0 < obs.length := List.length_pos_iff.2 hone
  have hst : start (steps f.pathSubstep w) obs.length = ks.sum := by
    rw [← start_sum, hks']
    rw [List.length_map, List.length_range]
    apply start_congr
    intro i hi
    simp [List.getD_eq_getElem?_getD, hi]
  have hge : ∀ a, a ≤ start (steps f.pathSubstep w) a := by
    intro a
    induction a with
    | zero => exact le_rfl
    | succ a ih =>
      rw [start]
      have : 1 ≤ steps f.pathSubstep w a := le_max_left _ _
      omega
  have hsum : obs.length ≤ ks.sum := hst ▸ hge _
  have hpath := rows_fetch (n := steps f.pathSubstep w) (fun i => by unfold steps; omega) hm hw hks' f.nPaths draw
  obtain ⟨paths, hpath⟩ := hpath
  unfold BlackDiffusion.new
  dsimp only
  rw [he]
  show ∃ m, (calculateSubstepping fuel context.pricingContext obs [u] f.pathSubstep >>= _) = .ok m
  rw [hsub]
  show ∃ m, (fetchCorrelatedGaussians marketCorrelation [u] ks f.nPaths draw >>= _) = .ok m
  have hg : ∃ g, fetchCorrelatedGaussians marketCorrelation [u] ks f.nPaths draw = .ok g := by
    unfold fetchCorrelatedGaussians
    rw [if_neg (by
      rintro (h | h | h)
      · omega
      · cases h
      · exact hn h), correlationRoot_single]
    exact ⟨_, rfl⟩
  obtain ⟨g, hg⟩ := hg
  obtain ⟨_, rfl⟩ := gaussians_single hg
  rw [hg]
  show ∃ m, (fetchPaths fuel context.pricingContext obs [rows f.nPaths ks.sum draw] [u] ks >>= _) = .ok m
  have hf : fetchPaths fuel context.pricingContext obs [rows f.nPaths ks.sum draw] [u] ks = .ok [paths] := by
    unfold fetchPaths
    rw [if_neg (by
      rintro (h | h)
      · omega
      · cases h)]
    rw [each_iff]
    exact .cons hpath .nil
  rw [hf]
  exact ⟨_, rfl⟩

end QM.MonteCarlo
