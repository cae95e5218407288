import Verif.Interp.MixLemmas
import Verif.Interp.LineProps
import Verif.Curves.Props

/-!
# Property C102: curves follow their points
-/

namespace QM.Interp
open Spec

section
variable {K : Type} [Field K] [LinearOrder K] [IsStrictOrderedRing K]

/-- C102. The points of three linear interpolators have the same abscissae, and the ordinates of the third are a mixture of those of the
other two, plus a constant: if one can be made so can all, and the answers of the third to every query are the same mixture of the answers
of the other two (also outside the points, unless the constant is not zero and a side is extrapolated as zero). -/
theorem C102_linear {rows : List (K × K × K)} {left right : Extrap} {A : Linear K} (c d e : K)
    (hz : left = .zero ∨ right = .zero → e = 0)
    (h : Linear.new (plain (rows.map fun r => (r.1, r.2.1))) left right = .ok A) :
    ∃ B M, Linear.new (plain (rows.map fun r => (r.1, r.2.2))) left right = .ok B ∧
      Linear.new (plain (rows.map fun r => (r.1, c * r.2.1 + d * r.2.2 + e))) left right = .ok M ∧
      ∀ x, Blend c d e (A.interpolate x) (B.interpolate x) (M.interpolate x) := by
  obtain ⟨rfl, hv⟩ := new_ok h
  have hne : rows ≠ [] := by
    rintro rfl
    cases hv
  have hv' (f : K × K × K → K) : validateAbscissae (plain (tab rows f)) = .ok () := by
    rw [validate_tab f (fun r => r.2.1)]
    exact hv
  refine ⟨_, _, new_of_valid (hv' fun r => r.2.2), new_of_valid (hv' fun r => c * r.2.1 + d * r.2.2 + e), fun x => ?_⟩
  have hne' (f : K × K × K → K) : tab rows f ≠ [] := by simpa [tab] using hne
  cases x with
  | nan =>
    have (f : K × K × K → K) : (Linear.mk left right (plain (tab rows f))).interpolate .nan = .error .panic := by
      unfold Linear.interpolate linearInterpolateExtrapolate
      cases hp : plain (tab rows f) with
      | nil => exact absurd (List.map_eq_nil_iff.1 hp) (hne' f)
      | cons p ps => rfl
    have h1 := this fun r => r.2.1
    have h2 := this fun r => r.2.2
    have h3 := this fun r => c * r.2.1 + d * r.2.2 + e
    unfold tab at h1 h2 h3
    rw [h1, h2, h3]
    exact .error _
  | val x =>
    have h1 := interp_plain (hne' fun r => r.2.1) left right x
    have h2 := interp_plain (hne' fun r => r.2.2) left right x
    have h3 := interp_plain (hne' fun r => c * r.2.1 + d * r.2.2 + e) left right x
    have hb := blend_numbers c d e rows left right hz x
    rw [← h1, ← h2, ← h3] at hb
    exact hb

omit [IsStrictOrderedRing K] in
/-- C102 for cubic splines, which must be Natural at the left, or the weights of the mixture must add up to one (what is missing:
the left curvature of other splines is a constant, see `C102_spline_false`). -/
theorem C102_spline_partial {rows : List (K × K × K)} {left right : Extrap} {A : CubicSpline K} (c d e : K)
    (hz : left = .zero ∨ right = .zero → e = 0) (hc : left = .natural ∨ c + d = 1)
    (h : CubicSpline.new (plain (rows.map fun r => (r.1, r.2.1))) left right = .ok A) :
    ∃ B M, CubicSpline.new (plain (rows.map fun r => (r.1, r.2.2))) left right = .ok B ∧
      CubicSpline.new (plain (rows.map fun r => (r.1, c * r.2.1 + d * r.2.2 + e))) left right = .ok M ∧
      ∀ x, Blend c d e (A.interpolate x) (B.interpolate x) (M.interpolate x) := by
  obtain ⟨hv, hn, rfl⟩ := (spline_tab rows (fun r => r.2.1) left right A).1 h
  exact ⟨_, _, (spline_tab rows (fun r => r.2.2) left right _).2 ⟨hv, hn, rfl⟩,
    (spline_tab rows (fun r => c * r.2.1 + d * r.2.2 + e) left right _).2 ⟨hv, hn, rfl⟩, fun x => blend_spline c d e hn left right hz hc x⟩

end

/-- C102. Adding the same amount to the values of all the points of a spline adds it to every answer, whatever the choices at the ends,
except where they are zero. -/
theorem C102_spline_shift {ps : List (ℝ × ℝ)} {left right : Extrap} {A : CubicSpline ℝ} (b : ℝ) (hl : left ≠ .zero) (hr : right ≠ .zero)
    (h : CubicSpline.new (plain ps) left right = .ok A) :
    ∃ M, CubicSpline.new (plain (ps.map fun p => (p.1, p.2 + b))) left right = .ok M ∧
      ∀ x v, A.interpolate x = .ok (.val v) → M.interpolate x = .ok (.val (v + b)) := by
  have e1 : ps = (ps.map fun p => (p.1, p.2, (0 : ℝ))).map fun r => (r.1, r.2.1) := by
    rw [List.map_map]
    exact (List.map_id ps).symm
  rw [e1] at h
  obtain ⟨B, M, _, hM, hx⟩ := C102_spline_partial 1 0 b (by rintro (h | h) <;> contradiction) (.inr (by norm_num)) h
  refine ⟨M, ?_, fun x v hv => ?_⟩
  · rw [← hM, List.map_map]
    congr 2
    refine List.map_congr_left fun p _ => ?_
    simp
  · have := hx x
    rw [hv] at this
    generalize B.interpolate x = o, M.interpolate x = o' at this
    cases this
    simp

/-- C102 violated: a spline that is not Natural at the left does not follow its points. If all values are doubled, the answers between the
first two points fall short of twice what they were. -/
theorem C102_spline_false {a b : ℝ × ℝ} {r : List (ℝ × ℝ)} {left right : Extrap} {A M : CubicSpline ℝ} {x : ℝ} (hleft : left ≠ .natural)
    (hA : CubicSpline.new (plain (a :: b :: r)) left right = .ok A)
    (hM : CubicSpline.new (plain ((a :: b :: r).map fun p => (p.1, 2 * p.2))) left right = .ok M) (h1 : a.1 < x) (h2 : x < b.1) :
    ∃ v w, A.interpolate (.val x) = .ok (.val v) ∧ M.interpolate (.val x) = .ok (.val w) ∧ w < 2 * v := by
  set rows := (a :: b :: r).map fun p => (p.1, p.2, (0 : ℝ)) with hrows
  have e1 : a :: b :: r = rows.map fun r => (r.1, r.2.1) := by
    rw [hrows, List.map_map]
    exact (List.map_id _).symm
  have e2 : ((a :: b :: r).map fun p => (p.1, 2 * p.2)) = rows.map fun r => (r.1, 2 * r.2.1 + (-1) * r.2.2 + 0) := by
    rw [hrows, List.map_map]
    refine List.map_congr_left fun p _ => ?_
    simp
  rw [e1] at hA
  obtain ⟨B, M', hB, hM', hx⟩ := C102_spline_partial 2 (-1) 0 (fun _ => rfl) (.inr (by norm_num)) hA
  rw [e2, hM'] at hM
  have hMM : M' = M := Except.ok.inj hM
  have e3 : (rows.map fun r => (r.1, r.2.2)) = (a.1, (0 : ℝ)) :: (b.1, 0) :: r.map fun p => (p.1, 0) := by
    rw [hrows]
    simp
  rw [e3] at hB
  obtain ⟨y, hy, hpos, _⟩ := C18_constant_false (c := 0) (x := x) hB (by
    intro p hp
    simp only [List.mem_cons, List.mem_map] at hp
    rcases hp with rfl | rfl | ⟨_, _, rfl⟩ <;> rfl) hleft h1 h2
  have := hx (.val x)
  rw [hy] at this
  rw [hMM] at this
  generalize A.interpolate (.val x) = u, M.interpolate (.val x) = w at this
  cases this
  exact ⟨_, _, rfl, rfl, by linarith⟩

/-- C102: cases. Two interpolators of different shape and a mixture of them. -/
example : ∃ A B M, Linear.new (plain [((0 : ℚ), (1 : ℚ)), (1, 3), (3, 7)]) .flat .natural = .ok A ∧
    Linear.new (plain [((0 : ℚ), (2 : ℚ)), (1, 0), (3, 4)]) .flat .natural = .ok B ∧
    Linear.new (plain [((0 : ℚ), (14 : ℚ)), (1, 16), (3, 28)]) .flat .natural = .ok M ∧
    ∀ x, Blend 2 1 10 (A.interpolate x) (B.interpolate x) (M.interpolate x) := by
  obtain ⟨A, hA⟩ := (C16_accepted_iff [((0 : ℚ), (1 : ℚ)), (1, 3), (3, 7)] .flat .natural).2
    ⟨by simp, by rw [increasing_iff_chain]; norm_num⟩
  obtain ⟨B, M, hB, hM, hx⟩ := C102_linear (rows := [((0 : ℚ), (1 : ℚ), (2 : ℚ)), (1, 3, 0), (3, 7, 4)]) 2 1 10 (by simp) hA
  refine ⟨A, B, M, hA, hB, ?_, hx⟩
  rw [← hM]
  norm_num

/-- C102: cases. A spline and the same spline higher up, and one through values twice as large. -/
example : ∃ A M, CubicSpline.new (plain [((0 : ℝ), (1 : ℝ)), (1, 3), (3, 4)]) .natural .flat = .ok A ∧
    CubicSpline.new (plain [((0 : ℝ), (2 : ℝ)), (1, 6), (3, 8)]) .natural .flat = .ok M ∧
    ∀ x, Blend 2 0 0 (A.interpolate x) (A.interpolate x) (M.interpolate x) := by
  obtain ⟨A, hA⟩ := C18_construction_partial [((0 : ℝ), (1 : ℝ)), (1, 3), (3, 4)] .natural .flat (by simp) (by
    rw [increasing_iff_chain]; norm_num)
  obtain ⟨B, M, hB, hM, hx⟩ := C102_spline_partial (rows := [((0 : ℝ), (1 : ℝ), (1 : ℝ)), (1, 3, 3), (3, 4, 4)]) 2 0 0 (by simp) (.inl rfl) hA
  have e : B = A := by
    have : CubicSpline.new (plain [((0 : ℝ), (1 : ℝ)), (1, 3), (3, 4)]) .natural .flat = .ok B := hB
    rw [hA] at this
    exact (Except.ok.inj this).symm
  rw [e] at hx
  refine ⟨A, M, hA, ?_, hx⟩
  rw [← hM]
  norm_num

end QM.Interp

namespace QM.Curves
open QM.Interp Spec QM.Interp.Spec

/-- C102. Raising all the rates a curve is made from by the same amount gives the same discount factors as bumping the curve by that amount,
continuously compounded, unless a side is extrapolated as zero. -/
theorem C102_rates_partial {base : Int} {pillars : List (Int × ℝ)} {left right : Extrap} {c : RateCurve} (b : ℝ) (hl : left ≠ .zero)
    (hr : right ≠ .zero) (h : RateCurve.newAct365 base pillars left right = .ok c) :
    ∃ c', RateCurve.newAct365 base (pillars.map fun p => (p.1, p.2 + b)) left right = .ok c' ∧
      SameDiscounts c' ((BumpYield.flatContinuouslyCompounded b).apply c) := by
  obtain ⟨A, hA, rfl⟩ := newAct365_ok h
  set rows := pillars.map fun p => ((p.1 : ℝ), p.2, (0 : ℝ)) with hrows
  have e1 : (pillars.map fun p => (Num.val (p.1 : ℝ), p.2)) = plain (rows.map fun r => (r.1, r.2.1)) := by
    rw [hrows]
    unfold plain
    rw [List.map_map, List.map_map]
    rfl
  have e2 : ((pillars.map fun p => (p.1, p.2 + b)).map fun p => (Num.val (p.1 : ℝ), p.2)) =
      plain (rows.map fun r => (r.1, 1 * r.2.1 + 0 * r.2.2 + b)) := by
    rw [hrows]
    unfold plain
    rw [List.map_map, List.map_map, List.map_map]
    refine List.map_congr_left fun p _ => ?_
    simp
  rw [e1] at hA
  obtain ⟨B, M, _, hM, hx⟩ := C102_linear 1 0 b (by rintro (h | h) <;> contradiction) hA
  refine ⟨.act365 base M, ?_, ?_⟩
  · unfold RateCurve.newAct365
    rw [e2, hM]
    rfl
  · have hrt : ∀ date, (RateCurve.act365 base M).rt date = ((BumpYield.flatContinuouslyCompounded b).apply (.act365 base A)).rt date := by
      intro date
      simp only [BumpYield.apply, RateCurve.newContinuouslyCompoundedFlatBump, RateCurve.rt, RateCurve.rAndT]
      by_cases hd : date - base = 0
      · simp [hd, Bind.bind, Except.bind, pure, Except.pure, onNum]
      · simp only [hd, if_false]
        have := hx (.val (date : ℝ))
        generalize A.interpolate (.val (date : ℝ)) = u, B.interpolate (.val (date : ℝ)) = v, M.interpolate (.val (date : ℝ)) = w at this
        cases this <;> simp [Bind.bind, Except.bind, pure, Except.pure, onNum]
    intro x y
    unfold RateCurve.df
    rw [hrt, hrt]

/-- C102 violated where a side is extrapolated as zero: beyond the last point the raised curve still discounts by nothing, the bumped curve by
the bump. -/
theorem C102_zero_false {b : ℝ} (hb : b ≠ 0) : ∃ c c', RateCurve.newAct365 0 [(10, 0.05)] .zero .zero = .ok c ∧
    RateCurve.newAct365 0 ([(10, (0.05 : ℝ))].map fun p => (p.1, p.2 + b)) .zero .zero = .ok c' ∧
    ¬ SameDiscounts c' ((BumpYield.flatContinuouslyCompounded b).apply c) := by
  have hnew (r : ℝ) : Linear.new (plain [((10 : ℝ), r)]) .zero .zero = .ok ⟨.zero, .zero, [(.val 10, r)]⟩ := rfl
  have hq (r : ℝ) : (Linear.mk .zero .zero [(Num.val (10 : ℝ), r)]).interpolate (.val 20) = .ok (.val 0) :=
    (C17_single (hnew r)).2 (by norm_num)
  have hc (r : ℝ) : RateCurve.newAct365 0 [(10, r)] .zero .zero = .ok (.act365 0 ⟨.zero, .zero, [(.val 10, r)]⟩) := by
    unfold RateCurve.newAct365
    have := hnew r
    simp only [plain, List.map_cons, List.map_nil] at this
    simp only [List.map_cons, List.map_nil, Int.cast_ofNat, this]
    rfl
  refine ⟨_, _, hc _, hc _, fun h => ?_⟩
  have h1 := h 0 20
  have hr (r : ℝ) : (RateCurve.act365 0 ⟨.zero, .zero, [(.val 10, r)]⟩).rAndT 20 = .ok (.val 0, 20 / 365) := by
    simp only [RateCurve.rAndT, Int.cast_ofNat, hq]
    norm_num [Bind.bind, Except.bind, pure, Except.pure]
  have h0 (r : ℝ) : (RateCurve.act365 0 ⟨.zero, .zero, [(.val 10, r)]⟩).rAndT 0 = .ok (.val 0, 0) := by
    simp [RateCurve.rAndT]
  simp only [BumpYield.apply, RateCurve.newContinuouslyCompoundedFlatBump, RateCurve.df, RateCurve.rt] at h1
  rw [if_neg (by norm_num), if_neg (by norm_num)] at h1
  simp only [RateCurve.rAndT.eq_4, hr, h0, Bind.bind, Except.bind, pure, Except.pure, onNum] at h1
  simp only [Except.ok.injEq, Num.val.injEq, Real.exp_eq_exp] at h1
  apply hb
  linarith

/-- C102: a case. -/
example : ∃ c c', RateCurve.newAct365 0 [(10, 0.05), (20, 0.07)] .flat .natural = .ok c ∧
    RateCurve.newAct365 0 [(10, 0.06), (20, 0.08)] .flat .natural = .ok c' ∧
    SameDiscounts c' ((BumpYield.flatContinuouslyCompounded 0.01).apply c) := by
  obtain ⟨c, hc⟩ := (C68_built_iff 0 [(10, (0.05 : ℝ)), (20, 0.07)] .flat .natural).1.2
    ⟨by simp, by
      rintro (_ | ⟨a, _ | ⟨b, _ | ⟨_, l⟩⟩⟩) p q r h <;> simp at h
      rw [← h.1, ← h.2.1]
      norm_num⟩
  obtain ⟨c', hc', h⟩ := C102_rates_partial 0.01 (by simp) (by simp) hc
  refine ⟨c, c', hc, ?_, h⟩
  rw [← hc']
  norm_num

end QM.Curves
