import Verif.Interp.PropLemmas
import Mathlib.Data.Rat.Floor

/-!
# Properties C15 to C18: interpolation
-/

namespace QM.Interp
open Spec Set Filter Topology

section Linear
variable {K : Type} [Field K] [LinearOrder K] [IsStrictOrderedRing K]

/-- C15. At a pillar the interpolator returns the pillar's value, whatever the other points and the
extrapolation choices. -/
theorem C15_pillar {points : List (Num K × K)} {left right : Extrap} {L : Linear K} {x y : K}
    (h : Linear.new points left right = .ok L) (hm : (.val x, y) ∈ points) :
    L.interpolate (.val x) = .ok (.val y) := by
  obtain ⟨ps, rfl⟩ := points_plain h hm
  obtain ⟨hne, hs⟩ := sorted_of_new h
  rw [(new_ok h).1, interp_plain hne]
  have hm' : (x, y) ∈ ps := by
    unfold plain at hm
    rw [List.mem_map] at hm
    obtain ⟨⟨a, b⟩, hab, e⟩ := hm
    simp at e
    rw [← e.1, ← e.2]; exact hab
  obtain ⟨l, r, rfl⟩ := List.append_of_mem hm'
  exact numbers_pillar hs left right

/-- C15. Strictly between neighbouring pillars the interpolator returns the straight-line value. -/
theorem C15_between {before after : List (Num K × K)} {left right : Extrap} {L : Linear K}
    {xa ya xb yb x : K}
    (h : Linear.new (before ++ (.val xa, ya) :: (.val xb, yb) :: after) left right = .ok L)
    (h1 : xa < x) (h2 : x < xb) :
    L.interpolate (.val x) = .ok (.val (line (xa, ya) (xb, yb) x)) := by
  obtain ⟨ps, hps⟩ := points_plain (x := xa) (y := ya) h (by simp)
  have hps' := hps
  unfold plain at hps
  rw [eq_comm, List.map_eq_append_iff] at hps
  obtain ⟨l1, l2, rfl, e1, e2⟩ := hps
  cases l2 with
  | nil => simp at e2
  | cons p l3 =>
    cases l3 with
    | nil => simp at e2
    | cons q r =>
      simp only [List.map_cons, List.cons.injEq, Prod.mk.injEq, Num.val.injEq] at e2
      obtain ⟨⟨e3, e4⟩, ⟨e5, e6⟩, e7⟩ := e2
      rw [hps'] at h
      obtain ⟨hne, hs⟩ := sorted_of_new h
      rw [(new_ok h).1, interp_plain hne, numbers_between hs (by rw [e3]; exact h1) (by rw [e5]; exact h2)]
      rw [show p = (xa, ya) from Prod.ext e3 e4, show q = (xb, yb) from Prod.ext e5 e6]

/-- C15. The value between two pillars lies between the pillar values. -/
theorem C15_bounds {before after : List (Num K × K)} {left right : Extrap} {L : Linear K}
    {xa ya xb yb x v : K}
    (h : Linear.new (before ++ (.val xa, ya) :: (.val xb, yb) :: after) left right = .ok L)
    (h1 : xa < x) (h2 : x < xb) (hv : L.interpolate (.val x) = .ok (.val v)) :
    min ya yb ≤ v ∧ v ≤ max ya yb := by
  rw [C15_between h h1 h2] at hv
  have e : line (xa, ya) (xb, yb) x = v := by simpa using hv
  have hd : 0 < xb - xa := by linarith
  have e2 : lerp ya yb ((x - xa) / (xb - xa)) = v := by
    rw [← e]; unfold lerp line; field_simp; ring
  rw [← e2]
  apply lerp_between
  · exact div_nonneg (by linarith) hd.le
  · rw [div_le_one hd]; linarith

/-- C16. Among lists of ordinary points, exactly the non-empty ones with abscissae increasing by more
than the tolerance are accepted. -/
theorem C16_accepted_iff (ps : List (K × K)) (left right : Extrap) :
    (∃ L, Linear.new (plain ps) left right = .ok L) ↔ ps ≠ [] ∧ Increasing ps := by
  rw [increasing_iff_chain]
  constructor
  · rintro ⟨L, h⟩
    obtain ⟨_, hv⟩ := new_ok h
    rcases (validate_iff _).1 hv with ⟨y, hy⟩ | ⟨hne, qs, hq, hc⟩
    · cases ps with
      | nil => cases hy
      | cons p ps => simp [plain] at hy
    · have : ps = qs := lift_inj hq
      subst this
      exact ⟨by rintro rfl; exact hne rfl, hc⟩
  · rintro ⟨hne, hc⟩
    refine ⟨_, new_of_valid ((validate_iff _).2 (Or.inr ⟨?_, ps, rfl, hc⟩))⟩
    cases ps with
    | nil => exact absurd rfl hne
    | cons p ps => simp [plain]

/-- C16. A list that is refused is refused by an error, never by a panic. -/
theorem C16_refusal_is_error (points : List (Num K × K)) (left right : Extrap) :
    (∃ L, Linear.new points left right = .ok L) ∨ Linear.new points left right = .error .err := by
  have hgen : ∀ (a : Num K) (points : List (Num K × K)),
      validateFrom a points = .ok () ∨ validateFrom a points = .error .err := by
    intro a points
    induction points generalizing a with
    | nil => exact Or.inl rfl
    | cons p rest ih =>
      unfold validateFrom
      split
      · exact ih p.1
      · exact Or.inr rfl
  have hv : validateAbscissae points = .ok () ∨ validateAbscissae points = .error .err := by
    cases points with
    | nil => exact Or.inr rfl
    | cons p rest => exact hgen p.1 rest
  rcases hv with hv | hv
  · exact Or.inl ⟨_, new_of_valid hv⟩
  · right; unfold Linear.new; rw [hv]; rfl

/-- C16. Two or more points of which one has a NaN abscissa are refused. -/
theorem C16_nan_refused_partial {points : List (Num K × K)} {y : K} (left right : Extrap) (hm : (.nan, y) ∈ points)
    (hn : points.length ≥ 2) : Linear.new points left right = .error .err := by
  rcases C16_refusal_is_error points left right with ⟨L, h⟩ | h
  · obtain ⟨_, hv⟩ := new_ok h
    rcases (validate_iff _).1 hv with ⟨y, hy⟩ | ⟨hne, qs, hq, hc⟩
    · rw [hy] at hn; simp at hn
    · rw [hq] at hm; simp [lift] at hm
  · exact h

/-- C16. Once built, every query from the first to the last pillar succeeds with a number. -/
theorem C16_in_range_succeeds {ps : List (K × K)} {left right : Extrap} {L : Linear K} {x : K}
    (h : Linear.new (plain ps) left right = .ok L) (h1 : ∃ p ∈ ps, p.1 ≤ x) (h2 : ∃ p ∈ ps, x ≤ p.1) :
    ∃ v, L.interpolate (.val x) = .ok (.val v) := by
  obtain ⟨hne, hs⟩ := sorted_of_new h
  rw [(new_ok h).1, interp_plain hne]
  rcases locate h1 h2 hs with ⟨l, y, r, rfl⟩ | ⟨l, a, b, r, rfl, h3, h4⟩
  · exact ⟨y, numbers_pillar hs left right⟩
  · exact ⟨_, numbers_between hs h3 h4 left right⟩

/-- C17. Left of the first pillar the left choice decides. -/
theorem C17_left {p q : K × K} {r : List (K × K)} {left right : Extrap} {L : Linear K} {x : K}
    (h : Linear.new (plain (p :: q :: r)) left right = .ok L) (hx : x < p.1) :
    L.interpolate (.val x) = match extrapolated left p.2 (line p q x) with
      | some v => .ok v
      | none => .error .err := by
  obtain ⟨hne, hs⟩ := sorted_of_new h
  rw [(new_ok h).1, interp_plain hne]
  unfold interpolateNumbers
  simp only [search_left hx]
  have ha := between_apart (l := []) hs
  cases left <;> simp [Extrap.isNatural, Extrap.extrapolate, extrapolated, linear_line ha]

/-- C17. Right of the last pillar the right choice decides, as long as both sides or neither ask for
natural continuation. The full property drops `hboth`; `C17_right_false` shows it fails. -/
theorem C17_right_partial {p q : K × K} {l : List (K × K)} {left right : Extrap} {L : Linear K} {x : K}
    (h : Linear.new (plain (l ++ [p, q])) left right = .ok L) (hx : q.1 < x)
    (hboth : left = .natural ↔ right = .natural) :
    L.interpolate (.val x) = match extrapolated right q.2 (line p q x) with
      | some v => .ok v
      | none => .error .err := by
  obtain ⟨hne, hs⟩ := sorted_of_new h
  rw [(new_ok h).1, interp_plain hne]
  have hlt : ∀ c ∈ l ++ [p, q], c.1 < x := by
    have h' : l ++ [p, q] = (l ++ [p]) ++ [q] := by simp
    have := sorted_lt hs
    rw [h', List.pairwise_append] at this
    intro c hc
    rw [h', List.mem_append] at hc
    rcases hc with hc | hc
    · exact lt_trans (this.2.2 c hc q (by simp)) hx
    · simp at hc; rw [hc]; exact hx
  unfold interpolateNumbers
  have e2 : (l ++ [p, q]).length = l.length + 2 := by simp
  have e3 : l.length + 2 - 1 = l.length + 1 := rfl
  simp only [search_right hlt, e2, Nat.add_sub_cancel, e3, getD_mid, getD_mid']
  have ha := between_apart (r := []) hs
  cases right <;> cases left <;>
    simp_all [Extrap.isNatural, Extrap.extrapolate, extrapolated, linear_line ha]

/-- C17. With a single pillar each side's choice decides; natural continuation is not possible and is an
error. -/
theorem C17_single {p : K × K} {left right : Extrap} {L : Linear K} {x : K}
    (h : Linear.new (plain [p]) left right = .ok L) :
    (x < p.1 → L.interpolate (.val x) = match (if left = .natural then none else extrapolated left p.2 0) with
      | some v => .ok v
      | none => .error .err) ∧
    (p.1 < x → L.interpolate (.val x) = match (if right = .natural then none else extrapolated right p.2 0) with
      | some v => .ok v
      | none => .error .err) := by
  obtain ⟨hne, hs⟩ := sorted_of_new h
  rw [(new_ok h).1, interp_plain hne]
  constructor
  · intro hx
    unfold interpolateNumbers
    simp only [search_left hx]
    cases left <;> simp [Extrap.extrapolate, extrapolated]
  · intro hx
    unfold interpolateNumbers
    simp only [search_right (ps := [p]) (by simpa using hx)]
    cases right <;> simp [Extrap.extrapolate, extrapolated]

/-- C17, points that come with the query. On points that an interpolator accepts, the flyweight interpolator gives the values of that
interpolator, everywhere. -/
theorem C17_flyweight {points : List (Num K × K)} {left right : Extrap} {L : Linear K} (h : Linear.new points left right = .ok L) (x : Num K) :
    flyweightInterpolate left right x points = L.interpolate x := by
  rw [(new_ok h).1]
  rfl

end Linear

/-- C16, violated: a single point whose abscissa is NaN is accepted although the documentation
(`interpolation.rs:161-165`) promises that none is NaN, and every query of the result panics. -/
theorem C16_nan_pillar_false :
    ∃ L : Linear ℚ, Linear.new [(.nan, 1)] .flat .flat = .ok L ∧ ∀ x, L.interpolate x = .error .panic := by
  refine ⟨_, rfl, ?_⟩
  intro x
  cases x <;> rfl

/-- C17, violated: with left Flat and right Natural a query to the right is an error instead of a
continuation. -/
theorem C17_right_false :
    ∃ L : Linear ℚ, Linear.new [(.val 0, 1), (.val 1, 2)] .flat .natural = .ok L ∧
      L.interpolate (.val 2) = .error .err := by
  refine ⟨⟨.flat, .natural, [(.val 0, 1), (.val 1, 2)]⟩, by decide +kernel, by decide +kernel⟩

/-- C17, violated: with left Natural and right Flat a query to the right continues the line instead of
staying at the end value. -/
theorem C17_right_flat_false :
    ∃ L : Linear ℚ, Linear.new [(.val 0, 1), (.val 1, 2)] .natural .flat = .ok L ∧
      L.interpolate (.val 2) = .ok (.val 3) := by
  refine ⟨⟨.natural, .flat, [(.val 0, 1), (.val 1, 2)]⟩, by decide +kernel, by decide +kernel⟩

/-- C15, C16, C17: a concrete list meets the hypotheses. -/
example : Linear.new (K := ℚ) [(.val 0, 1), (.val 1, 2), (.val 3, 0)] .flat .zero
    = .ok ⟨.flat, .zero, [(.val 0, 1), (.val 1, 2), (.val 3, 0)]⟩ := by decide +kernel

example : (Linear.mk (K := ℚ) .flat .zero [(.val 0, 1), (.val 1, 2), (.val 3, 0)]).interpolate (.val 2)
    = .ok (.val 1) := by decide +kernel

example : (Linear.mk (K := ℚ) .flat .zero [(.val 0, 1), (.val 1, 2), (.val 3, 0)]).interpolate (.val 4)
    = .ok (.val 0) := by decide +kernel

/-! ## Splines -/

section Spline

/-- C18. Construction accepts every validated list of at least two points. The full property covers a
single point too; `C18_single_point_false` shows it panics. -/
theorem C18_construction_partial (ps : List (ℝ × ℝ)) (left right : Extrap) (hn : 2 ≤ ps.length) (hi : Increasing ps) :
    ∃ s, CubicSpline.new (plain ps) left right = .ok s := by
  have hv : validateAbscissae (plain ps) = .ok () := by
    refine (validate_iff _).2 (Or.inr ⟨?_, ps, rfl, (increasing_iff_chain ps).1 hi⟩)
    cases ps with
    | nil => simp at hn
    | cons p ps => simp [plain]
  unfold CubicSpline.new
  rw [hv]
  simp only [Bind.bind, Except.bind]
  rw [if_pos (by simp [plain]; omega)]
  exact ⟨_, rfl⟩

/-- C18. Lists that are empty or out of order are refused with an error. -/
theorem C18_refused (ps : List (ℝ × ℝ)) (left right : Extrap) (hi : ps = [] ∨ ¬ Increasing ps) :
    CubicSpline.new (plain ps) left right = .error .err := by
  have h := C16_accepted_iff ps left right
  have hno : ¬ ∃ L, Linear.new (plain ps) left right = .ok L := by
    rw [h]; rintro ⟨h1, h2⟩
    rcases hi with hi | hi
    · exact h1 hi
    · exact hi h2
  have hl := (C16_refusal_is_error (plain ps) left right).resolve_left hno
  have hv : validateAbscissae (plain ps) = .error .err := by
    unfold Linear.new at hl
    cases hv : validateAbscissae (plain ps) with
    | ok u => rw [hv] at hl; cases hl
    | error e => rw [hv] at hl; cases hl; rfl
  unfold CubicSpline.new; rw [hv]; rfl

/-- C18. The curve passes through every pillar. -/
theorem C18_pillar {ps : List (ℝ × ℝ)} {left right : Extrap} {s : CubicSpline ℝ} {p : ℝ × ℝ}
    (h : CubicSpline.new (plain ps) left right = .ok s) (hp : p ∈ ps) :
    s.interpolate (.val p.1) = .ok (.val p.2) := by
  obtain ⟨hs, hn, rfl⟩ := spline_new h
  obtain ⟨l, r, rfl⟩ := List.append_of_mem hp
  exact curve_pillar (x := p.1) (y := p.2) hs _

/-- C18. Every query from the first to the last pillar succeeds. -/
theorem C18_in_range_succeeds {ps : List (ℝ × ℝ)} {left right : Extrap} {s : CubicSpline ℝ} {x : ℝ}
    (h : CubicSpline.new (plain ps) left right = .ok s) (h1 : ∃ p ∈ ps, p.1 ≤ x) (h2 : ∃ p ∈ ps, x ≤ p.1) :
    ∃ v, s.interpolate (.val x) = .ok (.val v) := by
  obtain ⟨hs, hn, rfl⟩ := spline_new h
  rcases locate h1 h2 hs with ⟨l, y, r, rfl⟩ | ⟨l, a, b, r, rfl, h3, h4⟩
  · exact ⟨y, curve_pillar hs _⟩
  · exact ⟨_, interp_between hs h3 h4 _⟩

/-- C18. Strictly inside the range the curve is twice differentiable (so value, slope and curvature have no
jumps or kinks), when the left choice is Natural. The full property covers every left choice;
`C18_left_end_false` shows that it fails for the others. -/
theorem C18_smooth_partial {ps : List (ℝ × ℝ)} {right : Extrap} {s : CubicSpline ℝ} {x : ℝ}
    (h : CubicSpline.new (plain ps) .natural right = .ok s) (h1 : ∃ p ∈ ps, p.1 < x) (h2 : ∃ p ∈ ps, x < p.1) :
    DifferentiableAt ℝ (curve s) x ∧ DifferentiableAt ℝ (deriv (curve s)) x := by
  have hs := (spline_new h).1
  obtain ⟨p, hp, hpx⟩ := h1
  obtain ⟨q, hq, hxq⟩ := h2
  rcases locate ⟨p, hp, hpx.le⟩ ⟨q, hq, hxq.le⟩ hs with ⟨l, y, r, rfl⟩ | ⟨l, a, b, r, rfl, h3, h4⟩
  · have hsl := sorted_lt hs
    rw [List.pairwise_append, List.pairwise_cons] at hsl
    rcases List.eq_nil_or_concat l with rfl | ⟨l', a, rfl⟩
    · exfalso
      simp at hp
      rcases hp with rfl | hp
      · exact lt_irrefl _ hpx
      · exact lt_asymm hpx (hsl.2.1.1 p hp)
    · cases r with
      | nil =>
        exfalso
        rw [List.mem_append] at hq
        rcases hq with hq | hq
        · exact lt_asymm hxq (hsl.2.2 q hq (x, y) (by simp))
        · simp at hq; rw [hq] at hxq; exact lt_irrefl _ hxq
      | cons c r' =>
        have e : l' ++ [a] ++ (x, y) :: c :: r' = l' ++ a :: (x, y) :: c :: r' := by simp
        rw [List.concat_eq_append, e] at h
        obtain ⟨⟨m, hm⟩, hd⟩ := pillar_deriv h (Or.inl rfl)
        exact ⟨hm.differentiableAt, hd.differentiableAt⟩
  · obtain ⟨hm, hd⟩ := segment_deriv h x h3 h4
    exact ⟨hm.differentiableAt, hd.differentiableAt⟩

/-- C18. Whatever the left choice, the curve is twice differentiable strictly to the right of the second
pillar and left of the last one. -/
theorem C18_smooth_later {p q : ℝ × ℝ} {ps : List (ℝ × ℝ)} {left right : Extrap} {s : CubicSpline ℝ} {x : ℝ}
    (h : CubicSpline.new (plain (p :: q :: ps)) left right = .ok s) (h1 : q.1 < x) (h2 : ∃ p ∈ ps, x < p.1) :
    DifferentiableAt ℝ (curve s) x ∧ DifferentiableAt ℝ (deriv (curve s)) x := by
  have hs := (spline_new h).1
  obtain ⟨c, hc, hxc⟩ := h2
  have hs' : Sorted (q :: ps) := by
    unfold Sorted at hs ⊢
    rw [List.pairwise_cons] at hs
    exact hs.2
  rcases locate ⟨q, by simp, h1.le⟩ ⟨c, by simp [hc], hxc.le⟩ hs' with ⟨l, y, r, e⟩ | ⟨l, a, b, r, e, h3, h4⟩
  · have hsl := sorted_lt hs'
    rw [e] at h hsl
    rw [List.pairwise_append, List.pairwise_cons] at hsl
    rcases List.eq_nil_or_concat l with rfl | ⟨l', a, rfl⟩
    · exfalso
      simp at e
      rw [e.1] at h1
      exact lt_irrefl _ h1
    · cases r with
      | nil =>
        exfalso
        have hc' : c ∈ l'.concat a ++ [(x, y)] := by rw [← e]; simp [hc]
        rw [List.mem_append] at hc'
        rcases hc' with hq | hq
        · exact lt_asymm hxc (hsl.2.2 c hq (x, y) (by simp))
        · simp at hq; rw [hq] at hxc; exact lt_irrefl _ hxc
      | cons c r' =>
        have e : p :: (l' ++ [a] ++ (x, y) :: c :: r') = (p :: l') ++ a :: (x, y) :: c :: r' := by simp
        rw [List.concat_eq_append, e] at h
        obtain ⟨⟨m, hm⟩, hd⟩ := pillar_deriv h (Or.inr (by simp))
        exact ⟨hm.differentiableAt, hd.differentiableAt⟩
  · rw [e] at h
    obtain ⟨hm, hd⟩ := segment_deriv (l := p :: l) h x h3 h4
    exact ⟨hm.differentiableAt, hd.differentiableAt⟩

/-- C18. Natural on the right: the curvature vanishes at the last pillar. -/
theorem C18_right_natural {l : List (ℝ × ℝ)} {a b : ℝ × ℝ} {left : Extrap} {s : CubicSpline ℝ}
    (h : CubicSpline.new (plain (l ++ [a, b])) left .natural = .ok s) :
    Tendsto (deriv (deriv (curve s))) (𝓝[<] b.1) (𝓝 0) := by
  obtain ⟨hab, _⟩ := segment h
  have hd := segment_deriv h
  have hz : zAt (l ++ [a, b]) left .natural (l.length + 1) = 0 := by
    have := second_last_natural (xy := fun i => (l ++ [a, b]).getD i (0, 0)) (n := (l ++ [a, b]).length) left.isNatural (by simp)
    have e : (l ++ [a, b]).length - 1 = l.length + 1 := by simp
    rw [e] at this
    exact this
  have ht := segCurv_tendsto (a := a) (b := b) (z0 := zAt (l ++ [a, b]) left .natural l.length)
    (z1 := zAt (l ++ [a, b]) left .natural (l.length + 1)) b.1 (Iio b.1)
  rw [segCurv_hi hab, hz] at ht
  refine ht.congr' ?_
  filter_upwards [Ioo_mem_nhdsLT hab] with t htm
  rw [(hd t htm.1 htm.2).2.deriv, hz]

/-- C18. Natural on the left: the curvature vanishes at the first pillar. -/
theorem C18_left_natural {r : List (ℝ × ℝ)} {a b : ℝ × ℝ} {right : Extrap} {s : CubicSpline ℝ}
    (h : CubicSpline.new (plain (a :: b :: r)) .natural right = .ok s) :
    Tendsto (deriv (deriv (curve s))) (𝓝[>] a.1) (𝓝 0) := by
  obtain ⟨hab, _⟩ := segment (l := []) h
  have hd := segment_deriv (l := []) h
  have hz : zAt (a :: b :: r) .natural right 0 = 0 := by
    unfold zAt secondDeriv
    rw [if_pos rfl]
    simp [decompose, Extrap.isNatural]
  have ht := segCurv_tendsto (a := a) (b := b) (z0 := zAt (a :: b :: r) .natural right 0)
    (z1 := zAt (a :: b :: r) .natural right (0 + 1)) a.1 (Ioi a.1)
  rw [segCurv_lo hab, hz] at ht
  refine ht.congr' ?_
  filter_upwards [Ioo_mem_nhdsGT hab] with t htm
  have := (hd t htm.1 htm.2).2.deriv
  simp only [List.nil_append, List.length_nil, hz] at this
  rw [this]

/-- C18. Not Natural on the right: the curve arrives at the last pillar with slope zero, unless there are
just two points and the left choice is not Natural either (then `C18_left_end_false`). -/
theorem C18_right_clamped_partial {l : List (ℝ × ℝ)} {a b : ℝ × ℝ} {left right : Extrap} {s : CubicSpline ℝ}
    (h : CubicSpline.new (plain (l ++ [a, b])) left right = .ok s) (hr : right ≠ .natural)
    (hl : l ≠ [] ∨ left = .natural) :
    HasDerivWithinAt (curve s) 0 (Iic b.1) b.1 := by
  obtain ⟨hab, hc⟩ := segment h
  have hs := (spline_new h).1
  have hrn : right.isNatural = false := by cases right <;> simp_all [Extrap.isNatural]
  have hk := second_last_clamped (xy := fun i => (l ++ [a, b]).getD i (0, 0)) (n := (l ++ [a, b]).length)
    (pillar_mono hs) left.isNatural (by simp) (by
      rcases hl with hl | hl
      · left
        have : 0 < l.length := List.length_pos_iff.2 hl
        simp; omega
      · right; rw [hl]; rfl)
  have e1 : (l ++ [a, b]).length - 1 = l.length + 1 := by simp
  have e2 : (l ++ [a, b]).length - 2 = l.length := by simp
  rw [e1, e2, ← hrn] at hk
  simp only [getD_mid, getD_mid'] at hk
  have hsl : segSlope a b (zAt (l ++ [a, b]) left right l.length) (zAt (l ++ [a, b]) left right (l.length + 1)) b.1 = 0 := by
    rw [segSlope_hi hab]; exact hk
  have hg := seg_hasDeriv hab (zAt (l ++ [a, b]) left right l.length) (zAt (l ++ [a, b]) left right (l.length + 1)) b.1
  rw [hsl] at hg
  refine hg.hasDerivWithinAt.congr_of_eventuallyEq ?_ (hc b.1 hab.le le_rfl)
  filter_upwards [Ioc_mem_nhdsLE hab] with t ht using hc t ht.1.le ht.2

/-- C17 for splines: left of the first pillar the left choice decides. Natural means that the cubic of the
first segment continues. -/
theorem C17_spline_left {a b : ℝ × ℝ} {r : List (ℝ × ℝ)} {left right : Extrap} {s : CubicSpline ℝ}
    (h : CubicSpline.new (plain (a :: b :: r)) left right = .ok s) :
    ∃ c0 c1 c2 c3 : ℝ,
      (∀ x, a.1 ≤ x → x ≤ b.1 → curve s x = c0 + c1 * x + c2 * x ^ 2 + c3 * x ^ 3) ∧
      (∀ x, x < a.1 → s.interpolate (.val x) =
        match extrapolated left a.2 (c0 + c1 * x + c2 * x ^ 2 + c3 * x ^ 3) with
        | some v => .ok v
        | none => .error .err) := by
  obtain ⟨hab, hc⟩ := segment (l := []) h
  obtain ⟨hs, hn, rfl⟩ := spline_new h
  have hne : b.1 - a.1 ≠ 0 := ne_of_gt (sub_pos.2 hab)
  have hcub : ∀ z0 z1 : ℝ, ∃ c0 c1 c2 c3 : ℝ, ∀ x, seg a b z0 z1 x = c0 + c1 * x + c2 * x ^ 2 + c3 * x ^ 3 := by
    intro z0 z1
    unfold seg
    generalize b.1 - a.1 = w at hne
    refine ⟨b.1/w*a.2 - a.1/w*b.2 + ((b.1^3/w^3 - b.1/w)*z0 + (-a.1^3/w^3 + a.1/w)*z1)*(w*w)/6,
      -1/w*a.2 + b.2/w + ((-3*b.1^2/w^3 + 1/w)*z0 + (3*a.1^2/w^3 - 1/w)*z1)*(w*w)/6,
      ((3*b.1/w^3)*z0 + (-3*a.1/w^3)*z1)*(w*w)/6, ((-1/w^3)*z0 + (1/w^3)*z1)*(w*w)/6, ?_⟩
    intro x
    field_simp
    ring
  obtain ⟨c0, c1, c2, c3, hq⟩ := hcub (zAt (a :: b :: r) left right 0) (zAt (a :: b :: r) left right 1)
  refine ⟨c0, c1, c2, c3, ?_, ?_⟩
  · intro x h1 h2
    rw [← hq]; exact hc x h1 h2
  · intro x hx
    rw [← hq]
    unfold CubicSpline.interpolate
    simp only [search_left hx]
    rw [getD_second _ _ _ (by simp), getD_second _ _ _ (by simp)]
    have hsp : splint a b (zAt (a :: b :: r) left right 0) (zAt (a :: b :: r) left right 1) x
        = .ok (.val (seg a b (zAt (a :: b :: r) left right 0) (zAt (a :: b :: r) left right 1) x)) := by
      unfold splint
      simp only
      rw [if_neg hne]
      rfl
    cases left <;> simp [Extrap.isNatural, Extrap.extrapolate, extrapolated, hsp]

/-- C17 for splines, right side, as long as both sides or neither ask for natural continuation; the full
property fails in the same way as for lines. -/
theorem C17_spline_right_partial {a b : ℝ × ℝ} {l : List (ℝ × ℝ)} {left right : Extrap} {s : CubicSpline ℝ}
    (h : CubicSpline.new (plain (l ++ [a, b])) left right = .ok s) (hboth : left = .natural ↔ right = .natural) :
    ∃ c0 c1 c2 c3 : ℝ,
      (∀ x, a.1 ≤ x → x ≤ b.1 → curve s x = c0 + c1 * x + c2 * x ^ 2 + c3 * x ^ 3) ∧
      (∀ x, b.1 < x → s.interpolate (.val x) =
        match extrapolated right b.2 (c0 + c1 * x + c2 * x ^ 2 + c3 * x ^ 3) with
        | some v => .ok v
        | none => .error .err) := by
  obtain ⟨hab, hc⟩ := segment h
  obtain ⟨hs, hn, rfl⟩ := spline_new h
  have hne : b.1 - a.1 ≠ 0 := ne_of_gt (sub_pos.2 hab)
  have hcub : ∀ z0 z1 : ℝ, ∃ c0 c1 c2 c3 : ℝ, ∀ x, seg a b z0 z1 x = c0 + c1 * x + c2 * x ^ 2 + c3 * x ^ 3 := by
    intro z0 z1
    unfold seg
    generalize b.1 - a.1 = w at hne
    refine ⟨b.1/w*a.2 - a.1/w*b.2 + ((b.1^3/w^3 - b.1/w)*z0 + (-a.1^3/w^3 + a.1/w)*z1)*(w*w)/6,
      -1/w*a.2 + b.2/w + ((-3*b.1^2/w^3 + 1/w)*z0 + (3*a.1^2/w^3 - 1/w)*z1)*(w*w)/6,
      ((3*b.1/w^3)*z0 + (-3*a.1/w^3)*z1)*(w*w)/6, ((-1/w^3)*z0 + (1/w^3)*z1)*(w*w)/6, ?_⟩
    intro x
    field_simp
    ring
  obtain ⟨c0, c1, c2, c3, hq⟩ := hcub (zAt (l ++ [a, b]) left right l.length) (zAt (l ++ [a, b]) left right (l.length + 1))
  refine ⟨c0, c1, c2, c3, ?_, ?_⟩
  · intro x h1 h2
    rw [← hq]; exact hc x h1 h2
  · intro x hx
    rw [← hq]
    have hlt : ∀ c ∈ l ++ [a, b], c.1 < x := by
      have h' : l ++ [a, b] = (l ++ [a]) ++ [b] := by simp
      have := sorted_lt hs
      rw [h', List.pairwise_append] at this
      intro c hc
      rw [h', List.mem_append] at hc
      rcases hc with hc | hc
      · exact lt_trans (this.2.2 c hc b (by simp)) hx
      · simp at hc; rw [hc]; exact hx
    unfold CubicSpline.interpolate
    have e2 : (l ++ [a, b]).length = l.length + 2 := by simp
    have e3 : l.length + 2 - 1 = l.length + 1 := rfl
    have g1 := getD_second (l ++ [a, b]) left right (i := l.length) (by simp)
    have g2 := getD_second (l ++ [a, b]) left right (i := l.length + 1) (by simp)
    rw [e2] at g1 g2
    simp only [search_right hlt, e2, Nat.add_sub_cancel, e3, getD_mid, getD_mid', g1, g2]
    have hsp : splint a b (zAt (l ++ [a, b]) left right l.length) (zAt (l ++ [a, b]) left right (l.length + 1)) x
        = .ok (.val (seg a b (zAt (l ++ [a, b]) left right l.length) (zAt (l ++ [a, b]) left right (l.length + 1)) x)) := by
      unfold splint
      simp only
      rw [if_neg hne]
      rfl
    cases right <;> cases left <;>
      simp_all [Extrap.isNatural, Extrap.extrapolate, extrapolated]

end Spline

/-- C18, violated: one valid point makes the construction panic (the assertion of `nr_spline`). -/
theorem C18_single_point_false :
    (∃ L : Linear ℚ, Linear.new [(.val 0, 1)] .flat .flat = .ok L) ∧
    CubicSpline.new (K := ℚ) [(.val 0, 1)] .flat .flat = .error .panic := ⟨⟨_, rfl⟩, rfl⟩

/-- C18, violated: with Flat on the left the curve neither leaves the first pillar with slope zero nor has a
continuous slope at the second (the back substitution skips index zero). -/
theorem C18_left_end_false :
    ∃ s : CubicSpline ℝ, CubicSpline.new (plain [(0, 0), (1, 1), (2, 0)]) .flat .flat = .ok s ∧
      HasDerivWithinAt (curve s) (13 / 6) (Ici 0) 0 ∧
      HasDerivWithinAt (curve s) (-13 / 12) (Iic 1) 1 ∧ HasDerivWithinAt (curve s) 0 (Ici 1) 1 := by
  obtain ⟨s, h⟩ := C18_construction_partial [((0 : ℝ), (0 : ℝ)), (1, 1), (2, 0)] .flat .flat (by simp) (by
    rw [increasing_iff_chain]; norm_num)
  have z0 : zAt [((0 : ℝ), (0 : ℝ)), (1, 1), (2, 0)] .flat .flat 0 = -(1/2) := by
    norm_num [zAt, secondDeriv, decompose, Extrap.isNatural]
  have z1 : zAt [((0 : ℝ), (0 : ℝ)), (1, 1), (2, 0)] .flat .flat 1 = -6 := by
    norm_num [zAt, secondDeriv, decompose, Extrap.isNatural, backSub, lastSecond]
  have z2 : zAt [((0 : ℝ), (0 : ℝ)), (1, 1), (2, 0)] .flat .flat 2 = 6 := by
    norm_num [zAt, secondDeriv, decompose, Extrap.isNatural, backSub, lastSecond]
  have s1 := segment_ends (l := []) (a := (0, 0)) (b := (1, 1)) (r := [(2, 0)]) h
  have s2 := segment_ends (l := [(0, 0)]) (a := (1, 1)) (b := (2, 0)) (r := []) h
  simp only [List.nil_append, List.cons_append, List.length_nil, List.length_cons, zero_add, z0, z1] at s1
  simp only [List.nil_append, List.cons_append, List.length_nil, List.length_cons, zero_add, Nat.reduceAdd, z1, z2] at s2
  refine ⟨s, h, ?_, ?_, ?_⟩
  · refine s1.1.congr_deriv ?_
    norm_num [segSlope]
  · refine s1.2.congr_deriv ?_
    norm_num [segSlope]
  · refine s2.1.congr_deriv ?_
    norm_num [segSlope]

/-- C17 for splines, violated on the right as for lines. -/
theorem C17_spline_right_false :
    ∃ s : CubicSpline ℚ, CubicSpline.new [(.val 0, 1), (.val 1, 2)] .flat .natural = .ok s ∧
      s.interpolate (.val 2) = .error .err := by
  refine ⟨⟨.flat, .natural, [(0, 1), (1, 2)], [-1 / 2, 0]⟩, by decide +kernel, by decide +kernel⟩

/-- C18: a concrete list meets the hypotheses. -/
example : Increasing [((0 : ℝ), (0 : ℝ)), (1, 1), (2, 0), (5, 7)] := by
  rw [increasing_iff_chain]; norm_num

end QM.Interp
