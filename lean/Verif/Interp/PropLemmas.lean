import Verif.Interp.SplineLemmas

/-!
# Helper lemmas used by the interpolation properties
-/

namespace QM.Interp
open Spec Set Filter Topology

section Linear
variable {K : Type} [Field K] [LinearOrder K] [IsStrictOrderedRing K]

theorem new_ok {points : List (Num K × K)} {left right : Extrap} {L : Linear K}
    (h : Linear.new points left right = .ok L) :
    L = ⟨left, right, points⟩ ∧ validateAbscissae points = .ok () := by
  unfold Linear.new at h
  cases hv : validateAbscissae points with
  | error e => rw [hv] at h; cases h
  | ok u => rw [hv] at h; cases h; exact ⟨rfl, rfl⟩

theorem new_of_valid {points : List (Num K × K)} {left right : Extrap}
    (h : validateAbscissae points = .ok ()) : Linear.new points left right = .ok ⟨left, right, points⟩ := by
  unfold Linear.new; rw [h]; rfl

theorem lift_inj {ps qs : List (K × K)} (h : lift ps = lift qs) : ps = qs := by
  have h1 := numbers_lift ps
  rw [h, numbers_lift] at h1
  exact (Option.some.inj h1).symm

theorem sorted_of_new {ps : List (K × K)} {left right : Extrap} {L : Linear K}
    (h : Linear.new (plain ps) left right = .ok L) : ps ≠ [] ∧ Sorted ps := by
  obtain ⟨_, hv⟩ := new_ok h
  rcases (validate_iff _).1 hv with ⟨y, hy⟩ | ⟨hne, qs, hq, hc⟩
  · cases ps with
    | nil => cases hy
    | cons p ps => simp [plain] at hy
  · have : ps = qs := lift_inj hq
    subst this
    exact ⟨by rintro rfl; exact hne rfl, sorted_of_chain hc⟩

theorem increasing_iff_chain (ps : List (K × K)) :
    Increasing ps ↔ List.IsChain (fun s t : K => t - s > 1 / 10 ^ 12) (ps.map Prod.fst) := by
  induction ps with
  | nil =>
    simp only [List.map_nil, List.isChain_nil, iff_true]
    intro l p q r h
    exact absurd h (by simp)
  | cons p ps ih =>
    cases ps with
    | nil =>
      simp only [List.map_cons, List.map_nil, List.isChain_singleton, iff_true]
      intro l a b r h
      have := congrArg List.length h
      simp at this
      omega
    | cons q qs =>
      rw [List.map_cons, List.map_cons, List.isChain_cons_cons, ← List.map_cons, ← ih]
      constructor
      · intro h
        refine ⟨by have := h [] p q qs rfl; linarith, ?_⟩
        intro l a b r e
        exact h (p :: l) a b r (by rw [e]; rfl)
      · rintro ⟨h1, h2⟩ l a b r e
        cases l with
        | nil =>
          simp only [List.nil_append, List.cons.injEq] at e
          rw [← e.1, ← e.2.1]; linarith
        | cons c cs =>
          simp only [List.cons_append, List.cons.injEq] at e
          exact h2 cs a b r e.2

/-- Interpolation of ordinary points. -/
theorem interp_plain {ps : List (K × K)} (hne : ps ≠ []) (left right : Extrap) (x : K) :
    (Linear.mk left right (plain ps)).interpolate (.val x) = interpolateNumbers x ps left right := by
  unfold Linear.interpolate linearInterpolateExtrapolate
  have : numbers (plain ps) = some ps := numbers_lift ps
  cases hps : plain ps with
  | nil => cases ps with
    | nil => exact absurd rfl hne
    | cons p ps => simp [plain] at hps
  | cons p' ps' =>
    rw [hps] at this
    simp only [this]

theorem points_plain {points : List (Num K × K)} {left right : Extrap} {L : Linear K} {x y : K}
    (h : Linear.new points left right = .ok L) (hm : (.val x, y) ∈ points) : ∃ ps, points = plain ps := by
  obtain ⟨_, hv⟩ := new_ok h
  rcases (validate_iff _).1 hv with ⟨y', hy⟩ | ⟨hne, qs, hq, hc⟩
  · rw [hy] at hm; simp at hm
  · exact ⟨qs, hq⟩

theorem linear_line {p q : K × K} (h : q.1 - p.1 > 1 / 10 ^ 12) (x : K) :
    linearInterpolate p q x = .ok (.val (line p q x)) := by
  have hpos : (0 : K) < 1 / 10 ^ 12 := by positivity
  have hd : 0 < q.1 - p.1 := lt_trans hpos h
  unfold linearInterpolate
  simp only
  rw [if_neg (by rw [abs_of_pos hd]; exact not_lt.2 h.le)]
  congr 2
  unfold lerp line
  field_simp
  ring

theorem between_apart {l r : List (K × K)} {p q : K × K} (hs : Sorted (l ++ p :: q :: r)) :
    q.1 - p.1 > 1 / 10 ^ 12 := by
  unfold Sorted at hs
  rw [List.pairwise_append] at hs
  have := hs.2.1
  rw [List.pairwise_cons] at this
  exact this.1 q (by simp)

theorem numbers_between {l r : List (K × K)} {p q : K × K} {x : K} (hs : Sorted (l ++ p :: q :: r))
    (h1 : p.1 < x) (h2 : x < q.1) (left right : Extrap) :
    interpolateNumbers x (l ++ p :: q :: r) left right = .ok (.val (line p q x)) := by
  unfold interpolateNumbers
  simp only [search_between hs h1 h2, getD_mid', Nat.add_sub_cancel, getD_mid]
  rw [if_neg (by simp), if_neg (by simp), if_neg (by simp), if_neg (by simp)]
  exact linear_line (between_apart hs) x

theorem numbers_pillar {l r : List (K × K)} {x y : K} (hs : Sorted (l ++ (x, y) :: r)) (left right : Extrap) :
    interpolateNumbers x (l ++ (x, y) :: r) left right = .ok (.val y) := by
  unfold interpolateNumbers
  simp only [search_pillar hs, getD_mid]
  rw [if_neg (by simp)]
  simp

end Linear

/-- Facts about one segment of a spline. -/
theorem segment {l r : List (ℝ × ℝ)} {a b : ℝ × ℝ} {left right : Extrap} {s : CubicSpline ℝ}
    (h : CubicSpline.new (plain (l ++ a :: b :: r)) left right = .ok s) :
    a.1 < b.1 ∧ ∀ x, a.1 ≤ x → x ≤ b.1 → curve s x =
      seg a b (zAt (l ++ a :: b :: r) left right l.length) (zAt (l ++ a :: b :: r) left right (l.length + 1)) x := by
  obtain ⟨hs, hn, rfl⟩ := spline_new h
  have hab : a.1 < b.1 := by
    have := between_apart hs
    have hpos : (0 : ℝ) < 1 / 10 ^ 12 := by positivity
    linarith
  refine ⟨hab, ?_⟩
  intro x h1 h2
  rw [curve_seg hs _ h1 h2, getD_second _ _ _ (by simp), getD_second _ _ _ (by simp)]

/-- Inside a segment: slope and curvature. -/
theorem segment_deriv {l r : List (ℝ × ℝ)} {a b : ℝ × ℝ} {left right : Extrap} {s : CubicSpline ℝ}
    (h : CubicSpline.new (plain (l ++ a :: b :: r)) left right = .ok s) (x : ℝ) (h1 : a.1 < x) (h2 : x < b.1) :
    HasDerivAt (curve s) (segSlope a b (zAt (l ++ a :: b :: r) left right l.length)
      (zAt (l ++ a :: b :: r) left right (l.length + 1)) x) x ∧
    HasDerivAt (deriv (curve s)) (segCurv a b (zAt (l ++ a :: b :: r) left right l.length)
      (zAt (l ++ a :: b :: r) left right (l.length + 1)) x) x := by
  obtain ⟨hab, hc⟩ := segment h
  have hd : ∀ x, a.1 < x → x < b.1 → HasDerivAt (curve s) (segSlope a b (zAt (l ++ a :: b :: r) left right l.length)
      (zAt (l ++ a :: b :: r) left right (l.length + 1)) x) x := by
    intro x h1 h2
    exact hasDeriv_of_eq_on h1 h2 (fun t h3 h4 => hc t h3.le h4.le) (seg_hasDeriv hab _ _ x)
  exact ⟨hd x h1 h2, hasDeriv_of_eq_on h1 h2 (fun t h3 h4 => (hd t h3 h4).deriv) (segSlope_hasDeriv hab _ _ x)⟩

/-- The two slopes at an interior pillar agree. -/
theorem slopes_agree {l r : List (ℝ × ℝ)} {a b c : ℝ × ℝ} {left right : Extrap}
    (hs : Sorted (l ++ a :: b :: c :: r)) (hl : left = .natural ∨ l ≠ []) :
    segSlope a b (zAt (l ++ a :: b :: c :: r) left right l.length) (zAt (l ++ a :: b :: c :: r) left right (l.length + 1)) b.1
    = segSlope b c (zAt (l ++ a :: b :: c :: r) left right (l.length + 1))
        (zAt (l ++ a :: b :: c :: r) left right (l.length + 2)) b.1 := by
  have hpos : (0 : ℝ) < 1 / 10 ^ 12 := by positivity
  have e1 : l ++ a :: b :: c :: r = (l ++ [a]) ++ b :: c :: r := by simp
  have hab : a.1 < b.1 := by have := between_apart hs; linarith
  have hbc : b.1 < c.1 := by
    have := between_apart (l := l ++ [a]) (p := b) (q := c) (r := r) (by rw [← e1]; exact hs); linarith
  rw [segSlope_hi hab, segSlope_lo hbc]
  have hx := pillar_mono hs
  have hlen : l.length + 2 < (l ++ a :: b :: c :: r).length := by simp
  have hne : l.length ≠ 0 ∨ left.isNatural = true := by
    rcases hl with hl | hl
    · right; rw [hl]; rfl
    · left; simpa using hl
  have key := spline_equation (xy := fun i => (l ++ a :: b :: c :: r).getD i (0, 0)) hx left.isNatural l.length hlen
    (zAt (l ++ a :: b :: c :: r) left right l.length) (zAt (l ++ a :: b :: c :: r) left right (l.length + 1))
    (zAt (l ++ a :: b :: c :: r) left right (l.length + 2))
    (second_rec _ _ (by omega) hne) (second_rec _ _ hlen (Or.inl (by omega)))
  have g0 : (l ++ a :: b :: c :: r).getD l.length (0, 0) = a := getD_mid _ _ _ _
  have g1 : (l ++ a :: b :: c :: r).getD (l.length + 1) (0, 0) = b := getD_mid' _ _ _ _ _
  have g2 : (l ++ a :: b :: c :: r).getD (l.length + 2) (0, 0) = c := by
    have := getD_mid' (l ++ [a]) r b c (0, 0)
    rw [← e1] at this
    simpa using this
  simp only [g0, g1, g2] at key
  exact key

/-- At an interior pillar: slope and curvature. -/
theorem pillar_deriv {l r : List (ℝ × ℝ)} {a b c : ℝ × ℝ} {left right : Extrap} {s : CubicSpline ℝ}
    (h : CubicSpline.new (plain (l ++ a :: b :: c :: r)) left right = .ok s) (hl : left = .natural ∨ l ≠ []) :
    (∃ m, HasDerivAt (curve s) m b.1) ∧
    HasDerivAt (deriv (curve s)) (zAt (l ++ a :: b :: c :: r) left right (l.length + 1)) b.1 := by
  have hs := (spline_new h).1
  have e1 : l ++ a :: b :: c :: r = (l ++ [a]) ++ b :: c :: r := by simp
  obtain ⟨hab, hc1⟩ := segment h
  have h' := h
  rw [e1] at h'
  obtain ⟨hbc, hc2⟩ := segment h'
  have hd1 := segment_deriv h
  have hd2 := segment_deriv h'
  rw [← e1] at hc2 hd2
  have e2 : (l ++ [a]).length = l.length + 1 := by simp
  rw [e2] at hc2 hd2
  have hag := slopes_agree hs (right := right) hl
  set z0 := zAt (l ++ a :: b :: c :: r) left right l.length
  set z1 := zAt (l ++ a :: b :: c :: r) left right (l.length + 1)
  set z2 := zAt (l ++ a :: b :: c :: r) left right (l.length + 1 + 1)
  have hag' : segSlope a b z0 z1 b.1 = segSlope b c z1 z2 b.1 := hag
  have hm : HasDerivAt (curve s) (segSlope a b z0 z1 b.1) b.1 :=
    glue hab hbc (fun t h3 h4 => hc1 t h3.le h4) (fun t h3 h4 => hc2 t h3 h4.le)
      (seg_hasDeriv hab _ _ _) (by rw [hag']; exact seg_hasDeriv hbc _ _ _)
  refine ⟨⟨_, hm⟩, ?_⟩
  have k1 : HasDerivAt (segSlope a b z0 z1) z1 b.1 := by
    have := segSlope_hasDeriv hab z0 z1 b.1
    rwa [segCurv_hi hab] at this
  have k2 : HasDerivAt (segSlope b c z1 z2) z1 b.1 := by
    have := segSlope_hasDeriv hbc z1 z2 b.1
    rwa [segCurv_lo hbc] at this
  refine glue hab hbc (g := segSlope a b z0 z1) (k := segSlope b c z1 z2) ?_ ?_ k1 k2
  · intro t h3 h4
    rcases eq_or_lt_of_le h4 with rfl | h4
    · exact hm.deriv
    · exact (hd1 t h3 h4).1.deriv
  · intro t h3 h4
    rcases eq_or_lt_of_le h3 with rfl | h3
    · rw [hm.deriv, hag']
    · exact (hd2 t h3 h4).1.deriv

theorem segCurv_tendsto {a b : ℝ × ℝ} {z0 z1 : ℝ} (x : ℝ) (s : Set ℝ) :
    Tendsto (segCurv a b z0 z1) (𝓝[s] x) (𝓝 (segCurv a b z0 z1 x)) := by
  have : Continuous (segCurv a b z0 z1) := by unfold segCurv; fun_prop
  exact this.continuousAt.tendsto.mono_left nhdsWithin_le_nhds

/-- One-sided slopes at the ends of a segment. -/
theorem segment_ends {l r : List (ℝ × ℝ)} {a b : ℝ × ℝ} {left right : Extrap} {s : CubicSpline ℝ}
    (h : CubicSpline.new (plain (l ++ a :: b :: r)) left right = .ok s) :
    HasDerivWithinAt (curve s) (segSlope a b (zAt (l ++ a :: b :: r) left right l.length)
      (zAt (l ++ a :: b :: r) left right (l.length + 1)) a.1) (Ici a.1) a.1 ∧
    HasDerivWithinAt (curve s) (segSlope a b (zAt (l ++ a :: b :: r) left right l.length)
      (zAt (l ++ a :: b :: r) left right (l.length + 1)) b.1) (Iic b.1) b.1 := by
  obtain ⟨hab, hc⟩ := segment h
  constructor
  · refine (seg_hasDeriv hab _ _ _).hasDerivWithinAt.congr_of_eventuallyEq ?_ (hc a.1 le_rfl hab.le)
    filter_upwards [Ico_mem_nhdsGE hab] with t ht using hc t ht.1 ht.2.le
  · refine (seg_hasDeriv hab _ _ _).hasDerivWithinAt.congr_of_eventuallyEq ?_ (hc b.1 hab.le le_rfl)
    filter_upwards [Ioc_mem_nhdsLE hab] with t ht using hc t ht.1.le ht.2

end QM.Interp
