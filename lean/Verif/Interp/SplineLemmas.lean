import Verif.Interp.Lemmas
import Verif.Interp.Spec
import Mathlib.Analysis.Calculus.Deriv.Basic
import Mathlib.Analysis.Calculus.Deriv.Mul
import Mathlib.Analysis.Calculus.Deriv.Add
import Mathlib.Analysis.Calculus.Deriv.Pow
import Mathlib.Topology.Order.OrderClosed

/-!
# Helper lemmas: calculus of the spline curve
-/

namespace QM.Interp
open Spec Set Filter Topology

/-- Value of a spline segment. -/
noncomputable def seg (lo hi : ℝ × ℝ) (zl zh t : ℝ) : ℝ :=
  (hi.1 - t) / (hi.1 - lo.1) * lo.2 + (t - lo.1) / (hi.1 - lo.1) * hi.2
    + (((hi.1 - t) / (hi.1 - lo.1) * ((hi.1 - t) / (hi.1 - lo.1)) * ((hi.1 - t) / (hi.1 - lo.1)) - (hi.1 - t) / (hi.1 - lo.1)) * zl
      + ((t - lo.1) / (hi.1 - lo.1) * ((t - lo.1) / (hi.1 - lo.1)) * ((t - lo.1) / (hi.1 - lo.1)) - (t - lo.1) / (hi.1 - lo.1)) * zh)
      * ((hi.1 - lo.1) * (hi.1 - lo.1)) / 6

/-- Slope of a spline segment. -/
noncomputable def segSlope (lo hi : ℝ × ℝ) (zl zh t : ℝ) : ℝ :=
  (hi.2 - lo.2) / (hi.1 - lo.1)
    + ((1 - 3 * ((hi.1 - t) / (hi.1 - lo.1)) ^ 2) * zl + (3 * ((t - lo.1) / (hi.1 - lo.1)) ^ 2 - 1) * zh)
      * (hi.1 - lo.1) / 6

/-- Curvature of a spline segment. -/
noncomputable def segCurv (lo hi : ℝ × ℝ) (zl zh t : ℝ) : ℝ :=
  (hi.1 - t) / (hi.1 - lo.1) * zl + (t - lo.1) / (hi.1 - lo.1) * zh

theorem seg_hasDeriv {lo hi : ℝ × ℝ} (h : lo.1 < hi.1) (zl zh t : ℝ) :
    HasDerivAt (seg lo hi zl zh) (segSlope lo hi zl zh t) t := by
  have hne : hi.1 - lo.1 ≠ 0 := ne_of_gt (sub_pos.2 h)
  have ha : HasDerivAt (fun t => (hi.1 - t) / (hi.1 - lo.1)) (-1 / (hi.1 - lo.1)) t :=
    ((hasDerivAt_id t).const_sub hi.1).div_const _
  have hb : HasDerivAt (fun t => (t - lo.1) / (hi.1 - lo.1)) (1 / (hi.1 - lo.1)) t :=
    ((hasDerivAt_id t).sub_const lo.1).div_const _
  have h1 := ((ha.mul_const lo.2).add (hb.mul_const hi.2)).add
    ((((((ha.mul ha).mul ha).sub ha).mul_const zl).add ((((hb.mul hb).mul hb).sub hb).mul_const zh)).mul_const
      ((hi.1 - lo.1) * (hi.1 - lo.1)) |>.div_const 6)
  have h2 : HasDerivAt (seg lo hi zl zh) _ t := h1
  refine h2.congr_deriv ?_
  unfold segSlope
  simp only [Pi.mul_apply]
  field_simp
  ring

theorem segSlope_hasDeriv {lo hi : ℝ × ℝ} (h : lo.1 < hi.1) (zl zh t : ℝ) :
    HasDerivAt (segSlope lo hi zl zh) (segCurv lo hi zl zh t) t := by
  have hne : hi.1 - lo.1 ≠ 0 := ne_of_gt (sub_pos.2 h)
  have ha : HasDerivAt (fun t => (hi.1 - t) / (hi.1 - lo.1)) (-1 / (hi.1 - lo.1)) t :=
    ((hasDerivAt_id t).const_sub hi.1).div_const _
  have hb : HasDerivAt (fun t => (t - lo.1) / (hi.1 - lo.1)) (1 / (hi.1 - lo.1)) t :=
    ((hasDerivAt_id t).sub_const lo.1).div_const _
  have h1 := ((((((ha.pow 2).const_mul 3).const_sub 1).mul_const zl).add
    ((((hb.pow 2).const_mul 3).sub_const 1).mul_const zh)).mul_const (hi.1 - lo.1) |>.div_const 6).const_add
      ((hi.2 - lo.2) / (hi.1 - lo.1))
  have h2 : HasDerivAt (segSlope lo hi zl zh) _ t := h1
  refine h2.congr_deriv ?_
  unfold segCurv
  norm_num
  field_simp
  ring

theorem seg_lo {lo hi : ℝ × ℝ} (h : lo.1 < hi.1) (zl zh : ℝ) : seg lo hi zl zh lo.1 = lo.2 := by
  have hne : hi.1 - lo.1 ≠ 0 := ne_of_gt (sub_pos.2 h)
  unfold seg; rw [sub_self, zero_div, div_self hne]; ring

theorem seg_hi {lo hi : ℝ × ℝ} (h : lo.1 < hi.1) (zl zh : ℝ) : seg lo hi zl zh hi.1 = hi.2 := by
  have hne : hi.1 - lo.1 ≠ 0 := ne_of_gt (sub_pos.2 h)
  unfold seg; rw [sub_self, zero_div, div_self hne]; ring

theorem segCurv_lo {lo hi : ℝ × ℝ} (h : lo.1 < hi.1) (zl zh : ℝ) : segCurv lo hi zl zh lo.1 = zl := by
  have hne : hi.1 - lo.1 ≠ 0 := ne_of_gt (sub_pos.2 h)
  unfold segCurv; rw [sub_self, zero_div, div_self hne]; ring

theorem segCurv_hi {lo hi : ℝ × ℝ} (h : lo.1 < hi.1) (zl zh : ℝ) : segCurv lo hi zl zh hi.1 = zh := by
  have hne : hi.1 - lo.1 ≠ 0 := ne_of_gt (sub_pos.2 h)
  unfold segCurv; rw [sub_self, zero_div, div_self hne]; ring

theorem segSlope_lo {lo hi : ℝ × ℝ} (h : lo.1 < hi.1) (zl zh : ℝ) :
    segSlope lo hi zl zh lo.1 = (hi.2 - lo.2) / (hi.1 - lo.1) - (hi.1 - lo.1) / 6 * (2 * zl + zh) := by
  have hne : hi.1 - lo.1 ≠ 0 := ne_of_gt (sub_pos.2 h)
  unfold segSlope; rw [sub_self, zero_div, div_self hne]; ring

theorem segSlope_hi {lo hi : ℝ × ℝ} (h : lo.1 < hi.1) (zl zh : ℝ) :
    segSlope lo hi zl zh hi.1 = (hi.2 - lo.2) / (hi.1 - lo.1) + (hi.1 - lo.1) / 6 * (zl + 2 * zh) := by
  have hne : hi.1 - lo.1 ≠ 0 := ne_of_gt (sub_pos.2 h)
  unfold segSlope; rw [sub_self, zero_div, div_self hne]; ring

/-- Gluing two functions with the same value and slope. -/
theorem glue {f g k : ℝ → ℝ} {u x v m : ℝ} (hu : u < x) (hv : x < v)
    (hg : ∀ t, u < t → t ≤ x → f t = g t) (hk : ∀ t, x ≤ t → t < v → f t = k t)
    (h1 : HasDerivAt g m x) (h2 : HasDerivAt k m x) : HasDerivAt f m x := by
  have hl : HasDerivWithinAt f m (Iic x) x := by
    refine h1.hasDerivWithinAt.congr_of_eventuallyEq ?_ (hg x hu le_rfl)
    have : Ioc u x ∈ 𝓝[≤] x := Ioc_mem_nhdsLE hu
    filter_upwards [this] with t ht using hg t ht.1 ht.2
  have hr : HasDerivWithinAt f m (Ici x) x := by
    refine h2.hasDerivWithinAt.congr_of_eventuallyEq ?_ (hk x le_rfl hv)
    have : Ico x v ∈ 𝓝[≥] x := Ico_mem_nhdsGE hv
    filter_upwards [this] with t ht using hk t ht.1 ht.2
  have := hl.union hr
  rwa [Iic_union_Ici, hasDerivWithinAt_univ] at this

theorem hasDeriv_of_eq_on {f g : ℝ → ℝ} {u x v m : ℝ} (hu : u < x) (hv : x < v)
    (hg : ∀ t, u < t → t < v → f t = g t) (h1 : HasDerivAt g m x) : HasDerivAt f m x := by
  refine h1.congr_of_eventuallyEq ?_
  filter_upwards [Ioo_mem_nhds hu hv] with t ht using hg t ht.1 ht.2

/-- The spline over ordinary points. -/
theorem spline_new {ps : List (ℝ × ℝ)} {left right : Extrap} {s : CubicSpline ℝ}
    (h : CubicSpline.new (plain ps) left right = .ok s) :
    Sorted ps ∧ 1 < ps.length ∧ s = ⟨left, right, ps, (List.range ps.length).map
      (secondDeriv (fun i => ps.getD i (0, 0)) left.isNatural right.isNatural ps.length)⟩ := by
  unfold CubicSpline.new at h
  cases hv : validateAbscissae (plain ps) with
  | error e => rw [hv] at h; cases h
  | ok u =>
    rw [hv] at h
    simp only [Bind.bind, Except.bind] at h
    have hlen : (plain ps).length = ps.length := by simp [plain]
    rw [hlen] at h
    split at h
    · rename_i hn
      have hmap : (plain ps).map (fun p => (p.1.get, p.2)) = ps := by
        unfold plain
        rw [List.map_map]
        exact List.map_id ps
      rw [hmap] at h
      cases h
      refine ⟨?_, hn, rfl⟩
      rcases (validate_iff (plain ps)).1 hv with ⟨y, hy⟩ | ⟨_, qs, hq, hc⟩
      · rw [hy] at hlen; simp at hlen; omega
      · have : qs = ps := by
          have h1 := numbers_lift qs
          have h2 := numbers_lift ps
          have e : plain ps = lift ps := rfl
          rw [← hq, e, h2] at h1
          exact (Option.some.inj h1).symm
        rw [this] at hc
        exact sorted_of_chain hc
    · cases h

section Curve
variable {ps : List (ℝ × ℝ)} {left right : Extrap} {s : CubicSpline ℝ}

/-- Second derivative stored for pillar `i`. -/
noncomputable def zAt (ps : List (ℝ × ℝ)) (left right : Extrap) (i : Nat) : ℝ :=
  secondDeriv (fun i => ps.getD i (0, 0)) left.isNatural right.isNatural ps.length i

theorem getD_second (ps : List (ℝ × ℝ)) (left right : Extrap) {i : Nat} (hi : i < ps.length) :
    ((List.range ps.length).map
      (secondDeriv (fun i => ps.getD i (0, 0)) left.isNatural right.isNatural ps.length)).getD i 0 = zAt ps left right i := by
  simp [List.getD, hi, zAt]

theorem curve_pillar {l r : List (ℝ × ℝ)} {x y : ℝ} (hs : Sorted (l ++ (x, y) :: r)) (zs : List ℝ) :
    (CubicSpline.mk left right (l ++ (x, y) :: r) zs).interpolate (.val x) = .ok (.val y) := by
  unfold CubicSpline.interpolate
  simp only [search_pillar hs, getD_mid]
  rw [if_neg (by simp)]
  simp

theorem interp_between {l r : List (ℝ × ℝ)} {a b : ℝ × ℝ} {x : ℝ} (hs : Sorted (l ++ a :: b :: r))
    (h1 : a.1 < x) (h2 : x < b.1) (zs : List ℝ) :
    (CubicSpline.mk left right (l ++ a :: b :: r) zs).interpolate (.val x)
      = .ok (.val (seg a b (zs.getD l.length 0) (zs.getD (l.length + 1) 0) x)) := by
  unfold CubicSpline.interpolate
  simp only [search_between hs h1 h2, getD_mid', Nat.add_sub_cancel, getD_mid]
  rw [if_neg (by simp), if_neg (by simp), if_neg (by simp), if_neg (by simp)]
  unfold splint
  simp only
  rw [if_neg (by have := lt_trans h1 h2; exact ne_of_gt (sub_pos.2 this))]
  rfl

/-- On a closed segment between neighbouring pillars the curve is the cubic. -/
theorem curve_seg {l r : List (ℝ × ℝ)} {a b : ℝ × ℝ} {x : ℝ} (hs : Sorted (l ++ a :: b :: r))
    (zs : List ℝ) (h1 : a.1 ≤ x) (h2 : x ≤ b.1) :
    curve (CubicSpline.mk left right (l ++ a :: b :: r) zs) x
      = seg a b (zs.getD l.length 0) (zs.getD (l.length + 1) 0) x := by
  have hab : a.1 < b.1 := by
    have := sorted_lt hs
    rw [List.pairwise_append] at this
    have := this.2.1
    rw [List.pairwise_cons] at this
    exact this.1 b (by simp)
  unfold curve
  rcases eq_or_lt_of_le h1 with he | h1
  · rw [← he, seg_lo hab]
    have := curve_pillar (left := left) (right := right) (l := l) (r := b :: r) (x := a.1) (y := a.2) hs zs
    rw [show ((a.1, a.2) : ℝ × ℝ) = a from rfl] at this
    rw [this]
  · rcases eq_or_lt_of_le h2 with he | h2
    · rw [he, seg_hi hab]
      have e : l ++ a :: b :: r = (l ++ [a]) ++ b :: r := by simp
      have := curve_pillar (left := left) (right := right) (l := l ++ [a]) (r := r) (x := b.1) (y := b.2) (by rw [← e]; exact hs) zs
      rw [show ((b.1, b.2) : ℝ × ℝ) = b from rfl, ← e] at this
      rw [this]
    · rw [interp_between hs h1 h2]

end Curve

theorem pillar_mono {ps : List (ℝ × ℝ)} (hs : Sorted ps) (i : Nat) (hi : i + 1 < ps.length) :
    (ps.getD i (0, 0)).1 < (ps.getD (i + 1) (0, 0)).1 := by
  have := sorted_lt hs
  rw [List.pairwise_iff_getElem] at this
  have h := this i (i + 1) (by omega) hi (by omega)
  have hi' : i < ps.length := by omega
  simpa [List.getD, hi, hi'] using h

end QM.Interp
