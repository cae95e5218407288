import Verif.Rounded.ApproxModel
import Verif.Rounded.CurveProps

/-!
# C117: what rounding can do to comparisons with a tolerance
-/

namespace QM.Rounded

variable {K : Type} [Field K] [LinearOrder K] [IsStrictOrderedRing K] {r : Rounding K} {a b c t t' : K}

/-! ### Helper lemmas -/

theorem rnd_abs (r : Rounding K) (x : K) : |r.rnd x| = r.rnd |x| := by
  rcases le_total 0 x with h | h
  · rw [abs_of_nonneg h, abs_of_nonneg (r.nonneg h)]
  · rw [abs_of_nonpos h, r.neg, abs_of_nonpos (r.nonpos h)]

theorem approx_iff : approxEq r a b t = true ↔ r.rnd |a - b| < t := by
  unfold approxEq
  simp only [decide_eq_true_eq]
  rw [rnd_abs]

/-! ## C117 -/

/-- C117, nothing is accepted that should not be. If the tolerance is a number of the machine, numbers that are accepted really differ by less than the tolerance, although the difference is
rounded before it is compared. -/
theorem C117_sound (ht : r.IsFloat t) (h : approxEq r a b t = true) : |a - b| < t := by
  by_contra hc
  have := r.mono _ _ (not_lt.1 hc)
  rw [show r.rnd t = t from ht] at this
  exact absurd (approx_iff.1 h) (not_lt.2 this)

/-- C117, what is clearly within the tolerance is accepted. -/
theorem C117_complete (h : |a - b| * (1 + r.unit) < t) : approxEq r a b t = true := by
  refine approx_iff.2 (lt_of_le_of_lt ?_ h)
  have := (abs_le.1 (r.close |a - b|)).2
  rw [abs_abs] at this
  linarith

/-- C117, in between. There are numbers of `f64` that differ by less than the tolerance and are not accepted, because their difference is rounded up to it. -/
theorem C117_edge_false : ∃ a b t : ℚ, f64.rnd a = a ∧ f64.rnd b = b ∧ f64.rnd t = t ∧ |a - b| < t ∧ approxEq f64 a b t = false := by
  refine ⟨1 + 1 / 2 ^ 52, 1 / 2 ^ 60, 1 + 1 / 2 ^ 52, ?_, ?_, ?_, ?_, ?_⟩ <;> decide +kernel

/-- C117, the order of the two does not matter, and a number is like itself. -/
theorem C117_symmetric (r : Rounding K) (a b t : K) : approxEq r a b t = approxEq r b a t ∧ (0 < t → approxEq r a a t = true) := by
  constructor
  · rw [Bool.eq_iff_iff, approx_iff, approx_iff, abs_sub_comm]
  · intro h
    rw [approx_iff, sub_self, abs_zero, r.zero]
    exact h

/-- C117, a wider tolerance accepts whatever a narrower one does, and numbers in between are no less alike than those around them. -/
theorem C117_wider (ht : t ≤ t') (h : approxEq r a b t = true) : approxEq r a b t' = true ∧ (a ≤ c → c ≤ b → approxEq r a c t' = true ∧ approxEq r c b t' = true) := by
  have h' := (approx_iff.1 h).trans_le ht
  refine ⟨approx_iff.2 h', fun h1 h2 => ⟨approx_iff.2 (lt_of_le_of_lt (r.mono _ _ ?_) h'), approx_iff.2 (lt_of_le_of_lt (r.mono _ _ ?_) h')⟩⟩
  · rw [abs_sub_comm, abs_sub_comm a b, abs_of_nonneg (sub_nonneg.2 h1), abs_of_nonneg (sub_nonneg.2 (h1.trans h2))]
    linarith
  · rw [abs_sub_comm, abs_sub_comm a b, abs_of_nonneg (sub_nonneg.2 h2), abs_of_nonneg (sub_nonneg.2 (h1.trans h2))]
    linarith

/-- C117, reports. If nothing is written about a line of two reports, the deltas differ by less than the tolerance divided by the size of the bump, and the gammas by less than the tolerance divided
by its square, up to the roundings of the tolerances themselves: the comparisons add no error. -/
theorem C117_line {u s : K} (hu : 0 ≤ u) (hs : 0 < s) {x y : K × K} (h : sameLine r u s x y = true) :
    |x.1 - y.1| < u / s * (1 + r.unit) ∧ |x.2 - y.2| < u / s ^ 2 * (1 + r.unit) ^ 2 := by
  unfold sameLine tolerances at h
  simp only [Bool.and_eq_true] at h
  have up : ∀ {z : K}, 0 ≤ z → r.rnd z ≤ z * (1 + r.unit) := by
    intro z hz
    have := (abs_le.1 (r.close z)).2
    rw [abs_of_nonneg hz] at this
    linarith
  have h0 : 0 ≤ u / s := div_nonneg hu hs.le
  have h1 := C117_sound (r.idem _) h.1
  have h2 := C117_sound (r.idem _) h.2
  refine ⟨h1.trans_le (up h0), h2.trans_le ((up (div_nonneg (r.nonneg h0) hs.le)).trans ?_)⟩
  have hu1 : 0 ≤ 1 + r.unit := by linarith [r.unit_nonneg]
  calc r.rnd (u / s) / s * (1 + r.unit) ≤ u / s * (1 + r.unit) / s * (1 + r.unit) := mul_le_mul_of_nonneg_right (div_le_div_of_nonneg_right (up h0) hs.le) hu1
    _ = u / s ^ 2 * (1 + r.unit) ^ 2 := by field_simp

/-- C117, reports that are clearly alike: nothing is written. -/
theorem C117_line_alike {u s : K} (h1 : r.unit ≤ 1) (hu : 0 ≤ u) (hs : 0 < s) {x y : K × K} (hx : |x.1 - y.1| * (1 + r.unit) < u / s * (1 - r.unit))
    (hy : |x.2 - y.2| * (1 + r.unit) < u / s ^ 2 * (1 - r.unit) ^ 2) : sameLine r u s x y = true := by
  unfold sameLine tolerances
  simp only [Bool.and_eq_true]
  have down : ∀ {z : K}, 0 ≤ z → z * (1 - r.unit) ≤ r.rnd z := by
    intro z hz
    have := (abs_le.1 (r.close z)).1
    rw [abs_of_nonneg hz] at this
    linarith
  have h0 : 0 ≤ u / s := div_nonneg hu hs.le
  have hu1 : 0 ≤ 1 - r.unit := sub_nonneg.2 h1
  refine ⟨C117_complete (hx.trans_le (down h0)), C117_complete (hy.trans_le (le_trans ?_ (down (div_nonneg (r.nonneg h0) hs.le))))⟩
  calc u / s ^ 2 * (1 - r.unit) ^ 2 = u / s * (1 - r.unit) / s * (1 - r.unit) := by field_simp
    _ ≤ r.rnd (u / s) / s * (1 - r.unit) := mul_le_mul_of_nonneg_right (div_le_div_of_nonneg_right (down h0) hs.le) hu1

/-- C117: a line of two reports that is accepted, and one that is not. -/
example : sameLine f64 (1 / 8) (1 / 2) (3, 1) (3 + 1 / 8, 1 + 1 / 4) = true ∧ sameLine f64 (1 / 8) (1 / 2) (3, 1) (3 + 1 / 8, 1 + 1 / 2) = false := by
  constructor <;> decide +kernel

end QM.Rounded
