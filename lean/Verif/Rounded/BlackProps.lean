import Verif.Rounded.BlackModel
import Verif.Rounded.ForwardProps
import Verif.Instruments.BlackProps
import Verif.Instruments.Lognormal

/-!
# C115: what rounding can do to Black's formula
-/

namespace QM.Rounded
open QM.Instruments (Phi)

variable {r : Rounding ℝ} {lib : Library} {normal : NormalLibrary} {D F K s : ℝ}

/-! ### Helper lemmas -/

theorem d_order (r : Rounding ℝ) (a : ℝ) (hs : 0 ≤ s) : (dPlusMinus r a s).2 ≤ (dPlusMinus r a s).1 := by
  unfold dPlusMinus
  dsimp only
  refine (r.mono _ _ (sub_le_self _ hs)).trans ?_
  rw [r.idem]

/-- A discounted difference of two amounts, each taken with a weight of at most one. -/
theorem spread_close (r : Rounding ℝ) (hu : r.unit ≤ 1 / 2) (hD : 0 ≤ D) (hF : 0 ≤ F) (hK : 0 ≤ K) {a b : ℝ} (ha : 0 ≤ a) (ha1 : a ≤ 1) (hb : 0 ≤ b) (hb1 : b ≤ 1) :
    |r.rnd (D * r.rnd (r.rnd (a * F) - r.rnd (b * K))) - D * (a * F - b * K)| ≤ 5 * r.unit * (D * (F + K)) := by
  have hu0 := r.unit_nonneg
  have aF : a * F ≤ F := mul_le_of_le_one_left hF ha1
  have bK : b * K ≤ K := mul_le_of_le_one_left hK hb1
  have aF0 : 0 ≤ a * F := mul_nonneg ha hF
  have bK0 : 0 ≤ b * K := mul_nonneg hb hK
  have uF : r.unit * (a * F) ≤ r.unit * F := mul_le_mul_of_nonneg_left aF hu0
  have uK : r.unit * (b * K) ≤ r.unit * K := mul_le_mul_of_nonneg_left bK hu0
  have uF2 : r.unit * F ≤ 1 / 2 * F := mul_le_mul_of_nonneg_right hu hF
  have uK2 : r.unit * K ≤ 1 / 2 * K := mul_le_mul_of_nonneg_right hu hK
  have c1 := r.close (a * F)
  have c2 := r.close (b * K)
  rw [abs_of_nonneg aF0, abs_le] at c1
  rw [abs_of_nonneg bK0, abs_le] at c2
  have p1 := r.nonneg aF0
  have p2 := r.nonneg bK0
  set A := r.rnd (a * F) with hA
  set B := r.rnd (b * K) with hB
  have hAB : |A - B| ≤ 3 / 2 * (F + K) := by
    rw [abs_le]
    constructor <;> linarith
  have c3 := (r.close (A - B)).trans (mul_le_mul_of_nonneg_left hAB hu0)
  rw [abs_le] at c3
  have huS : 0 ≤ r.unit * (F + K) := by positivity
  set C := r.rnd (A - B) with hC
  have hCx : |C - (a * F - b * K)| ≤ 5 / 2 * (r.unit * (F + K)) := by
    rw [abs_le]
    constructor <;> linarith
  have hC1 : |C| ≤ 9 / 4 * (F + K) := by
    rw [abs_le] at hAB hCx ⊢
    constructor <;> linarith
  have c4 := (r.close (D * C)).trans (mul_le_mul_of_nonneg_left (show |D * C| ≤ D * (9 / 4 * (F + K)) by
    rw [abs_mul, abs_of_nonneg hD]
    exact mul_le_mul_of_nonneg_left hC1 hD) hu0)
  have c5 : |D * C - D * (a * F - b * K)| ≤ D * (5 / 2 * (r.unit * (F + K))) := by
    rw [← mul_sub, abs_mul, abs_of_nonneg hD]
    exact mul_le_mul_of_nonneg_left hCx hD
  have huD : 0 ≤ r.unit * (D * (F + K)) := by positivity
  rw [abs_le] at c4 c5 ⊢
  constructor <;> linarith

theorem Phi_lipschitz (x y : ℝ) : |Phi x - Phi y| ≤ |x - y| := by
  have hd : ∀ z, QM.Instruments.dens z ≤ 1 := by
    intro z
    rw [QM.Instruments.dens_eq]
    have h1 : (Real.sqrt (2 * Real.pi))⁻¹ ≤ 1 := by
      refine inv_le_one_of_one_le₀ ?_
      rw [Real.one_le_sqrt]
      linarith [Real.two_le_pi]
    have h2 : Real.exp (-z ^ 2 / 2) ≤ 1 := Real.exp_le_one_iff.2 (by nlinarith [sq_nonneg z])
    exact mul_le_one₀ h1 (Real.exp_pos _).le h2
  have := Convex.norm_image_sub_le_of_norm_hasDerivWithin_le (f := Phi) (f' := QM.Instruments.dens) (s := Set.univ) (C := 1) (x := y) (y := x)
    (fun z _ => (QM.Instruments.Phi_deriv z).hasDerivWithinAt) (fun z _ => by
      rw [Real.norm_eq_abs, abs_of_pos (QM.Instruments.dens_pos z)]
      exact hd z) convex_univ trivial trivial
  simpa [Real.norm_eq_abs] using this

/-- What rounding does to the two arguments of the distribution function. -/
noncomputable def argumentError (r : Rounding ℝ) (lib : Library) (F K s : ℝ) : ℝ :=
  11 * r.unit / s + (3 * lib.error + 6 * r.unit) * (|Real.log (F / K)| / s) + 3 * r.unit * s

theorem arguments_close (hu : r.unit ≤ 1 / 2) (hF : 0 < F) (hK : 0 < K) (hs : 0 < s) :
    |(dPlusMinus r (lib.ln (r.rnd (F / K))) s).1 - (Real.log (F / K) / s + s / 2)| ≤ argumentError r lib F K s ∧
      |(dPlusMinus r (lib.ln (r.rnd (F / K))) s).2 - (Real.log (F / K) / s - s / 2)| ≤ argumentError r lib F K s := by
  have hu0 := r.unit_nonneg
  have he0 := error_nonneg (lib := lib)
  have he := lib.small
  obtain ⟨δ, hδ, hx⟩ := factor r (F / K)
  obtain ⟨n1, n2⟩ := one_add_exp hδ hu
  have hq : 0 < F / K := div_pos hF hK
  have h1 : 0 < 1 + δ := lt_of_lt_of_le (Real.exp_pos _) n1
  set a := Real.log (F / K) with ha
  have hlog : Real.log (r.rnd (F / K)) = a + Real.log (1 + δ) := by rw [hx, Real.log_mul hq.ne' h1.ne']
  have l1 : -(2 * r.unit) ≤ Real.log (1 + δ) := (Real.le_log_iff_exp_le h1).2 n1
  have l2 : Real.log (1 + δ) ≤ 2 * r.unit := (Real.log_le_iff_le_exp h1).2 n2
  have hpos : 0 < r.rnd (F / K) := by rw [hx]; positivity
  have c := lib.lnClose _ hpos
  have hA : |Real.log (r.rnd (F / K))| ≤ |a| + 2 * r.unit := by
    rw [hlog]
    exact (abs_add_le _ _).trans (add_le_add_right (abs_le.2 ⟨l1, l2⟩) _)
  have c' := c.trans (mul_le_mul_of_nonneg_left hA he0)
  set b := lib.ln (r.rnd (F / K)) with hb
  have heu : lib.error * r.unit ≤ 1 / 2 * r.unit := mul_le_mul_of_nonneg_right he hu0
  have hba : |b - a| ≤ 3 * r.unit + lib.error * |a| := by
    rw [abs_le] at c' ⊢
    rw [hlog] at c'
    constructor <;> linarith [c'.1, c'.2]
  have hea : lib.error * |a| ≤ 1 / 2 * |a| := mul_le_mul_of_nonneg_right he (abs_nonneg a)
  have hb1 : |b| ≤ 3 / 2 * |a| + 3 * r.unit := by
    have := abs_sub_abs_le_abs_sub b a
    linarith
  have hW0 : 0 ≤ |a| / s := by positivity
  have hV0 : 0 ≤ r.unit / s := by positivity
  set W := |a| / s with hW
  set V := r.unit / s with hV
  have hbs : |b / s - a / s| ≤ 3 * V + lib.error * W := by
    rw [← sub_div, abs_div, abs_of_pos hs, div_le_iff₀ hs]
    have : (3 * V + lib.error * W) * s = 3 * r.unit + lib.error * |a| := by
      rw [hV, hW]
      field_simp
    rw [this]
    exact hba
  have hbs1 : |b / s| ≤ 3 / 2 * W + 3 * V := by
    rw [abs_div, abs_of_pos hs, div_le_iff₀ hs]
    have : (3 / 2 * W + 3 * V) * s = 3 / 2 * |a| + 3 * r.unit := by
      rw [hV, hW]
      field_simp
    rw [this]
    exact hb1
  have has : |a / s| ≤ W := by rw [abs_div, abs_of_pos hs]
  have huV : r.unit * V ≤ 1 / 2 * V := mul_le_mul_of_nonneg_right hu hV0
  have huW0 : 0 ≤ r.unit * W := mul_nonneg hu0 hW0
  have heW0 : 0 ≤ lib.error * W := mul_nonneg he0 hW0
  have hus0 : 0 ≤ r.unit * s := by positivity
  have k1 := (r.close (b / s)).trans (mul_le_mul_of_nonneg_left hbs1 hu0)
  have k2 := r.close (1 / 2 * s)
  rw [abs_of_pos (by positivity : (0 : ℝ) < 1 / 2 * s)] at k2
  set q := r.rnd (b / s) with hq'
  set h := r.rnd (1 / 2 * s) with hh
  set E := 9 / 2 * V + lib.error * W + 3 / 2 * (r.unit * W) + 1 / 2 * (r.unit * s) with hE
  have hE0 : 0 ≤ E := by positivity
  have huE : r.unit * E ≤ 1 / 2 * E := mul_le_mul_of_nonneg_right hu hE0
  have e1 : |q + h - (a / s + s / 2)| ≤ E := by
    rw [abs_le] at k1 k2 hbs ⊢
    constructor <;> linarith
  have e2 : |q + h| ≤ W + s / 2 + E := by
    rw [abs_le] at e1 has ⊢
    constructor <;> linarith
  have k3 := (r.close (q + h)).trans (mul_le_mul_of_nonneg_left e2 hu0)
  set p := r.rnd (q + h) with hp
  set E' := 3 / 2 * E + r.unit * W + 1 / 2 * (r.unit * s) with hE'
  have hE'0 : 0 ≤ E' := by positivity
  have huE' : r.unit * E' ≤ 1 / 2 * E' := mul_le_mul_of_nonneg_right hu hE'0
  have e3 : |p - (a / s + s / 2)| ≤ E' := by
    rw [abs_le] at k3 e1 ⊢
    constructor <;> linarith
  have e4 : |p - s| ≤ W + s / 2 + E' := by
    rw [abs_le] at e3 has ⊢
    constructor <;> linarith
  have k4 := (r.close (p - s)).trans (mul_le_mul_of_nonneg_left e4 hu0)
  have hdef : argumentError r lib F K s = 11 * V + (3 * lib.error + 6 * r.unit) * W + 3 * r.unit * s := by
    unfold argumentError
    rw [hV, hW, ha]
    ring
  rw [hdef]
  refine ⟨e3.trans (by linarith), ?_⟩
  show |r.rnd (p - s) - (a / s - s / 2)| ≤ _
  rw [abs_le] at k4 e3 ⊢
  constructor <;> linarith

/-! ## C115 -/

/-- C115, never too dear. Whatever is rounded, a call costs no more than the discounted forward, and a put no more than the discounted strike, both rounded once. -/
theorem C115_bounds (hD : 0 ≤ D) (hF : 0 < F) (hK : 0 < K) (_hs : 0 < s) (fF : r.IsFloat F) (fK : r.IsFloat K) :
    callPrice r lib normal D F K s ≤ r.rnd (D * F) ∧ putPrice r lib normal D F K s ≤ r.rnd (D * K) := by
  have key : ∀ {a b X Y : ℝ}, a ≤ 1 → 0 ≤ b → 0 ≤ X → 0 ≤ Y → r.IsFloat X → r.rnd (D * r.rnd (r.rnd (a * X) - r.rnd (b * Y))) ≤ r.rnd (D * X) := by
    intro a b X Y ha hb hX hY fX
    refine r.mono _ _ (mul_le_mul_of_nonneg_left ?_ hD)
    have h1 : r.rnd (a * X) ≤ X := (r.mono _ _ (mul_le_of_le_one_left hX ha)).trans fX.le
    have h2 := r.nonneg (mul_nonneg hb hY)
    exact (r.mono _ _ (by linarith : r.rnd (a * X) - r.rnd (b * Y) ≤ X)).trans fX.le
  exact ⟨key (normal.le_one _) (normal.nonneg _) hF.le hK.le fF, key (normal.le_one _) (normal.nonneg _) hK.le hF.le fK⟩

/-- C115, never negative in the money. Whatever is rounded, a call struck at or below the forward and a put struck at or above it never have a negative price. -/
theorem C115_nonneg (hD : 0 ≤ D) (hF : 0 < F) (hK : 0 < K) (hs : 0 < s) : (K ≤ F → 0 ≤ callPrice r lib normal D F K s) ∧ (F ≤ K → 0 ≤ putPrice r lib normal D F K s) := by
  have key : ∀ {a b X Y : ℝ}, b ≤ a → 0 ≤ b → 0 ≤ Y → Y ≤ X → 0 ≤ r.rnd (D * r.rnd (r.rnd (a * X) - r.rnd (b * Y))) := by
    intro a b X Y hab hb hY hXY
    refine r.nonneg (mul_nonneg hD (r.nonneg (sub_nonneg.2 (r.mono _ _ ?_))))
    exact mul_le_mul hab hXY hY (hb.trans hab)
  have ho := d_order r (lib.ln (r.rnd (F / K))) hs.le
  exact ⟨fun h => key (normal.mono _ _ ho) (normal.nonneg _) hK.le h, fun h => key (normal.mono _ _ (neg_le_neg ho)) (normal.nonneg _) hF.le h⟩

/-- C115, parity. A call less a put is the discounted difference of forward and strike, up to ten roundings of the sum of both and twice the error of the distribution function. -/
theorem C115_parity (hu : r.unit ≤ 1 / 2) (hD : 0 ≤ D) (hF : 0 < F) (hK : 0 < K) (_hs : 0 < s) :
    |callPrice r lib normal D F K s - putPrice r lib normal D F K s - D * (F - K)| ≤ (10 * r.unit + 2 * normal.error) * (D * (F + K)) := by
  set p := (dPlusMinus r (lib.ln (r.rnd (F / K))) s).1 with hp
  set m := (dPlusMinus r (lib.ln (r.rnd (F / K))) s).2 with hm
  have c1 : |callPrice r lib normal D F K s - D * (normal.cdf p * F - normal.cdf m * K)| ≤ 5 * r.unit * (D * (F + K)) :=
    spread_close r hu hD hF.le hK.le (normal.nonneg _) (normal.le_one _) (normal.nonneg _) (normal.le_one _)
  have c2 : |putPrice r lib normal D F K s - D * (normal.cdf (-m) * K - normal.cdf (-p) * F)| ≤ 5 * r.unit * (D * (K + F)) :=
    spread_close r hu hD hK.le hF.le (normal.nonneg _) (normal.le_one _) (normal.nonneg _) (normal.le_one _)
  have both : ∀ x, |normal.cdf x + normal.cdf (-x) - 1| ≤ 2 * normal.error := by
    intro x
    have h1 := normal.close x
    have h2 := normal.close (-x)
    rw [QM.Instruments.Phi_neg] at h2
    rw [abs_le] at h1 h2 ⊢
    constructor <;> linarith [h1.1, h1.2, h2.1, h2.2]
  have hDF : 0 ≤ D * F := mul_nonneg hD hF.le
  have hDK : 0 ≤ D * K := mul_nonneg hD hK.le
  have c3 : |(normal.cdf p + normal.cdf (-p) - 1) * (D * F)| ≤ 2 * normal.error * (D * F) := by
    rw [abs_mul, abs_of_nonneg hDF]
    exact mul_le_mul_of_nonneg_right (both p) hDF
  have c4 : |(normal.cdf m + normal.cdf (-m) - 1) * (D * K)| ≤ 2 * normal.error * (D * K) := by
    rw [abs_mul, abs_of_nonneg hDK]
    exact mul_le_mul_of_nonneg_right (both m) hDK
  rw [abs_le] at c1 c2 c3 c4 ⊢
  constructor <;> linarith [c1.1, c1.2, c2.1, c2.2, c3.1, c3.2, c4.1, c4.2]

/-- C115, accuracy. The price is that of the exact formula, up to the roundings of the formula, the error of the distribution function and that of its arguments, of the sum of discounted forward
and strike. -/
theorem C115_close (hu : r.unit ≤ 1 / 2) (hD : 0 ≤ D) (hF : 0 < F) (hK : 0 < K) (hs : 0 < s) {c p : ℝ}
    (hc : QM.Instruments.callPrice (.val D) (.val F) (.val K) (.val s) = .val c) (hp : QM.Instruments.putPrice (.val D) (.val F) (.val K) (.val s) = .val p) :
    |callPrice r lib normal D F K s - c| ≤ (5 * r.unit + normal.error + argumentError r lib F K s) * (D * (F + K)) ∧
      |putPrice r lib normal D F K s - p| ≤ (5 * r.unit + normal.error + argumentError r lib F K s) * (D * (F + K)) := by
  rw [QM.Instruments.call_black hF hK hs] at hc
  rw [QM.Instruments.put_black hF hK hs] at hp
  cases hc
  cases hp
  obtain ⟨a1, a2⟩ := arguments_close (r := r) (lib := lib) hu hF hK hs
  set P := (dPlusMinus r (lib.ln (r.rnd (F / K))) s).1 with hP
  set m := (dPlusMinus r (lib.ln (r.rnd (F / K))) s).2 with hm
  set Δ := argumentError r lib F K s with hΔ
  have near : ∀ {x y : ℝ}, |x - y| ≤ Δ → |normal.cdf x - Phi y| ≤ normal.error + Δ := by
    intro x y h
    have h1 := normal.close x
    have h2 := (Phi_lipschitz x y).trans h
    rw [abs_le] at h1 h2 ⊢
    constructor <;> linarith [h1.1, h1.2, h2.1, h2.2]
  have neg : ∀ {x y : ℝ}, |x - y| ≤ Δ → |normal.cdf (-x) - Phi (-y)| ≤ normal.error + Δ := by
    intro x y h
    refine near ?_
    rw [show -x - -y = -(x - y) by ring, abs_neg]
    exact h
  have hDF : 0 ≤ D * F := mul_nonneg hD hF.le
  have hDK : 0 ≤ D * K := mul_nonneg hD hK.le
  have scale : ∀ {x y A : ℝ}, 0 ≤ A → |x - y| ≤ normal.error + Δ → |(x - y) * A| ≤ (normal.error + Δ) * A := by
    intro x y A hA h
    rw [abs_mul, abs_of_nonneg hA]
    exact mul_le_mul_of_nonneg_right h hA
  have c1 : |callPrice r lib normal D F K s - D * (normal.cdf P * F - normal.cdf m * K)| ≤ 5 * r.unit * (D * (F + K)) :=
    spread_close r hu hD hF.le hK.le (normal.nonneg _) (normal.le_one _) (normal.nonneg _) (normal.le_one _)
  have c2 : |putPrice r lib normal D F K s - D * (normal.cdf (-m) * K - normal.cdf (-P) * F)| ≤ 5 * r.unit * (D * (K + F)) :=
    spread_close r hu hD hK.le hF.le (normal.nonneg _) (normal.le_one _) (normal.nonneg _) (normal.le_one _)
  have b1 : QM.Instruments.black F K s = Phi (Real.log (F / K) / s + s / 2) * F - Phi (Real.log (F / K) / s - s / 2) * K := by
    unfold QM.Instruments.black
    ring
  have b2 : QM.Instruments.black K F s = Phi (-(Real.log (F / K) / s - s / 2)) * K - Phi (-(Real.log (F / K) / s + s / 2)) * F := by
    have e : Real.log (K / F) = - Real.log (F / K) := by rw [← Real.log_inv, inv_div]
    unfold QM.Instruments.black
    rw [e, show -Real.log (F / K) / s + s / 2 = -(Real.log (F / K) / s - s / 2) by ring, show -Real.log (F / K) / s - s / 2 = -(Real.log (F / K) / s + s / 2) by ring]
    ring
  rw [b1, b2]
  have d1 := scale hDF (near a1)
  have d2 := scale hDK (near a2)
  have d3 := scale hDF (neg a1)
  have d4 := scale hDK (neg a2)
  rw [abs_le] at c1 c2 d1 d2 d3 d4
  constructor
  · rw [abs_le]
    constructor <;> linarith [c1.1, c1.2, d1.1, d1.2, d2.1, d2.2]
  · rw [abs_le]
    constructor <;> linarith [c2.1, c2.2, d3.1, d3.2, d4.1, d4.2]

/-- C115, no free money. Neither price is below zero or below what exercising today for forward delivery would give, by more than the error of the price. -/
theorem C115_floor (hu : r.unit ≤ 1 / 2) (hD : 0 ≤ D) (hF : 0 < F) (hK : 0 < K) (hs : 0 < s) :
    max 0 (D * (F - K)) - (5 * r.unit + normal.error + argumentError r lib F K s) * (D * (F + K)) ≤ callPrice r lib normal D F K s ∧
      max 0 (D * (K - F)) - (5 * r.unit + normal.error + argumentError r lib F K s) * (D * (F + K)) ≤ putPrice r lib normal D F K s := by
  obtain ⟨h1, h2⟩ := C115_close (r := r) (lib := lib) (normal := normal) hu hD hF hK hs (QM.Instruments.call_black hF hK hs) (QM.Instruments.put_black hF hK hs)
  have low : ∀ {F K : ℝ}, 0 < F → 0 < K → max 0 (D * (F - K)) ≤ D * QM.Instruments.black F K s := by
    intro F K hF hK
    refine max_le (mul_nonneg hD (QM.Instruments.black_nonneg hF hK hs)) (mul_le_mul_of_nonneg_left ?_ hD)
    exact QM.Instruments.black_lower hF hK hs
  rw [abs_le] at h1 h2
  exact ⟨by linarith [low hF hK, h1.1], by linarith [low hK hF, h2.1]⟩

/-! ### Out of the money -/

/-- Arithmetic without rounding. -/
noncomputable def unrounded : Rounding ℝ where
  rnd := fun x => x
  unit := 0
  mono := fun _ _ h => h
  idem := fun _ => rfl
  neg := fun _ => rfl
  int := fun _ _ => rfl
  close := by simp
  small := by norm_num

/-- A library without errors. -/
noncomputable def faultless : Library where
  exp := Real.exp
  ln := Real.log
  error := 0
  expMono _ _ h := Real.exp_le_exp.2 h
  lnMono _ _ h0 h := Real.log_le_log h0 h
  expZero := Real.exp_zero
  expClose := by simp
  lnClose := by simp
  small := by norm_num

/-- A distribution function read from a table with equal steps. -/
noncomputable def table (step : ℝ) (h : 0 < step) : NormalLibrary where
  cdf x := Phi (⌊x / step⌋ * step)
  error := step
  mono x y hxy := by
    refine ProbabilityTheory.monotone_cdf _ (mul_le_mul_of_nonneg_right ?_ h.le)
    exact_mod_cast Int.floor_mono (div_le_div_of_nonneg_right hxy h.le)
  nonneg x := QM.Instruments.Phi_nonneg _
  le_one x := QM.Instruments.Phi_le_one _
  close x := by
    refine (Phi_lipschitz _ _).trans ?_
    have h1 := Int.floor_le (x / step)
    have h2 := Int.lt_floor_add_one (x / step)
    rw [le_div_iff₀ h] at h1
    rw [div_lt_iff₀ h] at h2
    rw [abs_le]
    constructor <;> nlinarith

/-- C115, the promise about signs needs the option to be in the money. However small the error of the distribution function, and even if nothing else is rounded, some call struck above the
forward has a negative price. -/
theorem C115_outside_false : ¬ ∃ ε : ℝ, 0 < ε ∧ ∀ (normal : NormalLibrary) (D F K s : ℝ), normal.error ≤ ε → 0 ≤ D → 0 < F → 0 < K → 0 < s →
    0 ≤ callPrice unrounded faultless normal D F K s := by
  rintro ⟨ε, hε, h⟩
  set s := ε / 2 with hs
  have hs0 : 0 < s := by positivity
  have h2 : 0 < 2 * s := by positivity
  have := h (table (2 * s) h2) 1 (Real.exp (-s ^ 2)) 1 s (by show 2 * s ≤ ε; linarith) zero_le_one (Real.exp_pos _) one_pos hs0
  revert this
  unfold callPrice dPlusMinus
  dsimp only [unrounded, faultless, table]
  rw [div_one, Real.log_exp, show -s ^ 2 / s + 1 / 2 * s = -(s / 2) by field_simp; ring]
  have e1 : ⌊-(s / 2) / (2 * s)⌋ = -1 := by
    rw [show -(s / 2) / (2 * s) = -(1 / 4) by field_simp; norm_num]
    norm_num
  have e2 : ⌊(-(s / 2) - s) / (2 * s)⌋ = -1 := by
    rw [show (-(s / 2) - s) / (2 * s) = -(3 / 4) by field_simp; norm_num]
    norm_num
  rw [e1, e2]
  have hP : 0 < Phi (((-1 : ℤ) : ℝ) * (2 * s)) := QM.Instruments.Phi_pos _
  have hF : Real.exp (-s ^ 2) < 1 := Real.exp_lt_one_iff.2 (by nlinarith)
  have := mul_lt_mul_of_pos_left hF hP
  intro h
  linarith

/-! ### An example -/

/-- A distribution function that rounds the exact values keeps the promises. -/
noncomputable def correctNormal : NormalLibrary where
  cdf x := reals.rnd (Phi x)
  error := reals.unit
  mono _ _ h := reals.mono _ _ (ProbabilityTheory.monotone_cdf _ h)
  nonneg x := reals.nonneg (QM.Instruments.Phi_nonneg x)
  le_one x := (reals.mono _ _ (QM.Instruments.Phi_le_one x)).trans reals.one.le
  close x := by
    refine (reals.close _).trans ?_
    rw [abs_of_nonneg (QM.Instruments.Phi_nonneg x)]
    exact mul_le_of_le_one_right reals.unit_nonneg (QM.Instruments.Phi_le_one x)

/-- On an option struck at the forward of a hundred, with a tenth for the square root of the variance, the error is less than one in a trillion of the sum of forward and strike. -/
example : 5 * reals.unit + correctNormal.error + argumentError reals correct 100 100 (1 / 10) ≤ 1 / 10 ^ 12 ∧ reals.IsFloat 100 := by
  constructor
  · show 5 * reals.unit + reals.unit + (11 * reals.unit / (1 / 10) + _ * (|Real.log (100 / 100)| / (1 / 10)) + 3 * reals.unit * (1 / 10)) ≤ _
    rw [div_self (by norm_num), Real.log_one, abs_zero, zero_div, mul_zero, reals_unit]
    norm_num
  · exact reals_hundred

end QM.Rounded
