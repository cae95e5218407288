import Verif.Rounded.RiskModel
import Verif.Rounded.RootLemmas
import Verif.Rounded.InterpLemmas
import Verif.Rounded.Props
import Mathlib.Tactic.GCongr

/-!
# C87: bumped risk in floating-point arithmetic

Properties C44 and C45 are about exact numbers. These theorems are about the same formulas when every operation rounds its result. A
two-sided difference divides rounding errors by the bump, and a second difference divides them by its square, so the size of the bump
decides whether the numbers mean anything.
-/

namespace QM.Rounded

variable {K : Type} [Field K] [LinearOrder K] [IsStrictOrderedRing K]

/-! ## Helper lemmas -/

/-- A rounded number is off by a factor close to one. -/
theorem factor (r : Rounding K) (x : K) : ∃ e, |e| ≤ r.unit ∧ r.rnd x = x * (1 + e) := by
  rcases eq_or_ne x 0 with rfl | hx
  · exact ⟨0, by simpa using r.unit_nonneg, by rw [r.zero, zero_mul]⟩
  · refine ⟨(r.rnd x - x) / x, ?_, by field_simp; ring⟩
    rw [abs_div, div_le_iff₀ (abs_pos.2 hx)]
    exact r.close x

/-- A quotient of numbers close to one is close to one. -/
theorem quotient_close {n d a c : K} (hd : 96 / 100 ≤ d) (h : |n - d| ≤ a) (hc : a ≤ 96 / 100 * c) : |n / d - 1| ≤ c := by
  have hd0 : 0 < d := by linarith
  rw [show n / d - 1 = (n - d) / d by field_simp, abs_div, abs_of_pos hd0, div_le_iff₀ hd0]
  nlinarith [abs_nonneg (n - d)]

/-- A product of numbers close to one is close to one. -/
theorem product_close {x y p q : K} (hx : |x - 1| ≤ p) (hy : |y - 1| ≤ q) : |x * y - 1| ≤ p + q + p * q := by
  have hp : 0 ≤ p := (abs_nonneg _).trans hx
  calc |x * y - 1| = |(x - 1) + (y - 1) + (x - 1) * (y - 1)| := by ring_nf
    _ ≤ |x - 1| + |y - 1| + |x - 1| * |y - 1| := by
      rw [← abs_mul]
      exact (abs_add_le _ _).trans (by linarith [abs_add_le (x - 1) (y - 1)])
    _ ≤ p + q + p * q := by gcongr

theorem down_le (r : Rounding K) {size : K} (h0 : 0 ≤ size) : downBump r size ≤ 0 := by
  unfold downBump
  apply r.nonpos
  have hd : (0 : K) < r.rnd (1 + size) := r.pos (by linarith)
  have h1 : r.rnd (1 - size) / r.rnd (1 + size) ≤ 1 := (div_le_one hd).2 (r.mono _ _ (by linarith))
  have h2 := r.mono _ _ h1
  rw [r.one] at h2
  linarith

/-! ## C87 -/

/-- C87: arithmetic without rounding gives the two-sided differences between the spots that are the bump above and below. -/
theorem C87_exact {r : Rounding K} (hr : ∀ x, r.rnd x = x) {size spot : K} (hs : 1 + size ≠ 0) (price : K → K) :
    deltaGamma r size price spot =
      ((price (spot * (1 + size)) - price (spot * (1 - size))) / (2 * (size * spot)),
       (price (spot * (1 + size)) + price (spot * (1 - size)) - 2 * price spot) / (size * spot) ^ 2) := by
  have hd : spot * (1 + size) * (1 + ((1 - size) / (1 + size) - 1)) = spot * (1 - size) := by field_simp; ring
  simp only [deltaGamma, slope, curvature, bumpSpot, downBump, hr, hd, sq]

/-- C87: arithmetic without rounding gives the differences between the volatility bumped up and the volatility that the down bump then
leads to. That is the volatility less the bump times `(1 - size) / (1 + size)`, not less the bump (property C33). -/
theorem C87_vega_exact {r : Rounding K} (hr : ∀ x, r.rnd x = x) {size vol : K} (h0 : 0 ≤ size) (hv : size ≤ vol) (price : K → K) :
    vegaVolga r size price vol =
      ((price (vol + size) - price (vol - size * ((1 - size) / (1 + size)))) / (2 * size),
       (price (vol + size) + price (vol - size * ((1 - size) / (1 + size))) - 2 * price vol) / size ^ 2) := by
  have hp : 0 < 1 + size := by linarith
  have hd : vol + size + ((1 - size) / (1 + size) - 1) = vol - size * ((1 - size) / (1 + size)) := by field_simp; ring
  have hq : (1 - size) / (1 + size) ≤ 1 := (div_le_one hp).2 (by linarith)
  have hn : 0 ≤ vol - size * ((1 - size) / (1 + size)) := by
    have := mul_le_of_le_one_right h0 hq
    linarith
  simp only [vegaVolga, slope, curvature, bumpVol, downBump, hr, sq, max_eq_left (by linarith : 0 ≤ vol + size), hd, max_eq_left hn]

/-- C87: nothing is reported to a spot that the price does not depend on, not even a rounding error. -/
theorem C87_no_dependence (r : Rounding K) {size spot c : K} {price : K → K} (h : ∀ s, price s = c) :
    deltaGamma r size price spot = (0, 0) ∧ vegaVolga r size price spot = (0, 0) := by
  simp only [deltaGamma, vegaVolga, slope, curvature, h, sub_self, r.zero, zero_div, ← two_mul, and_self]

/-- C87: the bumped spots are in order: the lower one is not above the upper one, and neither is negative. -/
theorem C87_spots_ordered (r : Rounding K) {size spot : K} (h0 : 0 ≤ size) (h1 : size ≤ 1) (hs : 0 ≤ spot) :
    0 ≤ bumpSpot r (downBump r size) (bumpSpot r size spot) ∧
    bumpSpot r (downBump r size) (bumpSpot r size spot) ≤ bumpSpot r size spot := by
  have hup : 0 ≤ bumpSpot r size spot := r.nonneg (mul_nonneg hs (r.nonneg (by linarith)))
  have hd := down_le r h0
  have hd1 : -1 ≤ downBump r size := by
    have hq : 0 ≤ r.rnd (r.rnd (1 - size) / r.rnd (1 + size)) :=
      r.nonneg (div_nonneg (r.nonneg (by linarith)) (r.nonneg (by linarith)))
    have := r.mono (-1) (r.rnd (r.rnd (1 - size) / r.rnd (1 + size)) - 1) (by linarith)
    rwa [r.neg, r.one] at this
  constructor
  · exact r.nonneg (mul_nonneg hup (r.nonneg (by linarith)))
  · have h : r.rnd (1 + downBump r size) ≤ 1 := by
      have := r.mono (1 + downBump r size) 1 (by linarith)
      rwa [r.one] at this
    have := r.mono (bumpSpot r size spot * r.rnd (1 + downBump r size)) (bumpSpot r size spot) (by nlinarith)
    refine this.trans (le_of_eq ?_)
    exact r.idem _

/-- C87: the delta of a price that rises with the spot is not negative, and that of a price that falls is not positive. -/
theorem C87_delta_sign (r : Rounding K) {size spot : K} (h0 : 0 ≤ size) (h1 : size ≤ 1) (hs : 0 ≤ spot) {price : K → K} :
    (Monotone price → 0 ≤ (deltaGamma r size price spot).1) ∧ (Antitone price → (deltaGamma r size price spot).1 ≤ 0) := by
  have hle := (C87_spots_ordered r h0 h1 hs).2
  have hb : 0 ≤ r.rnd (2 * r.rnd (size * spot)) := r.nonneg (mul_nonneg (by norm_num) (r.nonneg (mul_nonneg h0 hs)))
  constructor
  · intro hm
    exact r.nonneg (div_nonneg (r.nonneg (by linarith [hm hle])) hb)
  · intro hm
    exact r.nonpos (div_nonpos_of_nonpos_of_nonneg (r.nonpos (by linarith [hm hle])) hb)

/-- C87: the bumped volatilities are in order: the lower one is not above the upper one, and neither is negative. -/
theorem C87_vols_ordered (r : Rounding K) {size : K} (h0 : 0 ≤ size) (vol : K) :
    0 ≤ bumpVol r (downBump r size) (bumpVol r size vol) ∧ bumpVol r (downBump r size) (bumpVol r size vol) ≤ bumpVol r size vol := by
  have hd := down_le r h0
  have hv : 0 ≤ bumpVol r size vol := le_max_right _ _
  have hf : r.rnd (bumpVol r size vol) = bumpVol r size vol := by
    unfold bumpVol
    rcases max_choice (r.rnd (vol + size)) 0 with h | h <;> rw [h]
    · exact r.idem _
    · exact r.zero
  refine ⟨le_max_right _ _, max_le ?_ hv⟩
  have := r.mono (bumpVol r size vol + downBump r size) (bumpVol r size vol) (by linarith)
  rwa [hf] at this

/-- C87: the vega of a price that rises with the volatility is not negative. -/
theorem C87_vega_sign (r : Rounding K) {size vol : K} (h0 : 0 ≤ size) {price : K → K} (hm : Monotone price) :
    0 ≤ (vegaVolga r size price vol).1 :=
  r.nonneg (div_nonneg (r.nonneg (by linarith [hm (C87_vols_ordered r h0 vol).2])) (r.nonneg (by linarith)))

/-- C87: the bumped spots are within twenty roundings of the spots that are meant. -/
theorem C87_spots_close {r : Rounding K} (hu : r.unit ≤ 1 / 100) {size spot : K} (h0 : 0 ≤ size) (h1 : size ≤ 1) (hs : 0 ≤ spot) :
    |bumpSpot r size spot - spot * (1 + size)| ≤ 20 * r.unit * spot ∧
    |bumpSpot r (downBump r size) (bumpSpot r size spot) - spot * (1 - size)| ≤ 20 * r.unit * spot := by
  have hu0 := r.unit_nonneg
  obtain ⟨e1, he1, h1p⟩ := factor r (1 + size)
  obtain ⟨e2, he2, h2p⟩ := factor r (spot * r.rnd (1 + size))
  obtain ⟨a1, ha1, h1m⟩ := factor r (1 - size)
  set u := r.unit with hud
  clear_value u
  obtain ⟨l1, l1'⟩ := abs_le.1 he1
  obtain ⟨l2, l2'⟩ := abs_le.1 he2
  obtain ⟨m1, m1'⟩ := abs_le.1 ha1
  -- the spot that is bumped up
  have huu : u * u ≤ 1 / 100 * u := mul_le_mul_of_nonneg_right hu hu0
  have hE : |(1 + e1) * (1 + e2) - 1| ≤ 201 / 100 * u :=
    (product_close (by simpa using he1) (by simpa using he2)).trans (by linarith)
  have hup : bumpSpot r size spot = spot * (1 + size) * ((1 + e1) * (1 + e2)) := by
    unfold bumpSpot
    rw [h2p, h1p]
    ring
  have hS : 0 ≤ spot * (1 + size) := mul_nonneg hs (by linarith)
  have hS2 : spot * (1 + size) ≤ 2 * spot := by nlinarith
  have hup' : |bumpSpot r size spot - spot * (1 + size)| ≤ 201 / 100 * u * (spot * (1 + size)) := by
    rw [hup, show spot * (1 + size) * ((1 + e1) * (1 + e2)) - spot * (1 + size) = ((1 + e1) * (1 + e2) - 1) * (spot * (1 + size)) by ring,
      abs_mul, abs_of_nonneg hS]
    gcongr
  refine ⟨hup'.trans (by nlinarith), ?_⟩
  -- the ratio
  have hp : 0 < 1 + size := by linarith
  set q := (1 - size) / (1 + size) with hq
  have hq0 : 0 ≤ q := div_nonneg (by linarith) hp.le
  have hq1 : q ≤ 1 := (div_le_one hp).2 (by linarith)
  have hqs : spot * (1 + size) * q = spot * (1 - size) := by rw [hq]; field_simp
  have hN : |r.rnd (1 - size) / r.rnd (1 + size) - q| ≤ 21 / 10 * u := by
    have hne : 1 + e1 ≠ 0 := by linarith
    have hc : |(1 + a1) / (1 + e1) - 1| ≤ 21 / 10 * u := by
      refine quotient_close (a := 2 * u) (by linarith) ?_ (by linarith)
      rw [abs_le]
      constructor <;> linarith
    rw [h1m, h1p, show (1 - size) * (1 + a1) / ((1 + size) * (1 + e1)) - q = q * ((1 + a1) / (1 + e1) - 1) by rw [hq]; field_simp,
      abs_mul, abs_of_nonneg hq0]
    calc q * |(1 + a1) / (1 + e1) - 1| ≤ 1 * (21 / 10 * u) := by gcongr
      _ = _ := one_mul _
  have hQ : |r.rnd (r.rnd (1 - size) / r.rnd (1 + size)) - q| ≤ 32 / 10 * u := by
    have := rnd_err r hN (b := 1) (by rw [abs_of_nonneg hq0]; exact hq1) (by positivity)
    rw [← hud] at this
    linarith
  have hT : |downBump r size - (q - 1)| ≤ 43 / 10 * u := by
    have h := rnd_err r (x := r.rnd (r.rnd (1 - size) / r.rnd (1 + size)) - 1) (c := q - 1) (b := 1) (e := 32 / 10 * u)
      (by rw [show r.rnd (r.rnd (1 - size) / r.rnd (1 + size)) - 1 - (q - 1) = r.rnd (r.rnd (1 - size) / r.rnd (1 + size)) - q by ring]; exact hQ)
      (by rw [abs_le]; constructor <;> linarith) (by positivity)
    rw [← hud] at h
    unfold downBump
    linarith
  have hY : |r.rnd (1 + downBump r size) - q| ≤ 54 / 10 * u := by
    have h := rnd_err r (x := 1 + downBump r size) (c := q) (b := 1) (e := 43 / 10 * u)
      (by rw [show 1 + downBump r size - q = downBump r size - (q - 1) by ring]; exact hT)
      (by rw [abs_of_nonneg hq0]; exact hq1) (by positivity)
    rw [← hud] at h
    linarith
  -- the spot that is bumped down
  set y := r.rnd (1 + downBump r size) with hy
  clear_value y q
  set A := spot * (1 + size) with hA
  clear_value A
  have huA : 0 ≤ u * A := mul_nonneg hu0 hS
  have huuA : u * u * A ≤ 1 / 100 * u * A := mul_le_mul_of_nonneg_right huu hS
  have hP : |bumpSpot r size spot * y - spot * (1 - size)| ≤ 76 / 10 * u * A := by
    rw [← hqs, show bumpSpot r size spot * y - A * q = A * (y - q) + (bumpSpot r size spot - A) * y by ring]
    have hya : |y| ≤ 106 / 100 := by
      obtain ⟨b1, b2⟩ := abs_le.1 hY
      rw [abs_le]
      constructor <;> linarith
    calc |A * (y - q) + (bumpSpot r size spot - A) * y| ≤ |A * (y - q)| + |(bumpSpot r size spot - A) * y| := abs_add_le _ _
      _ = A * |y - q| + |bumpSpot r size spot - A| * |y| := by rw [abs_mul, abs_mul, abs_of_nonneg hS]
      _ ≤ A * (54 / 10 * u) + 201 / 100 * u * A * (106 / 100) := by gcongr
      _ ≤ _ := by linarith
  have hD := rnd_err r hP (b := A) (by
    rw [← hqs, abs_of_nonneg (mul_nonneg hS hq0)]
    exact mul_le_of_le_one_right hS hq1) (mul_nonneg (by linarith) hS)
  rw [← hud] at hD
  show |r.rnd (bumpSpot r size spot * r.rnd (1 + downBump r size)) - spot * (1 - size)| ≤ 20 * u * spot
  rw [← hy]
  have h2 : u * A ≤ u * (2 * spot) := mul_le_mul_of_nonneg_left hS2 hu0
  refine hD.trans ?_
  linarith

/-- C87: the error of delta. When the two prices are within `ε` of the values `U` and `D` that are meant, delta is within
`5 u |U - D| + 3 ε`, over twice the bump, of the slope between them. -/
theorem C87_slope_close {r : Rounding K} (hu : r.unit ≤ 1 / 100) {size spot up down U D ε : K} (hb : 0 < size * spot)
    (hU : |up - U| ≤ ε) (hD : |down - D| ≤ ε) :
    |slope r up down (r.rnd (size * spot)) - (U - D) / (2 * (size * spot))| ≤ (5 * r.unit * |U - D| + 3 * ε) / (2 * (size * spot)) := by
  have hu0 := r.unit_nonneg
  obtain ⟨e1, he1, q1⟩ := factor r (up - down)
  obtain ⟨e2, he2, q2⟩ := factor r (size * spot)
  obtain ⟨e3, he3, q3⟩ := factor r (2 * r.rnd (size * spot))
  obtain ⟨e4, he4, q4⟩ := factor r (r.rnd (up - down) / r.rnd (2 * r.rnd (size * spot)))
  set u := r.unit with hud
  clear_value u
  obtain ⟨l1, l1'⟩ := abs_le.1 he1
  obtain ⟨l2, l2'⟩ := abs_le.1 he2
  obtain ⟨l3, l3'⟩ := abs_le.1 he3
  obtain ⟨l4, l4'⟩ := abs_le.1 he4
  set h := size * spot with hh
  clear_value h
  have hden : 98 / 100 ≤ (1 + e2) * (1 + e3) := by nlinarith
  have hρ : |(1 + e1) * (1 + e4) / ((1 + e2) * (1 + e3)) - 1| ≤ 42 / 10 * u := by
    refine quotient_close (a := 402 / 100 * u) (by linarith) ?_ (by linarith)
    rw [abs_le]
    constructor <;> nlinarith
  set ρ := (1 + e1) * (1 + e4) / ((1 + e2) * (1 + e3)) with hρd
  have hs : slope r up down (r.rnd h) = (up - down) * ρ / (2 * h) := by
    unfold slope
    rw [q4, q3, q2, q1, hρd]
    have : (1 + e2) ≠ 0 := by linarith
    have : (1 + e3) ≠ 0 := by linarith
    field_simp
  rw [hs, ← sub_div, abs_div, abs_of_pos (by linarith : (0 : K) < 2 * h)]
  have hε : 0 ≤ ε := (abs_nonneg _).trans hU
  refine div_le_div_of_nonneg_right ?_ (by linarith)
  clear_value ρ
  have hdiff : |(up - down) - (U - D)| ≤ 2 * ε := by
    rw [show (up - down) - (U - D) = (up - U) - (down - D) by ring]
    refine (abs_sub _ _).trans (by linarith)
  have hρa : |ρ| ≤ 105 / 100 := by
    obtain ⟨b1, b2⟩ := abs_le.1 hρ
    rw [abs_le]
    constructor <;> linarith
  calc |(up - down) * ρ - (U - D)| = |((up - down) - (U - D)) * ρ + (U - D) * (ρ - 1)| := by ring_nf
    _ ≤ |(up - down) - (U - D)| * |ρ| + |U - D| * |ρ - 1| := by rw [← abs_mul, ← abs_mul]; exact abs_add_le _ _
    _ ≤ 2 * ε * (105 / 100) + |U - D| * (42 / 10 * u) := by gcongr
    _ ≤ _ := by nlinarith [mul_nonneg (abs_nonneg (U - D)) hu0]

theorem second_difference {up down mid U D M ε P u x y : K} (hu0 : 0 ≤ u) (hU : |up - U| ≤ ε) (hD : |down - D| ≤ ε) (hM : |mid - M| ≤ ε)
    (pu : |up| ≤ P) (pd : |down| ≤ P) (pm : |mid| ≤ P) (c1 : |x - (up + down)| ≤ u * |up + down|) (c2 : |y - 2 * mid| ≤ u * |2 * mid|) :
    |x - y - (U + D - 2 * M)| ≤ 4 * ε + 4 * u * P := by
  have b1 : |up + down| ≤ 2 * P := (abs_add_le _ _).trans (by linarith)
  have b2 : |2 * mid| ≤ 2 * P := by rw [abs_mul, abs_of_pos (by norm_num : (0 : K) < 2)]; linarith
  have b3 : |x - (up + down)| ≤ u * (2 * P) := c1.trans (by gcongr)
  have b4 : |y - 2 * mid| ≤ u * (2 * P) := c2.trans (by gcongr)
  obtain ⟨x1, x2⟩ := abs_le.1 b3
  obtain ⟨x3, x4⟩ := abs_le.1 b4
  obtain ⟨x5, x6⟩ := abs_le.1 hU
  obtain ⟨x7, x8⟩ := abs_le.1 hD
  obtain ⟨x9, x10⟩ := abs_le.1 hM
  rw [abs_le]
  constructor <;> linarith

/-- C87: the error of gamma. When the three prices are within `ε` of the values `U`, `D` and `M` that are meant and at most `P` in size,
gamma is within `6 u |U + D - 2 M| + 5 ε + 5 u P`, over the square of the bump, of the second difference. -/
theorem C87_curvature_close {r : Rounding K} (hu : r.unit ≤ 1 / 100) {size spot up down mid U D M ε P : K} (hb : 0 < size * spot)
    (hU : |up - U| ≤ ε) (hD : |down - D| ≤ ε) (hM : |mid - M| ≤ ε) (pu : |up| ≤ P) (pd : |down| ≤ P) (pm : |mid| ≤ P) :
    |curvature r up down mid (r.rnd (size * spot)) - (U + D - 2 * M) / (size * spot) ^ 2| ≤
      (6 * r.unit * |U + D - 2 * M| + 5 * ε + 5 * r.unit * P) / (size * spot) ^ 2 := by
  have hu0 := r.unit_nonneg
  obtain ⟨e1, he1, q1⟩ := factor r (r.rnd (up + down) - r.rnd (2 * mid))
  obtain ⟨e2, he2, q2⟩ := factor r (size * spot)
  obtain ⟨e3, he3, q3⟩ := factor r (r.rnd (size * spot) * r.rnd (size * spot))
  obtain ⟨e4, he4, q4⟩ := factor r (r.rnd (r.rnd (up + down) - r.rnd (2 * mid)) / r.rnd (r.rnd (size * spot) * r.rnd (size * spot)))
  have c1 := r.close (up + down)
  have c2 := r.close (2 * mid)
  set u := r.unit with hud
  clear_value u
  obtain ⟨l1, l1'⟩ := abs_le.1 he1
  obtain ⟨l2, l2'⟩ := abs_le.1 he2
  obtain ⟨l3, l3'⟩ := abs_le.1 he3
  obtain ⟨l4, l4'⟩ := abs_le.1 he4
  set h := size * spot with hh
  clear_value h
  have huu : u * u ≤ 1 / 100 * u := mul_le_mul_of_nonneg_right hu hu0
  have hsq : |(1 + e2) ^ 2 - 1| ≤ 201 / 100 * u := by
    rw [sq]
    exact (product_close (by simpa using he2) (by simpa using he2)).trans (by linarith)
  have hn : |(1 + e1) * (1 + e4) - 1| ≤ 201 / 100 * u :=
    (product_close (by simpa using he1) (by simpa using he4)).trans (by linarith)
  have hd : |(1 + e2) ^ 2 * (1 + e3) - 1| ≤ 304 / 100 * u :=
    (product_close hsq (by simpa using he3)).trans (by linarith)
  have hden : 96 / 100 ≤ (1 + e2) ^ 2 * (1 + e3) := by
    obtain ⟨b1, _⟩ := abs_le.1 hd
    linarith
  have hρ : |(1 + e1) * (1 + e4) / ((1 + e2) ^ 2 * (1 + e3)) - 1| ≤ 53 / 10 * u := by
    refine quotient_close (a := 505 / 100 * u) hden ?_ (by linarith only [hu0])
    rw [show (1 + e1) * (1 + e4) - (1 + e2) ^ 2 * (1 + e3) = ((1 + e1) * (1 + e4) - 1) - ((1 + e2) ^ 2 * (1 + e3) - 1) by ring]
    refine (abs_sub _ _).trans (by linarith)
  set ρ := (1 + e1) * (1 + e4) / ((1 + e2) ^ 2 * (1 + e3)) with hρd
  set N := r.rnd (up + down) - r.rnd (2 * mid) with hN
  have hs : curvature r up down mid (r.rnd h) = N * ρ / h ^ 2 := by
    unfold curvature
    rw [← hN, q4, q3, q2, q1, hρd]
    have : (1 + e2) ≠ 0 := by linarith
    have : (1 + e3) ≠ 0 := by linarith
    field_simp
  have hNd : |N - (U + D - 2 * M)| ≤ 4 * ε + 4 * u * P := hN ▸ second_difference hu0 hU hD hM pu pd pm c1 c2
  rw [hs, ← sub_div, abs_div, abs_of_pos (by positivity : (0 : K) < h ^ 2)]
  have hε : 0 ≤ ε := (abs_nonneg _).trans hU
  have hP : 0 ≤ P := (abs_nonneg _).trans pu
  refine div_le_div_of_nonneg_right ?_ (by positivity)
  clear_value ρ N
  have hρa : |ρ| ≤ 106 / 100 := by
    obtain ⟨b1, b2⟩ := abs_le.1 hρ
    rw [abs_le]
    constructor <;> linarith
  calc |N * ρ - (U + D - 2 * M)| = |(N - (U + D - 2 * M)) * ρ + (U + D - 2 * M) * (ρ - 1)| := by ring_nf
    _ ≤ |N - (U + D - 2 * M)| * |ρ| + |U + D - 2 * M| * |ρ - 1| := by rw [← abs_mul, ← abs_mul]; exact abs_add_le _ _
    _ ≤ (4 * ε + 4 * u * P) * (106 / 100) + |U + D - 2 * M| * (53 / 10 * u) := by gcongr
    _ ≤ _ := by nlinarith [mul_nonneg (abs_nonneg (U + D - 2 * M)) hu0, mul_nonneg hu0 hP]

/-- C87: a holding of `w` shares has a delta of `w` and no gamma, up to rounding errors divided by the bump and by its square. -/
theorem C87_shares {r : Rounding K} (hu : r.unit ≤ 1 / 100) {size spot : K} (h0 : 0 < size) (h1 : size ≤ 1) (hs : 0 < spot) (w : K) :
    |(deltaGamma r size (fun s => r.rnd (w * s)) spot).1 - w| ≤ 40 * r.unit / size * |w| ∧
    |(deltaGamma r size (fun s => r.rnd (w * s)) spot).2| ≤ 150 * r.unit / size ^ 2 * (|w| / spot) := by
  have hu0 := r.unit_nonneg
  obtain ⟨cu, cd⟩ := C87_spots_close hu h0.le h1 hs.le
  have hb : 0 < size * spot := mul_pos h0 hs
  set up := bumpSpot r size spot with hupd
  set dn := bumpSpot r (downBump r size) up with hdnd
  have hval : ∀ {s t : K}, |s - t| ≤ 20 * r.unit * spot → |t| ≤ 2 * spot → |r.rnd (w * s) - w * t| ≤ 23 * r.unit * (|w| * spot) := by
    intro s t hst ht
    have ha : |w * s - w * t| ≤ |w| * (20 * r.unit * spot) := by
      rw [← mul_sub, abs_mul]
      gcongr
    have := rnd_err r ha (b := |w| * (2 * spot)) (by rw [abs_mul]; gcongr) (by positivity)
    refine this.trans ?_
    have hx : 0 ≤ |w| * spot := by positivity
    nlinarith [mul_nonneg hu0 hx]
  have eU := hval cu (by rw [abs_of_nonneg (by positivity)]; nlinarith)
  have eD := hval cd (by rw [abs_of_nonneg (mul_nonneg hs.le (by linarith))]; nlinarith)
  have eM := hval (s := spot) (t := spot) (by rw [sub_self, abs_zero]; positivity) (by rw [abs_of_pos hs]; linarith)
  have hx : 0 ≤ |w| * spot := by positivity
  have hP : ∀ {p t : K}, |p - w * t| ≤ 23 * r.unit * (|w| * spot) → |t| ≤ 2 * spot → |p| ≤ 223 / 100 * (|w| * spot) := by
    intro p t hp ht
    have h2 : |w * t| ≤ |w| * (2 * spot) := by rw [abs_mul]; gcongr
    have h3 := abs_sub_abs_le_abs_sub p (w * t)
    nlinarith
  have pU := hP eU (by rw [abs_of_nonneg (by positivity)]; nlinarith)
  have pD := hP eD (by rw [abs_of_nonneg (mul_nonneg hs.le (by linarith))]; nlinarith)
  have pM := hP eM (by rw [abs_of_pos hs]; linarith)
  constructor
  · have := C87_slope_close hu hb eU eD
    rw [show (w * (spot * (1 + size)) - w * (spot * (1 - size))) / (2 * (size * spot)) = w by field_simp; ring,
      show w * (spot * (1 + size)) - w * (spot * (1 - size)) = w * (2 * (size * spot)) by ring] at this
    refine this.trans ?_
    rw [abs_mul, abs_of_pos (by linarith : (0 : K) < 2 * (size * spot)), div_le_iff₀ (by linarith),
      show 40 * r.unit / size * |w| * (2 * (size * spot)) = 80 * r.unit * (|w| * spot) by field_simp; ring]
    nlinarith [mul_nonneg hu0 hx, mul_nonneg (mul_nonneg hu0 hx) (sub_nonneg.2 h1)]
  · have := C87_curvature_close hu hb eU eD eM pU pD pM
    rw [show w * (spot * (1 + size)) + w * (spot * (1 - size)) - 2 * (w * spot) = 0 by ring, zero_div, sub_zero, abs_zero] at this
    refine this.trans ?_
    rw [div_le_iff₀ (by positivity),
      show 150 * r.unit / size ^ 2 * (|w| / spot) * (size * spot) ^ 2 = 150 * r.unit * (|w| * spot) by field_simp]
    nlinarith [mul_nonneg hu0 hx]

/-! ## `f64` -/

/-- The `f64` nearest to one hundredth of a millionth. -/
def tiny : ℚ := 3022314549036573 / 2 ^ 78

/-- The `f64` nearest to 0.01. -/
def percent : ℚ := 5764607523034235 / 2 ^ 59

/-- C87 violated: with a bump of one hundredth of a millionth the gamma of a price that is the square of the spot, which is two, is
reported as nothing at a spot of 100 and as less than minus six at a spot of 875. -/
theorem C87_gamma_false : f64.IsFloat tiny ∧ (deltaGamma f64 tiny (fun s => f64.rnd (s * s)) 100).2 = 0 ∧
    (deltaGamma f64 tiny (fun s => f64.rnd (s * s)) 875).2 < -6 := by
  refine ⟨show f64.rnd tiny = tiny from ?_, ?_, ?_⟩ <;> decide +kernel

/-- C87: with a bump of one percent the delta of a share at 100 is one to within a millionth of a millionth, and its gamma is as small. -/
example : |(deltaGamma f64 percent (fun s => f64.rnd (1 * s)) 100).1 - 1| ≤ 1 / 10 ^ 12 ∧
    |(deltaGamma f64 percent (fun s => f64.rnd (1 * s)) 100).2| ≤ 1 / 10 ^ 11 := by
  have hu : f64.unit = (1 / 2) ^ 53 := rfl
  obtain ⟨h1, h2⟩ := C87_shares (r := f64) (by rw [hu]; norm_num) (size := percent) (spot := 100) (by unfold percent; norm_num)
    (by unfold percent; norm_num) (by norm_num) 1
  rw [hu] at h1 h2
  exact ⟨h1.trans (by unfold percent; norm_num), h2.trans (by unfold percent; norm_num)⟩

/-- C87: the hypotheses of the theorems on signs are met by a call at expiry. -/
example : 0 ≤ (deltaGamma f64 percent (fun s => max (f64.rnd (s - 90)) 0) 100).1 :=
  (C87_delta_sign f64 (by unfold percent; norm_num) (by unfold percent; norm_num) (by norm_num)).1
    (fun _ _ h => max_le_max (f64.mono _ _ (by linarith)) le_rfl)

end QM.Rounded
