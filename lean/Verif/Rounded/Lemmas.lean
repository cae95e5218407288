import Verif.Rounded.Spec
import Mathlib.Tactic.Linarith
import Mathlib.Tactic.Ring
import Mathlib.Tactic.FieldSimp
import Mathlib.Tactic.Positivity
import Mathlib.Tactic.NormNum

/-!
# Rounding to binary digits is a rounding
-/

namespace QM.Rounded

variable {K : Type} [Field K] [LinearOrder K] [IsStrictOrderedRing K]

section
variable [FloorRing K]

theorem nearest_int (n : ℤ) : nearest (n : K) = n := by
  unfold nearest
  rw [Int.floor_intCast, sub_self, if_pos (by positivity)]

theorem nearest_close (x : K) : |(nearest x : K) - x| ≤ 1 / 2 := by
  have h1 := Int.floor_le x
  have h2 := Int.lt_floor_add_one x
  unfold nearest
  rw [abs_le]
  split_ifs <;> push_cast <;> constructor <;> linarith

theorem nearest_mono {x y : K} (h : x ≤ y) : nearest x ≤ nearest y := by
  have hf := Int.floor_mono h
  have lo : ∀ z : K, ⌊z⌋ ≤ nearest z := by
    intro z; unfold nearest; split_ifs <;> omega
  have hi : ∀ z : K, nearest z ≤ ⌊z⌋ + 1 := by
    intro z; unfold nearest; split_ifs <;> omega
  rcases lt_or_eq_of_le hf with hl | he
  · exact (hi x).trans (by have := lo y; omega)
  · unfold nearest
    rw [← he]
    split_ifs <;> first | omega | (exfalso; linarith)

theorem nearest_neg (x : K) : nearest (-x) = -nearest x := by
  have h1 := Int.floor_le x
  have h2 := Int.lt_floor_add_one x
  by_cases hx : x = ⌊x⌋
  · rw [hx, ← Int.cast_neg, nearest_int, nearest_int]
  · have hlt : (⌊x⌋ : K) < x := lt_of_le_of_ne h1 (Ne.symm hx)
    have hn : ⌊-x⌋ = -⌊x⌋ - 1 := by
      rw [Int.floor_eq_iff]
      push_cast
      constructor <;> linarith
    unfold nearest
    rw [hn]
    push_cast
    split_ifs <;> first | omega | (exfalso; linarith)

theorem lastBit_pos (p : ℕ) (x : K) : 0 < lastBit p x := zpow_pos (by norm_num) _

theorem lastBit_neg (p : ℕ) (x : K) : lastBit p (-x) = lastBit p x := by unfold lastBit; rw [abs_neg]

theorem toBits_neg (p : ℕ) (x : K) : toBits p (-x) = -toBits p x := by
  unfold toBits
  rw [lastBit_neg, neg_div, nearest_neg]
  push_cast
  ring

theorem toBits_zero (p : ℕ) : toBits p (0 : K) = 0 := by
  unfold toBits
  rw [zero_div, show (0 : K) = ((0 : ℤ) : K) by norm_num, nearest_int]
  norm_num

theorem log_le {x : K} (hx : x ≠ 0) : (2 : K) ^ Int.log 2 |x| ≤ |x| := by
  have := Int.zpow_log_le_self (b := 2) (R := K) (by norm_num) (abs_pos.2 hx)
  simpa using this

theorem lt_log (x : K) : |x| < (2 : K) ^ (Int.log 2 |x| + 1) := by
  have := Int.lt_zpow_succ_log_self (b := 2) (R := K) (by norm_num) |x|
  simpa using this

/-- The number of last bits in a number lies between the two powers of two. -/
theorem scaled {p : ℕ} {x : K} (hx : x ≠ 0) :
    (2 : K) ^ ((p : ℤ) - 1) ≤ |x / lastBit p x| ∧ |x / lastBit p x| < 2 ^ (p : ℤ) := by
  have hb := lastBit_pos p x
  rw [abs_div, abs_of_pos hb, le_div_iff₀ hb, div_lt_iff₀ hb]
  unfold lastBit
  rw [← zpow_add₀ (by norm_num), ← zpow_add₀ (by norm_num)]
  have e1 : (p : ℤ) - 1 + (Int.log 2 |x| - (p - 1)) = Int.log 2 |x| := by ring
  have e2 : (p : ℤ) + (Int.log 2 |x| - (p - 1)) = Int.log 2 |x| + 1 := by ring
  rw [e1, e2]
  exact ⟨log_le hx, lt_log x⟩

/-- Every whole multiple, at most `2 ^ p`, of a power of two is unchanged. -/
theorem toBits_exact {p : ℕ} (hp : 0 < p) (m k : ℤ) (hm : |m| ≤ 2 ^ p) :
    toBits p ((m : K) * 2 ^ k) = m * 2 ^ k := by
  by_cases hm0 : m = 0
  · subst hm0; simp [toBits_zero]
  set x : K := (m : K) * 2 ^ k with hxd
  have hx : x ≠ 0 := mul_ne_zero (by exact_mod_cast hm0) (zpow_ne_zero _ (by norm_num))
  have hxa : |x| ≤ 2 ^ ((p : ℤ) + k) := by
    rw [hxd, abs_mul, abs_of_pos (zpow_pos (by norm_num : (0 : K) < 2) k), zpow_add₀ (by norm_num), zpow_natCast]
    have : |(m : K)| ≤ 2 ^ p := by exact_mod_cast hm
    gcongr
  have he : Int.log 2 |x| ≤ p + k := by
    by_contra hc
    push Not at hc
    have h1 := (log_le hx).trans hxa
    exact absurd (zpow_lt_zpow_right₀ (by norm_num : (1 : K) < 2) hc) (not_lt.2 h1)
  have hwhole : ∃ n : ℤ, x / lastBit p x = n := by
    rcases lt_or_eq_of_le he with hl | heq
    · refine ⟨m * 2 ^ (k - (Int.log 2 |x| - (p - 1))).toNat, ?_⟩
      unfold lastBit
      rw [div_eq_iff (zpow_ne_zero _ (by norm_num))]
      push_cast
      rw [← zpow_natCast, Int.toNat_of_nonneg (by omega), mul_assoc, ← zpow_add₀ (by norm_num), sub_add_cancel]
    · have h1 := log_le hx
      rw [heq] at h1
      have hxe : |x| = 2 ^ ((p : ℤ) + k) := le_antisymm hxa h1
      have hq : (2 : K) ^ ((p : ℤ) + k) / 2 ^ ((p : ℤ) + k - (p - 1)) = ((2 ^ (p - 1) : ℤ) : K) := by
        rw [div_eq_iff (zpow_ne_zero _ (by norm_num))]
        push_cast
        rw [← zpow_natCast, ← zpow_add₀ (by norm_num)]
        congr 1
        omega
      unfold lastBit
      rw [heq]
      rcases abs_choice x with h | h
      · exact ⟨2 ^ (p - 1), by rw [h] at hxe; rw [hxe]; exact hq⟩
      · refine ⟨-2 ^ (p - 1), ?_⟩
        rw [h] at hxe
        rw [show x = -(2 ^ ((p : ℤ) + k)) by linarith, neg_div, hq]
        push_cast
        ring
  obtain ⟨n, hn⟩ := hwhole
  unfold toBits
  rw [hn, nearest_int, ← hn, div_mul_cancel₀ _ (lastBit_pos p x).ne']

theorem nearest_scaled {p : ℕ} {x : K} (hx : x ≠ 0) (hp : 0 < p) :
    2 ^ (p - 1) ≤ |nearest (x / lastBit p x)| ∧ |nearest (x / lastBit p x)| ≤ 2 ^ p := by
  have key : ∀ y : K, 0 ≤ y → (2 : K) ^ ((p : ℤ) - 1) ≤ y → y < 2 ^ (p : ℤ) →
      2 ^ (p - 1) ≤ |nearest y| ∧ |nearest y| ≤ 2 ^ p := by
    intro y h0 h1 h2
    have e1 : (2 : K) ^ ((p : ℤ) - 1) = ((2 ^ (p - 1) : ℤ) : K) := by
      push_cast
      rw [← zpow_natCast]
      congr 1
      omega
    have e2 : (2 : K) ^ (p : ℤ) = ((2 ^ p : ℤ) : K) := by push_cast; rw [zpow_natCast]
    have l := nearest_mono (e1 ▸ h1)
    have u := nearest_mono (e2 ▸ h2.le)
    rw [nearest_int] at l u
    have : (0 : ℤ) < 2 ^ (p - 1) := by positivity
    rw [abs_of_nonneg (by omega)]
    exact ⟨l, u⟩
  have h := scaled (p := p) hx
  rcases abs_choice (x / lastBit p x) with ha | ha
  · rw [ha] at h
    exact key _ (ha ▸ abs_nonneg _) h.1 h.2
  · rw [ha] at h
    have := key _ (ha ▸ abs_nonneg _) h.1 h.2
    rwa [nearest_neg, abs_neg] at this

theorem toBits_idem {p : ℕ} (hp : 0 < p) (x : K) : toBits p (toBits p x) = toBits p x := by
  by_cases hx : x = 0
  · rw [hx, toBits_zero, toBits_zero]
  · have := (nearest_scaled (p := p) hx hp).2
    exact toBits_exact hp _ _ this

theorem toBits_close {p : ℕ} (x : K) : |toBits p x - x| ≤ (1 / 2) ^ p * |x| := by
  by_cases hx : x = 0
  · rw [hx, toBits_zero]; simp
  have hb := lastBit_pos p x
  have h := nearest_close (x / lastBit p x)
  have e : toBits p x - x = (nearest (x / lastBit p x) - x / lastBit p x) * lastBit p x := by
    unfold toBits
    rw [sub_mul, div_mul_cancel₀ _ hb.ne']
  rw [e, abs_mul, abs_of_pos hb]
  have h2 : lastBit p x / 2 ≤ (1 / 2) ^ p * |x| := by
    have hl := log_le hx
    have : lastBit p x / 2 = (1 / 2) ^ p * 2 ^ Int.log 2 |x| := by
      unfold lastBit
      rw [one_div, inv_pow, ← zpow_natCast, ← zpow_neg, ← zpow_add₀ (by norm_num)]
      nth_rewrite 2 [← zpow_one (2 : K)]
      rw [← zpow_sub₀ (by norm_num)]
      congr 1
      ring
    rw [this]
    gcongr
  calc _ ≤ 1 / 2 * lastBit p x := by gcongr
    _ = lastBit p x / 2 := by ring
    _ ≤ _ := h2

theorem toBits_nonneg {p : ℕ} {x : K} (hx : 0 ≤ x) : 0 ≤ toBits p x := by
  unfold toBits
  have hb := lastBit_pos p x
  have : nearest ((0 : ℤ) : K) ≤ nearest (x / lastBit p x) := nearest_mono (by push_cast; positivity)
  rw [nearest_int] at this
  have : (0 : K) ≤ nearest (x / lastBit p x) := by exact_mod_cast this
  positivity

theorem toBits_mono_pos {p : ℕ} (hp : 0 < p) {x y : K} (hx : 0 < x) (h : x ≤ y) : toBits p x ≤ toBits p y := by
  have hy : 0 < y := hx.trans_le h
  have hlog : Int.log 2 |x| ≤ Int.log 2 |y| := by
    rw [abs_of_pos hx, abs_of_pos hy]; exact Int.log_mono_right hx h
  rcases lt_or_eq_of_le hlog with hl | he
  · have a := (nearest_scaled (p := p) hx.ne' hp).2
    have b := (nearest_scaled (p := p) hy.ne' hp).1
    have hb := lastBit_pos p x
    have hc := lastBit_pos p y
    have b' : ((2 ^ (p - 1) : ℤ) : K) ≤ nearest (y / lastBit p y) := by
      have h0 : (0 : ℤ) ≤ nearest (y / lastBit p y) := by
        have : nearest ((0 : ℤ) : K) ≤ nearest (y / lastBit p y) := nearest_mono (by push_cast; positivity)
        rwa [nearest_int] at this
      rw [abs_of_nonneg h0] at b
      exact_mod_cast b
    have a' : (nearest (x / lastBit p x) : K) ≤ ((2 ^ p : ℤ) : K) := by exact_mod_cast (le_abs_self _).trans a
    calc toBits p x ≤ ((2 ^ p : ℤ) : K) * lastBit p x := by unfold toBits; gcongr
      _ = 2 ^ (Int.log 2 |x| + 1) := by
          unfold lastBit
          push_cast
          rw [← zpow_natCast, ← zpow_add₀ (by norm_num)]
          congr 1; ring
      _ ≤ 2 ^ (Int.log 2 |y|) := zpow_le_zpow_right₀ (by norm_num) (by omega)
      _ = ((2 ^ (p - 1) : ℤ) : K) * lastBit p y := by
          unfold lastBit
          push_cast
          rw [← zpow_natCast, ← zpow_add₀ (by norm_num)]
          congr 1; omega
      _ ≤ toBits p y := by unfold toBits; gcongr
  · have hb := lastBit_pos p x
    have hs : lastBit p y = lastBit p x := by unfold lastBit; rw [he]
    unfold toBits
    rw [hs]
    have : (nearest (x / lastBit p x) : K) ≤ nearest (y / lastBit p x) := by
      exact_mod_cast nearest_mono (by gcongr)
    gcongr

theorem toBits_mono {p : ℕ} (hp : 0 < p) {x y : K} (h : x ≤ y) : toBits p x ≤ toBits p y := by
  rcases lt_or_ge 0 x with hx | hx
  · exact toBits_mono_pos hp hx h
  · rcases lt_or_ge y 0 with hy | hy
    · have := toBits_mono_pos hp (x := -y) (y := -x) (by linarith) (by linarith)
      rw [toBits_neg, toBits_neg] at this
      linarith
    · have a := toBits_nonneg (p := p) (x := -x) (by linarith)
      rw [toBits_neg] at a
      exact (by linarith : toBits p x ≤ 0).trans (toBits_nonneg hy)

/-- Rounding to `p` bits, for `p` large enough to hold a date. -/
def Rounding.binary (K : Type) [Field K] [LinearOrder K] [IsStrictOrderedRing K] [FloorRing K] (p : ℕ) (hp : 32 ≤ p) :
    Rounding K where
  rnd := toBits p
  unit := (1 / 2) ^ p
  mono _ _ := toBits_mono (by omega)
  idem := toBits_idem (by omega)
  neg := toBits_neg p
  int n hn := by
    have := toBits_exact (K := K) (p := p) (by omega) n 0
      (hn.trans (pow_le_pow_right₀ (by norm_num) hp))
    simpa using this
  close := toBits_close
  small := pow_lt_one₀ (by norm_num) (by norm_num) (by omega)

end

variable (r : Rounding K)

theorem Rounding.zero : r.rnd 0 = 0 := by simpa using r.int 0 (by norm_num)

theorem Rounding.one : r.rnd 1 = 1 := by simpa using r.int 1 (by norm_num)

theorem Rounding.pos {x : K} (hx : 0 < x) : 0 < r.rnd x := by
  have h := r.close x
  rw [abs_of_pos hx, abs_le] at h
  have := r.small
  nlinarith

theorem Rounding.nonneg {x : K} (hx : 0 ≤ x) : 0 ≤ r.rnd x := by
  have := r.mono 0 x hx
  rwa [r.zero] at this

theorem Rounding.nonpos {x : K} (hx : x ≤ 0) : r.rnd x ≤ 0 := by
  have := r.mono x 0 hx
  rwa [r.zero] at this

theorem Rounding.unit_nonneg : 0 ≤ r.unit := by
  have := r.close 1
  rw [abs_one, mul_one] at this
  exact (abs_nonneg _).trans this

end QM.Rounded
