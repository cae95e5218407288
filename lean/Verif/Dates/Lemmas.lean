import Verif.Dates.Model
import Verif.Dates.Spec

/-!
# Helper lemmas for the date conversions
-/

namespace QM.Dates
open QM.Dates.Spec

/-- day number of a triple -/
def dayNo (t : Ymd) : Int := fromYmd t.1 t.2.1 t.2.2

theorem month_cases {m : Int} (h1 : 1 ≤ m) (h2 : m ≤ 12) :
    m = 1 ∨ m = 2 ∨ m = 3 ∨ m = 4 ∨ m = 5 ∨ m = 6 ∨ m = 7 ∨ m = 8 ∨ m = 9 ∨ m = 10 ∨ m = 11 ∨ m = 12 := by
  omega

/-- Days before 1 March of year `y`, up to a constant. -/
def yearStart (y : Int) : Int := 1461 * (y + 4800) / 4 - 3 * ((y + 4900) / 100) / 4

theorem yearStart_succ (y : Int) :
    yearStart y = yearStart (y - 1) + 365 + (if isLeap y then 1 else 0) := by
  have a1 : 1461 * (y + 4800) / 4 - 1461 * (y - 1 + 4800) / 4 = 365 + (if y % 4 = 0 then 1 else 0) := by
    obtain ⟨q, r, h0, h3, rfl⟩ : ∃ q r, 0 ≤ r ∧ r < 4 ∧ y = 4 * q + r := ⟨y / 4, y % 4, by omega, by omega, by omega⟩
    rcases (by omega : r = 0 ∨ r = 1 ∨ r = 2 ∨ r = 3) with h | h | h | h <;> subst h <;> split <;> omega
  have a2 : 3 * ((y + 4900) / 100) / 4 - 3 * ((y - 1 + 4900) / 100) / 4
      = (if y % 100 = 0 ∧ y % 400 ≠ 0 then 1 else 0) := by
    by_cases h : y % 100 = 0
    · obtain ⟨q, rfl⟩ : ∃ q, y = 100 * q := ⟨y / 100, by omega⟩
      have b1 : (100 * q + 4900) / 100 = q + 49 := by omega
      have b2 : (100 * q - 1 + 4900) / 100 = q + 48 := by omega
      rw [b1, b2]
      obtain ⟨p, r, h0, h3, rfl⟩ : ∃ p r, 0 ≤ r ∧ r < 4 ∧ q = 4 * p + r := ⟨q / 4, q % 4, by omega, by omega, by omega⟩
      rcases (by omega : r = 0 ∨ r = 1 ∨ r = 2 ∨ r = 3) with h | h | h | h <;> subst h <;> split <;> omega
    · have b : (y - 1 + 4900) / 100 = (y + 4900) / 100 := by omega
      rw [b]; simp [h]
  unfold yearStart isLeap
  by_cases h4 : y % 4 = 0 <;> by_cases h100 : y % 100 = 0 <;> by_cases h400 : y % 400 = 0 <;>
    simp [h4, h100, h400] at a1 a2 ⊢ <;> omega

theorem yearStart_mono_nat (y : Int) (k : Nat) : yearStart y + 365 * k ≤ yearStart (y + k) := by
  induction k with
  | zero => simp
  | succ k ih =>
    have h := yearStart_succ (y + (k + 1 : Nat))
    have e : y + (k + 1 : Nat) - 1 = y + k := by omega
    rw [e] at h
    split at h <;> omega

theorem yearStart_mono {y y' : Int} (h : y ≤ y') : yearStart y + 365 * (y' - y) ≤ yearStart y' := by
  have := yearStart_mono_nat y (y' - y).toNat
  have e : ((y' - y).toNat : Int) = y' - y := by omega
  rw [e] at this
  have e2 : y + (y' - y) = y' := by omega
  rwa [e2] at this

/-- Closed form, one month at a time. -/
theorem fromYmd_eq (y m d : Int) (hy : -4800 < y) (h1 : 1 ≤ m) (h2 : m ≤ 12) :
    fromYmd y m d = if m ≤ 2 then
      d - 2472075 + yearStart (y - 1) + (367 * (m + 10)) / 12
      else d - 2472075 + yearStart y + (367 * (m - 2)) / 12 := by
  unfold fromYmd truncatedJulianFromYmd yearStart
  split
  · have : (m - 14).tdiv 12 = -1 := by
      rcases month_cases h1 h2 with h|h|h|h|h|h|h|h|h|h|h|h <;> subst h <;> simp at * 
    simp only [this]
    rw [Int.tdiv_eq_ediv_of_nonneg (a := y + 4900 + -1) (by omega), Int.tdiv_eq_ediv_of_nonneg (by omega), Int.tdiv_eq_ediv_of_nonneg (by omega),
       Int.tdiv_eq_ediv_of_nonneg (by omega)]
    have e1 : y + 4900 + -1 = y - 1 + 4900 := by omega
    have e2 : y + 4800 + -1 = y - 1 + 4800 := by omega
    have e3 : m - 2 - -1 * 12 = m + 10 := by omega
    rw [e1, e2, e3]; omega
  · have : (m - 14).tdiv 12 = 0 := by
      rcases month_cases h1 h2 with h|h|h|h|h|h|h|h|h|h|h|h <;> subst h <;> simp at * 
    simp only [this]
    rw [Int.tdiv_eq_ediv_of_nonneg (a := y + 4900 + 0) (by omega), Int.tdiv_eq_ediv_of_nonneg (by omega), Int.tdiv_eq_ediv_of_nonneg (by omega),
       Int.tdiv_eq_ediv_of_nonneg (by omega)]
    have e3 : m - 2 - 0 * 12 = m - 2 := by omega
    rw [e3, Int.add_zero, Int.add_zero]; omega

/-- Length of every month, February via the leap flag. -/
theorem daysInMonth_le (y m : Int) : daysInMonth y m ≤ 31 := by
  unfold daysInMonth; split <;> (try split) <;> omega

theorem isDay_next (t : Ymd) (h : IsDay t) : IsDay (next t) := by
  obtain ⟨y, m, d⟩ := t
  obtain ⟨h1,h2,h3,h4⟩ := h
  simp only at h1 h2 h3 h4
  have hpos : ∀ y m, 1 ≤ daysInMonth y m := by
    intro y m; unfold daysInMonth; split <;> (try split) <;> omega
  unfold next IsDay; simp only
  have := hpos y (m+1); have := hpos (y+1) 1
  split
  · simp only; omega
  · split <;> simp only <;> omega

theorem next_year_lb (t : Ymd) : t.1 ≤ (next t).1 := by
  unfold next; split
  · simp
  · split <;> simp <;> omega

theorem dayNo_next (t : Ymd) (hy : -4800 < t.1) (h : IsDay t) :
   dayNo (next t) = dayNo t + 1 := by
  obtain ⟨y, m, d⟩ := t
  obtain ⟨h1,h2,h3,h4⟩ := h
  simp only at h1 h2 h3 h4 hy
  unfold dayNo next
  simp only
  split
  · rw [fromYmd_eq _ _ _ (by omega) h1 h2, fromYmd_eq _ _ _ (by omega) h1 h2]
    simp only; split <;> omega
  · have hd : d = daysInMonth y m := by omega
    subst hd
    split
    · simp only
      rw [fromYmd_eq _ _ _ (by omega) (by omega) (by omega), fromYmd_eq _ _ _ (by omega) h1 h2]
      have := yearStart_succ y
      rcases month_cases h1 h2 with h|h|h|h|h|h|h|h|h|h|h|h <;> subst h <;> simp [daysInMonth] <;> (try split at this) <;> simp_all <;> omega
    · have : m = 12 := by omega
      subst this
      simp only
      rw [fromYmd_eq _ _ _ (by omega) (by omega) (by omega), fromYmd_eq _ _ _ (by omega) h1 h2]
      have e : y + 1 - 1 = y := by omega
      simp [daysInMonth, e]; omega

/-- Position of the start of the month within the March-based year, and its end. -/
theorem dayNo_bounds (y m d : Int) (hy : -4800 < y) (h : IsDay (y,m,d)) :
    fromYmd y m 1 ≤ fromYmd y m d ∧ fromYmd y m d ≤ fromYmd y m 1 + daysInMonth y m - 1 := by
  obtain ⟨h1,h2,h3,h4⟩ := h
  simp only at h1 h2 h3 h4
  rw [fromYmd_eq _ _ _ hy h1 h2, fromYmd_eq _ _ _ hy h1 h2]
  split <;> omega

theorem dayNo_lt {s t : Ymd} (hs : IsDay s) (ht : IsDay t) (hy : -4800 < s.1) (h : Before s t) :
    dayNo s < dayNo t := by
  obtain ⟨y, m, d⟩ := s
  obtain ⟨y', m', d'⟩ := t
  have hy' : -4800 < y' := by simp only [Before] at h; simp only at hy; omega
  unfold dayNo
  rw [fromYmd_eq _ _ _ hy' ht.1 ht.2.1, fromYmd_eq _ _ _ hy hs.1 hs.2.1]
  obtain ⟨h1,h2,h3,h4⟩ := hs
  obtain ⟨g1,g2,g3,g4⟩ := ht
  simp only [Before] at *
  have u1 := daysInMonth_le y m
  by_cases hyy : y = y'
  · subst hyy
    by_cases hmm : m = m'
    · subst hmm; split <;> omega
    · have hlt : m < m' := by omega
      clear hmm h g4
      have ys := yearStart_succ y
      by_cases hl : isLeap y = true
      · rcases month_cases h1 h2 with h|h|h|h|h|h|h|h|h|h|h|h <;> subst h <;> simp [daysInMonth, hl] at * <;>
         (try split) <;> omega
      · rcases month_cases h1 h2 with h|h|h|h|h|h|h|h|h|h|h|h <;> subst h <;> simp [daysInMonth, hl] at * <;>
         (try split) <;> omega
  · have hlt : y < y' := by omega
    have ys := yearStart_succ y
    have ym := yearStart_mono (y := y) (y' := y' - 1) (by omega)
    have ym2 := yearStart_succ y'
    clear h g4 hyy
    generalize yearStart y' = Y' at *
    generalize yearStart (y'-1) = Y1 at *
    generalize yearStart (y-1) = Y0 at *
    have a1 : Y1 + 365 ≤ Y' := by split at ym2 <;> omega
    have a2 : Y0 + 365 ≤ yearStart y := by split at ys <;> omega
    split <;> split <;> omega


/-- The stages of `ymd_from_truncated_julian`, with floor division. -/
theorem ymd_stages (j : Int) (hj : -2508569 < j) :
    ∃ n l2 i1 l3 j1 k1 : Int,
      0 ≤ n ∧ 0 ≤ l2 ∧ l2 ≤ 36524 ∧
      j + 2508569 = l2 + (146097 * n + 3) / 4 ∧
      (l2 = 36524 → n % 4 = 0) ∧
      0 ≤ i1 ∧ i1 ≤ 99 ∧ l3 = l2 - (1461 * i1) / 4 + 31 ∧ 31 ≤ l3 ∧ l3 ≤ 396 ∧
      (l3 = 396 → i1 % 4 = 3) ∧
      j1 = 80 * l3 / 2447 ∧ k1 = l3 - 2447 * j1 / 80 ∧
      ymd j = (100 * (n - 49) + i1 + j1 / 11, j1 + 2 - 12 * (j1 / 11), k1) := by
  obtain ⟨l1, hl1⟩ : ∃ l1, l1 = j + 2508569 := ⟨_, rfl⟩
  obtain ⟨n, hn⟩ : ∃ n, n = 4 * l1 / 146097 := ⟨_, rfl⟩
  have hn0 : 0 ≤ n := by omega
  obtain ⟨l2, hl2⟩ : ∃ l2, l2 = l1 - (146097 * n + 3) / 4 := ⟨_, rfl⟩
  have b2 : 0 ≤ l2 ∧ l2 ≤ 36524 ∧ (l2 = 36524 → n % 4 = 0) := by
    obtain ⟨q, r, h0, h3, rfl⟩ : ∃ q r, 0 ≤ r ∧ r < 4 ∧ n = 4 * q + r := ⟨n / 4, n % 4, by omega, by omega, by omega⟩
    rcases (by omega : r = 0 ∨ r = 1 ∨ r = 2 ∨ r = 3) with h | h | h | h <;> subst h <;> omega
  obtain ⟨i1, hi1⟩ : ∃ i1, i1 = 4000 * (l2 + 1) / 1461001 := ⟨_, rfl⟩
  have b3 : 0 ≤ i1 ∧ i1 ≤ 99 := by omega
  obtain ⟨l3, hl3⟩ : ∃ l3, l3 = l2 - (1461 * i1) / 4 + 31 := ⟨_, rfl⟩
  have b4 : 31 ≤ l3 ∧ l3 ≤ 396 ∧ (l3 = 396 → i1 % 4 = 3) := by
    obtain ⟨q, r, h0, h3, rfl⟩ : ∃ q r, 0 ≤ r ∧ r < 4 ∧ i1 = 4 * q + r := ⟨i1 / 4, i1 % 4, by omega, by omega, by omega⟩
    rcases (by omega : r = 0 ∨ r = 1 ∨ r = 2 ∨ r = 3) with h | h | h | h <;> subst h <;> omega
  refine ⟨n, l2, i1, l3, _, _, hn0, b2.1, b2.2.1, by omega, b2.2.2, b3.1, b3.2, hl3, b4.1, b4.2.1, b4.2.2, rfl, rfl, ?_⟩
  unfold ymd ymdFromTruncatedJulian
  have e : j + 2440000 + 68569 = l1 := by omega
  simp only [e]
  have t1 : (4 * l1).tdiv 146097 = n := by rw [Int.tdiv_eq_ediv_of_nonneg (by omega)]; exact hn.symm
  have t2 : l1 - (146097 * n + 3).tdiv 4 = l2 := by rw [Int.tdiv_eq_ediv_of_nonneg (by omega)]; exact hl2.symm
  have t3 : (4000 * (l2 + 1)).tdiv 1461001 = i1 := by rw [Int.tdiv_eq_ediv_of_nonneg (by omega)]; exact hi1.symm
  have t4 : l2 - (1461 * i1).tdiv 4 + 31 = l3 := by rw [Int.tdiv_eq_ediv_of_nonneg (by omega)]; exact hl3.symm
  have t5 : (80 * l3).tdiv 2447 = 80 * l3 / 2447 := Int.tdiv_eq_ediv_of_nonneg (by omega)
  have t6 : (2447 * (80 * l3 / 2447)).tdiv 80 = 2447 * (80 * l3 / 2447) / 80 := Int.tdiv_eq_ediv_of_nonneg (by omega)
  have t7 : (80 * l3 / 2447).tdiv 11 = 80 * l3 / 2447 / 11 := Int.tdiv_eq_ediv_of_nonneg (by omega)
  simp only [t1, t2, t3, t4, t5, t6, t7]

theorem yearStart_century (n i : Int) (h0 : 0 ≤ i) (h1 : i ≤ 99) :
    yearStart (100 * (n - 49) + i) = 36524 * n + (n + 3) / 4 - 36525 + 1461 * i / 4 := by
  unfold yearStart
  have e : (100 * (n - 49) + i + 4900) / 100 = n := by omega
  rw [e]
  obtain ⟨q, r, h0, h3, rfl⟩ : ∃ q r, 0 ≤ r ∧ r < 4 ∧ n = 4 * q + r := ⟨n / 4, n % 4, by omega, by omega, by omega⟩
  rcases (by omega : r = 0 ∨ r = 1 ∨ r = 2 ∨ r = 3) with h | h | h | h <;> subst h <;> omega

theorem ymd_spec (j : Int) (hj : -2430000 < j) :
    IsDay (ymd j) ∧ dayNo (ymd j) = j ∧ -4800 < (ymd j).1 := by
  obtain ⟨n, l2, i1, l3, j1, k1, hn, hl2, hl2', hj1, hc, hi, hi', hl3, hl3a, hl3b, hd, hj1', hk1, he⟩ := ymd_stages j (by omega)
  rw [he]
  have hn2 : 2 ≤ n := by omega
  have ys := yearStart_century n i1 hi hi'
  have hq : (146097 * n + 3) / 4 = 36524 * n + (n + 3) / 4 := by omega
  have hk : k1 + (2447 * j1 / 80) - 31 + (1461 * i1) / 4 + 36524 * n + (n + 3) / 4 = j + 2508569 := by omega
  have hjr : 1 ≤ j1 ∧ j1 ≤ 12 := by omega
  unfold dayNo IsDay
  simp only
  clear hj1 he hj hq
  rcases month_cases hjr.1 hjr.2 with h|h|h|h|h|h|h|h|h|h|h|h
  case inr.inr.inr.inr.inr.inr.inr.inr.inr.inr.inl =>
    subst h
    refine ⟨⟨by omega, by omega, by omega, ?_⟩, ?_, by omega⟩
    · simp [daysInMonth]; omega
    · rw [fromYmd_eq _ _ _ (by omega) (by omega) (by omega)]
      have e : 100 * (n - 49) + i1 + 11 / 11 - 1 = 100 * (n - 49) + i1 := by omega
      simp only [e, ys]; simp; omega
  case inr.inr.inr.inr.inr.inr.inr.inr.inr.inr.inr =>
    subst h
    refine ⟨⟨by omega, by omega, by omega, ?_⟩, ?_, by omega⟩
    · simp only [daysInMonth]
      rw [if_pos (by omega)]
      by_cases h396 : l3 = 396
      · have := hd h396
        have hl : isLeap (100 * (n - 49) + i1 + 12 / 11) = true := by
          simp only [isLeap, Bool.and_eq_true, Bool.or_eq_true, beq_iff_eq, bne_iff_ne, ne_eq]
          refine ⟨by omega, ?_⟩
          by_cases h99 : i1 = 99
          · right
            have := hc (by omega)
            omega
          · left; omega
        rw [if_pos hl]; omega
      · split <;> omega
    · rw [fromYmd_eq _ _ _ (by omega) (by omega) (by omega)]
      have e : 100 * (n - 49) + i1 + 12 / 11 - 1 = 100 * (n - 49) + i1 := by omega
      simp only [e, ys]; simp; omega
  all_goals
    subst h
    refine ⟨⟨by omega, by omega, by omega, ?_⟩, ?_, by omega⟩
    · simp [daysInMonth]; omega
    · rw [fromYmd_eq _ _ _ (by omega) (by omega) (by omega)]
      simp; omega

/-- Two real days with the same day number are the same day. -/
theorem dayNo_inj {s t : Ymd} (hs : IsDay s) (ht : IsDay t) (ys : -4800 < s.1) (yt : -4800 < t.1)
    (h : dayNo s = dayNo t) : s = t := by
  have key : Before s t ∨ Before t s ∨ s = t := by
    obtain ⟨a, b, c⟩ := s
    obtain ⟨a', b', c'⟩ := t
    simp only [Before, Prod.mk.injEq]
    omega
  rcases key with k | k | k
  · have := dayNo_lt hs ht ys k; omega
  · have := dayNo_lt ht hs yt k; omega
  · exact k

theorem dayNo_bound {t : Ymd} (ht : IsDay t) (hy : -4600 ≤ t.1) : -2430000 < dayNo t := by
  have h0 : -2430000 < dayNo (-4601, 1, 1) := by decide
  have := dayNo_lt (s := (-4601, 1, 1)) (t := t) (by decide) ht (by decide) (by unfold Before; simp only; omega)
  omega

theorem ymd_dayNo {t : Ymd} (ht : IsDay t) (hy : -4600 ≤ t.1) : ymd (dayNo t) = t := by
  obtain ⟨a, b, c⟩ := ymd_spec (dayNo t) (dayNo_bound ht hy)
  exact dayNo_inj a ht c (by omega) b

theorem ymd_succ (j : Int) (hj : -2430000 < j) : ymd (j + 1) = next (ymd j) := by
  obtain ⟨a, b, c⟩ := ymd_spec j hj
  obtain ⟨a', b', c'⟩ := ymd_spec (j + 1) (by omega)
  have n := next_year_lb (ymd j)
  apply dayNo_inj a' (isDay_next _ a) c' (by omega)
  rw [dayNo_next _ c a, b, b']

theorem ymd_later (j : Int) (hj : -2430000 < j) (k : Nat) : ymd (j + k) = later k (ymd j) := by
  induction k with
  | zero => simp [later]
  | succ k ih =>
    have e : j + ((k + 1 : Nat) : Int) = (j + k) + 1 := by omega
    rw [e, ymd_succ _ (by omega), ih]; rfl

theorem ymd_lt_iff (a b : Int) (ha : -2430000 < a) (hb : -2430000 < b) :
    a < b ↔ Before (ymd a) (ymd b) := by
  obtain ⟨a1, a2, a3⟩ := ymd_spec a ha
  obtain ⟨b1, b2, b3⟩ := ymd_spec b hb
  constructor
  · intro h
    have key : Before (ymd a) (ymd b) ∨ Before (ymd b) (ymd a) ∨ ymd a = ymd b := by
      generalize ymd a = s; generalize ymd b = t
      obtain ⟨x, y, z⟩ := s
      obtain ⟨x', y', z'⟩ := t
      simp only [Before, Prod.mk.injEq]
      omega
    rcases key with k | k | k
    · exact k
    · have := dayNo_lt b1 a1 b3 k; omega
    · rw [k] at a2; omega
  · intro h
    have := dayNo_lt a1 b1 a3 h; omega

theorem isValid_iff (d : Int) : isValid d = true ↔ 0 < d ∧ d < 73000 := by
  simp [isValid]

end QM.Dates
