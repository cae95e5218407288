import Verif.Calendar.CountLemmas
import Mathlib.Tactic.NormNum
import Mathlib.Algebra.Order.Ring.Abs

/-!
# Helper lemmas: the stepping loop of the volatility calendar
-/

namespace QM.Calendar
open QM.Dates Spec

variable {K : Type} [Field K] [LinearOrder K] [IsStrictOrderedRing K] [FloorRing K]

/-- `k` days from `from_` in the direction of travel. -/
def along (from_ : Int) (fwd : Bool) (k : Nat) : Int := if fwd then from_ + k else from_ - k

/-- What the loop measures for a date. -/
def takenAt (count : Int → K → Int → K → Outcome K) (from_ : Int) (fwd : Bool) (d : Int) : Outcome K :=
  if fwd then count from_ 0 d 0 else count d 1 from_ 1

section
variable {T : Nat → K} {w : K}

theorem T_diff_ge (h1 : ∀ k, w ≤ T (k + 1) - T k) (k j : Nat) : (j : K) * w ≤ T (k + j) - T k := by
  induction j with
  | zero => simp
  | succ j ih =>
    have := h1 (k + j)
    have e : k + (j + 1) = k + j + 1 := by omega
    rw [e]; push_cast; linarith

theorem T_diff_le (h2 : ∀ k, T (k + 1) - T k ≤ 1) (k j : Nat) : T (k + j) - T k ≤ j := by
  induction j with
  | zero => simp
  | succ j ih =>
    have := h2 (k + j)
    have e : k + (j + 1) = k + j + 1 := by omega
    rw [e]; push_cast; linarith

/-- `m` is a nearest number of days for the requested time. -/
def Nearest (T : Nat → K) (total : K) (m : Nat) : Prop := ∀ m', |T m - total| ≤ |T m' - total|

theorem nearest_two (h1 : ∀ k, w ≤ T (k + 1) - T k) (hw : 0 ≤ w) {total : K} {j : Nat}
    (hj : T j < total) (hk : total ≤ T (j + 1)) :
    (T (j + 1) - total > total - T j → Nearest T total j) ∧
    (¬ (T (j + 1) - total > total - T j) → Nearest T total (j + 1)) := by
  have mono : ∀ a b : Nat, a ≤ b → T a ≤ T b := by
    intro a b hab
    obtain ⟨i, rfl⟩ := Nat.exists_eq_add_of_le hab
    have := T_diff_ge h1 a i
    have : 0 ≤ (i : K) * w := mul_nonneg (by positivity) hw
    linarith
  constructor
  · intro h m'
    rw [abs_of_neg (by linarith : T j - total < 0)]
    rcases Nat.lt_or_ge j m' with hm | hm
    · have := mono (j + 1) m' hm
      have h3 := le_abs_self (T m' - total)
      linarith
    · have := mono m' j hm
      have h3 := neg_abs_le (T m' - total)
      linarith
  · intro h m'
    rw [abs_of_nonneg (by linarith : 0 ≤ T (j + 1) - total)]
    rcases Nat.lt_or_ge j m' with hm | hm
    · have := mono (j + 1) m' hm
      have h3 := le_abs_self (T m' - total)
      linarith
    · have := mono m' j hm
      have h3 := neg_abs_le (T m' - total)
      linarith

theorem nearest_close (h1 : ∀ k, w ≤ T (k + 1) - T k) {ε : K} (hε : 0 ≤ ε) (hw : 2 * ε ≤ w) {total : K} {k : Nat}
    (hk : total ≤ T k) (hk' : T k ≤ total + ε) : Nearest T total k := by
  intro m'
  rw [abs_of_nonneg (by linarith : 0 ≤ T k - total)]
  rcases Nat.lt_or_ge m' k with hm | hm
  · obtain ⟨i, rfl⟩ := Nat.exists_eq_add_of_lt hm
    have := T_diff_ge h1 m' (i + 1)
    have e : m' + (i + 1) = m' + i + 1 := by omega
    rw [e] at this
    have : (0 : K) ≤ (i : K) * w := mul_nonneg (by positivity) (by linarith)
    have h3 := neg_abs_le (T m' - total)
    push_cast at *
    linarith
  · obtain ⟨i, rfl⟩ := Nat.exists_eq_add_of_le hm
    have := T_diff_ge h1 k i
    have : 0 ≤ (i : K) * w := mul_nonneg (by positivity) (by linarith)
    have h3 := le_abs_self (T (k + i) - total)
    linarith

end

theorem along_add (from_ : Int) (fwd : Bool) (k j : Nat) :
    (if fwd then along from_ fwd k + (j : Int) else along from_ fwd k - (j : Int)) = along from_ fwd (k + j) := by
  unfold along; cases fwd <;> simp <;> omega

/-- Invariant of the loop: `prev` is an earlier stop short of the target, and the last move was
either by one day or by no more than the time still needed. -/
def PrevOk (T : Nat → K) (from_ : Int) (fwd : Bool) (total : K) (k : Nat) (prevDate : Int) (prevSteps : K) : Prop :=
  (k = 0 ∧ 0 ≤ total) ∨ ∃ j, j < k ∧ prevDate = along from_ fwd j ∧ prevSteps = total - T j ∧ 0 < prevSteps ∧
    (k = j + 1 ∨ T k ≤ total + 1 / 10 ^ 12)

theorem partialLoop_spec (count : Int → K → Int → K → Outcome K) (from_ : Int) (fwd : Bool) (total : K)
    (T : Nat → K) (w : K) (hT0 : T 0 = 0)
    (hT : ∀ k v, takenAt count from_ fwd (along from_ fwd k) = .ok v → v = T k)
    (h1 : ∀ k, w ≤ T (k + 1) - T k) (h2 : ∀ k, T (k + 1) - T k ≤ 1) (hw : 2 / 10 ^ 12 ≤ w) :
    ∀ fuel k prevDate prevSteps, PrevOk T from_ fwd total k prevDate prevSteps →
      ∀ r, partialLoop count from_ fwd total fuel (along from_ fwd k) (total - T k) prevDate prevSteps = some r →
        (∃ m, r = .ok (along from_ fwd m) ∧ Nearest T total m) ∨
        (∃ k' e, r = .error e ∧ takenAt count from_ fwd (along from_ fwd k') = .error e) := by
  have hw0 : 0 ≤ w := le_trans (by positivity) hw
  have hw' : 2 * (1 / 10 ^ 12) ≤ w := by
    have : (2 : K) * (1 / 10 ^ 12) = 2 / 10 ^ 12 := by ring
    rw [this]; exact hw
  intro fuel
  induction fuel with
  | zero =>
    intro k prevDate prevSteps hp r hr
    rw [partialLoop] at hr
    by_cases hn : total - T k > 0
    · rw [if_pos hn] at hr; cases hr
    · rw [if_neg hn] at hr
      left
      rcases hp with ⟨rfl, ht⟩ | ⟨j, hj, rfl, rfl, hpos, hcase⟩
      · rw [hT0] at hn hr
        have : ¬ (total - 0 < 0 ∧ -(total - 0) > prevSteps) := by intro h; linarith [h.1]
        rw [if_neg this] at hr; cases hr
        refine ⟨0, rfl, ?_⟩
        intro m'
        have : total = 0 := by linarith
        rw [hT0, this]; simp
      · rcases hcase with rfl | hc
        · obtain ⟨n1, n2⟩ := nearest_two h1 hw0 (total := total) (j := j) (by linarith) (by linarith)
          by_cases hc : total - T (j + 1) < 0 ∧ -(total - T (j + 1)) > total - T j
          · rw [if_pos hc] at hr; cases hr
            exact ⟨j, rfl, n1 (by linarith [hc.2])⟩
          · rw [if_neg hc] at hr; cases hr
            refine ⟨j + 1, rfl, n2 ?_⟩
            intro h; apply hc; constructor <;> linarith
        · have hd : w ≤ T k - T j := by
            obtain ⟨i, rfl⟩ := Nat.exists_eq_add_of_lt hj
            have := T_diff_ge h1 j (i + 1)
            have e : j + (i + 1) = j + i + 1 := by omega
            rw [e] at this; push_cast at this
            have : 0 ≤ (i : K) * w := mul_nonneg (by positivity) hw0
            linarith
          have : ¬ (total - T k < 0 ∧ -(total - T k) > total - T j) := by
            intro h; linarith [h.2, h.1]
          rw [if_neg this] at hr; cases hr
          exact ⟨k, rfl, nearest_close h1 (by positivity) hw' (by linarith) hc⟩
  | succ fuel ih =>
    intro k prevDate prevSteps hp r hr
    rw [partialLoop] at hr
    by_cases hn : total - T k > 0
    · rw [if_pos hn] at hr
      simp only at hr
      -- the move
      obtain ⟨s, hs, hs1⟩ : ∃ s : Nat, max ⌊total - T k + 1 / 10 ^ 12⌋ 1 = (s : Int) ∧ 1 ≤ s :=
        ⟨(max ⌊total - T k + 1 / 10 ^ 12⌋ 1).toNat, by omega, by omega⟩
      rw [hs, along_add] at hr
      have hmove : k + s = k + 1 ∨ T (k + s) ≤ total + 1 / 10 ^ 12 := by
        by_cases h : s = 1
        · left; rw [h]
        · right
          have e : ⌊total - T k + 1 / 10 ^ 12⌋ = (s : Int) := by omega
          have h3 : ((s : Int) : K) ≤ total - T k + 1 / 10 ^ 12 := by rw [← e]; exact Int.floor_le _
          have h4 := T_diff_le h2 k s
          push_cast at h3
          linarith
      have hov : total - T (k + s) ≥ -1 := by
        rcases hmove with h | h
        · rw [h]; have := h2 k; linarith
        · have : (1 : K) / 10 ^ 12 ≤ 1 := by norm_num
          linarith
      have htk : (if fwd = true then count from_ 0 (along from_ fwd (k + s)) 0
          else count (along from_ fwd (k + s)) 1 from_ 1) = takenAt count from_ fwd (along from_ fwd (k + s)) := rfl
      rw [htk] at hr
      rcases hv : takenAt count from_ fwd (along from_ fwd (k + s)) with e | v
      · rw [hv] at hr; cases hr
        right; exact ⟨k + s, e, rfl, hv⟩
      · rw [hv] at hr
        simp only at hr
        rw [hT _ _ hv, if_pos hov] at hr
        refine ih (k + s) _ _ ?_ r hr
        right
        refine ⟨k, by omega, rfl, rfl, hn, ?_⟩
        exact hmove
    · rw [if_neg hn] at hr
      exact ih k prevDate prevSteps hp r (by
        cases fuel with
        | zero => rw [partialLoop, if_neg hn]; exact hr
        | succ f => rw [partialLoop, if_neg hn]; exact hr)

/-- The loop finishes: each turn covers at least a day and so at least `w` of the time needed. -/
theorem partialLoop_terminates (count : Int → K → Int → K → Outcome K) (from_ : Int) (fwd : Bool) (total : K)
    (T : Nat → K) (w : K) (hT0 : T 0 = 0)
    (hT : ∀ k v, takenAt count from_ fwd (along from_ fwd k) = .ok v → v = T k)
    (h1 : ∀ k, w ≤ T (k + 1) - T k) (hw : 0 < w) :
    ∀ fuel (k : Nat) prevDate prevSteps, total ≤ ((k + fuel : Nat) : K) * w →
      ∃ r, partialLoop count from_ fwd total fuel (along from_ fwd k) (total - T k) prevDate prevSteps = some r := by
  intro fuel
  induction fuel with
  | zero =>
    intro k prevDate prevSteps hle
    have := T_diff_ge h1 0 k
    rw [Nat.zero_add, hT0] at this
    rw [partialLoop, if_neg (by push_cast at hle; simp at hle; linarith)]
    split <;> exact ⟨_, rfl⟩
  | succ fuel ih =>
    intro k prevDate prevSteps hle
    rw [partialLoop]
    by_cases hn : total - T k > 0
    · rw [if_pos hn]
      simp only
      obtain ⟨s, hs, hs1⟩ : ∃ s : Nat, max ⌊total - T k + 1 / 10 ^ 12⌋ 1 = (s : Int) ∧ 1 ≤ s :=
        ⟨(max ⌊total - T k + 1 / 10 ^ 12⌋ 1).toNat, by omega, by omega⟩
      rw [hs, along_add]
      have htk : (if fwd = true then count from_ 0 (along from_ fwd (k + s)) 0
          else count (along from_ fwd (k + s)) 1 from_ 1) = takenAt count from_ fwd (along from_ fwd (k + s)) := rfl
      rw [htk]
      rcases hv : takenAt count from_ fwd (along from_ fwd (k + s)) with e | v
      · exact ⟨_, rfl⟩
      · simp only
        rw [hT _ _ hv]
        split
        · refine ih (k + s) _ _ ?_
          refine le_trans hle (mul_le_mul_of_nonneg_right ?_ hw.le)
          exact_mod_cast (by omega)
        · exact ⟨_, rfl⟩
    · rw [if_neg hn]
      split <;> exact ⟨_, rfl⟩

/-! ### The time measured by a volatility calendar -/

/-- Sum of weights of the `k` days travelled. -/
def travelled (wt : Int → K) (from_ : Int) (fwd : Bool) : Nat → K
  | 0 => 0
  | k + 1 => travelled wt from_ fwd k + wt (if fwd then from_ + k else from_ - k)

theorem manualCount_fwd (wt : Int → K) (from_ : Int) (k : Nat) :
    manualCount wt from_ 0 (from_ + k) 0 = travelled wt from_ true k := by
  induction k with
  | zero => simp [manualCount, travelled]
  | succ k ih =>
    have h := manualCount_add (wt := wt) (a := from_) (b := from_ + k) (c := from_ + ((k + 1 : Nat) : Int))
      (by omega) (by omega) 0 0 0
    rw [← h, ih]
    conv_rhs => unfold travelled
    simp only [if_true]
    congr 1
    unfold manualCount
    have e : Finset.Icc (from_ + (k : Int)) (from_ + ((k + 1 : Nat) : Int)) = {from_ + (k : Int), from_ + ((k + 1 : Nat) : Int)} := by
      ext x; simp only [Finset.mem_Icc, Finset.mem_insert, Finset.mem_singleton]; omega
    rw [e, Finset.sum_pair (by omega)]
    ring_nf

theorem manualCount_bwd (wt : Int → K) (from_ : Int) (k : Nat) :
    manualCount wt (from_ - k) 1 from_ 1 = travelled wt from_ false k := by
  induction k with
  | zero => simp [manualCount, travelled]
  | succ k ih =>
    have h := manualCount_add (wt := wt) (a := from_ - ((k + 1 : Nat) : Int)) (b := from_ - k) (c := from_)
      (by omega) (by omega) 1 1 1
    rw [← h, ih]
    conv_rhs => unfold travelled
    simp only [Bool.false_eq_true, if_false]
    rw [add_comm]
    congr 1
    unfold manualCount
    have e : Finset.Icc (from_ - ((k + 1 : Nat) : Int)) (from_ - (k : Int)) = {from_ - ((k + 1 : Nat) : Int), from_ - (k : Int)} := by
      ext x; simp only [Finset.mem_Icc, Finset.mem_insert, Finset.mem_singleton]; omega
    rw [e, Finset.sum_pair (by omega)]
    ring_nf

theorem takenAt_vol {c : Cal K} (hg : Good c) (from_ : Int) (fwd : Bool) (k : Nat) (v : K)
    (h : takenAt (countBusinessDays c) from_ fwd (along from_ fwd k) = .ok v) :
    v = travelled (cweight c) from_ fwd k := by
  unfold takenAt along at h
  cases fwd
  · simp only [Bool.false_eq_true, if_false] at h
    rw [count_ok hg h, if_pos (by omega), manualCount_bwd]
  · simp only [if_true] at h
    rw [count_ok hg h, if_pos (by omega), manualCount_fwd]

end QM.Calendar
