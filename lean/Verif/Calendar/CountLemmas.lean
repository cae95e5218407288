import Verif.Calendar.StepLemmas
import Mathlib.Algebra.BigOperators.Ring.Finset
import Mathlib.Algebra.Order.BigOperators.Group.Finset

/-!
# Helper lemmas: counting business days
-/

namespace QM.Calendar
open QM.Dates Spec

variable {K : Type} [Field K] [LinearOrder K] [IsStrictOrderedRing K] [FloorRing K]

/-- The week arithmetic of the counts. -/
theorem weekCount {a b : Int} (ha : Weekday a) (hb : Weekday b) (hab : a ≤ b) :
    (b - a).tdiv 7 * 5 + (if (b + 3) % 7 - (a + 3) % 7 ≥ 0 then (b + 3) % 7 - (a + 3) % 7
      else 5 + ((b + 3) % 7 - (a + 3) % 7)) = W b - W a := by
  rw [weekday_iff] at ha hb
  rw [Int.tdiv_eq_ediv_of_nonneg (by omega)]
  unfold W
  split <;> omega

theorem manual_weekday_pos {biz : Int → Prop} [DecidablePred biz] {B : Int → Int}
    (hB : Counts biz B) {from_ to_ a b : Int} (ha : IsSlip biz true from_ a)
    (hb : IsSlip biz false to_ b) (hab : a ≤ b) (ff tf : K) :
    manualCount (weightOf biz 0) from_ ff to_ tf
      = ((B b - B a : Int) : K) + ((if biz to_ then tf else 1) - (if biz from_ then ff else 0)) := by
  obtain ⟨a1, a2, a3⟩ := (isSlip_fwd_iff hB).1 ha
  obtain ⟨b1, b2, b3⟩ := (isSlip_bwd_iff hB).1 hb
  rw [manualCount_eq hB 0 (by omega)]
  have hBa := hB a
  rw [if_pos a2] at hBa
  have e : B to_ - B (from_ - 1) = B b - B a + 1 := by omega
  rw [e]
  unfold weightOf
  by_cases h1 : biz from_ <;> by_cases h2 : biz to_ <;> simp [h1, h2] <;> ring

theorem manual_weekday_zero {biz : Int → Prop} [DecidablePred biz] {B : Int → Int}
    (hB : Counts biz B) {from_ to_ a b : Int} (ha : IsSlip biz true from_ a)
    (hb : IsSlip biz false to_ b) (hab : b < a) (hft : from_ ≤ to_) (ff tf : K) :
    manualCount (weightOf biz (0 : K)) from_ ff to_ tf = 0 := by
  obtain ⟨a1, a2, a3⟩ := (isSlip_fwd_iff hB).1 ha
  obtain ⟨b1, b2, b3⟩ := (isSlip_bwd_iff hB).1 hb
  have hta : to_ < a := by
    by_contra h
    have := B_lt hB (a := b) (b := a) hab a2
    have := B_mono hB (a := a) (b := to_) (by omega)
    omega
  have hnone : ∀ x, from_ ≤ x → x ≤ to_ → ¬ biz x := by
    intro x h1 h2
    exact B_eq_imp hB a3.symm x (by omega) (by omega)
  unfold manualCount
  have hsum : (∑ d ∈ Finset.Icc from_ to_, weightOf biz (0 : K) d) = 0 := by
    refine Finset.sum_eq_zero fun x hx => ?_
    rw [Finset.mem_Icc] at hx
    unfold weightOf
    rw [if_neg (hnone x hx.1 hx.2)]
  rw [hsum]
  unfold weightOf
  rw [if_neg (hnone from_ (by omega) hft), if_neg (hnone to_ hft (by omega))]
  ring

theorem countWeekday_ok {from_ to_ : Int} {ff tf v : K}
    (h : countWeekday from_ ff to_ tf = .ok v) :
    v = if from_ ≤ to_ then manualCount (weightOf Weekday 0) from_ ff to_ tf else 0 := by
  unfold countWeekday at h
  by_cases hvf : Valid from_
  · by_cases hvt : Valid to_
    · obtain ⟨a, ha⟩ := slipToNextWeekday_exists true hvf
      obtain ⟨b, hb⟩ := slipToNextWeekday_exists false hvt
      rw [ha, hb] at h
      obtain ⟨_, hsa⟩ := (slipToNextWeekday_iff true from_ a).1 ha
      obtain ⟨_, hsb⟩ := (slipToNextWeekday_iff false to_ b).1 hb
      have ha1 : from_ ≤ a := ((isSlip_fwd_iff W_counts).1 hsa).1
      have hb1 : b ≤ to_ := ((isSlip_bwd_iff W_counts).1 hsb).1
      simp only [bind, Except.bind] at h
      by_cases hab : a > b
      · rw [if_pos hab] at h
        cases h
        split
        · rename_i hft
          exact (manual_weekday_zero W_counts hsa hsb hab hft ff tf).symm
        · rfl
      · rw [if_neg hab] at h
        rw [if_pos (by omega)]
        by_cases hva : Valid a
        · by_cases hvb : Valid b
          · rw [dayOfWeek_valid hva, dayOfWeek_valid hvb, dayOfWeek_valid hvf, dayOfWeek_valid hvt] at h
            simp only [pure, Except.pure] at h
            cases h
            rw [manual_weekday_pos W_counts hsa hsb (by omega),
              weekCount hsa.1 hsb.1 (by omega)]
            have e1 : decide ((to_ + 3) % 7 > 4) = decide (¬ Weekday to_) :=
              decide_eq_decide.2 (by rw [weekday_iff]; omega)
            have e2 : decide ((from_ + 3) % 7 > 4) = decide (¬ Weekday from_) :=
              decide_eq_decide.2 (by rw [weekday_iff]; omega)
            rw [e1, e2]
            by_cases h1 : Weekday from_ <;> by_cases h2 : Weekday to_ <;> simp [h1, h2]
          · rw [dayOfWeek_invalid hvb] at h; cases h
        · by_cases hvb : Valid b
          · rw [dayOfWeek_invalid hva, dayOfWeek_valid hvb] at h; cases h
          · rw [dayOfWeek_invalid hvb] at h; cases h
    · obtain ⟨a, ha⟩ := slipToNextWeekday_exists true hvf
      have : slipToNextWeekday to_ false = .error .panic := by
        unfold slipToNextWeekday; rw [dayOfWeek_invalid hvt]; rfl
      rw [ha, this] at h; cases h
  · have : slipToNextWeekday from_ true = .error .panic := by
      unfold slipToNextWeekday; rw [dayOfWeek_invalid hvf]; rfl
    rw [this] at h; cases h

theorem countWH_ok {hs : List Int} (hg : GoodHolidays hs) {from_ to_ : Int} {ff tf v : K}
    (h : countWH hs from_ ff to_ tf = .ok v) :
    v = if from_ ≤ to_ then manualCount (weightOf (fun d => Weekday d ∧ d ∉ hs) 0) from_ ff to_ tf
      else 0 := by
  have hB := WH_counts hs hg
  unfold countWH at h
  rcases slipToNext_dichotomy hg true from_ with ⟨a, ha⟩ | ha
  · rcases slipToNext_dichotomy hg false to_ with ⟨b, hb⟩ | hb
    · rw [ha, hb] at h
      obtain ⟨hvf, hva, hsa⟩ := (slipToNext_iff hg true from_ a).1 ha
      obtain ⟨hvt, hvb, hsb⟩ := (slipToNext_iff hg false to_ b).1 hb
      have ha1 : from_ ≤ a := ((isSlip_fwd_iff hB).1 hsa).1
      have hb1 : b ≤ to_ := ((isSlip_bwd_iff hB).1 hsb).1
      simp only [bind, Except.bind] at h
      by_cases hab : a > b
      · rw [if_pos hab] at h
        cases h
        split
        · rename_i hft
          exact (manual_weekday_zero hB hsa hsb hab hft ff tf).symm
        · rfl
      · rw [if_neg hab] at h
        rw [if_pos (by omega)]
        rw [dayOfWeek_valid hva, dayOfWeek_valid hvb, isHolidayWH_ok hg hvf, isHolidayWH_ok hg hvt] at h
        simp only [pure, Except.pure] at h
        cases h
        rw [manual_weekday_pos hB hsa hsb (by omega), weekCount hsa.1.1 hsb.1.1 (by omega),
          countHolidays_eq hs hg.1]
        have e1 : WH hs b - WH hs a = W b - W a - ((off hs b : Int) - off hs (a + 1)) := by
          unfold WH
          have := off_succ hs hg.1 b
          rw [if_neg hsb.1.2] at this
          omega
        rw [e1]
        congr 1
        have e : ∀ (P : Prop) [Decidable P] (x y : K),
            (if decide (¬ P) = true then x else y) = if P then y else x := by
          intro P _ x y; by_cases h : P <;> simp [h]
        simp only [e]
    · rw [ha, hb] at h; cases h
  · rw [ha] at h; cases h

/-- The weight that the count of a calendar gives to a day. -/
def cweight : Cal K → Int → K
  | .everyDay, _ => 1
  | .weekday, d => weightOf Weekday 0 d
  | .weekdayAndHoliday hs, d => weightOf (fun d => Weekday d ∧ d ∉ hs) 0 d
  | .volatility c w, d => cweight c d * (1 - w) + w

theorem manualCount_add {wt : Int → K} {a b c : Int} (hab : a ≤ b) (hbc : b ≤ c) (fa fb fc : K) :
    manualCount wt a fa b fb + manualCount wt b fb c fc = manualCount wt a fa c fc := by
  unfold manualCount
  have e1 : Finset.Icc a c = Finset.Icc a b ∪ Finset.Ioc b c := by
    ext x; simp only [Finset.mem_Icc, Finset.mem_union, Finset.mem_Ioc]; omega
  have e2 : Finset.Icc b c = insert b (Finset.Ioc b c) := by
    ext x; simp only [Finset.mem_Icc, Finset.mem_insert, Finset.mem_Ioc]; omega
  rw [e1, e2, Finset.sum_insert (by simp), Finset.sum_union (by
    rw [Finset.disjoint_left]; intro x; simp only [Finset.mem_Icc, Finset.mem_Ioc]; omega)]
  ring

theorem manualCount_one (a : Int) (k : Nat) (fa fb : K) :
    manualCount (fun _ => 1) a fa (a + k) fb = (k : K) + fb - fa := by
  unfold manualCount
  simp [Finset.sum_const, Int.card_Icc]
  have : (a + k + 1 - a).toNat = k + 1 := by omega
  rw [this]
  push_cast
  ring

theorem manualCount_mix (wt : Int → K) (w : K) {a b : Int} (hab : a ≤ b) (fa fb : K) :
    manualCount (fun d => wt d * (1 - w) + w) a fa b fb
      = manualCount wt a fa b fb * (1 - w) + (((b - a : Int) : K) + fb - fa) * w := by
  obtain ⟨k, rfl⟩ : ∃ k : Nat, b = a + k := ⟨(b - a).toNat, by omega⟩
  have h1 := manualCount_one (K := K) a k fa fb
  have e : ((a + k - a : Int) : K) = k := by push_cast; ring
  rw [e, ← h1]
  unfold manualCount
  rw [Finset.sum_add_distrib, ← Finset.sum_mul]
  simp only [Finset.sum_const, nsmul_eq_mul]
  ring

theorem manualCount_nonneg {wt : Int → K} (h0 : ∀ d, 0 ≤ wt d) {a b : Int} {fa fb : K}
    (hfa : fa ≤ 1) (hfb : 0 ≤ fb) (h : a < b ∨ (a = b ∧ fa ≤ fb)) :
    0 ≤ manualCount wt a fa b fb := by
  unfold manualCount
  rcases h with h | ⟨rfl, h⟩
  · have e1 : Finset.Icc a b = insert a (insert b (Finset.Ioo a b)) := by
      ext x; simp only [Finset.mem_Icc, Finset.mem_insert, Finset.mem_Ioo]; omega
    rw [e1, Finset.sum_insert (by simp only [Finset.mem_insert, Finset.mem_Ioo]; omega),
      Finset.sum_insert (by simp)]
    have h1 : 0 ≤ ∑ d ∈ Finset.Ioo a b, wt d := Finset.sum_nonneg fun x _ => h0 x
    have h2 : 0 ≤ wt a * (1 - fa) := mul_nonneg (h0 a) (by linarith)
    have h3 : 0 ≤ wt b * fb := mul_nonneg (h0 b) hfb
    linarith
  · simp only [Finset.Icc_self, Finset.sum_singleton]
    have : 0 ≤ wt a * (fb - fa) := mul_nonneg (h0 a) (by linarith)
    linarith

theorem count_ok {c : Cal K} (hg : Good c) {from_ to_ : Int} {ff tf v : K}
    (h : countBusinessDays c from_ ff to_ tf = .ok v) :
    v = if from_ ≤ to_ then manualCount (cweight c) from_ ff to_ tf else 0 := by
  induction c generalizing v with
  | everyDay =>
    unfold countBusinessDays at h
    by_cases hft : from_ ≤ to_
    · rw [if_neg (by omega)] at h
      cases h
      rw [if_pos hft]
      obtain ⟨k, rfl⟩ : ∃ k : Nat, to_ = from_ + k := ⟨(to_ - from_).toNat, by omega⟩
      have : cweight (.everyDay : Cal K) = fun _ => 1 := by funext d; simp [cweight]
      rw [this, manualCount_one]
      push_cast; ring
    · rw [if_pos (by omega)] at h; cases h; rw [if_neg hft]
  | weekday => unfold countBusinessDays at h; exact countWeekday_ok h
  | weekdayAndHoliday hs => unfold countBusinessDays at h; exact countWH_ok hg h
  | volatility c w ih =>
    unfold countBusinessDays at h
    by_cases hft : from_ ≤ to_
    · rw [if_neg (by omega)] at h
      simp only [bind, Except.bind] at h
      split at h
      · cases h
      · rename_i v0 hv0
        simp only [pure, Except.pure] at h
        cases h
        have := ih hg hv0
        rw [if_pos hft] at this ⊢
        have e : cweight (.volatility c w) = fun d => cweight c d * (1 - w) + w := by
          funext d; simp [cweight]
        rw [e, manualCount_mix _ _ hft, ← this]
    · rw [if_pos (by omega)] at h; cases h; rw [if_neg hft]

/-- Counting does not panic when both dates are valid and the slips stay in range. -/
def CountDefined : Cal K → Int → Int → Prop
  | .everyDay, _, _ => True
  | .weekday, a, b => Valid a ∧ Valid b ∧ ∃ a' b', Valid a' ∧ Valid b' ∧
      IsSlip Weekday true a a' ∧ IsSlip Weekday false b b'
  | .weekdayAndHoliday hs, a, b => Valid a ∧ Valid b ∧ ∃ a' b', Valid a' ∧ Valid b' ∧
      IsSlip (fun d => Weekday d ∧ d ∉ hs) true a a' ∧ IsSlip (fun d => Weekday d ∧ d ∉ hs) false b b'
  | .volatility c _, a, b => CountDefined c a b

theorem count_defined {c : Cal K} (hg : Good c) {from_ to_ : Int} (ff tf : K)
    (h : CountDefined c from_ to_) : ∃ v, countBusinessDays c from_ ff to_ tf = .ok v := by
  induction c with
  | everyDay => unfold countBusinessDays; split <;> exact ⟨_, rfl⟩
  | weekday =>
    obtain ⟨hvf, hvt, a, b, hva, hvb, hsa, hsb⟩ := h
    have ha := (slipToNextWeekday_iff true from_ a).2 ⟨hvf, hsa⟩
    have hb := (slipToNextWeekday_iff false to_ b).2 ⟨hvt, hsb⟩
    unfold countBusinessDays countWeekday
    rw [ha, hb]
    simp only [bind, Except.bind]
    split
    · exact ⟨_, rfl⟩
    · rw [dayOfWeek_valid hva, dayOfWeek_valid hvb, dayOfWeek_valid hvf, dayOfWeek_valid hvt]
      exact ⟨_, rfl⟩
  | weekdayAndHoliday hs =>
    obtain ⟨hvf, hvt, a, b, hva, hvb, hsa, hsb⟩ := h
    have ha := (slipToNext_iff hg true from_ a).2 ⟨hvf, hva, hsa⟩
    have hb := (slipToNext_iff hg false to_ b).2 ⟨hvt, hvb, hsb⟩
    unfold countBusinessDays countWH
    rw [ha, hb]
    simp only [bind, Except.bind]
    split
    · exact ⟨_, rfl⟩
    · rw [dayOfWeek_valid hva, dayOfWeek_valid hvb, isHolidayWH_ok hg hvf, isHolidayWH_ok hg hvt]
      exact ⟨_, rfl⟩
  | volatility c w ih =>
    unfold countBusinessDays
    split
    · exact ⟨_, rfl⟩
    · obtain ⟨v, hv⟩ := ih hg h
      rw [hv]; exact ⟨_, rfl⟩


end QM.Calendar
