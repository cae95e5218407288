import Verif.Calendar.Lemmas

/-!
# Helper lemmas: stepping and counting of the weekday and holiday calendars
-/

namespace QM.Calendar
open QM.Dates Spec

theorem isValid_eq (d : Int) : isValid d = decide (Valid d) := by
  unfold isValid Valid
  by_cases h1 : d > 0 <;> by_cases h2 : d < 200 * 365 <;> simp [h1] <;> omega

theorem dayOfWeek_valid {d : Int} (h : Valid d) : dayOfWeek d = .ok ((d + 3) % 7) := by
  unfold dayOfWeek
  rw [isValid_eq, if_pos (by simpa using h), Int.tmod_eq_emod_of_nonneg (by unfold Valid at h; omega)]

theorem dayOfWeek_invalid {d : Int} (h : ¬ Valid d) : dayOfWeek d = .error .panic := by
  unfold dayOfWeek
  rw [isValid_eq, if_neg (by simpa using h)]

theorem isWeekend_valid {d : Int} (h : Valid d) : isWeekend d = .ok (decide (¬ Weekday d)) := by
  unfold isWeekend
  rw [dayOfWeek_valid h]
  simp only [bind, Except.bind, pure, Except.pure, weekday_iff]
  congr 1
  exact decide_eq_decide.2 (by omega)

theorem isHolidayWH_ok {hs : List Int} (hg : GoodHolidays hs) {d : Int} (h : Valid d) :
    isHolidayWH hs d = .ok (decide (¬ (Weekday d ∧ d ∉ hs))) := by
  unfold isHolidayWH
  rw [dayOfWeek_valid h]
  simp only [bind, Except.bind, pure, Except.pure, remaining_snd hs hg.1]
  by_cases hw : Weekday d
  · have := (weekday_iff d).1 hw
    rw [if_neg (by omega)]
    by_cases hd : d ∈ hs <;> simp [hw, hd]
  · have : (d + 3) % 7 > 4 := by rw [weekday_iff] at hw; omega
    rw [if_pos this]
    simp [hw]

theorem isHolidayWH_invalid {hs : List Int} {d : Int} (h : ¬ Valid d) :
    isHolidayWH hs d = .error .panic := by
  unfold isHolidayWH
  rw [dayOfWeek_invalid h]
  rfl

theorem isHolidayWH_cases {hs : List Int} (hg : GoodHolidays hs) (d : Int) :
    (¬ Valid d ∧ isHolidayWH hs d = .error .panic) ∨
    (Valid d ∧ (Weekday d ∧ d ∉ hs) ∧ isHolidayWH hs d = .ok false) ∨
    (Valid d ∧ ¬ (Weekday d ∧ d ∉ hs) ∧ isHolidayWH hs d = .ok true) := by
  by_cases hv : Valid d
  · by_cases hb : Weekday d ∧ d ∉ hs
    · exact Or.inr (Or.inl ⟨hv, hb, by rw [isHolidayWH_ok hg hv]; simp [hb]⟩)
    · exact Or.inr (Or.inr ⟨hv, hb, by rw [isHolidayWH_ok hg hv, decide_eq_true hb]⟩)
  · exact Or.inl ⟨hv, isHolidayWH_invalid hv⟩

theorem isSlip_self {biz : Int → Prop} {fwd : Bool} {d e : Int} (h : biz d) :
    IsSlip biz fwd d e ↔ e = d := by
  unfold IsSlip
  constructor
  · rintro ⟨h1, h2⟩
    by_contra hne
    cases fwd
    · simp only [Bool.false_eq_true, if_false] at h2
      exact h2.2 d (by omega) (by omega) h
    · simp only [if_true] at h2
      exact h2.2 d (by omega) (by omega) h
  · rintro rfl
    refine ⟨h, ?_⟩
    cases fwd <;> simp <;> intros <;> omega

theorem isSlip_move_fwd {biz : Int → Prop} {d e : Int} (h : ¬ biz d) :
    IsSlip biz true d e ↔ IsSlip biz true (d + 1) e := by
  unfold IsSlip
  simp only [if_true]
  constructor
  · rintro ⟨h1, h2, h3⟩
    have : d ≠ e := by rintro rfl; exact h h1
    exact ⟨h1, by omega, fun x x1 x2 => h3 x (by omega) x2⟩
  · rintro ⟨h1, h2, h3⟩
    refine ⟨h1, by omega, fun x x1 x2 => ?_⟩
    by_cases hx : x = d
    · rw [hx]; exact h
    · exact h3 x (by omega) x2

theorem isSlip_move_bwd {biz : Int → Prop} {d e : Int} (h : ¬ biz d) :
    IsSlip biz false d e ↔ IsSlip biz false (d - 1) e := by
  unfold IsSlip
  simp only [Bool.false_eq_true, if_false]
  constructor
  · rintro ⟨h1, h2, h3⟩
    have : d ≠ e := by rintro rfl; exact h h1
    exact ⟨h1, by omega, fun x x1 x2 => h3 x x1 (by omega)⟩
  · rintro ⟨h1, h2, h3⟩
    refine ⟨h1, by omega, fun x x1 x2 => ?_⟩
    by_cases hx : x = d
    · rw [hx]; exact h
    · exact h3 x x1 (by omega)

theorem slipToNext_iff {hs : List Int} (hg : GoodHolidays hs) (fwd : Bool) (d e : Int) :
    slipToNext hs fwd d = .ok e ↔
      Valid d ∧ Valid e ∧ IsSlip (fun d => Weekday d ∧ d ∉ hs) fwd d e := by
  induction d using slipToNext.induct (holidays := hs) (fwd := fwd) with
  | case1 d er he =>
    rw [slipToNext]
    rcases isHolidayWH_cases hg d with ⟨hv, h⟩ | ⟨hv, hb, h⟩ | ⟨hv, hb, h⟩
    · split <;> rename_i h' <;> rw [h] at h' <;> cases h'
      simp [hv]
    · rw [h] at he; cases he
    · rw [h] at he; cases he
  | case2 d he =>
    rw [slipToNext]
    rcases isHolidayWH_cases hg d with ⟨hv, h⟩ | ⟨hv, hb, h⟩ | ⟨hv, hb, h⟩
    · rw [h] at he; cases he
    · split <;> rename_i h' <;> rw [h] at h' <;> cases h'
      rw [isSlip_self (biz := fun d => Weekday d ∧ d ∉ hs) hb]
      constructor
      · intro h2; cases h2; exact ⟨hv, hv, rfl⟩
      · rintro ⟨_, _, rfl⟩; rfl
    · rw [h] at he; cases he
  | case3 d he ih =>
    rw [slipToNext]
    rcases isHolidayWH_cases hg d with ⟨hv, h⟩ | ⟨hv, hb, h⟩ | ⟨hv, hb, h⟩
    · rw [h] at he; cases he
    · rw [h] at he; cases he
    · split <;> rename_i h' <;> rw [h] at h' <;> cases h'
      simp only [dite_eq_ite] at ih
      rw [ih]
      cases fwd
      · simp only [Bool.false_eq_true, if_false]
        rw [isSlip_move_bwd (biz := fun d => Weekday d ∧ d ∉ hs) hb]
        constructor
        · rintro ⟨_, h2, h3⟩; exact ⟨hv, h2, h3⟩
        · rintro ⟨_, h2, h3⟩
          refine ⟨?_, h2, h3⟩
          unfold IsSlip at h3; unfold Valid at *
          simp only [Bool.false_eq_true, if_false] at h3
          omega
      · simp only [if_true]
        rw [isSlip_move_fwd (biz := fun d => Weekday d ∧ d ∉ hs) hb]
        constructor
        · rintro ⟨_, h2, h3⟩; exact ⟨hv, h2, h3⟩
        · rintro ⟨_, h2, h3⟩
          refine ⟨?_, h2, h3⟩
          unfold IsSlip at h3; unfold Valid at *
          simp only [if_true] at h3
          omega

theorem slipToNext_dichotomy {hs : List Int} (hg : GoodHolidays hs) (fwd : Bool) (d : Int) :
    (∃ e, slipToNext hs fwd d = .ok e) ∨ slipToNext hs fwd d = .error .panic := by
  induction d using slipToNext.induct (holidays := hs) (fwd := fwd) with
  | case1 d er he =>
    right
    rw [slipToNext]
    rcases isHolidayWH_cases hg d with ⟨hv, h⟩ | ⟨hv, hb, h⟩ | ⟨hv, hb, h⟩
    · split <;> rename_i h' <;> rw [h] at h' <;> cases h'
      rfl
    · rw [h] at he; cases he
    · rw [h] at he; cases he
  | case2 d he =>
    left
    rw [slipToNext]
    exact ⟨d, by split <;> rename_i h' <;> rw [he] at h' <;> cases h' <;> rfl⟩
  | case3 d he ih =>
    rw [slipToNext]
    split <;> rename_i h' <;> rw [he] at h' <;> cases h'
    simpa only [dite_eq_ite] using ih

theorem stepLoop_fwd_iff {hs : List Int} (hg : GoodHolidays hs) (d x e : Int) (hx : 0 ≤ x) :
    stepLoop hs true d x = .ok e ↔
      Valid d ∧ Valid e ∧ d ≤ e ∧ (Weekday e ∧ e ∉ hs) ∧ WH hs e = WH hs (d - 1) + 1 + x := by
  have hB := WH_counts hs hg
  have hd1 : ∀ d : Int, d + 1 - 1 = d := by intro d; omega
  induction d, x using stepLoop.induct (holidays := hs) (fwd := true) with
  | case1 d x er he =>
    rw [stepLoop]
    rcases isHolidayWH_cases hg d with ⟨hv, h⟩ | ⟨hv, hb, h⟩ | ⟨hv, hb, h⟩
    · split <;> rename_i h' <;> rw [h] at h' <;> cases h'
      simp [hv]
    · rw [h] at he; cases he
    · rw [h] at he; cases he
  | case2 d x he ih =>
    simp only [dite_eq_ite, if_true] at ih
    rw [stepLoop]
    rcases isHolidayWH_cases hg d with ⟨hv, h⟩ | ⟨hv, hb, h⟩ | ⟨hv, hb, h⟩
    · rw [h] at he; cases he
    · rw [h] at he; cases he
    · split <;> rename_i h' <;> rw [h] at h' <;> cases h'
      simp only [if_true]
      refine (ih hx).trans ?_
      rw [hd1]
      have hBd := hB d
      rw [if_neg hb] at hBd
      constructor
      · rintro ⟨_, h2, h3, h4, h5⟩; exact ⟨hv, h2, by omega, h4, by omega⟩
      · rintro ⟨_, h2, h3, h4, h5⟩
        have : d ≠ e := by rintro rfl; exact hb h4
        refine ⟨?_, h2, by omega, h4, by omega⟩
        unfold Valid at *; omega
  | case3 d x he hx0 ih =>
    simp only [dite_eq_ite, if_true] at ih
    rw [stepLoop]
    rcases isHolidayWH_cases hg d with ⟨hv, h⟩ | ⟨hv, hb, h⟩ | ⟨hv, hb, h⟩
    · rw [h] at he; cases he
    · split <;> rename_i h' <;> rw [h] at h' <;> cases h'
      simp only [if_true, if_pos hx0]
      refine (ih (by omega)).trans ?_
      rw [hd1]
      have hBd := hB d
      rw [if_pos hb] at hBd
      constructor
      · rintro ⟨_, h2, h3, h4, h5⟩; exact ⟨hv, h2, by omega, h4, by omega⟩
      · rintro ⟨_, h2, h3, h4, h5⟩
        have : d ≠ e := by rintro rfl; omega
        refine ⟨?_, h2, by omega, h4, by omega⟩
        unfold Valid at *; omega
    · rw [h] at he; cases he
  | case4 d x he hx0 =>
    rw [stepLoop]
    rcases isHolidayWH_cases hg d with ⟨hv, h⟩ | ⟨hv, hb, h⟩ | ⟨hv, hb, h⟩
    · rw [h] at he; cases he
    · split <;> rename_i h' <;> rw [h] at h' <;> cases h'
      rw [if_neg hx0]
      have hBd := hB d
      rw [if_pos hb] at hBd
      constructor
      · intro h2; cases h2; exact ⟨hv, hv, le_refl _, hb, by omega⟩
      · rintro ⟨_, h2, h3, h4, h5⟩
        congr 1
        by_contra hne
        have := B_lt hB (a := d) (b := e) (by omega) h4
        omega
    · rw [h] at he; cases he

theorem stepLoop_bwd_iff {hs : List Int} (hg : GoodHolidays hs) (d x e : Int) (hx : 0 ≤ x) :
    stepLoop hs false d x = .ok e ↔
      Valid d ∧ Valid e ∧ e ≤ d ∧ (Weekday e ∧ e ∉ hs) ∧ WH hs e = WH hs d - x := by
  have hB := WH_counts hs hg
  induction d, x using stepLoop.induct (holidays := hs) (fwd := false) with
  | case1 d x er he =>
    rw [stepLoop]
    rcases isHolidayWH_cases hg d with ⟨hv, h⟩ | ⟨hv, hb, h⟩ | ⟨hv, hb, h⟩
    · split <;> rename_i h' <;> rw [h] at h' <;> cases h'
      simp [hv]
    · rw [h] at he; cases he
    · rw [h] at he; cases he
  | case2 d x he ih =>
    simp only [dite_eq_ite, Bool.false_eq_true, if_false] at ih
    rw [stepLoop]
    rcases isHolidayWH_cases hg d with ⟨hv, h⟩ | ⟨hv, hb, h⟩ | ⟨hv, hb, h⟩
    · rw [h] at he; cases he
    · rw [h] at he; cases he
    · split <;> rename_i h' <;> rw [h] at h' <;> cases h'
      simp only [Bool.false_eq_true, if_false]
      refine (ih hx).trans ?_
      have hBd := hB d
      rw [if_neg hb] at hBd
      constructor
      · rintro ⟨_, h2, h3, h4, h5⟩; exact ⟨hv, h2, by omega, h4, by omega⟩
      · rintro ⟨_, h2, h3, h4, h5⟩
        have : d ≠ e := by rintro rfl; exact hb h4
        refine ⟨?_, h2, by omega, h4, by omega⟩
        unfold Valid at *; omega
  | case3 d x he hx0 ih =>
    simp only [dite_eq_ite, Bool.false_eq_true, if_false] at ih
    rw [stepLoop]
    rcases isHolidayWH_cases hg d with ⟨hv, h⟩ | ⟨hv, hb, h⟩ | ⟨hv, hb, h⟩
    · rw [h] at he; cases he
    · split <;> rename_i h' <;> rw [h] at h' <;> cases h'
      simp only [Bool.false_eq_true, if_false, if_pos hx0]
      refine (ih (by omega)).trans ?_
      have hBd := hB d
      rw [if_pos hb] at hBd
      constructor
      · rintro ⟨_, h2, h3, h4, h5⟩; exact ⟨hv, h2, by omega, h4, by omega⟩
      · rintro ⟨_, h2, h3, h4, h5⟩
        have : d ≠ e := by rintro rfl; omega
        refine ⟨?_, h2, by omega, h4, by omega⟩
        unfold Valid at *; omega
    · rw [h] at he; cases he
  | case4 d x he hx0 =>
    rw [stepLoop]
    rcases isHolidayWH_cases hg d with ⟨hv, h⟩ | ⟨hv, hb, h⟩ | ⟨hv, hb, h⟩
    · rw [h] at he; cases he
    · split <;> rename_i h' <;> rw [h] at h' <;> cases h'
      rw [if_neg hx0]
      constructor
      · intro h2; cases h2; exact ⟨hv, hv, le_refl _, hb, by omega⟩
      · rintro ⟨_, h2, h3, h4, h5⟩
        congr 1
        by_contra hne
        have := B_lt hB (a := e) (b := d) (by omega) hb
        omega
    · rw [h] at he; cases he

/-- The week arithmetic lands on the right weekday. -/
theorem calendarDays_pos {a n : Int} (ha : Weekday a) (hn : 0 < n) :
    Weekday (a + calendarDays ((a + 3) % 7) n) ∧ W (a + calendarDays ((a + 3) % 7) n) = W a + n ∧
      a < a + calendarDays ((a + 3) % 7) n := by
  rw [weekday_iff] at ha
  unfold calendarDays W
  rw [if_pos hn, weekday_iff, Int.tdiv_eq_ediv_of_nonneg (by omega)]
  generalize hr : (a + 3) % 7 = r at *
  generalize hk : (a + 3) / 7 = k at *
  obtain ⟨q, s, hqs, h0, h5⟩ : ∃ q s, r + n = 5 * q + s ∧ 0 ≤ s ∧ s < 5 :=
    ⟨(r + n) / 5, (r + n) % 5, by omega, by omega, by omega⟩
  have e1 : (r + n) / 5 = q := by omega
  rw [e1]
  have e2 : a + (n + q * 2) + 3 = 7 * (k + q) + s := by omega
  have e3 : (a + (n + q * 2) + 3) % 7 = s := by omega
  have e4 : (a + (n + q * 2) + 3) / 7 = k + q := by omega
  rw [e3, e4]
  refine ⟨by omega, by omega, by omega⟩

theorem calendarDays_neg {a n : Int} (ha : Weekday a) (hn : n < 0) :
    Weekday (a + calendarDays ((a + 3) % 7) n) ∧ W (a + calendarDays ((a + 3) % 7) n) = W a + n ∧
      a + calendarDays ((a + 3) % 7) n < a := by
  rw [weekday_iff] at ha
  unfold calendarDays W
  rw [if_neg (by omega), weekday_iff, Int.tdiv_eq_ediv_of_nonneg (by omega)]
  generalize hr : (a + 3) % 7 = r at *
  generalize hk : (a + 3) / 7 = k at *
  obtain ⟨q, s, hqs, h0, h5⟩ : ∃ q s, 4 - r - n = 5 * q + s ∧ 0 ≤ s ∧ s < 5 :=
    ⟨(4 - r - n) / 5, (4 - r - n) % 5, by omega, by omega, by omega⟩
  have e1 : (4 - r - n) / 5 = q := by omega
  rw [e1]
  have e3 : (a + (n - q * 2) + 3) % 7 = 4 - s := by omega
  have e4 : (a + (n - q * 2) + 3) / 7 = k - q := by omega
  rw [e3, e4]
  refine ⟨by omega, by omega, by omega⟩

theorem off_mono (hs : List Int) (h : hs.Pairwise (· < ·)) {a b : Int} (hab : a ≤ b) :
    off hs a ≤ off hs b := by
  obtain ⟨k, rfl⟩ : ∃ k : Nat, b = a + k := ⟨(b - a).toNat, by omega⟩
  clear hab
  induction k with
  | zero => simp
  | succ k ih =>
    have := off_succ hs h (a + k)
    have e : a + ((k + 1 : Nat) : Int) = a + k + 1 := by omega
    rw [e]; omega

theorem countHolidays_eq (hs : List Int) (h : hs.Pairwise (· < ·)) (a b : Int) :
    countHolidays hs a b = (off hs b : Int) - off hs (a + 1) := by
  unfold countHolidays
  have h1 := off_succ hs h a
  simp only [remaining_snd hs h]
  have e1 : (remainingHolidays hs a).1 = off hs a := rfl
  have e2 : (remainingHolidays hs b).1 = off hs b := rfl
  rw [e1, e2]
  by_cases ha : a ∈ hs <;> simp [ha] at h1 ⊢ <;> omega

/-- Where a step of the holiday calendar ends, as a condition on the running count. -/
theorem stepWH_iff {hs : List Int} (hg : GoodHolidays hs) (from_ n : Int) (fwd : Bool) (e : Int) :
    stepWH hs from_ n fwd = .ok e ↔
      Valid from_ ∧ Valid e ∧ ∃ a, Valid a ∧ IsSlip (fun d => Weekday d ∧ d ∉ hs) fwd from_ a ∧
        (if 0 ≤ n then a ≤ e else e ≤ a) ∧ (Weekday e ∧ e ∉ hs) ∧ WH hs e = WH hs a + n := by
  have hB := WH_counts hs hg
  unfold stepWH
  rcases slipToNext_dichotomy hg fwd from_ with ⟨a, ha⟩ | ha
  · rw [ha]
    obtain ⟨hvf, hva, hslip⟩ := (slipToNext_iff hg fwd from_ a).1 ha
    have hba : Weekday a ∧ a ∉ hs := hslip.1
    have huniq : ∀ a', Valid a' → IsSlip (fun d => Weekday d ∧ d ∉ hs) fwd from_ a' → a' = a := by
      intro a' h1 h2
      have := (slipToNext_iff hg fwd from_ a').2 ⟨hvf, h1, h2⟩
      rw [ha] at this; cases this; rfl
    have key : (∃ a', Valid a' ∧ IsSlip (fun d => Weekday d ∧ d ∉ hs) fwd from_ a' ∧
        (if 0 ≤ n then a' ≤ e else e ≤ a') ∧ (Weekday e ∧ e ∉ hs) ∧ WH hs e = WH hs a' + n) ↔
        ((if 0 ≤ n then a ≤ e else e ≤ a) ∧ (Weekday e ∧ e ∉ hs) ∧ WH hs e = WH hs a + n) := by
      constructor
      · rintro ⟨a', h1, h2, h3⟩
        rw [huniq a' h1 h2] at h3; exact h3
      · intro h; exact ⟨a, hva, hslip, h⟩
    rw [key]
    simp only [bind, Except.bind]
    by_cases hn : n = 0
    · subst hn
      simp only [if_true, pure, Except.pure]
      constructor
      · intro h; cases h
        exact ⟨hvf, hva, by simp, hba, by simp⟩
      · rintro ⟨_, _, h1, h2, h3⟩
        simp at h1 h3
        congr 1
        by_contra hne
        have := B_lt hB (a := a) (b := e) (by omega) h2
        omega
    · rw [if_neg hn, dayOfWeek_valid hva]
      simp only
      have hoa := off_succ hs hg.1 a
      rw [if_neg hba.2] at hoa
      rcases lt_or_gt_of_ne hn with hneg | hpos
      · obtain ⟨c1, c2, c3⟩ := calendarDays_neg hba.1 hneg
        generalize a + calendarDays ((a + 3) % 7) n = t at *
        rw [if_neg (by omega : ¬ 0 ≤ n)]
        by_cases hvt : Valid t
        · rw [dayOfWeek_valid hvt]
          simp only [if_neg (by omega : ¬ n > 0)]
          have hwt := (weekday_iff t).1 c1
          rw [if_neg (by omega : ¬ (t + 3) % 7 = 5), countHolidays_eq hs hg.1,
            stepLoop_bwd_iff hg _ _ _ (by have := off_mono hs hg.1 (a := t + 1) (b := a) (by omega); omega)]
          have hWt : WH hs t = W t - off hs (t + 1) := rfl
          have hWa : WH hs a = W a - off hs (a + 1) := rfl
          have hWe : WH hs e = W e - off hs (e + 1) := rfl
          constructor
          · rintro ⟨_, h2, h3, h4, h5⟩
            exact ⟨hvf, h2, by omega, h4, by omega⟩
          · rintro ⟨_, h2, h3, h4, h5⟩
            refine ⟨hvt, h2, ?_, h4, by omega⟩
            by_contra hlt
            have h6 := B_lt W_counts (a := t) (b := e) (by omega) h4.1
            have hne : e ≠ a := by rintro rfl; omega
            have := off_mono hs hg.1 (a := e + 1) (b := a) (by omega)
            omega
        · rw [dayOfWeek_invalid hvt]
          simp only [reduceCtorEq, false_iff]
          rintro ⟨_, h2, h3, h4, h5⟩
          apply hvt
          have hWa : WH hs a = W a - off hs (a + 1) := rfl
          have hWe : WH hs e = W e - off hs (e + 1) := rfl
          have hle : e ≤ t := by
            by_contra hlt
            have h6 := B_lt W_counts (a := t) (b := e) (by omega) h4.1
            have hne : e ≠ a := by rintro rfl; omega
            have := off_mono hs hg.1 (a := e + 1) (b := a) (by omega)
            omega
          unfold Valid at *; omega
      · obtain ⟨c1, c2, c3⟩ := calendarDays_pos hba.1 hpos
        generalize a + calendarDays ((a + 3) % 7) n = t at *
        rw [if_pos (by omega : 0 ≤ n)]
        have hWt := W_counts t
        rw [if_pos c1] at hWt
        have hWt' : WH hs (t - 1) = W (t - 1) - off hs (t - 1 + 1) := rfl
        have e1 : t - 1 + 1 = t := by omega
        rw [e1] at hWt'
        have hWa : WH hs a = W a - off hs (a + 1) := rfl
        have hWe : WH hs e = W e - off hs (e + 1) := rfl
        by_cases hvt : Valid t
        · rw [dayOfWeek_valid hvt]
          simp only [if_pos (show n > 0 from hpos)]
          have hwt := (weekday_iff t).1 c1
          rw [max_eq_right (by omega : (t + 3) % 7 - 4 ≤ 0), countHolidays_eq hs hg.1,
            stepLoop_fwd_iff hg _ _ _ (by have := off_mono hs hg.1 (a := a + 1) (b := t) (by omega); omega)]
          constructor
          · rintro ⟨_, h2, h3, h4, h5⟩
            exact ⟨hvf, h2, by omega, h4, by omega⟩
          · rintro ⟨_, h2, h3, h4, h5⟩
            refine ⟨hvt, h2, ?_, h4, by omega⟩
            by_contra hlt
            have h6 := B_lt W_counts (a := e) (b := t) (by omega) c1
            have := off_mono hs hg.1 (a := a + 1) (b := e + 1) (by omega)
            omega
        · rw [dayOfWeek_invalid hvt]
          simp only [reduceCtorEq, false_iff]
          rintro ⟨_, h2, h3, h4, h5⟩
          apply hvt
          have hle : t ≤ e := by
            by_contra hlt
            have h6 := B_lt W_counts (a := e) (b := t) (by omega) c1
            have := off_mono hs hg.1 (a := a + 1) (b := e + 1) (by omega)
            omega
          unfold Valid at *; omega
  · rw [ha]
    simp only [bind, Except.bind, reduceCtorEq, false_iff]
    rintro ⟨hvf, hve, a, hva, hslip, _⟩
    have := (slipToNext_iff hg fwd from_ a).2 ⟨hvf, hva, hslip⟩
    rw [ha] at this; cases this

/-- The same in terms of the specification. -/
theorem stepWH_isStep {hs : List Int} (hg : GoodHolidays hs) (from_ n : Int) (fwd : Bool) (e : Int) :
    stepWH hs from_ n fwd = .ok e ↔
      Valid from_ ∧ Valid e ∧ ∃ a, Valid a ∧ IsSlip (fun d => Weekday d ∧ d ∉ hs) fwd from_ a ∧
        Moves (fun d => Weekday d ∧ d ∉ hs) (decide (0 ≤ n)) n.natAbs a e := by
  have hB := WH_counts hs hg
  rw [stepWH_iff hg]
  have : ∀ a, IsSlip (fun d => Weekday d ∧ d ∉ hs) fwd from_ a →
      (((if 0 ≤ n then a ≤ e else e ≤ a) ∧ (Weekday e ∧ e ∉ hs) ∧ WH hs e = WH hs a + n) ↔
        Moves (fun d => Weekday d ∧ d ∉ hs) (decide (0 ≤ n)) n.natAbs a e) := by
    intro a ha
    by_cases hn : 0 ≤ n
    · rw [decide_eq_true hn, moves_fwd_iff hB ha.1, if_pos hn]
      have : (n.natAbs : Int) = n := by omega
      rw [this]
    · rw [decide_eq_false hn, moves_bwd_iff hB ha.1, if_neg hn]
      have : (n.natAbs : Int) = -n := by omega
      rw [this]
      refine and_congr_right fun _ => and_congr_right fun _ => by omega
  refine and_congr_right fun _ => and_congr_right fun _ => exists_congr fun a =>
    and_congr_right fun _ => and_congr_right fun ha => this a ha

/-! ## Weekday calendar -/

theorem slipToNextWeekday_iff (fwd : Bool) (d e : Int) :
    slipToNextWeekday d fwd = .ok e ↔ Valid d ∧ IsSlip Weekday fwd d e := by
  unfold slipToNextWeekday
  by_cases hv : Valid d
  · rw [dayOfWeek_valid hv]
    simp only [bind, Except.bind, hv, true_and, pure, Except.pure]
    by_cases hw : Weekday d
    · rw [if_pos ((weekday_iff d).1 hw), isSlip_self hw]
      simp [eq_comm]
    · have h5 : 5 ≤ (d + 3) % 7 := by rw [weekday_iff] at hw; omega
      rw [if_neg (by omega)]
      cases fwd
      · simp only [Bool.false_eq_true, if_false]
        rw [isSlip_bwd_iff W_counts]
        constructor
        · intro h; cases h
          rw [weekday_iff]; unfold W
          refine ⟨by omega, by omega, by omega⟩
        · rintro ⟨h1, h2, h3⟩
          rw [weekday_iff] at h2; unfold W at h3
          congr 1; omega
      · simp only [if_true]
        rw [isSlip_fwd_iff W_counts]
        constructor
        · intro h; cases h
          rw [weekday_iff]; unfold W
          refine ⟨by omega, by omega, by omega⟩
        · rintro ⟨h1, h2, h3⟩
          rw [weekday_iff] at h2; unfold W at h3
          congr 1; omega
  · rw [dayOfWeek_invalid hv]
    simp [bind, Except.bind, hv]

theorem slipToNextWeekday_exists {d : Int} (fwd : Bool) (hv : Valid d) :
    ∃ e, slipToNextWeekday d fwd = .ok e := by
  unfold slipToNextWeekday
  rw [dayOfWeek_valid hv]
  simp only [bind, Except.bind, pure, Except.pure]
  split
  · exact ⟨_, rfl⟩
  · split <;> exact ⟨_, rfl⟩

theorem slip_unique {biz : Int → Prop} {fwd : Bool} {d a b : Int} (ha : IsSlip biz fwd d a)
    (hb : IsSlip biz fwd d b) : a = b := by
  unfold IsSlip at ha hb
  by_contra hne
  cases fwd
  · simp only [Bool.false_eq_true, if_false] at ha hb
    rcases lt_or_gt_of_ne hne with h | h
    · exact ha.2.2 b h hb.2.1 hb.1
    · exact hb.2.2 a h ha.2.1 ha.1
  · simp only [if_true] at ha hb
    rcases lt_or_gt_of_ne hne with h | h
    · exact hb.2.2 a ha.2.1 h ha.1
    · exact ha.2.2 b hb.2.1 h hb.1

theorem stepWeekday_isStep (from_ n : Int) (fwd : Bool) (e : Int) :
    stepWeekday from_ n fwd = .ok e ↔
      Valid from_ ∧ ∃ a, IsSlip Weekday fwd from_ a ∧ (n ≠ 0 → Valid a ∧ Valid e) ∧
        Moves Weekday (decide (0 ≤ n)) n.natAbs a e := by
  unfold stepWeekday
  by_cases hv : Valid from_
  · obtain ⟨a, ha⟩ := slipToNextWeekday_exists fwd hv
    rw [ha]
    obtain ⟨_, hs⟩ := (slipToNextWeekday_iff fwd from_ a).1 ha
    have key : (∃ a, IsSlip Weekday fwd from_ a ∧ (n ≠ 0 → Valid a ∧ Valid e) ∧
        Moves Weekday (decide (0 ≤ n)) n.natAbs a e) ↔
        ((n ≠ 0 → Valid a ∧ Valid e) ∧ Moves Weekday (decide (0 ≤ n)) n.natAbs a e) := by
      constructor
      · rintro ⟨a', h1, h2⟩; rw [slip_unique h1 hs] at h2; exact h2
      · intro h; exact ⟨a, hs, h⟩
    rw [key]
    simp only [bind, Except.bind, hv, true_and]
    by_cases hn : n = 0
    · subst hn
      simp only [if_true, pure, Except.pure, ne_eq, not_true_eq_false, false_imp_iff, true_and,
        Int.natAbs_zero]
      unfold Moves
      simp
    · rw [if_neg hn]
      simp only [ne_eq, hn, not_false_eq_true, true_imp_iff]
      by_cases hva : Valid a
      · rw [dayOfWeek_valid hva]
        simp only [hva, true_and]
        rcases lt_or_gt_of_ne hn with hneg | hpos
        · obtain ⟨c1, c2, c3⟩ := calendarDays_neg hs.1 hneg
          rw [decide_eq_false (by omega), moves_bwd_iff W_counts hs.1]
          generalize a + calendarDays ((a + 3) % 7) n = t at *
          have hna : (n.natAbs : Int) = -n := by omega
          rw [hna]
          have hwt := (weekday_iff t).1 c1
          constructor
          · by_cases hvt : Valid t
            · rw [dayOfWeek_valid hvt]
              simp only [if_pos hwt, pure, Except.pure]
              intro h; cases h
              exact ⟨hvt, by omega, c1, by omega⟩
            · rw [dayOfWeek_invalid hvt]
              intro h; cases h
          · rintro ⟨h1, h2, h3, h4⟩
            have : e = t := by
              rcases lt_trichotomy e t with h | h | h
              · have := B_lt W_counts h c1; omega
              · exact h
              · have := B_lt W_counts h h3; omega
            subst this
            rw [dayOfWeek_valid h1]
            simp only [if_pos hwt, pure, Except.pure]
        · obtain ⟨c1, c2, c3⟩ := calendarDays_pos hs.1 hpos
          rw [decide_eq_true (by omega), moves_fwd_iff W_counts hs.1]
          generalize a + calendarDays ((a + 3) % 7) n = t at *
          have hna : (n.natAbs : Int) = n := by omega
          rw [hna]
          have hwt := (weekday_iff t).1 c1
          constructor
          · by_cases hvt : Valid t
            · rw [dayOfWeek_valid hvt]
              simp only [if_pos hwt, pure, Except.pure]
              intro h; cases h
              exact ⟨hvt, by omega, c1, by omega⟩
            · rw [dayOfWeek_invalid hvt]
              intro h; cases h
          · rintro ⟨h1, h2, h3, h4⟩
            have : e = t := by
              rcases lt_trichotomy e t with h | h | h
              · have := B_lt W_counts h c1; omega
              · exact h
              · have := B_lt W_counts h h3; omega
            subst this
            rw [dayOfWeek_valid h1]
            simp only [if_pos hwt, pure, Except.pure]
      · rw [dayOfWeek_invalid hva]
        simp [hva]
  · have : slipToNextWeekday from_ fwd = .error .panic := by
      unfold slipToNextWeekday; rw [dayOfWeek_invalid hv]; rfl
    rw [this]
    simp [bind, Except.bind, hv]

end QM.Calendar
