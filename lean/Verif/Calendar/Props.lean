import Verif.Calendar.RuleLemmas
import Mathlib.Data.Rat.Floor

/-!
# Properties of calendars and date rules: C07 to C14, C56

The numbers 18120 (Monday 1 January 2018), 18208 (Good Friday 30 March 2018) and 18211 (Easter
Monday) are used in the examples.
-/

namespace QM.Calendar
open QM.Dates Spec

variable {K : Type} [Field K] [LinearOrder K] [IsStrictOrderedRing K] [FloorRing K]

/-- Example calendar: weekdays less New Year, Good Friday and Easter Monday 2018. -/
def easter : Cal ℚ := .weekdayAndHoliday [18120, 18208, 18211]

/-- Example calendar: holidays of `easter` have a quarter of the volatility of a business day. -/
def easterVol : Cal ℚ := .volatility easter (1 / 4)

theorem easter_good : Good easter := by
  constructor
  · decide
  · decide

/-! ## C07 steps land on business days -/

/-- C07. The date returned by a step is a business day, and the calendar itself agrees that it is
not a holiday. Missing: volatility calendars that give holidays a weight. -/
theorem C07_step_lands_on_business_day_partial (c : Cal K) (hg : Good c) (hw : Whole c) (fuel : Nat)
    (d n : Int) (s : Bool) (e : Int) (h : step fuel c d n s = some (.ok e)) :
    Biz c e ∧ (Valid e → isHoliday c e = .ok false) := by
  rw [step_whole hw] at h
  have hb := isStep_biz (baseStep_isStep hg (Option.some.inj h))
  refine ⟨hb, fun hv => ?_⟩
  clear h hw
  induction c with
  | everyDay => rfl
  | weekday => rw [isHoliday, isWeekend_valid hv]; simp only [Biz] at hb; simp [hb]
  | weekdayAndHoliday hs =>
    rw [isHoliday, isHolidayWH_ok hg hv]; simp only [Biz] at hb; simp [hb]
  | volatility c w ih => exact ih hg hb

example : Good easter ∧ Whole easter ∧ step 0 easter 18206 2 true = some (.ok 18212) :=
  ⟨easter_good, trivial, by decide +kernel⟩

/-- C07. A step succeeds whenever the dates it needs are valid dates. -/
theorem C07_step_defined (c : Cal K) (hg : Good c) (hw : Whole c) (fuel : Nat) (d n : Int) (s : Bool)
    (a e : Int) (hd : Valid d) (ha : Valid a) (he : Valid e) (h1 : IsSlip (Biz c) s d a)
    (h2 : Moves (Biz c) (decide (0 ≤ n)) n.natAbs a e) : step fuel c d n s = some (.ok e) := by
  rw [step_whole hw]
  exact congrArg some (baseStep_of hg (inRange_of_valid hd) (inRange_of_valid ha)
    (inRange_of_valid he) h1 h2)

/-- C07. `is_holiday` is the opposite of a business day, for every kind of calendar. -/
theorem C07_is_holiday (c : Cal K) (hg : Good c) (d : Int) (hd : Valid d) :
    isHoliday c d = .ok (decide (¬ Biz c d)) := by
  induction c with
  | everyDay => simp [isHoliday, Biz]
  | weekday => rw [isHoliday, isWeekend_valid hd]; rfl
  | weekdayAndHoliday hs => rw [isHoliday, isHolidayWH_ok hg hd]; rfl
  | volatility c w ih => exact ih hg

/-- C07 fails for volatility calendars: a zero step from Saturday 31 March 2018 stays on that
Saturday, and a step of one from Thursday 29 March ends on Good Friday. -/
theorem C07_volatility_step_false :
    step 10 easterVol 18209 0 true = some (.ok 18209) ∧ isHoliday easterVol 18209 = .ok true ∧
    step 10 easterVol 18207 1 true = some (.ok 18208) ∧ isHoliday easterVol 18208 = .ok true := by
  decide +kernel

/-! ## C08 multi-step is single steps -/

/-- C08. A step of `n` gives `e` exactly when a zero step followed by `|n|` calls of a step by one,
in the direction of `n`, gives `e`. Missing: volatility calendars that give holidays a weight. -/
theorem C08_step_is_single_steps_partial (c : Cal K) (hg : Good c) (hw : Whole c) (fuel : Nat)
    (d n : Int) (s t : Bool) (e : Int) :
    step fuel c d n s = some (.ok e) ↔
      ∃ a, step fuel c d 0 s = some (.ok a) ∧
        Chain (fun x y => step fuel c x (if 0 ≤ n then 1 else -1) t = some (.ok y)) n.natAbs a e := by
  simp only [step_whole hw, Option.some.injEq]
  have hif : (if 0 ≤ n then (1 : Int) else -1) = if decide (0 ≤ n) = true then 1 else -1 := by
    by_cases h : 0 ≤ n <;> simp [h]
  rw [hif]
  constructor
  · intro h
    obtain ⟨h1, a, h2, h3, h4⟩ := baseStep_imp hg h
    by_cases hn : n = 0
    · subst hn
      refine ⟨e, h, ?_⟩
      rfl
    · obtain ⟨h5, h6⟩ := h3 hn
      exact ⟨a, baseStep_of hg h1 h5 h5 h2 rfl, moves_chain hg _ t _ h2.1 h5 h6 h4⟩
  · rintro ⟨a, h1, h2⟩
    obtain ⟨r1, a', r2, r3, r4⟩ := baseStep_imp hg h1
    change a' = a at r4
    subst r4
    by_cases hn : n = 0
    · subst hn
      change a' = e at h2
      subst h2
      exact h1
    · obtain ⟨m1, m2⟩ := chain_moves hg _ t _ r2.1 h2
      obtain ⟨m3, m4⟩ := m2 (by omega)
      exact baseStep_of hg r1 m3 m4 r2 m1

example : Good easter ∧ Whole easter ∧ step 0 easter 18208 (-3) true = some (.ok 18205) ∧
    step 0 easter 18208 0 true = some (.ok 18212) := ⟨easter_good, trivial, by decide +kernel⟩

/-- C08. In terms of the calendar days alone: slip, then move from business day to business day. -/
theorem C08_step_spec_partial (c : Cal K) (hg : Good c) (hw : Whole c) (fuel : Nat)
    (d n : Int) (s : Bool) (e : Int) (h : step fuel c d n s = some (.ok e)) :
    IsStep (Biz c) s d n e := by
  rw [step_whole hw] at h
  exact baseStep_isStep hg (Option.some.inj h)

/-- C08 fails for volatility calendars: ten steps from Friday 1 June 2018 end a day before ten
single steps do. -/
theorem C08_volatility_step_false :
    step 20 (.volatility .weekday (1 / 4) : Cal ℚ) 18271 10 true = some (.ok 18284) ∧
    Chain (fun x y => step 20 (.volatility .weekday (1 / 4) : Cal ℚ) x 1 true = some (.ok y)) 10
      18271 18285 := by
  refine ⟨by decide +kernel, ?_⟩
  exact ⟨18284, ⟨18283, ⟨18282, ⟨18279, ⟨18278, ⟨18277, ⟨18276, ⟨18275, ⟨18272, ⟨18271, rfl,
    by decide +kernel⟩, by decide +kernel⟩, by decide +kernel⟩, by decide +kernel⟩, by decide +kernel⟩,
    by decide +kernel⟩, by decide +kernel⟩, by decide +kernel⟩, by decide +kernel⟩, by decide +kernel⟩

/-! ## C09 zero steps -/

/-- C09. A zero step gives the nearest business day in the slip direction, and stays on a business
day. Missing: volatility calendars that give holidays a weight. -/
theorem C09_zero_step_nearest_partial (c : Cal K) (hg : Good c) (hw : Whole c) (fuel : Nat)
    (d : Int) (s : Bool) (e : Int) (h : step fuel c d 0 s = some (.ok e)) :
    IsSlip (Biz c) s d e ∧ (Biz c d → e = d) := by
  rw [step_whole hw] at h
  obtain ⟨a, h1, h2⟩ := baseStep_isStep hg (Option.some.inj h)
  change a = e at h2
  subst h2
  exact ⟨h1, fun hb => (isSlip_self hb).1 h1⟩

example : step 0 easter 18208 0 true = some (.ok 18212) ∧ step 0 easter 18208 0 false = some (.ok 18207) := by
  decide +kernel

/-- C09 fails for volatility calendars: the zero step does not leave a holiday. -/
theorem C09_volatility_zero_step_false :
    step 10 easterVol 18208 0 true = some (.ok 18208) ∧ ¬ IsSlip (Biz easterVol) true 18208 18208 := by
  refine ⟨by decide +kernel, ?_⟩
  intro h
  have : ¬ Biz easterVol 18208 := by decide
  exact this h.1

/-! ## C10 counts -/

theorem cweight_notNested {c : Cal K} (hn : NotNested c) (hg : Good c) {d : Int} {x : K}
    (h : dayWeight c d = .ok x) : x = cweight c d := by
  cases c with
  | everyDay => simp [dayWeight, isHoliday, bind, Except.bind, pure, Except.pure] at h; simp [cweight, h]
  | weekday =>
    by_cases hv : Valid d
    · rw [dayWeight, isHoliday, isWeekend_valid hv] at h
      · simp only [bind, Except.bind, pure, Except.pure] at h
        cases h
        unfold cweight weightOf
        by_cases hw : Weekday d <;> simp [hw]
      · simp
    · rw [dayWeight, isHoliday, isWeekend, dayOfWeek_invalid hv] at h
      · cases h
      · simp
  | weekdayAndHoliday hs =>
    by_cases hv : Valid d
    · rw [dayWeight, isHoliday, isHolidayWH_ok hg hv] at h
      · simp only [bind, Except.bind, pure, Except.pure] at h
        cases h
        unfold cweight weightOf
        by_cases hw : Weekday d ∧ d ∉ hs
        · simp [hw]
        · rw [decide_eq_true hw, if_neg hw]; simp
      · simp
    · rw [dayWeight, isHoliday, isHolidayWH_invalid hv] at h
      · cases h
      · simp
  | volatility c w =>
    rw [dayWeight] at h
    cases c with
    | everyDay =>
      simp only [isHoliday, bind, Except.bind, pure, Except.pure] at h
      cases h
      simp [cweight]
    | weekday =>
      by_cases hv : Valid d
      · rw [isHoliday, isWeekend_valid hv] at h
        simp only [bind, Except.bind, pure, Except.pure] at h
        cases h
        simp only [cweight, weightOf]
        by_cases hw : Weekday d <;> simp [hw]
      · rw [isHoliday, isWeekend, dayOfWeek_invalid hv] at h; cases h
    | weekdayAndHoliday hs =>
      by_cases hv : Valid d
      · rw [isHoliday, isHolidayWH_ok hg hv] at h
        simp only [bind, Except.bind, pure, Except.pure] at h
        cases h
        simp only [cweight, weightOf]
        by_cases hw : Weekday d ∧ d ∉ hs
        · simp [hw]
        · rw [decide_eq_true hw, if_neg hw]; simp
      · rw [isHoliday, isHolidayWH_invalid hv] at h; cases h
    | volatility c' w' => exact absurd hn id

theorem manualCount_congr {f g : Int → K} {a b : Int} (hab : a ≤ b) (fa fb : K)
    (h : ∀ d, a ≤ d → d ≤ b → f d = g d) : manualCount f a fa b fb = manualCount g a fa b fb := by
  unfold manualCount
  rw [h a (le_refl _) hab, h b hab (le_refl _)]
  congr 2
  refine Finset.sum_congr rfl fun x hx => ?_
  rw [Finset.mem_Icc] at hx
  exact h x hx.1 hx.2

/-- C10. The count between two points in time is the day-by-day sum of the calendar's own day
weights. Missing: volatility calendars that decorate volatility calendars. -/
theorem C10_count_is_sum_of_day_weights_partial (c : Cal K) (hg : Good c) (hn : NotNested c)
    (a b : Int) (fa fb v : K) (weight : Int → K) (hab : a ≤ b)
    (hwt : ∀ d, a ≤ d → d ≤ b → dayWeight c d = .ok (weight d))
    (h : countBusinessDays c a fa b fb = .ok v) : v = manualCount weight a fa b fb := by
  rw [count_ok hg h, if_pos hab]
  exact manualCount_congr hab fa fb fun d h1 h2 => (cweight_notNested hn hg (hwt d h1 h2)).symm

example : Good easterVol ∧ NotNested easterVol ∧
    (∀ d, 18206 ≤ d → d ≤ 18213 → dayWeight easterVol d = .ok (weightOf (Biz easter) (1 / 4) d)) ∧
    countBusinessDays easterVol 18206 (1 / 2) 18213 (1 / 5) = .ok (37 / 10 : ℚ) :=
  ⟨easter_good, trivial, by
    intro d h1 h2
    rcases (by omega : d = 18206 ∨ d = 18207 ∨ d = 18208 ∨ d = 18209 ∨ d = 18210 ∨ d = 18211 ∨
      d = 18212 ∨ d = 18213) with h | h | h | h | h | h | h | h <;> subst h <;> decide +kernel,
    by decide +kernel⟩

/-- C10. The same for each kind of calendar in terms of its business days: one for a business day,
and the holiday weight for the other days of a volatility calendar. -/
theorem C10_count_by_business_days (c : Cal K) (hg : Good c) (hp : Plain c) (w : K)
    (a b : Int) (fa fb v v' : K) (hab : a ≤ b)
    (h : countBusinessDays c a fa b fb = .ok v)
    (h' : countBusinessDays (.volatility c w) a fa b fb = .ok v') :
    v = manualCount (weightOf (Biz c) 0) a fa b fb ∧ v' = manualCount (weightOf (Biz c) w) a fa b fb := by
  rw [count_ok hg h, count_ok (c := .volatility c w) hg h', if_pos hab, if_pos hab]
  have e1 : cweight c = weightOf (Biz c) 0 := by
    funext d
    cases c with
    | everyDay => simp [cweight, weightOf, Biz]
    | weekday => rfl
    | weekdayAndHoliday hs => rfl
    | volatility c w => exact absurd hp id
  have e2 : cweight (.volatility c w) = weightOf (Biz c) w := by
    funext d
    rw [cweight, e1]
    unfold weightOf
    split <;> ring
  rw [e1, e2]
  exact ⟨rfl, rfl⟩

/-- C10. Counts over adjacent intervals add up, for every calendar. -/
theorem C10_counts_add (c : Cal K) (hg : Good c) (x y z : Int) (fx fy fz u v t : K) (hxy : x ≤ y)
    (hyz : y ≤ z) (h1 : countBusinessDays c x fx y fy = .ok u)
    (h2 : countBusinessDays c y fy z fz = .ok v) (h3 : countBusinessDays c x fx z fz = .ok t) :
    u + v = t := by
  rw [count_ok hg h1, count_ok hg h2, count_ok hg h3, if_pos hxy, if_pos hyz, if_pos (by omega)]
  exact manualCount_add hxy hyz fx fy fz

example : countBusinessDays easter 18206 (1 / 2) 18208 (1 / 3) = .ok (3 / 2 : ℚ) ∧
    countBusinessDays easter 18208 (1 / 3) 18213 (1 / 5) = .ok (6 / 5 : ℚ) ∧
    countBusinessDays easter 18206 (1 / 2) 18213 (1 / 5) = .ok (27 / 10 : ℚ) := by decide +kernel

/-- C10. An interval in the wrong order counts zero. -/
theorem C10_wrong_order (c : Cal K) (hg : Good c) (x y : Int) (fx fy v : K) (hxy : y < x)
    (h : countBusinessDays c x fx y fy = .ok v) : v = 0 := by
  rw [count_ok hg h, if_neg (by omega)]

/-- C10. Counting succeeds for valid dates with a valid business day at or after the first and at or
before the last. -/
theorem C10_count_defined (c : Cal K) (hg : Good c) (x y x' y' : Int) (fx fy : K) (hx : Valid x)
    (hy : Valid y) (hx' : Valid x') (hy' : Valid y') (h1 : IsSlip (Biz c) true x x')
    (h2 : IsSlip (Biz c) false y y') : ∃ v, countBusinessDays c x fx y fy = .ok v := by
  refine count_defined hg fx fy ?_
  induction c with
  | everyDay => trivial
  | weekday => exact ⟨hx, hy, x', y', hx', hy', h1, h2⟩
  | weekdayAndHoliday hs => exact ⟨hx, hy, x', y', hx', hy', h1, h2⟩
  | volatility c w ih => exact ih hg h1 h2

/-- C10 fails for nested volatility calendars: over the whole of a Saturday the count is 7/16, but
the weight of that day is 1/4. -/
theorem C10_nested_volatility_false :
    let c : Cal ℚ := .volatility (.volatility .weekday (1 / 4)) (1 / 4)
    countBusinessDays c 18125 0 18125 1 = .ok (7 / 16 : ℚ) ∧ dayWeight c 18125 = .ok (1 / 4 : ℚ) := by
  decide +kernel

/-! ## C11 counting undoes stepping -/

theorem noWeight_cweight {c : Cal K} (h : NoHolidayWeight c) : cweight c = weightOf (Biz c) 0 := by
  induction c with
  | everyDay => funext d; simp [cweight, weightOf, Biz]
  | weekday => rfl
  | weekdayAndHoliday hs => rfl
  | volatility c w ih =>
    funext d
    rw [cweight, ih h.2, h.1]
    simp [weightOf, Biz]

theorem noWeight_whole {c : Cal K} (h : NoHolidayWeight c) : Whole c := by
  induction c with
  | everyDay => trivial
  | weekday => trivial
  | weekdayAndHoliday hs => trivial
  | volatility c w ih => exact ⟨by rw [h.1]; positivity, ih h.2⟩

theorem count_between {c : Cal K} (hg : Good c) (hw : NoHolidayWeight c) {B : Int → Int}
    (hB : Counts (Biz c) B) {a e : Int} (ha : Biz c a) (he : Biz c e) (hle : a ≤ e) {f v : K}
    (h : countBusinessDays c a f e f = .ok v) : v = ((B e - B a : Int) : K) := by
  rw [count_ok hg h, if_pos hle, noWeight_cweight hw, manualCount_eq hB 0 hle]
  have := hB a
  rw [if_pos ha] at this
  have e1 : B e - B (a - 1) = B e - B a + 1 := by omega
  rw [e1]
  unfold weightOf
  rw [if_pos ha, if_pos he]
  push_cast
  ring

/-- C11. The count from a business day to the day `n` steps later is `n`; stepping back, the count
from the day reached is `-n`. Missing: volatility calendars that give holidays a weight. -/
theorem C11_count_undoes_step_partial (c : Cal K) (hg : Good c) (hw : NoHolidayWeight c) (fuel : Nat)
    (a n : Int) (s : Bool) (e : Int) (f v : K) (ha : Biz c a)
    (h : step fuel c a n s = some (.ok e)) :
    (0 ≤ n → countBusinessDays c a f e f = .ok v → v = n) ∧
    (n ≤ 0 → countBusinessDays c e f a f = .ok v → v = -n) := by
  rw [step_whole (noWeight_whole hw)] at h
  obtain ⟨_, a', h1, _, h2⟩ := baseStep_imp hg (Option.some.inj h)
  rw [isSlip_self ha] at h1
  subst h1
  obtain ⟨B, hB⟩ := biz_counts hg
  obtain ⟨h3, h4, h5⟩ := (moves_count hB ha n e).1 h2
  constructor
  · intro hn hc
    rw [if_pos hn] at h3
    rw [count_between hg hw hB ha h4 h3 hc]
    congr 1; omega
  · intro hn hc
    have hle : e ≤ a' := by
      split at h3
      · have : n = 0 := by omega
        subst this
        change a' = e at h2
        omega
      · exact h3
    rw [count_between hg hw hB h4 ha hle hc]
    have : B a' - B e = -n := by omega
    rw [this]; push_cast; rfl

example : Biz easter 18206 ∧ step 0 easter 18206 4 true = some (.ok 18214) ∧
    countBusinessDays easter 18206 (1 / 3) 18214 (1 / 3) = .ok (4 : ℚ) := by decide +kernel

/-- C11 fails for volatility calendars with a holiday weight, because the step rounds to whole
days. -/
theorem C11_volatility_false :
    let c : Cal ℚ := .volatility .weekday (1 / 4)
    step 20 c 18271 2 true = some (.ok 18275) ∧ countBusinessDays c 18271 0 18275 0 = .ok (5 / 2 : ℚ) := by
  decide +kernel

/-! ## C12 stepping back -/

/-- C12. From a business day, stepping by `n` and then by `-n` returns to the start. Missing:
volatility calendars that give holidays a weight. -/
theorem C12_step_back_partial (c : Cal K) (hg : Good c) (hw : Whole c) (fuel : Nat)
    (a n : Int) (s t : Bool) (e : Int) (ha : Biz c a) (hva : Valid a) (hve : Valid e)
    (h : step fuel c a n s = some (.ok e)) : step fuel c e (-n) t = some (.ok a) := by
  rw [step_whole hw] at h ⊢
  obtain ⟨_, a', h1, _, h2⟩ := baseStep_imp hg (Option.some.inj h)
  rw [isSlip_self ha] at h1
  subst h1
  obtain ⟨B, hB⟩ := biz_counts hg
  obtain ⟨h4, h5⟩ := (moves_count' hB ha n e).1 h2
  refine congrArg some (baseStep_of hg (inRange_of_valid hve) (inRange_of_valid hve)
    (inRange_of_valid hva) ((isSlip_self h4).2 rfl) ?_)
  rw [moves_count' hB h4]
  exact ⟨ha, by omega⟩

example : Biz easter 18206 ∧ step 0 easter 18206 4 true = some (.ok 18214) ∧
    step 0 easter 18214 (-4) true = some (.ok 18206) := by decide +kernel

/-- C12. A larger step from the same date ends strictly later. Missing: volatility calendars that
give holidays a weight. -/
theorem C12_step_strict_mono_partial (c : Cal K) (hg : Good c) (hw : Whole c) (fuel : Nat)
    (d n m : Int) (s : Bool) (e e' : Int) (hnm : n < m)
    (h : step fuel c d n s = some (.ok e)) (h' : step fuel c d m s = some (.ok e')) : e < e' := by
  rw [step_whole hw] at h h'
  obtain ⟨_, a, h1, _, h2⟩ := baseStep_imp hg (Option.some.inj h)
  obtain ⟨_, a', h1', _, h2'⟩ := baseStep_imp hg (Option.some.inj h')
  have := slip_unique h1 h1'
  subst this
  obtain ⟨B, hB⟩ := biz_counts hg
  obtain ⟨h4, h5⟩ := (moves_count' hB h1.1 n e).1 h2
  obtain ⟨h4', h5'⟩ := (moves_count' hB h1.1 m e').1 h2'
  by_contra hle
  have := B_mono hB (a := e') (b := e) (by omega)
  omega

/-- C12 fails for volatility calendars with a holiday weight. -/
theorem C12_volatility_false :
    let c : Cal ℚ := .volatility .weekday (1 / 4)
    step 20 c 18271 2 true = some (.ok 18275) ∧ step 20 c 18275 (-2) false = some (.ok 18273) := by
  decide +kernel

/-! ## C13 modified following -/

/-- C13. `ModifiedFollowing` gives the next business day if it has the same month number, otherwise
the previous business day; in both cases a business day. Missing: volatility calendars that give
holidays a weight. -/
theorem C13_modified_following_partial (c : Cal K) (hg : Good c) (hw : Whole c) (fuel : Nat)
    (d e : Int) (h : Rule.apply fuel (.modifiedFollowing c) d = some (.ok e)) :
    Biz c e ∧ ∃ f, IsSlip (Biz c) true d f ∧
      if (ymd f).2.1 = (ymd d).2.1 then e = f else IsSlip (Biz c) false d e := by
  simp only [Rule.apply, step_whole hw] at h
  cases hf : baseStep c d 0 true with
  | error x => rw [hf] at h; cases h
  | ok f =>
    rw [hf] at h
    simp only at h
    obtain ⟨a, h1, h2⟩ := baseStep_isStep hg hf
    change a = f at h2
    subst a
    by_cases hm : (ymd f).2.1 = (ymd d).2.1
    · rw [if_pos hm] at h
      cases h
      exact ⟨h1.1, e, h1, by rw [if_pos hm]⟩
    · rw [if_neg hm] at h
      obtain ⟨b, h3, h4⟩ := baseStep_isStep hg (Option.some.inj h)
      change b = e at h4
      subst h4
      exact ⟨h3.1, f, h1, by rw [if_neg hm]; exact h3⟩

example : Rule.apply 0 (.modifiedFollowing easter) 18209 = some (.ok 18207) ∧
    Rule.apply 0 (.modifiedFollowing easter) 18211 = some (.ok 18212) := by decide +kernel

/-- C13. When the month of the input has a business day, and the next business day is less than 300
days away, the result is in the month of the input. Missing: a gap of most of a year (see
`C13_long_gap_false`), and volatility calendars that give holidays a weight. -/
theorem C13_stays_in_month_partial (c : Cal K) (hg : Good c) (hw : Whole c) (fuel : Nat)
    (d e x y : Int) (hd : Valid d) (hvx : Valid x) (hx : Biz c x) (hxm : SameMonth d x)
    (hy : Biz c y) (hdy : d ≤ y) (hy' : y < d + 300)
    (h : Rule.apply fuel (.modifiedFollowing c) d = some (.ok e)) : SameMonth d e := by
  obtain ⟨_, f, hf, he⟩ := C13_modified_following_partial c hg hw fuel d e h
  unfold Valid at hd
  have hd' : -2430000 < d := by omega
  have hdf : d ≤ f ∧ ∀ z, d ≤ z → z < f → ¬ Biz c z := by
    have := hf.2; simpa using this
  have hfy : f ≤ y := by
    by_contra hlt
    exact hdf.2 y hdy (by omega) hy
  by_cases hm : (ymd f).2.1 = (ymd d).2.1
  · rw [if_pos hm] at he
    subst he
    exact sameMonth_of_near hd' hdf.1 (by omega) hm
  · rw [if_neg hm] at he
    have hed : e ≤ d ∧ ∀ z, e < z → z ≤ d → ¬ Biz c z := by
      have := he.2; simpa using this
    have hxd : x < d := by
      by_contra hge
      apply hm
      have hfx : f ≤ x := by
        by_contra hlt
        exact hdf.2 x (by omega) (by omega) hx
      exact (sameMonth_between hd' hdf.1 hfx hxm).2.symm
    have hxe : x ≤ e := by
      by_contra hlt
      exact hed.2 x (by omega) (by omega) hx
    have := sameMonth_between (by unfold Valid at hvx; omega) hxe hed.1 ⟨hxm.1.symm, hxm.2.symm⟩
    exact ⟨hxm.1.trans this.1, hxm.2.trans this.2⟩

/-- A calendar with no business day from 29 January 2018 to 31 December 2018. -/
def longGap : Cal ℚ :=
  .weekdayAndHoliday (((List.range 337).map (fun i => (18148 : Int) + i)).filter (fun d => decide (Weekday d)))

/-- C13 fails over a gap of most of a year: the rule compares month numbers only, so a date in January
2018 rolls to January 2019 although January 2018 has business days. -/
theorem C13_long_gap_false :
    Good longGap ∧ Biz longGap 18145 ∧ SameMonth 18149 18145 ∧
    Rule.apply 0 (.modifiedFollowing longGap) 18149 = some (.ok 18485) ∧ ¬ SameMonth 18149 18485 := by
  refine ⟨⟨by decide +kernel, by decide +kernel⟩, by decide +kernel, ?_, by decide +kernel, ?_⟩ <;>
    unfold SameMonth <;> decide +kernel

/-! ## C14 volatility time -/

/-- C14. The volatility count is the holiday-weighted mixture of all days and business days. -/
theorem C14_mixture (c : Cal K) (w : K) (a b : Int) (fa fb v v' : K) (hab : a ≤ b)
    (h : countBusinessDays c a fa b fb = .ok v)
    (h' : countBusinessDays (.volatility c w) a fa b fb = .ok v') :
    v' = (1 - w) * v + w * (((b - a : Int) : K) + fb - fa) := by
  unfold countBusinessDays at h'
  rw [if_neg (by omega), h] at h'
  simp only [bind, Except.bind, pure, Except.pure] at h'
  cases h'
  ring

theorem cweight_range {c : Cal K} (h : GoodWeights c) (d : Int) : 0 ≤ cweight c d ∧ cweight c d ≤ 1 := by
  induction c with
  | everyDay => simp [cweight]
  | weekday => unfold cweight weightOf; split <;> simp
  | weekdayAndHoliday hs => unfold cweight weightOf; split <;> simp
  | volatility c w ih =>
    obtain ⟨h0, h1⟩ := ih h.2.2
    obtain ⟨w0, w1, _⟩ := h
    unfold cweight
    constructor
    · have := mul_nonneg h0 (by linarith : 0 ≤ 1 - w); linarith
    · have := mul_le_mul_of_nonneg_right h1 (by linarith : 0 ≤ 1 - w); linarith

/-- C14. Time between two points in order is never negative, for every calendar. -/
theorem C14_nonneg (c : Cal K) (hg : Good c) (hw : GoodWeights c) (a b : Int) (fa fb v : K)
    (hfa : fa ≤ 1) (hfb : 0 ≤ fb) (hab : a < b ∨ (a = b ∧ fa ≤ fb))
    (h : countBusinessDays c a fa b fb = .ok v) : 0 ≤ v := by
  rw [count_ok hg h, if_pos (by omega)]
  exact manualCount_nonneg (fun d => (cweight_range hw d).1) hfa hfb hab

/-- C14. Time on a volatility calendar adds up over consecutive intervals. -/
theorem C14_additive (c : Cal K) (w : K) (hg : Good c) (x y z : Int) (fx fy fz u v t : K) (hxy : x ≤ y) (hyz : y ≤ z)
    (h1 : countBusinessDays (.volatility c w) x fx y fy = .ok u) (h2 : countBusinessDays (.volatility c w) y fy z fz = .ok v)
    (h3 : countBusinessDays (.volatility c w) x fx z fz = .ok t) : u + v = t :=
  C10_counts_add (.volatility c w) hg x y z fx fy fz u v t hxy hyz h1 h2 h3

example : countBusinessDays easterVol 18206 (1 / 2) 18208 (1 / 3) = .ok (19 / 12 : ℚ) ∧
    countBusinessDays easterVol 18208 (1 / 3) 18213 (1 / 5) = .ok (127 / 60 : ℚ) := by decide +kernel

/-- C14. Time from a base point never decreases as the end point moves later. -/
theorem C14_monotone (c : Cal K) (hg : Good c) (hw : GoodWeights c) (x y z : Int) (fx fy fz u v : K)
    (hxy : x ≤ y) (hfy : fy ≤ 1) (hfz : 0 ≤ fz) (hyz : y < z ∨ (y = z ∧ fy ≤ fz))
    (h1 : countBusinessDays c x fx y fy = .ok u) (h2 : countBusinessDays c x fx z fz = .ok v) :
    u ≤ v := by
  rw [count_ok hg h1, count_ok hg h2, if_pos hxy, if_pos (by omega),
    ← manualCount_add hxy (by omega : y ≤ z) fx fy fz]
  have := manualCount_nonneg (fun d => (cweight_range hw d).1) hfy hfz hyz
  linarith

theorem cweight_biz {c : Cal K} {d : Int} (h : Biz c d) : cweight c d = 1 := by
  induction c with
  | everyDay => rfl
  | weekday => simp only [Biz] at h; simp [cweight, weightOf, h]
  | weekdayAndHoliday hs => simp only [Biz] at h; simp [cweight, weightOf, h]
  | volatility c w ih => rw [cweight, ih h]; ring

/-- C14. Each business day passed adds one whole unit of time. -/
theorem C14_business_day_adds_one (c : Cal K) (hg : Good c) (hw : GoodWeights c) (x y z : Int)
    (fx fz u v : K) (hxy : x ≤ y) (hyz : y < z) (hfz : 0 ≤ fz) (hb : Biz c y)
    (h1 : countBusinessDays c x fx y 0 = .ok u) (h2 : countBusinessDays c x fx z fz = .ok v) :
    u + 1 ≤ v := by
  rw [count_ok hg h1, count_ok hg h2, if_pos hxy, if_pos (by omega),
    ← manualCount_add hxy (by omega : y ≤ z) fx 0 fz,
    ← manualCount_add (by omega : y ≤ y + 1) (by omega : y + 1 ≤ z) 0 0 fz]
  have h3 : 0 ≤ manualCount (cweight c) (y + 1) 0 z fz := by
    rcases eq_or_lt_of_le (by omega : y + 1 ≤ z) with h | h
    · exact manualCount_nonneg (fun d => (cweight_range hw d).1) (by norm_num) hfz (Or.inr ⟨h, hfz⟩)
    · exact manualCount_nonneg (fun d => (cweight_range hw d).1) (by norm_num) hfz (Or.inl h)
  have h4 : manualCount (cweight c) y 0 (y + 1) 0 = 1 := by
    have := manualCount_fwd (cweight c) y 1
    simp only [Nat.cast_one, travelled, if_true, Nat.cast_zero, add_zero, zero_add] at this
    rw [this, cweight_biz hb]
  linarith

example : Good easterVol ∧ GoodWeights easterVol ∧ Biz easterVol 18207 ∧
    countBusinessDays easterVol 18206 (1 / 2) 18207 0 = .ok (1 / 2 : ℚ) ∧
    countBusinessDays easterVol 18206 (1 / 2) 18209 (1 / 2) = .ok (15 / 8 : ℚ) := by
  refine ⟨easter_good, ⟨by norm_num, by norm_num, trivial⟩, ?_⟩
  decide +kernel

/-- C14 needs the end not to be before the start: within one day the count may be negative. -/
theorem C14_same_day_backwards :
    countBusinessDays easter 18206 (1 / 2) 18206 0 = .ok (-1 / 2 : ℚ) := by decide +kernel

/-! ## C56 volatility steps -/

/-- Volatility time travelled from the start of `from_` forwards to the start of `d`, or from the end
of `from_` backwards to the end of `d`. -/
def volTime (weight : Int → K) (from_ : Int) (fwd : Bool) (d : Int) : K :=
  if fwd then manualCount weight from_ 0 d 0 else manualCount weight d 1 from_ 1

theorem cweight_vol_plain {c : Cal K} (hp : Plain c) (w : K) :
    cweight (.volatility c w) = weightOf (Biz c) w := by
  funext d
  rw [cweight]
  cases c with
  | everyDay => simp [cweight, weightOf, Biz]
  | weekday => simp only [cweight, weightOf, Biz]; by_cases h : Weekday d <;> simp [h]
  | weekdayAndHoliday hs =>
    change (if Weekday d ∧ d ∉ hs then (1 : K) else 0) * (1 - w) + w = if Weekday d ∧ d ∉ hs then 1 else w
    by_cases h : Weekday d ∧ d ∉ hs
    · rw [if_pos h, if_pos h]; ring
    · rw [if_neg h, if_neg h]; ring
  | volatility c w => exact absurd hp id

/-- C56. A step of a volatility calendar by a whole or fractional number of days ends on a date on
the right side of the start whose volatility time from the start is as close as possible to the one
requested: no other date on that side is closer. -/
theorem C56_volatility_step_nearest (c : Cal K) (hg : Good c) (hp : Plain c) (w : K)
    (hw : 2 / 10 ^ 12 ≤ w) (hw1 : w ≤ 1) (fuel : Nat) (d : Int) (x : K) (fwd : Bool) (e : Int)
    (h : stepPartial fuel (.volatility c w) d x fwd = some (.ok e)) :
    (if fwd then d ≤ e else e ≤ d) ∧
    ∀ e', (if fwd then d ≤ e' else e' ≤ d) →
      |volTime (weightOf (Biz c) w) d fwd e - abs x| ≤ |volTime (weightOf (Biz c) w) d fwd e' - abs x| := by
  have hpos : (0 : K) < 1 / 10 ^ 12 := by positivity
  have hw2 : ¬ w < 1 / 10 ^ 12 := by
    have : (2 : K) / 10 ^ 12 = 1 / 10 ^ 12 + 1 / 10 ^ 12 := by ring
    linarith
  have hw0 : 0 ≤ w := by
    have : (0 : K) ≤ 2 / 10 ^ 12 := by positivity
    linarith
  have ecw := cweight_vol_plain hp w
  have hrange : ∀ y, w ≤ weightOf (Biz c) w y ∧ weightOf (Biz c) w y ≤ 1 := by
    intro y; unfold weightOf; split
    · exact ⟨hw1, le_refl _⟩
    · exact ⟨le_refl _, hw1⟩
  rw [stepPartial, if_neg hw2, stepVolatility] at h
  split at h
  · have hT : ∀ k v, takenAt (countBusinessDays (.volatility c w)) d fwd (along d fwd k) = .ok v →
        v = travelled (weightOf (Biz c) w) d fwd k := by
      intro k v hv
      rw [← ecw]
      exact takenAt_vol (c := .volatility c w) hg d fwd k v hv
    have e0 : along d fwd 0 = d := by unfold along; cases fwd <;> simp
    have ht0 : travelled (weightOf (Biz c) w) d fwd 0 = 0 := rfl
    have spec := partialLoop_spec (countBusinessDays (.volatility c w)) d fwd |x|
      (travelled (weightOf (Biz c) w) d fwd) w rfl hT
      (fun k => by simp only [travelled]; have := (hrange (if fwd = true then d + k else d - k)).1; linarith)
      (fun k => by simp only [travelled]; have := (hrange (if fwd = true then d + k else d - k)).2; linarith)
      hw fuel 0 d |x| (Or.inl ⟨rfl, abs_nonneg x⟩) (.ok e)
    rw [e0, ht0, sub_zero] at spec
    rcases spec h with ⟨m, hm, hnear⟩ | ⟨_, _, he, _⟩
    · have hvt : ∀ k : Nat, volTime (weightOf (Biz c) w) d fwd (along d fwd k)
          = travelled (weightOf (Biz c) w) d fwd k := by
        intro k
        unfold volTime along
        cases fwd
        · simp only [Bool.false_eq_true, if_false]; exact manualCount_bwd _ _ _
        · simp only [if_true]; exact manualCount_fwd _ _ _
      have hem : e = along d fwd m := by cases hm; rfl
      constructor
      · rw [hem]; unfold along; cases fwd <;> simp
      · intro e' he'
        obtain ⟨k, rfl⟩ : ∃ k, e' = along d fwd k := by
          unfold along
          cases fwd
          · simp only [Bool.false_eq_true, if_false] at *; exact ⟨(d - e').toNat, by omega⟩
          · simp only [if_true] at *; exact ⟨(e' - d).toNat, by omega⟩
        rw [hem, hvt, hvt]
        exact hnear k
    · cases he
  · cases h

example : Good easter ∧ Plain easter ∧ (2 : ℚ) / 10 ^ 12 ≤ 1 / 4 ∧
    stepPartial 20 easterVol 18207 (7 / 4) true = some (.ok 18211) :=
  ⟨easter_good, trivial, by norm_num, by decide +kernel⟩

/-- C56. The step loop always finishes, after at most as many turns as days are needed if every day
had the holiday weight; it never trips its internal assertion, and fails only if the underlying count
fails (a date out of range). -/
theorem C56_volatility_step_finishes (c : Cal K) (hg : Good c) (hp : Plain c) (w : K)
    (hw : 2 / 10 ^ 12 ≤ w) (hw1 : w ≤ 1) (fuel : Nat) (d : Int) (x : K) (fwd : Bool)
    (hdir : x = 0 ∨ fwd = decide (x > 0)) (hfuel : |x| ≤ fuel * w) :
    ∃ r, stepPartial fuel (.volatility c w) d x fwd = some r ∧
      ((∃ e, r = .ok e) ∨ ∃ a fa b fb, ∀ v, countBusinessDays c a fa b fb ≠ .ok v) := by
  have hpos : (0 : K) < 1 / 10 ^ 12 := by positivity
  have hw2 : ¬ w < 1 / 10 ^ 12 := by
    have : (2 : K) / 10 ^ 12 = 1 / 10 ^ 12 + 1 / 10 ^ 12 := by ring
    linarith
  have hw0 : 0 < w := by
    have : (0 : K) < 2 / 10 ^ 12 := by positivity
    linarith
  have ecw := cweight_vol_plain hp w
  have hrange : ∀ y, w ≤ weightOf (Biz c) w y ∧ weightOf (Biz c) w y ≤ 1 := by
    intro y; unfold weightOf; split
    · exact ⟨hw1, le_refl _⟩
    · exact ⟨le_refl _, hw1⟩
  have hT : ∀ k v, takenAt (countBusinessDays (.volatility c w)) d fwd (along d fwd k) = .ok v →
      v = travelled (weightOf (Biz c) w) d fwd k := by
    intro k v hv
    rw [← ecw]
    exact takenAt_vol (c := .volatility c w) hg d fwd k v hv
  have e0 : along d fwd 0 = d := by unfold along; cases fwd <;> simp
  have ht0 : travelled (weightOf (Biz c) w) d fwd 0 = 0 := rfl
  have h1 : ∀ k, w ≤ travelled (weightOf (Biz c) w) d fwd (k + 1) - travelled (weightOf (Biz c) w) d fwd k :=
    fun k => by simp only [travelled]; have := (hrange (if fwd = true then d + k else d - k)).1; linarith
  have h2 : ∀ k, travelled (weightOf (Biz c) w) d fwd (k + 1) - travelled (weightOf (Biz c) w) d fwd k ≤ 1 :=
    fun k => by simp only [travelled]; have := (hrange (if fwd = true then d + k else d - k)).2; linarith
  obtain ⟨r, hr⟩ := partialLoop_terminates (countBusinessDays (.volatility c w)) d fwd |x|
    (travelled (weightOf (Biz c) w) d fwd) w rfl hT h1 hw0 fuel 0 d |x| (by simpa using hfuel)
  have spec := partialLoop_spec (countBusinessDays (.volatility c w)) d fwd |x|
      (travelled (weightOf (Biz c) w) d fwd) w rfl hT h1 h2
      hw fuel 0 d |x| (Or.inl ⟨rfl, abs_nonneg x⟩) r hr
  rw [e0, ht0, sub_zero] at hr
  refine ⟨r, ?_, ?_⟩
  · rw [stepPartial, if_neg hw2, stepVolatility, if_pos hdir, hr]
  · rcases spec with ⟨m, hm, _⟩ | ⟨k', er, _, her⟩
    · exact Or.inl ⟨_, hm⟩
    · right
      have hcount : ∀ a fa b fb, countBusinessDays (.volatility c w) a fa b fb = .error er →
          ∀ v, countBusinessDays c a fa b fb ≠ .ok v := by
        intro a fa b fb hc v hv
        rw [countBusinessDays] at hc
        split at hc
        · cases hc
        · rw [hv] at hc; cases hc
      unfold takenAt at her
      cases fwd
      · exact ⟨_, _, _, _, hcount _ _ _ _ her⟩
      · exact ⟨_, _, _, _, hcount _ _ _ _ her⟩

/-- C56. Fractional steps of the other calendars: the documentation says that the step is truncated
towards zero, but the code rounds; three quarters of a day moves a whole day. -/
theorem C56_truncation_false : stepPartial 0 easter 18206 (3 / 4) true = some (.ok 18207) ∧
    step 0 easter 18206 (truncToInt (3 / 4 : ℚ)) true = some (.ok 18206) := by decide +kernel

/-- C56, the other calendars: a fractional step is the step by the nearest whole number, and of two equally near the one further from zero. -/
theorem C56_other_calendars (c : Cal K) (hp : Plain c) (fuel : Nat) (d : Int) (x : K) (fwd : Bool) (n : Int)
    (hn : |x - n| < 1 / 2 ∨ (|x - n| = 1 / 2 ∧ |x| < |(n : K)|)) : stepPartial fuel c d x fwd = step fuel c d n fwd := by
  have hr : roundHalfAway x = n := by
    unfold roundHalfAway
    split
    · rename_i h0
      rw [Int.floor_eq_iff]
      rcases hn with h | ⟨h, h'⟩
      · rw [abs_lt] at h
        constructor <;> linarith
      · rw [abs_of_nonneg h0] at h'
        rcases abs_eq (by norm_num : (0 : K) ≤ 1 / 2) |>.1 h with e | e
        · exfalso
          have h1 : (n : K) = x - 1 / 2 := by linarith
          rw [h1, lt_abs] at h'
          rcases h' with h' | h'
          · linarith
          · have h2 : (n : K) < 0 := by linarith
            have h3 : n < 0 := by exact_mod_cast h2
            have h4 : (n : K) ≤ -1 := by exact_mod_cast (by omega : n ≤ -1)
            linarith
        · constructor <;> linarith
    · rename_i h0
      have h0' : x < 0 := not_le.1 h0
      rw [Int.ceil_eq_iff]
      rcases hn with h | ⟨h, h'⟩
      · rw [abs_lt] at h
        constructor <;> linarith
      · rw [abs_of_neg h0'] at h'
        rcases abs_eq (by norm_num : (0 : K) ≤ 1 / 2) |>.1 h with e | e
        · constructor <;> linarith
        · exfalso
          have h1 : (n : K) = x + 1 / 2 := by linarith
          rw [h1, lt_abs] at h'
          rcases h' with h' | h'
          · have h2 : (0 : K) < n := by linarith
            have h4 : (1 : K) ≤ n := by exact_mod_cast (by exact_mod_cast h2 : 0 < n)
            linarith
          · linarith
  cases c with
  | everyDay => simp only [stepPartial, step, hr]
  | weekday => simp only [stepPartial, step, hr]
  | weekdayAndHoliday hs => simp only [stepPartial, step, hr]
  | volatility c w => exact absurd hp id

example : Plain easter ∧ |(-5 / 2 : ℚ) - (-3 : Int)| = 1 / 2 ∧ |(-5 / 2 : ℚ)| < |((-3 : Int) : ℚ)| := by
  refine ⟨trivial, ?_, ?_⟩ <;> norm_num [abs_of_neg, abs_of_pos]

/-! ## C67 year fractions -/

/-- C67. A year fraction is the day-by-day weighted count in units of the conventional year, for plain calendars and for
volatility calendars that decorate them. -/
theorem C67_year_fraction (c : Cal K) (hg : Good c) (hp : Plain c) (w : K) (hw : 0 ≤ w) (a b : Int) (fa fb v v' : K) (hab : a ≤ b)
    (h : yearFraction c (a, fa) (b, fb) = .ok v) (h' : yearFraction (.volatility c w) (a, fa) (b, fb) = .ok v') :
    v * yearLength (isEveryDay c) 0 = manualCount (weightOf (Biz c) 0) a fa b fb ∧
    v' * yearLength (isEveryDay c) w = manualCount (weightOf (Biz c) w) a fa b fb := by
  have get {c : Cal K} {v : K} (h : yearFraction c (a, fa) (b, fb) = .ok v) :
      ∃ x, countBusinessDays c a fa b fb = .ok x ∧ v = x / standardBasis c := by
    unfold yearFraction at h
    cases hx : countBusinessDays c a fa b fb with
    | error e => simp [hx, bind, Except.bind] at h
    | ok x =>
      simp only [hx, bind, Except.bind, pure, Except.pure, Except.ok.injEq] at h
      exact ⟨x, rfl, h.symm⟩
  obtain ⟨x, h1, rfl⟩ := get h
  obtain ⟨x', h2, rfl⟩ := get h'
  obtain ⟨h3, h4⟩ := C10_count_by_business_days c hg hp w a b fa fb x x' hab h1 h2
  have e1 : yearLength (isEveryDay c) 0 = standardBasis c := by
    cases c with
    | everyDay => rfl
    | weekday => simp [yearLength, isEveryDay, standardBasis]
    | weekdayAndHoliday hs => simp [yearLength, isEveryDay, standardBasis]
    | volatility c w => exact absurd hp id
  have e2 : yearLength (isEveryDay c) w = standardBasis (.volatility c w) := by
    cases c with
    | everyDay => simp only [yearLength, isEveryDay, standardBasis, if_true]; ring
    | weekday => simp only [yearLength, isEveryDay, standardBasis, if_false, Bool.false_eq_true]; ring
    | weekdayAndHoliday hs => simp only [yearLength, isEveryDay, standardBasis, if_false, Bool.false_eq_true]; ring
    | volatility c w => exact absurd hp id
  have pos (w : K) (hw : 0 ≤ w) : yearLength (isEveryDay c) w ≠ 0 := by
    unfold yearLength
    split
    · norm_num
    · have : (0 : K) ≤ (365 - 252) * w := mul_nonneg (by norm_num) hw
      positivity
  rw [← e1, ← e2, ← h3, ← h4]
  exact ⟨div_mul_cancel₀ _ (pos 0 le_rfl), div_mul_cancel₀ _ (pos w hw)⟩

/-- C67. Year fractions over adjacent intervals add up, for every calendar. -/
theorem C67_add (c : Cal K) (hg : Good c) (x y z : Int × K) (u v t : K) (hxy : x.1 ≤ y.1) (hyz : y.1 ≤ z.1)
    (h1 : yearFraction c x y = .ok u) (h2 : yearFraction c y z = .ok v) (h3 : yearFraction c x z = .ok t) : u + v = t := by
  have get {x y : Int × K} {v : K} (h : yearFraction c x y = .ok v) :
      ∃ n, countBusinessDays c x.1 x.2 y.1 y.2 = .ok n ∧ v = n / standardBasis c := by
    unfold yearFraction at h
    cases hx : countBusinessDays c x.1 x.2 y.1 y.2 with
    | error e => simp [hx, bind, Except.bind] at h
    | ok n =>
      simp only [hx, bind, Except.bind, pure, Except.pure, Except.ok.injEq] at h
      exact ⟨n, rfl, h.symm⟩
  obtain ⟨n1, g1, rfl⟩ := get h1
  obtain ⟨n2, g2, rfl⟩ := get h2
  obtain ⟨n3, g3, rfl⟩ := get h3
  rw [← C10_counts_add c hg _ _ _ _ _ _ _ _ _ hxy hyz g1 g2 g3, add_div]

example : yearFraction (.volatility .weekday (1 / 4) : Cal ℚ) (18120, 0) (18120 + 365, 0) = .ok (1148 / 1121) ∧
    yearFraction (.weekday : Cal ℚ) (18120, 0) (18120 + 365, 0) = .ok (261 / 252) := by decide +kernel

end QM.Calendar
