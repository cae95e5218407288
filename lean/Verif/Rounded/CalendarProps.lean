import Verif.Rounded.CalendarLemmas
import Verif.Rounded.Props

/-!
# C86: business time and flat volatility in floating-point arithmetic

The counts of business days, the year fractions and the flat variances that pricing runs on, with every operation rounded.
Time should never run backwards: it does, by one unit in the last place, over a weekend or a holiday, when the first day counts
only in part. The forward variance over that weekend is then refused as negative.
-/

namespace QM.Rounded
open QM.Calendar (Cal W WH W_counts WH_counts cweight count_ok manualCount_nonneg manualCount_one manual_weekday_pos manual_weekday_zero
  isSlip_fwd_iff isSlip_bwd_iff Counts B_mono)
open QM.Calendar.Spec

variable {K : Type} [Field K] [LinearOrder K]

/-- C86: without rounding these are the counts of C09. -/
theorem C86_exact {r : Rounding K} (hr : ∀ x, r.rnd x = x) (c : Cal K) (from_ to_ : Int) (ff tf : K) :
    countBusinessDays r c from_ ff to_ tf = Calendar.countBusinessDays c from_ ff to_ tf := by
  induction c with
  | everyDay => simp only [countBusinessDays, Calendar.countBusinessDays, hr]
  | weekday => simp only [countBusinessDays, Calendar.countBusinessDays, countWeekday, Calendar.countWeekday, hr]
  | weekdayAndHoliday hs => simp only [countBusinessDays, Calendar.countBusinessDays, countWH, Calendar.countWH, hr]
  | volatility c w ih => simp only [countBusinessDays, Calendar.countBusinessDays, hr, ih]

/-- C86: rounding never makes a count fail, or saves one that fails. -/
theorem C86_defined (r : Rounding K) (c : Cal K) (from_ to_ : Int) (ff tf : K) :
    (∃ v, countBusinessDays r c from_ ff to_ tf = .ok v) ↔ ∃ x, Calendar.countBusinessDays c from_ ff to_ tf = .ok x := by
  induction c with
  | everyDay =>
    unfold countBusinessDays Calendar.countBusinessDays
    split <;> simp
  | weekday =>
    simp only [countBusinessDays, Calendar.countBusinessDays, countWeekday, Calendar.countWeekday]
    cases Calendar.slipToNextWeekday from_ true with
    | error e => simp [bind, Except.bind]
    | ok a =>
      cases Calendar.slipToNextWeekday to_ false with
      | error e => simp [bind, Except.bind]
      | ok b =>
        simp only [bind, Except.bind]
        split
        · simp [pure, Except.pure]
        · cases Dates.dayOfWeek b <;> cases Dates.dayOfWeek a <;> cases Dates.dayOfWeek from_ <;> cases Dates.dayOfWeek to_ <;>
            simp [pure, Except.pure]
  | weekdayAndHoliday hs =>
    simp only [countBusinessDays, Calendar.countBusinessDays, countWH, Calendar.countWH]
    cases Calendar.slipToNext hs true from_ with
    | error e => simp [bind, Except.bind]
    | ok a =>
      cases Calendar.slipToNext hs false to_ with
      | error e => simp [bind, Except.bind]
      | ok b =>
        simp only [bind, Except.bind]
        split
        · simp [pure, Except.pure]
        · cases Dates.dayOfWeek b <;> cases Dates.dayOfWeek a <;> cases Calendar.isHolidayWH hs from_ <;>
            cases Calendar.isHolidayWH hs to_ <;> simp [pure, Except.pure]
  | volatility c w ih =>
    unfold countBusinessDays Calendar.countBusinessDays
    split
    · simp
    · cases h1 : countBusinessDays r c from_ ff to_ tf <;> cases h2 : Calendar.countBusinessDays c from_ ff to_ tf <;>
        simp [h1, h2, bind, Except.bind, pure, Except.pure] at ih ⊢

variable [IsStrictOrderedRing K]

/-- C86: the time from one point to a later one is not negative. -/
theorem C86_nonneg {r : Rounding K} {c : Cal K} (hg : Good c) (hw : GoodWeights c) {f p : Int × K} (hf : Point r f) (hp : Point r p)
    (hfp : NotAfter f p) {v : K} (h : countBusinessDays r c f.1 f.2 p.1 p.2 = .ok v) : 0 ≤ v := by
  induction c generalizing v with
  | everyDay =>
    unfold countBusinessDays at h
    rw [if_neg (by have := hfp.date; omega)] at h
    cases h
    exact allDays_nonneg hf hp hfp
  | weekday =>
    unfold countBusinessDays at h
    obtain ⟨a, b, ha, hb, rfl⟩ := countWeekday_value h
    exact plain_nonneg W_counts hf hp hfp ha hb
  | weekdayAndHoliday hs =>
    unfold countBusinessDays at h
    obtain ⟨a, b, ha, hb, rfl⟩ := countWH_value hg h
    exact plain_nonneg (WH_counts hs hg) hf hp hfp ha hb
  | volatility c w ih =>
    unfold countBusinessDays at h
    rw [if_neg (by have := hfp.date; omega)] at h
    obtain ⟨n, hn, h⟩ := bind_ok h
    rw [pure_ok] at h
    subst h
    have h1 := ih hg hw.2.2 hn
    have h2 := allDays_nonneg hf hp hfp
    exact r.nonneg (add_nonneg (r.nonneg (mul_nonneg h1 (r.nonneg (by linarith [hw.2.1])))) (r.nonneg (mul_nonneg h2 hw.1)))

/-- C86: time does not run backwards, so long as the earlier of the two ends is a business day or the first day counts in full. -/
theorem C86_monotone_partial {r : Rounding K} (hr : r.Gap) {c : Cal K} (hg : Good c) (hw : GoodWeights c) {f p q : Int × K}
    (hf : Point r f) (hp : Point r p) (hq : Point r q) (hfp : NotAfter f p) (hpq : NotAfter p q)
    (hc : Biz c p.1 ∨ f.2 = 0 ∨ ¬ Biz c f.1) {v v' : K} (h : countBusinessDays r c f.1 f.2 p.1 p.2 = .ok v)
    (h' : countBusinessDays r c f.1 f.2 q.1 q.2 = .ok v') : v ≤ v' := by
  have d1 := hfp.date
  have d2 := hpq.date
  induction c generalizing v v' with
  | everyDay =>
    unfold countBusinessDays at h h'
    rw [if_neg (by omega)] at h h'
    cases h
    cases h'
    exact allDays_mono hp hq hpq
  | weekday =>
    unfold countBusinessDays at h h'
    obtain ⟨a, b, ha, hb, rfl⟩ := countWeekday_value h
    obtain ⟨a', b', ha', hb', rfl⟩ := countWeekday_value h'
    cases le_antisymm (Calendar.slip_mono le_rfl ha ha') (Calendar.slip_mono le_rfl ha' ha)
    exact plain_mono W_counts hr hf hp hq hfp hpq hc ha hb hb'
  | weekdayAndHoliday hs =>
    unfold countBusinessDays at h h'
    obtain ⟨a, b, ha, hb, rfl⟩ := countWH_value hg h
    obtain ⟨a', b', ha', hb', rfl⟩ := countWH_value hg h'
    cases le_antisymm (Calendar.slip_mono le_rfl ha ha') (Calendar.slip_mono le_rfl ha' ha)
    exact plain_mono (WH_counts hs hg) hr hf hp hq hfp hpq hc ha hb hb'
  | volatility c w ih =>
    unfold countBusinessDays at h h'
    rw [if_neg (by omega)] at h h'
    obtain ⟨n, hn, h⟩ := bind_ok h
    obtain ⟨n', hn', h'⟩ := bind_ok h'
    rw [pure_ok] at h h'
    subst h h'
    have h1 := ih hg hw.2.2 hc hn hn'
    have h2 := allDays_mono (f := f) hp hq hpq
    have h3 : 0 ≤ r.rnd (1 - w) := r.nonneg (by linarith [hw.2.1])
    exact r.mono _ _ (add_le_add (r.mono _ _ (mul_le_mul_of_nonneg_right h1 h3)) (r.mono _ _ (mul_le_mul_of_nonneg_right h2 hw.1)))

/-- Calendars on which weekends do not count at all. -/
def Weekends : Cal K → Prop
  | .weekday => True
  | .weekdayAndHoliday _ => True
  | _ => False

/-- C86: the time to a moment does not grow when the start is put off, so long as weekends do not count, or the start stays on the
same day or moves from midnight. -/
theorem C86_start_partial {r : Rounding K} (hr : r.Gap) {c : Cal K} (hgc : Good c) (hw : GoodWeights c) {f g p : Int × K}
    (hf : Point r f) (hg : Point r g) (hp : Point r p) (hfg : NotAfter f g) (hgp : NotAfter g p)
    (hc : Weekends c ∨ f.1 = g.1 ∨ f.2 = 0) {v v' : K} (h : countBusinessDays r c f.1 f.2 p.1 p.2 = .ok v)
    (h' : countBusinessDays r c g.1 g.2 p.1 p.2 = .ok v') : v' ≤ v := by
  have d1 := hfg.date
  have d2 := hgp.date
  induction c generalizing v v' with
  | everyDay =>
    unfold countBusinessDays at h h'
    rw [if_neg (by omega)] at h h'
    cases h
    cases h'
    exact allDays_start hg.2.1 hfg (hc.resolve_left id)
  | weekday =>
    unfold countBusinessDays at h h'
    obtain ⟨a, b, ha, hb, rfl⟩ := countWeekday_value h
    obtain ⟨a', b', ha', hb', rfl⟩ := countWeekday_value h'
    cases le_antisymm (Calendar.slip_mono le_rfl hb hb') (Calendar.slip_mono le_rfl hb' hb)
    exact plain_start W_counts hr hf hg hp hfg hgp ha ha' hb
  | weekdayAndHoliday hs =>
    unfold countBusinessDays at h h'
    obtain ⟨a, b, ha, hb, rfl⟩ := countWH_value hgc h
    obtain ⟨a', b', ha', hb', rfl⟩ := countWH_value hgc h'
    cases le_antisymm (Calendar.slip_mono le_rfl hb hb') (Calendar.slip_mono le_rfl hb' hb)
    exact plain_start (WH_counts hs hgc) hr hf hg hp hfg hgp ha ha' hb
  | volatility c w ih =>
    unfold countBusinessDays at h h'
    rw [if_neg (by omega)] at h h'
    obtain ⟨n, hn, h⟩ := bind_ok h
    obtain ⟨n', hn', h'⟩ := bind_ok h'
    rw [pure_ok] at h h'
    subst h h'
    have hc' := hc.resolve_left id
    have h1 := ih hgc hw.2.2 (.inr hc') hn hn'
    have h2 := allDays_start (r := r) (p := p) hg.2.1 hfg hc'
    have h3 : 0 ≤ r.rnd (1 - w) := r.nonneg (by linarith [hw.2.1])
    exact r.mono _ _ (add_le_add (r.mono _ _ (mul_le_mul_of_nonneg_right h1 h3)) (r.mono _ _ (mul_le_mul_of_nonneg_right h2 hw.1)))

theorem standardBasis_pos {r : Rounding K} {c : Cal K} (hw : GoodWeights c) : 0 < standardBasis r c := by
  induction c with
  | everyDay => unfold standardBasis; norm_num
  | weekday => unfold standardBasis; norm_num
  | weekdayAndHoliday hs => unfold standardBasis; norm_num
  | volatility c w ih =>
    unfold standardBasis
    have h0 := ih hw.2.2
    refine r.pos ?_
    by_cases h1 : w = 0
    · subst h1
      rw [sub_zero, r.one, mul_one, mul_zero, r.zero, add_zero]
      exact r.pos h0
    · have h2 : 0 < w := lt_of_le_of_ne hw.1 (Ne.symm h1)
      have h3 := r.pos (mul_pos (by norm_num : (0 : K) < 365) h2)
      have h4 : 0 ≤ r.rnd (standardBasis r c * r.rnd (1 - w)) :=
        r.nonneg (mul_nonneg h0.le (r.nonneg (by linarith [hw.2.1])))
      linarith

/-- C86: so year fractions start at zero and do not run backwards either. -/
theorem C86_years_partial {r : Rounding K} (hr : r.Gap) {c : Cal K} (hg : Good c) (hw : GoodWeights c) {f p q : Int × K}
    (hf : Point r f) (hp : Point r p) (hq : Point r q) (hfp : NotAfter f p) (hpq : NotAfter p q)
    (hc : Biz c p.1 ∨ f.2 = 0 ∨ ¬ Biz c f.1) {v v' : K} (h : yearFraction r c f p = .ok v) (h' : yearFraction r c f q = .ok v') :
    0 ≤ v ∧ v ≤ v' := by
  unfold yearFraction at h h'
  obtain ⟨n, hn, h⟩ := bind_ok h
  obtain ⟨n', hn', h'⟩ := bind_ok h'
  rw [pure_ok] at h h'
  subst h h'
  have hb := standardBasis_pos (r := r) hw
  have h0 := C86_nonneg hg hw hf hp hfp hn
  have h1 := C86_monotone_partial hr hg hw hf hp hq hfp hpq hc hn hn'
  exact ⟨r.nonneg (div_nonneg h0 hb.le), r.mono _ _ (div_le_div_of_nonneg_right h1 hb.le)⟩

theorem differences_const {r : Rounding K} {a b : K} (h : b ≤ a) (l : List K) :
    differences r (l.map fun _ => a) (l.map fun _ => b) = .ok (l.map fun _ => r.rnd (a - b)) := by
  induction l with
  | nil => rfl
  | cons x l ih =>
    simp only [List.map_cons, differences, ih]
    rw [if_neg (not_lt.2 (r.nonneg (by linarith)))]
    rfl

/-- C86: on a flat surface the variance between two points in time is found for every strike and is not negative, so long as the
first point is on a business day or the base date is not within one. -/
theorem C86_forward_partial {r : Rounding K} (hr : r.Gap) {s : Flat K} (hg : Good s.calendar) (hw : GoodWeights s.calendar) {p q : Int × K}
    (hf : Point r s.baseDate) (hp : Point r p) (hq : Point r q) (hfp : NotAfter s.baseDate p) (hpq : NotAfter p q)
    (hc : Biz s.calendar p.1 ∨ s.baseDate.2 = 0 ∨ ¬ Biz s.calendar s.baseDate.1)
    {v v' : K} (h : yearFraction r s.calendar s.baseDate p = .ok v) (h' : yearFraction r s.calendar s.baseDate q = .ok v')
    (strikes : List K) :
    ∃ vs, s.forwardVariances r p q strikes = .ok vs ∧ vs.length = strikes.length ∧ ∀ x ∈ vs, 0 ≤ x := by
  obtain ⟨h0, h1⟩ := C86_years_partial hr hg hw hf hp hq hfp hpq hc h h'
  have hsq : ∀ {t t' : K}, t ≤ t' → r.rnd (r.rnd (t * s.vol) * s.vol) ≤ r.rnd (r.rnd (t' * s.vol) * s.vol) := by
    intro t t' ht
    rcases le_total 0 s.vol with hv | hv
    · exact r.mono _ _ (mul_le_mul_of_nonneg_right (r.mono _ _ (mul_le_mul_of_nonneg_right ht hv)) hv)
    · exact r.mono _ _ (mul_le_mul_of_nonpos_right (r.mono _ _ (mul_le_mul_of_nonpos_right ht hv)) hv)
  have hz : (0 : K) = r.rnd (r.rnd (0 * s.vol) * s.vol) := by rw [zero_mul, r.zero, zero_mul, r.zero]
  unfold Flat.forwardVariances Flat.variances
  rw [h, h']
  split
  · refine ⟨_, rfl, by simp, ?_⟩
    intro x hx
    obtain ⟨_, _, rfl⟩ := List.mem_map.1 hx
    rw [hz]
    exact hsq (h0.trans h1)
  · refine ⟨_, differences_const (hsq h1) strikes, by simp, ?_⟩
    intro x hx
    obtain ⟨_, _, rfl⟩ := List.mem_map.1 hx
    exact r.nonneg (by linarith [hsq h1])

/-- C86: arithmetic without rounding gives the year fractions of the exact model. -/
theorem C86_years_exact {r : Rounding K} (hr : ∀ x, r.rnd x = x) (c : Cal K) (f p : Int × K) :
    yearFraction r c f p = Calendar.yearFraction c f p := by
  have hb : ∀ c : Cal K, standardBasis r c = Calendar.standardBasis c := by
    intro c
    induction c with
    | volatility c w ih => simp only [standardBasis, Calendar.standardBasis, hr, ih]
    | _ => rfl
  simp only [yearFraction, Calendar.yearFraction, C86_exact hr, hr, hb]

/-- C86: arithmetic without rounding gives the variance of a flat surface between two points in time as the squared volatility
times the time between them, counted from the base date; time before the base date does not count. -/
theorem C86_variance_exact {r : Rounding K} (hr : ∀ x, r.rnd x = x) {s : Flat K} {p q : Int × K} {v v' : K}
    (h : Calendar.yearFraction s.calendar s.baseDate p = .ok v) (h' : Calendar.yearFraction s.calendar s.baseDate q = .ok v')
    (hv : v ≤ v') (strikes : List K) :
    (NotAfter p s.baseDate → s.forwardVariances r p q strikes = .ok (strikes.map fun _ => v' * s.vol ^ 2)) ∧
    (¬ NotAfter p s.baseDate → s.forwardVariances r p q strikes = .ok (strikes.map fun _ => (v' - v) * s.vol ^ 2)) := by
  have e := C86_years_exact hr s.calendar s.baseDate
  constructor
  · intro hn
    unfold Flat.forwardVariances Flat.variances
    unfold NotAfter at hn
    rw [if_pos hn, e, h']
    simp only [hr, bind, Except.bind, pure, Except.pure, sq, mul_assoc]
  · intro hn
    unfold Flat.forwardVariances Flat.variances
    unfold NotAfter at hn
    rw [if_neg hn, e, e, h, h']
    simp only [hr, bind, Except.bind, pure, Except.pure]
    rw [differences_const (by nlinarith [mul_self_nonneg s.vol, mul_nonneg (sub_nonneg.2 hv) (mul_self_nonneg s.vol)])]
    simp only [hr, Except.ok.injEq, List.map_inj_left]
    intros
    ring

/-- The rounding that does nothing. -/
def exactly : Rounding ℚ where
  rnd := fun x => x
  unit := 0
  mono := fun _ _ h => h
  idem := fun _ => rfl
  neg := fun _ => rfl
  int := fun _ _ => rfl
  close := by simp
  small := by norm_num

/-- C86: two weekdays at a volatility of one half. -/
example : Flat.forwardVariances exactly ⟨1 / 2, .weekday, (18123, 0)⟩ (18124, 0) (18128, 0) [90, 100] =
    .ok [1 / 504, 1 / 504] := by
  have h := (C86_variance_exact (r := exactly) (fun _ => rfl) (s := ⟨1 / 2, .weekday, (18123, 0)⟩) (p := (18124, 0)) (q := (18128, 0))
    (v := 1 / 252) (v' := 3 / 252) (by decide +kernel) (by decide +kernel) (by norm_num) [90, 100]).2 (by unfold NotAfter; simp)
  rw [h]
  norm_num

/-! ## Accuracy -/

section
variable [FloorRing K]

/-- How many volatility calendars are stacked. -/
def depth : Cal K → Nat
  | .volatility c _ => depth c + 1
  | _ => 0

theorem cweight_unit {c : Cal K} (hw : GoodWeights c) (d : Int) : 0 ≤ cweight c d ∧ cweight c d ≤ 1 := by
  induction c with
  | everyDay => simp [cweight]
  | weekday => simp only [cweight, weightOf]; split <;> simp
  | weekdayAndHoliday hs => simp only [cweight, weightOf]; split <;> simp
  | volatility c w ih =>
    obtain ⟨h1, h2⟩ := ih hw.2.2
    simp only [cweight]
    have := hw.1
    have := hw.2.1
    constructor <;> nlinarith

theorem exact_bounds {c : Cal K} (hw : GoodWeights c) {f p : Int × K} (hf0 : 0 ≤ f.2) (hf1 : f.2 < 1) (hp0 : 0 ≤ p.2) (hp1 : p.2 < 1)
    (hfp : NotAfter f p) :
    0 ≤ manualCount (cweight c) f.1 f.2 p.1 p.2 ∧ manualCount (cweight c) f.1 f.2 p.1 p.2 ≤ ((p.1 - f.1 : Int) : K) + 1 := by
  have hlt : f.1 < p.1 ∨ (f.1 = p.1 ∧ f.2 ≤ p.2) := hfp
  refine ⟨manualCount_nonneg (fun d => (cweight_unit hw d).1) hf1.le hp0 hlt, ?_⟩
  have h1 := manualCount_nonneg (wt := fun d => 1 - cweight c d) (fun d => by linarith [(cweight_unit hw d).2]) hf1.le hp0 hlt
  have h2 : manualCount (fun d => 1 - cweight c d) f.1 f.2 p.1 p.2
      = manualCount (fun _ => 1) f.1 f.2 p.1 p.2 - manualCount (cweight c) f.1 f.2 p.1 p.2 := by
    unfold manualCount
    rw [Finset.sum_sub_distrib]
    ring
  obtain ⟨k, hk⟩ : ∃ k : Nat, p.1 = f.1 + k := ⟨(p.1 - f.1).toNat, by have := hfp.date; omega⟩
  have h3 := manualCount_one (K := K) f.1 k f.2 p.2
  rw [← hk] at h3
  have h4 : ((p.1 - f.1 : Int) : K) = k := by rw [hk]; push_cast; ring
  rw [h2, h3] at h1
  rw [h4]
  linarith

theorem plain_accuracy {r : Rounding K} {biz : Int → Prop} [DecidablePred biz] {B : Int → Int} (hB : Counts biz B) {f p : Int × K}
    (hf : Point r f) (hp : Point r p) (hfp : NotAfter f p) {a b : Int} (ha : IsSlip biz true f.1 a) (hb : IsSlip biz false p.1 b)
    (hx : |manualCount (weightOf biz (0 : K)) f.1 f.2 p.1 p.2| ≤ ((p.1 - f.1 : Int) : K) + 1) :
    |plainValue r biz B a b f.1 f.2 p.1 p.2 - manualCount (weightOf biz 0) f.1 f.2 p.1 p.2|
      ≤ 3 * r.unit * (((p.1 - f.1 : Int) : K) + 1) := by
  have hD : (1 : K) ≤ ((p.1 - f.1 : Int) : K) + 1 := by
    have : (0 : K) ≤ ((p.1 - f.1 : Int) : K) := by exact_mod_cast (by have := hfp.date; omega : (0 : Int) ≤ p.1 - f.1)
    linarith
  have hu := r.unit_nonneg
  have hu1 := r.small
  unfold plainValue
  by_cases hab : a > b
  · rw [if_pos hab, manual_weekday_zero hB ha hb hab hfp.date, sub_self, abs_zero]
    positivity
  · rw [if_neg hab]
    rw [manual_weekday_pos hB ha hb (by omega)] at hx ⊢
    set d := (if biz p.1 then p.2 else 1) - (if biz f.1 then f.2 else 0) with hd
    have hF0 : 0 ≤ (if biz f.1 then f.2 else 0) := by split; exacts [hf.2.1, le_refl _]
    have hF1 : (if biz f.1 then f.2 else 0) ≤ 1 := by split; exacts [hf.2.2.le, zero_le_one]
    have hT0 : 0 ≤ (if biz p.1 then p.2 else 1) := by split; exacts [hp.2.1, zero_le_one]
    have hT1 : (if biz p.1 then p.2 else 1) ≤ 1 := by split; exacts [hp.2.2.le, le_refl _]
    have hd1 : |d| ≤ 1 := abs_le.2 ⟨by linarith, by linarith⟩
    have h1 : |(((B b - B a : Int) : K) + r.rnd d) - (((B b - B a : Int) : K) + d)| ≤ r.unit := by
      rw [add_sub_add_left_eq_sub]
      calc |r.rnd d - d| ≤ r.unit * |d| := r.close d
        _ ≤ r.unit * 1 := mul_le_mul_of_nonneg_left hd1 hu
        _ = r.unit := mul_one _
    have h2 := rnd_err r h1 hx hu
    have h3 : r.unit * r.unit ≤ r.unit * 1 := mul_le_mul_of_nonneg_left hu1.le hu
    have h4 : r.unit * 1 ≤ r.unit * (((p.1 - f.1 : Int) : K) + 1) := mul_le_mul_of_nonneg_left hD hu
    linarith

theorem allDays_accuracy {r : Rounding K} {f p : Int × K} (hf : Point r f) (hp : Point r p) (hfp : NotAfter f p) :
    |r.rnd (r.rnd (((p.1 - f.1 : Int) : K) + p.2) - f.2) - (((p.1 - f.1 : Int) : K) + p.2 - f.2)|
      ≤ 3 * r.unit * (((p.1 - f.1 : Int) : K) + 1) := by
  have hn : (0 : K) ≤ ((p.1 - f.1 : Int) : K) := by exact_mod_cast (by have := hfp.date; omega : (0 : Int) ≤ p.1 - f.1)
  have hu := r.unit_nonneg
  have hu1 := r.small
  set D := ((p.1 - f.1 : Int) : K) + 1 with hD
  have h1 : |r.rnd (((p.1 - f.1 : Int) : K) + p.2) - f.2 - (((p.1 - f.1 : Int) : K) + p.2 - f.2)| ≤ r.unit * D := by
    rw [sub_sub_sub_cancel_right]
    refine (r.close _).trans (mul_le_mul_of_nonneg_left ?_ hu)
    rw [abs_of_nonneg (by linarith [hp.2.1])]
    linarith [hp.2.2]
  have hx : |((p.1 - f.1 : Int) : K) + p.2 - f.2| ≤ D := abs_le.2 ⟨by linarith [hf.2.2, hp.2.1], by linarith [hf.2.1, hp.2.2]⟩
  have hD0 : 0 ≤ D := by linarith
  have h2 := rnd_err r h1 hx (mul_nonneg hu hD0)
  have h3 : r.unit * (r.unit * D) ≤ 1 * (r.unit * D) := mul_le_mul_of_nonneg_right hu1.le (mul_nonneg hu hD0)
  linarith

/-- C86: a count is near the exact one: a few units of rounding for every day of the span, more if volatility calendars are stacked. -/
theorem C86_accuracy {r : Rounding K} {c : Cal K} (hg : Good c) (hw : GoodWeights c) (hu : (3 + 10 * (depth c : K)) * r.unit ≤ 1)
    {f p : Int × K} (hf : Point r f) (hp : Point r p) (hfp : NotAfter f p) {v x : K}
    (h : countBusinessDays r c f.1 f.2 p.1 p.2 = .ok v) (hx : Calendar.countBusinessDays c f.1 f.2 p.1 p.2 = .ok x) :
    |v - x| ≤ (3 + 10 * (depth c : K)) * r.unit * (((p.1 - f.1 : Int) : K) + 1) := by
  have hd := hfp.date
  have hu0 := r.unit_nonneg
  induction c generalizing v x with
  | everyDay =>
    unfold countBusinessDays at h
    unfold Calendar.countBusinessDays at hx
    rw [if_neg (by omega)] at h hx
    cases h
    cases hx
    simpa [depth] using allDays_accuracy hf hp hfp
  | weekday =>
    have hb := exact_bounds hw hf.2.1 hf.2.2 hp.2.1 hp.2.2 hfp
    have e := count_ok hg hx
    rw [if_pos hd] at e
    unfold countBusinessDays at h
    obtain ⟨a, b, ha, hb', rfl⟩ := countWeekday_value h
    rw [e]
    have e' : cweight (.weekday : Cal K) = weightOf Weekday 0 := by funext d; simp [cweight]
    rw [e'] at hb ⊢
    simpa [depth] using plain_accuracy W_counts hf hp hfp ha hb' (abs_le.2 ⟨by linarith [hb.1, hb.2], hb.2⟩)
  | weekdayAndHoliday hs =>
    have hb := exact_bounds hw hf.2.1 hf.2.2 hp.2.1 hp.2.2 hfp
    have e := count_ok hg hx
    rw [if_pos hd] at e
    unfold countBusinessDays at h
    obtain ⟨a, b, ha, hb', rfl⟩ := countWH_value hg h
    rw [e]
    have e' : cweight (.weekdayAndHoliday hs : Cal K) = weightOf (fun d => Weekday d ∧ d ∉ hs) 0 := by funext d; simp [cweight]
    rw [e'] at hb ⊢
    simpa [depth] using plain_accuracy (WH_counts hs hg) hf hp hfp ha hb' (abs_le.2 ⟨by linarith [hb.1, hb.2], hb.2⟩)
  | volatility c w ih =>
    unfold countBusinessDays at h
    unfold Calendar.countBusinessDays at hx
    rw [if_neg (by omega)] at h hx
    obtain ⟨n, hn, h⟩ := bind_ok h
    obtain ⟨m, hm, hx⟩ := bind_ok hx
    rw [pure_ok] at h hx
    subst h hx
    have hE : (3 + 10 * (depth (Cal.volatility c w) : K)) = 3 + 10 * (depth c : K) + 10 := by
      simp only [depth]; push_cast; ring
    rw [hE] at hu ⊢
    set E := 3 + 10 * (depth c : K) with hEd
    have hE3 : 3 ≤ E := by have : (0 : K) ≤ depth c := Nat.cast_nonneg _; linarith
    have h1 := ih hg hw.2.2 (by nlinarith) hn hm
    have hb := exact_bounds hw.2.2 hf.2.1 hf.2.2 hp.2.1 hp.2.2 hfp
    have hg' : Good c := hg
    have em := count_ok hg' hm
    rw [if_pos hd] at em
    rw [← em] at hb
    have h2 := allDays_accuracy hf hp hfp
    have hn0 : (0 : K) ≤ ((p.1 - f.1 : Int) : K) := by exact_mod_cast (by omega : (0 : Int) ≤ p.1 - f.1)
    have ha : |((p.1 - f.1 : Int) : K) + p.2 - f.2| ≤ ((p.1 - f.1 : Int) : K) + 1 :=
      abs_le.2 ⟨by linarith [hf.2.2, hp.2.1], by linarith [hf.2.1, hp.2.2]⟩
    set D := ((p.1 - f.1 : Int) : K) + 1 with hD
    set all := ((p.1 - f.1 : Int) : K) + p.2 - f.2 with hall
    generalize r.rnd (r.rnd (((p.1 - f.1 : Int) : K) + p.2) - f.2) = all' at h2 ⊢
    have hD0 : 0 ≤ D := by linarith
    have hU : 0 ≤ r.unit * D := mul_nonneg hu0 hD0
    have hw0 := hw.1
    have hw1 := hw.2.1
    have hq0 : 0 ≤ r.rnd (1 - w) := r.nonneg (by linarith)
    have hq1 : r.rnd (1 - w) ≤ 1 := by
      have := r.mono (1 - w) 1 (by linarith)
      rwa [r.one] at this
    have hq2 : |r.rnd (1 - w) - (1 - w)| ≤ r.unit := by
      refine (r.close _).trans ?_
      calc r.unit * |1 - w| ≤ r.unit * 1 := mul_le_mul_of_nonneg_left (abs_le.2 ⟨by linarith, by linarith⟩) hu0
        _ = r.unit := mul_one _
    have hbusy : |m| ≤ D := abs_le.2 ⟨by linarith [hb.1], hb.2⟩
    -- the business days
    have g1 : |n * r.rnd (1 - w) - m * (1 - w)| ≤ (E + 1) * (r.unit * D) := by
      have e : n * r.rnd (1 - w) - m * (1 - w) = (n - m) * r.rnd (1 - w) + m * (r.rnd (1 - w) - (1 - w)) := by ring
      rw [e]
      refine (abs_add_le _ _).trans ?_
      rw [abs_mul, abs_mul, abs_of_nonneg hq0]
      have t1 : |n - m| * r.rnd (1 - w) ≤ E * r.unit * D * 1 := mul_le_mul h1 hq1 hq0 (by positivity)
      have t2 : |m| * |r.rnd (1 - w) - (1 - w)| ≤ D * r.unit := mul_le_mul hbusy hq2 (abs_nonneg _) hD0
      linarith
    have hmw : |m * (1 - w)| ≤ D := by
      rw [abs_mul, abs_of_nonneg (by linarith : 0 ≤ 1 - w)]
      calc |m| * (1 - w) ≤ D * 1 := mul_le_mul hbusy (by linarith) (by linarith) hD0
        _ = D := mul_one _
    have small : ∀ k : K, 0 ≤ k → k ≤ E + 10 → r.unit * (k * (r.unit * D)) ≤ r.unit * D := by
      intro k hk0 hk
      have : k * r.unit ≤ 1 := (mul_le_mul_of_nonneg_right hk hu0).trans hu
      calc r.unit * (k * (r.unit * D)) = k * r.unit * (r.unit * D) := by ring
        _ ≤ 1 * (r.unit * D) := mul_le_mul_of_nonneg_right this hU
        _ = r.unit * D := one_mul _
    have g2 := rnd_err r g1 hmw (mul_nonneg (by linarith) hU)
    have s2 := small (E + 1) (by linarith) (by linarith)
    -- all days
    have g3 : |all' * w - all * w| ≤ 3 * (r.unit * D) := by
      rw [← sub_mul, abs_mul, abs_of_nonneg hw0]
      calc |all' - all| * w ≤ 3 * r.unit * D * 1 := mul_le_mul h2 hw1 hw0 (by positivity)
        _ = 3 * (r.unit * D) := by ring
    have haw : |all * w| ≤ D := by
      rw [abs_mul, abs_of_nonneg hw0]
      calc |all| * w ≤ D * 1 := mul_le_mul ha hw1 hw0 hD0
        _ = D := mul_one _
    have g4 := rnd_err r g3 haw (mul_nonneg (by norm_num) hU)
    have s4 := small 3 (by norm_num) (by linarith)
    -- together
    have g5 : |r.rnd (n * r.rnd (1 - w)) + r.rnd (all' * w) - (m * (1 - w) + all * w)| ≤ (E + 8) * (r.unit * D) := by
      have e : r.rnd (n * r.rnd (1 - w)) + r.rnd (all' * w) - (m * (1 - w) + all * w)
          = (r.rnd (n * r.rnd (1 - w)) - m * (1 - w)) + (r.rnd (all' * w) - all * w) := by ring
      rw [e]
      refine (abs_add_le _ _).trans ?_
      rw [mul_add] at g2 g4
      linarith
    have hsum : |m * (1 - w) + all * w| ≤ D := by
      refine (abs_add_le _ _).trans ?_
      rw [abs_mul, abs_mul, abs_of_nonneg hw0, abs_of_nonneg (by linarith : 0 ≤ 1 - w)]
      have t1 : |m| * (1 - w) ≤ D * (1 - w) := mul_le_mul_of_nonneg_right hbusy (by linarith)
      have t2 : |all| * w ≤ D * w := mul_le_mul_of_nonneg_right ha hw0
      linarith
    have g6 := rnd_err r g5 hsum (mul_nonneg (by linarith) hU)
    have s6 := small (E + 8) (by linarith) (by linarith)
    rw [mul_add] at g6
    linarith

theorem plain_whole {r : Rounding K} {biz : Int → Prop} [DecidablePred biz] {B : Int → Int} (hB : Counts biz B) {f p : Int} (hfp : f ≤ p)
    {a b : Int} (ha : IsSlip biz true f a) (hb : IsSlip biz false p b)
    (hx : |manualCount (weightOf biz (0 : K)) f 0 p 0| ≤ ((p - f : Int) : K) + 1) (hn : p - f < 2 ^ 32) :
    plainValue r biz B a b f 0 p 0 = manualCount (weightOf biz 0) f 0 p 0 := by
  unfold plainValue
  by_cases hab : a > b
  · rw [if_pos hab, manual_weekday_zero hB ha hb hab hfp]
  · rw [if_neg hab]
    rw [manual_weekday_pos hB ha hb (by omega)] at hx ⊢
    have e : ((if biz p then 0 else 1) - if biz f then 0 else 0 : K) = ((if biz p then 0 else 1 : Int) : K) := by
      split <;> split <;> simp
    rw [e] at hx ⊢
    have h1 : r.rnd ((if biz p then 0 else 1 : Int) : K) = ((if biz p then 0 else 1 : Int) : K) := r.int _ (by split <;> norm_num)
    rw [h1, ← Int.cast_add] at *
    refine r.int _ ?_
    have : |B b - B a + if biz p then 0 else 1| ≤ p - f + 1 := by exact_mod_cast hx
    omega

/-- C86: between midnights the count of a calendar without weights is exact. -/
theorem C86_whole_days {r : Rounding K} {c : Cal K} (hg : Good c) (hc : Plain c) {f p : Int} (hfp : f ≤ p) (hn : p - f < 2 ^ 32)
    {x : K} : countBusinessDays r c f 0 p 0 = .ok x ↔ Calendar.countBusinessDays c f 0 p 0 = .ok x := by
  have key : ∀ {v x : K}, countBusinessDays r c f 0 p 0 = .ok v → Calendar.countBusinessDays c f 0 p 0 = .ok x → v = x := by
    intro v x h hx
    have hna : NotAfter ((f, 0) : Int × K) (p, 0) := by
      rcases eq_or_lt_of_le hfp with h | h
      · exact .inr ⟨h, le_refl _⟩
      · exact .inl h
    have e := count_ok hg hx
    rw [if_pos hfp] at e
    subst e
    cases c with
    | everyDay =>
      unfold countBusinessDays at h
      unfold Calendar.countBusinessDays at hx
      rw [if_neg (by omega)] at h hx
      cases h
      rw [← Except.ok.inj hx]
      have : r.rnd ((p - f : Int) : K) = ((p - f : Int) : K) := r.int _ (by rw [abs_of_nonneg (by omega)]; omega)
      rw [add_zero, sub_zero, sub_zero, r.idem, this]
    | weekday =>
      have hb := exact_bounds (c := (.weekday : Cal K)) trivial (le_refl (0 : K)) one_pos (le_refl 0) one_pos hna
      unfold countBusinessDays at h
      obtain ⟨a, b, ha, hb', rfl⟩ := countWeekday_value h
      have e' : cweight (.weekday : Cal K) = weightOf Weekday 0 := by funext d; simp [cweight]
      rw [e'] at hb ⊢
      exact plain_whole W_counts hfp ha hb' (abs_le.2 ⟨by linarith [hb.1, hb.2], hb.2⟩) hn
    | weekdayAndHoliday hs =>
      have hb := exact_bounds (c := (.weekdayAndHoliday hs : Cal K)) trivial (le_refl (0 : K)) one_pos (le_refl 0) one_pos hna
      unfold countBusinessDays at h
      obtain ⟨a, b, ha, hb', rfl⟩ := countWH_value hg h
      have e' : cweight (.weekdayAndHoliday hs : Cal K) = weightOf (fun d => Weekday d ∧ d ∉ hs) 0 := by funext d; simp [cweight]
      rw [e'] at hb ⊢
      exact plain_whole (WH_counts hs hg) hfp ha hb' (abs_le.2 ⟨by linarith [hb.1, hb.2], hb.2⟩) hn
    | volatility c w => exact absurd hc id
  constructor
  · intro h
    obtain ⟨y, hy⟩ := (C86_defined r c f p 0 0).1 ⟨x, h⟩
    rw [hy, key h hy]
  · intro h
    obtain ⟨y, hy⟩ := (C86_defined r c f p 0 0).2 ⟨x, h⟩
    rw [hy, key hy h]

end

/-! ## `f64` -/

theorem f64_gap : f64.Gap := binary_gap 53 (by norm_num)

/-- The `f64` nearest to 0.11. -/
def eleven : ℚ := 7926335344172073 / 2 ^ 56

/-- The `f64` nearest to 0.3. -/
def thirty : ℚ := 5404319552844595 / 2 ^ 54

/-- An instant before midnight: the largest `f64` below one. -/
def late : ℚ := 1 - 1 / 2 ^ 53

theorem point_eleven (d : Int) : Point f64 (d, eleven) := 
  ⟨show f64.rnd eleven = eleven by decide +kernel, show 0 ≤ eleven by decide +kernel, show eleven < 1 by decide +kernel⟩

theorem point_zero (d : Int) : Point f64 (d, 0) := ⟨f64.zero, le_refl _, one_pos⟩

/-- C86 violated: from 11% through a Thursday, it is further to the Saturday than to the Monday after it. In exact arithmetic the
two are the same. -/
theorem C86_monotone_false : ∃ v v' : ℚ, countBusinessDays f64 .weekday 18123 eleven 18125 0 = .ok v
    ∧ countBusinessDays f64 .weekday 18123 eleven 18127 0 = .ok v' ∧ v' < v
    ∧ Calendar.countBusinessDays .weekday 18123 eleven 18125 0 = Calendar.countBusinessDays .weekday 18123 eleven 18127 0 := by
  refine ⟨(countBusinessDays f64 .weekday 18123 eleven 18125 0).toOption.getD 0, (countBusinessDays f64 .weekday 18123 eleven 18127 0).toOption.getD 0, ?_, ?_, ?_, ?_⟩ <;>
    decide +kernel

/-- C86 violated: so a flat volatility of 30% has a negative forward variance over the weekend, which is refused. -/
theorem C86_forward_false : Point f64 (18123, eleven) ∧ Point f64 (18125, 0) ∧ Point f64 (18127, 0) ∧
    Flat.forwardVariances f64 ⟨thirty, .weekday, (18123, eleven)⟩ (18125, 0) (18127, 0) [100] = .error .err :=
  ⟨point_eleven _, point_zero _, point_zero _, by decide +kernel⟩

/-- C86: the hypotheses of `C86_forward_partial` are met from the same base date, from Friday to Monday. -/
example : ∃ vs, Flat.forwardVariances f64 ⟨thirty, .weekday, (18123, eleven)⟩ (18124, 0) (18127, 0) [90, 100] = .ok vs
    ∧ vs.length = 2 ∧ ∀ x ∈ vs, 0 ≤ x :=
  C86_forward_partial (s := ⟨thirty, .weekday, (18123, eleven)⟩) f64_gap trivial trivial (point_eleven _) (point_zero _) (point_zero _)
    (.inl (by decide)) (.inl (by decide)) (.inl (by decide : Weekday 18124))
    (v := (yearFraction f64 .weekday (18123, eleven) (18124, 0)).toOption.getD 0)
    (v' := (yearFraction f64 .weekday (18123, eleven) (18127, 0)).toOption.getD 0) (by decide +kernel) (by decide +kernel) [90, 100]

/-- C86 violated: when the start is put off from an instant before midnight to midnight, the time to the end grows. -/
theorem C86_start_false : ∃ v v' : ℚ, Point f64 (18120, late) ∧ Point f64 (18121, 0) ∧ Point f64 (18124, 3 / 2 ^ 53)
    ∧ NotAfter ((18120, late) : Int × ℚ) (18121, 0)
    ∧ countBusinessDays f64 .everyDay 18120 late 18124 (3 / 2 ^ 53) = .ok v
    ∧ countBusinessDays f64 .everyDay 18121 0 18124 (3 / 2 ^ 53) = .ok v' ∧ v < v' := by
  refine ⟨(countBusinessDays f64 .everyDay 18120 late 18124 (3 / 2 ^ 53)).toOption.getD 0,
    (countBusinessDays f64 .everyDay 18121 0 18124 (3 / 2 ^ 53)).toOption.getD 0, ⟨?_, ?_, ?_⟩, point_zero _, ⟨?_, ?_, ?_⟩, .inl ?_, ?_, ?_, ?_⟩ <;>
    (try unfold Rounding.IsFloat) <;> decide +kernel

/-- C86 violated: the time to a midnight and the time from there on do not add up to the time over both. -/
theorem C86_additive_false : ∃ v v' v'' : ℚ, countBusinessDays f64 .everyDay 18120 eleven 18121 0 = .ok v
    ∧ countBusinessDays f64 .everyDay 18121 0 18121 (1 / 2) = .ok v' ∧ countBusinessDays f64 .everyDay 18120 eleven 18121 (1 / 2) = .ok v''
    ∧ f64.rnd (v + v') ≠ v'' := by
  refine ⟨(countBusinessDays f64 .everyDay 18120 eleven 18121 0).toOption.getD 0,
    (countBusinessDays f64 .everyDay 18121 0 18121 (1 / 2)).toOption.getD 0,
    (countBusinessDays f64 .everyDay 18120 eleven 18121 (1 / 2)).toOption.getD 0, ?_, ?_, ?_, ?_⟩ <;> decide +kernel

/-- C86: the hypotheses of `C86_accuracy` are met by `f64` over a year of a volatility calendar with a Christmas. -/
example {v x : ℚ} (h : countBusinessDays f64 (.volatility (.weekdayAndHoliday [18478]) (1 / 4)) 18123 eleven 18488 0 = .ok v)
    (hx : Calendar.countBusinessDays (.volatility (.weekdayAndHoliday [18478]) (1 / 4)) 18123 eleven 18488 0 = .ok x) :
    |v - x| ≤ 1 / 10 ^ 12 := by
  refine (C86_accuracy (r := f64) (c := .volatility (.weekdayAndHoliday [18478]) (1 / 4)) (f := (18123, eleven)) (p := (18488, 0))
    ⟨List.pairwise_singleton _ _, by simp; decide⟩ ⟨by norm_num, by norm_num, trivial⟩ ?_ (point_eleven _) (point_zero _)
    (.inl (by decide)) h hx).trans ?_
  · change (3 + 10 * ((1 : Nat) : ℚ)) * (1 / 2) ^ 53 ≤ 1
    norm_num
  · change (3 + 10 * ((1 : Nat) : ℚ)) * (1 / 2) ^ 53 * (((18488 - 18123 : Int) : ℚ) + 1) ≤ _
    norm_num

/-- The count of that year is not refused. -/
example : ∃ v, countBusinessDays f64 (.volatility .weekday (1 / 4)) 18123 eleven 18488 0 = .ok v ∧ 280 < v ∧ v < 290 := by
  refine ⟨(countBusinessDays f64 (.volatility .weekday (1 / 4)) 18123 eleven 18488 0).toOption.getD 0, ?_, ?_, ?_⟩ <;> decide +kernel

end QM.Rounded
