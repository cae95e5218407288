import Verif.Vol.DynamicsLemmas
import Verif.Interp.Props

/-!
# Properties C69 and C70: vol surfaces under changes of date and forward
-/

namespace QM.Vol
open QM.Interp QM.Calendar Spec QM.Calendar.Spec

/-- Example: a flat surface on weekdays, from the beginning of Monday 18120. -/
noncomputable def mondaySurface : VolSurface := .flat (.val 0.2) .weekday (18120, 0)

/-- Counts between the beginnings of days do not depend on the kind of numbers. -/
theorem countWeekday_cast (a b : Int) {q : ℚ} (h : countBusinessDays (.weekday : Cal ℚ) a 0 b 0 = .ok q) :
    countBusinessDays (.weekday : Cal ℝ) a 0 b 0 = .ok (q : ℝ) := by
  unfold countBusinessDays countWeekday at h ⊢
  cases h1 : slipToNextWeekday a true with
  | error e => simp [h1, Bind.bind, Except.bind] at h
  | ok x =>
    cases h2 : slipToNextWeekday b false with
    | error e => simp [h1, h2, Bind.bind, Except.bind] at h
    | ok y =>
      simp only [h1, h2, Bind.bind, Except.bind] at h ⊢
      by_cases hxy : x > y
      · rw [if_pos hxy] at h ⊢
        cases h
        simp [pure, Except.pure]
      · rw [if_neg hxy] at h ⊢
        cases h3 : Dates.dayOfWeek y with
        | error e => simp [h3] at h
        | ok wy =>
          cases h4 : Dates.dayOfWeek x with
          | error e => simp [h3, h4] at h
          | ok wx =>
            cases h5 : Dates.dayOfWeek a with
            | error e => simp [h3, h4, h5] at h
            | ok wa =>
              cases h6 : Dates.dayOfWeek b with
              | error e => simp [h3, h4, h5, h6] at h
              | ok wb =>
                simp only [h3, h4, h5, h6, pure, Except.pure, Except.ok.injEq] at h ⊢
                rw [← h]
                push_cast
                split <;> split <;> simp

theorem weekday_year (a b : Int) (n : Nat) (h : countBusinessDays (.weekday : Cal ℚ) a 0 b 0 = .ok (n : ℚ)) :
    yearFraction (.weekday : Cal ℝ) ((a, 0) : Point) (b, 0) = .ok ((n : ℝ) / 252) := by
  unfold yearFraction
  simp only [countWeekday_cast a b h, Bind.bind, Except.bind, pure, Except.pure, standardBasis]
  simp

/-- The surface rolled to the Tuesday. -/
theorem monday_rolled : VolTimeDynamics.rollingExpiry.modify mondaySurface 18121
    = .ok (.rollingExpiry mondaySurface (1 / 252) (18121, 0)) := by
  have y := weekday_year 18120 18121 1 (by decide +kernel)
  push_cast at y
  unfold VolTimeDynamics.modify mondaySurface
  rw [if_neg (by simp [VolSurface.baseDate])]
  simp only [VolSurface.baseDate, VolSurface.calendar, y, Bind.bind, Except.bind]
  rw [if_neg (by norm_num [abs_of_pos])]
  rfl

theorem monday_vols (t e : Int) (n : Nat) (h : stepWeekday t (-1) false = .ok e)
    (hn : countBusinessDays (.weekday : Cal ℚ) 18120 0 e 0 = .ok (n : ℚ)) (ks : List (Num ℝ)) :
    (VolSurface.rollingExpiry mondaySurface (1 / 252) (18121, 0)).volatilities 0 (t, 0) ks
      = .ok ((n : ℝ) / 252, ks.map (fun _ => .val 0.2)) := by
  unfold VolSurface.volatilities
  have hb : -(1 / 252) * standardBasis (.weekday : Cal ℝ) = ((-1 : Int) : ℝ) := by simp [standardBasis]
  have hdec : decide (((-1 : Int) : ℝ) ≥ 0) = false := by simp
  simp only [mondaySurface, VolSurface.calendar, hb, hdec, stepPartial_whole (c := (.weekday : Cal ℝ)) trivial, baseStep, h, finished,
    VolSurface.volatilities, weekday_year 18120 e n hn, Bind.bind, Except.bind, pure, Except.pure]
  rw [max_eq_left (by positivity)]

/-! ## C69 time evolution -/

/-- C69. Evolving a surface to its own base date leaves it as it is. -/
theorem C69_same_date (dyn : VolTimeDynamics) (s : VolSurface) : dyn.modify s s.baseDate.1 = .ok s := by
  unfold VolTimeDynamics.modify
  rw [if_pos rfl]

/-- C69. An evolved surface starts at the beginning of the spot date, unless no volatility time (up to the
tolerance of the code) has passed, and then it is unchanged. -/
theorem C69_base_date (dyn : VolTimeDynamics) {s s' : VolSurface} {d : Int} (h : dyn.modify s d = .ok s') :
    s'.baseDate = (d, 0) ∨ s' = s ∧ (d = s.baseDate.1 ∨
      ∃ y, yearFraction s.calendar s.baseDate (d, 0) = .ok y ∧ |y| < 1 / 10 ^ 12) := by
  unfold VolTimeDynamics.modify at h
  split at h
  · rename_i hd
    cases h
    exact .inr ⟨rfl, .inl hd⟩
  · obtain ⟨o, ho, h⟩ := bind_ok h
    split at h
    · rename_i hn
      rw [sub_zero] at hn
      exact .inr ⟨(pure_ok h).symm, .inr ⟨o, ho, hn⟩⟩
    · cases dyn
      · rw [← pure_ok h]; exact .inl rfl
      · rw [← pure_ok h]; exact .inl rfl

/-- C69. With constant expiries the evolved surface gives the same volatilities at the same expiries and strikes. -/
theorem C69_constant_vols (fuel : Nat) {s s' : VolSurface} {d : Int} (h : VolTimeDynamics.constantExpiry.modify s d = .ok s')
    {t : Point} {ks vs : List (Num ℝ)} {T : ℝ} (hv : s.volatilities fuel t ks = .ok (T, vs)) :
    ∃ T', s'.volatilities fuel t ks = .ok (T', vs) := by
  unfold VolTimeDynamics.modify at h
  split at h
  · cases h; exact ⟨T, hv⟩
  · obtain ⟨o, ho, h⟩ := bind_ok h
    split at h
    · rw [← pure_ok h]; exact ⟨T, hv⟩
    · rw [← pure_ok h]
      unfold VolSurface.volatilities
      rw [hv]
      exact ⟨_, rfl⟩

/-- C69. The time that a surface reports is the year fraction of its calendar from its own base date, for every
surface that was built, bumped, shifted to other forwards and evolved at constant expiries. -/
theorem C69_time (fuel : Nat) {s : VolSurface} (hs : Dated s) (hg : Good s.calendar) (hw : GoodWeights s.calendar)
    {t : Point} (ht : TimeOfDay t) (hb : ¬ before t s.baseDate) {ks vs : List (Num ℝ)} {T y : ℝ}
    (h : s.volatilities fuel t ks = .ok (T, vs)) (hy : yearFraction s.calendar s.baseDate t = .ok y) : T = y := by
  rw [dated_time hs hg hw ht.1 hb h, yf_ideal hg hy]

/-- C69: a flat surface, bumped and moved on by a weekend and a day, meets the hypotheses. -/
example : ∃ s, VolTimeDynamics.constantExpiry.modify ((BumpVol.flatAdditive (.val 0.1)).apply (.flat (.val 0.2) .everyDay (0, 0))) 10
      = .ok s ∧ Dated s ∧ Good s.calendar ∧ GoodWeights s.calendar ∧ ¬ before (30, 0) s.baseDate ∧
    s.volatilities 0 (30, 0) [.val 100] = .ok (20 / 365, [.val 0.3]) := by
  have y10 := everyDay_year 10
  have y30 := everyDay_year 30
  push_cast at y10 y30
  have hm : VolTimeDynamics.constantExpiry.modify ((BumpVol.flatAdditive (.val 0.1)).apply (.flat (.val 0.2) .everyDay (0, 0))) 10
      = .ok (.constantExpiry ((BumpVol.flatAdditive (.val 0.1)).apply (.flat (.val 0.2) .everyDay (0, 0))) (10 / 365) (10, 0)) := by
    unfold VolTimeDynamics.modify
    rw [if_neg (by simp [BumpVol.apply, VolSurface.baseDate])]
    simp only [BumpVol.apply, VolSurface.baseDate, VolSurface.calendar, y10, Bind.bind, Except.bind]
    rw [if_neg (by norm_num [abs_of_pos])]
    rfl
  refine ⟨_, hm, .evolved 10 (.bumped _ (.flat _ _ _)) hm, trivial, trivial, ?_, ?_⟩
  · rintro (h | ⟨h, _⟩) <;> simp [VolSurface.baseDate] at h
  · simp only [BumpVol.apply, VolSurface.volatilities, y30, Bind.bind, Except.bind, pure, Except.pure, List.map_cons, List.map_nil, num2, nmax]
    norm_num

/-- C69, rolling expiries. On a calendar without weights on holidays, from a surface that starts at the beginning
of a day, a business day seen from the new base date has the volatilities that the original surface gives to the
business day at the same distance from its own base date. Missing: expiries on holidays, and surfaces
that start within a day; see `C69_rolling_weekend_false` and `C69_rolling_fraction_false`. -/
theorem C69_rolling_partial (fuel : Nat) {s s' : VolSurface} {d : Int} (hg : Good s.calendar) (hn : NoHolidayWeight s.calendar)
    (hbase : s.baseDate.2 = 0) (h : VolTimeDynamics.rollingExpiry.modify s d = .ok s') (hch : s' ≠ s) {t : Point}
    (ht : Biz s.calendar t.1) (hdt : d ≤ t.1) {ks vs : List (Num ℝ)} {T : ℝ}
    (hv : s'.volatilities fuel t ks = .ok (T, vs)) :
    ∃ e T0, Biz s.calendar e ∧ s.volatilities fuel (e, t.2) ks = .ok (T0, vs) ∧ T = max T0 0 ∧
      ∀ y y', yearFraction s.calendar s.baseDate (e, t.2) = .ok y → yearFraction s.calendar (d, 0) t = .ok y' → y = y' := by
  rcases modify_cases hg h with rfl | ⟨o, hd, ho, rfl⟩
  · exact absurd rfl hch
  · unfold decorated VolSurface.volatilities at hv
    simp only at hv
    obtain ⟨e, he, hv⟩ := bind_ok hv
    obtain ⟨⟨T0, out⟩, h1, h2⟩ := bind_ok hv
    have := pure_ok h2
    cases this
    obtain ⟨cnt, hc, ho'⟩ := yf_ok ho
    have hw := noWeight_weights hn
    have hbas := (basis_pos hw).ne'
    have hcnt : manualCount (cweight s.calendar) s.baseDate.1 0 d 0 = cnt := by
      rw [count_ok hg hc, if_pos hd.le, hbase]
    obtain ⟨n, hnat⟩ := count_nat hg hn hd
    have hback : -o * standardBasis s.calendar = ((-n : Int) : ℝ) := by
      rw [ho', ← hcnt, hnat]
      push_cast
      field_simp
    have hnpos : 0 < n := by
      by_contra hle
      have h0 : (0 : ℝ) ≤ n := by
        rw [← hnat]
        exact manualCount_nonneg (fun x => (cweight_range hw x).1) (by norm_num) (by norm_num) (.inl hd)
      have hn0 : n = 0 := by
        have : 0 ≤ n := by exact_mod_cast h0
        omega
      have : o = 0 := by rw [ho', ← hcnt, hnat, hn0]; simp
      unfold VolTimeDynamics.modify at h
      rw [if_neg (by omega), ] at h
      simp only [ho, this, Bind.bind, Except.bind] at h
      rw [if_pos (by norm_num)] at h
      rw [this] at hch
      exact hch (Except.ok.inj h).symm
    have hstep : baseStep s.calendar t.1 (-n) false = .ok e := by
      rw [hback, stepPartial_whole (noWeight_whole hn)] at he
      have : decide (((-n : Int) : ℝ) ≥ 0) = false := by
        simp only [decide_eq_false_iff_not]
        push_cast
        have : (0 : ℝ) < n := by exact_mod_cast hnpos
        linarith
      rw [this] at he
      exact he
    obtain ⟨hbe, hbiz, hcount⟩ := rolled_count (f := t.2) hg hn hd hdt ht hnat hstep
    refine ⟨e, T0, hbiz, h1, rfl, ?_⟩
    intro y y' hy hy'
    rw [yf_ideal hg hy, yf_ideal hg hy']
    unfold ideal
    rw [if_pos hbe, if_pos hdt, hbase, hcount]

/-- C69: a weekday surface rolled from a Monday to the Tuesday meets the hypotheses, with an expiry on the Friday. -/
example : ∃ s', VolTimeDynamics.rollingExpiry.modify mondaySurface 18121 = .ok s' ∧ s' ≠ mondaySurface ∧
    Good mondaySurface.calendar ∧ NoHolidayWeight mondaySurface.calendar ∧ mondaySurface.baseDate.2 = 0 ∧
    Biz mondaySurface.calendar 18124 ∧ ∃ T vs, s'.volatilities 0 (18124, 0) [.val 100] = .ok (T, vs) := by
  refine ⟨_, monday_rolled, ?_, trivial, trivial, rfl, by unfold mondaySurface VolSurface.calendar; decide, 3 / 252, [.val 0.2], ?_⟩
  · intro h; unfold mondaySurface at h; cases h
  · have := monday_vols 18124 18123 3 (by decide +kernel) (by decide +kernel) [.val 100]
    simpa using this

/-- C69 violated for expiries on holidays: on a weekday calendar, after rolling from Monday 18120 to Tuesday, the
Saturday is reported at three business days although four lie between the new base date and it. -/
theorem C69_rolling_weekend_false :
    ∃ s', VolTimeDynamics.rollingExpiry.modify mondaySurface 18121 = .ok s' ∧ s'.baseDate = (18121, 0) ∧
      s'.volTime 0 (18125, 0) = .ok (3 / 252) ∧ yearFraction s'.calendar (18121, 0) (18125, 0) = .ok (4 / 252) := by
  refine ⟨_, monday_rolled, rfl, ?_, ?_⟩
  · unfold VolSurface.volTime
    rw [monday_vols 18125 18123 3 (by decide +kernel) (by decide +kernel) []]
    simp [Bind.bind, Except.bind, pure, Except.pure]
  · have := weekday_year 18121 18125 4 (by decide +kernel)
    push_cast at this
    exact this

/-- C69 violated for surfaces that start within a day: three quarters into day 0, rolled to the beginning of day 1,
the step back of a quarter of a day is rounded to none, and day 10 is reported at nine and a quarter days
although nine lie between the new base date and it. -/
theorem C69_rolling_fraction_false :
    ∃ s', VolTimeDynamics.rollingExpiry.modify (.flat (.val 0.2) .everyDay (0, 3 / 4)) 1 = .ok s' ∧ s'.baseDate = (1, 0) ∧
      s'.volTime 0 (10, 0) = .ok ((37 / 4) / 365) ∧ yearFraction s'.calendar (1, 0) (10, 0) = .ok (9 / 365) := by
  have y1 : yearFraction (.everyDay : Cal ℝ) ((0, 3 / 4) : Point) ((1 : Int), 0) = .ok ((1 / 4) / 365) := by
    unfold yearFraction countBusinessDays standardBasis
    rw [if_neg (by norm_num)]
    norm_num [Bind.bind, Except.bind, pure, Except.pure]
  have y10 : yearFraction (.everyDay : Cal ℝ) ((0, 3 / 4) : Point) ((10 : Int), 0) = .ok ((37 / 4) / 365) := by
    unfold yearFraction countBusinessDays standardBasis
    rw [if_neg (by norm_num)]
    norm_num [Bind.bind, Except.bind, pure, Except.pure]
  refine ⟨.rollingExpiry (.flat (.val 0.2) .everyDay (0, 3 / 4)) ((1 / 4) / 365) (1, 0), ?_, rfl, ?_, ?_⟩
  · unfold VolTimeDynamics.modify
    rw [if_neg (by simp [VolSurface.baseDate])]
    simp only [VolSurface.baseDate, VolSurface.calendar, y1, Bind.bind, Except.bind]
    rw [if_neg (by norm_num [abs_of_pos])]
    rfl
  · unfold VolSurface.volTime VolSurface.volatilities
    have hs := C56_other_calendars (.everyDay : Cal ℝ) trivial 0 10 (-(1 / 4 / 365) * 365) false 0 (.inl (by
      norm_num [abs_of_neg, abs_of_pos]))
    have hs' : stepPartial 0 (.everyDay : Cal ℝ) 10 (-(1 / 4 / 365) * standardBasis (.everyDay : Cal ℝ)) false = some (.ok 10) := hs
    have hdec : ¬ -(1 / 4 / 365) * standardBasis (VolSurface.flat (.val 0.2) .everyDay (0, 3 / 4)).calendar ≥ 0 := by
      simp only [standardBasis, VolSurface.calendar]; norm_num
    have hcut := decide_eq_false hdec
    generalize hb : -(1 / 4 / 365) * standardBasis (VolSurface.flat (.val 0.2) .everyDay (0, 3 / 4)).calendar = back at hcut ⊢
    have hs'' : stepPartial 0 (.everyDay : Cal ℝ) 10 back false = some (.ok 10) := hb ▸ hs'
    simp only [VolSurface.calendar, hcut, hs'', finished, VolSurface.volatilities, y10, Bind.bind, Except.bind, pure, Except.pure]
    norm_num
  · simp only [VolSurface.calendar]
    unfold yearFraction countBusinessDays standardBasis
    rw [if_neg (by norm_num)]
    norm_num [Bind.bind, Except.bind, pure, Except.pure]

/-! ## C70 changes of the forward -/

/-- C70. With sticky strikes, and on surfaces without a forward, a new forward changes nothing. -/
theorem C70_unaffected (dyn : VolForwardDynamics) (s : VolSurface) (f : Unit → Outcome Fwd)
    (h : dyn = .stickyStrike ∨ s.forward = none) : dyn.modify s f = .ok s := by
  unfold VolForwardDynamics.modify
  split
  · rfl
  · rename_i hd
    rcases h with h | h
    · exact absurd h hd
    · rw [h]

/-- C70. With sticky delta a new forward, whose spot is not the old one up to the tolerance of the code, keeps the
volatility at every multiple of the forward. Missing: forwards that differ from the old one but not in the
spot; see `C70_same_spot_false`. -/
theorem C70_moneyness_partial (fuel : Nat) {s s' : VolSurface} {f : Unit → Outcome Fwd} {new : Fwd} {old : Int → Outcome (Num ℝ)}
    (hf : f () = .ok new) (ho : s.forward = some old) {spot oldSpot : ℝ} (hspot : new.forward s.baseDate.1 = .ok (.val spot))
    (hold : old s.baseDate.1 = .ok (.val oldSpot)) (hne : oldSpot / 10 ^ 12 ≤ |oldSpot - spot|)
    (h : VolForwardDynamics.stickyDelta.modify s f = .ok s') {t : Point} {F Fold : ℝ} (hF : new.forward t.1 = .ok (.val F))
    (hFold : old t.1 = .ok (.val Fold)) (h0 : F ≠ 0) (ms : List ℝ) :
    s'.volatilities fuel t (ms.map (fun m => .val (m * F))) = s.volatilities fuel t (ms.map (fun m => .val (m * Fold))) ∧
      s'.forward = some new.forward := by
  have e : s' = .stickyDeltaBump s new := by
    unfold VolForwardDynamics.modify at h
    rw [if_neg (by decide), ho] at h
    simp only [hf, hspot, hold, Bind.bind, Except.bind] at h
    rw [if_neg (by simp only [napprox, num1]; exact not_lt.2 hne)] at h
    cases h; rfl
  subst e
  refine ⟨?_, rfl⟩
  cases ms with
  | nil => rfl
  | cons m ms =>
    conv_lhs => unfold VolSurface.volatilities
    simp only [List.map_cons, ho, hF, hFold, Bind.bind, Except.bind]
    have hdiv : ndiv (.val Fold) (.val F) = .val (Fold / F) := if_neg h0
    have hk (m : ℝ) : num2 (· * ·) (.val (m * F)) (ndiv (.val Fold) (.val F)) = .val (m * Fold) := by
      rw [hdiv]
      simp only [num2]
      congr 1
      field_simp
    simp only [hk, List.map_map]
    congr 2
    apply List.map_congr_left
    intro m _
    exact hk m

/-- A smile that falls with the strike: 30% at 90, 25% at 100 and 20% at 110. -/
theorem falling_smile : ∃ sm, Smile.newCubicSpline (Interp.Spec.plain [(90, 0.3), (100, 0.25), (110, 0.2)]) = .ok sm ∧
    sm.volatility (.val 100) = .ok (.val 0.25) ∧ sm.volatility (.val 110) = .ok (.val 0.2) ∧ sm.volatility (.val 90) = .ok (.val 0.3) := by
  obtain ⟨sp, hsp⟩ := C18_construction_partial [((90 : ℝ), (0.3 : ℝ)), (100, 0.25), (110, 0.2)] .natural .natural (by simp) (by
    rw [increasing_iff_chain]; norm_num)
  refine ⟨.cubicSpline sp, ?_, ?_, ?_, ?_⟩
  · unfold Smile.newCubicSpline
    rw [hsp]; rfl
  · exact C18_pillar hsp (p := (100, 0.25)) (by simp)
  · exact C18_pillar hsp (p := (110, 0.2)) (by simp)
  · exact C18_pillar hsp (p := (90, 0.3)) (by simp)

/-- C31 violated off the money: a surface with the falling smile on day 100 and 25% flat on day 120 is accepted, and gives both pillar dates
without an error, but at a strike of 90 the variance falls from one to the other. Only the variances at the forward are compared when the surface
is made, and nothing is compared on a pillar date. -/
theorem C31_falls_false (fuel : Nat) :
    ∃ smile s, Smile.newCubicSpline (Interp.Spec.plain [(90, 0.3), (100, 0.25), (110, 0.2)]) = .ok smile ∧
      VolSurface.newByProbability ⟨[((100, 0), smile), ((120, 0), .flat (.val 0.25))], .everyDay, (0, 0),
        ⟨.flat, .flat, [(.val ((0 : Int) : ℝ), 100)]⟩, ⟨.flat, .flat, [(.val ((0 : Int) : ℝ), 0)]⟩, .noCashDivs⟩ = .ok s ∧
      ∃ x y, s.variance fuel (100, 0) (.val 90) = .ok (.val x) ∧ s.variance fuel (120, 0) (.val 90) = .ok (.val y) ∧ 0 < y ∧ y < x := by
  obtain ⟨sm, hsm, v100, _, v90⟩ := falling_smile
  have y1 := everyDay_year 100
  have y2 := everyDay_year 120
  push_cast at y1 y2
  let input : Input := ⟨[((100, 0), sm), ((120, 0), .flat (.val 0.25))], .everyDay, (0, 0),
        ⟨.flat, .flat, [(.val ((0 : Int) : ℝ), 100)]⟩, ⟨.flat, .flat, [(.val ((0 : Int) : ℝ), 0)]⟩, .noCashDivs⟩
  obtain ⟨s, hs⟩ : ∃ s, VolSurface.newByProbability input = .ok s := by
    unfold VolSurface.newByProbability
    have n1 : ¬ nlt (num2 (· * ·) (num2 (· * ·) (.val (100 / 365)) (.val 0.25)) (.val 0.25)) (.val 0) := by
      simp only [num2, nlt]; norm_num
    have n2 : ¬ nlt (num2 (· * ·) (num2 (· * ·) (.val (120 / 365)) (.val 0.25)) (.val 0.25))
        (num2 (· * ·) (num2 (· * ·) (.val (100 / 365)) (.val 0.25)) (.val 0.25)) := by
      simp only [num2, nlt]; norm_num
    have v2 : (Smile.flat (.val 0.25)).volatility (.val 100) = .ok (.val 0.25) := rfl
    simp only [input, buildPillars, constant_forward, Bind.bind, Except.bind, v100, v2, y1, y2, n1, n2, if_false]
    exact ⟨_, rfl⟩
  have ha : Ascending input.smiles := by
    simp [Ascending, input, before]
  have p1 := (C31_pillar fuel input s hs ha (100, 0) sm (by simp [input]) [.val 90] [.val 0.3] (100 / 365)).2 ⟨y1, .cons v90 .nil⟩
  have p2 := (C31_pillar fuel input s hs ha (120, 0) (.flat (.val 0.25)) (by simp [input]) [.val 90] [.val 0.25] (120 / 365)).2 ⟨y2, .cons rfl .nil⟩
  refine ⟨sm, s, hsm, hs, 100 / 365 * 0.3 * 0.3, 120 / 365 * 0.25 * 0.25, ?_, ?_, by norm_num, by norm_num⟩
  · unfold VolSurface.variance VolSurface.variances
    rw [p1]
    rfl
  · unfold VolSurface.variance VolSurface.variances
    rw [p2]
    rfl

/-- C70 violated: a sticky delta surface calibrated with a forward of 100 on all dates meets a forward with the same
spot and 110 on day 10. At the money the volatility of day 10 was 25% and becomes 20%, because `modify`
compares the spots only. -/
theorem C70_same_spot_false :
    ∃ s s' old new, s.forward = some old ∧ VolForwardDynamics.stickyDelta.modify s (fun _ => .ok new) = .ok s' ∧
      old 10 = .ok (.val 100) ∧ new.forward 10 = .ok (.val 110) ∧
      (∃ T, s.volatilities 0 (10, 0) [.val (1 * 100)] = .ok (T, [.val 0.25])) ∧
      ∃ T, s'.volatilities 0 (10, 0) [.val (1 * 110)] = .ok (T, [.val 0.2]) := by
  obtain ⟨sm, _, v100, v110, _⟩ := falling_smile
  have y := everyDay_year 10
  push_cast at y
  let input : Input := ⟨[((10, 0), sm)], .everyDay, (0, 0), ⟨.flat, .flat, [(.val ((0 : Int) : ℝ), 100)]⟩,
    ⟨.flat, .flat, [(.val ((0 : Int) : ℝ), 0)]⟩, .noCashDivs⟩
  have hnew : ∃ s, VolSurface.newByProbability input = .ok s := by
    unfold VolSurface.newByProbability
    simp only [input, buildPillars, constant_forward, v100, Bind.bind, Except.bind, y]
    rw [if_neg (by simp only [num2, nlt]; norm_num)]
    exact ⟨_, rfl⟩
  obtain ⟨s, hs⟩ := hnew
  have hfwd : s.forward = some (atDate input.forward) := by
    obtain ⟨ps, _, rfl⟩ := new_ok hs; rfl
  have hbase : s.baseDate.1 = 0 := by
    obtain ⟨ps, _, rfl⟩ := new_ok hs; rfl
  have hv {k v : Num ℝ} (h : sm.volatility k = .ok v) : ∃ T, s.volatilities 0 (10, 0) [k] = .ok (T, [v]) :=
    ⟨_, (C31_pillar 0 input s hs (by unfold Ascending; simp [input]) (10, 0) sm (by simp [input]) [k] [v] (10 / 365)).2
      ⟨y, .cons h .nil⟩⟩
  refine ⟨s, s, atDate input.forward, ⟨fun d => .ok (.val (100 + d)), fun _ => .ok (.val 0)⟩, hfwd, ?_, constant_forward _ _ _,
    by norm_num, ?_, ?_⟩
  · unfold VolForwardDynamics.modify
    rw [if_neg (by decide), hfwd]
    have hc : atDate input.forward 0 = .ok (.val 100) := constant_forward _ _ _
    simp only [hbase, hc, Bind.bind, Except.bind, napprox, num1]
    rw [if_pos (by norm_num)]
    rfl
  · rw [one_mul]; exact hv v100
  · rw [one_mul]; exact hv v110

/-- C70: the same surface and a forward of 110 on all dates meet the hypotheses of the moneyness theorem. -/
example : (100 : ℝ) / 10 ^ 12 ≤ |(100 : ℝ) - 110| ∧ (110 : ℝ) ≠ 0 ∧
    ∃ s' , VolForwardDynamics.stickyDelta.modify (.byProbability onePillar []) (fun _ => .ok ⟨fun _ => .ok (.val 110), fun _ => .ok (.val 0)⟩)
      = .ok s' := by
  refine ⟨by norm_num [abs_of_neg], by norm_num, ?_⟩
  unfold VolForwardDynamics.modify
  rw [if_neg (by decide)]
  simp only [VolSurface.forward, onePillar, constant_forward, Bind.bind, Except.bind]
  split <;> exact ⟨_, rfl⟩

end QM.Vol
