import Verif.Calendar.RuleModel
import Verif.Calendar.Props

/-!
# Properties C13 and C85: rules that move dates
-/

namespace QM.Calendar
open QM.Dates QM.Calendar.Spec
variable {K : Type} [Field K] [LinearOrder K] [IsStrictOrderedRing K] [FloorRing K]

theorem asI32_small {n : Nat} (h : n < 2 ^ 31) : asI32 n = n := if_pos h

theorem newBack_small {c : Cal K} {n : Nat} (h : n < 2 ^ 31) : newBack c n = .ok (.businessDays c (-n) false) := by
  unfold newBack
  rw [asI32_small h, if_neg (by omega)]

/-- C85. The rules made by `new_next` and `new_prev` move to the nearest business day at or after, at or before, the date, and
leave business days alone. Missing: volatility calendars that give holidays a weight. -/
theorem C85_nearest_partial (c : Cal K) (hg : Good c) (hw : Whole c) (fuel : Nat) (d e : Int) :
    ((newNext c).apply fuel d = some (.ok e) → Biz c e ∧ d ≤ e ∧ (∀ x, d ≤ x → x < e → ¬ Biz c x) ∧ (Biz c d → e = d)) ∧
    ((newPrev c).apply fuel d = some (.ok e) → Biz c e ∧ e ≤ d ∧ (∀ x, e < x → x ≤ d → ¬ Biz c x) ∧ (Biz c d → e = d)) := by
  constructor
  · intro h
    obtain ⟨⟨h1, h2⟩, h3⟩ := C09_zero_step_nearest_partial c hg hw fuel d true e h
    rw [if_pos rfl] at h2
    exact ⟨h1, h2.1, h2.2, h3⟩
  · intro h
    obtain ⟨⟨h1, h2⟩, h3⟩ := C09_zero_step_nearest_partial c hg hw fuel d false e h
    rw [if_neg (by simp)] at h2
    exact ⟨h1, h2.1, h2.2, h3⟩

example : (newNext easter).apply 0 18208 = some (.ok 18212) ∧ (newPrev easter).apply 0 18208 = some (.ok 18207) := by
  decide +kernel

/-- C85. The rule made by `new_step` for `n` steps moves to the nearest business day at or after the date and then `n` business
days on. Missing: volatility calendars that give holidays a weight, and numbers of steps from `2 ^ 31` on (`C85_far_false`). -/
theorem C85_forward_partial (c : Cal K) (hg : Good c) (hw : Whole c) (fuel n : Nat) (hn : n < 2 ^ 31) (d e : Int)
    (h : (newStep c n).apply fuel d = some (.ok e)) : ∃ a, IsSlip (Biz c) true d a ∧ Moves (Biz c) true n a e := by
  unfold newStep at h
  rw [asI32_small hn] at h
  obtain ⟨a, h1, h2⟩ := C08_step_spec_partial c hg hw fuel d n true e h
  refine ⟨a, h1, ?_⟩
  simpa using h2

/-- C85. The rule made by `new_back` for `n` steps moves to the nearest business day at or before the date and then `n` business
days back. Missing: as above. -/
theorem C85_back_partial (c : Cal K) (hg : Good c) (hw : Whole c) (fuel n : Nat) (hn : n < 2 ^ 31) (d e : Int) :
    ∃ r, newBack c n = .ok r ∧
      (r.apply fuel d = some (.ok e) → ∃ a, IsSlip (Biz c) false d a ∧ Moves (Biz c) false n a e) := by
  refine ⟨_, newBack_small hn, fun h => ?_⟩
  obtain ⟨a, h1, h2⟩ := C08_step_spec_partial c hg hw fuel d (-n) false e h
  refine ⟨a, h1, ?_⟩
  rcases Nat.eq_zero_or_pos n with rfl | hpos
  · exact h2
  · rw [decide_eq_false (by omega)] at h2
    simpa using h2

example : (newStep easter 3).apply 0 18208 = some (.ok 18215) ∧
    ∃ r, newBack easter 3 = .ok r ∧ r.apply 0 18208 = some (.ok 18204) :=
  ⟨by decide +kernel, _, rfl, by decide +kernel⟩

/-- C85 fails for large numbers of steps, which the constructors accept: the rule for stepping forward by `2 ^ 32 - 1` days moves a
day back, the rule for stepping back by as many moves a day forward, and the one for stepping back by `2 ^ 31` cannot be made. -/
theorem C85_far_false :
    (newStep (.everyDay : Cal ℚ) (2 ^ 32 - 1)).apply 0 18120 = some (.ok 18119) ∧
    (∃ r, newBack (.everyDay : Cal ℚ) (2 ^ 32 - 1) = .ok r ∧ r.apply 0 18120 = some (.ok 18121)) ∧
    newBack (.everyDay : Cal ℚ) (2 ^ 31) = .error .panic :=
  ⟨by decide +kernel, ⟨_, rfl, by decide +kernel⟩, by rfl⟩

/-- C85. Rules compose: stepping forward by `n` and then by `m` is stepping forward by `n + m`. -/
theorem C85_compose_partial (c : Cal K) (hg : Good c) (hw : Whole c) (fuel n m : Nat) (hnm : n + m < 2 ^ 31) (d e f : Int)
    (he : Valid e) (hf : Valid f) (h1 : (newStep c n).apply fuel d = some (.ok e)) (h2 : (newStep c m).apply fuel e = some (.ok f)) :
    (newStep c (n + m)).apply fuel d = some (.ok f) := by
  have e1 : asI32 n = n := asI32_small (by omega)
  have e2 : asI32 m = m := asI32_small (by omega)
  have e3 : asI32 (n + m) = ((n + m : Nat) : Int) := asI32_small hnm
  simp only [newStep, Rule.apply, e1, e2, e3, step_whole hw] at h1 h2 ⊢
  obtain ⟨r1, a, s1, q1, m1⟩ := baseStep_imp hg (Option.some.inj h1)
  obtain ⟨r2, b, s2, q2, m2⟩ := baseStep_imp hg (Option.some.inj h2)
  obtain ⟨B, hB⟩ := biz_counts hg
  obtain ⟨be, ce⟩ := (moves_count' hB s1.1 n e).1 m1
  rw [isSlip_self be] at s2
  subst s2
  obtain ⟨bf, cf⟩ := (moves_count' hB be m f).1 m2
  have ha : InRange c a := by
    by_cases h0 : (n : Int) = 0
    · rw [h0] at m1
      change a = b at m1
      rw [m1]
      exact inRange_of_valid he
    · exact (q1 h0).1
  refine congrArg some (baseStep_of hg r1 ha (inRange_of_valid hf) s1 ?_)
  rw [moves_count' hB s1.1]
  refine ⟨bf, ?_⟩
  push_cast
  omega

/-- C85. From a business day, stepping back by `n` undoes stepping forward by `n`. -/
theorem C85_undo_partial (c : Cal K) (hg : Good c) (hw : Whole c) (fuel n : Nat) (hn : n < 2 ^ 31) (d e : Int) (hb : Biz c d)
    (hd : Valid d) (he : Valid e) (h : (newStep c n).apply fuel d = some (.ok e)) :
    ∃ r, newBack c n = .ok r ∧ r.apply fuel e = some (.ok d) := by
  refine ⟨_, newBack_small hn, ?_⟩
  unfold newStep Rule.apply at *
  rw [asI32_small hn] at h
  exact C12_step_back_partial c hg hw fuel d n true false e hb hd he h

example : Biz easter 18206 ∧ (newStep easter 4).apply 0 18206 = some (.ok 18214) ∧ (newStep easter 2).apply 0 18214 = some (.ok 18218) ∧
    (newStep easter 6).apply 0 18206 = some (.ok 18218) := by decide +kernel

theorem slip_mono {biz : Int → Prop} {s : Bool} {d d' a a' : Int} (h : d ≤ d') (h1 : IsSlip biz s d a) (h2 : IsSlip biz s d' a') :
    a ≤ a' := by
  obtain ⟨b1, h1⟩ := h1
  obtain ⟨b2, h2⟩ := h2
  cases s
  · simp only [Bool.false_eq_true, if_false] at h1 h2
    by_contra hlt
    exact h2.2 a (by omega) (by omega) b1
  · simp only [if_true] at h1 h2
    by_contra hlt
    exact h1.2 a' (by omega) (by omega) b2

/-- C85. Whatever the number of steps, a rule keeps the order of dates. -/
theorem C85_monotone_partial (c : Cal K) (hg : Good c) (hw : Whole c) (fuel : Nat) (n : Int) (s : Bool) (d d' e e' : Int)
    (hd : d ≤ d') (h : (Rule.businessDays c n s).apply fuel d = some (.ok e))
    (h' : (Rule.businessDays c n s).apply fuel d' = some (.ok e')) : e ≤ e' := by
  unfold Rule.apply at h h'
  obtain ⟨a, h1, h2⟩ := C08_step_spec_partial c hg hw fuel d n s e h
  obtain ⟨a', h1', h2'⟩ := C08_step_spec_partial c hg hw fuel d' n s e' h'
  have ha := slip_mono hd h1 h1'
  obtain ⟨B, hB⟩ := biz_counts hg
  obtain ⟨be, ce⟩ := (moves_count' hB h1.1 n e).1 h2
  obtain ⟨be', ce'⟩ := (moves_count' hB h1'.1 n e').1 h2'
  have hab := B_mono hB ha
  by_contra hlt
  have := B_mono hB (a := e') (b := e - 1) (by omega)
  have hBe := hB e
  rw [if_pos be] at hBe
  omega

/-- C13. Applying the rule again changes nothing. Missing: volatility calendars that give holidays a weight. -/
theorem C13_idempotent_partial (c : Cal K) (hg : Good c) (hw : Whole c) (fuel : Nat) (d e : Int) (he : Valid e)
    (h : (Rule.modifiedFollowing c).apply fuel d = some (.ok e)) : (Rule.modifiedFollowing c).apply fuel e = some (.ok e) := by
  obtain ⟨hb, _⟩ := C13_modified_following_partial c hg hw fuel d e h
  have : step fuel c e 0 true = some (.ok e) :=
    C07_step_defined c hg hw fuel e 0 true e e he he he ((isSlip_self hb).2 rfl) rfl
  simp only [Rule.apply, this, if_true]

/-- C13. Exactly when the rule stays in the month: the month must have a business day, and the next business day must not fall in the same month of
another year. Missing: volatility calendars that give holidays a weight. -/
theorem C13_month_iff_partial (c : Cal K) (hg : Good c) (hw : Whole c) (fuel : Nat) (d e : Int) (hd : Valid d) (hve : Valid e)
    (h : (Rule.modifiedFollowing c).apply fuel d = some (.ok e)) :
    SameMonth d e ↔ (∃ x, Valid x ∧ Biz c x ∧ SameMonth d x) ∧
      ¬ ∃ f, d ≤ f ∧ Biz c f ∧ (∀ x, d ≤ x → x < f → ¬ Biz c x) ∧ (ymd f).2.1 = (ymd d).2.1 ∧ (ymd f).1 ≠ (ymd d).1 := by
  obtain ⟨hb, f, hf, he⟩ := C13_modified_following_partial c hg hw fuel d e h
  unfold Valid at hd
  have hdf : d ≤ f ∧ ∀ z, d ≤ z → z < f → ¬ Biz c z := by
    have := hf.2; simpa using this
  constructor
  · intro hs
    refine ⟨⟨e, hve, hb, hs⟩, ?_⟩
    rintro ⟨f', h1, h2, h3, h4, h5⟩
    have : f = f' := slip_unique hf ⟨h2, by rw [if_pos rfl]; exact ⟨h1, h3⟩⟩
    subst this
    rw [if_pos h4] at he
    subst he
    exact h5 hs.1.symm
  · rintro ⟨⟨x, hvx, hx, hxm⟩, hno⟩
    by_cases hm : (ymd f).2.1 = (ymd d).2.1
    · rw [if_pos hm] at he
      subst he
      by_contra hs
      exact hno ⟨e, hdf.1, hf.1, hdf.2, hm, fun hy => hs ⟨hy.symm, hm.symm⟩⟩
    · rw [if_neg hm] at he
      have hed : e ≤ d ∧ ∀ z, e < z → z ≤ d → ¬ Biz c z := by
        have := he.2; simpa using this
      have hxd : x < d := by
        by_contra hge
        apply hm
        have hfx : f ≤ x := by
          by_contra hlt
          exact hdf.2 x (by omega) (by omega) hx
        exact (sameMonth_between (by omega) hdf.1 hfx hxm).2.symm
      have hxe : x ≤ e := by
        by_contra hlt
        exact hed.2 x (by omega) (by omega) hx
      have := sameMonth_between (by unfold Valid at hvx; omega) hxe hed.1 ⟨hxm.1.symm, hxm.2.symm⟩
      exact ⟨hxm.1.trans this.1, hxm.2.trans this.2⟩

/-- C13: Easter Saturday, 31 March 2018, moves back to Thursday, and the theorem says that this is because March has a business day and the next business
day, 3 April, is not in March of another year. -/
example : SameMonth 18209 18207 ∧ ∃ x, Valid x ∧ Biz easter x ∧ SameMonth 18209 x := by
  have hs : SameMonth 18209 18207 := by unfold SameMonth; decide +kernel
  exact ⟨hs, ((C13_month_iff_partial easter easter_good trivial 0 18209 18207 (by decide +kernel) (by decide +kernel) (by decide +kernel)).1 hs).1⟩

/-- C13. The rule keeps the order of dates, when no gap between business days is 300 days long. Missing: longer gaps (see
`C13_order_false`), and volatility calendars that give holidays a weight. -/
theorem C13_monotone_partial (c : Cal K) (hg : Good c) (hw : Whole c) (fuel : Nat) (d d' e e' y : Int) (hd : Valid d) (hd' : d ≤ d')
    (hy : Biz c y) (hdy : d' ≤ y) (hy' : y < d + 300)
    (h : (Rule.modifiedFollowing c).apply fuel d = some (.ok e))
    (h' : (Rule.modifiedFollowing c).apply fuel d' = some (.ok e')) : e ≤ e' := by
  obtain ⟨be, f, hf, he⟩ := C13_modified_following_partial c hg hw fuel d e h
  obtain ⟨be', f', hf', he'⟩ := C13_modified_following_partial c hg hw fuel d' e' h'
  unfold Valid at hd
  have hlow : -2430000 < d := by omega
  have sf := hf.2
  have sf' := hf'.2
  rw [if_pos rfl] at sf sf'
  by_cases hm' : (ymd f').2.1 = (ymd d').2.1
  · rw [if_pos hm'] at he'
    subst he'
    by_cases hm : (ymd f).2.1 = (ymd d).2.1
    · rw [if_pos hm] at he
      subst he
      exact slip_mono hd' hf hf'
    · rw [if_neg hm] at he
      have := he.2
      rw [if_neg (by simp)] at this
      omega
  · rw [if_neg hm'] at he'
    by_cases hm : (ymd f).2.1 = (ymd d).2.1
    · rw [if_pos hm] at he
      subst he
      by_cases hle : e ≤ d'
      · have := he'.2
        rw [if_neg (by simp)] at this
        by_contra hlt
        exact this.2 e (by omega) hle be
      · exfalso
        have hff : f' = e := by
          have h1 : f' ≤ e := by
            by_contra hlt
            exact sf'.2 e (by omega) (by omega) be
          have h2 : e ≤ f' := by
            by_contra hlt
            exact sf.2 f' (by omega) (by omega) hf'.1
          omega
        subst hff
        apply hm'
        have hfy : f' ≤ y := by
          by_contra hlt
          exact sf'.2 y hdy (by omega) hy
        have hs := sameMonth_of_near hlow sf.1 (by omega) hm
        have := sameMonth_between hlow hd' sf'.1 hs
        exact hs.2.symm.trans this.2
    · rw [if_neg hm] at he
      exact slip_mono hd' he he'

/-- Friday 30 and Saturday 31 March 2018 and Sunday 1 April, which go back, back and on. -/
example : (Rule.modifiedFollowing easter).apply 0 18208 = some (.ok 18207) ∧ (Rule.modifiedFollowing easter).apply 0 18209 = some (.ok 18207) ∧
    (Rule.modifiedFollowing easter).apply 0 18210 = some (.ok 18212) ∧ Biz easter 18212 := by decide +kernel

/-- C13, order, fails over a gap of most of a year: 30 January 2018 goes on to January 2019, and 1 February 2018 back to January
2018. -/
theorem C13_order_false :
    Good longGap ∧ (Rule.modifiedFollowing longGap).apply 0 18149 = some (.ok 18485) ∧
    (Rule.modifiedFollowing longGap).apply 0 18151 = some (.ok 18145) := by
  exact ⟨⟨by decide +kernel, by decide +kernel⟩, by decide +kernel, by decide +kernel⟩

end QM.Calendar
