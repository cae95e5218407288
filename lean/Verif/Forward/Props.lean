import Verif.Forward.Lemmas
import Verif.Dividends.Props

/-!
# Properties C26 and C27: equity forwards
-/

namespace QM.Forward
open QM.Interp (Num)
open QM.Curves QM.Dividends QM.Dividends.Spec Spec

variable {baseDate hwm : Int} {spot : ℝ} {settlement : Int → Int} {rate borrow : RateCurve} {divs : DividendStream}
  {f : EquityForward} {g : Int → ℝ}

/-- C26. With no dividend on the base date and no yield accrued up to the settlement of the base date, the forward
at the base date is the spot. -/
theorem C26_spot (hg : Financing rate borrow g)
    (h : EquityForward.new baseDate spot settlement rate borrow divs hwm = .ok f)
    (ho : InOrder divs.dividends) (hb : ∀ d ∈ divs.dividends, d.exDate ≠ baseDate)
    (hm : baseDate ≤ hwm) (hy : Accrued divs.divYield (settlement baseDate) 0) :
    f.forward baseDate = .ok spot := by
  obtain ⟨e1, e2, e3, e4, e5, e6, e7⟩ := new_parts hg h
  have hmark := mark_of_bootstrap e7
  have hsum := (C24_from_base_partial (discounts hg baseDate) ho hb e7 (to_ := baseDate) (by omega)).2
  have hzero : total (·.pv) (· ≤ baseDate) (project f.referenceSpot (fun d => Real.exp (g baseDate - g d)) baseDate divs.dividends)
      = (0 : ℝ) := by
    unfold project
    rw [total_projectFrom_none]
    · simp [total]
    · intro d hd
      have := (List.mem_filter.1 hd).2
      simp at this ⊢
      omega
  rw [hzero] at hsum
  rw [forward_eq (g := g) (by rw [e2, e3]; exact hg) hsum (by rw [e1, e4]; exact hy), e5, e6, e1, sub_zero, mul_assoc, ← Real.exp_add]
  congr 1
  rw [show g baseDate - g (settlement baseDate) + (-g baseDate + 0 + g (settlement baseDate)) = 0 by ring, Real.exp_zero, mul_one]

/-- C26. Forwards built for different horizons agree on all dates within both. -/
theorem C26_horizon (hg : Financing rate borrow g) {hwm' : Int} {f' : EquityForward}
    (h : EquityForward.new baseDate spot settlement rate borrow divs hwm = .ok f)
    (h' : EquityForward.new baseDate spot settlement rate borrow divs hwm' = .ok f')
    (ho : InOrder divs.dividends) (hb : ∀ d ∈ divs.dividends, d.exDate ≠ baseDate) {date : Int}
    (hm : date ≤ hwm) (hm' : date ≤ hwm') : f.forward date = f'.forward date := by
  obtain ⟨e1, e2, e3, e4, e5, e6, e7⟩ := new_parts hg h
  obtain ⟨d1, d2, d3, d4, d5, d6, d7⟩ := new_parts hg h'
  have hmark := mark_of_bootstrap e7
  have hmark' := mark_of_bootstrap d7
  have hs := (C24_from_base_partial (discounts hg baseDate) ho hb e7 (to_ := date) (by omega)).2
  have hs' := (C24_from_base_partial (discounts hg baseDate) ho hb d7 (to_ := date) (by omega)).2
  unfold EquityForward.forward
  rw [hs, hs', e1, e2, e3, e4, e5, e6, d1, d2, d3, d4, d5, d6]

/-- C26. From one date to a later one the forward grows by the cost of financing between the two settlement dates
and loses the dividends in between, each carried from the base date to the later settlement date. -/
theorem C26_growth_and_drop (hg : Financing rate borrow g)
    (h : EquityForward.new baseDate spot settlement rate borrow divs hwm = .ok f)
    (ho : InOrder divs.dividends) (hb : ∀ d ∈ divs.dividends, d.exDate ≠ baseDate) {a b : Int} (hab : a ≤ b)
    (hm : b ≤ hwm) (hya : Accrued divs.divYield (settlement a) 0) (hyb : Accrued divs.divYield (settlement b) 0) :
    ∃ fa, f.forward a = .ok fa ∧
      f.forward b = .ok (fa * Real.exp (g (settlement b) - g (settlement a))
        - total (·.pv) (fun x => a < x ∧ x ≤ b)
            (project (spot * Real.exp (g baseDate - g (settlement baseDate))) (fun d => Real.exp (g baseDate - g d)) baseDate divs.dividends)
          * Real.exp (g (settlement b) - g baseDate)) := by
  obtain ⟨e1, e2, e3, e4, e5, e6, e7⟩ := new_parts hg h
  have hmark := mark_of_bootstrap e7
  have ha := (C24_from_base_partial (discounts hg baseDate) ho hb e7 (to_ := a) (by omega)).2
  have hbb := (C24_from_base_partial (discounts hg baseDate) ho hb e7 (to_ := b) (by omega)).2
  have hab' := (C24_between_partial (discounts hg baseDate) ho hb e7 (from_ := a) (to_ := b) hab (by omega)).2
  unfold Bootstrap.discountedSum at hab'
  rw [ha, hbb] at hab'
  simp only [Bind.bind, Except.bind, pure, Except.pure, Except.ok.injEq] at hab'
  have hF : Financing f.rate f.borrow g := by rw [e2, e3]; exact hg
  rw [← e5]
  refine ⟨_, forward_eq hF ha (by rw [e1, e4]; exact hya), ?_⟩
  rw [forward_eq hF hbb (by rw [e1, e4]; exact hyb)]
  rw [← hab', e1, e6]
  congr 1
  rw [mul_assoc, ← Real.exp_add]
  have k1 : -g baseDate + 0 + g (settlement a) + (g (settlement b) - g (settlement a)) = g (settlement b) - g baseDate := by ring
  have k2 : -g baseDate + 0 + g (settlement b) = g (settlement b) - g baseDate := by ring
  rw [k1, k2]
  ring

/-- C26. Between dividends the forward grows at the cost of financing. -/
theorem C26_growth (hg : Financing rate borrow g)
    (h : EquityForward.new baseDate spot settlement rate borrow divs hwm = .ok f)
    (ho : InOrder divs.dividends) (hb : ∀ d ∈ divs.dividends, d.exDate ≠ baseDate) {a b : Int} (hab : a ≤ b)
    (hnone : ∀ d ∈ divs.dividends, ¬ (a < d.exDate ∧ d.exDate ≤ b))
    (hm : b ≤ hwm) (hya : Accrued divs.divYield (settlement a) 0) (hyb : Accrued divs.divYield (settlement b) 0) :
    ∃ fa, f.forward a = .ok fa ∧ f.forward b = .ok (fa * Real.exp (g (settlement b) - g (settlement a))) := by
  obtain ⟨fa, h1, h2⟩ := C26_growth_and_drop hg h ho hb hab hm hya hyb
  refine ⟨fa, h1, ?_⟩
  have hz : total (·.pv) (fun x => a < x ∧ x ≤ b)
            (project (spot * Real.exp (g baseDate - g (settlement baseDate))) (fun d => Real.exp (g baseDate - g d)) baseDate divs.dividends)
          = (0 : ℝ) := by
    unfold project
    rw [total_projectFrom_none]
    · simp [total]
    · intro d hd
      have := hnone d (List.mem_of_mem_filter hd)
      simpa using this
  rw [hz, zero_mul, sub_zero] at h2
  exact h2

/-- C26. Across the ex-date of a cash dividend the forward drops by the cash carried from its payment date to the
settlement date. -/
theorem C26_cash_drop (hg : Financing rate borrow g)
    (h : EquityForward.new baseDate spot settlement rate borrow divs hwm = .ok f)
    (ho : InOrder divs.dividends) (hb : ∀ d ∈ divs.dividends, d.exDate ≠ baseDate)
    {pre post : List (Dividend ℝ)} {d : Dividend ℝ} (hl : divs.dividends = pre ++ d :: post) (hd : d.relative = 0)
    (hbd : baseDate < d.exDate) {a b : Int} (hab : a < d.exDate ∧ d.exDate ≤ b)
    (hpre : ∀ e ∈ pre, e.exDate ≤ a) (hpost : ∀ e ∈ post, b < e.exDate)
    (hm : b ≤ hwm) (hya : Accrued divs.divYield (settlement a) 0) (hyb : Accrued divs.divYield (settlement b) 0) :
    ∃ fa, f.forward a = .ok fa ∧
      f.forward b = .ok (fa * Real.exp (g (settlement b) - g (settlement a))
        - d.cash * Real.exp (g (settlement b) - g d.payDate)) := by
  obtain ⟨fa, h1, h2⟩ := C26_growth_and_drop hg h ho hb (by omega) hm hya hyb
  refine ⟨fa, h1, ?_⟩
  set sp := spot * Real.exp (g baseDate - g (settlement baseDate)) with hsp
  have hz : total (·.pv) (fun x => a < x ∧ x ≤ b) (project sp (fun d => Real.exp (g baseDate - g d)) baseDate divs.dividends)
          = d.cash * Real.exp (g baseDate - g d.payDate) := by
    unfold project
    have hc : decide (baseDate < d.exDate) = true := by simpa using hbd
    rw [hl, List.filter_append, List.filter_cons, if_pos hc, projectFrom_append]
    simp only [projectFrom]
    rw [total_projectFrom_none, total_append, total_projectFrom_none, total_single]
    · rw [if_pos (by simpa using hab)]
      simp [total, amount, hd]
    · intro e he
      have := hpre e (List.mem_of_mem_filter he)
      simp; omega
    · intro e he
      have := hpost e (List.mem_of_mem_filter he)
      simp; omega
  rw [hz] at h2
  rw [h2]
  congr 2
  rw [mul_assoc, ← Real.exp_add]
  congr 2
  ring

/-- Dividends and curves for the examples below: five in cash on day 10, paid on day 12. -/
noncomputable def sampleStream : DividendStream := .new [⟨5, 0, 10, 12⟩] (.zero 0)

theorem sample_built : ∃ f, EquityForward.new 0 100 (· + 2) (.zero 0) (.zero 0) sampleStream 40 = .ok f := by
  have hg := financing_zero 0 0
  obtain ⟨b, hb, _⟩ := bootstrap_ok (dividends := sampleStream.dividends) (lastCash := sampleStream.lastCash) (yieldIsZero := true)
    (yieldBase := 0) (spot := (100 : ℝ) * Real.exp (-(0 : ℝ) - -0)) (base := 0) (hwm := 40) (discounts hg 0)
    (by simp [sampleStream, DividendStream.new, InOrder]) (by simp [sampleStream, DividendStream.new]) (Or.inl rfl)
  unfold EquityForward.new
  rw [logDiscount_eq hg]
  simp only [Bind.bind, Except.bind, discount_eq hg]
  have : bootstrapStream sampleStream (.zero 0) (.zero 0) ((100 : ℝ) * Real.exp (-(0 : ℝ) - -0)) 0 40 = .ok b := hb
  rw [this]
  exact ⟨_, rfl⟩

/-- C26: the hypotheses are met by the sample, whose forward is 100 on the base date and drops to 95. -/
example : ∃ f, EquityForward.new 0 100 (· + 2) (.zero 0) (.zero 0) sampleStream 40 = .ok f ∧
    f.forward 0 = .ok 100 ∧ f.forward 10 = .ok 95 := by
  obtain ⟨f, hf⟩ := sample_built
  have ho : InOrder sampleStream.dividends := by simp [sampleStream, DividendStream.new, InOrder]
  have hb : ∀ d ∈ sampleStream.dividends, d.exDate ≠ 0 := by simp [sampleStream, DividendStream.new]
  have h0 := C26_spot (financing_zero 0 0) hf ho hb (by norm_num) (zero_rt _ _)
  refine ⟨f, hf, h0, ?_⟩
  obtain ⟨fa, h1, h2⟩ := C26_cash_drop (financing_zero 0 0) hf ho hb (pre := []) (post := []) (d := ⟨5, 0, 10, 12⟩)
    rfl rfl (by norm_num) (a := 0) (b := 10) (by norm_num) (by simp) (by simp) (by norm_num) (zero_rt _ _) (zero_rt _ _)
  rw [h0] at h1
  cases h1
  rw [h2]
  norm_num

/-- C27, partial: a dividend yield multiplies the forward by the exponential of the yield accrued up to the
settlement date. The full property says that a positive yield never raises the forward; `C27_raises_false` shows that
the sign is the other way round, so that this holds only where the accrued yield is not positive. -/
theorem C27_yield_effect_partial (hg : Financing rate borrow g)
    (h : EquityForward.new baseDate spot settlement rate borrow divs hwm = .ok f) (zbase : Int) :
    ∃ f0, EquityForward.new baseDate spot settlement rate borrow { divs with divYield := .zero zbase } hwm = .ok f0 ∧
      ∀ (date : Int) (y v : ℝ), Accrued divs.divYield (settlement date) y → f0.forward date = .ok v →
        f.forward date = .ok (v * Real.exp y) := by
  obtain ⟨e1, e2, e3, e4, e5, e6, e7⟩ := new_parts hg h
  have hb0 : bootstrapStream { divs with divYield := .zero zbase } rate borrow f.referenceSpot baseDate hwm = .ok f.bootstrap :=
    bootstrap_isZero e7
  refine ⟨⟨settlement, rate, borrow, .zero zbase, f.bootstrap, f.referenceSpot, f.baseLogDiscount⟩, ?_, ?_⟩
  · unfold EquityForward.new
    rw [logDiscount_eq hg]
    simp only [Bind.bind, Except.bind, discount_eq hg]
    have : spot * Real.exp (-g (settlement baseDate) - -g baseDate) = f.referenceSpot := by
      rw [e5]; congr 2; ring
    rw [this, hb0, e6]
    rfl
  · intro date y v hy hv
    cases hs : f.bootstrap.discountedSumFromBase date with
    | error e =>
      unfold EquityForward.forward at hv
      simp only [hs, Bind.bind, Except.bind] at hv
      cases hv
    | ok s =>
      rw [forward_eq (f := ⟨settlement, rate, borrow, .zero zbase, f.bootstrap, f.referenceSpot, f.baseLogDiscount⟩) (g := g) hg hs
        (y := 0) (zero_rt _ _)] at hv
      cases hv
      rw [forward_eq (g := g) (by rw [e2, e3]; exact hg) hs (by rw [e1, e4]; exact hy), e1, mul_assoc, ← Real.exp_add]
      congr 3
      ring

/-- C27, partial: a yield whose accrual is not positive does not raise a nonnegative forward. -/
theorem C27_not_raised_partial (hg : Financing rate borrow g)
    (h : EquityForward.new baseDate spot settlement rate borrow divs hwm = .ok f) (zbase : Int) :
    ∃ f0, EquityForward.new baseDate spot settlement rate borrow { divs with divYield := .zero zbase } hwm = .ok f0 ∧
      ∀ (date : Int) (y v w : ℝ), Accrued divs.divYield (settlement date) y → y ≤ 0 → 0 ≤ v → f0.forward date = .ok v →
        f.forward date = .ok w → w ≤ v := by
  obtain ⟨f0, h0, hall⟩ := C27_yield_effect_partial hg h zbase
  refine ⟨f0, h0, ?_⟩
  intro date y v w hy hy0 hv hf0 hf
  rw [hall date y v hy hf0] at hf
  cases hf
  have : Real.exp y ≤ 1 := by rw [Real.exp_le_one_iff]; exact hy0
  nlinarith

/-- C27, violated: with no rates and a dividend yield of two percent, the forward in a year on a spot of 100 is
above 100. -/
theorem C27_raises_false :
    ∃ y f, RateCurve.newAct365 0 [(0, 0.02)] .flat .flat = .ok y ∧ Accrued y 365 0.02 ∧
      EquityForward.new 0 100 id (.zero 0) (.zero 0) (.new [] y) 365 = .ok f ∧
      ∃ v, f.forward 365 = .ok v ∧ 100 < v := by
  obtain ⟨y, hy, _, _, hr⟩ := flat_curve 0 0 0.02
  have hg := financing_zero 0 0
  have hacc : Accrued y 365 0.02 := by
    have := rt_of_rAndT (hr 365 (by norm_num))
    rw [show (0.02 : ℝ) * QM.Curves.Spec.years 0 365 = 0.02 by norm_num [QM.Curves.Spec.years]] at this
    exact this
  refine ⟨y, ⟨id, .zero 0, .zero 0, y, ⟨0, 365, []⟩, 100, 0⟩, hy, hacc, ?_, 100 * Real.exp 0.02, ?_, ?_⟩
  · unfold EquityForward.new
    rw [logDiscount_eq hg]
    simp only [Bind.bind, Except.bind, discount_eq hg, bootstrapStream, DividendStream.new, Bootstrap.new, List.getLast?_nil, pure, Except.pure]
    norm_num
  · rw [forward_eq (f := ⟨id, .zero 0, .zero 0, y, ⟨0, 365, []⟩, 100, 0⟩) hg (divs := 0) (by rfl) hacc]
    norm_num
  · have : (1 : ℝ) < Real.exp 0.02 := by rw [Real.one_lt_exp_iff]; norm_num
    linarith

end QM.Forward
