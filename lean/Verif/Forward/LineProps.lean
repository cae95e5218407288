import Verif.Forward.Props

/-!
# Property C26, continued: the forward is a straight line in the spot
-/

namespace QM.Forward
open QM.Interp (Num)
open QM.Curves QM.Dividends QM.Dividends.Spec Spec

/-- Totals of present values that are straight lines in the spot stay so as dividends are added. -/
theorem projectFrom_line (df : Int → ℝ) (ds : List (Dividend ℝ)) :
    ∀ E : ℝ → List (Projected ℝ), (∀ p, ∃ α β : ℝ, ∀ s, total (·.pv) p (E s) = α * s + β) →
      ∀ p, ∃ α β : ℝ, ∀ s, total (·.pv) p (projectFrom s df (E s) ds) = α * s + β := by
  induction ds with
  | nil => intro E h p; exact h p
  | cons d ds ih =>
    intro E h p
    simp only [projectFrom]
    refine ih (fun s => E s ++ [⟨d.exDate, amount s df (E s) d, amount s df (E s) d * df d.payDate⟩]) ?_ p
    intro p
    obtain ⟨α, β, h1⟩ := h p
    obtain ⟨α', β', h2⟩ := h (· < d.exDate)
    by_cases hp : p d.exDate = true
    · refine ⟨α + d.relative * ((1 - α') / df d.exDate) * df d.payDate, β + (d.cash - d.relative * (β' / df d.exDate)) * df d.payDate, ?_⟩
      intro s
      rw [total_append, total_single, if_pos hp, h1]
      unfold amount
      rw [h2]
      ring
    · refine ⟨α, β, ?_⟩
      intro s
      rw [total_append, total_single, if_neg hp, h1, add_zero]

/-- Cash dividends are worth the same whatever the spot. -/
theorem projectFrom_cash (df : Int → ℝ) (p : Int → Bool) (ds : List (Dividend ℝ)) (hd : ∀ d ∈ ds, p d.exDate = true → d.relative = 0) :
    ∀ (E E' : List (Projected ℝ)) (s s' : ℝ), total (·.pv) p E = total (·.pv) p E' →
      total (·.pv) p (projectFrom s df E ds) = total (·.pv) p (projectFrom s' df E' ds) := by
  induction ds with
  | nil => intro E E' s s' h; exact h
  | cons d ds ih =>
    intro E E' s s' h
    simp only [projectFrom]
    refine ih (fun e he => hd e (by simp [he])) _ _ s s' ?_
    rw [total_append, total_append, total_single, total_single, h]
    by_cases hp : p d.exDate = true
    · rw [if_pos hp, if_pos hp]
      simp only [amount, hd d (by simp) hp, zero_mul]
    · rw [if_neg hp, if_neg hp]

variable {baseDate : Int} {spot : ℝ} {settlement : Int → Int} {rate borrow : RateCurve} {divs : DividendStream} {hwm : Int} {f : EquityForward}
  {g : Int → ℝ}

/-- Forwards can be had for every spot or for none. -/
theorem new_spot (hg : Financing rate borrow g) (ho : InOrder divs.dividends) (hb : ∀ d ∈ divs.dividends, d.exDate ≠ baseDate)
    (h : EquityForward.new baseDate spot settlement rate borrow divs hwm = .ok f) (s : ℝ) :
    ∃ f', EquityForward.new baseDate s settlement rate borrow divs hwm = .ok f' := by
  obtain ⟨_, _, _, _, _, _, e7⟩ := new_parts hg h
  have hy : divs.divYield.isZero = true ∨ ∀ d ∈ divs.dividends.getLast?, d.exDate ≤ divs.divYield.baseDate := by
    unfold bootstrapStream Bootstrap.new at e7
    cases hl : divs.dividends.getLast? with
    | none => exact .inr (by simp)
    | some last =>
      rw [hl] at e7
      dsimp only at e7
      split at e7
      · cases e7
      · rename_i hc
        by_cases hz : divs.divYield.isZero = true
        · exact .inl hz
        · refine .inr ?_
          intro d hd
          cases hd
          by_contra hlt
          exact hc ⟨by simp [hz], not_le.1 hlt⟩
  obtain ⟨boot, hboot, _⟩ := bootstrap_ok (lastCash := divs.lastCash) (spot := s * Real.exp (-g (settlement baseDate) - -g baseDate)) (hwm := hwm)
    (discounts hg baseDate) ho hb hy
  refine ⟨⟨settlement, rate, borrow, divs.divYield, boot, s * Real.exp (-g (settlement baseDate) - -g baseDate), - g baseDate⟩, ?_⟩
  unfold EquityForward.new
  rw [logDiscount_eq hg]
  simp only [Bind.bind, Except.bind, discount_eq hg]
  unfold bootstrapStream
  rw [hboot]
  rfl

/-- C26. As a function of the spot, with all else unchanged, the forward to a date within the horizon can be had for every spot or for none,
and is a straight line. Unless a relative dividend goes ex on the way, its slope is the growth between the two settlement dates,
whatever the cash dividends. -/
theorem C26_line (hg : Financing rate borrow g)
    (h : EquityForward.new baseDate spot settlement rate borrow divs hwm = .ok f)
    (ho : InOrder divs.dividends) (hb : ∀ d ∈ divs.dividends, d.exDate ≠ baseDate) {date : Int} (hm : date ≤ hwm) {y : ℝ}
    (hy : Accrued divs.divYield (settlement date) y) :
    ∃ a c : ℝ, (∀ s, ∃ f', EquityForward.new baseDate s settlement rate borrow divs hwm = .ok f' ∧ f'.forward date = .ok (a * s - c)) ∧
      ((∀ d ∈ divs.dividends, baseDate < d.exDate → d.exDate ≤ date → d.relative = 0) →
        a = Real.exp (g (settlement date) - g (settlement baseDate) + y)) := by
  have hform : ∀ s, ∃ f', EquityForward.new baseDate s settlement rate borrow divs hwm = .ok f' ∧
      f'.forward date = .ok ((s * Real.exp (g baseDate - g (settlement baseDate)) -
        total (·.pv) (· ≤ date) (project (s * Real.exp (g baseDate - g (settlement baseDate))) (fun d => Real.exp (g baseDate - g d)) baseDate
          divs.dividends)) * Real.exp (- g baseDate + y + g (settlement date))) := by
    intro s
    obtain ⟨f', hf'⟩ := new_spot hg ho hb h s
    obtain ⟨e1, e2, e3, e4, e5, e6, e7⟩ := new_parts hg hf'
    have hmark := mark_of_bootstrap e7
    have hsum := (C24_from_base_partial (discounts hg baseDate) ho hb e7 (to_ := date) (by omega)).2
    refine ⟨f', hf', ?_⟩
    rw [forward_eq (g := g) (by rw [e2, e3]; exact hg) hsum (by rw [e1, e4]; exact hy), e5, e6, e1]
  obtain ⟨α, β, hl⟩ := projectFrom_line (fun d => Real.exp (g baseDate - g d)) (divs.dividends.filter (fun d => decide (baseDate < d.exDate)))
    (fun _ => []) (fun p => ⟨0, 0, fun s => by simp [total]⟩) (· ≤ date)
  refine ⟨(1 - α) * Real.exp (g baseDate - g (settlement baseDate)) * Real.exp (- g baseDate + y + g (settlement date)),
    β * Real.exp (- g baseDate + y + g (settlement date)), ?_, ?_⟩
  · intro s
    obtain ⟨f', h1, h2⟩ := hform s
    refine ⟨f', h1, ?_⟩
    rw [h2]
    unfold project
    rw [hl]
    congr 1
    ring
  · intro hd
    have h0 := hl 0
    have h1 := hl 1
    have h01 := projectFrom_cash (fun d => Real.exp (g baseDate - g d)) (· ≤ date) (divs.dividends.filter (fun d => decide (baseDate < d.exDate))) (by
      intro d hd' hp
      obtain ⟨m1, m2⟩ := List.mem_filter.1 hd'
      exact hd d m1 (by simpa using m2) (by simpa using hp)) [] [] 0 1 rfl
    have hα : α = 0 := by
      rw [h0, h1] at h01
      linarith
    rw [hα, sub_zero, one_mul, ← Real.exp_add]
    congr 1
    ring

/-- C26: the sample forward, for a spot of any size, loses the dividend of five on its way to day ten. -/
example (s : ℝ) : ∃ f a c, EquityForward.new 0 s (· + 2) (.zero 0) (.zero 0) sampleStream 40 = .ok f ∧ f.forward 10 = .ok (a * s - c) ∧ a = 1 := by
  obtain ⟨f, hf⟩ := sample_built
  have ho : InOrder sampleStream.dividends := by simp [sampleStream, DividendStream.new, InOrder]
  have hb : ∀ d ∈ sampleStream.dividends, d.exDate ≠ 0 := by simp [sampleStream, DividendStream.new]
  obtain ⟨a, c, h1, h2⟩ := C26_line (financing_zero 0 0) hf ho hb (date := 10) (by norm_num) (zero_rt _ _)
  obtain ⟨f', h3, h4⟩ := h1 s
  refine ⟨f', a, c, h3, h4, ?_⟩
  rw [h2 (by simp [sampleStream, DividendStream.new])]
  norm_num

end QM.Forward
