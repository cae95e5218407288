import Verif.Forward.Spec
import Verif.Dividends.Lemmas
import Verif.Curves.Lemmas

/-!
# Helper lemmas for forwards
-/

namespace QM.Forward
open QM.Interp (Num)
open QM.Curves QM.Dividends QM.Dividends.Spec Spec

theorem logDiscount_eq {rate borrow : RateCurve} {g : Int → ℝ} (hg : Financing rate borrow g) (d : Int) :
    logDiscountWithBorrow rate borrow d = .ok (- g d) := by
  obtain ⟨r, q, h1, h2, h3⟩ := hg d
  unfold logDiscountWithBorrow
  rw [h1, h2, h3]
  simp only [number, Bind.bind, Except.bind, pure, Except.pure]
  congr 1; ring

theorem discount_eq {rate borrow : RateCurve} {g : Int → ℝ} (hg : Financing rate borrow g) (b : ℝ) (d : Int) :
    discountWithBorrow rate borrow b d = .ok (Real.exp (- g d - b)) := by
  unfold discountWithBorrow
  rw [logDiscount_eq hg]
  rfl

theorem discounts {rate borrow : RateCurve} {g : Int → ℝ} (hg : Financing rate borrow g) (base : Int) :
    Discounts (bootstrapDiscount rate borrow base) (fun d => Real.exp (g base - g d)) := by
  refine ⟨discountWithBorrow rate borrow (- g base), ?_, ?_⟩
  · unfold bootstrapDiscount
    rw [logDiscount_eq hg]
    rfl
  · intro d
    rw [discount_eq hg]
    congr 2; ring

/-- The parts of a forward that was built. -/
theorem new_parts {baseDate : Int} {spot : ℝ} {settlement : Int → Int} {rate borrow : RateCurve} {divs : DividendStream}
    {hwm : Int} {f : EquityForward} {g : Int → ℝ} (hg : Financing rate borrow g)
    (h : EquityForward.new baseDate spot settlement rate borrow divs hwm = .ok f) :
    f.settlement = settlement ∧ f.rate = rate ∧ f.borrow = borrow ∧ f.divYield = divs.divYield ∧
      f.referenceSpot = spot * Real.exp (g baseDate - g (settlement baseDate)) ∧ f.baseLogDiscount = - g baseDate ∧
      bootstrapStream divs rate borrow f.referenceSpot baseDate hwm = .ok f.bootstrap := by
  unfold EquityForward.new at h
  rw [logDiscount_eq hg] at h
  simp only [Bind.bind, Except.bind, discount_eq hg] at h
  cases hb : bootstrapStream divs rate borrow (spot * Real.exp (-g (settlement baseDate) - -g baseDate)) baseDate hwm with
  | error e => rw [hb] at h; cases h
  | ok b =>
    rw [hb] at h
    cases h
    refine ⟨rfl, rfl, rfl, rfl, ?_, rfl, hb⟩
    congr 2; ring

theorem bootstrap_isZero {K : Type} [Field K] [LinearOrder K] {ds : List (Dividend K)} {lc : Int} {z : Bool} {yb yb' : Int}
    {disc : Outcome (Int → Outcome K)} {spot : K} {base hwm : Int} {b : Bootstrap K}
    (h : Bootstrap.new ds lc z yb disc spot base hwm = .ok b) : Bootstrap.new ds lc true yb' disc spot base hwm = .ok b := by
  unfold Bootstrap.new at h ⊢
  cases hl : ds.getLast? with
  | none => rw [hl] at h; exact h
  | some last =>
    rw [hl] at h
    simp only at h ⊢
    split at h
    · cases h
    · rw [if_neg (by simp)]; exact h

theorem forward_eq {f : EquityForward} {g : Int → ℝ} {date : Int} {divs y : ℝ} (hg : Financing f.rate f.borrow g)
    (hd : f.bootstrap.discountedSumFromBase date = .ok divs) (hy : Accrued f.divYield (f.settlement date) y) :
    f.forward date = .ok ((f.referenceSpot - divs) * Real.exp (f.baseLogDiscount + y + g (f.settlement date))) := by
  unfold EquityForward.forward
  unfold Accrued at hy
  simp only [Bind.bind, Except.bind, hd, logDiscount_eq hg]
  rw [hy]
  simp only [number, pure, Except.pure]
  congr 3; ring

theorem zero_rt (b d : Int) : (RateCurve.zero b).rt d = .ok (.val 0) := by
  have := rt_of_rAndT (c := .zero b) (d := d) (r := 0) (t := 0) rfl
  rwa [zero_mul] at this

/-- The zero curves finance at no cost. -/
theorem financing_zero (a b : Int) : Financing (.zero a) (.zero b) (fun _ => 0) :=
  fun d => ⟨0, 0, zero_rt a d, zero_rt b d, by ring⟩

theorem mark_of_bootstrap {K : Type} [Field K] [LinearOrder K] {ds : List (Dividend K)} {lc : Int} {z : Bool} {yb : Int}
    {disc : Outcome (Int → Outcome K)} {spot : K} {base hwm : Int} {b : Bootstrap K}
    (h : Bootstrap.new ds lc z yb disc spot base hwm = .ok b) : hwm ≤ b.highWaterMark := by
  unfold Bootstrap.new at h
  cases hl : ds.getLast? with
  | none => rw [hl] at h; cases h; exact le_refl _
  | some last =>
    rw [hl] at h
    simp only at h
    split at h
    · cases h
    · cases disc with
      | error e => cases h
      | ok gg =>
        simp only [Bind.bind, Except.bind] at h
        cases hs : bootstrapLoop base (max hwm lc) spot gg ds ⟨base, 0, 0, 0, 0, []⟩ with
        | error e => rw [hs] at h; cases h
        | ok s => rw [hs] at h; cases h; exact le_max_left _ _

end QM.Forward
