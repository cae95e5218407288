import Verif.Rounded.ForwardModel
import Verif.Rounded.CurveProps
import Verif.Forward.Model

/-!
# C114: forwards in floating-point arithmetic
-/

namespace QM.Rounded
open QM.Interp (Num)
open QM.Dividends (Dividend Accumulation Bootstrap LoopState)

namespace Spec

/-- Two streams of cash dividends on the same dates, of which the second pays no less. -/
structure PaysLess (d d' : Dividend ℝ) : Prop where
  ex : d.exDate = d'.exDate
  pay : d.payDate = d'.payDate
  cash : d.cash ≤ d'.cash
  fixed : d.relative = 0
  fixed' : d'.relative = 0

end Spec

open Spec

variable {r : Rounding ℝ} {lib : Library} {rate borrow : RateCurve} {base hwm : Int} {settle : Int → Int} {divs divs' : DividendStream} {spot spot' : ℝ}

/-! ## Lemmas -/

theorem bind_inv {α β : Type} {x : Outcome α} {f : α → Outcome β} {b : β} (h : (x >>= f) = .ok b) : ∃ a, x = .ok a ∧ f a = .ok b := by
  cases x with
  | error e => cases h
  | ok a => exact ⟨a, rfl, h⟩

theorem log_float {d : Int} {L : ℝ} (h : logDiscountWithBorrow r lib rate borrow d = .ok L) : r.rnd L = L := by
  unfold logDiscountWithBorrow at h
  obtain ⟨x, _, h⟩ := bind_inv h
  obtain ⟨y, _, h⟩ := bind_inv h
  cases h
  exact r.idem _

theorem discount_pos {d : Int} {b D : ℝ} (h : discountWithBorrow r lib rate borrow b d = .ok D) : 0 < D := by
  unfold discountWithBorrow at h
  obtain ⟨x, _, h⟩ := bind_inv h
  cases h
  exact lib_pos _

/-- One accumulation has the dates of another, and no larger discounted sum. -/
structure Below (a a' : Accumulation ℝ) : Prop where
  ex : a.exDate = a'.exDate
  sum : a.discountedSum ≤ a'.discountedSum

/-- One state of the loop is below another. -/
structure StateBelow (s s' : LoopState ℝ) : Prop where
  ex : s.prevExDate = s'.prevExDate
  sum : s.discountedSum ≤ s'.discountedSum
  acc : List.Forall₂ Below s.accumulation s'.accumulation

theorem StateBelow.pushed {s s' : LoopState ℝ} (h : StateBelow s s') : List.Forall₂ Below s.pushed s'.pushed :=
  List.rel_append h.acc (.cons ⟨h.ex, h.sum⟩ .nil)

theorem add_below {df : Int → Outcome ℝ} (hdf : ∀ d D, df d = .ok D → 0 < D) {d d' : Dividend ℝ} (hd : PaysLess d d') {s s' t t' : LoopState ℝ} {X X' : ℝ}
    (h : StateBelow s s') (ht : addDividend r X df d s = .ok t) (ht' : addDividend r X' df d' s' = .ok t') : StateBelow t t' := by
  unfold addDividend at ht ht'
  obtain ⟨f, hf, ht⟩ := bind_inv ht
  obtain ⟨f', hf', ht'⟩ := bind_inv ht'
  rw [← hd.pay, hf] at hf'
  cases hf'
  dsimp only at ht ht'
  rw [if_neg (by simp [hd.fixed])] at ht
  rw [if_neg (by simp [hd.fixed'])] at ht'
  cases ht
  cases ht'
  refine ⟨h.ex, ?_, h.acc⟩
  exact r.mono _ _ (add_le_add h.sum (r.mono _ _ (mul_le_mul_of_nonneg_right hd.cash (hdf _ _ hf).le)))

theorem loop_below {df : Int → Outcome ℝ} (hdf : ∀ d D, df d = .ok D → 0 < D) {to_ : Int} {X X' : ℝ} {l l' : List (Dividend ℝ)} (hl : List.Forall₂ PaysLess l l') :
    ∀ {s s' t t' : LoopState ℝ}, StateBelow s s' → bootstrapLoop r base to_ X df l s = .ok t → bootstrapLoop r base to_ X' df l' s' = .ok t' → StateBelow t t' := by
  induction hl with
  | nil =>
    intro s s' t t' h ht ht'
    cases ht
    cases ht'
    exact h
  | @cons d d' l l' hd _ ih =>
    intro s s' t t' h ht ht'
    rw [bootstrapLoop] at ht ht'
    rw [← hd.ex, ← h.ex] at ht'
    split at ht
    · rename_i c
      rw [if_pos c] at ht'
      exact ih h ht ht'
    · rename_i c
      rw [if_neg c] at ht'
      split at ht
      · cases ht
      · rename_i c
        rw [if_neg c] at ht'
        split at ht
        · rename_i c
          rw [if_pos c] at ht'
          cases ht
          cases ht'
          exact h
        · rename_i c
          rw [if_neg c] at ht'
          dsimp only at ht ht'
          obtain ⟨u, hu, ht⟩ := bind_inv ht
          obtain ⟨u', hu', ht'⟩ := bind_inv ht'
          refine ih (add_below hdf hd ?_ hu hu') ht ht'
          split
          · exact ⟨rfl, h.sum, h.pushed⟩
          · exact h

theorem fill_below {a a' : List (Accumulation ℝ)} (h : List.Forall₂ Below a a') :
    List.Forall₂ Below (QM.Dividends.fillRemaining a) (QM.Dividends.fillRemaining a') := by
  have key : ∀ (g : Accumulation ℝ → Num ℝ) (a : List (Accumulation ℝ)), List.Forall₂ (fun x y => x.exDate = y.exDate ∧ x.discountedSum = y.discountedSum) a
      (a.map (fun x => { x with discountedCashRemaining := g x })) := by
    intro g a
    induction a with
    | nil => exact .nil
    | cons x a ih => exact .cons ⟨rfl, rfl⟩ ih
  have fill : ∀ a : List (Accumulation ℝ), List.Forall₂ (fun x y => x.exDate = y.exDate ∧ x.discountedSum = y.discountedSum) a (QM.Dividends.fillRemaining a) := by
    intro a
    unfold QM.Dividends.fillRemaining
    split
    · exact List.forall₂_same.2 fun _ _ => ⟨rfl, rfl⟩
    · exact key (fun x => _) a
  have h1 := fill a
  have h2 := fill a'
  generalize QM.Dividends.fillRemaining a = b at *
  generalize QM.Dividends.fillRemaining a' = b' at *
  induction h generalizing b b' with
  | nil => cases h1; cases h2; exact .nil
  | cons h _ ih =>
    cases h1 with
    | cons x1 h1 =>
      cases h2 with
      | cons x2 h2 =>
        exact .cons ⟨by rw [← x1.1, ← x2.1, h.ex], by rw [← x1.2, ← x2.2]; exact h.sum⟩ (ih _ h1 _ h2)

theorem search_below {a a' : List (Accumulation ℝ)} (h : List.Forall₂ Below a a') (d : Int) : QM.Dividends.searchAcc a d = QM.Dividends.searchAcc a' d := by
  have h1 : (a.takeWhile fun x => decide (x.exDate < d)).length = (a'.takeWhile fun x => decide (x.exDate < d)).length := by
    induction h with
    | nil => rfl
    | cons h _ ih =>
      simp only [List.takeWhile_cons, h.ex]
      split
      · simp only [List.length_cons, ih]
      · rfl
  have h2 : ∀ i : Nat, a[i]?.map (·.exDate) = a'[i]?.map (·.exDate) := by
    induction h with
    | nil => intro i; rfl
    | cons h _ ih =>
      rename_i ht
      intro i
      cases i with
      | zero => simp [h.ex]
      | succ i =>
        simp only [List.getElem?_cons_succ]
        refine ih ?_ i
        simp only [List.takeWhile_cons, h.ex] at h1
        split at h1
        · simpa using h1
        · rename_i c
          exact (List.Forall₂.rec (motive := fun l l' _ => (l.takeWhile fun x => decide (x.exDate < d)).length = (l'.takeWhile fun x => decide (x.exDate < d)).length) rfl
            (fun h _ ih => by
              simp only [List.takeWhile_cons, h.ex]
              split
              · simp only [List.length_cons, ih]
              · rfl) ht)
  unfold QM.Dividends.searchAcc
  dsimp only
  rw [h1, h2]

theorem field_below {a a' : List (Accumulation ℝ)} (h : List.Forall₂ Below a a') : ∀ i : Nat,
    (a[i]?.map (·.discountedSum)).getD 0 ≤ (a'[i]?.map (·.discountedSum)).getD 0 := by
  induction h with
  | nil => intro i; simp
  | cons h _ ih =>
    intro i
    cases i with
    | zero => simpa using h.sum
    | succ i => simpa using ih i

theorem sum_below {b b' : Bootstrap ℝ} (hm : b.highWaterMark = b'.highWaterMark) (h : List.Forall₂ Below b.accumulation b'.accumulation) {d : Int} {x x' : ℝ}
    (hx : b.discountedSumFromBase d = .ok x) (hx' : b'.discountedSumFromBase d = .ok x') : x ≤ x' := by
  unfold Bootstrap.discountedSumFromBase QM.Dividends.sumFromBase at hx hx'
  rw [← hm, ← search_below h] at hx'
  dsimp only at hx hx'
  split at hx
  · cases hx
  · rename_i c
    rw [if_neg c] at hx'
    split at hx
    · rename_i c
      rw [if_pos c] at hx'
      cases hx
      cases hx'
      exact field_below h _
    · rename_i c
      rw [if_neg c] at hx'
      split at hx
      · rename_i c
        rw [if_pos c] at hx'
        cases hx
        cases hx'
        exact le_rfl
      · rename_i c
        rw [if_neg c] at hx'
        cases hx
        cases hx'
        exact field_below h _

theorem stream_below (hy : divs.divYield = divs'.divYield) (hc : divs.lastCash = divs'.lastCash) (hl : List.Forall₂ PaysLess divs.dividends divs'.dividends)
    {X X' : ℝ} {b b' : Bootstrap ℝ} (h : bootstrapStream r lib divs rate borrow X base hwm = .ok b) (h' : bootstrapStream r lib divs' rate borrow X' base hwm = .ok b') :
    b.highWaterMark = b'.highWaterMark ∧ List.Forall₂ Below b.accumulation b'.accumulation := by
  obtain ⟨l, y, c⟩ := divs
  obtain ⟨l', y', c'⟩ := divs'
  dsimp only at hy hc hl
  subst hy hc
  unfold bootstrapStream at h h'
  dsimp only at h h'
  cases hq : l.getLast? with
  | none =>
    rw [List.getLast?_eq_none_iff] at hq
    subst hq
    cases hl
    cases h
    cases h'
    exact ⟨rfl, .nil⟩
  | some last =>
    cases hq' : l'.getLast? with
    | none =>
      rw [List.getLast?_eq_none_iff] at hq'
      subst hq'
      cases hl
      cases hq
    | some last' =>
      rw [hq] at h
      rw [hq'] at h'
      dsimp only at h h'
      split at h
      · cases h
      split at h'
      · cases h'
      obtain ⟨L, hL, h⟩ := bind_inv h
      obtain ⟨L', hL', h'⟩ := bind_inv h'
      rw [hL] at hL'
      cases hL'
      obtain ⟨s, hs, h⟩ := bind_inv h
      obtain ⟨s', hs', h'⟩ := bind_inv h'
      cases h
      cases h'
      have := loop_below (fun d D hD => discount_pos hD) hl ⟨rfl, le_rfl, .nil⟩ hs hs'
      refine ⟨rfl, fill_below ?_⟩
      rw [← this.ex]
      split
      · exact this.pushed
      · exact this.acc

/-- The parts of a forward. -/
theorem forward_parts {f : EquityForward} (h : EquityForward.new r lib base spot settle rate borrow divs hwm = .ok f) :
    ∃ L S, logDiscountWithBorrow r lib rate borrow base = .ok L ∧ logDiscountWithBorrow r lib rate borrow (settle base) = .ok S ∧
      f.referenceSpot = r.rnd (spot * lib.exp (r.rnd (S - L))) ∧ f.baseLogDiscount = L ∧ f.settlement = settle ∧ f.rate = rate ∧ f.borrow = borrow ∧
      f.divYield = divs.divYield ∧ bootstrapStream r lib divs rate borrow f.referenceSpot base hwm = .ok f.bootstrap := by
  unfold EquityForward.new at h
  obtain ⟨L, hL, h⟩ := bind_inv h
  dsimp only at h
  obtain ⟨D, hD, h⟩ := bind_inv h
  obtain ⟨b, hb, h⟩ := bind_inv h
  unfold discountWithBorrow at hD
  obtain ⟨S, hS, hD⟩ := bind_inv hD
  cases hD
  cases h
  exact ⟨L, S, hL, hS, rfl, rfl, rfl, rfl, rfl, rfl, hb⟩

theorem forward_value {f : EquityForward} {d : Int} {x : ℝ} (h : f.forward r lib d = .ok x) :
    ∃ total L y, f.bootstrap.discountedSumFromBase d = .ok total ∧ logDiscountWithBorrow r lib f.rate f.borrow (f.settlement d) = .ok L ∧
      number (f.divYield.rt r lib (f.settlement d)) = .ok y ∧
      x = r.rnd (r.rnd (f.referenceSpot - total) * lib.exp (r.rnd (r.rnd (f.baseLogDiscount + y) - L))) := by
  unfold EquityForward.forward at h
  obtain ⟨t, ht, h⟩ := bind_inv h
  dsimp only at h
  obtain ⟨L, hL, h⟩ := bind_inv h
  obtain ⟨y, hy, h⟩ := bind_inv h
  cases h
  exact ⟨t, L, y, ht, hL, hy, rfl⟩

/-! ## C114 -/

/-- C114, order. Whatever is rounded, a share that costs no less now, and pays no more cash on the same dates, costs no less in the future. -/
theorem C114_ordered {f f' : EquityForward} (h : EquityForward.new r lib base spot settle rate borrow divs hwm = .ok f)
    (h' : EquityForward.new r lib base spot' settle rate borrow divs' hwm = .ok f') (hs : spot ≤ spot') (hy : divs'.divYield = divs.divYield)
    (hc : divs'.lastCash = divs.lastCash) (hl : List.Forall₂ PaysLess divs'.dividends divs.dividends) {d : Int} {x x' : ℝ}
    (hx : f.forward r lib d = .ok x) (hx' : f'.forward r lib d = .ok x') : x ≤ x' := by
  obtain ⟨L, S, a1, a2, a3, a4, a5, a6, a7, a8, a9⟩ := forward_parts h
  obtain ⟨L', S', b1, b2, b3, b4, b5, b6, b7, b8, b9⟩ := forward_parts h'
  rw [a1] at b1
  cases b1
  rw [a2] at b2
  cases b2
  obtain ⟨t, M, y, k1, k2, k3, rfl⟩ := forward_value hx
  obtain ⟨t', M', y', m1, m2, m3, rfl⟩ := forward_value hx'
  rw [a6, a7, a5] at k2
  rw [b6, b7, b5, k2] at m2
  cases m2
  rw [a8, a5] at k3
  rw [b8, b5, hy, k3] at m3
  cases m3
  obtain ⟨e1, e2⟩ := stream_below hy hc hl b9 a9
  have ht := sum_below e1 e2 m1 k1
  rw [a4, b4]
  refine r.mono _ _ (mul_le_mul_of_nonneg_right (r.mono _ _ ?_) (lib_pos _).le)
  have := r.mono _ _ (mul_le_mul_of_nonneg_right hs (lib_pos (lib := lib) (r.rnd (S - L))).le)
  rw [a3, b3]
  linarith

/-! ### Today -/

/-- The first accumulation is that of the base date, with nothing paid. -/
def Fresh (base : Int) (s : LoopState ℝ) : Prop :=
  (s.prevExDate = base ∧ s.accumulation = [] ∧ s.discountedSum = 0) ∨ (base < s.prevExDate ∧ ∃ a rest, s.accumulation = a :: rest ∧ a.exDate = base ∧ a.discountedSum = 0)

theorem loop_fresh {df : Int → Outcome ℝ} {to_ : Int} {X : ℝ} : ∀ {l : List (Dividend ℝ)} {s t : LoopState ℝ}, (∀ d ∈ l, d.exDate ≠ base) → Fresh base s →
    bootstrapLoop r base to_ X df l s = .ok t → Fresh base t
  | [], s, t, _, h, ht => by
    cases ht
    exact h
  | d :: l, s, t, hl, h, ht => by
    have hl' : ∀ e ∈ l, e.exDate ≠ base := fun e he => hl e (List.mem_cons_of_mem _ he)
    have hd := hl d List.mem_cons_self
    rw [bootstrapLoop] at ht
    split at ht
    · exact loop_fresh hl' h ht
    split at ht
    · cases ht
    split at ht
    · cases ht
      exact h
    dsimp only at ht
    obtain ⟨u, hu, ht⟩ := bind_inv ht
    refine loop_fresh hl' ?_ ht
    have keep : ∀ {s u : LoopState ℝ}, addDividend r X df d s = .ok u → u.prevExDate = s.prevExDate ∧ u.accumulation = s.accumulation := by
      intro s u h
      unfold addDividend at h
      obtain ⟨f, _, h⟩ := bind_inv h
      dsimp only at h
      split at h
      · obtain ⟨g, _, h⟩ := bind_inv h
        cases h
        exact ⟨rfl, rfl⟩
      · cases h
        exact ⟨rfl, rfl⟩
    obtain ⟨k1, k2⟩ := keep hu
    refine Or.inr ?_
    rw [k1, k2]
    rcases h with ⟨h1, h2, h3⟩ | ⟨h1, a, rest, h2, h3, h4⟩
    · rw [if_pos (by rw [h1]; omega)]
      refine ⟨by dsimp only; omega, ⟨s.prevExDate, s.undiscountedSum, s.discountedSum, s.discountedCash, .nan⟩, [], ?_, h1, h3⟩
      unfold LoopState.pushed
      rw [h2]
      rfl
    · split
      · refine ⟨by dsimp only; omega, a, rest ++ [⟨s.prevExDate, s.undiscountedSum, s.discountedSum, s.discountedCash, .nan⟩], ?_, h3, h4⟩
        unfold LoopState.pushed
        rw [h2]
        rfl
      · exact ⟨h1, a, rest, h2, h3, h4⟩

theorem today_sum {X : ℝ} {b : Bootstrap ℝ} (hl : ∀ d ∈ divs.dividends, d.exDate ≠ base) (hm : base ≤ hwm)
    (h : bootstrapStream r lib divs rate borrow X base hwm = .ok b) : b.discountedSumFromBase base = .ok 0 := by
  have none_yet : ∀ m, base ≤ m → (⟨base, m, []⟩ : Bootstrap ℝ).discountedSumFromBase base = .ok 0 := by
    intro m hm
    unfold Bootstrap.discountedSumFromBase QM.Dividends.sumFromBase QM.Dividends.searchAcc
    rw [if_neg (by dsimp only; omega)]
    simp
  unfold bootstrapStream at h
  split at h
  · cases h
    exact none_yet _ hm
  · split at h
    · cases h
    dsimp only at h
    obtain ⟨L, hL, h⟩ := bind_inv h
    obtain ⟨s, hs, h⟩ := bind_inv h
    cases h
    have hm' : base ≤ max hwm divs.lastCash := le_max_of_le_left hm
    rcases loop_fresh hl (.inl ⟨rfl, rfl, rfl⟩) hs with ⟨h1, h2, h3⟩ | ⟨h1, a, rest, h2, h3, h4⟩
    · rw [if_neg (by omega), h2]
      exact none_yet _ hm'
    · rw [if_pos h1]
      have : ∃ a' rest', QM.Dividends.fillRemaining s.pushed = a' :: rest' ∧ a'.exDate = base ∧ a'.discountedSum = 0 := by
        unfold LoopState.pushed QM.Dividends.fillRemaining
        rw [h2]
        split
        · exact ⟨a, _, rfl, h3, h4⟩
        · exact ⟨_, _, rfl, h3, h4⟩
      obtain ⟨a', rest', e, e1, e2⟩ := this
      rw [e]
      unfold Bootstrap.discountedSumFromBase QM.Dividends.sumFromBase QM.Dividends.searchAcc
      rw [if_neg (by dsimp only; omega)]
      simp [e1, e2]

/-- C114, today. If trades settle at once and no dividend goes ex today, the forward to today is exactly the spot, whatever is rounded, if the spot is itself a float and the dividend yield has
accrued nothing yet. -/
theorem C114_today {f : EquityForward} (h : EquityForward.new r lib base spot settle rate borrow divs hwm = .ok f) (hs : settle base = base) (hf : r.IsFloat spot)
    (hm : base ≤ hwm) (hl : ∀ d ∈ divs.dividends, d.exDate ≠ base) (hy : divs.divYield.rt r lib base = .ok (.val 0)) : f.forward r lib base = .ok spot := by
  obtain ⟨L, S, a1, a2, a3, a4, a5, a6, a7, a8, a9⟩ := forward_parts h
  rw [hs, a1] at a2
  cases a2
  have hL := log_float a1
  have href : f.referenceSpot = spot := by
    rw [a3, sub_self, r.zero, lib.expZero, mul_one]
    exact hf
  unfold EquityForward.forward
  rw [bind_val (today_sum hl hm a9)]
  dsimp only
  rw [a5, a6, a7, a8, hs, bind_val a1, hy]
  show Except.ok (r.rnd (r.rnd (f.referenceSpot - 0) * lib.exp (r.rnd (r.rnd (f.baseLogDiscount + 0) - L)))) = _
  rw [a4, add_zero, hL, sub_self, r.zero, lib.expZero, mul_one, sub_zero, href, hf, hf]

/-! ### Shares that pay nothing -/

theorem no_dividends (hd : divs.dividends = []) {f : EquityForward} (h : EquityForward.new r lib base spot settle rate borrow divs hwm = .ok f) {d : Int} {x : ℝ}
    (hx : f.forward r lib d = .ok x) : f.bootstrap.discountedSumFromBase d = .ok 0 := by
  obtain ⟨L, S, a1, a2, a3, a4, a5, a6, a7, a8, a9⟩ := forward_parts h
  obtain ⟨t, _, _, k1, _, _, _⟩ := forward_value hx
  unfold bootstrapStream at a9
  rw [hd] at a9
  cases hb : f.bootstrap with
  | mk b m l =>
    rw [hb] at a9 k1
    cases a9
    unfold Bootstrap.discountedSumFromBase QM.Dividends.sumFromBase QM.Dividends.searchAcc at k1 ⊢
    split at k1
    · cases k1
    · rename_i c
      rw [if_neg c]
      simp

theorem log_val {d : Int} {x y : ℝ} (hx : rate.rt r lib d = .ok (.val x)) (hy : borrow.rt r lib d = .ok (.val y)) :
    logDiscountWithBorrow r lib rate borrow d = .ok (r.rnd (y - x)) := by
  unfold logDiscountWithBorrow
  rw [hx, hy]
  rfl

/-- C114, carry. For a share that pays nothing, the more interest and the less borrow accrues until a date settles, the higher the forward to it, whatever is rounded. -/
theorem C114_carry {f f' : EquityForward} {rate' borrow' : RateCurve} (hd : divs.dividends = []) (h : EquityForward.new r lib base spot settle rate borrow divs hwm = .ok f)
    (h' : EquityForward.new r lib base spot settle rate' borrow' divs hwm = .ok f') (hs : 0 ≤ spot)
    (hr : ∀ e, e = base ∨ e = settle base → rate'.rt r lib e = rate.rt r lib e ∧ borrow'.rt r lib e = borrow.rt r lib e) {d : Int} {a a' q q' x x' : ℝ}
    (ha : rate.rt r lib (settle d) = .ok (.val a)) (hq : borrow.rt r lib (settle d) = .ok (.val q)) (ha' : rate'.rt r lib (settle d) = .ok (.val a'))
    (hq' : borrow'.rt r lib (settle d) = .ok (.val q')) (haa : a ≤ a') (hqq : q' ≤ q) (hx : f.forward r lib d = .ok x) (hx' : f'.forward r lib d = .ok x') :
    x ≤ x' := by
  obtain ⟨L, S, a1, a2, a3, a4, a5, a6, a7, a8, a9⟩ := forward_parts h
  obtain ⟨L', S', b1, b2, b3, b4, b5, b6, b7, b8, b9⟩ := forward_parts h'
  have same : ∀ e, e = base ∨ e = settle base → logDiscountWithBorrow r lib rate' borrow' e = logDiscountWithBorrow r lib rate borrow e := by
    intro e he
    unfold logDiscountWithBorrow
    rw [(hr e he).1, (hr e he).2]
  rw [same _ (.inl rfl), a1] at b1
  cases b1
  rw [same _ (.inr rfl), a2] at b2
  cases b2
  have z := no_dividends hd h hx
  have z' := no_dividends hd h' hx'
  obtain ⟨t, M, y, k1, k2, k3, rfl⟩ := forward_value hx
  obtain ⟨t', M', y', m1, m2, m3, rfl⟩ := forward_value hx'
  rw [z] at k1
  cases k1
  rw [z'] at m1
  cases m1
  rw [a6, a7, a5, log_val ha hq] at k2
  cases k2
  rw [b6, b7, b5, log_val ha' hq'] at m2
  cases m2
  rw [a8, a5] at k3
  rw [b8, b5, k3] at m3
  cases m3
  rw [a4, b4, a3, b3]
  refine r.mono _ _ (mul_le_mul_of_nonneg_left (lib.expMono _ _ (r.mono _ _ (sub_le_sub_left (r.mono _ _ (by linarith)) _))) ?_)
  rw [sub_zero]
  exact r.nonneg (r.nonneg (mul_nonneg hs (lib_pos _).le))

/-- C114, accuracy. For a share that pays nothing, the forward is the spot with the interest less the cost of borrow that accrues from the one settlement to the other, up to a relative error of the
size of a few roundings. -/
theorem C114_close {f : EquityForward} (hd : divs.dividends = []) (h : EquityForward.new r lib base spot settle rate borrow divs hwm = .ok f) {d : Int}
    {a0 a1 a2 q0 q1 q2 x M : ℝ} (ha0 : rate.rt r lib base = .ok (.val a0)) (hq0 : borrow.rt r lib base = .ok (.val q0))
    (ha1 : rate.rt r lib (settle base) = .ok (.val a1)) (hq1 : borrow.rt r lib (settle base) = .ok (.val q1))
    (ha2 : rate.rt r lib (settle d) = .ok (.val a2)) (hq2 : borrow.rt r lib (settle d) = .ok (.val q2)) (hy : divs.divYield.rt r lib (settle d) = .ok (.val 0))
    (m0 : |q0 - a0| ≤ M) (m1 : |q1 - a1| ≤ M) (m2 : |q2 - a2| ≤ M) (hu : r.unit ≤ 1 / 2) (hsmall : 8 * r.unit * M + 4 * lib.error + 4 * r.unit ≤ 1)
    (hx : f.forward r lib d = .ok x) :
    |x - spot * Real.exp ((a2 - q2) - (a1 - q1))| ≤ 2 * (8 * r.unit * M + 4 * lib.error + 4 * r.unit) * |spot * Real.exp ((a2 - q2) - (a1 - q1))| := by
  obtain ⟨L, S, e1, e2, e3, e4, e5, e6, e7, e8, e9⟩ := forward_parts h
  rw [log_val ha0 hq0] at e1
  cases e1
  rw [log_val ha1 hq1] at e2
  cases e2
  have z := no_dividends hd h hx
  obtain ⟨t, N, y, k1, k2, k3, rfl⟩ := forward_value hx
  rw [z] at k1
  cases k1
  rw [e6, e7, e5, log_val ha2 hq2] at k2
  cases k2
  rw [e8, e5, hy] at k3
  cases k3
  rw [e4, e3, sub_zero, add_zero, r.idem, r.idem]
  have hu0 := r.unit_nonneg
  have he0 := error_nonneg (lib := lib)
  have hM : 0 ≤ M := (abs_nonneg _).trans m0
  set L := r.rnd (q0 - a0) with hL
  set S := r.rnd (q1 - a1) with hS
  set N := r.rnd (q2 - a2) with hN
  have c0 := (r.close (q0 - a0)).trans (mul_le_mul_of_nonneg_left m0 hu0)
  have c1 := (r.close (q1 - a1)).trans (mul_le_mul_of_nonneg_left m1 hu0)
  have c2 := (r.close (q2 - a2)).trans (mul_le_mul_of_nonneg_left m2 hu0)
  rw [← hL, abs_le] at c0
  rw [← hS, abs_le] at c1
  rw [← hN, abs_le] at c2
  rw [abs_le] at m0 m1 m2
  have huM : r.unit * M ≤ 1 / 2 * M := mul_le_mul_of_nonneg_right hu hM
  have d1 := (r.close (S - L)).trans (mul_le_mul_of_nonneg_left (show |S - L| ≤ 3 * M by rw [abs_le]; constructor <;> linarith) hu0)
  have d2 := (r.close (L - N)).trans (mul_le_mul_of_nonneg_left (show |L - N| ≤ 3 * M by rw [abs_le]; constructor <;> linarith) hu0)
  rw [abs_le] at d1 d2
  obtain ⟨f1, g1, h1⟩ := lib_factor (lib := lib) (r.rnd (S - L))
  obtain ⟨f2, g2, h2⟩ := lib_factor (lib := lib) (r.rnd (L - N))
  obtain ⟨f3, g3, h3⟩ := factor r (spot * lib.exp (r.rnd (S - L)))
  obtain ⟨f4, g4, h4⟩ := factor r (r.rnd (spot * lib.exp (r.rnd (S - L))) * lib.exp (r.rnd (L - N)))
  obtain ⟨n1, p1⟩ := one_add_exp g1 lib.small
  obtain ⟨n2, p2⟩ := one_add_exp g2 lib.small
  obtain ⟨n3, p3⟩ := one_add_exp g3 hu
  obtain ⟨n4, p4⟩ := one_add_exp g4 hu
  set s := r.rnd (S - L) + r.rnd (L - N) - ((a2 - q2) - (a1 - q1)) with hs
  have hs1 : -(8 * r.unit * M) ≤ s := by rw [hs]; linarith
  have hs2 : s ≤ 8 * r.unit * M := by rw [hs]; linarith
  set τ := 8 * r.unit * M + 4 * lib.error + 4 * r.unit with hτ
  set F := spot * Real.exp ((a2 - q2) - (a1 - q1)) with hF
  have pos1 : 0 ≤ 1 + f1 := (Real.exp_pos _).le.trans n1
  have pos2 : 0 ≤ 1 + f2 := (Real.exp_pos _).le.trans n2
  have pos3 : 0 ≤ 1 + f3 := (Real.exp_pos _).le.trans n3
  have pos4 : 0 ≤ 1 + f4 := (Real.exp_pos _).le.trans n4
  set q := Real.exp s * ((1 + f1) * (1 + f2) * ((1 + f3) * (1 + f4))) with hq
  have e : r.rnd (r.rnd (spot * lib.exp (r.rnd (S - L))) * lib.exp (r.rnd (L - N))) = F * q := by
    rw [h4, h3, h2, h1, hq, hF]
    have : Real.exp s = Real.exp (r.rnd (S - L)) * Real.exp (r.rnd (L - N)) / Real.exp ((a2 - q2) - (a1 - q1)) := by
      rw [hs, Real.exp_sub, Real.exp_add]
    rw [this]
    have := (Real.exp_pos ((a2 - q2) - (a1 - q1))).ne'
    field_simp
  have hq1 : Real.exp (-τ) ≤ q := by
    rw [hq]
    calc Real.exp (-τ) = Real.exp (-(8 * r.unit * M)) * (Real.exp (-(2 * lib.error)) * Real.exp (-(2 * lib.error)) * (Real.exp (-(2 * r.unit)) * Real.exp (-(2 * r.unit)))) := by
          rw [← Real.exp_add, ← Real.exp_add, ← Real.exp_add, ← Real.exp_add, hτ]
          congr 1
          ring
      _ ≤ _ := by gcongr
  have hq2 : q ≤ Real.exp τ := by
    rw [hq]
    calc _ ≤ Real.exp (8 * r.unit * M) * (Real.exp (2 * lib.error) * Real.exp (2 * lib.error) * (Real.exp (2 * r.unit) * Real.exp (2 * r.unit))) := by gcongr
      _ = Real.exp τ := by
          rw [← Real.exp_add, ← Real.exp_add, ← Real.exp_add, ← Real.exp_add, hτ]
          congr 1
          ring
  have := exp_near hq1 hq2 (by positivity) hsmall
  rw [e, show F * q - F = (q - 1) * F by ring, abs_mul]
  exact mul_le_mul_of_nonneg_right this (abs_nonneg _)

/-! ### Nothing rounded -/

theorem number_same (o : Outcome (Num ℝ)) : number o = QM.Forward.number o := by
  rcases o with e | (_ | x) <;> rfl

theorem log_same (hr : ∀ x, r.rnd x = x) {rate₀ borrow₀ : QM.Curves.RateCurve} (h1 : ∀ d, rate.rt r lib d = rate₀.rt d) (h2 : ∀ d, borrow.rt r lib d = borrow₀.rt d) (d : Int) :
    logDiscountWithBorrow r lib rate borrow d = QM.Forward.logDiscountWithBorrow rate₀ borrow₀ d := by
  unfold logDiscountWithBorrow QM.Forward.logDiscountWithBorrow
  simp only [h1, h2, hr, number_same]

theorem discount_same (hr : ∀ x, r.rnd x = x) (he : ∀ x, lib.exp x = Real.exp x) {rate₀ borrow₀ : QM.Curves.RateCurve} (h1 : ∀ d, rate.rt r lib d = rate₀.rt d)
    (h2 : ∀ d, borrow.rt r lib d = borrow₀.rt d) (b : ℝ) : discountWithBorrow r lib rate borrow b = QM.Forward.discountWithBorrow rate₀ borrow₀ b := by
  funext d
  unfold discountWithBorrow QM.Forward.discountWithBorrow
  simp only [log_same hr h1 h2, hr, he]

theorem loop_same (hr : ∀ x, r.rnd x = x) (to_ : Int) (X : ℝ) (df : Int → Outcome ℝ) : ∀ (l : List (Dividend ℝ)) (s : LoopState ℝ),
    bootstrapLoop r base to_ X df l s = QM.Dividends.bootstrapLoop base to_ X df l s
  | [], _ => rfl
  | d :: l, s => by
    have add : ∀ s, addDividend r X df d s = QM.Dividends.addDividend X df d s := by
      intro s
      unfold addDividend QM.Dividends.addDividend
      simp only [hr]
    rw [bootstrapLoop, QM.Dividends.bootstrapLoop]
    simp only [add, loop_same hr to_ X df l]

/-- C114, nothing rounded. With arithmetic that does not round and the exact exponential, the forwards are those of exact arithmetic, on curves that give the same rates. -/
theorem C114_exact (hr : ∀ x, r.rnd x = x) (he : ∀ x, lib.exp x = Real.exp x) {rate₀ borrow₀ yield₀ : QM.Curves.RateCurve} (h1 : ∀ d, rate.rt r lib d = rate₀.rt d)
    (h2 : ∀ d, borrow.rt r lib d = borrow₀.rt d) (h3 : ∀ d, divs.divYield.rt r lib d = yield₀.rt d) (hz : divs.divYield.isZero = yield₀.isZero)
    (hb : divs.divYield.baseDate = yield₀.baseDate) (d : Int) :
    (do let f ← EquityForward.new r lib base spot settle rate borrow divs hwm; f.forward r lib d) =
      (do let f ← QM.Forward.EquityForward.new base spot settle rate₀ borrow₀ ⟨divs.dividends, yield₀, divs.lastCash⟩ hwm; f.forward d) := by
  have hs : ∀ X, bootstrapStream r lib divs rate borrow X base hwm = QM.Forward.bootstrapStream ⟨divs.dividends, yield₀, divs.lastCash⟩ rate₀ borrow₀ X base hwm := by
    intro X
    unfold bootstrapStream QM.Forward.bootstrapStream QM.Dividends.Bootstrap.new QM.Forward.bootstrapDiscount
    dsimp only
    rw [hz, hb]
    cases divs.dividends.getLast? with
    | none => rfl
    | some last =>
      dsimp only
      split
      · rfl
      rw [log_same hr h1 h2]
      cases QM.Forward.logDiscountWithBorrow rate₀ borrow₀ base with
      | error e => rfl
      | ok L =>
        simp only [discount_same hr he h1 h2, loop_same hr, bind, Except.bind, pure, Except.pure]
  unfold EquityForward.new QM.Forward.EquityForward.new
  simp only [log_same hr h1 h2, discount_same hr he h1 h2, hs, hr, bind_assoc, pure_bind]
  unfold EquityForward.forward QM.Forward.EquityForward.forward
  simp only [log_same hr h1 h2, hr, he, h3, number_same]

/-! ### Whole amounts and no rates -/

theorem zero_curve (b d : Int) : (RateCurve.zero b).rt r lib d = .ok (.val 0) := by
  show Except.ok (Num.val (r.rnd (0 * 0))) = _
  rw [zero_mul, r.zero]

theorem zero_logs (b c d : Int) : logDiscountWithBorrow r lib (.zero b) (.zero c) d = .ok 0 := by
  rw [log_val (zero_curve b d) (zero_curve c d), sub_self, r.zero]

theorem zero_factors (b c : Int) : discountWithBorrow r lib (.zero b) (.zero c) 0 = fun _ => .ok 1 := by
  funext d
  unfold discountWithBorrow
  rw [bind_val (zero_logs b c d), sub_self, r.zero, lib.expZero]
  rfl

/-- A whole amount from nothing to `B`. -/
def Whole (B : Int) (x : ℝ) : Prop := ∃ k : Int, x = k ∧ 0 ≤ k ∧ k ≤ B

theorem Whole.float {B : Int} (hB : B ≤ 4294967296) {x : ℝ} (h : Whole B x) : r.rnd x = x := by
  obtain ⟨k, rfl, h0, h1⟩ := h
  exact r.int k (by rw [abs_of_nonneg h0]; norm_num; omega)

/-- So far whole amounts have been paid, and what is still to be paid keeps to the limit. -/
def WholeSoFar (B : Int) (l : List (Dividend ℝ)) (s : LoopState ℝ) : Prop :=
  (∃ k : Int, s.undiscountedSum = k ∧ s.discountedSum = k ∧ s.discountedCash = k ∧ 0 ≤ k ∧ (k : ℝ) + (l.map (·.cash)).sum ≤ B) ∧
    ∀ a ∈ s.accumulation, Whole B a.discountedSum

theorem cash_nonneg {l : List (Dividend ℝ)} (h : ∀ d ∈ l, (∃ n : Nat, d.cash = n) ∧ d.relative = 0) : 0 ≤ (l.map (·.cash)).sum := by
  refine List.sum_nonneg ?_
  intro x hx
  obtain ⟨d, hd, rfl⟩ := List.mem_map.1 hx
  obtain ⟨⟨n, hn⟩, _⟩ := h d hd
  rw [hn]
  exact Nat.cast_nonneg n

theorem loop_whole {B : Int} (hB : B ≤ 4294967296) {to_ : Int} {X : ℝ} : ∀ {l : List (Dividend ℝ)} {s : LoopState ℝ}, (∀ d ∈ l, (∃ n : Nat, d.cash = n) ∧ d.relative = 0) →
    WholeSoFar B l s → bootstrapLoop r base to_ X (fun _ => .ok 1) l s = QM.Dividends.bootstrapLoop base to_ X (fun _ => .ok 1) l s ∧
      ∀ t, bootstrapLoop r base to_ X (fun _ => .ok 1) l s = .ok t → WholeSoFar B [] t
  | [], s, _, hw => by
    refine ⟨rfl, fun t ht => ?_⟩
    cases ht
    exact hw
  | d :: l, s, hl, hw => by
    have hl' : ∀ e ∈ l, (∃ n : Nat, e.cash = n) ∧ e.relative = 0 := fun e he => hl e (List.mem_cons_of_mem _ he)
    obtain ⟨⟨n, hn⟩, hz⟩ := hl d List.mem_cons_self
    have hn0 := cash_nonneg hl'
    have last : WholeSoFar B [] s := by
      obtain ⟨⟨k, h1, h2, h3, h4, h5⟩, h6⟩ := hw
      refine ⟨⟨k, h1, h2, h3, h4, ?_⟩, h6⟩
      have := cash_nonneg hl
      simp only [List.map_nil, List.sum_nil]
      linarith
    have skip : WholeSoFar B l s := by
      obtain ⟨⟨k, h1, h2, h3, h4, h5⟩, h6⟩ := hw
      refine ⟨⟨k, h1, h2, h3, h4, ?_⟩, h6⟩
      rw [List.map_cons, List.sum_cons, hn] at h5
      have : (0 : ℝ) ≤ n := Nat.cast_nonneg n
      linarith
    rw [bootstrapLoop, QM.Dividends.bootstrapLoop]
    split
    · exact loop_whole hB hl' skip
    split
    · exact ⟨rfl, fun t ht => by cases ht⟩
    split
    · refine ⟨rfl, fun t ht => ?_⟩
      cases ht
      exact last
    set u := (if d.exDate > s.prevExDate then
          { s with accumulation := s.pushed, prevExDate := d.exDate, prevDiscountedSum := s.discountedSum }
        else s : LoopState ℝ) with hu
    have hwu : WholeSoFar B (d :: l) u := by
      rw [hu]
      split
      · obtain ⟨⟨k, h1, h2, h3, h4, h5⟩, h6⟩ := hw
        refine ⟨⟨k, h1, h2, h3, h4, h5⟩, ?_⟩
        intro a ha
        simp only [LoopState.pushed, List.mem_append, List.mem_singleton] at ha
        rcases ha with ha | rfl
        · exact h6 a ha
        · refine ⟨k, h2, h4, ?_⟩
          have := cash_nonneg hl
          exact_mod_cast (by linarith : (k : ℝ) ≤ B)
      · exact hw
    obtain ⟨⟨k, h1, h2, h3, h4, h5⟩, h6⟩ := hwu
    rw [List.map_cons, List.sum_cons, hn] at h5
    have hkn : Whole B ((k : ℝ) + n) := ⟨k + n, by push_cast; rfl, by omega, by exact_mod_cast (by linarith : (k : ℝ) + n ≤ B)⟩
    have hnn : Whole B (n : ℝ) := ⟨n, by simp, by omega, by
      have : (0 : ℝ) ≤ k := by exact_mod_cast h4
      exact_mod_cast (by linarith : (n : ℝ) ≤ B)⟩
    have e1 : addDividend r X (fun _ => .ok 1) d u = .ok { u with undiscountedSum := (k : ℝ) + n, discountedSum := (k : ℝ) + n, discountedCash := (k : ℝ) + n } := by
      unfold addDividend
      simp only [hz, hn, h1, h2, h3, mul_one, hnn.float hB, hkn.float hB, ne_eq, not_true_eq_false, if_false, bind, Except.bind, pure, Except.pure]
    have e2 : QM.Dividends.addDividend X (fun _ => .ok 1) d u = .ok { u with undiscountedSum := (k : ℝ) + n, discountedSum := (k : ℝ) + n, discountedCash := (k : ℝ) + n } := by
      unfold QM.Dividends.addDividend
      simp only [hz, hn, h1, h2, h3, mul_one, ne_eq, not_true_eq_false, if_false, bind, Except.bind, pure, Except.pure]
    show (addDividend r X (fun _ => .ok 1) d u >>= _) = (QM.Dividends.addDividend X (fun _ => .ok 1) d u >>= _) ∧ ∀ t, (addDividend r X (fun _ => .ok 1) d u >>= _) = .ok t → _
    rw [e1, e2]
    refine loop_whole hB hl' ⟨⟨k + n, by push_cast; rfl, by push_cast; rfl, by push_cast; rfl, by omega, ?_⟩, h6⟩
    push_cast
    linarith

/-- C114, whole amounts. Without rates, and with a spot and cash dividends that are whole amounts (of at most `2 ^ 32` together), rounding does nothing: the forward to every date is that of exact
arithmetic, or fails as it does. -/
theorem C114_whole {n : Nat} {b c e : Int} (hl : ∀ d ∈ divs.dividends, (∃ m : Nat, d.cash = m) ∧ d.relative = 0) (hy : divs.divYield = .zero e)
    (hs : (n : ℝ) + (divs.dividends.map (·.cash)).sum ≤ 4294967296) (d : Int) :
    (do let f ← EquityForward.new r lib base n settle (.zero b) (.zero c) divs hwm; f.forward r lib d) =
      (do let f ← QM.Forward.EquityForward.new base n settle (.zero b) (.zero c) ⟨divs.dividends, .zero e, divs.lastCash⟩ hwm; f.forward d) := by
  have hn0 : (0 : ℝ) ≤ n := Nat.cast_nonneg n
  have hc0 := cash_nonneg hl
  have xlog : ∀ d, QM.Forward.logDiscountWithBorrow (.zero b) (.zero c) d = .ok 0 := by
    intro d
    simp [QM.Forward.logDiscountWithBorrow, QM.Curves.RateCurve.rt, QM.Curves.RateCurve.rAndT, QM.Forward.number, bind, Except.bind, pure, Except.pure, QM.Curves.onNum]
  have xdf : QM.Forward.discountWithBorrow (.zero b) (.zero c) 0 = fun _ => .ok 1 := by
    funext d
    unfold QM.Forward.discountWithBorrow
    rw [bind_val (xlog d), sub_self, Real.exp_zero]
    rfl
  have xy : ∀ d, QM.Forward.number ((QM.Curves.RateCurve.zero e).rt d) = .ok 0 := by
    intro d
    simp [QM.Curves.RateCurve.rt, QM.Curves.RateCurve.rAndT, QM.Forward.number, bind, Except.bind, pure, Except.pure, QM.Curves.onNum]
  have hB : (4294967296 : Int) ≤ 4294967296 := le_rfl
  have hn : Whole 4294967296 (n : ℝ) := ⟨n, by simp, by omega, by exact_mod_cast (by linarith : (n : ℝ) ≤ 4294967296)⟩
  obtain ⟨s1, s2⟩ := loop_whole (r := r) (base := base) (to_ := max hwm divs.lastCash) (X := (n : ℝ)) (B := 4294967296) hB hl (s := ⟨base, 0, 0, 0, 0, []⟩)
    ⟨⟨0, by simp, by simp, by simp, le_rfl, by push_cast; linarith⟩, by simp⟩
  have hb : bootstrapStream r lib divs (.zero b) (.zero c) n base hwm = QM.Forward.bootstrapStream ⟨divs.dividends, .zero e, divs.lastCash⟩ (.zero b) (.zero c) n base hwm ∧
      ∀ t, bootstrapStream r lib divs (.zero b) (.zero c) n base hwm = .ok t → ∀ a ∈ t.accumulation, Whole 4294967296 a.discountedSum := by
    unfold bootstrapStream QM.Forward.bootstrapStream QM.Dividends.Bootstrap.new QM.Forward.bootstrapDiscount
    rw [hy]
    dsimp only
    cases divs.dividends.getLast? with
    | none =>
      refine ⟨rfl, fun t ht => ?_⟩
      cases ht
      simp
    | some last =>
      simp only [RateCurve.isZero, QM.Curves.RateCurve.isZero, Bool.not_true, Bool.false_eq_true, false_and, if_false]
      rw [zero_logs, xlog]
      show (bootstrapLoop r base _ (n : ℝ) (discountWithBorrow r lib (.zero b) (.zero c) 0) divs.dividends _ >>= _) =
        (QM.Dividends.bootstrapLoop base _ (n : ℝ) (QM.Forward.discountWithBorrow (.zero b) (.zero c) 0) divs.dividends _ >>= _) ∧
          ∀ t, (bootstrapLoop r base _ (n : ℝ) (discountWithBorrow r lib (.zero b) (.zero c) 0) divs.dividends _ >>= _) = .ok t → _
      rw [zero_factors, xdf, s1]
      refine ⟨rfl, fun t ht => ?_⟩
      obtain ⟨s, hs', ht⟩ := bind_inv ht
      rw [← s1] at hs'
      obtain ⟨⟨k, h1, h2, h3, h4, h5⟩, h6⟩ := s2 s hs'
      cases ht
      have push : ∀ a ∈ s.pushed, Whole 4294967296 a.discountedSum := by
        intro a ha
        simp only [LoopState.pushed, List.mem_append, List.mem_singleton] at ha
        rcases ha with ha | rfl
        · exact h6 a ha
        · refine ⟨k, h2, h4, ?_⟩
          simp only [List.map_nil, List.sum_nil, add_zero] at h5
          exact_mod_cast h5
      have fill : ∀ l : List (Accumulation ℝ), (∀ a ∈ l, Whole 4294967296 a.discountedSum) → ∀ a ∈ QM.Dividends.fillRemaining l, Whole 4294967296 a.discountedSum := by
        intro l hl a ha
        unfold QM.Dividends.fillRemaining at ha
        split at ha
        · exact hl a ha
        · obtain ⟨x, hx, rfl⟩ := List.mem_map.1 ha
          exact hl x hx
      dsimp only
      refine fill _ ?_
      split
      · exact push
      · exact h6
  unfold EquityForward.new QM.Forward.EquityForward.new
  rw [bind_val (zero_logs b c base), bind_val (xlog base)]
  dsimp only
  rw [bind_val (congrFun (zero_factors (r := r) (lib := lib) b c) _), bind_val (congrFun xdf _), mul_one, hn.float hB, ← hb.1]
  cases hq : bootstrapStream r lib divs (.zero b) (.zero c) n base hwm with
  | error e => rfl
  | ok B =>
    have hw := hb.2 B hq
    show EquityForward.forward r lib ⟨settle, .zero b, .zero c, divs.divYield, B, n, 0⟩ d = QM.Forward.EquityForward.forward ⟨settle, .zero b, .zero c, .zero e, B, n, 0⟩ d
    unfold EquityForward.forward QM.Forward.EquityForward.forward
    dsimp only
    cases ht : B.discountedSumFromBase d with
    | error e => rfl
    | ok t =>
      have hwt : Whole 4294967296 t := by
        unfold Bootstrap.discountedSumFromBase QM.Dividends.sumFromBase at ht
        have zero : Whole 4294967296 (0 : ℝ) := ⟨0, by simp, le_rfl, by norm_num⟩
        have get : ∀ i : Nat, Whole 4294967296 ((B.accumulation[i]?.map (fun a => a.discountedSum)).getD 0) := by
          intro i
          cases hi : B.accumulation[i]? with
          | none => exact zero
          | some a => exact hw a (List.mem_of_getElem? hi)
        split at ht
        · cases ht
        dsimp only at ht
        split at ht
        · cases ht
          exact get _
        split at ht
        · cases ht
          exact zero
        · cases ht
          exact get _
      have hsub : r.rnd ((n : ℝ) - t) = n - t := by
        obtain ⟨k, rfl, h0, h1⟩ := hwt
        obtain ⟨m, hm, h2, h3⟩ := hn
        rw [hm, ← Int.cast_sub]
        exact r.int _ (by rw [abs_le]; constructor <;> norm_num <;> omega)
      rw [hy]
      rw [bind_val (rfl : (Except.ok t : Outcome ℝ) = .ok t), bind_val (rfl : (Except.ok t : Outcome ℝ) = .ok t), bind_val (zero_logs b c _), bind_val (xlog _), bind_val (xy _), zero_curve]
      show Except.ok (r.rnd (r.rnd ((n : ℝ) - t) * lib.exp (r.rnd (r.rnd (0 + 0) - 0)))) = Except.ok (((n : ℝ) - t) * Real.exp (0 + 0 - 0))
      rw [hsub, add_zero, r.zero, sub_zero, r.zero, lib.expZero, Real.exp_zero, mul_one, hsub]

/-! ### A share that pays two dividends -/

theorem zero_rt (b d : Int) : (RateCurve.zero b).rt reals correct d = .ok (.val 0) := by
  show Except.ok (Num.val (reals.rnd (0 * 0))) = _
  rw [zero_mul, reals.zero]

/-- Curves with no rates. -/
theorem zero_log (b d : Int) : logDiscountWithBorrow reals correct (.zero b) (.zero b) d = .ok 0 := by
  have := log_val (r := reals) (lib := correct) (rate := .zero b) (borrow := .zero b) (d := d) (x := 0) (y := 0) (zero_rt b d) (zero_rt b d)
  rw [this, sub_self, reals.zero]

theorem reals_hundred : reals.rnd 100 = 100 := by
  have := reals.int 100 (by norm_num)
  simpa using this

/-- A share at a hundred that pays three on one day and two more on a later one, on which trades settle two days later. -/
noncomputable def payer : DividendStream := ⟨[⟨3, 0, 10, 12⟩, ⟨2, 0, 40, 45⟩], .zero 0, 40⟩

example : payer.lastCash = QM.Dividends.lastCashExDate payer.dividends := by
  simp [payer, QM.Dividends.lastCashExDate]

theorem zero_discount (b d : Int) : discountWithBorrow reals correct (.zero b) (.zero b) 0 d = .ok 1 := by
  unfold discountWithBorrow
  rw [bind_val (zero_log b d), sub_self, reals.zero, correct.expZero]
  rfl

theorem payer_forwards : ∃ f, EquityForward.new reals correct 0 100 (fun d => d + 2) (.zero 0) (.zero 0) payer 100 = .ok f ∧ f.forward reals correct 5 = .ok 100 ∧
    f.forward reals correct 20 = .ok 97 ∧ f.forward reals correct 50 = .ok 95 := by
  have i : ∀ n : Int, |n| ≤ 100 → reals.rnd (n : ℝ) = n := fun n hn => reals.int n (by
    have : |n| ≤ 4294967296 := by omega
    simpa using this)
  have i2 : reals.rnd 2 = 2 := by simpa using i 2 (by norm_num)
  have i3 : reals.rnd 3 = 3 := by simpa using i 3 (by norm_num)
  have i5 : reals.rnd 5 = 5 := by simpa using i 5 (by norm_num)
  have i95 : reals.rnd 95 = 95 := by simpa using i 95 (by norm_num)
  have i97 : reals.rnd 97 = 97 := by simpa using i 97 (by norm_num)
  have hb : bootstrapStream reals correct payer (.zero 0) (.zero 0) 100 0 100 = .ok ⟨0, 100, [⟨0, 0, 0, 0, .nan⟩, ⟨10, 3, 3, 3, .nan⟩, ⟨40, 5, 5, 5, .nan⟩]⟩ := by
    unfold bootstrapStream payer
    simp [RateCurve.isZero, zero_log, bind, Except.bind, pure, Except.pure, bootstrapLoop, addDividend, zero_discount, LoopState.pushed, QM.Dividends.fillRemaining, i2, i3]
    norm_num [i5]
  have hn : EquityForward.new reals correct 0 100 (fun d => d + 2) (.zero 0) (.zero 0) payer 100 =
      .ok ⟨fun d => d + 2, .zero 0, .zero 0, .zero 0, ⟨0, 100, [⟨0, 0, 0, 0, .nan⟩, ⟨10, 3, 3, 3, .nan⟩, ⟨40, 5, 5, 5, .nan⟩]⟩, 100, 0⟩ := by
    unfold EquityForward.new
    rw [bind_val (zero_log 0 0)]
    dsimp only
    rw [bind_val (zero_discount 0 _), mul_one, reals_hundred, bind_val hb]
    rfl
  have hf : ∀ (d : Int) (s x : ℝ), QM.Dividends.Bootstrap.discountedSumFromBase (⟨0, 100, [⟨0, 0, 0, 0, .nan⟩, ⟨10, 3, 3, 3, .nan⟩, ⟨40, 5, 5, 5, .nan⟩]⟩ : Bootstrap ℝ) d = .ok s →
      reals.rnd (100 - s) = x → EquityForward.forward reals correct ⟨fun d => d + 2, .zero 0, .zero 0, .zero 0, ⟨0, 100, [⟨0, 0, 0, 0, .nan⟩, ⟨10, 3, 3, 3, .nan⟩, ⟨40, 5, 5, 5, .nan⟩]⟩, 100, 0⟩ d = .ok x := by
    intro d s x h1 h2
    unfold EquityForward.forward
    rw [bind_val h1]
    dsimp only
    rw [bind_val (zero_log 0 _), zero_rt]
    show Except.ok (reals.rnd (reals.rnd (100 - s) * correct.exp (reals.rnd (reals.rnd (0 + 0) - 0)))) = _
    rw [add_zero, reals.zero, sub_zero, reals.zero, correct.expZero, mul_one, reals.idem, h2]
  refine ⟨_, hn, hf 5 0 100 ?_ (by rw [sub_zero, reals_hundred]), hf 20 3 97 ?_ (by norm_num [i97]), hf 50 5 95 ?_ (by norm_num [i95])⟩ <;>
    norm_num [QM.Dividends.Bootstrap.discountedSumFromBase, QM.Dividends.sumFromBase, QM.Dividends.searchAcc, List.takeWhile_cons]

/-- A spot of a hundred is a float, so that the theorem about today applies to a share that settles at once. -/
example : reals.IsFloat 100 ∧ (∀ d ∈ payer.dividends, d.exDate ≠ 0) ∧ payer.divYield.rt reals correct 0 = .ok (.val 0) := by
  refine ⟨reals_hundred, ?_, zero_rt 0 0⟩
  intro d hd
  simp only [payer, List.mem_cons, List.not_mem_nil, or_false] at hd
  rcases hd with rfl | rfl <;> norm_num

/-- Lower dividends on the same dates. -/
example : List.Forall₂ PaysLess [⟨2, 0, 10, 12⟩, ⟨2, 0, 40, 45⟩] payer.dividends :=
  .cons ⟨rfl, rfl, by norm_num, rfl, rfl⟩ (.cons ⟨rfl, rfl, le_rfl, rfl, rfl⟩ .nil)

/-- The bound on the error for carries of at most one half is met. -/
example : reals.unit ≤ 1 / 2 ∧ 8 * reals.unit * (1 / 2) + 4 * correct.error + 4 * reals.unit ≤ 1 := by
  have hk : correct.error = (1 / 2) ^ 53 := rfl
  rw [hk, reals_unit]
  norm_num

/-- Whole amounts. -/
example : (∀ d ∈ payer.dividends, (∃ m : Nat, d.cash = m) ∧ d.relative = 0) ∧ ((100 : Nat) : ℝ) + (payer.dividends.map (·.cash)).sum ≤ 4294967296 := by
  constructor
  · intro d hd
    simp only [payer, List.mem_cons, List.not_mem_nil, or_false] at hd
    rcases hd with rfl | rfl
    · exact ⟨⟨3, by norm_num⟩, rfl⟩
    · exact ⟨⟨2, by norm_num⟩, rfl⟩
  · norm_num [payer]

end QM.Rounded
