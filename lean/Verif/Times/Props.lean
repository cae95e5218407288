import Verif.Times.Model
import Verif.Rounded.Props
import Verif.Rounded.InterpLemmas

/-!
# Property C81: the order of moments in time
-/

namespace QM.Times.Spec
open QM.Fixings (TimeOfDay DateTime)

/-- Where in the day a time of day comes. -/
def place : TimeOfDay → Int
  | .open => 0
  | .edsp => 1
  | .close => 2

/-- The number of a moment, counting three moments a day. -/
def moment (a : DateTime) : Int := 3 * a.date + place a.timeOfDay

/-- How two numbers compare. -/
def order {A : Type} [LinearOrder A] (a b : A) : Ordering := if a < b then .lt else if b < a then .gt else .eq

end QM.Times.Spec

namespace QM.Times
open QM.Fixings (TimeOfDay DateTime)
open QM.Interp (Num)
open QM.Rounded (Rounding dateDiff dateDiff_pos dateDiff_nonpos f64)
open Spec

theorem compare_int (a b : Int) : compare a b = order a b := by
  unfold order
  by_cases h : a < b
  · rw [if_pos h]; exact compare_lt_iff_lt.2 h
  · rw [if_neg h]
    by_cases h2 : b < a
    · rw [if_pos h2]; exact compare_gt_iff_gt.2 h2
    · rw [if_neg h2]; exact compare_eq_iff_eq.2 (by omega)

theorem order_lt {A : Type} [LinearOrder A] {a b : A} (h : a < b) : order a b = .lt := if_pos h

theorem order_gt {A : Type} [LinearOrder A] {a b : A} (h : b < a) : order a b = .gt := by
  unfold order; rw [if_neg (not_lt.2 h.le), if_pos h]

theorem order_eq {A : Type} [LinearOrder A] {a b : A} (h : a = b) : order a b = .eq := by
  unfold order; rw [h]; simp

/-- C81, times of day. Fixing times are ordered as the moments they stand for: by date, and in a day the open comes before
the settlement price and that before the close. -/
theorem C81_datetime (a b : DateTime) : DateTime.cmp a b = order (moment a) (moment b) := by
  obtain ⟨d, t⟩ := a
  obtain ⟨e, s⟩ := b
  have ht : 0 ≤ place t ∧ place t ≤ 2 := by cases t <;> simp [place]
  have hs : 0 ≤ place s ∧ place s ≤ 2 := by cases s <;> simp [place]
  unfold DateTime.cmp
  rw [compare_int]
  rcases lt_trichotomy d e with h | h | h
  · rw [order_lt (show (⟨d, t⟩ : DateTime).date < (⟨e, s⟩ : DateTime).date from h), order_lt]
    unfold moment; dsimp only; omega
  · subst h
    rw [order_eq (show (⟨d, t⟩ : DateTime).date = (⟨d, s⟩ : DateTime).date from rfl)]
    cases t <;> cases s <;> simp [place, TimeOfDay.cmp, order, moment]
  · rw [order_gt (show (⟨e, s⟩ : DateTime).date < (⟨d, t⟩ : DateTime).date from h), order_gt]
    unfold moment; dsimp only; omega

/-- C81, times of day. Moments that compare equal are the same. -/
theorem C81_datetime_eq (a b : DateTime) : DateTime.cmp a b = .eq ↔ a = b := by
  rw [C81_datetime]
  obtain ⟨d, t⟩ := a
  obtain ⟨e, s⟩ := b
  constructor
  · intro h
    have h1 : 3 * d + place t = 3 * e + place s := by
      rcases lt_trichotomy (3 * d + place t) (3 * e + place s) with h' | h' | h'
      · rw [show order (moment ⟨d, t⟩) (moment ⟨e, s⟩) = .lt from order_lt h'] at h; simp at h
      · exact h'
      · rw [show order (moment ⟨d, t⟩) (moment ⟨e, s⟩) = .gt from order_gt h'] at h; simp at h
    cases t <;> cases s <;> simp only [place] at h1 <;> first
      | (exfalso; omega)
      | (have : d = e := by omega
         rw [this])
  · rintro h
    rw [h]
    exact order_eq rfl

/-- C81, times of day. Adding days moves a moment by three moments a day, so it keeps the order. -/
theorem C81_datetime_add (a b : DateTime) (n : Int) : moment (DateTime.add a n) = moment a + 3 * n
    ∧ DateTime.cmp (DateTime.add a n) (DateTime.add b n) = DateTime.cmp a b := by
  have h : ∀ c : DateTime, moment (DateTime.add c n) = moment c + 3 * n := by
    intro c; unfold moment DateTime.add; dsimp only; ring
  refine ⟨h a, ?_⟩
  rw [C81_datetime, C81_datetime, h, h]
  rcases lt_trichotomy (moment a) (moment b) with h' | h' | h'
  · rw [order_lt h', order_lt (by omega)]
  · rw [order_eq h', order_eq (by omega)]
  · rw [order_gt h', order_gt (by omega)]

variable {K : Type} [Field K] [LinearOrder K] [IsStrictOrderedRing K]

omit [IsStrictOrderedRing K] in
/-- C81, day fractions. The constructor accepts exactly the numbers from zero up to, but not including, one. Anything else,
NaN included, panics. -/
theorem C81_new (date : Int) (f : Num K) (a : DateDayFraction K) :
    (DateDayFraction.new date f = .ok a ↔ ∃ x, f = .val x ∧ 0 ≤ x ∧ x < 1 ∧ a = ⟨date, f⟩) ∧
    (DateDayFraction.new date f = .error .panic ↔ ¬ ∃ x, f = .val x ∧ 0 ≤ x ∧ x < 1) := by
  cases f with
  | nan => simp [DateDayFraction.new]
  | val x =>
    unfold DateDayFraction.new
    dsimp only
    by_cases h : x ≥ 0 ∧ x < 1
    · rw [if_pos h]
      refine ⟨⟨fun e => ⟨x, rfl, h.1, h.2, (Except.ok.inj e).symm⟩, fun ⟨_, _, _, _, e⟩ => by rw [e]⟩, ?_⟩
      simp only [reduceCtorEq, false_iff, not_not]
      exact ⟨x, rfl, h⟩
    · rw [if_neg h]
      refine ⟨⟨fun e => by simp at e, ?_⟩, ⟨fun _ => ?_, fun _ => rfl⟩⟩
      · rintro ⟨y, e, h0, h1, _⟩
        cases Num.val.inj e
        exact absurd ⟨h0, h1⟩ h
      · rintro ⟨y, e, h0, h1⟩
        cases Num.val.inj e
        exact h ⟨h0, h1⟩

omit [IsStrictOrderedRing K] in
theorem made {d : Int} {x : K} {a : DateDayFraction K} (h : DateDayFraction.new d (.val x) = .ok a) :
    a = ⟨d, .val x⟩ ∧ 0 ≤ x ∧ x < 1 := by
  obtain ⟨y, e, h0, h1, ha⟩ := (C81_new _ _ _).1.1 h
  cases Num.val.inj e
  exact ⟨ha, h0, h1⟩

/-- C81, day fractions. Two moments made by the constructor compare as the times they stand for, the date plus the fraction
of the day; the comparison does not panic. -/
theorem C81_order {d e : Int} {x y : K} {a b : DateDayFraction K} (ha : DateDayFraction.new d (.val x) = .ok a)
    (hb : DateDayFraction.new e (.val y) = .ok b) : a.cmp b = .ok (order ((d : K) + x) ((e : K) + y)) := by
  obtain ⟨rfl, hx0, hx1⟩ := made ha
  obtain ⟨rfl, hy0, hy1⟩ := made hb
  unfold DateDayFraction.cmp DateDayFraction.partialCmp
  dsimp only
  rw [compare_int]
  unfold order
  rcases lt_trichotomy d e with h | h | h
  · have : (d : K) + 1 ≤ e := by exact_mod_cast h
    rw [if_pos h, if_pos (by linarith)]
  · subst h
    simp [partialCmp]
  · have : (e : K) + 1 ≤ d := by exact_mod_cast h
    rw [if_neg (by omega), if_pos h, if_neg (by linarith), if_pos (by linarith)]

/-- C81, day fractions. Whatever the rounding, the distance from one moment made by the constructor to another is a number
with the right sign: positive exactly if the other is later, zero exactly if they are the same, negative exactly if it is
earlier. -/
theorem C81_diff (r : Rounding K) {d e : Int} {x y : K} {a b : DateDayFraction K} (hx : r.IsFloat x) (hy : r.IsFloat y)
    (ha : DateDayFraction.new d (.val x) = .ok a) (hb : DateDayFraction.new e (.val y) = .ok b) :
    ∃ v, a.interpDiff r b = .val v ∧ order 0 v = order ((d : K) + x) ((e : K) + y) := by
  obtain ⟨rfl, hx0, hx1⟩ := made ha
  obtain ⟨rfl, hy0, hy1⟩ := made hb
  refine ⟨_, rfl, ?_⟩
  dsimp only
  have hneg : ∀ z : K, z < 0 → r.rnd z < 0 := by
    intro z hz
    have := r.pos (x := -z) (by linarith)
    rw [r.neg] at this
    linarith
  unfold order
  rcases lt_trichotomy d e with h | h | h
  · have h1 : (d : K) + 1 ≤ e := by exact_mod_cast h
    have h2 := dateDiff_pos r h
    have h3 : 1 ≤ r.rnd (dateDiff r d e + y) := by
      have := r.mono 1 (dateDiff r d e + y) (by linarith)
      rwa [r.one] at this
    rw [if_pos (r.pos (by linarith)), if_pos (by linarith)]
  · subst h
    have h0 : dateDiff r d d = 0 := by unfold dateDiff; rw [sub_self, Int.cast_zero, r.zero]
    rw [h0, zero_add, hy]
    rcases lt_trichotomy x y with h | h | h
    · rw [if_pos (r.pos (by linarith)), if_pos (by linarith)]
    · subst h
      rw [sub_self, r.zero]
      simp
    · have := hneg (y - x) (by linarith)
      rw [if_neg (by linarith), if_pos this, if_neg (by linarith), if_pos (by linarith)]
  · have h1 : (e : K) + 1 ≤ d := by exact_mod_cast h
    have h2 : dateDiff r d e ≤ -1 := by
      have := r.mono ((e - d : Int) : K) ((-1 : Int) : K) (by exact_mod_cast (by omega : e - d ≤ -1))
      rw [r.int (-1) (by norm_num)] at this
      simpa [dateDiff] using this
    have h3 : r.rnd (dateDiff r d e + y) < 0 := hneg _ (by linarith)
    have h4 := hneg (r.rnd (dateDiff r d e + y) - x) (by linarith)
    rw [if_neg (by linarith), if_pos h4, if_neg (by linarith), if_pos (by linarith)]

/-- C81, day fractions. Adding days, in either way, moves a moment made by the constructor by that many days; two moments
moved alike compare as before. -/
theorem C81_add {d e n : Int} {x y : K} {a b : DateDayFraction K} (ha : DateDayFraction.new d (.val x) = .ok a)
    (hb : DateDayFraction.new e (.val y) = .ok b) :
    a.add n = .ok (a.addAssign n) ∧ DateDayFraction.new (d + n) (.val x) = .ok (a.addAssign n)
      ∧ (a.addAssign n).cmp (b.addAssign n) = a.cmp b := by
  obtain ⟨rfl, hx0, hx1⟩ := made ha
  obtain ⟨rfl, hy0, hy1⟩ := made hb
  have h1 : ∀ (k : Int) (z : K), 0 ≤ z → z < 1 → DateDayFraction.new k (.val z) = .ok ⟨k, .val z⟩ := by
    intro k z h0 h1
    exact (C81_new _ _ _).1.2 ⟨z, rfl, h0, h1, rfl⟩
  refine ⟨h1 _ _ hx0 hx1, h1 _ _ hx0 hx1, ?_⟩
  rw [C81_order ha hb]
  refine (C81_order (h1 (d + n) _ hx0 hx1) (h1 (e + n) _ hy0 hy1)).trans ?_
  unfold order
  push_cast
  congr 1
  split_ifs <;> first | rfl | (exfalso; linarith)

/-- C81 fails for moments that were loaded: nothing checks the fraction of the day then. Day 0 and a fraction of one and a
half comes after day 1 and a quarter, and the distance says so, but it compares as earlier. Moving it by a day with `+`
panics, although `+=` does not. -/
theorem C81_loaded_false (r : Rounding ℚ) (hr3 : r.IsFloat (5 / 4)) :
    let a : DateDayFraction ℚ := ⟨0, .val (3 / 2)⟩
    let b : DateDayFraction ℚ := ⟨1, .val (1 / 4)⟩
    a.cmp b = .ok .lt ∧ (∃ v, a.interpDiff r b = .val v ∧ v < 0) ∧ a.add 1 = .error .panic
      ∧ a.addAssign 1 = ⟨1, .val (3 / 2)⟩ := by
  refine ⟨by decide, ⟨_, rfl, ?_⟩, ?_, rfl⟩
  · dsimp only
    have : dateDiff r 0 1 = 1 := by unfold dateDiff; simpa using r.int 1 (by norm_num)
    rw [this, show (1 : ℚ) + 1 / 4 = 5 / 4 by norm_num, hr3]
    have := r.pos (x := 1 / 4) (by norm_num)
    rw [show (5 / 4 : ℚ) - 3 / 2 = -(1 / 4) by norm_num, r.neg]
    linarith
  · unfold DateDayFraction.add DateDayFraction.new
    norm_num

/-- The fractions of `C81_loaded_false` are `f64`, and the hypotheses of `C81_diff` are met by a quarter and a half. -/
example : f64.IsFloat (1 / 4) ∧ f64.IsFloat (3 / 2) ∧ f64.IsFloat (5 / 4) ∧ f64.IsFloat (1 / 2)
    ∧ DateDayFraction.new 17 (.val (1 / 4 : ℚ)) = .ok ⟨17, .val (1 / 4)⟩
    ∧ DateDayFraction.new 16 (.val (1 / 2 : ℚ)) = .ok ⟨16, .val (1 / 2)⟩ := by
  have h : ∀ m : ℤ, |m| ≤ 2 ^ 53 → f64.IsFloat ((m : ℚ) * 2 ^ (-2 : ℤ)) := fun m hm =>
    QM.Rounded.toBits_exact (K := ℚ) (p := 53) (by norm_num) m (-2) hm
  refine ⟨?_, ?_, ?_, ?_, by norm_num [DateDayFraction.new], by norm_num [DateDayFraction.new]⟩
  · have := h 1 (by norm_num); norm_num at this; simpa using this
  · have := h 6 (by norm_num); norm_num at this; exact this
  · have := h 5 (by norm_num); norm_num at this; exact this
  · have := h 2 (by norm_num); norm_num at this; simpa using this

/-- The two orders on examples: a Friday's close is before the Saturday's open. -/
example : DateTime.cmp ⟨5, .close⟩ ⟨6, .open⟩ = .lt ∧ DateTime.cmp ⟨5, .edsp⟩ ⟨5, .open⟩ = .gt := by decide

end QM.Times
