import Verif.Calendar.Spec
import Mathlib.Tactic.Ring
import Mathlib.Tactic.Linarith
import Mathlib.Tactic.Push

/-!
# Helper lemmas for calendars

Everything is expressed through a running count `B` of business days, with
`B d = B (d-1) + [d is a business day]`.
-/

namespace QM.Calendar
open QM.Dates Spec

/-- `B` counts business days. -/
def Counts (biz : Int → Prop) [DecidablePred biz] (B : Int → Int) : Prop :=
  ∀ d, B d = B (d - 1) + if biz d then 1 else 0

section Abstract
variable {biz : Int → Prop} [DecidablePred biz] {B : Int → Int} (hB : Counts biz B)
include hB

theorem B_mono_nat (a : Int) (k : Nat) : B a ≤ B (a + k) := by
  induction k with
  | zero => simp
  | succ k ih =>
    have := hB (a + (k + 1 : Nat))
    have e : a + ((k + 1 : Nat) : Int) - 1 = a + k := by omega
    rw [e] at this
    split at this <;> omega

theorem B_mono {a b : Int} (h : a ≤ b) : B a ≤ B b := by
  have := B_mono_nat hB a (b - a).toNat
  have e : a + ((b - a).toNat : Int) = b := by omega
  rwa [e] at this

theorem B_lt {a b : Int} (h : a < b) (hb : biz b) : B a < B b := by
  have h1 := B_mono hB (a := a) (b := b - 1) (by omega)
  have := hB b
  rw [if_pos hb] at this
  omega

theorem B_eq_imp {a b : Int} (h : B a = B b) : ∀ x, a < x → x ≤ b → ¬ biz x := by
  intro x h1 h2 hx
  have := B_lt hB h1 hx
  have := B_mono hB h2
  omega

theorem B_eq_of_none {a : Int} (k : Nat) (h : ∀ x, a < x → x ≤ a + k → ¬ biz x) : B (a + k) = B a := by
  induction k with
  | zero => simp
  | succ k ih =>
    have := hB (a + (k + 1 : Nat))
    have e : a + ((k + 1 : Nat) : Int) - 1 = a + k := by omega
    rw [e, if_neg (h _ (by omega) (by omega)), ih (fun x h1 h2 => h x h1 (by omega))] at this
    omega

theorem B_eq_of_none' {a b : Int} (hab : a ≤ b) (h : ∀ x, a < x → x ≤ b → ¬ biz x) : B b = B a := by
  have e : b = a + ((b - a).toNat : Int) := by omega
  rw [e]
  exact B_eq_of_none hB _ (fun x h1 h2 => h x h1 (by omega))

/-- Single forward move in terms of the count. -/
theorem isNext_fwd_iff {a b : Int} : IsNext biz true a b ↔ a ≤ b ∧ biz b ∧ B b = B a + 1 := by
  unfold IsNext
  simp only [if_true]
  constructor
  · rintro ⟨hb, h1, h2⟩
    have e := B_eq_of_none' hB (a := a) (b := b - 1) (by omega) (fun x x1 x2 => h2 x x1 (by omega))
    have := hB b
    rw [if_pos hb] at this
    exact ⟨by omega, hb, by omega⟩
  · rintro ⟨h1, hb, h2⟩
    have hne : a ≠ b := by rintro rfl; omega
    have := hB b
    rw [if_pos hb] at this
    have e : B a = B (b - 1) := by omega
    exact ⟨hb, by omega, fun x x1 x2 => B_eq_imp hB e x x1 (by omega)⟩

/-- Single backward move in terms of the count, from a business day. -/
theorem isNext_bwd_iff {a b : Int} (ha : biz a) :
    IsNext biz false a b ↔ b ≤ a ∧ biz b ∧ B a = B b + 1 := by
  unfold IsNext
  simp only [Bool.false_eq_true, if_false]
  have hBa := hB a
  rw [if_pos ha] at hBa
  constructor
  · rintro ⟨hb, h1, h2⟩
    have e := B_eq_of_none' hB (a := b) (b := a - 1) (by omega) (fun x x1 x2 => h2 x x1 (by omega))
    exact ⟨by omega, hb, by omega⟩
  · rintro ⟨h1, hb, h2⟩
    have hne : a ≠ b := by rintro rfl; omega
    have e : B b = B (a - 1) := by omega
    exact ⟨hb, by omega, fun x x1 x2 => B_eq_imp hB e x x1 (by omega)⟩

/-- There is a business day at every intermediate count. -/
theorem exists_at_count {a : Int} (k : Nat) : ∀ v, B a < v → v ≤ B (a + k) → ∃ b, a ≤ b ∧ b ≤ a + k ∧ biz b ∧ B b = v := by
  induction k with
  | zero => intro v h1 h2; simp at h2; omega
  | succ k ih =>
    intro v h1 h2
    have := hB (a + (k + 1 : Nat))
    have e : a + ((k + 1 : Nat) : Int) - 1 = a + k := by omega
    rw [e] at this
    by_cases hv : v ≤ B (a + k)
    · obtain ⟨b, b1, b2, b3, b4⟩ := ih v h1 hv
      exact ⟨b, b1, by omega, b3, b4⟩
    · split at this
      · rename_i hbz
        exact ⟨a + (k + 1 : Nat), by omega, by omega, hbz, by omega⟩
      · omega

theorem exists_at_count' {a c : Int} (hac : a ≤ c) (v : Int) (h1 : B a < v) (h2 : v ≤ B c) :
    ∃ b, a ≤ b ∧ b ≤ c ∧ biz b ∧ B b = v := by
  have e : c = a + ((c - a).toNat : Int) := by omega
  rw [e] at h2 ⊢
  exact exists_at_count hB _ v h1 h2

theorem moves_fwd_iff {a : Int} (ha : biz a) (n : Nat) (c : Int) :
    Moves biz true n a c ↔ a ≤ c ∧ biz c ∧ B c = B a + n := by
  induction n generalizing c with
  | zero =>
    unfold Moves
    constructor
    · rintro rfl; simp [ha]
    · rintro ⟨h1, h2, h3⟩
      by_contra hne
      have := B_lt hB (a := a) (b := c) (by omega) h2
      simp at h3; omega
  | succ n ih =>
    unfold Moves
    constructor
    · rintro ⟨b, h1, h2⟩
      obtain ⟨b1, b2, b3⟩ := (ih b).1 h1
      obtain ⟨c1, c2, c3⟩ := (isNext_fwd_iff hB).1 h2
      exact ⟨by omega, c2, by push_cast; omega⟩
    · rintro ⟨h1, h2, h3⟩
      push_cast at h3
      by_cases hn : n = 0
      · subst hn
        exact ⟨a, by rw [ih]; exact ⟨by omega, ha, by simp⟩, (isNext_fwd_iff hB).2 ⟨h1, h2, by simpa using h3⟩⟩
      · obtain ⟨b, b1, b2, b3, b4⟩ := exists_at_count' hB h1 (B a + n) (by omega) (by omega)
        exact ⟨b, (ih b).2 ⟨b1, b3, b4⟩, (isNext_fwd_iff hB).2 ⟨b2, h2, by omega⟩⟩

theorem moves_bwd_iff {a : Int} (ha : biz a) (n : Nat) (c : Int) :
    Moves biz false n a c ↔ c ≤ a ∧ biz c ∧ B a = B c + n := by
  induction n generalizing c with
  | zero =>
    unfold Moves
    constructor
    · rintro rfl; simp [ha]
    · rintro ⟨h1, h2, h3⟩
      by_contra hne
      have := B_lt hB (a := c) (b := a) (by omega) ha
      simp at h3; omega
  | succ n ih =>
    unfold Moves
    constructor
    · rintro ⟨b, h1, h2⟩
      obtain ⟨b1, b2, b3⟩ := (ih b).1 h1
      obtain ⟨c1, c2, c3⟩ := (isNext_bwd_iff hB b2).1 h2
      exact ⟨by omega, c2, by push_cast; omega⟩
    · rintro ⟨h1, h2, h3⟩
      push_cast at h3
      obtain ⟨b, b1, b2, b3, b4⟩ := exists_at_count' hB h1 (B c + 1) (by omega) (by omega)
      exact ⟨b, (ih b).2 ⟨b2, b3, by omega⟩, (isNext_bwd_iff hB b3).2 ⟨b1, h2, by omega⟩⟩

theorem isSlip_fwd_iff {d e : Int} : IsSlip biz true d e ↔ d ≤ e ∧ biz e ∧ B (e - 1) = B (d - 1) := by
  unfold IsSlip
  simp only [if_true]
  constructor
  · rintro ⟨h1, h2, h3⟩
    exact ⟨h2, h1, B_eq_of_none' hB (by omega) (fun x x1 x2 => h3 x (by omega) (by omega))⟩
  · rintro ⟨h1, h2, h3⟩
    exact ⟨h2, h1, fun x x1 x2 => B_eq_imp hB h3.symm x (by omega) (by omega)⟩

theorem isSlip_bwd_iff {d e : Int} : IsSlip biz false d e ↔ e ≤ d ∧ biz e ∧ B e = B d := by
  unfold IsSlip
  simp only [Bool.false_eq_true, if_false]
  constructor
  · rintro ⟨h1, h2, h3⟩
    exact ⟨h2, h1, (B_eq_of_none' hB h2 (fun x x1 x2 => h3 x x1 x2)).symm⟩
  · rintro ⟨h1, h2, h3⟩
    exact ⟨h2, h1, fun x x1 x2 => B_eq_imp hB h3 x (by omega) (by omega)⟩

theorem sum_Icc_eq {K : Type} [Field K] (w : K) (a : Int) (k : Nat) :
    (∑ d ∈ Finset.Icc a (a + k), weightOf biz w d)
      = ((B (a + k) - B (a - 1) : Int) : K) * (1 - w) + ((k : K) + 1) * w := by
  induction k with
  | zero =>
    have := hB a
    simp only [Nat.cast_zero, add_zero, Finset.Icc_self, Finset.sum_singleton, weightOf]
    rw [this]
    split <;> simp
  | succ k ih =>
    have e : Finset.Icc a (a + ((k + 1 : Nat) : Int)) = insert (a + ((k + 1 : Nat) : Int)) (Finset.Icc a (a + k)) := by
      ext x; simp only [Finset.mem_Icc, Finset.mem_insert]; omega
    rw [e, Finset.sum_insert (by simp only [Finset.mem_Icc]; omega), ih]
    have := hB (a + ((k + 1 : Nat) : Int))
    have e1 : a + ((k + 1 : Nat) : Int) - 1 = a + k := by omega
    rw [e1] at this
    rw [this]
    unfold weightOf
    push_cast
    split <;> push_cast <;> ring

/-- The day-by-day count in terms of the running count. -/
theorem manualCount_eq {K : Type} [Field K] (w : K) {a b : Int} (h : a ≤ b) (fa fb : K) :
    manualCount (weightOf biz w) a fa b fb
      = ((B b - B (a - 1) : Int) : K) * (1 - w) + ((b - a : Int) + 1 : K) * w
        - weightOf biz w a * fa - weightOf biz w b * (1 - fb) := by
  unfold manualCount
  obtain ⟨k, rfl⟩ : ∃ k : Nat, b = a + k := ⟨(b - a).toNat, by omega⟩
  rw [sum_Icc_eq hB]
  simp

end Abstract

/-! ## Running counts of the concrete calendars -/

/-- Weekdays up to and including `d`, up to a constant. -/
def W (d : Int) : Int := 5 * ((d + 3) / 7) + min ((d + 3) % 7 + 1) 5

theorem weekday_iff (d : Int) : Weekday d ↔ (d + 3) % 7 < 5 := by unfold Weekday; omega

theorem W_counts : Counts Weekday W := by
  intro d
  unfold W
  split <;> rename_i h <;> rw [weekday_iff] at h <;> omega

/-- Number of listed holidays before `d` (the offset found by the search). -/
def off (hs : List Int) (d : Int) : Nat := (hs.takeWhile (fun h => decide (h < d))).length

theorem off_succ (hs : List Int) (h : hs.Pairwise (· < ·)) (d : Int) :
    off hs (d + 1) = off hs d + if d ∈ hs then 1 else 0 := by
  unfold off
  induction hs with
  | nil => simp
  | cons x xs ih =>
    rw [List.pairwise_cons] at h
    obtain ⟨hx, hxs⟩ := h
    have ih := ih hxs
    by_cases h1 : x < d
    · have h2 : x < d + 1 := by omega
      have h3 : d ≠ x := by omega
      simp only [List.takeWhile_cons, h1, h2, decide_true, if_true, List.length_cons, ih,
        List.mem_cons, h3, false_or]
      omega
    · by_cases h4 : x = d
      · subst h4
        have h5 : xs.takeWhile (fun h => decide (h < x + 1)) = [] := by
          cases xs with
          | nil => simp
          | cons y ys =>
            have := hx y (by simp)
            simp [List.takeWhile_cons]; omega
        simp [List.takeWhile_cons, h5]
      · have h6 : ¬ x < d + 1 := by omega
        have h7 : d ∉ xs := fun hd => by have := hx d hd; omega
        have h8 : d ≠ x := fun hd => h4 hd.symm
        simp [List.takeWhile_cons, h1, h6, h7, h8]

theorem remaining_snd (hs : List Int) (h : hs.Pairwise (· < ·)) (d : Int) :
    (remainingHolidays hs d).2 = decide (d ∈ hs) := by
  unfold remainingHolidays
  simp only
  induction hs with
  | nil => simp
  | cons x xs ih =>
    rw [List.pairwise_cons] at h
    obtain ⟨hx, hxs⟩ := h
    have ih := ih hxs
    by_cases h1 : x < d
    · have h3 : d ≠ x := by omega
      simp only [List.takeWhile_cons, h1, decide_true, if_true, List.length_cons, List.getElem?_cons_succ, ih, List.mem_cons, h3, false_or]
    · by_cases h4 : x = d
      · subst h4; simp [List.takeWhile_cons]
      · have h7 : d ∉ xs := fun hd => by have := hx d hd; omega
        have h8 : d ≠ x := fun hd => h4 hd.symm
        simp [List.takeWhile_cons, h1, h4, h7, h8]

/-- Business days up to and including `d`, up to a constant. -/
def WH (hs : List Int) (d : Int) : Int := W d - off hs (d + 1)

theorem WH_counts (hs : List Int) (h : GoodHolidays hs) :
    Counts (fun d => Weekday d ∧ d ∉ hs) (WH hs) := by
  intro d
  unfold WH
  have h1 := W_counts d
  have h2 := off_succ hs h.1 d
  have e : d - 1 + 1 = d := by omega
  rw [e]
  by_cases hd : d ∈ hs
  · have := h.2 d hd
    simp [hd, this] at h1 h2 ⊢; omega
  · by_cases hw : Weekday d <;> simp [hd, hw] at h1 h2 ⊢ <;> omega

end QM.Calendar
