import Verif.Calendar.VolLemmas
import Verif.Dates.Lemmas

/-!
# Helper lemmas: all calendars that step in whole days, and date rules
-/

namespace QM.Calendar
open QM.Dates Spec

variable {K : Type} [Field K] [LinearOrder K] [IsStrictOrderedRing K] [FloorRing K]

theorem round_int (n : Int) : roundHalfAway (n : K) = n := by
  unfold roundHalfAway
  split
  · rw [Int.floor_eq_iff]; constructor <;> norm_num
  · rw [Int.ceil_eq_iff]; constructor <;> norm_num

theorem trunc_int (n : Int) : truncToInt (n : K) = n := by
  unfold truncToInt; split <;> simp

/-- The calendar that does the stepping. -/
def strip : Cal K → Cal K
  | .volatility c _ => strip c
  | c => c

/-- Step of a calendar that is not a volatility calendar. -/
def baseStep : Cal K → Int → Int → Bool → Outcome Int
  | .everyDay, d, n, _ => .ok (d + n)
  | .weekday, d, n, s => stepWeekday d n s
  | .weekdayAndHoliday hs, d, n, s => stepWH hs d n s
  | .volatility c _, d, n, s => baseStep c d n s

theorem stepPartial_whole {c : Cal K} (h : Whole c) (fuel : Nat) (d n : Int) (s : Bool) :
    stepPartial fuel c d (n : K) s = some (baseStep c d n s) := by
  induction c with
  | everyDay => simp [stepPartial, baseStep, round_int]
  | weekday => simp [stepPartial, baseStep, round_int]
  | weekdayAndHoliday hs => simp [stepPartial, baseStep, round_int]
  | volatility c w ih =>
    rw [stepPartial, if_pos h.1, trunc_int, ih h.2, baseStep]

theorem step_whole {c : Cal K} (h : Whole c) (fuel : Nat) (d n : Int) (s : Bool) :
    step fuel c d n s = some (baseStep c d n s) := by
  cases c with
  | everyDay => rfl
  | weekday => rfl
  | weekdayAndHoliday hs => rfl
  | volatility c w => rw [step, stepPartial_whole h]

/-- Dates on which the stepping calendar works without panicking. -/
def InRange : Cal K → Int → Prop
  | .everyDay, _ => True
  | .weekday, d => Valid d
  | .weekdayAndHoliday _, d => Valid d
  | .volatility c _, d => InRange c d

theorem inRange_of_valid {c : Cal K} {d : Int} (h : Valid d) : InRange c d := by
  induction c with
  | everyDay => trivial
  | weekday => exact h
  | weekdayAndHoliday hs => exact h
  | volatility c w ih => exact ih

theorem inRange_between {c : Cal K} {a b x : Int} (ha : InRange c a) (hb : InRange c b)
    (h1 : a ≤ x) (h2 : x ≤ b) : InRange c x := by
  induction c with
  | everyDay => trivial
  | weekday => unfold InRange Valid at *; omega
  | weekdayAndHoliday hs => unfold InRange Valid at *; omega
  | volatility c w ih => exact ih ha hb

theorem biz_counts {c : Cal K} (hg : Good c) : ∃ B, Counts (Biz c) B := by
  induction c with
  | everyDay => exact ⟨id, fun d => by simp [Biz]⟩
  | weekday => exact ⟨W, W_counts⟩
  | weekdayAndHoliday hs => exact ⟨WH hs, WH_counts hs hg⟩
  | volatility c w ih => exact ih hg

theorem everyDay_slip (s : Bool) (d a : Int) : IsSlip (Biz (.everyDay : Cal K)) s d a ↔ a = d :=
  isSlip_self trivial

theorem everyDay_moves (n a e : Int) :
    Moves (Biz (.everyDay : Cal K)) (decide (0 ≤ n)) n.natAbs a e ↔ e = a + n := by
  have hB : Counts (Biz (.everyDay : Cal K)) id := fun d => by simp [Biz]
  by_cases hn : 0 ≤ n
  · rw [decide_eq_true hn, moves_fwd_iff hB trivial]
    simp only [Biz, id, true_and]; omega
  · rw [decide_eq_false hn, moves_bwd_iff hB trivial]
    simp only [Biz, id, true_and]; omega

theorem baseStep_imp {c : Cal K} (hg : Good c) {d n : Int} {s : Bool} {e : Int}
    (h : baseStep c d n s = .ok e) :
    InRange c d ∧ ∃ a, IsSlip (Biz c) s d a ∧ (n ≠ 0 → InRange c a ∧ InRange c e) ∧
      Moves (Biz c) (decide (0 ≤ n)) n.natAbs a e := by
  induction c with
  | everyDay =>
    unfold baseStep at h
    cases h
    exact ⟨trivial, d, (everyDay_slip s d d).2 rfl, fun _ => ⟨trivial, trivial⟩,
      (everyDay_moves n d _).2 rfl⟩
  | weekday =>
    unfold baseStep at h
    exact (stepWeekday_isStep d n s e).1 h
  | weekdayAndHoliday hs =>
    unfold baseStep at h
    obtain ⟨h1, h2, a, h3, h4, h5⟩ := (stepWH_isStep hg d n s e).1 h
    exact ⟨h1, a, h4, fun _ => ⟨h3, h2⟩, h5⟩
  | volatility c w ih => exact ih hg h

theorem baseStep_of {c : Cal K} (hg : Good c) {d n : Int} {s : Bool} {a e : Int}
    (hd : InRange c d) (ha : InRange c a) (he : InRange c e) (h1 : IsSlip (Biz c) s d a)
    (h2 : Moves (Biz c) (decide (0 ≤ n)) n.natAbs a e) : baseStep c d n s = .ok e := by
  induction c with
  | everyDay =>
    rw [everyDay_slip] at h1
    rw [everyDay_moves] at h2
    subst h1; subst h2; rfl
  | weekday => exact (stepWeekday_isStep d n s e).2 ⟨hd, a, h1, fun _ => ⟨ha, he⟩, h2⟩
  | weekdayAndHoliday hs => exact (stepWH_isStep hg d n s e).2 ⟨hd, he, a, ha, h1, h2⟩
  | volatility c w ih => exact ih hg hd ha he h1 h2

theorem moves_biz {biz : Int → Prop} {fwd : Bool} {n : Nat} {a e : Int} (ha : biz a)
    (h : Moves biz fwd n a e) : biz e := by
  cases n with
  | zero => unfold Moves at h; rw [← h]; exact ha
  | succ n => obtain ⟨b, _, hb⟩ := h; exact hb.1

theorem isStep_biz {biz : Int → Prop} {s : Bool} {d n e : Int} (h : IsStep biz s d n e) : biz e := by
  obtain ⟨a, h1, h2⟩ := h
  exact moves_biz h1.1 h2

theorem baseStep_isStep {c : Cal K} (hg : Good c) {d n : Int} {s : Bool} {e : Int}
    (h : baseStep c d n s = .ok e) : IsStep (Biz c) s d n e := by
  obtain ⟨_, a, h1, _, h2⟩ := baseStep_imp hg h
  exact ⟨a, h1, h2⟩

/-- Step count as a difference of running counts. -/
theorem moves_count {biz : Int → Prop} [DecidablePred biz] {B : Int → Int} (hB : Counts biz B)
    {a : Int} (ha : biz a) (n e : Int) :
    Moves biz (decide (0 ≤ n)) n.natAbs a e ↔
      (if 0 ≤ n then a ≤ e else e ≤ a) ∧ biz e ∧ B e = B a + n := by
  by_cases hn : 0 ≤ n
  · rw [decide_eq_true hn, moves_fwd_iff hB ha, if_pos hn]
    have : (n.natAbs : Int) = n := by omega
    rw [this]
  · rw [decide_eq_false hn, moves_bwd_iff hB ha, if_neg hn]
    have : (n.natAbs : Int) = -n := by omega
    rw [this]
    refine and_congr_right fun _ => and_congr_right fun _ => by omega

theorem moves_count' {biz : Int → Prop} [DecidablePred biz] {B : Int → Int} (hB : Counts biz B)
    {a : Int} (ha : biz a) (n e : Int) :
    Moves biz (decide (0 ≤ n)) n.natAbs a e ↔ biz e ∧ B e = B a + n := by
  rw [moves_count hB ha]
  constructor
  · rintro ⟨_, h⟩; exact h
  · rintro ⟨h1, h2⟩
    refine ⟨?_, h1, h2⟩
    split
    · by_contra hlt
      have := B_lt hB (a := e) (b := a) (by omega) ha
      omega
    · by_contra hlt
      have := B_lt hB (a := a) (b := e) (by omega) h1
      omega

theorem chain_between {biz : Int → Prop} {fwd : Bool} (n : Nat) {a e : Int}
    (h : Moves biz fwd n a e) : if fwd then a ≤ e else e ≤ a := by
  induction n generalizing e with
  | zero => unfold Moves at h; subst h; split <;> omega
  | succ n ih =>
    obtain ⟨b, h1, h2⟩ := h
    have := ih h1
    unfold IsNext at h2
    cases fwd
    · simp only [Bool.false_eq_true, if_false] at *; omega
    · simp only [if_true] at *; omega

/-- Single moves are calls of the step function by one. -/
theorem moves_chain {c : Cal K} (hg : Good c) (fwd t : Bool) (n : Nat) {a e : Int}
    (hba : Biz c a) (ha : InRange c a) (he : InRange c e) (h : Moves (Biz c) fwd n a e) :
    Chain (fun x y => baseStep c x (if fwd then 1 else -1) t = .ok y) n a e := by
  induction n generalizing e with
  | zero => exact h
  | succ n ih =>
    obtain ⟨b, h1, h2⟩ := h
    have hbt := chain_between n h1
    have hbb : Biz c b := moves_biz hba h1
    have hrb : InRange c b := by
      unfold IsNext at h2
      cases fwd
      · simp only [Bool.false_eq_true, if_false] at *
        exact inRange_between he ha (by omega) hbt
      · simp only [if_true] at *
        exact inRange_between ha he hbt (by omega)
    refine ⟨b, ih hrb h1, ?_⟩
    refine baseStep_of hg hrb hrb he ((isSlip_self hbb).2 rfl) ?_
    cases fwd
    · exact ⟨b, rfl, h2⟩
    · exact ⟨b, rfl, h2⟩

theorem chain_moves {c : Cal K} (hg : Good c) (fwd t : Bool) (n : Nat) {a e : Int}
    (hba : Biz c a) (h : Chain (fun x y => baseStep c x (if fwd then 1 else -1) t = .ok y) n a e) :
    Moves (Biz c) fwd n a e ∧ (n ≠ 0 → InRange c a ∧ InRange c e) := by
  induction n generalizing e with
  | zero => exact ⟨h, fun h => absurd rfl h⟩
  | succ n ih =>
    obtain ⟨b, h1, h2⟩ := h
    obtain ⟨m1, m2⟩ := ih h1
    have hbb : Biz c b := moves_biz hba m1
    obtain ⟨r1, x, x1, x2, x3⟩ := baseStep_imp hg h2
    rw [isSlip_self hbb] at x1
    subst x1
    have hne : (if fwd = true then (1 : Int) else -1) ≠ 0 := by cases fwd <;> simp
    refine ⟨⟨x, m1, ?_⟩, fun _ => ⟨?_, (x2 hne).2⟩⟩
    · cases fwd
      · obtain ⟨y, hy, hy2⟩ := x3
        change x = y at hy; subst hy; exact hy2
      · obtain ⟨y, hy, hy2⟩ := x3
        change x = y at hy; subst hy; exact hy2
    · by_cases hn : n = 0
      · subst hn; change a = x at m1; rw [m1]; exact r1
      · exact (m2 hn).1

/-! ### Months -/

theorem sameMonth_between {a b x : Int} (ha : -2430000 < a) (h1 : a ≤ x) (h2 : x ≤ b)
    (h : SameMonth a b) : SameMonth a x := by
  have key : ∀ {p q : Int}, -2430000 < p → p ≤ q →
      (ymd p).1 < (ymd q).1 ∨ ((ymd p).1 = (ymd q).1 ∧ (ymd p).2.1 ≤ (ymd q).2.1) := by
    intro p q hp hpq
    rcases eq_or_lt_of_le hpq with rfl | hlt
    · right; exact ⟨rfl, le_refl _⟩
    · have := (ymd_lt_iff p q hp (by omega)).1 hlt
      unfold Before at this
      omega
  have k1 := key ha h1
  have k2 := key (by omega : -2430000 < x) h2
  unfold SameMonth at *
  omega

/-- The same month number less than 300 days later is the same month. -/
theorem sameMonth_of_near {a b : Int} (ha : -2430000 < a) (h1 : a ≤ b) (h2 : b < a + 300)
    (h : (ymd b).2.1 = (ymd a).2.1) : SameMonth a b := by
  obtain ⟨a1, a2, a3⟩ := ymd_spec a ha
  obtain ⟨b1, b2, b3⟩ := ymd_spec b (by omega)
  unfold SameMonth
  generalize ymd a = s at *
  generalize ymd b = t at *
  obtain ⟨y, m, d⟩ := s
  obtain ⟨y', m', d'⟩ := t
  simp only at h a3 b3
  subst h
  unfold dayNo at a2 b2
  simp only at a2 b2
  rw [fromYmd_eq _ _ _ a3 a1.1 a1.2.1] at a2
  rw [fromYmd_eq _ _ _ b3 b1.1 b1.2.1] at b2
  have u1 := daysInMonth_le y m'
  have u2 := daysInMonth_le y' m'
  obtain ⟨_, _, g3, g4⟩ := a1
  obtain ⟨_, _, k3, k4⟩ := b1
  simp only at g3 g4 k3 k4
  refine ⟨?_, rfl⟩
  show y = y'
  rcases lt_trichotomy y y' with hl | he | hl
  · have m1 := yearStart_mono (y := y) (y' := y') (by omega)
    have m2 := yearStart_mono (y := y - 1) (y' := y' - 1) (by omega)
    split at a2 <;> simp_all <;> omega
  · exact he
  · have m1 := yearStart_mono (y := y') (y' := y) (by omega)
    have m2 := yearStart_mono (y := y' - 1) (y' := y - 1) (by omega)
    split at a2 <;> simp_all <;> omega

end QM.Calendar
