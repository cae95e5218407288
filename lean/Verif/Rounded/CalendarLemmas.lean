import Verif.Rounded.CalendarModel
import Verif.Rounded.InterpLemmas
import Verif.Calendar.CountLemmas
import Verif.Calendar.RuleProps

/-!
# Helper lemmas for business time in rounded arithmetic
-/

namespace QM.Rounded
open QM.Calendar (Cal slipToNextWeekday slipToNext countHolidays isHolidayWH Counts W WH W_counts WH_counts weekCount
  slipToNextWeekday_iff slipToNext_iff slipToNextWeekday_exists slipToNext_dichotomy isSlip_fwd_iff isSlip_bwd_iff
  dayOfWeek_valid dayOfWeek_invalid weekday_iff isHolidayWH_ok countHolidays_eq off off_succ B_lt B_mono isSlip_self slip_mono)
open QM.Dates (dayOfWeek)
open QM.Calendar.Spec

variable {K : Type} [Field K] [LinearOrder K] [IsStrictOrderedRing K]

theorem bind_ok {α β : Type} {x : Outcome α} {f : α → Outcome β} {b : β} (h : x >>= f = .ok b) : ∃ a, x = .ok a ∧ f a = .ok b := by
  cases x with
  | error e => cases h
  | ok a => exact ⟨a, rfl, h⟩

theorem pure_ok {α : Type} {a b : α} : (pure a : Outcome α) = .ok b ↔ a = b := ⟨fun h => Except.ok.inj h, fun h => congrArg _ h⟩

/-- No float lies between one less the unit and one. -/
def Rounding.Gap (r : Rounding K) : Prop := ∀ x, r.IsFloat x → x < 1 → x ≤ 1 - r.unit

theorem binary_gap [FloorRing K] (p : ℕ) (hp : 32 ≤ p) : (Rounding.binary K p hp).Gap := by
  intro x hx h1
  change toBits p x = x at hx
  change x ≤ 1 - (1 / 2) ^ p
  have hq : ((1 : K) / 2) ^ p ≤ 1 / 2 := by
    calc ((1 : K) / 2) ^ p ≤ (1 / 2) ^ 1 := pow_le_pow_of_le_one (by norm_num) (by norm_num) (by omega)
      _ = 1 / 2 := by norm_num
  by_cases hh : x < 1 / 2
  · linarith
  · rw [not_lt] at hh
    have hx0 : 0 < x := by linarith
    have hlog : Int.log 2 |x| = -1 := by
      rw [abs_of_pos hx0]
      refine le_antisymm ?_ ?_
      · have := (Int.lt_zpow_iff_log_lt (b := 2) (by norm_num) (x := 0) hx0).1 (by norm_num; exact h1)
        omega
      · refine (Int.zpow_le_iff_le_log (b := 2) (by norm_num) hx0).1 ?_
        norm_num
        linarith
    have hb : lastBit p x = (1 / 2) ^ p := by
      unfold lastBit
      rw [hlog]
      have : (-1 : ℤ) - ((p : ℤ) - 1) = -(p : ℤ) := by ring
      rw [this, zpow_neg, zpow_natCast, one_div, inv_pow]
    unfold toBits at hx
    rw [hb] at hx
    set m := nearest (x / (1 / 2) ^ p) with hm
    have hpos : (0 : K) < (1 / 2) ^ p := by positivity
    have hmul : ((1 : K) / 2) ^ p * 2 ^ p = 1 := by rw [← mul_pow]; norm_num
    have hlt : (m : K) < 2 ^ p := by
      have : (m : K) = x * 2 ^ p := by
        rw [← hx, mul_assoc, hmul, mul_one]
      rw [this]
      have h2 : (0 : K) < 2 ^ p := by positivity
      nlinarith
    have hlt' : m < 2 ^ p := by exact_mod_cast hlt
    have hle : (m : K) ≤ 2 ^ p - 1 := by
      have : m ≤ 2 ^ p - 1 := by omega
      exact_mod_cast this
    calc x = m * (1 / 2) ^ p := hx.symm
      _ ≤ (2 ^ p - 1) * (1 / 2) ^ p := mul_le_mul_of_nonneg_right hle hpos.le
      _ = 1 - (1 / 2) ^ p := by rw [sub_mul, mul_comm, hmul, one_mul]

/-- What the count on a calendar with weekends comes to. -/
def plainValue (r : Rounding K) (biz : Int → Prop) [DecidablePred biz] (B : Int → Int) (a b from_ : Int) (ff : K) (to_ : Int)
    (tf : K) : K :=
  if a > b then 0
  else r.rnd (((B b - B a : Int) : K) + r.rnd ((if biz to_ then tf else 1) - (if biz from_ then ff else 0)))

theorem countWeekday_value {r : Rounding K} {from_ to_ : Int} {ff tf v : K} (h : countWeekday r from_ ff to_ tf = .ok v) :
    ∃ a b, IsSlip Weekday true from_ a ∧ IsSlip Weekday false to_ b ∧ v = plainValue r Weekday W a b from_ ff to_ tf := by
  unfold countWeekday at h
  by_cases hvf : Valid from_
  · by_cases hvt : Valid to_
    · obtain ⟨a, ha⟩ := slipToNextWeekday_exists true hvf
      obtain ⟨b, hb⟩ := slipToNextWeekday_exists false hvt
      rw [ha, hb] at h
      obtain ⟨_, hsa⟩ := (slipToNextWeekday_iff true from_ a).1 ha
      obtain ⟨_, hsb⟩ := (slipToNextWeekday_iff false to_ b).1 hb
      refine ⟨a, b, hsa, hsb, ?_⟩
      unfold plainValue
      simp only [bind, Except.bind] at h
      by_cases hab : a > b
      · rw [if_pos hab] at h
        cases h
        rw [if_pos hab]
      · rw [if_neg hab] at h
        rw [if_neg hab]
        by_cases hva : Valid a
        · by_cases hvb : Valid b
          · rw [dayOfWeek_valid hva, dayOfWeek_valid hvb, dayOfWeek_valid hvf, dayOfWeek_valid hvt] at h
            simp only [pure, Except.pure] at h
            cases h
            rw [weekCount hsa.1 hsb.1 (by omega)]
            have e1 : decide ((to_ + 3) % 7 > 4) = decide (¬ Weekday to_) :=
              decide_eq_decide.2 (by rw [weekday_iff]; omega)
            have e2 : decide ((from_ + 3) % 7 > 4) = decide (¬ Weekday from_) :=
              decide_eq_decide.2 (by rw [weekday_iff]; omega)
            rw [e1, e2]
            by_cases h1 : Weekday from_ <;> by_cases h2 : Weekday to_ <;> simp [h1, h2]
          · rw [dayOfWeek_invalid hvb] at h; cases h
        · by_cases hvb : Valid b
          · rw [dayOfWeek_invalid hva, dayOfWeek_valid hvb] at h; cases h
          · rw [dayOfWeek_invalid hvb] at h; cases h
    · obtain ⟨a, ha⟩ := slipToNextWeekday_exists true hvf
      have : slipToNextWeekday to_ false = .error .panic := by
        unfold slipToNextWeekday; rw [dayOfWeek_invalid hvt]; rfl
      rw [ha, this] at h; cases h
  · have : slipToNextWeekday from_ true = .error .panic := by
      unfold slipToNextWeekday; rw [dayOfWeek_invalid hvf]; rfl
    rw [this] at h; cases h

theorem countWH_value {r : Rounding K} {hs : List Int} (hg : GoodHolidays hs) {from_ to_ : Int} {ff tf v : K}
    (h : countWH r hs from_ ff to_ tf = .ok v) :
    ∃ a b, IsSlip (fun d => Weekday d ∧ d ∉ hs) true from_ a ∧ IsSlip (fun d => Weekday d ∧ d ∉ hs) false to_ b ∧
      v = plainValue r (fun d => Weekday d ∧ d ∉ hs) (WH hs) a b from_ ff to_ tf := by
  unfold countWH at h
  rcases slipToNext_dichotomy hg true from_ with ⟨a, ha⟩ | ha
  · rcases slipToNext_dichotomy hg false to_ with ⟨b, hb⟩ | hb
    · rw [ha, hb] at h
      obtain ⟨hvf, hva, hsa⟩ := (slipToNext_iff hg true from_ a).1 ha
      obtain ⟨hvt, hvb, hsb⟩ := (slipToNext_iff hg false to_ b).1 hb
      refine ⟨a, b, hsa, hsb, ?_⟩
      unfold plainValue
      simp only [bind, Except.bind] at h
      by_cases hab : a > b
      · rw [if_pos hab] at h
        cases h
        rw [if_pos hab]
      · rw [if_neg hab] at h
        rw [if_neg hab]
        rw [dayOfWeek_valid hva, dayOfWeek_valid hvb, isHolidayWH_ok hg hvf, isHolidayWH_ok hg hvt] at h
        simp only [pure, Except.pure] at h
        cases h
        rw [weekCount hsa.1.1 hsb.1.1 (by omega), countHolidays_eq hs hg.1]
        have e1 : WH hs b - WH hs a = W b - W a - ((off hs b : Int) - off hs (a + 1)) := by
          unfold WH
          have := off_succ hs hg.1 b
          rw [if_neg hsb.1.2] at this
          omega
        rw [e1]
        congr 2
        have e : ∀ (P : Prop) [Decidable P] (x y : K),
            (if decide (¬ P) = true then x else y) = if P then y else x := by
          intro P _ x y; by_cases h : P <;> simp [h]
        simp only [e]
    · rw [ha, hb] at h; cases h
  · rw [ha] at h; cases h

/-- A point in time is not after another: first by date, then by fraction. -/
def NotAfter (p q : Int × K) : Prop := p.1 < q.1 ∨ (p.1 = q.1 ∧ p.2 ≤ q.2)

/-- A point in time with a fraction that `DateDayFraction::new` accepts (`datetime.rs:89-93`). -/
def Point (r : Rounding K) (p : Int × K) : Prop := r.IsFloat p.2 ∧ 0 ≤ p.2 ∧ p.2 < 1

theorem NotAfter.date {p q : Int × K} (h : NotAfter p q) : p.1 ≤ q.1 := by
  rcases h with h | h <;> omega

theorem NotAfter.trans {p q s : Int × K} (h1 : NotAfter p q) (h2 : NotAfter q s) : NotAfter p s := by
  rcases h1 with h1 | ⟨h1, h1'⟩ <;> rcases h2 with h2 | ⟨h2, h2'⟩
  · exact .inl (by omega)
  · exact .inl (by omega)
  · exact .inl (by omega)
  · exact .inr ⟨by omega, h1'.trans h2'⟩

section
variable {r : Rounding K} {biz : Int → Prop} [DecidablePred biz] {B : Int → Int} (hB : Counts biz B)
include hB

theorem plain_nonneg {f p : Int × K} (hf : Point r f) (hp : Point r p) (hfp : NotAfter f p) {a b : Int}
    (ha : IsSlip biz true f.1 a) (hb : IsSlip biz false p.1 b) : 0 ≤ plainValue r biz B a b f.1 f.2 p.1 p.2 := by
  unfold plainValue
  split
  · exact le_refl _
  rename_i hab
  refine r.nonneg ?_
  have hF0 : 0 ≤ (if biz f.1 then f.2 else 0) := by split; exacts [hf.2.1, le_refl _]
  have hF1 : (if biz f.1 then f.2 else 0) ≤ 1 := by split; exacts [hf.2.2.le, zero_le_one]
  have hFf : r.rnd (if biz f.1 then f.2 else 0) = if biz f.1 then f.2 else 0 := by split; exacts [hf.1, r.zero]
  have hT0 : 0 ≤ (if biz p.1 then p.2 else 1) := by split; exacts [hp.2.1, zero_le_one]
  have hm := B_mono hB (a := a) (b := b) (by omega)
  by_cases hN : B a + 1 ≤ B b
  · have h1 : (1 : K) ≤ ((B b - B a : Int) : K) := by exact_mod_cast (by omega : (1 : Int) ≤ B b - B a)
    have h2 := r.mono (-(if biz f.1 then f.2 else 0)) ((if biz p.1 then p.2 else 1) - if biz f.1 then f.2 else 0) (by linarith)
    rw [r.neg, hFf] at h2
    linarith
  · have hba : a = b := by
      by_contra hne
      have := B_lt hB (a := a) (b := b) (by omega) hb.1
      omega
    subst hba
    rw [sub_self, Int.cast_zero, zero_add]
    refine r.nonneg ?_
    by_cases hbf : biz f.1
    · have e := (isSlip_self hbf).1 ha
      rw [if_pos hbf]
      by_cases hbp : biz p.1
      · have e' := (isSlip_self hbp).1 hb
        rw [if_pos hbp]
        rcases hfp with h | ⟨_, h⟩
        · omega
        · linarith
      · rw [if_neg hbp]; linarith [hf.2.2]
    · rw [if_neg hbf, sub_zero]; exact hT0

theorem plain_mono (hr : r.Gap) {f p q : Int × K} (hf : Point r f) (hp : Point r p) (hq : Point r q) (hfp : NotAfter f p)
    (hpq : NotAfter p q) (hc : biz p.1 ∨ f.2 = 0 ∨ ¬ biz f.1) {a b b' : Int}
    (ha : IsSlip biz true f.1 a) (hb : IsSlip biz false p.1 b) (hb' : IsSlip biz false q.1 b') :
    plainValue r biz B a b f.1 f.2 p.1 p.2 ≤ plainValue r biz B a b' f.1 f.2 q.1 q.2 := by
  by_cases hab : a > b
  · have h0 := plain_nonneg hB (r := r) hf hq (hfp.trans hpq) ha hb'
    have : plainValue r biz B a b f.1 f.2 p.1 p.2 = 0 := by unfold plainValue; rw [if_pos hab]
    rw [this]; exact h0
  have hbb := slip_mono hpq.date hb hb'
  unfold plainValue
  rw [if_neg hab, if_neg (by omega : ¬ a > b')]
  refine r.mono _ _ ?_
  have hF0 : 0 ≤ (if biz f.1 then f.2 else 0) := by split; exacts [hf.2.1, le_refl _]
  have hF1 : (if biz f.1 then f.2 else 0) ≤ 1 := by split; exacts [hf.2.2.le, zero_le_one]
  have hFf : r.rnd (if biz f.1 then f.2 else 0) = if biz f.1 then f.2 else 0 := by split; exacts [hf.1, r.zero]
  have hT0 : 0 ≤ (if biz q.1 then q.2 else 1) := by split; exacts [hq.2.1, zero_le_one]
  by_cases he : b = b'
  · subst he
    have : r.rnd ((if biz p.1 then p.2 else 1) - if biz f.1 then f.2 else 0)
        ≤ r.rnd ((if biz q.1 then q.2 else 1) - if biz f.1 then f.2 else 0) := by
      refine r.mono _ _ (sub_le_sub_right ?_ _)
      by_cases hbp : biz p.1
      · have e := (isSlip_self hbp).1 hb
        rw [if_pos hbp]
        by_cases hbq : biz q.1
        · have e' := (isSlip_self hbq).1 hb'
          rw [if_pos hbq]
          rcases hpq with h | ⟨_, h⟩
          · omega
          · exact h
        · rw [if_neg hbq]; exact hp.2.2.le
      · rw [if_neg hbp]
        have hbq : ¬ biz q.1 := by
          intro hbq
          have e' := (isSlip_self hbq).1 hb'
          have h1 := ((isSlip_bwd_iff hB).1 hb).1
          have h2 := hpq.date
          have : p.1 = b := by omega
          exact hbp (this ▸ hb.1)
        rw [if_neg hbq]
    linarith
  · have hN := B_lt hB (a := b) (b := b') (by omega) hb'.1
    have h1 : ((B b - B a : Int) : K) + 1 ≤ ((B b' - B a : Int) : K) := by exact_mod_cast (by omega : B b - B a + 1 ≤ B b' - B a)
    have h2 := r.mono (-(if biz f.1 then f.2 else 0)) ((if biz q.1 then q.2 else 1) - if biz f.1 then f.2 else 0) (by linarith)
    rw [r.neg, hFf] at h2
    have h3 : r.rnd ((if biz p.1 then p.2 else 1) - if biz f.1 then f.2 else 0) ≤ 1 - if biz f.1 then f.2 else 0 := by
      by_cases hbp : biz p.1
      · rw [if_pos hbp]
        have hg := hr p.2 hp.1 hp.2.2
        generalize (if biz f.1 then f.2 else 0) = F at *
        have hc := (abs_le.1 (r.close (p.2 - F))).2
        have hx : |p.2 - F| ≤ 1 := abs_le.2 ⟨by linarith [hp.2.1], by linarith [hp.2.2]⟩
        have := mul_le_mul_of_nonneg_left hx r.unit_nonneg
        linarith
      · have hz : (if biz f.1 then f.2 else 0) = 0 := by
          rcases hc with h | h | h
          · exact absurd h hbp
          · rw [h]; split <;> rfl
          · rw [if_neg h]
        rw [if_neg hbp, hz, sub_zero, r.one]
    linarith

theorem plain_start (hr : r.Gap) {f g p : Int × K} (hf : Point r f) (hg : Point r g) (hp : Point r p) (hfg : NotAfter f g)
    (hgp : NotAfter g p) {a a' b : Int}
    (ha : IsSlip biz true f.1 a) (ha' : IsSlip biz true g.1 a') (hb : IsSlip biz false p.1 b) :
    plainValue r biz B a' b g.1 g.2 p.1 p.2 ≤ plainValue r biz B a b f.1 f.2 p.1 p.2 := by
  by_cases hab : a' > b
  · have h0 := plain_nonneg hB (r := r) hf hp (hfg.trans hgp) ha hb
    have : plainValue r biz B a' b g.1 g.2 p.1 p.2 = 0 := by unfold plainValue; rw [if_pos hab]
    rw [this]; exact h0
  have haa := slip_mono hfg.date ha ha'
  unfold plainValue
  rw [if_neg hab, if_neg (by omega : ¬ a > b)]
  refine r.mono _ _ ?_
  have hF0 : 0 ≤ (if biz f.1 then f.2 else 0) := by split; exacts [hf.2.1, le_refl _]
  have hG0 : 0 ≤ (if biz g.1 then g.2 else 0) := by split; exacts [hg.2.1, le_refl _]
  have hT0 : 0 ≤ (if biz p.1 then p.2 else 1) := by split; exacts [hp.2.1, zero_le_one]
  have hT1 : (if biz p.1 then p.2 else 1) ≤ 1 := by split; exacts [hp.2.2.le, le_refl _]
  have hTf : r.rnd (if biz p.1 then p.2 else 1) = if biz p.1 then p.2 else 1 := by split; exacts [hp.1, r.one]
  by_cases he : a = a'
  · subst he
    have : r.rnd ((if biz p.1 then p.2 else 1) - if biz g.1 then g.2 else 0)
        ≤ r.rnd ((if biz p.1 then p.2 else 1) - if biz f.1 then f.2 else 0) := by
      refine r.mono _ _ (sub_le_sub_left ?_ _)
      by_cases hbf : biz f.1
      · have e := (isSlip_self hbf).1 ha
        have h1 := ((isSlip_fwd_iff hB).1 ha').1
        have h2 := hfg.date
        have h3 : g.1 = f.1 := by omega
        rw [if_pos hbf, if_pos (h3 ▸ hbf)]
        rcases hfg with h | ⟨_, h⟩
        · omega
        · exact h
      · rw [if_neg hbf]; exact hG0
    linarith
  · have hN := B_lt hB (a := a) (b := a') (by omega) ha'.1
    have h1 : ((B b - B a' : Int) : K) + 1 ≤ ((B b - B a : Int) : K) := by exact_mod_cast (by omega : B b - B a' + 1 ≤ B b - B a)
    have h2 := r.mono ((if biz p.1 then p.2 else 1) - if biz g.1 then g.2 else 0) (if biz p.1 then p.2 else 1) (by linarith)
    rw [hTf] at h2
    have h3 : (if biz p.1 then p.2 else 1) - 1 ≤ r.rnd ((if biz p.1 then p.2 else 1) - if biz f.1 then f.2 else 0) := by
      have hF : (if biz f.1 then f.2 else 0) ≤ 1 - r.unit := by
        split
        · exact hr f.2 hf.1 hf.2.2
        · linarith [r.small]
      generalize (if biz f.1 then f.2 else 0) = F at *
      generalize (if biz p.1 then p.2 else 1) = T at *
      have hc := (abs_le.1 (r.close (T - F))).1
      have hx : |T - F| ≤ 1 := abs_le.2 ⟨by linarith [r.unit_nonneg], by linarith⟩
      have := mul_le_mul_of_nonneg_left hx r.unit_nonneg
      linarith
    linarith

end

/-- The number of calendar days between two points in time, as the code rounds it. -/
theorem allDays_mono {r : Rounding K} {f p q : Int × K} (hp : Point r p) (hq : Point r q) (hpq : NotAfter p q) :
    r.rnd (r.rnd (((p.1 - f.1 : Int) : K) + p.2) - f.2) ≤ r.rnd (r.rnd (((q.1 - f.1 : Int) : K) + q.2) - f.2) := by
  refine r.mono _ _ (sub_le_sub_right (r.mono _ _ ?_) _)
  rcases hpq with h | ⟨h, h'⟩
  · have : ((p.1 - f.1 : Int) : K) + 1 ≤ ((q.1 - f.1 : Int) : K) := by exact_mod_cast (by omega : p.1 - f.1 + 1 ≤ q.1 - f.1)
    linarith [hp.2.2, hq.2.1]
  · rw [h]; linarith

theorem allDays_start {r : Rounding K} {f g p : Int × K} (hg : 0 ≤ g.2) (hfg : NotAfter f g) (hc : f.1 = g.1 ∨ f.2 = 0) :
    r.rnd (r.rnd (((p.1 - g.1 : Int) : K) + p.2) - g.2) ≤ r.rnd (r.rnd (((p.1 - f.1 : Int) : K) + p.2) - f.2) := by
  refine r.mono _ _ ?_
  rcases hc with h | h
  · rcases hfg with h' | ⟨_, h'⟩
    · omega
    · rw [h]; linarith
  · have := hfg.date
    have h1 : ((p.1 - g.1 : Int) : K) ≤ ((p.1 - f.1 : Int) : K) := by exact_mod_cast (by omega : p.1 - g.1 ≤ p.1 - f.1)
    have := r.mono (((p.1 - g.1 : Int) : K) + p.2) (((p.1 - f.1 : Int) : K) + p.2) (by linarith)
    linarith

theorem allDays_nonneg {r : Rounding K} {f p : Int × K} (hf : Point r f) (hp : Point r p) (hfp : NotAfter f p) :
    0 ≤ r.rnd (r.rnd (((p.1 - f.1 : Int) : K) + p.2) - f.2) := by
  have h := allDays_mono (f := f) hf hp hfp
  rw [sub_self, Int.cast_zero, zero_add, hf.1, sub_self, r.zero] at h
  exact h

end QM.Rounded
