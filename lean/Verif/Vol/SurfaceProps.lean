import Verif.Vol.DynamicsLemmas
import Verif.Vol.Props

/-!
# Properties C30, C31, C33, C69 and C71 of surfaces, continued
-/

namespace QM.Vol
open QM.Interp QM.Calendar Spec QM.Calendar.Spec

/-! ## C30 the smile of a forward variance -/

theorem each_one {f : Num ℝ → Outcome (Num ℝ)} {l l' : List (Num ℝ)} {x : Num ℝ} (h : each f l = .ok l')
    (hx : first l' = .ok x) : ∃ a, first l = .ok a ∧ f a = .ok x := by
  cases l with
  | nil => cases h; cases hx
  | cons a l =>
    obtain ⟨w, h1, h⟩ := bind_ok h
    obtain ⟨ws, _, h⟩ := bind_ok h
    have := pure_ok h
    subst this
    cases hx
    exact ⟨a, rfl, h1⟩

/-- What a forward variance of a surface with a forward consists of. -/
theorem forwardVariance_parts {fuel : Nat} {s : VolSurface} {fwd : Int → Outcome (Num ℝ)} (hf : s.forward = some fwd)
    {from_ to_ : Point} (hb : before s.baseDate from_) {k : Num ℝ} {x : ℝ}
    (h : s.forwardVariance fuel from_ to_ k = .ok (.val x)) :
    ∃ m w, s.findSmileDate fuel from_ to_ = .ok m ∧ s.variance fuel m k = .ok (.val w) ∧
      ∃ c, x = w + c ∧ ∀ k' m' w' x', s.forwardVariance fuel from_ to_ k' = .ok (.val x') →
        s.findSmileDate fuel from_ to_ = .ok m' → s.variance fuel m' k' = .ok (.val w') → x' = w' + c := by
  have hx := h
  unfold VolSurface.forwardVariance VolSurface.forwardVariances at h
  rw [hf] at h
  simp only [hb, not_true_eq_false, if_false] at h
  obtain ⟨l, h, h'⟩ := bind_ok h
  obtain ⟨f1, e1, h⟩ := bind_ok h
  obtain ⟨f2, e2, h⟩ := bind_ok h
  obtain ⟨v1, e3, h⟩ := bind_ok h
  obtain ⟨v2, e4, h⟩ := bind_ok h
  split at h
  · cases h
  rename_i hneg
  obtain ⟨m, e5, h⟩ := bind_ok h
  obtain ⟨f3, e6, h⟩ := bind_ok h
  obtain ⟨v3, e7, h⟩ := bind_ok h
  obtain ⟨vs, e8, h⟩ := bind_ok h
  obtain ⟨a, ha, hn⟩ := each_one h h'
  have hval : ∀ z y, nonNegative z = .ok y → z = y := by
    intro z y hz
    unfold nonNegative at hz
    split at hz
    · cases hz
    · exact Except.ok.inj hz
  have hn := hval _ _ hn
  obtain ⟨w, rfl⟩ : ∃ w, a = .val w := by cases a with | nan => cases v3 <;> cases v2 <;> cases v1 <;> cases hn | val w => exact ⟨w, rfl⟩
  obtain ⟨c3, rfl⟩ : ∃ w, v3 = .val w := by cases v3 with | nan => cases v2 <;> cases v1 <;> cases hn | val w => exact ⟨w, rfl⟩
  obtain ⟨c2, rfl⟩ : ∃ w, v2 = .val w := by cases v2 with | nan => cases v1 <;> cases hn | val w => exact ⟨w, rfl⟩
  obtain ⟨c1, rfl⟩ : ∃ w, v1 = .val w := by cases v1 with | nan => cases hn | val w => exact ⟨w, rfl⟩
  have hn : x = w - c3 + (c2 - c1) := (Num.val.inj hn).symm
  refine ⟨m, w, e5, ?_, c2 - c1 - c3, by rw [hn]; ring, ?_⟩
  · unfold VolSurface.variance
    rw [e8]; exact ha
  · intro k' m' w' x' h' hm' hw'
    rw [e5] at hm'
    cases hm'
    unfold VolSurface.forwardVariance VolSurface.forwardVariances at h'
    rw [hf] at h'
    simp only [hb, not_true_eq_false, if_false, e1, e2, e3, e4, e5, e6, e7, Bind.bind, Except.bind, hneg] at h'
    unfold VolSurface.variance at hw'
    obtain ⟨l', e9, hw'⟩ := bind_ok hw'
    rw [e9] at h'
    obtain ⟨l'', h', h''⟩ := bind_ok h'
    obtain ⟨a', ha', hn'⟩ := each_one h' h''
    rw [hw'] at ha'
    cases ha'
    have := hval _ _ hn'
    have := Num.val.inj this
    rw [← this]; ring

/-- C30. With a forward curve the differences of a forward variance between strikes are those of the variance to the
date that is as far from the base date as the two dates are from each other. Missing: the level of the forward
variance, which is wrong (`C30_forward_false`); holiday weights and times within days. -/
theorem C30_smile_partial (fuel : Nat) (s : VolSurface) (hf : s.forward ≠ none) (hg : Good s.calendar)
    (hn : NoHolidayWeight s.calendar) (from_ to_ : Point) (hb : before s.baseDate from_) (hft : from_.1 < to_.1)
    (h0 : s.baseDate.2 = 0) (h1 : from_.2 = 0) (h2 : to_.2 = 0) (k k' : Num ℝ) (x x' : ℝ)
    (h : s.forwardVariance fuel from_ to_ k = .ok (.val x)) (h' : s.forwardVariance fuel from_ to_ k' = .ok (.val x')) :
    ∃ m a a', s.variance fuel m k = .ok (.val a) ∧ s.variance fuel m k' = .ok (.val a') ∧ x - x' = a - a' ∧
      ∀ y y', yearFraction s.calendar s.baseDate m = .ok y → yearFraction s.calendar from_ to_ = .ok y' → y = y' := by
  obtain ⟨fwd, hf⟩ := Option.ne_none_iff_exists'.1 hf
  obtain ⟨m, w, e1, e2, c, e3, e4⟩ := forwardVariance_parts hf hb h
  obtain ⟨m', w', e1', e2', c', e3', e4'⟩ := forwardVariance_parts hf hb h'
  have hm := e1
  rw [e1'] at hm
  cases hm
  refine ⟨m, w, w', e2, e2', ?_, ?_⟩
  · rw [e3, e4 k' _ w' x' h' e1 e2']; ring
  · intro y y' hy hy'
    unfold VolSurface.findSmileDate at e1
    obtain ⟨days, hd, e1⟩ := bind_ok e1
    obtain ⟨date, hs, e1⟩ := bind_ok e1
    have e1 := pure_ok e1
    subst e1
    obtain ⟨n, hnat⟩ := count_nat hg hn hft
    rw [h1, h2] at hd
    have hdays : days = (n : ℝ) := by rw [count_ok hg hd, if_pos hft.le, hnat]
    rw [hdays, stepPartial_whole (noWeight_whole hn)] at hs
    have hs : baseStep s.calendar s.baseDate.1 n true = .ok date := hs
    obtain ⟨_, a, ⟨ha, ha'⟩, _, hmv⟩ := baseStep_imp hg hs
    rw [if_pos rfl] at ha'
    obtain ⟨B, hB⟩ := biz_counts hg
    obtain ⟨hbd, hBd⟩ := (moves_count' hB ha n date).1 hmv
    have hn0 : 0 ≤ n := by
      have : (0 : ℝ) ≤ n := by
        rw [← hnat]
        exact manualCount_nonneg (fun x => (cweight_range (noWeight_weights hn) x).1) (by norm_num) (by norm_num) (.inl hft)
      exact_mod_cast this
    have hBa : B a = B (s.baseDate.1 - 1) + 1 := by
      have h3 := hB a
      rw [if_pos ha] at h3
      have h4 : B (a - 1) = B (s.baseDate.1 - 1) := by
        have := B_mono hB (a := s.baseDate.1 - 1) (b := a - 1) (by omega)
        by_contra hne
        have hlt : B (s.baseDate.1 - 1) < B (a - 1) := by omega
        have hex : ∀ z : Nat, (z : Int) ≤ a - s.baseDate.1 → B (s.baseDate.1 - 1 + z) = B (s.baseDate.1 - 1) := by
          intro z hz
          induction z with
          | zero => simp
          | succ z ih =>
            have h5 := hB (s.baseDate.1 - 1 + ((z + 1 : Nat) : Int))
            rw [if_neg (ha'.2 _ (by push_cast; omega) (by omega))] at h5
            rw [h5, show s.baseDate.1 - 1 + ((z + 1 : Nat) : Int) - 1 = s.baseDate.1 - 1 + (z : Int) by push_cast; omega, ih (by omega)]
            simp
        have := hex (a - s.baseDate.1).toNat (by omega)
        rw [show s.baseDate.1 - 1 + ((a - s.baseDate.1).toNat : Int) = a - 1 by omega] at this
        omega
      omega
    have hle : s.baseDate.1 ≤ date := by
      by_contra hlt
      have := B_mono hB (a := date) (b := s.baseDate.1 - 1) (by omega)
      omega
    rw [yf_ideal hg hy, yf_ideal hg hy']
    unfold ideal
    rw [if_pos hle, if_pos hft.le, h0, h1]
    simp only [h2]
    rw [hnat, noWeight_cweight hn, manualCount_eq hB 0 hle]
    unfold weightOf
    rw [if_pos hbd]
    have : (B date - B (s.baseDate.1 - 1) : Int) = n + 1 := by omega
    rw [this]
    push_cast; ring

/-- C30. Within days, on any calendar: the smile is that of a moment at the time of day of the later moment. In the every-day calendar it is on the
day nearest to as long after the base date as the two moments are apart. -/
theorem C30_smile_time (fuel : Nat) (s : VolSurface) (hf : s.forward ≠ none) (from_ to_ : Point) (hb : before s.baseDate from_) (k k' : Num ℝ) (x x' : ℝ)
    (h : s.forwardVariance fuel from_ to_ k = .ok (.val x)) (h' : s.forwardVariance fuel from_ to_ k' = .ok (.val x')) :
    ∃ date a a', s.variance fuel (date, to_.2) k = .ok (.val a) ∧ s.variance fuel (date, to_.2) k' = .ok (.val a') ∧ x - x' = a - a' ∧
      (s.calendar = .everyDay → from_.1 ≤ to_.1 → |((date - s.baseDate.1 : Int) : ℝ) - ((to_.1 : ℝ) + to_.2 - (from_.1 + from_.2))| ≤ 1 / 2) := by
  obtain ⟨fwd, hf⟩ := Option.ne_none_iff_exists'.1 hf
  obtain ⟨m, w, e1, e2, c, e3, e4⟩ := forwardVariance_parts hf hb h
  obtain ⟨m', w', e1', e2', c', e3', e4'⟩ := forwardVariance_parts hf hb h'
  have hm := e1
  rw [e1'] at hm
  cases hm
  have hx := e4 k' _ w' x' h' e1 e2'
  unfold VolSurface.findSmileDate at e1
  obtain ⟨days, hd, e1⟩ := bind_ok e1
  obtain ⟨date, hs, e1⟩ := bind_ok e1
  have e1 := pure_ok e1
  subst e1
  refine ⟨date, w, w', e2, e2', by rw [e3, hx]; ring, ?_⟩
  intro hc hft
  rw [hc] at hd hs
  simp only [stepPartial, finished] at hs
  have hs := Except.ok.inj hs
  have hdays : days = (to_.1 : ℝ) + to_.2 - (from_.1 + from_.2) := by
    simp only [countBusinessDays] at hd
    rw [if_neg (not_lt.2 hft)] at hd
    have := Except.ok.inj hd
    rw [← this]
    push_cast
    ring
  rw [← hs, ← hdays, show ((s.baseDate.1 + roundHalfAway days - s.baseDate.1 : Int) : ℝ) = (roundHalfAway days : ℝ) by push_cast; ring]
  unfold roundHalfAway
  split
  · have h1 := Int.floor_le (days + 1 / 2)
    have h2 := Int.lt_floor_add_one (days + 1 / 2)
    rw [abs_le]
    constructor <;> linarith
  · have h1 := Int.le_ceil (days - 1 / 2)
    have h2 := Int.ceil_lt_add_one (days - 1 / 2)
    rw [abs_le]
    constructor <;> linarith

/-- C30: the one-pillar surface between days 10 and 20 meets the hypotheses. -/
example (fuel : Nat) : ∃ s, VolSurface.newByProbability onePillar = .ok s ∧ s.forward ≠ none ∧ Good s.calendar ∧
    NoHolidayWeight s.calendar ∧ before s.baseDate (10, 0) ∧ s.baseDate.2 = 0 ∧
    s.forwardVariance fuel (10, 0) (20, 0) (.val 100) = .ok (.val 0) := by
  obtain ⟨s, hs, _, _, h⟩ := C30_forward_false fuel
  obtain ⟨ps, _, rfl⟩ := new_ok hs
  exact ⟨_, hs, by rw [VolSurface.forward]; exact Option.some_ne_none _, trivial, trivial, .inl (by norm_num [VolSurface.baseDate, onePillar]), rfl, h⟩

/-! ## C31 construction -/

/-- The variances at the forward, none of them below the one before. -/
theorem buildPillars_iff (input : Input) (prev : ℝ) (smiles : List (Point × Smile)) (As : List ℝ)
    (hA : List.Forall₂ (fun p A => ∃ F T, AtPillar input p F T A) smiles As) :
    (∃ ps, buildPillars input (.val prev) smiles = .ok ps) ↔ (prev :: As).IsChain (· ≤ ·) := by
  induction hA generalizing prev with
  | nil => simp [buildPillars]
  | @cons sm A rest As h hrest ih =>
    obtain ⟨date, smile⟩ := sm
    obtain ⟨F, T, hF, hT, v, hv, rfl⟩ := h
    unfold buildPillars
    simp only [hF, hv, hT, Bind.bind, Except.bind]
    have hmul : num2 (· * ·) (num2 (· * ·) (.val T) (.val v)) (.val v) = .val (T * v ^ 2) := by
      simp only [num2]; congr 1; ring
    rw [List.isChain_cons_cons, hmul]
    by_cases hlt : T * v ^ 2 < prev
    · rw [if_pos (show nlt (.val (T * v ^ 2)) (.val prev) from hlt)]
      constructor
      · rintro ⟨_, h⟩; cases h
      · intro h; exact absurd h.1 (not_le.2 hlt)
    · rw [if_neg (show ¬ nlt (.val (T * v ^ 2)) (.val prev) from hlt), ← ih (T * v ^ 2)]
      constructor
      · rintro ⟨ps, h⟩
        cases hb : buildPillars input (.val (T * v ^ 2)) rest with
        | error e => rw [hb] at h; cases h
        | ok q => exact ⟨not_lt.1 hlt, q, rfl⟩
      · rintro ⟨_, ps, h⟩
        rw [h]
        exact ⟨_, rfl⟩

/-- C31. A surface is built exactly if there is a smile and the variance at the forward is neither negative at the
first nor falls from one pillar to the next. -/
theorem C31_built_iff (input : Input) (As : List ℝ)
    (hA : List.Forall₂ (fun p A => ∃ F T, AtPillar input p F T A) input.smiles As) :
    (∃ s, VolSurface.newByProbability input = .ok s) ↔ input.smiles ≠ [] ∧ (0 :: As).IsChain (· ≤ ·) := by
  rw [← buildPillars_iff input 0 input.smiles As hA]
  constructor
  · rintro ⟨s, h⟩
    obtain ⟨ps, h1, _⟩ := new_ok h
    refine ⟨?_, ps, h1⟩
    intro hn
    unfold VolSurface.newByProbability at h
    rw [hn] at h
    cases h
  · rintro ⟨hne, ps, h⟩
    unfold VolSurface.newByProbability
    split
    · rename_i hn; exact absurd hn hne
    · rw [h]; exact ⟨_, rfl⟩

theorem buildPillars_error (input : Input) (smiles : List (Point × Smile)) (As : List ℝ)
    (hA : List.Forall₂ (fun p A => ∃ F T, AtPillar input p F T A) smiles As) (prev : ℝ) :
    (∃ ps, buildPillars input (.val prev) smiles = .ok ps) ∨ buildPillars input (.val prev) smiles = .error .err := by
  induction hA generalizing prev with
  | nil => exact .inl ⟨_, rfl⟩
  | @cons sm A rest As h hrest ih =>
    obtain ⟨date, smile⟩ := sm
    obtain ⟨F, T, hF, hT, v, hv, rfl⟩ := h
    unfold buildPillars
    simp only [hF, hv, hT, Bind.bind, Except.bind]
    have hmul : num2 (· * ·) (num2 (· * ·) (.val T) (.val v)) (.val v) = .val (T * v ^ 2) := by
      simp only [num2]; congr 1; ring
    rw [hmul]
    split
    · exact .inr rfl
    · rcases ih (T * v ^ 2) with ⟨q, h⟩ | h
      · rw [h]
        exact .inl ⟨_, rfl⟩
      · rw [h]
        exact .inr rfl

/-- C31. A surface that is not built is refused with an error. -/
theorem C31_refused (input : Input) (As : List ℝ) (hA : List.Forall₂ (fun p A => ∃ F T, AtPillar input p F T A) input.smiles As)
    (h : input.smiles = [] ∨ ¬ (0 :: As).IsChain (· ≤ ·)) : VolSurface.newByProbability input = .error .err := by
  have hno : ¬ ∃ s, VolSurface.newByProbability input = .ok s := by
    rw [C31_built_iff input As hA]
    rintro ⟨h1, h2⟩
    rcases h with h | h
    · exact h1 h
    · exact h h2
  have he := buildPillars_error input input.smiles As hA 0
  revert hno
  unfold VolSurface.newByProbability
  cases hs : input.smiles with
  | nil => exact fun _ => rfl
  | cons p ps =>
    rw [hs] at he
    rcases he with ⟨q, h⟩ | h
    · dsimp only
      rw [h]
      exact fun hno => absurd ⟨_, rfl⟩ hno
    · dsimp only
      rw [h]
      exact fun _ => rfl

/-- C31: the pillar of the one-pillar surface is described by its variances. -/
example : List.Forall₂ (fun p A => ∃ F T, AtPillar onePillar p F T A) onePillar.smiles [0] := by
  have y := everyDay_year 0
  push_cast at y
  refine .cons ⟨100, 0, constant_forward _ _ _, ?_, 0.2, rfl, by norm_num⟩ .nil
  simpa [onePillar] using y

/-- C31: a surface of 40% on day 73 and 20% on day 146, whose variance falls, is refused. -/
example : VolSurface.newByProbability { onePillar with smiles := [((73, 0), .flat (.val 0.4)), ((146, 0), .flat (.val 0.2))] } = .error .err := by
  have y := everyDay_year 73
  have y' := everyDay_year 146
  push_cast at y y'
  refine C31_refused _ [73 / 365 * 0.4 ^ 2, 146 / 365 * 0.2 ^ 2] ?_ (.inr (by norm_num))
  refine .cons ⟨100, 73 / 365, constant_forward _ _ _, ?_, 0.4, rfl, rfl⟩ (.cons ⟨100, 146 / 365, constant_forward _ _ _, ?_, 0.2, rfl, rfl⟩ .nil)
  · simpa [onePillar] using y
  · simpa [onePillar] using y'

/-! ## C33 the opposite of a time-scaled bump -/

/-- C33. A time-scaled bump by `b` and then its opposite leave a volatility short of or above its old value by
the bump and a term of second order, both over the square root of time. Missing: the volatility moves by
`- b / √T`, which holds for `b = 0` only. -/
theorem C33_time_partial (fuel : Nat) (s : VolSurface) (b v floor : ℝ) (t : Point) (k : Num ℝ) (T : ℝ)
    (h : s.volatilities fuel t [k] = .ok (T, [.val v])) (hb : 1 + b ≠ 0) (hT : 0 < T) (hfloor : floor ≤ T)
    (h1 : 0 ≤ v + b / Real.sqrt T) (h2 : 0 ≤ v - (b - 2 * b ^ 2 / (1 + b)) / Real.sqrt T) :
    ((BumpVol.timeScaled (.val b) floor).opposite.apply ((BumpVol.timeScaled (.val b) floor).apply s)).volatilities fuel t [k]
      = .ok (T, [.val (v - (b - 2 * b ^ 2 / (1 + b)) / Real.sqrt T)]) := by
  have e1 := C32_size_time fuel s b floor t [k] [v] T h (.inl hT)
  simp only [List.map_cons, List.map_nil, if_neg (not_lt.2 hfloor), if_pos h1] at e1
  have ho : (BumpVol.timeScaled (.val b) floor).opposite = .timeScaled (.val ((1 - b) / (1 + b) - 1)) floor := by
    unfold BumpVol.opposite BumpVol.bumpsize
    simp only [num1]
    rw [show ndiv (.val (1 - b)) (.val (1 + b)) = .val ((1 - b) / (1 + b)) from if_neg hb]
  rw [ho]
  have e2 := C32_size_time fuel _ ((1 - b) / (1 + b) - 1) floor t [k] [v + b / Real.sqrt T] T e1 (.inl hT)
  have e : v + b / Real.sqrt T + ((1 - b) / (1 + b) - 1) / Real.sqrt T = v - (b - 2 * b ^ 2 / (1 + b)) / Real.sqrt T := by
    have hs : Real.sqrt T ≠ 0 := Real.sqrt_ne_zero'.2 hT
    field_simp
    ring
  simp only [List.map_cons, List.map_nil, if_neg (not_lt.2 hfloor), e, if_pos h2] at e2
  exact e2

/-- C33: a volatility of 20% over a quarter of a year and a bump of 1% meet the hypotheses. -/
example : 0 ≤ (0.2 : ℝ) + 0.01 / Real.sqrt 0.25 ∧ 0 ≤ (0.2 : ℝ) - (0.01 - 2 * 0.01 ^ 2 / (1 + 0.01)) / Real.sqrt 0.25 := by
  have h : Real.sqrt 0.25 = 0.5 := by
    rw [show (0.25 : ℝ) = 0.5 ^ 2 by norm_num]
    exact Real.sqrt_sq (by norm_num)
  rw [h]
  norm_num

/-! ## C69 no negative times -/

/-- C69. A surface moved in time reports no negative time to any expiry, passed or not. -/
theorem C69_nonneg (fuel : Nat) (dyn : VolTimeDynamics) {s s' : VolSurface} {d : Int} (h : dyn.modify s d = .ok s')
    (hch : s' ≠ s) {t : Point} {ks vs : List (Num ℝ)} {T : ℝ} (hv : s'.volatilities fuel t ks = .ok (T, vs)) : 0 ≤ T := by
  unfold VolTimeDynamics.modify at h
  split at h
  · exact absurd (Except.ok.inj h).symm hch
  · obtain ⟨o, ho, h⟩ := bind_ok h
    split at h
    · exact absurd (pure_ok h).symm hch
    · cases dyn with
      | constantExpiry =>
        rw [← pure_ok h] at hv
        obtain ⟨⟨T0, out⟩, _, h2⟩ := bind_ok hv
        have := pure_ok h2
        cases this
        exact le_max_right _ _
      | rollingExpiry =>
        rw [← pure_ok h] at hv
        obtain ⟨e, _, hv⟩ := bind_ok hv
        obtain ⟨⟨T0, out⟩, _, h2⟩ := bind_ok hv
        have := pure_ok h2
        cases this
        exact le_max_right _ _

/-! ## C71 displacements -/

/-- C71. A surface built from pillars displaces strikes by what its dividend assumption and its own cash curve say. -/
theorem C71_built {input : Input} {s : VolSurface} (h : VolSurface.newByProbability input = .ok s) (date : Int) :
    s.divAssumptions = input.divAssumptions ∧
      s.displacement date = displaced (input.fixedDivsAfter.interpolate (.val (date : ℝ))) input.divAssumptions := by
  obtain ⟨ps, _, rfl⟩ := new_ok h
  refine ⟨rfl, ?_⟩
  unfold VolSurface.displacement displacementBy displaced atDate
  cases input.divAssumptions <;> rfl

/-- C71. A flat surface displaces nothing. -/
theorem C71_flat (v : Num ℝ) (c : Cal ℝ) (base : Point) (date : Int) :
    (VolSurface.flat v c base).divAssumptions = .noCashDivs ∧ (VolSurface.flat v c base).displacement date = .ok (.val 0) :=
  ⟨rfl, rfl⟩

/-- C71. Parallel and time-scaled bumps and the passing of time leave the assumption, the displacement and the
forward of a surface as they are, however many are applied. -/
theorem C71_kept {base s : VolSurface} (h : Stacked base s) :
    s.divAssumptions = base.divAssumptions ∧ s.displacement = base.displacement ∧ s.forward = base.forward ∧
      s.calendar = base.calendar := by
  induction h with
  | self => exact ⟨rfl, rfl, rfl, rfl⟩
  | parallel b _ ih => exact ⟨ih.1, by rw [← ih.2.1]; rfl, ih.2.2.1, ih.2.2.2⟩
  | timeScaled b f _ ih => exact ⟨ih.1, by rw [← ih.2.1]; rfl, ih.2.2.1, ih.2.2.2⟩
  | evolved dyn d _ h' ih =>
    unfold VolTimeDynamics.modify at h'
    split at h'
    · cases h'; exact ih
    · obtain ⟨o, ho, h'⟩ := bind_ok h'
      split at h'
      · rw [← pure_ok h']; exact ih
      · cases dyn with
        | constantExpiry => rw [← pure_ok h']; exact ⟨ih.1, by rw [← ih.2.1]; rfl, ih.2.2.1, ih.2.2.2⟩
        | rollingExpiry => rw [← pure_ok h']; exact ⟨ih.1, by rw [← ih.2.1]; rfl, ih.2.2.1, ih.2.2.2⟩

/-- C71. A surface that follows a new forward keeps its assumption and displaces strikes by the cash of the new
forward. -/
theorem C71_shifted {s s' : VolSurface} {f : Unit → Outcome Fwd} {new : Fwd} (hf : f () = .ok new)
    (h : VolForwardDynamics.stickyDelta.modify s f = .ok s') (hch : s' ≠ s) (date : Int) :
    s'.divAssumptions = s.divAssumptions ∧ s'.displacement date = displaced (new.fixedDivsAfter date) s.divAssumptions := by
  unfold VolForwardDynamics.modify at h
  rw [if_neg (by decide)] at h
  split at h
  · exact absurd (Except.ok.inj h).symm hch
  · obtain ⟨fw, h1, h⟩ := bind_ok h
    rw [hf] at h1
    cases h1
    obtain ⟨a, _, h⟩ := bind_ok h
    obtain ⟨b, _, h⟩ := bind_ok h
    split at h
    · exact absurd (pure_ok h).symm hch
    · rw [← pure_ok h]
      refine ⟨rfl, ?_⟩
      show displacementBy s.divAssumptions (new.fixedDivsAfter date) = _
      unfold displacementBy displaced
      cases s.divAssumptions <;> rfl

/-- A surface with one flat smile of 20% and fixed dividends of 5 still to be paid. -/
noncomputable def fixedCash : Input := { onePillar with
  divAssumptions := .fixedDivs
  fixedDivsAfter := ⟨.flat, .flat, [(.val ((0 : Int) : ℝ), 5)]⟩ }

/-- C71 violated by replacement bumps: a surface displaced by the fixed dividends still to come is not displaced
any more after its volatilities are replaced. -/
theorem C71_replace_false : ∃ s, VolSurface.newByProbability fixedCash = .ok s ∧ s.displacement 10 = .ok (.val 5) ∧
    ((BumpVol.replace (.val 0.2)).apply s).displacement 10 = .ok (.val 0) := by
  have hA : List.Forall₂ (fun p A => ∃ F T, AtPillar fixedCash p F T A) fixedCash.smiles [0] := by
    have y := everyDay_year 0
    push_cast at y
    refine .cons ⟨100, 0, constant_forward _ _ _, ?_, 0.2, rfl, by norm_num⟩ .nil
    simpa [fixedCash, onePillar] using y
  obtain ⟨s, hs⟩ := (C31_built_iff fixedCash [0] hA).2 ⟨by simp [fixedCash, onePillar], by simp⟩
  refine ⟨s, hs, ?_, rfl⟩
  rw [(C71_built hs 10).2]
  exact constant_forward _ _ _

end QM.Vol
