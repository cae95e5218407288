import Verif.Vol.Props

/-!
# Lemmas about the evolution of vol surfaces
-/

namespace QM.Vol
open QM.Interp QM.Calendar Spec QM.Calendar.Spec

/-- The year fraction without its failures. -/
noncomputable def ideal (c : Cal ℝ) (a b : Point) : ℝ :=
  if a.1 ≤ b.1 then manualCount (cweight c) a.1 a.2 b.1 b.2 / standardBasis c else 0

theorem yf_ideal {c : Cal ℝ} (hg : Good c) {a b : Point} {T : ℝ} (h : yearFraction c a b = .ok T) : T = ideal c a b := by
  obtain ⟨d, h1, rfl⟩ := yf_ok h
  rw [count_ok hg h1]
  unfold ideal
  split <;> simp

theorem ideal_nonneg {c : Cal ℝ} (hw : GoodWeights c) {a b : Point} (ha : a.2 ≤ 1) (hb : 0 ≤ b.2) (hab : ¬ before b a) :
    0 ≤ ideal c a b := by
  unfold ideal
  split
  · refine div_nonneg (manualCount_nonneg (fun d => (cweight_range hw d).1) ha hb ?_) (basis_pos hw).le
    exact not_before hab
  · exact le_refl _

theorem ideal_add {c : Cal ℝ} {x y z : Point} (hxy : x.1 ≤ y.1) (hyz : y.1 ≤ z.1) :
    ideal c x y + ideal c y z = ideal c x z := by
  unfold ideal
  rw [if_pos hxy, if_pos hyz, if_pos (by omega), ← manualCount_add hxy hyz x.2 y.2 z.2, add_div]

/-- A built surface reports the year fraction of the point asked for. -/
theorem byProbability_time {fuel : Nat} {input : Input} {s : VolSurface} (h : VolSurface.newByProbability input = .ok s)
    {t : Point} {ks vs : List (Num ℝ)} {T : ℝ} (hv : s.volatilities fuel t ks = .ok (T, vs)) :
    yearFraction input.calendar input.baseDate t = .ok T := by
  obtain ⟨ps, hps, rfl⟩ := new_ok h
  have hx : ∀ {sm q}, extrapolate input sm q t ks = .ok (T, vs) → yearFraction input.calendar input.baseDate t = .ok T := by
    intro sm q h
    unfold extrapolate at h
    obtain ⟨T', h1, h⟩ := bind_ok h
    cases ks with
    | nil => have := pure_ok h; cases this; exact h1
    | cons k ks =>
      obtain ⟨_, _, h⟩ := bind_ok h
      obtain ⟨_, _, h⟩ := bind_ok h
      have := pure_ok h; cases this; exact h1
  unfold VolSurface.volatilities byProbabilityVolatilities at hv
  simp only at hv
  split at hv
  · rename_i hs
    obtain ⟨⟨sm, q⟩, hq, hv⟩ := bind_ok hv
    obtain ⟨out, _, hv⟩ := bind_ok hv
    have := pure_ok hv
    cases this
    have hs' : (input.smiles[(searchSmile input.smiles t).1]?).map Prod.fst = some t := by
      unfold searchSmile at hs ⊢
      simpa using hs
    cases hi : input.smiles[(searchSmile input.smiles t).1]? with
    | none => rw [hi] at hs'; cases hs'
    | some p =>
      rw [hi] at hs' hq
      obtain ⟨q', hq', hy, _⟩ := getpillar_exists hps hi
      rw [hq'] at hq
      cases hq
      cases hs'
      exact hy
  · split at hv
    · obtain ⟨⟨sm, q⟩, hq, hv⟩ := bind_ok hv
      exact hx hv
    · split at hv
      · obtain ⟨⟨sm, q⟩, hq, hv⟩ := bind_ok hv
        exact hx hv
      · obtain ⟨⟨sm, q⟩, hq, hv⟩ := bind_ok hv
        obtain ⟨⟨sm', q'⟩, hq', hv⟩ := bind_ok hv
        unfold interpolate at hv
        obtain ⟨T', h1, hv⟩ := bind_ok hv
        cases ks with
        | nil => have := pure_ok hv; cases this; exact h1
        | cons k ks =>
          obtain ⟨_, _, hv⟩ := bind_ok hv
          obtain ⟨_, _, hv⟩ := bind_ok hv
          obtain ⟨_, _, hv⟩ := bind_ok hv
          obtain ⟨_, _, hv⟩ := bind_ok hv
          have := pure_ok hv; cases this; exact h1

/-- The decorator of each time evolution. -/
def decorated : VolTimeDynamics → VolSurface → ℝ → Point → VolSurface
  | .constantExpiry, s, offset, base => .constantExpiry s offset base
  | .rollingExpiry, s, offset, base => .rollingExpiry s offset base

/-- What `VolTimeDynamics::modify` does. -/
theorem modify_cases {dyn : VolTimeDynamics} {s s' : VolSurface} {d : Int} (hg : Good s.calendar)
    (h : dyn.modify s d = .ok s') :
    s' = s ∨ ∃ offset, s.baseDate.1 < d ∧ yearFraction s.calendar s.baseDate (d, 0) = .ok offset ∧
      s' = decorated dyn s offset (d, 0) := by
  unfold VolTimeDynamics.modify at h
  split at h
  · cases h; exact .inl rfl
  · rename_i hd
    obtain ⟨o, ho, h⟩ := bind_ok h
    split at h
    · left; exact (pure_ok h).symm
    · rename_i hn
      right
      refine ⟨o, ?_, ho, ?_⟩
      · by_contra hlt
        have := yf_ideal hg ho
        unfold ideal at this
        rw [if_neg (by simp only; omega)] at this
        rw [this] at hn
        norm_num at hn
      · cases dyn <;> exact (pure_ok h).symm

theorem modify_calendar {dyn : VolTimeDynamics} {s s' : VolSurface} {d : Int}
    (h : dyn.modify s d = .ok s') : s'.calendar = s.calendar := by
  unfold VolTimeDynamics.modify at h
  split at h
  · cases h; rfl
  · obtain ⟨o, ho, h⟩ := bind_ok h
    split at h
    · rw [← pure_ok h]
    · cases dyn
      · rw [← pure_ok h]; rfl
      · rw [← pure_ok h]; rfl

theorem bump_calendar (b : BumpVol) (s : VolSurface) : (b.apply s).calendar = s.calendar ∧ (b.apply s).baseDate = s.baseDate := by
  cases b <;> exact ⟨rfl, rfl⟩

/-- What `VolForwardDynamics::modify` does. -/
theorem sticky_cases {s s' : VolSurface} {f : Unit → Outcome Fwd} (h : VolForwardDynamics.stickyDelta.modify s f = .ok s') :
    s' = s ∨ ∃ fwd, f () = .ok fwd ∧ s' = .stickyDeltaBump s fwd := by
  unfold VolForwardDynamics.modify at h
  rw [if_neg (by decide)] at h
  split at h
  · cases h; exact .inl rfl
  · obtain ⟨fwd, h1, h⟩ := bind_ok h
    simp only at h
    obtain ⟨_, _, h⟩ := bind_ok h
    obtain ⟨_, _, h⟩ := bind_ok h
    split at h
    · exact .inl (pure_ok h).symm
    · exact .inr ⟨fwd, h1, (pure_ok h).symm⟩

theorem sticky_time {fuel : Nat} {s : VolSurface} {f : Fwd} {t : Point} {ks vs : List (Num ℝ)} {T : ℝ}
    (h : (VolSurface.stickyDeltaBump s f).volatilities fuel t ks = .ok (T, vs)) :
    ∃ ks', s.volatilities fuel t ks' = .ok (T, vs) := by
  unfold VolSurface.volatilities at h
  cases ks with
  | nil => exact ⟨_, h⟩
  | cons k ks =>
    simp only at h
    cases hf : s.forward with
    | none => rw [hf] at h; exact ⟨_, h⟩
    | some fwd =>
      rw [hf] at h
      simp only at h
      obtain ⟨_, _, h⟩ := bind_ok h
      obtain ⟨_, _, h⟩ := bind_ok h
      exact ⟨_, h⟩

theorem dated_time {fuel : Nat} {s : VolSurface} (hs : Dated s) (hg : Good s.calendar) (hw : GoodWeights s.calendar)
    {t : Point} (ht : 0 ≤ t.2) (hb : ¬ before t s.baseDate) {ks vs : List (Num ℝ)} {T : ℝ}
    (h : s.volatilities fuel t ks = .ok (T, vs)) : T = ideal s.calendar s.baseDate t := by
  induction hs generalizing ks vs T with
  | flat v c base =>
    unfold VolSurface.volatilities at h
    obtain ⟨T', h1, h2⟩ := bind_ok h
    have := pure_ok h2
    cases this
    exact yf_ideal hg h1
  | byProbability hn =>
    have := byProbability_time hn h
    obtain ⟨ps, _, rfl⟩ := new_ok hn
    exact yf_ideal hg this
  | bumped b hs ih =>
    obtain ⟨e1, e2⟩ := bump_calendar b _
    rw [e1] at hg hw ⊢
    rw [e2] at hb ⊢
    cases b with
    | flatAdditive size =>
      unfold BumpVol.apply VolSurface.volatilities at h
      obtain ⟨⟨T', out⟩, h1, h2⟩ := bind_ok h
      have := pure_ok h2
      cases this
      exact ih hg hw hb h1
    | timeScaled size floor =>
      unfold BumpVol.apply VolSurface.volatilities at h
      obtain ⟨⟨T', out⟩, h1, h2⟩ := bind_ok h
      have := pure_ok h2
      cases this
      exact ih hg hw hb h1
    | replace v =>
      unfold BumpVol.apply VolSurface.volatilities at h
      obtain ⟨T', h1, h2⟩ := bind_ok h
      have := pure_ok h2
      cases this
      exact yf_ideal hg h1
  | shifted f hs h' ih =>
    rcases sticky_cases h' with rfl | ⟨fwd, _, rfl⟩
    · exact ih hg hw hb h
    · obtain ⟨ks', h⟩ := sticky_time h
      exact ih hg hw hb h
  | @evolved s0 s1 d hs h' ih =>
    have hcal := modify_calendar h'
    rw [hcal] at hg hw
    rcases modify_cases hg h' with rfl | ⟨o, hd, ho, rfl⟩
    · exact ih hg hw hb h
    · change ¬ before t (d, 0) at hb
      change _ = ideal s0.calendar (d, 0) t
      unfold decorated at h
      unfold VolSurface.volatilities at h
      obtain ⟨⟨T', out⟩, h1, h2⟩ := bind_ok h
      have := pure_ok h2
      cases this
      have hdt : d ≤ t.1 := by
        by_contra hlt
        exact hb (.inl (by simp only; omega))
      have hb' : ¬ before t s0.baseDate := by
        intro hbt
        refine hb ?_
        rcases hbt with hbt | ⟨hbt, _⟩
        · left; simp only; omega
        · left; simp only; omega
      have e := ih hg hw hb' h1
      have hadd := ideal_add (c := s0.calendar) (x := s0.baseDate) (y := (d, 0)) (z := t) hd.le hdt
      have ho' := yf_ideal hg ho
      have hnn := ideal_nonneg hw (a := (d, 0)) (b := t) (by norm_num) ht hb
      rw [e, ho']
      rw [max_eq_left (by linarith)]
      linarith

theorem noWeight_weights {c : Cal ℝ} (h : NoHolidayWeight c) : GoodWeights c := by
  induction c with
  | everyDay => trivial
  | weekday => trivial
  | weekdayAndHoliday hs => trivial
  | volatility c w ih => exact ⟨h.1 ▸ le_refl _, by rw [h.1]; norm_num, ih h.2⟩

/-- Without weights on holidays the count between the beginnings of two days is a whole number. -/
theorem count_nat {c : Cal ℝ} (hg : Good c) (hn : NoHolidayWeight c) {b d : Int} (hbd : b < d) :
    ∃ n : Int, manualCount (cweight c) b 0 d 0 = (n : ℝ) := by
  obtain ⟨B, hB⟩ := biz_counts hg
  rw [noWeight_cweight hn, manualCount_eq hB 0 hbd.le]
  by_cases hd : Biz c d
  · refine ⟨B d - B (b - 1) - 1, ?_⟩
    unfold weightOf
    rw [if_pos hd]
    push_cast; ring
  · refine ⟨B d - B (b - 1), ?_⟩
    unfold weightOf
    rw [if_neg hd]
    push_cast; ring

/-- On a calendar without weights on holidays, stepping back from a business day by the business days between two
points takes the count from the second point to the count from the first. -/
theorem rolled_count {c : Cal ℝ} (hg : Good c) (hn : NoHolidayWeight c) {b d t e n : Int} {f : ℝ} (hbd : b < d) (hdt : d ≤ t)
    (ht : Biz c t) (hcount : manualCount (cweight c) b 0 d 0 = (n : ℝ)) (h : baseStep c t (-n) false = .ok e) :
    b ≤ e ∧ Biz c e ∧ manualCount (cweight c) b 0 e f = manualCount (cweight c) d 0 t f := by
  obtain ⟨_, a, h1, _, h2⟩ := baseStep_imp hg h
  rw [isSlip_self ht] at h1
  subst h1
  obtain ⟨B, hB⟩ := biz_counts hg
  obtain ⟨he, hBe⟩ := (moves_count' hB ht (-n) e).1 h2
  rw [noWeight_cweight hn] at hcount ⊢
  rw [manualCount_eq hB 0 hbd.le] at hcount
  have hn' : n = B (d - 1) - B (b - 1) := by
    have hBd := hB d
    unfold weightOf at hcount
    have : (n : ℝ) = ((B (d - 1) - B (b - 1) : Int) : ℝ) := by
      rw [← hcount]
      by_cases hd : Biz c d
      · rw [if_pos hd] at hBd ⊢
        rw [hBd]; push_cast; ring
      · rw [if_neg hd] at hBd ⊢
        rw [hBd]; push_cast; ring
    exact_mod_cast this
  have hbe : b ≤ e := by
    by_contra hlt
    have h3 := B_mono hB (a := e) (b := b - 1) (by omega)
    have h4 := B_lt hB (a := d - 1) (b := a) (by omega) ht
    omega
  refine ⟨hbe, he, ?_⟩
  rw [manualCount_eq hB 0 hbe, manualCount_eq hB 0 hdt]
  unfold weightOf
  rw [if_pos he, if_pos ht]
  have : B e - B (b - 1) = B a - B (d - 1) := by omega
  rw [this]
  ring

end QM.Vol
