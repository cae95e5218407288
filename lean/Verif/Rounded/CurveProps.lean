import Verif.Rounded.CurveModel
import Verif.Rounded.RiskProps
import Mathlib.Analysis.SpecialFunctions.Exp

/-!
# Property C108: discounting and adding up in floating-point arithmetic

The properties C20, C21, C57, C68 and C77 are about exact numbers. These theorems are about the same code when every operation rounds its
result, and `exp` and `ln` are those of a maths library. `r` is any rounding that keeps the promises of IEEE 754, without overflow and underflow.
-/

namespace QM.Rounded
open QM.Interp (Num Extrap)

namespace Spec

/-- The rate on a date of a curve through points: that of the point, or on the straight line between the points next to the date. -/
inductive Quoted (points : List (Int × ℝ)) : Int → ℝ → Prop
  | point {d : Int} {y : ℝ} : (d, y) ∈ points → Quoted points d y
  | between {before after : List (Int × ℝ)} {d0 d1 x : Int} {y0 y1 : ℝ} : points = before ++ (d0, y0) :: (d1, y1) :: after → d0 < x → x < d1 →
    d1 - d0 < 2 ^ 31 → Quoted points x (y0 + (y1 - y0) * ((x - d0 : Int) / (d1 - d0 : Int) : ℝ))

end Spec

open Spec

variable {r : Rounding ℝ} {lib : Library} {c : RateCurve}

/-! ## Lemmas -/

theorem bind_val {α β : Type} {x : Outcome α} {a : α} {f : α → Outcome β} (h : x = .ok a) : (x >>= f) = f a := by rw [h]; rfl

theorem lib_pos (x : ℝ) : 0 < lib.exp x := by
  have h := lib.expClose x
  have := lib.small
  have hp := Real.exp_pos x
  rw [abs_le] at h
  nlinarith

theorem lib_factor (x : ℝ) : ∃ e, |e| ≤ lib.error ∧ lib.exp x = Real.exp x * (1 + e) := by
  have hp := Real.exp_pos x
  refine ⟨(lib.exp x - Real.exp x) / Real.exp x, ?_, by field_simp; ring⟩
  rw [abs_div, abs_of_pos hp, div_le_iff₀ hp]
  exact lib.expClose x

theorem error_nonneg : 0 ≤ lib.error := by
  have h := (abs_nonneg _).trans (lib.expClose 0)
  rwa [Real.exp_zero, mul_one] at h

/-- One plus a small number is between exponentials of twice its size. -/
theorem one_add_exp {x e : ℝ} (hx : |x| ≤ e) (he : e ≤ 1 / 2) : Real.exp (-(2 * e)) ≤ 1 + x ∧ 1 + x ≤ Real.exp (2 * e) := by
  obtain ⟨h1, h2⟩ := abs_le.1 hx
  have he0 : 0 ≤ e := (abs_nonneg _).trans hx
  constructor
  · have h3 : 1 ≤ (1 - e) * (1 + 2 * e) := by nlinarith
    have h4 : 1 + 2 * e ≤ Real.exp (2 * e) := by linarith [Real.add_one_le_exp (2 * e)]
    rw [Real.exp_neg, inv_le_iff_one_le_mul₀ (Real.exp_pos _)]
    have : 0 < 1 - e := by linarith
    nlinarith
  · linarith [Real.add_one_le_exp (2 * e)]

theorem exp_near {x t : ℝ} (h1 : Real.exp (-t) ≤ x) (h2 : x ≤ Real.exp t) (ht0 : 0 ≤ t) (ht : t ≤ 1) : |x - 1| ≤ 2 * t := by
  have a := Real.abs_exp_sub_one_le (x := t) (by rwa [abs_of_nonneg ht0])
  have b := Real.abs_exp_sub_one_le (x := -t) (by rwa [abs_neg, abs_of_nonneg ht0])
  rw [abs_neg, abs_of_nonneg ht0] at b
  rw [abs_of_nonneg ht0] at a
  rw [abs_le] at a b ⊢
  exact ⟨by linarith, by linarith⟩

/-- A discount factor from what the curve says of both dates. -/
theorem df_val {a b : Int} {x y : ℝ} (ha : c.rt r lib a = .ok (.val x)) (hb : c.rt r lib b = .ok (.val y)) :
    c.df r lib a b = .ok (.val (lib.exp (r.rnd (y - x)))) := by
  unfold RateCurve.df
  by_cases h : a = b
  · subst h
    rw [ha] at hb
    cases hb
    rw [if_pos rfl, sub_self, r.zero, lib.expZero]
  · rw [if_neg h, bind_val ha, bind_val hb]
    rfl

/-! ## C108: curves -/

/-- C108, nothing to discount: from a date to itself, and on the curve of nought, the factor is exactly one. -/
theorem C108_one (r : Rounding ℝ) (lib : Library) (c : RateCurve) (base a b : Int) : c.df r lib a a = .ok (.val 1) ∧ (RateCurve.zero base).df r lib a b = .ok (.val 1) := by
  constructor
  · unfold RateCurve.df
    rw [if_pos rfl]
  · have : ∀ d, (RateCurve.zero base).rt r lib d = .ok (.val 0) := by
      intro d
      show Except.ok (Num.val (r.rnd (0 * 0))) = _
      rw [mul_zero, r.zero]
    rw [df_val (this a) (this b), sub_self, r.zero, lib.expZero]

/-- C108, factors compose. For any curve that has rates on three dates, going there in two steps multiplies factors to the factor of going there
in one, up to a relative error of the size of a few roundings. -/
theorem C108_compose {a b d : Int} {x y z M : ℝ} (ha : c.rt r lib a = .ok (.val x)) (hb : c.rt r lib b = .ok (.val y)) (hd : c.rt r lib d = .ok (.val z))
    (h1 : |y - x| ≤ M) (h2 : |z - y| ≤ M) (h3 : |z - x| ≤ M) (hu : r.unit ≤ 1 / 2) (hsmall : 3 * r.unit * M + 6 * lib.error + 2 * r.unit ≤ 1) :
    ∃ D₁ D₂ D, c.df r lib a b = .ok (.val D₁) ∧ c.df r lib b d = .ok (.val D₂) ∧ c.df r lib a d = .ok (.val D) ∧ 0 < D ∧
      |r.rnd (D₁ * D₂) - D| ≤ 2 * (3 * r.unit * M + 6 * lib.error + 2 * r.unit) * D := by
  refine ⟨_, _, _, df_val ha hb, df_val hb hd, df_val ha hd, lib_pos _, ?_⟩
  have hu0 := r.unit_nonneg
  have he0 := error_nonneg (lib := lib)
  obtain ⟨e1, k1, q1⟩ := lib_factor (lib := lib) (r.rnd (y - x))
  obtain ⟨e2, k2, q2⟩ := lib_factor (lib := lib) (r.rnd (z - y))
  obtain ⟨e3, k3, q3⟩ := lib_factor (lib := lib) (r.rnd (z - x))
  obtain ⟨e4, k4, q4⟩ := factor r (lib.exp (r.rnd (y - x)) * lib.exp (r.rnd (z - y)))
  have c1 := (r.close (y - x)).trans (mul_le_mul_of_nonneg_left h1 hu0)
  have c2 := (r.close (z - y)).trans (mul_le_mul_of_nonneg_left h2 hu0)
  have c3 := (r.close (z - x)).trans (mul_le_mul_of_nonneg_left h3 hu0)
  obtain ⟨l1, l2⟩ := abs_le.1 c1
  obtain ⟨l3, l4⟩ := abs_le.1 c2
  obtain ⟨l5, l6⟩ := abs_le.1 c3
  obtain ⟨m1, m2⟩ := one_add_exp k1 lib.small
  obtain ⟨m3, m4⟩ := one_add_exp k2 lib.small
  obtain ⟨m5, m6⟩ := one_add_exp k3 lib.small
  obtain ⟨m7, m8⟩ := one_add_exp k4 hu
  set s := r.rnd (y - x) + r.rnd (z - y) - r.rnd (z - x) with hs
  have hs1 : -(3 * r.unit * M) ≤ s := by rw [hs]; linarith
  have hs2 : s ≤ 3 * r.unit * M := by rw [hs]; linarith
  set t := 3 * r.unit * M + 6 * lib.error + 2 * r.unit with ht
  have hD := lib_pos (lib := lib) (r.rnd (z - x))
  have pos1 : 0 ≤ 1 + e1 := (Real.exp_pos _).le.trans m1
  have pos2 : 0 ≤ 1 + e2 := (Real.exp_pos _).le.trans m3
  have pos3 : 0 < 1 + e3 := (Real.exp_pos _).trans_le m5
  have pos4 : 0 ≤ 1 + e4 := (Real.exp_pos _).le.trans m7
  have e : r.rnd (lib.exp (r.rnd (y - x)) * lib.exp (r.rnd (z - y))) =
      lib.exp (r.rnd (z - x)) * (Real.exp s * ((1 + e1) * (1 + e2) * (1 + e4)) / (1 + e3)) := by
    rw [q4, q1, q2, q3]
    have : Real.exp s = Real.exp (r.rnd (y - x)) * Real.exp (r.rnd (z - y)) / Real.exp (r.rnd (z - x)) := by
      rw [hs, Real.exp_sub, Real.exp_add]
    rw [this]
    have := (Real.exp_pos (r.rnd (z - x))).ne'
    field_simp
  rw [e]
  set q := Real.exp s * ((1 + e1) * (1 + e2) * (1 + e4)) / (1 + e3) with hq
  have hq1 : Real.exp (-t) ≤ q := by
    rw [hq, le_div_iff₀ pos3]
    calc Real.exp (-t) * (1 + e3) ≤ Real.exp (-t) * Real.exp (2 * lib.error) := mul_le_mul_of_nonneg_left m6 (Real.exp_pos _).le
      _ = Real.exp (-(3 * r.unit * M)) * (Real.exp (-(2 * lib.error)) * Real.exp (-(2 * lib.error)) * Real.exp (-(2 * r.unit))) := by
          rw [← Real.exp_add, ← Real.exp_add, ← Real.exp_add, ← Real.exp_add, ht]
          congr 1
          ring
      _ ≤ _ := by
          gcongr
  have hq2 : q ≤ Real.exp t := by
    rw [hq, div_le_iff₀ pos3]
    calc Real.exp s * ((1 + e1) * (1 + e2) * (1 + e4)) ≤ Real.exp (3 * r.unit * M) * (Real.exp (2 * lib.error) * Real.exp (2 * lib.error) * Real.exp (2 * r.unit)) := by
          gcongr
      _ = Real.exp t * Real.exp (-(2 * lib.error)) := by
          rw [← Real.exp_add, ← Real.exp_add, ← Real.exp_add, ← Real.exp_add, ht]
          congr 1
          ring
      _ ≤ _ := mul_le_mul_of_nonneg_left m5 (Real.exp_pos _).le
  have hM : 0 ≤ M := (abs_nonneg _).trans h1
  have := exp_near hq1 hq2 (by positivity) hsmall
  rw [show lib.exp (r.rnd (z - x)) * q - lib.exp (r.rnd (z - x)) = (q - 1) * lib.exp (r.rnd (z - x)) by ring, abs_mul, abs_of_pos hD]
  exact mul_le_mul_of_nonneg_right this hD.le

theorem act365_mono (r : Rounding ℝ) {base d e : Int} (h : d ≤ e) : act365 r base d ≤ act365 r base e := by
  unfold act365
  apply r.mono
  exact div_le_div_of_nonneg_right (r.mono _ _ (by exact_mod_cast (by omega : d - base ≤ e - base))) (by norm_num)

theorem act365_base (r : Rounding ℝ) (base : Int) : act365 r base base = 0 := by
  unfold act365
  rw [sub_self, Int.cast_zero, r.zero, zero_div, r.zero]

theorem one_point (r : Rounding ℝ) (p : Int) (y : ℝ) (d : Int) : Linear.interpolate r ⟨.flat, .flat, [(p, y)]⟩ d = .ok (.val y) := by
  have hn : Linear.new r [(p, y)] .flat .flat = .ok ⟨.flat, .flat, [(p, y)]⟩ := (new_iff ..).2 ⟨rfl, by simp, by simp⟩
  rcases lt_trichotomy d p with h | h | h
  · have := (C83_outside hn (first := (p, y)) (last := (p, y)) rfl rfl (by simp) (by simp) d).1 h
    rw [this]
    rfl
  · subst h
    exact C83_pillar hn (by simp)
  · have := (C83_outside hn (first := (p, y)) (last := (p, y)) rfl rfl (by simp) (by simp) d).2 h
    rw [this]
    rfl

/-- C108, order. On a flat curve with a rate of nought or more, factors follow the dates exactly, whatever is rounded: later payment means a factor that is no
smaller, an earlier start likewise, and no factor from a date to a later one is below one. -/
theorem C108_flat (r : Rounding ℝ) (lib : Library) (base p : Int) {y : ℝ} (hy : 0 ≤ y) : ∃ c, RateCurve.newAct365 r base [(p, y)] .flat .flat = .ok c ∧
    ∃ D : Int → Int → ℝ, (∀ a b, c.df r lib a b = .ok (.val (D a b))) ∧ (∀ a b, a ≤ b → 1 ≤ D a b) ∧
      (∀ a b d, b ≤ d → D a b ≤ D a d) ∧ ∀ a b d, a ≤ b → D b d ≤ D a d := by
  have hn : Linear.new r [(p, y)] .flat .flat = .ok ⟨.flat, .flat, [(p, y)]⟩ := (new_iff ..).2 ⟨rfl, by simp, by simp⟩
  refine ⟨.act365 base ⟨.flat, .flat, [(p, y)]⟩, ?_, ?_⟩
  · unfold RateCurve.newAct365
    rw [bind_val hn]
    rfl
  have hrt : ∀ d, (RateCurve.act365 base ⟨.flat, .flat, [(p, y)]⟩).rt r lib d = .ok (.val (r.rnd (y * act365 r base d))) := by
    intro d
    unfold RateCurve.rt
    rw [RateCurve.rAndT]
    by_cases h : d - base = 0
    · obtain rfl : d = base := by omega
      rw [if_pos h, act365_base, mul_zero]
      show Except.ok (Num.val (r.rnd (0 * 0))) = _
      rw [mul_zero]
    · rw [if_neg h, one_point]
      rfl
  have hm : ∀ {d e : Int}, d ≤ e → r.rnd (y * act365 r base d) ≤ r.rnd (y * act365 r base e) := fun h =>
    r.mono _ _ (mul_le_mul_of_nonneg_left (act365_mono r h) hy)
  refine ⟨fun a b => lib.exp (r.rnd (r.rnd (y * act365 r base b) - r.rnd (y * act365 r base a))), fun a b => df_val (hrt a) (hrt b), ?_, ?_, ?_⟩
  · intro a b h
    rw [← lib.expZero]
    exact lib.expMono _ _ (r.nonneg (by linarith [hm h]))
  · intro a b d h
    exact lib.expMono _ _ (r.mono _ _ (by linarith [hm h]))
  · intro a b d h
    exact lib.expMono _ _ (r.mono _ _ (by linarith [hm h]))

theorem act365_nonneg (r : Rounding ℝ) {base d : Int} (h : base ≤ d) : 0 ≤ act365 r base d := by
  rw [← act365_base r base]
  exact act365_mono r h

/-- What a bumped curve says on and after the base date. -/
theorem rt_of {d : Int} {x t : ℝ} (h : c.rAndT r lib d = .ok (.val x, t)) : c.rt r lib d = .ok (.val (r.rnd (x * t))) := by
  unfold RateCurve.rt
  rw [bind_val h]
  rfl

/-- C108, bumps. Factors from the base date of a curve follow the bump exactly: a larger flat bump, of either kind, gives a factor that is no smaller. -/
theorem C108_bumps {base d : Int} {L : Linear ℝ} {x b b' : ℝ} (h : L.interpolate r d = .ok (.val x)) (hd : base < d) (hb : b ≤ b') :
    (∃ D D', (RateCurve.continuouslyCompoundedFlatBump (.act365 base L) b).df r lib base d = .ok (.val D) ∧
      (RateCurve.continuouslyCompoundedFlatBump (.act365 base L) b').df r lib base d = .ok (.val D') ∧ D ≤ D') ∧
    (0 < r.rnd (lib.exp x + b) → 0 < r.rnd (lib.exp 0 + b) → ∃ D D', (RateCurve.annualisedFlatBump (.act365 base L) b).df r lib base d = .ok (.val D) ∧
      (RateCurve.annualisedFlatBump (.act365 base L) b').df r lib base d = .ok (.val D') ∧ D ≤ D') := by
  have h0 : (RateCurve.act365 base L).rAndT r lib base = .ok (.val 0, 0) := by
    rw [RateCurve.rAndT, if_pos (by omega)]
  have h1 : (RateCurve.act365 base L).rAndT r lib d = .ok (.val x, act365 r base d) := by
    rw [RateCurve.rAndT, if_neg (by omega), bind_val h]
    rfl
  have ht := act365_nonneg r hd.le
  constructor
  · have k : ∀ b, (RateCurve.continuouslyCompoundedFlatBump (.act365 base L) b).df r lib base d =
        .ok (.val (lib.exp (r.rnd (r.rnd (r.rnd (x + b) * act365 r base d) - 0)))) := by
      intro b
      have e0 : (RateCurve.continuouslyCompoundedFlatBump (.act365 base L) b).rt r lib base = .ok (.val 0) := by
        have : (RateCurve.continuouslyCompoundedFlatBump (.act365 base L) b).rAndT r lib base = .ok (.val (r.rnd (0 + b)), 0) := by
          rw [RateCurve.rAndT, bind_val h0]
          rfl
        rw [rt_of this, mul_zero, r.zero]
      have e1 : (RateCurve.continuouslyCompoundedFlatBump (.act365 base L) b).rAndT r lib d = .ok (.val (r.rnd (x + b)), act365 r base d) := by
        rw [RateCurve.rAndT, bind_val h1]
        rfl
      exact df_val e0 (rt_of e1)
    refine ⟨_, _, k b, k b', lib.expMono _ _ (r.mono _ _ (sub_le_sub_right (r.mono _ _ ?_) 0))⟩
    exact mul_le_mul_of_nonneg_right (r.mono _ _ (by linarith)) ht
  · intro p1 p2
    have k : ∀ b, 0 < r.rnd (lib.exp x + b) → 0 < r.rnd (lib.exp 0 + b) → (RateCurve.annualisedFlatBump (.act365 base L) b).df r lib base d =
        .ok (.val (lib.exp (r.rnd (r.rnd (lib.ln (r.rnd (lib.exp x + b)) * act365 r base d) - 0)))) := by
      intro b p1 p2
      have e0 : (RateCurve.annualisedFlatBump (.act365 base L) b).rt r lib base = .ok (.val 0) := by
        have : (RateCurve.annualisedFlatBump (.act365 base L) b).rAndT r lib base = .ok (.val (lib.ln (r.rnd (lib.exp 0 + b))), 0) := by
          rw [RateCurve.rAndT, bind_val h0]
          show Except.ok (onVal _ _, _) = _
          rw [onVal, if_pos p2]
        rw [rt_of this, mul_zero, r.zero]
      have e1 : (RateCurve.annualisedFlatBump (.act365 base L) b).rAndT r lib d = .ok (.val (lib.ln (r.rnd (lib.exp x + b))), act365 r base d) := by
        rw [RateCurve.rAndT, bind_val h1]
        show Except.ok (onVal _ _, _) = _
        rw [onVal, if_pos p1]
      exact df_val e0 (rt_of e1)
    have q1 : r.rnd (lib.exp x + b) ≤ r.rnd (lib.exp x + b') := r.mono _ _ (by linarith)
    have q2 : r.rnd (lib.exp 0 + b) ≤ r.rnd (lib.exp 0 + b') := r.mono _ _ (by linarith)
    refine ⟨_, _, k b p1 p2, k b' (p1.trans_le q1) (p2.trans_le q2), lib.expMono _ _ (r.mono _ _ (sub_le_sub_right (r.mono _ _ ?_) 0))⟩
    exact mul_le_mul_of_nonneg_right (lib.lnMono _ _ p1 q1) ht

/-- C108, what a bump does. The rate of a bumped curve is the rate of the curve plus the bump, the rate times the factor, and the logarithm of its exponential plus the
bump, up to a few roundings, and the time is that of the curve. -/
theorem C108_bumped {base d : Int} {L : Linear ℝ} {x : ℝ} (h : L.interpolate r d = .ok (.val x)) (hd : d ≠ base) (hu : r.unit ≤ 1 / 2) (b : ℝ) :
    (∃ v, (RateCurve.continuouslyCompoundedFlatBump (.act365 base L) b).rAndT r lib d = .ok (.val v, act365 r base d) ∧ |v - (x + b)| ≤ r.unit * |x + b|) ∧
    (∃ v, (RateCurve.relativeBump (.act365 base L) b).rAndT r lib d = .ok (.val v, act365 r base d) ∧ |v - x * b| ≤ r.unit * |x * b|) ∧
    (0 ≤ b → ∃ v, (RateCurve.annualisedFlatBump (.act365 base L) b).rAndT r lib d = .ok (.val v, act365 r base d) ∧
      |v - Real.log (Real.exp x + b)| ≤ 3 * (r.unit + lib.error) + lib.error * |Real.log (Real.exp x + b)|) := by
  have h1 : (RateCurve.act365 base L).rAndT r lib d = .ok (.val x, act365 r base d) := by
    rw [RateCurve.rAndT, if_neg (by omega), bind_val h]
    rfl
  refine ⟨⟨_, by rw [RateCurve.rAndT, bind_val h1]; rfl, r.close _⟩, ⟨_, by rw [RateCurve.rAndT, bind_val h1]; rfl, r.close _⟩, fun hb => ?_⟩
  have hu0 := r.unit_nonneg
  have he0 := error_nonneg (lib := lib)
  have he := lib.small
  have hE := Real.exp_pos x
  have hA : 0 < Real.exp x + b := by linarith
  have hp : 0 < r.rnd (lib.exp x + b) := r.pos (by linarith [lib_pos (lib := lib) x])
  refine ⟨lib.ln (r.rnd (lib.exp x + b)), ?_, ?_⟩
  · rw [RateCurve.rAndT, bind_val h1]
    show Except.ok (onVal _ _, _) = _
    rw [onVal, if_pos hp]
  obtain ⟨e2, k2, q2⟩ := factor r (lib.exp x + b)
  have k1 : |(lib.exp x - Real.exp x) / (Real.exp x + b)| ≤ lib.error := by
    rw [abs_div, abs_of_pos hA, div_le_iff₀ hA]
    refine (lib.expClose x).trans (mul_le_mul_of_nonneg_left (by linarith) he0)
  set e1 := (lib.exp x - Real.exp x) / (Real.exp x + b) with he1
  have q1 : lib.exp x + b = (Real.exp x + b) * (1 + e1) := by
    rw [he1]
    field_simp
    ring
  obtain ⟨m1, m2⟩ := one_add_exp k1 he
  obtain ⟨m3, m4⟩ := one_add_exp k2 hu
  have p1 : 0 < 1 + e1 := (Real.exp_pos _).trans_le m1
  have p2 : 0 < 1 + e2 := (Real.exp_pos _).trans_le m3
  have n1 : |Real.log (1 + e1)| ≤ 2 * lib.error := by
    rw [abs_le]
    exact ⟨(Real.le_log_iff_exp_le p1).2 m1, (Real.log_le_iff_le_exp p1).2 m2⟩
  have n2 : |Real.log (1 + e2)| ≤ 2 * r.unit := by
    rw [abs_le]
    exact ⟨(Real.le_log_iff_exp_le p2).2 m3, (Real.log_le_iff_le_exp p2).2 m4⟩
  have eq : Real.log (r.rnd (lib.exp x + b)) = Real.log (Real.exp x + b) + (Real.log (1 + e1) + Real.log (1 + e2)) := by
    rw [q2, q1, Real.log_mul (mul_pos hA p1).ne' p2.ne', Real.log_mul hA.ne' p1.ne', add_assoc]
  have c := lib.lnClose _ hp
  rw [eq] at c
  set A := Real.log (Real.exp x + b)
  set t := Real.log (1 + e1) + Real.log (1 + e2)
  have ht : |t| ≤ 2 * lib.error + 2 * r.unit := (abs_add_le _ _).trans (by linarith)
  have c' := c.trans (mul_le_mul_of_nonneg_left (abs_add_le A t) he0)
  have : lib.error * |t| ≤ 1 / 2 * |t| := mul_le_mul_of_nonneg_right he (abs_nonneg _)
  calc |lib.ln (r.rnd (lib.exp x + b)) - A| = |(lib.ln (r.rnd (lib.exp x + b)) - (A + t)) + t| := by ring_nf
    _ ≤ _ := abs_add_le _ _
    _ ≤ _ := by linarith

/-- C108, relative bumps. A curve scaled up moves its factors from the base date away from one: up where the rate is nought or more, down where it is nought or less. -/
theorem C108_relative {base d : Int} {L : Linear ℝ} {x b b' : ℝ} (h : L.interpolate r d = .ok (.val x)) (hd : base < d) (hb : b ≤ b') :
    ∃ D D', (RateCurve.relativeBump (.act365 base L) b).df r lib base d = .ok (.val D) ∧ (RateCurve.relativeBump (.act365 base L) b').df r lib base d = .ok (.val D') ∧
      (0 ≤ x → D ≤ D') ∧ (x ≤ 0 → D' ≤ D) := by
  have h0 : (RateCurve.act365 base L).rAndT r lib base = .ok (.val 0, 0) := by
    rw [RateCurve.rAndT, if_pos (by omega)]
  have h1 : (RateCurve.act365 base L).rAndT r lib d = .ok (.val x, act365 r base d) := by
    rw [RateCurve.rAndT, if_neg (by omega), bind_val h]
    rfl
  have ht := act365_nonneg r hd.le
  have k : ∀ b, (RateCurve.relativeBump (.act365 base L) b).df r lib base d =
      .ok (.val (lib.exp (r.rnd (r.rnd (r.rnd (x * b) * act365 r base d) - 0)))) := by
    intro b
    have e0 : (RateCurve.relativeBump (.act365 base L) b).rt r lib base = .ok (.val 0) := by
      have : (RateCurve.relativeBump (.act365 base L) b).rAndT r lib base = .ok (.val (r.rnd (0 * b)), 0) := by
        rw [RateCurve.rAndT, bind_val h0]
        rfl
      rw [rt_of this, mul_zero, r.zero]
    have e1 : (RateCurve.relativeBump (.act365 base L) b).rAndT r lib d = .ok (.val (r.rnd (x * b)), act365 r base d) := by
      rw [RateCurve.rAndT, bind_val h1]
      rfl
    exact df_val e0 (rt_of e1)
  refine ⟨_, _, k b, k b', fun hx => lib.expMono _ _ (r.mono _ _ (sub_le_sub_right (r.mono _ _ ?_) 0)), fun hx => lib.expMono _ _ (r.mono _ _ (sub_le_sub_right (r.mono _ _ ?_) 0))⟩
  · exact mul_le_mul_of_nonneg_right (r.mono _ _ (by nlinarith)) ht
  · exact mul_le_mul_of_nonneg_right (r.mono _ _ (by nlinarith)) ht

/-- The rate that is computed is near the rate that is quoted. -/
theorem quoted_near {points : List (Int × ℝ)} {left right : Extrap} {L : Linear ℝ} {d : Int} {y Y : ℝ} (hL : Linear.new r points left right = .ok L)
    (hq : Quoted points d y) (hY : ∀ p ∈ points, |p.2| ≤ Y) (hu : r.unit ≤ 1 / 100) :
    ∃ v, L.interpolate r d = .ok (.val v) ∧ |v - y| ≤ 6 * r.unit * Y ∧ |y| ≤ Y := by
  have hu0 := r.unit_nonneg
  cases hq with
  | point hm =>
    have := hY _ hm
    refine ⟨y, C83_pillar hL hm, ?_, this⟩
    rw [sub_self, abs_zero]
    have : 0 ≤ Y := (abs_nonneg _).trans this
    positivity
  | @between before after d0 d1 _ y0 y1 he h0 h1 hr =>
    subst he
    obtain ⟨v, k1, k2⟩ := C83_close hu hL h0 h1 hr
    have a0 := hY (d0, y0) (by simp)
    have a1 := hY (d1, y1) (by simp)
    refine ⟨v, k1, k2.trans (mul_le_mul_of_nonneg_left (max_le a0 a1) (by positivity)), ?_⟩
    have hp : (0 : ℝ) < ((d1 - d0 : Int) : ℝ) := by exact_mod_cast (by omega : 0 < d1 - d0)
    have f0 : (0 : ℝ) ≤ ((d - d0 : Int) : ℝ) / ((d1 - d0 : Int) : ℝ) := div_nonneg (by exact_mod_cast (by omega : 0 ≤ d - d0)) hp.le
    have f1 : ((d - d0 : Int) : ℝ) / ((d1 - d0 : Int) : ℝ) ≤ 1 := (div_le_one hp).2 (by exact_mod_cast (by omega : d - d0 ≤ d1 - d0))
    set t := ((d - d0 : Int) : ℝ) / ((d1 - d0 : Int) : ℝ)
    obtain ⟨b0, b1⟩ := abs_le.1 a0
    obtain ⟨b2, b3⟩ := abs_le.1 a1
    dsimp only at b0 b1 b2 b3
    rw [show y0 + (y1 - y0) * t = y0 * (1 - t) + y1 * t by ring, abs_le]
    constructor <;> nlinarith

theorem act365_near {base d : Int} (hd : |d - base| ≤ 2 ^ 32) :
    |act365 r base d - ((d - base : Int) : ℝ) / 365| ≤ r.unit * |((d - base : Int) : ℝ) / 365| := by
  unfold act365
  rw [r.int _ hd]
  exact r.close _

/-- Rate times time is near what it should be. -/
theorem rt_near {points : List (Int × ℝ)} {left right : Extrap} {L : Linear ℝ} {base d : Int} {y Y T : ℝ} (hL : Linear.new r points left right = .ok L)
    (hq : Quoted points d y) (hY : ∀ p ∈ points, |p.2| ≤ Y) (hu : r.unit ≤ 1 / 100) (hd : |d - base| ≤ 2 ^ 32) (hT : |((d - base : Int) : ℝ) / 365| ≤ T) :
    ∃ v, (RateCurve.act365 base L).rt r lib d = .ok (.val v) ∧ |v - y * (((d - base : Int) : ℝ) / 365)| ≤ 9 * r.unit * (Y * T) ∧
      |y * (((d - base : Int) : ℝ) / 365)| ≤ Y * T := by
  have hu0 := r.unit_nonneg
  obtain ⟨x, k1, k2, k3⟩ := quoted_near hL hq hY hu
  have hY0 : 0 ≤ Y := (abs_nonneg _).trans k3
  have hT0 : 0 ≤ T := (abs_nonneg _).trans hT
  have hYT : |y * (((d - base : Int) : ℝ) / 365)| ≤ Y * T := by
    rw [abs_mul]
    exact mul_le_mul k3 hT (abs_nonneg _) hY0
  by_cases h : d - base = 0
  · refine ⟨0, ?_, ?_, hYT⟩
    · rw [rt_of (x := 0) (t := 0), mul_zero, r.zero]
      rw [RateCurve.rAndT, if_pos h]
    · rw [h]
      simp only [Int.cast_zero, zero_div, mul_zero, sub_zero, abs_zero]
      positivity
  · refine ⟨_, rt_of (by rw [RateCurve.rAndT, if_neg h, bind_val k1]; rfl), ?_, hYT⟩
    set s := ((d - base : Int) : ℝ) / 365 with hs
    have a := act365_near (r := r) hd
    rw [← hs] at a
    set t := act365 r base d
    have a' : |t - s| ≤ r.unit * T := a.trans (mul_le_mul_of_nonneg_left hT hu0)
    have e : |x * t - y * s| ≤ (7 * r.unit + 6 * r.unit * r.unit) * (Y * T) := by
      rw [show x * t - y * s = (x - y) * (t - s) + (x - y) * s + y * (t - s) by ring]
      refine (abs_add_three _ _ _).trans ?_
      rw [abs_mul, abs_mul, abs_mul]
      have e1 := mul_le_mul k2 a' (abs_nonneg _) (by positivity)
      have e2 := mul_le_mul k2 hT (abs_nonneg _) (by positivity)
      have e3 := mul_le_mul k3 a' (abs_nonneg _) hY0
      nlinarith
    have := rnd_err r e hYT (by positivity)
    refine this.trans ?_
    have hz : 0 ≤ Y * T := mul_nonneg hY0 hT0
    have : 7 * r.unit + 6 * r.unit * r.unit + r.unit * (1 + (7 * r.unit + 6 * r.unit * r.unit)) ≤ 9 * r.unit := by nlinarith [mul_nonneg hu0 hu0]
    nlinarith

/-- C108, accuracy. The factor between two dates that a curve quotes rates for is the exponential of rate times time at the one less rate times time at the other,
up to a relative error of the size of a few roundings, if the rates of the curve are at most `Y` and the dates within `T` years of its base. -/
theorem C108_close {points : List (Int × ℝ)} {left right : Extrap} {base a b : Int} {x y Y T : ℝ} (hc : RateCurve.newAct365 r base points left right = .ok c)
    (ha : Quoted points a x) (hb : Quoted points b y) (hY : ∀ p ∈ points, |p.2| ≤ Y) (hu : r.unit ≤ 1 / 100)
    (da : |a - base| ≤ 2 ^ 32) (db : |b - base| ≤ 2 ^ 32) (ta : |((a - base : Int) : ℝ) / 365| ≤ T) (tb : |((b - base : Int) : ℝ) / 365| ≤ T)
    (hsmall : 21 * r.unit * (Y * T) + 2 * lib.error ≤ 1) :
    ∃ D, c.df r lib a b = .ok (.val D) ∧
      |D - Real.exp (y * (((b - base : Int) : ℝ) / 365) - x * (((a - base : Int) : ℝ) / 365))| ≤
        2 * (21 * r.unit * (Y * T) + 2 * lib.error) * Real.exp (y * (((b - base : Int) : ℝ) / 365) - x * (((a - base : Int) : ℝ) / 365)) := by
  have hu0 := r.unit_nonneg
  have he0 := error_nonneg (lib := lib)
  unfold RateCurve.newAct365 at hc
  cases hL : Linear.new r points left right with
  | error e => rw [hL] at hc; cases hc
  | ok L =>
    rw [bind_val hL] at hc
    cases hc
    obtain ⟨v, k1, k2, k3⟩ := rt_near (lib := lib) hL ha hY hu da ta
    obtain ⟨w, m1, m2, m3⟩ := rt_near (lib := lib) hL hb hY hu db tb
    refine ⟨_, df_val k1 m1, ?_⟩
    set X := x * (((a - base : Int) : ℝ) / 365)
    set Z := y * (((b - base : Int) : ℝ) / 365)
    set Q := Y * T
    have hQ : 0 ≤ Q := (abs_nonneg _).trans k3
    have e : |w - v - (Z - X)| ≤ 18 * r.unit * Q := by
      rw [show w - v - (Z - X) = (w - Z) - (v - X) by ring]
      have := abs_sub (w - Z) (v - X)
      linarith
    have hZX : |Z - X| ≤ 2 * Q := by
      have := abs_sub Z X
      linarith
    have h1 := rnd_err r e hZX (by positivity)
    have h2 : |r.rnd (w - v) - (Z - X)| ≤ 21 * r.unit * Q := by
      refine h1.trans ?_
      have : r.unit * (r.unit * Q) ≤ 1 / 100 * (r.unit * Q) := mul_le_mul_of_nonneg_right hu (by positivity)
      nlinarith
    obtain ⟨e1, p1, p2⟩ := lib_factor (lib := lib) (r.rnd (w - v))
    obtain ⟨q1, q2⟩ := one_add_exp p1 lib.small
    set s := r.rnd (w - v) - (Z - X) with hs
    obtain ⟨s1, s2⟩ := abs_le.1 h2
    have hE := Real.exp_pos (Z - X)
    have e3 : lib.exp (r.rnd (w - v)) - Real.exp (Z - X) = (Real.exp s * (1 + e1) - 1) * Real.exp (Z - X) := by
      rw [p2, show r.rnd (w - v) = s + (Z - X) by rw [hs]; ring, Real.exp_add]
      ring
    rw [e3, abs_mul, abs_of_pos hE]
    refine mul_le_mul_of_nonneg_right (exp_near ?_ ?_ (by positivity) hsmall) hE.le
    · rw [neg_add, Real.exp_add]
      gcongr
    · rw [Real.exp_add]
      gcongr
      exact (Real.exp_pos _).le.trans q1

/-! ## C108: totals -/

variable {K : Type} [Field K] [LinearOrder K] [IsStrictOrderedRing K]

theorem total_from (r : Rounding K) : ∀ (l : List (K × K)) (k : Nat) (acc S A : K), |S| ≤ A → |acc - S| ≤ ((1 + r.unit) ^ (k + 1) - 1) * A →
    |l.foldl (fun total p => r.rnd (total + r.rnd (p.1 * p.2))) acc - (S + (l.map fun p => p.1 * p.2).sum)| ≤
      ((1 + r.unit) ^ (k + l.length + 1) - 1) * (A + (l.map fun p => |p.1 * p.2|).sum)
  | [], k, acc, S, A, _, h => by simpa using h
  | p :: l, k, acc, S, A, hA, h => by
    have hu0 := r.unit_nonneg
    have hg : (1 + r.unit) ≤ (1 + r.unit) ^ (k + 1) := by
      rw [pow_succ']
      exact le_mul_of_one_le_right (by linarith) (one_le_pow₀ (by linarith))
    have c1 := r.close (p.1 * p.2)
    have c2 := r.close (acc + r.rnd (p.1 * p.2))
    have e1 : |acc + r.rnd (p.1 * p.2) - (S + p.1 * p.2)| ≤ ((1 + r.unit) ^ (k + 1) - 1) * (A + |p.1 * p.2|) := by
      rw [show acc + r.rnd (p.1 * p.2) - (S + p.1 * p.2) = (acc - S) + (r.rnd (p.1 * p.2) - p.1 * p.2) by ring]
      refine (abs_add_le _ _).trans ?_
      have : r.unit * |p.1 * p.2| ≤ ((1 + r.unit) ^ (k + 1) - 1) * |p.1 * p.2| := mul_le_mul_of_nonneg_right (by linarith) (abs_nonneg _)
      rw [mul_add]
      exact add_le_add h (c1.trans this)
    have hA' : |S + p.1 * p.2| ≤ A + |p.1 * p.2| := (abs_add_le _ _).trans (by linarith)
    have e2 : |acc + r.rnd (p.1 * p.2)| ≤ (1 + r.unit) ^ (k + 1) * (A + |p.1 * p.2|) := by
      calc _ = |(acc + r.rnd (p.1 * p.2) - (S + p.1 * p.2)) + (S + p.1 * p.2)| := by ring_nf
        _ ≤ _ := (abs_add_le _ _).trans (by linarith)
    have e3 : |r.rnd (acc + r.rnd (p.1 * p.2)) - (S + p.1 * p.2)| ≤ ((1 + r.unit) ^ (k + 1 + 1) - 1) * (A + |p.1 * p.2|) := by
      calc _ = |(r.rnd (acc + r.rnd (p.1 * p.2)) - (acc + r.rnd (p.1 * p.2))) + (acc + r.rnd (p.1 * p.2) - (S + p.1 * p.2))| := by ring_nf
        _ ≤ r.unit * ((1 + r.unit) ^ (k + 1) * (A + |p.1 * p.2|)) + ((1 + r.unit) ^ (k + 1) - 1) * (A + |p.1 * p.2|) :=
          (abs_add_le _ _).trans (add_le_add (c2.trans (mul_le_mul_of_nonneg_left e2 hu0)) e1)
        _ = _ := by ring
    have ih := total_from r l (k + 1) _ _ _ hA' e3
    rw [List.foldl_cons, List.map_cons, List.sum_cons, List.map_cons, List.sum_cons, List.length_cons]
    rw [show k + (l.length + 1) + 1 = k + 1 + l.length + 1 by omega, ← add_assoc, ← add_assoc]
    exact ih

/-- C108, totals. The value of a portfolio is the sum of amounts times values, up to an error of one rounding more than it has positions, relative to the sizes of the
positions. -/
theorem C108_total (r : Rounding K) (l : List (K × K)) :
    |total r l - (l.map fun p => p.1 * p.2).sum| ≤ ((1 + r.unit) ^ (l.length + 1) - 1) * (l.map fun p => |p.1 * p.2|).sum := by
  have := total_from r l 0 0 0 0 (by simp) (by simp)
  unfold total
  simpa only [zero_add, Nat.zero_add] using this

theorem total_float (r : Rounding K) (l : List (K × K)) : r.rnd (total r l) = total r l := by
  rcases List.eq_nil_or_concat l with rfl | ⟨l, p, rfl⟩
  · exact r.zero
  · unfold total
    rw [List.concat_eq_append, List.foldl_append]
    exact r.idem _

/-- C108, totals keep the order: another position that is worth nought or more never lowers the total, and one that is worth nought changes nothing. -/
theorem C108_total_order (r : Rounding K) (l : List (K × K)) (w x : K) :
    (0 ≤ w * x → total r l ≤ total r (l ++ [(w, x)])) ∧ (w * x = 0 → total r (l ++ [(w, x)]) = total r l) := by
  have e : total r (l ++ [(w, x)]) = r.rnd (total r l + r.rnd (w * x)) := by
    unfold total
    rw [List.foldl_append]
    rfl
  constructor
  · intro h
    rw [e]
    refine (total_float r l).symm.le.trans ?_
    exact r.mono _ _ (by linarith [r.nonneg h])
  · intro h
    rw [e, h, r.zero, add_zero, total_float]

/-- C108, totals depend on the order of the positions in `f64`: with a large position and its opposite, a unit of currency is lost if it is added between them,
and not if it is added after them. -/
theorem C108_total_false : total f64 [(1, 2 ^ 53), (1, 1), (1, -2 ^ 53)] = 0 ∧ total f64 [(1, 2 ^ 53), (1, -2 ^ 53), (1, 1)] = 1 := by
  have big : f64.rnd (2 ^ 53) = 2 ^ 53 := by
    have := toBits_exact (K := ℚ) (p := 53) (by norm_num) 1 53 (by norm_num)
    rw [Int.cast_one, one_mul] at this
    exact this
  have neg : f64.rnd (-2 ^ 53) = -2 ^ 53 := by rw [f64.neg, big]
  have lost : f64.rnd (2 ^ 53 + 1) = 2 ^ 53 := by
    refine (toBits_eq (p := 53) (n := 4503599627370496) (e := 53) (by norm_num) (by norm_num)
      (by rw [abs_le]; constructor <;> norm_num) (.inl (by norm_num))).trans ?_
    norm_num
  have z := f64.zero
  have o := f64.one
  unfold total
  simp only [List.foldl_cons, List.foldl_nil, one_mul, zero_add, big, neg, o, lost, z, add_neg_cancel]
  exact ⟨trivial, trivial⟩

/-! ## Concrete cases -/

/-- `f64` on real numbers. -/
noncomputable def reals : Rounding ℝ := Rounding.binary ℝ 53 (by norm_num)

theorem reals_unit : reals.unit = (1 / 2) ^ 53 := rfl

/-- A library that rounds the exact values is one that keeps the promises. -/
noncomputable def correct : Library where
  exp x := reals.rnd (Real.exp x)
  ln x := reals.rnd (Real.log x)
  error := reals.unit
  expMono _ _ h := reals.mono _ _ (Real.exp_le_exp.2 h)
  lnMono _ _ h0 h := reals.mono _ _ (Real.log_le_log h0 h)
  expZero := by rw [Real.exp_zero, reals.one]
  expClose x := by
    have := reals.close (Real.exp x)
    rwa [abs_of_pos (Real.exp_pos x)] at this
  lnClose x _ := reals.close _
  small := by rw [reals_unit]; norm_num

/-- A curve of three points, one of them negative, and a factor between a point and a date between two others. -/
example : ∃ c D, RateCurve.newAct365 reals 0 ([(10, -1 / 100)] ++ (100, 3 / 100) :: (465, 5 / 100) :: []) .flat .flat = .ok c ∧ c.df reals correct 10 365 = .ok (.val D) ∧
    |D - Real.exp ((3 / 100 + (5 / 100 - 3 / 100) * ((365 - 100 : Int) / (465 - 100 : Int) : ℝ)) * (((365 - 0 : Int) : ℝ) / 365) - -1 / 100 * (((10 - 0 : Int) : ℝ) / 365))| ≤
      2 * (21 * reals.unit * (1 / 10 * 1) + 2 * correct.error) *
        Real.exp ((3 / 100 + (5 / 100 - 3 / 100) * ((365 - 100 : Int) / (465 - 100 : Int) : ℝ)) * (((365 - 0 : Int) : ℝ) / 365) - -1 / 100 * (((10 - 0 : Int) : ℝ) / 365)) := by
  have hn : Linear.new reals ([(10, (-1 / 100 : ℝ))] ++ (100, 3 / 100) :: (465, 5 / 100) :: []) .flat .flat = .ok ⟨.flat, .flat, _⟩ := (new_iff ..).2 ⟨rfl, by simp, by simp⟩
  have hc : RateCurve.newAct365 reals 0 ([(10, (-1 / 100 : ℝ))] ++ (100, 3 / 100) :: (465, 5 / 100) :: []) .flat .flat = .ok (.act365 0 ⟨.flat, .flat, [(10, (-1 / 100 : ℝ))] ++ (100, 3 / 100) :: (465, 5 / 100) :: []⟩) := by
    unfold RateCurve.newAct365
    rw [bind_val hn]
    rfl
  have hk : correct.error = (1 / 2) ^ 53 := rfl
  obtain ⟨D, h1, h2⟩ := C108_close (r := reals) (lib := correct) (Y := 1 / 10) (T := 1) hc (.point (d := 10) (y := -1 / 100) (by simp))
    (.between (x := 365) rfl (by norm_num) (by norm_num) (by norm_num))
    (by
      intro p hp
      fin_cases hp <;> (dsimp only; rw [abs_le]; constructor <;> norm_num))
    (by rw [reals_unit]; norm_num) (by norm_num) (by norm_num) (by rw [abs_le]; constructor <;> norm_num) (by rw [abs_le]; constructor <;> norm_num)
    (by rw [reals_unit, hk]; norm_num)
  exact ⟨_, D, hc, h1, h2⟩

/-- A flat curve of 5%, bumped by a basis point either way: the hypotheses of the theorem about bumps. -/
example : ∃ L : Linear ℝ, L.interpolate reals 365 = .ok (.val (5 / 100)) ∧ 0 < reals.rnd (correct.exp (5 / 100) + -1 / 10000) ∧ 0 < reals.rnd (correct.exp 0 + -1 / 10000) := by
  refine ⟨_, one_point reals 365 (5 / 100) 365, reals.pos ?_, reals.pos ?_⟩
  · have := correct.expMono 0 (5 / 100) (by norm_num)
    rw [correct.expZero] at this
    linarith
  · rw [correct.expZero]
    norm_num

/-- On the same curve the hypotheses of the theorem about composing factors are met, with rates times times that are at most a quarter apart. -/
example : ∃ x y z : ℝ, (RateCurve.act365 0 ⟨.flat, .flat, [(365, (5 / 100 : ℝ))]⟩).rt reals correct 0 = .ok (.val x) ∧
    (RateCurve.act365 0 ⟨.flat, .flat, [(365, (5 / 100 : ℝ))]⟩).rt reals correct 365 = .ok (.val y) ∧
    (RateCurve.act365 0 ⟨.flat, .flat, [(365, (5 / 100 : ℝ))]⟩).rt reals correct 730 = .ok (.val z) ∧ |y - x| ≤ 1 / 4 ∧ |z - y| ≤ 1 / 4 ∧ |z - x| ≤ 1 / 4 ∧
    3 * reals.unit * (1 / 4) + 6 * correct.error + 2 * reals.unit ≤ 1 := by
  have hk : correct.error = (1 / 2) ^ 53 := rfl
  have i1 : reals.rnd ((365 - 0 : Int) : ℝ) = 365 := (reals.int _ (by norm_num)).trans (by norm_num)
  have i2 : reals.rnd ((730 - 0 : Int) : ℝ) = 730 := (reals.int _ (by norm_num)).trans (by norm_num)
  have a1 : act365 reals 0 365 = 1 := by
    unfold act365
    rw [i1, div_self (by norm_num), reals.one]
  have a2 : act365 reals 0 730 = 2 := by
    unfold act365
    rw [i2, show (730 : ℝ) / 365 = ((2 : Int) : ℝ) by norm_num, reals.int _ (by norm_num)]
    norm_num
  have r1 := reals.close (5 / 100)
  have r2 := reals.close (5 / 100 * 2)
  rw [reals_unit] at r1 r2
  rw [abs_of_pos (by norm_num : (0 : ℝ) < 5 / 100), abs_le] at r1
  rw [abs_of_pos (by norm_num : (0 : ℝ) < 5 / 100 * 2), abs_le] at r2
  refine ⟨0, reals.rnd (5 / 100), reals.rnd (5 / 100 * 2), ?_, ?_, ?_, ?_, ?_, ?_, ?_⟩
  · rw [rt_of (x := 0) (t := 0), mul_zero, reals.zero]
    rw [RateCurve.rAndT, if_pos (by norm_num)]
  · rw [rt_of (x := 5 / 100) (t := 1), mul_one]
    rw [RateCurve.rAndT, if_neg (by norm_num), bind_val (one_point ..), a1]
    rfl
  · rw [rt_of (x := 5 / 100) (t := 2)]
    rw [RateCurve.rAndT, if_neg (by norm_num), bind_val (one_point ..), a2]
    rfl
  · rw [abs_le]
    norm_num at r1 ⊢
    constructor <;> linarith [r1.1, r1.2]
  · rw [abs_le]
    norm_num at r1 r2 ⊢
    constructor <;> linarith [r1.1, r1.2, r2.1, r2.2]
  · rw [abs_le]
    norm_num at r2 ⊢
    constructor <;> linarith [r2.1, r2.2]
  · rw [reals_unit, hk]
    norm_num

end QM.Rounded
