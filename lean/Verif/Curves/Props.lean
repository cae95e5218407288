import Verif.Curves.Lemmas
import Verif.Interp.Props

/-!
# Properties C20, C21, C57, C58 and C68: rate curves
-/

namespace QM.Curves
open QM.Interp Spec

/-- C20. The discount factor over no time is one, for every curve and date. -/
theorem C20_same_date (c : RateCurve) (d : Int) : c.df d d = .ok (.val 1) := by
  unfold RateCurve.df; rw [if_pos rfl]

/-- C20. A curve that can quote both dates gives a positive discount factor. -/
theorem C20_positive {c : RateCurve} {a b : Int} (ha : Quotes c a) (hb : Quotes c b) :
    ∃ v, c.df a b = .ok (.val v) ∧ 0 < v := by
  obtain ⟨x, hx⟩ := ha
  obtain ⟨y, hy⟩ := hb
  exact ⟨_, df_eq hx hy, Real.exp_pos _⟩

/-- C20. Discount factors over adjacent intervals multiply. -/
theorem C20_compose {c : RateCurve} {a b d : Int} {u v w : ℝ} (hb : Quotes c b)
    (h1 : c.df a b = .ok (.val u)) (h2 : c.df b d = .ok (.val v)) (h3 : c.df a d = .ok (.val w)) : u * v = w := by
  by_cases hab : a = b
  · subst hab
    rw [C20_same_date] at h1
    cases h1
    rw [h2] at h3
    cases h3; ring
  by_cases hbd : b = d
  · subst hbd
    rw [C20_same_date] at h2
    cases h2
    rw [h1] at h3
    cases h3; ring
  obtain ⟨y, hy⟩ := hb
  have getL : ∀ {p q : Int} {z : ℝ}, p ≠ q → c.df p q = .ok (.val z) → (∃ x, c.rt p = .ok (.val x)) ∧ ∃ x, c.rt q = .ok (.val x) := by
    intro p q z hpq h
    unfold RateCurve.df at h
    rw [if_neg hpq] at h
    cases hp : c.rt p with
    | error e => rw [hp] at h; cases h
    | ok xp =>
      cases hq : c.rt q with
      | error e => rw [hp, hq] at h; cases h
      | ok xq =>
        rw [hp, hq] at h
        cases xp with
        | nan => cases h
        | val xp => cases xq with
          | nan => cases h
          | val xq => exact ⟨⟨xp, rfl⟩, ⟨xq, rfl⟩⟩
  obtain ⟨x, hx⟩ := (getL hab h1).1
  obtain ⟨z, hz⟩ := (getL hbd h2).2
  rw [df_eq hx hy] at h1
  rw [df_eq hy hz] at h2
  rw [df_eq hx hz] at h3
  cases h1; cases h2; cases h3
  rw [← Real.exp_add]
  congr 1
  ring

/-- C20. Going there and back gives one. -/
theorem C20_inverse {c : RateCurve} {a b : Int} {u v : ℝ} (ha : Quotes c a) (hb : Quotes c b)
    (h1 : c.df a b = .ok (.val u)) (h2 : c.df b a = .ok (.val v)) : u * v = 1 :=
  C20_compose hb h1 h2 (C20_same_date c a)

/-- C20: the hypotheses are met by a flat curve under two bumps. -/
example : ∃ c, RateCurve.newAct365 0 [(0, 0.05)] .flat .flat = .ok c ∧
    Quotes (.newContinuouslyCompoundedFlatBump (.newAnnualisedFlatBump c 0.01) 0.02) 10 := by
  obtain ⟨c, hc, _, _, hr⟩ := flat_curve 0 0 0.05
  refine ⟨c, hc, ?_⟩
  have hpos : 0 < Real.exp (0.05 : ℝ) + 0.01 := by positivity
  refine ⟨(Real.log (Real.exp 0.05 + 0.01) + 0.02) * years 0 10, rt_of_rAndT ?_⟩
  unfold RateCurve.newContinuouslyCompoundedFlatBump RateCurve.newAnnualisedFlatBump RateCurve.rAndT RateCurve.rAndT
  rw [hr 10 (by norm_num)]
  simp only [Bind.bind, Except.bind, pure, Except.pure, onNum, ln]
  rw [if_pos hpos]

/-- C21. A continuously compounded bump of zero changes no discount factor. -/
theorem C21_zero_continuous (c : RateCurve) : SameDiscounts (.newContinuouslyCompoundedFlatBump c 0) c := by
  refine same_of_rAndT ?_
  intro d
  unfold RateCurve.newContinuouslyCompoundedFlatBump
  rw [RateCurve.rAndT]
  cases c.rAndT d with
  | error e => rfl
  | ok p =>
    obtain ⟨r, t⟩ := p
    cases r <;> simp [onNum, Bind.bind, Except.bind, pure, Except.pure]

/-- C21. An annualised bump of zero changes no discount factor. -/
theorem C21_zero_annualised (c : RateCurve) : SameDiscounts (.newAnnualisedFlatBump c 0) c := by
  refine same_of_rAndT ?_
  intro d
  unfold RateCurve.newAnnualisedFlatBump
  rw [RateCurve.rAndT]
  cases c.rAndT d with
  | error e => rfl
  | ok p =>
    obtain ⟨r, t⟩ := p
    cases r <;> simp [onNum, ln, Bind.bind, Except.bind, pure, Except.pure, Real.exp_pos]

/-- C21. Continuously compounded bumps add up. -/
theorem C21_compose_continuous (c : RateCurve) (a b : ℝ) :
    SameDiscounts (.newContinuouslyCompoundedFlatBump (.newContinuouslyCompoundedFlatBump c a) b)
      (.newContinuouslyCompoundedFlatBump c (a + b)) := by
  refine same_of_rAndT ?_
  intro d
  unfold RateCurve.newContinuouslyCompoundedFlatBump
  rw [RateCurve.rAndT, RateCurve.rAndT, RateCurve.rAndT]
  cases c.rAndT d with
  | error e => rfl
  | ok p =>
    obtain ⟨r, t⟩ := p
    cases r <;> simp [onNum, Bind.bind, Except.bind, pure, Except.pure, add_assoc]

/-- C21. Annualised bumps add up wherever the first bump leaves a positive annualised yield. -/
theorem C21_compose_annualised (c : RateCurve) (a b : ℝ) {d : Int} {r : ℝ} (h : RateIs c d r) (hpos : 0 < Real.exp r + a) :
    (RateCurve.newAnnualisedFlatBump (.newAnnualisedFlatBump c a) b).rt d
      = (RateCurve.newAnnualisedFlatBump c (a + b)).rt d := by
  obtain ⟨t, ht⟩ := h
  unfold RateCurve.rt RateCurve.newAnnualisedFlatBump
  rw [RateCurve.rAndT, RateCurve.rAndT, RateCurve.rAndT, ht]
  simp only [onNum, ln, Bind.bind, Except.bind, pure, Except.pure]
  rw [if_pos hpos]
  simp only [Real.exp_log hpos, add_assoc]

/-- C21. A positive annualised bump of size `a` moves the annualised yield `exp r` to `exp r + a`. -/
theorem C21_annualised_effect (c : RateCurve) (a : ℝ) {d : Int} {r : ℝ} (h : RateIs c d r) (hpos : 0 < Real.exp r + a) :
    ∃ r', RateIs (.newAnnualisedFlatBump c a) d r' ∧ Real.exp r' = Real.exp r + a := by
  obtain ⟨t, ht⟩ := h
  refine ⟨Real.log (Real.exp r + a), ⟨t, ?_⟩, Real.exp_log hpos⟩
  unfold RateCurve.newAnnualisedFlatBump
  rw [RateCurve.rAndT, ht]
  simp only [onNum, ln, Bind.bind, Except.bind, pure, Except.pure]
  rw [if_pos hpos]

/-- C21. A relative bump multiplies every rate by the stored factor. The full property says that the factor
is one plus the bump passed to the constructor; `C21_relative_false` shows that it is the bump itself. -/
theorem C21_relative_partial (c : RateCurve) (b : ℝ) {d : Int} {r : ℝ} (h : RateIs c d r) :
    RateIs (.newRelativeBump c (1 + b)) d (r * (1 + b)) := by
  obtain ⟨t, ht⟩ := h
  refine ⟨t, ?_⟩
  unfold RateCurve.newRelativeBump
  rw [RateCurve.rAndT, ht]
  rfl

/-- C21, violated: a relative bump of zero turns a rate of five percent into zero. -/
theorem C21_relative_false :
    ∃ c, RateCurve.newAct365 0 [(0, 0.05)] .flat .flat = .ok c ∧ RateIs c 365 0.05 ∧
      RateIs (.newRelativeBump c 0) 365 0 := by
  obtain ⟨c, hc, _, _, hr⟩ := flat_curve 0 0 0.05
  refine ⟨c, hc, ⟨_, hr 365 (by norm_num)⟩, years 0 365, ?_⟩
  unfold RateCurve.newRelativeBump
  rw [RateCurve.rAndT, hr 365 (by norm_num)]
  simp [onNum, Bind.bind, Except.bind, pure, Except.pure]

/-- C21. The annualised yield bump of a scenario moves the annualised yield by its size. -/
theorem C21_bump_annualised (c : RateCurve) (size : ℝ) {d : Int} {r : ℝ} (h : RateIs c d r) (hpos : 0 < Real.exp r + size) :
    ∃ r', RateIs ((BumpYield.flatAnnualised size).apply c) d r' ∧ Real.exp r' = Real.exp r + size :=
  C21_annualised_effect c size h hpos

/-- C21. The continuously compounded yield bump of a scenario moves the rate by its size. -/
theorem C21_bump_continuous (c : RateCurve) (size : ℝ) {d : Int} {r : ℝ} (h : RateIs c d r) :
    RateIs ((BumpYield.flatContinuouslyCompounded size).apply c) d (r + size) := by
  obtain ⟨t, ht⟩ := h
  refine ⟨t, ?_⟩
  unfold BumpYield.apply RateCurve.newContinuouslyCompoundedFlatBump
  rw [RateCurve.rAndT, ht]
  rfl

/-- C57. With a nonnegative rate falling nowhere in total, discounting a later payment back to an
earlier date gives at most one. The code needs the later date as `from_`; see `C57_direction_false`. -/
theorem C57_discount_at_most_one_partial {c : RateCurve} {early late : Int} {x y : ℝ}
    (h1 : c.rt early = .ok (.val x)) (h2 : c.rt late = .ok (.val y)) (hxy : x ≤ y) :
    ∃ v, c.df late early = .ok (.val v) ∧ v ≤ 1 := by
  refine ⟨_, df_eq h2 h1, ?_⟩
  rw [Real.exp_le_one_iff]
  linarith

/-- C57, partial: the documented formula holds with the two dates exchanged. -/
theorem C57_formula_partial {c : RateCurve} {a b : Int} {r1 t1 r2 t2 : ℝ}
    (h1 : c.rAndT a = .ok (.val r1, t1)) (h2 : c.rAndT b = .ok (.val r2, t2)) :
    c.df b a = .ok (.val (Real.exp (-(r2 * t2)) / Real.exp (-(r1 * t1)))) := by
  rw [df_eq (rt_of_rAndT h2) (rt_of_rAndT h1), ← Real.exp_sub]
  congr 3
  ring

/-- C57, violated: on a curve with a rate of five percent the discount factor from the base date to a year
later is larger than one, and differs from the documented formula. -/
theorem C57_direction_false :
    ∃ c, RateCurve.newAct365 0 [(0, 0.05)] .flat .flat = .ok c ∧
      c.rAndT 365 = .ok (.val 0.05, 1) ∧ c.rAndT 0 = .ok (.val 0, 0) ∧
      ∃ v, c.df 0 365 = .ok (.val v) ∧ 1 < v ∧ v ≠ Real.exp (-(0.05 * 1)) / Real.exp (-(0 * 0)) := by
  obtain ⟨c, hc, hi, hb, hr⟩ := flat_curve 0 0 0.05
  have h365 : c.rAndT 365 = .ok (.val 0.05, 1) := by
    rw [hr 365 (by norm_num)]; norm_num [years]
  have h0 : c.rAndT 0 = .ok (.val 0, 0) := by
    unfold RateCurve.newAct365 at hc
    cases hn : Linear.new ([((0 : Int), (0.05 : ℝ))].map (fun p => (Num.val (p.1 : ℝ), p.2))) .flat .flat with
    | error e => rw [hn] at hc; cases hc
    | ok L =>
      rw [hn] at hc
      cases hc
      rw [RateCurve.rAndT, if_pos (by norm_num)]
  refine ⟨c, hc, h365, h0, _, df_eq (rt_of_rAndT h0) (rt_of_rAndT h365), ?_, ?_⟩
  · rw [Real.one_lt_exp_iff]; norm_num
  · rw [← Real.exp_sub]
    intro h
    have := Real.exp_injective h
    norm_num at this

/-- C58. A continuously compounded bump of size `b` multiplies the discount factor between two dates by
`exp(b × years)`, on every curve that is built on an interpolated curve. The full property includes the
zero curve; `C58_zero_curve_false` shows that it fails there. -/
theorem C58_flat_effect_partial {c : RateCurve} (hc : Interpolated c) (bump : ℝ) {a b : Int} {v : ℝ}
    (ha : Quotes c a) (hb : Quotes c b) (h : c.df a b = .ok (.val v)) :
    (RateCurve.newContinuouslyCompoundedFlatBump c bump).df a b = .ok (.val (v * Real.exp (bump * years a b))) := by
  obtain ⟨x, hx⟩ := ha
  obtain ⟨y, hy⟩ := hb
  obtain ⟨r1, t1, h1, e1⟩ := rAndT_of_rt hx
  obtain ⟨r2, t2, h2, e2⟩ := rAndT_of_rt hy
  have k1 : (RateCurve.newContinuouslyCompoundedFlatBump c bump).rAndT a = .ok (.val (r1 + bump), t1) := by
    unfold RateCurve.newContinuouslyCompoundedFlatBump
    rw [RateCurve.rAndT, h1]; rfl
  have k2 : (RateCurve.newContinuouslyCompoundedFlatBump c bump).rAndT b = .ok (.val (r2 + bump), t2) := by
    unfold RateCurve.newContinuouslyCompoundedFlatBump
    rw [RateCurve.rAndT, h2]; rfl
  rw [df_eq hx hy] at h
  cases h
  rw [df_eq (rt_of_rAndT k1) (rt_of_rAndT k2), ← Real.exp_add]
  congr 3
  have e3 := time_eq hc h1
  have e4 := time_eq hc h2
  have e5 : years a b = t2 - t1 := by
    rw [e3, e4]; unfold years; push_cast; ring
  rw [e5, ← e1, ← e2]; ring

/-- C58, violated: bumping the zero curve has no effect. -/
theorem C58_zero_curve_false (base : Int) (bump : ℝ) :
    SameDiscounts (.newContinuouslyCompoundedFlatBump (.zero base) bump) (.zero base) := by
  intro a b
  by_cases h : a = b
  · subst h; rw [C20_same_date, C20_same_date]
  · have hz : ∀ d, (RateCurve.zero base).rt d = .ok (.val 0) := by
      intro d
      have := rt_of_rAndT (c := .zero base) (d := d) (r := 0) (t := 0) rfl
      rwa [zero_mul] at this
    have hz' : ∀ d, (RateCurve.newContinuouslyCompoundedFlatBump (.zero base) bump).rt d = .ok (.val 0) := by
      intro d
      have := rt_of_rAndT (c := .newContinuouslyCompoundedFlatBump (.zero base) bump) (d := d) (r := 0 + bump) (t := 0) rfl
      rwa [mul_zero] at this
    rw [df_eq (hz a) (hz b), df_eq (hz' a) (hz' b)]

/-- C68. A curve can be built exactly from a nonempty list of rates in strictly increasing date order;
otherwise it is an error. -/
theorem C68_built_iff (base : Int) (pillars : List (Int × ℝ)) (left right : Extrap) :
    ((∃ c, RateCurve.newAct365 base pillars left right = .ok c) ↔
      pillars ≠ [] ∧ ∀ l p q r, pillars = l ++ p :: q :: r → p.1 < q.1) ∧
    ((∃ c, RateCurve.newAct365 base pillars left right = .ok c) ∨
      RateCurve.newAct365 base pillars left right = .error .err) := by
  have hmap : pillars.map (fun p => (Num.val (p.1 : ℝ), p.2)) = Interp.Spec.plain (pillars.map (fun p => ((p.1 : ℝ), p.2))) := by
    unfold Interp.Spec.plain; rw [List.map_map]; rfl
  have hex : (∃ c, RateCurve.newAct365 base pillars left right = .ok c) ↔
      ∃ L, Linear.new (Interp.Spec.plain (pillars.map (fun p => ((p.1 : ℝ), p.2)))) left right = .ok L := by
    unfold RateCurve.newAct365
    rw [hmap]
    cases Linear.new (Interp.Spec.plain (pillars.map (fun p => ((p.1 : ℝ), p.2)))) left right with
    | error e => constructor <;> rintro ⟨_, h⟩ <;> cases h
    | ok L => exact ⟨fun _ => ⟨_, rfl⟩, fun _ => ⟨_, rfl⟩⟩
  constructor
  · rw [hex, C16_accepted_iff]
    refine and_congr (by simp) ?_
    constructor
    · intro h l p q r e
      have := h (l.map _) _ _ (r.map _) (by rw [e, List.map_append, List.map_cons, List.map_cons])
      have h2 : (p.1 : ℝ) < q.1 := by
        have : (0 : ℝ) < 1 / 10 ^ 12 := by positivity
        simp only at *
        linarith
      exact_mod_cast h2
    · intro h l p q r e
      rw [List.map_eq_append_iff] at e
      obtain ⟨l1, l2, e0, _, e2⟩ := e
      rw [List.map_eq_cons_iff] at e2
      obtain ⟨p', l3, e3, rfl, e4⟩ := e2
      rw [List.map_eq_cons_iff] at e4
      obtain ⟨q', l4, e5, rfl, _⟩ := e4
      have := h l1 p' q' l4 (by rw [e0, e3, e5])
      have h2 : (p'.1 : ℝ) + 1 ≤ q'.1 := by exact_mod_cast this
      have h3 : (1 : ℝ) / 10 ^ 12 < 1 := by norm_num
      simp only
      linarith
  · rw [hex]
    rcases C16_refusal_is_error (Interp.Spec.plain (pillars.map (fun p => ((p.1 : ℝ), p.2)))) left right with h | h
    · exact Or.inl h
    · right
      unfold RateCurve.newAct365
      rw [hmap, h]; rfl

/-- C68. At a supplied date the curve quotes the supplied rate over the actual days from its base date
divided by 365. -/
theorem C68_pillar {base : Int} {pillars : List (Int × ℝ)} {left right : Extrap} {c : RateCurve} {d : Int} {r : ℝ}
    (h : RateCurve.newAct365 base pillars left right = .ok c) (hm : (d, r) ∈ pillars) (hd : d ≠ base) :
    c.rAndT d = .ok (.val r, years base d) := by
  obtain ⟨L, hL, rfl⟩ := newAct365_ok h
  unfold RateCurve.rAndT
  rw [if_neg (by omega), C15_pillar hL (x := (d : ℝ)) (y := r) (List.mem_map.2 ⟨(d, r), hm, rfl⟩)]
  rfl

/-- C68. Between two neighbouring dates the quoted rate is on the straight line, and the time is again the
actual days divided by 365. -/
theorem C68_between {base : Int} {before after : List (Int × ℝ)} {left right : Extrap} {c : RateCurve} {d1 d2 d : Int}
    {r1 r2 : ℝ} (h : RateCurve.newAct365 base (before ++ (d1, r1) :: (d2, r2) :: after) left right = .ok c)
    (h1 : d1 < d) (h2 : d < d2) (hd : d ≠ base) :
    c.rAndT d = .ok (.val (r1 + (r2 - r1) * years d1 d / years d1 d2), years base d) := by
  obtain ⟨L, hL, rfl⟩ := newAct365_ok h
  unfold RateCurve.rAndT
  rw [List.map_append, List.map_cons, List.map_cons] at hL
  have h1' : (d1 : ℝ) < d := by exact_mod_cast h1
  have h2' : (d : ℝ) < d2 := by exact_mod_cast h2
  rw [if_neg (by omega), C15_between hL h1' h2']
  have e : Interp.Spec.line ((d1 : ℝ), r1) ((d2 : ℝ), r2) (d : ℝ) = r1 + (r2 - r1) * years d1 d / years d1 d2 := by
    unfold Interp.Spec.line years
    push_cast
    have : (d2 : ℝ) - d1 ≠ 0 := by linarith
    field_simp
  rw [e]
  rfl

/-- C68. At its base date a curve quotes zero over no time, whatever the supplied rates. -/
theorem C68_base {base : Int} {pillars : List (Int × ℝ)} {left right : Extrap} {c : RateCurve}
    (h : RateCurve.newAct365 base pillars left right = .ok c) : c.baseDate = base ∧ c.rAndT base = .ok (.val 0, 0) := by
  obtain ⟨L, hL, rfl⟩ := newAct365_ok h
  refine ⟨rfl, ?_⟩
  unfold RateCurve.rAndT
  rw [if_pos (by omega)]

/-- C68. So the factor from a supplied date back to the base date is `exp(-rate × years)` (the direction is
the one of `C57_direction_false`). -/
theorem C68_discount {base : Int} {pillars : List (Int × ℝ)} {left right : Extrap} {c : RateCurve} {d : Int} {r : ℝ}
    (h : RateCurve.newAct365 base pillars left right = .ok c) (hm : (d, r) ∈ pillars) (hd : d ≠ base) :
    c.df d base = .ok (.val (Real.exp (-(r * years base d)))) := by
  rw [df_eq (rt_of_rAndT (C68_pillar h hm hd)) (rt_of_rAndT (C68_base h).2)]
  congr 3
  ring

/-- C68: three pillars on both sides of the base date meet the hypotheses. -/
example : ∃ c, RateCurve.newAct365 100 [(0, 0.05), (200, 0.04), (465, 0.03)] .flat .throw = .ok c ∧
    c.rAndT 465 = .ok (.val 0.03, 1) := by
  obtain ⟨c, hc⟩ := (C68_built_iff 100 [(0, 0.05), (200, 0.04), (465, 0.03)] .flat .throw).1.2 ⟨by simp, by
    intro l p q r e
    rcases l with _ | ⟨a, _ | ⟨b, _ | ⟨c, l⟩⟩⟩ <;> simp at e
    · obtain ⟨rfl, rfl, _⟩ := e; norm_num
    · obtain ⟨_, rfl, rfl, _⟩ := e; norm_num⟩
  refine ⟨c, hc, ?_⟩
  rw [C68_pillar hc (d := 465) (r := 0.03) (by simp) (by norm_num)]
  norm_num [years]

end QM.Curves
