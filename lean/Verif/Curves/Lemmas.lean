import Verif.Curves.Spec
import Verif.Interp.PropLemmas

/-!
# Helper lemmas for rate curves
-/

namespace QM.Curves
open QM.Interp Spec

theorem df_eq {c : RateCurve} {a b : Int} {x y : ℝ} (ha : c.rt a = .ok (.val x)) (hb : c.rt b = .ok (.val y)) :
    c.df a b = .ok (.val (Real.exp (y - x))) := by
  unfold RateCurve.df
  by_cases h : a = b
  · subst h
    rw [ha] at hb
    cases hb
    rw [if_pos rfl]
    simp
  · rw [if_neg h, ha, hb]; rfl

theorem rt_of_rAndT {c : RateCurve} {d : Int} {r t : ℝ} (h : c.rAndT d = .ok (.val r, t)) :
    c.rt d = .ok (.val (r * t)) := by
  unfold RateCurve.rt; rw [h]; rfl

theorem rAndT_of_rt {c : RateCurve} {d : Int} {x : ℝ} (h : c.rt d = .ok (.val x)) :
    ∃ r t, c.rAndT d = .ok (.val r, t) ∧ r * t = x := by
  unfold RateCurve.rt at h
  cases hr : c.rAndT d with
  | error e => rw [hr] at h; cases h
  | ok p =>
    obtain ⟨r, t⟩ := p
    rw [hr] at h
    cases r with
    | nan => cases h
    | val r => cases h; exact ⟨r, t, rfl, rfl⟩

/-- Curves with the same rates and times give the same discount factors. -/
theorem same_of_rAndT {c c' : RateCurve} (h : ∀ d, c.rAndT d = c'.rAndT d) : SameDiscounts c c' := by
  intro a b
  unfold RateCurve.df RateCurve.rt
  rw [h a, h b]

theorem bind_ok_eta {α β : Type} (o : Outcome (α × β)) : (do let (r, t) ← o; pure (r, t)) = o := by
  cases o <;> rfl

/-- The time is the year fraction for interpolated curves. -/
theorem time_eq {c : RateCurve} (hc : Interpolated c) {d : Int} {r : Num ℝ} {t : ℝ} (h : c.rAndT d = .ok (r, t)) :
    t = years c.baseDate d := by
  induction c generalizing r with
  | zero base => exact absurd hc id
  | act365 base interp =>
    unfold RateCurve.rAndT at h
    by_cases hd : d - base = 0
    · rw [if_pos hd] at h
      cases h
      unfold years RateCurve.baseDate
      rw [hd]; simp
    · rw [if_neg hd] at h
      cases hi : interp.interpolate (.val (d : ℝ)) with
      | error e => rw [hi] at h; cases h
      | ok v => rw [hi] at h; cases h; rfl
  | annualisedFlatBump c b ih =>
    unfold RateCurve.rAndT at h
    cases hr : c.rAndT d with
    | error e => rw [hr] at h; cases h
    | ok p => rw [hr] at h; cases h; exact ih hc hr
  | continuouslyCompoundedFlatBump c b ih =>
    unfold RateCurve.rAndT at h
    cases hr : c.rAndT d with
    | error e => rw [hr] at h; cases h
    | ok p => rw [hr] at h; cases h; exact ih hc hr
  | relativeBump c b ih =>
    unfold RateCurve.rAndT at h
    cases hr : c.rAndT d with
    | error e => rw [hr] at h; cases h
    | ok p => rw [hr] at h; cases h; exact ih hc hr

/-- The time is zero or the year fraction. -/
theorem time_cases (c : RateCurve) {d : Int} {r : Num ℝ} {t : ℝ} (h : c.rAndT d = .ok (r, t)) :
    (Interpolated c ∧ t = years c.baseDate d) ∨ (¬ Interpolated c ∧ t = 0) := by
  by_cases hc : Interpolated c
  · exact Or.inl ⟨hc, time_eq hc h⟩
  · right
    refine ⟨hc, ?_⟩
    induction c generalizing r with
    | zero base => cases h; rfl
    | act365 base interp => exact absurd trivial hc
    | annualisedFlatBump c b ih =>
      unfold RateCurve.rAndT at h
      cases hr : c.rAndT d with
      | error e => rw [hr] at h; cases h
      | ok p => rw [hr] at h; cases h; exact ih hr hc
    | continuouslyCompoundedFlatBump c b ih =>
      unfold RateCurve.rAndT at h
      cases hr : c.rAndT d with
      | error e => rw [hr] at h; cases h
      | ok p => rw [hr] at h; cases h; exact ih hr hc
    | relativeBump c b ih =>
      unfold RateCurve.rAndT at h
      cases hr : c.rAndT d with
      | error e => rw [hr] at h; cases h
      | ok p => rw [hr] at h; cases h; exact ih hr hc

/-- A curve with a single pillar and flat extrapolation: the same rate everywhere. -/
theorem flat_curve (base pillar : Int) (rate : ℝ) :
    ∃ c, RateCurve.newAct365 base [(pillar, rate)] .flat .flat = .ok c ∧ Interpolated c ∧ c.baseDate = base ∧
      ∀ d, d ≠ base → c.rAndT d = .ok (.val rate, years base d) := by
  refine ⟨.act365 base ⟨.flat, .flat, plain [((pillar : ℝ), rate)]⟩, rfl, trivial, rfl, ?_⟩
  intro d hd
  unfold RateCurve.rAndT
  rw [if_neg (by omega)]
  have hi : (Linear.mk .flat .flat (plain [((pillar : ℝ), rate)])).interpolate (.val (d : ℝ)) = .ok (.val rate) := by
    rw [interp_plain (by simp)]
    unfold interpolateNumbers
    rcases lt_trichotomy (d : ℝ) (pillar : ℝ) with h | h | h
    · simp only [search_left (p0 := ((pillar : ℝ), rate)) (ps := []) h]
      simp [Extrap.isNatural, Extrap.extrapolate]
    · rw [h]
      have := search_pillar (l := []) (r := []) (x := (pillar : ℝ)) (y := rate) (by simp [Sorted])
      simp only [List.nil_append] at this
      simp only [this]
      simp
    · have hr : search [((pillar : ℝ), rate)] (d : ℝ) = (1, false) :=
        search_right (ps := [((pillar : ℝ), rate)]) (x := (d : ℝ)) (by
          intro p hp
          simp only [List.mem_singleton] at hp
          rw [hp]; exact h)
      simp only [hr]
      simp [Extrap.isNatural, Extrap.extrapolate]
  rw [hi]
  rfl

theorem newAct365_ok {base : Int} {pillars : List (Int × ℝ)} {left right : Extrap} {c : RateCurve}
    (h : RateCurve.newAct365 base pillars left right = .ok c) :
    ∃ L, Linear.new (pillars.map (fun p => (Num.val (p.1 : ℝ), p.2))) left right = .ok L ∧ c = .act365 base L := by
  unfold RateCurve.newAct365 at h
  cases hn : Linear.new (pillars.map (fun p => (Num.val (p.1 : ℝ), p.2))) left right with
  | error e => rw [hn] at h; cases h
  | ok L => rw [hn] at h; cases h; exact ⟨L, rfl, rfl⟩

end QM.Curves
