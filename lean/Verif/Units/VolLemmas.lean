import Verif.Units.Spec
import Mathlib.Tactic.FieldSimp
import Mathlib.Tactic.Ring
import Mathlib.Tactic.Linarith

/-!
# Helper lemmas: curves and surfaces in another unit
-/

namespace QM.Units
open QM.Interp QM.Curves QM.Dividends QM.Vol QM.Fixings QM.Instruments QM.Market QM.Risk QM.Calendar

variable {c : ℝ}

@[simp] theorem map_ok {α β : Type} (f : α → β) (a : α) : Except.map f (.ok a : Outcome α) = .ok (f a) := rfl
@[simp] theorem map_error {α β : Type} (f : α → β) (e : Fault) : Except.map f (.error e : Outcome α) = .error e := rfl
@[simp] theorem ok_to {α β : Type} (a : α) (f : α → Outcome β) : ((.ok a : Outcome α) >>= f) = f a := rfl
@[simp] theorem error_to {α β : Type} (e : Fault) (f : α → Outcome β) : ((.error e : Outcome α) >>= f) = .error e := rfl
@[simp] theorem pure_is {α : Type} (a : α) : (pure a : Outcome α) = .ok a := rfl

@[simp] theorem amount_nan : amount c .nan = .nan := rfl
@[simp] theorem amount_val (x : ℝ) : amount c (.val x) = .val (c * x) := rfl

/-! ## Curves of amounts -/

theorem linearInterpolate_values (p0 p1 : ℝ × ℝ) (x : ℝ) :
    linearInterpolate (p0.1, c * p0.2) (p1.1, c * p1.2) x = (linearInterpolate p0 p1 x).map (amount c) := by
  unfold linearInterpolate
  dsimp only
  split
  · rfl
  · rw [map_ok, amount_val]
    unfold lerp
    congr 2
    ring

theorem extrapolate_values (e : Extrap) (y : ℝ) : e.extrapolate (c * y) = (e.extrapolate y).map (amount c) := by
  cases e <;> simp [Extrap.extrapolate]

theorem search_values (ps : List (ℝ × ℝ)) (x : ℝ) : search (ps.map fun p => (p.1, c * p.2)) x = search ps x := by
  unfold search
  have : (ps.map fun p => (p.1, c * p.2)).takeWhile (fun p => decide (p.1 < x)) = (ps.takeWhile (fun p => decide (p.1 < x))).map fun p => (p.1, c * p.2) := by
    rw [List.takeWhile_map]
    rfl
  simp only [this, List.length_map, List.getElem?_map, Option.map_map, Function.comp_def]

theorem numbers_values (ps : List (Num ℝ × ℝ)) : numbers (ps.map fun p => (p.1, c * p.2)) = (numbers ps).map (fun l => l.map fun p => (p.1, c * p.2)) := by
  induction ps with
  | nil => rfl
  | cons p ps ih =>
    obtain ⟨x, y⟩ := p
    cases x with
    | nan => rfl
    | val x =>
      simp only [List.map_cons, numbers, ih, Option.map_map, Function.comp_def]

theorem getD_values (ps : List (ℝ × ℝ)) (i : Nat) : (ps.map fun p => (p.1, c * p.2)).getD i (0, 0) = ((ps.getD i (0, 0)).1, c * (ps.getD i (0, 0)).2) := by
  simp only [List.getD_eq_getElem?_getD, List.getElem?_map]
  cases ps[i]? <;> simp

theorem interpolateNumbers_values (x : ℝ) (ps : List (ℝ × ℝ)) (l r : Extrap) :
    interpolateNumbers x (ps.map fun p => (p.1, c * p.2)) l r = (interpolateNumbers x ps l r).map (amount c) := by
  unfold interpolateNumbers
  simp only [search_values, List.length_map, getD_values]
  split
  · rfl
  split
  · rfl
  split
  · split
    · exact linearInterpolate_values _ _ _
    · exact extrapolate_values _ _
  split
  · split
    · exact linearInterpolate_values _ _ _
    · exact extrapolate_values _ _
  · exact linearInterpolate_values _ _ _

theorem atDate_curve (l : Linear ℝ) (d : Int) : atDate (curve c l) d = (atDate l d).map (amount c) := by
  unfold atDate Linear.interpolate linearInterpolateExtrapolate curve
  dsimp only
  cases hp : l.points with
  | nil => rfl
  | cons p ps =>
    have := numbers_values (c := c) (p :: ps)
    rw [List.map_cons] at this
    simp only [List.map_cons, this]
    cases numbers (p :: ps) with
    | none => rfl
    | some q => exact interpolateNumbers_values _ _ _ _

/-! ## Smiles -/

theorem search_strikes (hc : 0 < c) (ps : List (ℝ × ℝ)) (x : ℝ) : search (ps.map fun p => (c * p.1, p.2)) (c * x) = search ps x := by
  unfold search
  have : (ps.map fun p => (c * p.1, p.2)).takeWhile (fun p => decide (p.1 < c * x)) = (ps.takeWhile (fun p => decide (p.1 < x))).map fun p => (c * p.1, p.2) := by
    rw [List.takeWhile_map]
    congr 2
    funext p
    simp only [Function.comp_def, mul_lt_mul_iff_right₀ hc]
  simp only [this, List.length_map, List.getElem?_map, Option.map_map, Function.comp_def]
  generalize ps[(ps.takeWhile (fun p => decide (p.1 < x))).length]? = o
  cases o with
  | none => rfl
  | some p =>
    rw [Option.map_some, Option.map_some]
    by_cases h : p.1 = x
    · rw [h, beq_self_eq_true, beq_self_eq_true]
    · have h' : ¬ c * p.1 = c * x := fun e => h (mul_left_cancel₀ hc.ne' e)
      rw [beq_eq_false_iff_ne.2 (fun e => h (Option.some.inj e)), beq_eq_false_iff_ne.2 (fun e => h' (Option.some.inj e))]

theorem splint_strikes (hc : 0 < c) (lo hi : ℝ × ℝ) (a b x : ℝ) :
    splint (c * lo.1, lo.2) (c * hi.1, hi.2) (a / (c * c)) (b / (c * c)) (c * x) = splint lo hi a b x := by
  unfold splint
  dsimp only
  have e : ∀ u v : ℝ, c * u - c * v = c * (u - v) := fun u v => by ring
  simp only [e, mul_eq_zero, hc.ne', false_or, mul_div_mul_left _ _ hc.ne']
  split
  · rfl
  · congr 2
    field_simp

theorem interpolate_strikes (hc : 0 < c) (s : CubicSpline ℝ) (k : Num ℝ) :
    CubicSpline.interpolate { s with points := s.points.map fun p => (c * p.1, p.2), second := s.second.map (· / (c * c)) } (amount c k) = s.interpolate k := by
  unfold CubicSpline.interpolate
  have g : ∀ i, (s.points.map fun p => (c * p.1, p.2)).getD i (0, 0) = (c * (s.points.getD i (0, 0)).1, (s.points.getD i (0, 0)).2) := by
    intro i
    simp only [List.getD_eq_getElem?_getD, List.getElem?_map]
    cases s.points[i]? <;> simp
  have z : ∀ i, (s.second.map (· / (c * c))).getD i 0 = s.second.getD i 0 / (c * c) := by
    intro i
    simp only [List.getD_eq_getElem?_getD, List.getElem?_map]
    cases s.second[i]? <;> simp
  simp only [List.length_map, g, z]
  split
  · rfl
  cases k with
  | nan => rfl
  | val x =>
    simp only [amount_val, search_strikes hc, splint_strikes hc]

theorem smile_volatility (hc : 0 < c) (s : Smile) (k : Num ℝ) : (smile c s).volatility (amount c k) = s.volatility k := by
  cases s with
  | flat v => rfl
  | cubicSpline s => exact interpolate_strikes hc s k

/-! ## Surfaces -/

theorem each_map {α β γ : Type} (f : β → Outcome γ) (g : α → β) (l : List α) : each f (l.map g) = each (fun a => f (g a)) l := by
  induction l with
  | nil => rfl
  | cons a l ih => simp only [List.map_cons, each, ih]

theorem each_smile (hc : 0 < c) (s : Smile) (ks : List (Num ℝ)) : each (smile c s).volatility (ks.map (amount c)) = each s.volatility ks := by
  rw [each_map]
  congr 1
  funext k
  exact smile_volatility hc s k

theorem ndiv_amounts (hc : 0 < c) (x y : Num ℝ) : ndiv (amount c x) (amount c y) = ndiv x y := by
  cases x <;> cases y <;> simp [ndiv, hc.ne', mul_div_mul_left]

theorem toNormalised_amounts (hc : 0 < c) (f s k : Num ℝ) : toNormalised (amount c f) s (amount c k) = toNormalised f s k := by
  unfold toNormalised
  rw [ndiv_amounts hc]

theorem toStrike_amounts (f s k : Num ℝ) : toStrike (amount c f) s k = amount c (toStrike f s k) := by
  unfold toStrike
  cases f <;> cases s <;> cases k <;> simp [num1, num2]
  ring

open Classical in
theorem searchSmile_input (l : List (Point × Smile)) (t : Point) : searchSmile (l.map fun p => (p.1, smile c p.2)) t = searchSmile l t := by
  unfold searchSmile
  have : (l.map fun p => (p.1, smile c p.2)).takeWhile (fun p => decide (before p.1 t)) = (l.takeWhile (fun p => decide (before p.1 t))).map fun p => (p.1, smile c p.2) := by
    rw [List.takeWhile_map]
    rfl
  simp only [this, List.length_map, List.getElem?_map, Option.map_map, Function.comp_def]

theorem extrapolate_input (hc : 0 < c) (i : Input) (s : Smile) (p : Pillar) (t : Point) (ks : List (Num ℝ)) :
    extrapolate (input c i) (smile c s) { p with forward := amount c p.forward } t (ks.map (amount c)) = extrapolate i s p t ks := by
  unfold extrapolate
  show (yearFraction i.calendar i.baseDate t >>= _) = _
  cases yearFraction i.calendar i.baseDate t with
  | error e => rfl
  | ok time =>
    simp only [ok_to]
    cases ks with
    | nil => rfl
    | cons k ks =>
      show (atDate (curve c i.forward) t.1 >>= _) = _
      rw [atDate_curve]
      cases atDate i.forward t.1 with
      | error e => rfl
      | ok f =>
        simp only [map_ok, ok_to]
        have : ∀ l : List (Num ℝ), ((l.map (amount c)).map (toNormalised (amount c f) (nsqrt (.val time)))).map (toStrike (amount c p.forward) (nsqrt (.val p.volTime))) =
            ((l.map (toNormalised f (nsqrt (.val time)))).map (toStrike p.forward (nsqrt (.val p.volTime)))).map (amount c) := by
          intro l
          simp only [List.map_map]
          congr 1
          funext k
          simp only [Function.comp_def, toNormalised_amounts hc, toStrike_amounts]
        have h := this (k :: ks)
        simp only [List.map_cons] at h ⊢
        rw [h, ← List.map_cons, ← List.map_cons, each_smile hc]

theorem pillarVariances_input (hc : 0 < c) (s : Smile) (time : ℝ) (ks : List (Num ℝ)) :
    pillarVariances (smile c s) time (ks.map (amount c)) = pillarVariances s time ks := by
  unfold pillarVariances
  rw [each_smile hc]

theorem interpolate_input (hc : 0 < c) (i : Input) (l r : Smile) (pl pr : Pillar) (t : Point) (ks : List (Num ℝ)) :
    interpolate (input c i) (smile c l) (smile c r) { pl with forward := amount c pl.forward } { pr with forward := amount c pr.forward } t (ks.map (amount c)) =
      interpolate i l r pl pr t ks := by
  unfold interpolate
  show (yearFraction i.calendar i.baseDate t >>= _) = _
  cases yearFraction i.calendar i.baseDate t with
  | error e => rfl
  | ok time =>
    simp only [ok_to]
    cases ks with
    | nil => rfl
    | cons k ks =>
      show (atDate (curve c i.forward) t.1 >>= _) = _
      rw [atDate_curve]
      cases atDate i.forward t.1 with
      | error e => rfl
      | ok f =>
        simp only [map_ok, ok_to]
        have : ∀ (p : Pillar) (v : Num ℝ) (l : List (Num ℝ)), ((l.map (amount c)).map (toNormalised (amount c f) v)).map (toStrike (amount c p.forward) p.sqrtVariance) =
            ((l.map (toNormalised f v)).map (toStrike p.forward p.sqrtVariance)).map (amount c) := by
          intro p v l
          simp only [List.map_map]
          congr 1
          funext k
          simp only [Function.comp_def, toNormalised_amounts hc, toStrike_amounts]
        rw [this pl, this pr, pillarVariances_input hc, pillarVariances_input hc]

/-- The smile and the pillar at a place. -/
def pillarAt (i : Input) (ps : List Pillar) (j : Nat) : Outcome (Smile × Pillar) :=
  match i.smiles[j]?, ps[j]? with
  | some p, some q => .ok (p.2, q)
  | _, _ => .error .panic

theorem byProbability_eq (i : Input) (ps : List Pillar) (t : Point) (ks : List (Num ℝ)) : byProbabilityVolatilities i ps t ks =
    (if (searchSmile i.smiles t).2 then do
      let q ← pillarAt i ps (searchSmile i.smiles t).1
      let out ← each q.1.volatility ks
      pure (q.2.volTime, out)
    else if (searchSmile i.smiles t).1 = 0 then do
      let q ← pillarAt i ps 0
      extrapolate i q.1 q.2 t ks
    else if (searchSmile i.smiles t).1 ≥ i.smiles.length then do
      let q ← pillarAt i ps (i.smiles.length - 1)
      extrapolate i q.1 q.2 t ks
    else do
      let q ← pillarAt i ps ((searchSmile i.smiles t).1 - 1)
      let r ← pillarAt i ps (searchSmile i.smiles t).1
      interpolate i q.1 r.1 q.2 r.2 t ks) := rfl

theorem pillarAt_units (i : Input) (ps : List Pillar) (j : Nat) : pillarAt (input c i) (ps.map fun p => { p with forward := amount c p.forward }) j =
    (pillarAt i ps j).map fun q => (smile c q.1, { q.2 with forward := amount c q.2.forward }) := by
  unfold pillarAt
  simp only [input, List.getElem?_map]
  cases i.smiles[j]? <;> cases ps[j]? <;> rfl

theorem byProbability_units (hc : 0 < c) (i : Input) (ps : List Pillar) (t : Point) (ks : List (Num ℝ)) :
    byProbabilityVolatilities (input c i) (ps.map fun p => { p with forward := amount c p.forward }) t (ks.map (amount c)) =
      byProbabilityVolatilities i ps t ks := by
  have hs : searchSmile (input c i).smiles t = searchSmile i.smiles t := searchSmile_input _ _
  have hn : (input c i).smiles.length = i.smiles.length := by simp [input]
  rw [byProbability_eq, byProbability_eq, hs, hn]
  simp only [pillarAt_units]
  split
  · cases pillarAt i ps (searchSmile i.smiles t).1 with
    | error e => rfl
    | ok q => simp only [map_ok, ok_to, each_smile hc]
  split
  · cases pillarAt i ps 0 with
    | error e => rfl
    | ok q => simp only [map_ok, ok_to, extrapolate_input hc]
  split
  · cases pillarAt i ps (i.smiles.length - 1) with
    | error e => rfl
    | ok q => simp only [map_ok, ok_to, extrapolate_input hc]
  · cases pillarAt i ps ((searchSmile i.smiles t).1 - 1) with
    | error e => rfl
    | ok q =>
      simp only [map_ok, ok_to]
      cases pillarAt i ps (searchSmile i.smiles t).1 with
      | error e => rfl
      | ok r => simp only [map_ok, ok_to, interpolate_input hc]

/-! ## What is asked of a surface -/

theorem surface_calendar (s : VolSurface) : (surface c s).calendar = s.calendar := by
  induction s <;> simp_all [surface, VolSurface.calendar, input]

theorem surface_baseDate (s : VolSurface) : (surface c s).baseDate = s.baseDate := by
  induction s <;> simp_all [surface, VolSurface.baseDate, input]

theorem surface_divAssumptions (s : VolSurface) : (surface c s).divAssumptions = s.divAssumptions := by
  induction s <;> simp_all [surface, VolSurface.divAssumptions, input]

theorem surface_forward (s : VolSurface) : (surface c s).forward = s.forward.map fun f d => (f d).map (amount c) := by
  induction s with
  | byProbability i ps =>
    simp only [surface, VolSurface.forward, Option.map_some, Option.some.injEq]
    funext d
    exact atDate_curve _ _
  | flat v b d => rfl
  | stickyDeltaBump s f ih => rfl
  | constantExpiry s o b ih => exact ih
  | rollingExpiry s o b ih => exact ih
  | parallelBump s b ih => exact ih
  | timeScaledBump s b f ih => exact ih

theorem displacementBy_amount (a : DivAssumptions) (o : Outcome (Num ℝ)) :
    displacementBy a (o.map (amount c)) = (displacementBy a o).map (amount c) := by
  cases a <;> simp [displacementBy]

theorem surface_displacement (s : VolSurface) (d : Int) : (surface c s).displacement d = (s.displacement d).map (amount c) := by
  induction s with
  | byProbability i ps =>
    simp only [surface, VolSurface.displacement, input, atDate_curve, displacementBy_amount]
  | flat v b d => simp [surface, VolSurface.displacement]
  | stickyDeltaBump s f ih =>
    simp only [surface, VolSurface.displacement, surface_divAssumptions, forward, displacementBy_amount]
  | constantExpiry s o b ih => exact ih
  | rollingExpiry s o b ih => exact ih
  | parallelBump s b ih => exact ih
  | timeScaledBump s b f ih => exact ih

theorem surface_volatilities (hc : 0 < c) (fuel : Nat) (s : VolSurface) : ∀ (t : Point) (ks : List (Num ℝ)),
    (surface c s).volatilities fuel t (ks.map (amount c)) = s.volatilities fuel t ks := by
  induction s with
  | byProbability i ps => exact fun t ks => byProbability_units hc i ps t ks
  | flat v b d =>
    intro t ks
    simp only [surface, VolSurface.volatilities, List.map_map, Function.comp_def]
  | constantExpiry s o b ih =>
    intro t ks
    simp only [surface, VolSurface.volatilities, ih]
  | rollingExpiry s o b ih =>
    intro t ks
    simp only [surface, VolSurface.volatilities, ih, surface_calendar]
  | parallelBump s b ih =>
    intro t ks
    simp only [surface, VolSurface.volatilities, ih]
  | timeScaledBump s b f ih =>
    intro t ks
    simp only [surface, VolSurface.volatilities, ih]
  | stickyDeltaBump s f ih =>
    intro t ks
    cases ks with
    | nil => exact ih t []
    | cons k ks =>
      simp only [surface, VolSurface.volatilities, List.map_cons, surface_forward]
      cases s.forward with
      | none => exact ih t (k :: ks)
      | some g =>
        simp only [Option.map_some, forward]
        cases f.forward t.1 with
        | error e => rfl
        | ok a =>
          cases g t.1 with
          | error e => rfl
          | ok b =>
            simp only [map_ok, ok_to, ndiv_amounts hc]
            have e : ∀ k, num2 (· * ·) (amount c k) (ndiv b a) = amount c (num2 (· * ·) k (ndiv b a)) := by
              intro k
              cases k <;> cases ndiv b a <;> simp [num2, mul_assoc]
            have h := ih t ((k :: ks).map (fun k => num2 (· * ·) k (ndiv b a)))
            simp only [List.map_cons, List.map_map, Function.comp_def, ← e] at h
            simp only [List.map_map, Function.comp_def]
            exact h

theorem surface_variances (hc : 0 < c) (fuel : Nat) (s : VolSurface) (t : Point) (ks : List (Num ℝ)) :
    (surface c s).variances fuel t (ks.map (amount c)) = s.variances fuel t ks := by
  unfold VolSurface.variances
  rw [surface_volatilities hc]

theorem surface_variance (hc : 0 < c) (fuel : Nat) (s : VolSurface) (t : Point) (k : Num ℝ) :
    (surface c s).variance fuel t (amount c k) = s.variance fuel t k := by
  unfold VolSurface.variance
  rw [show [amount c k] = [k].map (amount c) from rfl, surface_variances hc]

theorem surface_findSmileDate (fuel : Nat) (s : VolSurface) (a b : Point) :
    (surface c s).findSmileDate fuel a b = s.findSmileDate fuel a b := by
  unfold VolSurface.findSmileDate
  rw [surface_calendar, surface_baseDate]

theorem surface_forwardVariances (hc : 0 < c) (fuel : Nat) (s : VolSurface) (a b : Point) (ks : List (Num ℝ)) :
    (surface c s).forwardVariances fuel a b (ks.map (amount c)) = s.forwardVariances fuel a b ks := by
  unfold VolSurface.forwardVariances
  rw [surface_baseDate, surface_forward]
  split
  · exact surface_variances hc ..
  cases s.forward with
  | none => simp only [Option.map_none, surface_variances hc]
  | some g =>
    simp only [Option.map_some]
    cases g a.1 with
    | error e => rfl
    | ok x =>
      cases g b.1 with
      | error e => rfl
      | ok y =>
        simp only [map_ok, ok_to, surface_variance hc, surface_findSmileDate, surface_variances hc]
        congr 1
        funext v
        congr 1
        funext w
        split
        · rfl
        · congr 1
          funext d
          cases g d.1 with
          | error e => rfl
          | ok z => simp only [map_ok, ok_to, surface_variance hc]

theorem surface_forwardVariance (hc : 0 < c) (fuel : Nat) (s : VolSurface) (a b : Point) (k : Num ℝ) :
    (surface c s).forwardVariance fuel a b (amount c k) = s.forwardVariance fuel a b k := by
  unfold VolSurface.forwardVariance
  rw [show [amount c k] = [k].map (amount c) from rfl, surface_forwardVariances hc]

/-! ## Making and changing surfaces -/

theorem buildPillars_units (hc : 0 < c) (i : Input) (l : List (Point × Smile)) : ∀ v, buildPillars (input c i) v (l.map fun p => (p.1, smile c p.2)) =
    (buildPillars i v l).map fun ps => ps.map fun p => { p with forward := amount c p.forward } := by
  induction l with
  | nil => exact fun _ => rfl
  | cons p l ih =>
    intro v
    obtain ⟨d, s⟩ := p
    simp only [List.map_cons, buildPillars]
    show (atDate (curve c i.forward) d.1 >>= _) = _
    rw [atDate_curve]
    cases atDate i.forward d.1 with
    | error e => rfl
    | ok f =>
      simp only [map_ok, ok_to, smile_volatility hc]
      cases s.volatility f with
      | error e => rfl
      | ok w =>
        simp only [ok_to]
        show (yearFraction i.calendar i.baseDate d >>= _) = _
        cases yearFraction i.calendar i.baseDate d with
        | error e => rfl
        | ok t =>
          simp only [ok_to, ih]
          split
          · rfl
          · cases buildPillars i (num2 (· * ·) (num2 (· * ·) (.val t) w) w) l <;> rfl

theorem newByProbability_units (hc : 0 < c) (i : Input) :
    VolSurface.newByProbability (input c i) = (VolSurface.newByProbability i).map (surface c) := by
  unfold VolSurface.newByProbability
  have h := buildPillars_units hc i i.smiles (.val 0)
  have e : (input c i).smiles = i.smiles.map fun p => (p.1, smile c p.2) := rfl
  rw [e]
  generalize hl : i.smiles = l
  rw [hl] at h
  cases l with
  | nil => rfl
  | cons p l =>
    rw [List.map_cons] at h ⊢
    simp only [h]
    cases buildPillars i (.val 0) (p :: l) <;> rfl

theorem volTimeDynamics_units (m : VolTimeDynamics) (s : VolSurface) (d : Int) : m.modify (surface c s) d = (m.modify s d).map (surface c) := by
  unfold VolTimeDynamics.modify
  rw [surface_baseDate, surface_calendar]
  split
  · rfl
  · dsimp only
    cases yearFraction s.calendar s.baseDate (d, 0) with
    | error e => rfl
    | ok x =>
      simp only [ok_to]
      split
      · rfl
      · cases m <;> rfl

theorem napprox_amounts (hc : 0 < c) (x y : Num ℝ) :
    napprox (amount c x) (amount c y) (num1 (· / 10 ^ 12) (amount c x)) ↔ napprox x y (num1 (· / 10 ^ 12) x) := by
  cases x <;> cases y <;> simp only [amount_nan, amount_val, num1, napprox]
  rw [← mul_sub, abs_mul, abs_of_pos hc, mul_div_assoc, mul_lt_mul_iff_right₀ hc]

theorem volForwardDynamics_units (hc : 0 < c) (m : VolForwardDynamics) (s : VolSurface) (g g' : Unit → Outcome Fwd) (hg : g' () = (g ()).map (forward c)) :
    m.modify (surface c s) g' = (m.modify s g).map (surface c) := by
  unfold VolForwardDynamics.modify
  rw [surface_baseDate, surface_forward, hg]
  split
  · rfl
  · cases s.forward with
    | none => rfl
    | some f =>
      simp only [Option.map_some]
      cases g () with
      | error e => rfl
      | ok w =>
        simp only [map_ok, ok_to, forward]
        cases w.forward s.baseDate.1 with
        | error e => rfl
        | ok x =>
          simp only [map_ok, ok_to]
          cases f s.baseDate.1 with
          | error e => rfl
          | ok y =>
            simp only [map_ok, ok_to]
            by_cases h : napprox y x (num1 (· / 10 ^ 12) y)
            · rw [if_pos h, if_pos ((napprox_amounts hc y x).2 h)]
              rfl
            · rw [if_neg h, if_neg (fun h' => h ((napprox_amounts hc y x).1 h'))]
              rfl

theorem bumpVol_units (b : BumpVol) (s : VolSurface) : b.apply (surface c s) = surface c (b.apply s) := by
  cases b with
  | flatAdditive size => rfl
  | timeScaled size floor => rfl
  | replace v => simp only [BumpVol.apply, surface_calendar, surface_baseDate, surface]

end QM.Units
