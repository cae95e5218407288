import Verif.Vol.Model

/-!
# Specification of vol surfaces
-/

namespace QM.Vol.Spec
open QM.Interp QM.Calendar

/-- A time of day is at or after the start and at or before the end of the day. -/
def TimeOfDay (t : Point) : Prop := 0 ≤ t.2 ∧ t.2 ≤ 1

/-- Neither the time nor the volatilities of a surface depend on the strikes asked for. -/
def Skewless (fuel : Nat) (s : VolSurface) : Prop :=
  ∀ t ks ks' T T' vs vs', s.volatilities fuel t ks = .ok (T, vs) → s.volatilities fuel t ks' = .ok (T', vs') →
    T = T' ∧ ∀ v ∈ vs, ∀ v' ∈ vs', v = v'

/-- The outermost bump of a surface is a parallel or a time-scaled one: time evolutions and sticky delta
shifts may be applied on top of it. -/
def Bumped : VolSurface → Prop
  | .flat _ _ _ => False
  | .byProbability _ _ => False
  | .parallelBump _ _ => True
  | .timeScaledBump _ _ _ => True
  | .constantExpiry s _ _ => Bumped s
  | .rollingExpiry s _ _ => Bumped s
  | .stickyDeltaBump s _ => Bumped s

/-- Smiles in ascending order of date, as the documentation of the constructor requires
(`volsurface.rs:605-607`). -/
def Ascending (smiles : List (Point × Smile)) : Prop := smiles.Pairwise (fun a b => before a.1 b.1)

/-- On the pillar date `p.1` the forward is `F`, the time is `T` and the variance at the forward is `A`. -/
def AtPillar (input : Input) (p : Point × Smile) (F T A : ℝ) : Prop :=
  atDate input.forward p.1.1 = .ok (.val F) ∧ yearFraction input.calendar input.baseDate p.1 = .ok T ∧
    ∃ v, p.2.volatility (.val F) = .ok (.val v) ∧ A = T * v ^ 2

/-- The normalised strike of `K`: its distance from the forward in standard deviations. -/
noncomputable def normalised (K F A : ℝ) : ℝ := Real.log (K / F) / Real.sqrt A

/-- The strike `z` standard deviations from the forward. -/
noncomputable def strikeAt (z F A : ℝ) : ℝ := Real.exp (z * Real.sqrt A) * F

/-- The value at `T` of the straight line through `(Tl, l)` and `(Tr, r)`. -/
noncomputable def straight (Tl Tr l r T : ℝ) : ℝ := l + (r - l) * ((T - Tl) / (Tr - Tl))

/-- Surfaces built by the constructors, bumped, shifted to another forward and evolved at constant expiries, any
number of times in any order. -/
inductive Dated : VolSurface → Prop where
  | flat (v : Num ℝ) (c : Cal ℝ) (base : Point) : Dated (.flat v c base)
  | byProbability {input : Input} {s : VolSurface} (h : VolSurface.newByProbability input = .ok s) : Dated s
  | bumped {s : VolSurface} (b : BumpVol) (h : Dated s) : Dated (b.apply s)
  | shifted {s s' : VolSurface} (f : Unit → Outcome Fwd) (h : Dated s) (h' : VolForwardDynamics.stickyDelta.modify s f = .ok s') :
    Dated s'
  | evolved {s s' : VolSurface} (d : Int) (h : Dated s) (h' : VolTimeDynamics.constantExpiry.modify s d = .ok s') : Dated s'

/-- `s` is `base`, bumped by parallel and time-scaled bumps and evolved in time, any number of times in any order. -/
inductive Stacked (base : VolSurface) : VolSurface → Prop where
  | self : Stacked base base
  | parallel {s : VolSurface} (b : Num ℝ) (h : Stacked base s) : Stacked base ((BumpVol.flatAdditive b).apply s)
  | timeScaled {s : VolSurface} (b : Num ℝ) (floor : ℝ) (h : Stacked base s) : Stacked base ((BumpVol.timeScaled b floor).apply s)
  | evolved {s s' : VolSurface} (dyn : VolTimeDynamics) (d : Int) (h : Stacked base s) (h' : dyn.modify s d = .ok s') : Stacked base s'

/-- What strikes are displaced by under each assumption, when `cash` is the cash still to be paid. -/
def displaced (cash : Outcome (Num ℝ)) : DivAssumptions → Outcome (Num ℝ)
  | .noCashDivs | .independentLogNormals => .ok (.val 0)
  | .fixedDivs => cash
  | .jumpDivs => .error .err

end QM.Vol.Spec
