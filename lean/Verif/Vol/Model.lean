import Verif.Calendar.Model
import Verif.Curves.Model
import Mathlib.Analysis.SpecialFunctions.Pow.Real

/-!
# Model of `src/data/volsurface.rs`, `volsmile.rs`, `voldecorators.rs` and `bumpvol.rs`

Over the real numbers with NaN. Simplifications: infinities are not modelled, so dividing by zero and the
logarithm of zero give NaN (a time-scaled bump of a number other than zero at a time that is not positive
with a floor that is not positive is infinite in Rust, and a strike extrapolated from time zero is zero or
infinite: no theorem is stated about those cases); a volatility time is a number; the output slices are returned as lists, so
the assertions on their lengths have no counterpart; what an output slice contains after an error is
not modelled. Stepping a volatility calendar that does not finish within `fuel` turns is reported as
a panic. Reference counting and serialization are not modelled.
-/

namespace QM.Vol
open QM.Interp QM.Calendar
open QM.Curves (ln)

/-! ## Floating point numbers with NaN -/

def num1 (f : ℝ → ℝ) : Num ℝ → Num ℝ
  | .nan => .nan
  | .val x => .val (f x)

def num2 (f : ℝ → ℝ → ℝ) : Num ℝ → Num ℝ → Num ℝ
  | .val x, .val y => .val (f x y)
  | _, _ => .nan

open Classical in
/-- Division. -/
noncomputable def ndiv : Num ℝ → Num ℝ → Num ℝ
  | .val x, .val y => if y = 0 then .nan else .val (x / y)
  | _, _ => .nan

open Classical in
/-- `f64::sqrt`. -/
noncomputable def nsqrt : Num ℝ → Num ℝ
  | .nan => .nan
  | .val x => if x < 0 then .nan else .val (Real.sqrt x)

/-- `f64::ln`. -/
noncomputable def nln : Num ℝ → Num ℝ
  | .nan => .nan
  | .val x => ln x

/-- `f64::max`, which ignores a NaN. -/
noncomputable def nmax : Num ℝ → ℝ → ℝ
  | .nan, y => y
  | .val x, y => max x y

/-- A comparison, false if one side is NaN. -/
def nlt : Num ℝ → Num ℝ → Prop
  | .val x, .val y => x < y
  | _, _ => False

/-- `approx_eq`, `numerics.rs:5-7`. -/
def napprox : Num ℝ → Num ℝ → Num ℝ → Prop
  | .val x, .val y, .val tol => |x - y| < tol
  | _, _, _ => False

/-- `lerp`, `interpolation.rs:103-105`. -/
noncomputable def nlerp : Num ℝ → Num ℝ → Num ℝ → Num ℝ
  | .val l, .val r, .val f => .val (lerp l r f)
  | _, _, _ => .nan

/-- Apply a fallible function to every element, stopping at the first failure. -/
def each {α β : Type} (f : α → Outcome β) : List α → Outcome (List β)
  | [] => .ok []
  | a :: rest => do
    let b ← f a
    let bs ← each f rest
    pure (b :: bs)

/-! ## Smiles -/

/-- `FlatSmile` and `CubicSplineSmile`, `volsmile.rs:36-38`, `67-69`. -/
inductive Smile where
  | flat (vol : Num ℝ)
  | cubicSpline (smile : CubicSpline ℝ)

/-- `VolSmile::volatility`, `volsmile.rs:25-30`, on top of `volatilities`, lines `42-54` and `73-85`. -/
noncomputable def Smile.volatility : Smile → Num ℝ → Outcome (Num ℝ)
  | .flat vol, _ => .ok vol
  | .cubicSpline s, k => s.interpolate k

/-- `CubicSplineSmile::new`, `volsmile.rs:93-96`. -/
noncomputable def Smile.newCubicSpline (pillars : List (Num ℝ × ℝ)) : Outcome Smile := do
  let s ← CubicSpline.new pillars .natural .natural
  pure (.cubicSpline s)

/-! ## Surfaces -/

/-- `DateDayFraction`, `datetime.rs:84-87`. -/
abbrev Point := Int × ℝ

/-- The derived order of `DateDayFraction`. -/
def before (a b : Point) : Prop := a.1 < b.1 ∨ (a.1 = b.1 ∧ a.2 < b.2)

/-- `DivAssumptions`, `volsurface.rs:267-296`. -/
inductive DivAssumptions where
  | noCashDivs | independentLogNormals | fixedDivs | jumpDivs
deriving DecidableEq

/-- What a vol surface uses of a forward curve: `Forward`, `forward.rs:13-29`. -/
structure Fwd where
  forward : Int → Outcome (Num ℝ)
  fixedDivsAfter : Int → Outcome (Num ℝ)

/-- `VolByProbabilityInput`, `volsurface.rs:509-516`. -/
structure Input where
  smiles : List (Point × Smile)
  calendar : Cal ℝ
  baseDate : Point
  forward : Linear ℝ
  fixedDivsAfter : Linear ℝ
  divAssumptions : DivAssumptions

/-- One entry of each of `pillar_forwards`, `pillar_sqrt_variances` and `pillar_vol_times`,
`volsurface.rs:494-496`. -/
structure Pillar where
  forward : Num ℝ
  sqrtVariance : Num ℝ
  volTime : ℝ

/-- The implementations of `VolSurface` (`volsurface.rs:407-411`, `492-497`; `voldecorators.rs:22-26`, `91-95`,
`168-171`, `231-235`, `300-304`). The wrappers `VolByProbabilityFlatSmile` and
`VolByProbabilityCubicSplineSmile` only forward and have no constructor of their own. -/
inductive VolSurface where
  | flat (vol : Num ℝ) (calendar : Cal ℝ) (baseDate : Point)
  | byProbability (input : Input) (pillars : List Pillar)
  | constantExpiry (baseVol : VolSurface) (volTimeOffset : ℝ) (baseDate : Point)
  | rollingExpiry (baseVol : VolSurface) (volTimeOffset : ℝ) (baseDate : Point)
  | parallelBump (baseVol : VolSurface) (bump : Num ℝ)
  | timeScaledBump (baseVol : VolSurface) (bump : Num ℝ) (volTimeFloor : ℝ)
  | stickyDeltaBump (baseVol : VolSurface) (bumpedForward : Fwd)

/-- `calendar`. -/
def VolSurface.calendar : VolSurface → Cal ℝ
  | .flat _ calendar _ => calendar
  | .byProbability input _ => input.calendar
  | .constantExpiry s _ _ => s.calendar
  | .rollingExpiry s _ _ => s.calendar
  | .parallelBump s _ => s.calendar
  | .timeScaledBump s _ _ => s.calendar
  | .stickyDeltaBump s _ => s.calendar

/-- `base_date`. -/
def VolSurface.baseDate : VolSurface → Point
  | .flat _ _ baseDate => baseDate
  | .byProbability input _ => input.baseDate
  | .constantExpiry _ _ baseDate => baseDate
  | .rollingExpiry _ _ baseDate => baseDate
  | .parallelBump s _ => s.baseDate
  | .timeScaledBump s _ _ => s.baseDate
  | .stickyDeltaBump s _ => s.baseDate

/-- `Linear<Date>::interpolate`. -/
noncomputable def atDate (l : Linear ℝ) (date : Int) : Outcome (Num ℝ) := l.interpolate (.val (date : ℝ))

/-- `forward`. -/
noncomputable def VolSurface.forward : VolSurface → Option (Int → Outcome (Num ℝ))
  | .flat _ _ _ => none
  | .byProbability input _ => some (atDate input.forward)
  | .constantExpiry s _ _ => s.forward
  | .rollingExpiry s _ _ => s.forward
  | .parallelBump s _ => s.forward
  | .timeScaledBump s _ _ => s.forward
  | .stickyDeltaBump _ f => some f.forward

/-- `div_assumptions`. -/
def VolSurface.divAssumptions : VolSurface → DivAssumptions
  | .flat _ _ _ => .noCashDivs
  | .byProbability input _ => input.divAssumptions
  | .constantExpiry s _ _ => s.divAssumptions
  | .rollingExpiry s _ _ => s.divAssumptions
  | .parallelBump s _ => s.divAssumptions
  | .timeScaledBump s _ _ => s.divAssumptions
  | .stickyDeltaBump s _ => s.divAssumptions

/-- The `match` of `volsurface.rs:591-600` and `voldecorators.rs:374-384`. -/
def displacementBy (a : DivAssumptions) (fixedDivsAfter : Outcome (Num ℝ)) : Outcome (Num ℝ) :=
  match a with
  | .noCashDivs => .ok (.val 0)
  | .independentLogNormals => .ok (.val 0)
  | .fixedDivs => fixedDivsAfter
  | .jumpDivs => .error .err

/-- `displacement`. -/
noncomputable def VolSurface.displacement : VolSurface → Int → Outcome (Num ℝ)
  | .flat _ _ _, _ => .ok (.val 0)
  | .byProbability input _, date => displacementBy input.divAssumptions (atDate input.fixedDivsAfter date)
  | .constantExpiry s _ _, date => s.displacement date
  | .rollingExpiry s _ _, date => s.displacement date
  | .parallelBump s _, date => s.displacement date
  | .timeScaledBump s _ _, date => s.displacement date
  | .stickyDeltaBump s f, date => displacementBy s.divAssumptions (f.fixedDivsAfter date)

/-- `to_normalised`, `volsurface.rs:881-890`, for one strike. -/
noncomputable def toNormalised (forward sqrtVariance strike : Num ℝ) : Num ℝ :=
  ndiv (nln (ndiv strike forward)) sqrtVariance

/-- `to_strikes`, `volsurface.rs:892-901`, for one strike. -/
noncomputable def toStrike (forward sqrtVariance normalised : Num ℝ) : Num ℝ :=
  num2 (· * ·) (num1 Real.exp (num2 (· * ·) normalised sqrtVariance)) forward

open Classical in
/-- `binary_search_by` on increasing dates, replaced by its contract: the position of the first smile not
before the date, and whether that smile is on the date. -/
noncomputable def searchSmile (smiles : List (Point × Smile)) (t : Point) : Nat × Bool :=
  let i := (smiles.takeWhile (fun p => decide (before p.1 t))).length
  (i, decide (smiles[i]?.map Prod.fst = some t))

/-- `extrapolate`, `volsurface.rs:660-690`. -/
noncomputable def extrapolate (input : Input) (smile : Smile) (pillar : Pillar) (t : Point) (strikes : List (Num ℝ)) :
    Outcome (ℝ × List (Num ℝ)) := do
  let volTime ← yearFraction input.calendar input.baseDate t
  match strikes with
  | [] => pure (volTime, [])
  | _ :: _ => do
    let forward ← atDate input.forward t.1
    let normalised := strikes.map (toNormalised forward (nsqrt (.val volTime)))
    let adjStrikes := normalised.map (toStrike pillar.forward (nsqrt (.val pillar.volTime)))
    let out ← each smile.volatility adjStrikes
    pure (volTime, out)

/-- `pillar_variances`, `volsurface.rs:755-767`. -/
noncomputable def pillarVariances (smile : Smile) (volTime : ℝ) (strikes : List (Num ℝ)) : Outcome (List (Num ℝ)) := do
  let vols ← each smile.volatility strikes
  pure (vols.map (fun v => num2 (· * ·) (num2 (· * ·) v v) (.val volTime)))

open Classical in
/-- The last loop of `interpolate`, `volsurface.rs:739-750`. -/
noncomputable def combine (fraction : Num ℝ) (volTime : ℝ) : List (Num ℝ) → List (Num ℝ) → Outcome (List (Num ℝ))
  | l :: ls, r :: rs =>
    if nlt r l then .error .err
    else do
      let variance := nlerp l r fraction
      let rest ← combine fraction volTime ls rs
      pure (nsqrt (ndiv variance (.val volTime)) :: rest)
  | _, _ => .ok []

/-- `interpolate`, `volsurface.rs:692-753`. -/
noncomputable def interpolate (input : Input) (left right : Smile) (pl pr : Pillar) (t : Point) (strikes : List (Num ℝ)) :
    Outcome (ℝ × List (Num ℝ)) := do
  let volTime ← yearFraction input.calendar input.baseDate t
  match strikes with
  | [] => pure (volTime, [])
  | _ :: _ => do
    let fraction := ndiv (.val (volTime - pl.volTime)) (.val (pr.volTime - pl.volTime))
    let forward ← atDate input.forward t.1
    let leftAtmVar := num2 (· * ·) pl.sqrtVariance pl.sqrtVariance
    let rightAtmVar := num2 (· * ·) pr.sqrtVariance pr.sqrtVariance
    let atmVariance := nlerp leftAtmVar rightAtmVar fraction
    let normalised := strikes.map (toNormalised forward (nsqrt atmVariance))
    let leftVars ← pillarVariances left pl.volTime (normalised.map (toStrike pl.forward pl.sqrtVariance))
    let rightVars ← pillarVariances right pr.volTime (normalised.map (toStrike pr.forward pr.sqrtVariance))
    let out ← combine fraction volTime leftVars rightVars
    pure (volTime, out)

/-- `VolByProbability::volatilities`, `volsurface.rs:545-573`. -/
noncomputable def byProbabilityVolatilities (input : Input) (pillars : List Pillar) (t : Point) (strikes : List (Num ℝ)) :
    Outcome (ℝ × List (Num ℝ)) :=
  let n := input.smiles.length
  let s := searchSmile input.smiles t
  let at_ (i : Nat) : Outcome (Smile × Pillar) :=
    match input.smiles[i]?, pillars[i]? with
    | some p, some q => .ok (p.2, q)
    | _, _ => .error .panic
  if s.2 then do
    let (smile, pillar) ← at_ s.1
    let out ← each smile.volatility strikes
    pure (pillar.volTime, out)
  else if s.1 = 0 then do
    let (smile, pillar) ← at_ 0
    extrapolate input smile pillar t strikes
  else if s.1 ≥ n then do
    let (smile, pillar) ← at_ (n - 1)
    extrapolate input smile pillar t strikes
  else do
    let (left, pl) ← at_ (s.1 - 1)
    let (right, pr) ← at_ s.1
    interpolate input left right pl pr t strikes

open Classical in
/-- The loop of `VolByProbability::new`, `volsurface.rs:632-651`. -/
noncomputable def buildPillars (input : Input) : Num ℝ → List (Point × Smile) → Outcome (List Pillar)
  | _, [] => .ok []
  | prevVariance, (date, smile) :: rest => do
    let f ← atDate input.forward date.1
    let vol ← smile.volatility f
    let time ← yearFraction input.calendar input.baseDate date
    let variance := num2 (· * ·) (num2 (· * ·) (.val time) vol) vol
    if nlt variance prevVariance then .error .err
    else do
      let pillars ← buildPillars input variance rest
      pure (⟨f, nsqrt variance, time⟩ :: pillars)

/-- `VolByProbability::new`, `volsurface.rs:613-658`. -/
noncomputable def VolSurface.newByProbability (input : Input) : Outcome VolSurface :=
  match input.smiles with
  | [] => .error .err
  | _ :: _ => do
    let pillars ← buildPillars input (.val 0) input.smiles
    pure (.byProbability input pillars)

/-- The result of a calendar step that is given up after `fuel` turns. -/
def finished {α : Type} : Option (Outcome α) → Outcome α
  | none => .error .panic
  | some r => r

/-- `volatilities` (`volsurface.rs:418-431`, `545-573`; `voldecorators.rs:51-65`, `118-140`, `189-202`, `256-271`,
`326-354`), with the volatility time. -/
noncomputable def VolSurface.volatilities (fuel : Nat) : VolSurface → Point → List (Num ℝ) → Outcome (ℝ × List (Num ℝ))
  | .flat vol calendar baseDate, t, strikes => do
    let time ← yearFraction calendar baseDate t
    pure (time, strikes.map (fun _ => vol))
  | .byProbability input pillars, t, strikes => byProbabilityVolatilities input pillars t strikes
  | .constantExpiry s offset _, t, strikes => do
    let (volTime, out) ← s.volatilities fuel t strikes
    pure (max (volTime - offset) 0, out)
  | .rollingExpiry s offset _, t, strikes => do
    let back := - offset * standardBasis s.calendar
    let adjDate ← finished (stepPartial fuel s.calendar t.1 back (decide (back ≥ 0)))
    let (volTime, out) ← s.volatilities fuel (adjDate, t.2) strikes
    pure (max volTime 0, out)
  | .parallelBump s bump, t, strikes => do
    let (volTime, out) ← s.volatilities fuel t strikes
    pure (volTime, out.map (fun v => .val (nmax (num2 (· + ·) v bump) 0)))
  | .timeScaledBump s bump floor, t, strikes => do
    let (volTime, out) ← s.volatilities fuel t strikes
    let scaled := ndiv bump (nsqrt (.val (max volTime floor)))
    pure (volTime, out.map (fun v => .val (nmax (num2 (· + ·) v scaled) 0)))
  | .stickyDeltaBump s f, t, strikes =>
    match strikes with
    | [] => s.volatilities fuel t []
    | k :: ks =>
      match s.forward with
      | none => s.volatilities fuel t (k :: ks)
      | some fwd => do
        let newForward ← f.forward t.1
        let oldForward ← fwd t.1
        let adjustment := ndiv oldForward newForward
        s.volatilities fuel t ((k :: ks).map (fun k => num2 (· * ·) k adjustment))

/-- `vol_time`, `volsurface.rs:70-76`. -/
noncomputable def VolSurface.volTime (fuel : Nat) (s : VolSurface) (t : Point) : Outcome ℝ := do
  let (time, _) ← s.volatilities fuel t []
  pure time

/-- `variances`, `volsurface.rs:80-97`. -/
noncomputable def VolSurface.variances (fuel : Nat) (s : VolSurface) (t : Point) (strikes : List (Num ℝ)) : Outcome (List (Num ℝ)) := do
  let (time, vols) ← s.volatilities fuel t strikes
  pure (vols.map (fun v => num2 (· * ·) (num2 (· * ·) (.val time) v) v))

/-- `variances[0]`. -/
def first : List (Num ℝ) → Outcome (Num ℝ)
  | [] => .error .panic
  | v :: _ => .ok v

/-- `variance`, `volsurface.rs:102-109`. -/
noncomputable def VolSurface.variance (fuel : Nat) (s : VolSurface) (t : Point) (strike : Num ℝ) : Outcome (Num ℝ) := do
  let v ← s.variances fuel t [strike]
  first v

/-- `find_smile_date`, `volsurface.rs:203-216`. -/
noncomputable def VolSurface.findSmileDate (fuel : Nat) (s : VolSurface) (from_ to_ : Point) : Outcome Point := do
  let days ← countBusinessDays s.calendar from_.1 from_.2 to_.1 to_.2
  let date ← finished (stepPartial fuel s.calendar s.baseDate.1 days true)
  pure (date, to_.2)

open Classical in
/-- The check and the assignment in the loops of `forward_variances`, `volsurface.rs:160-166` and `178-184`. -/
noncomputable def nonNegative (v : Num ℝ) : Outcome (Num ℝ) :=
  if nlt v (.val 0) then .error .err else .ok v

open Classical in
/-- `forward_variances`, `volsurface.rs:124-187`. -/
noncomputable def VolSurface.forwardVariances (fuel : Nat) (s : VolSurface) (from_ to_ : Point) (strikes : List (Num ℝ)) :
    Outcome (List (Num ℝ)) :=
  if ¬ before s.baseDate from_ then s.variances fuel to_ strikes
  else
    match s.forward with
    | some forward => do
      let fromForward ← forward from_.1
      let toForward ← forward to_.1
      -- both variances are taken at the from date, lines 144-145
      let fromVar ← s.variance fuel from_ toForward
      let toVar ← s.variance fuel from_ fromForward
      let fwdAtmVar := num2 (· - ·) toVar fromVar
      if nlt fwdAtmVar (.val 0) then .error .err
      else do
        let smileDate ← s.findSmileDate fuel from_ to_
        let smileForward ← forward smileDate.1
        let atmSmileVar ← s.variance fuel smileDate smileForward
        let variances ← s.variances fuel smileDate strikes
        each (fun v => nonNegative (num2 (· + ·) (num2 (· - ·) v atmSmileVar) fwdAtmVar)) variances
    | none => do
      let fromVariances ← s.variances fuel from_ strikes
      let variances ← s.variances fuel to_ strikes
      each nonNegative (List.zipWith (num2 (· - ·)) variances fromVariances)

/-- `forward_variance`, `volsurface.rs:192-199`. -/
noncomputable def VolSurface.forwardVariance (fuel : Nat) (s : VolSurface) (from_ to_ : Point) (strike : Num ℝ) : Outcome (Num ℝ) := do
  let v ← s.forwardVariances fuel from_ to_ [strike]
  first v

/-! ## Dynamics and bumps -/

/-- `VolTimeDynamics`, `volsurface.rs:301-307`. -/
inductive VolTimeDynamics where
  | constantExpiry | rollingExpiry
deriving DecidableEq

open Classical in
/-- `VolTimeDynamics::modify`, `volsurface.rs:312-343`. -/
noncomputable def VolTimeDynamics.modify (dynamics : VolTimeDynamics) (surface : VolSurface) (spotDate : Int) : Outcome VolSurface :=
  if spotDate = surface.baseDate.1 then .ok surface
  else do
    let target : Point := (spotDate, 0)
    let fraction ← yearFraction surface.calendar surface.baseDate target
    if |fraction - 0| < 1 / 10 ^ 12 then pure surface
    else
      match dynamics with
      | .constantExpiry => pure (.constantExpiry surface fraction target)
      | .rollingExpiry => pure (.rollingExpiry surface fraction target)

/-- `VolForwardDynamics`, `volsurface.rs:349-354`. -/
inductive VolForwardDynamics where
  | stickyStrike | stickyDelta
deriving DecidableEq

open Classical in
/-- `VolForwardDynamics::modify`, `volsurface.rs:359-395`. -/
noncomputable def VolForwardDynamics.modify (dynamics : VolForwardDynamics) (surface : VolSurface) (forwardFn : Unit → Outcome Fwd) :
    Outcome VolSurface :=
  if dynamics = .stickyStrike then .ok surface
  else
    match surface.forward with
    | none => .ok surface
    | some volForward => do
      let forward ← forwardFn ()
      let base := surface.baseDate.1
      let spot ← forward.forward base
      let volSpot ← volForward base
      if napprox volSpot spot (num1 (· / 10 ^ 12) volSpot) then pure surface
      else pure (.stickyDeltaBump surface forward)

/-- `BumpVol`, `bumpvol.rs:12-16`. -/
inductive BumpVol where
  | flatAdditive (size : Num ℝ)
  | timeScaled (size : Num ℝ) (floor : ℝ)
  | replace (vol : Num ℝ)

/-- `bumpsize`, `bumpvol.rs:31-37`. -/
def BumpVol.bumpsize : BumpVol → Num ℝ
  | .flatAdditive size => size
  | .timeScaled size _ => size
  | .replace _ => .nan

/-- `opposite`, `bumpvol.rs:42-54`. -/
noncomputable def BumpVol.opposite (b : BumpVol) : BumpVol :=
  let down := num1 (· - 1) (ndiv (num1 (fun x => 1 - x) b.bumpsize) (num1 (fun x => 1 + x) b.bumpsize))
  match b with
  | .flatAdditive _ => .flatAdditive down
  | .timeScaled _ floor => .timeScaled down floor
  | .replace _ => .replace .nan

/-- `BumpVol::apply`, `bumpvol.rs:59-75`. -/
def BumpVol.apply : BumpVol → VolSurface → VolSurface
  | .flatAdditive size, s => .parallelBump s size
  | .timeScaled size floor, s => .timeScaledBump s size floor
  | .replace vol, s => .flat vol s.calendar s.baseDate

end QM.Vol
