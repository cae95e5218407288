import Verif.Instruments.Normal
import Verif.Fixings.Model
import Verif.Forward.Model

/-!
# Model of `src/instruments`

Over the real numbers with NaN. Output slices are returned as lists. All the instruments are `Priceable`, so
`as_priceable` has no counterpart. The payoff currency, on which no price depends, is left out here, and
added in `Verif.Currency.Model`. The serialized form is left out. The settlement rule is an arbitrary total function of dates. Reference counting is not modelled.
-/

namespace QM.Instruments
open QM.Interp QM.Vol QM.Fixings
open QM.Curves (RateCurve onNum)

/-- `PutOrCall`, `options.rs:33`. -/
inductive PutOrCall where
  | put | call
deriving DecidableEq

/-- `OptionSettlement`, `options.rs:40`. -/
inductive OptionSettlement where
  | cash | physical
deriving DecidableEq

/-- The fields of `VanillaOption`, `options.rs:45-57`, apart from the underlying. -/
structure Vanilla where
  id : String
  creditId : String
  settlement : Int → Int
  expiry : DateTime
  putOrCall : PutOrCall
  cashOrPhysical : OptionSettlement
  expiryTime : Point
  payDate : Int

/-- The implementations of `Instrument`: `Currency` (`assets.rs:35-38`), `CreditEntity` (`assets.rs:308-312`), `Equity`
(`assets.rs:179-184`), `ZeroCoupon` (`bonds.rs:25-32`), `Basket` (`basket.rs:31-37`), `SpotStartingEuropean`
(`options.rs:180-184`) and `ForwardStartingEuropean` (`options.rs:206-214`). -/
inductive Instrument where
  | currency (id : String) (settlement : Int → Int)
  | creditEntity (id : String) (settlement : Int → Int)
  | equity (id creditId : String) (settlement : Int → Int)
  | zeroCoupon (id creditId : String) (exDate : DateTime) (paymentDate : Int) (settlement : Int → Int)
  | basket (id creditId : String) (settlement : Int → Int) (parts : List (ℝ × Instrument))
  | spotStarting (v : Vanilla) (underlying : Instrument) (strike : ℝ)
  | forwardStarting (v : Vanilla) (underlying : Instrument) (strikeFraction : ℝ) (strikeDate : DateTime) (strikeTime : Point)

/-- `InstanceId::id`. Two instruments with the same id count as equal, `mod.rs:226-238`. -/
def Instrument.id : Instrument → String
  | .currency id _ => id
  | .creditEntity id _ => id
  | .equity id _ _ => id
  | .zeroCoupon id _ _ _ _ => id
  | .basket id _ _ _ => id
  | .spotStarting v _ _ => v.id
  | .forwardStarting v _ _ _ _ => v.id

/-- `Instrument::credit_id`. -/
def Instrument.creditId : Instrument → String
  | .currency id _ => id
  | .creditEntity id _ => id
  | .equity _ creditId _ => creditId
  | .zeroCoupon _ creditId _ _ _ => creditId
  | .basket _ creditId _ _ => creditId
  | .spotStarting v _ _ => v.creditId
  | .forwardStarting v _ _ _ _ => v.creditId

/-- `Instrument::settlement`. -/
def Instrument.settlement : Instrument → Int → Int
  | .currency _ settlement => settlement
  | .creditEntity _ settlement => settlement
  | .equity _ _ settlement => settlement
  | .zeroCoupon _ _ _ _ settlement => settlement
  | .basket _ _ settlement _ => settlement
  | .spotStarting v _ _ => v.settlement
  | .forwardStarting v _ _ _ _ => v.settlement

/-- `Instrument::vol_time_dynamics`, `mod.rs:101-103`: no instrument overrides the default. -/
def Instrument.volTimeDynamics (_ : Instrument) : VolTimeDynamics := .constantExpiry

/-- `Instrument::vol_forward_dynamics`, `mod.rs:110-112`: no instrument overrides the default. -/
def Instrument.volForwardDynamics (_ : Instrument) : VolForwardDynamics := .stickyStrike

/-- The day fraction of a time of day, `assets.rs:232-235` and `basket.rs:85-88`. -/
noncomputable def dayFraction : TimeOfDay → ℝ
  | .open => 0
  | .edsp => 0
  | .close => 0.8

/-- `Instrument::time_to_day_fraction`, `mod.rs:92-95`, `assets.rs:227-237`, `basket.rs:80-90`. -/
noncomputable def Instrument.timeToDayFraction : Instrument → DateTime → Outcome Point
  | .equity _ _ _, t => .ok (t.date, dayFraction t.timeOfDay)
  | .basket _ _ _ _, t => .ok (t.date, dayFraction t.timeOfDay)
  | _, _ => .error .err

/-- The position of a time of day in the order in which the enum lists them, `datetime.rs:21-26`. -/
def rank : TimeOfDay → Nat
  | .open => 0
  | .edsp => 1
  | .close => 2

/-- The derived order of `DateTime`, `datetime.rs:40-44`. -/
def notAfter (a b : DateTime) : Prop := a.date < b.date ∨ (a.date = b.date ∧ rank a.timeOfDay ≤ rank b.timeOfDay)

instance (a b : DateTime) : Decidable (notAfter a b) := inferInstanceAs (Decidable (_ ∨ _))

/-- `PricingContext`, `mod.rs:470-509`. -/
structure PricingContext where
  spotDate : Int
  yieldCurve : String → Int → Outcome RateCurve
  spot : String → Outcome ℝ
  forwardCurve : Instrument → Int → Outcome Fwd
  volSurface : Instrument → Int → (Unit → Outcome Fwd) → Outcome VolSurface

open Classical in
/-- `DateDayFraction::max`. -/
noncomputable def later (a b : Point) : Point := if before b a then a else b

/-- `variance.sqrt()` after the check of `options.rs:135-138`. -/
noncomputable def optionSqrtVariance (variance : Num ℝ) : Outcome (Num ℝ) :=
  match nonNegative variance with
  | .error e => .error e
  | .ok v => .ok (nsqrt v)

open Classical in
/-- The value on one date, `options.rs:126-158`. -/
noncomputable def vanillaValue (fuel : Nat) (v : Vanilla) (timeOf : DateTime → Outcome Point) (yc : RateCurve) (vol : VolSurface)
    (dfFromBase strike f k : Num ℝ) (volFrom : Point) (date : DateTime) : Outcome (Num ℝ) :=
  if notAfter date v.expiry then do
    let rt ← yc.rt (v.settlement date.date)
    let df := num2 (· * ·) dfFromBase (num1 Real.exp rt)
    let valDate ← timeOf date
    let variance ← vol.forwardVariance fuel (later volFrom valDate) v.expiryTime strike
    let sqrtVar ← optionSqrtVariance variance
    match v.putOrCall with
    | .put => pure (putPrice df f k sqrtVar)
    | .call => pure (callPrice df f k sqrtVar)
  else pure (.val 0)

open Classical in
/-- `VanillaOption::prices`, `options.rs:88-164`. -/
noncomputable def vanillaPrices (fuel : Nat) (ctx : PricingContext) (v : Vanilla) (underlying : Instrument) (volFrom : Point)
    (strikeAndForward : Outcome (Num ℝ × Num ℝ)) (dates : List DateTime) : Outcome (List (Num ℝ)) :=
  match dates with
  | [] => .ok []
  | _ :: _ => do
    let yc ← ctx.yieldCurve underlying.creditId v.payDate
    let vol ← ctx.volSurface underlying v.expiry.date (fun _ => ctx.forwardCurve underlying v.expiry.date)
    let (strike, forward) ← strikeAndForward
    let rt ← yc.rt v.payDate
    let dfFromBase := num1 (fun x => Real.exp (-x)) rt
    let displacement ← vol.displacement v.expiry.date
    let k := num2 (· + ·) strike displacement
    let f := num2 (· - ·) forward displacement
    if nlt f (.val 0) then .error .err
    else each (vanillaValue fuel v underlying.timeToDayFraction yc vol dfFromBase strike f k volFrom) dates

/-- `Equity::prices`, `assets.rs:281-303`. -/
noncomputable def equityPrices (ctx : PricingContext) (equity : Instrument) (dates : List DateTime) : Outcome (List (Num ℝ)) :=
  match dates with
  | [] => .ok []
  | [d] =>
    if d.date = ctx.spotDate then do
      let s ← ctx.spot equity.id
      pure [.val s]
    else do
      let fc ← ctx.forwardCurve equity d.date
      each (fun d => fc.forward d.date) [d]
  | d :: d' :: rest => do
    let fc ← ctx.forwardCurve equity ((d' :: rest).getLast (by simp)).date
    each (fun d => fc.forward d.date) (d :: d' :: rest)

/-- `ZeroCoupon::prices`, `bonds.rs:124-141`. -/
noncomputable def zeroCouponPrices (ctx : PricingContext) (creditId : String) (exDate : DateTime) (paymentDate : Int)
    (settlement : Int → Int) (dates : List DateTime) : Outcome (List (Num ℝ)) := do
  let yc ← ctx.yieldCurve creditId paymentDate
  each (fun d => if notAfter d exDate then yc.df paymentDate (settlement d.date) else pure (.val 0)) dates

/-- `values[0]`. -/
def only : List (Num ℝ) → Outcome (Num ℝ)
  | v :: _ => .ok v
  | [] => .error .panic

/-- `values[0] * strike_fraction` and `values[1]`, `options.rs:474`. -/
noncomputable def pair (fraction : ℝ) : List (Num ℝ) → Outcome (Num ℝ × Num ℝ)
  | s :: e :: _ => .ok (num2 (· * ·) s (.val fraction), e)
  | _ => .error .panic

/-- `*o += i * weight`, `basket.rs:162-164`. -/
noncomputable def accumulate (weight : ℝ) (temp out : List (Num ℝ)) : List (Num ℝ) :=
  List.zipWith (fun i o => num2 (· + ·) o (num2 (· * ·) i (.val weight))) temp out

mutual
/-- `Priceable::prices`: `assets.rs:124-132`, `281-303`, `399-406`; `bonds.rs:124-141`; `basket.rs:147-168`;
`options.rs:446-452`, `461-476`. -/
noncomputable def Instrument.prices (fuel : Nat) (ctx : PricingContext) : Instrument → List DateTime → Outcome (List (Num ℝ))
  | .currency _ _, dates => .ok (dates.map (fun _ => .val 1))
  | .creditEntity _ _, dates => .ok (dates.map (fun _ => .val 1))
  | .equity id creditId settlement, dates => equityPrices ctx (.equity id creditId settlement) dates
  | .zeroCoupon _ creditId exDate paymentDate settlement, dates =>
    zeroCouponPrices ctx creditId exDate paymentDate settlement dates
  | .basket _ _ _ parts, dates => basketPrices fuel ctx parts dates (dates.map (fun _ => .val 0))
  | .spotStarting v underlying strike, dates =>
    vanillaPrices fuel ctx v underlying (0, 0) (do
      let values ← underlying.prices fuel ctx [v.expiry]
      let forward ← only values
      pure (.val strike, forward)) dates
  | .forwardStarting v underlying fraction strikeDate strikeTime, dates =>
    if ctx.spotDate > strikeDate.date then .error .err
    else vanillaPrices fuel ctx v underlying strikeTime (do
      let values ← underlying.prices fuel ctx [strikeDate, v.expiry]
      pair fraction values) dates

/-- The loop of `Basket::prices`, `basket.rs:158-165`. -/
noncomputable def basketPrices (fuel : Nat) (ctx : PricingContext) : List (ℝ × Instrument) → List DateTime → List (Num ℝ) →
    Outcome (List (Num ℝ))
  | [], _, out => .ok out
  | (weight, underlying) :: rest, dates, out => do
    let temp ← underlying.prices fuel ctx dates
    basketPrices fuel ctx rest dates (accumulate weight temp out)
end

/-- `Priceable::price`, `mod.rs:423-429`. -/
noncomputable def Instrument.price (fuel : Nat) (ctx : PricingContext) (i : Instrument) (date : DateTime) : Outcome (Num ℝ) := do
  let values ← i.prices fuel ctx [date]
  only values

/-! ## Construction -/

/-- `VanillaOption::new`, `options.rs:67-84`. -/
noncomputable def Vanilla.new (id creditId : String) (underlying : Instrument) (settlement : Int → Int) (expiry : DateTime)
    (putOrCall : PutOrCall) (cashOrPhysical : OptionSettlement) : Outcome Vanilla := do
  let expiryTime ← underlying.timeToDayFraction expiry
  pure ⟨id, creditId, settlement, expiry, putOrCall, cashOrPhysical, expiryTime, settlement expiry.date⟩

open Classical in
/-- `SpotStartingEuropean::new`, `options.rs:221-239`. -/
noncomputable def Instrument.newSpotStarting (id creditId : String) (underlying : Instrument) (settlement : Int → Int)
    (expiry : DateTime) (strike : ℝ) (putOrCall : PutOrCall) (cashOrPhysical : OptionSettlement) : Outcome Instrument :=
  if strike < 0 then .error .err
  else do
    let v ← Vanilla.new id creditId underlying settlement expiry putOrCall cashOrPhysical
    pure (.spotStarting v underlying strike)

open Classical in
/-- `ForwardStartingEuropean::new`, `options.rs:252-274`. -/
noncomputable def Instrument.newForwardStarting (id creditId : String) (underlying : Instrument) (settlement : Int → Int)
    (expiry : DateTime) (strikeFraction : ℝ) (strikeDate : DateTime) (putOrCall : PutOrCall)
    (cashOrPhysical : OptionSettlement) : Outcome Instrument :=
  if strikeFraction ≤ 0 then .error .err
  else do
    let strikeTime ← underlying.timeToDayFraction strikeDate
    let v ← Vanilla.new id creditId underlying settlement expiry putOrCall cashOrPhysical
    pure (.forwardStarting v underlying strikeFraction strikeDate strikeTime)

/-! ## Fixing -/

/-- The sign of the payoff, `options.rs:354-356`. -/
def sign : PutOrCall → ℝ
  | .call => 1
  | .put => -1

/-- The zero coupon that an option turns into, `options.rs:363-368` and `374-379`. -/
def payment (v : Vanilla) : Instrument :=
  .zeroCoupon (v.id ++ ":payment") v.creditId v.expiry v.payDate v.settlement

open Classical in
/-- The decomposition of a fixed option, `options.rs:351-385`. -/
noncomputable def decompose (v : Vanilla) (underlying : Instrument) (strike spotFixing : ℝ) : List (ℝ × Instrument) :=
  match v.cashOrPhysical with
  | .cash =>
    let amount := sign v.putOrCall * (spotFixing - strike)
    if amount > 0 then [(amount, payment v)] else []
  | .physical =>
    if sign v.putOrCall * (spotFixing - strike) > 0 then
      [(-strike * sign v.putOrCall, payment v), (sign v.putOrCall, underlying)]
    else []

/-- `SpotStartingEuropean::fix`, `options.rs:343-390`. -/
noncomputable def fixSpotStarting (table : FixingTable ℝ) (v : Vanilla) (underlying : Instrument) (strike : ℝ) :
    Outcome (Option (List (ℝ × Instrument))) := do
  let fixing ← table.get underlying.id v.expiry
  match fixing with
  | some spotFixing => pure (some (decompose v underlying strike spotFixing))
  | none => pure none

/-- `ForwardStartingEuropean::fix`, `options.rs:415-439`. -/
noncomputable def fixForwardStarting (table : FixingTable ℝ) (v : Vanilla) (underlying : Instrument) (fraction : ℝ)
    (strikeDate : DateTime) : Outcome (Option (List (ℝ × Instrument))) := do
  let fixing ← table.get underlying.id strikeDate
  match fixing with
  | some f => do
    let strike := f * fraction
    let further ← fixSpotStarting table v underlying strike
    match further with
    | some d => pure (some d)
    | none => pure (some [(1, .spotStarting v underlying strike)])
  | none => pure none

/-- The mutable variables of `fix_all`, `mod.rs:142-144`. -/
structure FixState where
  basket : List (ℝ × Instrument)
  uncopied : Nat
  modified : Bool

/-- One turn of the loop of `fix_all`, `mod.rs:146-166`, given the result of fixing the instrument. -/
noncomputable def fixStep (all : List (ℝ × Instrument)) (weight : ℝ) (instrument : Instrument)
    (decomposition : Option (List (ℝ × Instrument))) (s : FixState) : FixState :=
  match decomposition with
  | some d =>
    let s := if !s.modified then ⟨s.basket ++ all.take s.uncopied, 0, true⟩ else s
    { s with basket := s.basket ++ d.map (fun p => (weight * p.1, p.2)) }
  | none =>
    if s.modified then { s with basket := s.basket ++ [(weight, instrument)] }
    else { s with uncopied := s.uncopied + 1 }

/-- The end of `fix_all`, `mod.rs:168-173`. -/
def FixState.result (s : FixState) : Option (List (ℝ × Instrument)) := if s.modified then some s.basket else none

mutual
/-- `Instrument::fix`, `mod.rs:119-122`; `basket.rs:96-108`; `options.rs:343-390`, `415-439`. -/
noncomputable def Instrument.fix (table : FixingTable ℝ) : Instrument → Outcome (Option (List (ℝ × Instrument)))
  | .basket id creditId settlement parts => do
    let s ← fixLoop table parts parts ⟨[], 0, false⟩
    match s.result with
    | some basket => pure (some [(1, .basket (id ++ ":fixed") creditId settlement basket)])
    | none => pure none
  | .spotStarting v underlying strike => fixSpotStarting table v underlying strike
  | .forwardStarting v underlying fraction strikeDate _ => fixForwardStarting table v underlying fraction strikeDate
  | .currency _ _ => .ok none
  | .creditEntity _ _ => .ok none
  | .equity _ _ _ => .ok none
  | .zeroCoupon _ _ _ _ _ => .ok none

/-- The loop of `fix_all`, `mod.rs:146-166`. `all` is the whole slice. -/
noncomputable def fixLoop (table : FixingTable ℝ) (all : List (ℝ × Instrument)) : List (ℝ × Instrument) → FixState → Outcome FixState
  | [], s => .ok s
  | (weight, instrument) :: rest, s => do
    let d ← instrument.fix table
    fixLoop table all rest (fixStep all weight instrument d s)
end

/-- `fix_all`, `mod.rs:138-175`. -/
noncomputable def fixAll (table : FixingTable ℝ) (instruments : List (ℝ × Instrument)) : Outcome (Option (List (ℝ × Instrument))) := do
  let s ← fixLoop table instruments instruments ⟨[], 0, false⟩
  pure s.result

/-! ## Dependencies -/

/-- `SpotRequirement`, `mod.rs:356-374`. -/
inductive SpotRequirement where
  | notRequired | requiredOnlyForValuation | required
deriving DecidableEq

/-- `DependencyCollector`, `dependencies.rs:11-22`. A map keyed by an instrument is keyed by its id, and keeps the
instrument of the first insertion, as `HashMap::entry` does. -/
structure Collector where
  spotDate : Int
  spots : Map String Instrument
  yieldCurves : Map String Int
  forwardCurves : Map String (Instrument × Int)
  volSurfaces : Map String (Instrument × Int)
  instruments : Map String Instrument
  forwardIds : Map String (List String)
  fixings : Map String (List DateTime)

namespace Collector

/-- `DependencyCollector::new`, `dependencies.rs:25-38`. -/
def new (spotDate : Int) : Collector := ⟨spotDate, .empty, .empty, .empty, .empty, .empty, .empty, .empty⟩

/-- `set_hwm_by_str`, `dependencies.rs:174-183`. -/
def setHwmByStr (id : String) (hwm : Int) (map : Map String Int) : Map String Int :=
  match map.get id with
  | none => map.insert id hwm
  | some old => if hwm > old then map.insert id hwm else map

/-- `set_hwm`, `dependencies.rs:185-194`. -/
def setHwm (i : Instrument) (hwm : Int) (map : Map String (Instrument × Int)) : Map String (Instrument × Int) :=
  match map.get i.id with
  | none => map.insert i.id (i, hwm)
  | some (key, old) => if hwm > old then map.insert i.id (key, hwm) else map

/-- `add_instrument`, `dependencies.rs:91-94`. -/
def addInstrument (c : Collector) (i : Instrument) : Collector := { c with instruments := c.instruments.insert i.id i }

/-- `DependencyContext::yield_curve`, `dependencies.rs:125-127`. -/
def yieldCurve (c : Collector) (creditId : String) (hwm : Int) : Collector :=
  { c with yieldCurves := setHwmByStr creditId hwm c.yieldCurves }

/-- The end of `DependencyContext::spot`, `dependencies.rs:134-139`. A set keeps the element already present. -/
def noteSpot (c : Collector) (i : Instrument) (requirement : SpotRequirement) : Collector :=
  if requirement ≠ .notRequired then
    { c with spots := match c.spots.get i.id with
        | none => c.spots.insert i.id i
        | some _ => c.spots }.addInstrument i
  else c

/-- The beginning of `DependencyContext::forward_curve`, `dependencies.rs:145-155`. -/
def noteForward (c : Collector) (i : Instrument) (hwm : Int) : Collector :=
  { c with
    forwardCurves := setHwm i hwm c.forwardCurves
    yieldCurves := setHwmByStr i.creditId hwm c.yieldCurves
    forwardIds := c.forwardIds.insert i.creditId ((c.forwardIds.get i.creditId).getD [] ++ [i.id]) }

/-- `DependencyContext::vol_surface`, `dependencies.rs:161-165`. -/
def volSurface (c : Collector) (i : Instrument) (hwm : Int) : Collector :=
  { c with volSurfaces := setHwm i hwm c.volSurfaces }.addInstrument i

/-- `DependencyContext::fixing`, `dependencies.rs:167-170`. -/
def fixing (c : Collector) (id : String) (date : DateTime) : Collector :=
  { c with fixings := c.fixings.insert id ((c.fixings.get id).getD [] ++ [date]) }

end Collector

/-- The rest of `VanillaOption::dependencies`, `options.rs:307-323`, after the forward curve and its spot. -/
def finishVanilla (v : Vanilla) (underlying : Instrument) (r : Collector × SpotRequirement) : Collector × SpotRequirement :=
  ((r.1.noteSpot underlying r.2).volSurface underlying v.expiry.date, .notRequired)

/-- The beginning of `VanillaOption::dependencies`, `options.rs:308-317`. -/
def startVanilla (v : Vanilla) (underlying : Instrument) (c : Collector) : Collector :=
  ((c.fixing underlying.id v.expiry).yieldCurve v.creditId v.payDate).noteForward underlying v.expiry.date

mutual
/-- `Instrument::dependencies`: `assets.rs:73-78`, `221-225`, `350-355` with `dependence_on_spot_discount`,
`135-144`; `bonds.rs:80-88`; `basket.rs:68-78`; `options.rs:304-324`, `336-337`, `404-411`. The calls of the collector that
come back to `dependencies` (`dependencies.rs:129-159`) are written out. -/
def Instrument.dependencies : Instrument → Collector → Collector × SpotRequirement
  | .currency id settlement, c => (c.yieldCurve id (settlement c.spotDate), .notRequired)
  | .creditEntity id settlement, c => (c.yieldCurve id (settlement c.spotDate), .notRequired)
  | .equity _ creditId settlement, c => (c.yieldCurve creditId (settlement c.spotDate), .required)
  | .zeroCoupon _ creditId _ paymentDate _, c => (c.yieldCurve creditId paymentDate, .notRequired)
  | .basket _ _ _ parts, c => (basketDependencies parts c, .notRequired)
  | .spotStarting v underlying _, c => finishVanilla v underlying (underlying.dependencies (startVanilla v underlying c))
  | .forwardStarting v underlying _ strikeDate _, c =>
    finishVanilla v underlying (underlying.dependencies (startVanilla v underlying (c.fixing underlying.id strikeDate)))

/-- The loop of `Basket::dependencies`, `basket.rs:70-76`. -/
def basketDependencies : List (ℝ × Instrument) → Collector → Collector
  | [], c => c
  | (_, underlying) :: rest, c =>
    let r := underlying.dependencies c
    let c := match r.2 with
      | .notRequired => r.1
      | _ =>
        let r' := underlying.dependencies r.1
        r'.1.noteSpot underlying r'.2
    basketDependencies rest c
end

/-- `DependencyContext::spot`, `dependencies.rs:129-140`. -/
def Collector.spot (c : Collector) (i : Instrument) : Collector :=
  let r := i.dependencies c
  r.1.noteSpot i r.2

/-- `DependencyContext::forward_curve`, `dependencies.rs:142-159`. -/
def Collector.forwardCurve (c : Collector) (i : Instrument) (hwm : Int) : Collector := (c.noteForward i hwm).spot i

end QM.Instruments
