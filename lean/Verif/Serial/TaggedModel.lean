import Verif.Map

/-!
# Model of tagged serialisation, `src/core/factories.rs`

A value behind a trait is written as a map with one entry, whose key is the type of the value and whose
content is the value (`factories.rs:106-122`, `serde_tagged` external tagging). It is read by looking the key
up in the registry of the trait (`factories.rs:41-56`). All the traits of the crate that are written this way
are here, with all their types, the fields of those types that hold other such values, and the registries.

Simplifications: fields that hold no tagged value are one opaque content; fields are told apart by their
position rather than by their name; the code that serde derives for structures and collections is trusted to
read back what it wrote; reference counting is not modelled. Instruments and currencies are as in an inline
dedup session (`Verif.Serial.DedupModel` has the others).
-/

namespace QM.Serial

/-- The traits whose values are written with a tag. -/
inductive Trait where
  | calendar | dateRule | rateCurve | volSurface | instrument | pricerFactory | modelFactory | report
  | reportGenerator
deriving DecidableEq, Repr

/-- The types that implement them. -/
inductive Kind where
  | everyDayCalendar | weekdayCalendar | weekdayAndHolidayCalendar | volatilityCalendar
  | nullRule | businessDays | modifiedFollowing
  | zeroRateCurve | rateCurveAct365 | annualisedFlatBump | continuouslyCompoundedFlatBump | relativeBump
  | flatVolSurface
  /-- `VolByProbabilityFlatSmile`, `volsurface.rs:773` -/
  | volByProbabilityFlatSmile
  /-- `VolByProbabilityCubicSplineSmile`, `volsurface.rs:827` -/
  | volByProbabilityCubicSplineSmile
  /-- `VolByProbability<FlatSmile>` itself, `volsurface.rs:484-490` -/
  | volByProbabilityOfFlatSmile
  /-- `VolByProbability<CubicSplineSmile>` itself -/
  | volByProbabilityOfCubicSplineSmile
  | constantExpiryTimeEvolution | rollingExpiryTimeEvolution | parallelBumpVol | timeScaledBumpVol
  | stickyDeltaBumpVol
  | currency | creditEntity | equity | zeroCoupon | basket | spotStartingEuropean | forwardStartingEuropean
  | selfPricerFactory | monteCarloPricerFactory
  | blackDiffusionFactory
  | deltaGammaReport | vegaVolgaReport | timeBumpedReport
  | deltaGammaReportGenerator | vegaVolgaReportGenerator | timeBumpedReportGenerator
deriving DecidableEq, Repr

/-- What a field can hold: any value behind a trait, with a tag, or a value of one type, without. -/
inductive Slot where
  | tagged (tr : Trait)
  | plain (kind : Kind)
deriving DecidableEq, Repr

/-- The trait that a type implements. -/
def Kind.trait : Kind → Trait
  | .everyDayCalendar | .weekdayCalendar | .weekdayAndHolidayCalendar | .volatilityCalendar => .calendar
  | .nullRule | .businessDays | .modifiedFollowing => .dateRule
  | .zeroRateCurve | .rateCurveAct365 | .annualisedFlatBump | .continuouslyCompoundedFlatBump
  | .relativeBump => .rateCurve
  | .flatVolSurface | .volByProbabilityFlatSmile | .volByProbabilityCubicSplineSmile
  | .volByProbabilityOfFlatSmile | .volByProbabilityOfCubicSplineSmile
  | .constantExpiryTimeEvolution | .rollingExpiryTimeEvolution | .parallelBumpVol | .timeScaledBumpVol
  | .stickyDeltaBumpVol => .volSurface
  | .currency | .creditEntity | .equity | .zeroCoupon | .basket | .spotStartingEuropean
  | .forwardStartingEuropean => .instrument
  | .selfPricerFactory | .monteCarloPricerFactory => .pricerFactory
  | .blackDiffusionFactory => .modelFactory
  | .deltaGammaReport | .vegaVolgaReport | .timeBumpedReport => .report
  | .deltaGammaReportGenerator | .vegaVolgaReportGenerator | .timeBumpedReportGenerator => .reportGenerator

/-- `get_type_id`: `calendar.rs:119,172,297,491`, `rules.rs:62,82,140`, `curves.rs:97,136,181,227,262`,
`volsurface.rs:414,537-541,775-779,829-833`, `voldecorators.rs:43,98,174,238,307`,
`assets.rs:51,187,315`, `bonds.rs:35`, `basket.rs:40`, `options.rs:187,217`, `selfpricer.rs:55`,
`montecarlo.rs:64`, `blackdiffusion.rs:68`, `deltagamma.rs:38,134`, `vegavolga.rs:46,142`,
`timebumped.rs:35,118`. -/
def Kind.typeId : Kind → Outcome String
  | .everyDayCalendar => .ok "EveryDayCalendar"
  | .weekdayCalendar => .ok "WeekdayCalendar"
  | .weekdayAndHolidayCalendar => .ok "WeekdayAndHolidayCalendar"
  | .volatilityCalendar => .ok "VolatilityCalendar"
  | .nullRule => .ok "NullRule"
  | .businessDays => .ok "BusinessDays"
  | .modifiedFollowing => .ok "ModifiedFollowing"
  | .zeroRateCurve => .ok "ZeroRateCurve"
  | .rateCurveAct365 => .ok "RateCurveAct365"
  | .annualisedFlatBump => .ok "AnnualisedFlatBump"
  | .continuouslyCompoundedFlatBump => .ok "ContinuouslyCompoundedFlatBump"
  | .relativeBump => .ok "RelativeBump"
  | .flatVolSurface => .ok "FlatVolSurface"
  | .volByProbabilityFlatSmile => .ok "VolByProbabilityFlatSmile"
  | .volByProbabilityCubicSplineSmile => .ok "VolByProbabilityCubicSplineSmile"
  | .volByProbabilityOfFlatSmile => .error .panic
  | .volByProbabilityOfCubicSplineSmile => .error .panic
  | .constantExpiryTimeEvolution => .ok "ConstantExpiryTimeEvolution"
  | .rollingExpiryTimeEvolution => .ok "RollingExpiryTimeEvolution"
  | .parallelBumpVol => .ok "ParallelBumpVol"
  | .timeScaledBumpVol => .ok "TimeScaledBumpVol"
  | .stickyDeltaBumpVol => .ok "StickyDeltaBumpVol"
  | .currency => .ok "Currency"
  | .creditEntity => .ok "CreditEntity"
  | .equity => .ok "Equity"
  | .zeroCoupon => .ok "ZeroCoupon"
  | .basket => .ok "Basket"
  | .spotStartingEuropean => .ok "SpotStartingEuropean"
  | .forwardStartingEuropean => .ok "ForwardStartingEuropean"
  | .selfPricerFactory => .ok "SelfPricerFactory"
  | .monteCarloPricerFactory => .ok "MonteCarloPricerFactory"
  | .blackDiffusionFactory => .ok "BlackDiffusionFactory"
  | .deltaGammaReport => .ok "DeltaGammaReport"
  | .vegaVolgaReport => .ok "VegaVolgaReport"
  | .timeBumpedReport => .ok "TimeBumpedReport"
  | .deltaGammaReportGenerator => .ok "DeltaGammaReportGenerator"
  | .vegaVolgaReportGenerator => .ok "VegaVolgaReportGenerator"
  | .timeBumpedReportGenerator => .ok "TimeBumpedReportGenerator"

/-- The fields of a type that hold other values of the table, in the order of the declaration, and what the
elements of its collection hold if it has one: `rules.rs:76-80,135-137`, `calendar.rs:484-488`,
`curves.rs:174-178,220-224,255-259`, `volsurface.rs:407-411,509-516`,
`voldecorators.rs:22-26,90-94,168-171,229-233,300-304`, `assets.rs:35-38,179-184,308-312`,
`bonds.rs:25-32`, `basket.rs:31-37`, `options.rs:45-57`, `montecarlo.rs:41-43`, `timebumped.rs:23-27,93-97`.
`RcCurrency` is not polymorphic (`assets.rs:146`). -/
def Kind.fields : Kind → List Slot × Option Slot
  | .volatilityCalendar | .businessDays | .modifiedFollowing => ([.tagged .calendar], none)
  | .annualisedFlatBump | .continuouslyCompoundedFlatBump | .relativeBump => ([.tagged .rateCurve], none)
  | .flatVolSurface | .volByProbabilityFlatSmile | .volByProbabilityCubicSplineSmile
  | .volByProbabilityOfFlatSmile | .volByProbabilityOfCubicSplineSmile => ([.tagged .calendar], none)
  | .constantExpiryTimeEvolution | .rollingExpiryTimeEvolution | .parallelBumpVol | .timeScaledBumpVol
  | .stickyDeltaBumpVol => ([.tagged .volSurface], none)
  | .currency => ([.tagged .dateRule], none)
  | .creditEntity | .equity | .zeroCoupon => ([.plain .currency, .tagged .dateRule], none)
  | .basket => ([.plain .currency, .tagged .dateRule], some (.tagged .instrument))
  | .spotStartingEuropean | .forwardStartingEuropean => ([.tagged .instrument, .tagged .dateRule], none)
  | .monteCarloPricerFactory => ([.tagged .modelFactory], none)
  | .timeBumpedReport => ([], some (.tagged .report))
  | .timeBumpedReportGenerator => ([], some (.tagged .reportGenerator))
  | .everyDayCalendar | .weekdayCalendar | .weekdayAndHolidayCalendar | .nullRule
  | .zeroRateCurve | .rateCurveAct365 | .selfPricerFactory | .blackDiffusionFactory | .deltaGammaReport
  | .vegaVolgaReport | .deltaGammaReportGenerator | .vegaVolgaReportGenerator => ([], none)

/-- What the field at a position holds. -/
def Kind.slot (kind : Kind) (i : Nat) : Option Slot :=
  match kind.fields.1[i]? with
  | some s => some s
  | none => kind.fields.2

/-- Whether a value of the type can have this number of fields. -/
def Kind.complete (kind : Kind) (n : Nat) : Bool :=
  n == kind.fields.1.length || (kind.fields.2.isSome && kind.fields.1.length ≤ n)

/-- `Registry`, `factories.rs:22-38`: what the constructor registered for a tag builds. -/
abbrev Registry := Map String Kind

/-- A value: its type, what it holds that is not tagged, and the values in its fields. -/
inductive Obj (α : Type) where
  | mk (kind : Kind) (content : α) (inner : List (Obj α))

/-- The type of a value. -/
def Obj.kind {α : Type} : Obj α → Kind
  | .mk kind _ _ => kind

/-- What is written: a tagged structure or a structure. -/
inductive Json (α : Type) where
  | tagged (tag : String) (body : Json α)
  | record (content : α) (fields : List (Json α))

variable {α : Type}

mutual
/-- `Serialize for Qrc` and `Qbox`, `factories.rs:106-122`, `158-167`, and the derived `Serialize` for a
field that is not behind a trait. -/
def save : Slot → Obj α → Outcome (Json α)
  | .tagged _, .mk kind content inner =>
    match kind.typeId with
    | .error e => .error e
    | .ok tag =>
      match saveAll kind 0 inner with
      | .error e => .error e
      | .ok fields => .ok (.tagged tag (.record content fields))
  | .plain _, .mk kind content inner =>
    match saveAll kind 0 inner with
    | .error e => .error e
    | .ok fields => .ok (.record content fields)
/-- The fields from a position on. Values with fields that their type does not have do not exist in Rust. -/
def saveAll (kind : Kind) : Nat → List (Obj α) → Outcome (List (Json α))
  | i, [] => if kind.complete i then .ok [] else .error .panic
  | i, o :: os =>
    match kind.slot i with
    | none => .error .panic
    | some slot =>
      match save slot o with
      | .error e => .error e
      | .ok j =>
        match saveAll kind (i + 1) os with
        | .error e => .error e
        | .ok js => .ok (j :: js)
end

mutual
/-- `Deserialize` through a registry, for example `curves.rs:66-72`, with `Registry::seed`,
`factories.rs:48-55`. `valid` says which contents the derived `Deserialize` of a type accepts. -/
def load (registry : Trait → Registry) (valid : Kind → α → Bool) : Slot → Json α → Outcome (Obj α)
  | .tagged tr, .tagged tag (.record content fields) =>
    match (registry tr).get tag with
    | none => .error .err
    | some kind =>
      if valid kind content then
        match loadAll registry valid kind 0 fields with
        | .error e => .error e
        | .ok inner => .ok (.mk kind content inner)
      else .error .err
  | .plain kind, .record content fields =>
    if valid kind content then
      match loadAll registry valid kind 0 fields with
      | .error e => .error e
      | .ok inner => .ok (.mk kind content inner)
    else .error .err
  | .tagged _, .tagged _ (.tagged _ _) => .error .err
  | .tagged _, .record _ _ => .error .err
  | .plain _, .tagged _ _ => .error .err
/-- The fields from a position on. -/
def loadAll (registry : Trait → Registry) (valid : Kind → α → Bool) (kind : Kind) :
    Nat → List (Json α) → Outcome (List (Obj α))
  | i, [] => if kind.complete i then .ok [] else .error .err
  | i, j :: js =>
    match kind.slot i with
    | none => .error .err
    | some slot =>
      match load registry valid slot j with
      | .error e => .error e
      | .ok o =>
        match loadAll registry valid kind (i + 1) js with
        | .error e => .error e
        | .ok os => .ok (o :: os)
end

/-- The registrations in the order of the code: `calendar.rs:98-111`, `rules.rs:39-51`, `curves.rs:75-88`,
`volsurface.rs:247-262`, `instruments/mod.rs:192-208`, `pricers/mod.rs:43-54`, `models/mod.rs:47-57`,
`risk/mod.rs:252-264`, `197-209`. The constructor registered for `VolByProbabilityCubicSplineSmile` builds a
`VolByProbability<CubicSplineSmile>` (`volsurface.rs:854-860`). -/
def registrations : Trait → List (String × Kind)
  | .calendar => [("EveryDayCalendar", .everyDayCalendar), ("WeekdayCalendar", .weekdayCalendar),
      ("WeekdayAndHolidayCalendar", .weekdayAndHolidayCalendar), ("VolatilityCalendar", .volatilityCalendar)]
  | .dateRule => [("NullRule", .nullRule), ("BusinessDays", .businessDays),
      ("ModifiedFollowing", .modifiedFollowing)]
  | .rateCurve => [("ZeroRateCurve", .zeroRateCurve), ("RateCurveAct365", .rateCurveAct365),
      ("AnnualisedFlatBump", .annualisedFlatBump),
      ("ContinuouslyCompoundedFlatBump", .continuouslyCompoundedFlatBump), ("RelativeBump", .relativeBump)]
  | .volSurface => [("FlatVolSurface", .flatVolSurface),
      ("VolByProbabilityCubicSplineSmile", .volByProbabilityOfCubicSplineSmile),
      ("ConstantExpiryTimeEvolution", .constantExpiryTimeEvolution),
      ("RollingExpiryTimeEvolution", .rollingExpiryTimeEvolution), ("ParallelBumpVol", .parallelBumpVol),
      ("TimeScaledBumpVol", .timeScaledBumpVol)]
  | .instrument => [("Currency", .currency), ("CreditEntity", .creditEntity), ("Equity", .equity),
      ("Equity", .equity), ("ZeroCoupon", .zeroCoupon), ("Basket", .basket),
      ("SpotStartingEuropean", .spotStartingEuropean), ("ForwardStartingEuropean", .forwardStartingEuropean)]
  | .pricerFactory => [("MonteCarloPricerFactory", .monteCarloPricerFactory),
      ("SelfPricerFactory", .selfPricerFactory)]
  | .modelFactory => [("BlackDiffusionFactory", .blackDiffusionFactory)]
  | .report => [("DeltaGammaReport", .deltaGammaReport), ("VegaVolgaReport", .vegaVolgaReport),
      ("TimeBumpedReport", .timeBumpedReport)]
  | .reportGenerator => [("DeltaGammaReportGenerator", .deltaGammaReportGenerator),
      ("VegaVolgaReportGenerator", .vegaVolgaReportGenerator),
      ("TimeBumpedReportGenerator", .timeBumpedReportGenerator)]

/-- The `get_registry` functions: `Registry::insert`, `factories.rs:34-36`, replaces what was there. -/
def crateRegistry (tr : Trait) : Registry :=
  (registrations tr).foldl (fun r e => r.insert e.1 e.2) Map.empty

end QM.Serial
