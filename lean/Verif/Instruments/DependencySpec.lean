import Verif.Instruments.Model

/-!
# Specification vocabulary for dependencies
-/

namespace QM.Instruments.Spec
open QM.Interp QM.Vol QM.Fixings QM.Instruments

/-- A single thing that may be needed: data under an id, for those kinds that have one up to a date. -/
inductive Ask where
  | yieldCurve (creditId : String) (date : Int)
  | spot (id : String)
  | forward (id : String) (date : Int)
  | vol (id : String) (date : Int)
  | fixing (id : String) (date : DateTime)

/-- Instruments that are worth a spot price. -/
def needsSpot : Instrument → Prop
  | .equity _ _ _ => True
  | _ => False

mutual
/-- What an instrument needs. -/
def asks (spotDate : Int) : Instrument → Ask → Prop
  | .currency id settlement, a => a = .yieldCurve id (settlement spotDate)
  | .creditEntity id settlement, a => a = .yieldCurve id (settlement spotDate)
  | .equity _ creditId settlement, a => a = .yieldCurve creditId (settlement spotDate)
  | .zeroCoupon _ creditId _ paymentDate _, a => a = .yieldCurve creditId paymentDate
  | .basket _ _ _ parts, a => asksAll spotDate parts a
  | .spotStarting v u _, a =>
    a = .fixing u.id v.expiry ∨ a = .yieldCurve v.creditId v.payDate ∨ a = .forward u.id v.expiry.date ∨
      a = .yieldCurve u.creditId v.expiry.date ∨ a = .vol u.id v.expiry.date ∨ asks spotDate u a ∨ (needsSpot u ∧ a = .spot u.id)
  | .forwardStarting v u _ strikeDate _, a =>
    a = .fixing u.id strikeDate ∨
    a = .fixing u.id v.expiry ∨ a = .yieldCurve v.creditId v.payDate ∨ a = .forward u.id v.expiry.date ∨
      a = .yieldCurve u.creditId v.expiry.date ∨ a = .vol u.id v.expiry.date ∨ asks spotDate u a ∨ (needsSpot u ∧ a = .spot u.id)

/-- What the instruments in a list need, when they are held. -/
def asksAll (spotDate : Int) : List (ℝ × Instrument) → Ask → Prop
  | [], _ => False
  | (_, i) :: rest, a => asks spotDate i a ∨ (needsSpot i ∧ a = .spot i.id) ∨ asksAll spotDate rest a
end

/-- The latest of the dates with a property, if there is any. -/
def Latest (P : Int → Prop) : Option Int → Prop
  | none => ∀ d, ¬ P d
  | some d => P d ∧ ∀ d', P d' → d' ≤ d

/-- A call of the dependency context. -/
inductive Call where
  | yieldCurve (creditId : String) (date : Int)
  | spot (i : Instrument)
  | forwardCurve (i : Instrument) (date : Int)
  | volSurface (i : Instrument) (date : Int)
  | fixing (id : String) (date : DateTime)

/-- What a call asks for. -/
def callAsks (spotDate : Int) : Call → Ask → Prop
  | .yieldCurve id d, a => a = .yieldCurve id d
  | .spot i, a => asks spotDate i a ∨ (needsSpot i ∧ a = .spot i.id)
  | .forwardCurve i d, a =>
    a = .forward i.id d ∨ a = .yieldCurve i.creditId d ∨ asks spotDate i a ∨ (needsSpot i ∧ a = .spot i.id)
  | .volSurface i d, a => a = .vol i.id d
  | .fixing id d, a => a = .fixing id d

/-- A call of the dependency context, carried out. -/
def run (c : Collector) : Call → Collector
  | .yieldCurve id d => c.yieldCurve id d
  | .spot i => c.spot i
  | .forwardCurve i d => c.forwardCurve i d
  | .volSurface i d => c.volSurface i d
  | .fixing id d => c.fixing id d

open Classical in
/-- A pricing context that refuses everything that has not been declared, or not that far. -/
noncomputable def restrict (ctx : PricingContext) (c : Collector) : PricingContext where
  spotDate := ctx.spotDate
  yieldCurve id d := if ∃ hwm, c.yieldCurves.get id = some hwm ∧ d ≤ hwm then ctx.yieldCurve id d else .error .err
  spot id := if (c.spots.get id).isSome then ctx.spot id else .error .err
  forwardCurve i d := if ∃ hwm, (c.forwardCurves.get i.id).map Prod.snd = some hwm ∧ d ≤ hwm then ctx.forwardCurve i d else .error .err
  volSurface i d f := if ∃ hwm, (c.volSurfaces.get i.id).map Prod.snd = some hwm ∧ d ≤ hwm then ctx.volSurface i d f else .error .err

mutual
/-- Instruments and dates for which pricing keeps to the declared dependencies: equities outside options are priced on the
spot date only, the underlying of an option is an equity or is itself such an instrument, and the discounting of an option is on the
curve that it declared for it. -/
def Kept (spotDate : Int) : Instrument → List DateTime → Prop
  | .equity _ _ _, dates => dates = [] ∨ ∃ d, dates = [d] ∧ d.date = spotDate
  | .basket _ _ _ parts, dates => KeptAll spotDate parts dates
  | .spotStarting v u _, _ =>
    (u.creditId = v.creditId ∨ v.payDate ≤ v.expiry.date) ∧ (needsSpot u ∨ Kept spotDate u [v.expiry])
  | .forwardStarting v u _ strikeDate _, _ =>
    (u.creditId = v.creditId ∨ v.payDate ≤ v.expiry.date) ∧ (needsSpot u ∨ Kept spotDate u [strikeDate, v.expiry])
  | .currency _ _, _ => True
  | .creditEntity _ _, _ => True
  | .zeroCoupon _ _ _ _ _, _ => True

/-- The same for lists. -/
def KeptAll (spotDate : Int) : List (ℝ × Instrument) → List DateTime → Prop
  | [], _ => True
  | (_, i) :: rest, dates => Kept spotDate i dates ∧ KeptAll spotDate rest dates
end

/-- Two fixing tables that are the same as far as the declared fixings go. -/
def AgreeOnDeclared (c : Collector) (t t' : FixingTable ℝ) : Prop :=
  t.knownUntil = t'.knownUntil ∧ ∀ id, ∀ dt ∈ (c.fixings.get id).getD [], t.getOptional id dt = t'.getOptional id dt

end QM.Instruments.Spec
