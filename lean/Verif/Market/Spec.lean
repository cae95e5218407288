import Verif.Market.Model
import Verif.Dividends.Spec
import Verif.Forward.Spec
import Verif.Instruments.DependencySpec

/-!
# Specification vocabulary for market data and the prefetching context

What can be asked of a context is a set of slots: a spot, a dividend stream and so on under an id.
-/

namespace QM.Market.Spec
open QM.Curves QM.Dividends QM.Vol QM.Instruments QM.Market

/-- Something that a context can be asked for. -/
inductive Slot where
  | spot (id : String)
  | divs (id : String)
  | borrow (id : String)
  | vol (id : String)
  | yield (creditId : String)
  /-- A prefetched forward. -/
  | forward (id : String)
  /-- A prefetched vol surface. -/
  | surface (id : String)
deriving DecidableEq

/-- What the answer looks like. -/
def Slot.Val : Slot → Type
  | .spot _ => ℝ
  | .divs _ => DividendStream
  | .borrow _ => RateCurve
  | .vol _ => VolSurface
  | .yield _ => RateCurve
  | .forward _ => Fwd
  | .surface _ => VolSurface

/-- The answers of market data. It has no prefetched data. -/
def data (md : MarketData) : (x : Slot) → Option x.Val
  | .spot id => md.spots.get id
  | .divs id => md.dividends.get id
  | .borrow id => md.borrowCurves.get id
  | .vol id => md.volSurfaces.get id
  | .yield id => md.yieldCurves.get id
  | .forward _ => none
  | .surface _ => none

/-- What is held in a save area of market data. -/
def savedData (s : SavedData) : (x : Slot) → Option x.Val
  | .spot id => s.spots.get id
  | .divs id => s.dividends.get id
  | .borrow id => s.borrowCurves.get id
  | .vol id => s.volSurfaces.get id
  | .yield id => s.yieldCurves.get id
  | .forward _ => none
  | .surface _ => none

/-- The answers of a prefetching context. -/
def answers (p : Prefetch) : (x : Slot) → Option x.Val
  | .forward id => p.forwardCurves.get id
  | .surface id => p.volSurfaces.get id
  | .spot id => p.context.spots.get id
  | .divs id => p.context.dividends.get id
  | .borrow id => p.context.borrowCurves.get id
  | .vol id => p.context.volSurfaces.get id
  | .yield id => p.context.yieldCurves.get id

/-- What a bump names. -/
def target : Bump → Option Slot
  | .spot id _ => some (.spot id)
  | .divs id _ => some (.divs id)
  | .borrow id _ => some (.borrow id)
  | .vol id _ => some (.vol id)
  | .yield id _ => some (.yield id)
  | .spotDate _ => none

/-- What a bump does to what it names. -/
noncomputable def bumped : Bump → (x : Slot) → x.Val → x.Val
  | .spot _ b, .spot _, v => b.apply v
  | .divs _ b, .divs _, v => b.apply v
  | .borrow _ b, .borrow _, v => b.apply v
  | .vol _ b, .vol _, v => b.apply v
  | .yield _ b, .yield _, v => b.apply v
  | _, _, v => v

/-- The slots of a prefetching context that a bump is about: what it names and what is prefetched from it. -/
def touches (c : Collector) : Bump → List Slot
  | .spot id _ => [.spot id, .forward id]
  | .divs id _ => [.divs id, .forward id]
  | .borrow id _ => [.borrow id, .forward id]
  | .vol id _ => [.vol id, .surface id]
  | .yield id _ => .yield id :: ((c.forwardIds.get id).getD []).map .forward
  | .spotDate _ => []

/-- A series of bumps of market data, each with or without the save area. -/
noncomputable def runData : MarketData × SavedData → List (Bump × Bool) → MarketData × SavedData
  | state, [] => state
  | (md, s), (b, saved) :: rest =>
    let r := md.bump b (if saved then some s else none)
    runData (r.2.1, r.2.2.getD s) rest

/-- What is bumped is saved when it is bumped first, and only then. -/
def SavedFirst : List (Option Slot) → List (Bump × Bool) → Prop
  | _, [] => True
  | done, (b, saved) :: rest => (saved = true ↔ target b ∉ done) ∧ SavedFirst (target b :: done) rest

/-- A series of bumps of a prefetching context, each with or without the save area, as far as the first that fails. -/
noncomputable def runBumps : Prefetch × SavedPrefetch → List (Bump × Bool) → Prefetch × SavedPrefetch
  | state, [] => state
  | (p, s), (b, saved) :: rest =>
    match p.bump b (if saved then some s else none) with
    | (.error _, p', s') => (p', s'.getD s)
    | (.ok _, p', s') => runBumps (p', s'.getD s) rest

/-- A bump is saved if it is about slots that no bump was about before, and each of them once; otherwise it is about the same slots
as one before. The spot date is not bumped. -/
def Disciplined (c : Collector) : List Bump → List (Bump × Bool) → Prop
  | _, [] => True
  | done, (b, true) :: rest =>
    (target b).isSome ∧ (touches c b).Nodup ∧ (∀ b' ∈ done, ∀ x ∈ touches c b', x ∉ touches c b) ∧ Disciplined c (b :: done) rest
  | done, (b, false) :: rest => (target b).isSome ∧ (∃ b' ∈ done, target b' = target b) ∧ Disciplined c done rest

/-- A context answers what one freshly built on the same market data would answer. -/
def Fresh (p : Prefetch) : Prop := ∃ q, Prefetch.new p.context p.dependencies = .ok q ∧ ∀ x, answers p x = answers q x

/-- The instrument known under an id is the one whose forward is known under that id. -/
def Unambiguous (c : Collector) : Prop :=
  ∀ id i hwm j, c.forwardCurves.get id = some (i, hwm) → c.instruments.get id = some j → j = i

/-- Histories of a context: bumps that succeed, with any save area, and disciplined series of bumps that start with an empty save area and
end with a restore. -/
inductive History : Prefetch → Prefetch → Prop
  | start (p : Prefetch) : History p p
  | bump {p q q' : Prefetch} {b : Bump} {save save' : Option SavedPrefetch} {changed : Bool} :
      History p q → q.bump b save = (.ok changed, q', save') → History p q'
  | session {p q : Prefetch} {bumps : List (Bump × Bool)} :
      History p q → Disciplined q.dependencies [] bumps →
      History p ((runBumps (q, .new) bumps).1.restore (runBumps (q, .new) bumps).2)

mutual
/-- The underlyings of the options inside an instrument. -/
def underlyings : Instrument → List Instrument
  | .spotStarting _ u _ => u :: underlyings u
  | .forwardStarting _ u _ _ _ => u :: underlyings u
  | .basket _ _ _ parts => underlyingsAll parts
  | .currency _ _ => []
  | .creditEntity _ _ => []
  | .equity _ _ _ => []
  | .zeroCoupon _ _ _ _ _ => []

/-- The same for a list. -/
def underlyingsAll : List (ℝ × Instrument) → List Instrument
  | [] => []
  | (_, i) :: rest => underlyings i ++ underlyingsAll rest
end

mutual
/-- Instruments and dates for which a prefetching context has what is asked for: equities outside options are priced on the spot date
only, the underlying of an option is an equity or is itself such an instrument, and options start no later than they expire. -/
def Covered (spotDate : Int) : Instrument → List QM.Fixings.DateTime → Prop
  | .equity _ _ _, dates => dates = [] ∨ ∃ d, dates = [d] ∧ d.date = spotDate
  | .basket _ _ _ parts, dates => CoveredAll spotDate parts dates
  | .spotStarting v u _, _ => QM.Instruments.Spec.needsSpot u ∨ Covered spotDate u [v.expiry]
  | .forwardStarting v u _ strikeDate _, _ =>
    strikeDate.date ≤ v.expiry.date ∧ (QM.Instruments.Spec.needsSpot u ∨ Covered spotDate u [strikeDate, v.expiry])
  | .currency _ _, _ => True
  | .creditEntity _ _, _ => True
  | .zeroCoupon _ _ _ _ _, _ => True

/-- The same for lists. -/
def CoveredAll (spotDate : Int) : List (ℝ × Instrument) → List QM.Fixings.DateTime → Prop
  | [], _ => True
  | (_, i) :: rest, dates => Covered spotDate i dates ∧ CoveredAll spotDate rest dates
end

/-- Market data whose curves quote every date, and whose dividends are in order with none of them on the spot date. -/
structure Orderly (md : MarketData) : Prop where
  financing : ∀ id creditId borrow yc, md.borrowCurves.get id = some borrow → md.yieldCurves.get creditId = some yc →
    ∃ g, QM.Forward.Spec.Financing yc borrow g
  dividends : ∀ id divs, md.dividends.get id = some divs →
    QM.Dividends.Spec.InOrder divs.dividends ∧ ∀ d ∈ divs.dividends, d.exDate ≠ md.spotDate

end QM.Market.Spec
