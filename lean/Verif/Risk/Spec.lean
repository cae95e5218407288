import Verif.Risk.Model
import Verif.Market.Spec

/-!
# Specification vocabulary for pricers and reports
-/

namespace QM.Risk.Spec
open QM.Interp QM.Vol QM.Instruments QM.Market QM.Market.Spec

/-- What a self pricer freshly built on some market data says the instruments are worth. -/
noncomputable def value (fuel : Nat) (instruments : List (ℝ × Instrument)) (md : MarketData) : Outcome (Num ℝ) := do
  let p ← SelfPricer.new instruments md
  p.price fuel

/-- The same market with another spot. -/
def withSpot (md : MarketData) (id : String) (x : ℝ) : MarketData := { md with spots := md.spots.insert id x }

/-- The same market with another vol surface. -/
def withVol (md : MarketData) (id : String) (v : VolSurface) : MarketData := { md with volSurfaces := md.volSurfaces.insert id v }

/-- Two self pricers hold the same instruments and give the same answers to everything that can be asked of them. -/
structure Same (p q : SelfPricer) : Prop where
  instruments : p.instruments = q.instruments
  dependencies : p.context.dependencies = q.context.dependencies
  spotDate : p.context.context.spotDate = q.context.context.spotDate
  answers : ∀ x, answers p.context x = answers q.context x

/-- Market data in which each spot is entered once, as in a hash map. -/
def SpotsOnce (md : MarketData) : Prop := (md.spots.entries.map Prod.fst).Nodup

/-- Both figures are numbers and they are less than `t` apart. -/
def Within (t : ℝ) (x y : Num ℝ) : Prop := ∃ a b, x = .val a ∧ y = .val b ∧ |a - b| < t

/-- Two tables cover the same underlyings, and their figures agree within two tolerances. -/
def SameFigures (t1 t2 : ℝ) (m m' : Map String (Num ℝ × Num ℝ)) : Prop :=
  ∀ id, match m.get id, m'.get id with
    | none, none => True
    | some (x, y), some (x', y') => Within t1 x x' ∧ Within t2 y y'
    | _, _ => False

mutual
/-- Two reports are of the same kind and agree within tolerances. The tolerance of a first derivative is divided by the size of the bump, and
that of a second derivative by its square. -/
def Matches (tol : Tolerances) : Report → Report → Prop
  | .deltaGamma b m, .deltaGamma _ m' => ∀ size, b = .val size → SameFigures (tol.unitRisk / size) (tol.unitRisk / size ^ 2) m m'
  | .vegaVolga b m, .vegaVolga _ m' => ∀ size, b = .val size → SameFigures (tol.currencyRisk / size) (tol.currencyRisk / size ^ 2) m m'
  | .timeBumped price theta subs, .timeBumped price' theta' subs' => Within tol.price price price' ∧ Within tol.price theta theta' ∧ MatchesAll tol subs subs'
  | _, _ => False

/-- Two lists of reports match one by one. -/
def MatchesAll (tol : Tolerances) : List Report → List Report → Prop
  | [], [] => True
  | r :: rs, r' :: rs' => Matches tol r r' ∧ MatchesAll tol rs rs'
  | _, _ => False
end

/-- Each key is entered once, as in a hash map. -/
def Once {V : Type} (m : Map String V) : Prop := (m.entries.map Prod.fst).Nodup

mutual
/-- A report whose bumps have a size that is a number other than zero. Its tables enter each underlying once, as hash maps do. -/
def Proper : Report → Prop
  | .deltaGamma b m => (∃ size : ℝ, size ≠ 0 ∧ b = .val size) ∧ Once m
  | .vegaVolga b m => (∃ size : ℝ, size ≠ 0 ∧ b = .val size) ∧ Once m
  | .timeBumped _ _ subs => ProperAll subs

def ProperAll : List Report → Prop
  | [] => True
  | r :: rs => Proper r ∧ ProperAll rs
end

/-- All figures of a table are numbers. -/
def Numbers (m : Map String (Num ℝ × Num ℝ)) : Prop := ∀ id x, m.get id = some x → x.1 ≠ .nan ∧ x.2 ≠ .nan

mutual
/-- A report made with positive bumps, all of whose figures are numbers. -/
def Sound : Report → Prop
  | .deltaGamma b m => (∃ size : ℝ, 0 < size ∧ b = .val size) ∧ Numbers m
  | .vegaVolga b m => (∃ size : ℝ, 0 < size ∧ b = .val size) ∧ Numbers m
  | .timeBumped price theta subs => price ≠ .nan ∧ theta ≠ .nan ∧ SoundAll subs

def SoundAll : List Report → Prop
  | [] => True
  | r :: rs => Sound r ∧ SoundAll rs
end

end QM.Risk.Spec
