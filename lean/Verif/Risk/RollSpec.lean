import Verif.Risk.Spec

/-!
# Specification vocabulary for rolling a portfolio past its fixings
-/

namespace QM.Risk.Spec
open QM.Interp QM.Vol QM.Instruments QM.Market QM.Fixings

mutual
/-- The fixings an instrument waits for: the id of what is observed, and when. An option observes its underlying at expiry, and one whose strike
is set later also at the strike date. An observation that two options wait for is listed twice. -/
def waits : Instrument → List (String × DateTime)
  | .basket _ _ _ parts => waitsAll parts
  | .spotStarting v underlying _ => (underlying.id, v.expiry) :: waits underlying
  | .forwardStarting v underlying _ strikeDate _ => (underlying.id, strikeDate) :: (underlying.id, v.expiry) :: waits underlying
  | .currency _ _ => []
  | .creditEntity _ _ => []
  | .equity _ _ _ => []
  | .zeroCoupon _ _ _ _ _ => []

/-- The fixings that some of the instruments wait for. -/
def waitsAll : List (ℝ × Instrument) → List (String × DateTime)
  | [] => []
  | (_, i) :: rest => waits i ++ waitsAll rest
end

/-- The fixing falls on the first date or later, and before the second date. -/
def between (from_ to_ : Int) (f : String × DateTime) : Bool := decide (from_ ≤ f.2.date ∧ f.2.date < to_)

/-- What a fixing turns out to be when a pricer moves to a later date: the spot it holds if the spot is to stay where it is, or else the forward it
holds for the day of the fixing. -/
def TurnsOut (p : SelfPricer) (b : BumpSpotDate) (f : String × DateTime) (x : ℝ) : Prop :=
  match b.spotDynamics with
  | .stickySpot => p.context.context.spots.get f.1 = some x
  | .stickyForward => ∃ curve, p.context.forwardCurves.get f.1 = some curve ∧ curve.forward f.2.date = .ok (.val x)

end QM.Risk.Spec
