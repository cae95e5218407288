import Verif.Rounded.AverageModel
import Verif.Instruments.Model

/-!
# Simulated options in rounded arithmetic

The walk along a path, `src/models/blackdiffusion.rs:455-470`, and the payoff and price of European options, `src/instruments/options.rs:507-541` and `573-608`, with every floating-point
operation rounded. The draws, the forward, the displacement and the volatility of a step are arguments: they are numbers that the code has computed before. The walk is for one observation; the price of an option yet to be struck takes the spots of two.
-/

namespace QM.Rounded
open QM.Instruments (PutOrCall)

variable {K : Type} [Field K] [LinearOrder K]

/-- The inner loop along a path, `blackdiffusion.rs:464-467`. -/
def walk (r : Rounding K) (sigma : K) (gaussians : List K) (point : K) : K :=
  gaussians.foldl (fun point g => r.rnd (point * r.rnd (1 + r.rnd (g * sigma)))) point

/-- The spot on a path, `blackdiffusion.rs:436` and `460-469`. -/
def pathSpot (r : Rounding K) (forward displacement sigma : K) (gaussians : List K) : K :=
  r.rnd (r.rnd (walk r sigma gaussians 1 * r.rnd (forward - displacement)) + displacement)

/-- The payoff on a path, `options.rs:526-528` and `534`. -/
def payoff (r : Rounding K) (putOrCall : PutOrCall) (spot strike : K) : K :=
  let sign : K := match putOrCall with
    | .call => 1
    | .put => -1
  max (r.rnd (sign * r.rnd (spot - strike))) 0

/-- `mc_price`, `options.rs:507-541`, given the spots on the paths and the value of the flow. -/
def simulatedPrice {n : Nat} (r : Rounding K) (how : Adding n) (putOrCall : PutOrCall) (spots : Fin n → K) (strike value : K) : K :=
  evaluateFlows r how [(fun i => payoff r putOrCall (spots i) strike, value)]

/-- `mc_price` of a forward-starting option, `options.rs:573-608`, given the spots on the paths when it is struck and at its expiry. -/
def struckPrice {n : Nat} (r : Rounding K) (how : Adding n) (putOrCall : PutOrCall) (fraction : K) (start spots : Fin n → K) (value : K) : K :=
  evaluateFlows r how [(fun i => payoff r putOrCall (spots i) (r.rnd (fraction * start i)), value)]

end QM.Rounded
