import Verif.Risk.Model

/-!
# Specification: another unit of account

A market and a portfolio quoted in another unit, of which one old unit is worth `c`: pence instead of pounds, for `c` a
hundred. Amounts of money are multiplied by `c`: spots, cash dividends, strikes, fixings and the holdings of money itself. Rates, volatilities,
dividends that are a fraction of the spot, dates and the numbers of shares and of options stay as they are.
-/

namespace QM.Units
open QM.Interp QM.Curves QM.Dividends QM.Vol QM.Fixings QM.Instruments QM.Market QM.Risk

/-- An amount of money in the new unit. -/
noncomputable def amount (c : ℝ) : Num ℝ → Num ℝ := num1 (c * ·)

/-- An amount per amount of money in the new unit. -/
noncomputable def perAmount (c : ℝ) : Num ℝ → Num ℝ := num1 (· / c)

/-- Every entry of a map changed in the same way. -/
def onValues {κ V W : Type} (f : V → W) (m : Map κ V) : Map κ W := ⟨m.entries.map fun e => (e.1, f e.2)⟩

/-- A curve of amounts by date. -/
noncomputable def curve (c : ℝ) (l : Linear ℝ) : Linear ℝ := { l with points := l.points.map fun p => (p.1, c * p.2) }

/-- A smile, with its strikes in the new unit. -/
noncomputable def smile (c : ℝ) : Smile → Smile
  | .flat vol => .flat vol
  | .cubicSpline s => .cubicSpline { s with points := s.points.map fun p => (c * p.1, p.2), second := s.second.map (· / (c * c)) }

/-- A forward curve. -/
noncomputable def forward (c : ℝ) (f : Fwd) : Fwd := ⟨fun d => (f.forward d).map (amount c), fun d => (f.fixedDivsAfter d).map (amount c)⟩

/-- What a surface with smiles is made from. -/
noncomputable def input (c : ℝ) (i : Input) : Input :=
  { i with smiles := i.smiles.map fun p => (p.1, smile c p.2), forward := curve c i.forward, fixedDivsAfter := curve c i.fixedDivsAfter }

/-- A volatility surface. -/
noncomputable def surface (c : ℝ) : VolSurface → VolSurface
  | .flat vol calendar baseDate => .flat vol calendar baseDate
  | .byProbability i pillars => .byProbability (input c i) (pillars.map fun p => { p with forward := amount c p.forward })
  | .constantExpiry s offset baseDate => .constantExpiry (surface c s) offset baseDate
  | .rollingExpiry s offset baseDate => .rollingExpiry (surface c s) offset baseDate
  | .parallelBump s bump => .parallelBump (surface c s) bump
  | .timeScaledBump s bump floor => .timeScaledBump (surface c s) bump floor
  | .stickyDeltaBump s f => .stickyDeltaBump (surface c s) (forward c f)

/-- A stream of dividends: the cash is an amount, the rest are fractions. -/
noncomputable def dividends (c : ℝ) (d : DividendStream) : DividendStream :=
  { d with dividends := d.dividends.map fun x => { x with cash := c * x.cash } }

/-- A market. -/
noncomputable def market (c : ℝ) (md : MarketData) : MarketData :=
  { md with spots := onValues (c * ·) md.spots, dividends := onValues (dividends c) md.dividends, volSurfaces := onValues (surface c) md.volSurfaces }

/-- A table of fixings. -/
noncomputable def table (c : ℝ) (t : FixingTable ℝ) : FixingTable ℝ := { t with byId := onValues (onValues (c * ·)) t.byId }

/-- Instruments whose price is that of a unit of money or of a payment of one unit. -/
def isMoney : Instrument → Bool
  | .currency _ _ => true
  | .creditEntity _ _ => true
  | .zeroCoupon _ _ _ _ _ => true
  | _ => false

/-- How many of an instrument are held: more units of money if the units are smaller. -/
noncomputable def held (c : ℝ) (i : Instrument) (weight : ℝ) : ℝ := if isMoney i then c * weight else weight

mutual
/-- An instrument with its strikes in the new unit. -/
noncomputable def instrument (c : ℝ) : Instrument → Instrument
  | .basket id creditId settlement parts => .basket id creditId settlement (positions c parts)
  | .spotStarting v u strike => .spotStarting v (instrument c u) (c * strike)
  | .forwardStarting v u fraction strikeDate strikeTime => .forwardStarting v (instrument c u) fraction strikeDate strikeTime
  | .currency id settlement => .currency id settlement
  | .creditEntity id settlement => .creditEntity id settlement
  | .equity id creditId settlement => .equity id creditId settlement
  | .zeroCoupon id creditId exDate paymentDate settlement => .zeroCoupon id creditId exDate paymentDate settlement

/-- A portfolio. -/
noncomputable def positions (c : ℝ) : List (ℝ × Instrument) → List (ℝ × Instrument)
  | [] => []
  | (weight, i) :: rest => (held c i weight, instrument c i) :: positions c rest
end

mutual
/-- No option, at any depth, is one on money: the constructors of options refuse such underlyings. -/
def Quotable : Instrument → Prop
  | .basket _ _ _ parts => QuotableAll parts
  | .spotStarting _ u _ => isMoney u = false ∧ Quotable u
  | .forwardStarting _ u _ _ _ => isMoney u = false ∧ Quotable u
  | _ => True

def QuotableAll : List (ℝ × Instrument) → Prop
  | [] => True
  | (_, i) :: rest => Quotable i ∧ QuotableAll rest
end

/-- A change of the spot: a new spot is an amount, a relative change stays as it is. -/
noncomputable def bumpSpot (c : ℝ) : BumpSpot → BumpSpot
  | .relative b => .relative b
  | .replace s => .replace (c * s)

/-- A change of the market. -/
noncomputable def bump (c : ℝ) : Bump → Bump
  | .spot id b => .spot id (bumpSpot c b)
  | b => b

mutual
/-- A report: deltas are numbers of shares, gammas are numbers of shares per amount, all other figures are amounts. -/
noncomputable def report (c : ℝ) : Report → Report
  | .deltaGamma bumpsize results => .deltaGamma bumpsize (onValues (fun r => (r.1, perAmount c r.2)) results)
  | .vegaVolga bumpsize results => .vegaVolga bumpsize (onValues (fun r => (amount c r.1, amount c r.2)) results)
  | .timeBumped price theta subreports => .timeBumped (amount c price) (amount c theta) (reports c subreports)

noncomputable def reports (c : ℝ) : List Report → List Report
  | [] => []
  | r :: rest => report c r :: reports c rest
end

end QM.Units
