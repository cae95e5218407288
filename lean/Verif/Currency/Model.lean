import Verif.MonteCarlo.Model

/-!
# Model of the currencies of instruments

The model in `Verif.Instruments.Model` leaves the payoff currency out, because no price depends on it. Here the instruments carry it, with the
functions that make instruments from instruments: `payoff_currency`, `fix`, `fix_all` and `mc_dependencies`. `erase` forgets it again; it is how
the rest of the code is said to act on these instruments.
-/

namespace QM.Currency
open QM.Interp QM.Vol QM.Fixings QM.Instruments

/-- `Currency`, `assets.rs:35-38`. -/
structure Money where
  id : String
  settlement : Int → Int

/-- The instruments with their currencies: `CreditEntity` (`assets.rs:308-312`), `Equity` (`assets.rs:179-184`), `ZeroCoupon`
(`bonds.rs:25-32`), `Basket` (`basket.rs:31-37`), `SpotStartingEuropean` (`options.rs:180-184`) and `ForwardStartingEuropean`
(`options.rs:206-214`). -/
inductive Paying where
  | currency (c : Money)
  | creditEntity (id : String) (c : Money) (settlement : Int → Int)
  | equity (id creditId : String) (c : Money) (settlement : Int → Int)
  | zeroCoupon (id creditId : String) (c : Money) (exDate : DateTime) (paymentDate : Int) (settlement : Int → Int)
  | basket (id creditId : String) (c : Money) (settlement : Int → Int) (parts : List (ℝ × Paying))
  | spotStarting (v : Vanilla) (underlying : Paying) (strike : ℝ)
  | forwardStarting (v : Vanilla) (underlying : Paying) (strikeFraction : ℝ) (strikeDate : DateTime) (strikeTime : Point)

/-- `Instrument::payoff_currency`: `assets.rs:60-62`, `209-211`, `337-339`; `bonds.rs:65-67`; `basket.rs:64`; `options.rs:292-294`, `333`,
`398`. -/
def Paying.payoffCurrency : Paying → Money
  | .currency c => c
  | .creditEntity _ c _ => c
  | .equity _ _ c _ => c
  | .zeroCoupon _ _ c _ _ _ => c
  | .basket _ _ c _ _ => c
  | .spotStarting _ u _ => u.payoffCurrency
  | .forwardStarting _ u _ _ _ => u.payoffCurrency

/-- `Basket::new`, `basket.rs:48-56`. The comment there says that the members are validated to be in the right currency; no code does it. -/
def Paying.newBasket (id creditId : String) (c : Money) (settlement : Int → Int) (parts : List (ℝ × Paying)) : Outcome Paying :=
  .ok (.basket id creditId c settlement parts)

mutual
/-- The instrument without its currencies. -/
def Paying.erase : Paying → Instrument
  | .currency c => .currency c.id c.settlement
  | .creditEntity id _ settlement => .creditEntity id settlement
  | .equity id creditId _ settlement => .equity id creditId settlement
  | .zeroCoupon id creditId _ exDate paymentDate settlement => .zeroCoupon id creditId exDate paymentDate settlement
  | .basket id creditId _ settlement parts => .basket id creditId settlement (eraseAll parts)
  | .spotStarting v u strike => .spotStarting v u.erase strike
  | .forwardStarting v u fraction strikeDate strikeTime => .forwardStarting v u.erase fraction strikeDate strikeTime

/-- Positions without their currencies. -/
def eraseAll : List (ℝ × Paying) → List (ℝ × Instrument)
  | [] => []
  | (weight, i) :: rest => (weight, i.erase) :: eraseAll rest
end

/-- The zero coupon that an option turns into, `options.rs:363-368` and `374-379`. -/
def payment (v : Vanilla) (u : Paying) : Paying :=
  .zeroCoupon (v.id ++ ":payment") v.creditId u.payoffCurrency v.expiry v.payDate v.settlement

open Classical in
/-- The decomposition of a fixed option, `options.rs:351-385`. -/
noncomputable def decompose (v : Vanilla) (underlying : Paying) (strike spotFixing : ℝ) : List (ℝ × Paying) :=
  match v.cashOrPhysical with
  | .cash =>
    let amount := sign v.putOrCall * (spotFixing - strike)
    if amount > 0 then [(amount, payment v underlying)] else []
  | .physical =>
    if sign v.putOrCall * (spotFixing - strike) > 0 then
      [(-strike * sign v.putOrCall, payment v underlying), (sign v.putOrCall, underlying)]
    else []

/-- `SpotStartingEuropean::fix`, `options.rs:343-390`. -/
noncomputable def fixSpotStarting (table : FixingTable ℝ) (v : Vanilla) (underlying : Paying) (strike : ℝ) :
    Outcome (Option (List (ℝ × Paying))) := do
  let fixing ← table.get underlying.erase.id v.expiry
  match fixing with
  | some spotFixing => pure (some (decompose v underlying strike spotFixing))
  | none => pure none

/-- `ForwardStartingEuropean::fix`, `options.rs:415-439`. -/
noncomputable def fixForwardStarting (table : FixingTable ℝ) (v : Vanilla) (underlying : Paying) (fraction : ℝ)
    (strikeDate : DateTime) : Outcome (Option (List (ℝ × Paying))) := do
  let fixing ← table.get underlying.erase.id strikeDate
  match fixing with
  | some f => do
    let strike := f * fraction
    let further ← fixSpotStarting table v underlying strike
    match further with
    | some d => pure (some d)
    | none => pure (some [(1, .spotStarting v underlying strike)])
  | none => pure none

/-- The mutable variables of `fix_all`, `mod.rs:142-144`. -/
structure FixState where
  basket : List (ℝ × Paying)
  uncopied : Nat
  modified : Bool

/-- One turn of the loop of `fix_all`, `mod.rs:146-166`, given the result of fixing the instrument. -/
noncomputable def fixStep (all : List (ℝ × Paying)) (weight : ℝ) (instrument : Paying)
    (decomposition : Option (List (ℝ × Paying))) (s : FixState) : FixState :=
  match decomposition with
  | some d =>
    let s := if !s.modified then ⟨s.basket ++ all.take s.uncopied, 0, true⟩ else s
    { s with basket := s.basket ++ d.map (fun p => (weight * p.1, p.2)) }
  | none =>
    if s.modified then { s with basket := s.basket ++ [(weight, instrument)] }
    else { s with uncopied := s.uncopied + 1 }

/-- The end of `fix_all`, `mod.rs:168-173`. -/
def FixState.result (s : FixState) : Option (List (ℝ × Paying)) := if s.modified then some s.basket else none

mutual
/-- `Instrument::fix`, `mod.rs:119-122`; `basket.rs:96-108`; `options.rs:343-390`, `415-439`. -/
noncomputable def Paying.fix (table : FixingTable ℝ) : Paying → Outcome (Option (List (ℝ × Paying)))
  | .basket id creditId c settlement parts => do
    let s ← fixLoop table parts parts ⟨[], 0, false⟩
    match s.result with
    | some basket => do
      let replacement ← Paying.newBasket (id ++ ":fixed") creditId c settlement basket
      pure (some [(1, replacement)])
    | none => pure none
  | .spotStarting v underlying strike => fixSpotStarting table v underlying strike
  | .forwardStarting v underlying fraction strikeDate _ => fixForwardStarting table v underlying fraction strikeDate
  | .currency _ => .ok none
  | .creditEntity _ _ _ => .ok none
  | .equity _ _ _ _ => .ok none
  | .zeroCoupon _ _ _ _ _ _ => .ok none

/-- The loop of `fix_all`, `mod.rs:146-166`. `all` is the whole slice. -/
noncomputable def fixLoop (table : FixingTable ℝ) (all : List (ℝ × Paying)) : List (ℝ × Paying) → FixState → Outcome FixState
  | [], s => .ok s
  | (weight, instrument) :: rest, s => do
    let d ← instrument.fix table
    fixLoop table all rest (fixStep all weight instrument d s)
end

/-- `fix_all`, `mod.rs:138-175`. -/
noncomputable def fixAll (table : FixingTable ℝ) (instruments : List (ℝ × Paying)) : Outcome (Option (List (ℝ × Paying))) := do
  let s ← fixLoop table instruments instruments ⟨[], 0, false⟩
  pure s.result

/-- The payment that an option declares to the Monte-Carlo pricer, `options.rs:489-497` and `555-566`. -/
def expiryFlow : Paying → Option Paying
  | .spotStarting v u _ => some (.zeroCoupon (v.id ++ ":Expiry") v.creditId u.payoffCurrency v.expiry v.payDate v.settlement)
  | .forwardStarting v u _ _ _ => some (.zeroCoupon (v.id ++ ":Expiry") v.creditId u.payoffCurrency v.expiry v.payDate v.settlement)
  | _ => none

end QM.Currency
