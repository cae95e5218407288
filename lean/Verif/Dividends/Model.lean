import Verif.Curves.Model

/-!
# Model of `src/data/divstream.rs` and `src/data/bumpdivs.rs`

Amounts are exact elements of an ordered field. The bootstrap depends on the rate and borrow curves
only through the discount factors `discount_with_borrow` (`forward.rs:167-172`), which it receives as a
function that may fail; the first failure point, the logarithm at the base date
(`divstream.rs:224`), is the outer `Outcome` of that function. A NaN discount factor is treated as a failure.
-/

namespace QM.Dividends
open QM.Interp (Num)
open QM.Curves

/-- `Dividend`, `divstream.rs:39-45`. -/
structure Dividend (K : Type) where
  cash : K
  relative : K
  exDate : Int
  payDate : Int
deriving DecidableEq, Repr

variable {K : Type} [Field K] [LinearOrder K]

/-- `Dividend::bump_all_relative`, `divstream.rs:59-62`. -/
def Dividend.bumpAllRelative (d : Dividend K) (onePlusBump : K) : Dividend K :=
  { d with cash := d.cash * onePlusBump, relative := d.relative * onePlusBump }

/-- The loop of `DividendStream::new`, `divstream.rs:93-98`, starting from the nil date, zero. -/
def lastCashExDate (dividends : List (Dividend K)) : Int :=
  dividends.foldl (fun last d => if d.cash ≠ 0 then d.exDate else last) 0

/-- `DividendAccumulation`, `divstream.rs:164-170`. -/
structure Accumulation (K : Type) where
  exDate : Int
  undiscountedSum : K
  discountedSum : K
  discountedCash : K
  discountedCashRemaining : Num K
deriving DecidableEq

/-- `DividendBootstrap`, `divstream.rs:172-176`. -/
structure Bootstrap (K : Type) where
  baseDate : Int
  highWaterMark : Int
  accumulation : List (Accumulation K)
deriving DecidableEq

/-- The mutable variables of the bootstrap loop, `divstream.rs:226-230`. -/
structure LoopState (K : Type) where
  prevExDate : Int
  undiscountedSum : K
  discountedSum : K
  discountedCash : K
  prevDiscountedSum : K
  accumulation : List (Accumulation K)

/-- Finish off an ex-date, `divstream.rs:243-250` and `279-286`. -/
def LoopState.pushed (s : LoopState K) : List (Accumulation K) :=
  s.accumulation ++ [⟨s.prevExDate, s.undiscountedSum, s.discountedSum, s.discountedCash, .nan⟩]

/-- Adding one dividend to the sums, `divstream.rs:255-276`. -/
def addDividend (spot : K) (df : Int → Outcome K) (d : Dividend K) (s : LoopState K) : Outcome (LoopState K) := do
  let f ← df d.payDate
  let cashPv := d.cash * f
  let s := { s with
    undiscountedSum := s.undiscountedSum + d.cash
    discountedSum := s.discountedSum + cashPv
    discountedCash := s.discountedCash + cashPv }
  if d.relative ≠ 0 then
    let g ← df d.exDate
    let growth := 1 / g
    let fwd := (spot - s.prevDiscountedSum) * growth
    let relativeAmount := d.relative * fwd
    pure { s with
      undiscountedSum := s.undiscountedSum + relativeAmount
      discountedSum := s.discountedSum + relativeAmount * f }
  else pure s

/-- The bootstrap loop, `divstream.rs:232-277`. -/
def bootstrapLoop (baseDate bootstrapTo : Int) (spot : K) (df : Int → Outcome K) :
    List (Dividend K) → LoopState K → Outcome (LoopState K)
  | [], s => .ok s
  | d :: rest, s =>
    if d.exDate < baseDate then bootstrapLoop baseDate bootstrapTo spot df rest s
    else if d.exDate < s.prevExDate then .error .err
    else if d.exDate > bootstrapTo then .ok s
    else do
      let s := if d.exDate > s.prevExDate then
          { s with accumulation := s.pushed, prevExDate := d.exDate, prevDiscountedSum := s.discountedSum }
        else s
      let s ← addDividend spot df d s
      bootstrapLoop baseDate bootstrapTo spot df rest s

/-- The walk backwards, `divstream.rs:289-295`: the new value is computed from the old value of the same
field, which is NaN. -/
def fillRemaining (acc : List (Accumulation K)) : List (Accumulation K) :=
  match acc.getLast? with
  | none => acc
  | some last => acc.map (fun a => { a with discountedCashRemaining :=
      match a.discountedCashRemaining with
      | .nan => .nan
      | .val x => .val (last.discountedCash - x) })

/-- `DividendBootstrap::new`, `divstream.rs:198-304`. -/
def Bootstrap.new (dividends : List (Dividend K)) (lastCash : Int) (yieldIsZero : Bool) (yieldBaseDate : Int)
    (discount : Outcome (Int → Outcome K)) (spot : K) (baseDate highWaterMark : Int) : Outcome (Bootstrap K) :=
  match dividends.getLast? with
  | none => .ok ⟨baseDate, highWaterMark, []⟩
  | some last =>
    if !yieldIsZero ∧ last.exDate > yieldBaseDate then .error .err
    else do
      let bootstrapTo := max highWaterMark lastCash
      let df ← discount
      let s ← bootstrapLoop baseDate bootstrapTo spot df dividends ⟨baseDate, 0, 0, 0, 0, []⟩
      let acc := if s.prevExDate > baseDate then s.pushed else s.accumulation
      pure ⟨baseDate, bootstrapTo, fillRemaining acc⟩

/-- `binary_search_by` on increasing ex-dates, replaced by its contract: the position of the first entry
not before the date, and whether that entry is on the date. `Lemmas.lean` shows that the entries are increasing. -/
def searchAcc (acc : List (Accumulation K)) (date : Int) : Nat × Bool :=
  let i := (acc.takeWhile (fun a => decide (a.exDate < date))).length
  (i, (acc[i]?.map (·.exDate)) == some date)

/-- The common body of `undiscounted_sum_from_base` and `discounted_sum_from_base`,
`divstream.rs:325-347` and `364-386`. -/
def sumFromBase (field : Accumulation K → K) (b : Bootstrap K) (to_ : Int) : Outcome K :=
  if to_ > b.highWaterMark then .error .err
  else
    let s := searchAcc b.accumulation to_
    if s.2 then .ok ((b.accumulation[s.1]?.map field).getD 0)
    else if s.1 = 0 then .ok 0
    else .ok ((b.accumulation[s.1 - 1]?.map field).getD 0)

/-- `undiscounted_sum_from_base`, `divstream.rs:325-347`. -/
def Bootstrap.undiscountedSumFromBase (b : Bootstrap K) (to_ : Int) : Outcome K := sumFromBase (·.undiscountedSum) b to_

/-- `discounted_sum_from_base`, `divstream.rs:364-386`. -/
def Bootstrap.discountedSumFromBase (b : Bootstrap K) (to_ : Int) : Outcome K := sumFromBase (·.discountedSum) b to_

/-- `undiscounted_sum`, `divstream.rs:315-321`. -/
def Bootstrap.undiscountedSum (b : Bootstrap K) (from_ to_ : Int) : Outcome K := do
  let sumFrom ← b.undiscountedSumFromBase from_
  let sumTo ← b.undiscountedSumFromBase to_
  pure (sumTo - sumFrom)

/-- `discounted_sum`, `divstream.rs:353-359`. -/
def Bootstrap.discountedSum (b : Bootstrap K) (from_ to_ : Int) : Outcome K := do
  let sumFrom ← b.discountedSumFromBase from_
  let sumTo ← b.discountedSumFromBase to_
  pure (sumTo - sumFrom)

/-- `discounted_cash_divs_after`, `divstream.rs:391-414`. -/
def Bootstrap.discountedCashDivsAfter (b : Bootstrap K) (from_ : Int) : Outcome (Num K) :=
  if from_ > b.highWaterMark then .error .err
  else
    let s := searchAcc b.accumulation from_
    if s.2 then .ok ((b.accumulation[s.1]?.map (·.discountedCashRemaining)).getD .nan)
    else if s.1 = b.accumulation.length then .ok (.val 0)
    else .ok ((b.accumulation[s.1]?.map (·.discountedCashRemaining)).getD .nan)

/-- `DividendStream`, `divstream.rs:78-83`. -/
structure DividendStream where
  dividends : List (Dividend ℝ)
  divYield : RateCurve
  lastCash : Int

/-- `DividendStream::new`, `divstream.rs:86-104`. -/
noncomputable def DividendStream.new (dividends : List (Dividend ℝ)) (divYield : RateCurve) : DividendStream :=
  ⟨dividends, divYield, lastCashExDate dividends⟩

/-- `DividendStream::new_bump_all`, `divstream.rs:108-122`. -/
noncomputable def DividendStream.newBumpAll (divs : DividendStream) (bump : ℝ) : DividendStream :=
  ⟨divs.dividends.map (fun d => d.bumpAllRelative (bump + 1)), .newRelativeBump divs.divYield bump, divs.lastCash⟩

/-- `BumpDivs`, `bumpdivs.rs:8-10`, and its `apply`, lines 20-27. -/
inductive BumpDivs where
  | bumpAllRelative (size : ℝ)

noncomputable def BumpDivs.apply : BumpDivs → DividendStream → DividendStream
  | .bumpAllRelative size, divs => divs.newBumpAll size

end QM.Dividends
