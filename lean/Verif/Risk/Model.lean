import Verif.Market.Model

/-!
# Model of `src/pricers/selfpricer.rs`, `src/risk/mod.rs`, `bumptime.rs`, `deltagamma.rs`, `vegavolga.rs`, `timebumped.rs` and of `calculate` and `assert_approx_eq_reports` in `src/facade/mod.rs`

Report generators work on any implementation of the trait `Pricer`. The trait is a structure of functions on a state type, `Pricer`, of
which `selfPricer` is the implementation in `selfpricer.rs`. A method that takes `&mut self` returns what it returns together with
the state it leaves behind, also when it fails. The size of a spot bump of a delta report is a real number other than -1: for -1
the matching down bump is infinite, which the model does not represent. Serialised forms and the texts of differences are not modelled: a
difference is recorded as a unit of output.
-/

namespace QM.Risk
open QM.Interp QM.Vol QM.Fixings QM.Instruments QM.Market

/-- `BumpTime`, `bumptime.rs:20-23`. The unused `_ex_from` is left out. -/
structure BumpTime where
  spotDateBump : BumpSpotDate

/-- The traits `Pricer`, `Bumpable`, `TimeBumpable`, `Saveable` and `PricerClone`, `risk/mod.rs:29-135`. `newSave` is an empty
save area, as made by `new_saveable` and left by `clear`. `ids` lists the keys of the instruments of the dependencies
(`instruments_clone`, `dependencies.rs:97-101`) and `spot` asks the context of the pricer for a spot. A clone of a pricer
is the same state. -/
structure Pricer (σ S : Type) where
  bump : Bump → σ → Option S → Outcome Bool × σ × Option S
  restore : σ → S → σ
  newSave : S
  price : σ → Outcome (Num ℝ)
  ids : σ → List String
  spot : σ → String → Outcome ℝ
  bumpTime : BumpTime → σ → Outcome Unit × σ

section Generators
variable {σ S : Type} (P : Pricer σ S)

/-- `bumped_price`, `risk/mod.rs:268-276`. -/
def bumpedPrice (b : Bump) (p : σ) (save : Option S) (unbumped : Num ℝ) : Outcome (Num ℝ) × σ × Option S :=
  match P.bump b p save with
  | (.error e, p, save) => (.error e, p, save)
  | (.ok true, p, save) => (P.price p, p, save)
  | (.ok false, p, save) => (.ok unbumped, p, save)

/-- The up bump with the save area, the down bump without it, and the restore with `clear`: `deltagamma.rs:156-165` and
`vegavolga.rs:158-167`. -/
def upAndDown (up down : Bump) (p : σ) (s : S) (unbumped : Num ℝ) : Outcome (Num ℝ × Num ℝ) × σ × S :=
  match bumpedPrice P up p (some s) unbumped with
  | (.error e, p, save) => (.error e, p, save.getD s)
  | (.ok upbumped, p, save) =>
    match bumpedPrice P down p none unbumped with
    | (.error e, p, _) => (.error e, p, save.getD s)
    | (.ok downbumped, p, _) => (.ok (upbumped, downbumped), P.restore p (save.getD s), P.newSave)

/-- `(up - down) / (2 * bumpsize)`, `deltagamma.rs:169` and `vegavolga.rs:170`. -/
noncomputable def first (up down bumpsize : Num ℝ) : Num ℝ := ndiv (num2 (· - ·) up down) (num1 (2 * ·) bumpsize)

/-- `(up + down - 2 * unbumped) / bumpsize²`, `deltagamma.rs:170` and `vegavolga.rs:171`. -/
noncomputable def second (up down unbumped bumpsize : Num ℝ) : Num ℝ :=
  ndiv (num2 (· - ·) (num2 (· + ·) up down) (num1 (2 * ·) unbumped)) (num1 (· ^ 2) bumpsize)

/-- The loop of `generate` for delta and gamma, `deltagamma.rs:151-172`. -/
noncomputable def deltaGammaLoop (bumpsize : ℝ) (unbumped : Num ℝ) : List String → σ → S → Map String (Num ℝ × Num ℝ) →
    Outcome (Map String (Num ℝ × Num ℝ)) × σ × S
  | [], p, s, results => (.ok results, p, s)
  | id :: rest, p, s, results =>
    match P.spot p id with
    | .error e => (.error e, p, s)
    | .ok spot =>
      match upAndDown P (.spot id (.relative bumpsize)) (.spot id (.relative ((1 - bumpsize) / (1 + bumpsize) - 1))) p s unbumped with
      | (.error e, p, s) => (.error e, p, s)
      | (.ok (up, down), p, s) =>
        deltaGammaLoop bumpsize unbumped rest p s
          (results.insert id (first up down (.val (bumpsize * spot)), second up down unbumped (.val (bumpsize * spot))))

/-- The loop of `generate` for vega and volga, `vegavolga.rs:155-173`. -/
noncomputable def vegaVolgaLoop (bump : BumpVol) (unbumped : Num ℝ) : List String → σ → S → Map String (Num ℝ × Num ℝ) →
    Outcome (Map String (Num ℝ × Num ℝ)) × σ × S
  | [], p, s, results => (.ok results, p, s)
  | id :: rest, p, s, results =>
    match upAndDown P (.vol id bump) (.vol id bump.opposite) p s unbumped with
    | (.error e, p, s) => (.error e, p, s)
    | (.ok (up, down), p, s) =>
      vegaVolgaLoop bump unbumped rest p s (results.insert id (first up down bump.bumpsize, second up down unbumped bump.bumpsize))

/-- The report generators: `deltagamma.rs:119-121`, `vegavolga.rs:127-129` and `timebumped.rs:94-97`. -/
inductive Generator where
  | deltaGamma (bumpsize : ℝ)
  | vegaVolga (bump : BumpVol)
  | timeBumped (bump : BumpTime) (subgenerators : List Generator)

/-- The reports: `deltagamma.rs:27-30`, `vegavolga.rs:36-39` and `timebumped.rs:23-27`. -/
inductive Report where
  | deltaGamma (bumpsize : Num ℝ) (results : Map String (Num ℝ × Num ℝ))
  | vegaVolga (bumpsize : Num ℝ) (results : Map String (Num ℝ × Num ℝ))
  | timeBumped (price theta : Num ℝ) (subreports : List Report)

mutual
/-- `ReportGenerator::generate`: `deltagamma.rs:138-175`, `vegavolga.rs:146-176` and `timebumped.rs:122-144`. -/
noncomputable def generate : Generator → σ → S → Num ℝ → Outcome Report × σ × S
  | .deltaGamma bumpsize, p, s, unbumped =>
    match deltaGammaLoop P bumpsize unbumped (P.ids p) p s .empty with
    | (.error e, p, s) => (.error e, p, s)
    | (.ok results, p, s) => (.ok (.deltaGamma (.val bumpsize) results), p, s)
  | .vegaVolga bump, p, s, unbumped =>
    match vegaVolgaLoop P bump unbumped (P.ids p) p s .empty with
    | (.error e, p, s) => (.error e, p, s)
    | (.ok results, p, s) => (.ok (.vegaVolga bump.bumpsize results), p, s)
  | .timeBumped bump subgenerators, p, s, unbumped =>
    match P.bumpTime bump p with
    | (.error e, _) => (.error e, p, s)
    | (.ok (), clone) =>
      match P.price clone with
      | .error e => (.error e, p, s)
      | .ok timeBumped =>
        match generateAll subgenerators clone s timeBumped with
        | (.error e, _, s) => (.error e, p, s)
        | (.ok subreports, _, s) => (.ok (.timeBumped timeBumped (num2 (· - ·) timeBumped unbumped) subreports), p, s)

/-- The loops of `TimeBumpedReportGenerator::generate`, `timebumped.rs:138-141`, and of `calculate`, `facade/mod.rs:142-146`. -/
noncomputable def generateAll : List Generator → σ → S → Num ℝ → Outcome (List Report) × σ × S
  | [], p, s, _ => (.ok [], p, s)
  | g :: rest, p, s, unbumped =>
    match generate g p s unbumped with
    | (.error e, p, s) => (.error e, p, s)
    | (.ok report, p, s) =>
      match generateAll rest p s unbumped with
      | (.error e, p, s) => (.error e, p, s)
      | (.ok reports, p, s) => (.ok (report :: reports), p, s)
end

/-- `calculate`, `facade/mod.rs:133-149`, given what the pricer factory makes. -/
noncomputable def calculate (make : Outcome σ) (generators : List Generator) : Outcome (List Report) := do
  let p ← make
  let price ← P.price p
  (generateAll P generators p P.newSave price).1

end Generators

/-! ## Moving the date -/

/-- The value of a fixing that the new date leaves in the past, `bumptime.rs:73-82`. A forward that is NaN, which forwards made
from market data never are, has no counterpart in a fixing table of real numbers and counts as an error. -/
noncomputable def fixingValue (ctx : PricingContext) (bump : BumpSpotDate) (id : String) (i : Instrument) (date : Int) : Outcome ℝ :=
  match bump.spotDynamics with
  | .stickyForward => do
    let curve ← ctx.forwardCurve i bump.spotDate
    match ← curve.forward date with
    | .val x => pure x
    | .nan => .error .err
  | .stickySpot => ctx.spot id

/-- The inner loop of `update_instruments`, `bumptime.rs:70-87`, for one id. -/
noncomputable def fixingsOf (ctx : PricingContext) (bump : BumpSpotDate) (id : String) (i : Instrument) :
    List DateTime → Outcome (List (DateTime × ℝ))
  | [] => .ok []
  | fixing :: rest =>
    if ctx.spotDate ≤ fixing.date ∧ fixing.date < bump.spotDate then do
      let value ← fixingValue ctx bump id i fixing.date
      let values ← fixingsOf ctx bump id i rest
      pure ((fixing, value) :: values)
    else fixingsOf ctx bump id i rest

/-- The outer loop of `update_instruments`, `bumptime.rs:69-88`. Only ids with fixings are entered. -/
noncomputable def fixingMap (ctx : PricingContext) (bump : BumpSpotDate) (c : Collector) :
    List (String × Instrument) → Outcome (List (String × List (DateTime × ℝ)))
  | [] => .ok []
  | (id, i) :: rest => do
    let values ← fixingsOf ctx bump id i ((c.fixings.get id).getD [])
    let others ← fixingMap ctx bump c rest
    if values.isEmpty then pure others else pure ((id, values) :: others)

/-- `update_instruments`, `bumptime.rs:57-103`. Also gives the instruments as they are when it fails, which are the old ones. -/
noncomputable def updateInstruments (bump : BumpSpotDate) (instruments : List (ℝ × Instrument)) (ctx : PricingContext) (c : Collector) :
    Outcome (Bool × List (ℝ × Instrument)) := do
  let fixings ← fixingMap ctx bump c c.instruments.entries
  if fixings.isEmpty then pure (false, instruments)
  else do
    let table ← fromFixings bump.spotDate fixings
    match ← fixAll table instruments with
    | some replacement => pure (true, replacement)
    | none => pure (false, instruments)

/-! ## The self pricer -/

/-- `SelfPricer`, `selfpricer.rs:31-34`. -/
structure SelfPricer where
  instruments : List (ℝ × Instrument)
  context : Prefetch

/-- The dependencies collected by `SelfPricer::new`, `selfpricer.rs:80-88`. -/
def collect (spotDate : Int) (instruments : List (ℝ × Instrument)) : Collector :=
  instruments.foldl (fun c e => c.spot e.2) (.new spotDate)

/-- `SelfPricer::new`, `selfpricer.rs:75-95`. All instruments are priceable. -/
noncomputable def SelfPricer.new (instruments : List (ℝ × Instrument)) (md : MarketData) : Outcome SelfPricer := do
  let context ← Prefetch.new md (collect md.spotDate instruments)
  pure ⟨instruments, context⟩

/-- The loop of `price`, `selfpricer.rs:114-120`. -/
noncomputable def priceLoop (fuel : Nat) (ctx : PricingContext) (date : DateTime) : List (ℝ × Instrument) → Num ℝ → Outcome (Num ℝ)
  | [], total => .ok total
  | (weight, i) :: rest, total => do
    let price ← i.price fuel ctx date
    priceLoop fuel ctx date rest (num2 (· + ·) total (num1 (weight * ·) price))

/-- `SelfPricer::price`, `selfpricer.rs:103-121`. -/
noncomputable def SelfPricer.price (fuel : Nat) (p : SelfPricer) : Outcome (Num ℝ) :=
  priceLoop fuel p.context.pricingContext ⟨p.context.context.spotDate, .open⟩ p.instruments (.val 0)

/-- `Bumpable::bump`, `selfpricer.rs:129-132`. -/
noncomputable def SelfPricer.bump (b : Bump) (p : SelfPricer) (save : Option SavedPrefetch) :
    Outcome Bool × SelfPricer × Option SavedPrefetch :=
  let r := p.context.bump b save
  (r.1, { p with context := r.2.1 }, r.2.2)

/-- `TimeBumpable::bump_time`, `selfpricer.rs:152-158`, with `BumpTime::apply`, `bumptime.rs:35-52`. -/
noncomputable def SelfPricer.bumpTime (bump : BumpTime) (p : SelfPricer) : Outcome Unit × SelfPricer :=
  match updateInstruments bump.spotDateBump p.instruments p.context.pricingContext p.context.dependencies with
  | .error e => (.error e, p)
  | .ok (modified, instruments) =>
    match p.context.bump (.spotDate bump.spotDateBump) none with
    | (.error e, context, _) => (.error e, ⟨instruments, context⟩)
    | (.ok _, context, _) =>
      if modified then
        match SelfPricer.new instruments context.context with
        | .error e => (.error e, ⟨instruments, context⟩)
        | .ok p => (.ok (), p)
      else (.ok (), ⟨instruments, context⟩)

/-- `impl Pricer for SelfPricer`, `selfpricer.rs:98-159`. -/
noncomputable def selfPricer (fuel : Nat) : Pricer SelfPricer SavedPrefetch where
  bump := SelfPricer.bump
  restore p s := { p with context := p.context.restore s }
  newSave := .new
  price := SelfPricer.price fuel
  ids p := p.context.dependencies.instruments.entries.map Prod.fst
  spot p id := find id p.context.context.spots
  bumpTime := SelfPricer.bumpTime

/-- `SelfPricerFactory::new`, `selfpricer.rs:58-72`. -/
noncomputable def selfPricerFactory (i : Instrument) (table : FixingTable ℝ) (md : MarketData) : Outcome SelfPricer := do
  match ← i.fix table with
  | some fixed => SelfPricer.new fixed md
  | none => SelfPricer.new [(1, i)] md

/-! ## Comparing reports -/

/-- `ReportTolerances`, `risk/mod.rs:156-160`. -/
structure Tolerances where
  price : ℝ
  currencyRisk : ℝ
  unitRisk : ℝ

open Classical in
/-- One comparison that writes a difference unless `approx_eq` holds. -/
noncomputable def differs (a b tol : Num ℝ) : List Unit := if napprox a b tol then [] else [()]

/-- The loop of `validate`, `deltagamma.rs:62-68` and `vegavolga.rs:70-76`, with the comparison of the figures of an
underlying, `deltagamma.rs:102-114` and `vegavolga.rs:110-122`. -/
noncomputable def compareResults (tol1 tol2 : Num ℝ) (other : Map String (Num ℝ × Num ℝ)) : List (String × Num ℝ × Num ℝ) → List Unit
  | [] => []
  | (id, x, y) :: rest =>
    (match other.get id with
    | some (x', y') => differs x x' tol1 ++ differs y y' tol2
    | none => [()]) ++ compareResults tol1 tol2 other rest

/-- `validate` for two reports of bumped figures, `deltagamma.rs:49-71` and `vegavolga.rs:57-79`. The bump size of the other
report is not looked at. Division by a bump size of zero gives an infinite tolerance in the code and NaN here. -/
noncomputable def compareMaps (tol : ℝ) (bumpsize : Num ℝ) (results other : Map String (Num ℝ × Num ℝ)) : List Unit :=
  (if results.entries.length ≠ other.entries.length then [()] else []) ++
    compareResults (ndiv (.val tol) bumpsize) (ndiv (ndiv (.val tol) bumpsize) bumpsize) other results.entries

mutual
/-- `validate_report`: `deltagamma.rs:74-84`, `vegavolga.rs:82-92`, `timebumped.rs:53-89`. The differences that are written. -/
noncomputable def validate (tol : Tolerances) : Report → Report → List Unit
  | .deltaGamma b results, .deltaGamma _ other => compareMaps tol.unitRisk b results other
  | .vegaVolga b results, .vegaVolga _ other => compareMaps tol.currencyRisk b results other
  | .timeBumped price theta subreports, .timeBumped price' theta' subreports' =>
    differs price price' (.val tol.price) ++ differs theta theta' (.val tol.price) ++
      (if subreports.length ≠ subreports'.length then [()] else []) ++ validateZip tol subreports subreports'
  | _, _ => [()]

/-- The loops over pairs of reports, `timebumped.rs:71-73` and `risk/mod.rs:244-246`. -/
noncomputable def validateZip (tol : Tolerances) : List Report → List Report → List Unit
  | r :: rest, r' :: rest' => validate tol r r' ++ validateZip tol rest rest'
  | _, _ => []
end

/-- `validate` for slices of reports, `risk/mod.rs:236-250`. -/
noncomputable def validateAll (tol : Tolerances) (reports expected : List Report) : List Unit :=
  (if reports.length ≠ expected.length then [()] else []) ++ validateZip tol reports expected

/-- `assert_approx_eq_reports`, `facade/mod.rs:170-181`. -/
noncomputable def assertApproxEqReports (tol : Tolerances) (reports expected : List Report) : Outcome Unit :=
  if (validateAll tol reports expected).isEmpty then .ok () else .error .err

end QM.Risk
