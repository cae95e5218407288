import Verif.Risk.Model
import Mathlib.Data.Matrix.Mul
import Mathlib.Data.List.FinRange
import Mathlib.Algebra.Order.Floor.Semiring

/-!
# Monte-Carlo pricing

The source is `models/mod.rs`, `models/blackdiffusion.rs`, `pricers/montecarlo.rs` and the Monte-Carlo parts of
`instruments/options.rs`.

Simplified:
* The standard normal draws of the random number generator are an argument `draw path step asset`.
* The Cholesky decomposition of `nalgebra` is given by its contract.
* The arrays of gaussians and of paths are lists by asset, then by path, then by step or observation.
* The order in which a hash map lists the assets is the order of the list behind `Map`.
* The flag `collated` is left out: the pricer always collates.
* A count of steps that does not fit a `usize` (a path substep of zero) is a panic.
-/

namespace QM.MonteCarlo
open QM.Interp QM.Vol QM.Instruments QM.Market QM.Risk QM.Fixings

/-- The draws of a run: path, then step, then asset. -/
abbrev Draws := Nat → Nat → Nat → ℝ

/-- `MonteCarloTimeline`, `models/mod.rs:93-98`. The observations are keyed by the id of the instrument. -/
structure Timeline where
  observations : Map String (Instrument × List Point)
  flows : List Instrument

/-- `MonteCarloTimeline::new`, `models/mod.rs:105-109`. -/
def Timeline.new : Timeline := ⟨.empty, []⟩

/-- `observation`, `models/mod.rs:136-143`. -/
def Timeline.observation (t : Timeline) (i : Instrument) (at_ : Point) : Timeline :=
  match t.observations.get i.id with
  | none => { t with observations := t.observations.insert i.id (i, [at_]) }
  | some (j, obs) => { t with observations := t.observations.insert i.id (j, obs ++ [at_]) }

/-- `flow`, `models/mod.rs:145-150`. -/
def Timeline.flow (t : Timeline) (i : Instrument) : Timeline := { t with flows := t.flows ++ [i] }

/-- The payment of an option, `options.rs:493-496` and `562-565`. -/
def expiryFlow (v : Vanilla) : Instrument :=
  .zeroCoupon (v.id ++ ":Expiry") v.creditId v.expiry v.payDate v.settlement

/-- `as_mc_priceable` and `mc_dependencies`, `options.rs:482-500`, `550-569` and `montecarlo.rs:96-102`. -/
def mcDependencies (t : Timeline) : Instrument → Outcome Timeline
  | .spotStarting v u _ => .ok ((t.observation u v.expiryTime).flow (expiryFlow v))
  | .forwardStarting v u _ _ strikeTime =>
    .ok (((t.observation u strikeTime).observation u v.expiryTime).flow (expiryFlow v))
  | _ => .error .err

/-- `is_pure_rates`, `instruments/mod.rs:86-88` and `bonds.rs:90-92`. -/
def isPureRates : Instrument → Bool
  | .zeroCoupon .. => true
  | _ => false

/-! ## The Black diffusion -/

open Classical in
/-- `(fwd_var / path_substep).ceil() as usize`, `blackdiffusion.rs:284`. -/
noncomputable def stepCount (fwdVar : Num ℝ) (pathSubstep : ℝ) : Outcome Nat :=
  match fwdVar with
  | .nan => .ok 0
  | .val x => if pathSubstep = 0 then (if x = 0 then .ok 0 else .error .panic) else .ok ⌈x / pathSubstep⌉₊

open Classical in
/-- The inner loop of `calculate_substepping`, `blackdiffusion.rs:273-286`. -/
noncomputable def substepsOf (fuel : Nat) (fwd : Fwd) (surface : VolSurface) (pathSubstep : ℝ) :
    Num ℝ → List (Point × Nat) → Outcome (List Nat)
  | _, [] => .ok []
  | prev, (obs, substep) :: rest => do
    let atm ← fwd.forward obs.1
    let var ← surface.variance fuel obs atm
    let fwdVar := num2 (· - ·) var prev
    if nlt fwdVar (.val 0) then .error .err
    else do
      let steps ← stepCount fwdVar pathSubstep
      let more ← substepsOf fuel fwd surface pathSubstep var rest
      pure (max substep steps :: more)

/-- The outer loop of `calculate_substepping`, `blackdiffusion.rs:267-287`. -/
noncomputable def substepsAll (fuel : Nat) (ctx : PricingContext) (observations : List Point) (hwm : Int) (pathSubstep : ℝ) :
    List Instrument → List Nat → Outcome (List Nat)
  | [], substepping => .ok substepping
  | i :: rest, substepping => do
    let fwd ← ctx.forwardCurve i hwm
    let surface ← ctx.volSurface i hwm (fun _ => .ok fwd)
    let substepping ← substepsOf fuel fwd surface pathSubstep (.val 0) (observations.zip substepping)
    substepsAll fuel ctx observations hwm pathSubstep rest substepping

/-- `calculate_substepping`, `blackdiffusion.rs:251-290`. -/
noncomputable def calculateSubstepping (fuel : Nat) (ctx : PricingContext) (observations : List Point) (instruments : List Instrument)
    (pathSubstep : ℝ) : Outcome (List Nat) :=
  match observations.getLast? with
  | none => .error .err
  | some last => substepsAll fuel ctx observations last.1 pathSubstep instruments (observations.map fun _ => 1)

/-- The number in a result, or zero. -/
def value : Outcome ℝ → ℝ
  | .ok x => x
  | .error _ => 0

/-- The correlation matrix, `blackdiffusion.rs:319-328`. -/
def correlationMatrix (correlation : Instrument → Instrument → Outcome ℝ) (instruments : List Instrument) :
    Outcome (Matrix (Fin instruments.length) (Fin instruments.length) ℝ) := do
  let _ ← each (fun i => each (fun j => correlation (instruments.get i) (instruments.get j))
    ((List.finRange instruments.length).filter (· < i))) (List.finRange instruments.length)
  pure (fun i j => if i = j then 1
    else if j < i then value (correlation (instruments.get i) (instruments.get j))
    else value (correlation (instruments.get j) (instruments.get i)))

/-- What `Cholesky::new(c)` and `unpack` of `nalgebra` promise: the lower triangular matrix with positive diagonal and
`l * lᵀ = c`. -/
structure IsCholesky {n : Nat} (c l : Matrix (Fin n) (Fin n) ℝ) : Prop where
  lower : ∀ i j, i < j → l i j = 0
  positive : ∀ i, 0 < l i i
  product : l * l.transpose = c

open Classical in
/-- `Cholesky::new`, by its contract. -/
noncomputable def cholesky {n : Nat} (c : Matrix (Fin n) (Fin n) ℝ) : Option (Matrix (Fin n) (Fin n) ℝ) :=
  if h : ∃ l, IsCholesky c l then some h.choose else none

/-- The root the draws are multiplied by, `blackdiffusion.rs:337-346`. A `DMatrix` stores its columns one after the
other and `Array::from_shape_vec` reads rows, so the array is the transpose of the root. -/
noncomputable def correlationRoot (correlation : Instrument → Instrument → Outcome ℝ) (instruments : List Instrument) :
    Outcome (Matrix (Fin instruments.length) (Fin instruments.length) ℝ) := do
  let c ← correlationMatrix correlation instruments
  match cholesky c with
  | none => .error .err
  | some l => pure l.transpose

/-- The correlated draw for an asset, `root.dot(&draws)`, `blackdiffusion.rs:370`. -/
noncomputable def correlated {n : Nat} (root : Matrix (Fin n) (Fin n) ℝ) (draws : Nat → ℝ) (asset : Fin n) : ℝ :=
  (List.ofFn fun j : Fin n => root asset j * draws j).sum

/-- `fetch_correlated_gaussians`, `blackdiffusion.rs:296-375`: by asset, path and step. -/
noncomputable def fetchCorrelatedGaussians (correlation : Instrument → Instrument → Outcome ℝ) (instruments : List Instrument)
    (substepping : List Nat) (nPaths : Nat) (draw : Draws) : Outcome (List (List (List ℝ))) :=
  if substepping.sum = 0 ∨ instruments.length = 0 ∨ nPaths = 0 then .error .panic
  else do
    let root ← correlationRoot correlation instruments
    pure ((List.finRange instruments.length).map fun asset =>
      (List.range nPaths).map fun path => (List.range substepping.sum).map fun step => correlated root (draw path step) asset)

/-- The market data of an observation, as pushed in `blackdiffusion.rs:432-438`. The forward is less the displacement. -/
structure Observed where
  forward : Num ℝ
  variance : Num ℝ
  displacement : Num ℝ

/-- The loop of `fetch_path` that fetches the market data, `blackdiffusion.rs:432-438`. -/
noncomputable def observe (fuel : Nat) (fwd : Fwd) (surface : VolSurface) (obs : Point) : Outcome Observed := do
  let f ← fwd.forward obs.1
  let v ← surface.variance fuel obs f
  let d ← surface.displacement obs.1
  pure ⟨num2 (· - ·) f d, v, d⟩

/-- A leg of a path: how many steps, the size of each, and what turns the point into a value. -/
structure Leg where
  steps : Nat
  sigma : Num ℝ
  forward : Num ℝ
  displacement : Num ℝ

open Classical in
/-- The loop of `fetch_path` that finds the sigmas, `blackdiffusion.rs:447-454`, put beside the rest. -/
noncomputable def legs : Num ℝ → List (Observed × Nat) → Outcome (List Leg)
  | _, [] => .ok []
  | prev, (o, n) :: rest =>
    let fwdVar := ndiv (num2 (· - ·) o.variance prev) (.val n)
    if nlt fwdVar (.val 0) then .error .err
    else do
      let more ← legs o.variance rest
      pure (⟨n, nsqrt fwdVar, o.forward, o.displacement⟩ :: more)

/-- The substeps, `blackdiffusion.rs:464-468`. An index past the gaussians is a panic. -/
def advance (sigma : Num ℝ) : Nat → Num ℝ → List ℝ → Outcome (Num ℝ × List ℝ)
  | 0, point, gs => .ok (point, gs)
  | _ + 1, _, [] => .error .panic
  | n + 1, point, g :: gs => advance sigma n (num2 (fun p s => p * (1 + g * s)) point sigma) gs

/-- The walk along one path, `blackdiffusion.rs:460-472`. -/
def walk : Num ℝ → List ℝ → List Leg → Outcome (List (Num ℝ))
  | _, _, [] => .ok []
  | point, gs, l :: rest => do
    let (point, gs) ← advance l.sigma l.steps point gs
    let values ← walk point gs rest
    pure (num2 (· + ·) (num2 (· * ·) point l.forward) l.displacement :: values)

/-- `fetch_path`, `blackdiffusion.rs:408-477`: by path and observation. The number of steps in each row of gaussians is
`nSteps`. -/
noncomputable def fetchPath (fuel : Nat) (i : Instrument) (ctx : PricingContext) (observations : List Point) (gaussians : List (List ℝ))
    (substepping : List Nat) : Outcome (List (List (Num ℝ))) :=
  match observations.getLast? with
  | none => .error .panic
  | some last =>
    if substepping.sum < observations.length then .error .panic
    else do
      let fwd ← ctx.forwardCurve i last.1
      let surface ← ctx.volSurface i last.1 (fun _ => .ok fwd)
      let observed ← each (observe fuel fwd surface) observations
      let legs ← legs (.val 0) (observed.zip substepping)
      each (fun gs => walk (.val 1) gs legs) gaussians

/-- `fetch_paths`, `blackdiffusion.rs:377-406`: by asset, path and observation. -/
noncomputable def fetchPaths (fuel : Nat) (ctx : PricingContext) (observations : List Point) (gaussians : List (List (List ℝ)))
    (instruments : List Instrument) (substepping : List Nat) : Outcome (List (List (List (Num ℝ)))) :=
  if observations.length = 0 ∨ instruments.length = 0 then .error .panic
  else each (fun e => fetchPath fuel e.1 ctx observations e.2 substepping) (instruments.zip gaussians)

/-- `BlackDiffusion`, `blackdiffusion.rs:126-135`. `nPaths` is the first entry of the shape of the paths. -/
structure BlackDiffusion where
  observations : List Point
  flows : List Instrument
  context : Prefetch
  key : Map String Nat
  instruments : List Instrument
  substepping : List Nat
  gaussians : List (List (List ℝ))
  paths : List (List (List (Num ℝ)))
  nPaths : Nat

/-- `BlackDiffusionFactory`, `blackdiffusion.rs:47-52`. The correlation substep is not used by the code. -/
structure ModelFactory where
  pathSubstep : ℝ
  nPaths : Nat

/-- The key, `blackdiffusion.rs:172-174`. -/
def keyOf : Nat → List Instrument → Map String Nat → Map String Nat
  | _, [], m => m
  | n, i :: rest, m => keyOf (n + 1) rest (m.insert i.id n)

/-- `correlation` of the market data, `marketdata.rs:228-231`, which the prefetched context passes on. -/
def marketCorrelation (_ _ : Instrument) : Outcome ℝ := .error .err

/-- `BlackDiffusion::new`, `blackdiffusion.rs:151-201`. -/
noncomputable def BlackDiffusion.new (fuel : Nat) (f : ModelFactory) (t : Timeline) (context : Prefetch) (draw : Draws) :
    Outcome BlackDiffusion := do
  let entries := t.observations.entries.map Prod.snd
  let observations := (entries.map Prod.snd).head?.getD []
  let instruments := entries.map Prod.fst
  let substepping ← calculateSubstepping fuel context.pricingContext observations instruments f.pathSubstep
  let gaussians ← fetchCorrelatedGaussians marketCorrelation instruments substepping f.nPaths draw
  let paths ← fetchPaths fuel context.pricingContext observations gaussians instruments substepping
  pure ⟨observations, t.flows, context, keyOf 0 instruments .empty, instruments, substepping, gaussians, paths, f.nPaths⟩

/-- `paths`, `blackdiffusion.rs:489-496`. -/
def BlackDiffusion.pathsOf (m : BlackDiffusion) (i : Instrument) : Outcome (List (List (Num ℝ))) :=
  match m.key.get i.id with
  | none => .error .err
  | some asset => .ok (m.paths.getD asset [])

/-- The loop of `evaluate_flows`, `blackdiffusion.rs:514-537`. A quantity is a column. -/
noncomputable def flowsLoop (fuel : Nat) (ctx : PricingContext) (nPaths : Nat) :
    List (Instrument × List ℝ) → Num ℝ → Outcome (Num ℝ)
  | [], total => .ok total
  | (flow, quantity) :: rest, total =>
    if isPureRates flow then do
      let average := ndiv (.val quantity.sum) (.val nPaths)
      let v ← flow.price fuel ctx ⟨ctx.spotDate, .open⟩
      flowsLoop fuel ctx nPaths rest (num2 (· + ·) total (num2 (· * ·) average v))
    else .error .err

/-- `evaluate_flows`, `blackdiffusion.rs:498-539`. The quantities are columns, one for each flow of the instrument. -/
noncomputable def BlackDiffusion.evaluateFlows (fuel : Nat) (m : BlackDiffusion) (quantities : List (List ℝ)) : Outcome (Num ℝ) :=
  if (∃ q ∈ quantities, q.length ≠ m.nPaths) ∨ quantities.length ≠ m.flows.length then .error .panic
  else flowsLoop fuel m.context.pricingContext m.nPaths (m.flows.zip quantities) (.val 0)

/-- The payoff on a path, `options.rs:537-538` and `607-610`. `f64::max` ignores a NaN. -/
noncomputable def pathPayoff (v : Vanilla) (spot strike : Num ℝ) : ℝ :=
  nmax (num1 (sign v.putOrCall * ·) (num2 (· - ·) spot strike)) 0

/-- `mc_price`, `options.rs:506-545` and `575-617`. The asserted number of observations is that of the model. -/
noncomputable def mcPrice (fuel : Nat) (m : BlackDiffusion) : Instrument → Outcome (Num ℝ)
  | .spotStarting v u strike => do
    let paths ← m.pathsOf u
    if m.observations.length ≠ 1 then .error .panic
    else m.evaluateFlows fuel [paths.map fun path => pathPayoff v (path.getD 0 .nan) (.val strike)]
  | .forwardStarting v u fraction _ _ => do
    let paths ← m.pathsOf u
    if m.observations.length ≠ 2 then .error .panic
    else m.evaluateFlows fuel [paths.map fun path => pathPayoff v (path.getD 1 .nan) (num1 (fraction * ·) (path.getD 0 .nan))]
  | _ => .ok (.val 0)

/-! ## Bumps of the model -/

/-- `SavedBlackDiffusion`, `blackdiffusion.rs:652-655`. -/
structure SavedBlackDiffusion where
  savedData : SavedPrefetch
  paths : Map Nat (List (List (Num ℝ)))

/-- `SavedBlackDiffusion::new`, `blackdiffusion.rs:661-665`, and the state after `clear`, lines 672-675. -/
def SavedBlackDiffusion.new : SavedBlackDiffusion := ⟨.new, .empty⟩

/-- `refetch`, `blackdiffusion.rs:204-231`. -/
noncomputable def BlackDiffusion.refetch (fuel : Nat) (m : BlackDiffusion) (id : String) (bumped : Bool)
    (save : Option SavedBlackDiffusion) : Outcome Bool × BlackDiffusion × Option SavedBlackDiffusion :=
  if !bumped then (.ok false, m, save)
  else
    match m.key.get id with
    | none => (.error .err, m, save)
    | some asset =>
      let save := save.map fun s => { s with paths := s.paths.insert asset (m.paths.getD asset []) }
      match m.instruments[asset]? with
      | none => (.error .panic, m, save)
      | some i =>
        match fetchPath fuel i m.context.pricingContext m.observations (m.gaussians.getD asset []) m.substepping with
        | .error e => (.error e, m, save)
        | .ok path => (.ok true, { m with paths := m.paths.set asset path }, save)

/-- `refetch_all`, `blackdiffusion.rs:236-244`. -/
noncomputable def BlackDiffusion.refetchAll (fuel : Nat) (m : BlackDiffusion) : Outcome Unit × BlackDiffusion :=
  match fetchPaths fuel m.context.pricingContext m.observations m.gaussians m.instruments m.substepping with
  | .error e => (.error e, m)
  | .ok paths => (.ok (), { m with paths := paths })

/-- The loops of `bump` for yield curves, `blackdiffusion.rs:581-589`. -/
noncomputable def BlackDiffusion.refetchAllOf (fuel : Nat) (bumped : Bool) : List String → BlackDiffusion → Option SavedBlackDiffusion →
    Outcome Unit × BlackDiffusion × Option SavedBlackDiffusion
  | [], m, save => (.ok (), m, save)
  | id :: rest, m, save =>
    match m.refetch fuel id bumped save with
    | (.error e, m, save) => (.error e, m, save)
    | (.ok _, m, save) => BlackDiffusion.refetchAllOf fuel bumped rest m save

/-- `Bumpable::bump` for `BlackDiffusion`, `blackdiffusion.rs:548-604`. -/
noncomputable def BlackDiffusion.bump (fuel : Nat) (b : Bump) (m : BlackDiffusion) (save : Option SavedBlackDiffusion) :
    Outcome Bool × BlackDiffusion × Option SavedBlackDiffusion :=
  let r := m.context.bump b (save.map SavedBlackDiffusion.savedData)
  let m := { m with context := r.2.1 }
  let save := save.map fun s => { s with savedData := r.2.2.getD s.savedData }
  match r.1 with
  | .error e => (.error e, m, save)
  | .ok bumped =>
    match b with
    | .spot id _ => m.refetch fuel id bumped save
    | .divs id _ => m.refetch fuel id bumped save
    | .borrow id _ => m.refetch fuel id bumped save
    | .vol id _ => m.refetch fuel id bumped save
    | .yield creditId _ =>
      match BlackDiffusion.refetchAllOf fuel bumped ((m.context.dependencies.forwardIds.get creditId).getD []) m save with
      | (.error e, m, save) => (.error e, m, save)
      | (.ok (), m, save) => (.ok bumped, m, save)
    | .spotDate _ =>
      if bumped then
        match m.refetchAll fuel with
        | (.error e, m) => (.error e, m, save)
        | (.ok (), m) => (.ok bumped, m, save)
      else (.ok bumped, m, save)

/-- The paths after a restore, `blackdiffusion.rs:623-626`. -/
def restorePaths (saved : Map Nat (List (List (Num ℝ)))) (paths : List (List (List (Num ℝ)))) : List (List (List (Num ℝ))) :=
  saved.entries.foldl (fun paths e => paths.set e.1 e.2) paths

/-- `Bumpable::restore` for `BlackDiffusion`, `blackdiffusion.rs:614-632`. -/
def BlackDiffusion.restore (m : BlackDiffusion) (saved : SavedBlackDiffusion) : BlackDiffusion :=
  { m with context := m.context.restore saved.savedData, paths := restorePaths saved.paths m.paths }

/-! ## The pricer -/

/-- `MonteCarloPricer`, `montecarlo.rs:31-35`. -/
structure MonteCarlo where
  factory : ModelFactory
  instruments : List (ℝ × Instrument)
  model : BlackDiffusion

/-- The timeline collected by `MonteCarloPricer::new`, `montecarlo.rs:94-103`. -/
def timeline : List (ℝ × Instrument) → Timeline → Outcome Timeline
  | [], t => .ok t
  | (_, i) :: rest, t => do
    let t ← mcDependencies t i
    timeline rest t

/-- `MonteCarloPricer::new`, `montecarlo.rs:83-115`. -/
noncomputable def MonteCarlo.new (fuel : Nat) (f : ModelFactory) (instruments : List (ℝ × Instrument)) (md : MarketData) (draw : Draws) :
    Outcome MonteCarlo := do
  let t ← timeline instruments .new
  let context ← Prefetch.new md (collect md.spotDate instruments)
  let model ← BlackDiffusion.new fuel f t context draw
  pure ⟨f, instruments, model⟩

/-- The loop of `price`, `montecarlo.rs:128-133`. -/
noncomputable def mcLoop (fuel : Nat) (m : BlackDiffusion) : List (ℝ × Instrument) → Num ℝ → Outcome (Num ℝ)
  | [], total => .ok total
  | (weight, i) :: rest, total => do
    let price ← mcPrice fuel m i
    mcLoop fuel m rest (num2 (· + ·) total (num1 (weight * ·) price))

/-- `MonteCarloPricer::price`, `montecarlo.rs:122-139`. -/
noncomputable def MonteCarlo.price (fuel : Nat) (p : MonteCarlo) : Outcome (Num ℝ) := mcLoop fuel p.model p.instruments (.val 0)

/-- `Bumpable::bump`, `montecarlo.rs:147-150`. -/
noncomputable def MonteCarlo.bump (fuel : Nat) (b : Bump) (p : MonteCarlo) (save : Option SavedBlackDiffusion) :
    Outcome Bool × MonteCarlo × Option SavedBlackDiffusion :=
  let r := p.model.bump fuel b save
  (r.1, { p with model := r.2.1 }, r.2.2)

/-- `TimeBumpable::bump_time`, `montecarlo.rs:169-177`, with `BumpTime::apply`, `bumptime.rs:35-52`. A rebuilt pricer
takes new draws. -/
noncomputable def MonteCarlo.bumpTime (fuel : Nat) (draw : Draws) (bump : BumpTime) (p : MonteCarlo) : Outcome Unit × MonteCarlo :=
  match updateInstruments bump.spotDateBump p.instruments p.model.context.pricingContext p.model.context.dependencies with
  | .error e => (.error e, p)
  | .ok (modified, instruments) =>
    match p.model.bump fuel (.spotDate bump.spotDateBump) none with
    | (.error e, model, _) => (.error e, { p with instruments := instruments, model := model })
    | (.ok _, model, _) =>
      if modified then
        match MonteCarlo.new fuel p.factory instruments model.context.context draw with
        | .error e => (.error e, { p with instruments := instruments, model := model })
        | .ok p => (.ok (), p)
      else (.ok (), { p with instruments := instruments, model := model })

/-- `impl Pricer for MonteCarloPricer`, `montecarlo.rs:117-178`. -/
noncomputable def monteCarlo (fuel : Nat) (draw : Draws) : Pricer MonteCarlo SavedBlackDiffusion where
  bump := MonteCarlo.bump fuel
  restore p s := { p with model := p.model.restore s }
  newSave := .new
  price := MonteCarlo.price fuel
  ids p := p.model.context.dependencies.instruments.entries.map Prod.fst
  spot p id := find id p.model.context.context.spots
  bumpTime := MonteCarlo.bumpTime fuel draw

/-- `MonteCarloPricerFactory::new`, `montecarlo.rs:66-80`. -/
noncomputable def monteCarloFactory (fuel : Nat) (f : ModelFactory) (i : Instrument) (table : FixingTable ℝ) (md : MarketData)
    (draw : Draws) : Outcome MonteCarlo := do
  match ← i.fix table with
  | some fixed => MonteCarlo.new fuel f fixed md draw
  | none => MonteCarlo.new fuel f [(1, i)] md draw

end QM.MonteCarlo
