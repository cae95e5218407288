import Verif.Instruments.Model
import Verif.Forward.Model

/-!
# Model of `src/risk/marketdata.rs`, `src/risk/cache.rs`, `src/data/bump.rs`, `bumpspot.rs` and `bumpspotdate.rs`

A method that takes `&mut self` and may fail returns what it returns together with the state it leaves behind,
also when it fails. Save areas are optional arguments and results. The downcasts of save areas (`marketdata.rs:306-317`,
`cache.rs:331-344`), which fail when a save area of another context is passed, are not modelled: the save area is always of the right
type. Clones and reference counts are not modelled. Hash maps are association lists, whose order stands for the unspecified order of
iteration.
-/

namespace QM.Market
open QM.Interp QM.Curves QM.Dividends QM.Forward QM.Vol QM.Instruments

/-! ## Bumps -/

/-- `BumpSpot`, `bumpspot.rs:5-8`. -/
inductive BumpSpot where
  | relative (bump : ℝ)
  | replace (spot : ℝ)

/-- `Bumper::apply` for `BumpSpot`, `bumpspot.rs:20-28`. -/
def BumpSpot.apply : BumpSpot → ℝ → ℝ
  | .relative bump, oldSpot => oldSpot * (1 + bump)
  | .replace spot, _ => spot

/-- `SpotDynamics`, `bumpspotdate.rs:25-28`. -/
inductive SpotDynamics where
  | stickySpot | stickyForward

/-- `BumpSpotDate`, `bumpspotdate.rs:9-12`. -/
structure BumpSpotDate where
  spotDate : Int
  spotDynamics : SpotDynamics

/-- `Bump`, `bump.rs:8-15`. -/
inductive Bump where
  | spot (id : String) (bump : BumpSpot)
  | divs (id : String) (bump : BumpDivs)
  | borrow (id : String) (bump : BumpYield)
  | vol (id : String) (bump : BumpVol)
  | yield (creditId : String) (bump : BumpYield)
  | spotDate (bump : BumpSpotDate)

/-! ## Market data -/

/-- `MarketData`, `marketdata.rs:41-48`. -/
structure MarketData where
  spotDate : Int
  spots : Map String ℝ
  yieldCurves : Map String RateCurve
  borrowCurves : Map String RateCurve
  dividends : Map String DividendStream
  volSurfaces : Map String VolSurface

/-- `find_market_data`, `marketdata.rs:234-242`, and `find_cached_data`, `cache.rs:213-221`. -/
def find {V : Type} (id : String) (collection : Map String V) : Outcome V :=
  match collection.get id with
  | none => .error .err
  | some x => .ok x

/-- The construction in `MarketData::forward_curve`, `marketdata.rs:182-205`. -/
noncomputable def MarketData.equityForward (md : MarketData) (i : Instrument) (hwm : Int) : Outcome EquityForward := do
  let spot ← find i.id md.spots
  let divs ← find i.id md.dividends
  let borrow ← find i.id md.borrowCurves
  let yc ← find i.creditId md.yieldCurves
  EquityForward.new md.spotDate spot i.settlement yc borrow divs hwm

/-- The answers of a forward curve, `forward.rs:13-29`. -/
noncomputable def asFwd (f : EquityForward) : Fwd := ⟨fun d => (f.forward d).map .val, f.fixedDivsAfter⟩

/-- `MarketData::forward_curve`, `marketdata.rs:182-205`. -/
noncomputable def MarketData.forwardCurve (md : MarketData) (i : Instrument) (hwm : Int) : Outcome Fwd := do
  let f ← md.equityForward i hwm
  pure (asFwd f)

/-- `MarketData::vol_surface`, `marketdata.rs:210-226`. -/
noncomputable def MarketData.volSurface (md : MarketData) (i : Instrument) (_hwm : Int) (forwardFn : Unit → Outcome Fwd) :
    Outcome VolSurface := do
  let vol ← find i.id md.volSurfaces
  let vol ← i.volTimeDynamics.modify vol md.spotDate
  i.volForwardDynamics.modify vol forwardFn

/-- `impl PricingContext for MarketData`, `marketdata.rs:163-231`. -/
noncomputable def MarketData.pricingContext (md : MarketData) : PricingContext where
  spotDate := md.spotDate
  yieldCurve creditId _ := find creditId md.yieldCurves
  spot id := find id md.spots
  forwardCurve := md.forwardCurve
  volSurface := md.volSurface

/-- The loop of `sticky_forward_bump`, `marketdata.rs:111-125`. -/
noncomputable def stickyLoop (md : MarketData) (newSpotDate : Int) (dependencies : Collector) :
    List (String × ℝ) → Map String ℝ → Outcome (Map String ℝ)
  | [], newSpots => .ok newSpots
  | (id, spot) :: rest, newSpots =>
    match dependencies.instruments.get id with
    | some i => do
      let curve ← md.equityForward i newSpotDate
      let newSpot ← curve.forward newSpotDate
      stickyLoop md newSpotDate dependencies rest (newSpots.insert id newSpot)
    | none => stickyLoop md newSpotDate dependencies rest (newSpots.insert id spot)

/-- `bump_spot_date`, `marketdata.rs:87-136`. -/
noncomputable def MarketData.bumpSpotDate (md : MarketData) (bump : BumpSpotDate) (dependencies : Collector) :
    Outcome Unit × MarketData :=
  match bump.spotDynamics with
  | .stickyForward =>
    match stickyLoop md bump.spotDate dependencies md.spots.entries .empty with
    | .error e => (.error e, md)
    | .ok newSpots => (.ok (), { md with spots := newSpots, spotDate := bump.spotDate })
  | .stickySpot => (.ok (), { md with spotDate := bump.spotDate })

/-- `SavedData`, `marketdata.rs:352-358`. -/
structure SavedData where
  spots : Map String ℝ
  yieldCurves : Map String RateCurve
  borrowCurves : Map String RateCurve
  dividends : Map String DividendStream
  volSurfaces : Map String VolSurface

/-- `SavedData::new`, `marketdata.rs:364-371`, and the state after `clear`, lines 377-383. -/
def SavedData.new : SavedData := ⟨.empty, .empty, .empty, .empty, .empty⟩

/-- `apply_bump`, `marketdata.rs:320-341`. Returns whether anything was changed, the map and what was saved. -/
def applyBump {V : Type} (id : String) (bump : V → V) (toBump : Map String V) (toSave : Option (Map String V)) :
    Bool × Map String V × Option (Map String V) :=
  match toBump.get id with
  | some entry => (true, toBump.insert id (bump entry), toSave.map (fun save => save.insert id entry))
  | none => (false, toBump, toSave)

/-- `Bumpable::bump` for `MarketData`, `marketdata.rs:246-270`. -/
noncomputable def MarketData.bump (md : MarketData) (bump : Bump) (save : Option SavedData) : Outcome Bool × MarketData × Option SavedData :=
  match bump with
  | .spot id b =>
    let r := applyBump id b.apply md.spots (save.map SavedData.spots)
    (.ok r.1, { md with spots := r.2.1 }, save.map fun s => { s with spots := r.2.2.getD s.spots })
  | .divs id b =>
    let r := applyBump id b.apply md.dividends (save.map SavedData.dividends)
    (.ok r.1, { md with dividends := r.2.1 }, save.map fun s => { s with dividends := r.2.2.getD s.dividends })
  | .borrow id b =>
    let r := applyBump id b.apply md.borrowCurves (save.map SavedData.borrowCurves)
    (.ok r.1, { md with borrowCurves := r.2.1 }, save.map fun s => { s with borrowCurves := r.2.2.getD s.borrowCurves })
  | .vol id b =>
    let r := applyBump id b.apply md.volSurfaces (save.map SavedData.volSurfaces)
    (.ok r.1, { md with volSurfaces := r.2.1 }, save.map fun s => { s with volSurfaces := r.2.2.getD s.volSurfaces })
  | .yield creditId b =>
    let r := applyBump creditId b.apply md.yieldCurves (save.map SavedData.yieldCurves)
    (.ok r.1, { md with yieldCurves := r.2.1 }, save.map fun s => { s with yieldCurves := r.2.2.getD s.yieldCurves })
  | .spotDate _ => (.error .err, md, save)

/-- `copy_from_saved`, `marketdata.rs:343-350`. -/
def copyFromSaved {V : Type} (toRestore saved : Map String V) : Map String V :=
  saved.entries.foldl (fun m e => m.insert e.1 e.2) toRestore

/-- `Bumpable::restore` for `MarketData`, `marketdata.rs:284-297`. -/
def MarketData.restore (md : MarketData) (saved : SavedData) : MarketData where
  spotDate := md.spotDate
  spots := copyFromSaved md.spots saved.spots
  yieldCurves := copyFromSaved md.yieldCurves saved.yieldCurves
  borrowCurves := copyFromSaved md.borrowCurves saved.borrowCurves
  dividends := copyFromSaved md.dividends saved.dividends
  volSurfaces := copyFromSaved md.volSurfaces saved.volSurfaces

/-! ## The prefetching context -/

/-- `PricingContextPrefetch`, `cache.rs:25-30`. -/
structure Prefetch where
  context : MarketData
  dependencies : Collector
  forwardCurves : Map String Fwd
  volSurfaces : Map String VolSurface

/-- `SavedPrefetch`, `cache.rs:348-352`. -/
structure SavedPrefetch where
  savedData : SavedData
  forwardCurves : Map String Fwd
  volSurfaces : Map String VolSurface

/-- `SavedPrefetch::new`, `cache.rs:358-363`, and the state after `clear`, lines 370-374. -/
def SavedPrefetch.new : SavedPrefetch := ⟨.new, .empty, .empty⟩

/-- `walk_dependencies`, `cache.rs:139-167`. Also gives the maps as they are when it fails. -/
noncomputable def walkDependencies (md : MarketData) (vols : Map String (Instrument × Int)) :
    List (String × Instrument × Int) → Map String Fwd → Map String VolSurface → Outcome Unit × Map String Fwd × Map String VolSurface
  | [], fs, vs => (.ok (), fs, vs)
  | (_, i, hwm) :: rest, fs, vs =>
    match md.forwardCurve i hwm with
    | .error e => (.error e, fs, vs)
    | .ok forward =>
      match vols.get i.id with
      | none => walkDependencies md vols rest (fs.insert i.id forward) vs
      | some (_, volHwm) =>
        match md.volSurface i volHwm (fun _ => .ok forward) with
        | .error e => (.error e, fs, vs)
        | .ok vol => walkDependencies md vols rest (fs.insert i.id forward) (vs.insert i.id vol)

/-- `PricingContextPrefetch::new`, `cache.rs:38-57`. -/
noncomputable def Prefetch.new (context : MarketData) (dependencies : Collector) : Outcome Prefetch :=
  match walkDependencies context dependencies.volSurfaces dependencies.forwardCurves.entries .empty .empty with
  | (.error e, _, _) => .error e
  | (.ok (), fs, vs) => .ok ⟨context, dependencies, fs, vs⟩

/-- `refetch_all`, `cache.rs:61-67`. -/
noncomputable def Prefetch.refetchAll (p : Prefetch) : Outcome Unit × Prefetch :=
  let r := walkDependencies p.context p.dependencies.volSurfaces p.dependencies.forwardCurves.entries .empty .empty
  (r.1, { p with forwardCurves := r.2.1, volSurfaces := r.2.2 })

/-- The part of `refetch` about the forward, `cache.rs:88-103`. -/
noncomputable def Prefetch.refetchForward (p : Prefetch) (id : String) (fwd : Fwd) (i : Instrument) (save : Option SavedPrefetch) :
    Outcome Unit × Prefetch × Option SavedPrefetch :=
  let save := save.map fun s => { s with forwardCurves := s.forwardCurves.insert id fwd }
  match p.dependencies.forwardCurves.get i.id with
  | some (_, hwm) =>
    match p.context.forwardCurve i hwm with
    | .ok f => (.ok (), { p with forwardCurves := p.forwardCurves.insert id f }, save)
    | .error e => (.error e, p, save)
  | none => (.error .err, p, save)

/-- The part of `refetch` about the vol surface, `cache.rs:111-128`. -/
noncomputable def Prefetch.refetchVol (p : Prefetch) (id : String) (fwd : Fwd) (i : Instrument) (save : Option SavedPrefetch) :
    Outcome Unit × Prefetch × Option SavedPrefetch :=
  match p.volSurfaces.get id with
  | none => (.ok (), p, save)
  | some vol =>
    let save := save.map fun s => { s with volSurfaces := s.volSurfaces.insert id vol }
    match p.dependencies.volSurfaces.get i.id with
    | some (_, volHwm) =>
      match p.context.volSurface i volHwm (fun _ => .ok fwd) with
      | .ok v => (.ok (), { p with volSurfaces := p.volSurfaces.insert id v }, save)
      | .error e => (.error e, p, save)
    | none => (.error .err, p, save)

/-- `refetch`, `cache.rs:71-137`. -/
noncomputable def Prefetch.refetch (p : Prefetch) (id : String) (bumpedForward bumpedVol : Bool) (save : Option SavedPrefetch) :
    Outcome Bool × Prefetch × Option SavedPrefetch :=
  if !bumpedForward && !bumpedVol then (.ok false, p, save)
  else
    match p.forwardCurves.get id with
    | none => (.error .err, p, save)
    | some fwd =>
      match p.dependencies.instruments.get id with
      | none => (.error .err, p, save)
      | some i =>
        match (if bumpedForward then p.refetchForward id fwd i save else (.ok (), p, save)) with
        | (.error e, p, save) => (.error e, p, save)
        | (.ok (), p, save) =>
          match (if bumpedVol then p.refetchVol id ((p.forwardCurves.get id).getD fwd) i save else (.ok (), p, save)) with
          | (.error e, p, save) => (.error e, p, save)
          | (.ok (), p, save) => (.ok true, p, save)

/-- The loop of `bump` for yield curves, `cache.rs:264-276`. -/
noncomputable def Prefetch.refetchAllOf (p : Prefetch) (bumped : Bool) :
    List String → Option SavedPrefetch → Outcome Unit × Prefetch × Option SavedPrefetch
  | [], save => (.ok (), p, save)
  | id :: rest, save =>
    match p.refetch id bumped false save with
    | (.error e, p, save) => (.error e, p, save)
    | (.ok _, p, save) => p.refetchAllOf bumped rest save

/-- `Bumpable::bump` for `PricingContextPrefetch`, `cache.rs:224-291`. -/
noncomputable def Prefetch.bump (p : Prefetch) (bump : Bump) (save : Option SavedPrefetch) :
    Outcome Bool × Prefetch × Option SavedPrefetch :=
  match bump with
  | .spotDate b =>
    if b.spotDate ≠ p.context.spotDate then
      match p.context.bumpSpotDate b p.dependencies with
      | (.error e, md) => (.error e, { p with context := md }, save)
      | (.ok (), md) =>
        match Prefetch.refetchAll { p with context := md } with
        | (.error e, p) => (.error e, p, save)
        | (.ok (), p) => (.ok true, p, save)
    else (.ok false, p, save)
  | _ =>
    let r := p.context.bump bump (save.map SavedPrefetch.savedData)
    let p := { p with context := r.2.1 }
    let save := save.map fun s => { s with savedData := r.2.2.getD s.savedData }
    match r.1 with
    | .error e => (.error e, p, save)
    | .ok bumped =>
      match bump with
      | .spot id _ => p.refetch id bumped false save
      | .divs id _ => p.refetch id bumped false save
      | .vol id _ => p.refetch id false bumped save
      | .borrow id _ => p.refetch id bumped false save
      | .yield creditId _ =>
        match p.refetchAllOf bumped ((p.dependencies.forwardIds.get creditId).getD []) save with
        | (.error e, p, save) => (.error e, p, save)
        | (.ok (), p, save) => (.ok bumped, p, save)
      | .spotDate _ => (.ok bumped, p, save)

/-- `Bumpable::restore` for `PricingContextPrefetch`, `cache.rs:305-321`. -/
def Prefetch.restore (p : Prefetch) (saved : SavedPrefetch) : Prefetch where
  context := p.context.restore saved.savedData
  dependencies := p.dependencies
  forwardCurves := copyFromSaved p.forwardCurves saved.forwardCurves
  volSurfaces := copyFromSaved p.volSurfaces saved.volSurfaces

/-- `impl PricingContext for PricingContextPrefetch`, `cache.rs:169-207`. -/
noncomputable def Prefetch.pricingContext (p : Prefetch) : PricingContext where
  spotDate := p.context.spotDate
  yieldCurve creditId _ := find creditId p.context.yieldCurves
  spot id := find id p.context.spots
  forwardCurve i _ := find i.id p.forwardCurves
  volSurface i _ _ := find i.id p.volSurfaces

end QM.Market
