import Verif.Units.PriceLemmas

/-!
# Helper lemmas: pricers and reports in another unit
-/

namespace QM.Units
open QM.Interp QM.Curves QM.Dividends QM.Forward QM.Vol QM.Fixings QM.Instruments QM.Market QM.Risk

variable {c : ℝ}

/-! ## The prefetching context -/

noncomputable def prefetch (c : ℝ) (p : Prefetch) : Prefetch :=
  ⟨market c p.context, collector c p.dependencies, onValues (forward c) p.forwardCurves, onValues (surface c) p.volSurfaces⟩

noncomputable def savedPrefetch (c : ℝ) (s : SavedPrefetch) : SavedPrefetch :=
  ⟨savedData c s.savedData, onValues (forward c) s.forwardCurves, onValues (surface c) s.volSurfaces⟩

theorem prefetch_requoted (p : Prefetch) : Requoted c p.pricingContext (prefetch c p).pricingContext where
  spotDate := rfl
  yieldCurve := rfl
  spot id := find_onValues _ _ _
  forwardCurve i hwm := by
    show find (instrument c i).id (onValues (forward c) p.forwardCurves) = _
    rw [instrument_id, find_onValues]
    rfl
  volSurface i hwm g g' _ := by
    show find (instrument c i).id (onValues (surface c) p.volSurfaces) = _
    rw [instrument_id, find_onValues]
    rfl

theorem walk_units (hc : 0 < c) (md : MarketData) (vols : Map String (Instrument × Int)) (l : List (String × Instrument × Int)) :
    ∀ (fs : Map String Fwd) (vs : Map String VolSurface),
    walkDependencies (market c md) (onValues (fun p => (instrument c p.1, p.2)) vols) (l.map fun e => (e.1, instrument c e.2.1, e.2.2))
        (onValues (forward c) fs) (onValues (surface c) vs) =
      ((walkDependencies md vols l fs vs).1, onValues (forward c) (walkDependencies md vols l fs vs).2.1,
        onValues (surface c) (walkDependencies md vols l fs vs).2.2) := by
  induction l with
  | nil => exact fun _ _ => rfl
  | cons e l ih =>
    intro fs vs
    obtain ⟨id, i, hwm⟩ := e
    simp only [List.map_cons, walkDependencies, market_forwardCurve, get_onValues, instrument_id]
    cases md.forwardCurve i hwm with
    | error e => rfl
    | ok f =>
      simp only [map_ok]
      cases vols.get i.id with
      | none =>
        simp only [Option.map_none, insert_onValues]
        exact ih _ _
      | some q =>
        simp only [Option.map_some]
        rw [market_volSurface hc md i q.2 (fun _ => .ok f) (fun _ => .ok (forward c f)) rfl]
        cases md.volSurface i q.2 (fun _ => .ok f) with
        | error e => rfl
        | ok v =>
          simp only [map_ok, insert_onValues]
          exact ih _ _

theorem prefetch_new (hc : 0 < c) (md : MarketData) (x : Collector) : Prefetch.new (market c md) (collector c x) = (Prefetch.new md x).map (prefetch c) := by
  unfold Prefetch.new
  have h := walk_units hc md x.volSurfaces x.forwardCurves.entries .empty .empty
  have e : walkDependencies (market c md) (collector c x).volSurfaces (collector c x).forwardCurves.entries .empty .empty = _ := h
  rw [e]
  obtain ⟨o, fs, vs⟩ := walkDependencies md x.volSurfaces x.forwardCurves.entries .empty .empty
  cases o <;> rfl

theorem refetchAll_units (hc : 0 < c) (p : Prefetch) : (prefetch c p).refetchAll = (p.refetchAll.1, prefetch c p.refetchAll.2) := by
  unfold Prefetch.refetchAll
  have h := walk_units hc p.context p.dependencies.volSurfaces p.dependencies.forwardCurves.entries .empty .empty
  have e : walkDependencies (prefetch c p).context (prefetch c p).dependencies.volSurfaces (prefetch c p).dependencies.forwardCurves.entries .empty .empty = _ := h
  dsimp only
  rw [e]
  rfl

theorem refetchForward_units (p : Prefetch) (id : String) (f : Fwd) (i : Instrument) (s : Option SavedPrefetch) :
    (prefetch c p).refetchForward id (forward c f) (instrument c i) (s.map (savedPrefetch c)) =
      ((p.refetchForward id f i s).1, prefetch c (p.refetchForward id f i s).2.1, (p.refetchForward id f i s).2.2.map (savedPrefetch c)) := by
  have hs : ((s.map (savedPrefetch c)).map fun s => { s with forwardCurves := s.forwardCurves.insert id (forward c f) }) =
      (s.map fun s => { s with forwardCurves := s.forwardCurves.insert id f }).map (savedPrefetch c) := by
    cases s with
    | none => rfl
    | some s => simp only [Option.map_some, savedPrefetch, insert_onValues]
  unfold Prefetch.refetchForward
  dsimp only
  rw [hs, instrument_id]
  have e : (prefetch c p).dependencies.forwardCurves.get i.id = (p.dependencies.forwardCurves.get i.id).map fun p => (instrument c p.1, p.2) := get_onValues _ _ _
  rw [e]
  cases p.dependencies.forwardCurves.get i.id with
  | none => rfl
  | some q =>
    have e' : (prefetch c p).context.forwardCurve (instrument c i) q.2 = (p.context.forwardCurve i q.2).map (forward c) := market_forwardCurve _ _ _
    simp only [Option.map_some, e']
    cases p.context.forwardCurve i q.2 with
    | error e => rfl
    | ok g => simp only [map_ok, prefetch, insert_onValues]

theorem refetchVol_units (hc : 0 < c) (p : Prefetch) (id : String) (f : Fwd) (i : Instrument) (s : Option SavedPrefetch) :
    (prefetch c p).refetchVol id (forward c f) (instrument c i) (s.map (savedPrefetch c)) =
      ((p.refetchVol id f i s).1, prefetch c (p.refetchVol id f i s).2.1, (p.refetchVol id f i s).2.2.map (savedPrefetch c)) := by
  unfold Prefetch.refetchVol
  have e : (prefetch c p).volSurfaces.get id = (p.volSurfaces.get id).map (surface c) := get_onValues _ _ _
  rw [e]
  cases p.volSurfaces.get id with
  | none => rfl
  | some v =>
    have hs : ((s.map (savedPrefetch c)).map fun s => { s with volSurfaces := s.volSurfaces.insert id (surface c v) }) =
        (s.map fun s => { s with volSurfaces := s.volSurfaces.insert id v }).map (savedPrefetch c) := by
      cases s with
      | none => rfl
      | some s => simp only [Option.map_some, savedPrefetch, insert_onValues]
    simp only [Option.map_some, hs, instrument_id]
    have e : (prefetch c p).dependencies.volSurfaces.get i.id = (p.dependencies.volSurfaces.get i.id).map fun p => (instrument c p.1, p.2) := get_onValues _ _ _
    rw [e]
    cases p.dependencies.volSurfaces.get i.id with
    | none => rfl
    | some q =>
      have e' : (prefetch c p).context.volSurface (instrument c i) q.2 (fun _ => .ok (forward c f)) = (p.context.volSurface i q.2 (fun _ => .ok f)).map (surface c) :=
        market_volSurface hc _ _ _ _ _ rfl
      simp only [Option.map_some, e']
      cases p.context.volSurface i q.2 (fun _ => .ok f) with
      | error e => rfl
      | ok g => simp only [map_ok, prefetch, insert_onValues]

theorem refetch_units (hc : 0 < c) (p : Prefetch) (id : String) (bf bv : Bool) (s : Option SavedPrefetch) :
    (prefetch c p).refetch id bf bv (s.map (savedPrefetch c)) =
      ((p.refetch id bf bv s).1, prefetch c (p.refetch id bf bv s).2.1, (p.refetch id bf bv s).2.2.map (savedPrefetch c)) := by
  unfold Prefetch.refetch
  split
  · rfl
  have e : (prefetch c p).forwardCurves.get id = (p.forwardCurves.get id).map (forward c) := get_onValues _ _ _
  rw [e]
  cases p.forwardCurves.get id with
  | none => rfl
  | some f =>
    have e : (prefetch c p).dependencies.instruments.get id = (p.dependencies.instruments.get id).map (instrument c) := get_onValues _ _ _
    simp only [Option.map_some, e]
    cases p.dependencies.instruments.get id with
    | none => rfl
    | some i =>
      simp only [Option.map_some]
      have h1 : (if bf = true then (prefetch c p).refetchForward id (forward c f) (instrument c i) (s.map (savedPrefetch c))
            else (Except.ok (), prefetch c p, s.map (savedPrefetch c))) =
          ((if bf = true then p.refetchForward id f i s else (.ok (), p, s)).1, prefetch c (if bf = true then p.refetchForward id f i s else (.ok (), p, s)).2.1,
            (if bf = true then p.refetchForward id f i s else (.ok (), p, s)).2.2.map (savedPrefetch c)) := by
        cases bf with
        | true => exact refetchForward_units p id f i s
        | false => rfl
      rw [h1]
      obtain ⟨o, p, s⟩ := (if bf = true then p.refetchForward id f i s else (.ok (), p, s))
      cases o with
      | error e => rfl
      | ok u =>
        dsimp only
        have h2 : ((prefetch c p).forwardCurves.get id).getD (forward c f) = forward c ((p.forwardCurves.get id).getD f) := by
          have e : (prefetch c p).forwardCurves.get id = (p.forwardCurves.get id).map (forward c) := get_onValues _ _ _
          rw [e]
          cases p.forwardCurves.get id <;> rfl
        rw [h2]
        generalize (p.forwardCurves.get id).getD f = f'
        have h3 : (if bv = true then (prefetch c p).refetchVol id (forward c f') (instrument c i) (s.map (savedPrefetch c))
              else (Except.ok (), prefetch c p, s.map (savedPrefetch c))) =
            ((if bv = true then p.refetchVol id f' i s else (.ok (), p, s)).1, prefetch c (if bv = true then p.refetchVol id f' i s else (.ok (), p, s)).2.1,
              (if bv = true then p.refetchVol id f' i s else (.ok (), p, s)).2.2.map (savedPrefetch c)) := by
          cases bv with
          | true => exact refetchVol_units hc p id f' i s
          | false => rfl
        rw [h3]
        obtain ⟨o, p, s⟩ := (if bv = true then p.refetchVol id f' i s else (.ok (), p, s))
        cases o <;> rfl

theorem refetchAllOf_units (hc : 0 < c) (b : Bool) (l : List String) : ∀ (p : Prefetch) (s : Option SavedPrefetch),
    (prefetch c p).refetchAllOf b l (s.map (savedPrefetch c)) =
      ((p.refetchAllOf b l s).1, prefetch c (p.refetchAllOf b l s).2.1, (p.refetchAllOf b l s).2.2.map (savedPrefetch c)) := by
  induction l with
  | nil => exact fun _ _ => rfl
  | cons id l ih =>
    intro p s
    simp only [Prefetch.refetchAllOf, refetch_units hc]
    obtain ⟨o, p, s⟩ := p.refetch id b false s
    cases o with
    | error e => rfl
    | ok u => exact ih p s

theorem stickyLoop_units (md : MarketData) (d : Int) (x : Collector) (l : List (String × ℝ)) : ∀ m,
    stickyLoop (market c md) d (collector c x) (l.map fun e => (e.1, c * e.2)) (onValues (c * ·) m) = (stickyLoop md d x l m).map (onValues (c * ·)) := by
  induction l with
  | nil => exact fun _ => rfl
  | cons e l ih =>
    intro m
    obtain ⟨id, s⟩ := e
    have e : (collector c x).instruments.get id = (x.instruments.get id).map (instrument c) := get_onValues _ _ _
    simp only [List.map_cons, stickyLoop, e]
    cases x.instruments.get id with
    | none =>
      simp only [Option.map_none]
      rw [insert_onValues (c * ·) m id s]
      exact ih _
    | some i =>
      simp only [Option.map_some, market_equityForward]
      cases md.equityForward i d with
      | error e => rfl
      | ok f =>
        simp only [map_ok, ok_to, equityForward_forward]
        cases f.forward d with
        | error e => rfl
        | ok y =>
          simp only [map_ok, ok_to]
          rw [insert_onValues (c * ·) m id y]
          exact ih _

theorem bumpSpotDate_units (md : MarketData) (b : BumpSpotDate) (x : Collector) :
    (market c md).bumpSpotDate b (collector c x) = ((md.bumpSpotDate b x).1, market c (md.bumpSpotDate b x).2) := by
  unfold MarketData.bumpSpotDate
  cases b.spotDynamics with
  | stickySpot => rfl
  | stickyForward =>
    have h := stickyLoop_units (c := c) md b.spotDate x md.spots.entries .empty
    have e : stickyLoop (market c md) b.spotDate (collector c x) (market c md).spots.entries .empty = _ := h
    dsimp only
    rw [e]
    cases stickyLoop md b.spotDate x md.spots.entries .empty <;> rfl

theorem marketBump_units (hc : 0 < c) (p : Prefetch) (b : Bump) (s : Option SavedPrefetch) :
    let r := p.context.bump b (s.map SavedPrefetch.savedData)
    ((prefetch c p).context.bump (bump c b) ((s.map (savedPrefetch c)).map SavedPrefetch.savedData)).1 = r.1 ∧
    { prefetch c p with context := ((prefetch c p).context.bump (bump c b) ((s.map (savedPrefetch c)).map SavedPrefetch.savedData)).2.1 } =
      prefetch c { p with context := r.2.1 } ∧
    ((s.map (savedPrefetch c)).map fun s' => { s' with savedData :=
        ((prefetch c p).context.bump (bump c b) ((s.map (savedPrefetch c)).map SavedPrefetch.savedData)).2.2.getD s'.savedData }) =
      (s.map fun s => { s with savedData := r.2.2.getD s.savedData }).map (savedPrefetch c) := by
  have e : (s.map (savedPrefetch c)).map SavedPrefetch.savedData = (s.map SavedPrefetch.savedData).map (savedData c) := by cases s <;> rfl
  have h : (prefetch c p).context.bump (bump c b) ((s.map SavedPrefetch.savedData).map (savedData c)) = _ := market_bump p.context b (s.map SavedPrefetch.savedData)
  dsimp only
  rw [e, h]
  refine ⟨rfl, rfl, ?_⟩
  cases s with
  | none => rfl
  | some s =>
    simp only [Option.map_some, savedPrefetch]
    cases (p.context.bump b (some s.savedData)).2.2 <;> rfl

theorem prefetch_bump (hc : 0 < c) (p : Prefetch) (b : Bump) (s : Option SavedPrefetch) :
    (prefetch c p).bump (bump c b) (s.map (savedPrefetch c)) =
      ((p.bump b s).1, prefetch c (p.bump b s).2.1, (p.bump b s).2.2.map (savedPrefetch c)) := by
  obtain ⟨h1, h2, h3⟩ := marketBump_units hc p b s
  cases b with
  | spotDate b =>
    simp only [bump, Prefetch.bump]
    show (if b.spotDate ≠ p.context.spotDate then _ else _) = _
    split
    · have h : (prefetch c p).context.bumpSpotDate b (prefetch c p).dependencies = _ := bumpSpotDate_units p.context b p.dependencies
      rw [h]
      obtain ⟨o, md⟩ := p.context.bumpSpotDate b p.dependencies
      cases o with
      | error e => rfl
      | ok u =>
        have h := refetchAll_units hc { p with context := md }
        have e : prefetch c { p with context := md } = { prefetch c p with context := market c md } := rfl
        rw [e] at h
        dsimp only
        rw [h]
        obtain ⟨o, p⟩ := Prefetch.refetchAll { p with context := md }
        cases o <;> rfl
    · rfl
  | spot id b =>
    simp only [bump] at h1 h2 h3
    simp only [bump, Prefetch.bump]
    rw [h1, h2, h3]
    cases (p.context.bump (.spot id b) (s.map SavedPrefetch.savedData)).1 with
    | error e => rfl
    | ok u => exact refetch_units hc ..
  | divs id b =>
    simp only [bump] at h1 h2 h3
    simp only [bump, Prefetch.bump]
    rw [h1, h2, h3]
    cases (p.context.bump (.divs id b) (s.map SavedPrefetch.savedData)).1 with
    | error e => rfl
    | ok u => exact refetch_units hc ..
  | borrow id b =>
    simp only [bump] at h1 h2 h3
    simp only [bump, Prefetch.bump]
    rw [h1, h2, h3]
    cases (p.context.bump (.borrow id b) (s.map SavedPrefetch.savedData)).1 with
    | error e => rfl
    | ok u => exact refetch_units hc ..
  | vol id b =>
    simp only [bump] at h1 h2 h3
    simp only [bump, Prefetch.bump]
    rw [h1, h2, h3]
    cases (p.context.bump (.vol id b) (s.map SavedPrefetch.savedData)).1 with
    | error e => rfl
    | ok u => exact refetch_units hc ..
  | yield id b =>
    simp only [bump] at h1 h2 h3
    simp only [bump, Prefetch.bump]
    rw [h1, h2, h3]
    cases (p.context.bump (.yield id b) (s.map SavedPrefetch.savedData)).1 with
    | error e => rfl
    | ok u =>
      dsimp only
      have ed : ∀ md, (prefetch c { p with context := md }).dependencies.forwardIds = p.dependencies.forwardIds := fun _ => rfl
      rw [ed, refetchAllOf_units hc]
      generalize Prefetch.refetchAllOf _ u _ _ = r
      obtain ⟨o, q, s'⟩ := r
      cases o <;> rfl

theorem prefetch_restore (p : Prefetch) (s : SavedPrefetch) : (prefetch c p).restore (savedPrefetch c s) = prefetch c (p.restore s) := by
  simp only [Prefetch.restore, prefetch, savedPrefetch, copyFromSaved_onValues, market_restore]

/-! ## Moving the date -/

theorem fixingValue_units {ctx ctx' : PricingContext} (h : Requoted c ctx ctx') (b : BumpSpotDate) (id : String) (i : Instrument) (d : Int) :
    fixingValue ctx' b id (instrument c i) d = (fixingValue ctx b id i d).map (c * ·) := by
  unfold fixingValue
  cases b.spotDynamics with
  | stickySpot => exact h.spot id
  | stickyForward =>
    simp only [h.forwardCurve]
    cases ctx.forwardCurve i b.spotDate with
    | error e => rfl
    | ok f =>
      simp only [map_ok, ok_to, forward]
      cases f.forward d with
      | error e => rfl
      | ok x => cases x <;> rfl

theorem fixingsOf_units {ctx ctx' : PricingContext} (h : Requoted c ctx ctx') (b : BumpSpotDate) (id : String) (i : Instrument) (l : List DateTime) :
    fixingsOf ctx' b id (instrument c i) l = (fixingsOf ctx b id i l).map fun l => l.map fun f => (f.1, c * f.2) := by
  induction l with
  | nil => rfl
  | cons f l ih =>
    simp only [fixingsOf, h.spotDate, fixingValue_units h, ih]
    split
    · cases fixingValue ctx b id i f.date with
      | error e => rfl
      | ok x =>
        simp only [map_ok, ok_to]
        cases fixingsOf ctx b id i l <;> rfl
    · rfl

theorem fixingMap_units {ctx ctx' : PricingContext} (h : Requoted c ctx ctx') (b : BumpSpotDate) (x : Collector) (l : List (String × Instrument)) :
    fixingMap ctx' b (collector c x) (l.map fun e => (e.1, instrument c e.2)) =
      (fixingMap ctx b x l).map fun l => l.map fun f => (f.1, f.2.map fun f => (f.1, c * f.2)) := by
  induction l with
  | nil => rfl
  | cons e l ih =>
    obtain ⟨id, i⟩ := e
    simp only [List.map_cons, fixingMap, fixingsOf_units h, ih]
    have e : (collector c x).fixings = x.fixings := rfl
    rw [e]
    cases fixingsOf ctx b id i ((x.fixings.get id).getD []) with
    | error e => rfl
    | ok v =>
      simp only [map_ok, ok_to]
      cases fixingMap ctx b x l with
      | error e => rfl
      | ok o => cases v <;> rfl

theorem updateInstruments_units (hc : 0 < c) {ctx ctx' : PricingContext} (h : Requoted c ctx ctx') (b : BumpSpotDate) (ps : List (ℝ × Instrument)) (x : Collector)
    (hq : QuotableAll ps) :
    updateInstruments b (positions c ps) ctx' (collector c x) = (updateInstruments b ps ctx x).map fun r => (r.1, positions c r.2) := by
  unfold updateInstruments
  have e : fixingMap ctx' b (collector c x) (collector c x).instruments.entries = _ := fixingMap_units h b x x.instruments.entries
  rw [e]
  cases fixingMap ctx b x x.instruments.entries with
  | error e => rfl
  | ok m =>
    simp only [map_ok, ok_to, List.isEmpty_map, fromFixings_units]
    cases m.isEmpty with
    | true => rfl
    | false =>
      simp only [Bool.false_eq_true, if_false]
      cases fromFixings b.spotDate m with
      | error e => rfl
      | ok t =>
        simp only [map_ok, ok_to, fixAll_units hc t ps hq]
        cases fixAll t ps with
        | error e => rfl
        | ok o => cases o <;> rfl

theorem updateInstruments_quotable {ctx : PricingContext} {b : BumpSpotDate} {ps : List (ℝ × Instrument)} {x : Collector} {r : Bool × List (ℝ × Instrument)}
    (hq : QuotableAll ps) (h : updateInstruments b ps ctx x = .ok r) : QuotableAll r.2 := by
  unfold updateInstruments at h
  obtain ⟨m, _, h⟩ := bind_ok h
  split at h
  · cases h
    exact hq
  · obtain ⟨t, _, h⟩ := bind_ok h
    obtain ⟨o, ho, h⟩ := bind_ok h
    cases o with
    | none => cases h; exact hq
    | some l => cases h; exact fixAll_quotable hq ho

/-! ## The self pricer -/

/-- A pricer. -/
noncomputable def pricer (c : ℝ) (p : SelfPricer) : SelfPricer := ⟨positions c p.instruments, prefetch c p.context⟩

theorem pricer_new (hc : 0 < c) (ps : List (ℝ × Instrument)) (md : MarketData) :
    SelfPricer.new (positions c ps) (market c md) = (SelfPricer.new ps md).map (pricer c) := by
  unfold SelfPricer.new
  have e : (market c md).spotDate = md.spotDate := rfl
  rw [e, collect_units, prefetch_new hc]
  cases Prefetch.new md (collect md.spotDate ps) <;> rfl

theorem pricer_price (hc : 0 < c) (fuel : Nat) (p : SelfPricer) (hq : QuotableAll p.instruments) :
    (pricer c p).price fuel = (p.price fuel).map (amount c) := by
  unfold SelfPricer.price
  have h := priceLoop_units hc fuel (prefetch_requoted (c := c) p.context) ⟨p.context.context.spotDate, .open⟩ p.instruments (.val 0) hq
  rw [amount_val, mul_zero] at h
  exact h

theorem pricer_bump (hc : 0 < c) (b : Bump) (p : SelfPricer) (s : Option SavedPrefetch) :
    (pricer c p).bump (bump c b) (s.map (savedPrefetch c)) =
      ((p.bump b s).1, pricer c (p.bump b s).2.1, (p.bump b s).2.2.map (savedPrefetch c)) := by
  unfold SelfPricer.bump
  have h := prefetch_bump hc p.context b s
  have e : (pricer c p).context.bump (bump c b) (s.map (savedPrefetch c)) = _ := h
  dsimp only
  rw [e]
  rfl

theorem pricer_bumpTime (hc : 0 < c) (b : BumpTime) (p : SelfPricer) (hq : QuotableAll p.instruments) :
    (pricer c p).bumpTime b = ((p.bumpTime b).1, pricer c (p.bumpTime b).2) := by
  unfold SelfPricer.bumpTime
  have e : updateInstruments b.spotDateBump (pricer c p).instruments (pricer c p).context.pricingContext (pricer c p).context.dependencies = _ :=
    updateInstruments_units hc (prefetch_requoted (c := c) p.context) b.spotDateBump p.instruments p.context.dependencies hq
  rw [e]
  cases updateInstruments b.spotDateBump p.instruments p.context.pricingContext p.context.dependencies with
  | error e => rfl
  | ok r =>
    obtain ⟨m, is⟩ := r
    have e : (pricer c p).context.bump (.spotDate b.spotDateBump) none = _ := prefetch_bump hc p.context (.spotDate b.spotDateBump) none
    simp only [map_ok, e]
    obtain ⟨o, q, s⟩ := p.context.bump (.spotDate b.spotDateBump) none
    cases o with
    | error e => rfl
    | ok u =>
      cases m with
      | false => rfl
      | true =>
        have e : SelfPricer.new (positions c is) (prefetch c q).context = _ := pricer_new hc is q.context
        dsimp only
        rw [if_pos rfl, if_pos rfl, e]
        cases SelfPricer.new is q.context <;> rfl

theorem pricer_new_instruments {ps : List (ℝ × Instrument)} {md : MarketData} {p : SelfPricer} (h : SelfPricer.new ps md = .ok p) : p.instruments = ps := by
  unfold SelfPricer.new at h
  obtain ⟨x, _, h⟩ := bind_ok h
  cases h
  rfl

theorem bumpTime_quotable (b : BumpTime) (p : SelfPricer) (hq : QuotableAll p.instruments) : QuotableAll (p.bumpTime b).2.instruments := by
  unfold SelfPricer.bumpTime
  cases h : updateInstruments b.spotDateBump p.instruments p.context.pricingContext p.context.dependencies with
  | error e => exact hq
  | ok r =>
    have hr := updateInstruments_quotable hq h
    obtain ⟨m, is⟩ := r
    dsimp only
    obtain ⟨o, q, s⟩ := p.context.bump (.spotDate b.spotDateBump) none
    cases o with
    | error e => exact hr
    | ok u =>
      cases m with
      | false => exact hr
      | true =>
        dsimp only
        rw [if_pos rfl]
        cases h : SelfPricer.new is q.context with
        | error e => exact hr
        | ok p =>
          dsimp only
          rw [pricer_new_instruments h]
          exact hr

/-! ## Reports -/

theorem bumpedPrice_units (hc : 0 < c) (fuel : Nat) (b : Bump) (p : SelfPricer) (s : Option SavedPrefetch) (v : Num ℝ) (hq : QuotableAll p.instruments) :
    bumpedPrice (selfPricer fuel) (bump c b) (pricer c p) (s.map (savedPrefetch c)) (amount c v) =
      ((bumpedPrice (selfPricer fuel) b p s v).1.map (amount c), pricer c (bumpedPrice (selfPricer fuel) b p s v).2.1,
        (bumpedPrice (selfPricer fuel) b p s v).2.2.map (savedPrefetch c)) := by
  unfold bumpedPrice
  have e : (selfPricer fuel).bump (bump c b) (pricer c p) (s.map (savedPrefetch c)) = _ := pricer_bump hc b p s
  have e' : (selfPricer fuel).bump b p s = p.bump b s := rfl
  have hi : (p.bump b s).2.1.instruments = p.instruments := rfl
  rw [e, e']
  generalize p.bump b s = r at hi
  obtain ⟨o, q, s'⟩ := r
  cases o with
  | error e => rfl
  | ok u =>
    cases u with
    | false => rfl
    | true =>
      have h := pricer_price hc fuel q (by rw [show q.instruments = p.instruments from hi]; exact hq)
      show ((pricer c q).price fuel, _, _) = ((q.price fuel).map _, _, _)
      rw [h]

theorem bumpedPrice_instruments (fuel : Nat) (b : Bump) (p : SelfPricer) (s : Option SavedPrefetch) (v : Num ℝ) :
    (bumpedPrice (selfPricer fuel) b p s v).2.1.instruments = p.instruments := by
  unfold bumpedPrice
  have e' : (selfPricer fuel).bump b p s = p.bump b s := rfl
  have hi : (p.bump b s).2.1.instruments = p.instruments := rfl
  rw [e']
  generalize p.bump b s = r at hi
  obtain ⟨o, q, s'⟩ := r
  cases o with
  | error e => exact hi
  | ok u => cases u <;> exact hi

theorem upAndDown_units (hc : 0 < c) (fuel : Nat) (up down : Bump) (p : SelfPricer) (s : SavedPrefetch) (v : Num ℝ) (hq : QuotableAll p.instruments) :
    upAndDown (selfPricer fuel) (bump c up) (bump c down) (pricer c p) (savedPrefetch c s) (amount c v) =
      ((upAndDown (selfPricer fuel) up down p s v).1.map fun r => (amount c r.1, amount c r.2), pricer c (upAndDown (selfPricer fuel) up down p s v).2.1,
        savedPrefetch c (upAndDown (selfPricer fuel) up down p s v).2.2) ∧
    (upAndDown (selfPricer fuel) up down p s v).2.1.instruments = p.instruments := by
  unfold upAndDown
  have h1 := bumpedPrice_units hc fuel up p (some s) v hq
  have i1 := bumpedPrice_instruments fuel up p (some s) v
  rw [Option.map_some] at h1
  rw [h1]
  generalize bumpedPrice (selfPricer fuel) up p (some s) v = r at i1
  obtain ⟨o, q, s1⟩ := r
  have hs : (s1.map (savedPrefetch c)).getD (savedPrefetch c s) = savedPrefetch c (s1.getD s) := by cases s1 <;> rfl
  cases o with
  | error e =>
    refine ⟨?_, i1⟩
    simp only [map_error, hs]
  | ok x =>
    have hq' : QuotableAll q.instruments := by rw [show q.instruments = p.instruments from i1]; exact hq
    have h2 := bumpedPrice_units hc fuel down q none v hq'
    have i2 := bumpedPrice_instruments fuel down q none v
    rw [Option.map_none] at h2
    simp only [map_ok, h2, hs]
    generalize bumpedPrice (selfPricer fuel) down q none v = r at i2
    obtain ⟨o, q2, s2⟩ := r
    cases o with
    | error e => exact ⟨rfl, i2.trans i1⟩
    | ok y =>
      refine ⟨?_, i2.trans i1⟩
      simp only [map_ok]
      refine congrArg₂ Prod.mk rfl (congrArg₂ Prod.mk ?_ rfl)
      show (⟨positions c q2.instruments, (prefetch c q2.context).restore (savedPrefetch c (s1.getD s))⟩ : SelfPricer) = _
      rw [prefetch_restore]
      rfl

theorem first_amounts (hc : 0 < c) (up down : Num ℝ) (b : ℝ) :
    Risk.first (amount c up) (amount c down) (.val (c * b)) = Risk.first up down (.val b) := by
  cases up <;> cases down <;> simp only [Risk.first, amount_nan, amount_val, num1, num2, ndiv]
  rw [← mul_sub, mul_left_comm 2 c b, mul_div_mul_left _ _ hc.ne']
  simp [hc.ne']

theorem second_amounts (hc : 0 < c) (up down v : Num ℝ) (b : ℝ) :
    Risk.second (amount c up) (amount c down) (amount c v) (.val (c * b)) = perAmount c (Risk.second up down v (.val b)) := by
  cases up <;> cases down <;> cases v <;> simp only [Risk.second, amount_nan, amount_val, num1, num2, ndiv, perAmount]
  by_cases hb : b = 0
  · simp [hb]
  · have h1 : (c * b) ^ 2 ≠ 0 := pow_ne_zero _ (mul_ne_zero hc.ne' hb)
    have h2 : b ^ 2 ≠ 0 := pow_ne_zero _ hb
    rw [if_neg h1, if_neg h2]
    simp only [Num.val.injEq]
    field_simp

theorem first_flat (up down b : Num ℝ) : Risk.first (amount c up) (amount c down) b = amount c (Risk.first up down b) := by
  cases up <;> cases down <;> cases b <;> simp only [Risk.first, amount_nan, amount_val, num1, num2, ndiv]
  split
  · rfl
  · rw [amount_val, ← mul_sub, mul_div_assoc]

theorem second_flat (up down v b : Num ℝ) : Risk.second (amount c up) (amount c down) (amount c v) b = amount c (Risk.second up down v b) := by
  cases up <;> cases down <;> cases v <;> cases b <;> simp only [Risk.second, amount_nan, amount_val, num1, num2, ndiv]
  split
  · rfl
  · rw [amount_val, ← mul_div_assoc]
    congr 2
    ring

theorem deltaLoop_units (hc : 0 < c) (fuel : Nat) (b : ℝ) (v : Num ℝ) (ids : List String) : ∀ (p : SelfPricer) (s : SavedPrefetch) (m : Map String (Num ℝ × Num ℝ)),
    QuotableAll p.instruments →
    deltaGammaLoop (selfPricer fuel) b (amount c v) ids (pricer c p) (savedPrefetch c s) (onValues (fun r => (r.1, perAmount c r.2)) m) =
      ((deltaGammaLoop (selfPricer fuel) b v ids p s m).1.map (onValues (fun r => (r.1, perAmount c r.2))),
        pricer c (deltaGammaLoop (selfPricer fuel) b v ids p s m).2.1, savedPrefetch c (deltaGammaLoop (selfPricer fuel) b v ids p s m).2.2) ∧
    (deltaGammaLoop (selfPricer fuel) b v ids p s m).2.1.instruments = p.instruments := by
  induction ids with
  | nil => exact fun _ _ _ _ => ⟨rfl, rfl⟩
  | cons id ids ih =>
    intro p s m hq
    have e : (selfPricer fuel).spot (pricer c p) id = ((selfPricer fuel).spot p id).map (c * ·) := find_onValues _ _ _
    simp only [deltaGammaLoop, e]
    cases (selfPricer fuel).spot p id with
    | error e => exact ⟨rfl, rfl⟩
    | ok x =>
      simp only [map_ok]
      have h := upAndDown_units hc fuel (.spot id (.relative b)) (.spot id (.relative ((1 - b) / (1 + b) - 1))) p s v hq
      obtain ⟨h, hi⟩ := h
      simp only [bump, bumpSpot] at h
      rw [h]
      generalize upAndDown (selfPricer fuel) (.spot id (.relative b)) (.spot id (.relative ((1 - b) / (1 + b) - 1))) p s v = r at hi
      obtain ⟨o, q, s'⟩ := r
      cases o with
      | error e => exact ⟨rfl, hi⟩
      | ok r =>
        obtain ⟨up, down⟩ := r
        have hq' : QuotableAll q.instruments := by rw [show q.instruments = p.instruments from hi]; exact hq
        have k := ih q s' (m.insert id (Risk.first up down (.val (b * x)), Risk.second up down v (.val (b * x)))) hq'
        rw [← insert_onValues] at k
        dsimp only at k
        simp only [map_ok, mul_left_comm b c x, first_amounts hc, second_amounts hc]
        exact ⟨k.1, k.2.trans hi⟩

theorem vegaLoop_units (hc : 0 < c) (fuel : Nat) (b : BumpVol) (v : Num ℝ) (ids : List String) : ∀ (p : SelfPricer) (s : SavedPrefetch) (m : Map String (Num ℝ × Num ℝ)),
    QuotableAll p.instruments →
    vegaVolgaLoop (selfPricer fuel) b (amount c v) ids (pricer c p) (savedPrefetch c s) (onValues (fun r => (amount c r.1, amount c r.2)) m) =
      ((vegaVolgaLoop (selfPricer fuel) b v ids p s m).1.map (onValues (fun r => (amount c r.1, amount c r.2))),
        pricer c (vegaVolgaLoop (selfPricer fuel) b v ids p s m).2.1, savedPrefetch c (vegaVolgaLoop (selfPricer fuel) b v ids p s m).2.2) ∧
    (vegaVolgaLoop (selfPricer fuel) b v ids p s m).2.1.instruments = p.instruments := by
  induction ids with
  | nil => exact fun _ _ _ _ => ⟨rfl, rfl⟩
  | cons id ids ih =>
    intro p s m hq
    simp only [vegaVolgaLoop]
    have h := upAndDown_units hc fuel (.vol id b) (.vol id b.opposite) p s v hq
    obtain ⟨h, hi⟩ := h
    simp only [bump] at h
    rw [h]
    generalize upAndDown (selfPricer fuel) (.vol id b) (.vol id b.opposite) p s v = r at hi
    obtain ⟨o, q, s'⟩ := r
    cases o with
    | error e => exact ⟨rfl, hi⟩
    | ok r =>
      obtain ⟨up, down⟩ := r
      have hq' : QuotableAll q.instruments := by rw [show q.instruments = p.instruments from hi]; exact hq
      have k := ih q s' (m.insert id (Risk.first up down b.bumpsize, Risk.second up down v b.bumpsize)) hq'
      rw [← insert_onValues] at k
      dsimp only at k
      rw [← first_flat, ← second_flat] at k
      exact ⟨k.1, k.2.trans hi⟩

mutual
theorem generate_units (hc : 0 < c) (fuel : Nat) : ∀ (g : Generator) (p : SelfPricer) (s : SavedPrefetch) (v : Num ℝ), QuotableAll p.instruments →
    generate (selfPricer fuel) g (pricer c p) (savedPrefetch c s) (amount c v) =
      ((generate (selfPricer fuel) g p s v).1.map (report c), pricer c (generate (selfPricer fuel) g p s v).2.1,
        savedPrefetch c (generate (selfPricer fuel) g p s v).2.2) ∧
    (generate (selfPricer fuel) g p s v).2.1.instruments = p.instruments
  | .deltaGamma b, p, s, v, hq => by
    have e : (selfPricer fuel).ids (pricer c p) = (selfPricer fuel).ids p := by
      show (p.context.dependencies.instruments.entries.map fun e => (e.1, instrument c e.2)).map Prod.fst = _
      rw [List.map_map]
      rfl
    obtain ⟨h, hi⟩ := deltaLoop_units hc fuel b v ((selfPricer fuel).ids p) p s .empty hq
    have e' : onValues (fun r : Num ℝ × Num ℝ => (r.1, perAmount c r.2)) (.empty : Map String _) = .empty := rfl
    rw [e'] at h
    simp only [generate, e]
    rw [h]
    generalize deltaGammaLoop (selfPricer fuel) b v ((selfPricer fuel).ids p) p s .empty = r at hi
    obtain ⟨o, q, s'⟩ := r
    cases o with
    | error e => exact ⟨rfl, hi⟩
    | ok m => exact ⟨by simp only [map_ok, report], hi⟩
  | .vegaVolga b, p, s, v, hq => by
    have e : (selfPricer fuel).ids (pricer c p) = (selfPricer fuel).ids p := by
      show (p.context.dependencies.instruments.entries.map fun e => (e.1, instrument c e.2)).map Prod.fst = _
      rw [List.map_map]
      rfl
    obtain ⟨h, hi⟩ := vegaLoop_units hc fuel b v ((selfPricer fuel).ids p) p s .empty hq
    have e' : onValues (fun r : Num ℝ × Num ℝ => (amount c r.1, amount c r.2)) (.empty : Map String _) = .empty := rfl
    rw [e'] at h
    simp only [generate, e]
    rw [h]
    generalize vegaVolgaLoop (selfPricer fuel) b v ((selfPricer fuel).ids p) p s .empty = r at hi
    obtain ⟨o, q, s'⟩ := r
    cases o with
    | error e => exact ⟨rfl, hi⟩
    | ok m => exact ⟨by simp only [map_ok, report], hi⟩
  | .timeBumped b gs, p, s, v, hq => by
    have e : (selfPricer fuel).bumpTime b (pricer c p) = _ := pricer_bumpTime hc b p hq
    have e' : (selfPricer fuel).bumpTime b p = p.bumpTime b := rfl
    have hq' := bumpTime_quotable b p hq
    simp only [generate, e, e']
    generalize p.bumpTime b = r at hq'
    obtain ⟨o, q⟩ := r
    cases o with
    | error e => exact ⟨rfl, rfl⟩
    | ok u =>
      have e : (selfPricer fuel).price (pricer c q) = _ := pricer_price hc fuel q hq'
      have e' : (selfPricer fuel).price q = q.price fuel := rfl
      simp only [e, e']
      cases q.price fuel with
      | error e => exact ⟨rfl, rfl⟩
      | ok x =>
        obtain ⟨h, _⟩ := generateAll_units hc fuel gs q s x hq'
        simp only [map_ok, h]
        obtain ⟨o, q', s'⟩ := generateAll (selfPricer fuel) gs q s x
        cases o with
        | error e => exact ⟨rfl, rfl⟩
        | ok rs =>
          refine ⟨?_, rfl⟩
          simp only [map_ok, report]
          have : num2 (· - ·) (amount c x) (amount c v) = amount c (num2 (· - ·) x v) := by
            cases x <;> cases v <;> simp [num2, mul_sub]
          rw [this]

theorem generateAll_units (hc : 0 < c) (fuel : Nat) : ∀ (gs : List Generator) (p : SelfPricer) (s : SavedPrefetch) (v : Num ℝ), QuotableAll p.instruments →
    generateAll (selfPricer fuel) gs (pricer c p) (savedPrefetch c s) (amount c v) =
      ((generateAll (selfPricer fuel) gs p s v).1.map (reports c), pricer c (generateAll (selfPricer fuel) gs p s v).2.1,
        savedPrefetch c (generateAll (selfPricer fuel) gs p s v).2.2) ∧
    (generateAll (selfPricer fuel) gs p s v).2.1.instruments = p.instruments
  | [], p, s, v, hq => by
    simp only [generateAll, map_ok, reports, and_self]
  | g :: gs, p, s, v, hq => by
    obtain ⟨h, hi⟩ := generate_units hc fuel g p s v hq
    simp only [generateAll, h]
    generalize generate (selfPricer fuel) g p s v = r at hi
    obtain ⟨o, q, s'⟩ := r
    cases o with
    | error e => exact ⟨rfl, hi⟩
    | ok x =>
      have hq' : QuotableAll q.instruments := by rw [show q.instruments = p.instruments from hi]; exact hq
      obtain ⟨h, hi'⟩ := generateAll_units hc fuel gs q s' v hq'
      simp only [map_ok, h]
      generalize generateAll (selfPricer fuel) gs q s' v = r at hi'
      obtain ⟨o, q', s''⟩ := r
      cases o with
      | error e => exact ⟨rfl, hi'.trans hi⟩
      | ok xs => exact ⟨by simp only [map_ok, reports], hi'.trans hi⟩
end

theorem calculate_units (hc : 0 < c) (fuel : Nat) (m m' : Outcome SelfPricer) (hm : m' = m.map (pricer c)) (hq : ∀ p, m = .ok p → QuotableAll p.instruments) (gs : List Generator) :
    calculate (selfPricer fuel) m' gs = (calculate (selfPricer fuel) m gs).map (reports c) := by
  subst hm
  unfold calculate
  cases m with
  | error e => rfl
  | ok p =>
    have hq := hq p rfl
    have e : (selfPricer fuel).price (pricer c p) = _ := pricer_price hc fuel p hq
    have e' : (selfPricer fuel).price p = p.price fuel := rfl
    simp only [map_ok, ok_to, e, e']
    cases p.price fuel with
    | error e => rfl
    | ok x =>
      have h := (generateAll_units hc fuel gs p .new x hq).1
      have e : savedPrefetch c .new = .new := rfl
      rw [e] at h
      simp only [map_ok, ok_to]
      show (generateAll (selfPricer fuel) gs (pricer c p) .new (amount c x)).1 = _
      rw [h]
      rfl

end QM.Units
