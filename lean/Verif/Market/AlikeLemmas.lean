import Verif.Market.CoherenceLemmas

/-!
# Helper lemmas: contexts that answer alike stay alike
-/

namespace QM.Market
open QM.Interp QM.Curves QM.Dividends QM.Vol QM.Instruments Spec

/-- Contexts that cannot be told apart by asking. -/
structure Alike (p q : Prefetch) : Prop where
  dependencies : p.dependencies = q.dependencies
  spotDate : p.context.spotDate = q.context.spotDate
  answers : ∀ x, answers p x = answers q x

theorem Alike.refl (p : Prefetch) : Alike p p := ⟨rfl, rfl, fun _ => rfl⟩

theorem Alike.symm {p q : Prefetch} (h : Alike p q) : Alike q p := ⟨h.dependencies.symm, h.spotDate.symm, fun x => (h.answers x).symm⟩

theorem Alike.trans {p q r : Prefetch} (h : Alike p q) (h' : Alike q r) : Alike p r :=
  ⟨h.dependencies.trans h'.dependencies, h.spotDate.trans h'.spotDate, fun x => (h.answers x).trans (h'.answers x)⟩

theorem Alike.data {p q : Prefetch} (h : Alike p q) (x : Slot) : data p.context x = data q.context x := data_of_answers h.answers x

theorem Alike.forwardCurve {p q : Prefetch} (h : Alike p q) (i : Instrument) (hwm : Int) :
    p.context.forwardCurve i hwm = q.context.forwardCurve i hwm := forwardCurve_congr i hwm h.spotDate (fun x _ => h.data x)

theorem Alike.volSurface {p q : Prefetch} (h : Alike p q) (i : Instrument) (hwm : Int) (f : Unit → Outcome Fwd) :
    p.context.volSurface i hwm f = q.context.volSurface i hwm f := volSurface_congr i hwm f f h.spotDate (h.data _)

theorem Alike.forwards {p q : Prefetch} (h : Alike p q) (id : String) : p.forwardCurves.get id = q.forwardCurves.get id := h.answers (.forward id)

theorem Alike.surfaces {p q : Prefetch} (h : Alike p q) (id : String) : p.volSurfaces.get id = q.volSurfaces.get id := h.answers (.surface id)

theorem Alike.setForward {p q : Prefetch} (h : Alike p q) (id : String) (f : Fwd) :
    Alike { p with forwardCurves := p.forwardCurves.insert id f } { q with forwardCurves := q.forwardCurves.insert id f } :=
  ⟨h.dependencies, h.spotDate, fun x => by rw [answers_forward, answers_forward, funext h.answers]⟩

theorem Alike.setSurface {p q : Prefetch} (h : Alike p q) (id : String) (v : VolSurface) :
    Alike { p with volSurfaces := p.volSurfaces.insert id v } { q with volSurfaces := q.volSurfaces.insert id v } :=
  ⟨h.dependencies, h.spotDate, fun x => by rw [answers_surface, answers_surface, funext h.answers]⟩

/-- The same result, the same save area, and contexts that answer alike. -/
def Agree {α : Type} (r r' : Outcome α × Prefetch × Option SavedPrefetch) : Prop := r.1 = r'.1 ∧ Alike r.2.1 r'.2.1 ∧ r.2.2 = r'.2.2

theorem refetchForward_congr {p q : Prefetch} (h : Alike p q) (id : String) (fwd : Fwd) (i : Instrument) (save : Option SavedPrefetch) :
    Agree (p.refetchForward id fwd i save) (q.refetchForward id fwd i save) := by
  unfold Prefetch.refetchForward
  dsimp only
  rw [show p.dependencies.forwardCurves.get i.id = q.dependencies.forwardCurves.get i.id by rw [h.dependencies]]
  cases q.dependencies.forwardCurves.get i.id with
  | none => exact ⟨rfl, h, rfl⟩
  | some e =>
    obtain ⟨j, hwm⟩ := e
    dsimp only
    rw [h.forwardCurve i hwm]
    cases q.context.forwardCurve i hwm with
    | error e => exact ⟨rfl, h, rfl⟩
    | ok f => exact ⟨rfl, h.setForward id f, rfl⟩

theorem refetchVol_congr {p q : Prefetch} (h : Alike p q) (id : String) (fwd : Fwd) (i : Instrument) (save : Option SavedPrefetch) :
    Agree (p.refetchVol id fwd i save) (q.refetchVol id fwd i save) := by
  unfold Prefetch.refetchVol
  rw [h.surfaces id]
  cases q.volSurfaces.get id with
  | none => exact ⟨rfl, h, rfl⟩
  | some vol =>
    dsimp only
    rw [show p.dependencies.volSurfaces.get i.id = q.dependencies.volSurfaces.get i.id by rw [h.dependencies]]
    cases q.dependencies.volSurfaces.get i.id with
    | none => exact ⟨rfl, h, rfl⟩
    | some e =>
      obtain ⟨j, hwm⟩ := e
      dsimp only
      rw [h.volSurface i hwm]
      cases q.context.volSurface i hwm _ with
      | error e => exact ⟨rfl, h, rfl⟩
      | ok v => exact ⟨rfl, h.setSurface id v, rfl⟩

theorem refetch_congr {p q : Prefetch} (h : Alike p q) (id : String) (bf bv : Bool) (save : Option SavedPrefetch) :
    Agree (p.refetch id bf bv save) (q.refetch id bf bv save) := by
  unfold Prefetch.refetch
  split
  · exact ⟨rfl, h, rfl⟩
  rw [h.forwards id, h.dependencies]
  cases q.forwardCurves.get id with
  | none => exact ⟨rfl, h, rfl⟩
  | some fwd =>
    dsimp only
    cases q.dependencies.instruments.get id with
    | none => exact ⟨rfl, h, rfl⟩
    | some i =>
      dsimp only
      have h1 : Agree (if bf then p.refetchForward id fwd i save else (.ok (), p, save)) (if bf then q.refetchForward id fwd i save else (.ok (), q, save)) := by
        cases bf
        · exact ⟨rfl, h, rfl⟩
        · exact refetchForward_congr h id fwd i save
      generalize (if bf then p.refetchForward id fwd i save else (.ok (), p, save)) = r at h1 ⊢
      generalize (if bf then q.refetchForward id fwd i save else (.ok (), q, save)) = r' at h1 ⊢
      obtain ⟨r1, p1, s1⟩ := r
      obtain ⟨r2, p2, s2⟩ := r'
      obtain ⟨e1, e2, e3⟩ := h1
      dsimp only at e1 e2 e3
      subst e1 e3
      cases r1 with
      | error e => exact ⟨rfl, e2, rfl⟩
      | ok u =>
        dsimp only
        rw [e2.forwards id]
        have h2 : Agree (if bv then p1.refetchVol id ((p2.forwardCurves.get id).getD fwd) i s1 else (.ok (), p1, s1))
            (if bv then p2.refetchVol id ((p2.forwardCurves.get id).getD fwd) i s1 else (.ok (), p2, s1)) := by
          cases bv
          · exact ⟨rfl, e2, rfl⟩
          · exact refetchVol_congr e2 id _ i s1
        generalize (if bv then p1.refetchVol id ((p2.forwardCurves.get id).getD fwd) i s1 else (.ok (), p1, s1)) = r at h2 ⊢
        generalize (if bv then p2.refetchVol id ((p2.forwardCurves.get id).getD fwd) i s1 else (.ok (), p2, s1)) = r' at h2 ⊢
        obtain ⟨r1, p3, s3⟩ := r
        obtain ⟨r2, p4, s4⟩ := r'
        obtain ⟨e1, e2, e3⟩ := h2
        dsimp only at e1 e2 e3
        subst e1 e3
        cases r1 <;> exact ⟨rfl, e2, rfl⟩

theorem refetchAllOf_congr (bumped : Bool) (ids : List String) : ∀ {p q : Prefetch} (_ : Alike p q) (save : Option SavedPrefetch),
    Agree (p.refetchAllOf bumped ids save) (q.refetchAllOf bumped ids save) := by
  induction ids with
  | nil => exact fun h _ => ⟨rfl, h, rfl⟩
  | cons id rest ih =>
    intro p q h save
    rw [Prefetch.refetchAllOf]
    conv in q.refetchAllOf _ _ _ => rw [Prefetch.refetchAllOf]
    have h1 := refetch_congr h id bumped false save
    generalize p.refetch id bumped false save = r at h1 ⊢
    generalize q.refetch id bumped false save = r' at h1 ⊢
    obtain ⟨r1, p1, s1⟩ := r
    obtain ⟨r2, p2, s2⟩ := r'
    obtain ⟨e1, e2, e3⟩ := h1
    dsimp only at e1 e2 e3
    subst e1 e3
    cases r1 with
    | error e => exact ⟨rfl, e2, rfl⟩
    | ok u => exact ih e2 s1

theorem Alike.put {p q : Prefetch} (h : Alike p q) {x : Slot} (hx : isData x) (v : x.Val) :
    Alike { p with context := p.context.put x v } { q with context := q.context.put x v } :=
  ⟨h.dependencies, by rw [put_spotDate, put_spotDate]; exact h.spotDate,
    fun y => by rw [answers_context p hx, answers_context q hx, funext h.answers]⟩

/-- Alike contexts do the same when they are bumped. -/
theorem bump_congr {p q : Prefetch} (h : Alike p q) {b : Bump} (hb : (target b).isSome) (save : Option SavedPrefetch) :
    Agree (p.bump b save) (q.bump b save) := by
  obtain ⟨x, ht⟩ := target_some hb
  have hx := target_data ht
  rcases data_bump p.context ht (save.map SavedPrefetch.savedData) with ⟨h1, h2⟩ | ⟨v, h1, h2⟩
  · rcases data_bump q.context ht (save.map SavedPrefetch.savedData) with ⟨_, h2'⟩ | ⟨w, h1', _⟩
    · cases b <;> cases ht <;> unfold Prefetch.bump <;> dsimp only <;> rw [h2, h2'] <;> dsimp only
      case inl.inl.spot.refl => exact refetch_congr h _ _ _ _
      case inl.inl.divs.refl => exact refetch_congr h _ _ _ _
      case inl.inl.borrow.refl => exact refetch_congr h _ _ _ _
      case inl.inl.vol.refl => exact refetch_congr h _ _ _ _
      case inl.inl.yield.refl =>
        rw [refetchAllOf_none, refetchAllOf_none]
        exact ⟨rfl, h, rfl⟩
    · rw [← h.data x, h1] at h1'
      cases h1'
  · rcases data_bump q.context ht (save.map SavedPrefetch.savedData) with ⟨h1', _⟩ | ⟨w, h1', h2'⟩
    · rw [← h.data x, h1] at h1'
      cases h1'
    · rw [← h.data x, h1] at h1'
      cases h1'
      have h' := h.put hx (bumped b x v)
      cases b <;> cases ht <;> unfold Prefetch.bump <;> dsimp only <;> rw [h2, h2'] <;> dsimp only
      case inr.inr.refl.spot.refl => exact refetch_congr h' _ _ _ _
      case inr.inr.refl.divs.refl => exact refetch_congr h' _ _ _ _
      case inr.inr.refl.borrow.refl => exact refetch_congr h' _ _ _ _
      case inr.inr.refl.vol.refl => exact refetch_congr h' _ _ _ _
      case inr.inr.refl.yield.refl creditId b =>
        rw [show (p.dependencies.forwardIds.get creditId).getD [] = (q.dependencies.forwardIds.get creditId).getD [] by rw [h.dependencies]]
        have h1 := refetchAllOf_congr true ((q.dependencies.forwardIds.get creditId).getD []) h'
          (save.map fun s => { s with savedData := (Option.map (fun s => s.put (.yield creditId) v) (save.map SavedPrefetch.savedData)).getD s.savedData })
        generalize Prefetch.refetchAllOf _ true _ _ = r at h1 ⊢
        generalize Prefetch.refetchAllOf _ true _ _ = r' at h1 ⊢
        obtain ⟨r1, p1, s1⟩ := r
        obtain ⟨r2, p2, s2⟩ := r'
        obtain ⟨e1, e2, e3⟩ := h1
        dsimp only at e1 e2 e3
        subst e1 e3
        cases r1 <;> exact ⟨rfl, e2, rfl⟩

/-! ## Coherence settles the answers -/

theorem Coherent.unique {p q : Prefetch} (h : Coherent p) (h' : Coherent q) (hd : p.dependencies = q.dependencies)
    (hs : p.context.spotDate = q.context.spotDate) (hdata : ∀ x, Spec.data p.context x = Spec.data q.context x) : Alike p q := by
  refine ⟨hd, hs, ?_⟩
  intro x
  cases x
  case forward id =>
    show p.forwardCurves.get id = q.forwardCurves.get id
    cases hg : p.dependencies.forwardCurves.get id with
    | none => rw [h.noForward id hg, h'.noForward id (hd ▸ hg)]
    | some e =>
      obtain ⟨i, hwm⟩ := e
      obtain ⟨f, h1, h2⟩ := h.forward id i hwm hg
      obtain ⟨f', h1', h2'⟩ := h'.forward id i hwm (hd ▸ hg)
      rw [forwardCurve_congr i hwm hs (fun x _ => hdata x), h2'] at h2
      cases h2
      rw [h1, h1']
  case surface id =>
    show p.volSurfaces.get id = q.volSurfaces.get id
    cases hg : p.dependencies.forwardCurves.get id with
    | none => rw [h.noSurface id (.inl hg), h'.noSurface id (.inl (hd ▸ hg))]
    | some e =>
      obtain ⟨i, hwm⟩ := e
      cases hv : p.dependencies.volSurfaces.get id with
      | none => rw [h.noSurface id (.inr hv), h'.noSurface id (.inr (hd ▸ hv))]
      | some e =>
        obtain ⟨j, volHwm⟩ := e
        obtain ⟨v, h1, h2⟩ := h.surface id i hwm j volHwm hg hv (fun _ => .error .err)
        obtain ⟨v', h1', h2'⟩ := h'.surface id i hwm j volHwm (hd ▸ hg) (hd ▸ hv) (fun _ => .error .err)
        rw [volSurface_congr i volHwm _ (fun _ => .error .err) hs (hdata _), h2'] at h2
        cases h2
        rw [h1, h1']
  case spot id => exact hdata (.spot id)
  case divs id => exact hdata (.divs id)
  case borrow id => exact hdata (.borrow id)
  case vol id => exact hdata (.vol id)
  case yield id => exact hdata (.yield id)

/-! ## Moving the date -/

/-- The new spot of one entry of the loop. -/
noncomputable def movedSpot (md : MarketData) (newSpotDate : Int) (dependencies : Collector) (id : String) (spot : ℝ) : Outcome ℝ :=
  match dependencies.instruments.get id with
  | some i => do
    let curve ← md.equityForward i newSpotDate
    curve.forward newSpotDate
  | none => .ok spot

theorem stickyLoop_cons (md : MarketData) (d : Int) (c : Collector) (id : String) (spot : ℝ) (rest : List (String × ℝ)) (acc : Map String ℝ) :
    stickyLoop md d c ((id, spot) :: rest) acc = (do
      let y ← movedSpot md d c id spot
      stickyLoop md d c rest (acc.insert id y)) := by
  rw [stickyLoop]
  unfold movedSpot
  cases c.instruments.get id with
  | none => rfl
  | some i =>
    dsimp only
    cases md.equityForward i d with
    | error e => rfl
    | ok curve => rfl

theorem stickyLoop_ok {md : MarketData} {d : Int} {c : Collector} (l : List (String × ℝ)) : ∀ {acc m : Map String ℝ},
    (l.map Prod.fst).Nodup → stickyLoop md d c l acc = .ok m →
    (∀ e ∈ l, ∃ y, movedSpot md d c e.1 e.2 = .ok y ∧ m.get e.1 = some y) ∧ (∀ k, k ∉ l.map Prod.fst → m.get k = acc.get k) ∧
      (Distinct acc → Distinct m) := by
  induction l with
  | nil =>
    intro acc m _ h
    cases h
    exact ⟨by simp, fun _ _ => rfl, id⟩
  | cons e l ih =>
    obtain ⟨id, spot⟩ := e
    intro acc m hn h
    rw [List.map_cons, List.nodup_cons] at hn
    rw [stickyLoop_cons] at h
    cases hy : movedSpot md d c id spot with
    | error e => rw [hy] at h; cases h
    | ok y =>
      rw [hy] at h
      obtain ⟨h1, h2, h3⟩ := ih hn.2 (show stickyLoop md d c l (acc.insert id y) = .ok m from h)
      refine ⟨?_, ?_, fun hd => h3 (distinct_insert hd _ _)⟩
      · intro e he
        rcases List.mem_cons.1 he with rfl | he
        · exact ⟨y, hy, by rw [h2 _ hn.1, Map.get_insert_self]⟩
        · exact h1 e he
      · intro k hk
        rw [List.map_cons, List.mem_cons, not_or] at hk
        rw [h2 k hk.2, Map.get_insert_ne _ _ hk.1]

theorem stickyLoop_succeeds {md : MarketData} {d : Int} {c : Collector} (l : List (String × ℝ)) : ∀ (acc : Map String ℝ),
    (∀ e ∈ l, ∃ y, movedSpot md d c e.1 e.2 = .ok y) → ∃ m, stickyLoop md d c l acc = .ok m := by
  induction l with
  | nil => exact fun acc _ => ⟨acc, rfl⟩
  | cons e l ih =>
    obtain ⟨id, spot⟩ := e
    intro acc h
    obtain ⟨y, hy⟩ := h (id, spot) (by simp)
    rw [stickyLoop_cons, hy]
    exact ih _ (fun e he => h e (List.mem_cons_of_mem _ he))

theorem movedSpot_congr {md md' : MarketData} (hs : md.spotDate = md'.spotDate) (h : ∀ x, data md x = data md' x) (d : Int) (c : Collector)
    (id : String) (spot : ℝ) : movedSpot md d c id spot = movedSpot md' d c id spot := by
  unfold movedSpot
  cases c.instruments.get id with
  | none => rfl
  | some i => dsimp only; rw [equityForward_congr i d hs (fun x _ => h x)]

/-- What the market data are after the date has moved. -/
theorem bumpSpotDate_ok {md md' : MarketData} {b : BumpSpotDate} {c : Collector} (hd : Distinct md.spots)
    (h : md.bumpSpotDate b c = (.ok (), md')) :
    md'.spotDate = b.spotDate ∧ Distinct md'.spots ∧ (∀ x, (∀ id, x ≠ .spot id) → data md' x = data md x) ∧
      ∀ id, match b.spotDynamics with
        | .stickySpot => md'.spots.get id = md.spots.get id
        | .stickyForward => (md.spots.get id = none → md'.spots.get id = none) ∧
            ∀ S, md.spots.get id = some S → ∃ y, movedSpot md b.spotDate c id S = .ok y ∧ md'.spots.get id = some y := by
  unfold MarketData.bumpSpotDate at h
  cases hb : b.spotDynamics with
  | stickySpot =>
    rw [hb] at h
    cases h
    exact ⟨rfl, hd, fun x _ => by cases x <;> rfl, fun _ => rfl⟩
  | stickyForward =>
    rw [hb] at h
    dsimp only at h
    cases hl : stickyLoop md b.spotDate c md.spots.entries .empty with
    | error e => rw [hl] at h; cases h
    | ok m =>
      rw [hl] at h
      cases h
      obtain ⟨h1, h2, h3⟩ := stickyLoop_ok _ hd hl
      refine ⟨rfl, h3 distinct_empty, ?_, ?_⟩
      · intro x hx
        cases x <;> first | rfl | exact absurd rfl (hx _)
      · intro id
        dsimp only
        constructor
        · intro hn
          refine (h2 id ?_).trans rfl
          intro hm
          exact absurd hn ((mem_keys hd id).1 hm)
        · intro S hS
          exact h1 (id, S) ((get_mem hd _ _).1 hS)

theorem bumpSpotDate_succeeds {md : MarketData} {b : BumpSpotDate} {c : Collector} (hd : Distinct md.spots)
    (h : b.spotDynamics = .stickyForward → ∀ id S, md.spots.get id = some S → ∃ y, movedSpot md b.spotDate c id S = .ok y) :
    ∃ md', md.bumpSpotDate b c = (.ok (), md') := by
  unfold MarketData.bumpSpotDate
  cases hb : b.spotDynamics with
  | stickySpot => exact ⟨_, rfl⟩
  | stickyForward =>
    obtain ⟨m, hm⟩ := stickyLoop_succeeds (md := md) (d := b.spotDate) (c := c) md.spots.entries .empty (by
      rintro ⟨id, S⟩ he
      exact h hb id S ((get_mem hd _ _).2 he))
    dsimp only
    rw [hm]
    exact ⟨_, rfl⟩

/-- Market data that answer alike move alike. -/
theorem bumpSpotDate_congr {md md' n : MarketData} {b : BumpSpotDate} {c : Collector} (hd : Distinct md.spots) (hd' : Distinct n.spots)
    (hs : md.spotDate = n.spotDate) (ha : ∀ x, data md x = data n x) (h : md.bumpSpotDate b c = (.ok (), md')) :
    ∃ n', n.bumpSpotDate b c = (.ok (), n') ∧ md'.spotDate = n'.spotDate ∧ (∀ x, data md' x = data n' x) := by
  obtain ⟨h1, h2, h3, h4⟩ := bumpSpotDate_ok hd h
  obtain ⟨n', hn⟩ := bumpSpotDate_succeeds (md := n) (b := b) (c := c) hd' (by
    intro hb id S hS
    have := h4 id
    rw [hb] at this
    obtain ⟨y, hy, _⟩ := this.2 S ((ha (.spot id)).trans hS)
    exact ⟨y, by rw [← movedSpot_congr hs ha]; exact hy⟩)
  obtain ⟨g1, g2, g3, g4⟩ := bumpSpotDate_ok hd' hn
  refine ⟨n', hn, h1.trans g1.symm, ?_⟩
  intro x
  by_cases hx : ∃ id, x = .spot id
  · obtain ⟨id, rfl⟩ := hx
    show md'.spots.get id = n'.spots.get id
    have e4 := h4 id
    have f4 := g4 id
    have hi : md.spots.get id = n.spots.get id := ha (.spot id)
    cases hb : b.spotDynamics with
    | stickySpot =>
      rw [hb] at e4 f4
      rw [e4, f4, hi]
    | stickyForward =>
      rw [hb] at e4 f4
      cases hS : md.spots.get id with
      | none => rw [e4.1 hS, f4.1 (hi ▸ hS)]
      | some S =>
        obtain ⟨y, hy, k⟩ := e4.2 S hS
        obtain ⟨y', hy', k'⟩ := f4.2 S (hi ▸ hS)
        rw [movedSpot_congr hs ha, hy'] at hy
        cases hy
        rw [k, k']
  · have hx' : ∀ id, x ≠ .spot id := fun id e => hx ⟨id, e⟩
    rw [h3 x hx', g3 x hx', ha x]

theorem walk_congr {md n : MarketData} (hs : md.spotDate = n.spotDate) (ha : ∀ x, data md x = data n x) (vols : Map String (Instrument × Int))
    (l : List (String × Instrument × Int)) : ∀ fs vs, walkDependencies md vols l fs vs = walkDependencies n vols l fs vs := by
  induction l with
  | nil => exact fun _ _ => rfl
  | cons e l ih =>
    obtain ⟨k, i, hwm⟩ := e
    intro fs vs
    rw [walkDependencies, walkDependencies, forwardCurve_congr i hwm hs (fun x _ => ha x)]
    cases n.forwardCurve i hwm with
    | error e => rfl
    | ok f =>
      dsimp only
      cases vols.get i.id with
      | none => exact ih _ _
      | some e =>
        obtain ⟨j, volHwm⟩ := e
        dsimp only
        rw [volSurface_congr i volHwm _ (fun _ => .ok f) hs (ha _)]
        cases n.volSurface i volHwm _ with
        | error e => rfl
        | ok v => exact ih _ _

theorem new_congr {md n : MarketData} (hs : md.spotDate = n.spotDate) (ha : ∀ x, data md x = data n x) {c : Collector} {p : Prefetch}
    (h : Prefetch.new md c = .ok p) : ∃ q, Prefetch.new n c = .ok q ∧ Alike p q ∧ q.context = n := by
  unfold Prefetch.new at h ⊢
  rw [walk_congr hs ha] at h
  generalize walkDependencies n _ _ _ _ = r at h
  obtain ⟨r, fs, vs⟩ := r
  cases r with
  | error e => cases h
  | ok u =>
    cases h
    refine ⟨_, rfl, ⟨rfl, hs, ?_⟩, rfl⟩
    intro x
    cases x
    case forward => rfl
    case surface => rfl
    case spot id => exact ha (.spot id)
    case divs id => exact ha (.divs id)
    case borrow id => exact ha (.borrow id)
    case vol id => exact ha (.vol id)
    case yield id => exact ha (.yield id)

theorem new_context {md : MarketData} {c : Collector} {p : Prefetch} (h : Prefetch.new md c = .ok p) : p.context = md ∧ p.dependencies = c := by
  unfold Prefetch.new at h
  split at h
  · cases h
  · cases h
    exact ⟨rfl, rfl⟩

/-- A move of the date is a move of the market data and a context built again, or nothing. -/
theorem bump_date {p p' : Prefetch} {b : BumpSpotDate} {save save' : Option SavedPrefetch} {changed : Bool}
    (h : p.bump (.spotDate b) save = (.ok changed, p', save')) :
    save' = save ∧ ((b.spotDate = p.context.spotDate ∧ changed = false ∧ p' = p) ∨
      (b.spotDate ≠ p.context.spotDate ∧ changed = true ∧
        ∃ md, p.context.bumpSpotDate b p.dependencies = (.ok (), md) ∧ Prefetch.new md p.dependencies = .ok p')) := by
  unfold Prefetch.bump at h
  dsimp only at h
  split at h
  · rename_i hne
    generalize hr : p.context.bumpSpotDate b p.dependencies = r at h
    obtain ⟨r, md⟩ := r
    cases r with
    | error e => cases h
    | ok u =>
      dsimp only at h
      unfold Prefetch.refetchAll at h
      dsimp only at h
      cases hw : walkDependencies md p.dependencies.volSurfaces p.dependencies.forwardCurves.entries .empty .empty with
      | mk r rest =>
        obtain ⟨fs, vs⟩ := rest
        rw [hw] at h
        cases r with
        | error e => cases h
        | ok u =>
          cases h
          refine ⟨rfl, .inr ⟨hne, rfl, md, rfl, ?_⟩⟩
          unfold Prefetch.new
          rw [hw]
  · rename_i he
    cases h
    exact ⟨rfl, .inl ⟨not_not.1 he, rfl, rfl⟩⟩

theorem bump_date_of {p p' : Prefetch} {b : BumpSpotDate} {md : MarketData} (hne : b.spotDate ≠ p.context.spotDate)
    (h : p.context.bumpSpotDate b p.dependencies = (.ok (), md)) (h' : Prefetch.new md p.dependencies = .ok p') (save : Option SavedPrefetch) :
    p.bump (.spotDate b) save = (.ok true, p', save) := by
  unfold Prefetch.bump
  dsimp only
  rw [if_pos hne, h]
  dsimp only
  unfold Prefetch.refetchAll
  dsimp only
  unfold Prefetch.new at h'
  generalize walkDependencies md _ _ _ _ = r at h' ⊢
  obtain ⟨r, fs, vs⟩ := r
  cases r with
  | error e => cases h'
  | ok u =>
    cases h'
    rfl

/-- Alike contexts move alike. -/
theorem bump_date_congr {p p' q : Prefetch} {b : BumpSpotDate} {save save' : Option SavedPrefetch} {changed : Bool} (ha : Alike p q)
    (hd : Distinct p.context.spots) (hd' : Distinct q.context.spots) (h : p.bump (.spotDate b) save = (.ok changed, p', save')) :
    ∃ q', q.bump (.spotDate b) save = (.ok changed, q', save') ∧ Alike p' q' := by
  obtain ⟨rfl, ⟨h1, rfl, rfl⟩ | ⟨h1, rfl, md, h2, h3⟩⟩ := bump_date h
  · refine ⟨q, ?_, ha⟩
    unfold Prefetch.bump
    dsimp only
    rw [if_neg (by rw [← ha.spotDate]; exact not_not.2 h1)]
  · obtain ⟨n, g1, g2, g3⟩ := bumpSpotDate_congr hd hd' ha.spotDate ha.data h2
    obtain ⟨q', g4, g5, _⟩ := new_congr g2 g3 h3
    refine ⟨q', bump_date_of (by rw [← ha.spotDate]; exact h1) (ha.dependencies ▸ g1) (ha.dependencies ▸ g4) save', g5⟩

theorem bump_date_distinct {p p' : Prefetch} {b : BumpSpotDate} {save save' : Option SavedPrefetch} {changed : Bool}
    (hd : Distinct p.context.spots) (h : p.bump (.spotDate b) save = (.ok changed, p', save')) : Distinct p'.context.spots := by
  obtain ⟨_, ⟨_, _, rfl⟩ | ⟨_, _, md, h2, h3⟩⟩ := bump_date h
  · exact hd
  · rw [(new_context h3).1]
    exact (bumpSpotDate_ok hd h2).2.1

theorem copy_distinct {V : Type} {m : Map String V} (s : Map String V) (h : Distinct m) : Distinct (copyFromSaved m s) := by
  unfold copyFromSaved
  generalize s.entries = l
  induction l generalizing m with
  | nil => exact h
  | cons e l ih => exact ih (distinct_insert h _ _)

theorem data_bump_spots {md : MarketData} (hd : Distinct md.spots) (b : Bump) (save : Option SavedData) : Distinct (md.bump b save).2.1.spots := by
  cases b
  case spot id b =>
    unfold MarketData.bump applyBump
    dsimp only
    cases md.spots.get id with
    | none => exact hd
    | some v => exact distinct_insert hd _ _
  all_goals exact hd

end QM.Market
