import Verif.Market.PrefetchLemmas

/-!
# Helper lemmas for the coherence of prefetched data
-/

namespace QM.Market
open QM.Interp QM.Curves QM.Dividends QM.Vol QM.Instruments QM.Instruments.Spec Spec

/-! ## Collectors -/

/-- What holds of every collector. -/
structure WellFormed (c : Collector) : Prop where
  distinct : Distinct c.forwardCurves
  forwardKey : ∀ k i h, c.forwardCurves.get k = some (i, h) → i.id = k
  instrumentKey : ∀ k i, c.instruments.get k = some i → i.id = k
  complete : ∀ k i h, c.forwardCurves.get k = some (i, h) → k ∈ (c.forwardIds.get i.creditId).getD []

theorem wellFormed_new (sd : Int) : WellFormed (.new sd) :=
  ⟨distinct_empty, fun _ _ _ h => (by cases h), fun _ _ h => (by cases h), fun _ _ _ h => (by cases h)⟩

variable {c : Collector}

theorem wellFormed_addInstrument (h : WellFormed c) (i : Instrument) : WellFormed (c.addInstrument i) := by
  refine ⟨h.distinct, h.forwardKey, ?_, h.complete⟩
  intro k j hj
  unfold Collector.addInstrument at hj
  dsimp only at hj
  rw [Map.get_insert] at hj
  split at hj
  · cases hj
    symm
    assumption
  · exact h.instrumentKey k j hj

theorem wellFormed_noteSpot (h : WellFormed c) (i : Instrument) (r : SpotRequirement) : WellFormed (c.noteSpot i r) := by
  unfold Collector.noteSpot
  split
  · refine wellFormed_addInstrument ?_ i
    exact ⟨h.distinct, h.forwardKey, h.instrumentKey, h.complete⟩
  · exact h

theorem wellFormed_noteForward (h : WellFormed c) (i : Instrument) (d : Int) : WellFormed (c.noteForward i d) := by
  have hids : ∀ cr, ∀ k ∈ (c.forwardIds.get cr).getD [], k ∈
      ((c.forwardIds.insert i.creditId ((c.forwardIds.get i.creditId).getD [] ++ [i.id])).get cr).getD [] := by
    intro cr k hk
    rw [Map.get_insert]
    split
    · subst_vars
      exact List.mem_append_left _ hk
    · exact hk
  have hset : Distinct (Collector.setHwm i d c.forwardCurves) ∧
      ∀ k j h, (Collector.setHwm i d c.forwardCurves).get k = some (j, h) →
        (∃ h', c.forwardCurves.get k = some (j, h')) ∨ (k = i.id ∧ j = i) := by
    unfold Collector.setHwm
    cases hm : c.forwardCurves.get i.id with
    | none =>
      dsimp only
      refine ⟨distinct_insert h.distinct _ _, ?_⟩
      intro k j h' hk
      rw [Map.get_insert] at hk
      split at hk
      · cases hk
        exact .inr ⟨by assumption, rfl⟩
      · exact .inl ⟨_, hk⟩
    | some e =>
      obtain ⟨key, old⟩ := e
      dsimp only
      split
      · refine ⟨distinct_insert h.distinct _ _, ?_⟩
        intro k j h' hk
        rw [Map.get_insert] at hk
        split at hk
        · cases hk
          subst_vars
          exact .inl ⟨_, hm⟩
        · exact .inl ⟨_, hk⟩
      · exact ⟨h.distinct, fun k j h' hk => .inl ⟨_, hk⟩⟩
  refine ⟨hset.1, ?_, h.instrumentKey, ?_⟩
  · intro k j h' hk
    rcases hset.2 k j h' hk with ⟨_, hk⟩ | ⟨rfl, rfl⟩
    · exact h.forwardKey _ _ _ hk
    · rfl
  · intro k j h' hk
    rcases hset.2 k j h' hk with ⟨_, hk⟩ | ⟨rfl, rfl⟩
    · exact hids _ _ (h.complete _ _ _ hk)
    · show j.id ∈ ((c.forwardIds.insert j.creditId ((c.forwardIds.get j.creditId).getD [] ++ [j.id])).get j.creditId).getD []
      rw [Map.get_insert_self]
      simp

theorem wellFormed_yieldCurve (h : WellFormed c) (id : String) (d : Int) : WellFormed (c.yieldCurve id d) :=
  ⟨h.distinct, h.forwardKey, h.instrumentKey, h.complete⟩

theorem wellFormed_fixing (h : WellFormed c) (id : String) (d : QM.Fixings.DateTime) : WellFormed (c.fixing id d) :=
  ⟨h.distinct, h.forwardKey, h.instrumentKey, h.complete⟩

theorem wellFormed_volSurface (h : WellFormed c) (i : Instrument) (d : Int) : WellFormed (c.volSurface i d) := by
  unfold Collector.volSurface
  refine wellFormed_addInstrument ?_ i
  exact ⟨h.distinct, h.forwardKey, h.instrumentKey, h.complete⟩

mutual
theorem wellFormed_dependencies : ∀ (i : Instrument) {c : Collector}, WellFormed c → WellFormed (i.dependencies c).1
  | .currency id s, c, h => wellFormed_yieldCurve h _ _
  | .creditEntity id s, c, h => wellFormed_yieldCurve h _ _
  | .equity id cr s, c, h => wellFormed_yieldCurve h _ _
  | .zeroCoupon id cr e p s, c, h => wellFormed_yieldCurve h _ _
  | .basket id cr s parts, c, h => by
    rw [Instrument.dependencies]
    exact wellFormed_basket parts h
  | .spotStarting v u k, c, h => by
    rw [Instrument.dependencies]
    exact wellFormed_volSurface (wellFormed_noteSpot (wellFormed_dependencies u
      (wellFormed_noteForward (wellFormed_yieldCurve (wellFormed_fixing h _ _) _ _) _ _)) _ _) _ _
  | .forwardStarting v u k d t, c, h => by
    rw [Instrument.dependencies]
    exact wellFormed_volSurface (wellFormed_noteSpot (wellFormed_dependencies u
      (wellFormed_noteForward (wellFormed_yieldCurve (wellFormed_fixing (wellFormed_fixing h _ _) _ _) _ _) _ _)) _ _) _ _

theorem wellFormed_basket : ∀ (parts : List (ℝ × Instrument)) {c : Collector}, WellFormed c → WellFormed (basketDependencies parts c)
  | [], c, h => h
  | (w, i) :: rest, c, h => by
    rw [basketDependencies]
    dsimp only
    refine wellFormed_basket rest ?_
    split
    · exact wellFormed_dependencies i h
    · exact wellFormed_noteSpot (wellFormed_dependencies i (wellFormed_dependencies i h)) _ _
end

theorem wellFormed_run (h : WellFormed c) (call : Call) : WellFormed (run c call) := by
  cases call with
  | yieldCurve id d => exact wellFormed_yieldCurve h _ _
  | spot i => exact wellFormed_noteSpot (wellFormed_dependencies i h) _ _
  | forwardCurve i d => exact wellFormed_noteSpot (wellFormed_dependencies i (wellFormed_noteForward h _ _)) _ _
  | volSurface i d => exact wellFormed_volSurface h _ _
  | fixing id d => exact wellFormed_fixing h _ _

theorem wellFormed_runs (h : WellFormed c) (calls : List Call) : WellFormed (calls.foldl run c) := by
  induction calls generalizing c with
  | nil => exact h
  | cons call calls ih => exact ih (wellFormed_run h call)

/-! ## What derived data is made from -/

theorem find_congr {V : Type} {m m' : Map String V} {id : String} (h : m.get id = m'.get id) : find id m = find id m' := by
  unfold find
  rw [h]

theorem equityForward_congr {md md' : MarketData} (i : Instrument) (hwm : Int) (hs : md.spotDate = md'.spotDate)
    (h : ∀ x ∈ [Slot.spot i.id, .divs i.id, .borrow i.id, .yield i.creditId], data md x = data md' x) :
    md.equityForward i hwm = md'.equityForward i hwm := by
  unfold MarketData.equityForward
  rw [find_congr (h (.spot i.id) (by simp)), find_congr (h (.divs i.id) (by simp)), find_congr (h (.borrow i.id) (by simp)),
    find_congr (h (.yield i.creditId) (by simp)), hs]

theorem forwardCurve_congr {md md' : MarketData} (i : Instrument) (hwm : Int) (hs : md.spotDate = md'.spotDate)
    (h : ∀ x ∈ [Slot.spot i.id, .divs i.id, .borrow i.id, .yield i.creditId], data md x = data md' x) :
    md.forwardCurve i hwm = md'.forwardCurve i hwm := by
  unfold MarketData.forwardCurve
  rw [equityForward_congr i hwm hs h]

theorem volSurface_congr {md md' : MarketData} (i : Instrument) (hwm : Int) (f f' : Unit → Outcome Fwd) (hs : md.spotDate = md'.spotDate)
    (h : data md (.vol i.id) = data md' (.vol i.id)) : md.volSurface i hwm f = md'.volSurface i hwm f' := by
  unfold MarketData.volSurface
  rw [find_congr h, hs]
  rfl

/-! ## Freshness -/

/-- The prefetched data agrees with what is derived from the market data. -/
structure Coherent (p : Prefetch) : Prop where
  forward : ∀ id i hwm, p.dependencies.forwardCurves.get id = some (i, hwm) →
    ∃ f, p.forwardCurves.get id = some f ∧ p.context.forwardCurve i hwm = .ok f
  noForward : ∀ id, p.dependencies.forwardCurves.get id = none → p.forwardCurves.get id = none
  surface : ∀ id i hwm j volHwm, p.dependencies.forwardCurves.get id = some (i, hwm) → p.dependencies.volSurfaces.get id = some (j, volHwm) →
    ∀ f, ∃ v, p.volSurfaces.get id = some v ∧ p.context.volSurface i volHwm f = .ok v
  noSurface : ∀ id, p.dependencies.forwardCurves.get id = none ∨ p.dependencies.volSurfaces.get id = none → p.volSurfaces.get id = none

theorem walk_ok {md : MarketData} {vols : Map String (Instrument × Int)} (l : List (String × Instrument × Int)) :
    ∀ {fs fs' : Map String Fwd} {vs vs' : Map String VolSurface}, (l.map Prod.fst).Nodup → (∀ e ∈ l, e.2.1.id = e.1) →
    walkDependencies md vols l fs vs = (.ok (), fs', vs') →
    (∀ e ∈ l, ∃ f, fs'.get e.1 = some f ∧ md.forwardCurve e.2.1 e.2.2 = .ok f) ∧
    (∀ e ∈ l, ∀ j h, vols.get e.1 = some (j, h) → ∀ f, ∃ v, vs'.get e.1 = some v ∧ md.volSurface e.2.1 h f = .ok v) ∧
    (∀ e ∈ l, vols.get e.1 = none → vs'.get e.1 = vs.get e.1) ∧
    (∀ id, id ∉ l.map Prod.fst → fs'.get id = fs.get id ∧ vs'.get id = vs.get id) := by
  induction l with
  | nil =>
    intro fs fs' vs vs' _ _ h
    cases h
    exact ⟨by simp, by simp, by simp, fun _ _ => ⟨rfl, rfl⟩⟩
  | cons e l ih =>
    obtain ⟨k, i, hwm⟩ := e
    intro fs fs' vs vs' hn hk h
    have hid : i.id = k := hk _ List.mem_cons_self
    rw [List.map_cons, List.nodup_cons] at hn
    unfold walkDependencies at h
    cases hf : md.forwardCurve i hwm with
    | error e => rw [hf] at h; cases h
    | ok f =>
      rw [hf, hid] at h
      dsimp only at h
      cases hv : vols.get k with
      | none =>
        rw [hv] at h
        dsimp only at h
        obtain ⟨h1, h2, h3, h4⟩ := ih hn.2 (fun e he => hk e (List.mem_cons_of_mem _ he)) h
        obtain ⟨h5, h6⟩ := h4 k hn.1
        rw [Map.get_insert_self] at h5
        refine ⟨?_, ?_, ?_, ?_⟩
        · intro e he
          rcases List.mem_cons.1 he with rfl | he
          · exact ⟨f, h5, hf⟩
          · exact h1 e he
        · intro e he
          rcases List.mem_cons.1 he with rfl | he
          · intro j h' hv'
            rw [hv] at hv'
            cases hv'
          · exact h2 e he
        · intro e he
          rcases List.mem_cons.1 he with rfl | he
          · exact fun _ => h6
          · exact h3 e he
        · intro id hid'
          rw [List.map_cons, List.mem_cons, not_or] at hid'
          obtain ⟨h7, h8⟩ := h4 id hid'.2
          rw [Map.get_insert_ne _ _ hid'.1] at h7
          exact ⟨h7, h8⟩
      | some e =>
        obtain ⟨j, volHwm⟩ := e
        rw [hv] at h
        dsimp only at h
        cases hw : md.volSurface i volHwm (fun _ => .ok f) with
        | error e => rw [hw] at h; cases h
        | ok vol =>
          rw [hw] at h
          dsimp only at h
          obtain ⟨h1, h2, h3, h4⟩ := ih hn.2 (fun e he => hk e (List.mem_cons_of_mem _ he)) h
          obtain ⟨h5, h6⟩ := h4 k hn.1
          rw [Map.get_insert_self] at h5 h6
          refine ⟨?_, ?_, ?_, ?_⟩
          · intro e he
            rcases List.mem_cons.1 he with rfl | he
            · exact ⟨f, h5, hf⟩
            · exact h1 e he
          · intro e he
            rcases List.mem_cons.1 he with rfl | he
            · intro j h' hv' f'
              rw [hv] at hv'
              cases hv'
              exact ⟨vol, h6, (volSurface_congr i volHwm _ _ rfl rfl).trans hw⟩
            · exact h2 e he
          · intro e he hv'
            rcases List.mem_cons.1 he with rfl | hmem
            · rw [hv] at hv'
              cases hv'
            · rw [h3 e hmem hv', Map.get_insert_ne]
              intro heq
              exact hn.1 (List.mem_map.2 ⟨e, hmem, heq⟩)
          · intro id hid'
            rw [List.map_cons, List.mem_cons, not_or] at hid'
            obtain ⟨h7, h8⟩ := h4 id hid'.2
            rw [Map.get_insert_ne _ _ hid'.1] at h7 h8
            exact ⟨h7, h8⟩

theorem walk_succeeds {md : MarketData} {vols : Map String (Instrument × Int)} (l : List (String × Instrument × Int)) :
    ∀ (fs : Map String Fwd) (vs : Map String VolSurface),
    (∀ e ∈ l, ∃ f, md.forwardCurve e.2.1 e.2.2 = .ok f) →
    (∀ e ∈ l, ∀ j h, vols.get e.2.1.id = some (j, h) → ∀ f, ∃ v, md.volSurface e.2.1 h f = .ok v) →
    ∃ fs' vs', walkDependencies md vols l fs vs = (.ok (), fs', vs') := by
  induction l with
  | nil => exact fun fs vs _ _ => ⟨fs, vs, rfl⟩
  | cons e l ih =>
    obtain ⟨k, i, hwm⟩ := e
    intro fs vs h1 h2
    unfold walkDependencies
    obtain ⟨f, hf⟩ := h1 _ List.mem_cons_self
    dsimp only at hf
    rw [hf]
    dsimp only
    cases hv : vols.get i.id with
    | none =>
      exact ih _ _ (fun e he => h1 e (List.mem_cons_of_mem _ he)) (fun e he => h2 e (List.mem_cons_of_mem _ he))
    | some e =>
      obtain ⟨j, volHwm⟩ := e
      dsimp only
      obtain ⟨v, hw⟩ := h2 _ List.mem_cons_self j volHwm hv (fun _ => .ok f)
      dsimp only at hw
      rw [hw]
      exact ih _ _ (fun e he => h1 e (List.mem_cons_of_mem _ he)) (fun e he => h2 e (List.mem_cons_of_mem _ he))

theorem mem_keys {V : Type} {m : Map String V} (hd : Distinct m) (k : String) : k ∈ m.entries.map Prod.fst ↔ m.get k ≠ none := by
  constructor
  · intro h
    obtain ⟨⟨k', v⟩, h1, h2⟩ := List.mem_map.1 h
    cases h2
    rw [(get_mem hd _ v).2 h1]
    simp
  · intro h
    obtain ⟨v, hv⟩ := Option.ne_none_iff_exists'.1 h
    exact List.mem_map.2 ⟨(k, v), (get_mem hd k v).1 hv, rfl⟩

/-- A new context is coherent. -/
theorem coherent_new {md : MarketData} (hw : WellFormed c) {p : Prefetch} (h : Prefetch.new md c = .ok p) :
    Coherent p ∧ p.context = md ∧ p.dependencies = c := by
  unfold Prefetch.new at h
  split at h
  · cases h
  · rename_i fs vs heq
    cases h
    have hkey : ∀ e ∈ c.forwardCurves.entries, e.2.1.id = e.1 := by
      rintro ⟨k, i, h⟩ he
      exact hw.forwardKey k i h ((get_mem hw.distinct _ _).2 he)
    obtain ⟨h1, h2, h3, h4⟩ := walk_ok _ hw.distinct hkey heq
    refine ⟨⟨?_, ?_, ?_, ?_⟩, rfl, rfl⟩
    · intro id i hwm hg
      exact h1 _ ((get_mem hw.distinct _ _).1 hg)
    · intro id hg
      rw [(h4 id (fun hm => (mem_keys hw.distinct id).1 hm hg)).1]
      rfl
    · intro id i hwm j volHwm hg hv f
      exact h2 _ ((get_mem hw.distinct _ _).1 hg) j volHwm hv f
    · intro id hor
      by_cases hg : c.forwardCurves.get id = none
      · rw [(h4 id (fun hm => (mem_keys hw.distinct id).1 hm hg)).2]
        rfl
      · have hv : c.volSurfaces.get id = none := hor.resolve_left hg
        obtain ⟨v, hv'⟩ := Option.ne_none_iff_exists'.1 hg
        rw [h3 _ ((get_mem hw.distinct _ _).1 hv') hv]
        rfl

/-- Coherent data is what a fresh context would have. -/
theorem Coherent.fresh {p : Prefetch} (h : Coherent p) (hw : WellFormed p.dependencies) : Fresh p := by
  have hs : ∃ q, Prefetch.new p.context p.dependencies = .ok q := by
    obtain ⟨fs, vs, heq⟩ := walk_succeeds (md := p.context) (vols := p.dependencies.volSurfaces) p.dependencies.forwardCurves.entries
      .empty .empty (by
        rintro ⟨k, i, hwm⟩ he
        obtain ⟨f, _, hf⟩ := h.forward k i hwm ((get_mem hw.distinct _ _).2 he)
        exact ⟨f, hf⟩) (by
        rintro ⟨k, i, hwm⟩ he j volHwm hv f
        have hg := (get_mem hw.distinct _ _).2 he
        have hk := hw.forwardKey k i hwm hg
        dsimp only at hv
        rw [hk] at hv
        obtain ⟨v, _, hv'⟩ := h.surface k i hwm j volHwm hg hv f
        exact ⟨v, hv'⟩)
    unfold Prefetch.new
    rw [heq]
    exact ⟨_, rfl⟩
  obtain ⟨q, hq⟩ := hs
  obtain ⟨hc, e1, e2⟩ := coherent_new hw hq
  refine ⟨q, hq, ?_⟩
  intro x
  cases x with
  | forward id =>
    show p.forwardCurves.get id = q.forwardCurves.get id
    cases hg : p.dependencies.forwardCurves.get id with
    | none => rw [h.noForward id hg, hc.noForward id (e2 ▸ hg)]
    | some e =>
      obtain ⟨i, hwm⟩ := e
      obtain ⟨f, h1, h2⟩ := h.forward id i hwm hg
      obtain ⟨f', h3, h4⟩ := hc.forward id i hwm (e2 ▸ hg)
      rw [e1, h2] at h4
      cases h4
      rw [h1, h3]
  | surface id =>
    show p.volSurfaces.get id = q.volSurfaces.get id
    by_cases hor : p.dependencies.forwardCurves.get id = none ∨ p.dependencies.volSurfaces.get id = none
    · rw [h.noSurface id hor, hc.noSurface id (e2 ▸ hor)]
    · rw [not_or] at hor
      obtain ⟨⟨i, hwm⟩, hg⟩ := Option.ne_none_iff_exists'.1 hor.1
      obtain ⟨⟨j, volHwm⟩, hv⟩ := Option.ne_none_iff_exists'.1 hor.2
      obtain ⟨v, h1, h2⟩ := h.surface id i hwm j volHwm hg hv (fun _ => .error .err)
      obtain ⟨v', h3, h4⟩ := hc.surface id i hwm j volHwm (e2 ▸ hg) (e2 ▸ hv) (fun _ => .error .err)
      rw [e1, h2] at h4
      cases h4
      rw [h1, h3]
  | spot id => show p.context.spots.get id = q.context.spots.get id; rw [e1]
  | divs id => show p.context.dividends.get id = q.context.dividends.get id; rw [e1]
  | borrow id => show p.context.borrowCurves.get id = q.context.borrowCurves.get id; rw [e1]
  | vol id => show p.context.volSurfaces.get id = q.context.volSurfaces.get id; rw [e1]
  | yield id => show p.context.yieldCurves.get id = q.context.yieldCurves.get id; rw [e1]

theorem data_of_answers {p q : Prefetch} (h : ∀ x, answers p x = answers q x) (x : Slot) : data p.context x = data q.context x := by
  have := h x
  cases x <;> first | exact this | rfl

/-- Coherence is a matter of answers. -/
theorem Coherent.congr {p q : Prefetch} (h : Coherent p) (hd : q.dependencies = p.dependencies)
    (hs : q.context.spotDate = p.context.spotDate) (ha : ∀ x, answers q x = answers p x) : Coherent q := by
  have hdata := data_of_answers ha
  refine ⟨?_, ?_, ?_, ?_⟩
  · intro id i hwm hg
    rw [hd] at hg
    obtain ⟨f, h1, h2⟩ := h.forward id i hwm hg
    exact ⟨f, (ha (.forward id)).trans h1, (forwardCurve_congr i hwm hs (fun x _ => hdata x)).trans h2⟩
  · intro id hg
    rw [hd] at hg
    exact (ha (.forward id)).trans (h.noForward id hg)
  · intro id i hwm j volHwm hg hv f
    rw [hd] at hg hv
    obtain ⟨v, h1, h2⟩ := h.surface id i hwm j volHwm hg hv f
    exact ⟨v, (ha (.surface id)).trans h1, (volSurface_congr i volHwm f f hs (hdata _)).trans h2⟩
  · intro id hor
    rw [hd] at hor
    exact (ha (.surface id)).trans (h.noSurface id hor)

/-! ## Bumps that succeed -/

/-- The slots that a forward is made from. -/
def sources (i : Instrument) : List Slot := [.spot i.id, .divs i.id, .borrow i.id, .yield i.creditId]

/-- Coherence after a step: everything is either made again or made from what is unchanged. -/
theorem Coherent.step {p p' : Prefetch} (h : Coherent p) (hd : p'.dependencies = p.dependencies)
    (hs : p'.context.spotDate = p.context.spotDate) (hp : ∀ x, (answers p' x).isSome = (answers p x).isSome)
    (hf : ∀ id i hwm, p.dependencies.forwardCurves.get id = some (i, hwm) →
      (∃ f, p'.forwardCurves.get id = some f ∧ p'.context.forwardCurve i hwm = .ok f) ∨
      (p'.forwardCurves.get id = p.forwardCurves.get id ∧ ∀ x ∈ sources i, data p'.context x = data p.context x))
    (hv : ∀ id i hwm j volHwm, p.dependencies.forwardCurves.get id = some (i, hwm) → p.dependencies.volSurfaces.get id = some (j, volHwm) →
      (∀ f, ∃ v, p'.volSurfaces.get id = some v ∧ p'.context.volSurface i volHwm f = .ok v) ∨
      (p'.volSurfaces.get id = p.volSurfaces.get id ∧ data p'.context (.vol i.id) = data p.context (.vol i.id))) : Coherent p' := by
  refine ⟨?_, ?_, ?_, ?_⟩
  · intro id i hwm hg
    rw [hd] at hg
    rcases hf id i hwm hg with h1 | ⟨h1, h2⟩
    · exact h1
    · obtain ⟨f, h3, h4⟩ := h.forward id i hwm hg
      exact ⟨f, h1.trans h3, (forwardCurve_congr i hwm hs h2).trans h4⟩
  · intro id hg
    rw [hd] at hg
    exact none_of_isSome_eq (hp (.forward id)) (h.noForward id hg)
  · intro id i hwm j volHwm hg hvg f
    rw [hd] at hg hvg
    rcases hv id i hwm j volHwm hg hvg with h1 | ⟨h1, h2⟩
    · exact h1 f
    · obtain ⟨v, h3, h4⟩ := h.surface id i hwm j volHwm hg hvg f
      exact ⟨v, h1.trans h3, (volSurface_congr i volHwm f f hs h2).trans h4⟩
  · intro id hor
    rw [hd] at hor
    exact none_of_isSome_eq (hp (.surface id)) (h.noSurface id hor)

/-- The loop of a bump of a yield curve, when it succeeds. -/
theorem refetchAllOf_ok {saved : Bool} (ids : List String) : ∀ {p p' : Prefetch} {s : SavedPrefetch} {save' : Option SavedPrefetch},
    WellFormed p.dependencies → Unambiguous p.dependencies →
    p.refetchAllOf true ids (area saved s) = (.ok (), p', save') →
    p'.context = p.context ∧ p'.dependencies = p.dependencies ∧ p'.volSurfaces = p.volSurfaces ∧
    (∀ x, (answers p' x).isSome = (answers p x).isSome) ∧
    (∀ id, id ∉ ids → p'.forwardCurves.get id = p.forwardCurves.get id) ∧
    (∀ id ∈ ids, ∀ i hwm, p.dependencies.forwardCurves.get id = some (i, hwm) →
      ∃ f, p'.forwardCurves.get id = some f ∧ p.context.forwardCurve i hwm = .ok f) := by
  induction ids with
  | nil =>
    intro p p' s save' _ _ h
    cases h
    exact ⟨rfl, rfl, rfl, fun _ => rfl, fun _ _ => rfl, fun _ h => absurd h (by simp)⟩
  | cons id ids ih =>
    intro p p' s save' hw hu h
    unfold Prefetch.refetchAllOf at h
    rcases refetch_forward p id saved s with ⟨s', xs, h1, _⟩ | ⟨e, s', h1, _⟩ | ⟨f, i, j, hwm, s', h1, h2, h3, h4, h5, h6⟩
    · rw [h1] at h; cases h
    · rw [h1] at h; cases h
    · rw [h1] at h
      dsimp only at h
      obtain ⟨g1, g2, g3, g4, g5, g6⟩ := ih (p := { p with forwardCurves := p.forwardCurves.insert id f }) hw hu h
      dsimp only at g1 g2 g3 g5 g6
      have hid := hw.instrumentKey id i h4
      rw [hid] at h5
      have hij := hu id j hwm i h5 h4
      refine ⟨g1, g2, g3, fun x => (g4 x).trans (h2.trace.present x), ?_, ?_⟩
      · intro id' hn
        rw [List.mem_cons, not_or] at hn
        rw [g5 id' hn.2, Map.get_insert_ne _ _ hn.1]
      · intro id' hm i' hwm' hg
        by_cases hmem : id' ∈ ids
        · exact g6 id' hmem i' hwm' hg
        · rcases List.mem_cons.1 hm with e | hm
          · subst e
            rw [g5 id' hmem, Map.get_insert_self]
            rw [h5] at hg
            cases hg
            exact ⟨f, rfl, hij ▸ h6⟩
          · exact absurd hm hmem

/-- A bump that succeeds keeps prefetched data coherent. -/
theorem Coherent.bump {p p' : Prefetch} {b : Bump} {save save' : Option SavedPrefetch} {changed : Bool} (h : Coherent p)
    (hw : WellFormed p.dependencies) (hu : Unambiguous p.dependencies) (hb : p.bump b save = (.ok changed, p', save')) :
    Coherent p' ∧ p'.dependencies = p.dependencies := by
  cases ht : target b with
  | none =>
    cases b <;> cases ht
    rename_i b
    unfold Prefetch.bump at hb
    dsimp only at hb
    split at hb
    · generalize p.context.bumpSpotDate b p.dependencies = r at hb
      obtain ⟨r, md⟩ := r
      cases r with
      | error e => cases hb
      | ok u =>
        dsimp only at hb
        unfold Prefetch.refetchAll at hb
        dsimp only at hb
        cases hr : walkDependencies md p.dependencies.volSurfaces p.dependencies.forwardCurves.entries .empty .empty with
        | mk r rest =>
          obtain ⟨fs, vs⟩ := rest
          rw [hr] at hb
          cases r with
          | error e => cases hb
          | ok u =>
            cases hb
            have hn : Prefetch.new md p.dependencies = .ok ⟨md, p.dependencies, fs, vs⟩ := by
              unfold Prefetch.new
              rw [hr]
            obtain ⟨h1, _, h2⟩ := coherent_new hw hn
            exact ⟨h1, h2⟩
    · cases hb
      exact ⟨h, rfl⟩
  | some x =>
    obtain ⟨saved, s, rfl⟩ : ∃ saved s, save = area saved s := by
      cases save with
      | none => exact ⟨false, .new, rfl⟩
      | some s => exact ⟨true, s, rfl⟩
    cases hx : answers p x with
    | none =>
      rw [bump_absent ht hx] at hb
      cases hb
      exact ⟨h, rfl⟩
    | some v =>
      obtain ⟨s', h1, h2⟩ := bump_present ht hx saved s
      rw [h2] at hb
      have hdata : ∀ y, y ≠ x → data (p.context.put x (bumped b x v)) y = data p.context y := by
        intro y hy
        rw [data_put _ (target_data ht), Function.update_of_ne hy]
      have hsd : (p.context.put x (bumped b x v)).spotDate = p.context.spotDate := put_spotDate _ _ _
      -- bumps after which one forward is made again
      have forwards : ∀ id, (∀ i : Instrument, i.id ≠ id → x ∉ sources i) → (∀ i : Instrument, x ≠ .vol i.id) →
          Prefetch.refetch { p with context := p.context.put x (bumped b x v) } id true false (area saved s') = (.ok changed, p', save') →
          Coherent p' ∧ p'.dependencies = p.dependencies := by
        intro id hsrc hvol hr
        rcases refetch_forward { p with context := p.context.put x (bumped b x v) } id saved s' with
          ⟨s'', xs, g1, _⟩ | ⟨e, s'', g1, _⟩ | ⟨f, i, j, hwm, s'', g1, g2, g3, g4, g5, g6⟩
        · rw [g1] at hr; cases hr
        · rw [g1] at hr; cases hr
        · rw [g1] at hr
          cases hr
          have hid := hw.instrumentKey id i g4
          rw [hid] at g5
          have hij := hu id j hwm i g5 g4
          refine ⟨h.step rfl hsd (fun y => (g2.trace.present y).trans (h1.trace.present y)) ?_ ?_, rfl⟩
          · intro id' i' hwm' hg
            by_cases e : id' = id
            · subst e
              change p.dependencies.forwardCurves.get id' = _ at g5
              rw [g5] at hg
              cases hg
              exact .inl ⟨f, Map.get_insert_self _ _ _, hij ▸ g6⟩
            · refine .inr ⟨Map.get_insert_ne _ _ e, ?_⟩
              intro y hy
              refine hdata y ?_
              rintro rfl
              exact hsrc i' (fun e' => e ((hw.forwardKey id' i' hwm' hg).symm.trans e')) hy
          · intro id' i' hwm' j' volHwm' hg hv
            exact .inr ⟨rfl, hdata _ (fun e => hvol i' e.symm)⟩
      cases b <;> cases ht <;> dsimp only at hb
      case some.spot.refl id b =>
        refine forwards id ?_ (by simp) hb
        intro i hi hm
        simp [sources] at hm
        exact hi hm.symm
      case some.divs.refl id b =>
        refine forwards id ?_ (by simp) hb
        intro i hi hm
        simp [sources] at hm
        exact hi hm.symm
      case some.borrow.refl id b =>
        refine forwards id ?_ (by simp) hb
        intro i hi hm
        simp [sources] at hm
        exact hi hm.symm
      case some.vol.refl id b =>
        rcases refetch_surface { p with context := p.context.put (.vol id) (bumped (.vol id b) (.vol id) v) } id saved s' with
          ⟨e, s'', xs, g1, _⟩ | ⟨g1, g2, g3⟩ | ⟨v', fwd, i, j, hwm, s'', g1, g2, g3, g4, g5, g6, g7⟩
        · rw [g1] at hb; cases hb
        · rw [g1] at hb
          cases hb
          refine ⟨h.step rfl hsd h1.trace.present ?_ ?_, rfl⟩
          · intro id' i' hwm' hg
            refine .inr ⟨rfl, fun y hy => hdata y ?_⟩
            rintro rfl
            simp [sources] at hy
          · intro id' i' hwm' j' volHwm' hg hv
            refine .inr ⟨rfl, hdata _ ?_⟩
            intro e
            have e' : i'.id = id := Slot.vol.inj e
            rw [hw.forwardKey _ _ _ hg] at e'
            subst e'
            obtain ⟨w, hw', _⟩ := h.surface id' i' hwm' j' volHwm' hg hv (fun _ => .error .err)
            change p.volSurfaces.get id' = none at g2
            rw [g2] at hw'
            cases hw'
        · rw [g1] at hb
          cases hb
          have hid := hw.instrumentKey id i g5
          refine ⟨h.step rfl hsd (fun y => (g2.trace.present y).trans (h1.trace.present y)) ?_ ?_, rfl⟩
          · intro id' i' hwm' hg
            refine .inr ⟨rfl, fun y hy => hdata y ?_⟩
            rintro rfl
            simp [sources] at hy
          · intro id' i' hwm' j' volHwm' hg hv
            by_cases e : id' = id
            · subst e
              left
              intro f
              refine ⟨v', Map.get_insert_self _ _ _, ?_⟩
              rw [hid] at g6
              change p.dependencies.volSurfaces.get id' = _ at g6
              rw [g6] at hv
              cases hv
              rw [← hu id' i' hwm' i hg g5]
              exact (volSurface_congr i hwm f _ rfl rfl).trans g7
            · refine .inr ⟨Map.get_insert_ne _ _ e, hdata _ ?_⟩
              intro e'
              have e'' : i'.id = id := Slot.vol.inj e'
              rw [hw.forwardKey _ _ _ hg] at e''
              exact e e''
      case some.yield.refl id b =>
        generalize hr : Prefetch.refetchAllOf _ true _ _ = r at hb
        obtain ⟨r, q, sq⟩ := r
        cases r with
        | error e => cases hb
        | ok u =>
          cases hb
          obtain ⟨g1, g2, g3, g4, g5, g6⟩ := refetchAllOf_ok (p := { p with context := p.context.put (.yield id) (bumped (.yield id b) (.yield id) v) })
            _ hw hu hr
          dsimp only at g1 g2 g3 g5 g6
          refine ⟨h.step g2 (by rw [g1]; exact hsd) (fun y => (g4 y).trans (h1.trace.present y)) ?_ ?_, g2⟩
          · intro id' i' hwm' hg
            by_cases hm : id' ∈ (p.dependencies.forwardIds.get id).getD []
            · obtain ⟨f, e1, e2⟩ := g6 id' hm i' hwm' hg
              exact .inl ⟨f, e1, by rw [g1]; exact e2⟩
            · refine .inr ⟨g5 id' hm, fun y hy => ?_⟩
              rw [g1]
              refine hdata y ?_
              rintro rfl
              simp [sources] at hy
              exact hm (hy ▸ hw.complete id' i' hwm' hg)
          · intro id' i' hwm' j' volHwm' hg hv
            exact .inr ⟨by rw [g3], by rw [g1]; exact hdata _ (by simp)⟩

end QM.Market
