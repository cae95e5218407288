import Verif.Market.Lemmas

/-!
# Helper lemmas for the prefetching context: bumps as traces
-/

namespace QM.Market
open QM.Interp QM.Curves QM.Dividends QM.Vol QM.Instruments Spec

theorem answers_context (p : Prefetch) {x : Slot} (hx : isData x) (v : x.Val) :
    answers { p with context := p.context.put x v } = Function.update (answers p) x (some v) := by
  have h := data_put p.context hx v
  funext y
  have hy := congrFun h y
  by_cases e : y = x
  · subst e
    rw [Function.update_self] at hy ⊢
    rw [← hy]
    cases y <;> first | rfl | exact absurd hx id
  · rw [Function.update_of_ne e] at hy ⊢
    cases y <;> first | exact hy | rfl

theorem savedAnswers_context (s : SavedPrefetch) {x : Slot} (hx : isData x) (v : x.Val) :
    savedAnswers { s with savedData := s.savedData.put x v } = Function.update (savedAnswers s) x (some v) := by
  have h := savedData_put s.savedData hx v
  funext y
  have hy := congrFun h y
  by_cases e : y = x
  · subst e
    rw [Function.update_self] at hy ⊢
    rw [← hy]
    cases y <;> first | rfl | exact absurd hx id
  · rw [Function.update_of_ne e] at hy ⊢
    cases y <;> first | exact hy | rfl

theorem answers_forward (p : Prefetch) (id : String) (v : Fwd) :
    answers { p with forwardCurves := p.forwardCurves.insert id v } = Function.update (answers p) (.forward id) (some v) := by
  funext y
  by_cases e : y = .forward id
  · subst e
    rw [Function.update_self]
    exact Map.get_insert_self _ _ _
  · rw [Function.update_of_ne e]
    cases y <;> first | rfl | exact Map.get_insert_ne _ _ (fun h => e (by rw [h]))

theorem answers_surface (p : Prefetch) (id : String) (v : VolSurface) :
    answers { p with volSurfaces := p.volSurfaces.insert id v } = Function.update (answers p) (.surface id) (some v) := by
  funext y
  by_cases e : y = .surface id
  · subst e
    rw [Function.update_self]
    exact Map.get_insert_self _ _ _
  · rw [Function.update_of_ne e]
    cases y <;> first | rfl | exact Map.get_insert_ne _ _ (fun h => e (by rw [h]))

theorem savedAnswers_forward (s : SavedPrefetch) (id : String) (v : Fwd) :
    savedAnswers { s with forwardCurves := s.forwardCurves.insert id v } = Function.update (savedAnswers s) (.forward id) (some v) := by
  funext y
  by_cases e : y = .forward id
  · subst e
    rw [Function.update_self]
    exact Map.get_insert_self _ _ _
  · rw [Function.update_of_ne e]
    cases y <;> first | rfl | exact Map.get_insert_ne _ _ (fun h => e (by rw [h]))

theorem savedAnswers_surface (s : SavedPrefetch) (id : String) (v : VolSurface) :
    savedAnswers { s with volSurfaces := s.volSurfaces.insert id v } = Function.update (savedAnswers s) (.surface id) (some v) := by
  funext y
  by_cases e : y = .surface id
  · subst e
    rw [Function.update_self]
    exact Map.get_insert_self _ _ _
  · rw [Function.update_of_ne e]
    cases y <;> first | rfl | exact Map.get_insert_ne _ _ (fun h => e (by rw [h]))

/-- All maps of a save area have distinct keys. -/
structure DistinctSave (s : SavedPrefetch) : Prop where
  savedData : DistinctData s.savedData
  forwardCurves : Distinct s.forwardCurves
  volSurfaces : Distinct s.volSurfaces

theorem distinctSave_new : DistinctSave .new := ⟨distinct_new, distinct_empty, distinct_empty⟩

theorem answers_restore (p : Prefetch) {s : SavedPrefetch} (h : DistinctSave s) (x : Slot) :
    answers (p.restore s) x = (savedAnswers s x).or (answers p x) := by
  cases x
  case forward id => exact copy_get _ h.forwardCurves id
  case surface id => exact copy_get _ h.volSurfaces id
  case spot id => exact copy_get _ h.savedData.spots id
  case divs id => exact copy_get _ h.savedData.dividends id
  case borrow id => exact copy_get _ h.savedData.borrowCurves id
  case vol id => exact copy_get _ h.savedData.volSurfaces id
  case yield id => exact copy_get _ h.savedData.yieldCurves id

/-- The save area that is passed. -/
def area (saved : Bool) (s : SavedPrefetch) : Option SavedPrefetch := if saved then some s else none

/-- What one step does: writes, to the context and to the save area. -/
structure Steps (saved : Bool) (p : Prefetch) (s : SavedPrefetch) (xs : List Slot) (p' : Prefetch) (s' : SavedPrefetch) : Prop where
  trace : Trace saved (answers p) (savedAnswers s) xs (answers p') (savedAnswers s')
  distinct : DistinctSave s → DistinctSave s'
  dependencies : p'.dependencies = p.dependencies
  spotDate : p'.context.spotDate = p.context.spotDate

theorem Steps.refl (saved : Bool) (p : Prefetch) (s : SavedPrefetch) : Steps saved p s [] p s :=
  ⟨.nil _ _, id, rfl, rfl⟩

theorem Steps.trans {saved : Bool} {p p' p'' : Prefetch} {s s' s'' : SavedPrefetch} {xs ys : List Slot}
    (h : Steps saved p s xs p' s') (h' : Steps saved p' s' ys p'' s'') : Steps saved p s (xs ++ ys) p'' s'' :=
  ⟨h.trace.append h'.trace, fun hd => h'.distinct (h.distinct hd), h'.dependencies.trans h.dependencies, h'.spotDate.trans h.spotDate⟩

variable {saved : Bool} {p p' : Prefetch} {s : SavedPrefetch} {save' : Option SavedPrefetch}

/-- The step that writes a forward, which also stands for saving it without a change. -/
theorem steps_forward (p : Prefetch) (s : SavedPrefetch) {id : String} {fwd : Fwd} (h : p.forwardCurves.get id = some fwd) (v : Fwd) :
    ∃ s', (area saved s).map (fun s => { s with forwardCurves := s.forwardCurves.insert id fwd }) = area saved s' ∧
      Steps saved p s [.forward id] { p with forwardCurves := p.forwardCurves.insert id v } s' ∧
      Steps saved p s [.forward id] p s' := by
  have h' : answers p (.forward id) = some fwd := h
  cases saved with
  | false =>
    refine ⟨s, rfl, ⟨?_, fun h => h, rfl, rfl⟩, ⟨?_, fun h => h, rfl, rfl⟩⟩
    · rw [answers_forward]
      exact Trace.write (saved := false) (g := savedAnswers s) h' v
    · exact Trace.touch (saved := false) (g := savedAnswers s) h'
  | true =>
    refine ⟨{ s with forwardCurves := s.forwardCurves.insert id fwd }, rfl, ⟨?_, ?_, rfl, rfl⟩, ⟨?_, ?_, rfl, rfl⟩⟩
    · rw [answers_forward, savedAnswers_forward]
      exact Trace.write (saved := true) (g := savedAnswers s) h' v
    · exact fun hd => ⟨hd.savedData, distinct_insert hd.forwardCurves _ _, hd.volSurfaces⟩
    · rw [savedAnswers_forward]
      exact Trace.touch (saved := true) (g := savedAnswers s) h'
    · exact fun hd => ⟨hd.savedData, distinct_insert hd.forwardCurves _ _, hd.volSurfaces⟩

theorem steps_surface (p : Prefetch) (s : SavedPrefetch) {id : String} {vol : VolSurface} (h : p.volSurfaces.get id = some vol)
    (v : VolSurface) :
    ∃ s', (area saved s).map (fun s => { s with volSurfaces := s.volSurfaces.insert id vol }) = area saved s' ∧
      Steps saved p s [.surface id] { p with volSurfaces := p.volSurfaces.insert id v } s' ∧
      Steps saved p s [.surface id] p s' := by
  have h' : answers p (.surface id) = some vol := h
  cases saved with
  | false =>
    refine ⟨s, rfl, ⟨?_, fun h => h, rfl, rfl⟩, ⟨?_, fun h => h, rfl, rfl⟩⟩
    · rw [answers_surface]
      exact Trace.write (saved := false) (g := savedAnswers s) h' v
    · exact Trace.touch (saved := false) (g := savedAnswers s) h'
  | true =>
    refine ⟨{ s with volSurfaces := s.volSurfaces.insert id vol }, rfl, ⟨?_, ?_, rfl, rfl⟩, ⟨?_, ?_, rfl, rfl⟩⟩
    · rw [answers_surface, savedAnswers_surface]
      exact Trace.write (saved := true) (g := savedAnswers s) h' v
    · exact fun hd => ⟨hd.savedData, hd.forwardCurves, distinct_insert hd.volSurfaces _ _⟩
    · rw [savedAnswers_surface]
      exact Trace.touch (saved := true) (g := savedAnswers s) h'
    · exact fun hd => ⟨hd.savedData, hd.forwardCurves, distinct_insert hd.volSurfaces _ _⟩

/-! ## Refetching -/

theorem refetch_none (p : Prefetch) (id : String) (save : Option SavedPrefetch) : p.refetch id false false save = (.ok false, p, save) := rfl

/-- Refetching a forward. -/
theorem refetch_forward (p : Prefetch) (id : String) (saved : Bool) (s : SavedPrefetch) :
    (∃ s' xs, p.refetch id true false (area saved s) = (.error .err, p, area saved s') ∧ Steps saved p s xs p s' ∧
      (xs = [] ∨ xs = [.forward id])) ∨
    (∃ e s', p.refetch id true false (area saved s) = (.error e, p, area saved s') ∧ Steps saved p s [.forward id] p s') ∨
    (∃ f i j hwm s', p.refetch id true false (area saved s) = (.ok true, { p with forwardCurves := p.forwardCurves.insert id f }, area saved s') ∧
      Steps saved p s [.forward id] { p with forwardCurves := p.forwardCurves.insert id f } s' ∧
      (p.forwardCurves.get id).isSome ∧ p.dependencies.instruments.get id = some i ∧
      p.dependencies.forwardCurves.get i.id = some (j, hwm) ∧ p.context.forwardCurve i hwm = .ok f) := by
  unfold Prefetch.refetch
  rw [if_neg (by simp)]
  cases hf : p.forwardCurves.get id with
  | none => exact .inl ⟨s, [], rfl, .refl _ _ _, .inl rfl⟩
  | some fwd =>
    dsimp only
    cases hi : p.dependencies.instruments.get id with
    | none => exact .inl ⟨s, [], rfl, .refl _ _ _, .inl rfl⟩
    | some i =>
      dsimp only
      rw [if_pos rfl]
      unfold Prefetch.refetchForward
      dsimp only
      cases hd : p.dependencies.forwardCurves.get i.id with
      | none =>
        dsimp only
        obtain ⟨s', h1, h2, h3⟩ := steps_forward (saved := saved) p s hf fwd
        rw [h1]
        exact .inl ⟨s', _, rfl, h3, .inr rfl⟩
      | some e =>
        obtain ⟨j, hwm⟩ := e
        dsimp only
        cases hc : p.context.forwardCurve i hwm with
        | error e =>
          dsimp only
          obtain ⟨s', h1, h2, h3⟩ := steps_forward (saved := saved) p s hf fwd
          rw [h1]
          exact .inr (.inl ⟨e, s', rfl, h3⟩)
        | ok f =>
          dsimp only
          obtain ⟨s', h1, h2, h3⟩ := steps_forward (saved := saved) p s hf f
          rw [h1]
          refine .inr (.inr ⟨f, i, j, hwm, s', rfl, h2, rfl, rfl, hd, hc⟩)

/-- Refetching a vol surface. -/
theorem refetch_surface (p : Prefetch) (id : String) (saved : Bool) (s : SavedPrefetch) :
    (∃ e s' xs, p.refetch id false true (area saved s) = (.error e, p, area saved s') ∧ Steps saved p s xs p s' ∧
      (xs = [] ∨ xs = [.surface id])) ∨
    (p.refetch id false true (area saved s) = (.ok true, p, area saved s) ∧ p.volSurfaces.get id = none ∧
      (p.forwardCurves.get id).isSome) ∨
    (∃ v fwd i j hwm s', p.refetch id false true (area saved s) = (.ok true, { p with volSurfaces := p.volSurfaces.insert id v }, area saved s') ∧
      Steps saved p s [.surface id] { p with volSurfaces := p.volSurfaces.insert id v } s' ∧
      (p.volSurfaces.get id).isSome ∧ p.forwardCurves.get id = some fwd ∧ p.dependencies.instruments.get id = some i ∧
      p.dependencies.volSurfaces.get i.id = some (j, hwm) ∧ p.context.volSurface i hwm (fun _ => .ok fwd) = .ok v) := by
  unfold Prefetch.refetch
  rw [if_neg (by simp)]
  cases hf : p.forwardCurves.get id with
  | none => exact .inl ⟨_, s, [], rfl, .refl _ _ _, .inl rfl⟩
  | some fwd =>
    dsimp only
    cases hi : p.dependencies.instruments.get id with
    | none => exact .inl ⟨_, s, [], rfl, .refl _ _ _, .inl rfl⟩
    | some i =>
      dsimp only
      rw [if_neg (by simp)]
      dsimp only
      rw [if_pos rfl, hf]
      unfold Prefetch.refetchVol
      cases hv : p.volSurfaces.get id with
      | none => exact .inr (.inl ⟨rfl, rfl, rfl⟩)
      | some vol =>
        dsimp only
        cases hd : p.dependencies.volSurfaces.get i.id with
        | none =>
          dsimp only
          obtain ⟨s', h1, h2, h3⟩ := steps_surface (saved := saved) p s hv vol
          rw [h1]
          exact .inl ⟨_, s', _, rfl, h3, .inr rfl⟩
        | some e =>
          obtain ⟨j, hwm⟩ := e
          dsimp only
          cases hc : p.context.volSurface i hwm (fun _ => .ok ((some fwd).getD fwd)) with
          | error e =>
            dsimp only
            obtain ⟨s', h1, h2, h3⟩ := steps_surface (saved := saved) p s hv vol
            rw [h1]
            exact .inl ⟨e, s', _, rfl, h3, .inr rfl⟩
          | ok v =>
            dsimp only
            obtain ⟨s', h1, h2, h3⟩ := steps_surface (saved := saved) p s hv v
            rw [h1]
            refine .inr (.inr ⟨v, fwd, i, j, hwm, s', rfl, h2, rfl, rfl, rfl, hd, hc⟩)

/-! ## Bumps -/

/-- The first part of a bump that names something: the market data. -/
theorem bump_data (p : Prefetch) {b : Bump} {x : Slot} (h : target b = some x) (saved : Bool) (s : SavedPrefetch) :
    (answers p x = none ∧ (p.context.bump b ((area saved s).map SavedPrefetch.savedData)).1 = .ok false ∧
      { p with context := (p.context.bump b ((area saved s).map SavedPrefetch.savedData)).2.1 } = p ∧
      ((area saved s).map fun s' => { s' with savedData :=
        (p.context.bump b ((area saved s).map SavedPrefetch.savedData)).2.2.getD s'.savedData }) = area saved s) ∨
    ∃ v s', answers p x = some v ∧ (p.context.bump b ((area saved s).map SavedPrefetch.savedData)).1 = .ok true ∧
      (p.context.bump b ((area saved s).map SavedPrefetch.savedData)).2.1 = p.context.put x (bumped b x v) ∧
      ((area saved s).map fun s' => { s' with savedData :=
        (p.context.bump b ((area saved s).map SavedPrefetch.savedData)).2.2.getD s'.savedData }) = area saved s' ∧
      Steps saved p s [x] { p with context := p.context.put x (bumped b x v) } s' := by
  have hx := target_data h
  have hdata : data p.context x = answers p x := by
    cases x <;> first | rfl | exact absurd hx id
  rcases data_bump p.context h ((area saved s).map SavedPrefetch.savedData) with ⟨h1, h2⟩ | ⟨v, h1, h2⟩
  · left
    rw [h2]
    refine ⟨hdata ▸ h1, rfl, rfl, ?_⟩
    cases saved <;> rfl
  · right
    rw [h2]
    rw [hdata] at h1
    have hp : (answers p x).isSome := by rw [h1]; rfl
    cases saved with
    | false =>
      refine ⟨v, s, h1, rfl, rfl, rfl, ?_, id, rfl, put_spotDate _ _ _⟩
      rw [answers_context p hx]
      exact Trace.single (saved := false) (g := savedAnswers s) x _ hp
    | true =>
      refine ⟨v, { s with savedData := s.savedData.put x v }, h1, rfl, rfl, rfl, ?_, ?_, rfl, put_spotDate _ _ _⟩
      · rw [answers_context p hx, savedAnswers_context s hx, ← h1]
        exact Trace.single (saved := true) (g := savedAnswers s) x _ hp
      · exact fun hd => ⟨distinct_put hd.savedData _ _, hd.forwardCurves, hd.volSurfaces⟩

theorem target_some {b : Bump} (h : (target b).isSome) : ∃ x, target b = some x := Option.isSome_iff_exists.1 h

theorem touches_target {c : Collector} {b b' : Bump} (h : target b = target b') : touches c b = touches c b' := by
  cases b <;> cases b' <;> simp only [target, Option.some.injEq, Slot.spot.injEq, Slot.divs.injEq, Slot.borrow.injEq, Slot.vol.injEq,
    Slot.yield.injEq, reduceCtorEq] at h <;> subst_vars <;> rfl

theorem target_touched {c : Collector} {b : Bump} {x : Slot} (h : target b = some x) : ∃ rest, touches c b = x :: rest := by
  cases b <;> cases h <;> exact ⟨_, rfl⟩

/-- The loop of a bump of a yield curve. -/
theorem refetchAllOf_steps (ids : List String) : ∀ (p : Prefetch) (s : SavedPrefetch),
    ∃ r p' s' xs, p.refetchAllOf true ids (area saved s) = (r, p', area saved s') ∧ Steps saved p s xs p' s' ∧ p'.context = p.context ∧
      xs.Sublist (ids.map .forward) ∧ (r = .ok () → xs = ids.map .forward ∧ p'.volSurfaces = p.volSurfaces) := by
  induction ids with
  | nil => exact fun p s => ⟨_, p, s, [], rfl, .refl _ _ _, rfl, List.Sublist.refl _, fun _ => ⟨rfl, rfl⟩⟩
  | cons id ids ih =>
    intro p s
    unfold Prefetch.refetchAllOf
    rcases refetch_forward p id saved s with ⟨s', xs, h1, h2, h3⟩ | ⟨e, s', h1, h2⟩ | ⟨f, i, j, hwm, s', h1, h2, _⟩
    · rw [h1]
      refine ⟨_, p, s', xs, rfl, h2, rfl, ?_, fun h => by cases h⟩
      rcases h3 with rfl | rfl
      · exact List.nil_sublist _
      · exact List.Sublist.cons_cons _ (List.nil_sublist _)
    · rw [h1]
      exact ⟨_, p, s', _, rfl, h2, rfl, List.Sublist.cons_cons _ (List.nil_sublist _), fun h => by cases h⟩
    · rw [h1]
      obtain ⟨r, p'', s'', xs, g1, g2, g3, g4, g5⟩ := ih { p with forwardCurves := p.forwardCurves.insert id f } s'
      refine ⟨r, p'', s'', _, g1, h2.trans g2, g3, List.Sublist.cons_cons _ g4, fun h => ?_⟩
      obtain ⟨e1, e2⟩ := g5 h
      exact ⟨by rw [e1]; rfl, e2⟩

theorem refetchAllOf_none (ids : List String) (p : Prefetch) (save : Option SavedPrefetch) :
    p.refetchAllOf false ids save = (.ok (), p, save) := by
  induction ids with
  | nil => rfl
  | cons id ids ih =>
    unfold Prefetch.refetchAllOf
    rw [refetch_none]
    exact ih

/-- What a bump does when there is nothing to bump. -/
theorem bump_absent {b : Bump} {x : Slot} (ht : target b = some x) (h : answers p x = none) (saved : Bool) (s : SavedPrefetch) :
    p.bump b (area saved s) = (.ok false, p, area saved s) := by
  rcases bump_data p ht saved s with ⟨_, h1, h2, h3⟩ | ⟨v, _, h1, _⟩
  · cases b <;> cases ht <;> unfold Prefetch.bump <;> dsimp only
    all_goals rw [h1, h2, h3]
    all_goals dsimp only
    all_goals first | exact refetch_none _ _ _ | rw [refetchAllOf_none]
  · rw [h] at h1
    cases h1

/-- What a bump does when there is something to bump. -/
theorem bump_present {b : Bump} {x : Slot} (ht : target b = some x) {v : x.Val} (h : answers p x = some v) (saved : Bool) (s : SavedPrefetch) :
    ∃ s', Steps saved p s [x] { p with context := p.context.put x (bumped b x v) } s' ∧
      p.bump b (area saved s) = (match b with
        | .spot id _ => Prefetch.refetch { p with context := p.context.put x (bumped b x v) } id true false (area saved s')
        | .divs id _ => Prefetch.refetch { p with context := p.context.put x (bumped b x v) } id true false (area saved s')
        | .vol id _ => Prefetch.refetch { p with context := p.context.put x (bumped b x v) } id false true (area saved s')
        | .borrow id _ => Prefetch.refetch { p with context := p.context.put x (bumped b x v) } id true false (area saved s')
        | .yield creditId _ =>
          match Prefetch.refetchAllOf { p with context := p.context.put x (bumped b x v) } true
            ((p.dependencies.forwardIds.get creditId).getD []) (area saved s') with
          | (.error e, p, save) => (.error e, p, save)
          | (.ok (), p, save) => (.ok true, p, save)
        | .spotDate _ => (.ok true, p, area saved s')) := by
  rcases bump_data p ht saved s with ⟨h1, _⟩ | ⟨w, s', h1, h2, h3, h4, h5⟩
  · rw [h] at h1
    cases h1
  · rw [h] at h1
    cases h1
    refine ⟨s', h5, ?_⟩
    cases b <;> cases ht <;> unfold Prefetch.bump <;> dsimp only
    all_goals rw [h2, h3, h4]
    all_goals
      dsimp only
      generalize Prefetch.refetchAllOf _ true _ _ = r
      obtain ⟨r, p, s⟩ := r
      cases r <;> rfl

/-- What a bump does. -/
theorem bump_steps (p : Prefetch) {b : Bump} (hb : (target b).isSome) (saved : Bool) (s : SavedPrefetch) :
    ∃ r p' s' xs, p.bump b (area saved s) = (r, p', area saved s') ∧ Steps saved p s xs p' s' ∧
      xs.Sublist (touches p.dependencies b) ∧ (∀ x, target b = some x → answers p x = none → xs = []) ∧
      (∀ changed, r = .ok changed → (∃ x, target b = some x ∧ answers p x = none) ∨ ∀ x ∈ touches p.dependencies b, x ∈ xs ∨ answers p x = none) := by
  obtain ⟨x, ht⟩ := target_some hb
  cases hx : answers p x with
  | none =>
    exact ⟨_, p, s, [], bump_absent ht hx saved s, .refl _ _ _, List.nil_sublist _, fun _ _ _ => rfl, fun _ _ => .inl ⟨x, ht, hx⟩⟩
  | some v =>
    have hne : ∀ y, target b = some y → answers p y = none → ∀ xs : List Slot, xs = [] := by
      intro y hy hn
      rw [ht] at hy
      cases hy
      rw [hx] at hn
      cases hn
    obtain ⟨s', h1, h2⟩ := bump_present ht hx saved s
    rw [h2]
    have forwards : ∀ id, touches p.dependencies b = [x, .forward id] →
        ∃ r p' s'' xs, Prefetch.refetch { p with context := p.context.put x (bumped b x v) } id true false (area saved s') =
          (r, p', area saved s'') ∧ Steps saved p s xs p' s'' ∧ xs.Sublist (touches p.dependencies b) ∧
          (∀ x, target b = some x → answers p x = none → xs = []) ∧
          (∀ changed, r = .ok changed → (∃ x, target b = some x ∧ answers p x = none) ∨
            ∀ x ∈ touches p.dependencies b, x ∈ xs ∨ answers p x = none) := by
      intro id e
      rw [e]
      rcases refetch_forward { p with context := p.context.put x (bumped b x v) } id saved s' with
        ⟨s'', xs, g1, g2, g3⟩ | ⟨e, s'', g1, g2⟩ | ⟨f, i, j, hwm, s'', g1, g2, _⟩
      · rw [g1]
        refine ⟨_, _, s'', _, rfl, h1.trans g2, ?_, fun y hy hn => hne y hy hn _, fun _ h => by cases h⟩
        rcases g3 with rfl | rfl
        · exact List.Sublist.cons_cons _ (List.nil_sublist _)
        · exact List.Sublist.refl _
      · rw [g1]
        exact ⟨_, _, s'', _, rfl, h1.trans g2, List.Sublist.refl _, fun y hy hn => hne y hy hn _, fun _ h => by cases h⟩
      · rw [g1]
        exact ⟨_, _, s'', _, rfl, h1.trans g2, List.Sublist.refl _, fun y hy hn => hne y hy hn _, fun _ _ => .inr fun y hy => .inl hy⟩
    cases b <;> cases ht <;> dsimp only
    case some.spot.refl id b => exact forwards id rfl
    case some.divs.refl id b => exact forwards id rfl
    case some.borrow.refl id b => exact forwards id rfl
    case some.vol.refl id b =>
      rcases refetch_surface { p with context := p.context.put (.vol id) (bumped (.vol id b) (.vol id) v) } id saved s' with
        ⟨e, s'', xs, g1, g2, g3⟩ | ⟨g1, g2, _⟩ | ⟨v', fwd, i, j, hwm, s'', g1, g2, _⟩
      · rw [g1]
        refine ⟨_, _, s'', _, rfl, h1.trans g2, ?_, fun y hy hn => hne y hy hn _, fun _ h => by cases h⟩
        rcases g3 with rfl | rfl
        · exact List.Sublist.cons_cons _ (List.nil_sublist _)
        · exact List.Sublist.refl _
      · rw [g1]
        refine ⟨_, _, s', _, rfl, h1, List.Sublist.cons_cons _ (List.nil_sublist _), fun y hy hn => hne y hy hn _, fun _ _ => .inr ?_⟩
        intro y hy
        rcases List.mem_cons.1 hy with rfl | hy
        · exact .inl (by simp)
        · cases List.mem_singleton.1 hy
          exact .inr g2
      · rw [g1]
        exact ⟨_, _, s'', _, rfl, h1.trans g2, List.Sublist.refl _, fun y hy hn => hne y hy hn _, fun _ _ => .inr fun y hy => .inl hy⟩
    case some.yield.refl id b =>
      obtain ⟨r, p', s'', xs, g1, g2, g3, g4, g5⟩ := refetchAllOf_steps (saved := saved) ((p.dependencies.forwardIds.get id).getD [])
        { p with context := p.context.put (.yield id) (bumped (.yield id b) (.yield id) v) } s'
      rw [g1]
      cases r with
      | error e =>
        exact ⟨_, _, s'', _, rfl, h1.trans g2, List.Sublist.cons_cons _ g4, fun y hy hn => hne y hy hn _, fun _ h => by cases h⟩
      | ok u =>
        obtain ⟨e, _⟩ := g5 rfl
        subst e
        exact ⟨_, _, s'', _, rfl, h1.trans g2, List.Sublist.refl _, fun y hy hn => hne y hy hn _, fun _ _ => .inr fun y hy => .inl hy⟩

theorem area_getD (saved : Bool) (s s' : SavedPrefetch) : saved = true → (area saved s').getD s = s' := by
  rintro rfl
  rfl

theorem runBumps_session {f₀ : Answers} {c : Collector} (bumps : List (Bump × Bool)) : ∀ {p : Prefetch} {s : SavedPrefetch} {done : List Bump},
    DistinctSave s → p.dependencies = c → Session (touches c) f₀ done (answers p) (savedAnswers s) → Disciplined c done bumps →
    DistinctSave (runBumps (p, s) bumps).2 ∧ (runBumps (p, s) bumps).1.context.spotDate = p.context.spotDate ∧
      (runBumps (p, s) bumps).1.dependencies = c ∧
      ∀ x, (savedAnswers (runBumps (p, s) bumps).2 x).or (answers (runBumps (p, s) bumps).1 x) = f₀ x := by
  induction bumps with
  | nil => exact fun hd hc h _ => ⟨hd, rfl, hc, h.restored⟩
  | cons e rest ih =>
    obtain ⟨b, saved⟩ := e
    intro p s done hd hc h hs
    rw [runBumps]
    cases saved with
    | true =>
      obtain ⟨hb, hn, hfresh, hrest⟩ := hs
      obtain ⟨r, p', s', xs, h1, h2, h3, h4, h5⟩ := bump_steps p hb true s
      rw [show (if true = true then some s else none) = area true s from rfl, h1]
      rw [hc] at h3 h5
      have hxs : ∀ x ∈ xs, x ∈ touches c b := fun x hx => h3.subset hx
      cases r with
      | error e =>
        obtain ⟨g1, _, _⟩ := h.save h2.trace (hn.sublist h3) hxs hfresh
        exact ⟨h2.distinct hd, h2.spotDate, h2.dependencies.trans hc, g1⟩
      | ok changed =>
        have h' := h.saveOk h2.trace (hn.sublist h3) hxs hfresh (h5 changed rfl)
        obtain ⟨r1, r2, r3, r4⟩ := ih (h2.distinct hd) (h2.dependencies.trans hc) h' hrest
        exact ⟨r1, r2.trans h2.spotDate, r3, r4⟩
    | false =>
      obtain ⟨hb, hold, hrest⟩ := hs
      obtain ⟨r, p', s', xs, h1, h2, h3, h4, h5⟩ := bump_steps p hb false s
      rw [show (if false = true then some s else none) = area false s from rfl, h1]
      rw [hc] at h3 h5
      have hxs : ∀ x ∈ xs, x ∈ touches c b := fun x hx => h3.subset hx
      have h' := h.keep h2.trace hold (fun b b' e => touches_target e) hxs h4
      have hg : savedAnswers s' = savedAnswers s := h2.trace.unsaved
      rw [hg] at h'
      cases r with
      | error e => exact ⟨hd, h2.spotDate, h2.dependencies.trans hc, h'.restored⟩
      | ok changed =>
        obtain ⟨r1, r2, r3, r4⟩ := ih hd (h2.dependencies.trans hc) h' hrest
        exact ⟨r1, r2.trans h2.spotDate, r3, r4⟩

end QM.Market
