import Verif.MonteCarlo.Rolling

/-!
# Properties C79 and C80: what the Monte-Carlo model holds

C79: whatever is bumped, the paths are those of the market as it is now. C80: what is collected from the instruments, what their payments
are worth and what the factory makes.
-/

namespace QM.MonteCarlo
open QM.Interp QM.Vol QM.Instruments QM.Market QM.Market.Spec QM.Risk QM.Fixings Spec

variable {fuel : Nat} {f : ModelFactory} {md : MarketData} {draw draw' : Draws}

namespace Spec

/-- The second pricer comes from the first by bumps that all succeed, of anything and with any save areas. -/
inductive Bumped (fuel : Nat) : MonteCarlo → MonteCarlo → Prop
  | none (p : MonteCarlo) : Bumped fuel p p
  | next {p q r : MonteCarlo} {b : Bump} {changed : Bool} {save save' : Option SavedBlackDiffusion} :
      Bumped fuel p q → MonteCarlo.bump fuel b q save = (.ok changed, r, save') → Bumped fuel p r

/-- The times at which an option looks at its underlying. -/
def times : Instrument → List Point
  | .spotStarting v _ _ => [v.expiryTime]
  | .forwardStarting v _ _ _ strikeTime => [strikeTime, v.expiryTime]
  | _ => []

/-- The underlying of an option. -/
def lookedAt : Instrument → Option String
  | .spotStarting _ u _ => some u.id
  | .forwardStarting _ u _ _ _ => some u.id
  | _ => none

/-- The payment of an option: one unit of its currency for each unit of its payoff. -/
def paysOut : Instrument → Option Instrument
  | .spotStarting v _ _ => some (.zeroCoupon (v.id ++ ":Expiry") v.creditId v.expiry v.payDate v.settlement)
  | .forwardStarting v _ _ _ _ => some (.zeroCoupon (v.id ++ ":Expiry") v.creditId v.expiry v.payDate v.settlement)
  | _ => none

/-- A payment of one unit. -/
def IsPayment : Instrument → Prop
  | .zeroCoupon .. => True
  | _ => False

end Spec

/-! ## C79 -/

/-- The model has one asset, and its paths are those of the market. -/
structure InStep (fuel : Nat) (u : Instrument) (obs : List Point) (ks : List Nat) (gs : List (List ℝ)) (p : MonteCarlo) : Prop where
  assets : p.model.instruments = [u]
  key : p.model.key = ⟨[(u.id, 0)]⟩
  observations : p.model.observations = obs
  substepping : p.model.substepping = ks
  gaussians : p.model.gaussians = [gs]
  paths : ∃ paths, p.model.paths = [paths] ∧ fetchPath fuel u p.model.context.pricingContext obs gs ks = .ok paths

theorem fetchPath_congr {c c' : Prefetch} {u : Instrument} (hf : c.forwardCurves.get u.id = c'.forwardCurves.get u.id)
    (hv : c.volSurfaces.get u.id = c'.volSurfaces.get u.id) (obs : List Point) (gs : List (List ℝ)) (ks : List Nat) :
    fetchPath fuel u c.pricingContext obs gs ks = fetchPath fuel u c'.pricingContext obs gs ks := by
  unfold fetchPath Prefetch.pricingContext find
  simp only [hf, hv]

/-- Fetching the paths of some asset again keeps a model in step, and brings it in step if the asset is its own. -/
theorem refetch_inStep {u : Instrument} {obs : List Point} {ks : List Nat} {gs : List (List ℝ)} {m m' : BlackDiffusion} {id : String}
    {bumped changed : Bool} {save save' : Option SavedBlackDiffusion} (ha : m.instruments = [u]) (hk : m.key = ⟨[(u.id, 0)]⟩)
    (ho : m.observations = obs) (hs : m.substepping = ks) (hg : m.gaussians = [gs]) (hp : ∃ paths, m.paths = [paths])
    (h : m.refetch fuel id bumped save = (.ok changed, m', save')) :
    (bumped = false → m' = m) ∧ (bumped = true → id = u.id ∧ m'.context = m.context ∧ m'.instruments = [u] ∧ m'.key = ⟨[(u.id, 0)]⟩ ∧
      m'.observations = obs ∧ m'.substepping = ks ∧ m'.gaussians = [gs] ∧
      ∃ paths, m'.paths = [paths] ∧ fetchPath fuel u m.context.pricingContext obs gs ks = .ok paths) := by
  obtain ⟨_, h1, h2⟩ := refetch_ok h
  refine ⟨fun e => (h1 e).1, fun e => ?_⟩
  obtain ⟨asset, path, rfl, h4, ⟨i, h5, h6⟩, _⟩ := h2 e
  obtain ⟨old, hp⟩ := hp
  rw [hk] at h4
  have hid : id = u.id ∧ asset = 0 := by
    simp only [Map.get, List.find?_cons, List.find?_nil] at h4
    split at h4
    · rename_i hh
      cases h4
      exact ⟨(of_decide_eq_true hh).symm, rfl⟩
    · cases h4
  obtain ⟨rfl, rfl⟩ := hid
  rw [ha] at h5
  cases h5
  refine ⟨rfl, rfl, ha, hk, ho, hs, hg, path, ?_, ?_⟩
  · show m.paths.set 0 path = [path]
    rw [hp]
    rfl
  · rw [← h6, ho, hs, hg]
    rfl

theorem refetchAllOf_inStep {u : Instrument} {obs : List Point} {ks : List Nat} {gs : List (List ℝ)} {bumped : Bool} :
    ∀ {ids : List String} {m m' : BlackDiffusion} {save save' : Option SavedBlackDiffusion}, m.instruments = [u] → m.key = ⟨[(u.id, 0)]⟩ →
      m.observations = obs → m.substepping = ks → m.gaussians = [gs] → (∃ paths, m.paths = [paths]) →
      BlackDiffusion.refetchAllOf fuel bumped ids m save = (.ok (), m', save') →
      ((bumped = false ∨ ids = []) → m' = m) ∧ (bumped = true → ids ≠ [] → u.id ∈ ids ∧ m'.context = m.context ∧ m'.instruments = [u] ∧
        m'.key = ⟨[(u.id, 0)]⟩ ∧ m'.observations = obs ∧ m'.substepping = ks ∧ m'.gaussians = [gs] ∧
        ∃ paths, m'.paths = [paths] ∧ fetchPath fuel u m.context.pricingContext obs gs ks = .ok paths)
  | [], m, m', save, save', ha, hk, ho, hs, hg, hp, h => by
    cases h
    exact ⟨fun _ => rfl, fun _ h => absurd rfl h⟩
  | id :: rest, m, m', save, save', ha, hk, ho, hs, hg, hp, h => by
    rw [BlackDiffusion.refetchAllOf] at h
    generalize hr : m.refetch fuel id bumped save = r at h
    obtain ⟨r, m1, s1⟩ := r
    cases r with
    | error e => cases h
    | ok changed =>
      dsimp only at h
      obtain ⟨h1, h2⟩ := refetch_inStep ha hk ho hs hg hp hr
      cases bumped with
      | false =>
        have := h1 rfl
        subst this
        exact ⟨fun _ => (refetchAllOf_inStep ha hk ho hs hg hp h).1 (.inl rfl), fun e => Bool.noConfusion e⟩
      | true =>
        obtain ⟨rfl, g0, g1, g2, g3, g4, g5, paths, g6, g7⟩ := h2 rfl
        refine ⟨fun e => ?_, fun _ _ => ⟨by simp, ?_⟩⟩
        · rcases e with e | e <;> cases e
        obtain ⟨k1, k2⟩ := refetchAllOf_inStep g1 g2 g3 g4 g5 ⟨paths, g6⟩ h
        by_cases hn : rest = []
        · have := k1 (.inr hn)
          subst this
          exact ⟨g0, g1, g2, g3, g4, g5, paths, g6, g7⟩
        · obtain ⟨_, k3, k4⟩ := k2 rfl hn
          rw [g0] at k3 k4
          exact ⟨k3, k4⟩

/-- A bump that reports no change changes nothing that paths depend on. -/
theorem bump_unchanged {c c' : Prefetch} {b : Bump} {save save' : Option SavedPrefetch} (h : c.bump b save = (.ok false, c', save')) : c' = c := by
  cases ht : target b with
  | none =>
    cases b <;> try cases ht
    obtain ⟨_, ⟨_, _, rfl⟩ | ⟨_, e, _⟩⟩ := bump_date h
    · rfl
    · cases e
  | some x =>
    obtain ⟨_, h1, h2⟩ := bump_effect ht h
    cases hx : answers c x with
    | none => exact (h1 hx).2
    | some v => exact absurd (h2 v hx).1 (by simp)

/-- A bump of a yield curve leaves a prefetched forward that does not depend on it, and every prefetched surface. -/
theorem bump_yield_frame {c c' : Prefetch} {creditId : String} {b : Curves.BumpYield} {save save' : Option SavedPrefetch} {changed : Bool}
    (h : c.bump (.yield creditId b) save = (.ok changed, c', save')) {id : String} (hid : id ∉ (c.dependencies.forwardIds.get creditId).getD []) :
    c'.forwardCurves.get id = c.forwardCurves.get id ∧ c'.volSurfaces.get id = c.volSurfaces.get id ∧ c'.dependencies = c.dependencies := by
  obtain ⟨saved, s, rfl⟩ : ∃ saved s, save = area saved s := by
    cases save with
    | none => exact ⟨false, .new, rfl⟩
    | some s => exact ⟨true, s, rfl⟩
  obtain ⟨r, p', s', xs, e, g1, g2, _, _⟩ := bump_steps c (b := .yield creditId b) rfl saved s
  rw [h] at e
  cases e
  have hf : Slot.forward id ∉ xs := fun hx => by
    have := g2.subset hx
    simp [touches] at this
    exact hid (by simpa using this)
  have hv : Slot.surface id ∉ xs := fun hx => by
    have := g2.subset hx
    simp [touches] at this
  exact ⟨(g1.trace.frame _ hf).1, (g1.trace.frame _ hv).1, g1.dependencies⟩

theorem bump_inStep {u : Instrument} {obs : List Point} {ks : List Nat} {gs : List (List ℝ)} {p p' : MonteCarlo} {b : Bump} {changed : Bool}
    {save save' : Option SavedBlackDiffusion} (hp : InStep fuel u obs ks gs p) (h : MonteCarlo.bump fuel b p save = (.ok changed, p', save')) :
    InStep fuel u obs ks gs p' := by
  obtain ⟨ha, hk, ho, hs, hg, paths, h1, h2⟩ := hp
  unfold MonteCarlo.bump BlackDiffusion.bump at h
  generalize hb : p.model.context.bump b (save.map SavedBlackDiffusion.savedData) = r at h
  obtain ⟨r, c, ps⟩ := r
  dsimp only at h
  cases r with
  | error e => cases h
  | ok bumped =>
    dsimp only at h
    -- nothing changed
    have same : bumped = false → InStep fuel u obs ks gs { p with model := { p.model with context := c } } := by
      intro e
      subst e
      have := bump_unchanged hb
      subst this
      exact ⟨ha, hk, ho, hs, hg, paths, h1, h2⟩
    have key : ∀ (id : String) (sv : Option SavedBlackDiffusion) (x : Outcome Bool × BlackDiffusion × Option SavedBlackDiffusion),
        BlackDiffusion.refetch fuel { p.model with context := c } id bumped sv = x →
        (x.1, ({ p with model := x.2.1 } : MonteCarlo), x.2.2) = (.ok changed, p', save') → InStep fuel u obs ks gs p' := by
      intro id sv x hx he
      obtain ⟨x, m', s'⟩ := x
      cases he
      obtain ⟨k1, k2⟩ := refetch_inStep (m := { p.model with context := c }) (u := u) (obs := obs) (ks := ks) (gs := gs) ha hk ho hs hg ⟨paths, h1⟩ hx
      cases bumped with
      | false =>
        rw [k1 rfl]
        exact same rfl
      | true =>
        obtain ⟨_, g0, g1, g2, g3, g4, g5, q, g6, g7⟩ := k2 rfl
        refine ⟨g1, g2, g3, g4, g5, q, g6, ?_⟩
        show fetchPath fuel u m'.context.pricingContext obs gs ks = _
        rw [g0]
        exact g7
    cases b with
    | spot id b => exact key _ _ _ rfl h
    | divs id b => exact key _ _ _ rfl h
    | borrow id b => exact key _ _ _ rfl h
    | vol id b => exact key _ _ _ rfl h
    | yield creditId b =>
      dsimp only at h
      generalize hr : BlackDiffusion.refetchAllOf fuel bumped ((c.dependencies.forwardIds.get creditId).getD []) { p.model with context := c }
        (save.map fun s => { s with savedData := ps.getD s.savedData }) = r at h
      obtain ⟨r, m', s'⟩ := r
      cases r with
      | error e => cases h
      | ok _ =>
        cases h
        obtain ⟨k1, k2⟩ := refetchAllOf_inStep (m := { p.model with context := c }) (u := u) (obs := obs) (ks := ks) (gs := gs) ha hk ho hs hg ⟨paths, h1⟩ hr
        cases changed with
        | false =>
          rw [k1 (.inl rfl)]
          exact same rfl
        | true =>
          by_cases hn : (c.dependencies.forwardIds.get creditId).getD [] = []
          · rw [k1 (.inr hn)]
            have hd : c.dependencies = p.model.context.dependencies := (bump_effect (x := .yield creditId) rfl hb).1
            rw [hd] at hn
            obtain ⟨g1, g2, _⟩ := bump_yield_frame hb (id := u.id) (by rw [hn]; simp)
            exact ⟨ha, hk, ho, hs, hg, paths, h1, (fetchPath_congr g1 g2 obs gs ks).trans h2⟩
          · obtain ⟨_, g0, g1, g2, g3, g4, g5, q, g6, g7⟩ := k2 rfl hn
            refine ⟨g1, g2, g3, g4, g5, q, g6, ?_⟩
            show fetchPath fuel u m'.context.pricingContext obs gs ks = _
            rw [g0]
            exact g7
    | spotDate b =>
      dsimp only at h
      cases bumped with
      | false =>
        rw [if_neg (by simp)] at h
        cases h
        exact same rfl
      | true =>
        rw [if_pos rfl] at h
        unfold BlackDiffusion.refetchAll at h
        dsimp only at h
        rw [ha, ho, hs, hg] at h
        generalize hr : fetchPaths fuel c.pricingContext obs [gs] [u] ks = r at h
        cases r with
        | error e => cases h
        | ok all =>
          dsimp only at h
          cases h
          unfold fetchPaths at hr
          split at hr
          · cases hr
          · have hr := each_iff.1 hr
            cases hr with
            | @cons _ q _ tail g1 g2 =>
              cases g2
              exact ⟨rfl, hk, rfl, rfl, rfl, q, rfl, g1⟩

theorem new_inStep {l : List (ℝ × Instrument)} {p : MonteCarlo} {u : Instrument} (hp : MonteCarlo.new fuel f l md draw = .ok p)
    (hu : p.model.instruments = [u]) : ∃ ks, calculateSubstepping fuel p.model.context.pricingContext p.model.observations [u] f.pathSubstep = .ok ks ∧
      InStep fuel u p.model.observations ks (rows f.nPaths ks.sum draw) p := by
  obtain ⟨t, context, ht, hc, hbm, _, _⟩ := new_ok hp
  obtain ⟨k, u', obs, ks, paths, he, hs, hpath, hn, hmod⟩ := model_new_ok hbm
  rw [hmod] at hu ⊢
  cases hu
  exact ⟨ks, hs, by rw [hmod], by rw [hmod], by rw [hmod], by rw [hmod], by rw [hmod], paths, by rw [hmod], by rw [hmod]; exact hpath⟩

/-- C79: whatever is bumped, any number of times, the paths are those that the market as it is now specifies, along the draws with which
the pricer was made, with the number of steps that the market of that time asked for. -/
theorem C79_follows {l : List (ℝ × Instrument)} {p p' : MonteCarlo} {u : Instrument} {F w δ F' w' δ' : Nat → ℝ}
    (hp : MonteCarlo.new fuel f l md draw = .ok p) (hu : p.model.instruments = [u])
    (hm : Spec.Market fuel p.model.context.pricingContext u p.model.observations F w δ) (h : Bumped fuel p p')
    (hm' : Spec.Market fuel p'.model.context.pricingContext u p.model.observations F' w' δ') :
    p'.model.pathsOf u = .ok ((List.range f.nPaths).map fun path => (List.range p.model.observations.length).map fun i =>
      Num.val (pathValue F' w' δ' (steps f.pathSubstep w) (fun k => draw path k 0) i)) := by
  obtain ⟨ks, hs, h0⟩ := new_inStep hp hu
  have h1 : InStep fuel u p.model.observations ks (rows f.nPaths ks.sum draw) p' := by
    clear hm hm'
    induction h with
    | none => exact h0
    | next _ hb ih => exact bump_inStep ih hb
  obtain ⟨_, hk, _, _, _, paths, h2, h3⟩ := h1
  have := rows_paths (n := steps f.pathSubstep w) (fun i => by unfold steps; omega) hm' (substepping_val hm hs) h3
  subst this
  unfold BlackDiffusion.pathsOf
  rw [hk, h2]
  simp [Map.get]

/-- C79: rolling forward either bumps the date, and so keeps the draws, or, if an instrument changes, makes a new pricer from new draws. -/
theorem C79_rolled {p p' : MonteCarlo} {bump : BumpTime} (h : p.bumpTime fuel draw' bump = (.ok (), p')) :
    (p'.instruments = p.instruments ∧ Bumped fuel p p') ∨
      ∃ q, Bumped fuel p q ∧ MonteCarlo.new fuel p.factory p'.instruments q.model.context.context draw' = .ok p' := by
  unfold MonteCarlo.bumpTime at h
  generalize hu : updateInstruments bump.spotDateBump p.instruments p.model.context.pricingContext p.model.context.dependencies = r at h
  match r with
  | .error e => cases h
  | .ok (modified, l') =>
    dsimp only at h
    generalize hb : p.model.bump fuel (.spotDate bump.spotDateBump) none = r at h
    obtain ⟨r, model, s⟩ := r
    cases r with
    | error e => cases h
    | ok changed =>
      dsimp only at h
      have hq : MonteCarlo.bump fuel (.spotDate bump.spotDateBump) p none = (.ok changed, { p with model := model }, s) := by
        unfold MonteCarlo.bump
        rw [hb]
      cases modified with
      | false =>
        rw [if_neg (by simp)] at h
        cases h
        have := update_unmodified hu
        subst this
        exact .inl ⟨rfl, .next (.none p) hq⟩
      | true =>
        rw [if_pos rfl] at h
        generalize hn : MonteCarlo.new fuel p.factory l' model.context.context draw' = r at h
        cases r with
        | error e => cases h
        | ok p1 =>
          cases h
          obtain ⟨_, _, _, _, _, _, hi⟩ := new_ok hn
          exact .inr ⟨{ p with model := model }, .next (.none p) hq, by rw [hi]; exact hn⟩

/-- C79: two bumps of the spot of the sample market one after the other, after which the paths follow the market. -/
example (hh : f.pathSubstep ≠ 0) (hn : f.nPaths ≠ 0) :
    ∃ p p', MonteCarlo.new fuel f [(2, optionA 90)] (sampleMarket 100 (.zero 0)) draw = .ok p ∧ Bumped fuel p p' ∧ p ≠ p' ∧
      Spec.Market fuel p'.model.context.pricingContext equityA p.model.observations (fun _ => 121) (fun _ => 2 / 73 * 0.2 ^ 2) (fun _ => 0) := by
  obtain ⟨p, hp, h⟩ := held_new (fuel := fuel) hh hn draw
  obtain ⟨p1, s1, e1, h1⟩ := held_next h (.relative 0.1) (some .new)
  obtain ⟨p2, s2, e2, h2⟩ := held_next h1 (.relative 0.1) none
  refine ⟨p, p2, hp, .next (.next (.none p) e1) e2, ?_, ?_⟩
  · obtain ⟨⟨fw, paths, dr, _, _, rfl⟩, _⟩ := h
    obtain ⟨⟨fw', paths', dr', _, _, rfl⟩, _⟩ := h2
    intro e
    have : (sampleMarket 100 (.zero 0)).spots = (sampleMarket (BumpSpot.apply (.relative 0.1) (BumpSpot.apply (.relative 0.1) 100)) (.zero 0)).spots :=
      congrArg (fun p : MonteCarlo => p.model.context.context.spots) e
    have := congrArg (fun m => m.get "A") this
    have e : (some 100 : Option ℝ) = some (BumpSpot.apply (.relative 0.1) (BumpSpot.apply (.relative 0.1) 100)) := this
    have := Option.some.inj e
    simp only [BumpSpot.apply] at this
    norm_num at this
  · obtain ⟨⟨fw, paths, dr, _, _, rfl⟩, _⟩ := h
    obtain ⟨⟨fw', paths', dr', hf, _, rfl⟩, _⟩ := h2
    refine sample_market _ _ ?_ (by simp) (by simp)
    rw [hf]
    congr 2
    simp only [BumpSpot.apply]
    norm_num

/-! ## C80 -/

theorem observation_times (t : Timeline) (u : Instrument) (x : Point) (id : String) :
    ((t.observation u x).observations.get id).elim [] Prod.snd =
      (t.observations.get id).elim [] Prod.snd ++ (if id = u.id then [x] else []) := by
  unfold Timeline.observation
  cases h : t.observations.get u.id with
  | none =>
    dsimp only
    by_cases he : id = u.id
    · subst he
      rw [Map.get_insert_self, h, if_pos rfl]
      rfl
    · rw [Map.get_insert_ne _ _ he, if_neg he, List.append_nil]
  | some e =>
    obtain ⟨j, obs⟩ := e
    dsimp only
    by_cases he : id = u.id
    · subst he
      rw [Map.get_insert_self, h, if_pos rfl]
      rfl
    · rw [Map.get_insert_ne _ _ he, if_neg he, List.append_nil]

theorem observation_present (t : Timeline) (u : Instrument) (x : Point) (id : String) :
    ((t.observation u x).observations.get id).isSome = ((t.observations.get id).isSome || decide (id = u.id)) := by
  unfold Timeline.observation
  split
  all_goals
    dsimp only
    by_cases he : id = u.id
    · subst he
      rw [Map.get_insert_self]
      simp
    · rw [Map.get_insert_ne _ _ he]
      simp [he]

/-- The ids under which assets are kept. -/
def Named (t : Timeline) : Prop := ∀ e ∈ t.observations.entries, e.2.1.id = e.1

theorem observation_named {t : Timeline} (u : Instrument) (x : Point) (h : Named t) : Named (t.observation u x) := by
  unfold Timeline.observation
  intro e he
  cases hg : t.observations.get u.id with
  | none =>
    rw [hg] at he
    dsimp only [Map.insert] at he
    rcases List.mem_cons.1 he with rfl | he
    · rfl
    · exact h e (List.mem_of_mem_filter he)
  | some p =>
    obtain ⟨j, obs⟩ := p
    rw [hg] at he
    dsimp only [Map.insert] at he
    rcases List.mem_cons.1 he with rfl | he
    · unfold Map.get at hg
      cases hf : t.observations.entries.find? (fun e => e.1 = u.id) with
      | none => rw [hf] at hg; cases hg
      | some e =>
        rw [hf] at hg
        have h1 := List.mem_of_find?_eq_some hf
        have h2 := List.find?_some hf
        have h3 : e.2 = (j, obs) := Option.some.inj hg
        have := h e h1
        rw [h3] at this
        exact this.trans (of_decide_eq_true h2)
    · exact h e (List.mem_of_mem_filter he)

/-- What the timeline holds. -/
theorem timeline_collected : ∀ {l : List (ℝ × Instrument)} {t t' : Timeline}, timeline l t = .ok t' →
    t'.flows = t.flows ++ l.filterMap (fun e => paysOut e.2) ∧ (Named t → Named t') ∧
      ∀ id, (t'.observations.get id).elim [] Prod.snd =
          (t.observations.get id).elim [] Prod.snd ++ (l.filter fun e => lookedAt e.2 = some id).flatMap (fun e => times e.2) ∧
        ((t.observations.get id).isSome → (t'.observations.get id).isSome) ∧
        ((∃ e ∈ l, lookedAt e.2 = some id) → (t'.observations.get id).isSome)
  | [], t, t', h => by
    cases h
    exact ⟨by simp, fun h => h, fun id => ⟨by simp, fun h => h, fun ⟨e, he, _⟩ => by cases he⟩⟩
  | (a, i) :: rest, t, t', h => by
    rw [timeline] at h
    obtain ⟨t1, h1, h2⟩ := bind_ok h
    obtain ⟨g1, g2, g3⟩ := timeline_collected h2
    have hstep : t1.flows = t.flows ++ (paysOut i).toList ∧ (Named t → Named t1) ∧ ∀ id,
        (t1.observations.get id).elim [] Prod.snd = (t.observations.get id).elim [] Prod.snd ++ (if lookedAt i = some id then times i else []) ∧
        (t1.observations.get id).isSome = ((t.observations.get id).isSome || decide (lookedAt i = some id)) := by
      cases i <;> first | (cases h1; done) | skip
      case spotStarting v u K =>
        cases h1
        refine ⟨by simp [Timeline.flow, observation_flows, paysOut, expiryFlow], fun hn => observation_named u _ hn, fun id => ⟨?_, ?_⟩⟩
        · show ((t.observation u v.expiryTime).observations.get id).elim [] Prod.snd = _
          rw [observation_times]
          simp only [lookedAt, times, Option.some.injEq, eq_comm]
        · show ((t.observation u v.expiryTime).observations.get id).isSome = _
          rw [observation_present]
          simp only [lookedAt, Option.some.injEq, eq_comm]
      case forwardStarting v u K sd st =>
        cases h1
        refine ⟨by simp [Timeline.flow, observation_flows, paysOut, expiryFlow], fun hn => observation_named u _ (observation_named u _ hn), fun id => ⟨?_, ?_⟩⟩
        · show (((t.observation u st).observation u v.expiryTime).observations.get id).elim [] Prod.snd = _
          rw [observation_times, observation_times]
          by_cases he : id = u.id
          · simp [lookedAt, times, he]
          · simp [lookedAt, he, Ne.symm he]
        · show (((t.observation u st).observation u v.expiryTime).observations.get id).isSome = _
          rw [observation_present, observation_present]
          by_cases he : id = u.id
          · simp [lookedAt, he]
          · simp [lookedAt, he, Ne.symm he]
    obtain ⟨k1, k2, k3⟩ := hstep
    refine ⟨?_, fun hn => g2 (k2 hn), fun id => ⟨?_, fun hs => (g3 id).2.1 (by rw [(k3 id).2, hs]; rfl), ?_⟩⟩
    · rw [g1, k1, List.filterMap_cons]
      cases paysOut i <;> simp
    · rw [(g3 id).1, (k3 id).1, List.filter_cons]
      by_cases he : lookedAt i = some id
      · simp [he]
      · simp [he]
    · rintro ⟨e, he, hid⟩
      rcases List.mem_cons.1 he with rfl | he
      · exact (g3 id).2.1 (by rw [(k3 id).2]; simp [hid])
      · exact (g3 id).2.2 ⟨e, he, hid⟩

/-- C80: what a pricer holds. Every instrument is an option on the one asset. The asset is observed when the options look at it, one option
after the other, and there is one payment for each option, in the same order. -/
theorem C80_collected {l : List (ℝ × Instrument)} {p : MonteCarlo} (hp : MonteCarlo.new fuel f l md draw = .ok p) :
    ∃ u, p.model.instruments = [u] ∧ (∀ e ∈ l, lookedAt e.2 = some u.id) ∧ p.model.observations = l.flatMap (fun e => times e.2) ∧
      p.model.flows.length = l.length ∧ ∀ (j : Nat) e, l[j]? = some e → p.model.flows[j]? = paysOut e.2 := by
  have hopt := timeline_options (new_ok hp).choose_spec.choose_spec.1
  obtain ⟨t, context, ht, hc, hb, _, hi⟩ := new_ok hp
  obtain ⟨k, u, obs, ks, paths, he, hs, hpath, hn, hmod⟩ := model_new_ok hb
  obtain ⟨g1, g2, g3⟩ := timeline_collected ht
  have hk : u.id = k := g2 (fun e he => by cases he) (k, u, obs) (by rw [he]; simp)
  have hall : ∀ e ∈ l, lookedAt e.2 = some u.id := by
    intro e hel
    obtain ⟨id, hid⟩ : ∃ id, lookedAt e.2 = some id := by
      have := hopt e hel
      obtain ⟨a, i⟩ := e
      cases i <;> first | exact ⟨_, rfl⟩ | exact absurd this id
    have := (g3 id).2.2 ⟨e, hel, hid⟩
    rw [hid]
    unfold Map.get at this
    rw [he] at this
    by_cases hh : k = id
    · rw [hk, hh]
    · simp [hh] at this
  have hobs : obs = l.flatMap fun e => times e.2 := by
    have := (g3 k).1
    unfold Map.get at this
    rw [he, List.filter_eq_self.2 (fun e h => by rw [hall e h, hk]; simp)] at this
    simpa [Timeline.new, Map.empty] using this
  have hfm : ∀ {l : List (ℝ × Instrument)}, (∀ e ∈ l, lookedAt e.2 = some u.id) →
      (l.filterMap fun e => paysOut e.2).length = l.length ∧ ∀ (j : Nat) e, l[j]? = some e → (l.filterMap fun e => paysOut e.2)[j]? = paysOut e.2 := by
    intro l hl
    induction l with
    | nil => exact ⟨rfl, fun j e h => by simp at h⟩
    | cons e l ih =>
      obtain ⟨i1, i2⟩ := ih (fun e he => hl e (by simp [he]))
      obtain ⟨x, hx⟩ : ∃ x, paysOut e.2 = some x := by
        have := hl e (by simp)
        obtain ⟨a, i⟩ := e
        cases i <;> first | exact ⟨_, rfl⟩ | cases this
      rw [List.filterMap_cons, hx]
      refine ⟨by simp [i1], fun j e' h => ?_⟩
      cases j with
      | zero =>
        cases h
        rw [hx]
        rfl
      | succ j => exact i2 j e' h
  have hfl : p.model.flows = l.filterMap fun e => paysOut e.2 := by
    rw [hmod]
    exact g1
  refine ⟨u, by rw [hmod], hall, by rw [hmod]; exact hobs, ?_, ?_⟩
  · rw [hfl]; exact (hfm hall).1
  · rw [hfl]; exact (hfm hall).2

/-- C80: no other asset has paths. -/
theorem C80_unknown {l : List (ℝ × Instrument)} {p : MonteCarlo} {u v : Instrument} (hp : MonteCarlo.new fuel f l md draw = .ok p)
    (hu : p.model.instruments = [u]) (hv : v.id ≠ u.id) : p.model.pathsOf v = .error .err := by
  obtain ⟨ks, _, h⟩ := new_inStep hp hu
  unfold BlackDiffusion.pathsOf
  rw [h.key]
  simp [Map.get, Ne.symm hv]

theorem keyOf_get : ∀ {l : List Instrument} {n : Nat} {m : Map String Nat}, (l.map Instrument.id).Nodup →
    (∀ i ∈ l, m.get i.id = none) → (∀ (j : Nat) i, l[j]? = some i → (keyOf n l m).get i.id = some (n + j)) ∧
      ∀ id, id ∉ l.map Instrument.id → (keyOf n l m).get id = m.get id
  | [], n, m, _, _ => ⟨fun j i h => by simp at h, fun _ _ => rfl⟩
  | i :: l, n, m, hd, hm => by
    rw [List.map_cons, List.nodup_cons] at hd
    have hne : ∀ j ∈ l, j.id ≠ i.id := fun j hj e => hd.1 (e ▸ List.mem_map_of_mem hj)
    obtain ⟨h1, h2⟩ := keyOf_get (l := l) (n := n + 1) (m := m.insert i.id n) hd.2
      (fun j hj => by rw [Map.get_insert_ne _ _ (hne j hj)]; exact hm j (by simp [hj]))
    rw [keyOf]
    refine ⟨fun j i' h => ?_, fun id hid => ?_⟩
    · cases j with
      | zero =>
        cases h
        rw [h2 _ hd.1, Map.get_insert_self]
        rfl
      | succ j =>
        rw [h1 j i' h]
        congr 1
        omega
    · rw [List.map_cons, List.mem_cons, not_or] at hid
      rw [h2 id hid.2, Map.get_insert_ne _ _ hid.1]

/-- C80: assets with different names have their own places among the paths, in the order in which they are held. -/
theorem C80_key {l : List Instrument} (hd : (l.map Instrument.id).Nodup) :
    (∀ (j : Nat) i, l[j]? = some i → (keyOf 0 l .empty).get i.id = some j) ∧ ∀ id, id ∉ l.map Instrument.id → (keyOf 0 l .empty).get id = none := by
  obtain ⟨h1, h2⟩ := keyOf_get (n := 0) (m := .empty) hd (fun _ _ => rfl)
  exact ⟨fun j i h => by rw [h1 j i h, Nat.zero_add], fun id h => h2 id h⟩

theorem isPureRates_iff (i : Instrument) : isPureRates i = true ↔ IsPayment i := by
  cases i <;> simp [isPureRates, IsPayment]

theorem flowsLoop_val {ctx : PricingContext} {n : Nat} (hn : n ≠ 0) : ∀ {l : List (Instrument × List ℝ)} {D : Nat → ℝ} {total : ℝ},
    (∀ (j : Nat) e, l[j]? = some e → IsPayment e.1 ∧ e.1.price fuel ctx ⟨ctx.spotDate, .open⟩ = .ok (.val (D j))) →
    flowsLoop fuel ctx n l (.val total) = .ok (.val (total + ∑ j ∈ Finset.range l.length, (l.map Prod.snd)[j]!.sum / n * D j))
  | [], D, total, _ => by simp [flowsLoop]
  | (flow, q) :: l, D, total, h => by
    obtain ⟨h1, h2⟩ := h 0 _ rfl
    rw [flowsLoop, if_pos ((isPureRates_iff _).2 h1), h2, ok_bind]
    have hd : ndiv (.val q.sum) (.val (n : ℝ)) = .val (q.sum / n) := by simp [ndiv, hn]
    rw [hd]
    have := flowsLoop_val hn (l := l) (D := fun j => D (j + 1)) (total := total + q.sum / n * D 0)
      (fun j e he => h (j + 1) e he)
    rw [show num2 (· + ·) (.val total) (num2 (· * ·) (.val (q.sum / n)) (.val (D 0))) = Num.val (total + q.sum / n * D 0) from rfl, this]
    congr 2
    rw [List.length_cons, Finset.sum_range_succ']
    simp only [List.map_cons, List.getElem!_cons_succ, List.getElem!_cons_zero]
    ring

/-- C80: what the quantities of an instrument are worth, one column of paths for each payment: the average quantity of each payment times
the value of the payment today, summed over the payments. -/
theorem C80_flows {m : BlackDiffusion} {qs : List (List ℝ)} {D : Nat → ℝ} (hl : qs.length = m.flows.length) (hq : ∀ q ∈ qs, q.length = m.nPaths)
    (hn : m.nPaths ≠ 0) (hD : ∀ (j : Nat) flow, m.flows[j]? = some flow → IsPayment flow ∧
      flow.price fuel m.context.pricingContext ⟨m.context.context.spotDate, .open⟩ = .ok (.val (D j))) :
    m.evaluateFlows fuel qs = .ok (.val (∑ j ∈ Finset.range qs.length, qs[j]!.sum / m.nPaths * D j)) := by
  unfold BlackDiffusion.evaluateFlows
  rw [if_neg (by
    rintro (⟨q, h1, h2⟩ | h)
    · exact h2 (hq q h1)
    · exact h hl)]
  have := flowsLoop_val (fuel := fuel) (ctx := m.context.pricingContext) hn (l := m.flows.zip qs) (D := D) (total := 0) (by
    intro j e he
    rw [List.getElem?_zip_eq_some] at he
    exact hD j e.1 he.1)
  rw [this, zero_add, List.length_zip, hl, min_self, List.map_snd_zip (by rw [hl])]

theorem flowsLoop_payments {ctx : PricingContext} {n : Nat} : ∀ {l : List (Instrument × List ℝ)} {total x : Num ℝ},
    flowsLoop fuel ctx n l total = .ok x → ∀ e ∈ l, IsPayment e.1
  | [], _, _, _, e, he => by cases he
  | (flow, q) :: l, total, x, h, e, he => by
    rw [flowsLoop] at h
    split at h
    · rename_i hp
      obtain ⟨v, _, h⟩ := bind_ok h
      rcases List.mem_cons.1 he with rfl | he
      · exact (isPureRates_iff _).1 hp
      · exact flowsLoop_payments h e he
    · cases h

/-- C80: nothing but payments of one unit can be valued, and there must be one column for each of them, with an entry for each path. -/
theorem C80_refused {m : BlackDiffusion} {qs : List (List ℝ)} {x : Num ℝ} (h : m.evaluateFlows fuel qs = .ok x) :
    qs.length = m.flows.length ∧ (∀ q ∈ qs, q.length = m.nPaths) ∧ ∀ flow ∈ m.flows, IsPayment flow := by
  unfold BlackDiffusion.evaluateFlows at h
  split at h
  · cases h
  · rename_i hc
    rw [not_or, not_not] at hc
    refine ⟨hc.2, fun q hq => by_contra fun hne => hc.1 ⟨q, hq, hne⟩, fun flow hf => ?_⟩
    obtain ⟨j, hj, rfl⟩ := List.getElem_of_mem hf
    exact flowsLoop_payments h (m.flows[j], qs[j]'(by rw [hc.2]; exact hj)) (by
      rw [List.mem_iff_getElem]
      exact ⟨j, by rw [List.length_zip, hc.2, min_self]; exact hj, by simp⟩)

theorem flowsLoop_safe {ctx : PricingContext} {n : Nat} : ∀ {l : List (Instrument × List ℝ)} {total : Num ℝ},
    (∀ e ∈ l, e.1.price fuel ctx ⟨ctx.spotDate, .open⟩ ≠ .error .panic) → flowsLoop fuel ctx n l total ≠ .error .panic
  | [], _, _ => by simp [flowsLoop]
  | (flow, q) :: l, total, h => by
    rw [flowsLoop]
    split
    · have h1 := h (flow, q) (by simp)
      dsimp only at h1
      cases hp : flow.price fuel ctx ⟨ctx.spotDate, .open⟩ with
      | ok v => exact flowsLoop_safe fun e he => h e (by simp [he])
      | error e =>
        rw [hp] at h1
        exact h1
    · intro h
      cases h

/-- C80. Quantities of the right shape are valued or refused with an error, whatever the flows are, if their prices do not panic. -/
theorem C80_no_panic {m : BlackDiffusion} {qs : List (List ℝ)} (hl : qs.length = m.flows.length) (hq : ∀ q ∈ qs, q.length = m.nPaths)
    (hp : ∀ flow ∈ m.flows, flow.price fuel m.context.pricingContext ⟨m.context.context.spotDate, .open⟩ ≠ .error .panic) :
    m.evaluateFlows fuel qs ≠ .error .panic := by
  unfold BlackDiffusion.evaluateFlows
  rw [if_neg (by
    rintro (⟨q, h1, h2⟩ | h)
    · exact h2 (hq q h1)
    · exact h hl)]
  exact flowsLoop_safe fun e he => hp e.1 (List.of_mem_zip he).1

theorem legs_mono {F w δ : Nat → ℝ} {n : Nat → Nat} (hn : ∀ i, n i ≠ 0) : ∀ (len o : Nat) {ls : List Leg},
    legs (.val (before w o)) (((List.range' o len).map fun i => (⟨.val (F i - δ i), .val (w i), .val (δ i)⟩ : Observed)).zip
      ((List.range' o len).map n)) = .ok ls → ∀ i, o ≤ i → i < o + len → before w i ≤ w i
  | 0, o, ls, h, i, h1, h2 => by omega
  | len + 1, o, ls, h, i, h1, h2 => by
    rw [List.range'_succ, List.map_cons, List.map_cons, List.zip_cons_cons, legs] at h
    dsimp only at h
    have hd : ndiv (num2 (· - ·) (.val (w o)) (.val (before w o))) (.val ((n o : ℕ) : ℝ)) = .val ((w o - before w o) / n o) := by
      simp [ndiv, num2, hn o]
    rw [hd] at h
    split at h
    · cases h
    · rename_i hneg
      obtain ⟨more, h3, _⟩ := bind_ok h
      rcases Nat.eq_or_lt_of_le h1 with rfl | hlt
      · have : ¬ (w o - before w o) / n o < 0 := hneg
        by_contra hc
        exact this (div_neg_of_neg_of_pos (by linarith) (by exact_mod_cast Nat.pos_of_ne_zero (hn o)))
      · exact legs_mono hn len (o + 1) h3 i hlt (by omega)

/-- C80: a pricer is made only in a market in which the variance of the asset does not fall from one observation to the next. -/
theorem C80_variance {l : List (ℝ × Instrument)} {p : MonteCarlo} {u : Instrument} {F w δ : Nat → ℝ}
    (hp : MonteCarlo.new fuel f l md draw = .ok p) (hu : p.model.instruments = [u])
    (hm : Spec.Market fuel p.model.context.pricingContext u p.model.observations F w δ) :
    ∀ i < p.model.observations.length, before w i ≤ w i := by
  obtain ⟨ks, hs, h0⟩ := new_inStep hp hu
  obtain ⟨paths, _, h⟩ := h0.paths
  have hks := substepping_val hm hs
  rw [hks] at h
  generalize rows f.nPaths _ draw = gs at h
  obtain ⟨last, fwd, surface, hl, hf, hv, hsee⟩ := hm.seen
  unfold fetchPath at h
  rw [hl] at h
  dsimp only at h
  split at h
  · cases h
  rw [hf, ok_bind, hv, ok_bind] at h
  have ho : each (observe fuel fwd surface) p.model.observations =
      .ok ((List.range' 0 p.model.observations.length).map fun i => (⟨.val (F i - δ i), .val (w i), .val (δ i)⟩ : Observed)) := by
    rw [each_iff, List.forall₂_iff_get]
    refine ⟨by simp, fun i h1 h2 => ?_⟩
    have := hsee i (p.model.observations.get ⟨i, h1⟩) (by simp [List.getElem?_eq_getElem h1])
    rw [observe_val this.1 this.2.1 this.2.2]
    simp
  rw [ho, ok_bind] at h
  obtain ⟨ls, h1, _⟩ := bind_ok h
  rw [List.range_eq_range'] at h1
  intro i hi
  exact legs_mono (F := F) (w := w) (δ := δ) (fun i => by unfold steps; omega) _ 0 h1 i (Nat.zero_le _) (by omega)

/-- C80: what the factory makes. It is a pricer on the market data it was given, for the instrument alone, held once, if the past fixings
change nothing about it, and otherwise for what they turn it into. -/
theorem C80_factory {i : Instrument} {table : FixingTable ℝ} {p : MonteCarlo} (h : monteCarloFactory fuel f i table md draw = .ok p) :
    p.model.context.context = md ∧ p.factory = f ∧ ((i.fix table = .ok none ∧ p.instruments = [(1, i)]) ∨ i.fix table = .ok (some p.instruments)) := by
  have hnew : ∀ {l}, MonteCarlo.new fuel f l md draw = .ok p → p.model.context.context = md ∧ p.factory = f ∧ p.instruments = l := by
    intro l h
    obtain ⟨t, context, ht, hc, hb, hf, hi⟩ := new_ok h
    obtain ⟨_, _, _, _, _, _, _, _, _, hmod⟩ := model_new_ok hb
    refine ⟨?_, hf, hi⟩
    rw [hmod]
    exact (new_context hc).1
  unfold monteCarloFactory at h
  obtain ⟨o, h1, h2⟩ := bind_ok h
  cases o with
  | none =>
    obtain ⟨g1, g2, g3⟩ := hnew h2
    exact ⟨g1, g2, .inl ⟨h1, g3⟩⟩
  | some parts =>
    obtain ⟨g1, g2, g3⟩ := hnew h2
    exact ⟨g1, g2, .inr (by rw [g3]; exact h1)⟩

/-- C80: a pricer of two options on A, and what one unit of their payment on every path is worth. -/
example (hh : f.pathSubstep ≠ 0) (hn : f.nPaths ≠ 0) :
    ∃ p, MonteCarlo.new fuel f [(2, optionA 90)] (sampleMarket 100 (.zero 0)) draw = .ok p ∧
      p.model.evaluateFlows fuel [(List.range f.nPaths).map fun _ => 1] =
        .ok (.val (((List.range f.nPaths).map fun _ => (1 : ℝ)).sum / f.nPaths * 1)) := by
  obtain ⟨p, hp, h⟩ := held_new (fuel := fuel) hh hn draw
  obtain ⟨⟨fw, paths, dr, hf, _, rfl⟩, _⟩ := h
  refine ⟨_, hp, ?_⟩
  rw [C80_flows (D := fun _ => 1) rfl (by simp) hn (by
    intro j flow hj
    cases j with
    | zero =>
      cases hj
      exact ⟨trivial, sample_discount⟩
    | succ j => simp at hj)]
  simp

/-- C80: two assets with names of their own. -/
example : (keyOf 0 [.equity "B" "C" id, equityA] .empty).get "A" = some 1 :=
  (C80_key (l := [.equity "B" "C" id, equityA]) (by decide)).1 1 equityA rfl

end QM.MonteCarlo
