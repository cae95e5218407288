import Verif.MonteCarlo.Props
import Verif.Risk.PanicProps

/-!
# Property C88, continued: Monte-Carlo pricing does not bring the program down

Through the pricer factory only a single option can be priced, and neither pricing it nor its risk reports panic, on market data
as they come, if the model is asked for at least one path and for steps that are not zero. Both are needed.
-/

namespace QM.MonteCarlo
open QM.Interp QM.Vol QM.Instruments QM.Fixings QM.Market QM.Risk QM.Dividends QM.Curves QM.Forward

variable {fuel : Nat}

/-! ## Paths -/

theorem plain_variance {s : VolSurface} (h : Plain s) (t : Point) (k : Num ℝ) : s.variance fuel t k ≠ .error .panic :=
  bind_safe (plain_variances h t [k]).1 (fun vs hvs => first_safe ((plain_variances h t [k]).2 vs hvs))

theorem stepCount_safe {h : ℝ} (hh : h ≠ 0) (x : Num ℝ) : stepCount x h ≠ .error .panic := by
  cases x with
  | nan => simp [stepCount]
  | val x => simp [stepCount, hh]

theorem substepsOf_safe {fwd : Fwd} (hf : Answers fwd) {s : VolSurface} (hv : Plain s) {h : ℝ} (hh : h ≠ 0) :
    ∀ (l : List (Point × Nat)) (prev : Num ℝ), substepsOf fuel fwd s h prev l ≠ .error .panic
  | [], _ => by simp [substepsOf]
  | (obs, k) :: rest, prev => by
    rw [substepsOf]
    refine bind_safe (hf _) (fun atm _ => bind_safe (plain_variance hv _ _) (fun var _ => ?_))
    dsimp only
    split
    · simp
    · exact bind_safe (stepCount_safe hh _) (fun _ _ => bind_safe (substepsOf_safe hf hv hh rest var) (fun _ _ => by
        simp [pure, Except.pure]))

theorem context_forward {p : Prefetch} (h : SoundP p) (i : Instrument) (hwm : Int) :
    p.pricingContext.forwardCurve i hwm ≠ .error .panic ∧ ∀ f, p.pricingContext.forwardCurve i hwm = .ok f → Answers f :=
  ⟨find_safe _ _, fun _ hf => all_find h.forwards hf⟩

theorem context_vol {p : Prefetch} (h : SoundP p) (i : Instrument) (hwm : Int) (f : Unit → Outcome Fwd) :
    p.pricingContext.volSurface i hwm f ≠ .error .panic ∧ ∀ s, p.pricingContext.volSurface i hwm f = .ok s → Plain s :=
  ⟨find_safe _ _, fun _ hf => all_find h.vols hf⟩

theorem substepsAll_safe {p : Prefetch} (hp : SoundP p) {h : ℝ} (hh : h ≠ 0) (obs : List Point) (hwm : Int) :
    ∀ (l : List Instrument) (ks : List Nat), substepsAll fuel p.pricingContext obs hwm h l ks ≠ .error .panic
  | [], _ => by simp [substepsAll]
  | i :: rest, ks => by
    rw [substepsAll]
    exact bind_safe (context_forward hp i hwm).1 (fun f hf => bind_safe (context_vol hp i hwm _).1 (fun s hs =>
      bind_safe (substepsOf_safe ((context_forward hp i hwm).2 f hf) ((context_vol hp i hwm _).2 s hs) hh _ _) (fun _ _ =>
        substepsAll_safe hp hh obs hwm rest _)))

theorem substepping_safe {p : Prefetch} (hp : SoundP p) {h : ℝ} (hh : h ≠ 0) (obs : List Point) (l : List Instrument) :
    calculateSubstepping fuel p.pricingContext obs l h ≠ .error .panic := by
  unfold calculateSubstepping
  split
  · simp
  · exact substepsAll_safe hp hh _ _ _ _

theorem length_le_sum {l : List Nat} (h : ∀ i, 1 ≤ l.getD i 1) : l.length ≤ l.sum := by
  induction l with
  | nil => simp
  | cons a l ih =>
    have h0 : 1 ≤ a := h 0
    have := ih (fun i => h (i + 1))
    simp only [List.length_cons, List.sum_cons]
    omega

theorem advance_safe (sigma : Num ℝ) : ∀ (n : Nat) (x : Num ℝ) (gs : List ℝ), n ≤ gs.length →
    ∃ y, advance sigma n x gs = .ok (y, gs.drop n)
  | 0, x, gs, _ => ⟨x, by simp [advance]⟩
  | n + 1, x, [], h => by simp at h
  | n + 1, x, g :: gs, h => by
    obtain ⟨y, hy⟩ := advance_safe sigma n (num2 (fun p s => p * (1 + g * s)) x sigma) gs (by simpa using h)
    exact ⟨y, by rw [advance, hy, List.drop_succ_cons]⟩

theorem walk_safe : ∀ (ls : List Leg) (x : Num ℝ) (gs : List ℝ), (ls.map Leg.steps).sum ≤ gs.length → walk x gs ls ≠ .error .panic
  | [], _, _, _ => by simp [walk]
  | l :: rest, x, gs, h => by
    rw [List.map_cons, List.sum_cons] at h
    obtain ⟨y, hy⟩ := advance_safe l.sigma l.steps x gs (by omega)
    rw [walk, hy, Instruments.ok_bind]
    exact bind_safe (walk_safe rest y (gs.drop l.steps) (by rw [List.length_drop]; omega)) (fun _ _ => by simp [pure, Except.pure])

theorem legs_safe : ∀ (l : List (Observed × Nat)) (prev : Num ℝ), legs prev l ≠ .error .panic ∧
    ∀ out, legs prev l = .ok out → out.map Leg.steps = l.map Prod.snd
  | [], _ => ⟨by simp [legs], fun out h => by rw [legs] at h; cases h; rfl⟩
  | (o, n) :: rest, prev => by
    obtain ⟨h1, h2⟩ := legs_safe rest o.variance
    rw [legs]
    split
    · exact ⟨by simp, fun out h => by cases h⟩
    · refine ⟨bind_safe h1 (fun _ _ => by simp [pure, Except.pure]), fun out h => ?_⟩
      obtain ⟨more, hm, h⟩ := bind_ok h
      have := pure_ok h
      subst this
      simp [h2 more hm]

theorem observe_safe {fwd : Fwd} (hf : Answers fwd) {s : VolSurface} (hv : Plain s) (t : Point) : observe fuel fwd s t ≠ .error .panic := by
  refine bind_safe (hf _) (fun f _ => bind_safe (plain_variance hv _ _) (fun v _ => ?_))
  rw [(plain_facts (fuel := 0) hv).2.2.1]
  simp [Bind.bind, Except.bind, pure, Except.pure]

theorem fetchPath_safe {p : Prefetch} (hp : SoundP p) (i : Instrument) {obs : List Point} (ho : obs ≠ []) {gs : List (List ℝ)} {ks : List Nat}
    (hk : ks.length = obs.length) (hs : obs.length ≤ ks.sum) (hg : ∀ g ∈ gs, g.length = ks.sum) :
    fetchPath fuel i p.pricingContext obs gs ks ≠ .error .panic ∧
      ∀ out, fetchPath fuel i p.pricingContext obs gs ks = .ok out → out.length = gs.length := by
  unfold fetchPath
  cases hl : obs.getLast? with
  | none => exact absurd (List.getLast?_eq_none_iff.1 hl) ho
  | some last =>
    dsimp only
    rw [if_neg (by omega)]
    constructor
    · refine bind_safe (context_forward hp i _).1 (fun f hf => bind_safe (context_vol hp i _ _).1 (fun s hv =>
        bind_safe (each_safe (fun t _ => observe_safe ((context_forward hp i _).2 f hf) ((context_vol hp i _ _).2 s hv) t)) (fun os hos =>
          bind_safe (legs_safe _ _).1 (fun ls hls => each_safe (fun g hgm => walk_safe _ _ _ ?_)))))
      rw [(legs_safe _ _).2 ls hls, List.map_snd_zip (by rw [each_length hos]; omega), hg g hgm]
    · intro out h
      obtain ⟨f, _, h⟩ := bind_ok h
      obtain ⟨s, _, h⟩ := bind_ok h
      obtain ⟨os, _, h⟩ := bind_ok h
      obtain ⟨ls, _, h⟩ := bind_ok h
      exact each_length h

theorem correlation_safe (l : List Instrument) : correlationRoot marketCorrelation l ≠ .error .panic := by
  refine bind_safe (bind_safe (each_safe (fun i _ => each_safe (fun j _ => by simp [marketCorrelation]))) (fun _ _ => by
    simp [pure, Except.pure])) (fun c _ => ?_)
  cases cholesky c <;> simp [pure, Except.pure]

/-- C88. Building the Black diffusion for any timeline, on a context of market data as they come, does not panic if there is at
least one path and the step is not zero. -/
theorem C88_model {p : Prefetch} (hp : SoundP p) {f : ModelFactory} (hh : f.pathSubstep ≠ 0) (hn : f.nPaths ≠ 0) (t : Timeline) (draw : Draws) :
    BlackDiffusion.new fuel f t p draw ≠ .error .panic := by
  unfold BlackDiffusion.new
  dsimp only
  refine bind_safe (substepping_safe hp hh _ _) (fun ks hks => ?_)
  obtain ⟨ho, hl, h1⟩ := substepping_ok hks
  have hsum := length_le_sum h1
  have hpos := List.length_pos_iff.2 ho
  have hi : (t.observations.entries.map Prod.snd).map Prod.fst ≠ [] := by
    intro e
    apply ho
    rw [List.map_eq_nil_iff] at e
    rw [e]
    rfl
  refine bind_safe ?_ (fun gs hgs => bind_safe ?_ (fun _ _ => by simp [pure, Except.pure]))
  · unfold fetchCorrelatedGaussians
    rw [if_neg]
    · exact bind_safe (correlation_safe _) (fun _ _ => by simp [pure, Except.pure])
    · rintro (h | h | h)
      · omega
      · exact hi (List.length_eq_zero_iff.1 h)
      · exact hn h
  · unfold fetchPaths
    rw [if_neg]
    · refine each_safe (fun e he => (fetchPath_safe hp _ ho hl (by omega) ?_).1)
      intro g hg
      have hmem := List.of_mem_zip he
      unfold fetchCorrelatedGaussians at hgs
      split at hgs
      · cases hgs
      · obtain ⟨root, _, hgs⟩ := bind_ok hgs
        have := pure_ok hgs
        subst this
        obtain ⟨a, _, ha⟩ := List.mem_map.1 hmem.2
        rw [← ha] at hg
        obtain ⟨b, _, hb⟩ := List.mem_map.1 hg
        rw [← hb]
        simp
    · rintro (h | h)
      · exact ho (List.length_eq_zero_iff.1 h)
      · exact hi (List.length_eq_zero_iff.1 h)

theorem timeline_safe : ∀ (l : List (ℝ × Instrument)) (t : Timeline), timeline l t ≠ .error .panic
  | [], _ => by simp [timeline]
  | (_, i) :: rest, t => by
    rw [timeline]
    refine bind_safe ?_ (fun t' _ => timeline_safe rest t')
    cases i <;> simp [mcDependencies]

/-- C88. Making a Monte-Carlo pricer for any portfolio does not panic. -/
theorem C88_monte {md : MarketData} (h : Sound md) {f : ModelFactory} (hh : f.pathSubstep ≠ 0) (hn : f.nPaths ≠ 0)
    (l : List (ℝ × Instrument)) (draw : Draws) : MonteCarlo.new fuel f l md draw ≠ .error .panic :=
  bind_safe (timeline_safe _ _) (fun _ _ => bind_safe (prefetch_safe h _).1 (fun c hc =>
    bind_safe (C88_model ((prefetch_safe h _).2 c hc) hh hn _ _) (fun _ _ => by simp [pure, Except.pure])))

/-! ## One option -/

/-- An option, its underlying and how many observations it makes. -/
inductive Watches : Instrument → Vanilla → Instrument → Nat → Prop where
  | spot (v : Vanilla) (u : Instrument) (k : ℝ) : Watches (.spotStarting v u k) v u 1
  | forward (v : Vanilla) (u : Instrument) (k : ℝ) (d : DateTime) (t : Point) : Watches (.forwardStarting v u k d t) v u 2

/-- A model for one option. -/
structure Fits (f : ModelFactory) (v : Vanilla) (u : Instrument) (n : Nat) (m : BlackDiffusion) : Prop where
  context : SoundP m.context
  key : m.key = ⟨[(u.id, 0)]⟩
  instruments : m.instruments = [u]
  flows : m.flows = [expiryFlow v]
  observations : m.observations.length = n
  some : n ≠ 0
  substepping : m.substepping.length = m.observations.length
  steps : m.observations.length ≤ m.substepping.sum
  nPaths : m.nPaths = f.nPaths
  gaussians : ∃ g, m.gaussians = [g] ∧ g.length = f.nPaths ∧ ∀ r ∈ g, r.length = m.substepping.sum
  paths : m.paths.length = 1 ∧ ∀ x ∈ m.paths, x.length = f.nPaths

/-- A pricer for one option. -/
def Fine (f : ModelFactory) (p : MonteCarlo) : Prop :=
  p.factory = f ∧ ∃ w i v u n, p.instruments = [(w, i)] ∧ Watches i v u n ∧ Fits f v u n p.model

theorem key_get {id uid : String} {a : Nat} (h : (⟨[(uid, 0)]⟩ : Map String Nat).get id = some a) : a = 0 := by
  unfold Map.get at h
  by_cases e : uid = id
  · simp [e] at h; exact h.symm
  · simp [e] at h

theorem fits_price {f : ModelFactory} {i u : Instrument} {v : Vanilla} {n : Nat} (hw : Watches i v u n) {m : BlackDiffusion}
    (h : Fits f v u n m) : mcPrice fuel m i ≠ .error .panic := by
  have hpaths : ∀ x, m.pathsOf u = .ok x → x.length = m.nPaths := by
    intro x hx
    unfold BlackDiffusion.pathsOf at hx
    rw [h.key] at hx
    split at hx
    · cases hx
    · rename_i a ha
      have := key_get ha
      subst this
      cases hx
      obtain ⟨h1, h2⟩ := h.paths
      match hp : m.paths, h1 with
      | [x], _ => rw [h.nPaths]; exact h2 x (by rw [hp]; simp)
  have hev : ∀ q : List ℝ, q.length = m.nPaths → m.evaluateFlows fuel [q] ≠ .error .panic := by
    intro q hq
    unfold BlackDiffusion.evaluateFlows
    rw [if_neg (by rw [h.flows]; simp [hq]), h.flows]
    show flowsLoop fuel _ _ [(expiryFlow v, q)] _ ≠ _
    unfold flowsLoop
    rw [if_pos (show isPureRates (expiryFlow v) = true from rfl)]
    exact bind_safe (C88_price (C88_prefetch h.context) _ _) (fun _ _ => by simp [flowsLoop])
  have hsafe : m.pathsOf u ≠ .error .panic := by
    unfold BlackDiffusion.pathsOf
    split <;> simp
  cases hw with
  | spot v u k =>
    refine bind_safe hsafe (fun x hx => ?_)
    rw [if_neg (by rw [h.observations]; simp)]
    exact hev _ (by rw [List.length_map, hpaths x hx])
  | forward v u k d t =>
    refine bind_safe hsafe (fun x hx => ?_)
    rw [if_neg (by rw [h.observations]; simp)]
    exact hev _ (by rw [List.length_map, hpaths x hx])

theorem fine_price {f : ModelFactory} {p : MonteCarlo} (h : Fine f p) : p.price fuel ≠ .error .panic := by
  obtain ⟨_, w, i, v, u, n, hi, hw, hf⟩ := h
  unfold MonteCarlo.price
  rw [hi]
  unfold mcLoop
  exact bind_safe (fits_price hw hf) (fun _ _ => by simp [mcLoop])

/-- A portfolio that can be priced only if it is a single option. -/
def Single (l : List (ℝ × Instrument)) : Prop := ∀ t, timeline l .new = .ok t → l = [] ∨ ∃ w i, l = [(w, i)]

theorem single_fine {md : MarketData} (h : Sound md) {f : ModelFactory} {l : List (ℝ × Instrument)} (hl : Single l) {draw : Draws}
    {p : MonteCarlo} (hp : MonteCarlo.new fuel f l md draw = .ok p) : Fine f p := by
  obtain ⟨t, c, ht, hc, hm, hf, hi⟩ := new_ok hp
  obtain ⟨k, u', obs, ks, paths, he, hks, hpath, hn, hmod⟩ := model_new_ok hm
  obtain ⟨ho, hlen, h1⟩ := substepping_ok hks
  have hsum := length_le_sum h1
  have hsp := (prefetch_safe h _).2 c hc
  have hrow : ∀ r ∈ rows f.nPaths ks.sum draw, r.length = ks.sum := by
    intro r hr
    obtain ⟨a, _, ha⟩ := List.mem_map.1 hr
    rw [← ha]
    simp
  have hpl := (fetchPath_safe (fuel := fuel) hsp u' ho hlen (by omega) hrow).2 paths hpath
  have hrl : (rows f.nPaths ks.sum draw).length = f.nPaths := by simp [rows]
  rcases hl t ht with rfl | ⟨w, i, rfl⟩
  · rw [timeline] at ht
    cases ht
    cases he
  · rw [timeline] at ht
    obtain ⟨t', ht', ht⟩ := bind_ok ht
    rw [timeline] at ht
    cases ht
    have fits : ∀ v u n, t.flows = [expiryFlow v] → u' = u → obs.length = n → n ≠ 0 → Fits f v u n p.model := by
      intro v u n hfl hu hob hn0
      subst hu
      rw [hmod]
      exact ⟨hsp, rfl, rfl, hfl, hob, hn0, hlen, by show obs.length ≤ ks.sum; omega, rfl, ⟨_, rfl, hrl, hrow⟩,
        rfl, fun x hx => by rw [List.mem_singleton.1 hx, hpl, hrl]⟩
    refine ⟨hf, w, i, ?_⟩
    cases i with
    | spotStarting v u k =>
      cases ht'
      refine ⟨v, u, 1, hi, .spot v u k, fits v u 1 rfl ?_ ?_ (by simp)⟩
      · cases he; rfl
      · cases he; rfl
    | forwardStarting v u fr d s =>
      cases ht'
      have : ((Timeline.new.observation u s).observation u v.expiryTime).observations.entries = [(u.id, u, [s, v.expiryTime])] := by
        simp [Timeline.observation, Timeline.new, Map.get, Map.insert, Map.empty]
      have he : ((Timeline.new.observation u s).observation u v.expiryTime).observations.entries = [(k, u', obs)] := he
      rw [this] at he
      obtain ⟨_, he1, he2⟩ : u.id = k ∧ u = u' ∧ [s, v.expiryTime] = obs := by simpa using (List.cons.inj he).1
      exact ⟨v, u, 2, hi, .forward v u _ d s, fits v u 2 (by simp [Timeline.flow, observation_flows, Timeline.new]) he1.symm (by rw [← he2]; rfl) (by simp)⟩
    | _ => cases ht'

theorem single_decompose (v : Vanilla) (u : Instrument) (k x w : ℝ) :
    Single ((Instruments.decompose v u k x).map (fun p => (w * p.1, p.2))) := by
  intro t ht
  unfold Instruments.decompose at ht ⊢
  split at ht
  · dsimp only at ht ⊢
    split at ht
    · cases ht
    · rename_i h1 h2
      rw [if_neg h2]
      exact .inl rfl
  · split at ht
    · cases ht
    · rename_i h1 h2
      rw [if_neg h2]
      exact .inl rfl

theorem fixSpot_single {table : FixingTable ℝ} {v : Vanilla} {u : Instrument} {k : ℝ} {l : List (ℝ × Instrument)}
    (h : fixSpotStarting table v u k = .ok (some l)) (w : ℝ) : Single (l.map (fun p => (w * p.1, p.2))) := by
  obtain ⟨o, _, h⟩ := bind_ok h
  cases o with
  | none => cases h
  | some x => cases h; exact single_decompose _ _ _ _ _

theorem single_one (w : ℝ) (i : Instrument) : Single [(w, i)] := fun _ _ => .inr ⟨w, i, rfl⟩

theorem fix_single {table : FixingTable ℝ} {i : Instrument} {l : List (ℝ × Instrument)} (h : i.fix table = .ok (some l)) (w : ℝ) :
    Single (l.map (fun p => (w * p.1, p.2))) := by
  cases i with
  | spotStarting v u k =>
    rw [Instrument.fix] at h
    exact fixSpot_single h w
  | forwardStarting v u k d s =>
    rw [Instrument.fix] at h
    obtain ⟨o, _, h⟩ := bind_ok h
    cases o with
    | none => cases h
    | some x =>
      obtain ⟨o, ho, h⟩ := bind_ok h
      cases o with
      | none => cases h; exact single_one _ _
      | some y => cases h; exact fixSpot_single ho w
  | basket a b c parts =>
    rw [Instrument.fix] at h
    obtain ⟨s, _, h⟩ := bind_ok h
    split at h
    · cases h; exact single_one _ _
    · cases h
  | _ => simp [Instrument.fix] at h

/-! ## Bumps and reports -/

/-- A save area of a model for one option. -/
structure SoundM (f : ModelFactory) (s : SavedBlackDiffusion) : Prop where
  data : SoundS s.savedData
  paths : ∀ e ∈ s.paths.entries, e.2.length = f.nPaths

variable {f : ModelFactory} {v : Vanilla} {u : Instrument} {n : Nat}

/-- A step that does not panic and leaves a model for the same option. -/
def KeepsM (f : ModelFactory) (v : Vanilla) (u : Instrument) (n : Nat) {α : Type} (r : Outcome α × BlackDiffusion × Option SavedBlackDiffusion) :
    Prop := r.1 ≠ .error .panic ∧ Fits f v u n r.2.1 ∧ ∀ s, r.2.2 = some s → SoundM f s

theorem keepsM_error {α β : Type} {e : Fault} {m : BlackDiffusion} {save : Option SavedBlackDiffusion}
    (h : KeepsM f v u n ((.error e : Outcome α), m, save)) : KeepsM f v u n ((.error e : Outcome β), m, save) :=
  ⟨fun he => h.1 (by cases he; rfl), h.2⟩

theorem fits_paths {m : BlackDiffusion} (h : Fits f v u n m) {ps : List (List (List (Num ℝ)))} (h1 : ps.length = 1)
    (h2 : ∀ x ∈ ps, x.length = f.nPaths) : Fits f v u n { m with paths := ps } :=
  ⟨h.context, h.key, h.instruments, h.flows, h.observations, h.some, h.substepping, h.steps, h.nPaths, h.gaussians, h1, h2⟩

theorem fits_context {m : BlackDiffusion} (h : Fits f v u n m) {c : Prefetch} (hc : SoundP c) : Fits f v u n { m with context := c } :=
  ⟨hc, h.key, h.instruments, h.flows, h.observations, h.some, h.substepping, h.steps, h.nPaths, h.gaussians, h.paths⟩

theorem fits_fetch {m : BlackDiffusion} (h : Fits f v u n m) {g : List (List ℝ)} (hg : m.gaussians = [g]) :
    fetchPath fuel u m.context.pricingContext m.observations g m.substepping ≠ .error .panic ∧
      ∀ x, fetchPath fuel u m.context.pricingContext m.observations g m.substepping = .ok x → x.length = f.nPaths := by
  obtain ⟨g', hg', hl, hr⟩ := h.gaussians
  rw [hg] at hg'
  cases hg'
  have ho : m.observations ≠ [] := by
    intro e
    have := h.observations
    rw [e] at this
    exact h.some this.symm
  obtain ⟨h1, h2⟩ := fetchPath_safe (fuel := fuel) h.context u ho h.substepping h.steps hr
  exact ⟨h1, fun x hx => by rw [h2 x hx, hl]⟩

theorem refetch_fits {m : BlackDiffusion} (h : Fits f v u n m) (id : String) (bumped : Bool) {save : Option SavedBlackDiffusion}
    (hs : ∀ s, save = some s → SoundM f s) : KeepsM f v u n (m.refetch fuel id bumped save) := by
  unfold BlackDiffusion.refetch
  split
  · exact ⟨by simp, h, hs⟩
  · cases ha : m.key.get id with
    | none => exact ⟨by simp, h, hs⟩
    | some a =>
      rw [h.key] at ha
      have := key_get ha
      subst this
      obtain ⟨g, hg, _, _⟩ := h.gaussians
      obtain ⟨p1, p2⟩ := h.paths
      obtain ⟨x, hx⟩ := List.length_eq_one_iff.1 p1
      have hs' : ∀ s, (save.map fun s => { s with paths := s.paths.insert 0 (m.paths.getD 0 []) }) = some s → SoundM f s := by
        intro s he
        cases save with
        | none => cases he
        | some s' =>
          cases he
          refine ⟨(hs s' rfl).data, fun e hm => ?_⟩
          rcases List.mem_cons.1 hm with rfl | hm
          · rw [hx]; exact p2 x (by rw [hx]; simp)
          · exact (hs s' rfl).paths e (List.mem_filter.1 hm).1
      have e1 : m.instruments[0]? = some u := by rw [h.instruments]; rfl
      have e2 : m.gaussians.getD 0 [] = g := by rw [hg]; rfl
      dsimp only
      rw [e1, e2]
      obtain ⟨f1, f2⟩ := fits_fetch (fuel := fuel) h hg
      dsimp only
      cases hfp : fetchPath fuel u m.context.pricingContext m.observations g m.substepping with
      | error e => rw [hfp] at f1; exact ⟨fun he => f1 (by cases he; rfl), h, hs'⟩
      | ok y =>
        refine ⟨by simp, fits_paths (ps := m.paths.set 0 y) h (by rw [hx]; rfl) ?_, hs'⟩
        intro z hz
        rw [hx] at hz
        rw [List.mem_singleton.1 hz]
        exact f2 y hfp

theorem refetchAllOf_fits (bumped : Bool) (l : List String) : ∀ {m : BlackDiffusion}, Fits f v u n m → ∀ {save : Option SavedBlackDiffusion},
    (∀ s, save = some s → SoundM f s) → KeepsM f v u n (BlackDiffusion.refetchAllOf fuel bumped l m save) := by
  induction l with
  | nil => intro m h save hs; exact ⟨by simp [BlackDiffusion.refetchAllOf], h, hs⟩
  | cons id l ih =>
    intro m h save hs
    unfold BlackDiffusion.refetchAllOf
    have k := refetch_fits (fuel := fuel) h id bumped hs
    generalize m.refetch fuel id bumped save = r at k
    obtain ⟨o, q, sv⟩ := r
    cases o with
    | error e => exact keepsM_error k
    | ok _ => exact ih k.2.1 k.2.2

theorem refetchAll_fits {m : BlackDiffusion} (h : Fits f v u n m) :
    (m.refetchAll fuel).1 ≠ .error .panic ∧ Fits f v u n (m.refetchAll fuel).2 := by
  unfold BlackDiffusion.refetchAll
  obtain ⟨g, hg, _, _⟩ := h.gaussians
  obtain ⟨f1, f2⟩ := fits_fetch (fuel := fuel) h hg
  have ho : m.observations.length ≠ 0 := by rw [h.observations]; exact h.some
  have he : fetchPaths fuel m.context.pricingContext m.observations m.gaussians m.instruments m.substepping =
      (fetchPath fuel u m.context.pricingContext m.observations g m.substepping).map (fun x => [x]) := by
    unfold fetchPaths
    rw [if_neg (by rw [h.instruments]; simp; exact fun e => ho (by rw [e]; rfl)), h.instruments, hg]
    show each _ [(u, g)] = _
    unfold each
    cases fetchPath fuel u m.context.pricingContext m.observations g m.substepping <;> rfl
  rw [he]
  cases hfp : fetchPath fuel u m.context.pricingContext m.observations g m.substepping with
  | error e => rw [hfp] at f1; exact ⟨fun he => f1 (by cases he; rfl), h⟩
  | ok y =>
    refine ⟨by simp [Except.map], fits_paths (ps := [y]) h rfl ?_⟩
    intro z hz
    rw [List.mem_singleton.1 hz]
    exact f2 y hfp

theorem bump_fits {m : BlackDiffusion} (h : Fits f v u n m) (b : Bump) {save : Option SavedBlackDiffusion}
    (hs : ∀ s, save = some s → SoundM f s) : KeepsM f v u n (m.bump fuel b save) := by
  obtain ⟨h1, h2, h3⟩ := C88_bump h.context b (save := save.map SavedBlackDiffusion.savedData) (by
    intro s hx
    cases save with
    | none => cases hx
    | some s' => cases hx; exact (hs s' rfl).data)
  unfold BlackDiffusion.bump
  generalize m.context.bump b (save.map SavedBlackDiffusion.savedData) = r at h1 h2 h3
  obtain ⟨o, c, sv⟩ := r
  have hc := fits_context h h2
  have hsv : ∀ s, (save.map fun s => { s with savedData := sv.getD s.savedData }) = some s → SoundM f s := by
    intro s hx
    cases save with
    | none => cases hx
    | some s' =>
      cases hx
      refine ⟨?_, (hs s' rfl).paths⟩
      cases sv with
      | none => exact (hs s' rfl).data
      | some x => exact h3 x rfl
  dsimp only
  cases o with
  | error e => exact ⟨fun he => h1 (by cases he; rfl), hc, hsv⟩
  | ok bumped =>
    cases b with
    | spot id b => exact refetch_fits hc id bumped hsv
    | divs id b => exact refetch_fits hc id bumped hsv
    | borrow id b => exact refetch_fits hc id bumped hsv
    | vol id b => exact refetch_fits hc id bumped hsv
    | yield id b =>
      dsimp only
      have k := refetchAllOf_fits (fuel := fuel) bumped ((c.dependencies.forwardIds.get id).getD []) hc hsv
      generalize BlackDiffusion.refetchAllOf fuel bumped ((c.dependencies.forwardIds.get id).getD []) { m with context := c }
        (save.map fun s => { s with savedData := sv.getD s.savedData }) = r at k
      obtain ⟨o, q, sv⟩ := r
      cases o with
      | error e => exact keepsM_error k
      | ok _ => exact ⟨by simp, k.2⟩
    | spotDate b =>
      dsimp only
      split
      · obtain ⟨k1, k2⟩ := refetchAll_fits (fuel := fuel) hc
        generalize BlackDiffusion.refetchAll fuel { m with context := c } = r at k1 k2
        obtain ⟨o, q⟩ := r
        cases o with
        | error e => exact ⟨fun he => k1 (by cases he; rfl), k2, hsv⟩
        | ok _ => exact ⟨by simp, k2, hsv⟩
      · exact ⟨by simp, hc, hsv⟩

theorem restore_fits {m : BlackDiffusion} (h : Fits f v u n m) {s : SavedBlackDiffusion} (hs : SoundM f s) : Fits f v u n (m.restore s) := by
  have key : ∀ (l : List (Nat × List (List (Num ℝ)))), (∀ e ∈ l, e.2.length = f.nPaths) → ∀ ps : List (List (List (Num ℝ))), ps.length = 1 →
      (∀ x ∈ ps, x.length = f.nPaths) → (l.foldl (fun paths e => paths.set e.1 e.2) ps).length = 1 ∧
        ∀ x ∈ l.foldl (fun paths e => paths.set e.1 e.2) ps, x.length = f.nPaths := by
    intro l
    induction l with
    | nil => intro _ ps h1 h2; exact ⟨h1, h2⟩
    | cons e l ih =>
      intro hl ps h1 h2
      refine ih (fun x hx => hl x (List.mem_cons_of_mem _ hx)) _ (by simpa using h1) (fun x hx => ?_)
      rcases List.mem_or_eq_of_mem_set hx with hx | hx
      · exact h2 x hx
      · rw [hx]; exact hl e List.mem_cons_self
  obtain ⟨k1, k2⟩ := key s.paths.entries hs.paths m.paths h.paths.1 h.paths.2
  exact fits_paths (fits_context h (restore_sound h.context hs.data)) k1 k2

theorem update_single {ctx : PricingContext} {b : BumpSpotDate} {c : Collector} {w : ℝ} {i : Instrument} {modified : Bool}
    {l : List (ℝ × Instrument)} (h : updateInstruments b [(w, i)] ctx c = .ok (modified, l)) :
    (modified = false ∧ l = [(w, i)]) ∨ (modified = true ∧ Single l) := by
  obtain ⟨fx, _, h⟩ := bind_ok h
  split at h
  · have := pure_ok h
    cases this
    exact .inl ⟨rfl, rfl⟩
  · obtain ⟨table, _, h⟩ := bind_ok h
    obtain ⟨o, ho, h⟩ := bind_ok h
    cases o with
    | none => cases h; exact .inl ⟨rfl, rfl⟩
    | some r =>
      cases h
      refine .inr ⟨rfl, ?_⟩
      obtain ⟨s, hs, ho⟩ := bind_ok ho
      have ho := pure_ok ho
      unfold fixLoop at hs
      obtain ⟨d, hd, hs⟩ := bind_ok hs
      rw [fixLoop] at hs
      cases hs
      cases d with
      | none => cases ho
      | some d =>
        have : l = d.map (fun p => (w * p.1, p.2)) := by
          simpa [fixStep, FixState.result] using ho.symm
        rw [this]
        exact fix_single hd w

theorem fine_time (hh : f.pathSubstep ≠ 0) (hn : f.nPaths ≠ 0) (draw : Draws) (b : BumpTime) {p : MonteCarlo} (h : Fine f p) :
    (p.bumpTime fuel draw b).1 ≠ .error .panic ∧ ((p.bumpTime fuel draw b).1 = .ok () → Fine f (p.bumpTime fuel draw b).2) := by
  obtain ⟨hf, w, i, v, u, n, hi, hw, hm⟩ := h
  have hu := update_safe (C88_prefetch (fuel := 0) hm.context) b.spotDateBump p.instruments p.model.context.dependencies
  unfold MonteCarlo.bumpTime
  cases hr : updateInstruments b.spotDateBump p.instruments p.model.context.pricingContext p.model.context.dependencies with
  | error e => rw [hr] at hu; exact ⟨fun he => hu (by cases he; rfl), fun he => by cases he⟩
  | ok x =>
    obtain ⟨modified, l⟩ := x
    rw [hi] at hr
    have hl := update_single hr
    dsimp only
    obtain ⟨k1, k2, _⟩ := bump_fits (fuel := fuel) hm (.spotDate b.spotDateBump) (save := none) (fun s hx => by cases hx)
    generalize p.model.bump fuel (.spotDate b.spotDateBump) none = r at k1 k2
    obtain ⟨o, m, sv⟩ := r
    cases o with
    | error e => exact ⟨fun he => k1 (by cases he; rfl), fun he => by cases he⟩
    | ok _ =>
      dsimp only
      cases modified with
      | false =>
        rw [if_neg (by simp)]
        refine ⟨by simp, fun _ => ⟨hf, w, i, v, u, n, ?_, hw, k2⟩⟩
        rcases hl with ⟨_, h⟩ | ⟨h, _⟩
        · exact h
        · cases h
      | true =>
        rw [if_pos rfl]
        have hs : Single l := by
          rcases hl with ⟨h, _⟩ | ⟨_, h⟩
          · cases h
          · exact h
        have hmc := C88_monte (fuel := fuel) k2.context.context hh hn l draw
        rw [hf]
        cases hn' : MonteCarlo.new fuel f l m.context.context draw with
        | error e => rw [hn'] at hmc; exact ⟨fun he => hmc (by cases he; rfl), fun he => by cases he⟩
        | ok q => exact ⟨by simp, fun _ => single_fine k2.context.context hs hn'⟩

theorem monteCarlo_behaves (hh : f.pathSubstep ≠ 0) (hn : f.nPaths ≠ 0) (draw : Draws) :
    Behaves (monteCarlo fuel draw) (Fine f) (SoundM f) where
  bump b p save hp hs := by
    obtain ⟨hf, w, i, v, u, n, hi, hw, hm⟩ := hp
    obtain ⟨k1, k2, k3⟩ := bump_fits (fuel := fuel) hm b hs
    exact ⟨k1, ⟨hf, w, i, v, u, n, hi, hw, k2⟩, k3⟩
  restore p s hp hs := by
    obtain ⟨hf, w, i, v, u, n, hi, hw, hm⟩ := hp
    exact ⟨hf, w, i, v, u, n, hi, hw, restore_fits hm hs⟩
  newSave := ⟨soundS_new, fun e he => by cases he⟩
  price p hp := fine_price hp
  spot p id _ := find_safe _ _
  bumpTime b p hp := fine_time hh hn draw b hp

/-- C88. Pricing any instrument by Monte-Carlo with any past fixings, on market data as they come, and asking for any risk reports,
nested to any depth, gives the reports or an error: it does not panic. The model must be asked for at least one path, and for steps
that are not zero. -/
theorem C88_monte_reports {md : MarketData} (h : Sound md) {f : ModelFactory} (hh : f.pathSubstep ≠ 0) (hn : f.nPaths ≠ 0)
    (i : Instrument) (table : FixingTable ℝ) (draw : Draws) (reports : List Generator) :
    calculate (monteCarlo fuel draw) (monteCarloFactory fuel f i table md draw) reports ≠ .error .panic := by
  refine bind_safe (bind_safe (C88_fix table i) (fun o _ => ?_)) (fun p hp => ?_)
  · cases o
    · exact C88_monte h hh hn _ _
    · exact C88_monte h hh hn _ _
  · have hs : Fine f p := by
      obtain ⟨o, ho, hp⟩ := bind_ok hp
      cases o with
      | none => exact single_fine h (single_one _ _) hp
      | some l =>
        have : l = l.map (fun p : ℝ × Instrument => (1 * p.1, p.2)) := by simp
        have hl := fix_single ho 1
        rw [← this] at hl
        exact single_fine h hl hp
    have hb := monteCarlo_behaves (fuel := fuel) hh hn draw
    exact bind_safe (hb.price p hs) (fun v _ => (generateAll_behaves hb reports hs hb.newSave v).1)

/-- C88: the paths are needed. Whatever can be priced at all brings the program down when asked for with no paths. -/
theorem C88_no_paths {f : ModelFactory} {l : List (ℝ × Instrument)} {md : MarketData} {draw : Draws} {p : MonteCarlo}
    (h : MonteCarlo.new fuel f l md draw = .ok p) (draw' : Draws) :
    MonteCarlo.new fuel { f with nPaths := 0 } l md draw' = .error .panic := by
  obtain ⟨t, c, ht, hc, hm, _⟩ := new_ok h
  unfold MonteCarlo.new
  rw [ht, Instruments.ok_bind, hc, Instruments.ok_bind]
  unfold BlackDiffusion.new at hm ⊢
  obtain ⟨ks, hks, _⟩ := bind_ok hm
  dsimp only at hks ⊢
  rw [hks, Instruments.ok_bind]
  unfold fetchCorrelatedGaussians
  rw [if_pos (.inr (.inr rfl))]
  rfl

/-- C88: a run that meets the hypotheses and gives a price. -/
example (hh : f.pathSubstep ≠ 0) (hn : f.nPaths ≠ 0) (draw : Draws) : Sound (sampleMarket 100 (.zero 0)) ∧
    ∃ p, MonteCarlo.new fuel f [(2, optionA 90)] (sampleMarket 100 (.zero 0)) draw = .ok p := by
  refine ⟨⟨?_, ?_, ?_, ?_⟩, ?_⟩
  · intro e he; obtain rfl := List.mem_singleton.1 he; exact .zero 0
  · intro e he; obtain rfl := List.mem_singleton.1 he; exact .zero 0
  · intro e he; obtain rfl := List.mem_singleton.1 he; exact .zero 0
  · intro e he; obtain rfl := List.mem_singleton.1 he; exact .flat _ steady_everyDay _
  · obtain ⟨p, _, hp, _⟩ := sample_pricer (fuel := fuel) (f := f) [(2, optionA 90)] (timeline_spot 2 90 sampleTerms equityA) rfl
      (by simp [sampleTerms]) (by simp) rfl rfl hh hn draw
    exact ⟨p, hp⟩

end QM.MonteCarlo
