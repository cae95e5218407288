import Verif.Units.ReportLemmas
import Verif.MonteCarlo.Model

/-!
# Helper lemmas: Monte-Carlo pricers in another unit
-/

namespace QM.MonteCarlo.Requote
open QM.Interp QM.Vol QM.Forward QM.Instruments QM.Market QM.Risk QM.Fixings QM.MonteCarlo

open QM.Units (amount instrument positions held prefetch savedPrefetch onValues QuotableAll Requoted surface market collector isMoney map_ok map_error
  ok_to error_to pure_is amount_nan amount_val)

variable {c : ℝ}

/-! ## Timelines -/

noncomputable def timelineIn (c : ℝ) (t : Timeline) : Timeline := ⟨onValues (fun e => (instrument c e.1, e.2)) t.observations, t.flows⟩

theorem observation_units (t : Timeline) (i : Instrument) (a : Point) :
    (timelineIn c t).observation (instrument c i) a = timelineIn c (t.observation i a) := by
  unfold Timeline.observation timelineIn
  dsimp only
  rw [Units.get_onValues, Units.instrument_id]
  cases t.observations.get i.id with
  | none =>
    dsimp only [Option.map_none]
    rw [← Units.insert_onValues]
  | some e =>
    obtain ⟨j, obs⟩ := e
    dsimp only [Option.map_some]
    rw [← Units.insert_onValues]

theorem dependencies_units (t : Timeline) (i : Instrument) :
    mcDependencies (timelineIn c t) (instrument c i) = (mcDependencies t i).map (timelineIn c) := by
  cases i <;> simp only [instrument, mcDependencies, map_error, map_ok, observation_units] <;> rfl

theorem timeline_units (l : List (ℝ × Instrument)) : ∀ t, timeline (positions c l) (timelineIn c t) = (timeline l t).map (timelineIn c) := by
  induction l with
  | nil => intro t; rw [positions]; rfl
  | cons e l ih =>
    obtain ⟨w, i⟩ := e
    intro t
    simp only [positions, timeline, dependencies_units]
    cases mcDependencies t i with
    | error e => rfl
    | ok t => exact ih t

/-! ## Steps -/

theorem forward_units (f : Fwd) (d : Int) : (Units.forward c f).forward d = (f.forward d).map (amount c) := rfl

theorem substepsOf_units (hc : 0 < c) (fuel : Nat) (f : Fwd) (s : VolSurface) (pathSubstep : ℝ) (l : List (Point × Nat)) : ∀ prev,
    substepsOf fuel (Units.forward c f) (surface c s) pathSubstep prev l = substepsOf fuel f s pathSubstep prev l := by
  induction l with
  | nil => exact fun _ => rfl
  | cons e l ih =>
    obtain ⟨obs, n⟩ := e
    intro prev
    simp only [substepsOf, forward_units]
    cases f.forward obs.1 with
    | error e => rfl
    | ok x => simp only [map_ok, ok_to, Units.surface_variance hc, ih]

theorem substepsAll_units (hc : 0 < c) (fuel : Nat) {ctx ctx' : PricingContext} (h : Requoted c ctx ctx') (observations : List Point) (hwm : Int)
    (pathSubstep : ℝ) (l : List Instrument) : ∀ sub,
    substepsAll fuel ctx' observations hwm pathSubstep (l.map (instrument c)) sub = substepsAll fuel ctx observations hwm pathSubstep l sub := by
  induction l with
  | nil => exact fun _ => rfl
  | cons i l ih =>
    intro sub
    simp only [List.map_cons, substepsAll, h.forwardCurve]
    cases ctx.forwardCurve i hwm with
    | error e => rfl
    | ok f =>
      simp only [map_ok, ok_to]
      rw [h.volSurface i hwm (fun _ => .ok f) (fun _ => .ok (Units.forward c f)) rfl]
      cases ctx.volSurface i hwm (fun _ => .ok f) with
      | error e => rfl
      | ok s => simp only [map_ok, ok_to, substepsOf_units hc, ih]

theorem substepping_units (hc : 0 < c) (fuel : Nat) {ctx ctx' : PricingContext} (h : Requoted c ctx ctx') (observations : List Point)
    (l : List Instrument) (pathSubstep : ℝ) :
    calculateSubstepping fuel ctx' observations (l.map (instrument c)) pathSubstep = calculateSubstepping fuel ctx observations l pathSubstep := by
  unfold calculateSubstepping
  cases observations.getLast? with
  | none => rfl
  | some last => exact substepsAll_units hc fuel h _ _ _ l _

/-! ## Draws -/

noncomputable def drawsOf (n : Nat) (substepping : List Nat) (nPaths : Nat) (draw : Draws) : Outcome (List (List (List ℝ))) :=
  if substepping.sum = 0 ∨ n = 0 ∨ nPaths = 0 then .error .panic
  else do
    let root ← (do
      let k ← (do
        let _ ← each (fun i => each (fun _ => (.error .err : Outcome ℝ)) ((List.finRange n).filter (· < i))) (List.finRange n)
        pure ((fun i j => if i = j then 1 else if j < i then value (.error .err) else value (.error .err)) : Matrix (Fin n) (Fin n) ℝ))
      match cholesky k with
      | none => .error .err
      | some l => pure l.transpose : Outcome (Matrix (Fin n) (Fin n) ℝ))
    pure ((List.finRange n).map fun asset =>
      (List.range nPaths).map fun path => (List.range substepping.sum).map fun step => correlated root (draw path step) asset)

theorem gaussians_length (l : List Instrument) (substepping : List Nat) (nPaths : Nat) (draw : Draws) :
    fetchCorrelatedGaussians marketCorrelation l substepping nPaths draw = drawsOf l.length substepping nPaths draw := by
  unfold fetchCorrelatedGaussians drawsOf correlationRoot correlationMatrix marketCorrelation
  split
  · rfl
  · congr 1
    congr 1
    funext k
    cases cholesky k <;> rfl

theorem gaussians_units (l : List Instrument) (substepping : List Nat) (nPaths : Nat) (draw : Draws) :
    fetchCorrelatedGaussians marketCorrelation (l.map (instrument c)) substepping nPaths draw =
      fetchCorrelatedGaussians marketCorrelation l substepping nPaths draw := by
  rw [gaussians_length, gaussians_length, List.length_map]

/-! ## Paths -/

theorem each_to {α β γ : Type} (g : β → γ) (f : α → Outcome β) (f' : α → Outcome γ) (l : List α) (h : ∀ a, f' a = (f a).map g) :
    each f' l = (each f l).map (List.map g) := by
  induction l with
  | nil => rfl
  | cons a l ih =>
    simp only [each, h, ih]
    cases f a with
    | error e => rfl
    | ok x =>
      simp only [map_ok, ok_to]
      cases each f l <;> rfl

noncomputable def observedIn (c : ℝ) (o : Observed) : Observed := ⟨amount c o.forward, o.variance, amount c o.displacement⟩

noncomputable def legIn (c : ℝ) (l : Leg) : Leg := ⟨l.steps, l.sigma, amount c l.forward, amount c l.displacement⟩

theorem amount_sub (x y : Num ℝ) : num2 (· - ·) (amount c x) (amount c y) = amount c (num2 (· - ·) x y) := by
  cases x <;> cases y <;> simp [num2, mul_sub]

theorem amount_add (x y : Num ℝ) : num2 (· + ·) (amount c x) (amount c y) = amount c (num2 (· + ·) x y) := by
  cases x <;> cases y <;> simp [num2, mul_add]

theorem amount_mul (x y : Num ℝ) : num2 (· * ·) x (amount c y) = amount c (num2 (· * ·) x y) := by
  cases x <;> cases y <;> simp [num2, mul_left_comm]

theorem observe_units (hc : 0 < c) (fuel : Nat) (f : Fwd) (s : VolSurface) (obs : Point) :
    observe fuel (Units.forward c f) (surface c s) obs = (observe fuel f s obs).map (observedIn c) := by
  simp only [observe, forward_units]
  cases f.forward obs.1 with
  | error e => rfl
  | ok x =>
    simp only [map_ok, ok_to, Units.surface_variance hc, Units.surface_displacement]
    cases s.variance fuel obs x with
    | error e => rfl
    | ok v =>
      simp only [ok_to]
      cases s.displacement obs.1 with
      | error e => rfl
      | ok d => simp only [map_ok, ok_to, pure_is, amount_sub, observedIn]

theorem legs_units (l : List (Observed × Nat)) : ∀ prev,
    legs prev (l.map fun e => (observedIn c e.1, e.2)) = (legs prev l).map (List.map (legIn c)) := by
  induction l with
  | nil => exact fun _ => rfl
  | cons e l ih =>
    obtain ⟨o, n⟩ := e
    intro prev
    simp only [List.map_cons, legs]
    rw [show (observedIn c o).variance = o.variance from rfl]
    split
    · rfl
    · rw [ih]
      cases legs o.variance l <;> rfl

theorem walk_amounts (l : List Leg) : ∀ point gs, walk point gs (l.map (legIn c)) = (walk point gs l).map (List.map (amount c)) := by
  induction l with
  | nil => exact fun _ _ => rfl
  | cons e l ih =>
    intro point gs
    simp only [List.map_cons, walk]
    rw [show (legIn c e).sigma = e.sigma from rfl, show (legIn c e).steps = e.steps from rfl]
    cases advance e.sigma e.steps point gs with
    | error e => rfl
    | ok r =>
      obtain ⟨point, gs⟩ := r
      simp only [ok_to, ih]
      cases walk point gs l with
      | error e => rfl
      | ok values =>
        simp only [map_ok, ok_to, pure_is, List.map_cons]
        rw [← amount_add, ← amount_mul]
        rfl

theorem fetchPath_units (hc : 0 < c) (fuel : Nat) {ctx ctx' : PricingContext} (h : Requoted c ctx ctx') (i : Instrument) (observations : List Point)
    (gaussians : List (List ℝ)) (substepping : List Nat) :
    fetchPath fuel (instrument c i) ctx' observations gaussians substepping =
      (fetchPath fuel i ctx observations gaussians substepping).map (List.map (List.map (amount c))) := by
  unfold fetchPath
  cases observations.getLast? with
  | none => rfl
  | some last =>
    dsimp only
    split
    · rfl
    · simp only [h.forwardCurve]
      cases ctx.forwardCurve i last.1 with
      | error e => rfl
      | ok f =>
        simp only [map_ok, ok_to]
        rw [h.volSurface i last.1 (fun _ => .ok f) (fun _ => .ok (Units.forward c f)) rfl]
        cases ctx.volSurface i last.1 (fun _ => .ok f) with
        | error e => rfl
        | ok s =>
          simp only [map_ok, ok_to]
          rw [each_to (observedIn c) (observe fuel f s) _ observations (observe_units hc fuel f s)]
          cases each (observe fuel f s) observations with
          | error e => rfl
          | ok observed =>
            simp only [map_ok, ok_to]
            have e : (observed.map (observedIn c)).zip substepping = (observed.zip substepping).map fun e => (observedIn c e.1, e.2) := by
              rw [List.zip_map_left]
              rfl
            rw [e, legs_units]
            cases legs (.val 0) (observed.zip substepping) with
            | error e => rfl
            | ok ls =>
              simp only [map_ok, ok_to]
              exact each_to _ _ _ _ fun gs => walk_amounts ls _ gs

/-- The values of every asset on every path. -/
noncomputable def pathsIn (c : ℝ) : List (List (List (Num ℝ))) → List (List (List (Num ℝ))) := List.map (List.map (List.map (amount c)))

theorem fetchPaths_units (hc : 0 < c) (fuel : Nat) {ctx ctx' : PricingContext} (h : Requoted c ctx ctx') (observations : List Point)
    (gaussians : List (List (List ℝ))) (l : List Instrument) (substepping : List Nat) :
    fetchPaths fuel ctx' observations gaussians (l.map (instrument c)) substepping =
      (fetchPaths fuel ctx observations gaussians l substepping).map (pathsIn c) := by
  unfold fetchPaths
  rw [List.length_map]
  split
  · rfl
  · rw [List.zip_map_left, Units.each_map]
    exact each_to _ _ _ _ fun e => fetchPath_units hc fuel h e.1 observations e.2 substepping

/-! ## The model -/

noncomputable def model (c : ℝ) (m : BlackDiffusion) : BlackDiffusion :=
  { m with context := prefetch c m.context, instruments := m.instruments.map (instrument c), paths := pathsIn c m.paths }

noncomputable def saved (c : ℝ) (s : SavedBlackDiffusion) : SavedBlackDiffusion :=
  ⟨savedPrefetch c s.savedData, onValues (List.map (List.map (amount c))) s.paths⟩

theorem key_units (l : List Instrument) : ∀ n m, keyOf n (l.map (instrument c)) m = keyOf n l m := by
  induction l with
  | nil => exact fun _ _ => rfl
  | cons i l ih =>
    intro n m
    simp only [List.map_cons, keyOf, Units.instrument_id, ih]

theorem model_new (hc : 0 < c) (fuel : Nat) (f : ModelFactory) (t : Timeline) (p : Prefetch) (draw : Draws) :
    BlackDiffusion.new fuel f (timelineIn c t) (prefetch c p) draw = (BlackDiffusion.new fuel f t p draw).map (model c) := by
  unfold BlackDiffusion.new
  have e1 : ((timelineIn c t).observations.entries.map Prod.snd).map Prod.snd = (t.observations.entries.map Prod.snd).map Prod.snd := by
    simp [timelineIn, onValues, Function.comp_def]
  have e2 : ((timelineIn c t).observations.entries.map Prod.snd).map Prod.fst = ((t.observations.entries.map Prod.snd).map Prod.fst).map (instrument c) := by
    simp [timelineIn, onValues, Function.comp_def]
  have h := Units.prefetch_requoted (c := c) p
  dsimp only
  rw [e1, e2, substepping_units hc fuel h]
  cases calculateSubstepping fuel p.pricingContext (((t.observations.entries.map Prod.snd).map Prod.snd).head?.getD [])
      ((t.observations.entries.map Prod.snd).map Prod.fst) f.pathSubstep with
  | error e => rfl
  | ok sub =>
    simp only [ok_to, gaussians_units]
    cases fetchCorrelatedGaussians marketCorrelation ((t.observations.entries.map Prod.snd).map Prod.fst) sub f.nPaths draw with
    | error e => rfl
    | ok gs =>
      simp only [ok_to, fetchPaths_units hc fuel h, key_units]
      generalize fetchPaths fuel p.pricingContext _ gs _ sub = o
      cases o <;> rfl

theorem pathsIn_getD (l : List (List (List (Num ℝ)))) (n : Nat) : (pathsIn c l).getD n [] = (l.getD n []).map (List.map (amount c)) := by
  unfold pathsIn
  rw [List.getD_eq_getElem?_getD, List.getD_eq_getElem?_getD, List.getElem?_map]
  cases l[n]? <;> rfl

theorem path_getD (l : List (Num ℝ)) (n : Nat) : (l.map (amount c)).getD n .nan = amount c (l.getD n .nan) := by
  rw [List.getD_eq_getElem?_getD, List.getD_eq_getElem?_getD, List.getElem?_map]
  cases l[n]? <;> rfl

theorem pathsOf_units (m : BlackDiffusion) (i : Instrument) :
    (model c m).pathsOf (instrument c i) = (m.pathsOf i).map (List.map (List.map (amount c))) := by
  unfold BlackDiffusion.pathsOf
  rw [Units.instrument_id, show (model c m).key = m.key from rfl]
  cases m.key.get i.id with
  | none => rfl
  | some n =>
    simp only [map_ok]
    rw [show (model c m).paths = pathsIn c m.paths from rfl, pathsIn_getD]

theorem payoff_units (hc : 0 < c) (v : Vanilla) (spot strike : Num ℝ) : pathPayoff v (amount c spot) (amount c strike) = c * pathPayoff v spot strike := by
  unfold pathPayoff
  rw [amount_sub]
  cases num2 (· - ·) spot strike with
  | nan => simp [num1, nmax]
  | val x =>
    simp only [num1, nmax, amount_val]
    rw [mul_left_comm, mul_max_of_nonneg _ _ hc.le, mul_zero]

theorem flow_units (hc : 0 < c) (fuel : Nat) {ctx ctx' : PricingContext} (h : Requoted c ctx ctx') (i : Instrument) (hi : isPureRates i = true) (d : DateTime) :
    i.price fuel ctx' d = i.price fuel ctx d := by
  cases i <;> simp only [isPureRates, Bool.false_eq_true] at hi
  rename_i a b x y z
  have e := Units.price_units hc fuel h (.zeroCoupon a b x y z) d (by rw [Units.Quotable.eq_def]; trivial)
  rw [instrument, Units.unit, if_pos (by rfl)] at e
  rw [e]
  cases Instrument.price fuel ctx (.zeroCoupon a b x y z) d with
  | error e => rfl
  | ok x => rw [map_ok, Units.amount_one]

theorem flowsLoop_units (hc : 0 < c) (fuel : Nat) {ctx ctx' : PricingContext} (h : Requoted c ctx ctx') (n : Nat) (l : List (Instrument × List ℝ)) : ∀ total,
    flowsLoop fuel ctx' n (l.map fun e => (e.1, e.2.map (c * ·))) (amount c total) = (flowsLoop fuel ctx n l total).map (amount c) := by
  induction l with
  | nil => exact fun _ => rfl
  | cons e l ih =>
    obtain ⟨i, q⟩ := e
    intro total
    simp only [List.map_cons, flowsLoop]
    split
    · rename_i hi
      rw [flow_units hc fuel h i hi, h.spotDate]
      cases i.price fuel ctx ⟨ctx.spotDate, .open⟩ with
      | error e => rfl
      | ok v =>
        simp only [ok_to]
        rw [← ih]
        congr 1
        have e1 : (q.map (c * ·)).sum = c * q.sum := by
          rw [List.sum_map_mul_left, List.map_id']
        have e2 : ndiv (.val (c * q.sum)) (.val n) = amount c (ndiv (.val q.sum) (.val n)) := by
          simp only [ndiv]
          split
          · rfl
          · rw [amount_val, mul_div_assoc]
        rw [e1, e2, ← amount_add]
        congr 1
        generalize ndiv (.val q.sum) (.val n) = x
        cases x <;> cases v <;> simp [num2, mul_assoc]
    · rfl

theorem evaluate_units (hc : 0 < c) (fuel : Nat) (m : BlackDiffusion) (q : List ℝ) :
    (model c m).evaluateFlows fuel [q.map (c * ·)] = (m.evaluateFlows fuel [q]).map (amount c) := by
  unfold BlackDiffusion.evaluateFlows
  simp only [List.mem_singleton, exists_eq_left, List.length_map, List.length_singleton]
  rw [show (model c m).nPaths = m.nPaths from rfl, show (model c m).flows = m.flows from rfl]
  split
  · rfl
  · have k := flowsLoop_units hc fuel (Units.prefetch_requoted (c := c) m.context) m.nPaths (m.flows.zip [q]) (.val 0)
    rw [amount_val, mul_zero] at k
    rw [← k]
    congr 1
    rw [show [q.map (c * ·)] = [q].map (List.map (c * ·)) from rfl, List.zip_map_right]
    rfl

theorem mcPrice_units (hc : 0 < c) (fuel : Nat) (m : BlackDiffusion) (i : Instrument) :
    mcPrice fuel (model c m) (instrument c i) = (mcPrice fuel m i).map (amount c) := by
  cases i with
  | spotStarting v u k =>
    simp only [instrument, mcPrice, pathsOf_units]
    cases m.pathsOf u with
    | error e => rfl
    | ok paths =>
      simp only [map_ok, ok_to]
      rw [show (model c m).observations = m.observations from rfl]
      split
      · rfl
      · rw [← evaluate_units hc, List.map_map, List.map_map]
        congr 3
        funext path
        simp only [Function.comp_apply, path_getD]
        rw [← payoff_units hc, amount_val]
  | forwardStarting v u k d t =>
    simp only [instrument, mcPrice, pathsOf_units]
    cases m.pathsOf u with
    | error e => rfl
    | ok paths =>
      simp only [map_ok, ok_to]
      rw [show (model c m).observations = m.observations from rfl]
      split
      · rfl
      · rw [← evaluate_units hc, List.map_map, List.map_map]
        congr 3
        funext path
        simp only [Function.comp_apply, path_getD]
        rw [← payoff_units hc]
        congr 1
        cases path.getD 0 .nan <;> simp [num1, mul_left_comm]
  | _ => simp [instrument, mcPrice]

theorem mcLoop_units (hc : 0 < c) (fuel : Nat) (m : BlackDiffusion) (l : List (ℝ × Instrument)) : ∀ total,
    mcLoop fuel (model c m) (positions c l) (amount c total) = (mcLoop fuel m l total).map (amount c) := by
  induction l with
  | nil => intro total; rw [positions]; rfl
  | cons e l ih =>
    obtain ⟨w, i⟩ := e
    intro total
    simp only [positions, mcLoop, mcPrice_units hc]
    have hz : isMoney i = true → mcPrice fuel m i = .ok (.val 0) := by
      intro h
      cases i <;> simp only [isMoney, Bool.false_eq_true] at h <;> rfl
    cases hp : mcPrice fuel m i with
    | error e => rfl
    | ok x =>
      simp only [map_ok, ok_to]
      rw [← ih]
      congr 1
      rw [← amount_add]
      congr 1
      unfold held
      split
      · rename_i h
        rw [hz h] at hp
        cases hp
        simp [num1]
      · cases x <;> simp [num1, mul_left_comm]

/-! ## Bumps -/

theorem set_units (l : List (List (List (Num ℝ)))) (n : Nat) (p : List (List (Num ℝ))) :
    (pathsIn c l).set n (p.map (List.map (amount c))) = pathsIn c (l.set n p) := by
  unfold pathsIn
  rw [List.map_set]

theorem refetch_units (hc : 0 < c) (fuel : Nat) (m : BlackDiffusion) (id : String) (b : Bool) (s : Option SavedBlackDiffusion) :
    (model c m).refetch fuel id b (s.map (saved c)) =
      ((m.refetch fuel id b s).1, model c (m.refetch fuel id b s).2.1, (m.refetch fuel id b s).2.2.map (saved c)) := by
  unfold BlackDiffusion.refetch
  cases b with
  | false => rfl
  | true =>
    simp only [Bool.not_true, Bool.false_eq_true, if_false]
    rw [show (model c m).key = m.key from rfl]
    cases m.key.get id with
    | none => rfl
    | some n =>
      dsimp only
      have hs : ((s.map (saved c)).map fun s => { s with paths := s.paths.insert n ((model c m).paths.getD n []) }) =
          (s.map fun s => { s with paths := s.paths.insert n (m.paths.getD n []) }).map (saved c) := by
        cases s with
        | none => rfl
        | some s =>
          simp only [Option.map_some, saved]
          rw [show (model c m).paths = pathsIn c m.paths from rfl, pathsIn_getD, ← Units.insert_onValues]
      rw [hs]
      have hi : (model c m).instruments[n]? = (m.instruments[n]?).map (instrument c) := by
        show (m.instruments.map (instrument c))[n]? = _
        rw [List.getElem?_map]
      rw [hi]
      cases m.instruments[n]? with
      | none => rfl
      | some i =>
        dsimp only [Option.map_some]
        have hp : fetchPath fuel (instrument c i) (model c m).context.pricingContext (model c m).observations ((model c m).gaussians.getD n [])
            (model c m).substepping = _ :=
          fetchPath_units hc fuel (Units.prefetch_requoted (c := c) m.context) i m.observations (m.gaussians.getD n []) m.substepping
        rw [hp]
        cases fetchPath fuel i m.context.pricingContext m.observations (m.gaussians.getD n []) m.substepping with
        | error e => rfl
        | ok path =>
          dsimp only [map_ok]
          refine congrArg₂ Prod.mk rfl (congrArg₂ Prod.mk ?_ rfl)
          rw [show (model c m).paths = pathsIn c m.paths from rfl, set_units]
          rfl

theorem refetchAllOf_units (hc : 0 < c) (fuel : Nat) (b : Bool) (l : List String) : ∀ (m : BlackDiffusion) (s : Option SavedBlackDiffusion),
    BlackDiffusion.refetchAllOf fuel b l (model c m) (s.map (saved c)) =
      ((BlackDiffusion.refetchAllOf fuel b l m s).1, model c (BlackDiffusion.refetchAllOf fuel b l m s).2.1,
        (BlackDiffusion.refetchAllOf fuel b l m s).2.2.map (saved c)) := by
  induction l with
  | nil => exact fun _ _ => rfl
  | cons id l ih =>
    intro m s
    simp only [BlackDiffusion.refetchAllOf, refetch_units hc]
    obtain ⟨o, m', s'⟩ := m.refetch fuel id b s
    cases o with
    | error e => rfl
    | ok u => exact ih m' s'

theorem refetchAll_units (hc : 0 < c) (fuel : Nat) (m : BlackDiffusion) :
    (model c m).refetchAll fuel = ((m.refetchAll fuel).1, model c (m.refetchAll fuel).2) := by
  unfold BlackDiffusion.refetchAll
  have hp : fetchPaths fuel (model c m).context.pricingContext (model c m).observations (model c m).gaussians (model c m).instruments
      (model c m).substepping = _ :=
    fetchPaths_units hc fuel (Units.prefetch_requoted (c := c) m.context) m.observations m.gaussians m.instruments m.substepping
  rw [hp]
  cases fetchPaths fuel m.context.pricingContext m.observations m.gaussians m.instruments m.substepping <;> rfl

theorem bump_units (hc : 0 < c) (fuel : Nat) (b : Bump) (m : BlackDiffusion) (s : Option SavedBlackDiffusion) :
    (model c m).bump fuel (Units.bump c b) (s.map (saved c)) =
      ((m.bump fuel b s).1, model c (m.bump fuel b s).2.1, (m.bump fuel b s).2.2.map (saved c)) := by
  have e1 : (s.map (saved c)).map SavedBlackDiffusion.savedData = (s.map SavedBlackDiffusion.savedData).map (savedPrefetch c) := by
    cases s <;> rfl
  have h := Units.prefetch_bump hc m.context b (s.map SavedBlackDiffusion.savedData)
  unfold BlackDiffusion.bump
  rw [e1, show (model c m).context = prefetch c m.context from rfl, h]
  generalize m.context.bump b (s.map SavedBlackDiffusion.savedData) = r
  obtain ⟨o, q, sp⟩ := r
  dsimp only
  have e2 : ({ model c m with context := prefetch c q } : BlackDiffusion) = model c { m with context := q } := rfl
  have e3 : ((s.map (saved c)).map fun s => { s with savedData := (sp.map (savedPrefetch c)).getD s.savedData }) =
      (s.map fun s => { s with savedData := sp.getD s.savedData }).map (saved c) := by
    cases s <;> cases sp <;> rfl
  rw [e2, e3]
  cases o with
  | error e => rfl
  | ok u =>
    dsimp only
    cases b with
    | spot id b => exact refetch_units hc fuel _ id u _
    | divs id b => exact refetch_units hc fuel _ id u _
    | borrow id b => exact refetch_units hc fuel _ id u _
    | vol id b => exact refetch_units hc fuel _ id u _
    | «yield» id b =>
      dsimp only [Units.bump]
      rw [show (prefetch c q).dependencies.forwardIds = q.dependencies.forwardIds from rfl, refetchAllOf_units hc]
      generalize BlackDiffusion.refetchAllOf fuel u _ _ _ = r
      obtain ⟨o, m', s'⟩ := r
      cases o <;> rfl
    | spotDate b =>
      dsimp only [Units.bump]
      cases u with
      | false => rfl
      | true =>
        simp only [if_true, refetchAll_units hc]
        generalize BlackDiffusion.refetchAll fuel _ = r
        obtain ⟨o, m'⟩ := r
        cases o <;> rfl

theorem restore_units (m : BlackDiffusion) (s : SavedBlackDiffusion) : (model c m).restore (saved c s) = model c (m.restore s) := by
  have e : restorePaths (saved c s).paths (model c m).paths = pathsIn c (restorePaths s.paths m.paths) := by
    unfold restorePaths
    show (s.paths.entries.map fun e => (e.1, e.2.map (List.map (amount c)))).foldl _ (pathsIn c m.paths) = _
    generalize s.paths.entries = l
    generalize m.paths = ps
    induction l generalizing ps with
    | nil => rfl
    | cons e l ih =>
      simp only [List.map_cons, List.foldl_cons, set_units]
      exact ih _
  unfold BlackDiffusion.restore
  rw [e, show (model c m).context.restore (saved c s).savedData = _ from Units.prefetch_restore m.context s.savedData]
  rfl

/-! ## The pricer -/

noncomputable def pricer (c : ℝ) (p : MonteCarlo) : MonteCarlo := ⟨p.factory, positions c p.instruments, model c p.model⟩

theorem pricer_new (hc : 0 < c) (fuel : Nat) (f : ModelFactory) (l : List (ℝ × Instrument)) (md : MarketData) (draw : Draws) :
    MonteCarlo.new fuel f (positions c l) (market c md) draw = (MonteCarlo.new fuel f l md draw).map (pricer c) := by
  unfold MonteCarlo.new
  have h := timeline_units (c := c) l .new
  rw [show timelineIn c .new = .new from rfl] at h
  rw [h, show (market c md).spotDate = md.spotDate from rfl, Units.collect_units, Units.prefetch_new hc]
  cases timeline l .new with
  | error e => rfl
  | ok t =>
    simp only [map_ok, ok_to]
    cases Prefetch.new md (collect md.spotDate l) with
    | error e => rfl
    | ok p =>
      simp only [map_ok, ok_to, model_new hc]
      cases BlackDiffusion.new fuel f t p draw <;> rfl

theorem new_instruments {fuel : Nat} {f : ModelFactory} {l : List (ℝ × Instrument)} {md : MarketData} {draw : Draws} {p : MonteCarlo}
    (h : MonteCarlo.new fuel f l md draw = .ok p) : p.instruments = l := by
  unfold MonteCarlo.new at h
  obtain ⟨t, _, h⟩ := bind_ok h
  obtain ⟨q, _, h⟩ := bind_ok h
  obtain ⟨m, _, h⟩ := bind_ok h
  injection h with h
  rw [← h]

theorem price_units (hc : 0 < c) (fuel : Nat) (p : MonteCarlo) : (pricer c p).price fuel = (p.price fuel).map (amount c) := by
  have h := mcLoop_units hc fuel p.model p.instruments (.val 0)
  rw [amount_val, mul_zero] at h
  exact h

theorem bumpTime_units (hc : 0 < c) (fuel : Nat) (draw : Draws) (b : BumpTime) (p : MonteCarlo) (hq : QuotableAll p.instruments) :
    (pricer c p).bumpTime fuel draw b = ((p.bumpTime fuel draw b).1, pricer c (p.bumpTime fuel draw b).2) := by
  unfold MonteCarlo.bumpTime
  have e : updateInstruments b.spotDateBump (pricer c p).instruments (pricer c p).model.context.pricingContext (pricer c p).model.context.dependencies = _ :=
    Units.updateInstruments_units hc (Units.prefetch_requoted (c := c) p.model.context) b.spotDateBump p.instruments p.model.context.dependencies hq
  rw [e]
  cases updateInstruments b.spotDateBump p.instruments p.model.context.pricingContext p.model.context.dependencies with
  | error e => rfl
  | ok r =>
    obtain ⟨modified, is⟩ := r
    dsimp only [map_ok]
    have k := bump_units hc fuel (.spotDate b.spotDateBump) p.model none
    rw [Option.map_none] at k
    rw [show (pricer c p).model.bump fuel (.spotDate b.spotDateBump) none = _ from k]
    generalize p.model.bump fuel (.spotDate b.spotDateBump) none = r
    obtain ⟨o, m, s⟩ := r
    cases o with
    | error e => rfl
    | ok u =>
      cases modified with
      | false => rfl
      | true =>
        dsimp only
        rw [if_pos rfl, if_pos rfl]
        rw [show MonteCarlo.new fuel (pricer c p).factory (positions c is) (model c m).context.context draw = _ from
          pricer_new hc fuel p.factory is m.context.context draw]
        cases MonteCarlo.new fuel p.factory is m.context.context draw <;> rfl

theorem bumpTime_good (fuel : Nat) (draw : Draws) (b : BumpTime) (p : MonteCarlo) (hq : QuotableAll p.instruments) :
    QuotableAll (p.bumpTime fuel draw b).2.instruments := by
  unfold MonteCarlo.bumpTime
  cases h : updateInstruments b.spotDateBump p.instruments p.model.context.pricingContext p.model.context.dependencies with
  | error e => exact hq
  | ok r =>
    have hr := Units.updateInstruments_quotable hq h
    obtain ⟨m, is⟩ := r
    dsimp only
    obtain ⟨o, q, s⟩ := p.model.bump fuel (.spotDate b.spotDateBump) none
    cases o with
    | error e => exact hr
    | ok u =>
      cases m with
      | false => exact hr
      | true =>
        dsimp only
        rw [if_pos rfl]
        cases h : MonteCarlo.new fuel p.factory is q.context.context draw with
        | error e => exact hr
        | ok p =>
          dsimp only
          rw [new_instruments h]
          exact hr

theorem commutes (hc : 0 < c) (fuel : Nat) (draw : Draws) :
    Units.Any.Commutes c (monteCarlo fuel draw) (pricer c) (saved c) fun p => QuotableAll p.instruments where
  bump b p s := by
    have k := bump_units hc fuel b p.model s
    show MonteCarlo.bump fuel (Units.bump c b) (pricer c p) (s.map (saved c)) = _
    unfold MonteCarlo.bump
    rw [show (pricer c p).model.bump fuel (Units.bump c b) (s.map (saved c)) = _ from k]
    rfl
  bump_good b p s h := h
  restore p s := by
    show ({ pricer c p with model := (model c p.model).restore (saved c s) } : MonteCarlo) = _
    rw [restore_units]
    rfl
  restore_good p s h := h
  newSave := rfl
  price p _ := price_units hc fuel p
  ids p := by
    show (p.model.context.dependencies.instruments.entries.map fun e => (e.1, instrument c e.2)).map Prod.fst = _
    rw [List.map_map]
    rfl
  spot p id := Units.find_onValues _ _ _
  bumpTime b p h := bumpTime_units hc fuel draw b p h
  bumpTime_good b p h := bumpTime_good fuel draw b p h

end QM.MonteCarlo.Requote
