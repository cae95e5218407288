import Verif.MonteCarlo.Lemmas
import Verif.Risk.VegaProps

/-!
# Properties C52 and C63: Monte-Carlo prices and simulated paths
-/

namespace QM.MonteCarlo
open QM.Interp QM.Vol QM.Instruments QM.Market QM.Risk QM.Fixings Spec MeasureTheory ProbabilityTheory
open QM.Instruments.Spec (payoff)

variable {fuel : Nat} {f : ModelFactory} {md : MarketData} {draw : Draws} {p : MonteCarlo}

/-! ## C52: prices -/

/-- The paths of the only asset. -/
theorem pathsOf_only {t : Timeline} {context : Prefetch} {m : BlackDiffusion} (h : BlackDiffusion.new fuel f t context draw = .ok m)
    {u : Instrument} (hu : m.instruments = [u]) : m.pathsOf u = .ok (m.paths.getD 0 []) := by
  obtain ⟨k, u', obs, ks, paths, he, hs, hp, hn, rfl⟩ := model_new_ok h
  cases hu
  unfold BlackDiffusion.pathsOf
  simp [Map.get]

theorem timeline_spot (a K : ℝ) (v : Vanilla) (u : Instrument) :
    timeline [(a, .spotStarting v u K)] .new = .ok ⟨⟨[(u.id, u, [v.expiryTime])]⟩, [expiryFlow v]⟩ := rfl

theorem timeline_forward (a k : ℝ) (v : Vanilla) (u : Instrument) (d : DateTime) (s : Point) :
    timeline [(a, .forwardStarting v u k d s)] .new = .ok ⟨⟨[(u.id, u, [s, v.expiryTime])]⟩, [expiryFlow v]⟩ := by
  have h1 : Timeline.observation .new u s = ⟨⟨[(u.id, u, [s])]⟩, []⟩ := rfl
  have h2 : Timeline.observation ⟨⟨[(u.id, u, [s])]⟩, []⟩ u v.expiryTime = ⟨⟨[(u.id, u, [s, v.expiryTime])]⟩, []⟩ := by
    unfold Timeline.observation
    simp [Map.get, Map.insert]
  rw [timeline, mcDependencies]
  simp only [h1, h2]
  rfl

/-- The price of one spot starting option from given paths. -/
theorem spot_price {a K D : ℝ} {v : Vanilla} {u : Instrument} {x : Nat → ℝ} (hi : p.instruments = [(a, .spotStarting v u K)])
    (hpaths : p.model.pathsOf u = .ok ((List.range p.model.nPaths).map fun path => [.val (x path)])) (ho : p.model.observations = [v.expiryTime])
    (hfl : p.model.flows = [expiryFlow v]) (hn : p.model.nPaths ≠ 0)
    (hD : (expiryFlow v).price fuel p.model.context.pricingContext ⟨p.model.context.context.spotDate, .open⟩ = .ok (.val D)) :
    p.price fuel = .ok (.val (a * (average p.model.nPaths (fun path => payoff v.putOrCall (x path) K) * D))) := by
  unfold MonteCarlo.price
  rw [hi, mcLoop, mcPrice, hpaths, ho]
  rw [ok_bind, if_neg (by simp)]
  have hq : (((List.range p.model.nPaths).map fun path => [Num.val (x path)]).map fun path => pathPayoff v (path.getD 0 .nan) (.val K)) =
      (List.range p.model.nPaths).map fun path => payoff v.putOrCall (x path) K := by
    rw [List.map_map]
    apply List.map_congr_left
    intro path _
    exact payoff_val v _ K
  rw [hq, evaluate_one hfl hn _ hD, ok_bind, mcLoop]
  simp [num1, num2]

/-- C52 for one spot starting option: the price is its weight times the average payoff over the paths times the discount
factor of the payment, where the asset follows the specified path. What is missing, more than one instrument, is false:
`C52_false`. -/
theorem C52_spot_partial {a K D : ℝ} {v : Vanilla} {u : Instrument} {F w δ : Nat → ℝ}
    (hp : MonteCarlo.new fuel f [(a, .spotStarting v u K)] md draw = .ok p)
    (hm : Spec.Market fuel p.model.context.pricingContext u [v.expiryTime] F w δ)
    (hD : (expiryFlow v).price fuel p.model.context.pricingContext ⟨p.model.context.context.spotDate, .open⟩ = .ok (.val D)) :
    p.price fuel = .ok (.val (a * (average f.nPaths (fun path =>
      payoff v.putOrCall (pathValue F w δ (steps f.pathSubstep w) (fun k => draw path k 0) 0) K) * D))) := by
  obtain ⟨t, context, ht, hc, hb, hf, hi⟩ := new_ok hp
  rw [timeline_spot] at ht
  cases ht
  obtain ⟨k, u', obs, ks, paths, he, hs, hpath, hn, hmod⟩ := model_new_ok hb
  cases he
  have e1 : p.model.instruments = [u] := by rw [hmod]
  have e2 : p.model.observations = [v.expiryTime] := by rw [hmod]
  have e3 : p.model.flows = [expiryFlow v] := by rw [hmod]
  have e4 : p.model.nPaths = f.nPaths := by rw [hmod]
  have hpaths := model_paths hb e1 (by rw [e2]; exact hm)
  rw [← e4]
  refine spot_price hi ?_ e2 e3 (by rw [e4]; exact hn) hD
  rw [pathsOf_only hb e1, hpaths, e2, e4]
  rfl

/-- C52 for one forward starting option, likewise. -/
theorem C52_forward_partial {a φ D : ℝ} {v : Vanilla} {u : Instrument} {d : DateTime} {s : Point} {F w δ : Nat → ℝ}
    (hp : MonteCarlo.new fuel f [(a, .forwardStarting v u φ d s)] md draw = .ok p)
    (hm : Spec.Market fuel p.model.context.pricingContext u [s, v.expiryTime] F w δ)
    (hD : (expiryFlow v).price fuel p.model.context.pricingContext ⟨p.model.context.context.spotDate, .open⟩ = .ok (.val D)) :
    p.price fuel = .ok (.val (a * (average f.nPaths (fun path =>
      payoff v.putOrCall (pathValue F w δ (steps f.pathSubstep w) (fun k => draw path k 0) 1)
        (φ * pathValue F w δ (steps f.pathSubstep w) (fun k => draw path k 0) 0)) * D))) := by
  obtain ⟨t, context, ht, hc, hb, hf, hi⟩ := new_ok hp
  rw [timeline_forward] at ht
  cases ht
  obtain ⟨k, u', obs, ks, paths, he, hs, hpath, hn, hmod⟩ := model_new_ok hb
  cases he
  have e1 : p.model.instruments = [u] := by rw [hmod]
  have e2 : p.model.observations = [s, v.expiryTime] := by rw [hmod]
  have e3 : p.model.flows = [expiryFlow v] := by rw [hmod]
  have e4 : p.model.nPaths = f.nPaths := by rw [hmod]
  have hpaths := model_paths hb e1 (by rw [e2]; exact hm)
  unfold MonteCarlo.price
  rw [hi, mcLoop, mcPrice, pathsOf_only hb e1, hpaths, e2]
  rw [ok_bind, if_neg (by simp)]
  have hq : (([List.map (fun path => (List.range ([s, v.expiryTime] : List Point).length).map fun i =>
      Num.val (pathValue F w δ (steps f.pathSubstep w) (fun k => draw path k 0) i)) (List.range f.nPaths)].getD 0 []).map
      fun path => pathPayoff v (path.getD 1 .nan) (num1 (φ * ·) (path.getD 0 .nan))) =
      (List.range p.model.nPaths).map fun path => payoff v.putOrCall (pathValue F w δ (steps f.pathSubstep w) (fun k => draw path k 0) 1)
        (φ * pathValue F w δ (steps f.pathSubstep w) (fun k => draw path k 0) 0) := by
    rw [e4, List.getD_cons_zero, List.map_map]
    apply List.map_congr_left
    intro path _
    exact payoff_val v _ _
  rw [hq, evaluate_one e3 (by rw [e4]; exact hn) _ hD, ok_bind, mcLoop, e4]
  simp [num1, num2]

/-- C52 violated for all portfolios: only a portfolio of exactly one instrument ever has a Monte-Carlo price. -/
theorem C52_single {l : List (ℝ × Instrument)} {x : Num ℝ} (hp : MonteCarlo.new fuel f l md draw = .ok p) (hx : p.price fuel = .ok x) :
    ∃ a i, l = [(a, i)] := by
  obtain ⟨t, context, ht, hc, hb, hf, hi⟩ := new_ok hp
  obtain ⟨k, u', obs, ks, paths, he, hs, hpath, hn, hmod⟩ := model_new_ok hb
  have hfl : p.model.flows.length = l.length := by
    rw [hmod]
    simpa [Timeline.new] using timeline_flows ht
  unfold MonteCarlo.price at hx
  rw [hi] at hx
  match l with
  | [] =>
    rw [timeline] at ht
    cases ht
    cases he
  | (a, i) :: rest =>
    rw [mcLoop] at hx
    obtain ⟨y, hy, _⟩ := bind_ok hx
    have : ∃ q, p.model.evaluateFlows fuel [q] = .ok y := by
      cases i with
      | spotStarting v u K =>
        rw [mcPrice] at hy
        obtain ⟨ps, _, hy⟩ := bind_ok hy
        split at hy
        · cases hy
        · exact ⟨_, hy⟩
      | forwardStarting v u K d s =>
        rw [mcPrice] at hy
        obtain ⟨ps, _, hy⟩ := bind_ok hy
        split at hy
        · cases hy
        · exact ⟨_, hy⟩
      | _ =>
        rw [timeline] at ht
        obtain ⟨t1, ht1, _⟩ := bind_ok ht
        cases ht1
    obtain ⟨q, hq⟩ := this
    unfold BlackDiffusion.evaluateFlows at hq
    split at hq
    · cases hq
    · rename_i hne
      have : [q].length = p.model.flows.length := by
        by_contra h
        exact hne (.inr h)
      rw [hfl] at this
      have hr : rest = [] := by
        cases rest with
        | nil => rfl
        | cons b rest => simp at this
      exact ⟨a, i, by rw [hr]⟩

/-! ### A case -/

/-- What the sample market says about the equity: its spot and a flat volatility of 20 percent. -/
theorem sample_market (md : MarketData) (c : Collector) {fw : Fwd} {S : ℝ} (hf : fw.forward 10 = .ok (.val S)) {obs : List Point}
    (hobs : ∀ x ∈ obs, x = ((10, 0) : Point)) (hne : obs ≠ []) :
    Spec.Market fuel (Prefetch.pricingContext ⟨md, c, ⟨[("A", fw)]⟩, ⟨[("A", .flat (.val 0.2) .everyDay (0, 0))]⟩⟩) equityA obs
      (fun _ => S) (fun _ => 2 / 73 * 0.2 ^ 2) (fun _ => 0) := by
  refine ⟨obs.getLast hne, fw, .flat (.val 0.2) .everyDay (0, 0), List.getLast?_eq_some_getLast hne, rfl, rfl, ?_⟩
  intro i pt hi
  have := hobs pt (List.mem_of_getElem? hi)
  subst this
  refine ⟨hf, ?_, rfl⟩
  have hy := everyDay_year 10
  norm_num at hy
  have h2 := (flat_variances (fuel := fuel) (v := 0.2) (c := .everyDay) (base := (0, 0)) (t := (10, 0)) (ks := [.val S])
    (out := [.val (0.2 ^ 2 * (2 / 73))])).2 ⟨2 / 73, hy, rfl⟩
  unfold VolSurface.variance
  rw [h2]
  show Except.ok _ = Except.ok _
  congr 2
  ring

/-- The zero coupon of the sample option. -/
theorem sample_discount {S : ℝ} {c : Collector} {fs : Map String Fwd} {vs : Map String VolSurface} :
    (expiryFlow sampleTerms).price fuel (Prefetch.pricingContext ⟨sampleMarket S (.zero 0), c, fs, vs⟩) ⟨0, .open⟩ = .ok (.val 1) := by
  rw [price_iff]
  unfold expiryFlow
  rw [Instrument.prices]
  unfold zeroCouponPrices
  have hy : (Prefetch.pricingContext ⟨sampleMarket S (.zero 0), c, fs, vs⟩).yieldCurve sampleTerms.creditId sampleTerms.payDate = .ok (.zero 0) := rfl
  rw [hy, ok_bind, each_iff]
  refine .cons ?_ .nil
  rw [if_pos (by unfold notAfter rank; simp [sampleTerms])]
  rw [show sampleTerms.payDate = 10 from rfl, show sampleTerms.settlement 0 = 0 from rfl]
  rw [Curves.df_eq (Forward.zero_rt 0 10) (Forward.zero_rt 0 0)]
  norm_num

/-- A pricer for a portfolio of sample options can be built. -/
theorem sample_pricer (l : List (ℝ × Instrument)) {t : Timeline} {obs : List Point} (ht : timeline l .new = .ok t)
    (he : t.observations.entries = [("A", equityA, obs)]) (hobs : ∀ x ∈ obs, x = ((10, 0) : Point)) (hne : obs ≠ [])
    (h1 : (collect 0 l).forwardCurves.entries = [("A", equityA, 10)]) (h2 : ((collect 0 l).volSurfaces.get "A").map Prod.snd = some 10)
    (hh : f.pathSubstep ≠ 0) (hn : f.nPaths ≠ 0) (draw : Draws) :
    ∃ p fw, MonteCarlo.new fuel f l (sampleMarket 100 (.zero 0)) draw = .ok p ∧ fw.forward 10 = .ok (.val 100) ∧
      p.model.context = ⟨sampleMarket 100 (.zero 0), collect 0 l, ⟨[("A", fw)]⟩, ⟨[("A", .flat (.val 0.2) .everyDay (0, 0))]⟩⟩ ∧
      p.model.observations = obs ∧ p.model.instruments = [equityA] ∧ p.model.flows = t.flows ∧ p.instruments = l := by
  obtain ⟨fw, hf, hf'⟩ := sample_forward_flat 100 10
  have hc := sample_new (md := sampleMarket 100 (.zero 0)) (c := collect 0 l) (v := .flat (.val 0.2) .everyDay (0, 0)) h1 h2 hf rfl
  have hw : ∀ i < obs.length, Spec.before (fun _ => (2 / 73 * 0.2 ^ 2 : ℝ)) i ≤ (fun _ => (2 / 73 * 0.2 ^ 2 : ℝ)) i := by
    intro i _
    cases i with
    | zero => simp only [Spec.before]; norm_num
    | succ i => simp only [Spec.before]; exact le_rfl
  obtain ⟨m, hm⟩ := model_succeeds (fuel := fuel) (f := f) draw he (sample_market (fuel := fuel) (sampleMarket 100 (.zero 0)) (collect 0 l) (hf' 10 le_rfl) hobs hne) hw hh hn
  obtain ⟨k, u', obs', ks, paths, he', hs, hpath, hn, hmod⟩ := model_new_ok hm
  rw [he] at he'
  cases he'
  refine ⟨⟨f, l, m⟩, fw, ?_, hf' 10 le_rfl, by rw [hmod], by rw [hmod], by rw [hmod], by rw [hmod], rfl⟩
  unfold MonteCarlo.new
  rw [ht, ok_bind]
  have : (sampleMarket 100 (.zero 0)).spotDate = 0 := rfl
  rw [this, hc, ok_bind, hm, ok_bind]
  rfl

/-- C52: one option in the sample market. -/
example (hh : f.pathSubstep ≠ 0) (hn : f.nPaths ≠ 0) :
    ∃ p x, MonteCarlo.new fuel f [(2, optionA 90)] (sampleMarket 100 (.zero 0)) draw = .ok p ∧ p.price fuel = .ok (.val x) := by
  obtain ⟨p, fw, hp, hf, hc, _⟩ := sample_pricer (fuel := fuel) (f := f) [(2, optionA 90)] (timeline_spot 2 90 sampleTerms equityA) rfl (by simp [sampleTerms]) (by simp) rfl rfl
    hh hn draw
  exact ⟨p, _, hp, C52_spot_partial hp (by rw [hc]; exact sample_market _ _ hf (by simp [sampleTerms]) (by simp)) (by rw [hc]; exact sample_discount)⟩

/-- C52 violated: two options on one equity make a pricer, but its price panics. Every option expects the paths to have
its own observations only (`options.rs:515`), and the flows to be its own only (`blackdiffusion.rs:506`). -/
theorem C52_false (hh : f.pathSubstep ≠ 0) (hn : f.nPaths ≠ 0) :
    ∃ p, MonteCarlo.new fuel f [(1, optionA 90), (1, optionA 110)] (sampleMarket 100 (.zero 0)) draw = .ok p ∧ p.price fuel = .error .panic := by
  obtain ⟨p, fw, hp, hf, hc, ho, hi, hfl, hl⟩ := sample_pricer (fuel := fuel) (f := f) [(1, optionA 90), (1, optionA 110)]
    (t := ⟨⟨[("A", equityA, [(10, 0), (10, 0)])]⟩, [expiryFlow sampleTerms, expiryFlow sampleTerms]⟩) (obs := [(10, 0), (10, 0)])
    (by
      simp [timeline, mcDependencies, optionA, bind, Except.bind, Timeline.observation, Timeline.new, Timeline.flow, Map.insert, Map.get, Map.empty, equityA,
        Instrument.id, sampleTerms]) rfl (by simp) (by simp) (by
      rfl) rfl hh hn draw
  refine ⟨p, hp, ?_⟩
  obtain ⟨t, context, ht, hc', hb, _⟩ := new_ok hp
  unfold MonteCarlo.price
  rw [hl, mcLoop]
  have : mcPrice fuel p.model (optionA 90) = .error .panic := by
    unfold optionA
    rw [mcPrice, pathsOf_only hb hi, ok_bind, if_pos (by rw [ho]; simp)]
  rw [this]
  rfl

/-! ## C52: the mean of a path -/

variable {Ω : Type} [MeasurableSpace Ω] {μ : Measure Ω} [IsProbabilityMeasure μ] {draws : Ω → Draws}

omit [IsProbabilityMeasure μ] in
theorem one_path (hd : StandardNormal μ draws) (path : ℕ) :
    (∀ k, HasLaw (fun ω => draws ω path k 0) (gaussianReal 0 1) μ) ∧ iIndepFun (fun k ω => draws ω path k 0) μ :=
  ⟨fun k => hd.law path k 0, hd.independent.precomp (g := fun k : ℕ => ((path, k, 0) : ℕ × ℕ × ℕ)) (fun a b h => by simpa using h)⟩

/-- C52: under standard normal draws, the mean of every specified path value is the forward. -/
theorem C52_value_mean (hd : StandardNormal μ draws) (F w δ : Nat → ℝ) (n : Nat → Nat) (path i : Nat) :
    Integrable (fun ω => pathValue F w δ n (fun k => draws ω path k 0) i) μ ∧
      ∫ ω, pathValue F w δ n (fun k => draws ω path k 0) i ∂μ = F i := by
  obtain ⟨hl, hi⟩ := one_path hd path
  obtain ⟨s, hs, _⟩ := level_flat w n (i + 1)
  obtain ⟨h1, h2⟩ := factor_mean hi hl s (start n (i + 1))
  unfold pathValue
  simp only [hs]
  refine ⟨(h1.const_mul _).add (integrable_const _), ?_⟩
  rw [integral_add (h1.const_mul _) (integrable_const _), integral_const_mul, h2]
  simp

/-- C52: every value on every path of a Monte-Carlo pricer is a number whose mean under standard normal draws is the forward,
if the market gives numbers. -/
theorem C52_mean_partial {l : List (ℝ × Instrument)} {u : Instrument} {obs : List Point} {context : Prefetch} {F w δ : Nat → ℝ}
    {p : Ω → MonteCarlo} (hd : StandardNormal μ draws) (hp : ∀ ω, MonteCarlo.new fuel f l md (draws ω) = .ok (p ω))
    (hu : ∀ ω, (p ω).model.instruments = [u]) (ho : ∀ ω, (p ω).model.observations = obs)
    (hc : Prefetch.new md (collect md.spotDate l) = .ok context) (hm : Spec.Market fuel context.pricingContext u obs F w δ)
    {path i : Nat} (hpath : path < f.nPaths) (hi : i < obs.length) :
    ∃ x : Ω → ℝ, (∀ ω, ∃ paths, (p ω).model.pathsOf u = .ok paths ∧ (paths.getD path []).getD i .nan = .val (x ω)) ∧ Integrable x μ ∧
      ∫ ω, x ω ∂μ = F i := by
  refine ⟨fun ω => pathValue F w δ (steps f.pathSubstep w) (fun k => draws ω path k 0) i, fun ω => ?_,
    C52_value_mean hd F w δ (steps f.pathSubstep w) path i⟩
  obtain ⟨t, c, ht, hc', hb, _, _⟩ := new_ok (hp ω)
  rw [hc] at hc'
  cases hc'
  have hcc : (p ω).model.context = context := by
    obtain ⟨_, _, _, _, _, _, _, _, _, e⟩ := model_new_ok hb
    rw [e]
  refine ⟨_, pathsOf_only hb (hu ω), ?_⟩
  rw [model_paths hb (hu ω) (by rw [ho ω, hcc]; exact hm), ho ω]
  simp [List.getD_eq_getElem?_getD, hpath, hi]

/-- There are standard normal draws. -/
theorem standard_normal : ∃ (Ω : Type) (_ : MeasurableSpace Ω) (μ : Measure Ω) (_ : IsProbabilityMeasure μ) (draws : Ω → Draws),
    StandardNormal μ draws := by
  obtain ⟨Ω, mΩ, P, X, h1, h2, h3, h4⟩ := exists_iid (ℕ × ℕ × ℕ) (gaussianReal 0 1)
  exact ⟨Ω, mΩ, P, h4, fun ω path step asset => X (path, step, asset) ω, fun path step asset => h2 (path, step, asset), h3⟩

/-- C52: the mean of the value of the equity on day 10 in the sample market is its forward of 100, on every path. -/
example (hh : f.pathSubstep ≠ 0) (hn : f.nPaths ≠ 0) {path : Nat} (hpath : path < f.nPaths) (hd : StandardNormal μ draws) :
    ∃ (p : Ω → MonteCarlo) (x : Ω → ℝ), (∀ ω, MonteCarlo.new fuel f [(2, optionA 90)] (sampleMarket 100 (.zero 0)) (draws ω) = .ok (p ω)) ∧
      (∀ ω, ∃ paths, (p ω).model.pathsOf equityA = .ok paths ∧ (paths.getD path []).getD 0 .nan = .val (x ω)) ∧ ∫ ω, x ω ∂μ = 100 := by
  have h := fun ω => sample_pricer (fuel := fuel) (f := f) [(2, optionA 90)] (timeline_spot 2 90 sampleTerms equityA) rfl (by simp [sampleTerms]) (by simp) rfl rfl
    hh hn (draws ω)
  choose p fw hp hf hc ho hi _ _ using h
  obtain ⟨ω0⟩ : Nonempty Ω := nonempty_of_isProbabilityMeasure μ
  obtain ⟨t, context, ht, hc', hb, _, _⟩ := new_ok (hp ω0)
  have hcc : context = (p ω0).model.context := by
    obtain ⟨_, _, _, _, _, _, _, _, _, e⟩ := model_new_ok hb
    rw [e]
  obtain ⟨x, h1, _, h2⟩ := C52_mean_partial hd hp hi ho hc' (F := fun _ => 100) (w := fun _ => 2 / 73 * 0.2 ^ 2) (δ := fun _ => 0)
    (by rw [hcc, hc ω0]; exact sample_market _ _ (hf ω0) (by simp [sampleTerms]) (by simp)) hpath (i := 0) (by simp)
  exact ⟨p, x, hp, h1, h2⟩

/-! ## C63: the variance of a path -/

theorem square_bounds {Δ h : ℝ} {n : Nat} (hΔ : 0 ≤ Δ) (hn : 1 ≤ n) (hh : Δ / n ≤ h) :
    Real.exp (Δ * (1 - h / 2)) ≤ (1 + Δ / n) ^ n ∧ (1 + Δ / n) ^ n ≤ Real.exp Δ := by
  have hn' : (0 : ℝ) < n := by exact_mod_cast hn
  have hx : 0 ≤ Δ / n := div_nonneg hΔ hn'.le
  have hpos : 0 < 1 + Δ / n := by linarith
  have e : (n : ℝ) * (Δ / n) = Δ := by field_simp
  constructor
  · rw [← Real.exp_log (pow_pos hpos n), Real.log_pow]
    apply Real.exp_le_exp.2
    have h1 := Real.le_log_one_add_of_nonneg hx
    have h2 : Δ / n - (Δ / n) ^ 2 / 2 ≤ 2 * (Δ / n) / (Δ / n + 2) := by
      rw [le_div_iff₀ (by linarith)]
      nlinarith [pow_nonneg hx 3]
    have h3 : (Δ / n) ^ 2 ≤ (Δ / n) * h := by nlinarith
    have h4 : (n : ℝ) * (Δ / n - (Δ / n) * h / 2) ≤ n * Real.log (1 + Δ / n) := by
      apply mul_le_mul_of_nonneg_left _ hn'.le
      linarith
    calc Δ * (1 - h / 2) = n * (Δ / n) * (1 - h / 2) := by rw [e]
      _ = n * (Δ / n - (Δ / n) * h / 2) := by ring
      _ ≤ _ := h4
  · have h1 : 1 + Δ / n ≤ Real.exp (Δ / n) := by
      have := Real.add_one_le_exp (Δ / n)
      linarith
    calc (1 + Δ / n) ^ n ≤ Real.exp (Δ / n) ^ n := pow_le_pow_left₀ hpos.le h1 n
      _ = Real.exp Δ := by rw [← Real.exp_nat_mul, e]

theorem before_sum (w : Nat → ℝ) : ∀ i, ∑ j ∈ Finset.range (i + 1), (w j - Spec.before w j) = w i
  | 0 => by simp [Spec.before]
  | i + 1 => by
    rw [Finset.sum_range_succ, before_sum w i]
    simp [Spec.before]

/-- C63: under standard normal draws the second moment of the simulated asset, scaled to a mean of one, is below that of the
log-normal distribution with the variance `w i` of the surface, by a factor that tends to one with the size of the substeps. -/
theorem C63_second_moment (hd : StandardNormal μ draws) {w : Nat → ℝ} {h : ℝ} (hh : 0 < h) {i : Nat} (hw : ∀ j ≤ i, Spec.before w j ≤ w j)
    (path : Nat) :
    Real.exp (w i * (1 - h / 2)) ≤ ∫ ω, level w (steps h w) (fun k => draws ω path k 0) (i + 1) ^ 2 ∂μ ∧
      ∫ ω, level w (steps h w) (fun k => draws ω path k 0) (i + 1) ^ 2 ∂μ ≤ Real.exp (w i) := by
  obtain ⟨hl, hi⟩ := one_path hd path
  obtain ⟨s, hs, hs'⟩ := level_flat w (steps h w) (i + 1)
  simp only [hs]
  rw [(factor_square hi hl s _).2, hs']
  have hterm : ∀ j ∈ Finset.range (i + 1), Real.exp ((w j - Spec.before w j) * (1 - h / 2)) ≤ (1 + stepSize w (steps h w) j ^ 2) ^ steps h w j ∧
      (1 + stepSize w (steps h w) j ^ 2) ^ steps h w j ≤ Real.exp (w j - Spec.before w j) := by
    intro j hj
    have hΔ : 0 ≤ w j - Spec.before w j := sub_nonneg.2 (hw j (by have := Finset.mem_range.1 hj; omega))
    have hn : 1 ≤ steps h w j := le_max_left _ _
    have hn' : (0 : ℝ) < steps h w j := by exact_mod_cast hn
    unfold stepSize
    rw [Real.sq_sqrt (div_nonneg hΔ hn'.le)]
    apply square_bounds hΔ hn
    rw [div_le_iff₀ hn', mul_comm, ← div_le_iff₀ hh]
    refine (Nat.le_ceil _).trans ?_
    exact_mod_cast le_max_right _ _
  constructor
  · calc Real.exp (w i * (1 - h / 2)) = ∏ j ∈ Finset.range (i + 1), Real.exp ((w j - Spec.before w j) * (1 - h / 2)) := by
          rw [← Real.exp_sum, ← Finset.sum_mul, before_sum]
      _ ≤ _ := Finset.prod_le_prod (fun j _ => (Real.exp_pos _).le) fun j hj => (hterm j hj).1
  · calc _ ≤ ∏ j ∈ Finset.range (i + 1), Real.exp (w j - Spec.before w j) :=
          Finset.prod_le_prod (fun j hj => (Real.exp_pos _).le.trans (hterm j hj).1) fun j hj => (hterm j hj).2
      _ = Real.exp (w i) := by rw [← Real.exp_sum, before_sum]

/-- C63: a case, with an observation of variance 0.04 and a substep of 0.01. -/
example (hd : StandardNormal μ draws) : Real.exp (0.04 * (1 - 0.01 / 2)) ≤
    ∫ ω, level (fun _ => 0.04) (steps 0.01 (fun _ => 0.04)) (fun k => draws ω 0 k 0) 1 ^ 2 ∂μ :=
  (C63_second_moment hd (w := fun _ => 0.04) (h := 0.01) (by norm_num) (i := 0) (by
    intro j hj
    have : j = 0 := by omega
    subst this
    simp only [Spec.before]
    norm_num) 0).1

end QM.MonteCarlo
