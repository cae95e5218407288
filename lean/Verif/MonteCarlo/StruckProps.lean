import Verif.MonteCarlo.Rolling

/-!
# Property C65: rolling Monte-Carlo pricers past a strike date
-/

namespace QM.MonteCarlo
open QM.Interp QM.Vol QM.Instruments QM.Market QM.Market.Spec QM.Risk QM.Fixings Spec

variable {fuel : Nat} {f : ModelFactory} {md : MarketData} {draw draw' : Draws}

/-! ## What fixings have to do with the other dependencies -/

/-- The dependencies without the dates and the fixings. -/
def core (c : Collector) : Collector := { c with spotDate := 0, yieldCurves := .empty, fixings := .empty }

theorem core_noteSpot (c : Collector) (i : Instrument) (r : SpotRequirement) : core (c.noteSpot i r) = (core c).noteSpot i r := by
  unfold Collector.noteSpot
  split <;> rfl

theorem core_noteForward (c : Collector) (i : Instrument) (d : Int) : core (c.noteForward i d) = core ((core c).noteForward i d) := rfl

theorem core_volSurface (c : Collector) (i : Instrument) (d : Int) : core (c.volSurface i d) = (core c).volSurface i d := rfl

theorem core_start {c c' : Collector} (h : core c = core c') (v : Vanilla) (u : Instrument) :
    core (startVanilla v u c) = core (startVanilla v u c') := by
  unfold startVanilla
  rw [core_noteForward, show core ((c.fixing u.id v.expiry).yieldCurve v.creditId v.payDate) = core c from rfl, h]
  rfl

theorem core_finish {r r' : Collector × SpotRequirement} (h : core r.1 = core r'.1) (h' : r.2 = r'.2) (v : Vanilla) (u : Instrument) :
    core (finishVanilla v u r).1 = core (finishVanilla v u r').1 := by
  unfold finishVanilla
  dsimp only
  rw [core_volSurface, core_noteSpot, h, h', ← core_noteSpot, ← core_volSurface]

mutual
theorem core_dependencies : ∀ (i : Instrument) {c c' : Collector}, core c = core c' →
    core (i.dependencies c).1 = core (i.dependencies c').1 ∧ (i.dependencies c).2 = (i.dependencies c').2
  | .currency _ _, c, c', h => by rw [Instrument.dependencies, Instrument.dependencies]; exact ⟨h, rfl⟩
  | .creditEntity _ _, c, c', h => by rw [Instrument.dependencies, Instrument.dependencies]; exact ⟨h, rfl⟩
  | .equity _ _ _, c, c', h => by rw [Instrument.dependencies, Instrument.dependencies]; exact ⟨h, rfl⟩
  | .zeroCoupon _ _ _ _ _, c, c', h => by rw [Instrument.dependencies, Instrument.dependencies]; exact ⟨h, rfl⟩
  | .basket _ _ _ parts, c, c', h => by
    rw [Instrument.dependencies, Instrument.dependencies]
    exact ⟨core_basket parts h, rfl⟩
  | .spotStarting v u _, c, c', h => by
    rw [Instrument.dependencies, Instrument.dependencies]
    obtain ⟨h1, h2⟩ := core_dependencies u (core_start h v u)
    exact ⟨core_finish h1 h2 v u, rfl⟩
  | .forwardStarting v u _ d _, c, c', h => by
    rw [Instrument.dependencies, Instrument.dependencies]
    obtain ⟨h1, h2⟩ := core_dependencies u (core_start (c := c.fixing u.id d) (c' := c'.fixing u.id d) h v u)
    exact ⟨core_finish h1 h2 v u, rfl⟩

theorem core_basket : ∀ (parts : List (ℝ × Instrument)) {c c' : Collector}, core c = core c' →
    core (basketDependencies parts c) = core (basketDependencies parts c')
  | [], c, c', h => by rw [basketDependencies, basketDependencies]; exact h
  | (_, u) :: parts, c, c', h => by
    rw [basketDependencies, basketDependencies]
    obtain ⟨h1, h2⟩ := core_dependencies u h
    refine core_basket parts ?_
    rw [h2]
    split
    · exact h1
    · obtain ⟨h3, h4⟩ := core_dependencies u h1
      rw [core_noteSpot, h3, h4, ← core_noteSpot]
end

/-- An option whose strike is set later depends on the same curves and surfaces as one whose strike is set. -/
theorem core_struck (sd sd' : Int) (a a' : ℝ) (v : Vanilla) (u : Instrument) (φ K : ℝ) (d : DateTime) (s : Point) :
    core (collect sd [(a, .forwardStarting v u φ d s)]) = core (collect sd' [(a', .spotStarting v u K)]) := by
  show core (((Instrument.forwardStarting v u φ d s).dependencies (.new sd)).1.noteSpot (.forwardStarting v u φ d s) ((Instrument.forwardStarting v u φ d s).dependencies (.new sd)).2) =
    core (((Instrument.spotStarting v u K).dependencies (.new sd')).1.noteSpot (.spotStarting v u K) ((Instrument.spotStarting v u K).dependencies (.new sd')).2)
  rw [Instrument.dependencies, Instrument.dependencies]
  obtain ⟨h1, h2⟩ := core_dependencies u (core_start (c := (Collector.new sd).fixing u.id d) (c' := Collector.new sd') rfl v u)
  exact core_finish h1 h2 v u

theorem new_core {md : MarketData} {c c' : Collector} {q q' : Prefetch} (h : core c = core c') (hn : Prefetch.new md c = .ok q)
    (hn' : Prefetch.new md c' = .ok q') : q.pricingContext = q'.pricingContext := by
  have h1 : c.forwardCurves = c'.forwardCurves := show (core c).forwardCurves = (core c').forwardCurves by rw [h]
  have h2 : c.volSurfaces = c'.volSurfaces := show (core c).volSurfaces = (core c').volSurfaces by rw [h]
  unfold Prefetch.new at hn hn'
  rw [← h1, ← h2] at hn'
  generalize walkDependencies md c.volSurfaces c.forwardCurves.entries .empty .empty = r at hn hn'
  obtain ⟨r, fs, vs⟩ := r
  cases r with
  | error e => cases hn
  | ok u => cases hn; cases hn'; rfl

/-- Instruments of which none was fixed are those there were. -/
theorem update_kept {b : BumpSpotDate} {l l' : List (ℝ × Instrument)} {ctx : PricingContext} {c : Collector}
    (h : updateInstruments b l ctx c = .ok (false, l')) : l' = l := by
  unfold updateInstruments at h
  obtain ⟨fixings, _, h⟩ := bind_ok h
  split at h
  · cases h; rfl
  · obtain ⟨table, _, h⟩ := bind_ok h
    obtain ⟨r, _, h⟩ := bind_ok h
    cases r with
    | none => cases h; rfl
    | some r => cases h

/-- C65 where the strike of an option is set before the new date, and the option does not expire: rolling succeeds whenever it does for the self pricer,
and leaves the same option with its strike set, provided the market at the later date shows variances that do not fall. -/
theorem C65_struck_partial {a φ a' K : ℝ} {v : Vanilla} {u : Instrument} {d : DateTime} {s : Point} {p : MonteCarlo} {q q' : SelfPricer} {bump : BumpTime}
    {F w δ F' w' δ' : Nat → ℝ} (hp : MonteCarlo.new fuel f [(a, .forwardStarting v u φ d s)] md draw = .ok p)
    (hq : SelfPricer.new [(a, .forwardStarting v u φ d s)] md = .ok q)
    (hm : Spec.Market fuel p.model.context.pricingContext u [s, v.expiryTime] F w δ)
    (h : q.bumpTime bump = (.ok (), q')) (hheld : q'.instruments = [(a', .spotStarting v u K)])
    (hm' : Spec.Market fuel q'.context.pricingContext u [s, v.expiryTime] F' w' δ') (hw0 : 0 ≤ w' 0) (hw1 : w' 0 ≤ w' 1) (hh : f.pathSubstep ≠ 0) :
    ∃ p', p.bumpTime fuel draw' bump = (.ok (), p') ∧ p'.instruments = q'.instruments ∧ p'.model.context = q'.context := by
  obtain ⟨t, context, ht, hc, hb, hf, hi⟩ := new_ok hp
  rw [timeline_forward] at ht
  cases ht
  obtain ⟨k, u', obs, ks, paths, he, hs, hpath, hn', hmod⟩ := model_new_ok hb
  cases he
  obtain ⟨hqi, hqc⟩ := new_self hq
  rw [hc] at hqc
  cases hqc
  have hx : p.model.context = q.context := by rw [hmod]
  rw [hx] at hm
  obtain ⟨modified, held, moved, changed, h1, h2, h3⟩ := bumpTime_ok h
  have hmodified : modified = true ∧ SelfPricer.new held moved.context = .ok q' := by
    refine h3.resolve_right ?_
    rintro ⟨rfl, rfl⟩
    have e := update_kept h1
    rw [hqi] at e
    rw [e] at hheld
    cases hheld
  obtain ⟨rfl, hnew⟩ := hmodified
  obtain ⟨e1, e2⟩ := new_self hnew
  have hmoved : changed = true → moved.pricingContext = q'.context.pricingContext := by
    intro hch
    rcases (bump_date h2).2 with ⟨_, h4, _⟩ | ⟨_, _, md', _, h5⟩
    · rw [hch] at h4; cases h4
    · obtain ⟨e3, e4⟩ := new_context h5
      rw [e3, ← e1, hheld] at e2
      rw [(new_context hc).2] at h5
      exact new_core (core_struck ..) h5 e2
  have hm1 : Spec.Market fuel q'.context.pricingContext u [v.expiryTime] (fun i => F' (i + 1)) (fun i => w' (i + 1)) (fun i => δ' (i + 1)) := by
    obtain ⟨last, fwd, surface, hl, hfw, hv, hsn⟩ := hm'.seen
    exact ⟨last, fwd, surface, hl, hfw, hv, fun i pt hi => hsn (i + 1) pt hi⟩
  obtain ⟨m, hm2⟩ := model_succeeds (f := f) draw' (t := ⟨⟨[(u.id, u, [v.expiryTime])]⟩, [expiryFlow v]⟩) (context := q'.context) rfl hm1 (by
    intro i hi
    match i, hi with
    | 0, _ => exact hw0.trans hw1) hh hn'
  have hnewmc : MonteCarlo.new fuel f held moved.context draw' = .ok ⟨f, held, m⟩ := by
    unfold MonteCarlo.new
    rw [e2, ← e1, hheld, timeline_spot]
    simp only [ok_bind]
    rw [hm2]
    rfl
  have hmc : m.context = q'.context := by
    obtain ⟨_, _, _, _, _, _, _, _, _, e⟩ := model_new_ok hm2
    rw [e]
  have hbumped : ∃ model, p.model.bump fuel (.spotDate bump.spotDateBump) none = (.ok changed, model, none) ∧ model.context = moved := by
    unfold BlackDiffusion.bump
    rw [hx]
    dsimp only [Option.map_none]
    rw [h2]
    dsimp only
    cases changed with
    | false => exact ⟨_, rfl, rfl⟩
    | true =>
      rw [if_pos rfl]
      rw [← hmoved rfl] at hm'
      obtain ⟨paths', hp'⟩ := rows_fetch (n := steps f.pathSubstep w) (fun i => by unfold steps; omega) hm' (by
        intro i hi
        match i, hi with
        | 0, _ => exact hw0
        | 1, _ => exact hw1) (substepping_val hm hs) f.nPaths draw
      have hone := (substepping_ok hs).1
      unfold BlackDiffusion.refetchAll
      rw [hmod]
      dsimp only
      have : fetchPaths fuel moved.pricingContext [s, v.expiryTime] [rows f.nPaths ks.sum draw] [u] ks = .ok [paths'] := by
        unfold fetchPaths
        rw [if_neg (by
          rintro (h | h)
          · exact hone (List.length_eq_zero_iff.1 h)
          · cases h)]
        rw [each_iff]
        exact .cons hp' .nil
      rw [this]
      exact ⟨_, rfl, rfl⟩
  obtain ⟨model, hbm, hmm⟩ := hbumped
  refine ⟨⟨f, held, m⟩, ?_, e1.symm, hmc⟩
  unfold MonteCarlo.bumpTime
  rw [hi, hx, ← hqi, h1]
  dsimp only
  rw [hbm]
  dsimp only
  rw [if_pos rfl, hf, hmm, hnewmc]

/-- An option whose strike is set on day 3 to half of the price, and that expires on day 10. -/
noncomputable def lateOption : Instrument := .forwardStarting sampleTerms equityA 0.5 ⟨3, .open⟩ (3, 0)

/-- C65: it can be rolled to day 5, when it has the strike 50. -/
example (hh : f.pathSubstep ≠ 0) (hn : f.nPaths ≠ 0) :
    ∃ p p', MonteCarlo.new fuel f [(1, lateOption)] (sampleMarket 100 (.zero 0)) draw = .ok p ∧ p.bumpTime fuel draw' toDay5 = (.ok (), p') ∧
      p'.instruments = [(1 * 1, optionA (100 * 0.5))] := by
  obtain ⟨fw, hfw, hfw'⟩ := sample_forward_flat 100 10
  have hc := sample_new (md := sampleMarket 100 (.zero 0)) (c := collect 0 [(1, lateOption)]) (v := .flat (.val 0.2) .everyDay (0, 0)) rfl rfl hfw rfl
  have hmarket : Spec.Market fuel (Prefetch.pricingContext ⟨sampleMarket 100 (.zero 0), collect 0 [(1, lateOption)], ⟨[("A", fw)]⟩,
      ⟨[("A", .flat (.val 0.2) .everyDay (0, 0))]⟩⟩) equityA [((3, 0) : Point), sampleTerms.expiryTime] (fun _ => 100)
      (fun i => if i = 0 then 3 / 365 * 0.2 * 0.2 else 10 / 365 * 0.2 * 0.2) (fun _ => 0) := by
    refine ⟨(10, 0), fw, .flat (.val 0.2) .everyDay (0, 0), rfl, rfl, rfl, ?_⟩
    intro i pt hi
    match i, hi with
    | 0, hi =>
      cases hi
      refine ⟨hfw' 3 (by decide), ?_, rfl⟩
      have hy := everyDay_year 3
      norm_num at hy
      unfold VolSurface.variance VolSurface.variances
      rw [VolSurface.volatilities, hy]
      simp only [ok_bind, pure, Except.pure, List.map_cons, List.map_nil, Vol.first, num2]
      norm_num
    | 1, hi =>
      cases hi
      refine ⟨hfw' 10 le_rfl, ?_, rfl⟩
      have hy := everyDay_year 10
      norm_num at hy
      unfold VolSurface.variance VolSurface.variances
      rw [VolSurface.volatilities, show sampleTerms.expiryTime = ((10, 0) : Point) from rfl, hy]
      simp only [ok_bind, pure, Except.pure, List.map_cons, List.map_nil, Vol.first, num2]
      norm_num
    | i + 2, hi => cases hi
  obtain ⟨m, hm⟩ := model_succeeds (f := f) draw (t := ⟨⟨[("A", equityA, [((3, 0) : Point), sampleTerms.expiryTime])]⟩, [expiryFlow sampleTerms]⟩) rfl hmarket (by
    intro i hi
    match i, hi with
    | 0, _ => simp only [Spec.before]; norm_num
    | 1, _ => simp only [Spec.before]; norm_num) hh hn
  have hp : MonteCarlo.new fuel f [(1, lateOption)] (sampleMarket 100 (.zero 0)) draw = .ok ⟨f, [(1, lateOption)], m⟩ := by
    unfold MonteCarlo.new
    rw [show timeline [(1, lateOption)] .new = _ from timeline_forward 1 0.5 sampleTerms equityA ⟨3, .open⟩ (3, 0)]
    simp only [ok_bind]
    rw [show (sampleMarket 100 (.zero 0)).spotDate = 0 from rfl, hc]
    simp only [ok_bind]
    rw [show equityA.id = "A" from rfl, hm]
    rfl
  obtain ⟨g, h2, h2'⟩ := sample_forward (md := { sampleMarket 100 (.zero 0) with spotDate := 5 }) (S := 100) rfl rfl rfl rfl rfl rfl (Forward.zero_rt 0)
    (Forward.financing_zero 0 0) 10
  have hv : ({ sampleMarket 100 (.zero 0) with spotDate := 5 } : MarketData).volSurface equityA 10 (fun _ => .ok g) =
      .ok (.constantExpiry (.flat (.val 0.2) .everyDay (0, 0)) (1 / 73) (5, 0)) := by
    have hy : QM.Calendar.yearFraction .everyDay (0, 0) ((5, 0) : Point) = .ok (1 / 73) := by
      have := everyDay_year 5
      norm_num at this ⊢
      exact this
    unfold MarketData.volSurface find
    rw [show equityA.id = "A" from rfl, show (sampleMarket 100 (.zero 0)).volSurfaces.get "A" = some (.flat (.val 0.2) .everyDay (0, 0)) from rfl]
    dsimp only
    rw [ok_bind]
    unfold Instrument.volTimeDynamics VolTimeDynamics.modify
    rw [if_neg (by simp [VolSurface.baseDate])]
    dsimp only
    rw [show QM.Calendar.yearFraction (VolSurface.flat (.val 0.2) .everyDay (0, 0)).calendar (VolSurface.flat (.val 0.2) .everyDay (0, 0)).baseDate ((5, 0) : Point) =
      .ok (1 / 73) from hy, ok_bind, if_neg (by norm_num)]
    rfl
  have hnew := sample_new (md := { sampleMarket 100 (.zero 0) with spotDate := 5 }) (c := collect 0 [(1, lateOption)]) rfl rfl h2 hv
  have hnew' := sample_new (md := { sampleMarket 100 (.zero 0) with spotDate := 5 }) (c := collect 5 [(1 * 1, optionA (100 * 0.5))]) rfl rfl h2 hv
  obtain ⟨_, _, _, _, _, _, _, _, _, hmod⟩ := model_new_ok hm
  have hmc : m.context = ⟨sampleMarket 100 (.zero 0), collect 0 [(1, lateOption)], ⟨[("A", fw)]⟩, ⟨[("A", .flat (.val 0.2) .everyDay (0, 0))]⟩⟩ := by rw [hmod]
  obtain ⟨p', h, h', _⟩ := C65_struck_partial (draw' := draw') (bump := toDay5) (q' := ⟨[(1 * 1, optionA (100 * 0.5))], ⟨{ sampleMarket 100 (.zero 0) with spotDate := 5 },
      collect 5 [(1 * 1, optionA (100 * 0.5))], ⟨[("A", g)]⟩, ⟨[("A", .constantExpiry (.flat (.val 0.2) .everyDay (0, 0)) (1 / 73) (5, 0))]⟩⟩⟩)
    (F' := fun _ => 100) (w' := fun i => if i = 0 then 0 else 1 / 73 * 0.2 * 0.2) (δ' := fun _ => 0)
    (show MonteCarlo.new fuel f [(1, .forwardStarting sampleTerms equityA 0.5 ⟨3, .open⟩ (3, 0))] _ draw = _ from hp) (new_self_of hc)
    (by rw [hmc]; exact hmarket) (by
      unfold SelfPricer.bumpTime
      dsimp only
      rw [show updateInstruments toDay5.spotDateBump [(1, .forwardStarting sampleTerms equityA 0.5 ⟨3, .open⟩ (3, 0))] _ _ = .ok (true, [(1 * 1, optionA (100 * 0.5))]) from rfl]
      dsimp only
      rw [bump_date_of (by show (5 : Int) ≠ 0; decide) rfl hnew none]
      dsimp only
      rw [if_pos rfl]
      have e := new_self_of (md := { sampleMarket 100 (.zero 0) with spotDate := 5 }) hnew'
      rw [e]) rfl (by
      refine ⟨(10, 0), g, .constantExpiry (.flat (.val 0.2) .everyDay (0, 0)) (1 / 73) (5, 0), rfl, rfl, rfl, ?_⟩
      intro i pt hi
      match i, hi with
      | 0, hi =>
        cases hi
        refine ⟨?_, ?_, rfl⟩
        · have := h2' 3 (by decide)
          norm_num at this
          exact this
        · have hy := everyDay_year 3
          norm_num at hy
          unfold VolSurface.variance VolSurface.variances
          rw [VolSurface.volatilities, VolSurface.volatilities, hy]
          simp only [ok_bind, pure, Except.pure, List.map_cons, List.map_nil, Vol.first, num2]
          norm_num
      | 1, hi =>
        cases hi
        refine ⟨?_, ?_, rfl⟩
        · have := h2' 10 le_rfl
          norm_num at this
          exact this
        · have hy := everyDay_year 10
          norm_num at hy
          unfold VolSurface.variance VolSurface.variances
          rw [VolSurface.volatilities, VolSurface.volatilities, show sampleTerms.expiryTime = ((10, 0) : Point) from rfl, hy]
          simp only [ok_bind, pure, Except.pure, List.map_cons, List.map_nil, Vol.first, num2]
          norm_num
      | i + 2, hi => cases hi) (by norm_num) (by norm_num) hh
  exact ⟨_, p', hp, h, h'⟩

end QM.MonteCarlo
