import Verif.MonteCarlo.Reports

/-!
# Property C65: rolling Monte-Carlo pricers forward
-/

namespace QM.MonteCarlo
open QM.Interp QM.Vol QM.Instruments QM.Market QM.Market.Spec QM.Risk QM.Fixings Spec

variable {fuel : Nat} {f : ModelFactory} {md : MarketData} {draw draw' : Draws}

namespace Spec

/-- The instruments that paths can be laid out for. -/
def IsOption : Instrument → Prop
  | .spotStarting _ _ _ => True
  | .forwardStarting _ _ _ _ _ => True
  | _ => False

end Spec

theorem timeline_options : ∀ {l : List (ℝ × Instrument)} {t t' : Timeline}, timeline l t = .ok t' → ∀ e ∈ l, IsOption e.2
  | [], _, _, _, e, he => by cases he
  | (a, i) :: rest, t, t', h, e, he => by
    rw [timeline] at h
    obtain ⟨t1, h1, h2⟩ := bind_ok h
    rcases List.mem_cons.1 he with rfl | he
    · cases i <;> first | trivial | cases h1
    · exact timeline_options h2 e he

theorem new_options {l : List (ℝ × Instrument)} {p : MonteCarlo} (hp : MonteCarlo.new fuel f l md draw = .ok p) : ∀ e ∈ p.instruments, IsOption e.2 := by
  obtain ⟨t, context, ht, hc, hb, hf, hi⟩ := new_ok hp
  rw [hi]
  exact timeline_options ht

theorem update_unmodified {b : BumpSpotDate} {l l' : List (ℝ × Instrument)} {ctx : PricingContext} {c : Collector}
    (h : updateInstruments b l ctx c = .ok (false, l')) : l' = l := by
  unfold updateInstruments at h
  obtain ⟨fixings, _, h⟩ := bind_ok h
  split at h
  · cases h; rfl
  · obtain ⟨table, _, h⟩ := bind_ok h
    obtain ⟨r, _, h⟩ := bind_ok h
    cases r with
    | none => cases h; rfl
    | some r => cases h

/-- C65: a pricer rolled forward successfully holds options and nothing else. So an option rolled past its expiry, which leaves a fixed
payment or a delivery, always ends in an error. -/
theorem C65_options_only {l : List (ℝ × Instrument)} {p p' : MonteCarlo} {bump : BumpTime} (hp : MonteCarlo.new fuel f l md draw = .ok p)
    (h : p.bumpTime fuel draw' bump = (.ok (), p')) : ∀ e ∈ p'.instruments, IsOption e.2 := by
  unfold MonteCarlo.bumpTime at h
  cases hu : updateInstruments bump.spotDateBump p.instruments p.model.context.pricingContext p.model.context.dependencies with
  | error e => rw [hu] at h; cases h
  | ok r =>
    obtain ⟨modified, l'⟩ := r
    rw [hu] at h
    dsimp only at h
    generalize hb : p.model.bump fuel (.spotDate bump.spotDateBump) none = r at h
    obtain ⟨r, m, s⟩ := r
    cases r with
    | error e => cases h
    | ok changed =>
      dsimp only at h
      cases modified with
      | false =>
        cases h
        show ∀ e ∈ l', IsOption e.2
        rw [update_unmodified hu]
        exact new_options hp
      | true =>
        rw [if_pos rfl] at h
        cases hn : MonteCarlo.new fuel p.factory l' m.context.context draw' with
        | error e => rw [hn] at h; cases h
        | ok q =>
          rw [hn] at h
          cases h
          exact new_options hn

/-- C65 violated: one option rolled past its expiry. The self pricer carries on with the payment of 50, the Monte-Carlo pricer fails. -/
theorem C65_false (hh : f.pathSubstep ≠ 0) (hn : f.nPaths ≠ 0) :
    ∃ p q q', MonteCarlo.new fuel f [(1, optionA 50)] (sampleMarket 100 (.zero 0)) draw = .ok p ∧
      SelfPricer.new [(1, optionA 50)] (sampleMarket 100 (.zero 0)) = .ok q ∧
      q.bumpTime toDay20 = (.ok (), q') ∧ q'.instruments = [(1 * 50, payment sampleTerms)] ∧
      ∀ p', p.bumpTime fuel draw' toDay20 ≠ (.ok (), p') := by
  obtain ⟨p, fw, hp, hf, hc, ho, hi, hfl, hl⟩ := sample_pricer (fuel := fuel) (f := f) [(1, optionA 50)] (timeline_spot 1 50 sampleTerms equityA) rfl
    (by simp [sampleTerms]) (by simp) rfl rfl hh hn draw
  have hu : updateInstruments toDay20.spotDateBump [(1, optionA 50)]
      (Prefetch.pricingContext ⟨sampleMarket 100 (.zero 0), collect 0 [(1, optionA 50)], ⟨[("A", fw)]⟩, ⟨[("A", .flat (.val 0.2) .everyDay (0, 0))]⟩⟩)
      (collect 0 [(1, optionA 50)]) = .ok (true, (decompose sampleTerms equityA 50 100).map (fun p => (1 * p.1, p.2))) := rfl
  have hd : decompose sampleTerms equityA 50 100 = [(50, payment sampleTerms)] := by
    unfold Instruments.decompose
    rw [show sampleTerms.cashOrPhysical = .cash from rfl, show sampleTerms.putOrCall = .call from rfl]
    norm_num [sign]
  rw [hd, List.map_singleton] at hu
  obtain ⟨g, h2, _⟩ := sample_forward (md := { sampleMarket 100 (.zero 0) with spotDate := 20 }) (S := 100) rfl rfl rfl rfl rfl rfl (Forward.zero_rt 0)
    (Forward.financing_zero 0 0) 10
  have hv : ({ sampleMarket 100 (.zero 0) with spotDate := 20 } : MarketData).volSurface equityA 10 (fun _ => .ok g) =
      .ok (.constantExpiry (.flat (.val 0.2) .everyDay (0, 0)) (20 / 365) (20, 0)) := by
    have hy := everyDay_year 20
    norm_num at hy
    unfold MarketData.volSurface find
    rw [show equityA.id = "A" from rfl, show (sampleMarket 100 (.zero 0)).volSurfaces.get "A" = some (.flat (.val 0.2) .everyDay (0, 0)) from rfl]
    dsimp only
    rw [ok_bind]
    unfold Instrument.volTimeDynamics VolTimeDynamics.modify
    rw [if_neg (by simp [VolSurface.baseDate])]
    dsimp only
    rw [show QM.Calendar.yearFraction (VolSurface.flat (.val 0.2) .everyDay (0, 0)).calendar (VolSurface.flat (.val 0.2) .everyDay (0, 0)).baseDate ((20, 0) : Point) =
      .ok (4 / 73) from hy, ok_bind, if_neg (by norm_num)]
    norm_num
    rfl
  have hnew := sample_new (md := { sampleMarket 100 (.zero 0) with spotDate := 20 }) (c := collect 0 [(1, optionA 50)]) rfl rfl h2 hv
  obtain ⟨t, context, ht, hc', hb, _, _⟩ := new_ok hp
  have hx : p.model.context = context := by
    obtain ⟨k, u', obs, ks, paths, he, hs, hpath, _, hmod⟩ := model_new_ok hb
    rw [hmod]
  rw [← hx, hc] at hc'
  refine ⟨p, _, ⟨[(1 * 50, payment sampleTerms)], ⟨{ sampleMarket 100 (.zero 0) with spotDate := 20 },
    collect 20 [(1 * 50, payment sampleTerms)], .empty, .empty⟩⟩, hp, new_self_of hc', ?_, rfl, ?_⟩
  · unfold SelfPricer.bumpTime
    dsimp only
    rw [hu]
    dsimp only
    rw [bump_date_of (by show (20 : Int) ≠ 0; decide) rfl hnew none]
    rfl
  · intro p' h
    unfold MonteCarlo.bumpTime at h
    rw [hl, hc, hu] at h
    dsimp only at h
    generalize hb : p.model.bump fuel (.spotDate toDay20.spotDateBump) none = r at h
    obtain ⟨r, m, s⟩ := r
    cases r with
    | error e => cases h
    | ok changed =>
      dsimp only at h
      rw [if_pos rfl] at h
      cases hn : MonteCarlo.new fuel p.factory [(1 * 50, payment sampleTerms)] m.context.context draw' with
      | error e => rw [hn] at h; cases h
      | ok q => exact new_options hn _ (by rw [(new_ok hn).choose_spec.choose_spec.2.2.2.2]; exact List.mem_singleton.2 rfl)

/-- C65: the price of a portfolio is that of its options. Whatever else is in it, for example after a roll that failed, is passed over. -/
theorem C65_passed_over (p : MonteCarlo) (keep : ℝ × Instrument → Bool) (hk : ∀ e ∈ p.instruments, IsOption e.2 → keep e = true) :
    p.price fuel = ({ p with instruments := p.instruments.filter keep } : MonteCarlo).price fuel := by
  unfold MonteCarlo.price
  dsimp only
  have key : ∀ (l : List (ℝ × Instrument)) (total : Num ℝ), (∀ e ∈ l, IsOption e.2 → keep e = true) →
      mcLoop fuel p.model l total = mcLoop fuel p.model (l.filter keep) total := by
    intro l
    induction l with
    | nil => intro total _; rfl
    | cons e l ih =>
      intro total hl
      have ih' := fun total => ih total fun e he => hl e (List.mem_cons_of_mem _ he)
      obtain ⟨a, i⟩ := e
      by_cases h : keep (a, i) = true
      · rw [List.filter_cons_of_pos h, mcLoop, mcLoop]
        simp only [ih']
      · rw [List.filter_cons_of_neg h, mcLoop, ← ih']
        have hno : ¬ IsOption i := fun ho => h (hl (a, i) (List.mem_cons_self ..) ho)
        have h0 : mcPrice fuel p.model i = .ok (.val 0) := by
          cases i <;> first | rfl | exact absurd trivial hno
        rw [h0, ok_bind]
        congr 1
        cases total with
        | nan => rfl
        | val x => simp [num1, num2]
  exact key p.instruments (.val 0) hk

/-- C65 violated: after the roll past expiry has failed, the pricer holds the payment of 50 and answers that it is worth nothing. -/
theorem C65_lost_false (hh : f.pathSubstep ≠ 0) (hn : f.nPaths ≠ 0) :
    ∃ p p' e, MonteCarlo.new fuel f [(1, optionA 50)] (sampleMarket 100 (.zero 0)) draw = .ok p ∧
      p.bumpTime fuel draw' toDay20 = (.error e, p') ∧ p'.instruments = [(1 * 50, payment sampleTerms)] ∧ p'.price fuel = .ok (.val 0) := by
  obtain ⟨p, fw, hp, hf, hc, ho, hi, hfl, hl⟩ := sample_pricer (fuel := fuel) (f := f) [(1, optionA 50)] (timeline_spot 1 50 sampleTerms equityA) rfl
    (by simp [sampleTerms]) (by simp) rfl rfl hh hn draw
  have hu : updateInstruments toDay20.spotDateBump [(1, optionA 50)]
      (Prefetch.pricingContext ⟨sampleMarket 100 (.zero 0), collect 0 [(1, optionA 50)], ⟨[("A", fw)]⟩, ⟨[("A", .flat (.val 0.2) .everyDay (0, 0))]⟩⟩)
      (collect 0 [(1, optionA 50)]) = .ok (true, (decompose sampleTerms equityA 50 100).map (fun p => (1 * p.1, p.2))) := rfl
  have hd : decompose sampleTerms equityA 50 100 = [(50, payment sampleTerms)] := by
    unfold Instruments.decompose
    rw [show sampleTerms.cashOrPhysical = .cash from rfl, show sampleTerms.putOrCall = .call from rfl]
    norm_num [sign]
  rw [hd, List.map_singleton] at hu
  have zero : ∀ m, MonteCarlo.price fuel { p with instruments := [(1 * 50, payment sampleTerms)], model := m } = .ok (.val 0) := by
    intro m
    rw [C65_passed_over _ (fun _ => false) (by
      intro e he ho
      rw [List.mem_singleton.1 he] at ho
      exact ho.elim)]
    rfl
  generalize hb : p.model.bump fuel (.spotDate toDay20.spotDateBump) none = r
  obtain ⟨r, m, s⟩ := r
  have hbt : ∃ e, p.bumpTime fuel draw' toDay20 = (.error e, { p with instruments := [(1 * 50, payment sampleTerms)], model := m }) := by
    unfold MonteCarlo.bumpTime
    rw [hl, hc, hu]
    dsimp only
    rw [hb]
    cases r with
    | error e => exact ⟨e, rfl⟩
    | ok changed =>
      dsimp only
      rw [if_pos rfl]
      cases hn : MonteCarlo.new fuel p.factory [(1 * 50, payment sampleTerms)] m.context.context draw' with
      | error e => exact ⟨e, rfl⟩
      | ok q => exact False.elim (new_options hn (1 * 50, payment sampleTerms) (by rw [(new_ok hn).choose_spec.choose_spec.2.2.2.2]; exact List.mem_singleton.2 rfl))
  obtain ⟨e, hbt⟩ := hbt
  exact ⟨p, _, e, hp, hbt, rfl, zero m⟩

/-- C65 where nothing expires or strikes before the new date: rolling succeeds whenever it does for the self pricer, provided the
market at the later date still shows variances that do not fall. The missing cases are those where an instrument changes: `C65_struck_partial`, `C65_false` and
`C65_options_only`. -/
theorem C65_partial {l : List (ℝ × Instrument)} {p : MonteCarlo} {q q' : SelfPricer} {bump : BumpTime} {u : Instrument} {F w δ F' w' δ' : Nat → ℝ}
    (hp : MonteCarlo.new fuel f l md draw = .ok p) (hq : SelfPricer.new l md = .ok q) (hu : p.model.instruments = [u])
    (hn : ∀ id ds, (collect md.spotDate l).fixings.get id = some ds → ∀ d ∈ ds, ¬ (md.spotDate ≤ d.date ∧ d.date < bump.spotDateBump.spotDate))
    (hm : Spec.Market fuel p.model.context.pricingContext u p.model.observations F w δ)
    (h : q.bumpTime bump = (.ok (), q'))
    (hm' : Spec.Market fuel q'.context.pricingContext u p.model.observations F' w' δ')
    (hw : ∀ i < p.model.observations.length, Spec.before w' i ≤ w' i) :
    ∃ p', p.bumpTime fuel draw' bump = (.ok (), p') ∧ p'.instruments = l ∧ p'.model.context = q'.context := by
  obtain ⟨t, context, ht, hc, hb, hf, hi⟩ := new_ok hp
  obtain ⟨k, u', obs, ks, paths, he, hs, hpath, hn', hmod⟩ := model_new_ok hb
  obtain ⟨hqi, hqc⟩ := new_self hq
  rw [hc] at hqc
  cases hqc
  obtain ⟨_, h4, h5⟩ := coherent_new (collect_wellFormed _ _) hc
  have hup : updateInstruments bump.spotDateBump l q.context.pricingContext q.context.dependencies = .ok (false, l) := by
    rw [h5]
    refine update_none ?_
    show ∀ id ds, _ → ∀ d ∈ ds, ¬ (q.context.context.spotDate ≤ _ ∧ _)
    rw [h4]
    exact hn
  have hx : p.model.context = q.context := by rw [hmod]
  have ho : p.model.observations = obs := by rw [hmod]
  have hpu : u' = u := by rw [hmod] at hu; exact List.singleton_injective hu
  subst hpu
  unfold SelfPricer.bumpTime at h
  rw [hqi, hup] at h
  dsimp only at h
  unfold MonteCarlo.bumpTime
  rw [hi, hx, hup]
  dsimp only
  unfold BlackDiffusion.bump
  rw [hx]
  dsimp only [Option.map_none]
  generalize hbump : q.context.bump (.spotDate bump.spotDateBump) none = r at h
  obtain ⟨r, c, s⟩ := r
  cases r with
  | error e => cases h
  | ok changed =>
    cases h
    dsimp only at hm' ⊢
    cases changed with
    | false => exact ⟨_, rfl, rfl, rfl⟩
    | true =>
      rw [if_pos rfl]
      rw [hx] at hm
      rw [ho] at hm hm' hw
      have hks := substepping_val hm hs
      obtain ⟨paths', hp'⟩ := rows_fetch (n := steps f.pathSubstep w) (fun i => by unfold steps; omega) hm' hw hks f.nPaths draw
      have hone := (substepping_ok hs).1
      unfold BlackDiffusion.refetchAll
      rw [hmod]
      dsimp only
      have : fetchPaths fuel c.pricingContext obs [rows f.nPaths ks.sum draw] [u'] ks = .ok [paths'] := by
        unfold fetchPaths
        rw [if_neg (by
          rintro (h | h)
          · exact hone (List.length_eq_zero_iff.1 h)
          · cases h)]
        rw [each_iff]
        exact .cons hp' .nil
      rw [this]
      exact ⟨_, rfl, rfl, rfl⟩

/-- To day 5, leaving the spot where it is. -/
def toDay5 : BumpTime := ⟨⟨5, .stickySpot⟩⟩

/-- C65: an option that expires on day 10 can be rolled to day 5. -/
example (hh : f.pathSubstep ≠ 0) (hn : f.nPaths ≠ 0) :
    ∃ p p', MonteCarlo.new fuel f [(1, optionA 50)] (sampleMarket 100 (.zero 0)) draw = .ok p ∧ p.bumpTime fuel draw' toDay5 = (.ok (), p') := by
  obtain ⟨p, fw, hp, hf, hc, ho, hi, hfl, hl⟩ := sample_pricer (fuel := fuel) (f := f) [(1, optionA 50)] (timeline_spot 1 50 sampleTerms equityA) rfl
    (by simp [sampleTerms]) (by simp) rfl rfl hh hn draw
  obtain ⟨g, h2, h2'⟩ := sample_forward (md := { sampleMarket 100 (.zero 0) with spotDate := 5 }) (S := 100) rfl rfl rfl rfl rfl rfl (Forward.zero_rt 0)
    (Forward.financing_zero 0 0) 10
  have hv : ({ sampleMarket 100 (.zero 0) with spotDate := 5 } : MarketData).volSurface equityA 10 (fun _ => .ok g) =
      .ok (.constantExpiry (.flat (.val 0.2) .everyDay (0, 0)) (1 / 73) (5, 0)) := by
    have hy : QM.Calendar.yearFraction .everyDay (0, 0) ((5, 0) : Point) = .ok (1 / 73) := by
      have := everyDay_year 5
      norm_num at this ⊢
      exact this
    unfold MarketData.volSurface find
    rw [show equityA.id = "A" from rfl, show (sampleMarket 100 (.zero 0)).volSurfaces.get "A" = some (.flat (.val 0.2) .everyDay (0, 0)) from rfl]
    dsimp only
    rw [ok_bind]
    unfold Instrument.volTimeDynamics VolTimeDynamics.modify
    rw [if_neg (by simp [VolSurface.baseDate])]
    dsimp only
    rw [show QM.Calendar.yearFraction (VolSurface.flat (.val 0.2) .everyDay (0, 0)).calendar (VolSurface.flat (.val 0.2) .everyDay (0, 0)).baseDate ((5, 0) : Point) =
      .ok (1 / 73) from hy, ok_bind, if_neg (by norm_num)]
    rfl
  have hnew := sample_new (md := { sampleMarket 100 (.zero 0) with spotDate := 5 }) (c := collect 0 [(1, optionA 50)]) rfl rfl h2 hv
  obtain ⟨t, context, ht, hc', hb, _, _⟩ := new_ok hp
  have hx : p.model.context = context := by
    obtain ⟨k, u', obs, ks, paths, he, hs, hpath, _, hmod⟩ := model_new_ok hb
    rw [hmod]
  rw [← hx, hc] at hc'
  obtain ⟨p', h, _⟩ := C65_partial (draw' := draw') (bump := toDay5) (q' := ⟨[(1, optionA 50)], ⟨{ sampleMarket 100 (.zero 0) with spotDate := 5 },
      collect 0 [(1, optionA 50)], ⟨[("A", g)]⟩, ⟨[("A", .constantExpiry (.flat (.val 0.2) .everyDay (0, 0)) (1 / 73) (5, 0))]⟩⟩⟩)
    (F' := fun _ => 100) (w' := fun _ => 0.2 ^ 2 * (2 / 73 - 1 / 73)) (δ' := fun _ => 0)
    hp (new_self_of hc') hi (by
      intro id ds hds d hd ⟨_, h2⟩
      have e : (collect (sampleMarket 100 (.zero 0)).spotDate [(1, optionA 50)]).fixings = ⟨[("A", [⟨10, .open⟩])]⟩ := rfl
      rw [e] at hds
      by_cases ha : id = "A"
      · subst ha
        cases hds
        cases List.mem_singleton.1 hd
        exact absurd h2 (by decide)
      · simp [Map.get, Ne.symm ha] at hds) (by rw [hc, ho]; exact sample_market _ _ hf (by simp [sampleTerms]) (by simp)) (by
      unfold SelfPricer.bumpTime
      dsimp only
      rw [show updateInstruments toDay5.spotDateBump [(1, optionA 50)] _ _ = .ok (false, [(1, optionA 50)]) from rfl]
      dsimp only
      rw [bump_date_of (by show (5 : Int) ≠ 0; decide) rfl hnew none]
      rfl) (by
      rw [ho]
      refine ⟨(10, 0), g, .constantExpiry (.flat (.val 0.2) .everyDay (0, 0)) (1 / 73) (5, 0), rfl, rfl, rfl, ?_⟩
      intro i pt hi
      have hpt : pt = ((10, 0) : Point) := by
        have := List.mem_of_getElem? hi
        simpa [sampleTerms, Vanilla.expiryTime] using this
      subst hpt
      refine ⟨?_, ?_, rfl⟩
      · have := h2' 10 le_rfl
        norm_num at this
        exact this
      · have hy := everyDay_year 10
        norm_num at hy
        unfold VolSurface.variance VolSurface.variances
        rw [VolSurface.volatilities, VolSurface.volatilities, hy]
        simp only [ok_bind, pure, Except.pure, List.map_cons, List.map_nil, Vol.first, num2]
        norm_num) (by
      intro i _
      cases i with
      | zero => simp only [Spec.before]; norm_num
      | succ i => simp only [Spec.before]; exact le_rfl)
  exact ⟨p, p', hp, h⟩

end QM.MonteCarlo
