import Verif.MonteCarlo.ModelProps
import Verif.MonteCarlo.ConvergenceProps
import Verif.Risk.TextbookProps

/-!
# Property C106: the risks that Monte-Carlo pricers report
-/

namespace QM.MonteCarlo
open QM.Interp QM.Vol QM.Instruments QM.Market QM.Market.Spec QM.Risk QM.Fixings Spec MeasureTheory ProbabilityTheory
open QM.Instruments.Spec (NotLater LaterOf gone)
open Filter (Tendsto atTop Eventually)

variable {fuel : Nat} {f : ModelFactory} {md : MarketData} {draw draw' : Draws} {l : List (ℝ × Instrument)}

/-! ## Lemmas -/

/-- A pricer whose context gives certain answers and whose paths are those of its context along given draws. -/
structure Tied (fuel : Nat) (f : ModelFactory) (l : List (ℝ × Instrument)) (sd : Int) (draw : Draws) (u : Instrument) (obs : List Point)
    (ks : List Nat) (flows : List Instrument) (F : Answers) (p : MonteCarlo) : Prop where
  factory : p.factory = f
  context : At l sd F ⟨p.instruments, p.model.context⟩
  step : InStep fuel u obs ks (rows f.nPaths ks.sum draw) p
  flows : p.model.flows = flows
  nPaths : p.model.nPaths = f.nPaths

variable {sd : Int} {u : Instrument} {obs : List Point} {ks : List Nat} {flows : List Instrument} {F F' : Answers} {p q p' : MonteCarlo}

theorem new_context_self (hp : MonteCarlo.new fuel f l md draw = .ok p) : SelfPricer.new l md = .ok ⟨p.instruments, p.model.context⟩ := by
  obtain ⟨t, context, ht, hc, hbm, _, hi⟩ := new_ok hp
  obtain ⟨_, _, _, _, _, _, _, _, _, e⟩ := model_new_ok hbm
  rw [hi, e]
  exact new_self_of hc

theorem tied_new (hp : MonteCarlo.new fuel f l md draw = .ok p) (hu : p.model.instruments = [u]) :
    Tied fuel f l md.spotDate draw u p.model.observations p.model.substepping p.model.flows (data md) p := by
  obtain ⟨ks, _, h2⟩ := new_inStep hp hu
  have hk := h2.substepping
  subst hk
  obtain ⟨t, context, _, _, hbm, hf, _⟩ := new_ok hp
  obtain ⟨_, _, _, _, _, _, _, _, _, e⟩ := model_new_ok hbm
  exact ⟨hf, at_new (new_context_self hp), h2, rfl, by rw [e]⟩

/-- Pricers of the same instruments look at the same asset at the same times, and pay the same. -/
theorem new_same_shape {md' : MarketData} {draw₁ : Draws} {f' : ModelFactory} (hp : MonteCarlo.new fuel f l md draw = .ok p)
    (hq : MonteCarlo.new fuel f' l md' draw₁ = .ok q) :
    q.model.instruments = p.model.instruments ∧ q.model.observations = p.model.observations ∧ q.model.flows = p.model.flows := by
  obtain ⟨t, _, ht, _, hbm, _, _⟩ := new_ok hp
  obtain ⟨t', _, ht', _, hbm', _, _⟩ := new_ok hq
  rw [ht] at ht'
  cases ht'
  obtain ⟨_, _, _, _, _, g, _, _, _, e⟩ := model_new_ok hbm
  obtain ⟨_, _, _, _, _, g', _, _, _, e'⟩ := model_new_ok hbm'
  rw [g] at g'
  cases g'
  rw [e, e']
  exact ⟨rfl, rfl, rfl⟩

theorem Tied.same (h : Tied fuel f l sd draw u obs ks flows F p) (hq : SameModel q p) : Tied fuel f l sd draw u obs ks flows F q := by
  refine ⟨hq.factory.trans h.factory, h.context.same (p := ⟨p.instruments, p.model.context⟩) ⟨hq.instruments, hq.dependencies, hq.spotDate, hq.answers⟩, ?_, hq.flows.trans h.flows,
    hq.nPaths.trans h.nPaths⟩
  obtain ⟨paths, h1, h2⟩ := h.step.paths
  exact ⟨hq.assets.trans h.step.assets, hq.key.trans h.step.key, hq.observations.trans h.step.observations,
    hq.substepping.trans h.step.substepping, hq.gaussians.trans h.step.gaussians, paths, hq.paths.trans h1, by
      rw [show q.model.context.pricingContext = p.model.context.pricingContext from pricing_congr hq.answers hq.spotDate]
      exact h2⟩

theorem Tied.alike (h : Tied fuel f l sd draw u obs ks flows F p) (h' : Tied fuel f l sd draw u obs ks flows F q) :
    Alike p.model.context q.model.context :=
  h.context.coherent.unique h'.context.coherent (h.context.dependencies.trans h'.context.dependencies.symm)
    (h.context.spotDate.trans h'.context.spotDate.symm) fun x => (h.context.data x).trans (h'.context.data x).symm

theorem Tied.unique (h : Tied fuel f l sd draw u obs ks flows F p) (h' : Tied fuel f l sd draw u obs ks flows F q) : SameModel p q := by
  have ha := h.alike h'
  obtain ⟨a, h1, h2⟩ := h.step.paths
  obtain ⟨b, h3, h4⟩ := h'.step.paths
  rw [show p.model.context.pricingContext = q.model.context.pricingContext from pricing_congr ha.answers ha.spotDate, h4] at h2
  cases h2
  exact ⟨h.factory.trans h'.factory.symm, h.context.instruments.trans h'.context.instruments.symm,
    h.step.observations.trans h'.step.observations.symm, h.flows.trans h'.flows.symm, h.step.key.trans h'.step.key.symm,
    h.step.assets.trans h'.step.assets.symm, h.step.substepping.trans h'.step.substepping.symm,
    h.step.gaussians.trans h'.step.gaussians.symm, h1.trans h3.symm, h.nPaths.trans h'.nPaths.symm, ha.dependencies, ha.spotDate, ha.answers⟩

/-- A bump of the spot or the volatility that the context supports, and after which paths can be made, succeeds, and the paths follow. -/
theorem Tied.bump_of (h : Tied fuel f l sd draw u obs ks flows F p) (hu : Unambiguous (collect sd l)) {b : Bump} {x : Slot}
    (hid : idOf b = some u.id) (ht : target b = some x) {v : x.Val} (hv : F x = some v) {save : Option SavedBlackDiffusion}
    {c : Prefetch} {ps : Option SavedPrefetch} (hb : p.model.context.bump b (save.map SavedBlackDiffusion.savedData) = (.ok true, c, ps))
    (hq : At l sd (Function.update F x (some (bumped b x v))) ⟨l, c⟩ →
      ∃ paths, fetchPath fuel u c.pricingContext obs (rows f.nPaths ks.sum draw) ks = .ok paths) :
    ∃ p' save', MonteCarlo.bump fuel b p save = (.ok true, p', save') ∧
      Tied fuel f l sd draw u obs ks flows (Function.update F x (some (bumped b x v))) p' := by
  obtain ⟨_, hc⟩ := h.context.bump hu ht hv (self_bump_of (p := ⟨p.instruments, p.model.context⟩) hb)
  obtain ⟨paths, h1, h2⟩ := h.step.paths
  have hl : p.instruments = l := h.context.instruments
  obtain ⟨paths', hf⟩ := hq (by rw [hl] at hc; exact hc)
  have hr : ∀ s, BlackDiffusion.refetch fuel { p.model with context := c } u.id true s =
      (.ok true, { p.model with context := c, paths := [paths'] }, s.map fun s => { s with paths := s.paths.insert 0 (p.model.paths.getD 0 []) }) := by
    intro s
    unfold BlackDiffusion.refetch
    dsimp only
    rw [if_neg (by simp), h.step.key, h.step.assets, show Map.get ⟨[(u.id, 0)]⟩ u.id = some 0 by simp [Map.get]]
    dsimp only
    rw [show ([u] : List Instrument)[0]? = some u from rfl]
    dsimp only
    rw [h.step.observations, h.step.substepping, h.step.gaussians, show ([rows f.nPaths ks.sum draw] : List _).getD 0 [] = rows f.nPaths ks.sum draw from rfl, hf,
      h1]
    rfl
  have he : ∃ save', MonteCarlo.bump fuel b p save = (.ok true, { p with model := { p.model with context := c, paths := [paths'] } }, save') := by
    unfold MonteCarlo.bump BlackDiffusion.bump
    rw [hb]
    cases b <;> cases hid <;> dsimp only <;> rw [hr] <;> exact ⟨_, rfl⟩
  obtain ⟨save', he⟩ := he
  exact ⟨_, _, he, ⟨h.factory, hc, bump_inStep h.step he, h.flows, h.nPaths⟩⟩

/-- If a fresh pricer could be made instead, the bumped one is like it. -/
theorem Tied.bump (h : Tied fuel f l sd draw u obs ks flows F p) (hu : Unambiguous (collect sd l)) {b : Bump} {x : Slot}
    (hid : idOf b = some u.id) (ht : target b = some x) {v : x.Val} (hv : F x = some v) {save : Option SavedBlackDiffusion}
    {c : Prefetch} {ps : Option SavedPrefetch} (hb : p.model.context.bump b (save.map SavedBlackDiffusion.savedData) = (.ok true, c, ps))
    (hq : Tied fuel f l sd draw u obs ks flows (Function.update F x (some (bumped b x v))) q) :
    ∃ p' save', MonteCarlo.bump fuel b p save = (.ok true, p', save') ∧
      Tied fuel f l sd draw u obs ks flows (Function.update F x (some (bumped b x v))) p' := by
  refine h.bump_of hu hid ht hv hb fun hc => ?_
  obtain ⟨paths', h3, h4⟩ := hq.step.paths
  have ha : Alike c q.model.context := hc.coherent.unique hq.context.coherent (hc.dependencies.trans hq.context.dependencies.symm)
    (hc.spotDate.trans hq.context.spotDate.symm) fun x => (hc.data x).trans (hq.context.data x).symm
  refine ⟨paths', ?_⟩
  rw [show c.pricingContext = q.model.context.pricingContext from pricing_congr ha.answers ha.spotDate]
  exact h4

/-- One underlying in the delta report. -/
theorem mc_delta_step {b S up down : ℝ} {v : Num ℝ} (hp : Tied fuel f l md.spotDate draw u obs ks flows (data md) p)
    (hu : Unambiguous (collect md.spotDate l)) (hi : (collect md.spotDate l).instruments.get u.id ≠ none)
    (hf : (collect md.spotDate l).forwardCurves.get u.id ≠ none) (hS : md.spots.get u.id = some S) (hb : b ≠ -1) {pu pd : MonteCarlo}
    (hup : Tied fuel f l md.spotDate draw u obs ks flows (data (withSpot md u.id (S * (1 + b)))) pu)
    (hdown : Tied fuel f l md.spotDate draw u obs ks flows (data (withSpot md u.id (S * (1 - b)))) pd)
    (hpu : SelfPricer.new l (withSpot md u.id (S * (1 + b))) = .ok ⟨pu.instruments, pu.model.context⟩)
    (hpd : SelfPricer.new l (withSpot md u.id (S * (1 - b))) = .ok ⟨pd.instruments, pd.model.context⟩)
    (vu : pu.price fuel = .ok (.val up)) (vd : pd.price fuel = .ok (.val down)) :
    ∃ p' s', deltaStep (monteCarlo fuel draw') b v u.id p .new =
      (.ok (first (.val up) (.val down) (.val (b * S)), second (.val up) (.val down) v (.val (b * S))), p', s') := by
  have hb1 : 1 + b ≠ 0 := fun e => hb (by linarith)
  have hS' : data md (.spot u.id) = some S := hS
  have d1 : Function.update (data md) (.spot u.id) (some (bumped (.spot u.id (.relative b)) (.spot u.id) S)) = data (withSpot md u.id (S * (1 + b))) := by
    funext y
    rw [withSpot_data]
    rfl
  have e2 : S * (1 + b) * (1 + ((1 - b) / (1 + b) - 1)) = S * (1 - b) := by field_simp; ring
  have hu1 : data (withSpot md u.id (S * (1 + b))) (.spot u.id) = some (S * (1 + b)) := by
    rw [withSpot_data, Function.update_self]
    rfl
  have d2 : Function.update (data (withSpot md u.id (S * (1 + b)))) (.spot u.id)
      (some (bumped (.spot u.id (.relative ((1 - b) / (1 + b) - 1))) (.spot u.id) (S * (1 + b)))) = data (withSpot md u.id (S * (1 - b))) := by
    funext y
    rw [withSpot_data, ← d1, Function.update_idem, ← e2]
    rfl
  obtain ⟨q1, s1, b1⟩ := hp.context.bump_spot hu (b := .relative b) hS' hi hf (md := withSpot md u.id (S * (1 + b))) rfl
    (fun y => (congrFun d1 y).symm) hpu (some .new)
  obtain ⟨_, b1⟩ := self_bump b1
  obtain ⟨p1, t1, m1, a1⟩ := hp.bump (b := .spot u.id (.relative b)) hu rfl rfl hS' (save := some .new) b1 (d1 ▸ hup)
  rw [d1] at a1
  obtain ⟨q2, s2, b2⟩ := a1.context.bump_spot hu (b := .relative ((1 - b) / (1 + b) - 1)) hu1 hi hf (md := withSpot md u.id (S * (1 - b))) rfl
    (fun y => (congrFun d2 y).symm) hpd none
  obtain ⟨_, b2⟩ := self_bump b2
  obtain ⟨p2, t2, m2, a2⟩ := a1.bump (b := .spot u.id (.relative ((1 - b) / (1 + b) - 1))) hu rfl rfl hu1 (save := none) b2 (d2 ▸ hdown)
  rw [d2] at a2
  have f1 : p1.price fuel = .ok (.val up) := ((a1.unique hup).price fuel).trans vu
  have f2 : p2.price fuel = .ok (.val down) := ((a2.unique hdown).price fuel).trans vd
  have g1 : bumpedPrice (monteCarlo fuel draw') (.spot u.id (.relative b)) p (some .new) v = _ :=
    bumpedPrice_of m1 (fun _ => f1) (fun h => by cases h)
  have g2 : bumpedPrice (monteCarlo fuel draw') (.spot u.id (.relative ((1 - b) / (1 + b) - 1))) p1 none v = _ :=
    bumpedPrice_of m2 (fun _ => f2) (fun h => by cases h)
  have hspot : (monteCarlo fuel draw').spot p u.id = .ok S := by
    show find u.id p.model.context.context.spots = .ok S
    unfold find
    rw [show p.model.context.context.spots.get u.id = some S from (hp.context.data (.spot u.id)).trans hS']
  unfold deltaStep upAndDown
  rw [hspot]
  dsimp only
  rw [g1]
  dsimp only
  rw [g2]
  exact ⟨_, _, rfl⟩

/-- The report over instruments of which there is but one. -/
theorem figures_one {σ T : Type} {step : String → σ → T → Outcome (Num ℝ × Num ℝ) × σ × T} {new : T} (I : σ → Prop) {ids : List String} {k : String}
    {x : Num ℝ × Num ℝ} (hk : ∀ id ∈ ids, id = k) (hne : k ∈ ids) (hs : ∀ p, I p → ∃ p', step k p new = (.ok x, p', new) ∧ I p') {p : σ} (hp : I p) :
    ∃ m p', figuresLoop step ids p new .empty = (.ok m, p', new) ∧ m.get k = some x ∧ (∀ id, id ≠ k → m.get id = none) ∧ I p' := by
  have key : ∀ (ids : List String), (∀ id ∈ ids, id = k) → ∀ p m, I p → ∃ m' p', figuresLoop step ids p new m = (.ok m', p', new) ∧
      (k ∈ ids → m'.get k = some x) ∧ (m.get k = some x → m'.get k = some x) ∧ (∀ id, id ≠ k → m'.get id = m.get id) ∧ I p' := by
    intro ids
    induction ids with
    | nil => exact fun _ p m hp => ⟨m, p, rfl, by simp, fun h => h, fun _ _ => rfl, hp⟩
    | cons i ids ih =>
      intro hk p m hp
      obtain rfl := hk i (by simp)
      obtain ⟨p1, h1, h2⟩ := hs p hp
      obtain ⟨m', p', g1, _, g3, g4, g5⟩ := ih (fun id hid => hk id (List.mem_cons_of_mem _ hid)) p1 (m.insert i x) h2
      have hi : (m.insert i x).get i = some x := Map.get_insert_self ..
      refine ⟨m', p', ?_, fun _ => g3 hi, fun _ => g3 hi, fun id hid => ?_, g5⟩
      · rw [figuresLoop, h1]
        exact g1
      · rw [g4 id hid]
        exact Map.get_insert_ne _ _ hid
  obtain ⟨m, p', g1, g2, _, g4, g5⟩ := key ids hk p .empty hp
  exact ⟨m, p', g1, g2 hne, g4, g5⟩

/-! ## C106 -/

/-- C106, differences. Take a Monte-Carlo pricer with one asset, and fresh pricers with the same draws in the markets where its spot is up
and down by a fraction `b`. The delta and the gamma that the first reports are the central differences of what the three charge.
What is missing: bumped markets that ask for other numbers of steps, where the bumped pricer keeps its own, `C64_common_draws`. -/
theorem C106_delta_partial {b S v up down : ℝ} {pu pd : MonteCarlo} (hp : MonteCarlo.new fuel f l md draw = .ok p) (hu : p.model.instruments = [u])
    (hun : Unambiguous (collect md.spotDate l)) (hids : ∀ id, (collect md.spotDate l).instruments.get id ≠ none ↔ id = u.id)
    (hf : (collect md.spotDate l).forwardCurves.get u.id ≠ none) (hS : md.spots.get u.id = some S) (hS0 : S ≠ 0) (hb0 : b ≠ 0) (hb : b ≠ -1)
    (hup : MonteCarlo.new fuel f l (withSpot md u.id (S * (1 + b))) draw = .ok pu) (ku : pu.model.substepping = p.model.substepping)
    (vu : pu.price fuel = .ok (.val up))
    (hdown : MonteCarlo.new fuel f l (withSpot md u.id (S * (1 - b))) draw = .ok pd) (kd : pd.model.substepping = p.model.substepping)
    (vd : pd.price fuel = .ok (.val down)) :
    ∃ results p', generate (monteCarlo fuel draw') (.deltaGamma b) p .new (.val v) = (.ok (.deltaGamma (.val b) results), p', .new) ∧
      results.get u.id = some (.val ((up - down) / (2 * (b * S))), .val ((up + down - 2 * v) / (b * S) ^ 2)) ∧
      ∀ id, id ≠ u.id → results.get id = none := by
  have h0 := tied_new hp hu
  obtain ⟨e1, e2, e3⟩ := new_same_shape hp hup
  obtain ⟨e4, e5, e6⟩ := new_same_shape hp hdown
  have h1 := tied_new hup (e1.trans hu)
  have h2 := tied_new hdown (e4.trans hu)
  rw [e2, ku, e3] at h1
  rw [e5, kd, e6] at h2
  have hd : p.model.context.dependencies = collect md.spotDate l := h0.context.dependencies
  obtain ⟨m, p', g1, g2, g3, _⟩ := figures_one (new := SavedBlackDiffusion.new) (step := deltaStep (monteCarlo fuel draw') b (.val v)) (fun q => SameModel q p) (k := u.id)
    (x := (.val ((up - down) / (2 * (b * S))), .val ((up + down - 2 * v) / (b * S) ^ 2)))
    (ids := (monteCarlo fuel draw').ids p)
    (fun id hid => (hids id).1 (hd ▸ (keys_get _ _).1 hid)) ((keys_get _ _).2 (by rw [hd]; exact (hids _).2 rfl))
    (by
      intro q hq
      obtain ⟨q', s', hst⟩ := mc_delta_step (draw' := draw') (v := .val v) (h0.same hq) hun ((hids _).2 rfl) hf hS hb h1 h2
        (new_context_self hup) (new_context_self hdown) vu vd
      obtain ⟨_, _, _, _, k, _⟩ := deltaStep_ok hst
      obtain ⟨rfl, k2⟩ := mc_upAndDown (id := u.id) (by rfl) (by rfl) (by rfl) k
      rw [first_val (mul_ne_zero hb0 hS0), second_val (mul_ne_zero hb0 hS0)] at hst
      exact ⟨q', hst, k2.trans hq⟩) (.refl p)
  refine ⟨m, p', ?_, g2, g3⟩
  rw [generate, delta_loop]
  have g1 : figuresLoop (deltaStep (monteCarlo fuel draw') b (.val v)) ((monteCarlo fuel draw').ids p) p .new .empty = (.ok m, p', .new) := g1
  rw [g1]

/-! ## Convergence -/

section
open QM.Curves
variable {Ω : Type} [MeasurableSpace Ω] {μ : Measure Ω} [IsProbabilityMeasure μ] {draws : Ω → Draws}
  {v : Vanilla} {id credit : String} {settle : Int → Int} {K S a c D w : ℝ} {vol : VolSurface}

/-- What the Monte-Carlo prices of an option approach in a market whose spot is moved. -/
theorem setting_limit {n s ε : ℝ} {kind : PutOrCall} (hd : StandardNormal μ draws) (h : Risk.Spec.Setting fuel md v id credit settle K S a c 0 D w vol)
    (hcredit : v.creditId = credit) (hex : v.expiryTime.1 = v.expiry.date) (hvar : vol.variance fuel v.expiryTime (.val (a * s - c)) = .ok (.val w)) (hw : 0 ≤ w) (hε : 0 < ε)
    {md' : MarketData} (hmd : md'.spotDate = md.spotDate ∧ md'.yieldCurves = md.yieldCurves ∧
      (∃ f, md'.forwardCurve (.equity id credit settle) v.expiry.date = .ok f ∧ f.forward v.expiry.date = .ok (.val (a * s - c))) ∧
      ∀ g, md'.volSurface (.equity id credit settle) v.expiry.date g = .ok vol) :
    ∃ h₀ > 0, ∀ h, 0 < h → h < h₀ → ∀ᵐ ω ∂μ, ∃ y, Prices fuel [(n, Risk.Spec.euro kind v id credit settle K)] md' (draws ω) h y ∧
      (∀ k, k ≠ 0 → ∀ p, MonteCarlo.new fuel ⟨h, k⟩ [(n, Risk.Spec.euro kind v id credit settle K)] md' (draws ω) = .ok p → p.model.substepping = [steps h (fun _ => w) 0]) ∧
      ∀ᶠ k in atTop, |y k - n * (D * ∫ z, Instruments.Spec.payoff kind (Instruments.Spec.lognormal (a * s - c) (Real.sqrt w) z) K ∂gaussianReal 0 1)| < ε := by
  obtain ⟨hsd, hyc, ⟨f, hf, hF⟩, hv⟩ := hmd
  obtain ⟨c1, c2, c3⟩ := collect_option (v := v) (id := id) (credit := credit) (settle := settle) (K := K) n kind md'.spotDate
  have hnew : Prefetch.new md' (collect md'.spotDate [(n, Risk.Spec.euro kind v id credit settle K)]) =
      .ok ⟨md', collect md'.spotDate [(n, Risk.Spec.euro kind v id credit settle K)], ⟨[(id, f)]⟩, ⟨[(id, vol)]⟩⟩ := by
    unfold Prefetch.new
    rw [c1, c2]
    unfold walkDependencies
    rw [hf]
    dsimp only
    rw [show Map.get ⟨[(id, Instrument.equity id credit settle, v.expiry.date)]⟩ (Instrument.equity id credit settle).id =
      some (Instrument.equity id credit settle, v.expiry.date) by simp [Map.get, Instrument.id]]
    dsimp only
    rw [hv]
    rfl
  obtain ⟨yc, r, r', h3, h4, h5, rfl⟩ := h.rates
  have hm : Spec.Market fuel (Prefetch.pricingContext ⟨md', collect md'.spotDate [(n, Risk.Spec.euro kind v id credit settle K)], ⟨[(id, f)]⟩, ⟨[(id, vol)]⟩⟩)
      (.equity id credit settle) [v.expiryTime] (fun _ => a * s - c) (fun _ => w) (fun _ => 0) := by
    refine ⟨v.expiryTime, f, vol, rfl, ?_, ?_, ?_⟩
    · show find id ⟨[(id, f)]⟩ = _
      simp [find, Map.get]
    · show find id ⟨[(id, vol)]⟩ = _
      simp [find, Map.get]
    · intro i pt hi
      have : pt = v.expiryTime := by simpa using List.mem_of_getElem? hi
      subst this
      rw [hex]
      exact ⟨hF, hvar, h.displacement⟩
  have hflow : (expiryFlow { v with putOrCall := kind }).price fuel (Prefetch.pricingContext ⟨md', collect md'.spotDate [(n, Risk.Spec.euro kind v id credit settle K)],
      ⟨[(id, f)]⟩, ⟨[(id, vol)]⟩⟩) ⟨md'.spotDate, .open⟩ = .ok (.val (Real.exp (r' - r))) := by
    refine flow_discount (u := .equity id credit settle) (yc := yc) (v := { v with putOrCall := kind }) hcredit ?_ ?_ ?_
    · left
      rw [hsd]
      exact h.ahead
    · show find credit md'.yieldCurves = _
      unfold find
      rw [hyc, h3]
    · rw [hsd]
      exact df_eq h4 h5
  obtain ⟨h₀, k1, k2⟩ := C91_limit (v := { v with putOrCall := kind }) (u := .equity id credit settle) (a := n) (K := K) hd hw hnew hm hflow hε
  refine ⟨h₀, k1, fun h hh hlt => ?_⟩
  filter_upwards [k2 h hh hlt] with ω hω
  obtain ⟨y, hy, hn⟩ := hω
  refine ⟨y, hy, ?_, ?_⟩
  · intro k hk p hp
    obtain ⟨t, context, ht, hc, hbm, _, _⟩ := new_ok hp
    rw [hnew] at hc
    cases hc
    have ht' := ht
    rw [Risk.Spec.euro, timeline_spot] at ht'
    cases ht'
    obtain ⟨k', u', obs, ks, paths, he, hs, _, _, e⟩ := model_new_ok hbm
    cases he
    rw [e]
    exact substepping_val hm hs
  · simpa only [sub_zero, zero_add] using hn

/-- The market of a setting, and with any other spot. -/
theorem setting_moved (h : Risk.Spec.Setting fuel md v id credit settle K S a c 0 D w vol) (s : ℝ) :
    (withSpot md id s).spotDate = md.spotDate ∧ (withSpot md id s).yieldCurves = md.yieldCurves ∧
      (∃ f, (withSpot md id s).forwardCurve (.equity id credit settle) v.expiry.date = .ok f ∧ f.forward v.expiry.date = .ok (.val (a * s - c))) ∧
      ∀ g, (withSpot md id s).volSurface (.equity id credit settle) v.expiry.date g = .ok vol := by
  refine ⟨rfl, rfl, h.forward s, ?_⟩
  intro g
  rw [← h.surface g]
  rfl

theorem setting_here (h : Risk.Spec.Setting fuel md v id credit settle K S a c 0 D w vol) :
    md.spotDate = md.spotDate ∧ md.yieldCurves = md.yieldCurves ∧
      (∃ f, md.forwardCurve (.equity id credit settle) v.expiry.date = .ok f ∧ f.forward v.expiry.date = .ok (.val (a * S - c))) ∧
      ∀ g, md.volSurface (.equity id credit settle) v.expiry.date g = .ok vol := by
  obtain ⟨f, h1, h2⟩ := h.forward S
  refine ⟨rfl, rfl, ⟨f, ?_, h2⟩, h.surface⟩
  rw [← h1]
  refine forwardCurve_congr _ _ rfl ?_
  intro y _
  rw [withSpot_data]
  exact (congrFun (update_same (x := .spot id) (f := data md) h.spot) y).symm

/-- Differences of numbers near others are near the differences of those. -/
theorem differences_near {x y z x' y' z' k η : ℝ} (hk : 0 < k) (hx : |x - x'| < η) (hy : |y - y'| < η) (hz : |z - z'| < η) :
    |(x - y) / (2 * k) - (x' - y') / (2 * k)| < η / k ∧ |(x + y - 2 * z) / k ^ 2 - (x' + y' - 2 * z') / k ^ 2| < 4 * η / k ^ 2 := by
  obtain ⟨x1, x2⟩ := abs_lt.1 hx
  obtain ⟨y1, y2⟩ := abs_lt.1 hy
  obtain ⟨z1, z2⟩ := abs_lt.1 hz
  constructor
  · rw [← sub_div, abs_div, abs_of_pos (by positivity : (0 : ℝ) < 2 * k), div_lt_div_iff₀ (by positivity) hk]
    have : |x - y - (x' - y')| < 2 * η := abs_lt.2 ⟨by linarith, by linarith⟩
    nlinarith
  · rw [← sub_div, abs_div, abs_of_pos (by positivity : (0 : ℝ) < k ^ 2), div_lt_div_iff_of_pos_right (by positivity)]
    exact abs_lt.2 ⟨by linarith, by linarith⟩

/-- C106, convergence. Take an option with the credit of its underlying, on a surface without fixed dividends that gives the same variance at
the strike and at the forwards. Given any distance, for all small enough substeps and, almost surely, all large enough numbers of
paths, the Monte-Carlo pricer reports a delta and a gamma that near to those that the self pricer reports. What is missing: the cases in which
the prices themselves stay apart, `C91_smile_false`, `C91_displaced_false` and `C62_false`. -/
theorem C106_converges_partial {b n ε : ℝ} (hd : StandardNormal μ draws) (h : Risk.Spec.Setting fuel md v id credit settle K S a c 0 D w vol)
    (hcredit : v.creditId = credit) (hex : v.expiryTime.1 = v.expiry.date)
    (hvar : ∀ s ∈ [S, S * (1 + b), S * (1 - b)], 0 < a * s - c ∧ vol.variance fuel v.expiryTime (.val (a * s - c)) = .ok (.val w))
    (hS : 0 < S) (hb0 : 0 < b) (hK : 0 < K) (hw : 0 < w) (kind : PutOrCall) (hε : 0 < ε) :
    ∃ delta gamma : ℝ,
      (∃ p x r p', SelfPricer.new [(n, Risk.Spec.euro kind v id credit settle K)] md = .ok p ∧ p.price fuel = .ok (.val x) ∧
        generate (selfPricer fuel) (.deltaGamma b) p .new (.val x) = (.ok (.deltaGamma (.val b) r), p', .new) ∧
        r.get id = some (.val delta, .val gamma) ∧ ∀ k, k ≠ id → r.get k = none) ∧
      ∃ h₀ > 0, ∀ h, 0 < h → h < h₀ → ∀ᵐ ω ∂μ, ∀ᶠ paths in atTop, ∃ p x r p' delta' gamma',
        MonteCarlo.new fuel ⟨h, paths⟩ [(n, Risk.Spec.euro kind v id credit settle K)] md (draws ω) = .ok p ∧ p.price fuel = .ok (.val x) ∧
        generate (monteCarlo fuel draw') (.deltaGamma b) p .new (.val x) = (.ok (.deltaGamma (.val b) r), p', .new) ∧
        r.get id = some (.val delta', .val gamma') ∧ (∀ k, k ≠ id → r.get k = none) ∧ |delta' - delta| < ε ∧ |gamma' - gamma| < ε := by
  obtain ⟨f0, w0⟩ := hvar S (by simp)
  obtain ⟨f1, w1⟩ := hvar (S * (1 + b)) (by simp)
  obtain ⟨f2, w2⟩ := hvar (S * (1 - b)) (by simp)
  have hbS : 0 < b * S := mul_pos hb0 hS
  obtain ⟨p, hp, hx⟩ := setting_new h n kind (by rwa [sub_zero]) (by rwa [add_zero]) hw
  have hu := setting_value h n kind (s := S * (1 + b)) (by rwa [sub_zero]) (by rwa [add_zero]) hw
  have hdn := setting_value h n kind (s := S * (1 - b)) (by rwa [sub_zero]) (by rwa [add_zero]) hw
  simp only [sub_zero, add_zero] at hx hu hdn
  obtain ⟨i1, i2, _⟩ := only_option hp id
  set V : ℝ → ℝ := fun s => n * (D * ∫ z, Instruments.Spec.payoff kind (Instruments.Spec.lognormal (a * s - c) (Real.sqrt w) z) K ∂gaussianReal 0 1) with hV
  obtain ⟨r, p', g1, g2⟩ := C44_differences_partial (fuel := fuel) (b := b) (v := V S) (S := fun _ => S) (u := fun _ => V (S * (1 + b)))
    (d := fun _ => V (S * (1 - b))) hp (option_unambiguous n kind _) hb0.ne' (by linarith) (by
      intro k hk
      obtain rfl := ((only_option hp k).1).1 hk
      exact ⟨i2, h.spot, hS.ne', hu, hdn⟩)
  refine ⟨_, _, ⟨p, _, r, p', hp, hx, g1, (g2 id).1 (i1.2 rfl), fun k hk => (g2 k).2 (by
    by_contra hne
    exact hk (((only_option hp k).1).1 hne))⟩, ?_⟩
  -- how near the prices have to be
  obtain ⟨η, hη, e1, e2⟩ : ∃ η > 0, η / (b * S) ≤ ε ∧ 4 * η / (b * S) ^ 2 ≤ ε := by
    refine ⟨min (ε * (b * S)) (ε * (b * S) ^ 2 / 4), lt_min (by positivity) (by positivity), ?_, ?_⟩
    · rw [div_le_iff₀ hbS]
      exact min_le_left _ _
    · rw [div_le_iff₀ (by positivity)]
      linarith [min_le_right (ε * (b * S)) (ε * (b * S) ^ 2 / 4)]
  obtain ⟨h0, p0, q0⟩ := setting_limit (n := n) (kind := kind) hd h hcredit hex w0 hw.le hη (setting_here h)
  obtain ⟨h1, p1, q1⟩ := setting_limit (n := n) (kind := kind) hd h hcredit hex w1 hw.le hη (setting_moved h _)
  obtain ⟨h2, p2, q2⟩ := setting_limit (n := n) (kind := kind) hd h hcredit hex w2 hw.le hη (setting_moved h _)
  refine ⟨min h0 (min h1 h2), lt_min p0 (lt_min p1 p2), fun h' hpos hlt => ?_⟩
  obtain ⟨l0, l1⟩ := lt_min_iff.1 hlt
  obtain ⟨l1, l2⟩ := lt_min_iff.1 l1
  filter_upwards [q0 h' hpos l0, q1 h' hpos l1, q2 h' hpos l2] with ω a0 a1 a2
  obtain ⟨y0, b0, c0, d0⟩ := a0
  obtain ⟨y1, b1, c1, d1⟩ := a1
  obtain ⟨y2, b2, c2, d2⟩ := a2
  filter_upwards [d0, d1, d2, Filter.eventually_ne_atTop 0] with k k0 k1 k2 hk
  obtain ⟨m0, n0, v0⟩ := b0 k hk
  obtain ⟨m1, n1, v1⟩ := b1 k hk
  obtain ⟨m2, n2, v2⟩ := b2 k hk
  obtain ⟨t1, t2, t3⟩ := collect_option (v := v) (id := id) (credit := credit) (settle := settle) (K := K) n kind md.spotDate
  have hassets : m0.model.instruments = [.equity id credit settle] := by
    obtain ⟨t, context, ht, _, hbm, _, _⟩ := new_ok n0
    have ht' := ht
    rw [Risk.Spec.euro, timeline_spot] at ht'
    cases ht'
    obtain ⟨k', u', obs, ks, paths, he, _, _, _, e⟩ := model_new_ok hbm
    cases he
    rw [e]
  obtain ⟨r', p'', r1, r2, r3⟩ := C106_delta_partial (draw' := draw') (b := b) (v := y0 k) n0 hassets (option_unambiguous n kind _) (by
      intro k
      rw [t3]
      show _ ↔ k = id
      by_cases e : id = k
      · simp [Map.get, e]
      · simp [Map.get, e, Ne.symm e]) (by rw [t1]; simp [Map.get, Instrument.id]) h.spot hS.ne' hb0.ne' (by linarith) n1
    ((c1 k hk _ n1).trans (c0 k hk _ n0).symm) v1 n2 ((c2 k hk _ n2).trans (c0 k hk _ n0).symm) v2
  obtain ⟨z1, z2⟩ := differences_near hbS k1 k2 k0
  exact ⟨m0, y0 k, r', p'', _, _, n0, v0, r1, r2, r3, z1.trans_le e1, z2.trans_le e2⟩

/-- C106, the textbook. For small enough bumps, then small enough substeps and, almost surely, large enough numbers of paths, the delta and the
gamma of the Monte-Carlo pricer are as near as one likes to those of the textbook. -/
theorem C106_textbook_partial {n ε : ℝ} (hd : StandardNormal μ draws) (h : Risk.Spec.Setting fuel md v id credit settle K S a c 0 D w vol)
    (hcredit : v.creditId = credit) (hex : v.expiryTime.1 = v.expiry.date)
    (hvar : ∀ x, 0 < x → vol.variance fuel v.expiryTime (.val x) = .ok (.val w)) (hS : 0 < S) (hF : 0 < a * S - c) (hK : 0 < K) (hw : 0 < w)
    (kind : PutOrCall) (hε : 0 < ε) :
    ∃ β > 0, ∀ b, 0 < b → b < β → ∃ h₀ > 0, ∀ h, 0 < h → h < h₀ → ∀ᵐ ω ∂μ, ∀ᶠ paths in atTop, ∃ p x r p' delta gamma,
      MonteCarlo.new fuel ⟨h, paths⟩ [(n, Risk.Spec.euro kind v id credit settle K)] md (draws ω) = .ok p ∧ p.price fuel = .ok (.val x) ∧
      generate (monteCarlo fuel draw') (.deltaGamma b) p .new (.val x) = (.ok (.deltaGamma (.val b) r), p', .new) ∧
      r.get id = some (.val delta, .val gamma) ∧ |delta - n * Risk.Spec.textDelta kind D a (a * S - c) K (Real.sqrt w)| < ε ∧
      |gamma - n * Risk.Spec.textGamma D a (a * S - c) K (Real.sqrt w)| < ε := by
  obtain ⟨delta, gamma, t1, t2, β, hβ, hr⟩ := C104_delta_partial h hS (by rwa [sub_zero]) (by rwa [add_zero]) hw kind
  simp only [sub_zero, add_zero] at t1 t2
  have t1 := Metric.tendsto_nhds.1 (t1.const_mul n) _ (half_pos hε)
  have t2 := Metric.tendsto_nhds.1 (t2.const_mul n) _ (half_pos hε)
  have hup : ∀ᶠ b : ℝ in nhdsWithin 0 (Set.Ioi 0), 0 < a * (S * (1 + b)) - c := by
    have hc : ContinuousAt (fun b : ℝ => a * (S * (1 + b)) - c) 0 := by fun_prop
    have := hc.eventually (lt_mem_nhds (a := 0) (by simpa using hF))
    exact this.filter_mono nhdsWithin_le_nhds
  have hdn : ∀ᶠ b : ℝ in nhdsWithin 0 (Set.Ioi 0), 0 < a * (S * (1 - b)) - c := by
    have hc : ContinuousAt (fun b : ℝ => a * (S * (1 - b)) - c) 0 := by fun_prop
    have := hc.eventually (lt_mem_nhds (a := 0) (by simpa using hF))
    exact this.filter_mono nhdsWithin_le_nhds
  obtain ⟨β', hβ', hsub⟩ := mem_nhdsGT_iff_exists_Ioo_subset.1 ((t1.and t2).and (hup.and hdn))
  refine ⟨min β β', lt_min hβ hβ', fun b hb hlt => ?_⟩
  obtain ⟨l1, l2⟩ := lt_min_iff.1 hlt
  obtain ⟨⟨n1, n2⟩, n3, n4⟩ := hsub ⟨hb, l2⟩
  obtain ⟨δ, γ, ⟨p, x, r, p', hp, hx, hg, hrid, _⟩, h₀, h1, h2⟩ := C106_converges_partial (draw' := draw') (b := b) (n := n) hd h hcredit hex (by
    intro s hs
    simp only [List.mem_cons, List.not_mem_nil, or_false] at hs
    rcases hs with rfl | rfl | rfl
    · exact ⟨hF, hvar _ hF⟩
    · exact ⟨n3, hvar _ n3⟩
    · exact ⟨n4, hvar _ n4⟩) hS hb hK hw kind (half_pos hε)
  obtain ⟨q, y, s, q', hq, hy, hg', hs, _⟩ := hr b hb l1 n
  rw [hp] at hq
  cases hq
  rw [hx] at hy
  cases hy
  rw [hg] at hg'
  cases hg'
  rw [hrid] at hs
  cases hs
  refine ⟨h₀, h1, fun h hh hlt => ?_⟩
  filter_upwards [h2 h hh hlt] with ω hω
  filter_upwards [hω] with k hk
  obtain ⟨m, z, r2, m', d', g', k1, k2, k3, k4, _, k6, k7⟩ := hk
  rw [Real.dist_eq] at n1 n2
  refine ⟨m, z, r2, m', d', g', k1, k2, k3, k4, ?_, ?_⟩
  · have := abs_sub_le d' (n * delta b) (n * Risk.Spec.textDelta kind D a (a * S - c) K (Real.sqrt w))
    linarith
  · have := abs_sub_le g' (n * gamma b) (n * Risk.Spec.textGamma D a (a * S - c) K (Real.sqrt w))
    linarith

/-- C106: the delta of a call with spot 100, strike 90 and a volatility of 20%, by Monte Carlo. -/
example (hd : StandardNormal μ draws) {ε : ℝ} (hε : 0 < ε) :
    ∃ β > 0, ∀ b, 0 < b → b < β → ∃ h₀ > 0, ∀ h, 0 < h → h < h₀ → ∀ᵐ ω ∂μ, ∀ᶠ paths in atTop, ∃ p x r p' delta gamma,
      MonteCarlo.new fuel ⟨h, paths⟩ [(2, Risk.Spec.euro .call sampleTerms "A" "C" _root_.id 90)]
        (withVol (sampleMarket 100 (.zero 0)) "A" (.flat (.val 0.2) .everyDay (0, 0))) (draws ω) = .ok p ∧ p.price fuel = .ok (.val x) ∧
      generate (monteCarlo fuel draw') (.deltaGamma b) p .new (.val x) = (.ok (.deltaGamma (.val b) r), p', .new) ∧
      r.get "A" = some (.val delta, .val gamma) ∧ |delta - 2 * Risk.Spec.textDelta .call 1 1 (1 * 100 - 0) 90 (Real.sqrt (2 / 73 * 0.2 ^ 2))| < ε ∧
      |gamma - 2 * Risk.Spec.textGamma 1 1 (1 * 100 - 0) 90 (Real.sqrt (2 / 73 * 0.2 ^ 2))| < ε := by
  refine C106_textbook_partial hd (sample_setting 0.2 100 90) rfl rfl ?_ (by norm_num) (by norm_num) (by norm_num) (by norm_num) .call hε
  intro x _
  have hy := everyDay_year 10
  norm_num at hy
  have h2 := (flat_variances (fuel := fuel) (v := 0.2) (c := .everyDay) (base := (0, 0)) (t := (10, 0)) (ks := [.val x])
    (out := [.val (0.2 ^ 2 * (2 / 73))])).2 ⟨2 / 73, hy, rfl⟩
  unfold VolSurface.variance
  rw [show sampleTerms.expiryTime = (10, 0) from rfl, h2]
  show Except.ok (Num.val _) = _
  norm_num

end
end QM.MonteCarlo
