import Verif.MonteCarlo.UnitProps
import Verif.MonteCarlo.RiskProps
import Verif.MonteCarlo.StruckProps
import Verif.Units.ScaleProps

/-!
# Property C98 for Monte-Carlo pricers: an option that is not struck yet is worth a number of shares
-/

namespace QM.MonteCarlo
open QM.Interp QM.Vol QM.Fixings QM.Instruments QM.Market QM.Market.Spec QM.Risk QM.Risk.Spec
open QM.Units (amount positions market Alike alike_walk about_collect spot_alike share_positions share_collected unambiguous_collect mem_insert get_entry)
open QM.Units.Spec (ShareLike Proportional)

variable {id credit : String} {settle : Int → Int} {md md' : MarketData} {fuel : Nat} {f : ModelFactory} {l : List (ℝ × Instrument)} {draw draw' : Draws}

/-- The share. -/
local notation "share" => Instrument.equity id credit settle

/-! ## Only the data of the share matter -/

theorem alike_flow (h : Alike md md' id) {x : Collector} {fs : Map String Fwd} {vs : Map String VolSurface} {i : Instrument} (hi : isPureRates i = true) (d : DateTime) :
    i.price fuel (Prefetch.pricingContext ⟨md, x, fs, vs⟩) d = i.price fuel (Prefetch.pricingContext ⟨md', x, fs, vs⟩) d := by
  cases i <;> simp only [isPureRates, Bool.false_eq_true] at hi
  simp only [Instrument.price, Instrument.prices, zeroCouponPrices, Prefetch.pricingContext, h.yield, h.date]

theorem alike_flows (h : Alike md md' id) {x : Collector} {fs : Map String Fwd} {vs : Map String VolSurface} (n : Nat) (q : List (Instrument × List ℝ)) :
    ∀ total, flowsLoop fuel (Prefetch.pricingContext ⟨md, x, fs, vs⟩) n q total = flowsLoop fuel (Prefetch.pricingContext ⟨md', x, fs, vs⟩) n q total := by
  induction q with
  | nil => exact fun _ => rfl
  | cons e q ih =>
    obtain ⟨i, q'⟩ := e
    intro total
    simp only [flowsLoop]
    split
    · rename_i hi
      have e1 : (Prefetch.pricingContext ⟨md, x, fs, vs⟩).spotDate = (Prefetch.pricingContext ⟨md', x, fs, vs⟩).spotDate := h.date
      rw [e1, alike_flow h hi]
      simp only [ih]
    · rfl

/-- A model in another market. -/
def inMarket (md : MarketData) (m : BlackDiffusion) : BlackDiffusion := { m with context := { m.context with context := md } }

theorem alike_mcPrice (h : Alike md md' id) (m : BlackDiffusion) (i : Instrument) : mcPrice fuel (inMarket md m) i = mcPrice fuel (inMarket md' m) i := by
  have e : ∀ qs, (inMarket md m).evaluateFlows fuel qs = (inMarket md' m).evaluateFlows fuel qs := by
    intro qs
    unfold BlackDiffusion.evaluateFlows
    split
    · rw [if_pos (by assumption)]
    · rw [if_neg (by assumption)]
      exact alike_flows h _ _ _
  cases i <;> simp only [mcPrice, e] <;> rfl

theorem alike_mcLoop (h : Alike md md' id) (m : BlackDiffusion) (l : List (ℝ × Instrument)) : ∀ total,
    mcLoop fuel (inMarket md m) l total = mcLoop fuel (inMarket md' m) l total := by
  induction l with
  | nil => exact fun _ => rfl
  | cons e l ih =>
    obtain ⟨w, i⟩ := e
    intro total
    simp only [mcLoop, alike_mcPrice h, ih]

theorem model_inMarket {t : Timeline} {x : Collector} {fs : Map String Fwd} {vs : Map String VolSurface} :
    BlackDiffusion.new fuel f t ⟨md, x, fs, vs⟩ draw = (BlackDiffusion.new fuel f t ⟨md', x, fs, vs⟩ draw).map (inMarket md) := by
  unfold BlackDiffusion.new
  have e : ∀ obs is, calculateSubstepping fuel (Prefetch.pricingContext ⟨md, x, fs, vs⟩) obs is f.pathSubstep =
      calculateSubstepping fuel (Prefetch.pricingContext ⟨md', x, fs, vs⟩) obs is f.pathSubstep := by
    intro obs is
    unfold calculateSubstepping
    cases obs.getLast? with
    | none => rfl
    | some last =>
      dsimp only
      generalize obs.map (fun _ => 1) = sub
      induction is generalizing sub with
      | nil => rfl
      | cons i is ih => simp only [substepsAll, ih]; rfl
  dsimp only
  rw [e]
  generalize calculateSubstepping fuel _ _ _ _ = o
  cases o with
  | error e => rfl
  | ok sub =>
    rw [ok_bind, ok_bind]
    generalize fetchCorrelatedGaussians marketCorrelation _ sub f.nPaths draw = o
    cases o with
    | error e => rfl
    | ok gs =>
      rw [ok_bind, ok_bind]
      have e' : ∀ obs is, fetchPaths fuel (Prefetch.pricingContext ⟨md, x, fs, vs⟩) obs gs is sub =
        fetchPaths fuel (Prefetch.pricingContext ⟨md', x, fs, vs⟩) obs gs is sub := fun _ _ => rfl
      rw [e']
      generalize fetchPaths fuel _ _ _ _ _ = o
      cases o <;> rfl

/-- A Monte-Carlo pricer of share-like instruments looks only at the data of the share. -/
theorem alike_new (h : Alike md md' id) (hi : ∀ e ∈ l, ShareLike share e.2) {p : MonteCarlo} (hp : MonteCarlo.new fuel f l md' draw = .ok p) :
    MonteCarlo.new fuel f l md draw = .ok { p with model := inMarket md p.model } ∧
      mcLoop fuel (inMarket md p.model) p.instruments (.val 0) = p.price fuel := by
  unfold MonteCarlo.new Prefetch.new at hp ⊢
  rw [h.date, alike_walk h _ _ (about_collect md'.spotDate hi).forwards]
  obtain ⟨t, ht, hp⟩ := bind_ok hp
  rw [ht, ok_bind]
  obtain ⟨ctx, hctx, hp'⟩ := bind_ok hp
  obtain ⟨m, hm, hend⟩ := bind_ok hp'
  generalize walkDependencies md' _ _ _ _ = w at hctx ⊢
  obtain ⟨w, fs, vs⟩ := w
  cases w with
  | error e => cases hctx
  | ok u =>
    cases u
    injection hctx with hctx
    subst hctx
    have hp : (⟨f, l, m⟩ : MonteCarlo) = p := Except.ok.inj hend
    subst hp
    have hm' : BlackDiffusion.new fuel f t ⟨md', collect md'.spotDate l, fs, vs⟩ draw = .ok m := hm
    have hx : inMarket md' m = m := by
      obtain ⟨_, _, _, _, _, _, _, _, _, hmod⟩ := model_new_ok hm'
      rw [hmod]
      rfl
    refine ⟨?_, ?_⟩
    · show (BlackDiffusion.new fuel f t ⟨md, collect md'.spotDate l, fs, vs⟩ draw >>= _) = _
      rw [model_inMarket (md' := md'), hm']
      rfl
    · rw [alike_mcLoop h, hx]
      rfl

/-! ## C98 -/

/-- C98 by Monte-Carlo. Options that are not struck yet: whatever the spot is changed to, there is a pricer, with the same draws and as many steps,
and its price changes by the same factor as the spot. -/
theorem C98_simulated {S x : ℝ} {p : MonteCarlo} (hi : ∀ e ∈ l, ShareLike share e.2) (hm : Proportional md id)
    (hS : md.spots.get id = some S) (hS0 : 0 < S) (hx : 0 < x) (hp : MonteCarlo.new fuel f l md draw = .ok p) :
    ∃ q, MonteCarlo.new fuel f l (withSpot md id x) draw = .ok q ∧ q.model.substepping = p.model.substepping ∧
      q.price fuel = (p.price fuel).map (num1 (x / S * ·)) := by
  have hc := div_pos hx hS0
  have h := Requote.pricer_new hc fuel f l md draw
  rw [(share_positions hi (x / S)).1, hp] at h
  obtain ⟨h1, h2⟩ := alike_new (spot_alike (x := x) hm hS hS0) hi h
  refine ⟨_, h1, rfl, ?_⟩
  rw [show ∀ m : BlackDiffusion, MonteCarlo.price fuel { Requote.pricer (x / S) p with model := m } = mcLoop fuel m (Requote.pricer (x / S) p).instruments (.val 0) from
    fun _ => rfl, h2, Requote.price_units hc]
  rfl

theorem timeline_share (hi : ∀ e ∈ l, ShareLike share e.2) : ∀ {t t' : Timeline}, timeline l t = .ok t' → (∀ e ∈ t.observations.entries, e.2.1 = share) →
    ∀ e ∈ t'.observations.entries, e.2.1 = share := by
  have ho : ∀ (t : Timeline) a, (∀ e ∈ t.observations.entries, e.2.1 = share) → ∀ e ∈ (t.observation share a).observations.entries, e.2.1 = share := by
    intro t a h e he
    unfold Timeline.observation at he
    split at he
    · rcases mem_insert he with rfl | he
      · rfl
      · exact h e he
    · rename_i j obs hg
      rcases mem_insert he with rfl | he
      · exact h ((share).id, j, obs) (get_entry hg)
      · exact h e he
  induction l with
  | nil =>
    intro t t' h ht
    injection h with h
    rw [← h]
    exact ht
  | cons e l ih =>
    obtain ⟨w, i⟩ := e
    intro t t' h ht
    rw [timeline] at h
    obtain ⟨t1, h1, h⟩ := bind_ok h
    refine ih (fun e he => hi e (List.mem_cons_of_mem _ he)) h ?_
    rcases hi _ (List.mem_cons_self ..) with e | ⟨v, a, d, s, e⟩ <;> dsimp only at e <;> subst e
    · cases h1
    · injection h1 with h1
      rw [← h1]
      exact ho _ _ (ho _ _ ht)

/-- C98, the report by Monte-Carlo: whatever the draws, the delta is the price in shares and there is no gamma. -/
theorem C98_simulated_delta {b S V : ℝ} {p : MonteCarlo} (hi : ∀ e ∈ l, ShareLike share e.2) (hm : Proportional md id)
    (hS : md.spots.get id = some S) (hS0 : 0 < S) (hb0 : b ≠ 0) (hb : |b| < 1) (hp : MonteCarlo.new fuel f l md draw = .ok p)
    (hv : p.price fuel = .ok (.val V)) :
    ∃ results p', generate (monteCarlo fuel draw') (.deltaGamma b) p .new (.val V) = (.ok (.deltaGamma (.val b) results), p', .new) ∧
      results.get id = some (.val (V / S), .val 0) ∧ ∀ k ≠ id, results.get k = none := by
  obtain ⟨hb1, hb2⟩ := abs_lt.1 hb
  obtain ⟨t, context, ht, hc, hmod, _, _⟩ := new_ok hp
  obtain ⟨k, u, obs, ks, paths, he, hs, hpath, hn, hm'⟩ := model_new_ok hmod
  have hu : u = share := timeline_share hi ht (fun e he => by cases he) (k, u, obs) (by rw [he]; simp)
  subst hu
  have hone : p.model.instruments = [share] := by rw [hm']
  have ho : ∃ e ∈ l, e.2 ≠ share := by
    cases l with
    | nil =>
      injection ht with ht
      rw [← ht] at he
      cases he
    | cons e l =>
      refine ⟨e, List.mem_cons_self .., fun h => ?_⟩
      obtain ⟨w, i⟩ := e
      dsimp only at h
      subst h
      cases ht
  have hab := about_collect (id := id) (credit := credit) (settle := settle) md.spotDate hi
  obtain ⟨c1, c2⟩ := share_collected (id := id) (credit := credit) (settle := settle) md.spotDate hi ho
  obtain ⟨pu, hu, ku, vu⟩ := C98_simulated (x := S * (1 + b)) hi hm hS hS0 (mul_pos hS0 (by linarith)) hp
  obtain ⟨pd, hd, kd, vd⟩ := C98_simulated (x := S * (1 - b)) hi hm hS hS0 (mul_pos hS0 (by linarith)) hp
  rw [hv] at vu vd
  have e1 : S * (1 + b) / S = 1 + b := by field_simp
  have e2 : S * (1 - b) / S = 1 - b := by field_simp
  rw [e1] at vu
  rw [e2] at vd
  obtain ⟨results, p', g1, g2, g3⟩ := C106_delta_partial (draw' := draw') (b := b) (S := S) (v := V) (up := (1 + b) * V) (down := (1 - b) * V) hp hone
    (unambiguous_collect md.spotDate hi) (fun k => ⟨fun h => by
      rcases hab.instruments k with h' | ⟨h', _⟩
      · exact absurd h' h
      · exact h', fun h => by rw [show k = id from h]; exact c2⟩) c1 hS hS0.ne' hb0 (by linarith) hu ku vu hd kd vd
  refine ⟨results, p', g1, ?_, g3⟩
  rw [show id = (share).id from rfl, g2]
  have e3 : ((1 + b) * V - (1 - b) * V) / (2 * (b * S)) = V / S := by field_simp; ring
  have e4 : ((1 + b) * V + (1 - b) * V - 2 * V) / (b * S) ^ 2 = 0 := by
    rw [show (1 + b) * V + (1 - b) * V - 2 * V = 0 by ring, zero_div]
  rw [e3, e4]

/-- C98: by Monte-Carlo, whatever the draws, the report of an option that is to be struck on day 3 at half of what the share is worth then says its price in shares,
and a spot of 150 instead of 100 makes it worth half as much again. -/
example (hh : f.pathSubstep ≠ 0) (hn : f.nPaths ≠ 0) : ∃ p V, MonteCarlo.new fuel f [(1, lateOption)] (sampleMarket 100 (.zero 0)) draw = .ok p ∧
    p.price fuel = .ok (.val V) ∧
    (∃ results p', generate (monteCarlo fuel draw') (.deltaGamma 0.01) p .new (.val V) = (.ok (.deltaGamma (.val 0.01) results), p', .new) ∧
      results.get "A" = some (.val (V / 100), .val 0)) ∧
    ∃ p', MonteCarlo.new fuel f [(1, lateOption)] (withSpot (sampleMarket 100 (.zero 0)) "A" 150) draw = .ok p' ∧ p'.price fuel = .ok (.val (150 / 100 * V)) := by
  obtain ⟨fw, hfw, hfw'⟩ := sample_forward_flat 100 10
  have hc := sample_new (md := sampleMarket 100 (.zero 0)) (c := collect 0 [(1, lateOption)]) (v := .flat (.val 0.2) .everyDay (0, 0)) rfl rfl hfw rfl
  have hmarket : Spec.Market fuel (Prefetch.pricingContext ⟨sampleMarket 100 (.zero 0), collect 0 [(1, lateOption)], ⟨[("A", fw)]⟩,
      ⟨[("A", .flat (.val 0.2) .everyDay (0, 0))]⟩⟩) equityA [((3, 0) : Point), sampleTerms.expiryTime] (fun _ => 100)
      (fun i => if i = 0 then 3 / 365 * 0.2 * 0.2 else 10 / 365 * 0.2 * 0.2) (fun _ => 0) := by
    refine ⟨(10, 0), fw, .flat (.val 0.2) .everyDay (0, 0), rfl, rfl, rfl, ?_⟩
    intro i pt hi
    match i, hi with
    | 0, hi =>
      cases hi
      refine ⟨hfw' 3 (by decide), ?_, rfl⟩
      have hy := everyDay_year 3
      norm_num at hy
      unfold VolSurface.variance VolSurface.variances
      rw [VolSurface.volatilities, hy]
      simp only [ok_bind, pure, Except.pure, List.map_cons, List.map_nil, Vol.first, num2]
      norm_num
    | 1, hi =>
      cases hi
      refine ⟨hfw' 10 le_rfl, ?_, rfl⟩
      have hy := everyDay_year 10
      norm_num at hy
      unfold VolSurface.variance VolSurface.variances
      rw [VolSurface.volatilities, show sampleTerms.expiryTime = ((10, 0) : Point) from rfl, hy]
      simp only [ok_bind, pure, Except.pure, List.map_cons, List.map_nil, Vol.first, num2]
      norm_num
    | i + 2, hi => cases hi
  obtain ⟨m, hm⟩ := model_succeeds (f := f) draw (t := ⟨⟨[("A", equityA, [((3, 0) : Point), sampleTerms.expiryTime])]⟩, [expiryFlow sampleTerms]⟩) rfl hmarket (by
    intro i hi
    match i, hi with
    | 0, _ => simp only [Spec.before]; norm_num
    | 1, _ => simp only [Spec.before]; norm_num) hh hn
  have hp : MonteCarlo.new fuel f [(1, lateOption)] (sampleMarket 100 (.zero 0)) draw = .ok ⟨f, [(1, lateOption)], m⟩ := by
    unfold MonteCarlo.new
    rw [show timeline [(1, lateOption)] .new = _ from timeline_forward 1 0.5 sampleTerms equityA ⟨3, .open⟩ (3, 0)]
    simp only [ok_bind]
    rw [show (sampleMarket 100 (.zero 0)).spotDate = 0 from rfl, hc]
    simp only [ok_bind]
    rw [show equityA.id = "A" from rfl, hm]
    rfl
  have hmc : m.context = ⟨sampleMarket 100 (.zero 0), collect 0 [(1, lateOption)], ⟨[("A", fw)]⟩, ⟨[("A", .flat (.val 0.2) .everyDay (0, 0))]⟩⟩ := by
    obtain ⟨_, _, _, _, _, _, _, _, _, e⟩ := model_new_ok hm
    rw [e]
  have hprice := C52_forward_partial (D := 1) (show MonteCarlo.new fuel f [(1, .forwardStarting sampleTerms equityA 0.5 ⟨3, .open⟩ (3, 0))] _ draw = _ from hp)
    (by rw [hmc]; exact hmarket) (by rw [hmc]; exact sample_discount)
  have hS : (sampleMarket 100 (.zero 0)).spots.get "A" = some 100 := rfl
  have hprop : Proportional (sampleMarket 100 (.zero 0)) "A" := by
    constructor
    · intro s hs
      cases hs
      intro x hx
      cases hx
    · intro s hs
      cases hs
      trivial
  have hi : ∀ e ∈ [((1 : ℝ), lateOption)], ShareLike equityA e.2 := by
    intro e he
    rw [List.mem_singleton.1 he]
    exact Or.inr ⟨_, _, _, _, rfl⟩
  obtain ⟨results, p', g1, g2, _⟩ := C98_simulated_delta (b := 0.01) (draw' := draw') hi hprop hS (by norm_num) (by norm_num) (by rw [abs_lt]; norm_num) hp hprice
  obtain ⟨p150, h1, _, h2⟩ := C98_simulated (x := 150) hi hprop hS (by norm_num) (by norm_num) hp
  rw [hprice] at h2
  exact ⟨_, _, hp, hprice, ⟨results, p', g1, g2⟩, p150, h1, h2⟩

end QM.MonteCarlo
