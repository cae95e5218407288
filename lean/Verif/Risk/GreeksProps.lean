import Verif.Risk.PortfolioProps
import Verif.Instruments.ExpectationProps
import Verif.Forward.LineProps

/-!
# Property C93: the risks of options have the signs and sizes they should
-/

namespace QM.Risk.Spec
open QM.Interp QM.Vol QM.Instruments QM.Market QM.Market.Spec

/-- A European option on an equity. -/
noncomputable def euro (kind : PutOrCall) (v : Vanilla) (id credit : String) (settle : Int → Int) (K : ℝ) : Instrument :=
  .spotStarting { v with putOrCall := kind } (.equity id credit settle) K

/-- What a market has to say about the options with given terms on an equity with spot `S`: for each spot `s` the forward to expiry would be
`a s - c`, the discount factor from payment to settlement today is `D`, and the surface is `vol`, with displacement `δ` and variance `w` until
expiry at the strike. -/
structure Setting (fuel : Nat) (md : MarketData) (v : Vanilla) (id credit : String) (settle : Int → Int) (K S a c δ D w : ℝ) (vol : VolSurface) :
    Prop where
  spot : md.spots.get id = some S
  ahead : md.spotDate < v.expiry.date
  forward : ∀ s, ∃ f, (withSpot md id s).forwardCurve (.equity id credit settle) v.expiry.date = .ok f ∧
    f.forward v.expiry.date = .ok (.val (a * s - c))
  rates : ∃ yc r r', md.yieldCurves.get credit = some yc ∧ yc.rt v.payDate = .ok (.val r) ∧
    yc.rt (v.settlement md.spotDate) = .ok (.val r') ∧ D = Real.exp (r' - r)
  surface : ∀ g, md.volSurface (.equity id credit settle) v.expiry.date g = .ok vol
  displacement : vol.displacement v.expiry.date = .ok (.val δ)
  variance : vol.forwardVariance fuel (later (0, 0) (md.spotDate, 0)) v.expiryTime (.val K) = .ok (.val w)

end QM.Risk.Spec

namespace QM.Risk
open QM.Interp QM.Curves QM.Vol QM.Fixings QM.Instruments QM.Instruments.Spec QM.Market QM.Market.Spec QM.Risk.Spec
open MeasureTheory ProbabilityTheory

variable {fuel : Nat} {md : MarketData} {v : Vanilla} {id credit : String} {settle : Int → Int} {K S a c δ D w : ℝ} {vol : VolSurface}

/-! ## Expected payoffs as functions of the forward -/

theorem mean_parity (F K s : ℝ) : ∫ x, payoff .call (lognormal F s x) K ∂gaussianReal 0 1 =
    (∫ x, payoff .put (lognormal F s x) K ∂gaussianReal 0 1) + (F - K) := by
  simp only [payoff_parity]
  have hi : Integrable (fun x => lognormal F s x - K) (gaussianReal 0 1) := (lognormal_integrable F s).sub (integrable_const K)
  rw [integral_add (payoff_integrable .put F K s) hi, integral_sub (lognormal_integrable F s) (integrable_const K), lognormal_mean]
  simp

theorem mean_slope {F F' : ℝ} (h : F ≤ F') (K s : ℝ) :
    ∫ x, payoff .call (lognormal F s x) K ∂gaussianReal 0 1 ≤ ∫ x, payoff .call (lognormal F' s x) K ∂gaussianReal 0 1 ∧
    ∫ x, payoff .call (lognormal F' s x) K ∂gaussianReal 0 1 ≤ (∫ x, payoff .call (lognormal F s x) K ∂gaussianReal 0 1) + (F' - F) := by
  have hle : ∀ x, lognormal F s x ≤ lognormal F' s x := fun x => mul_le_mul_of_nonneg_right h (Real.exp_pos _).le
  constructor
  · refine integral_mono (payoff_integrable _ _ _ _) (payoff_integrable _ _ _ _) ?_
    intro x
    exact max_le_max (by have := hle x; linarith) le_rfl
  · have hi : Integrable (fun x => lognormal F' s x - lognormal F s x) (gaussianReal 0 1) := (lognormal_integrable F' s).sub (lognormal_integrable F s)
    rw [← show ∫ x, (lognormal F' s x - lognormal F s x) ∂gaussianReal 0 1 = F' - F by
      rw [integral_sub (lognormal_integrable F' s) (lognormal_integrable F s), lognormal_mean, lognormal_mean]]
    rw [← integral_add (payoff_integrable _ _ _ _) hi]
    refine integral_mono (payoff_integrable _ _ _ _) ((payoff_integrable _ _ _ _).add hi) ?_
    intro x
    have := hle x
    simp only [payoff, Pi.add_apply]
    refine max_le ?_ ?_
    · have := le_max_left (lognormal F s x - K) 0
      linarith
    · have := le_max_right (lognormal F s x - K) 0
      linarith

theorem mean_convex (kind : PutOrCall) (F h K s : ℝ) :
    2 * ∫ x, payoff kind (lognormal F s x) K ∂gaussianReal 0 1 ≤
      (∫ x, payoff kind (lognormal (F + h) s x) K ∂gaussianReal 0 1) + ∫ x, payoff kind (lognormal (F - h) s x) K ∂gaussianReal 0 1 := by
  rw [← integral_const_mul, ← integral_add (payoff_integrable _ _ _ _) (payoff_integrable _ _ _ _)]
  refine integral_mono ((payoff_integrable _ _ _ _).const_mul 2) ((payoff_integrable _ _ _ _).add (payoff_integrable _ _ _ _)) ?_
  intro x
  have e : lognormal (F + h) s x + lognormal (F - h) s x = 2 * lognormal F s x := by unfold lognormal; ring
  simp only [Pi.add_apply]
  cases kind
  · simp only [payoff]
    have h1 := le_max_left (K - lognormal (F + h) s x) 0
    have h2 := le_max_left (K - lognormal (F - h) s x) 0
    have h3 := le_max_right (K - lognormal (F + h) s x) 0
    have h4 := le_max_right (K - lognormal (F - h) s x) 0
    rcases max_cases (K - lognormal F s x) 0 with ⟨e1, _⟩ | ⟨e1, _⟩ <;> rw [e1] <;> linarith
  · simp only [payoff]
    have h1 := le_max_left (lognormal (F + h) s x - K) 0
    have h2 := le_max_left (lognormal (F - h) s x - K) 0
    have h3 := le_max_right (lognormal (F + h) s x - K) 0
    have h4 := le_max_right (lognormal (F - h) s x - K) 0
    rcases max_cases (lognormal F s x - K) 0 with ⟨e1, _⟩ | ⟨e1, _⟩ <;> rw [e1] <;> linarith

/-! ## The value of one option -/

theorem collect_option (n : ℝ) (kind : PutOrCall) (sd : Int) :
    (collect sd [(n, euro kind v id credit settle K)]).forwardCurves = ⟨[(id, .equity id credit settle, v.expiry.date)]⟩ ∧
    (collect sd [(n, euro kind v id credit settle K)]).volSurfaces = ⟨[(id, .equity id credit settle, v.expiry.date)]⟩ ∧
    (collect sd [(n, euro kind v id credit settle K)]).instruments = ⟨[(id, .equity id credit settle)]⟩ := by
  refine ⟨?_, ?_, ?_⟩ <;>
  simp [collect, euro, Collector.spot, Instrument.dependencies, finishVanilla, startVanilla, Collector.new, Collector.noteSpot, Collector.noteForward,
    Collector.volSurface, Collector.addInstrument, Collector.yieldCurve, Collector.fixing, Collector.setHwm, Map.get, Map.insert, Map.empty, Instrument.id]

/-- The price of an option in a context. -/
theorem option_price {ctx : PricingContext} {f : Fwd} {F : ℝ} {yc : RateCurve} {r r' : ℝ} {sd : Int} (kind : PutOrCall) (hahead : sd < v.expiry.date)
    (x1 : ctx.spotDate = sd) (x2 : ∀ d, ctx.yieldCurve credit d = .ok yc) (x3 : ∀ d, ctx.forwardCurve (.equity id credit settle) d = .ok f)
    (x4 : ∀ d g, ctx.volSurface (.equity id credit settle) d g = .ok vol) (hF : f.forward v.expiry.date = .ok (.val F))
    (hr : yc.rt v.payDate = .ok (.val r)) (hr' : yc.rt (v.settlement sd) = .ok (.val r')) (hδ : vol.displacement v.expiry.date = .ok (.val δ))
    (hw : vol.forwardVariance fuel (later (0, 0) (sd, 0)) v.expiryTime (.val K) = .ok (.val w)) (hF0 : 0 ≤ F - δ) (hw0 : 0 ≤ w) :
    (euro kind v id credit settle K).price fuel ctx ⟨sd, .open⟩ =
      .ok (formula kind (.val (Real.exp (r' - r))) (.val (F - δ)) (.val (K + δ)) (.val (Real.sqrt w))) := by
  unfold euro
  rw [price_iff, Instrument.prices, vanillaPrices_cons]
  refine ⟨yc, vol, .val K, .val F, .val r, .val δ, x2 _, x4 _ _, ?_, hr, hδ, ?_, .cons ?_ .nil⟩
  · rw [Instrument.prices]
    unfold equityPrices
    dsimp only
    rw [if_neg (by rw [x1]; omega), x3]
    simp only [ok_bind, each, hF]
    rfl
  · simp only [num2, nlt]
    linarith
  · rw [vanillaValue_ok (by unfold notAfter; left; exact hahead)]
    refine ⟨.val r', (sd, 0), .val w, .val (Real.sqrt w), hr', ?_, hw, ?_, ?_⟩
    · simp [Instrument.timeToDayFraction, dayFraction]
    · unfold optionSqrtVariance nonNegative nlt
      rw [if_neg (by linarith)]
      simp [nsqrt, hw0]
    · simp only [num1, num2]
      rw [← Real.exp_add, neg_add_eq_sub]

theorem option_value {f : Fwd} {F : ℝ} {yc : RateCurve} {r r' : ℝ} (n : ℝ) (kind : PutOrCall) (hahead : md.spotDate < v.expiry.date)
    (hf : md.forwardCurve (.equity id credit settle) v.expiry.date = .ok f) (hF : f.forward v.expiry.date = .ok (.val F))
    (hy : md.yieldCurves.get credit = some yc) (hr : yc.rt v.payDate = .ok (.val r)) (hr' : yc.rt (v.settlement md.spotDate) = .ok (.val r'))
    (hv : ∀ g, md.volSurface (.equity id credit settle) v.expiry.date g = .ok vol) (hδ : vol.displacement v.expiry.date = .ok (.val δ))
    (hw : vol.forwardVariance fuel (later (0, 0) (md.spotDate, 0)) v.expiryTime (.val K) = .ok (.val w)) (hF0 : 0 ≤ F - δ) (hw0 : 0 ≤ w) :
    value fuel [(n, euro kind v id credit settle K)] md =
      .ok (num1 (n * ·) (formula kind (.val (Real.exp (r' - r))) (.val (F - δ)) (.val (K + δ)) (.val (Real.sqrt w)))) := by
  obtain ⟨c1, c2, c3⟩ := collect_option (v := v) (id := id) (credit := credit) (settle := settle) (K := K) n kind md.spotDate
  have hnew : Prefetch.new md (collect md.spotDate [(n, euro kind v id credit settle K)]) =
      .ok ⟨md, collect md.spotDate [(n, euro kind v id credit settle K)], ⟨[(id, f)]⟩, ⟨[(id, vol)]⟩⟩ := by
    unfold Prefetch.new
    rw [c1, c2]
    unfold walkDependencies
    rw [hf]
    dsimp only
    rw [show Map.get ⟨[(id, Instrument.equity id credit settle, v.expiry.date)]⟩ (Instrument.equity id credit settle).id =
      some (Instrument.equity id credit settle, v.expiry.date) by simp [Map.get, Instrument.id]]
    dsimp only
    rw [hv]
    rfl
  unfold value
  rw [new_self_of hnew]
  show SelfPricer.price fuel _ = _
  unfold SelfPricer.price
  dsimp only
  have hprice : (euro kind v id credit settle K).price fuel (Prefetch.pricingContext ⟨md, collect md.spotDate [(n, euro kind v id credit settle K)],
      ⟨[(id, f)]⟩, ⟨[(id, vol)]⟩⟩) ⟨md.spotDate, .open⟩ =
      .ok (formula kind (.val (Real.exp (r' - r))) (.val (F - δ)) (.val (K + δ)) (.val (Real.sqrt w))) := by
    refine option_price (f := f) (vol := vol) (yc := yc) kind hahead rfl ?_ ?_ ?_ hF hr hr' hδ hw hF0 hw0
    · intro d
      show find credit md.yieldCurves = _
      unfold find
      rw [hy]
    · intro d
      show find id ⟨[(id, f)]⟩ = _
      simp [find, Map.get]
    · intro d g
      show find id ⟨[(id, vol)]⟩ = _
      simp [find, Map.get]
  rw [priceLoop, hprice, ok_bind, priceLoop]
  cases formula kind (.val (Real.exp (r' - r))) (.val (F - δ)) (.val (K + δ)) (.val (Real.sqrt w)) <;> simp [num1, num2]

theorem option_unambiguous (n : ℝ) (kind : PutOrCall) (sd : Int) : Unambiguous (collect sd [(n, euro kind v id credit settle K)]) := by
  obtain ⟨c1, _, c3⟩ := collect_option (v := v) (id := id) (credit := credit) (settle := settle) (K := K) n kind sd
  intro k i hwm j h1 h2
  rw [c1] at h1
  rw [c3] at h2
  by_cases e : id = k
  · subst e
    simp [Map.get] at h1 h2
    rw [← h1.1, ← h2]
  · simp [Map.get, e] at h1

theorem only_option {n : ℝ} {kind : PutOrCall} {p : SelfPricer} (hp : SelfPricer.new [(n, euro kind v id credit settle K)] md = .ok p) (k : String) :
    (p.context.dependencies.instruments.get k ≠ none ↔ k = id) ∧ p.context.dependencies.forwardCurves.get id ≠ none ∧
      p.context.dependencies.volSurfaces.get id ≠ none := by
  obtain ⟨c1, c2, c3⟩ := collect_option (v := v) (id := id) (credit := credit) (settle := settle) (K := K) n kind md.spotDate
  rw [(at_new hp).dependencies, c1, c2, c3]
  refine ⟨?_, by simp [Map.get], by simp [Map.get]⟩
  by_cases e : id = k
  · simp [Map.get, e]
  · simp [Map.get, e, Ne.symm e]

/-- The same market with the spot it has. -/
theorem withSpot_value (hS : md.spots.get id = some S) {l : List (ℝ × Instrument)} {x : Num ℝ} (h : value fuel l (withSpot md id S) = .ok x)
    {p : SelfPricer} (hp : SelfPricer.new l md = .ok p) : p.price fuel = .ok x :=
  (at_new hp).price (md := withSpot md id S) rfl (by
    intro y
    rw [withSpot_data]
    exact congrFun (update_same (x := .spot id) (f := data md) hS) y) h

/-- The value of the option for any spot, as an expected payoff. -/
theorem setting_value (h : Setting fuel md v id credit settle K S a c δ D w vol) (n : ℝ) (kind : PutOrCall) {s : ℝ} (hF : 0 < a * s - c - δ)
    (hK : 0 < K + δ) (hw : 0 < w) : value fuel [(n, euro kind v id credit settle K)] (withSpot md id s) =
      .ok (.val (n * (D * ∫ x, payoff kind (lognormal (a * s - c - δ) (Real.sqrt w) x) (K + δ) ∂gaussianReal 0 1))) := by
  obtain ⟨f, h1, h2⟩ := h.forward s
  obtain ⟨yc, r, r', h3, h4, h5, rfl⟩ := h.rates
  rw [option_value (md := withSpot md id s) n kind h.ahead h1 h2 h3 h4 h5 h.surface h.displacement h.variance hF.le hw.le,
    formula_mean hF.le hK.le (Real.sqrt_nonneg _) (by
      rintro ⟨_, h | h⟩
      · exact hF.ne' h
      · exact (Real.sqrt_pos.2 hw).ne' h)]
  rfl

/-- What the option costs in the market itself. -/
theorem setting_new (h : Setting fuel md v id credit settle K S a c δ D w vol) (n : ℝ) (kind : PutOrCall) (hF : 0 < a * S - c - δ)
    (hK : 0 < K + δ) (hw : 0 < w) : ∃ p, SelfPricer.new [(n, euro kind v id credit settle K)] md = .ok p ∧
      p.price fuel = .ok (.val (n * (D * ∫ x, payoff kind (lognormal (a * S - c - δ) (Real.sqrt w) x) (K + δ) ∂gaussianReal 0 1))) := by
  have hval := setting_value h n kind hF hK hw
  obtain ⟨q, hq, _⟩ := value_new hval
  obtain ⟨f, h1, h2⟩ := h.forward S
  have h1' : md.forwardCurve (.equity id credit settle) v.expiry.date = .ok f := by
    rw [← h1]
    refine forwardCurve_congr _ _ rfl ?_
    intro y _
    rw [withSpot_data]
    exact (congrFun (update_same (x := .spot id) (f := data md) h.spot) y).symm
  obtain ⟨yc, r, r', h3, h4, h5, rfl⟩ := h.rates
  have := option_value (fuel := fuel) n kind h.ahead h1' h2 h3 h4 h5 h.surface h.displacement h.variance hF.le hw.le
  obtain ⟨p, hp, _⟩ := value_new this
  exact ⟨p, hp, withSpot_value h.spot hval hp⟩

/-! ## Delta and gamma -/

/-- C93, delta and gamma. For options of either kind with the same terms, in any amount, the report succeeds and lists the underlying and nothing
else. The delta of the call is between zero and the discounted slope of the forward, that of the put is smaller by just this slope, so that it
is between its negative and zero. If the slope is positive neither delta is zero. Their gammas are the same and not negative. The bump is relative, the slope is not negative, and
the forward after the down bump and the strike exceed what the surface takes for dividends. -/
theorem C93_delta_partial (h : Setting fuel md v id credit settle K S a c δ D w vol) {b : ℝ} (hb0 : 0 < b) (hS : 0 < S) (ha : 0 ≤ a)
    (hF : 0 < a * (S * (1 - b)) - c - δ) (hK : 0 < K + δ) (hw : 0 < w) :
    ∃ delta gamma : PutOrCall → ℝ,
      (∀ kind n, ∃ p x results p', SelfPricer.new [(n, euro kind v id credit settle K)] md = .ok p ∧ p.price fuel = .ok (.val x) ∧
        generate (selfPricer fuel) (.deltaGamma b) p .new (.val x) = (.ok (.deltaGamma (.val b) results), p', .new) ∧
        results.get id = some (.val (n * delta kind), .val (n * gamma kind)) ∧ ∀ k, k ≠ id → results.get k = none) ∧
      0 ≤ delta .call ∧ delta .call ≤ D * a ∧ - (D * a) ≤ delta .put ∧ delta .put ≤ 0 ∧ delta .call - delta .put = D * a ∧
      (0 < a → 0 < delta .call ∧ delta .put < 0) ∧
      0 ≤ gamma .call ∧ gamma .call * (b * S) ≤ D * a ∧ gamma .put = gamma .call := by
  have hD0 : 0 < D := by
    obtain ⟨_, _, _, _, _, _, rfl⟩ := h.rates
    exact Real.exp_pos _
  have hD := hD0.le
  have hbS : 0 < b * S := mul_pos hb0 hS
  have haS : 0 ≤ a * (b * S) := mul_nonneg ha hbS.le
  have hF0 : 0 < a * S - c - δ := by
    have : a * (S * (1 - b)) = a * S - a * (b * S) := by ring
    linarith
  have hF1 : 0 < a * (S * (1 + b)) - c - δ := by
    have : a * (S * (1 + b)) = a * S + a * (b * S) := by ring
    linarith
  obtain ⟨M, hM⟩ : ∃ M : PutOrCall → ℝ → ℝ, ∀ kind F, ∫ x, payoff kind (lognormal F (Real.sqrt w) x) (K + δ) ∂gaussianReal 0 1 = M kind F :=
    ⟨_, fun _ _ => rfl⟩
  have hpar : ∀ F, M .call F = M .put F + (F - (K + δ)) := fun F => by rw [← hM, ← hM]; exact mean_parity _ _ _
  have hslope : ∀ F F', F ≤ F' → M .call F ≤ M .call F' ∧ M .call F' ≤ M .call F + (F' - F) := fun F F' hle => by
    rw [← hM, ← hM]; exact mean_slope hle _ _
  have hcall : ∀ F F', 0 < F → F < F' → M .call F < M .call F' := fun F F' h0 hlt => by
    rw [← hM, ← hM, mean_call h0 hK (Real.sqrt_pos.2 hw), mean_call (h0.trans hlt) hK (Real.sqrt_pos.2 hw)]
    exact black_forward_lt hK (Real.sqrt_pos.2 hw) h0 hlt
  have hput : ∀ F F', 0 < F → F < F' → M .put F' < M .put F := fun F F' h0 hlt => by
    rw [← hM, ← hM, mean_put h0 hK (Real.sqrt_pos.2 hw), mean_put (h0.trans hlt) hK (Real.sqrt_pos.2 hw)]
    exact black_strike_lt hK (Real.sqrt_pos.2 hw) h0 hlt
  have hconv : ∀ kind F h, 2 * M kind F ≤ M kind (F + h) + M kind (F - h) := fun kind F h => by
    rw [← hM, ← hM, ← hM]; exact mean_convex _ _ _ _ _
  have eu : a * (S * (1 + b)) - c - δ = a * S - c - δ + a * (b * S) := by ring
  have ed : a * (S * (1 - b)) - c - δ = a * S - c - δ - a * (b * S) := by ring
  refine ⟨fun kind => (D * M kind (a * S - c - δ + a * (b * S)) - D * M kind (a * S - c - δ - a * (b * S))) / (2 * (b * S)),
    fun kind => (D * M kind (a * S - c - δ + a * (b * S)) + D * M kind (a * S - c - δ - a * (b * S)) - 2 * (D * M kind (a * S - c - δ))) / (b * S) ^ 2,
    ?_, ?_⟩
  · intro kind n
    obtain ⟨p, hp, hx⟩ := setting_new h n kind hF0 hK hw
    rw [hM] at hx
    have hup := setting_value h n kind hF1 hK hw
    have hdown := setting_value h n kind hF hK hw
    rw [hM, eu] at hup
    rw [hM, ed] at hdown
    obtain ⟨o2, o3, o4⟩ := only_option hp id
    obtain ⟨results, p', g1, g2⟩ := C44_differences_partial (b := b) (v := n * (D * M kind (a * S - c - δ))) (S := fun _ => S)
      (u := fun _ => n * (D * M kind (a * S - c - δ + a * (b * S)))) (d := fun _ => n * (D * M kind (a * S - c - δ - a * (b * S)))) hp
      (option_unambiguous n kind _) hb0.ne' (by linarith) (by
        intro k hk
        cases (only_option hp k).1.1 hk
        exact ⟨o3, h.spot, hS.ne', hup, hdown⟩)
    refine ⟨p, _, results, p', hp, hx, g1, ?_, ?_⟩
    · rw [(g2 id).1 (o2.2 rfl)]
      congr 3 <;> ring
    · intro k hk
      refine (g2 k).2 ?_
      by_contra hne
      exact hk ((only_option hp k).1.1 hne)
  · dsimp only
    have p0 := hpar (a * S - c - δ)
    have p1 := hpar (a * S - c - δ + a * (b * S))
    have p2 := hpar (a * S - c - δ - a * (b * S))
    obtain ⟨s1, s2⟩ := hslope (a * S - c - δ - a * (b * S)) (a * S - c - δ + a * (b * S)) (by linarith)
    obtain ⟨s3, s4⟩ := hslope (a * S - c - δ - a * (b * S)) (a * S - c - δ) (by linarith)
    obtain ⟨s5, s6⟩ := hslope (a * S - c - δ) (a * S - c - δ + a * (b * S)) (by linarith)
    have t1 : 0 < a → M .call (a * S - c - δ - a * (b * S)) < M .call (a * S - c - δ + a * (b * S)) := fun ha0 =>
      hcall _ _ (by rw [← ed]; exact hF) (by have := mul_pos ha0 hbS; linarith)
    have t2 : 0 < a → M .put (a * S - c - δ + a * (b * S)) < M .put (a * S - c - δ - a * (b * S)) := fun ha0 =>
      hput _ _ (by rw [← ed]; exact hF) (by have := mul_pos ha0 hbS; linarith)
    have c1 := hconv .call (a * S - c - δ) (a * (b * S))
    generalize M .call (a * S - c - δ + a * (b * S)) = cu at *
    generalize M .call (a * S - c - δ - a * (b * S)) = cd at *
    generalize M .call (a * S - c - δ) = cm at *
    generalize M .put (a * S - c - δ + a * (b * S)) = pu at *
    generalize M .put (a * S - c - δ - a * (b * S)) = pd at *
    generalize M .put (a * S - c - δ) = pm at *
    have hc0 : 0 ≤ (D * cu - D * cd) / (2 * (b * S)) := by
      refine div_nonneg ?_ (by linarith)
      have := mul_le_mul_of_nonneg_left s1 hD
      linarith
    have hc1 : (D * cu - D * cd) / (2 * (b * S)) ≤ D * a := by
      rw [div_le_iff₀ (by linarith)]
      have := mul_le_mul_of_nonneg_left s2 hD
      linarith
    have hd : (D * cu - D * cd) / (2 * (b * S)) - (D * pu - D * pd) / (2 * (b * S)) = D * a := by
      rw [← sub_div, p1, p2, div_eq_iff (by linarith)]
      ring
    refine ⟨hc0, hc1, by linarith, by linarith, hd, fun ha0 => ⟨?_, ?_⟩, ?_, ?_, ?_⟩
    · refine div_pos ?_ (by linarith)
      have := mul_lt_mul_of_pos_left (t1 ha0) hD0
      linarith
    · refine div_neg_of_neg_of_pos ?_ (by linarith)
      have := mul_lt_mul_of_pos_left (t2 ha0) hD0
      linarith
    · refine div_nonneg ?_ (sq_nonneg _)
      have := mul_le_mul_of_nonneg_left c1 hD
      linarith
    · rw [div_mul_eq_mul_div, div_le_iff₀ (by positivity)]
      have h1 := mul_le_mul_of_nonneg_left s6 hD
      have h2 := mul_le_mul_of_nonneg_left s3 hD
      have h3 : D * cu + D * cd - 2 * (D * cm) ≤ D * (a * (b * S)) := by linarith
      have := mul_le_mul_of_nonneg_right h3 hbS.le
      linarith
    · congr 1
      rw [p0, p1, p2]
      ring

/-- C93: orderly markets are such settings. If the forward to expiry can be had, its yield accrued, and surface and rates are there, then the forward
is a straight line in the spot. Its slope is positive unless relative dividends go ex before expiry. -/
theorem C93_setting {f : Fwd} {divs : Dividends.DividendStream} {y : ℝ} (ho : Orderly md) (hS : md.spots.get id = some S) (hahead : md.spotDate < v.expiry.date)
    (hf : md.forwardCurve (.equity id credit settle) v.expiry.date = .ok f) (hd : md.dividends.get id = some divs)
    (hy : Forward.Spec.Accrued divs.divYield (settle v.expiry.date) y)
    (hr : ∃ yc r r', md.yieldCurves.get credit = some yc ∧ yc.rt v.payDate = .ok (.val r) ∧
      yc.rt (v.settlement md.spotDate) = .ok (.val r') ∧ D = Real.exp (r' - r))
    (hv : ∀ g, md.volSurface (.equity id credit settle) v.expiry.date g = .ok vol) (hδ : vol.displacement v.expiry.date = .ok (.val δ))
    (hw : vol.forwardVariance fuel (later (0, 0) (md.spotDate, 0)) v.expiryTime (.val K) = .ok (.val w)) :
    ∃ a c, Setting fuel md v id credit settle K S a c δ D w vol ∧
      ((∀ d ∈ divs.dividends, md.spotDate < d.exDate → d.exDate ≤ v.expiry.date → d.relative = 0) → 0 < a) := by
  unfold MarketData.forwardCurve at hf
  obtain ⟨e, he, hf⟩ := bind_ok hf
  obtain ⟨spot, divs', borrow, yc, p1, p2, p3, p4, p5⟩ := equityForward_parts he
  have p1 : md.spots.get id = some spot := p1
  have p2 : md.dividends.get id = some divs' := p2
  have p3 : md.borrowCurves.get id = some borrow := p3
  have p4 : md.yieldCurves.get credit = some yc := p4
  rw [hd] at p2
  cases p2
  obtain ⟨g, hg⟩ := ho.financing _ _ _ _ p3 p4
  obtain ⟨q1, q2⟩ := ho.dividends _ _ hd
  obtain ⟨a, c, h1, h2⟩ := Forward.C26_line hg p5 q1 q2 le_rfl hy
  refine ⟨a, c, ⟨hS, hahead, ?_, hr, hv, hδ, hw⟩, fun hc => by rw [h2 hc]; exact Real.exp_pos _⟩
  intro s
  obtain ⟨f', h3, h4⟩ := h1 s
  refine ⟨asFwd f', ?_, ?_⟩
  · unfold MarketData.forwardCurve MarketData.equityForward
    have e1 : find id (withSpot md id s).spots = .ok s := by
      unfold find withSpot
      simp [Map.get_insert]
    have e2 : find id (withSpot md id s).dividends = .ok divs := by
      unfold find withSpot
      simp [hd]
    have e3 : find id (withSpot md id s).borrowCurves = .ok borrow := by
      unfold find withSpot
      simp [p3]
    have e4 : find credit (withSpot md id s).yieldCurves = .ok yc := by
      unfold find withSpot
      simp [p4]
    show Bind.bind (Bind.bind (find id (withSpot md id s).spots) _) _ = _
    rw [e1, ok_bind]
    show Bind.bind (Bind.bind (find id (withSpot md id s).dividends) _) _ = _
    rw [e2, ok_bind]
    show Bind.bind (Bind.bind (find id (withSpot md id s).borrowCurves) _) _ = _
    rw [e3, ok_bind]
    show Bind.bind (Bind.bind (find credit (withSpot md id s).yieldCurves) _) _ = _
    rw [e4, ok_bind]
    show Bind.bind (Forward.EquityForward.new md.spotDate s settle yc borrow divs v.expiry.date) _ = _
    have h3' : Forward.EquityForward.new md.spotDate s settle yc borrow divs v.expiry.date = .ok f' := h3
    rw [h3']
    rfl
  · unfold asFwd
    dsimp only
    rw [h4]
    rfl

/-! ## Vega -/

theorem bumped_variance {vol : VolSurface} {from_ to_ : Point} {σ T b : ℝ} (hfrom : ¬ before vol.baseDate from_)
    (hσ : vol.volatilities fuel to_ [.val K] = .ok (T, [.val σ])) (h : 0 ≤ σ + b) :
    (VolSurface.parallelBump vol (.val b)).volatilities fuel to_ [.val K] = .ok (T, [.val (σ + b)]) ∧
    (VolSurface.parallelBump vol (.val b)).forwardVariance fuel from_ to_ (.val K) = .ok (.val (T * (σ + b) * (σ + b))) := by
  have h1 : (VolSurface.parallelBump vol (.val b)).volatilities fuel to_ [.val K] = .ok (T, [.val (σ + b)]) := by
    rw [VolSurface.volatilities, hσ, ok_bind]
    simp [nmax, num2, h, pure, Except.pure]
  refine ⟨h1, ?_⟩
  unfold VolSurface.forwardVariance VolSurface.forwardVariances
  rw [if_pos (by exact hfrom)]
  unfold VolSurface.variances
  rw [h1, ok_bind]
  simp [num2, Vol.first, pure, Except.pure, ok_bind]

theorem plain_variance {vol : VolSurface} {from_ to_ : Point} {σ T : ℝ} (hfrom : ¬ before vol.baseDate from_)
    (hσ : vol.volatilities fuel to_ [.val K] = .ok (T, [.val σ])) :
    vol.forwardVariance fuel from_ to_ (.val K) = .ok (.val (T * σ * σ)) := by
  unfold VolSurface.forwardVariance VolSurface.forwardVariances
  rw [if_pos hfrom]
  unfold VolSurface.variances
  rw [hσ, ok_bind]
  simp [num2, Vol.first, pure, Except.pure, ok_bind]

/-- The surface for an option, if it is one of the spot date. -/
theorem surface_today {vol : VolSurface} (hs : md.volSurfaces.get id = some vol) (hbase : vol.baseDate.1 = md.spotDate) (d : Int) (g : Unit → Outcome Fwd) :
    md.volSurface (.equity id credit settle) d g = .ok vol := by
  unfold MarketData.volSurface find
  rw [show (Instrument.equity id credit settle).id = id from rfl, hs]
  dsimp only
  rw [ok_bind]
  unfold VolTimeDynamics.modify
  rw [if_pos hbase.symm, ok_bind]
  unfold VolForwardDynamics.modify
  rw [if_pos (by rfl)]

/-- C93, vega. For options of either kind with the same terms, in any amount, the report for a flat shift succeeds and lists the underlying and nothing
else. The vega of the option is positive, and vega and volga are the same for the call as for the put. The surface is one of the spot date, and the shift is
not more than the volatility at the strike; with a larger shift there may be no vega, `C93_false`. -/
theorem C93_vega_partial (h : Setting fuel md v id credit settle K S a c δ D w vol) (hs : md.volSurfaces.get id = some vol)
    (hbase : vol.baseDate.1 = md.spotDate) (hfrom : ¬ before vol.baseDate (later (0, 0) (md.spotDate, 0))) {σ T b : ℝ}
    (hσ : vol.volatilities fuel v.expiryTime [.val K] = .ok (T, [.val σ])) (hT : 0 < T) (hb0 : 0 < b) (hbσ : b ≤ σ)
    (hF : 0 < a * S - c - δ) (hK : 0 < K + δ) :
    ∃ vega volga : ℝ, 0 < vega ∧
      ∀ kind n, ∃ p x results p', SelfPricer.new [(n, euro kind v id credit settle K)] md = .ok p ∧ p.price fuel = .ok (.val x) ∧
        generate (selfPricer fuel) (.vegaVolga (.flatAdditive (.val b))) p .new (.val x) = (.ok (.vegaVolga (.val b) results), p', .new) ∧
        results.get id = some (.val (n * vega), .val (n * volga)) ∧ ∀ k, k ≠ id → results.get k = none := by
  have hdown : 0 < σ + b + -2 * b / (1 + b) := by
    have : -2 * b / (1 + b) = -(2 * b) + 2 * b * b / (1 + b) := by field_simp; ring
    have h2 : 0 < 2 * b * b / (1 + b) := by positivity
    linarith
  have hshift : σ + b + -2 * b / (1 + b) < σ + b := by
    have : -2 * b / (1 + b) < 0 := div_neg_of_neg_of_pos (by linarith) (by linarith)
    linarith
  have hw : w = T * σ * σ := by
    have := h.variance
    rw [plain_variance hfrom hσ] at this
    cases this
    rfl
  have hw0 : 0 < w := by rw [hw]; exact mul_pos (mul_pos hT (by linarith)) (by linarith)
  obtain ⟨u1, u2⟩ := bumped_variance (b := b) hfrom hσ (by linarith)
  obtain ⟨d1, d2⟩ := bumped_variance (vol := .parallelBump vol (.val b)) (b := -2 * b / (1 + b)) (by exact hfrom) u1 hdown.le
  obtain ⟨f, k1, k2⟩ := h.forward S
  obtain ⟨yc, r, r', k3, k4, k5, rfl⟩ := h.rates
  have hval : ∀ kind n (vol' : VolSurface) (w' : ℝ), 0 < w' → vol'.baseDate.1 = md.spotDate → vol'.displacement v.expiry.date = .ok (.val δ) →
      vol'.forwardVariance fuel (later (0, 0) (md.spotDate, 0)) v.expiryTime (.val K) = .ok (.val w') →
      value fuel [(n, euro kind v id credit settle K)] (withVol md id vol') =
        .ok (.val (n * (Real.exp (r' - r) * blackValue kind (a * S - c - δ) (K + δ) (Real.sqrt w')))) := by
    intro kind n vol' w' hw' hb' hδ' hv'
    have k1' : (withVol md id vol').forwardCurve (.equity id credit settle) v.expiry.date = .ok f := by
      rw [← k1]
      refine forwardCurve_congr _ _ rfl ?_
      intro y hy
      rw [withVol_data, withSpot_data]
      rw [update_same (x := .spot id) (f := data md) h.spot, Function.update_of_ne]
      rintro rfl
      simp at hy
    rw [option_value (md := withVol md id vol') n kind h.ahead k1' k2 k3 k4 k5
      (surface_today (md := withVol md id vol') (by unfold withVol; simp [Map.get_insert]) hb' _) hδ' hv' hF.le hw'.le, formula_black hF hK (Real.sqrt_pos.2 hw')]
    rfl
  have hT1 : 0 < T * (σ + b) * (σ + b) := mul_pos (mul_pos hT (by linarith)) (by linarith)
  have hT2 : 0 < T * (σ + b + -2 * b / (1 + b)) * (σ + b + -2 * b / (1 + b)) := mul_pos (mul_pos hT hdown) hdown
  have hlt : T * (σ + b + -2 * b / (1 + b)) * (σ + b + -2 * b / (1 + b)) < T * (σ + b) * (σ + b) := by
    rw [mul_assoc, mul_assoc]
    exact mul_lt_mul_of_pos_left (mul_lt_mul'' hshift hshift hdown.le hdown.le) hT
  have hswap : ∀ kind, ∃ m : ℝ, ∀ s, blackValue kind (a * S - c - δ) (K + δ) s = black (a * S - c - δ) (K + δ) s + m := by
    intro kind
    cases kind
    · refine ⟨- ((a * S - c - δ) - (K + δ)), fun s => ?_⟩
      have := black_swap (s := s) hF hK
      show black _ _ s = _
      linarith
    · exact ⟨0, fun s => by rw [add_zero]; rfl⟩
  have hmono := black_strictMono hF hK (Set.mem_Ioi.2 (Real.sqrt_pos.2 hT2)) (Set.mem_Ioi.2 (Real.sqrt_pos.2 hT1)) (Real.sqrt_lt_sqrt hT2.le hlt)
  generalize hwu : T * (σ + b) * (σ + b) = wu at *
  generalize hwd : T * (σ + b + -2 * b / (1 + b)) * (σ + b + -2 * b / (1 + b)) = wd at *
  refine ⟨Real.exp (r' - r) * (black (a * S - c - δ) (K + δ) (Real.sqrt wu) - black (a * S - c - δ) (K + δ) (Real.sqrt wd)) / (2 * b),
    Real.exp (r' - r) * (black (a * S - c - δ) (K + δ) (Real.sqrt wu) + black (a * S - c - δ) (K + δ) (Real.sqrt wd) -
      2 * black (a * S - c - δ) (K + δ) (Real.sqrt w)) / b ^ 2, ?_, ?_⟩
  · exact div_pos (mul_pos (Real.exp_pos _) (sub_pos.2 hmono)) (by linarith)
  · intro kind n
    obtain ⟨m, hm⟩ := hswap kind
    have hup := hval kind n _ wu hT1 (by exact hbase) (by exact h.displacement) u2
    have hdn := hval kind n _ wd hT2 (by exact hbase) (by exact h.displacement) d2
    have hno := hval kind n vol w hw0 hbase h.displacement h.variance
    obtain ⟨p, hp, _⟩ := setting_new h n kind hF hK hw0
    have hx := (at_new hp).price (fuel := fuel) (md := withVol md id vol) rfl (by
      intro y
      rw [withVol_data]
      exact congrFun (update_same (x := .vol id) (f := data md) hs) y) hno
    obtain ⟨o2, o3, o4⟩ := only_option hp id
    obtain ⟨results, p', g1, g2⟩ := C45_differences_partial (b := b)
      (v := n * (Real.exp (r' - r) * blackValue kind (a * S - c - δ) (K + δ) (Real.sqrt w))) (surface := fun _ => vol)
      (u := fun _ => n * (Real.exp (r' - r) * blackValue kind (a * S - c - δ) (K + δ) (Real.sqrt wu)))
      (d := fun _ => n * (Real.exp (r' - r) * blackValue kind (a * S - c - δ) (K + δ) (Real.sqrt wd))) hp
      (option_unambiguous n kind _) hb0.ne' (by linarith) (by
        intro k hk
        cases (only_option hp k).1.1 hk
        exact ⟨o3, o4, hs, hup, hdn⟩)
    refine ⟨p, _, results, p', hp, hx, g1, ?_, ?_⟩
    · rw [(g2 id).1 (o2.2 rfl), hm, hm, hm]
      congr 3 <;> ring
    · intro k hk
      refine (g2 k).2 ?_
      by_contra hne
      exact hk ((only_option hp k).1.1 hne)

/-! ## Cases -/

/-- The sample market, with another volatility, is a setting for a day-10 option on the sample equity with any strike. -/
theorem sample_setting (σ S K : ℝ) : Setting fuel (withVol (sampleMarket S (.zero 0)) "A" (.flat (.val σ) .everyDay (0, 0))) sampleTerms "A" "C" _root_.id K
    S 1 0 0 1 (2 / 73 * σ ^ 2) (.flat (.val σ) .everyDay (0, 0)) := by
  refine ⟨rfl, by show (0 : Int) < 10; norm_num, ?_, ⟨.zero 0, 0, 0, rfl, Forward.zero_rt 0 10, Forward.zero_rt 0 0, by norm_num⟩, ?_, rfl, ?_⟩
  · intro s
    obtain ⟨f, hf, hf'⟩ := sample_forward_flat s 10
    refine ⟨f, ?_, by rw [one_mul, sub_zero]; exact hf' 10 le_rfl⟩
    rw [← hf]
    refine forwardCurve_congr equityA 10 rfl ?_
    intro x hx
    cases x <;> first | rfl | skip
    simp at hx
  · exact surface_today rfl rfl _
  · have hy := everyDay_year 10
    norm_num at hy
    rw [later_self_zero _ (by unfold before; simp [withVol, sampleMarket]), flat_forward]
    left
    exact ⟨before_irrefl _, 2 / 73, hy, by norm_num; ring⟩

theorem sample_number {σ S K : ℝ} (n : ℝ) (kind : PutOrCall) {vol : VolSurface} {w : ℝ} (hS : 0 ≤ S) (hbase : vol.baseDate.1 = 0)
    (hδ : vol.displacement 10 = .ok (.val 0)) (hw : vol.forwardVariance fuel (0, 0) (10, 0) (.val K) = .ok (.val w)) (hw0 : 0 ≤ w) :
    value fuel [(n, euro kind sampleTerms "A" "C" _root_.id K)]
        (withVol (withVol (sampleMarket S (.zero 0)) "A" (.flat (.val σ) .everyDay (0, 0))) "A" vol) =
      .ok (num1 (n * ·) (formula kind (.val 1) (.val S) (.val K) (.val (Real.sqrt w)))) := by
  obtain ⟨f, hf, hf'⟩ := sample_forward_flat S 10
  have := option_value (fuel := fuel) (md := withVol (withVol (sampleMarket S (.zero 0)) "A" (.flat (.val σ) .everyDay (0, 0))) "A" vol) (v := sampleTerms)
    (id := "A") (credit := "C") (settle := _root_.id) (K := K) (δ := 0) (w := w) (vol := vol) (f := f) (F := S) (yc := .zero 0) (r := 0) (r' := 0) n kind
    (by show (0 : Int) < 10; norm_num) (by
      rw [← hf]
      refine forwardCurve_congr equityA 10 rfl ?_
      intro x hx
      cases x <;> first | rfl | skip
      simp at hx) (hf' 10 le_rfl) rfl (Forward.zero_rt 0 10) (Forward.zero_rt 0 0) (surface_today rfl hbase _) hδ
    (by
      rw [later_self_zero _ (by unfold before; simp [withVol, sampleMarket])]
      exact hw) (by linarith) hw0
  rw [this, sub_zero, Real.exp_zero, sub_zero, add_zero]

/-- C93, delta: the hypotheses are met by an option at 50 on an equity worth 100, with a volatility of 20 percent and a bump of one percent. -/
example : ∃ delta : PutOrCall → ℝ, 0 ≤ delta .call ∧ delta .call ≤ 1 ∧ delta .call - delta .put = 1 ∧
    ∃ p x results p' gamma, SelfPricer.new [(3, euro .call sampleTerms "A" "C" _root_.id 50)] (withVol (sampleMarket 100 (.zero 0)) "A" (.flat (.val 0.2) .everyDay (0, 0))) = .ok p ∧
      generate (selfPricer fuel) (.deltaGamma 0.01) p .new (.val x) = (.ok (.deltaGamma (.val 0.01) results), p', .new) ∧
      results.get "A" = some (.val (3 * delta .call), .val (3 * gamma)) := by
  obtain ⟨delta, gamma, h1, h2, h3, _, _, h4, _⟩ := C93_delta_partial (sample_setting (fuel := fuel) 0.2 100 50) (b := 0.01) (by norm_num) (by norm_num)
    (by norm_num) (by norm_num) (by norm_num) (by norm_num)
  obtain ⟨p, x, results, p', g1, g2, g3, g4, _⟩ := h1 .call 3
  exact ⟨delta, h2, by linarith, by linarith, p, x, results, p', gamma .call, g1, g3, g4⟩

/-- C93, vega: likewise. -/
example : ∃ vega > 0, ∃ p x results p' volga,
    SelfPricer.new [(3, euro .put sampleTerms "A" "C" _root_.id 50)] (withVol (sampleMarket 100 (.zero 0)) "A" (.flat (.val 0.2) .everyDay (0, 0))) = .ok p ∧
      generate (selfPricer fuel) (.vegaVolga (.flatAdditive (.val 0.01))) p .new (.val x) = (.ok (.vegaVolga (.val 0.01) results), p', .new) ∧
      results.get "A" = some (.val (3 * vega), .val (3 * volga)) := by
  have hy := everyDay_year 10
  norm_num at hy
  obtain ⟨vega, volga, h1, h2⟩ := C93_vega_partial (sample_setting (fuel := fuel) 0.2 100 50) rfl rfl (by
      rw [later_self_zero _ (by unfold before; simp [withVol, sampleMarket])]
      exact before_irrefl _) (σ := 0.2) (T := 2 / 73) (b := 0.01) (by
        rw [VolSurface.volatilities, show sampleTerms.expiryTime = (10, 0) from rfl, hy]
        rfl) (by norm_num) (by norm_num) (by norm_num) (by norm_num) (by norm_num)
  obtain ⟨p, x, results, p', g1, g2, g3, g4, _⟩ := h2 .put 3
  exact ⟨vega, h1, p, x, results, p', volga, g1, g3, g4⟩

/-- C93 violated: a call at the money forward with a volatility of half a percent is worth something, but for the shift of one percent its vega and
volga are not numbers. The down bump takes the volatility to zero, where Black's formula divides zero by zero. -/
theorem C93_false : ∃ p x results p',
    SelfPricer.new [(1, euro .call sampleTerms "A" "C" _root_.id 100)]
      (withVol (sampleMarket 100 (.zero 0)) "A" (.flat (.val 0.005) .everyDay (0, 0))) = .ok p ∧ p.price fuel = .ok (.val x) ∧ 0 < x ∧
    generate (selfPricer fuel) (.vegaVolga (.flatAdditive (.val 0.01))) p .new (.val x) = (.ok (.vegaVolga (.val 0.01) results), p', .new) ∧
    results.get "A" = some (.nan, .nan) := by
  have hy := everyDay_year 10
  norm_num at hy
  have hσ : (VolSurface.flat (.val 0.005) .everyDay (0, 0)).volatilities fuel (10, 0) [.val 100] = .ok (2 / 73, [.val 0.005]) := by
    rw [VolSurface.volatilities, hy]
    rfl
  obtain ⟨u1, u2⟩ := bumped_variance (b := 0.01) (from_ := (0, 0)) (before_irrefl _) hσ (by norm_num)
  have d1 : (VolSurface.parallelBump (.parallelBump (.flat (.val 0.005) .everyDay (0, 0)) (.val 0.01)) (.val (-2 * 0.01 / (1 + 0.01)))).volatilities fuel
      (10, 0) [.val 100] = .ok (2 / 73, [.val 0]) := by
    rw [VolSurface.volatilities, u1, ok_bind]
    simp only [List.map, nmax, num2, pure, Except.pure]
    rw [max_eq_right (by norm_num)]
  have d2 := plain_variance (from_ := (0, 0)) (before_irrefl _) d1
  have hx := sample_number (fuel := fuel) (σ := 0.005) (S := 100) 1 .call (vol := .flat (.val 0.005) .everyDay (0, 0)) (by norm_num) rfl rfl
    (plain_variance (before_irrefl _) hσ) (by norm_num)
  have hu := sample_number (fuel := fuel) (σ := 0.005) (S := 100) 1 .call (by norm_num) rfl rfl u2 (by norm_num)
  have hd := sample_number (fuel := fuel) (σ := 0.005) (S := 100) 1 .call (by norm_num) rfl rfl d2 (by norm_num)
  rw [show Real.sqrt (2 / 73 * 0 * 0) = 0 by norm_num, formula_nan (.inr rfl)] at hd
  obtain ⟨p, hp, hv⟩ := setting_new (sample_setting (fuel := fuel) 0.005 100 100) 1 .call (by norm_num) (by norm_num) (by norm_num)
  have hpos : 0 < 1 * (1 * ∫ x, payoff .call (lognormal (1 * 100 - 0 - 0) (Real.sqrt (2 / 73 * 0.005 ^ 2)) x) (100 + 0) ∂gaussianReal 0 1) := by
    rw [show (1 * 100 - 0 - 0 : ℝ) = 100 by norm_num, show (100 + 0 : ℝ) = 100 by norm_num,
      mean_call (by norm_num) (by norm_num) (Real.sqrt_pos.2 (by norm_num)), one_mul, one_mul]
    exact black_pos (by norm_num) (by norm_num) (Real.sqrt_pos.2 (by norm_num))
  obtain ⟨o2, o3, o4⟩ := only_option hp "A"
  obtain ⟨results, p', g1, g2⟩ := vega_report (fuel := fuel) (b := 0.01)
    (v := .val (1 * (1 * ∫ x, payoff .call (lognormal (1 * 100 - 0 - 0) (Real.sqrt (2 / 73 * 0.005 ^ 2)) x) (100 + 0) ∂gaussianReal 0 1)))
    (surface := fun _ => .flat (.val 0.005) .everyDay (0, 0)) (u := fun _ => num1 (1 * ·) (formula .call (.val 1) (.val 100) (.val 100)
      (.val (Real.sqrt (2 / 73 * (0.005 + 0.01) * (0.005 + 0.01)))))) (d := fun _ => .nan) hp (option_unambiguous 1 .call _) (by norm_num) (by
      intro k hk
      cases (only_option hp k).1.1 hk
      exact ⟨o3, o4, rfl, hu, hd⟩)
  refine ⟨p, _, results, p', hp, hv, hpos, g1, ?_⟩
  rw [(g2 "A").1 (o2.2 rfl)]
  cases formula .call (.val 1) (.val 100) (.val 100) _ <;> rfl

end QM.Risk
