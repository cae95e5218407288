import Verif.MonteCarlo.VegaProps

/-!
# Property C107: the signs of Monte-Carlo risks
-/

namespace QM.MonteCarlo
open QM.Interp QM.Vol QM.Instruments QM.Market QM.Market.Spec QM.Risk QM.Fixings QM.Curves Spec
open QM.Instruments.Spec (payoff)
open QM.Risk.Spec (Setting euro)

variable {fuel : Nat} {f : ModelFactory} {md : MarketData} {draw draw' : Draws}
  {v : Vanilla} {id credit : String} {settle : Int → Int} {K S a c D w w' : ℝ} {vol : VolSurface} {kind : PutOrCall}

namespace Spec

/-- What the paths with given draws make of a forward of one, for a variance `w` and substeps of at most `h`. -/
noncomputable def growth (h w : ℝ) (g : Nat → ℝ) : ℝ := level (fun _ => w) (steps h fun _ => w) g 1

end Spec

/-- A market that says what an option needs can be simulated. -/
theorem Ready.new {n F : ℝ} (h : Ready fuel md n kind v id credit settle K F w D) (hw : 0 ≤ w) (hh : f.pathSubstep ≠ 0) (hk : f.nPaths ≠ 0) (draw : Draws) :
    ∃ p, MonteCarlo.new fuel f [(n, euro kind v id credit settle K)] md draw = .ok p ∧ p.model.instruments = [.equity id credit settle] ∧
      p.model.substepping = [steps f.pathSubstep (fun _ => w) 0] ∧
      p.price fuel = .ok (.val (n * (Spec.average f.nPaths (fun path => payoff kind (F * growth f.pathSubstep w fun k => draw path k 0) K) * D))) := by
  obtain ⟨q, hq, hm, hD⟩ := h.context
  obtain ⟨_, hc⟩ := new_self hq
  obtain ⟨m, hmod⟩ := model_succeeds (fuel := fuel) (f := f) (t := ⟨⟨[(id, .equity id credit settle, [v.expiryTime])]⟩, [expiryFlow { v with putOrCall := kind }]⟩) draw
    (k := id) (u := .equity id credit settle) (obs := [v.expiryTime]) rfl hm (by
      intro i hi
      obtain rfl : i = 0 := by simpa using hi
      simpa [Spec.before] using hw) hh hk
  have hp : MonteCarlo.new fuel f [(n, euro kind v id credit settle K)] md draw = .ok ⟨f, [(n, euro kind v id credit settle K)], m⟩ := by
    unfold MonteCarlo.new
    rw [hc, euro, timeline_spot, ok_bind, ok_bind]
    have hmod : BlackDiffusion.new fuel f ⟨⟨[((Instrument.equity id credit settle).id, .equity id credit settle, [v.expiryTime])]⟩,
      [expiryFlow { v with putOrCall := kind }]⟩ q.context draw = .ok m := hmod
    rw [hmod, ok_bind]
    rfl
  obtain ⟨_, u, obs, ks, paths, he, hs, _, _, e⟩ := model_new_ok hmod
  cases he
  have hctx : m.context = q.context := by rw [e]
  refine ⟨_, hp, by rw [e], ?_, ?_⟩
  · rw [e]
    exact substepping_val hm hs
  · have hsd : q.context.context.spotDate = md.spotDate := (at_new hq).spotDate
    have := C52_spot_partial (v := { v with putOrCall := kind }) (u := .equity id credit settle) (K := K) (F := fun _ => F) (w := fun _ => w) (δ := fun _ => 0) (D := D) hp
      (by rw [hctx]; exact hm) (by rw [hctx, hsd]; exact hD)
    rw [this]
    simp only [pathValue, sub_zero, add_zero, growth, zero_add]

/-- A setting with another spot can be simulated. -/
theorem setting_ready {n s : ℝ} (h : Setting fuel md v id credit settle K S a c 0 D w vol) (hcredit : v.creditId = credit)
    (hex : v.expiryTime.1 = v.expiry.date) (hvar : vol.variance fuel v.expiryTime (.val (a * s - c)) = .ok (.val w')) {md' : MarketData}
    (hmd : md'.spotDate = md.spotDate ∧ md'.yieldCurves = md.yieldCurves ∧
      (∃ f, md'.forwardCurve (.equity id credit settle) v.expiry.date = .ok f ∧ f.forward v.expiry.date = .ok (.val (a * s - c))) ∧
      ∀ g, md'.volSurface (.equity id credit settle) v.expiry.date g = .ok vol) :
    Ready fuel md' n kind v id credit settle K (a * s - c) w' D := by
  obtain ⟨h1, h2, ⟨g, h3, h4⟩, h5⟩ := hmd
  obtain ⟨yc, r, r', k3, k4, k5, rfl⟩ := h.rates
  exact ready_of (by rw [h1]; exact h.ahead) hcredit hex h3 h4 h5 hvar h.displacement (by rw [h2]; exact k3) k4 (by rw [h1]; exact k5)

/-- Both reports of an option, along given draws. -/
theorem run_delta {b n : ℝ} (h : Setting fuel md v id credit settle K S a c 0 D w vol) (hcredit : v.creditId = credit)
    (hex : v.expiryTime.1 = v.expiry.date) (hvar : ∀ s ∈ [S, S * (1 + b), S * (1 - b)], vol.variance fuel v.expiryTime (.val (a * s - c)) = .ok (.val w'))
    (hS : 0 < S) (hb0 : 0 < b) (hw : 0 ≤ w') (hh : f.pathSubstep ≠ 0) (hk : f.nPaths ≠ 0) (draw draw' : Draws) (kind : PutOrCall) {V : ℝ → ℝ}
    (hV : V = fun s => n * (Spec.average f.nPaths (fun path => payoff kind ((a * s - c) * growth f.pathSubstep w' fun k => draw path k 0) K) * D)) :
    ∃ p r p', MonteCarlo.new fuel f [(n, euro kind v id credit settle K)] md draw = .ok p ∧ p.price fuel = .ok (.val (V S)) ∧
      generate (monteCarlo fuel draw') (.deltaGamma b) p .new (.val (V S)) = (.ok (.deltaGamma (.val b) r), p', .new) ∧
      r.get id = some (.val ((V (S * (1 + b)) - V (S * (1 - b))) / (2 * (b * S))), .val ((V (S * (1 + b)) + V (S * (1 - b)) - 2 * V S) / (b * S) ^ 2)) ∧
      ∀ k, k ≠ id → r.get k = none := by
  subst hV
  have k0 : Ready fuel md n kind v id credit settle K (a * S - c) w' D :=
    setting_ready h hcredit hex (hvar S (by simp)) (setting_here h)
  have k1 : Ready fuel (withSpot md id (S * (1 + b))) n kind v id credit settle K (a * (S * (1 + b)) - c) w' D :=
    setting_ready h hcredit hex (hvar _ (by simp)) (setting_moved h _)
  have k2 : Ready fuel (withSpot md id (S * (1 - b))) n kind v id credit settle K (a * (S * (1 - b)) - c) w' D :=
    setting_ready h hcredit hex (hvar _ (by simp)) (setting_moved h _)
  obtain ⟨m0, n0, i0, s0, v0⟩ := k0.new hw hh hk draw
  obtain ⟨m1, n1, _, s1, v1⟩ := k1.new hw hh hk draw
  obtain ⟨m2, n2, _, s2, v2⟩ := k2.new hw hh hk draw
  obtain ⟨t1, t2, t3⟩ := collect_option (v := v) (id := id) (credit := credit) (settle := settle) (K := K) n kind md.spotDate
  obtain ⟨r, p', r1, r2, r3⟩ := C106_delta_partial (draw' := draw') (b := b) n0 i0 (option_unambiguous n kind _) (by
      intro k
      rw [t3]
      show _ ↔ k = id
      by_cases e : id = k
      · simp [Map.get, e]
      · simp [Map.get, e, Ne.symm e]) (by rw [t1]; simp [Map.get, Instrument.id]) h.spot hS.ne' hb0.ne' (by linarith) n1
    (s1.trans s0.symm) v1 n2 (s2.trans s0.symm) v2
  exact ⟨m0, r, p', n0, v0, r1, r2, r3⟩

/-! ## Averages of payoffs -/

theorem average_le {k : Nat} {x y : Nat → ℝ} (h : ∀ i, x i ≤ y i) : Spec.average k x ≤ Spec.average k y := by
  unfold Spec.average
  exact div_le_div_of_nonneg_right (Finset.sum_le_sum fun i _ => h i) (Nat.cast_nonneg _)

theorem average_lin {k : Nat} (x y z : Nat → ℝ) (α β γ : ℝ) :
    Spec.average k (fun i => α * x i + β * y i + γ * z i) = α * Spec.average k x + β * Spec.average k y + γ * Spec.average k z := by
  unfold Spec.average
  rw [Finset.sum_add_distrib, Finset.sum_add_distrib, ← Finset.mul_sum, ← Finset.mul_sum, ← Finset.mul_sum]
  ring

/-- A payoff is convex. -/
theorem payoff_mid (kind : PutOrCall) (x y K : ℝ) : 2 * payoff kind ((x + y) / 2) K ≤ payoff kind x K + payoff kind y K := by
  cases kind <;> simp only [payoff]
  · rcases max_cases (K - (x + y) / 2) 0 with ⟨e, _⟩ | ⟨e, _⟩ <;> rw [e]
    · linarith [le_max_left (K - x) 0, le_max_left (K - y) 0]
    · linarith [le_max_right (K - x) 0, le_max_right (K - y) 0]
  · rcases max_cases ((x + y) / 2 - K) 0 with ⟨e, _⟩ | ⟨e, _⟩ <;> rw [e]
    · linarith [le_max_left (x - K) 0, le_max_left (y - K) 0]
    · linarith [le_max_right (x - K) 0, le_max_right (y - K) 0]

/-- A call pays more for more of the asset, whatever the sign of the path. -/
theorem call_up {x y g K : ℝ} (hx : 0 ≤ x) (hxy : x ≤ y) (hK : 0 ≤ K) : payoff .call (x * g) K ≤ payoff .call (y * g) K := by
  simp only [payoff]
  rcases le_total 0 g with hg | hg
  · exact max_le_max (by nlinarith) le_rfl
  · rw [max_eq_right (by nlinarith)]
    exact le_max_right _ _

theorem payoff_both (x K : ℝ) : payoff .call x K - payoff .put x K = x - K := by
  simp only [payoff]
  rcases le_total x K with h | h
  · rw [max_eq_right (by linarith), max_eq_left (by linarith)]
    ring
  · rw [max_eq_left (by linarith), max_eq_right (by linarith)]
    ring

/-! ## C107 -/

/-- C107. Take European calls and puts, held long, on a share whose bumped forwards have the same variance and do not fall below nought. Whatever the draws, the
Monte-Carlo pricer reports a delta and a gamma for each; gamma is nought or more, and the same for the call and the put; the delta of the call
is nought or more; and the deltas differ by the discounted share of the forward times the average growth of the paths. What is missing:
the delta of the put should be nought or less, `C107_put_false`. -/
theorem C107_delta_partial {b n : ℝ} (h : Setting fuel md v id credit settle K S a c 0 D w vol) (hcredit : v.creditId = credit)
    (hex : v.expiryTime.1 = v.expiry.date) (hvar : ∀ s ∈ [S, S * (1 + b), S * (1 - b)], vol.variance fuel v.expiryTime (.val (a * s - c)) = .ok (.val w'))
    (hS : 0 < S) (hb0 : 0 < b) (hw : 0 ≤ w') (ha : 0 ≤ a) (hF : 0 ≤ a * (S * (1 - b)) - c) (hK : 0 ≤ K) (hn : 0 ≤ n)
    (hh : f.pathSubstep ≠ 0) (hk : f.nPaths ≠ 0) (draw draw' : Draws) :
    ∃ delta gamma : PutOrCall → ℝ,
      (∀ kind, ∃ p x r p', MonteCarlo.new fuel f [(n, euro kind v id credit settle K)] md draw = .ok p ∧ p.price fuel = .ok (.val x) ∧
        generate (monteCarlo fuel draw') (.deltaGamma b) p .new (.val x) = (.ok (.deltaGamma (.val b) r), p', .new) ∧
        r.get id = some (.val (delta kind), .val (gamma kind)) ∧ ∀ k, k ≠ id → r.get k = none) ∧
      (∀ kind, 0 ≤ gamma kind) ∧ gamma .put = gamma .call ∧ 0 ≤ delta .call ∧
      delta .call - delta .put = n * (D * a * Spec.average f.nPaths (fun path => growth f.pathSubstep w' fun k => draw path k 0)) := by
  obtain ⟨yc, r, r', _, _, _, hD⟩ := h.rates
  have hD0 : 0 < D := hD ▸ Real.exp_pos _
  set G : Nat → ℝ := fun path => growth f.pathSubstep w' fun k => draw path k 0 with hG
  set V : PutOrCall → ℝ → ℝ := fun kind s => n * (Spec.average f.nPaths (fun path => payoff kind ((a * s - c) * G path) K) * D) with hV
  have hbS : 0 < b * S := mul_pos hb0 hS
  have key : ∀ kind, 2 * V kind S ≤ V kind (S * (1 + b)) + V kind (S * (1 - b)) := by
    intro kind
    have e := average_le (k := f.nPaths) (x := fun path => 2 * payoff kind ((a * S - c) * G path) K + 0 * G path + 0 * G path)
      (y := fun path => 1 * payoff kind ((a * (S * (1 + b)) - c) * G path) K + 1 * payoff kind ((a * (S * (1 - b)) - c) * G path) K + 0 * G path) (by
        intro i
        have := payoff_mid kind ((a * (S * (1 + b)) - c) * G i) ((a * (S * (1 - b)) - c) * G i) K
        rw [show ((a * (S * (1 + b)) - c) * G i + (a * (S * (1 - b)) - c) * G i) / 2 = (a * S - c) * G i by ring] at this
        linarith)
    rw [average_lin, average_lin] at e
    have := mul_le_mul_of_nonneg_left (mul_le_mul_of_nonneg_right e hD0.le) hn
    simp only [hV]
    linarith
  have parity : ∀ s, V .call s - V .put s = n * (D * ((a * s - c) * Spec.average f.nPaths G - K)) := by
    intro s
    have e : Spec.average f.nPaths (fun path => 1 * payoff .call ((a * s - c) * G path) K + (-1) * payoff .put ((a * s - c) * G path) K + 0 * G path) =
        Spec.average f.nPaths (fun path => (a * s - c) * G path + (-K) * 1 + 0 * G path) := by
      congr 1
      funext i
      linarith [payoff_both ((a * s - c) * G i) K]
    rw [average_lin, average_lin G (fun _ => 1)] at e
    have one : Spec.average f.nPaths (fun _ => (1 : ℝ)) = 1 := by
      unfold Spec.average
      rw [Finset.sum_const, Finset.card_range, nsmul_eq_mul, mul_one, div_self (Nat.cast_ne_zero.2 hk)]
    rw [one] at e
    simp only [hV]
    linear_combination n * D * e
  refine ⟨fun kind => (V kind (S * (1 + b)) - V kind (S * (1 - b))) / (2 * (b * S)),
    fun kind => (V kind (S * (1 + b)) + V kind (S * (1 - b)) - 2 * V kind S) / (b * S) ^ 2, ?_, ?_, ?_, ?_, ?_⟩
  · intro kind
    obtain ⟨p, r, p', g1, g2, g3, g4, g5⟩ := run_delta (n := n) (V := V kind) h hcredit hex hvar hS hb0 hw hh hk draw draw' kind rfl
    exact ⟨p, _, r, p', g1, g2, g3, g4, g5⟩
  · intro kind
    exact div_nonneg (by linarith [key kind]) (by positivity)
  · dsimp only
    congr 1
    have h1 := parity (S * (1 + b))
    have h2 := parity (S * (1 - b))
    have h3 := parity S
    linear_combination -h1 - h2 + 2 * h3
  · refine div_nonneg (sub_nonneg.2 ?_) (by positivity)
    refine mul_le_mul_of_nonneg_left (mul_le_mul_of_nonneg_right (average_le fun i => ?_) hD0.le) hn
    refine call_up hF ?_ hK
    have : a * (S * (1 - b)) ≤ a * (S * (1 + b)) := mul_le_mul_of_nonneg_left (by nlinarith) ha
    linarith
  · dsimp only
    rw [← sub_div, div_eq_iff (by positivity)]
    linear_combination parity (S * (1 + b)) - parity (S * (1 - b))

theorem sample_variance (σ x : ℝ) : (VolSurface.flat (.val σ) .everyDay (0, 0)).variance fuel sampleTerms.expiryTime (.val x) = .ok (.val (2 / 73 * σ ^ 2)) := by
  have hy := everyDay_year 10
  norm_num at hy
  have h2 := (flat_variances (fuel := fuel) (v := σ) (c := .everyDay) (base := (0, 0)) (t := (10, 0)) (ks := [.val x])
    (out := [.val (σ ^ 2 * (2 / 73))])).2 ⟨2 / 73, hy, rfl⟩
  unfold VolSurface.variance
  rw [show sampleTerms.expiryTime = (10, 0) from rfl, h2]
  show Except.ok (Num.val _) = _
  rw [mul_comm]

/-- C107 violated: along draws of minus two standard deviations in one step of variance one, the simulated share is worth less than nothing, and the less the more
it is worth now. The put struck at 90 on the share worth 100 has a delta of plus one. -/
theorem C107_put_false : ∃ p x r p',
    MonteCarlo.new fuel ⟨1, 1⟩ [(1, euro .put sampleTerms "A" "C" _root_.id 90)]
      (withVol (sampleMarket 100 (.zero 0)) "A" (.flat (.val (Real.sqrt (73 / 2))) .everyDay (0, 0))) (fun _ _ _ => -2) = .ok p ∧
    p.price fuel = .ok (.val x) ∧
    generate (monteCarlo fuel draw') (.deltaGamma 0.01) p .new (.val x) = (.ok (.deltaGamma (.val 0.01) r), p', .new) ∧
    r.get "A" = some (.val 1, .val 0) := by
  have hw : (2 / 73 * Real.sqrt (73 / 2) ^ 2 : ℝ) = 1 := by
    rw [Real.sq_sqrt (by norm_num)]
    norm_num
  have hg : growth 1 1 (fun _ => -2) = -1 := by
    unfold growth
    simp [level, steps, stepSize, Spec.before, start]
    norm_num
  obtain ⟨p, r, p', g1, g2, g3, g4, _⟩ := run_delta (fuel := fuel) (f := ⟨1, 1⟩) (b := 0.01) (n := 1) (w' := 1) (sample_setting (Real.sqrt (73 / 2)) 100 90) rfl rfl
    (fun s _ => by rw [sample_variance, hw]) (by norm_num) (by norm_num) (by norm_num) (by norm_num) (by norm_num) (fun _ _ _ => -2) draw' .put rfl
  refine ⟨p, _, r, p', g1, g2, g3, ?_⟩
  rw [g4]
  simp only [hg, Spec.average, payoff]
  norm_num

/-- The hypotheses are met by options struck at 90 on the share worth 100, with a volatility of 20%, along any draws. -/
example (draw draw' : Draws) : ∃ delta gamma : PutOrCall → ℝ,
    (∀ kind, ∃ p x r p', MonteCarlo.new fuel ⟨0.001, 1000⟩ [(2, euro kind sampleTerms "A" "C" _root_.id 90)]
        (withVol (sampleMarket 100 (.zero 0)) "A" (.flat (.val 0.2) .everyDay (0, 0))) draw = .ok p ∧ p.price fuel = .ok (.val x) ∧
      generate (monteCarlo fuel draw') (.deltaGamma 0.01) p .new (.val x) = (.ok (.deltaGamma (.val 0.01) r), p', .new) ∧
      r.get "A" = some (.val (delta kind), .val (gamma kind)) ∧ ∀ k, k ≠ "A" → r.get k = none) ∧
    (∀ kind, 0 ≤ gamma kind) ∧ gamma .put = gamma .call ∧ 0 ≤ delta .call ∧
    delta .call - delta .put = 2 * (1 * 1 * Spec.average 1000 (fun path => growth 0.001 (2 / 73 * 0.2 ^ 2) fun k => draw path k 0)) :=
  C107_delta_partial (f := ⟨0.001, 1000⟩) (sample_setting 0.2 100 90) rfl rfl (fun s _ => sample_variance _ _) (by norm_num) (by norm_num) (by norm_num)
    (by norm_num) (by norm_num) (by norm_num) (by norm_num) (by norm_num) (by norm_num) draw draw'

end QM.MonteCarlo
