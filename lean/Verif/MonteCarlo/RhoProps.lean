import Verif.MonteCarlo.SignProps
import Verif.Risk.RhoProps

/-!
# Property C100 for Monte-Carlo pricers: what yields and borrow do to options, whatever was drawn
-/

namespace QM.MonteCarlo
open QM.Interp QM.Vol QM.Instruments QM.Market QM.Market.Spec QM.Risk QM.Fixings QM.Curves QM.Curves.Spec Spec
open QM.Instruments.Spec (payoff)
open QM.Risk.Spec (Carries euro)

variable {fuel : Nat} {f : ModelFactory} {md : MarketData} {draw : Draws} {v : Vanilla} {id credit : String} {settle : Int → Int} {K S w : ℝ}
  {r q : Int → ℝ} {last : Int} {vol : VolSurface} {kind : PutOrCall}

namespace Spec

/-- What the market says about an option to simulate: it has not expired, it is discounted and settles as its underlying does, and the variance until expiry
is `w` at every strike. -/
structure Level (fuel : Nat) (md : MarketData) (v : Vanilla) (id credit : String) (settle : Int → Int) (w : ℝ) (vol : VolSurface) : Prop where
  ahead : md.spotDate < v.expiry.date
  discounted : v.creditId = credit
  expires : v.expiryTime.1 = v.expiry.date
  pays : v.payDate = settle v.expiry.date
  settles : v.settlement md.spotDate = settle md.spotDate
  surface : ∀ g, md.volSurface (.equity id credit settle) v.expiry.date g = .ok vol
  displacement : vol.displacement v.expiry.date = .ok (.val 0)
  variance : ∀ x, vol.variance fuel v.expiryTime (.val x) = .ok (.val w)

end Spec

/-- The price along given draws, with the underlying at its cost of borrow and the strike discounted. -/
theorem carries_simulated (h : Carries md id credit S r q last) (hl : Level fuel md v id credit settle w vol) (hlast : v.expiry.date ≤ last) (hw : 0 ≤ w)
    (hh : f.pathSubstep ≠ 0) (hk : f.nPaths ≠ 0) (n : ℝ) (kind : PutOrCall) (draw : Draws) :
    ∃ p, MonteCarlo.new fuel f [(n, euro kind v id credit settle K)] md draw = .ok p ∧
      p.price fuel = .ok (.val (n * Spec.average f.nPaths (fun path => payoff kind
        (S * Real.exp (q (settle md.spotDate) - q v.payDate) * growth f.pathSubstep w fun k => draw path k 0)
        (K * Real.exp (r (settle md.spotDate) - r v.payDate))))) := by
  obtain ⟨yc, y1, y2⟩ := h.rates
  obtain ⟨g, hf, hF⟩ := carries_forward h settle v.expiry.date
  have hf : md.forwardCurve (.equity id credit settle) v.expiry.date = .ok (asFwd g) := by
    unfold MarketData.forwardCurve
    rw [hf]
    rfl
  have hF : (asFwd g).forward v.expiry.date =
      .ok (.val (S * Real.exp ((r v.payDate - q v.payDate) - (r (settle md.spotDate) - q (settle md.spotDate))))) := by
    unfold asFwd
    dsimp only
    rw [hF _ hl.ahead.le le_rfl hlast, hl.pays]
    rfl
  obtain ⟨p, h1, _, _, h4⟩ := (ready_of (n := n) (kind := kind) (K := K) hl.ahead hl.discounted hl.expires hf hF hl.surface (hl.variance _) hl.displacement y1 (y2 _)
    (by rw [hl.settles]; exact y2 _)).new hw hh hk draw
  refine ⟨p, h1, ?_⟩
  rw [h4]
  congr 3
  unfold Spec.average
  rw [div_mul_eq_mul_div, Finset.sum_mul]
  congr 1
  refine Finset.sum_congr rfl (fun path _ => ?_)
  have hD := Real.exp_pos (r (settle md.spotDate) - r v.payDate)
  have e : S * Real.exp (q (settle md.spotDate) - q v.payDate) = S * Real.exp ((r v.payDate - q v.payDate) - (r (settle md.spotDate) - q (settle md.spotDate))) *
      Real.exp (r (settle md.spotDate) - r v.payDate) := by
    rw [mul_assoc, ← Real.exp_add]
    congr 2
    ring
  rw [e]
  generalize Real.exp (r (settle md.spotDate) - r v.payDate) = D at hD ⊢
  generalize S * Real.exp ((r v.payDate - q v.payDate) - (r (settle md.spotDate) - q (settle md.spotDate))) = F
  cases kind <;> simp only [payoff] <;> rw [max_mul_of_nonneg _ _ hD.le, zero_mul] <;> congr 1 <;> ring

/-- C100 by Monte-Carlo, yields. Whatever was drawn, a call is worth no less, and a put no more, the higher the yields. -/
theorem C100_simulated_yields {yc : RateCurve} (h : Carries md id credit S r q last) (hl : Level fuel md v id credit settle w vol)
    (hyc : md.yieldCurves.get credit = some yc) (hi : Interpolated yc) (hlast : v.expiry.date ≤ last) (hpay : settle md.spotDate ≤ v.payDate)
    (hK : 0 ≤ K) (hw : 0 ≤ w) (hh : f.pathSubstep ≠ 0) (hk : f.nPaths ≠ 0) (kind : PutOrCall) (draw : Draws) :
    ∃ x : ℝ → ℝ, (∀ b, ∃ p, MonteCarlo.new fuel f [(1, euro kind v id credit settle K)]
        (withYield md credit ((BumpYield.flatContinuouslyCompounded b).apply yc)) draw = .ok p ∧ p.price fuel = .ok (.val (x b))) ∧
      match kind with | .call => Monotone x | .put => Antitone x := by
  have hr : ∀ d, yc.rt d = .ok (.val (r d)) := by
    obtain ⟨c, h1, h2⟩ := h.rates
    rw [hyc] at h1
    cases h1
    exact h2
  have hp := fun b => carries_simulated (K := K) (f := f) (carries_withYield h (fun d => bump_rt hi (hr d) b))
    (show Level fuel (withYield md credit ((BumpYield.flatContinuouslyCompounded b).apply yc)) v id credit settle w vol from
      ⟨hl.ahead, hl.discounted, hl.expires, hl.pays, hl.settles, hl.surface, hl.displacement, hl.variance⟩) hlast hw hh hk 1 kind draw
  refine ⟨_, hp, ?_⟩
  have hanti : ∀ {a b : ℝ}, a ≤ b → K * Real.exp ((r (settle md.spotDate) + b * years yc.baseDate (settle md.spotDate)) - (r v.payDate + b * years yc.baseDate v.payDate)) ≤
      K * Real.exp ((r (settle md.spotDate) + a * years yc.baseDate (settle md.spotDate)) - (r v.payDate + a * years yc.baseDate v.payDate)) := by
    intro a b hab
    refine mul_le_mul_of_nonneg_left (Real.exp_le_exp.2 ?_) hK
    have ht : years yc.baseDate (settle md.spotDate) ≤ years yc.baseDate v.payDate := by
      unfold years
      have : ((settle md.spotDate - yc.baseDate : Int) : ℝ) ≤ ((v.payDate - yc.baseDate : Int) : ℝ) := by exact_mod_cast (by omega)
      linarith
    nlinarith
  cases kind
  · intro a b hab
    refine mul_le_mul_of_nonneg_left (average_le fun i => ?_) zero_le_one
    simp only [payoff]
    exact max_le_max (sub_le_sub_right (hanti hab) _) le_rfl
  · intro a b hab
    refine mul_le_mul_of_nonneg_left (average_le fun i => ?_) zero_le_one
    simp only [payoff]
    exact max_le_max (sub_le_sub_left (hanti hab) _) le_rfl

/-- C100 by Monte-Carlo, borrow. Whatever was drawn, a call is worth no more the higher the cost of borrow. A put is worth no less if no path ends below nought;
`C100_simulated_needed` shows that the condition is needed. -/
theorem C100_simulated_borrow {bc : RateCurve} (h : Carries md id credit S r q last) (hl : Level fuel md v id credit settle w vol)
    (hbc : md.borrowCurves.get id = some bc) (hi : Interpolated bc) (hlast : v.expiry.date ≤ last) (hpay : settle md.spotDate ≤ v.payDate)
    (hS : 0 ≤ S) (hK : 0 ≤ K) (hw : 0 ≤ w) (hh : f.pathSubstep ≠ 0) (hk : f.nPaths ≠ 0) (kind : PutOrCall) (draw : Draws) :
    ∃ x : ℝ → ℝ, (∀ b, ∃ p, MonteCarlo.new fuel f [(1, euro kind v id credit settle K)]
        (withBorrow md id ((BumpYield.flatContinuouslyCompounded b).apply bc)) draw = .ok p ∧ p.price fuel = .ok (.val (x b))) ∧
      match kind with
      | .call => Antitone x
      | .put => (∀ path, 0 ≤ growth f.pathSubstep w fun k => draw path k 0) → Monotone x := by
  have hr : ∀ d, bc.rt d = .ok (.val (q d)) := by
    obtain ⟨c, h1, h2⟩ := h.borrow
    rw [hbc] at h1
    cases h1
    exact h2
  have hp := fun b => carries_simulated (K := K) (f := f) (carries_withBorrow h (fun d => bump_rt hi (hr d) b))
    (show Level fuel (withBorrow md id ((BumpYield.flatContinuouslyCompounded b).apply bc)) v id credit settle w vol from
      ⟨hl.ahead, hl.discounted, hl.expires, hl.pays, hl.settles, hl.surface, hl.displacement, hl.variance⟩) hlast hw hh hk 1 kind draw
  refine ⟨_, hp, ?_⟩
  have hanti : ∀ {a b : ℝ}, a ≤ b → S * Real.exp ((q (settle md.spotDate) + b * years bc.baseDate (settle md.spotDate)) - (q v.payDate + b * years bc.baseDate v.payDate)) ≤
      S * Real.exp ((q (settle md.spotDate) + a * years bc.baseDate (settle md.spotDate)) - (q v.payDate + a * years bc.baseDate v.payDate)) := by
    intro a b hab
    refine mul_le_mul_of_nonneg_left (Real.exp_le_exp.2 ?_) hS
    have ht : years bc.baseDate (settle md.spotDate) ≤ years bc.baseDate v.payDate := by
      unfold years
      have : ((settle md.spotDate - bc.baseDate : Int) : ℝ) ≤ ((v.payDate - bc.baseDate : Int) : ℝ) := by exact_mod_cast (by omega)
      linarith
    nlinarith
  cases kind
  · intro hg a b hab
    refine mul_le_mul_of_nonneg_left (average_le fun i => ?_) zero_le_one
    simp only [payoff]
    exact max_le_max (sub_le_sub_left (mul_le_mul_of_nonneg_right (hanti hab) (hg i)) _) le_rfl
  · intro a b hab
    refine mul_le_mul_of_nonneg_left (average_le fun i => ?_) zero_le_one
    exact call_up (mul_nonneg hS (Real.exp_pos _).le) (hanti hab) (mul_nonneg hK (Real.exp_pos _).le)

/-- The condition of `C100_simulated_borrow` is needed: along draws of minus two standard deviations in one step of variance one, the simulated share is worth less than nothing, and a put
is worth less when the cost of borrow rises. -/
theorem C100_simulated_needed : ∃ (yc bc : RateCurve) (md : MarketData) (p p' : MonteCarlo) (x x' : ℝ), RateCurve.newAct365 0 [(0, 0.05)] .flat .flat = .ok yc ∧
    RateCurve.newAct365 0 [(0, 0.01)] .flat .flat = .ok bc ∧
    md = withVol (withBorrow (sampleMarket 100 yc) "A" bc) "A" (.flat (.val (Real.sqrt (73 / 2))) .everyDay (0, 0)) ∧
    MonteCarlo.new fuel ⟨1, 1⟩ [(1, euro .put (dayTerms 10) "A" "C" _root_.id 110)]
      (withBorrow md "A" ((BumpYield.flatContinuouslyCompounded 0.01).apply bc)) (fun _ _ _ => -2) = .ok p ∧ p.price fuel = .ok (.val x) ∧
    MonteCarlo.new fuel ⟨1, 1⟩ [(1, euro .put (dayTerms 10) "A" "C" _root_.id 110)]
      (withBorrow md "A" ((BumpYield.flatContinuouslyCompounded 0.02).apply bc)) (fun _ _ _ => -2) = .ok p' ∧ p'.price fuel = .ok (.val x') ∧ x' < x := by
  obtain ⟨yc, bc, r, q, y1, b1, y2, b2, _, _, hc, _⟩ := carry_case (fuel := fuel)
  have b3 : bc.baseDate = 0 := by cases b1; rfl
  have hw : (2 / 73 * Real.sqrt (73 / 2) ^ 2 : ℝ) = 1 := by
    rw [Real.sq_sqrt (by norm_num)]
    norm_num
  have hg : growth 1 1 (fun _ => -2) = -1 := by
    unfold growth
    simp [level, steps, stepSize, Spec.before]
    norm_num
  have hc' : Carries (withVol (withBorrow (sampleMarket 100 yc) "A" bc) "A" (.flat (.val (Real.sqrt (73 / 2))) .everyDay (0, 0))) "A" "C" 100 r q 10 :=
    ⟨hc.spot, hc.rates, hc.borrow, hc.dividends⟩
  have hq : ∀ d, bc.rt d = .ok (.val (q d)) := by
    obtain ⟨c, h1, h2⟩ := hc.borrow
    cases h1
    exact h2
  have hp := fun b => carries_simulated (fuel := fuel) (K := 110) (f := ⟨1, 1⟩) (v := dayTerms 10) (settle := _root_.id) (w := 1)
    (vol := .flat (.val (Real.sqrt (73 / 2))) .everyDay (0, 0)) (carries_withBorrow hc' (fun d => bump_rt b2 (hq d) b))
    ⟨by show (0 : Int) < 10; norm_num, rfl, rfl, rfl, rfl, surface_today rfl rfl _, rfl, fun x => by
      have := sample_variance (fuel := fuel) (Real.sqrt (73 / 2)) x
      rw [hw] at this
      exact this⟩
    (by show (10 : Int) ≤ 10; norm_num) zero_le_one one_ne_zero one_ne_zero 1 .put (fun _ _ _ => -2)
  obtain ⟨p, p1, p2⟩ := hp 0.01
  obtain ⟨p', q1, q2⟩ := hp 0.02
  refine ⟨yc, bc, _, p, p', _, _, y1, b1, rfl, p1, p2, q1, q2, ?_⟩
  simp only [hg, Spec.average, payoff, b3]
  have hs : ∀ b : ℝ, years 0 (_root_.id (0 : Int)) = 0 ∧ years 0 ((dayTerms 10).payDate) = 10 / 365 := fun _ => ⟨by simp [years], by
    show years 0 10 = _
    norm_num [years]⟩
  show 1 * ((Finset.range 1).sum (fun _ => max (110 * Real.exp (r (_root_.id (0 : Int)) - r 10) - 100 * Real.exp (q (_root_.id (0 : Int)) + 0.02 * years 0 (_root_.id (0 : Int)) - (q 10 + 0.02 * years 0 (dayTerms 10).payDate)) * -1) 0) / ((1 : ℕ) : ℝ)) <
    1 * ((Finset.range 1).sum (fun _ => max (110 * Real.exp (r (_root_.id (0 : Int)) - r 10) - 100 * Real.exp (q (_root_.id (0 : Int)) + 0.01 * years 0 (_root_.id (0 : Int)) - (q 10 + 0.01 * years 0 (dayTerms 10).payDate)) * -1) 0) / ((1 : ℕ) : ℝ))
  rw [(hs 0).1, (hs 0).2]
  simp only [Finset.range_one, Finset.sum_singleton, Nat.cast_one, div_one, one_mul]
  have e0 := Real.exp_pos (r (_root_.id (0 : Int)) - r 10)
  have e1 := Real.exp_pos (q (_root_.id (0 : Int)) + 0.02 * 0 - (q 10 + 0.02 * (10 / 365)))
  have e2 : Real.exp (q (_root_.id (0 : Int)) + 0.02 * 0 - (q 10 + 0.02 * (10 / 365))) < Real.exp (q (_root_.id (0 : Int)) + 0.01 * 0 - (q 10 + 0.01 * (10 / 365))) :=
    Real.exp_lt_exp.2 (by linarith)
  rw [max_eq_left (by linarith), max_eq_left (by linarith)]
  linarith

/-! ## A case -/

/-- The hypotheses are met by options struck at 110 on the share worth 100, with rates of 5 percent, a cost of borrow of 1 percent and a volatility of 20 percent,
along any draws: a call with rates of 6 percent is worth no less. -/
example (draw : Draws) : ∃ (yc bc : RateCurve) (md : MarketData) (p p' : MonteCarlo) (x x' : ℝ), RateCurve.newAct365 0 [(0, 0.05)] .flat .flat = .ok yc ∧
    RateCurve.newAct365 0 [(0, 0.01)] .flat .flat = .ok bc ∧
    md = withVol (withBorrow (sampleMarket 100 yc) "A" bc) "A" (.flat (.val 0.2) .everyDay (0, 0)) ∧
    MonteCarlo.new fuel ⟨0.001, 1000⟩ [(1, euro .call (dayTerms 10) "A" "C" _root_.id 110)]
      (withYield md "C" ((BumpYield.flatContinuouslyCompounded 0.01).apply yc)) draw = .ok p ∧ p.price fuel = .ok (.val x) ∧
    MonteCarlo.new fuel ⟨0.001, 1000⟩ [(1, euro .call (dayTerms 10) "A" "C" _root_.id 110)]
      (withYield md "C" ((BumpYield.flatContinuouslyCompounded 0.02).apply yc)) draw = .ok p' ∧ p'.price fuel = .ok (.val x') ∧ x ≤ x' := by
  obtain ⟨yc, bc, r, q, y1, b1, y2, _, _, _, hc, hq⟩ := carry_case (fuel := fuel)
  obtain ⟨x, h1, h2⟩ := C100_simulated_yields (fuel := fuel) (f := ⟨0.001, 1000⟩) (v := dayTerms 10) (settle := _root_.id) (K := 110) (w := 2 / 73 * 0.2 ^ 2)
    (vol := .flat (.val 0.2) .everyDay (0, 0)) hc
    ⟨by show (0 : Int) < 10; norm_num, rfl, rfl, rfl, rfl, surface_today rfl rfl _, rfl, fun x => sample_variance _ _⟩ rfl y2
    (by show (10 : Int) ≤ 10; norm_num) (by show (0 : Int) ≤ 10; norm_num) (by norm_num) (by norm_num) (by norm_num) (by norm_num) .call draw
  obtain ⟨p, p1, p2⟩ := h1 0.01
  obtain ⟨p', q1, q2⟩ := h1 0.02
  exact ⟨yc, bc, _, p, p', _, _, y1, b1, rfl, p1, p2, q1, q2, h2 (by norm_num)⟩

end QM.MonteCarlo
