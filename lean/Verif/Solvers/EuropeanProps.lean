import Verif.Solvers.SufficientProps
import Verif.Risk.RhoProps

/-!
# Property C53: the volatility implied by the price of any European option
-/

namespace QM.Solvers.Spec
open QM.Interp QM.Curves QM.Vol QM.Instruments QM.Market QM.Market.Spec QM.Risk QM.Risk.Spec QM.Solvers QM.Calendar

/-- What a market has to say about an option, other than its volatility: the forward to expiry is `F`, the discount factor exists, and the surface,
which is dated at the spot date, counts the time `T` until expiry. -/
structure Awaits (md : MarketData) (v : Vanilla) (id credit : String) (settle : Int → Int) (surface : VolSurface) (F T : ℝ) : Prop where
  today : 0 ≤ md.spotDate
  ahead : md.spotDate < v.expiry.date
  forward : ∃ f, md.forwardCurve (.equity id credit settle) v.expiry.date = .ok f ∧ f.forward v.expiry.date = .ok (.val F)
  rates : ∃ yc r r', md.yieldCurves.get credit = some yc ∧ yc.rt v.payDate = .ok (.val r) ∧ yc.rt (v.settlement md.spotDate) = .ok (.val r')
  listed : md.volSurfaces.get id = some surface
  dated : ∃ t, 0 ≤ t ∧ surface.baseDate = (md.spotDate, t)
  time : yearFraction surface.calendar surface.baseDate v.expiryTime = .ok T

end QM.Solvers.Spec

namespace QM.Solvers
open QM.Interp QM.Vol QM.Instruments QM.Instruments.Spec QM.Market QM.Market.Spec QM.Risk QM.Risk.Spec QM.Root QM.Root.Spec QM.Solvers.Spec QM.Calendar

variable {fuel : Nat} {instruments : List (ℝ × Instrument)} {md : MarketData} {p p' : SelfPricer} {id credit : String} {surface : VolSurface}
  {v : Vanilla} {settle : Int → Int} {K F T : ℝ}

/-- C53 for a value that falls with the volatility, as that of an option that was sold. -/
theorem C53_accuracy_falling_partial {g : ℝ → ℝ} {s : ImpliedVol} (hp : SelfPricer.new instruments md = .ok p)
    (hg : ValuedBy fuel instruments md id surface (fun vol => .val (g vol))) (hm : StrictAntiOn g (Set.Ici 0)) (he : ∀ v, g (-v) = g v)
    (ht : 0 ≤ s.tolerance) {lo hi vol implied : ℝ} (hi0 : 0 ≤ implied)
    (h : s.solve (selfPricer fuel) selfVols p (g implied) lo hi = (.ok vol, p')) :
    |(|vol|) - implied| ≤ s.tolerance + 4 * epsilon * |vol| := by
  have habs (v : ℝ) : g |v| = g v := by
    rcases abs_choice v with e | e <;> rw [e]
    exact he v
  have hle {v : ℝ} : g v < g implied ↔ implied < |v| := by
    rw [← habs v]
    exact hm.lt_iff_gt (abs_nonneg v) hi0
  have hge {v : ℝ} : g implied < g v ↔ |v| < implied := by
    rw [← habs v]
    exact hm.lt_iff_gt hi0 (abs_nonneg v)
  have h0 : 0 ≤ s.tolerance + 4 * epsilon * |vol| := by
    have : (0 : ℝ) ≤ epsilon := by unfold epsilon; norm_num
    positivity
  obtain ⟨e | ⟨y, hy, e⟩, _⟩ := C53_partial hp hg h
  · rw [← habs vol] at e
    rw [← hm.injOn (abs_nonneg vol) hi0 e, sub_self, abs_zero]
    exact h0
  · have hd := abs_abs_sub_abs_le y vol
    have := abs_le.1 (hd.trans hy)
    rw [abs_le]
    rcases e with ⟨a, b⟩ | ⟨a, b⟩
    · rw [hle] at a
      rw [hge] at b
      constructor <;> linarith
    · rw [hge] at a
      rw [hle] at b
      constructor <;> linarith

/-- The undiscounted price away from the money for a flat volatility. -/
noncomputable def optionNumber (kind : PutOrCall) (F K T σ : ℝ) : ℝ :=
  if σ = 0 then payoff kind F K else blackValue kind F K (Real.sqrt (σ ^ 2 * T))

theorem optionNumber_even (kind : PutOrCall) (F K T σ : ℝ) : optionNumber kind F K T (-σ) = optionNumber kind F K T σ := by
  unfold optionNumber
  rw [neg_sq]
  by_cases h : σ = 0
  · rw [if_pos h, if_pos (by rw [h, neg_zero])]
  · rw [if_neg h, if_neg (neg_ne_zero.2 h)]

theorem optionNumber_mono (kind : PutOrCall) (hF : 0 < F) (hK : 0 < K) (hT : 0 < T) : StrictMonoOn (optionNumber kind F K T) (Set.Ici 0) := by
  have hsqrt {v w : ℝ} (hv : 0 ≤ v) (h : v < w) : Real.sqrt (v ^ 2 * T) < Real.sqrt (w ^ 2 * T) := by
    refine Real.sqrt_lt_sqrt (by positivity) ?_
    have : v ^ 2 < w ^ 2 := pow_lt_pow_left₀ h hv (by norm_num)
    exact mul_lt_mul_of_pos_right this hT
  have hpos {v : ℝ} (h : 0 < v) : 0 < Real.sqrt (v ^ 2 * T) := Real.sqrt_pos.2 (by positivity)
  have hb {v w : ℝ} (hv : 0 < v) (h : v < w) : blackValue kind F K (Real.sqrt (v ^ 2 * T)) < blackValue kind F K (Real.sqrt (w ^ 2 * T)) := by
    cases kind
    · exact black_strictMono hK hF (hpos hv) (hpos (hv.trans h)) (hsqrt hv.le h)
    · exact black_strictMono hF hK (hpos hv) (hpos (hv.trans h)) (hsqrt hv.le h)
  intro v hv w _ h
  have hw : 0 < w := lt_of_le_of_lt hv h
  unfold optionNumber
  rw [if_neg hw.ne']
  by_cases h0 : v = 0
  · rw [if_pos h0]
    have h2 : 0 < w / 2 := by linarith
    refine lt_of_le_of_lt ?_ (hb h2 (by linarith : w / 2 < w))
    cases kind
    · exact max_le (black_lower hK hF (hpos h2)) (black_nonneg hK hF (hpos h2))
    · exact max_le (black_lower hF hK (hpos h2)) (black_nonneg hF hK (hpos h2))
  · rw [if_neg h0]
    exact hb (lt_of_le_of_ne hv (Ne.symm h0)) h

/-- The value of an option in a market with a flat volatility. -/
theorem awaits_valued (h : Awaits md v id credit settle surface F T) (hF : 0 < F) (hK : 0 < K) (hT : 0 < T) (hne : F ≠ K) (n : ℝ)
    (kind : PutOrCall) :
    ∃ D, 0 < D ∧ ValuedBy fuel [(n, euro kind v id credit settle K)] md id surface (fun σ => .val (n * (D * optionNumber kind F K T σ))) := by
  obtain ⟨f, f1, f2⟩ := h.forward
  obtain ⟨yc, r, r', y1, y2, y3⟩ := h.rates
  obtain ⟨t, t1, t2⟩ := h.dated
  obtain ⟨c1, c2, c3⟩ := collect_option (v := v) (id := id) (credit := credit) (settle := settle) (K := K) n kind md.spotDate
  refine ⟨Real.exp (r' - r), Real.exp_pos _, ?_, ?_, ?_, option_unambiguous n kind md.spotDate, h.listed, ?_⟩
  · rw [c2]
    rfl
  · rw [c3]
    simp [Map.get]
  · rw [c1]
    simp [Map.get]
  · intro σ
    have hvol : ∀ g, (withFlat md id surface (some σ)).volSurface (.equity id credit settle) v.expiry.date g =
        .ok (.flat (.val σ) surface.calendar surface.baseDate) := by
      intro g
      show ((find id (md.volSurfaces.insert id _)).bind fun vol => (VolTimeDynamics.constantExpiry.modify vol md.spotDate).bind fun vol =>
        VolForwardDynamics.stickyStrike.modify vol g) = _
      rw [show find id (md.volSurfaces.insert id (.flat (.val σ) surface.calendar surface.baseDate)) =
        .ok (.flat (.val σ) surface.calendar surface.baseDate) by simp [find, Map.get_insert_self]]
      show ((VolTimeDynamics.constantExpiry.modify _ md.spotDate).bind fun vol => VolForwardDynamics.stickyStrike.modify vol g) = _
      unfold VolTimeDynamics.modify
      rw [if_pos (by show md.spotDate = surface.baseDate.1; rw [t2])]
      rfl
    have hlater : ¬ before surface.baseDate (later (0, 0) (md.spotDate, 0)) := by
      have := h.today
      rw [t2]
      unfold later before
      split <;> simp only <;> rintro (h | ⟨h, h'⟩) <;> simp_all <;> first | omega | linarith
    have hw : (VolSurface.flat (.val σ) surface.calendar surface.baseDate).forwardVariance fuel (later (0, 0) (md.spotDate, 0)) v.expiryTime (.val K) =
        .ok (.val (σ ^ 2 * T)) := flat_forward.2 (.inl ⟨hlater, T, h.time, rfl⟩)
    have hval := option_value (fuel := fuel) (md := withFlat md id surface (some σ)) (K := K) n kind h.ahead (f := f) f1 f2 y1 y2 y3 hvol rfl hw
      (by linarith) (by positivity)
    rw [hval, sub_zero, add_zero]
    unfold optionNumber
    by_cases h0 : σ = 0
    · rw [if_pos h0, h0, show (0 : ℝ) ^ 2 * T = 0 by ring, Real.sqrt_zero, formula_expired kind _ _ _ hF.le hK.le hne]
      rfl
    · rw [if_neg h0, formula_black hF hK (Real.sqrt_pos.2 (by positivity))]
      rfl

/-- C53 for any European option: whatever surface the market has, asked for the volatility that explains the price the holding has under a flat
volatility between the bounds, the solver finds it, within its tolerance, if it may take enough iterations. The option is not exactly at the
money forward (`C53_nan_false`). What is missing, that the pricer is as before, is false: `C53_false`. -/
theorem C53_european_partial {n implied lo hi target : ℝ} {kind : PutOrCall} {s : ImpliedVol} {k : Nat}
    (h : Awaits md v id credit settle surface F T) (hF : 0 < F) (hK : 0 < K) (hT : 0 < T) (hne : F ≠ K) (hn : n ≠ 0)
    (hp : SelfPricer.new [(n, euro kind v id credit settle K)] md = .ok p) (ht : 0 < s.tolerance) (hk : |hi - lo| ≤ 2 ^ k * s.tolerance)
    (hmax : (k + 3) ^ 2 ≤ s.maxIter) (hlo : 0 ≤ lo) (h1 : lo ≤ implied) (h2 : implied ≤ hi)
    (hv : value fuel [(n, euro kind v id credit settle K)]
      (withVol md id (.flat (.val implied) surface.calendar surface.baseDate)) = .ok (.val target)) :
    ∃ vol p', s.solve (selfPricer fuel) selfVols p target lo hi = (.ok vol, p') ∧ |(|vol|) - implied| ≤ s.tolerance + 4 * epsilon * |vol| := by
  obtain ⟨D, hD, hg⟩ := awaits_valued (fuel := fuel) h hF hK hT hne n kind
  have e := hg.valued implied
  have e' : target = n * (D * optionNumber kind F K T implied) := by
    have : Except.ok (Num.val target) = (Except.ok (Num.val (n * (D * optionNumber kind F K T implied))) : Outcome (Num ℝ)) := hv.symm.trans e
    exact Num.val.inj (Except.ok.inj this)
  subst e'
  have hm := optionNumber_mono kind hF hK hT
  have hev := optionNumber_even kind F K T
  rcases lt_or_gt_of_ne hn with hn | hn
  · have hm' : StrictAntiOn (fun σ => n * (D * optionNumber kind F K T σ)) (Set.Ici 0) := fun a ha b hb hab =>
      mul_lt_mul_of_neg_left (mul_lt_mul_of_pos_left (hm ha hb hab) hD) hn
    obtain ⟨vol, p', hs⟩ := C53_found_partial (target := n * (D * optionNumber kind F K T implied)) hp hg ht hk hmax
      (.inr ⟨hm'.antitoneOn (hlo.trans h1) ((hlo.trans h1).trans h2) h2, hm'.antitoneOn hlo (hlo.trans h1) h1⟩)
    exact ⟨vol, p', hs, C53_accuracy_falling_partial (g := fun σ => n * (D * optionNumber kind F K T σ)) hp hg hm'
      (fun σ => by simp only [hev]) ht.le (hlo.trans h1) hs⟩
  · have hm' : StrictMonoOn (fun σ => n * (D * optionNumber kind F K T σ)) (Set.Ici 0) := fun a ha b hb hab =>
      mul_lt_mul_of_pos_left (mul_lt_mul_of_pos_left (hm ha hb hab) hD) hn
    obtain ⟨vol, p', hs⟩ := C53_found_partial (target := n * (D * optionNumber kind F K T implied)) hp hg ht hk hmax
      (.inl ⟨hm'.monotoneOn hlo (hlo.trans h1) h1, hm'.monotoneOn (hlo.trans h1) ((hlo.trans h1).trans h2) h2⟩)
    exact ⟨vol, p', hs, C53_accuracy_partial (g := fun σ => n * (D * optionNumber kind F K T σ)) hp hg hm'
      (fun σ => by simp only [hev]) ht.le (hlo.trans h1) hs⟩

/-- C53: two puts struck at 90 that were sold, on an equity at 100, with rates of 5 percent: in a market with a volatility of 20 percent, the
solver explains the price they would have with a volatility of 35 percent. -/
example : ∃ (yc : Curves.RateCurve) (p : SelfPricer) (target vol : ℝ) (p' : SelfPricer), Curves.RateCurve.newAct365 0 [(0, 0.05)] .flat .flat = .ok yc ∧
    SelfPricer.new [(-2, euro .put (dayTerms 10) "A" "C" _root_.id 90)] (sampleMarket 100 yc) = .ok p ∧
    value fuel [(-2, euro .put (dayTerms 10) "A" "C" _root_.id 90)] (withVol (sampleMarket 100 yc) "A" (.flat (.val 0.35) .everyDay (0, 0))) =
      .ok (.val target) ∧
    (ImpliedVol.mk 0.001 256).solve (selfPricer fuel) selfVols p target 0 4 = (.ok vol, p') ∧ |(|vol|) - 0.35| ≤ 0.001 + 4 * epsilon * |vol| := by
  obtain ⟨yc, y1, y2, y3, y4⟩ := Curves.flat_curve 0 0 0.05
  have hrt : ∀ d, yc.rt d = .ok (.val (0.05 * Curves.Spec.years 0 d)) := by
    intro d
    by_cases hd : d = 0
    · subst hd
      have h0 : yc.rAndT 0 = .ok (.val 0, 0) := by
        cases y1
        unfold Curves.RateCurve.rAndT
        exact if_pos rfl
      rw [Curves.rt_of_rAndT h0]
      simp [Curves.Spec.years]
    · exact Curves.rt_of_rAndT (y4 d hd)
  have hc : Carries (sampleMarket 100 yc) "A" "C" 100 (fun d => 0.05 * Curves.Spec.years 0 d) (fun _ => 0) 10 :=
    ⟨rfl, ⟨_, rfl, hrt⟩, ⟨_, rfl, Forward.zero_rt 0⟩, ⟨_, rfl, by
      simp [Dividends.DividendStream.new, Dividends.Spec.InOrder], Forward.zero_rt 0, by simp [Dividends.DividendStream.new],
      by simp [Dividends.DividendStream.new]⟩⟩
  obtain ⟨f, f1, f2⟩ := carries_forward hc _root_.id 10
  have f2 := f2 10 (by show (0 : Int) ≤ 10; norm_num) le_rfl le_rfl
  set F := 100 * Real.exp ((0.05 * Curves.Spec.years 0 (_root_.id 10) - 0) - (0.05 * Curves.Spec.years 0 (_root_.id (sampleMarket 100 yc).spotDate) - 0)) with hFdef
  have hF : 100 ≤ F := by
    have : (1 : ℝ) ≤ Real.exp ((0.05 * Curves.Spec.years 0 (_root_.id 10) - 0) - (0.05 * Curves.Spec.years 0 (_root_.id (sampleMarket 100 yc).spotDate) - 0)) := by
      refine Real.one_le_exp ?_
      simp [Curves.Spec.years, sampleMarket]
      norm_num
    linarith
  have ha : Awaits (sampleMarket 100 yc) (dayTerms 10) "A" "C" _root_.id (.flat (.val 0.2) .everyDay (0, 0)) F (10 / 365) :=
    ⟨le_rfl, by show (0 : Int) < 10; norm_num, ⟨asFwd f, by
      show MarketData.forwardCurve _ _ 10 = _
      unfold MarketData.forwardCurve
      rw [f1]
      rfl, by
      unfold asFwd
      dsimp only
      show (do let x ← f.forward 10; pure (Num.val x)) = _
      rw [f2]
      rfl⟩, ⟨yc, _, _, rfl, hrt _, hrt _⟩, rfl, ⟨0, le_rfl, rfl⟩, by
      have := everyDay_year 10
      exact this⟩
  obtain ⟨D, hD, hg⟩ := awaits_valued (fuel := fuel) (K := 90) ha (by linarith) (by norm_num) (by norm_num) (by linarith) (-2) .put
  have hv := hg.valued 0.35
  obtain ⟨p, hp, _⟩ := value_new (md := sampleMarket 100 yc) (hg.valued 0.2)
  obtain ⟨vol, p', h1, h2⟩ := C53_european_partial (fuel := fuel) (s := ⟨0.001, 256⟩) (k := 13) (lo := 0) (hi := 4) ha (by linarith) (by norm_num)
    (by norm_num) (by linarith) (by norm_num) hp (by norm_num) (by norm_num) (by norm_num) le_rfl (by norm_num) (by norm_num) hv
  exact ⟨yc, p, _, vol, p', y1, hp, hv, h1, h2⟩

end QM.Solvers
