import Verif.Instruments.OptionProps

/-!
# Property C59: exactly which options are worth their payoff at expiry
-/

namespace QM.Instruments
open QM.Interp QM.Vol QM.Fixings QM.Calendar Spec
open QM.Curves (RateCurve)

variable {fuel : Nat} {ctx : PricingContext}

/-- The formulas with no variance left, at the money. -/
theorem formula_level (kind : PutOrCall) (D F : ℝ) (hF : 0 ≤ F) : formula kind (.val D) (.val F) (.val F) (.val 0) = .nan := by
  have key : cdf (dPlusMinus (logMoneyness (.val F) (.val F)) (.val 0)).1 = .nan ∧
      cdf (dPlusMinus (logMoneyness (.val F) (.val F)) (.val 0)).1.neg = .nan ∧
      cdf (dPlusMinus (logMoneyness (.val F) (.val F)) (.val 0)).2.neg = .nan := by
    unfold logMoneyness dPlusMinus
    dsimp only
    by_cases h0 : F = 0
    · rw [if_pos h0, if_pos h0]
      simp [Ext.div, Ext.add, Ext.neg, cdf]
    · have hp : 0 < F := lt_of_le_of_ne hF (Ne.symm h0)
      rw [if_neg h0, if_neg h0, if_pos (div_pos hp hp), div_self h0, Real.log_one, Ext.div_zero]
      simp [Ext.add, Ext.neg, cdf]
  obtain ⟨k1, k2, k3⟩ := key
  cases kind with
  | call =>
    show callPrice _ _ _ _ = _
    unfold callPrice
    dsimp only
    rw [k1]
    rfl
  | put =>
    show putPrice _ _ _ _ = _
    unfold putPrice
    dsimp only
    rw [k2, k3]
    rfl

section
variable {v : Vanilla} {u : Instrument} {K F D δ : ℝ} {yc : RateCurve} {vol : VolSurface} {valDate : Point} {d : DateTime}

/-- The price of an option with no variance left. -/
theorem expired_price (hyc : ctx.yieldCurve u.creditId v.payDate = .ok yc)
    (hvol : ctx.volSurface u v.expiry.date (fun _ => ctx.forwardCurve u v.expiry.date) = .ok vol)
    (hq : Curves.Spec.Quotes yc v.payDate) (hq' : Curves.Spec.Quotes yc (v.settlement d.date))
    (hD : yc.df v.payDate (v.settlement d.date) = .ok (.val D)) (hF : u.price fuel ctx v.expiry = .ok (.val F))
    (hδ : vol.displacement v.expiry.date = .ok (.val δ)) (hd : notAfter d v.expiry) (ht : u.timeToDayFraction d = .ok valDate)
    (hw : vol.forwardVariance fuel (later (0, 0) valDate) v.expiryTime (.val K) = .ok (.val 0)) (hF0 : 0 ≤ F - δ) :
    (Instrument.spotStarting v u K).price fuel ctx d = .ok (formula v.putOrCall (.val D) (.val (F - δ)) (.val (K + δ)) (.val 0)) := by
  obtain ⟨x, hx⟩ := hq
  obtain ⟨y, hy⟩ := hq'
  rw [price_iff, Instrument.prices, vanillaPrices_cons]
  refine ⟨yc, vol, .val K, .val F, .val x, .val δ, hyc, hvol, ?_, hx, hδ, ?_, .cons ?_ .nil⟩
  · rw [price_iff] at hF
    rw [hF]
    rfl
  · simp only [num2, nlt]
    linarith
  · rw [vanillaValue_ok hd]
    refine ⟨.val y, valDate, .val 0, .val 0, hy, ht, hw, ?_, ?_⟩
    · unfold optionSqrtVariance nonNegative nlt
      rw [if_neg (by norm_num)]
      simp [nsqrt]
    · have e : D = Real.exp (-x) * Real.exp y := by
        rw [Curves.df_eq hx hy] at hD
        cases hD
        rw [← Real.exp_add]
        congr 1
        ring
      simp only [num1, num2]
      rw [← e]

/-- C59, exactly. On a surface without a displacement, once no variance is left, an option has a price, which is its discounted payoff
when it is not at the money and NaN when it is. -/
theorem C59_iff (hyc : ctx.yieldCurve u.creditId v.payDate = .ok yc)
    (hvol : ctx.volSurface u v.expiry.date (fun _ => ctx.forwardCurve u v.expiry.date) = .ok vol)
    (hq : Curves.Spec.Quotes yc v.payDate) (hq' : Curves.Spec.Quotes yc (v.settlement d.date))
    (hD : yc.df v.payDate (v.settlement d.date) = .ok (.val D)) (hF : u.price fuel ctx v.expiry = .ok (.val F))
    (hδ : vol.displacement v.expiry.date = .ok (.val 0)) (hd : notAfter d v.expiry) (ht : u.timeToDayFraction d = .ok valDate)
    (hw : vol.forwardVariance fuel (later (0, 0) valDate) v.expiryTime (.val K) = .ok (.val 0)) (hF0 : 0 ≤ F) (hK : 0 ≤ K) :
    ((Instrument.spotStarting v u K).price fuel ctx d = .ok (.val (D * payoff v.putOrCall F K)) ↔ F ≠ K) ∧
    ((Instrument.spotStarting v u K).price fuel ctx d = .ok .nan ↔ F = K) := by
  have h := expired_price hyc hvol hq hq' hD hF hδ hd ht hw (by rw [sub_zero]; exact hF0)
  rw [sub_zero, add_zero] at h
  rw [h]
  by_cases he : F = K
  · subst he
    rw [formula_level _ _ _ hF0]
    exact ⟨⟨(fun h => by cases h), fun h => absurd rfl h⟩, ⟨fun _ => rfl, fun _ => rfl⟩⟩
  · rw [formula_expired _ _ _ _ hF0 hK he]
    exact ⟨⟨fun _ => he, fun _ => rfl⟩, ⟨(fun h => by cases h), fun h => absurd h he⟩⟩

/-- C59 violated by every surface with a displacement: with no variance left, an option is worth the payoff on the forward less the displacement and
the strike with it added, which for an option that is in the money either way is not its payoff. -/
theorem C59_displaced_false (hyc : ctx.yieldCurve u.creditId v.payDate = .ok yc)
    (hvol : ctx.volSurface u v.expiry.date (fun _ => ctx.forwardCurve u v.expiry.date) = .ok vol)
    (hq : Curves.Spec.Quotes yc v.payDate) (hq' : Curves.Spec.Quotes yc (v.settlement d.date))
    (hD : yc.df v.payDate (v.settlement d.date) = .ok (.val D)) (hF : u.price fuel ctx v.expiry = .ok (.val F))
    (hδ : vol.displacement v.expiry.date = .ok (.val δ)) (hd : notAfter d v.expiry) (ht : u.timeToDayFraction d = .ok valDate)
    (hw : vol.forwardVariance fuel (later (0, 0) valDate) v.expiryTime (.val K) = .ok (.val 0)) (hF0 : 0 ≤ F - δ) (hK : 0 ≤ K + δ)
    (hne : F - δ ≠ K + δ) :
    (Instrument.spotStarting v u K).price fuel ctx d = .ok (.val (D * payoff v.putOrCall (F - δ) (K + δ))) ∧
    (δ ≠ 0 → 0 < payoff v.putOrCall F K → D ≠ 0 → (Instrument.spotStarting v u K).price fuel ctx d ≠ .ok (.val (D * payoff v.putOrCall F K))) := by
  have h := expired_price hyc hvol hq hq' hD hF hδ hd ht hw hF0
  rw [formula_expired _ _ _ _ hF0 hK hne] at h
  refine ⟨h, fun h0 hp hD0 he => ?_⟩
  rw [h] at he
  have he := mul_left_cancel₀ hD0 (Num.val.inj (Except.ok.inj he))
  revert he hp
  cases v.putOrCall <;> simp only [payoff] <;> intro hp he
  · rcases max_cases (K + δ - (F - δ)) 0 with ⟨h1, h2⟩ | ⟨h1, h2⟩ <;> rcases max_cases (K - F) 0 with ⟨h3, h4⟩ | ⟨h3, h4⟩ <;>
      rw [h1, h3] at he <;> rw [h3] at hp
    · exact h0 (by linarith)
    · exact lt_irrefl _ hp
    · linarith
    · exact lt_irrefl _ hp
  · rcases max_cases (F - δ - (K + δ)) 0 with ⟨h1, h2⟩ | ⟨h1, h2⟩ <;> rcases max_cases (F - K) 0 with ⟨h3, h4⟩ | ⟨h3, h4⟩ <;>
      rw [h1, h3] at he <;> rw [h3] at hp
    · exact h0 (by linarith)
    · exact lt_irrefl _ hp
    · linarith
    · exact lt_irrefl _ hp

end

/-- C59: puts on an underlying at 100 that expire now, struck at 100 and at 110. -/
example : ((Instrument.spotStarting (put sampleTerms) (.equity "A" "C" id) 100).price fuel (flatContext (.flat (.val 0.2) .everyDay (0, 0))) ⟨10, .open⟩ = .ok .nan) ∧
    (Instrument.spotStarting (put sampleTerms) (.equity "A" "C" id) 110).price fuel (flatContext (.flat (.val 0.2) .everyDay (0, 0))) ⟨10, .open⟩ = .ok (.val 10) := by
  have h := fun K : ℝ => C59_iff (fuel := fuel) (ctx := flatContext (.flat (.val 0.2) .everyDay (0, 0))) (v := put sampleTerms)
    (u := .equity "A" "C" id) (K := K) (F := 100) (D := 1) (yc := .zero 0) (vol := .flat (.val 0.2) .everyDay (0, 0))
    (valDate := (10, 0)) (d := ⟨10, .open⟩) rfl rfl ⟨0, Forward.zero_rt 0 10⟩ ⟨0, Forward.zero_rt 0 10⟩ (by
      rw [Curves.df_eq (Forward.zero_rt 0 _) (Forward.zero_rt 0 _)]
      norm_num) (by rw [price_iff]; exact equity_flat _ _) rfl (by unfold notAfter rank; decide) rfl (by
      rw [later_self_zero _ (by unfold before; norm_num)]
      exact C59_flat (T := 2 / 73) (by have := everyDay_year 10; norm_num at this; exact this) (by left; norm_num) _) (by norm_num)
  refine ⟨(h 100 (by norm_num)).2.2 rfl, ?_⟩
  rw [(h 110 (by norm_num)).1.2 (by norm_num), show (put sampleTerms).putOrCall = .put from rfl]
  norm_num [payoff]

/-- C59 violated: with fixed dividends of 5 still to come and the volatility bumped to nothing, a call struck at 80 on an underlying at 100 is
worth 10. -/
example : ∃ s, VolSurface.newByProbability fixedPillar = .ok s ∧
    (Instrument.spotStarting (call sampleTerms) (.equity "A" "C" id) 80).price fuel (flatContext (.parallelBump s (.val (-0.2)))) ⟨0, .open⟩ = .ok (.val 10) := by
  obtain ⟨pi, hs⟩ := fixedPillar_new
  refine ⟨_, hs, ?_⟩
  have hδ : (VolSurface.parallelBump (.byProbability fixedPillar [pi]) (.val (-0.2))).displacement 10 = .ok (.val 5) := by
    unfold VolSurface.displacement VolSurface.displacement displacementBy
    exact constant_forward 0 10 5
  have h := (C59_displaced_false (fuel := fuel) (ctx := flatContext (.parallelBump (.byProbability fixedPillar [pi]) (.val (-0.2)))) (v := call sampleTerms)
    (u := .equity "A" "C" id) (K := 80) (F := 100) (D := 1) (δ := 5) (yc := .zero 0) (vol := .parallelBump (.byProbability fixedPillar [pi]) (.val (-0.2)))
    (valDate := (0, 0)) (d := ⟨0, .open⟩) rfl rfl ⟨0, Forward.zero_rt 0 10⟩ ⟨0, Forward.zero_rt 0 0⟩ (by
      rw [Curves.df_eq (Forward.zero_rt 0 _) (Forward.zero_rt 0 _)]
      norm_num) (by rw [price_iff]; exact equity_flat _ _) hδ (by unfold notAfter rank; decide) rfl (by
      rw [later_self_zero _ (by unfold before; norm_num)]
      have hv := fixedPillar_vols (fuel := fuel) pi 10 (by norm_num) (.val 80)
      unfold VolSurface.forwardVariance VolSurface.forwardVariances
      rw [if_pos (by exact before_irrefl _)]
      unfold VolSurface.variances
      rw [show (call sampleTerms).expiryTime = (((10 : Nat) : Int), (0 : ℝ)) from rfl, VolSurface.volatilities, hv]
      simp only [ok_bind, List.map_cons, List.map_nil, num2, pure, Except.pure, nmax]
      norm_num [first]) (by norm_num) (by norm_num) (by norm_num)).1
  rw [h, show (call sampleTerms).putOrCall = .call from rfl]
  norm_num [payoff]

end QM.Instruments
