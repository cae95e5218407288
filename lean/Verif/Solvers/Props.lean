import Verif.Solvers.Lemmas

/-!
# Property C53: implied volatility
-/

namespace QM.Solvers
open QM.Interp QM.Vol QM.Instruments QM.Instruments.Spec QM.Market QM.Market.Spec QM.Risk QM.Risk.Spec QM.Root QM.Root.Spec QM.Solvers.Spec QM.Calendar

variable {fuel : Nat} {instruments : List (ℝ × Instrument)} {md : MarketData} {p p' : SelfPricer} {id : String} {surface : VolSurface}

/-- C53: the solver refuses a pricer that depends on no vol surface or on more than one, of whatever kind the pricer is, and leaves it alone. -/
theorem C53_ambiguous {σ S : Type} (P : Pricer σ S) (s : ImpliedVol) (vols : σ → List String) (p : σ) (target lo hi : ℝ) (h : (vols p).length ≠ 1) :
    s.solve P vols p target lo hi = (.error .err, p) := by
  unfold ImpliedVol.solve
  revert h
  rcases vols p with _ | ⟨x, _ | ⟨y, l⟩⟩ <;> intro h
  · rfl
  · exact absurd rfl h
  · rfl

/-- C53: a portfolio of two options on different underlyings is such a pricer. -/
example : ((collect 0 [(1, optionA 50), (2, .spotStarting sampleTerms (.equity "B" "C" fun d => d) 100)]).volSurfaces.entries.map Prod.fst).length ≠ 1 := by
  decide +kernel

/-- C53 for a portfolio whose value is a number for every volatility: on success the value for the returned volatility is the target, or the value goes
from one side of the target to the other within the tolerance of it. The pricer that is left behind is the pricer for the last trial, which
is within the tolerance of the result unless the result is exact. What is missing, that the pricer is as before, is false: `C53_false`. So is
the property for values that are not all numbers: `C53_nan_false`. -/
theorem C53_partial {g : ℝ → ℝ} {s : ImpliedVol} (hp : SelfPricer.new instruments md = .ok p)
    (hg : ValuedBy fuel instruments md id surface (fun vol => .val (g vol))) {target lo hi vol : ℝ}
    (h : s.solve (selfPricer fuel) selfVols p target lo hi = (.ok vol, p')) :
    (g vol = target ∨ ∃ y, |y - vol| ≤ s.tolerance + 4 * epsilon * |vol| ∧ (g vol < target ∧ target < g y ∨ target < g vol ∧ g y < target)) ∧
    ∃ last, p'.price fuel = .ok (.val (g last)) ∧ (last = vol ∨ |last - vol| ≤ s.tolerance + 4 * epsilon * |vol| ∨ g vol = target) := by
  have hn := C19_numbers (remembering fun v => Except.ok (g v - target)) lo hi s.tolerance s.maxIter none
  have hf : asNum (remembering fun v => Except.ok (g v - target)) = remembering fun v => Except.ok (num1 (· - target) (.val (g v))) := rfl
  rw [hf] at hn
  obtain ⟨⟨r, o⟩, hz⟩ : ∃ z, zbrent lo hi s.tolerance s.maxIter (remembering fun v => Except.ok (g v - target)) none = z := ⟨_, rfl⟩
  rw [hz] at hn
  obtain ⟨q, h1, h2⟩ := solve_after s hp hg (target := target) (lo := lo) (hi := hi) hn
  rw [h] at h1
  cases h1
  have hr : (zbrent lo hi s.tolerance s.maxIter (remembering fun v => Except.ok (g v - target)) none).1 = .ok vol := by rw [hz]
  constructor
  · rcases C19_result (func := remembering fun v => Except.ok (g v - target)) (f := fun v => .ok (g v - target)) (fun _ _ => rfl) hr with h0 | ⟨y, fx, fy, hx, hy, hs, hd⟩
    · left
      have := Except.ok.inj h0
      linarith
    · right
      have hx := Except.ok.inj hx
      have hy := Except.ok.inj hy
      refine ⟨y, hd, ?_⟩
      rcases hs with ⟨a, b⟩ | ⟨a, b⟩
      · left; constructor <;> linarith
      · right; constructor <;> linarith
  · obtain ⟨last, hl, hl'⟩ := C19_last (f := fun v => Except.ok (g v - target)) hz
    rw [hl] at h2
    refine ⟨last, h2.price (withFlat_spotDate (some last)) (fun _ => rfl) (hg.valued last), ?_⟩
    rcases hl' with a | a | a
    · exact .inl a
    · exact .inr (.inl a)
    · have := Except.ok.inj a
      exact .inr (.inr (by linarith))

/-- C53 for a value that grows with the volatility and does not depend on its sign, as that of an option: the result is within the tolerance of the
volatility that gives the target. -/
theorem C53_accuracy_partial {g : ℝ → ℝ} {s : ImpliedVol} (hp : SelfPricer.new instruments md = .ok p)
    (hg : ValuedBy fuel instruments md id surface (fun vol => .val (g vol))) (hm : StrictMonoOn g (Set.Ici 0)) (he : ∀ v, g (-v) = g v)
    (ht : 0 ≤ s.tolerance) {lo hi vol implied : ℝ} (hi0 : 0 ≤ implied)
    (h : s.solve (selfPricer fuel) selfVols p (g implied) lo hi = (.ok vol, p')) :
    |(|vol|) - implied| ≤ s.tolerance + 4 * epsilon * |vol| := by
  have habs (v : ℝ) : g |v| = g v := by
    rcases abs_choice v with e | e <;> rw [e]
    exact he v
  have hle {v : ℝ} : g v < g implied ↔ |v| < implied := by
    rw [← habs v]
    exact hm.lt_iff_lt (abs_nonneg v) hi0
  have hge {v : ℝ} : g implied < g v ↔ implied < |v| := by
    rw [← habs v]
    exact hm.lt_iff_lt hi0 (abs_nonneg v)
  have h0 : 0 ≤ s.tolerance + 4 * epsilon * |vol| := by
    have : (0 : ℝ) ≤ epsilon := by unfold epsilon; norm_num
    positivity
  obtain ⟨e | ⟨y, hy, e⟩, _⟩ := C53_partial hp hg h
  · rw [← habs vol] at e
    rw [← hm.injOn (abs_nonneg vol) hi0 e, sub_self, abs_zero]
    exact h0
  · have hd := abs_abs_sub_abs_le y vol
    have := abs_le.1 (hd.trans hy)
    rw [abs_le]
    rcases e with ⟨a, b⟩ | ⟨a, b⟩
    · rw [hle] at a
      rw [hge] at b
      constructor <;> linarith
    · rw [hge] at a
      rw [hle] at b
      constructor <;> linarith

/-! ### Cases -/

/-- The price of the call of the examples away from the money: the payoff without volatility, and Black's formula with. -/
noncomputable def callNumber (K v : ℝ) : ℝ := if v = 0 then payoff .call 100 K else black 100 K (Real.sqrt (2 / 73 * v ^ 2))

theorem callAt_number {K : ℝ} (hK : 0 < K) (hne : K ≠ 100) : callAt K = fun v => .val (callNumber K v) := by
  funext v
  unfold callNumber
  by_cases hv : v = 0
  · subst hv
    rw [if_pos rfl]
    unfold callAt
    have e : Real.sqrt (2 / 73 * 0 ^ 2) = 0 := by norm_num
    rw [e]
    unfold callPrice logMoneyness dPlusMinus
    dsimp only
    rw [if_neg hK.ne', if_neg (by norm_num), if_pos (div_pos (by norm_num) hK)]
    have hlog : Real.log (100 / K) ≠ 0 := by
      refine Real.log_ne_zero_of_pos_of_ne_one (div_pos (by norm_num) hK) ?_
      intro h
      rw [div_eq_one_iff_eq hK.ne'] at h
      exact hne h.symm
    rcases lt_or_gt_of_ne hne with h | h
    · have : 0 < Real.log (100 / K) := Real.log_pos (by rw [lt_div_iff₀ hK]; linarith)
      simp [Ext.div, Ext.add, cdf, num2, hlog, this, payoff, h.le]
    · have : Real.log (100 / K) < 0 := Real.log_neg (div_pos (by norm_num) hK) (by rw [div_lt_iff₀ hK]; linarith)
      simp [Ext.div, Ext.add, cdf, num2, hlog, this, this.not_gt, payoff, h.le]
  · rw [if_neg hv]
    exact callAt_black hK hv

theorem callNumber_even (K v : ℝ) : callNumber K (-v) = callNumber K v := by
  unfold callNumber
  rw [neg_sq]
  by_cases h : v = 0
  · rw [if_pos h, if_pos (by rw [h, neg_zero])]
  · rw [if_neg h, if_neg (neg_ne_zero.2 h)]

theorem callNumber_mono {K : ℝ} (hK : 0 < K) : StrictMonoOn (callNumber K) (Set.Ici 0) := by
  have hsqrt {v w : ℝ} (hv : 0 ≤ v) (h : v < w) : Real.sqrt (2 / 73 * v ^ 2) < Real.sqrt (2 / 73 * w ^ 2) := by
    refine Real.sqrt_lt_sqrt (by positivity) ?_
    have : v ^ 2 < w ^ 2 := pow_lt_pow_left₀ h hv (by norm_num)
    linarith
  have hpos {v : ℝ} (h : 0 < v) : 0 < Real.sqrt (2 / 73 * v ^ 2) := Real.sqrt_pos.2 (by positivity)
  have hb {v w : ℝ} (hv : 0 < v) (h : v < w) : black 100 K (Real.sqrt (2 / 73 * v ^ 2)) < black 100 K (Real.sqrt (2 / 73 * w ^ 2)) :=
    black_strictMono (by norm_num) hK (hpos hv) (hpos (hv.trans h)) (hsqrt hv.le h)
  intro v hv w _ h
  have hw : 0 < w := lt_of_le_of_lt hv h
  unfold callNumber
  rw [if_neg hw.ne']
  by_cases h0 : v = 0
  · rw [if_pos h0]
    have h2 : 0 < w / 2 := by linarith
    refine lt_of_le_of_lt ?_ (hb h2 (by linarith : w / 2 < w))
    exact max_le (black_lower (by norm_num) hK (hpos h2)) (black_nonneg (by norm_num) hK (hpos h2))
  · rw [if_neg h0]
    exact hb (lt_of_le_of_ne hv (Ne.symm h0)) h

/-- The market of the examples with a flat volatility. -/
noncomputable def flatMarket (vol : ℝ) : MarketData := withVol (sampleMarket 100 (.zero 0)) "A" (.flat (.val vol) .everyDay (0, 0))

theorem flat_pricer (vol K : ℝ) : ∃ p, SelfPricer.new [(1, optionA K)] (flatMarket vol) = .ok p ∧ p.price fuel = .ok (callAt K vol) :=
  value_new (priced_value (by norm_num) rfl rfl rfl (flat_variance vol _) (by positivity) (fun _ => rfl) rfl)

/-- C53: the price of a call that is not at the money, in a market with some volatility: whatever volatility and bounds the solver starts with, it
returns, if anything, the volatility that is implied. -/
theorem C53_option_partial {K start implied lo hi vol : ℝ} {s : ImpliedVol} (hK : 0 < K) (hne : K ≠ 100)
    (hp : SelfPricer.new [(1, optionA K)] (flatMarket start) = .ok p) (ht : 0 ≤ s.tolerance) (hi0 : 0 ≤ implied)
    (h : s.solve (selfPricer fuel) selfVols p (callNumber K implied) lo hi = (.ok vol, p')) :
    |(|vol|) - implied| ≤ s.tolerance + 4 * epsilon * |vol| := by
  have hg := sample_valued (fuel := fuel) start K
  rw [callAt_number hK hne] at hg
  exact C53_accuracy_partial hp hg (callNumber_mono hK) (callNumber_even K) ht hi0 h

/-- C53 violated: the pricer is not put back. A call struck at 50, with the spot at 100, is worth 50 in a market without volatility. Asked for the
volatility that gives 50, between 0 and 1, the solver returns 0, but leaves the pricer with a volatility of 1, where the call is worth more. -/
theorem C53_false (n : Nat) : ∃ p p' x, SelfPricer.new [(1, optionA 50)] (flatMarket 0) = .ok p ∧ p.price fuel = .ok (.val 50) ∧
    (ImpliedVol.mk 0.001 (n + 1)).solve (selfPricer fuel) selfVols p 50 0 1 = (.ok 0, p') ∧ p'.price fuel = .ok (.val x) ∧ 50 < x := by
  obtain ⟨p, hp, hv⟩ := flat_pricer (fuel := fuel) 0 50
  have hg := sample_valued (fuel := fuel) 0 50
  have hn := callAt_number (K := 50) (by norm_num) (by norm_num)
  have h0 : callNumber 50 0 = 50 := by
    unfold callNumber payoff
    norm_num
  have h1 : 50 < callNumber 50 1 := by
    rw [← h0]
    have := callNumber_mono (K := 50) (by norm_num) (a := 0) (b := 1) (by simp) (by simp) (by norm_num)
    rwa [h0] at this ⊢
  obtain ⟨p', h2, h3⟩ := solve_after ⟨0.001, n + 1⟩ hp hg (target := 50) (zero_search (f := fun v => num1 (· - 50) (callAt 50 v)) (x := callNumber 50 1 - 50)
    (by rw [hn]; simp [num1, h0]) (by rw [hn]; rfl) (by linarith) 0.001 n)
  refine ⟨p, p', callNumber 50 1, hp, ?_, h2, ?_, h1⟩
  · rw [hv, hn, ← h0]
    simp only [h0]
  · have := h3.price (withFlat_spotDate (some 1)) (fun _ => rfl) (hg.valued 1)
    rw [this, hn]

/-- C53: the same call is one that the theorems above apply to, and this is a success. -/
example : ∃ p p', SelfPricer.new [(1, optionA 50)] (flatMarket 0) = .ok p ∧
    (ImpliedVol.mk 0.001 100).solve (selfPricer fuel) selfVols p (callNumber 50 0) 0 1 = (.ok 0, p') := by
  obtain ⟨p, p', _, h1, _, h2, _⟩ := C53_false (fuel := fuel) 99
  refine ⟨p, p', h1, ?_⟩
  rwa [show callNumber 50 0 = 50 by unfold callNumber payoff; norm_num]

theorem atTheMoney_nan : callAt 100 0 = .nan := by
  unfold callAt
  simp [callPrice, logMoneyness, dPlusMinus, Ext.div, Ext.add, cdf, num2]

/-- C53 violated: for a call at the money the price without volatility is NaN (`C59_false`). Asked for the volatility that gives the price for a
volatility of 190 percent, between 0 and 200 percent and within half, the solver returns one half. The search takes the NaN at the lower end
for a change of sign. -/
theorem C53_nan_false (n : Nat) : ∃ p p' target, SelfPricer.new [(1, optionA 100)] (flatMarket (19 / 10)) = .ok p ∧ p.price fuel = .ok (.val target) ∧
    (ImpliedVol.mk (1 / 2) (n + 3)).solve (selfPricer fuel) selfVols p target 0 2 = (.ok (1 / 2), p') := by
  obtain ⟨p, hp, hv⟩ := flat_pricer (fuel := fuel) (19 / 10) 100
  have hg := sample_valued (fuel := fuel) (19 / 10) 100
  have hn {v : ℝ} (h : v ≠ 0) : callAt 100 v = .val (callNumber 100 v) := by
    rw [callAt_black (by norm_num) h, callNumber, if_neg h]
  have hm {v w : ℝ} (hv : 0 ≤ v) (h : v < w) : callNumber 100 v < callNumber 100 w :=
    callNumber_mono (by norm_num) (show v ∈ Set.Ici 0 from hv) (show w ∈ Set.Ici 0 from (hv.trans h.le)) h
  have hs := nan_search (f := fun v => num1 (· - callNumber 100 (19 / 10)) (callAt 100 v)) (x := callNumber 100 2 - callNumber 100 (19 / 10))
    (y := callNumber 100 1 - callNumber 100 (19 / 10)) (z := callNumber 100 (1 / 2) - callNumber 100 (19 / 10))
    (by rw [atTheMoney_nan]; rfl) (by rw [hn (by norm_num)]; rfl) (by rw [hn (by norm_num)]; rfl) (by rw [hn (by norm_num)]; rfl)
    (sub_pos.2 (hm (by norm_num) (by norm_num))) (sub_neg.2 (hm (by norm_num) (by norm_num))) (sub_neg.2 (hm (by norm_num) (by norm_num))) n
  obtain ⟨p', h1, _⟩ := solve_after ⟨1 / 2, n + 3⟩ hp hg hs
  exact ⟨p, p', callNumber 100 (19 / 10), hp, by rw [hv, hn (by norm_num)], h1⟩

end QM.Solvers
