import Verif.Root.SufficientProps
import Verif.Solvers.Props

/-!
# Property C53: the solver succeeds if it is allowed enough iterations, and fails if the pricer does
-/

namespace QM.Solvers
open QM.Interp QM.Vol QM.Instruments QM.Instruments.Spec QM.Market QM.Market.Spec QM.Risk QM.Risk.Spec QM.Root QM.Root.Spec QM.Solvers.Spec QM.Calendar

variable {fuel : Nat} {instruments : List (ℝ × Instrument)} {md : MarketData} {p p' : SelfPricer} {id : String} {surface : VolSurface}

/-- C53: a volatility is found if the values at the bounds lie on either side of the target, or on it, and the iterations are enough for the
width of the bounds and the tolerance. -/
theorem C53_found_partial {g : ℝ → ℝ} {s : ImpliedVol} {k : Nat} (hp : SelfPricer.new instruments md = .ok p)
    (hg : ValuedBy fuel instruments md id surface (fun vol => .val (g vol))) {target lo hi : ℝ} (ht : 0 < s.tolerance)
    (hk : |hi - lo| ≤ 2 ^ k * s.tolerance) (hmax : (k + 3) ^ 2 ≤ s.maxIter)
    (hb : g lo ≤ target ∧ target ≤ g hi ∨ g hi ≤ target ∧ target ≤ g lo) :
    ∃ vol p', s.solve (selfPricer fuel) selfVols p target lo hi = (.ok vol, p') := by
  have hn := C19_numbers (remembering fun v => Except.ok (g v - target)) lo hi s.tolerance s.maxIter none
  have hf : asNum (remembering fun v => Except.ok (g v - target)) = remembering fun v => Except.ok (num1 (· - target) (.val (g v))) := rfl
  rw [hf] at hn
  have hs : (g lo - target) * (g hi - target) ≤ 0 := by
    rcases hb with ⟨a, b⟩ | ⟨a, b⟩
    · exact mul_nonpos_of_nonpos_of_nonneg (by linarith) (by linarith)
    · exact mul_nonpos_of_nonneg_of_nonpos (by linarith) (by linarith)
  obtain ⟨vol, hv⟩ := C19_sufficient (func := remembering fun v => Except.ok (g v - target)) (f := fun v => .ok (g v - target)) (fun _ _ => rfl)
    ht hk hmax (fun _ _ _ => ⟨_, rfl⟩) rfl rfl hs none
  obtain ⟨⟨r, o⟩, hz⟩ : ∃ z, zbrent lo hi s.tolerance s.maxIter (remembering fun v => Except.ok (g v - target)) none = z := ⟨_, rfl⟩
  rw [hz] at hn hv
  obtain ⟨p', h1, _⟩ := solve_after s hp hg (target := target) (lo := lo) (hi := hi) hn
  cases hv
  exact ⟨vol, p', h1⟩

/-- C53: the implied volatility of a call that is not at the money, from any price between those at the bounds, is found and is as accurate as the
tolerance. -/
theorem C53_implied_partial {K start implied lo hi : ℝ} {s : ImpliedVol} {k : Nat} (hK : 0 < K) (hne : K ≠ 100)
    (hp : SelfPricer.new [(1, optionA K)] (flatMarket start) = .ok p) (ht : 0 < s.tolerance) (hk : |hi - lo| ≤ 2 ^ k * s.tolerance)
    (hmax : (k + 3) ^ 2 ≤ s.maxIter) (hlo : 0 ≤ lo) (h1 : lo ≤ implied) (h2 : implied ≤ hi) :
    ∃ vol p', s.solve (selfPricer fuel) selfVols p (callNumber K implied) lo hi = (.ok vol, p') ∧
      |(|vol|) - implied| ≤ s.tolerance + 4 * epsilon * |vol| := by
  have hg := sample_valued (fuel := fuel) start K
  rw [callAt_number hK hne] at hg
  have hm := (callNumber_mono hK).monotoneOn
  obtain ⟨vol, p', h⟩ := C53_found_partial (target := callNumber K implied) hp hg ht hk hmax
    (.inl ⟨hm hlo (hlo.trans h1) h1, hm (hlo.trans h1) ((hlo.trans h1).trans h2) h2⟩)
  exact ⟨vol, p', h, C53_option_partial hK hne hp ht.le (hlo.trans h1) h⟩

/-- C53: a tolerance of one in a thousand and 256 iterations are enough for volatilities between 0 and 400 percent. -/
example {K implied : ℝ} (hK : 0 < K) (hne : K ≠ 100) (h1 : 0 ≤ implied) (h2 : implied ≤ 4) : ∃ p vol p',
    SelfPricer.new [(1, optionA K)] (flatMarket 0.3) = .ok p ∧
    (ImpliedVol.mk 0.001 256).solve (selfPricer fuel) selfVols p (callNumber K implied) 0 4 = (.ok vol, p') ∧
      |(|vol|) - implied| ≤ 0.001 + 4 * epsilon * |vol| := by
  obtain ⟨p, hp, _⟩ := flat_pricer (fuel := fuel) 0.3 K
  obtain ⟨vol, p', h⟩ := C53_implied_partial (fuel := fuel) (s := ⟨0.001, 256⟩) (k := 13) hK hne hp (by norm_num) (by norm_num) (by norm_num) (le_refl 0) h1 h2
  exact ⟨p, vol, p', hp, h⟩

/-- C53: if the pricer refuses the first volatility, or has no price for it, then so does the solver, of whatever kind the pricer is. -/
theorem C53_refused {σ S : Type} (P : Pricer σ S) (s : ImpliedVol) (vols : σ → List String) (p : σ) (target lo hi : ℝ) {id : String} {e : Fault}
    (hv : vols p = [id]) {r : Outcome Bool} {q : σ} {save : Option S} (hb : P.bump (.vol id (.replace (.val lo))) p none = (r, q, save))
    (he : r = .error e ∨ (∃ c, r = .ok c) ∧ P.price q = .error e) : s.solve P vols p target lo hi = (.error e, q) := by
  unfold ImpliedVol.solve
  rw [hv]
  unfold singleVolId
  dsimp only
  unfold zbrentN objective priceGivenVol
  rw [hb]
  rcases he with rfl | ⟨⟨c, rfl⟩, he⟩
  · rfl
  · dsimp only
    rw [he]
    rfl

/-- C53: the same for the second volatility, after a price for the first. -/
theorem C53_refused_high {σ S : Type} (P : Pricer σ S) (s : ImpliedVol) (vols : σ → List String) (p : σ) (target lo hi : ℝ) {id : String} {e : Fault}
    (hv : vols p = [id]) {c : Bool} {q : σ} {save : Option S} {x : Num ℝ} (h0 : P.bump (.vol id (.replace (.val lo))) p none = (.ok c, q, save))
    (h1 : P.price q = .ok x) {r : Outcome Bool} {q' : σ} {save' : Option S} (hb : P.bump (.vol id (.replace (.val hi))) q none = (r, q', save'))
    (he : r = .error e ∨ (∃ c, r = .ok c) ∧ P.price q' = .error e) : s.solve P vols p target lo hi = (.error e, q') := by
  unfold ImpliedVol.solve
  rw [hv]
  unfold singleVolId
  dsimp only
  unfold zbrentN objective priceGivenVol
  rw [h0]
  dsimp only
  rw [h1]
  dsimp only [Except.map]
  rw [hb]
  rcases he with rfl | ⟨⟨c, rfl⟩, he⟩
  · rfl
  · dsimp only
    rw [he]

/-- A pricer that cannot be bumped. -/
def stuck : Pricer Unit Unit := ⟨fun _ p save => (.error .err, p, save), fun p _ => p, (), fun _ => .ok (.val 1), fun _ => [], fun _ _ => .error .err, fun _ p => (.error .err, p)⟩

/-- C53: such a pricer is refused. -/
example : (ImpliedVol.mk 0.001 100).solve stuck (fun _ => ["A"]) () 1 0 1 = (.error .err, ()) :=
  C53_refused stuck _ _ () 1 0 1 rfl rfl (.inl rfl)

end QM.Solvers
