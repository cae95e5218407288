import Verif.Risk.GreeksProps
import Verif.Vol.PanicProps

/-!
# Property C94: options of one expiry admit no arbitrage
-/

namespace QM.Risk.Spec
open QM.Interp QM.Vol QM.Instruments QM.Instruments.Spec QM.Market QM.Market.Spec

/-- A number of options of one kind and strike. -/
structure Leg where
  amount : ℝ
  kind : PutOrCall
  strike : ℝ

/-- The options of a book, all with the same terms but for kind and strike. -/
noncomputable def book (v : Vanilla) (id credit : String) (settle : Int → Int) (legs : List Leg) : List (ℝ × Instrument) :=
  legs.map fun l => (l.amount, euro l.kind v id credit settle l.strike)

/-- What the options of a book pay in all, if the underlying ends at `X` and `δ` is added to the strikes. -/
noncomputable def pays (δ : ℝ) (legs : List Leg) (X : ℝ) : ℝ := (legs.map fun l => l.amount * payoff l.kind X (l.strike + δ)).sum

end QM.Risk.Spec

namespace QM.Risk
open QM.Interp QM.Curves QM.Vol QM.Fixings QM.Instruments QM.Instruments.Spec QM.Market QM.Market.Spec QM.Risk.Spec
open MeasureTheory ProbabilityTheory

variable {fuel : Nat} {md : MarketData} {v : Vanilla} {id credit : String} {settle : Int → Int} {K S a c δ D w : ℝ} {vol : VolSurface} {legs : List Leg}

/-! ## The expected payoff of a book -/

theorem pays_cons (l : Leg) (δ X : ℝ) : pays δ (l :: legs) X = l.amount * payoff l.kind X (l.strike + δ) + pays δ legs X := by
  simp [pays]

theorem pays_integrable (δ F s : ℝ) : ∀ legs : List Leg, Integrable (fun x => pays δ legs (lognormal F s x)) (gaussianReal 0 1)
  | [] => by simp [pays]
  | l :: legs => by
    simp only [pays_cons]
    exact ((payoff_integrable _ _ _ _).const_mul _).add (pays_integrable δ F s legs)

theorem pays_mean (δ F s : ℝ) : ∀ legs : List Leg, (legs.map fun l => l.amount * ∫ x, payoff l.kind (lognormal F s x) (l.strike + δ) ∂gaussianReal 0 1).sum =
    ∫ x, pays δ legs (lognormal F s x) ∂gaussianReal 0 1
  | [] => by simp [pays]
  | l :: legs => by
    simp only [pays_cons]
    rw [integral_add ((payoff_integrable _ _ _ _).const_mul _) (pays_integrable δ F s legs), integral_const_mul, List.map_cons, List.sum_cons,
      pays_mean δ F s legs]

theorem payoff_continuous (kind : PutOrCall) (K : ℝ) : Continuous (fun X => payoff kind X K) := by
  cases kind
  · exact (continuous_const.sub continuous_id).max continuous_const
  · exact (continuous_id.sub continuous_const).max continuous_const

theorem pays_continuous (δ : ℝ) : ∀ legs : List Leg, Continuous (pays δ legs)
  | [] => by unfold pays; simp; exact continuous_const
  | l :: legs => by
    have : pays δ (l :: legs) = fun X => l.amount * payoff l.kind X (l.strike + δ) + pays δ legs X := funext fun X => pays_cons l δ X
    rw [this]
    exact (continuous_const.mul (payoff_continuous _ _)).add (pays_continuous δ legs)

/-- A payoff that is nowhere negative and somewhere positive is expected to be positive. -/
theorem mean_positive {g : ℝ → ℝ} (hg : Continuous g) (h0 : ∀ X, 0 < X → 0 ≤ g X) (h1 : ∃ X, 0 < X ∧ 0 < g X) {F s : ℝ} (hF : 0 < F) (hs : 0 < s)
    (hi : Integrable (fun x => g (lognormal F s x)) (gaussianReal 0 1)) : 0 < ∫ x, g (lognormal F s x) ∂gaussianReal 0 1 := by
  have hc : Continuous (lognormal F s) := by unfold lognormal; fun_prop
  have hpos : ∀ x, 0 < lognormal F s x := fun x => mul_pos hF (Real.exp_pos _)
  obtain ⟨X, hX, hgX⟩ := h1
  rw [integral_pos_iff_support_of_nonneg (fun x => h0 _ (hpos x)) hi]
  have hopen : IsOpen (Function.support fun x => g (lognormal F s x)) := (hg.comp hc).isOpen_support
  have hne : (Function.support fun x => g (lognormal F s x)).Nonempty := by
    refine ⟨(Real.log (X / F) + s ^ 2 / 2) / s, ?_⟩
    have : lognormal F s ((Real.log (X / F) + s ^ 2 / 2) / s) = X := by
      unfold lognormal
      rw [mul_div_cancel₀ _ hs.ne', add_sub_cancel_right, Real.exp_log (div_pos hX hF), mul_div_cancel₀ _ hF.ne']
    rw [Function.mem_support, this]
    exact hgX.ne'
  have hv := hopen.measure_pos volume hne
  have hac := gaussianReal_absolutelyContinuous' 0 (v := 1) one_ne_zero
  by_contra hz
  exact hv.ne' (hac (le_antisymm (not_lt.1 hz) zero_le))

/-! ## Pricing a book -/

theorem noteSpot_vols (c : Collector) (i : Instrument) (r : SpotRequirement) : (c.noteSpot i r).volSurfaces = c.volSurfaces := by
  unfold Collector.noteSpot
  split <;> rfl

theorem collect_step (kind : PutOrCall) (K : ℝ) (col : Collector)
    (h : (col.forwardCurves = .empty ∧ col.volSurfaces = .empty) ∨
      (col.forwardCurves = ⟨[(id, .equity id credit settle, v.expiry.date)]⟩ ∧ col.volSurfaces = ⟨[(id, .equity id credit settle, v.expiry.date)]⟩)) :
    (col.spot (euro kind v id credit settle K)).forwardCurves = ⟨[(id, .equity id credit settle, v.expiry.date)]⟩ ∧
      (col.spot (euro kind v id credit settle K)).volSurfaces = ⟨[(id, .equity id credit settle, v.expiry.date)]⟩ := by
  rcases h with ⟨h1, h2⟩ | ⟨h1, h2⟩ <;> constructor <;>
  simp [euro, Collector.spot, Instrument.dependencies, finishVanilla, startVanilla, noteSpot_forwards, noteSpot_vols, Collector.noteForward,
    Collector.volSurface, Collector.addInstrument, Collector.yieldCurve, Collector.fixing, Collector.setHwm, Map.get, Map.insert, Map.empty, Instrument.id, h1, h2]

theorem collect_book (sd : Int) (hne : legs ≠ []) :
    (collect sd (book v id credit settle legs)).forwardCurves = ⟨[(id, .equity id credit settle, v.expiry.date)]⟩ ∧
      (collect sd (book v id credit settle legs)).volSurfaces = ⟨[(id, .equity id credit settle, v.expiry.date)]⟩ := by
  have key : ∀ (legs : List Leg) (col : Collector),
      (col.forwardCurves = ⟨[(id, .equity id credit settle, v.expiry.date)]⟩ ∧ col.volSurfaces = ⟨[(id, .equity id credit settle, v.expiry.date)]⟩) →
      ((book v id credit settle legs).foldl (fun c e => c.spot e.2) col).forwardCurves = ⟨[(id, .equity id credit settle, v.expiry.date)]⟩ ∧
        ((book v id credit settle legs).foldl (fun c e => c.spot e.2) col).volSurfaces = ⟨[(id, .equity id credit settle, v.expiry.date)]⟩ := by
    intro legs
    induction legs with
    | nil => exact fun col h => h
    | cons l legs ih => exact fun col h => ih _ (collect_step l.kind l.strike col (.inr h))
  cases legs with
  | nil => exact absurd rfl hne
  | cons l legs => exact key legs _ (collect_step l.kind l.strike _ (.inl ⟨rfl, rfl⟩))

/-- What a book is worth: the discounted expected payoff, if each option sees its own variance. -/
theorem book_price (w : ℝ → ℝ) (hne : legs ≠ []) (h : ∀ l ∈ legs, Setting fuel md v id credit settle l.strike S a c δ D (w l.strike) vol)
    (hF : 0 < a * S - c - δ) (hK : ∀ l ∈ legs, 0 < l.strike + δ) (hw : ∀ l ∈ legs, 0 < w l.strike) :
    ∃ p, SelfPricer.new (book v id credit settle legs) md = .ok p ∧ p.price fuel = .ok (.val
      (legs.map fun l => l.amount * (D * ∫ x, payoff l.kind (lognormal (a * S - c - δ) (Real.sqrt (w l.strike)) x) (l.strike + δ) ∂gaussianReal 0 1)).sum) := by
  obtain ⟨c1, c2⟩ := collect_book (v := v) (id := id) (credit := credit) (settle := settle) md.spotDate hne
  obtain ⟨l0, hl0⟩ := List.exists_mem_of_ne_nil _ hne
  have h0 := h l0 hl0
  obtain ⟨f, h1, h2⟩ := h0.forward S
  have h1' : md.forwardCurve (.equity id credit settle) v.expiry.date = .ok f := by
    rw [← h1]
    refine forwardCurve_congr _ _ rfl ?_
    intro y _
    rw [withSpot_data]
    exact (congrFun (update_same (x := .spot id) (f := data md) h0.spot) y).symm
  have hnew : Prefetch.new md (collect md.spotDate (book v id credit settle legs)) =
      .ok ⟨md, collect md.spotDate (book v id credit settle legs), ⟨[(id, f)]⟩, ⟨[(id, vol)]⟩⟩ := by
    unfold Prefetch.new
    rw [c1, c2]
    unfold walkDependencies
    rw [h1']
    dsimp only
    rw [show Map.get ⟨[(id, Instrument.equity id credit settle, v.expiry.date)]⟩ (Instrument.equity id credit settle).id =
      some (Instrument.equity id credit settle, v.expiry.date) by simp [Map.get, Instrument.id]]
    dsimp only
    rw [h0.surface]
    rfl
  refine ⟨_, new_self_of hnew, ?_⟩
  unfold SelfPricer.price
  dsimp only
  generalize hctx : Prefetch.pricingContext _ = ctx
  have hp : ∀ l ∈ legs, (euro l.kind v id credit settle l.strike).price fuel ctx ⟨md.spotDate, .open⟩ = .ok (.val
      (D * ∫ x, payoff l.kind (lognormal (a * S - c - δ) (Real.sqrt (w l.strike)) x) (l.strike + δ) ∂gaussianReal 0 1)) := by
    intro l hl
    obtain ⟨yc, r, r', h3, h4, h5, hD⟩ := (h l hl).rates
    rw [option_price (f := f) (vol := vol) (yc := yc) l.kind h0.ahead (by rw [← hctx]; rfl) ?_ ?_ ?_ h2 h4 h5 h0.displacement (h l hl).variance hF.le (hw l hl).le,
      formula_mean hF.le (hK l hl).le (Real.sqrt_nonneg _) (by
      rintro ⟨_, h | h⟩
      · exact hF.ne' h
      · exact (Real.sqrt_pos.2 (hw l hl)).ne' h), hD]
    · intro d
      rw [← hctx]
      show find credit md.yieldCurves = _
      unfold find
      rw [h3]
    · intro d
      rw [← hctx]
      show find id ⟨[(id, f)]⟩ = _
      simp [find, Map.get]
    · intro d g
      rw [← hctx]
      show find id ⟨[(id, vol)]⟩ = _
      simp [find, Map.get]
  have key : ∀ (ls : List Leg) (t : ℝ), (∀ l ∈ ls, l ∈ legs) → priceLoop fuel ctx ⟨md.spotDate, .open⟩ (book v id credit settle ls) (.val t) = .ok (.val
      (t + (ls.map fun l => l.amount * (D * ∫ x, payoff l.kind (lognormal (a * S - c - δ) (Real.sqrt (w l.strike)) x) (l.strike + δ) ∂gaussianReal 0 1)).sum)) := by
    intro ls
    induction ls with
    | nil => intro t _; simp [book, priceLoop]
    | cons l ls ih =>
      intro t hl
      show priceLoop fuel ctx ⟨md.spotDate, .open⟩ ((l.amount, euro l.kind v id credit settle l.strike) :: book v id credit settle ls) _ = _
      rw [priceLoop, hp l (hl l List.mem_cons_self), ok_bind]
      show priceLoop fuel ctx ⟨md.spotDate, .open⟩ (book v id credit settle ls) (.val _) = _
      rw [ih _ fun l' h' => hl l' (List.mem_cons_of_mem _ h'), List.map_cons, List.sum_cons, add_assoc]
  have := key legs 0 fun _ h => h
  rw [zero_add] at this
  exact this

/-! ## No arbitrage -/

/-- C94. A book of options with one expiry, all seeing the same variance, is never worth less than cash and a forward that pay no more than it whatever
the underlying ends at, and it is worth more if it pays more in some case. Taking the amounts the other way round, it is never worth more than
cash and a forward that pay no less. The options are priced on the displaced underlying, whose forward is `a S - c - δ`. -/
theorem C94_static_partial (hne : legs ≠ []) (h : ∀ l ∈ legs, Setting fuel md v id credit settle l.strike S a c δ D w vol)
    (hF : 0 < a * S - c - δ) (hK : ∀ l ∈ legs, 0 < l.strike + δ) (hw : 0 < w) :
    ∃ p x, SelfPricer.new (book v id credit settle legs) md = .ok p ∧ p.price fuel = .ok (.val x) ∧
      (∀ m q, (∀ X, 0 < X → m + q * X ≤ pays δ legs X) → D * (m + q * (a * S - c - δ)) ≤ x ∧
        ((∃ X, 0 < X ∧ m + q * X < pays δ legs X) → D * (m + q * (a * S - c - δ)) < x)) ∧
      (∀ m q, (∀ X, 0 < X → pays δ legs X ≤ m + q * X) → x ≤ D * (m + q * (a * S - c - δ)) ∧
        ((∃ X, 0 < X ∧ pays δ legs X < m + q * X) → x < D * (m + q * (a * S - c - δ)))) := by
  obtain ⟨p, h1, h2⟩ := book_price (fun _ => w) hne h hF hK (fun _ _ => hw)
  have hD : 0 < D := by
    obtain ⟨l0, hl0⟩ := List.exists_mem_of_ne_nil _ hne
    obtain ⟨_, _, _, _, _, _, rfl⟩ := (h l0 hl0).rates
    exact Real.exp_pos _
  have hs := Real.sqrt_pos.2 hw
  have e : ∀ ls : List Leg, (ls.map fun l => l.amount * (D * ∫ x, payoff l.kind (lognormal (a * S - c - δ) (Real.sqrt w) x) (l.strike + δ) ∂gaussianReal 0 1)).sum =
      D * ∫ x, pays δ ls (lognormal (a * S - c - δ) (Real.sqrt w) x) ∂gaussianReal 0 1 := by
    intro ls
    rw [← pays_mean, ← List.sum_map_mul_left]
    congr 1
    exact List.map_congr_left fun l _ => by ring
  rw [e] at h2
  refine ⟨p, _, h1, h2, ?_, ?_⟩ <;> intro m q hm
  all_goals
    have hlin : ∫ x, (m + q * lognormal (a * S - c - δ) (Real.sqrt w) x) ∂gaussianReal 0 1 = m + q * (a * S - c - δ) := by
      rw [integral_add (integrable_const m) ((lognormal_integrable _ _).const_mul q), integral_const_mul, lognormal_mean]
      simp
    have hli : Integrable (fun x => m + q * lognormal (a * S - c - δ) (Real.sqrt w) x) (gaussianReal 0 1) :=
      (integrable_const m).add ((lognormal_integrable _ _).const_mul q)
    have hpi := pays_integrable δ (a * S - c - δ) (Real.sqrt w) legs
    have hpc := pays_continuous δ legs
    have hpos : ∀ x, 0 < lognormal (a * S - c - δ) (Real.sqrt w) x := fun x => mul_pos hF (Real.exp_pos _)
    rw [← hlin]
  · refine ⟨mul_le_mul_of_nonneg_left (integral_mono hli hpi fun x => hm _ (hpos x)) hD.le, fun hX => mul_lt_mul_of_pos_left ?_ hD⟩
    have := mean_positive (g := fun X => pays δ legs X - (m + q * X)) (by fun_prop) (fun X hX => sub_nonneg.2 (hm X hX))
      (by obtain ⟨X, h1, h2⟩ := hX; exact ⟨X, h1, sub_pos.2 h2⟩) hF hs (hpi.sub hli)
    rw [integral_sub hpi hli] at this
    linarith
  · refine ⟨mul_le_mul_of_nonneg_left (integral_mono hpi hli fun x => hm _ (hpos x)) hD.le, fun hX => mul_lt_mul_of_pos_left ?_ hD⟩
    have := mean_positive (g := fun X => (m + q * X) - pays δ legs X) (by fun_prop) (fun X hX => sub_nonneg.2 (hm X hX))
      (by obtain ⟨X, h1, h2⟩ := hX; exact ⟨X, h1, sub_pos.2 h2⟩) hF hs (hli.sub hpi)
    rw [integral_sub hli hpi] at this
    linarith

/-- C94, strikes. Between two strikes, a call spread is worth something, and less than the discounted distance of the strikes; so is a put spread. -/
theorem C94_spread_partial {K₁ K₂ : ℝ} (h₁ : Setting fuel md v id credit settle K₁ S a c δ D w vol) (h₂ : Setting fuel md v id credit settle K₂ S a c δ D w vol)
    (hF : 0 < a * S - c - δ) (hK : 0 < K₁ + δ) (hlt : K₁ < K₂) (hw : 0 < w) :
    (∃ p x, SelfPricer.new (book v id credit settle [⟨1, .call, K₁⟩, ⟨-1, .call, K₂⟩]) md = .ok p ∧ p.price fuel = .ok (.val x) ∧
      0 < x ∧ x < D * (K₂ - K₁)) ∧
    (∃ p x, SelfPricer.new (book v id credit settle [⟨-1, .put, K₁⟩, ⟨1, .put, K₂⟩]) md = .ok p ∧ p.price fuel = .ok (.val x) ∧
      0 < x ∧ x < D * (K₂ - K₁)) := by
  have hK₂ : 0 < K₂ + δ := by linarith
  constructor
  · obtain ⟨p, x, h1, h2, h3, h4⟩ := C94_static_partial (legs := [⟨1, .call, K₁⟩, ⟨-1, .call, K₂⟩]) (by simp) (by simpa using ⟨h₁, h₂⟩) hF (by simpa using ⟨hK, hK₂⟩) hw
    have e : ∀ X, pays δ [⟨1, .call, K₁⟩, ⟨-1, .call, K₂⟩] X = max (X - (K₁ + δ)) 0 - max (X - (K₂ + δ)) 0 := by
      intro X
      simp [pays, payoff]
      ring
    simp only [e] at h3 h4
    refine ⟨p, x, h1, h2, ?_, ?_⟩
    · have := (h3 0 0 (fun X _ => by
        have := max_le_max (show X - (K₂ + δ) ≤ X - (K₁ + δ) by linarith) (le_refl (0 : ℝ))
        linarith)).2 ⟨K₂ + δ, hK₂, by rw [sub_self, max_self, max_eq_left (by linarith)]; linarith⟩
      simpa using this
    · have := (h4 (K₂ - K₁) 0 (fun X _ => by
        have h5 := le_max_left (X - (K₂ + δ)) 0
        have h6 := le_max_right (X - (K₂ + δ)) 0
        have : max (X - (K₁ + δ)) 0 ≤ K₂ - K₁ + max (X - (K₂ + δ)) 0 := max_le (by linarith) (by linarith)
        linarith)).2 ⟨K₁ + δ, hK, by rw [sub_self, max_self, max_eq_right (by linarith)]; linarith⟩
      simpa using this
  · obtain ⟨p, x, h1, h2, h3, h4⟩ := C94_static_partial (legs := [⟨-1, .put, K₁⟩, ⟨1, .put, K₂⟩]) (by simp) (by simpa using ⟨h₁, h₂⟩) hF (by simpa using ⟨hK, hK₂⟩) hw
    have e : ∀ X, pays δ [⟨-1, .put, K₁⟩, ⟨1, .put, K₂⟩] X = max (K₂ + δ - X) 0 - max (K₁ + δ - X) 0 := by
      intro X
      simp [pays, payoff]
      ring
    simp only [e] at h3 h4
    refine ⟨p, x, h1, h2, ?_, ?_⟩
    · have := (h3 0 0 (fun X _ => by
        have := max_le_max (show K₁ + δ - X ≤ K₂ + δ - X by linarith) (le_refl (0 : ℝ))
        linarith)).2 ⟨K₁ + δ, hK, by rw [sub_self, max_self, max_eq_left (by linarith)]; linarith⟩
      simpa using this
    · have := (h4 (K₂ - K₁) 0 (fun X _ => by
        have h5 := le_max_left (K₁ + δ - X) 0
        have h6 := le_max_right (K₁ + δ - X) 0
        have : max (K₂ + δ - X) 0 ≤ K₂ - K₁ + max (K₁ + δ - X) 0 := max_le (by linarith) (by linarith)
        linarith)).2 ⟨K₂ + δ, hK₂, by rw [sub_self, max_self, max_eq_right (by linarith)]; linarith⟩
      simpa using this

/-- C94, butterflies. Options of either kind at three strikes, in amounts that pay a triangle, are worth something. -/
theorem C94_butterfly_partial {K₁ K₂ K₃ : ℝ} (kind : PutOrCall) (h₁ : Setting fuel md v id credit settle K₁ S a c δ D w vol)
    (h₂ : Setting fuel md v id credit settle K₂ S a c δ D w vol) (h₃ : Setting fuel md v id credit settle K₃ S a c δ D w vol)
    (hF : 0 < a * S - c - δ) (hK : 0 < K₁ + δ) (h12 : K₁ < K₂) (h23 : K₂ < K₃) (hw : 0 < w) :
    ∃ p x, SelfPricer.new (book v id credit settle [⟨K₃ - K₂, kind, K₁⟩, ⟨-(K₃ - K₁), kind, K₂⟩, ⟨K₂ - K₁, kind, K₃⟩]) md = .ok p ∧
      p.price fuel = .ok (.val x) ∧ 0 < x := by
  obtain ⟨p, x, h1, h2, h3, -⟩ := C94_static_partial (legs := [⟨K₃ - K₂, kind, K₁⟩, ⟨-(K₃ - K₁), kind, K₂⟩, ⟨K₂ - K₁, kind, K₃⟩]) (by simp)
    (by simpa using ⟨h₁, h₂, h₃⟩) hF (by simpa using ⟨hK, by linarith, by linarith⟩) hw
  refine ⟨p, x, h1, h2, ?_⟩
  have hconv : ∀ A B C : ℝ, (K₃ - K₁) * B = (K₃ - K₂) * A + (K₂ - K₁) * C → (K₃ - K₁) * max B 0 ≤ (K₃ - K₂) * max A 0 + (K₂ - K₁) * max C 0 := by
    intro A B C hABC
    have a1 := mul_le_mul_of_nonneg_left (le_max_left A 0) (show 0 ≤ K₃ - K₂ by linarith)
    have a2 := mul_nonneg (show 0 ≤ K₃ - K₂ by linarith) (le_max_right A 0)
    have c1 := mul_le_mul_of_nonneg_left (le_max_left C 0) (show 0 ≤ K₂ - K₁ by linarith)
    have c2 := mul_nonneg (show 0 ≤ K₂ - K₁ by linarith) (le_max_right C 0)
    rcases max_cases B 0 with ⟨e, _⟩ | ⟨e, _⟩ <;> rw [e] <;> linarith
  have e : ∀ X, pays δ [⟨K₃ - K₂, kind, K₁⟩, ⟨-(K₃ - K₁), kind, K₂⟩, ⟨K₂ - K₁, kind, K₃⟩] X =
      (K₃ - K₂) * payoff kind X (K₁ + δ) + (K₂ - K₁) * payoff kind X (K₃ + δ) - (K₃ - K₁) * payoff kind X (K₂ + δ) := by
    intro X
    simp [pays]
    ring
  simp only [e] at h3
  have := (h3 0 0 (fun X _ => by
    cases kind
    · have := hconv (K₁ + δ - X) (K₂ + δ - X) (K₃ + δ - X) (by ring)
      simp only [payoff]
      linarith
    · have := hconv (X - (K₁ + δ)) (X - (K₂ + δ)) (X - (K₃ + δ)) (by ring)
      simp only [payoff]
      linarith)).2 ⟨K₂ + δ, by linarith, by
    have hp := mul_pos (sub_pos.2 h23) (sub_pos.2 h12)
    cases kind
    · simp only [payoff]
      rw [sub_self, max_self, max_eq_right (show K₁ + δ - (K₂ + δ) ≤ 0 by linarith), max_eq_left (show 0 ≤ K₃ + δ - (K₂ + δ) by linarith)]
      nlinarith
    · simp only [payoff]
      rw [sub_self, max_self, max_eq_left (show 0 ≤ K₂ + δ - (K₁ + δ) by linarith), max_eq_right (show K₂ + δ - (K₃ + δ) ≤ 0 by linarith)]
      nlinarith⟩
  simpa using this

/-! ## Cases -/

/-- C94: a call spread and a butterfly on an equity worth 100, with a volatility of 20 percent. -/
example : (∃ p x, SelfPricer.new (book sampleTerms "A" "C" _root_.id [⟨1, .call, 90⟩, ⟨-1, .call, 110⟩])
      (withVol (sampleMarket 100 (.zero 0)) "A" (.flat (.val 0.2) .everyDay (0, 0))) = .ok p ∧ p.price fuel = .ok (.val x) ∧ 0 < x ∧ x < 20) ∧
    (∃ p x, SelfPricer.new (book sampleTerms "A" "C" _root_.id [⟨110 - 100, .call, 90⟩, ⟨-(110 - 90), .call, 100⟩, ⟨100 - 90, .call, 110⟩])
      (withVol (sampleMarket 100 (.zero 0)) "A" (.flat (.val 0.2) .everyDay (0, 0))) = .ok p ∧ p.price fuel = .ok (.val x) ∧ 0 < x) := by
  refine ⟨?_, C94_butterfly_partial .call (sample_setting 0.2 100 90) (sample_setting 0.2 100 100) (sample_setting 0.2 100 110) (by norm_num) (by norm_num)
    (by norm_num) (by norm_num) (by norm_num)⟩
  obtain ⟨⟨p, x, h1, h2, h3, h4⟩, _⟩ := C94_spread_partial (sample_setting (fuel := fuel) 0.2 100 90) (sample_setting 0.2 100 110) (by norm_num) (by norm_num)
    (by norm_num) (by norm_num)
  exact ⟨p, x, h1, h2, h3, by linarith⟩

/-- The sample market with a surface of its day. -/
theorem surface_setting {S K w : ℝ} {vol : VolSurface} (hbase : vol.baseDate.1 = 0) (hδ : vol.displacement 10 = .ok (.val 0))
    (hw : vol.forwardVariance fuel (0, 0) (10, 0) (.val K) = .ok (.val w)) :
    Setting fuel (withVol (sampleMarket S (.zero 0)) "A" vol) sampleTerms "A" "C" _root_.id K S 1 0 0 1 w vol := by
  refine ⟨rfl, by show (0 : Int) < 10; norm_num, ?_, ⟨.zero 0, 0, 0, rfl, Forward.zero_rt 0 10, Forward.zero_rt 0 0, by norm_num⟩, ?_, hδ, ?_⟩
  · intro s
    obtain ⟨f, hf, hf'⟩ := sample_forward_flat s 10
    refine ⟨f, ?_, by rw [one_mul, sub_zero]; exact hf' 10 le_rfl⟩
    rw [← hf]
    refine forwardCurve_congr equityA 10 rfl ?_
    intro x hx
    cases x <;> first | rfl | skip
    simp at hx
  · exact surface_today rfl hbase _
  · rw [later_self_zero _ (by unfold before; simp [withVol, sampleMarket])]
    exact hw

/-- With more and more variance a call comes to be worth as much as the forward. -/
theorem black_limit {F K : ℝ} : Filter.Tendsto (black F K) Filter.atTop (nhds F) := by
  have h1 : Filter.Tendsto (fun s : ℝ => Real.log (F / K) / s) Filter.atTop (nhds 0) := tendsto_const_nhds.div_atTop Filter.tendsto_id
  have h2 : Filter.Tendsto (fun s : ℝ => s / 2) Filter.atTop Filter.atTop := Filter.tendsto_id.atTop_div_const (by norm_num)
  have h3 : Filter.Tendsto (fun s : ℝ => Real.log (F / K) / s + s / 2) Filter.atTop Filter.atTop := h1.add_atTop h2
  have h4 : Filter.Tendsto (fun s : ℝ => Real.log (F / K) / s - s / 2) Filter.atTop Filter.atBot := by
    have := h1.add_atBot (Filter.tendsto_neg_atTop_atBot.comp h2)
    exact this
  have h5 : Filter.Tendsto Phi Filter.atTop (nhds 1) := tendsto_cdf_atTop _
  have := ((h5.comp h3).const_mul F).sub ((Phi_atBot.comp h4).const_mul K)
  rw [mul_one, mul_zero, sub_zero] at this
  exact this

/-- C94 violated: some smile that is 20 percent at 100 and high enough at 110 is accepted, though the call at 110 is worth more than that at 100, so
that the spread between them, which never pays anything negative, has a negative price. -/
theorem C94_false : ∃ σ smile s p x, Smile.newCubicSpline [(.val 100, 0.2), (.val 110, σ)] = .ok smile ∧ VolSurface.newByProbability (oneSpline smile) = .ok s ∧
    SelfPricer.new (book sampleTerms "A" "C" _root_.id [⟨1, .call, 100⟩, ⟨-1, .call, 110⟩]) (withVol (sampleMarket 100 (.zero 0)) "A" s) = .ok p ∧
    p.price fuel = .ok (.val x) ∧ x < 0 := by
  have hlim := black_limit (F := 100) (K := 110)
  have hup : black 100 100 (Real.sqrt (10 / 365 * 0.2 * 0.2)) < 100 := by
    have hs : 0 < Real.sqrt (10 / 365 * 0.2 * 0.2) := Real.sqrt_pos.2 (by norm_num)
    have h1 := black_strictMono (F := 100) (K := 100) (by norm_num) (by norm_num) (Set.mem_Ioi.2 hs)
      (Set.mem_Ioi.2 (show 0 < Real.sqrt (10 / 365 * 0.2 * 0.2) + 1 by linarith)) (by linarith)
    exact lt_of_lt_of_le h1 (black_upper (by norm_num) (by norm_num))
  obtain ⟨m, hm, hm0⟩ := ((hlim.eventually (lt_mem_nhds hup)).and (Filter.eventually_gt_atTop 0)).exists
  have hT : 0 < Real.sqrt (10 / 365) := Real.sqrt_pos.2 (by norm_num)
  obtain ⟨σ, hσ0, hσ⟩ : ∃ σ : ℝ, 0 < σ ∧ Real.sqrt (10 / 365 * σ * σ) = m := by
    refine ⟨m / Real.sqrt (10 / 365), div_pos hm0 hT, ?_⟩
    rw [mul_assoc, Real.sqrt_mul (by norm_num), Real.sqrt_mul_self (div_pos hm0 hT).le, mul_div_cancel₀ _ hT.ne']
  have hc : ∃ c : CubicSpline ℝ, Smile.newCubicSpline [(.val 100, 0.2), (.val 110, σ)] = .ok (.cubicSpline c) ∧
      c.interpolate (.val 100) = .ok (.val 0.2) ∧ c.interpolate (.val 110) = .ok (.val σ) := by
    have hv : validateAbscissae [((.val 100 : Num ℝ), (0.2 : ℝ)), (.val 110, σ)] = .ok () := by
      simp only [validateAbscissae, validateFrom, apart]
      norm_num
    have hc : ∃ c, CubicSpline.new (Interp.Spec.plain [((100 : ℝ), (0.2 : ℝ)), (110, σ)]) .natural .natural = .ok c := by
      unfold CubicSpline.new Interp.Spec.plain
      simp only [List.map_cons, List.map_nil]
      rw [hv]
      simp only [ok_then, List.length_cons, List.length_nil]
      norm_num [pure, Except.pure]
    obtain ⟨c, hc⟩ := hc
    refine ⟨c, ?_, C18_pillar (p := (100, 0.2)) hc (by simp), C18_pillar (p := (110, σ)) hc (by simp)⟩
    unfold Smile.newCubicSpline
    have : Interp.Spec.plain [((100 : ℝ), (0.2 : ℝ)), (110, σ)] = [((.val 100 : Num ℝ), (0.2 : ℝ)), (.val 110, σ)] := rfl
    rw [this] at hc
    rw [hc]
    rfl
  obtain ⟨cs, hc, c1, c2⟩ := hc
  have y := everyDay_year 10
  push_cast at y
  have n1 : ¬ nlt (.val ((10 : ℝ) / 365 * 0.2 * 0.2)) (.val 0) := by simp only [nlt]; norm_num
  have hnew : VolSurface.newByProbability (oneSpline (.cubicSpline cs)) =
      .ok (.byProbability (oneSpline (.cubicSpline cs)) [⟨.val 100, nsqrt (.val (10 / 365 * 0.2 * 0.2)), 10 / 365⟩]) := by
    unfold VolSurface.newByProbability
    simp only [oneSpline, buildPillars, constant_forward, Smile.volatility, ok_then, c1, y]
    rw [show num2 (· * ·) (num2 (· * ·) (.val ((10 : ℝ) / 365)) (.val 0.2)) (.val 0.2) = .val (10 / 365 * 0.2 * 0.2) from rfl, if_neg n1]
    rfl
  have hf : ∀ k u, cs.interpolate (.val k) = .ok (.val u) →
      (VolSurface.byProbability (oneSpline (.cubicSpline cs)) [⟨.val 100, nsqrt (.val (10 / 365 * 0.2 * 0.2)), 10 / 365⟩]).forwardVariance fuel
        (0, 0) (10, 0) (.val k) = .ok (.val (10 / 365 * u * u)) := by
    intro k u hk
    have hse : searchSmile (oneSpline (.cubicSpline cs)).smiles (10, 0) = (0, true) := by
      have := searchSmile_eq (l := []) (r := []) (p := (((10, 0) : Point), Smile.cubicSpline cs)) (t := (10, 0)) (by simp) (before_irrefl _)
      simpa [oneSpline] using this
    refine plain_variance (σ := u) (T := 10 / 365) (before_irrefl _) ?_
    unfold VolSurface.volatilities byProbabilityVolatilities
    simp only [hse]
    simp only [oneSpline, List.getElem?_cons_zero, ok_then, each, Smile.volatility, hk]
    simp [pure, Except.pure, Bind.bind, Except.bind]
  have s1 := surface_setting (fuel := fuel) (S := 100) rfl rfl (hf _ _ c1)
  have s2 := surface_setting (fuel := fuel) (S := 100) rfl rfl (hf _ _ c2)
  obtain ⟨p, h1, h2⟩ := book_price (legs := [⟨1, .call, 100⟩, ⟨-1, .call, 110⟩])
    (fun K => if K = 100 then 10 / 365 * 0.2 * 0.2 else 10 / 365 * σ * σ) (by simp) (by
      intro l hl
      simp only [List.mem_cons, List.not_mem_nil, or_false] at hl
      rcases hl with rfl | rfl
      · simpa using s1
      · simpa using s2) (by norm_num) (by simp) (by
      intro l hl
      have : 0 < 10 / 365 * σ * σ := by positivity
      simp only [List.mem_cons, List.not_mem_nil, or_false] at hl
      rcases hl with rfl | rfl
      · norm_num
      · norm_num
        linarith)
  refine ⟨σ, _, _, p, _, hc, hnew, h1, h2, ?_⟩
  simp only [List.map_cons, List.map_nil, List.sum_cons, List.sum_nil]
  rw [if_pos trivial, if_neg (by norm_num), mean_call (by norm_num) (by norm_num) (Real.sqrt_pos.2 (by norm_num)),
    mean_call (by norm_num) (by norm_num) (Real.sqrt_pos.2 (by positivity)), hσ]
  simp only [one_mul, sub_zero, add_zero]
  linarith

end QM.Risk
