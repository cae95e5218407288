import Verif.MonteCarlo.StepProps
import Verif.Risk.ArbitrageProps

/-!
# Property C103: options priced on the same paths admit no arbitrage
-/

namespace QM.MonteCarlo.Spec
open QM.Interp QM.Vol QM.Instruments QM.Market QM.Risk

/-- The options of a book are priced one by one, each by a Monte-Carlo pricer of its own, all with the same draws. They have the same terms but
for name, kind and strike. -/
def PricedAlike (fuel : Nat) (f : ModelFactory) (md : MarketData) (draw : Draws) (v : Vanilla) (u : Instrument) (legs : List Risk.Spec.Leg) (xs : List ℝ) : Prop :=
  List.Forall₂ (fun l x => ∃ name p, MonteCarlo.new fuel f [(l.amount, .spotStarting { v with id := name, putOrCall := l.kind } u l.strike)] md draw = .ok p ∧
    p.price fuel = .ok (.val x)) legs xs

end QM.MonteCarlo.Spec

namespace QM.MonteCarlo
open QM.Interp QM.Vol QM.Instruments QM.Market QM.Risk QM.Fixings QM.Curves Spec MeasureTheory ProbabilityTheory
open QM.Instruments.Spec (payoff)
open QM.Risk.Spec (pays)

variable {fuel : Nat} {f : ModelFactory} {md : MarketData} {draw : Draws} {v : Vanilla} {u : Instrument} {legs : List Risk.Spec.Leg} {xs : List ℝ}

/-! ## Lemmas -/

/-- A payment is worth something, or nothing. -/
theorem flow_nonneg {ctx : PricingContext} {d : DateTime} {D : ℝ} (h : (expiryFlow v).price fuel ctx d = .ok (.val D)) : 0 ≤ D := by
  rw [price_iff] at h
  unfold expiryFlow at h
  rw [Instrument.prices] at h
  unfold zeroCouponPrices at h
  obtain ⟨yc, _, h⟩ := bind_ok h
  rw [each_iff] at h
  cases h with
  | cons h _ =>
    split at h
    · unfold RateCurve.df at h
      split at h
      · cases h
        exact zero_le_one
      · obtain ⟨a, _, h⟩ := bind_ok h
        obtain ⟨b, _, h⟩ := bind_ok h
        have h := pure_ok h
        cases a <;> cases b <;> simp at h
        rw [← h]
        exact (Real.exp_pos _).le
    · cases h
      exact le_rfl

/-- The value of an option on given paths, before it is multiplied by the amount and discounted. -/
noncomputable def onPaths (n : Nat) (paths : List (List (Num ℝ))) (kind : PutOrCall) (K : ℝ) : ℝ :=
  (paths.map fun path => nmax (num1 (sign kind * ·) (num2 (· - ·) (path.getD 0 .nan) (.val K))) 0).sum / n

/-- What the model of an option is made of: nothing that depends on its name, kind, strike or amount. -/
structure Common (fuel : Nat) (f : ModelFactory) (md : MarketData) (draw : Draws) (v : Vanilla) (u : Instrument) (context : Prefetch) (ks : List Nat)
    (paths : List (List (Num ℝ))) (D : ℝ) : Prop where
  fetched : Prefetch.new md (collect md.spotDate [(0, .spotStarting v u 0)]) = .ok context
  substeps : calculateSubstepping fuel context.pricingContext [v.expiryTime] [u] f.pathSubstep = .ok ks
  walked : fetchPath fuel u context.pricingContext [v.expiryTime] (rows f.nPaths ks.sum draw) ks = .ok paths
  discount : (expiryFlow v).price fuel context.pricingContext ⟨context.context.spotDate, .open⟩ = .ok (.val D)
  simulated : f.nPaths ≠ 0

theorem Common.unique {c c' : Prefetch} {ks ks' : List Nat} {ps ps' : List (List (Num ℝ))} {D D' : ℝ} (h : Common fuel f md draw v u c ks ps D)
    (h' : Common fuel f md draw v u c' ks' ps' D') : ps = ps' ∧ D = D' := by
  have h1 := h.fetched
  rw [h'.fetched] at h1
  cases h1
  have h2 := h.substeps
  rw [h'.substeps] at h2
  cases h2
  have h3 := h.walked
  rw [h'.walked] at h3
  cases h3
  have h4 := h.discount
  rw [h'.discount] at h4
  cases h4
  exact ⟨rfl, rfl⟩

theorem flow_alike (name : String) (k : PutOrCall) (ctx : PricingContext) (d : DateTime) :
    (expiryFlow { v with id := name, putOrCall := k }).price fuel ctx d = (expiryFlow v).price fuel ctx d := by
  have : ∀ y, (expiryFlow { v with id := name, putOrCall := k }).price fuel ctx d = .ok y ↔ (expiryFlow v).price fuel ctx d = .ok y := by
    intro y
    rw [price_iff, price_iff]
    unfold expiryFlow
    rw [Instrument.prices, Instrument.prices]
  rfl

theorem priced_common {a K x : ℝ} {name : String} {k : PutOrCall} {p : MonteCarlo}
    (h : MonteCarlo.new fuel f [(a, .spotStarting { v with id := name, putOrCall := k } u K)] md draw = .ok p) (hx : p.price fuel = .ok (.val x)) :
    ∃ c ks ps D, Common fuel f md draw v u c ks ps D ∧ x = a * (onPaths f.nPaths ps k K * D) := by
  obtain ⟨t, context, ht, hc, hb, hf, hi⟩ := new_ok h
  rw [timeline_spot] at ht
  cases ht
  have hb0 := hb
  obtain ⟨k', u', obs, ks, paths, he, hs, hpath, hn, hmod⟩ := model_new_ok hb
  cases he
  unfold MonteCarlo.price at hx
  rw [hi, mcLoop, mcPrice, pathsOf_only hb0 (by rw [hmod]), ok_bind, if_neg (by rw [hmod]; simp)] at hx
  obtain ⟨y, hy, hx⟩ := bind_ok hx
  rw [mcLoop] at hx
  unfold BlackDiffusion.evaluateFlows at hy
  split at hy
  · cases hy
  rw [hmod] at hy
  dsimp only at hy
  rw [List.zip_cons_cons, List.zip_nil_left, flowsLoop, if_pos (show isPureRates (expiryFlow _) = true from rfl)] at hy
  dsimp only at hy
  obtain ⟨D, hD, hy⟩ := bind_ok hy
  rw [flowsLoop] at hy
  have hn' : ((f.nPaths : ℕ) : ℝ) ≠ 0 := by exact_mod_cast hn
  cases hy
  cases D with
  | nan => simp [ndiv, num2, num1, hn'] at hx
  | val D =>
    refine ⟨context, ks, paths, D, ⟨hc, hs, hpath, ?_, hn⟩, ?_⟩
    · rw [← flow_alike name k]
      exact hD
    · simp only [ndiv, num2, num1, hn', if_false, zero_add, Except.ok.injEq, Num.val.injEq] at hx
      rw [← hx]
      rfl

/-- All the options of a book have the same model. -/
theorem book_common (h : PricedAlike fuel f md draw v u legs xs) (hne : legs ≠ []) : ∃ c ks ps D, Common fuel f md draw v u c ks ps D ∧
    xs = legs.map fun l => l.amount * (onPaths f.nPaths ps l.kind l.strike * D) := by
  induction h with
  | nil => exact absurd rfl hne
  | @cons l x legs xs h1 h2 ih =>
    obtain ⟨name, p, hp, hx⟩ := h1
    obtain ⟨c, ks, ps, D, hc, he⟩ := priced_common hp hx
    refine ⟨c, ks, ps, D, hc, ?_⟩
    rw [List.map_cons, he]
    congr 1
    cases legs with
    | nil =>
      cases h2
      rfl
    | cons l' legs =>
      obtain ⟨c', ks', ps', D', hc', he'⟩ := ih (by simp)
      obtain ⟨rfl, rfl⟩ := hc.unique hc'
      exact he'

/-- What a book pays on a path. -/
theorem onPaths_sum (v : Vanilla) (n : Nat) (ps : List (List (Num ℝ))) (D : ℝ) : ∀ legs : List Risk.Spec.Leg,
    (legs.map fun l => l.amount * (onPaths n ps l.kind l.strike * D)).sum =
      (ps.map fun path => match path.getD 0 .nan with
        | .nan => 0
        | .val X => pays 0 legs X).sum / n * D
  | [] => by
    simp only [List.map_nil, List.sum_nil, pays]
    have : (fun path : List (Num ℝ) => match path.getD 0 .nan with
        | .nan => (0 : ℝ)
        | .val _ => 0) = fun _ => 0 := by
      funext path
      cases path.getD 0 .nan <;> rfl
    rw [this]
    simp
  | l :: legs => by
    rw [List.map_cons, List.sum_cons, onPaths_sum v n ps D legs]
    unfold onPaths
    rw [show ∀ a b c d e : ℝ, a * (b / c * d) + e / c * d = (a * b + e) / c * d by intros; ring]
    congr 2
    rw [← List.sum_map_mul_left, ← List.sum_map_add]
    congr 1
    apply List.map_congr_left
    intro path _
    cases path.getD 0 .nan with
    | nan => simp [num1, num2, nmax]
    | val X =>
      dsimp only
      rw [Risk.pays_cons, add_zero]
      congr 2
      exact payoff_val { v with putOrCall := l.kind } X l.strike

/-- An option with these terms has a price with any draws. -/
theorem price_drawn {a K D : ℝ} {F w δ : Nat → ℝ} {context : Prefetch} (name : String) (k : PutOrCall)
    (hc : Prefetch.new md (collect md.spotDate [(a, .spotStarting v u K)]) = .ok context)
    (hm : Spec.Market fuel context.pricingContext u [v.expiryTime] F w δ)
    (hD : (expiryFlow v).price fuel context.pricingContext ⟨context.context.spotDate, .open⟩ = .ok (.val D)) (hw : 0 ≤ w 0)
    (hh : f.pathSubstep ≠ 0) (hn : f.nPaths ≠ 0) (draw : Draws) (a' K' : ℝ) :
    ∃ p, MonteCarlo.new fuel f [(a', .spotStarting { v with id := name, putOrCall := k } u K')] md draw = .ok p ∧
      p.price fuel = .ok (.val (a' * (average f.nPaths (fun path =>
        payoff k (pathValue F w δ (steps f.pathSubstep w) (fun j => draw path j 0) 0) K') * D))) := by
  obtain ⟨m, hmod⟩ := model_succeeds (fuel := fuel) (f := f) (t := ⟨⟨[(u.id, u, [v.expiryTime])]⟩, [expiryFlow { v with id := name, putOrCall := k }]⟩) draw
    (k := u.id) (u := u) (obs := [v.expiryTime]) rfl hm (by
      intro i hi
      obtain rfl : i = 0 := by simpa using hi
      simpa [Spec.before] using hw) hh hn
  have hp : MonteCarlo.new fuel f [(a', .spotStarting { v with id := name, putOrCall := k } u K')] md draw =
      .ok ⟨f, [(a', .spotStarting { v with id := name, putOrCall := k } u K')], m⟩ := by
    unfold MonteCarlo.new
    rw [timeline_spot, ok_bind]
    rw [show collect md.spotDate [(a', Instrument.spotStarting { v with id := name, putOrCall := k } u K')] =
      collect md.spotDate [(a, .spotStarting v u K)] from rfl, hc, ok_bind, hmod, ok_bind]
    rfl
  have hctx : m.context = context := by
    obtain ⟨_, _, _, _, _, _, _, _, _, e⟩ := model_new_ok hmod
    rw [e]
  refine ⟨_, hp, ?_⟩
  subst hctx
  exact C52_spot_partial (v := { v with id := name, putOrCall := k }) hp hm (by rw [flow_alike]; exact hD)

/-- The price of a book is the discounted average of what it pays at the simulated values. -/
theorem book_average {a K D : ℝ} {F w δ : Nat → ℝ} {context : Prefetch} (hne : legs ≠ []) (h : PricedAlike fuel f md draw v u legs xs)
    (hc : Prefetch.new md (collect md.spotDate [(a, .spotStarting v u K)]) = .ok context)
    (hm : Spec.Market fuel context.pricingContext u [v.expiryTime] F w δ)
    (hD : (expiryFlow v).price fuel context.pricingContext ⟨context.context.spotDate, .open⟩ = .ok (.val D)) :
    f.nPaths ≠ 0 ∧ xs.sum = D * average f.nPaths (fun path => pays 0 legs (pathValue F w δ (steps f.pathSubstep w) (fun j => draw path j 0) 0)) := by
  obtain ⟨c, ks, ps, D', hcom, rfl⟩ := book_common h hne
  have e := hcom.fetched
  rw [show collect md.spotDate [((0 : ℝ), Instrument.spotStarting v u 0)] = collect md.spotDate [(a, .spotStarting v u K)] from rfl, hc] at e
  cases e
  have e := hcom.discount
  rw [hD] at e
  cases e
  have hps := rows_paths (n := steps f.pathSubstep w) (fun i => by unfold steps; omega) hm (substepping_val hm hcom.substeps) hcom.walked
  refine ⟨hcom.simulated, ?_⟩
  rw [onPaths_sum v, hps, List.map_map, mul_comm]
  congr 1

/-! ## C103 -/

/-- C103: a book that never asks its holder to pay has a price of nought or more, whatever the market and the draws, so long as its
options are priced with the same draws. -/
theorem C103_book (h : PricedAlike fuel f md draw v u legs xs) (hpay : ∀ X, 0 ≤ pays 0 legs X) : 0 ≤ xs.sum := by
  by_cases hne : legs = []
  · subst hne
    cases h
    exact le_rfl
  obtain ⟨c, ks, ps, D, hc, rfl⟩ := book_common h hne
  rw [onPaths_sum v]
  refine mul_nonneg (div_nonneg (List.sum_nonneg ?_) (Nat.cast_nonneg _)) (flow_nonneg hc.discount)
  intro y hy
  obtain ⟨path, _, rfl⟩ := List.mem_map.1 hy
  cases path.getD 0 .nan with
  | nan => exact le_rfl
  | val X => exact hpay X

/-- Any number of an option is worth that number of times one. -/
theorem reweigh {k : PutOrCall} {K x : ℝ} (b : ℝ) (h : PricedAlike fuel f md draw v u [⟨1, k, K⟩] [x]) :
    PricedAlike fuel f md draw v u [⟨b, k, K⟩] [b * x] := by
  cases h with
  | cons h _ =>
    obtain ⟨name, p, hp, hx⟩ := h
    obtain ⟨t, context, ht, hc, hb, hf, hi⟩ := new_ok hp
    refine .cons ⟨name, ⟨f, [(b, .spotStarting { v with id := name, putOrCall := k } u K)], p.model⟩, ?_, ?_⟩ .nil
    · unfold MonteCarlo.new
      rw [show timeline [(b, Instrument.spotStarting { v with id := name, putOrCall := k } u K)] .new = .ok t from ht, ok_bind,
        show collect md.spotDate [(b, Instrument.spotStarting { v with id := name, putOrCall := k } u K)] =
          collect md.spotDate [(1, .spotStarting { v with id := name, putOrCall := k } u K)] from rfl]
      dsimp only at hc
      rw [hc, ok_bind, hb, ok_bind]
      rfl
    · unfold MonteCarlo.price at hx ⊢
      rw [hi, mcLoop] at hx
      obtain ⟨y, hy, hx⟩ := bind_ok hx
      dsimp only at hy ⊢
      rw [mcLoop, hy, ok_bind, mcLoop]
      rw [mcLoop] at hx
      cases y with
      | nan => cases hx
      | val y =>
        simp only [num1, num2, zero_add, one_mul, Except.ok.injEq, Num.val.injEq] at hx ⊢
        rw [hx]

theorem alike_append {legs' : List Risk.Spec.Leg} {xs' : List ℝ} (h : PricedAlike fuel f md draw v u legs xs)
    (h' : PricedAlike fuel f md draw v u legs' xs') : PricedAlike fuel f md draw v u (legs ++ legs') (xs ++ xs') := List.rel_append h h'

/-- C103: a call costs no more than one with a lower strike. -/
theorem C103_call_falls {K₁ K₂ x₁ x₂ : ℝ} (h₁ : PricedAlike fuel f md draw v u [⟨1, .call, K₁⟩] [x₁])
    (h₂ : PricedAlike fuel f md draw v u [⟨1, .call, K₂⟩] [x₂]) (hK : K₁ ≤ K₂) : x₂ ≤ x₁ := by
  have := C103_book (alike_append h₁ (reweigh (-1) h₂)) (by
    intro X
    simp only [pays, List.cons_append, List.nil_append, List.map_cons, List.map_nil, List.sum_cons, List.sum_nil, payoff, add_zero, one_mul]
    have := max_le_max (show X - K₂ ≤ X - K₁ by linarith) (le_refl (0 : ℝ))
    linarith)
  simp at this
  exact this

/-- C103: a put costs no less than one with a lower strike. -/
theorem C103_put_rises {K₁ K₂ x₁ x₂ : ℝ} (h₁ : PricedAlike fuel f md draw v u [⟨1, .put, K₁⟩] [x₁])
    (h₂ : PricedAlike fuel f md draw v u [⟨1, .put, K₂⟩] [x₂]) (hK : K₁ ≤ K₂) : x₁ ≤ x₂ := by
  have := C103_book (alike_append h₂ (reweigh (-1) h₁)) (by
    intro X
    simp only [pays, List.cons_append, List.nil_append, List.map_cons, List.map_nil, List.sum_cons, List.sum_nil, payoff, add_zero, one_mul]
    have := max_le_max (show K₁ - X ≤ K₂ - X by linarith) (le_refl (0 : ℝ))
    linarith)
  simp at this
  exact this

/-- C103: prices are convex in the strike. -/
theorem C103_butterfly {K₁ K₂ K₃ x₁ x₂ x₃ : ℝ} {k : PutOrCall} (h₁ : PricedAlike fuel f md draw v u [⟨1, k, K₁⟩] [x₁])
    (h₂ : PricedAlike fuel f md draw v u [⟨1, k, K₂⟩] [x₂]) (h₃ : PricedAlike fuel f md draw v u [⟨1, k, K₃⟩] [x₃]) (h12 : K₁ ≤ K₂) (h23 : K₂ ≤ K₃) :
    (K₃ - K₁) * x₂ ≤ (K₃ - K₂) * x₁ + (K₂ - K₁) * x₃ := by
  have hconv : ∀ A B C : ℝ, (K₃ - K₁) * B = (K₃ - K₂) * A + (K₂ - K₁) * C → (K₃ - K₁) * max B 0 ≤ (K₃ - K₂) * max A 0 + (K₂ - K₁) * max C 0 := by
    intro A B C h
    rw [mul_max_of_nonneg _ _ (by linarith : 0 ≤ K₃ - K₁), mul_zero, h]
    have a1 := mul_le_mul_of_nonneg_left (le_max_left A 0) (by linarith : 0 ≤ K₃ - K₂)
    have a2 := mul_le_mul_of_nonneg_left (le_max_left C 0) (by linarith : 0 ≤ K₂ - K₁)
    have a3 := mul_nonneg (by linarith : 0 ≤ K₃ - K₂) (le_max_right A 0)
    have a4 := mul_nonneg (by linarith : 0 ≤ K₂ - K₁) (le_max_right C 0)
    exact max_le (by linarith) (by linarith)
  have := C103_book (alike_append (reweigh (K₃ - K₂) h₁) (alike_append (reweigh (-(K₃ - K₁)) h₂) (reweigh (K₂ - K₁) h₃))) (by
    intro X
    simp only [pays, List.cons_append, List.nil_append, List.map_cons, List.map_nil, List.sum_cons, List.sum_nil, add_zero]
    cases k
    · have := hconv (K₁ - X) (K₂ - X) (K₃ - X) (by ring)
      simp only [payoff]
      linarith
    · have := hconv (X - K₁) (X - K₂) (X - K₃) (by ring)
      simp only [payoff]
      linarith)
  simp at this
  linarith

/-- C103, bounds. Where a book pays at least what `m` of cash and `q` shares pay, it costs at least what they do: the cash discounted, and the share at its discounted
average over the paths. And likewise from above. -/
theorem C103_bounds {a K D : ℝ} {F w δ : Nat → ℝ} {context : Prefetch} (hne : legs ≠ []) (h : PricedAlike fuel f md draw v u legs xs)
    (hc : Prefetch.new md (collect md.spotDate [(a, .spotStarting v u K)]) = .ok context)
    (hm : Spec.Market fuel context.pricingContext u [v.expiryTime] F w δ)
    (hD : (expiryFlow v).price fuel context.pricingContext ⟨context.context.spotDate, .open⟩ = .ok (.val D)) (m q : ℝ) :
    ((∀ X, m + q * X ≤ pays 0 legs X) → D * (m + q * average f.nPaths (fun path =>
      pathValue F w δ (steps f.pathSubstep w) (fun j => draw path j 0) 0)) ≤ xs.sum) ∧
    ((∀ X, pays 0 legs X ≤ m + q * X) → xs.sum ≤ D * (m + q * average f.nPaths (fun path =>
      pathValue F w δ (steps f.pathSubstep w) (fun j => draw path j 0) 0))) := by
  obtain ⟨hn, hx⟩ := book_average hne h hc hm hD
  have hn' : (0 : ℝ) < f.nPaths := by exact_mod_cast Nat.pos_of_ne_zero hn
  have hD0 := flow_nonneg hD
  have key : ∀ g : ℕ → ℝ, m + q * average f.nPaths g = average f.nPaths (fun path => m + q * g path) := by
    intro g
    unfold Spec.average
    rw [Finset.sum_add_distrib, ← Finset.mul_sum, Finset.sum_const, Finset.card_range, nsmul_eq_mul]
    field_simp
  rw [key, hx]
  constructor
  · intro hb
    refine mul_le_mul_of_nonneg_left ?_ hD0
    exact div_le_div_of_nonneg_right (Finset.sum_le_sum fun path _ => hb _) hn'.le
  · intro hb
    refine mul_le_mul_of_nonneg_left ?_ hD0
    exact div_le_div_of_nonneg_right (Finset.sum_le_sum fun path _ => hb _) hn'.le

/-- C103, parity: a call less a put with the same strike is worth the discounted average of the simulated values less the discounted strike. -/
theorem C103_parity {a K K₀ D x y : ℝ} {F w δ : Nat → ℝ} {context : Prefetch} (h₁ : PricedAlike fuel f md draw v u [⟨1, .call, K⟩] [x])
    (h₂ : PricedAlike fuel f md draw v u [⟨1, .put, K⟩] [y]) (hc : Prefetch.new md (collect md.spotDate [(a, .spotStarting v u K₀)]) = .ok context)
    (hm : Spec.Market fuel context.pricingContext u [v.expiryTime] F w δ)
    (hD : (expiryFlow v).price fuel context.pricingContext ⟨context.context.spotDate, .open⟩ = .ok (.val D)) :
    x - y = D * (average f.nPaths (fun path => pathValue F w δ (steps f.pathSubstep w) (fun j => draw path j 0) 0) - K) := by
  obtain ⟨b1, b2⟩ := C103_bounds (by simp) (alike_append h₁ (reweigh (-1) h₂)) hc hm hD (-K) 1
  have hp : ∀ X, pays 0 ([⟨1, .call, K⟩] ++ [⟨-1, .put, K⟩]) X = -K + 1 * X := by
    intro X
    simp only [pays, List.cons_append, List.nil_append, List.map_cons, List.map_nil, List.sum_cons, List.sum_nil, payoff, add_zero, one_mul]
    rcases le_total X K with h | h
    · rw [max_eq_right (by linarith), max_eq_left (by linarith)]
      ring
    · rw [max_eq_left (by linarith), max_eq_right (by linarith)]
      ring
  have := le_antisymm (b1 fun X => (hp X).ge) (b2 fun X => (hp X).le)
  simp only [List.cons_append, List.nil_append, List.sum_cons, List.sum_nil, one_mul] at this
  linarith

/-- C103, parity in the mean: under standard normal draws, a call less a put is expected to be worth the discounted forward less the discounted strike. -/
theorem C103_parity_mean {Ω : Type} [MeasurableSpace Ω] {μ : Measure Ω} [IsProbabilityMeasure μ] {draws : Ω → Draws} (hd : StandardNormal μ draws)
    {a K K₀ D : ℝ} {x y : Ω → ℝ} {F w δ : Nat → ℝ} {context : Prefetch}
    (h₁ : ∀ ω, PricedAlike fuel f md (draws ω) v u [⟨1, .call, K⟩] [x ω]) (h₂ : ∀ ω, PricedAlike fuel f md (draws ω) v u [⟨1, .put, K⟩] [y ω])
    (hc : Prefetch.new md (collect md.spotDate [(a, .spotStarting v u K₀)]) = .ok context)
    (hm : Spec.Market fuel context.pricingContext u [v.expiryTime] F w δ)
    (hD : (expiryFlow v).price fuel context.pricingContext ⟨context.context.spotDate, .open⟩ = .ok (.val D)) :
    ∫ ω, (x ω - y ω) ∂μ = D * (F 0 - K) := by
  obtain ⟨ω₀⟩ : Nonempty Ω := μ.nonempty_of_neZero
  have hn := (book_average (by simp) (h₁ ω₀) hc hm hD).1
  have hn' : (f.nPaths : ℝ) ≠ 0 := by exact_mod_cast hn
  simp only [fun ω => C103_parity (h₁ ω) (h₂ ω) hc hm hD]
  have hv := fun path => C52_value_mean hd F w δ (steps f.pathSubstep w) path 0
  unfold Spec.average
  rw [integral_const_mul, integral_sub, integral_div, integral_finsetSum _ fun path _ => (hv path).1]
  · simp only [(hv _).2]
    simp [hn']
  · exact (integrable_finsetSum _ fun path _ => (hv path).1).div_const _
  · exact integrable_const K

/-- Constant draws that take the asset to a given multiple of its start. -/
theorem constant_draws {F w δ : Nat → ℝ} {h : ℝ} (hw : 0 < w 0) (y : ℝ) :
    pathValue F w δ (steps h w) (fun _ => (y - 1) / stepSize w (steps h w) 0) 0 = (F 0 - δ 0) * y ^ steps h w 0 + δ 0 := by
  have hs : 0 < stepSize w (steps h w) 0 := by
    refine Real.sqrt_pos.2 (div_pos (by simpa [Spec.before] using hw) ?_)
    exact_mod_cast (le_max_left 1 _ : 1 ≤ steps h w 0)
  unfold pathValue level level
  simp only [div_mul_cancel₀ _ hs.ne', add_sub_cancel, Finset.prod_const, Finset.card_range, one_mul]

/-- C103, parity with the forward is violated: wherever there is volatility there are draws with which a call less a put is not worth
the discounted forward less the discounted strike, which is what the self pricer makes of it. -/
theorem C103_parity_false {a K K₀ D : ℝ} {F w δ : Nat → ℝ} {context : Prefetch}
    (hc : Prefetch.new md (collect md.spotDate [(a, .spotStarting v u K₀)]) = .ok context)
    (hm : Spec.Market fuel context.pricingContext u [v.expiryTime] F w δ)
    (hD : (expiryFlow v).price fuel context.pricingContext ⟨context.context.spotDate, .open⟩ = .ok (.val D)) (hD0 : 0 < D)
    (hw : 0 < w 0) (hF : δ 0 < F 0) (hh : f.pathSubstep ≠ 0) (hn : f.nPaths ≠ 0) :
    ∃ draw x y, PricedAlike fuel f md draw v u [⟨1, .call, K⟩] [x] ∧ PricedAlike fuel f md draw v u [⟨1, .put, K⟩] [y] ∧ x - y ≠ D * (F 0 - K) := by
  let draw : Draws := fun _ _ _ => (2 - 1) / stepSize w (steps f.pathSubstep w) 0
  obtain ⟨p, hp, hx⟩ := price_drawn (f := f) v.id .call hc hm hD hw.le hh hn draw 1 K
  obtain ⟨q, hq, hy⟩ := price_drawn (f := f) v.id .put hc hm hD hw.le hh hn draw 1 K
  have h₁ : PricedAlike fuel f md draw v u [⟨1, .call, K⟩] [_] := .cons ⟨_, p, hp, hx⟩ .nil
  have h₂ : PricedAlike fuel f md draw v u [⟨1, .put, K⟩] [_] := .cons ⟨_, q, hq, hy⟩ .nil
  refine ⟨draw, _, _, h₁, h₂, ?_⟩
  rw [C103_parity h₁ h₂ hc hm hD]
  simp only [draw, constant_draws hw, average_const hn]
  intro h
  have h := mul_left_cancel₀ hD0.ne' h
  have h2 : (2 : ℝ) ≤ 2 ^ steps f.pathSubstep w 0 := le_self_pow₀ (by norm_num) (by unfold steps; omega)
  nlinarith [sub_pos.2 hF]

/-- C103 violated between runs: every pricer takes draws of its own, `blackdiffusion.rs:352`. Wherever there is volatility, and whatever the strikes, there
are two runs of which one prices the first call below what the other makes of the second. -/
theorem C103_runs_false {a K₀ K₁ K₂ D : ℝ} {F w δ : Nat → ℝ} {context : Prefetch}
    (hc : Prefetch.new md (collect md.spotDate [(a, .spotStarting v u K₀)]) = .ok context)
    (hm : Spec.Market fuel context.pricingContext u [v.expiryTime] F w δ)
    (hD : (expiryFlow v).price fuel context.pricingContext ⟨context.context.spotDate, .open⟩ = .ok (.val D)) (hD0 : 0 < D)
    (hw : 0 < w 0) (hF : δ 0 < F 0) (hh : f.pathSubstep ≠ 0) (hn : f.nPaths ≠ 0) :
    ∃ draw draw' x y, PricedAlike fuel f md draw v u [⟨1, .call, K₁⟩] [x] ∧ PricedAlike fuel f md draw' v u [⟨1, .call, K₂⟩] [y] ∧ x < y := by
  let M : ℝ := 1 + (max (F 0 - K₁) 0 + |K₂ - δ 0|) / (F 0 - δ 0)
  have hFd : 0 < F 0 - δ 0 := sub_pos.2 hF
  have hM1 : 1 ≤ M := by
    have : 0 ≤ (max (F 0 - K₁) 0 + |K₂ - δ 0|) / (F 0 - δ 0) := div_nonneg (add_nonneg (le_max_right _ _) (abs_nonneg _)) hFd.le
    simp only [M]
    linarith
  have hMn : M ≤ M ^ steps f.pathSubstep w 0 := le_self_pow₀ hM1 (by unfold steps; omega)
  have hMX : (F 0 - δ 0) * M = F 0 - δ 0 + (max (F 0 - K₁) 0 + |K₂ - δ 0|) := by
    simp only [M]
    field_simp
  obtain ⟨p, hp, hx⟩ := price_drawn (f := f) v.id .call hc hm hD hw.le hh hn (fun _ _ _ => (1 - 1) / stepSize w (steps f.pathSubstep w) 0) 1 K₁
  obtain ⟨q, hq, hy⟩ := price_drawn (f := f) v.id .call hc hm hD hw.le hh hn (fun _ _ _ => (M - 1) / stepSize w (steps f.pathSubstep w) 0) 1 K₂
  refine ⟨_, _, _, _, .cons ⟨_, p, hp, hx⟩ .nil, .cons ⟨_, q, hq, hy⟩ .nil, ?_⟩
  simp only [constant_draws hw, average_const hn, one_mul, payoff, one_pow, mul_one]
  refine mul_lt_mul_of_pos_right ?_ hD0
  have h1 := mul_le_mul_of_nonneg_left hMn hFd.le
  have h2 := le_abs_self (K₂ - δ 0)
  rw [show F 0 - δ 0 + δ 0 = F 0 by ring]
  refine lt_of_lt_of_le ?_ (le_max_left _ _)
  linarith

/-! ## Examples -/

/-- The sample market has what the theorems ask for. -/
theorem sample_common : ∃ context, Prefetch.new (sampleMarket 100 (.zero 0)) (collect (sampleMarket 100 (.zero 0)).spotDate [((1 : ℝ), optionA 90)]) = .ok context ∧
    Spec.Market fuel context.pricingContext equityA [sampleTerms.expiryTime] (fun _ => 100) (fun _ => 2 / 73 * 0.2 ^ 2) (fun _ => 0) ∧
    (expiryFlow sampleTerms).price fuel context.pricingContext ⟨context.context.spotDate, .open⟩ = .ok (.val 1) := by
  obtain ⟨fw, hf, hf'⟩ := sample_forward_flat 100 10
  have hc := sample_new (md := sampleMarket 100 (.zero 0)) (c := collect 0 [((1 : ℝ), optionA 90)]) (v := .flat (.val 0.2) .everyDay (0, 0)) rfl rfl hf rfl
  exact ⟨_, hc, sample_market _ _ (hf' 10 le_rfl) (by simp [sampleTerms]) (by simp), sample_discount⟩

/-- A butterfly of sample options is priced, with any draws. -/
example (hh : f.pathSubstep ≠ 0) (hn : f.nPaths ≠ 0) : ∃ x y z, PricedAlike fuel f (sampleMarket 100 (.zero 0)) draw sampleTerms equityA
    [⟨1, .call, 90⟩, ⟨-2, .call, 100⟩, ⟨1, .call, 110⟩] [x, y, z] ∧ ∀ X, 0 ≤ pays 0 [⟨1, .call, 90⟩, ⟨-2, .call, 100⟩, ⟨1, .call, 110⟩] X := by
  obtain ⟨context, hc, hm, hD⟩ := sample_common (fuel := fuel)
  have h := fun a K => price_drawn (f := f) sampleTerms.id .call hc hm hD (by norm_num) hh hn draw a K
  obtain ⟨p, hp, hx⟩ := h 1 90
  obtain ⟨q, hq, hy⟩ := h (-2) 100
  obtain ⟨r, hr, hz⟩ := h 1 110
  refine ⟨_, _, _, .cons ⟨_, p, hp, hx⟩ (.cons ⟨_, q, hq, hy⟩ (.cons ⟨_, r, hr, hz⟩ .nil)), fun X => ?_⟩
  simp only [pays, List.map_cons, List.map_nil, List.sum_cons, List.sum_nil, payoff, add_zero, one_mul]
  rcases le_total X 100 with h | h
  · rw [max_eq_right (show X - 100 ≤ 0 by linarith)]
    have := le_max_right (X - 90) 0
    have := le_max_right (X - 110) 0
    linarith
  · rw [max_eq_left (show 0 ≤ X - 100 by linarith), max_eq_left (show 0 ≤ X - 90 by linarith)]
    have := le_max_left (X - 110) 0
    linarith

/-- A call on the sample equity struck at 110 costs more in one run than one struck at 90 in another. -/
example (hh : f.pathSubstep ≠ 0) (hn : f.nPaths ≠ 0) : ∃ draw draw' x y,
    PricedAlike fuel f (sampleMarket 100 (.zero 0)) draw sampleTerms equityA [⟨1, .call, 90⟩] [x] ∧
    PricedAlike fuel f (sampleMarket 100 (.zero 0)) draw' sampleTerms equityA [⟨1, .call, 110⟩] [y] ∧ x < y := by
  obtain ⟨context, hc, hm, hD⟩ := sample_common (fuel := fuel)
  exact C103_runs_false hc hm hD one_pos (by norm_num) (by norm_num) hh hn

end QM.MonteCarlo
