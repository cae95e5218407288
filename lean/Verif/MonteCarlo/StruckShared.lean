import Verif.MonteCarlo.SharedProps
import Verif.MonteCarlo.StruckProps

/-!
# Property C103 for options that are not struck yet: priced on the same paths they admit no arbitrage either
-/

namespace QM.MonteCarlo.Spec
open QM.Interp QM.Vol QM.Fixings QM.Instruments QM.Market QM.Risk

/-- The forward-starting options of a book are priced one by one, each by a Monte-Carlo pricer of its own, all with the same draws. They have the same terms but
for name, kind and the fraction of the price at which they are struck. -/
def StruckAlike (fuel : Nat) (f : ModelFactory) (md : MarketData) (draw : Draws) (v : Vanilla) (u : Instrument) (d : DateTime) (s : Point) (legs : List Risk.Spec.Leg)
    (xs : List ℝ) : Prop :=
  List.Forall₂ (fun l x => ∃ name p, MonteCarlo.new fuel f [(l.amount, .forwardStarting { v with id := name, putOrCall := l.kind } u l.strike d s)] md draw = .ok p ∧
    p.price fuel = .ok (.val x)) legs xs

/-- What the options pay if they are struck when the price is `X` and expire when it is `Y`. -/
noncomputable def struckPays (legs : List Risk.Spec.Leg) (X Y : ℝ) : ℝ :=
  (legs.map fun l => l.amount * QM.Instruments.Spec.payoff l.kind Y (l.strike * X)).sum

end QM.MonteCarlo.Spec

namespace QM.MonteCarlo
open QM.Interp QM.Vol QM.Instruments QM.Market QM.Risk QM.Fixings QM.Curves Spec MeasureTheory ProbabilityTheory
open QM.Instruments.Spec (payoff)

variable {fuel : Nat} {f : ModelFactory} {md : MarketData} {draw : Draws} {v : Vanilla} {u : Instrument} {d : DateTime} {s : Point} {legs : List Risk.Spec.Leg} {xs : List ℝ}

/-! ## Lemmas -/

/-- The value of an option on given paths, before it is multiplied by the amount and discounted. -/
noncomputable def struckOn (n : Nat) (paths : List (List (Num ℝ))) (kind : PutOrCall) (φ : ℝ) : ℝ :=
  (paths.map fun path => nmax (num1 (sign kind * ·) (num2 (· - ·) (path.getD 1 .nan) (num1 (φ * ·) (path.getD 0 .nan)))) 0).sum / n

/-- What the model of an option is made of: nothing that depends on its name, kind, fraction or amount. -/
structure StruckCommon (fuel : Nat) (f : ModelFactory) (md : MarketData) (draw : Draws) (v : Vanilla) (u : Instrument) (d : DateTime) (s : Point) (context : Prefetch)
    (ks : List Nat) (paths : List (List (Num ℝ))) (D : ℝ) : Prop where
  fetched : Prefetch.new md (collect md.spotDate [(0, .forwardStarting v u 0 d s)]) = .ok context
  substeps : calculateSubstepping fuel context.pricingContext [s, v.expiryTime] [u] f.pathSubstep = .ok ks
  walked : fetchPath fuel u context.pricingContext [s, v.expiryTime] (rows f.nPaths ks.sum draw) ks = .ok paths
  discount : (expiryFlow v).price fuel context.pricingContext ⟨context.context.spotDate, .open⟩ = .ok (.val D)
  simulated : f.nPaths ≠ 0

theorem StruckCommon.unique {c c' : Prefetch} {ks ks' : List Nat} {ps ps' : List (List (Num ℝ))} {D D' : ℝ} (h : StruckCommon fuel f md draw v u d s c ks ps D)
    (h' : StruckCommon fuel f md draw v u d s c' ks' ps' D') : ps = ps' ∧ D = D' := by
  have h1 := h.fetched
  rw [h'.fetched] at h1
  cases h1
  have h2 := h.substeps
  rw [h'.substeps] at h2
  cases h2
  have h3 := h.walked
  rw [h'.walked] at h3
  cases h3
  have h4 := h.discount
  rw [h'.discount] at h4
  cases h4
  exact ⟨rfl, rfl⟩

theorem struck_common {a φ x : ℝ} {name : String} {k : PutOrCall} {p : MonteCarlo}
    (h : MonteCarlo.new fuel f [(a, .forwardStarting { v with id := name, putOrCall := k } u φ d s)] md draw = .ok p) (hx : p.price fuel = .ok (.val x)) :
    ∃ c ks ps D, StruckCommon fuel f md draw v u d s c ks ps D ∧ x = a * (struckOn f.nPaths ps k φ * D) := by
  obtain ⟨t, context, ht, hc, hb, hf, hi⟩ := new_ok h
  rw [timeline_forward] at ht
  cases ht
  have hb0 := hb
  obtain ⟨k', u', obs, ks, paths, he, hs, hpath, hn, hmod⟩ := model_new_ok hb
  cases he
  unfold MonteCarlo.price at hx
  rw [hi, mcLoop, mcPrice, pathsOf_only hb0 (by rw [hmod]), ok_bind, if_neg (by rw [hmod]; simp)] at hx
  obtain ⟨y, hy, hx⟩ := bind_ok hx
  rw [mcLoop] at hx
  unfold BlackDiffusion.evaluateFlows at hy
  split at hy
  · cases hy
  rw [hmod] at hy
  dsimp only at hy
  rw [List.zip_cons_cons, List.zip_nil_left, flowsLoop, if_pos (show isPureRates (expiryFlow _) = true from rfl)] at hy
  dsimp only at hy
  obtain ⟨D, hD, hy⟩ := bind_ok hy
  rw [flowsLoop] at hy
  have hn' : ((f.nPaths : ℕ) : ℝ) ≠ 0 := by exact_mod_cast hn
  cases hy
  cases D with
  | nan => simp [ndiv, num2, num1, hn'] at hx
  | val D =>
    refine ⟨context, ks, paths, D, ⟨hc, hs, hpath, ?_, hn⟩, ?_⟩
    · rw [← flow_alike name k]
      exact hD
    · simp only [ndiv, num2, num1, hn', if_false, zero_add, Except.ok.injEq, Num.val.injEq] at hx
      rw [← hx]
      rfl

/-- All the options of a book have the same model. -/
theorem struck_book (h : StruckAlike fuel f md draw v u d s legs xs) (hne : legs ≠ []) : ∃ c ks ps D, StruckCommon fuel f md draw v u d s c ks ps D ∧
    xs = legs.map fun l => l.amount * (struckOn f.nPaths ps l.kind l.strike * D) := by
  induction h with
  | nil => exact absurd rfl hne
  | @cons l x legs xs h1 h2 ih =>
    obtain ⟨name, p, hp, hx⟩ := h1
    obtain ⟨c, ks, ps, D, hc, he⟩ := struck_common hp hx
    refine ⟨c, ks, ps, D, hc, ?_⟩
    rw [List.map_cons, he]
    congr 1
    cases legs with
    | nil =>
      cases h2
      rfl
    | cons l' legs =>
      obtain ⟨c', ks', ps', D', hc', he'⟩ := ih (by simp)
      obtain ⟨rfl, rfl⟩ := hc.unique hc'
      exact he'

theorem struckPays_cons (l : Risk.Spec.Leg) (X Y : ℝ) : struckPays (l :: legs) X Y = l.amount * payoff l.kind Y (l.strike * X) + struckPays legs X Y := by
  simp [struckPays]

/-- What a book pays on a path. -/
noncomputable def onPath (legs : List Risk.Spec.Leg) (path : List (Num ℝ)) : ℝ :=
  match path.getD 0 .nan, path.getD 1 .nan with
  | .val X, .val Y => struckPays legs X Y
  | _, _ => 0

theorem struckOn_sum (v : Vanilla) (n : Nat) (ps : List (List (Num ℝ))) (D : ℝ) : ∀ legs : List Risk.Spec.Leg,
    (legs.map fun l => l.amount * (struckOn n ps l.kind l.strike * D)).sum = (ps.map (onPath legs)).sum / n * D
  | [] => by
    have : onPath [] = fun _ => 0 := by
      funext path
      unfold onPath
      split <;> rfl
    rw [this]
    simp
  | l :: legs => by
    rw [List.map_cons, List.sum_cons, struckOn_sum v n ps D legs]
    unfold struckOn
    rw [show ∀ a b c d e : ℝ, a * (b / c * d) + e / c * d = (a * b + e) / c * d by intros; ring]
    congr 2
    rw [← List.sum_map_mul_left, ← List.sum_map_add]
    congr 1
    apply List.map_congr_left
    intro path _
    unfold onPath
    cases path.getD 0 .nan with
    | nan => cases path.getD 1 .nan <;> simp [num1, num2, nmax]
    | val X =>
      cases path.getD 1 .nan with
      | nan => simp [num1, num2, nmax]
      | val Y =>
        dsimp only
        rw [struckPays_cons]
        congr 2
        exact payoff_val { v with putOrCall := l.kind } Y (l.strike * X)

/-- The price of a book is the discounted average of what it pays at the simulated values. -/
theorem struck_average {a φ D : ℝ} {F w δ : Nat → ℝ} {context : Prefetch} (hne : legs ≠ []) (h : StruckAlike fuel f md draw v u d s legs xs)
    (hc : Prefetch.new md (collect md.spotDate [(a, .forwardStarting v u φ d s)]) = .ok context)
    (hm : Spec.Market fuel context.pricingContext u [s, v.expiryTime] F w δ)
    (hD : (expiryFlow v).price fuel context.pricingContext ⟨context.context.spotDate, .open⟩ = .ok (.val D)) :
    f.nPaths ≠ 0 ∧ xs.sum = D * average f.nPaths (fun path => struckPays legs (pathValue F w δ (steps f.pathSubstep w) (fun j => draw path j 0) 0)
      (pathValue F w δ (steps f.pathSubstep w) (fun j => draw path j 0) 1)) := by
  obtain ⟨c, ks, ps, D', hcom, rfl⟩ := struck_book h hne
  have e := hcom.fetched
  rw [show collect md.spotDate [((0 : ℝ), Instrument.forwardStarting v u 0 d s)] = collect md.spotDate [(a, .forwardStarting v u φ d s)] from rfl, hc] at e
  cases e
  have e := hcom.discount
  rw [hD] at e
  cases e
  have hps := rows_paths (n := steps f.pathSubstep w) (fun i => by unfold steps; omega) hm (substepping_val hm hcom.substeps) hcom.walked
  refine ⟨hcom.simulated, ?_⟩
  rw [struckOn_sum v, hps, List.map_map, mul_comm]
  congr 1

/-- Any number of an option is worth that number of times one. -/
theorem struck_reweigh {k : PutOrCall} {φ x : ℝ} (b : ℝ) (h : StruckAlike fuel f md draw v u d s [⟨1, k, φ⟩] [x]) :
    StruckAlike fuel f md draw v u d s [⟨b, k, φ⟩] [b * x] := by
  cases h with
  | cons h _ =>
    obtain ⟨name, p, hp, hx⟩ := h
    obtain ⟨t, context, ht, hc, hb, hf, hi⟩ := new_ok hp
    refine .cons ⟨name, ⟨f, [(b, .forwardStarting { v with id := name, putOrCall := k } u φ d s)], p.model⟩, ?_, ?_⟩ .nil
    · unfold MonteCarlo.new
      rw [timeline_forward] at ht
      rw [timeline_forward, ht, ok_bind,
        show collect md.spotDate [(b, Instrument.forwardStarting { v with id := name, putOrCall := k } u φ d s)] =
          collect md.spotDate [(1, .forwardStarting { v with id := name, putOrCall := k } u φ d s)] from rfl]
      dsimp only at hc
      rw [hc, ok_bind, hb, ok_bind]
      rfl
    · unfold MonteCarlo.price at hx ⊢
      rw [hi, mcLoop] at hx
      obtain ⟨y, hy, hx⟩ := bind_ok hx
      dsimp only at hy ⊢
      rw [mcLoop, hy, ok_bind, mcLoop]
      rw [mcLoop] at hx
      cases y with
      | nan => cases hx
      | val y =>
        simp only [num1, num2, zero_add, one_mul, Except.ok.injEq, Num.val.injEq] at hx ⊢
        rw [hx]

theorem struck_append {legs' : List Risk.Spec.Leg} {xs' : List ℝ} (h : StruckAlike fuel f md draw v u d s legs xs)
    (h' : StruckAlike fuel f md draw v u d s legs' xs') : StruckAlike fuel f md draw v u d s (legs ++ legs') (xs ++ xs') := List.rel_append h h'

/-! ## C103 -/

/-- C103, options that are not struck yet: a book of them that never asks its holder to pay, whatever the price when they are struck and when they expire, has
a price of nought or more, whatever the market and the draws, so long as its options are priced with the same draws. -/
theorem C103_struck_book (h : StruckAlike fuel f md draw v u d s legs xs) (hpay : ∀ X Y, 0 ≤ struckPays legs X Y) : 0 ≤ xs.sum := by
  by_cases hne : legs = []
  · subst hne
    cases h
    exact le_rfl
  obtain ⟨c, ks, ps, D, hc, rfl⟩ := struck_book h hne
  rw [struckOn_sum v]
  refine mul_nonneg (div_nonneg (List.sum_nonneg ?_) (Nat.cast_nonneg _)) (flow_nonneg hc.discount)
  intro y hy
  obtain ⟨path, _, rfl⟩ := List.mem_map.1 hy
  unfold onPath
  split
  · exact hpay _ _
  · exact le_rfl

/-- C103, options that are not struck yet: the price of an option is convex in the fraction of the price at which it is struck. -/
theorem C103_struck_butterfly {k : PutOrCall} {φ₁ φ₂ φ₃ x₁ x₂ x₃ : ℝ} (h₁ : StruckAlike fuel f md draw v u d s [⟨1, k, φ₁⟩] [x₁])
    (h₂ : StruckAlike fuel f md draw v u d s [⟨1, k, φ₂⟩] [x₂]) (h₃ : StruckAlike fuel f md draw v u d s [⟨1, k, φ₃⟩] [x₃])
    (h12 : φ₁ ≤ φ₂) (h23 : φ₂ ≤ φ₃) : (φ₃ - φ₁) * x₂ ≤ (φ₃ - φ₂) * x₁ + (φ₂ - φ₁) * x₃ := by
  have hconv : ∀ A B C : ℝ, (φ₃ - φ₁) * B = (φ₃ - φ₂) * A + (φ₂ - φ₁) * C → (φ₃ - φ₁) * max B 0 ≤ (φ₃ - φ₂) * max A 0 + (φ₂ - φ₁) * max C 0 := by
    intro A B C h
    rw [mul_max_of_nonneg _ _ (by linarith), mul_zero, h]
    have a1 := mul_le_mul_of_nonneg_left (le_max_left A 0) (by linarith : 0 ≤ φ₃ - φ₂)
    have a2 := mul_le_mul_of_nonneg_left (le_max_left C 0) (by linarith : 0 ≤ φ₂ - φ₁)
    have a3 := mul_nonneg (by linarith : 0 ≤ φ₃ - φ₂) (le_max_right A 0)
    have a4 := mul_nonneg (by linarith : 0 ≤ φ₂ - φ₁) (le_max_right C 0)
    exact max_le (by linarith) (by linarith)
  have := C103_struck_book (struck_append (struck_reweigh (φ₃ - φ₂) h₁) (struck_append (struck_reweigh (-(φ₃ - φ₁)) h₂) (struck_reweigh (φ₂ - φ₁) h₃))) (by
    intro X Y
    simp only [struckPays, List.cons_append, List.nil_append, List.map_cons, List.map_nil, List.sum_cons, List.sum_nil, add_zero]
    cases k
    · have := hconv (φ₁ * X - Y) (φ₂ * X - Y) (φ₃ * X - Y) (by ring)
      simp only [payoff]
      linarith
    · have := hconv (Y - φ₁ * X) (Y - φ₂ * X) (Y - φ₃ * X) (by ring)
      simp only [payoff]
      linarith)
  simp at this
  linarith

/-- C103, options that are not struck yet, bounds. Where no simulated price at the time of striking is below nought, a book that pays at least
what `m` of cash, `q` shares bought at the striking and `r` shares pay for such prices costs at least what they do on the paths. -/
theorem C103_struck_bounds {a φ D : ℝ} {F w δ : Nat → ℝ} {context : Prefetch} (hne : legs ≠ []) (h : StruckAlike fuel f md draw v u d s legs xs)
    (hc : Prefetch.new md (collect md.spotDate [(a, .forwardStarting v u φ d s)]) = .ok context)
    (hm : Spec.Market fuel context.pricingContext u [s, v.expiryTime] F w δ)
    (hD : (expiryFlow v).price fuel context.pricingContext ⟨context.context.spotDate, .open⟩ = .ok (.val D))
    (hX : ∀ path < f.nPaths, 0 ≤ pathValue F w δ (steps f.pathSubstep w) (fun j => draw path j 0) 0) (m q r : ℝ)
    (hb : ∀ X Y, 0 ≤ X → m + q * X + r * Y ≤ struckPays legs X Y) :
    D * (m + q * average f.nPaths (fun path => pathValue F w δ (steps f.pathSubstep w) (fun j => draw path j 0) 0) +
      r * average f.nPaths (fun path => pathValue F w δ (steps f.pathSubstep w) (fun j => draw path j 0) 1)) ≤ xs.sum := by
  obtain ⟨hn, hx⟩ := struck_average hne h hc hm hD
  have hn' : (0 : ℝ) < f.nPaths := by exact_mod_cast Nat.pos_of_ne_zero hn
  have key : ∀ g g' : ℕ → ℝ, m + q * average f.nPaths g + r * average f.nPaths g' = average f.nPaths (fun path => m + q * g path + r * g' path) := by
    intro g g'
    unfold Spec.average
    rw [Finset.sum_add_distrib, Finset.sum_add_distrib, ← Finset.mul_sum, ← Finset.mul_sum, Finset.sum_const, Finset.card_range, nsmul_eq_mul]
    field_simp
  rw [key, hx]
  refine mul_le_mul_of_nonneg_left ?_ (flow_nonneg hD)
  exact div_le_div_of_nonneg_right (Finset.sum_le_sum fun path hp => hb _ _ (hX path (Finset.mem_range.1 hp))) hn'.le

/-- C103, options that are not struck yet: a call costs no more than one struck at a lower fraction, and a put no less, where no simulated price at the time of
striking is below nought. -/
theorem C103_struck_fractions {a φ φ₁ φ₂ D x₁ x₂ : ℝ} {F w δ : Nat → ℝ} {context : Prefetch} {k : PutOrCall}
    (h₁ : StruckAlike fuel f md draw v u d s [⟨1, k, φ₁⟩] [x₁]) (h₂ : StruckAlike fuel f md draw v u d s [⟨1, k, φ₂⟩] [x₂]) (hφ : φ₁ ≤ φ₂)
    (hc : Prefetch.new md (collect md.spotDate [(a, .forwardStarting v u φ d s)]) = .ok context)
    (hm : Spec.Market fuel context.pricingContext u [s, v.expiryTime] F w δ)
    (hD : (expiryFlow v).price fuel context.pricingContext ⟨context.context.spotDate, .open⟩ = .ok (.val D))
    (hX : ∀ path < f.nPaths, 0 ≤ pathValue F w δ (steps f.pathSubstep w) (fun j => draw path j 0) 0) :
    (k = .call → x₂ ≤ x₁) ∧ (k = .put → x₁ ≤ x₂) := by
  constructor
  · rintro rfl
    have := C103_struck_bounds (by simp) (struck_append h₁ (struck_reweigh (-1) h₂)) hc hm hD hX 0 0 0 (by
      intro X Y hX
      simp only [struckPays, List.cons_append, List.nil_append, List.map_cons, List.map_nil, List.sum_cons, List.sum_nil, payoff, add_zero, one_mul]
      have := max_le_max (sub_le_sub_left (mul_le_mul_of_nonneg_right hφ hX) Y) (le_refl (0 : ℝ))
      linarith)
    simp at this
    exact this
  · rintro rfl
    have := C103_struck_bounds (by simp) (struck_append h₂ (struck_reweigh (-1) h₁)) hc hm hD hX 0 0 0 (by
      intro X Y hX
      simp only [struckPays, List.cons_append, List.nil_append, List.map_cons, List.map_nil, List.sum_cons, List.sum_nil, payoff, add_zero, one_mul]
      have := max_le_max (sub_le_sub_right (mul_le_mul_of_nonneg_right hφ hX) Y) (le_refl (0 : ℝ))
      linarith)
    simp at this
    exact this

/-- C103, options that are not struck yet, parity: a call less a put is worth the discounted average of the simulated prices at expiry less that fraction of those at
the time of striking. -/
theorem C103_struck_parity {a φ φ₀ D x y : ℝ} {F w δ : Nat → ℝ} {context : Prefetch} (h₁ : StruckAlike fuel f md draw v u d s [⟨1, .call, φ⟩] [x])
    (h₂ : StruckAlike fuel f md draw v u d s [⟨1, .put, φ⟩] [y]) (hc : Prefetch.new md (collect md.spotDate [(a, .forwardStarting v u φ₀ d s)]) = .ok context)
    (hm : Spec.Market fuel context.pricingContext u [s, v.expiryTime] F w δ)
    (hD : (expiryFlow v).price fuel context.pricingContext ⟨context.context.spotDate, .open⟩ = .ok (.val D)) :
    x - y = D * (average f.nPaths (fun path => pathValue F w δ (steps f.pathSubstep w) (fun j => draw path j 0) 1) -
      φ * average f.nPaths (fun path => pathValue F w δ (steps f.pathSubstep w) (fun j => draw path j 0) 0)) := by
  obtain ⟨hn, hx⟩ := struck_average (by simp) (struck_append h₁ (struck_reweigh (-1) h₂)) hc hm hD
  have hp : ∀ X Y, struckPays ([⟨1, .call, φ⟩] ++ [⟨-1, .put, φ⟩]) X Y = Y - φ * X := by
    intro X Y
    simp only [struckPays, List.cons_append, List.nil_append, List.map_cons, List.map_nil, List.sum_cons, List.sum_nil, payoff, add_zero, one_mul]
    rcases le_total Y (φ * X) with h | h
    · rw [max_eq_right (by linarith), max_eq_left (by linarith)]
      ring
    · rw [max_eq_left (by linarith), max_eq_right (by linarith)]
      ring
  simp only [hp] at hx
  unfold Spec.average at hx ⊢
  rw [Finset.sum_sub_distrib, ← Finset.mul_sum] at hx
  simp only [List.cons_append, List.nil_append, List.sum_cons, List.sum_nil] at hx
  rw [show x - y = x + (-1 * y + 0) by ring, hx]
  ring

/-- C103, options that are not struck yet, parity in the mean: under standard normal draws, a call less a put is expected to be worth the discounted forward to expiry
less that fraction of the forward to the time of striking. -/
theorem C103_struck_parity_mean {Ω : Type} [MeasurableSpace Ω] {μ : Measure Ω} [IsProbabilityMeasure μ] {draws : Ω → Draws} (hd : StandardNormal μ draws)
    {a φ φ₀ D : ℝ} {x y : Ω → ℝ} {F w δ : Nat → ℝ} {context : Prefetch}
    (h₁ : ∀ ω, StruckAlike fuel f md (draws ω) v u d s [⟨1, .call, φ⟩] [x ω]) (h₂ : ∀ ω, StruckAlike fuel f md (draws ω) v u d s [⟨1, .put, φ⟩] [y ω])
    (hc : Prefetch.new md (collect md.spotDate [(a, .forwardStarting v u φ₀ d s)]) = .ok context)
    (hm : Spec.Market fuel context.pricingContext u [s, v.expiryTime] F w δ)
    (hD : (expiryFlow v).price fuel context.pricingContext ⟨context.context.spotDate, .open⟩ = .ok (.val D)) :
    ∫ ω, (x ω - y ω) ∂μ = D * (F 1 - φ * F 0) := by
  obtain ⟨ω₀⟩ : Nonempty Ω := μ.nonempty_of_neZero
  have hn := (struck_average (by simp) (h₁ ω₀) hc hm hD).1
  have hn' : (f.nPaths : ℝ) ≠ 0 := by exact_mod_cast hn
  simp only [fun ω => C103_struck_parity (h₁ ω) (h₂ ω) hc hm hD]
  have hv := fun path i => C52_value_mean hd F w δ (steps f.pathSubstep w) path i
  have ha : ∀ i, Integrable (fun ω => average f.nPaths fun path => pathValue F w δ (steps f.pathSubstep w) (fun j => draws ω path j 0) i) μ ∧
      ∫ ω, average f.nPaths (fun path => pathValue F w δ (steps f.pathSubstep w) (fun j => draws ω path j 0) i) ∂μ = F i := by
    intro i
    unfold Spec.average
    refine ⟨(integrable_finsetSum _ fun path _ => (hv path i).1).div_const _, ?_⟩
    rw [integral_div, integral_finsetSum _ fun path _ => (hv path i).1]
    simp only [(hv _ i).2]
    simp [hn']
  rw [integral_const_mul, integral_sub (ha 1).1 ((ha 0).1.const_mul φ), integral_const_mul, (ha 1).2, (ha 0).2]

/-- An option with these terms has a price with any draws. -/
theorem struck_drawn {a φ D : ℝ} {F w δ : Nat → ℝ} {context : Prefetch} (name : String) (k : PutOrCall)
    (hc : Prefetch.new md (collect md.spotDate [(a, .forwardStarting v u φ d s)]) = .ok context)
    (hm : Spec.Market fuel context.pricingContext u [s, v.expiryTime] F w δ)
    (hD : (expiryFlow v).price fuel context.pricingContext ⟨context.context.spotDate, .open⟩ = .ok (.val D)) (hw0 : 0 ≤ w 0) (hw1 : w 0 ≤ w 1)
    (hh : f.pathSubstep ≠ 0) (hn : f.nPaths ≠ 0) (draw : Draws) (a' φ' : ℝ) :
    ∃ p, MonteCarlo.new fuel f [(a', .forwardStarting { v with id := name, putOrCall := k } u φ' d s)] md draw = .ok p ∧
      p.price fuel = .ok (.val (a' * (average f.nPaths (fun path =>
        payoff k (pathValue F w δ (steps f.pathSubstep w) (fun j => draw path j 0) 1) (φ' * pathValue F w δ (steps f.pathSubstep w) (fun j => draw path j 0) 0)) * D))) := by
  obtain ⟨m, hmod⟩ := model_succeeds (fuel := fuel) (f := f) (t := ⟨⟨[(u.id, u, [s, v.expiryTime])]⟩, [expiryFlow { v with id := name, putOrCall := k }]⟩) draw
    (k := u.id) (u := u) (obs := [s, v.expiryTime]) rfl hm (by
      intro i hi
      match i, hi with
      | 0, _ => exact hw0
      | 1, _ => exact hw1) hh hn
  have hp : MonteCarlo.new fuel f [(a', .forwardStarting { v with id := name, putOrCall := k } u φ' d s)] md draw =
      .ok ⟨f, [(a', .forwardStarting { v with id := name, putOrCall := k } u φ' d s)], m⟩ := by
    unfold MonteCarlo.new
    rw [timeline_forward, ok_bind]
    rw [show collect md.spotDate [(a', Instrument.forwardStarting { v with id := name, putOrCall := k } u φ' d s)] =
      collect md.spotDate [(a, .forwardStarting v u φ d s)] from rfl, hc, ok_bind]
    rw [show ({ v with id := name, putOrCall := k } : Vanilla).expiryTime = v.expiryTime from rfl, hmod, ok_bind]
    rfl
  have hctx : m.context = context := by
    obtain ⟨_, _, _, _, _, _, _, _, _, e⟩ := model_new_ok hmod
    rw [e]
  refine ⟨_, hp, ?_⟩
  subst hctx
  exact C52_forward_partial (v := { v with id := name, putOrCall := k }) hp hm (by rw [flow_alike]; exact hD)

/-- Draws that turn the walk upside down at once and leave it there. -/
noncomputable def upset (w : Nat → ℝ) (n : Nat → Nat) : Draws := fun _ j _ => if j = 0 then -2 / stepSize w n 0 else 0

theorem upset_level {w : Nat → ℝ} {h : ℝ} (hw : 0 < w 0) (path : Nat) :
    ∀ i, level w (steps h w) (fun j => upset w (steps h w) path j 0) (i + 1) = -1
  | 0 => by
    have hs : 0 < stepSize w (steps h w) 0 := by
      refine Real.sqrt_pos.2 (div_pos (by simpa [Spec.before] using hw) ?_)
      exact_mod_cast (le_max_left 1 _ : 1 ≤ steps h w 0)
    obtain ⟨n, hn⟩ : ∃ n, steps h w 0 = n + 1 := ⟨steps h w 0 - 1, by unfold steps; omega⟩
    unfold level level
    rw [hn, Finset.prod_range_succ']
    simp only [start, zero_add, upset, Nat.add_eq_zero_iff, one_ne_zero, and_false, if_false, zero_mul, add_zero, Finset.prod_const_one, if_true]
    rw [div_mul_cancel₀ _ hs.ne']
    norm_num
  | i + 1 => by
    have hst : ∀ i, 0 < start (steps h w) (i + 1) := by
      intro i
      have : 0 < steps h w i := by unfold steps; omega
      simp only [start]
      omega
    rw [level, upset_level hw path i]
    simp only [upset, Nat.add_eq_zero_iff, (hst i).ne', false_and, if_false, zero_mul, add_zero, Finset.prod_const_one, mul_one]

/-- C103, options that are not struck yet: simulated prices must not be below nought. Wherever there is volatility before the striking and no displacement, and whatever
the lower fraction, if the higher one is above that of the forwards there are draws with which the call struck at it costs more. -/
theorem C103_struck_fractions_false {a φ φ₁ φ₂ D : ℝ} {F w δ : Nat → ℝ} {context : Prefetch}
    (hc : Prefetch.new md (collect md.spotDate [(a, .forwardStarting v u φ d s)]) = .ok context)
    (hm : Spec.Market fuel context.pricingContext u [s, v.expiryTime] F w δ)
    (hD : (expiryFlow v).price fuel context.pricingContext ⟨context.context.spotDate, .open⟩ = .ok (.val D)) (hD0 : 0 < D)
    (hw0 : 0 < w 0) (hw1 : w 0 ≤ w 1) (hF : 0 < F 0) (hδ : δ = fun _ => 0) (hφ : φ₁ < φ₂) (hφ' : F 1 < φ₂ * F 0)
    (hh : f.pathSubstep ≠ 0) (hn : f.nPaths ≠ 0) :
    ∃ draw x₁ x₂, StruckAlike fuel f md draw v u d s [⟨1, .call, φ₁⟩] [x₁] ∧ StruckAlike fuel f md draw v u d s [⟨1, .call, φ₂⟩] [x₂] ∧ x₁ < x₂ := by
  subst hδ
  obtain ⟨p, hp, hx⟩ := struck_drawn (f := f) v.id .call hc hm hD hw0.le hw1 hh hn (upset w (steps f.pathSubstep w)) 1 φ₁
  obtain ⟨q, hq, hy⟩ := struck_drawn (f := f) v.id .call hc hm hD hw0.le hw1 hh hn (upset w (steps f.pathSubstep w)) 1 φ₂
  refine ⟨upset w (steps f.pathSubstep w), _, _, .cons ⟨_, p, hp, hx⟩ .nil, .cons ⟨_, q, hq, hy⟩ .nil, ?_⟩
  simp only [pathValue, upset_level hw0, average_const hn, payoff, one_mul, sub_zero, add_zero]
  refine mul_lt_mul_of_pos_right (max_lt ?_ ?_) hD0
  · exact lt_max_of_lt_left (by nlinarith)
  · exact lt_max_of_lt_left (by nlinarith)

/-- An option on the sample equity that is struck on day 3 and expires on day 10 has a market. -/
theorem late_common : ∃ context, Prefetch.new (sampleMarket 100 (.zero 0)) (collect (sampleMarket 100 (.zero 0)).spotDate [(1, lateOption)]) = .ok context ∧
    Spec.Market fuel context.pricingContext equityA [((3, 0) : Point), sampleTerms.expiryTime] (fun _ => 100)
      (fun i => if i = 0 then 3 / 365 * 0.2 * 0.2 else 10 / 365 * 0.2 * 0.2) (fun _ => 0) ∧
    (expiryFlow sampleTerms).price fuel context.pricingContext ⟨context.context.spotDate, .open⟩ = .ok (.val 1) := by
  obtain ⟨fw, hfw, hfw'⟩ := sample_forward_flat 100 10
  have hc := sample_new (md := sampleMarket 100 (.zero 0)) (c := collect 0 [(1, lateOption)]) (v := .flat (.val 0.2) .everyDay (0, 0)) rfl rfl hfw rfl
  refine ⟨_, hc, ?_, sample_discount⟩
  refine ⟨(10, 0), fw, .flat (.val 0.2) .everyDay (0, 0), rfl, rfl, rfl, ?_⟩
  intro i pt hi
  match i, hi with
  | 0, hi =>
    cases hi
    refine ⟨hfw' 3 (by decide), ?_, rfl⟩
    have hy := everyDay_year 3
    norm_num at hy
    unfold VolSurface.variance VolSurface.variances
    rw [VolSurface.volatilities, hy]
    simp only [ok_bind, pure, Except.pure, List.map_cons, List.map_nil, Vol.first, num2]
    norm_num
  | 1, hi =>
    cases hi
    refine ⟨hfw' 10 le_rfl, ?_, rfl⟩
    have hy := everyDay_year 10
    norm_num at hy
    unfold VolSurface.variance VolSurface.variances
    rw [VolSurface.volatilities, show sampleTerms.expiryTime = ((10, 0) : Point) from rfl, hy]
    simp only [ok_bind, pure, Except.pure, List.map_cons, List.map_nil, Vol.first, num2]
    norm_num
  | i + 2, hi => cases hi

/-- A butterfly of calls that are struck on day 3 is priced with any draws. -/
example (hh : f.pathSubstep ≠ 0) (hn : f.nPaths ≠ 0) : ∃ x y z, StruckAlike fuel f (sampleMarket 100 (.zero 0)) draw sampleTerms equityA ⟨3, .open⟩ (3, 0)
    [⟨1, .call, 0.9⟩] [x] ∧ StruckAlike fuel f (sampleMarket 100 (.zero 0)) draw sampleTerms equityA ⟨3, .open⟩ (3, 0) [⟨1, .call, 1⟩] [y] ∧
    StruckAlike fuel f (sampleMarket 100 (.zero 0)) draw sampleTerms equityA ⟨3, .open⟩ (3, 0) [⟨1, .call, 1.1⟩] [z] ∧ 0.2 * y ≤ 0.1 * x + 0.1 * z := by
  obtain ⟨context, hc, hm, hD⟩ := late_common (fuel := fuel)
  have h := fun φ => struck_drawn (f := f) sampleTerms.id .call hc hm hD (by norm_num) (by norm_num) hh hn draw 1 φ
  obtain ⟨p, hp, hx⟩ := h 0.9
  obtain ⟨q, hq, hy⟩ := h 1
  obtain ⟨r, hr, hz⟩ := h 1.1
  have h1 : StruckAlike fuel f (sampleMarket 100 (.zero 0)) draw sampleTerms equityA ⟨3, .open⟩ (3, 0) [⟨1, .call, 0.9⟩] [_] := .cons ⟨_, p, hp, hx⟩ .nil
  have h2 : StruckAlike fuel f (sampleMarket 100 (.zero 0)) draw sampleTerms equityA ⟨3, .open⟩ (3, 0) [⟨1, .call, 1⟩] [_] := .cons ⟨_, q, hq, hy⟩ .nil
  have h3 : StruckAlike fuel f (sampleMarket 100 (.zero 0)) draw sampleTerms equityA ⟨3, .open⟩ (3, 0) [⟨1, .call, 1.1⟩] [_] := .cons ⟨_, r, hr, hz⟩ .nil
  refine ⟨_, _, _, h1, h2, h3, ?_⟩
  have := C103_struck_butterfly h1 h2 h3 (by norm_num) (by norm_num)
  norm_num at this ⊢
  linarith

/-- With all draws nought no simulated price is below nought, so that the call struck at the higher fraction costs no more. -/
example (hh : f.pathSubstep ≠ 0) (hn : f.nPaths ≠ 0) : ∃ x y, StruckAlike fuel f (sampleMarket 100 (.zero 0)) (fun _ _ _ => 0) sampleTerms equityA ⟨3, .open⟩ (3, 0)
    [⟨1, .call, 0.9⟩] [x] ∧ StruckAlike fuel f (sampleMarket 100 (.zero 0)) (fun _ _ _ => 0) sampleTerms equityA ⟨3, .open⟩ (3, 0) [⟨1, .call, 1⟩] [y] ∧ y ≤ x := by
  obtain ⟨context, hc, hm, hD⟩ := late_common (fuel := fuel)
  have h := fun φ => struck_drawn (f := f) sampleTerms.id .call hc hm hD (by norm_num) (by norm_num) hh hn (fun _ _ _ => 0) 1 φ
  obtain ⟨p, hp, hx⟩ := h 0.9
  obtain ⟨q, hq, hy⟩ := h 1
  have h1 : StruckAlike fuel f (sampleMarket 100 (.zero 0)) (fun _ _ _ => 0) sampleTerms equityA ⟨3, .open⟩ (3, 0) [⟨1, .call, 0.9⟩] [_] := .cons ⟨_, p, hp, hx⟩ .nil
  have h2 : StruckAlike fuel f (sampleMarket 100 (.zero 0)) (fun _ _ _ => 0) sampleTerms equityA ⟨3, .open⟩ (3, 0) [⟨1, .call, 1⟩] [_] := .cons ⟨_, q, hq, hy⟩ .nil
  refine ⟨_, _, h1, h2, (C103_struck_fractions h1 h2 (by norm_num) hc hm hD ?_).1 rfl⟩
  intro path _
  simp [pathValue, level]

/-- With draws that turn the walk upside down the call struck at the whole price and a tenth costs more than the one struck at nine tenths. -/
example (hh : f.pathSubstep ≠ 0) (hn : f.nPaths ≠ 0) : ∃ draw x y,
    StruckAlike fuel f (sampleMarket 100 (.zero 0)) draw sampleTerms equityA ⟨3, .open⟩ (3, 0) [⟨1, .call, 0.9⟩] [x] ∧
    StruckAlike fuel f (sampleMarket 100 (.zero 0)) draw sampleTerms equityA ⟨3, .open⟩ (3, 0) [⟨1, .call, 1.1⟩] [y] ∧ x < y := by
  obtain ⟨context, hc, hm, hD⟩ := late_common (fuel := fuel)
  exact C103_struck_fractions_false hc hm hD one_pos (by norm_num) (by norm_num) (by norm_num) rfl (by norm_num) (by norm_num) hh hn

end QM.MonteCarlo
