import Verif.MonteCarlo.ExplainProps

/-!
# Property C109 for books in which options are sold
-/

namespace QM.Risk.Spec

/-- The book in which everything is held long. -/
def gross (legs : List Leg) : List Leg := legs.map fun l => { l with amount := |l.amount| }

end QM.Risk.Spec

namespace QM.Risk
open QM.Interp QM.Curves QM.Vol QM.Fixings QM.Instruments QM.Instruments.Spec QM.Market QM.Market.Spec QM.Risk.Spec
open MeasureTheory ProbabilityTheory

variable {fuel : Nat} {md : MarketData} {v : Vanilla} {id credit : String} {settle : Int → Int} {S a c δ D : ℝ} {vol : VolSurface} {legs : List Leg}

/-! ## Lemmas -/

/-- What one of the options is worth at a spot. -/
noncomputable def atSpot (a c δ D : ℝ) (w : ℝ → ℝ) (l : Leg) (s : ℝ) : ℝ :=
  D * ∫ x, payoff l.kind (lognormal (a * s - c - δ) (Real.sqrt (w l.strike)) x) (l.strike + δ) ∂gaussianReal 0 1

theorem bowl_atSpot (w : ℝ → ℝ) (hD : 0 ≤ D) (l : Leg) : Bowl (atSpot a c δ D w l) := by
  refine Bowl.scale ?_ hD
  have := bowl_mean l.kind a (-c - δ) (l.strike + δ) (Real.sqrt (w l.strike))
  have e : ∀ s, a * s + (-c - δ) = a * s - c - δ := fun s => by ring
  simpa only [e] using this

/-- Price, delta and gamma of any book of options with one expiry. -/
theorem book_figures {b : ℝ} (w : ℝ → ℝ) (hne : legs ≠ []) (h : ∀ l ∈ legs, Setting fuel md v id credit settle l.strike S a c δ D (w l.strike) vol)
    (hb0 : 0 < b) (hS : 0 < S) (ha : 0 ≤ a) (hF : 0 < a * (S - b * S) - c - δ) (hK : ∀ l ∈ legs, 0 < l.strike + δ) (hw : ∀ l ∈ legs, 0 < w l.strike)
    {V : ℝ → ℝ} (hV : ∀ s, (legs.map fun l => l.amount * atSpot a c δ D w l s).sum = V s) :
    ∃ p r p' Δ Γ, SelfPricer.new (book v id credit settle legs) md = .ok p ∧ p.price fuel = .ok (.val (V S)) ∧
      generate (selfPricer fuel) (.deltaGamma b) p .new (.val (V S)) = (.ok (.deltaGamma (.val b) r), p', .new) ∧ r.get id = some (.val Δ, .val Γ) ∧
      Δ = (V (S + b * S) - V (S - b * S)) / (2 * (b * S)) ∧ Γ = (V (S + b * S) + V (S - b * S) - 2 * V S) / (b * S) ^ 2 ∧
      ∀ s, 0 < a * s - c - δ → value fuel (book v id credit settle legs) (withSpot md id s) = .ok (.val (V s)) := by
  obtain ⟨l0, hl0⟩ := List.exists_mem_of_ne_nil _ hne
  have hbS : 0 < b * S := mul_pos hb0 hS
  have haS : 0 ≤ a * (b * S) := mul_nonneg ha hbS.le
  unfold atSpot at hV
  have val : ∀ s, 0 < a * s - c - δ → value fuel (book v id credit settle legs) (withSpot md id s) = .ok (.val (V s)) := by
    intro s hs
    obtain ⟨p, h1, h2⟩ := book_price w hne (fun l hl => setting_respot (h l hl) s) hs hK hw
    unfold value
    rw [h1, ← hV]
    exact h2
  have e0 : a * (S - b * S) = a * S - a * (b * S) := by ring
  have e1 : a * (S + b * S) = a * S + a * (b * S) := by ring
  have f0 : 0 < a * S - c - δ := by linarith
  obtain ⟨p, hp, hx⟩ := book_price w hne h f0 hK hw
  rw [hV] at hx
  have smooth : Smooth fuel b md (book v id credit settle legs) := by
    refine ⟨⟨V S, ?_⟩, ?_⟩
    · unfold value
      rw [hp]
      exact hx
    · intro u hu
      rw [mentioned_book legs u hu]
      refine ⟨?_, S, _, _, (h l0 hl0).spot, hS.ne', val _ (by rw [show S * (1 + b) = S + b * S by ring]; linarith), val _ (by rw [show S * (1 - b) = S - b * S by ring]; linarith)⟩
      refine ⟨.equity id credit settle, ?_, rfl⟩
      cases legs with
      | nil => exact absurd rfl hne
      | cons l legs =>
        show _ ∈ underlyings (euro l.kind v id credit settle l.strike) ++ _
        exact List.mem_append_left _ (by simp [euro, underlyings])
  obtain ⟨q, x, res, q', g1, g2, g3, g4⟩ := C109_bumps_partial (b := b) (by
    intro u hu u' hu' _
    rw [mentioned_book legs u hu, mentioned_book legs u' hu']) hb0.ne' (by linarith) smooth
  rw [hp] at g1
  cases g1
  rw [hx] at g2
  cases g2
  obtain ⟨S', Δ, Γ, k1, k2, k3, k4⟩ := g4 (.equity id credit settle) (by
    cases legs with
    | nil => exact absurd rfl hne
    | cons l legs =>
      show _ ∈ mentioned (euro l.kind v id credit settle l.strike) ++ _
      exact List.mem_append_left _ (by simp [euro, mentioned]))
  have k1' : md.spots.get id = some S' := k1
  rw [(h l0 hl0).spot] at k1'
  cases k1'
  have u1 : V (S + b * S) = V S + Δ * (b * S) + Γ / 2 * (b * S) ^ 2 := by
    have := (val (S + b * S) (by linarith)).symm.trans k3
    injection this with this
    injection this
  have u2 : V (S - b * S) = V S - Δ * (b * S) + Γ / 2 * (b * S) ^ 2 := by
    have := (val (S - b * S) (by linarith)).symm.trans k4
    injection this with this
    injection this
  refine ⟨p, res, q', Δ, Γ, hp, hx, g3, k2, ?_, ?_, val⟩
  · rw [u1, u2]
    field_simp
    ring
  · rw [u1, u2]
    field_simp
    ring

/-! ## C109 -/

/-- C109, books in which options are bought and sold. After a move of the spot by no more than the bump the book is worth what its price and delta say, up to half of
the gross gamma times bump and move: the gamma that is reported for the book in which everything is held long. -/
theorem C109_gross_partial {b : ℝ} (w : ℝ → ℝ) (hne : legs ≠ []) (h : ∀ l ∈ legs, Setting fuel md v id credit settle l.strike S a c δ D (w l.strike) vol)
    (hb0 : 0 < b) (hS : 0 < S) (ha : 0 ≤ a) (hF : 0 < a * (S - b * S) - c - δ) (hK : ∀ l ∈ legs, 0 < l.strike + δ) (hw : ∀ l ∈ legs, 0 < w l.strike) :
    ∃ p x r p' Δ Γ q X R q' Δ' G, SelfPricer.new (book v id credit settle legs) md = .ok p ∧ p.price fuel = .ok (.val x) ∧
      generate (selfPricer fuel) (.deltaGamma b) p .new (.val x) = (.ok (.deltaGamma (.val b) r), p', .new) ∧ r.get id = some (.val Δ, .val Γ) ∧
      SelfPricer.new (book v id credit settle (gross legs)) md = .ok q ∧ q.price fuel = .ok (.val X) ∧
      generate (selfPricer fuel) (.deltaGamma b) q .new (.val X) = (.ok (.deltaGamma (.val b) R), q', .new) ∧ R.get id = some (.val Δ', .val G) ∧ |Γ| ≤ G ∧
      ∀ m, |m| ≤ b * S → ∃ y, value fuel (book v id credit settle legs) (withSpot md id (S + m)) = .ok (.val y) ∧
        |y - (x + Δ * m)| ≤ G / 2 * (b * S) * |m| := by
  obtain ⟨l0, hl0⟩ := List.exists_mem_of_ne_nil _ hne
  obtain ⟨yc, _, _, _, _, _, hD⟩ := (h l0 hl0).rates
  have hD0 : 0 ≤ D := hD ▸ (Real.exp_pos _).le
  have hbS : 0 < b * S := mul_pos hb0 hS
  have hback : ∀ l ∈ gross legs, ∃ l' ∈ legs, l.strike = l'.strike := by
    intro l hl
    obtain ⟨l', h1, rfl⟩ := List.mem_map.1 hl
    exact ⟨l', h1, rfl⟩
  obtain ⟨V, hV⟩ : ∃ V : ℝ → ℝ, ∀ s, (legs.map fun l => l.amount * atSpot a c δ D w l s).sum = V s := ⟨_, fun _ => rfl⟩
  obtain ⟨W, hW⟩ : ∃ W : ℝ → ℝ, ∀ s, (legs.map fun l => |l.amount| * atSpot a c δ D w l s).sum = W s := ⟨_, fun _ => rfl⟩
  obtain ⟨p, r, p', Δ, Γ, h1, h2, h3, h4, hΔ, hΓ, val⟩ := book_figures w hne h hb0 hS ha hF hK hw hV
  obtain ⟨q, R, q', Δ', G, k1, k2, k3, k4, hΔ', hG, _⟩ := book_figures (legs := gross legs) w (by simpa [gross] using hne)
    (fun l hl => by obtain ⟨l', m1, m2⟩ := hback l hl; rw [m2]; exact h l' m1) hb0 hS ha hF
    (fun l hl => by obtain ⟨l', m1, m2⟩ := hback l hl; rw [m2]; exact hK l' m1) (fun l hl => by obtain ⟨l', m1, m2⟩ := hback l hl; rw [m2]; exact hw l' m1) (V := W) (by
      intro s
      rw [← hW, gross, List.map_map]
      rfl)
  have bowl : ∀ ε : ℝ, |ε| ≤ 1 → Bowl fun s => W s + ε * V s := by
    intro ε hε
    have : (fun s => W s + ε * V s) = fun s => (legs.map fun l => (|l.amount| + ε * l.amount) * atSpot a c δ D w l s).sum := by
      funext s
      rw [← hV, ← hW, ← List.sum_map_mul_left, ← List.sum_map_add]
      congr 1
      apply List.map_congr_left
      intro l _
      ring
    rw [this]
    refine Bowl.sum fun l _ => Bowl.scale (bowl_atSpot w hD0 l) ?_
    have e1 : |ε * l.amount| ≤ |l.amount| := by
      rw [abs_mul]
      exact mul_le_of_le_one_left (abs_nonneg _) hε
    have := neg_abs_le (ε * l.amount)
    linarith
  have plus := bowl 1 (by simp)
  have minus := bowl (-1) (by simp)
  have hΔp : Δ' + 1 * Δ = ((W (S + b * S) + 1 * V (S + b * S)) - (W (S - b * S) + 1 * V (S - b * S))) / (2 * (b * S)) := by rw [hΔ, hΔ']; ring
  have hΔm : Δ' + -1 * Δ = ((W (S + b * S) + -1 * V (S + b * S)) - (W (S - b * S) + -1 * V (S - b * S))) / (2 * (b * S)) := by rw [hΔ, hΔ']; ring
  have hGp : G + 1 * Γ = ((W (S + b * S) + 1 * V (S + b * S)) + (W (S - b * S) + 1 * V (S - b * S)) - 2 * (W S + 1 * V S)) / (b * S) ^ 2 := by rw [hΓ, hG]; ring
  have hGm : G + -1 * Γ = ((W (S + b * S) + -1 * V (S + b * S)) + (W (S - b * S) + -1 * V (S - b * S)) - 2 * (W S + -1 * V S)) / (b * S) ^ 2 := by rw [hΓ, hG]; ring
  have hF' : ∀ m, |m| ≤ b * S → 0 < a * (S + m) - c - δ := by
    intro m hm
    have := mul_le_mul_of_nonneg_left (show S - b * S ≤ S + m by linarith [neg_abs_le m]) ha
    linarith
  refine ⟨p, V S, r, p', Δ, Γ, q, W S, R, q', Δ', G, h1, h2, h3, h4, k1, k2, k3, k4, ?_, fun m hm => ⟨V (S + m), val _ (hF' m hm), ?_⟩⟩
  · have n1 : 0 ≤ G + 1 * Γ := by
      rw [hGp]
      refine div_nonneg ?_ (sq_nonneg _)
      have := plus (S - b * S) S (S + b * S) (by linarith) (by linarith)
      dsimp only at this
      nlinarith
    have n2 : 0 ≤ G + -1 * Γ := by
      rw [hGm]
      refine div_nonneg ?_ (sq_nonneg _)
      have := minus (S - b * S) S (S + b * S) (by linarith) (by linarith)
      dsimp only at this
      nlinarith
    rw [abs_le]
    constructor <;> linarith
  · have b1 := abs_le.1 ((explain plus hbS hΔp hGp m).1 hm)
    have b2 := abs_le.1 ((explain minus hbS hΔm hGm m).1 hm)
    have e1 : (G + 1 * Γ) / 2 * (b * S) * |m| + (G + -1 * Γ) / 2 * (b * S) * |m| = 2 * (G / 2 * (b * S) * |m|) := by ring
    rw [abs_le]
    constructor <;> linarith [b1.1, b1.2, b2.1, b2.2]

/-- C109, books sold. A book of options that are all sold has a gamma of nought or less; after a larger move than the bump it is worth at most what price, delta and gamma say. -/
theorem C109_sold_partial {b : ℝ} (w : ℝ → ℝ) (hne : legs ≠ []) (h : ∀ l ∈ legs, Setting fuel md v id credit settle l.strike S a c δ D (w l.strike) vol)
    (hshort : ∀ l ∈ legs, l.amount ≤ 0) (hb0 : 0 < b) (hS : 0 < S) (ha : 0 ≤ a) (hF : 0 < a * (S - b * S) - c - δ) (hK : ∀ l ∈ legs, 0 < l.strike + δ)
    (hw : ∀ l ∈ legs, 0 < w l.strike) :
    ∃ p x r p' Δ Γ, SelfPricer.new (book v id credit settle legs) md = .ok p ∧ p.price fuel = .ok (.val x) ∧
      generate (selfPricer fuel) (.deltaGamma b) p .new (.val x) = (.ok (.deltaGamma (.val b) r), p', .new) ∧ r.get id = some (.val Δ, .val Γ) ∧ Γ ≤ 0 ∧
      ∀ m, 0 < a * (S + m) - c - δ → ∃ y, value fuel (book v id credit settle legs) (withSpot md id (S + m)) = .ok (.val y) ∧
        (|m| ≤ b * S → |y - (x + Δ * m)| ≤ -Γ / 2 * (b * S) * |m|) ∧ (b * S ≤ |m| → y ≤ x + Δ * m + Γ / 2 * (b * S) * |m|) := by
  obtain ⟨l0, hl0⟩ := List.exists_mem_of_ne_nil _ hne
  obtain ⟨yc, _, _, _, _, _, hD⟩ := (h l0 hl0).rates
  have hD0 : 0 ≤ D := hD ▸ (Real.exp_pos _).le
  have hbS : 0 < b * S := mul_pos hb0 hS
  obtain ⟨V, hV⟩ : ∃ V : ℝ → ℝ, ∀ s, (legs.map fun l => l.amount * atSpot a c δ D w l s).sum = V s := ⟨_, fun _ => rfl⟩
  obtain ⟨p, r, p', Δ, Γ, h1, h2, h3, h4, hΔ, hΓ, val⟩ := book_figures w hne h hb0 hS ha hF hK hw hV
  have bowl : Bowl fun s => -V s := by
    have : (fun s => -V s) = fun s => (legs.map fun l => -l.amount * atSpot a c δ D w l s).sum := by
      funext s
      rw [← hV, ← neg_one_mul, ← List.sum_map_mul_left]
      congr 1
      apply List.map_congr_left
      intro l _
      ring
    rw [this]
    exact Bowl.sum fun l hl => Bowl.scale (bowl_atSpot w hD0 l) (by linarith [hshort l hl])
  have hΔ' : -Δ = (-V (S + b * S) - -V (S - b * S)) / (2 * (b * S)) := by rw [hΔ]; ring
  have hΓ' : -Γ = (-V (S + b * S) + -V (S - b * S) - 2 * -V S) / (b * S) ^ 2 := by rw [hΓ]; ring
  refine ⟨p, V S, r, p', Δ, Γ, h1, h2, h3, h4, ?_, fun m hm => ⟨V (S + m), val _ hm, ?_⟩⟩
  · have : 0 ≤ -Γ := by
      rw [hΓ']
      refine div_nonneg ?_ (sq_nonneg _)
      have := bowl (S - b * S) S (S + b * S) (by linarith) (by linarith)
      dsimp only at this
      nlinarith
    linarith
  · obtain ⟨g1, g2⟩ := explain bowl hbS hΔ' hΓ' m
    refine ⟨fun hm => ?_, fun hm => ?_⟩
    · have := g1 hm
      rw [← abs_neg]
      convert this using 2
      ring
    · have := g2 hm
      have e : -Γ / 2 * (b * S) * |m| = -(Γ / 2 * (b * S) * |m|) := by ring
      rw [e] at this
      linarith

/-- C109: a call spread, of which the higher call is sold, from the spot of 100. -/
example : ∃ p x r p' Δ Γ q X R q' Δ' G, SelfPricer.new (book sampleTerms "A" "C" _root_.id [⟨1, .call, 90⟩, ⟨-1, .call, 110⟩]) smileless = .ok p ∧ p.price fuel = .ok (.val x) ∧
    generate (selfPricer fuel) (.deltaGamma 0.1) p .new (.val x) = (.ok (.deltaGamma (.val 0.1) r), p', .new) ∧ r.get "A" = some (.val Δ, .val Γ) ∧
    SelfPricer.new (book sampleTerms "A" "C" _root_.id (gross [⟨1, .call, 90⟩, ⟨-1, .call, 110⟩])) smileless = .ok q ∧ q.price fuel = .ok (.val X) ∧
    generate (selfPricer fuel) (.deltaGamma 0.1) q .new (.val X) = (.ok (.deltaGamma (.val 0.1) R), q', .new) ∧ R.get "A" = some (.val Δ', .val G) ∧ |Γ| ≤ G ∧
    ∀ m, |m| ≤ 0.1 * 100 → ∃ y, value fuel (book sampleTerms "A" "C" _root_.id [⟨1, .call, 90⟩, ⟨-1, .call, 110⟩]) (withSpot smileless "A" (100 + m)) = .ok (.val y) ∧
      |y - (x + Δ * m)| ≤ G / 2 * (0.1 * 100) * |m| := by
  refine C109_gross_partial (w := fun _ => 2 / 73 * 0.2 ^ 2) (by simp) (fun l _ => sample_setting 0.2 100 l.strike) (by norm_num) (by norm_num) (by norm_num) (by norm_num) ?_
    (fun _ _ => by norm_num)
  intro l hl
  simp only [List.mem_cons, List.not_mem_nil, or_false] at hl
  rcases hl with rfl | rfl <;> norm_num

/-- C109: a call and a put sold, from the spot of 100. -/
example : ∃ p x r p' Δ Γ, SelfPricer.new (book sampleTerms "A" "C" _root_.id [⟨-1, .put, 90⟩, ⟨-2, .call, 110⟩]) smileless = .ok p ∧ p.price fuel = .ok (.val x) ∧
    generate (selfPricer fuel) (.deltaGamma 0.1) p .new (.val x) = (.ok (.deltaGamma (.val 0.1) r), p', .new) ∧ r.get "A" = some (.val Δ, .val Γ) ∧ Γ ≤ 0 ∧
    ∀ m, 0 < 1 * (100 + m) - 0 - 0 → ∃ y, value fuel (book sampleTerms "A" "C" _root_.id [⟨-1, .put, 90⟩, ⟨-2, .call, 110⟩]) (withSpot smileless "A" (100 + m)) = .ok (.val y) ∧
      (|m| ≤ 0.1 * 100 → |y - (x + Δ * m)| ≤ -Γ / 2 * (0.1 * 100) * |m|) ∧ (0.1 * 100 ≤ |m| → y ≤ x + Δ * m + Γ / 2 * (0.1 * 100) * |m|) := by
  refine C109_sold_partial (w := fun _ => 2 / 73 * 0.2 ^ 2) (by simp) (fun l _ => sample_setting 0.2 100 l.strike) ?_ (by norm_num) (by norm_num) (by norm_num) (by norm_num) ?_
    (fun _ _ => by norm_num)
  all_goals
    intro l hl
    simp only [List.mem_cons, List.not_mem_nil, or_false] at hl
    rcases hl with rfl | rfl <;> norm_num

end QM.Risk
