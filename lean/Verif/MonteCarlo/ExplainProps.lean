import Verif.Risk.ArbitrageProps
import Verif.Risk.SumProps
import Verif.MonteCarlo.SignProps

/-!
# Property C109: what delta and gamma say about a move of the spot
-/

namespace QM.Risk
open QM.Interp QM.Curves QM.Vol QM.Fixings QM.Instruments QM.Instruments.Spec QM.Market QM.Market.Spec QM.Risk.Spec
open MeasureTheory ProbabilityTheory

/-! ## Functions that lie below their chords -/

/-- Between two points the function lies below the chord. -/
def Bowl (V : ℝ → ℝ) : Prop := ∀ x y z, x ≤ y → y ≤ z → (z - x) * V y ≤ (z - y) * V x + (y - x) * V z

theorem Bowl.scale {V : ℝ → ℝ} (h : Bowl V) {k : ℝ} (hk : 0 ≤ k) : Bowl fun s => k * V s := by
  intro x y z hxy hyz
  have := mul_le_mul_of_nonneg_left (h x y z hxy hyz) hk
  dsimp only
  linarith

theorem Bowl.add {V W : ℝ → ℝ} (h : Bowl V) (h' : Bowl W) : Bowl fun s => V s + W s := by
  intro x y z hxy hyz
  have h1 := h x y z hxy hyz
  have h2 := h' x y z hxy hyz
  dsimp only
  linarith

theorem Bowl.sum {α : Type} {V : α → ℝ → ℝ} : ∀ {l : List α}, (∀ i ∈ l, Bowl (V i)) → Bowl fun s => (l.map fun i => V i s).sum
  | [], _ => by intro x y z _ _; simp
  | i :: l, h => by
    simp only [List.map_cons, List.sum_cons]
    exact (h i List.mem_cons_self).add (Bowl.sum fun j hj => h j (List.mem_cons_of_mem _ hj))

theorem Bowl.reflect {V : ℝ → ℝ} (h : Bowl V) (S : ℝ) : Bowl fun s => V (2 * S - s) := by
  intro x y z hxy hyz
  have := h (2 * S - z) (2 * S - y) (2 * S - x) (by linarith) (by linarith)
  dsimp only
  linarith

theorem bowl_payoff (kind : PutOrCall) (α β K : ℝ) : Bowl fun s => payoff kind (α * s + β) K := by
  intro x y z hxy hyz
  have h1 : 0 ≤ z - y := by linarith
  have h2 : 0 ≤ y - x := by linarith
  have h3 : 0 ≤ z - x := by linarith
  cases kind <;> simp only [payoff]
  · have p1 := mul_le_mul_of_nonneg_left (le_max_left (K - (α * x + β)) 0) h1
    have p2 := mul_le_mul_of_nonneg_left (le_max_right (K - (α * x + β)) 0) h1
    have p3 := mul_le_mul_of_nonneg_left (le_max_left (K - (α * z + β)) 0) h2
    have p4 := mul_le_mul_of_nonneg_left (le_max_right (K - (α * z + β)) 0) h2
    rcases max_cases (K - (α * y + β)) 0 with ⟨e, _⟩ | ⟨e, _⟩ <;> rw [e] <;> linarith
  · have p1 := mul_le_mul_of_nonneg_left (le_max_left (α * x + β - K) 0) h1
    have p2 := mul_le_mul_of_nonneg_left (le_max_right (α * x + β - K) 0) h1
    have p3 := mul_le_mul_of_nonneg_left (le_max_left (α * z + β - K) 0) h2
    have p4 := mul_le_mul_of_nonneg_left (le_max_right (α * z + β - K) 0) h2
    rcases max_cases (α * y + β - K) 0 with ⟨e, _⟩ | ⟨e, _⟩ <;> rw [e] <;> linarith

theorem bowl_mean (kind : PutOrCall) (α β K s : ℝ) : Bowl fun x => ∫ g, payoff kind (lognormal (α * x + β) s g) K ∂gaussianReal 0 1 := by
  intro x y z hxy hyz
  dsimp only
  rw [← integral_const_mul, ← integral_const_mul, ← integral_const_mul, ← integral_add ((payoff_integrable _ _ _ _).const_mul _) ((payoff_integrable _ _ _ _).const_mul _)]
  refine integral_mono ((payoff_integrable _ _ _ _).const_mul _) (((payoff_integrable _ _ _ _).const_mul _).add ((payoff_integrable _ _ _ _).const_mul _)) ?_
  intro g
  have := bowl_payoff kind (α * lognormal 1 s g) (β * lognormal 1 s g) K x y z hxy hyz
  have e : ∀ t, lognormal (α * t + β) s g = α * lognormal 1 s g * t + β * lognormal 1 s g := by
    intro t
    unfold lognormal
    ring
  simp only [e]
  exact this

theorem explain_up {V : ℝ → ℝ} (hV : Bowl V) {S h m : ℝ} (hh : 0 < h) (hm : 0 ≤ m) :
    (m ≤ h → V (S + m) ≤ V S + m / h * (V (S + h) - V S) ∧ V S + m / h * (V S - V (S - h)) ≤ V (S + m)) ∧
    (h ≤ m → V S + m / h * (V (S + h) - V S) ≤ V (S + m)) := by
  refine ⟨fun hmh => ⟨?_, ?_⟩, fun hmh => ?_⟩
  · have := hV S (S + m) (S + h) (by linarith) (by linarith)
    rw [← sub_le_iff_le_add', div_mul_eq_mul_div, le_div_iff₀ hh]
    linarith
  · have := hV (S - h) S (S + m) (by linarith) (by linarith)
    rw [← le_sub_iff_add_le', div_mul_eq_mul_div, div_le_iff₀ hh]
    linarith
  · have := hV S (S + h) (S + m) (by linarith) (by linarith)
    rw [← le_sub_iff_add_le', div_mul_eq_mul_div, div_le_iff₀ hh]
    linarith

/-- Differences over a distance bound what happens within it, and beyond. -/
theorem explain {V : ℝ → ℝ} (hV : Bowl V) {S h Δ Γ : ℝ} (hh : 0 < h) (hΔ : Δ = (V (S + h) - V (S - h)) / (2 * h)) (hΓ : Γ = (V (S + h) + V (S - h) - 2 * V S) / h ^ 2)
    (m : ℝ) : (|m| ≤ h → |V (S + m) - (V S + Δ * m)| ≤ Γ / 2 * h * |m|) ∧ (h ≤ |m| → V S + Δ * m + Γ / 2 * h * |m| ≤ V (S + m)) := by
  have hu : V (S + h) - V S = Δ * h + Γ / 2 * h * h := by rw [hΔ, hΓ]; field_simp; ring
  have hd : V S - V (S - h) = Δ * h - Γ / 2 * h * h := by rw [hΔ, hΓ]; field_simp; ring
  rcases le_total 0 m with hm | hm
  · rw [abs_of_nonneg hm]
    obtain ⟨h1, h2⟩ := explain_up (S := S) hV hh hm
    rw [hu, hd] at h1
    rw [hu] at h2
    have e1 : m / h * (Δ * h + Γ / 2 * h * h) = Δ * m + Γ / 2 * h * m := by field_simp
    have e2 : m / h * (Δ * h - Γ / 2 * h * h) = Δ * m - Γ / 2 * h * m := by field_simp
    rw [e1, e2] at h1
    rw [e1] at h2
    refine ⟨fun hmh => ?_, fun hmh => by linarith [h2 hmh]⟩
    obtain ⟨k1, k2⟩ := h1 hmh
    rw [abs_le]
    exact ⟨by linarith, by linarith⟩
  · rw [abs_of_nonpos hm]
    obtain ⟨h1, h2⟩ := explain_up (S := S) (m := -m) (hV.reflect S) hh (by linarith)
    rw [show 2 * S - (S + -m) = S + m by ring, show 2 * S - S = S by ring, show 2 * S - (S + h) = S - h by ring, show 2 * S - (S - h) = S + h by ring] at h1
    rw [show 2 * S - (S + -m) = S + m by ring, show 2 * S - S = S by ring, show 2 * S - (S + h) = S - h by ring] at h2
    have hu' : V S - V (S + h) = -(Δ * h + Γ / 2 * h * h) := by linarith
    have hd' : V (S - h) - V S = -(Δ * h - Γ / 2 * h * h) := by linarith
    rw [hu', hd'] at h1
    rw [hd'] at h2
    have e1 : -m / h * -(Δ * h + Γ / 2 * h * h) = Δ * m + Γ / 2 * h * m := by field_simp
    have e2 : -m / h * -(Δ * h - Γ / 2 * h * h) = Δ * m - Γ / 2 * h * m := by field_simp
    rw [e1, e2] at h1
    rw [e2] at h2
    refine ⟨fun hmh => ?_, fun hmh => by linarith [h2 hmh]⟩
    obtain ⟨k1, k2⟩ := h1 hmh
    rw [abs_le]
    exact ⟨by linarith, by linarith⟩

/-! ## C109 -/

section
variable {fuel : Nat} {md : MarketData} {l : List (ℝ × Instrument)}

/-- C109, moves by the bump. For every book that the report can be made of, price, delta and gamma give back what the book is worth after the bumps, up and down, without any
error. -/
theorem C109_bumps_partial {b : ℝ} (ho : OwnNames l) (hb0 : b ≠ 0) (hb : b ≠ -1) (h : Smooth fuel b md l) :
    ∃ p x r p', SelfPricer.new l md = .ok p ∧ p.price fuel = .ok (.val x) ∧
      generate (selfPricer fuel) (.deltaGamma b) p .new (.val x) = (.ok (.deltaGamma (.val b) r), p', .new) ∧
      ∀ u ∈ mentionedAll l, ∃ S Δ Γ, md.spots.get u.id = some S ∧ r.get u.id = some (.val Δ, .val Γ) ∧
        value fuel l (withSpot md u.id (S + b * S)) = .ok (.val (x + Δ * (b * S) + Γ / 2 * (b * S) ^ 2)) ∧
        value fuel l (withSpot md u.id (S - b * S)) = .ok (.val (x - Δ * (b * S) + Γ / 2 * (b * S) ^ 2)) := by
  obtain ⟨p, r, p', h1, h2, h3, h4⟩ := delta_book h.valued (fun u hu => by
    obtain ⟨_, S, _, _, k1, k2, _⟩ := h.bumped u hu
    exact ⟨S, k1, k2⟩) ho hb0 hb
  refine ⟨p, _, r, p', h1, h2, h3, fun u hu => ?_⟩
  obtain ⟨_, S, y, z, k1, k2, k3, k4⟩ := h.bumped u hu
  have e := (h4 u.id).1 ⟨u, hu, rfl⟩
  refine ⟨S, _, _, k1, e, ?_, ?_⟩
  all_goals
    unfold spotUp spotDown
    dsimp only
    rw [k1]
    simp only [Option.getD_some]
    rw [worth_eq k3, worth_eq k4]
  · rw [show S + b * S = S * (1 + b) by ring, k3]
    congr 2
    field_simp
    ring
  · rw [show S - b * S = S * (1 - b) by ring, k4]
    congr 2
    field_simp
    ring

end

section
variable {fuel : Nat} {md : MarketData} {v : Vanilla} {id credit : String} {settle : Int → Int} {S a c δ D : ℝ} {vol : VolSurface} {legs : List Leg}

/-- A setting with another spot. -/
theorem setting_respot {K w : ℝ} (h : Setting fuel md v id credit settle K S a c δ D w vol) (s : ℝ) :
    Setting fuel (withSpot md id s) v id credit settle K s a c δ D w vol := by
  refine ⟨?_, h.ahead, ?_, h.rates, ?_, h.displacement, h.variance⟩
  · exact (withSpot_data md id s (.spot id)).trans (Function.update_self ..)
  · intro t
    obtain ⟨f, h1, h2⟩ := h.forward t
    refine ⟨f, ?_, h2⟩
    rw [← h1]
    refine forwardCurve_congr _ _ rfl ?_
    intro y _
    rw [withSpot_data, withSpot_data]
    by_cases hy : y = .spot id
    · subst hy
      rw [Function.update_self, Function.update_self]
    · rw [Function.update_of_ne hy, Function.update_of_ne hy, withSpot_data, Function.update_of_ne hy]
  · intro g
    rw [← h.surface g]
    rfl

theorem mentioned_book : ∀ (legs : List Leg), ∀ u ∈ mentionedAll (book v id credit settle legs), u = .equity id credit settle
  | [], u, hu => by simp [book, mentionedAll] at hu
  | l :: legs, u, hu => by
    have : u ∈ mentioned (euro l.kind v id credit settle l.strike) ++ mentionedAll (book v id credit settle legs) := hu
    rcases List.mem_append.1 this with h | h
    · simpa [euro, mentioned] using h
    · exact mentioned_book legs u h

/-- C109, other moves. For every book of calls and puts that are held long, with one expiry, the strikes of each and a surface with a smile: after a move of the spot by no more than the bump, the
book is worth what price and delta say, up to half of gamma times bump and move; after a larger move, it is worth at least that much more than they say. -/
theorem C109_moves_partial {b : ℝ} (w : ℝ → ℝ) (hne : legs ≠ []) (h : ∀ l ∈ legs, Setting fuel md v id credit settle l.strike S a c δ D (w l.strike) vol)
    (hlong : ∀ l ∈ legs, 0 ≤ l.amount) (hb0 : 0 < b) (hS : 0 < S) (ha : 0 ≤ a) (hF : 0 < a * (S - b * S) - c - δ) (hK : ∀ l ∈ legs, 0 < l.strike + δ)
    (hw : ∀ l ∈ legs, 0 < w l.strike) :
    ∃ p x r p' Δ Γ, SelfPricer.new (book v id credit settle legs) md = .ok p ∧ p.price fuel = .ok (.val x) ∧
      generate (selfPricer fuel) (.deltaGamma b) p .new (.val x) = (.ok (.deltaGamma (.val b) r), p', .new) ∧ r.get id = some (.val Δ, .val Γ) ∧ 0 ≤ Γ ∧
      ∀ m, 0 < a * (S + m) - c - δ → ∃ y, value fuel (book v id credit settle legs) (withSpot md id (S + m)) = .ok (.val y) ∧
        (|m| ≤ b * S → |y - (x + Δ * m)| ≤ Γ / 2 * (b * S) * |m|) ∧ (b * S ≤ |m| → x + Δ * m + Γ / 2 * (b * S) * |m| ≤ y) := by
  obtain ⟨l0, hl0⟩ := List.exists_mem_of_ne_nil _ hne
  obtain ⟨yc, r, r', _, _, _, hD⟩ := (h l0 hl0).rates
  have hD0 : 0 < D := hD ▸ Real.exp_pos _
  have hbS : 0 < b * S := mul_pos hb0 hS
  have haS : 0 ≤ a * (b * S) := mul_nonneg ha hbS.le
  obtain ⟨V, hV⟩ : ∃ V : ℝ → ℝ, ∀ s, (legs.map fun l => l.amount * (D * ∫ x, payoff l.kind (lognormal (a * s - c - δ) (Real.sqrt (w l.strike)) x) (l.strike + δ) ∂gaussianReal 0 1)).sum = V s :=
    ⟨_, fun _ => rfl⟩
  have bowl : Bowl V := by
    rw [← funext hV]
    refine Bowl.sum fun l hl => Bowl.scale (Bowl.scale ?_ hD0.le) (hlong l hl)
    have := bowl_mean l.kind a (-c - δ) (l.strike + δ) (Real.sqrt (w l.strike))
    have e : ∀ s, a * s + (-c - δ) = a * s - c - δ := fun s => by ring
    simpa only [e] using this
  have val : ∀ s, 0 < a * s - c - δ → value fuel (book v id credit settle legs) (withSpot md id s) = .ok (.val (V s)) := by
    intro s hs
    obtain ⟨p, h1, h2⟩ := book_price w hne (fun l hl => setting_respot (h l hl) s) hs hK hw
    unfold value
    rw [h1, ← hV]
    exact h2
  have e0 : a * (S - b * S) = a * S - a * (b * S) := by ring
  have e1 : a * (S + b * S) = a * S + a * (b * S) := by ring
  have f0 : 0 < a * S - c - δ := by linarith
  obtain ⟨p, hp, hx⟩ := book_price w hne h f0 hK hw
  rw [hV] at hx
  have smooth : Smooth fuel b md (book v id credit settle legs) := by
    refine ⟨⟨V S, ?_⟩, ?_⟩
    · unfold value
      rw [hp]
      exact hx
    · intro u hu
      rw [mentioned_book legs u hu]
      refine ⟨?_, S, _, _, (h l0 hl0).spot, hS.ne', val _ (by rw [show S * (1 + b) = S + b * S by ring]; linarith), val _ (by rw [show S * (1 - b) = S - b * S by ring]; linarith)⟩
      refine ⟨.equity id credit settle, ?_, rfl⟩
      cases legs with
      | nil => exact absurd rfl hne
      | cons l legs =>
        show _ ∈ underlyings (euro l.kind v id credit settle l.strike) ++ _
        exact List.mem_append_left _ (by simp [euro, underlyings])
  obtain ⟨q, x, res, q', g1, g2, g3, g4⟩ := C109_bumps_partial (b := b) (by
    intro u hu u' hu' _
    rw [mentioned_book legs u hu, mentioned_book legs u' hu']) hb0.ne' (by linarith) smooth
  rw [hp] at g1
  cases g1
  rw [hx] at g2
  cases g2
  obtain ⟨S', Δ, Γ, k1, k2, k3, k4⟩ := g4 (.equity id credit settle) (by
    cases legs with
    | nil => exact absurd rfl hne
    | cons l legs =>
      show _ ∈ mentioned (euro l.kind v id credit settle l.strike) ++ _
      exact List.mem_append_left _ (by simp [euro, mentioned]))
  have k1' : md.spots.get id = some S' := k1
  rw [(h l0 hl0).spot] at k1'
  cases k1'
  have u1 : V (S + b * S) = V S + Δ * (b * S) + Γ / 2 * (b * S) ^ 2 := by
    have := (val (S + b * S) (by linarith)).symm.trans k3
    injection this with this
    injection this
  have u2 : V (S - b * S) = V S - Δ * (b * S) + Γ / 2 * (b * S) ^ 2 := by
    have := (val (S - b * S) (by linarith)).symm.trans k4
    injection this with this
    injection this
  have hΔ : Δ = (V (S + b * S) - V (S - b * S)) / (2 * (b * S)) := by
    rw [u1, u2]
    field_simp
    ring
  have hΓ : Γ = (V (S + b * S) + V (S - b * S) - 2 * V S) / (b * S) ^ 2 := by
    rw [u1, u2]
    field_simp
    ring
  refine ⟨p, V S, res, q', Δ, Γ, hp, hx, g3, k2, ?_, fun m hm => ⟨V (S + m), val _ hm, explain bowl hbS hΔ hΓ m⟩⟩
  rw [hΓ]
  refine div_nonneg ?_ (sq_nonneg _)
  have := bowl (S - b * S) S (S + b * S) (by linarith) (by linarith)
  nlinarith

/-- C109: a call sold is a book the report can be made of. -/
example : OwnNames [(-1, euro .call sampleTerms "A" "C" _root_.id 90)] ∧ Smooth fuel 0.01 smileless [(-1, euro .call sampleTerms "A" "C" _root_.id 90)] := by
  refine ⟨?_, smooth_sample _ _ _ (by norm_num)⟩
  intro u hu u' hu' _
  rw [(mentioned_euro _ _ _ _ _ _).1 u hu, (mentioned_euro _ _ _ _ _ _).1 u' hu']

/-- C109: a put struck at 90 and two calls struck at 110, for all moves from the spot of 100. -/
example : ∃ p x r p' Δ Γ, SelfPricer.new (book sampleTerms "A" "C" _root_.id [⟨1, .put, 90⟩, ⟨2, .call, 110⟩]) smileless = .ok p ∧ p.price fuel = .ok (.val x) ∧
    generate (selfPricer fuel) (.deltaGamma 0.1) p .new (.val x) = (.ok (.deltaGamma (.val 0.1) r), p', .new) ∧ r.get "A" = some (.val Δ, .val Γ) ∧ 0 ≤ Γ ∧
    ∀ m, 0 < 1 * (100 + m) - 0 - 0 → ∃ y, value fuel (book sampleTerms "A" "C" _root_.id [⟨1, .put, 90⟩, ⟨2, .call, 110⟩]) (withSpot smileless "A" (100 + m)) = .ok (.val y) ∧
      (|m| ≤ 0.1 * 100 → |y - (x + Δ * m)| ≤ Γ / 2 * (0.1 * 100) * |m|) ∧ (0.1 * 100 ≤ |m| → x + Δ * m + Γ / 2 * (0.1 * 100) * |m| ≤ y) := by
  refine C109_moves_partial (w := fun _ => 2 / 73 * 0.2 ^ 2) (by simp) (fun l _ => sample_setting 0.2 100 l.strike) ?_ (by norm_num) (by norm_num) (by norm_num) (by norm_num) ?_
    (fun _ _ => by norm_num)
  all_goals
    intro l hl
    simp only [List.mem_cons, List.not_mem_nil, or_false] at hl
    rcases hl with rfl | rfl <;> norm_num

end

end QM.Risk

namespace QM.MonteCarlo
open QM.Interp QM.Vol QM.Instruments QM.Market QM.Market.Spec QM.Risk QM.Fixings QM.Curves Spec
open QM.Instruments.Spec (payoff)
open QM.Risk.Spec (Setting euro)

variable {fuel : Nat} {f : ModelFactory} {md : MarketData} {draw draw' : Draws}
  {v : Vanilla} {id credit : String} {settle : Int → Int} {K S a c D w w' : ℝ} {vol : VolSurface} {kind : PutOrCall}

/-- C109 for Monte-Carlo pricers. Whatever the draws, the price of a European option held long, after a move of the spot and along the same draws, is what price, delta and gamma of the pricer say, in the same way.
The variance at the moved forwards is the same. -/
theorem C109_simulated_partial {b n : ℝ} (h : Setting fuel md v id credit settle K S a c 0 D w vol) (hcredit : v.creditId = credit)
    (hex : v.expiryTime.1 = v.expiry.date) (hvar : ∀ s, 0 < s → vol.variance fuel v.expiryTime (.val (a * s - c)) = .ok (.val w'))
    (hS : 0 < S) (hb0 : 0 < b) (hb1 : b < 1) (hw : 0 ≤ w') (hn : 0 ≤ n)
    (hh : f.pathSubstep ≠ 0) (hk : f.nPaths ≠ 0) (draw draw' : Draws) (kind : PutOrCall) :
    ∃ p x r p' Δ Γ, MonteCarlo.new fuel f [(n, euro kind v id credit settle K)] md draw = .ok p ∧ p.price fuel = .ok (.val x) ∧
      generate (monteCarlo fuel draw') (.deltaGamma b) p .new (.val x) = (.ok (.deltaGamma (.val b) r), p', .new) ∧ r.get id = some (.val Δ, .val Γ) ∧ 0 ≤ Γ ∧
      ∀ m, 0 < S + m → ∃ q y, MonteCarlo.new fuel f [(n, euro kind v id credit settle K)] (withSpot md id (S + m)) draw = .ok q ∧ q.price fuel = .ok (.val y) ∧
        (|m| ≤ b * S → |y - (x + Δ * m)| ≤ Γ / 2 * (b * S) * |m|) ∧ (b * S ≤ |m| → x + Δ * m + Γ / 2 * (b * S) * |m| ≤ y) := by
  obtain ⟨yc, r, r', _, _, _, hD⟩ := h.rates
  have hD0 : 0 < D := hD ▸ Real.exp_pos _
  have hbS : 0 < b * S := mul_pos hb0 hS
  obtain ⟨V, hV⟩ : ∃ V : ℝ → ℝ, V = fun s => n * (Spec.average f.nPaths (fun path => payoff kind ((a * s - c) * growth f.pathSubstep w' fun k => draw path k 0) K) * D) := ⟨_, rfl⟩
  have bowl : Bowl V := by
    rw [hV]
    intro x y z hxy hyz
    have e := average_le (k := f.nPaths)
      (x := fun path => (z - x) * payoff kind ((a * y - c) * growth f.pathSubstep w' fun k => draw path k 0) K + 0 * 0 + 0 * 0)
      (y := fun path => (z - y) * payoff kind ((a * x - c) * growth f.pathSubstep w' fun k => draw path k 0) K +
        (y - x) * payoff kind ((a * z - c) * growth f.pathSubstep w' fun k => draw path k 0) K + 0 * 0) (by
        intro i
        have := bowl_payoff kind (a * growth f.pathSubstep w' fun k => draw i k 0) (-c * growth f.pathSubstep w' fun k => draw i k 0) K x y z hxy hyz
        have e : ∀ t, (a * growth f.pathSubstep w' fun k => draw i k 0) * t + (-c * growth f.pathSubstep w' fun k => draw i k 0) =
          (a * t - c) * growth f.pathSubstep w' fun k => draw i k 0 := by intro t; ring
        dsimp only at this
        rw [e, e, e] at this
        linarith)
    rw [average_lin _ (fun _ => 0) (fun _ => 0), average_lin _ _ (fun _ => 0)] at e
    have := mul_le_mul_of_nonneg_left (mul_le_mul_of_nonneg_right e hD0.le) hn
    dsimp only
    linarith
  obtain ⟨p, res, p', g1, g2, g3, g4, g5⟩ := run_delta (f := f) (V := V) (b := b) (n := n) (w' := w') h hcredit hex (by
    intro s hs
    refine hvar s ?_
    simp only [List.mem_cons, List.not_mem_nil, or_false] at hs
    rcases hs with rfl | rfl | rfl
    · exact hS
    · exact mul_pos hS (by linarith)
    · exact mul_pos hS (by linarith)) hS hb0 hw hh hk draw draw' kind hV
  rw [show S * (1 + b) = S + b * S by ring, show S * (1 - b) = S - b * S by ring] at g4
  refine ⟨p, V S, res, p', _, _, g1, g2, g3, g4, ?_, fun m hm => ?_⟩
  · refine div_nonneg ?_ (sq_nonneg _)
    have := bowl (S - b * S) S (S + b * S) (by linarith) (by linarith)
    nlinarith
  · have k : Ready fuel (withSpot md id (S + m)) n kind v id credit settle K (a * (S + m) - c) w' D :=
      setting_ready h hcredit hex (hvar _ hm) (setting_moved h _)
    obtain ⟨q, n1, _, _, v1⟩ := k.new hw hh hk draw
    refine ⟨q, V (S + m), n1, ?_, explain bowl hbS rfl rfl m⟩
    rw [v1, hV]

/-- C109: two calls in the sample market, for all moves of the spot and all draws. -/
example (draw draw' : Draws) : ∃ p x r p' Δ Γ, MonteCarlo.new fuel ⟨0.001, 1000⟩ [(2, euro .call sampleTerms "A" "C" _root_.id 90)]
      (withVol (sampleMarket 100 (.zero 0)) "A" (.flat (.val 0.2) .everyDay (0, 0))) draw = .ok p ∧ p.price fuel = .ok (.val x) ∧
    generate (monteCarlo fuel draw') (.deltaGamma 0.01) p .new (.val x) = (.ok (.deltaGamma (.val 0.01) r), p', .new) ∧ r.get "A" = some (.val Δ, .val Γ) ∧ 0 ≤ Γ ∧
    ∀ m, 0 < 100 + m → ∃ q y, MonteCarlo.new fuel ⟨0.001, 1000⟩ [(2, euro .call sampleTerms "A" "C" _root_.id 90)]
        (withSpot (withVol (sampleMarket 100 (.zero 0)) "A" (.flat (.val 0.2) .everyDay (0, 0))) "A" (100 + m)) draw = .ok q ∧ q.price fuel = .ok (.val y) ∧
      (|m| ≤ 0.01 * 100 → |y - (x + Δ * m)| ≤ Γ / 2 * (0.01 * 100) * |m|) ∧ (0.01 * 100 ≤ |m| → x + Δ * m + Γ / 2 * (0.01 * 100) * |m| ≤ y) :=
  C109_simulated_partial (f := ⟨0.001, 1000⟩) (sample_setting 0.2 100 90) rfl rfl (fun s _ => sample_variance _ _) (by norm_num) (by norm_num) (by norm_num) (by norm_num)
    (by norm_num) (by norm_num) (by norm_num) draw draw' .call

end QM.MonteCarlo
