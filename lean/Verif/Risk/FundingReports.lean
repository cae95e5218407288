import Verif.Risk.FundingProps
import Verif.Risk.SumProps

/-!
# Property C113, the reports
-/

namespace QM.Risk
open QM.Interp QM.Curves QM.Curves.Spec QM.Dividends QM.Forward QM.Vol QM.Fixings QM.Instruments QM.Instruments.Spec QM.Market QM.Market.Spec QM.Risk.Spec

variable {a : String → Int → ℝ} {creditOf : String → String} {md md' : MarketData} {fuel : Nat} {l : List (ℝ × Instrument)} {b : ℝ}

/-- A book with each position multiplied by what its discounting changes by. -/
noncomputable def Spec.discounted (a : String → Int → ℝ) (date : Int) (l : List (ℝ × Instrument)) : List (ℝ × Instrument) :=
  l.map fun e => (e.1 * discountRatio a date e.2, e.2)

theorem mentionedAll_discounted (date : Int) : mentionedAll (discounted a date l) = mentionedAll l := by
  induction l with
  | nil => rfl
  | cons e l ih =>
    obtain ⟨w, i⟩ := e
    rw [show discounted a date ((w, i) :: l) = (w * discountRatio a date i, i) :: discounted a date l from rfl, mentionedAll, mentionedAll, ih]

theorem underlyingsAll_discounted (date : Int) : underlyingsAll (discounted a date l) = underlyingsAll l := by
  induction l with
  | nil => rfl
  | cons e l ih =>
    obtain ⟨w, i⟩ := e
    rw [show discounted a date ((w, i) :: l) = (w * discountRatio a date i, i) :: discounted a date l from rfl, underlyingsAll, underlyingsAll, ih]

theorem Spec.Financed.spot (h : Financed a creditOf md md') (id : String) (x : ℝ) : Financed a creditOf (withSpot md id x) (withSpot md' id x) :=
  ⟨h.spotDate, by unfold withSpot; dsimp only; rw [h.spots], h.volSurfaces, h.dividends, h.yieldCurves, h.borrowCurves⟩

theorem Spec.Financed.vol (h : Financed a creditOf md md') (id : String) (x : VolSurface) : Financed a creditOf (withVol md id x) (withVol md' id x) :=
  ⟨h.spotDate, h.spots, by unfold withVol; dsimp only; rw [h.volSurfaces], h.dividends, h.yieldCurves, h.borrowCurves⟩

theorem financed_smooth (h : Financed a creditOf md md') (hi : ∀ e ∈ l, Financeable creditOf e.2) (hs : Smooth fuel b md (discounted a md.spotDate l)) :
    Smooth fuel b md' l := by
  obtain ⟨h1, h2⟩ := hs
  refine ⟨by rw [C113_price h hi]; exact h1, fun u hu => ?_⟩
  obtain ⟨k1, S, y, z, k2, k3, k4, k5⟩ := h2 u (by rw [mentionedAll_discounted]; exact hu)
  rw [underlyingsAll_discounted] at k1
  refine ⟨k1, S, y, z, by rw [h.spots]; exact k2, k3, ?_, ?_⟩
  · rw [C113_price (h.spot _ _) hi]; exact k4
  · rw [C113_price (h.spot _ _) hi]; exact k5

theorem financed_smoothVols (h : Financed a creditOf md md') (hi : ∀ e ∈ l, Financeable creditOf e.2)
    (hs : SmoothVols fuel b md (discounted a md.spotDate l)) : SmoothVols fuel b md' l := by
  obtain ⟨h1, h2⟩ := hs
  refine ⟨by rw [C113_price h hi]; exact h1, fun u hu => ?_⟩
  obtain ⟨k1, vol, y, z, k2, k4, k5⟩ := h2 u (by rw [mentionedAll_discounted]; exact hu)
  rw [underlyingsAll_discounted] at k1
  refine ⟨k1, vol, y, z, by rw [h.volSurfaces]; exact k2, ?_, ?_⟩
  · rw [C113_price (h.vol _ _) hi]; exact k4
  · rw [C113_price (h.vol _ _) hi]; exact k5

theorem worth_financed (h : Financed a creditOf md md') (hi : ∀ e ∈ l, Financeable creditOf e.2) :
    worth fuel l md' = worth fuel (discounted a md.spotDate l) md := by
  unfold worth
  rw [C113_price h hi]
  rfl

theorem figures_financed {up down up' down' : String → MarketData} {s s' : String → ℝ} {r t : Map String (Num ℝ × Num ℝ)} (h : Financed a creditOf md md')
    (hu : ∀ id, Financed a creditOf (up id) (up' id)) (hud : ∀ id, (up id).spotDate = md.spotDate) (hd : ∀ id, Financed a creditOf (down id) (down' id))
    (hdd : ∀ id, (down id).spotDate = md.spotDate) (hi : ∀ e ∈ l, Financeable creditOf e.2) (hs : s' = s)
    (hr : Figures fuel md up down s (discounted a md.spotDate l) r) (ht : Figures fuel md' up' down' s' l t) : ∀ id, t.get id = r.get id := by
  intro id
  have e1 : (fun id => worth fuel l (up' id)) = fun id => worth fuel (discounted a md.spotDate l) (up id) := by
    funext id
    rw [worth_financed (hu id) hi, hud]
  have e2 : (fun id => worth fuel l (down' id)) = fun id => worth fuel (discounted a md.spotDate l) (down id) := by
    funext id
    rw [worth_financed (hd id) hi, hdd]
  have hr' := hr id
  rw [mentionedAll_discounted] at hr'
  by_cases hl : ∃ u ∈ mentionedAll l, u.id = id
  · rw [(ht id).1 hl, hr'.1 hl, e1, e2, hs, worth_financed h hi]
  · rw [(ht id).2 hl, hr'.2 hl]

theorem own_discounted (ho : OwnNames l) (date : Int) : OwnNames (discounted a date l) := by
  unfold OwnNames
  rw [mentionedAll_discounted]
  exact ho

/-- C113, delta and gamma: if yields rise and borrow costs with them, a book has the risks that it had with each position multiplied by what its discounting
has changed by. -/
theorem C113_delta (h : Financed a creditOf md md') (hi : ∀ e ∈ l, Financeable creditOf e.2) (ho : OwnNames l) (hb0 : b ≠ 0) (hb : b ≠ -1)
    (hs : Smooth fuel b md (discounted a md.spotDate l)) :
    ∃ p p' x r r' q q', SelfPricer.new (discounted a md.spotDate l) md = .ok p ∧ SelfPricer.new l md' = .ok p' ∧
      p.price fuel = .ok (.val x) ∧ p'.price fuel = .ok (.val x) ∧
      generate (selfPricer fuel) (.deltaGamma b) p .new (.val x) = (.ok (.deltaGamma (.val b) r), q, .new) ∧
      generate (selfPricer fuel) (.deltaGamma b) p' .new (.val x) = (.ok (.deltaGamma (.val b) r'), q', .new) ∧ ∀ id, r'.get id = r.get id := by
  have hs' := financed_smooth h hi hs
  have hS {md l} (h : Smooth fuel b md l) : ∀ u ∈ mentionedAll l, ∃ S, md.spots.get u.id = some S ∧ S ≠ 0 := by
    intro u hu
    obtain ⟨_, S, _, _, k1, k2, _⟩ := h.bumped u hu
    exact ⟨S, k1, k2⟩
  obtain ⟨p, r, q, a1, a2, a3, a4⟩ := delta_book hs.valued (hS hs) (own_discounted ho _) hb0 hb
  obtain ⟨p', r', q', c1, c2, c3, c4⟩ := delta_book hs'.valued (hS hs') ho hb0 hb
  rw [worth_financed h hi] at c2 c3
  refine ⟨p, p', _, r, r', q, q', a1, c1, a2, c2, a3, c3, figures_financed (up := spotUp b md) (down := spotDown b md) h (fun id => ?_) (fun _ => rfl) (fun id => ?_) (fun _ => rfl) hi ?_ a4 c4⟩
  · unfold spotUp; rw [h.spots]; exact h.spot _ _
  · unfold spotDown; rw [h.spots]; exact h.spot _ _
  · rw [h.spots]

/-- C113, vega and volga: likewise. -/
theorem C113_vega (h : Financed a creditOf md md') (hi : ∀ e ∈ l, Financeable creditOf e.2) (ho : OwnNames l) (hb0 : b ≠ 0) (hb : b ≠ -1)
    (hs : SmoothVols fuel b md (discounted a md.spotDate l)) :
    ∃ p p' x r r' q q', SelfPricer.new (discounted a md.spotDate l) md = .ok p ∧ SelfPricer.new l md' = .ok p' ∧
      p.price fuel = .ok (.val x) ∧ p'.price fuel = .ok (.val x) ∧
      generate (selfPricer fuel) (.vegaVolga (.flatAdditive (.val b))) p .new (.val x) = (.ok (.vegaVolga (.val b) r), q, .new) ∧
      generate (selfPricer fuel) (.vegaVolga (.flatAdditive (.val b))) p' .new (.val x) = (.ok (.vegaVolga (.val b) r'), q', .new) ∧
      ∀ id, r'.get id = r.get id := by
  have hs' := financed_smoothVols h hi hs
  have hS {md l} (h : SmoothVols fuel b md l) : ∀ u ∈ mentionedAll l, ∃ S, md.volSurfaces.get u.id = some S := by
    intro u hu
    obtain ⟨_, S, _, _, k1, _⟩ := h.bumped u hu
    exact ⟨S, k1⟩
  obtain ⟨p, r, q, a1, a2, a3, a4⟩ := vega_book hs.valued (hS hs) (own_discounted ho _) hb0 hb
  obtain ⟨p', r', q', c1, c2, c3, c4⟩ := vega_book hs'.valued (hS hs') ho hb0 hb
  rw [worth_financed h hi] at c2 c3
  refine ⟨p, p', _, r, r', q, q', a1, c1, a2, c2, a3, c3, figures_financed (up := volUp b md) (down := volDown b md) h (fun id => ?_) (fun _ => rfl) (fun id => ?_) (fun _ => rfl) hi rfl a4 c4⟩
  · unfold volUp; rw [h.volSurfaces]; exact h.vol _ _
  · unfold volDown; rw [h.volSurfaces]; exact h.vol _ _

theorem discounted_common {k : ℝ} {date : Int} (hk : ∀ e ∈ l, discountRatio a date e.2 = k) : discounted a date l = scaled k l := by
  unfold discounted scaled
  refine List.map_congr_left (fun e he => ?_)
  rw [hk e he, mul_comm]

/-- C113: if all that is held is discounted alike, delta and gamma change by what discounting does, as the price. -/
theorem C113_delta_common {k : ℝ} (h : Financed a creditOf md md') (hi : ∀ e ∈ l, Financeable creditOf e.2)
    (hk : ∀ e ∈ l, discountRatio a md.spotDate e.2 = k) (ho : OwnNames l) (hb0 : b ≠ 0) (hb : b ≠ -1) (hs : Smooth fuel b md l) :
    ∃ p p' x r r' q q', SelfPricer.new l md = .ok p ∧ SelfPricer.new l md' = .ok p' ∧
      p.price fuel = .ok (.val x) ∧ p'.price fuel = .ok (.val (k * x)) ∧
      generate (selfPricer fuel) (.deltaGamma b) p .new (.val x) = (.ok (.deltaGamma (.val b) r), q, .new) ∧
      generate (selfPricer fuel) (.deltaGamma b) p' .new (.val (k * x)) = (.ok (.deltaGamma (.val b) r'), q', .new) ∧
      ∀ id, r'.get id = (r.get id).map fun x => (num1 (k * ·) x.1, num1 (k * ·) x.2) := by
  obtain ⟨p, w, x, r, t, q, w₁, a1, a2, a3, a4, a5, a6, a7⟩ := C105_delta_scaled_partial k ho hb0 hb hs
  have hs' : Smooth fuel b md (discounted a md.spotDate l) := by
    rw [discounted_common hk]
    refine ⟨⟨_, value_scaled k hs.now.choose_spec⟩, fun u hu => ?_⟩
    rw [mentionedAll_scaled] at hu
    obtain ⟨k1, S, y, z, k2, k3, k4, k5⟩ := hs.bumped u hu
    rw [underlyingsAll_scaled]
    exact ⟨k1, S, _, _, k2, k3, value_scaled k k4, value_scaled k k5⟩
  obtain ⟨w', p', x', s, r', w₂, q', c1, c2, c3, c4, c5, c6, c7⟩ := C113_delta h hi ho hb0 hb hs'
  rw [discounted_common hk, a2] at c1
  cases c1
  rw [a4] at c3
  cases c3
  rw [a6] at c5
  cases c5
  exact ⟨p, p', x, r, r', q, q', a1, c2, a3, c4, a5, c6, fun id => (c7 id).trans (a7 id)⟩

/-- C113: likewise for vega and volga. -/
theorem C113_vega_common {k : ℝ} (h : Financed a creditOf md md') (hi : ∀ e ∈ l, Financeable creditOf e.2)
    (hk : ∀ e ∈ l, discountRatio a md.spotDate e.2 = k) (ho : OwnNames l) (hb0 : b ≠ 0) (hb : b ≠ -1) (hs : SmoothVols fuel b md l) :
    ∃ p p' x r r' q q', SelfPricer.new l md = .ok p ∧ SelfPricer.new l md' = .ok p' ∧
      p.price fuel = .ok (.val x) ∧ p'.price fuel = .ok (.val (k * x)) ∧
      generate (selfPricer fuel) (.vegaVolga (.flatAdditive (.val b))) p .new (.val x) = (.ok (.vegaVolga (.val b) r), q, .new) ∧
      generate (selfPricer fuel) (.vegaVolga (.flatAdditive (.val b))) p' .new (.val (k * x)) = (.ok (.vegaVolga (.val b) r'), q', .new) ∧
      ∀ id, r'.get id = (r.get id).map fun x => (num1 (k * ·) x.1, num1 (k * ·) x.2) := by
  obtain ⟨p, w, x, r, t, q, w₁, a1, a2, a3, a4, a5, a6, a7⟩ := C105_vega_scaled_partial k ho hb0 hb hs
  have hs' : SmoothVols fuel b md (discounted a md.spotDate l) := by
    rw [discounted_common hk]
    refine ⟨⟨_, value_scaled k hs.now.choose_spec⟩, fun u hu => ?_⟩
    rw [mentionedAll_scaled] at hu
    obtain ⟨k1, S, y, z, k2, k4, k5⟩ := hs.bumped u hu
    rw [underlyingsAll_scaled]
    exact ⟨k1, S, _, _, k2, value_scaled k k4, value_scaled k k5⟩
  obtain ⟨w', p', x', s, r', w₂, q', c1, c2, c3, c4, c5, c6, c7⟩ := C113_vega h hi ho hb0 hb hs'
  rw [discounted_common hk, a2] at c1
  cases c1
  rw [a4] at c3
  cases c3
  rw [a6] at c5
  cases c5
  exact ⟨p, p', x, r, r', q, q', a1, c2, a3, c4, a5, c6, fun id => (c7 id).trans (a7 id)⟩

/-! ## A case -/

/-- The sample market, and the same with rates and a cost of borrow of 5 percent. -/
theorem sample_financed : ∃ yc, RateCurve.newAct365 0 [(0, 0.05)] .flat .flat = .ok yc ∧
    Financed (fun _ d => 0.05 * years 0 d) (fun _ => "C") (withVol (sampleMarket 100 (.zero 0)) "A" (.flat (.val 0.2) .everyDay (0, 0)))
      (withBorrow (withVol (sampleMarket 100 yc) "A" (.flat (.val 0.2) .everyDay (0, 0))) "A" yc) := by
  obtain ⟨yc, y1, y2, y3, y4⟩ := flat_curve 0 0 0.05
  have hrt : Raised (fun d => 0.05 * years 0 d) (.zero 0) yc := by
    intro d
    rw [Forward.zero_rt]
    by_cases hd : d = 0
    · subst hd
      have h0 : yc.rAndT 0 = .ok (.val 0, 0) := by
        cases y1
        unfold RateCurve.rAndT
        exact if_pos rfl
      rw [rt_of_rAndT h0]
      simp [years, Except.map, num1]
    · rw [rt_of_rAndT (y4 d hd)]
      simp [Except.map, num1]
  refine ⟨yc, y1, ?_⟩
  show Financed (fun _ d => 0.05 * years 0 d) (fun _ => "C") (withVol (sampleMarket 100 (.zero 0)) "A" (.flat (.val 0.2) .everyDay (0, 0)))
      (withBorrow (withVol (sampleMarket 100 yc) "A" (.flat (.val 0.2) .everyDay (0, 0))) "A" yc)
  refine ⟨rfl, rfl, rfl, rfl, ?_, ?_⟩
  · intro k
    by_cases hk : k = "C"
    · subst hk
      exact hrt
    · have e : ∀ c : RateCurve, (⟨[("C", c)]⟩ : Map String RateCurve).get k = none := by
        intro c
        simp [Map.get, Ne.symm hk]
      rw [show (withVol (sampleMarket 100 (.zero 0)) "A" (.flat (.val 0.2) .everyDay (0, 0))).yieldCurves = ⟨[("C", .zero 0)]⟩ from rfl,
        show (withBorrow (withVol (sampleMarket 100 yc) "A" (.flat (.val 0.2) .everyDay (0, 0))) "A" yc).yieldCurves = ⟨[("C", yc)]⟩ from rfl, e, e]
      trivial
  · intro k
    by_cases hk : k = "A"
    · subst hk
      exact hrt
    · have e : ∀ c : RateCurve, (⟨[("A", c)]⟩ : Map String RateCurve).get k = none := by
        intro c
        simp [Map.get, Ne.symm hk]
      have e' : (withBorrow (withVol (sampleMarket 100 yc) "A" (.flat (.val 0.2) .everyDay (0, 0))) "A" yc).borrowCurves = ⟨[("A", yc)]⟩ := by
        simp [withBorrow, withVol, sampleMarket, Map.insert]
      rw [e', show (withVol (sampleMarket 100 (.zero 0)) "A" (.flat (.val 0.2) .everyDay (0, 0))).borrowCurves = ⟨[("A", .zero 0)]⟩ from rfl, e, e]
      trivial

/-- C113: two calls paid on day 10. With rates and a cost of borrow of 5 percent, delta and gamma are discounted. -/
example : ∃ (yc : RateCurve) (p p' : SelfPricer) (x : ℝ) (r r' : Map String (Num ℝ × Num ℝ)) (q q' : SelfPricer),
    RateCurve.newAct365 0 [(0, 0.05)] .flat .flat = .ok yc ∧
    SelfPricer.new [(2, euro .call sampleTerms "A" "C" _root_.id 90)] smileless = .ok p ∧
    SelfPricer.new [(2, euro .call sampleTerms "A" "C" _root_.id 90)]
      (withBorrow (withVol (sampleMarket 100 yc) "A" (.flat (.val 0.2) .everyDay (0, 0))) "A" yc) = .ok p' ∧
    generate (selfPricer fuel) (.deltaGamma 0.01) p .new (.val x) = (.ok (.deltaGamma (.val 0.01) r), q, .new) ∧
    generate (selfPricer fuel) (.deltaGamma 0.01) p' .new (.val (Real.exp (-(0.05 * (10 / 365))) * x)) = (.ok (.deltaGamma (.val 0.01) r'), q', .new) ∧
    ∀ id, r'.get id = (r.get id).map fun x => (num1 (Real.exp (-(0.05 * (10 / 365))) * ·) x.1, num1 (Real.exp (-(0.05 * (10 / 365))) * ·) x.2) := by
  obtain ⟨yc, y1, hf⟩ := sample_financed
  obtain ⟨p, p', x, r, r', q, q', h1, h2, _, _, h5, h6, h7⟩ := C113_delta_common (fuel := fuel) (b := 0.01) (l := [(2, euro .call sampleTerms "A" "C" _root_.id 90)])
    (k := Real.exp (-(0.05 * (10 / 365)))) hf (by
      intro e he
      rw [List.mem_singleton.1 he]
      exact ⟨"A", _root_.id, rfl⟩) (by
      intro e he
      rw [List.mem_singleton.1 he]
      show Real.exp (0.05 * years 0 0 - 0.05 * years 0 10) = _
      congr 1
      simp [years]) (sample_names 2 0 .call .call 90 90).left (by norm_num) (by norm_num) (smooth_sample _ _ _ (by norm_num))
  exact ⟨yc, p, p', x, r, r', q, q', y1, h1, h2, h5, h6, h7⟩

end QM.Risk
