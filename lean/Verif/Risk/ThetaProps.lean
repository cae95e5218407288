import Verif.Risk.SumProps
import Verif.Risk.DecayProps
import Verif.Risk.RollProps

/-!
# Property C105 for reports on another date: the theta of a book is the sum of the thetas of its parts
-/

namespace QM.Risk
open QM.Interp QM.Vol QM.Fixings QM.Instruments QM.Instruments.Spec QM.Market QM.Market.Spec QM.Risk.Spec

variable {fuel : Nat} {md : MarketData} {l l' : List (ℝ × Instrument)} {p p' p₁ : SelfPricer} {s₁ : SavedPrefetch}

/-! ## Lemmas -/

theorem waitsAll_append (l l' : List (ℝ × Instrument)) : waitsAll (l ++ l') = waitsAll l ++ waitsAll l' := by
  induction l with
  | nil => simp [waitsAll]
  | cons e l ih =>
    obtain ⟨w, i⟩ := e
    rw [List.cons_append, waitsAll, waitsAll, ih, List.append_assoc]

/-- What is collected is due when what is waited for is. -/
theorem quiet_collected {sd d : Int} (h : ∀ f ∈ waitsAll l, between sd d f = false) (id : String) (dates : List DateTime)
    (hl : (collect sd l).fixings.get id = some dates) (e : DateTime) (he : e ∈ dates) : ¬ (sd ≤ e.date ∧ e.date < d) := by
  have hh := held_collect sd l id
  unfold heldFixings at hh
  rw [hl] at hh
  dsimp only [Option.getD_some] at hh
  rw [hh, mem_only] at he
  have := h _ he
  unfold between at this
  exact of_decide_eq_false this

/-- What a report on another date says, when nothing fixes until then. -/
theorem quiet_report {b : BumpSpotDate} {u X θ : Num ℝ} {reports : List Report} (hp : SelfPricer.new l md = .ok p) (hne : b.spotDate ≠ md.spotDate)
    (hw : ∀ f ∈ waitsAll l, between md.spotDate b.spotDate f = false)
    (h : generate (selfPricer fuel) (.timeBumped ⟨b⟩ []) p .new u = (.ok (.timeBumped X θ reports), p₁, s₁)) :
    θ = num2 (· - ·) X u ∧ ∃ md', md.bumpSpotDate b (collect md.spotDate l) = (.ok (), md') ∧ value fuel l md' = .ok X := by
  obtain ⟨h1, modified, held, md', h2, h3, h4⟩ := C47_theta hp h
  rw [if_neg hne] at h3
  have hc : p.context.pricingContext.spotDate = md.spotDate := by
    show p.context.context.spotDate = _
    rw [(new_context (new_self hp).2).1]
  have := C47_no_fixings h2 (by
    rw [hc]
    exact quiet_collected hw)
  subst this
  exact ⟨h1, md', h3, h4⟩

/-! ## C105 -/

/-- C105, theta: put two books together and move to another date on which the spots are the same. If each book has a report then so does the whole,
and its price and its theta are the sums of those of the parts. What is missing: dates at which something has fixed, where the whole may have no report
though the parts have, `C47_false`, and spots that move along their forwards. -/
theorem C105_theta_partial {d : Int} {x y X Y : ℝ} {θ θ' : Num ℝ} {p₂ : SelfPricer} {s₂ : SavedPrefetch} (hne : d ≠ md.spotDate)
    (hor : Orderly md) (hor' : Orderly { md with spotDate := d }) (ho : OwnIds (l ++ l'))
    (hk : ∀ e ∈ l ++ l', Covered md.spotDate e.2 [⟨md.spotDate, .open⟩]) (hk' : ∀ e ∈ l ++ l', Covered d e.2 [⟨d, .open⟩])
    (hw : ∀ f ∈ waitsAll (l ++ l'), between md.spotDate d f = false)
    (hp : SelfPricer.new l md = .ok p) (hx : p.price fuel = .ok (.val x))
    (hr : generate (selfPricer fuel) (.timeBumped ⟨⟨d, .stickySpot⟩⟩ []) p .new (.val x) = (.ok (.timeBumped (.val X) θ []), p₁, s₁))
    (hp' : SelfPricer.new l' md = .ok p') (hy : p'.price fuel = .ok (.val y))
    (hr' : generate (selfPricer fuel) (.timeBumped ⟨⟨d, .stickySpot⟩⟩ []) p' .new (.val y) = (.ok (.timeBumped (.val Y) θ' []), p₂, s₂)) :
    ∃ q, SelfPricer.new (l ++ l') md = .ok q ∧ q.price fuel = .ok (.val (x + y)) ∧ θ = .val (X - x) ∧ θ' = .val (Y - y) ∧
      generate (selfPricer fuel) (.timeBumped ⟨⟨d, .stickySpot⟩⟩ []) q .new (.val (x + y)) =
        (.ok (.timeBumped (.val (X + Y)) (.val ((X - x) + (Y - y))) []), q, .new) := by
  rw [waitsAll_append] at hw
  obtain ⟨t1, md1, b1, v1⟩ := quiet_report hp hne (fun f hf => hw f (List.mem_append_left _ hf)) hr
  obtain ⟨t2, md2, b2, v2⟩ := quiet_report hp' hne (fun f hf => hw f (List.mem_append_right _ hf)) hr'
  unfold MarketData.bumpSpotDate at b1 b2
  dsimp only at b1 b2
  injection b1 with _ b1
  injection b2 with _ b2
  subst b1 b2
  have hnow : ∀ {m : List (ℝ × Instrument)} {r : SelfPricer} {z : Num ℝ}, SelfPricer.new m md = .ok r → r.price fuel = .ok z → value fuel m md = .ok z := by
    intro m r z h1 h2
    unfold value
    rw [h1]
    exact h2
  have hv := value_sum hor ho hk (hnow hp hx) (hnow hp' hy)
  have hv' := value_sum hor' ho hk' v1 v2
  obtain ⟨q, q1, q2⟩ := value_new hv
  refine ⟨q, q1, q2, t1, t2, ?_⟩
  have hq := roll_quiet (fuel := fuel) (b := ⟨d, .stickySpot⟩) (u := .val (x + y)) q1 hne
    (quiet_collected (by rw [waitsAll_append]; exact hw)) rfl hv'
  rw [hq]
  simp only [num2]
  congr 4
  ring

/-- C105, theta: a book held several times over has that many times the theta, whatever the spots do. -/
theorem C105_theta_scaled_partial {b : BumpSpotDate} {x X : ℝ} {θ : Num ℝ} (c : ℝ) (hne : b.spotDate ≠ md.spotDate)
    (hw : ∀ f ∈ waitsAll l, between md.spotDate b.spotDate f = false) (hp : SelfPricer.new l md = .ok p) (hx : p.price fuel = .ok (.val x))
    (hr : generate (selfPricer fuel) (.timeBumped ⟨b⟩ []) p .new (.val x) = (.ok (.timeBumped (.val X) θ []), p₁, s₁)) :
    ∃ q, SelfPricer.new (scaled c l) md = .ok q ∧ q.price fuel = .ok (.val (c * x)) ∧ θ = .val (X - x) ∧
      generate (selfPricer fuel) (.timeBumped ⟨b⟩ []) q .new (.val (c * x)) = (.ok (.timeBumped (.val (c * X)) (.val (c * (X - x))) []), q, .new) := by
  obtain ⟨t1, md1, b1, v1⟩ := quiet_report hp hne hw hr
  have hv : value fuel l md = .ok (.val x) := by
    unfold value
    rw [hp]
    exact hx
  obtain ⟨q, q1, q2⟩ := value_new (value_scaled c hv)
  refine ⟨q, q1, q2, t1, ?_⟩
  have hq := roll_quiet (fuel := fuel) (b := b) (u := .val (c * x)) q1 hne (by rw [collect_scaled]; exact quiet_collected hw)
    (by rw [collect_scaled]; exact b1) (value_scaled c v1)
  rw [hq]
  simp only [num2]
  congr 4
  ring

/-- C105: two puts held and a call sold, moved from day 0 to day 1. -/
example : ∃ (p p' p₁ p₂ : SelfPricer) (x y X Y : ℝ) (θ θ' : Num ℝ) (s₁ s₂ : SavedPrefetch), Orderly smileless ∧ Orderly { smileless with spotDate := 1 } ∧
    OwnIds ([(2, euro .put (dayTerms 20) "A" "C" _root_.id 50)] ++ [(-1, euro .call (dayTerms 20) "A" "C" _root_.id 90)]) ∧
    (∀ d : Int, ∀ e ∈ [((2 : ℝ), euro .put (dayTerms 20) "A" "C" _root_.id 50)] ++ [(-1, euro .call (dayTerms 20) "A" "C" _root_.id 90)],
      Covered d e.2 [⟨d, .open⟩]) ∧
    (∀ f ∈ waitsAll ([(2, euro .put (dayTerms 20) "A" "C" _root_.id 50)] ++ [(-1, euro .call (dayTerms 20) "A" "C" _root_.id 90)]),
      between smileless.spotDate 1 f = false) ∧
    SelfPricer.new [(2, euro .put (dayTerms 20) "A" "C" _root_.id 50)] smileless = .ok p ∧ p.price fuel = .ok (.val x) ∧
    generate (selfPricer fuel) (.timeBumped ⟨⟨1, .stickySpot⟩⟩ []) p .new (.val x) = (.ok (.timeBumped (.val X) θ []), p₁, s₁) ∧
    SelfPricer.new [(-1, euro .call (dayTerms 20) "A" "C" _root_.id 90)] smileless = .ok p' ∧ p'.price fuel = .ok (.val y) ∧
    generate (selfPricer fuel) (.timeBumped ⟨⟨1, .stickySpot⟩⟩ []) p' .new (.val y) = (.ok (.timeBumped (.val Y) θ' []), p₂, s₂) := by
  have hs : ∀ (kind : PutOrCall) (K : ℝ), 0 < K → ∃ x t : ℝ, ∀ n, ∃ p, SelfPricer.new [(n, euro kind (dayTerms 20) "A" "C" _root_.id K)] smileless = .ok p ∧
      p.price fuel = .ok (.val (n * x)) ∧ generate (selfPricer fuel) (.timeBumped ⟨⟨1, .stickySpot⟩⟩ []) p .new (.val (n * x)) =
        (.ok (.timeBumped (.val (n * (x + t))) (.val (n * t)) []), p, .new) := by
    intro kind K hK
    obtain ⟨x, t, _, _, _, h⟩ := C97_spot_partial (fuel := fuel) (last := 20) (sample_pays_nothing (.flat (.val 0.2) .everyDay (0, 0)) 100 20)
      (day_ageing 20 1 (by norm_num) (by norm_num) K 100) le_rfl (by norm_num) hK (by norm_num) kind (by cases kind <;> exact le_rfl)
    exact ⟨x, t, h⟩
  obtain ⟨x, t, h⟩ := hs .put 50 (by norm_num)
  obtain ⟨y, t', h'⟩ := hs .call 90 (by norm_num)
  obtain ⟨p, a1, a2, a3⟩ := h 2
  obtain ⟨p', b1, b2, b3⟩ := h' (-1)
  have hu : ∀ u ∈ underlyingsAll ([((2 : ℝ), euro .put (dayTerms 20) "A" "C" _root_.id 50)] ++ [(-1, euro .call (dayTerms 20) "A" "C" _root_.id 90)]),
      u = .equity "A" "C" _root_.id := by
    intro u hu
    simpa [underlyingsAll, underlyings, euro] using hu
  refine ⟨p, p', p, p', _, _, _, _, _, _, _, _, ⟨(sample_orderly 100).financing, (sample_orderly 100).dividends⟩,
    ⟨(sample_orderly 100).financing, ?_⟩, ?_, ?_, ?_, a1, a2, a3, b1, b2, b3⟩
  · intro k divs hk
    obtain ⟨o1, o2⟩ := (sample_orderly 100).dividends k divs hk
    refine ⟨o1, fun e he => ?_⟩
    by_cases hkA : k = "A"
    · subst hkA
      simp [smileless, withVol, sampleMarket, Map.get] at hk
      subst hk
      cases he
    · simp [smileless, withVol, sampleMarket, Map.get, Ne.symm hkA] at hk
  · intro u h1 v h2 _
    rw [hu u h1, hu v h2]
  · intro d e he
    simp only [List.cons_append, List.nil_append, List.mem_cons, List.not_mem_nil, or_false] at he
    rcases he with rfl | rfl <;>
    · unfold euro
      dsimp only
      rw [Covered]
      exact .inl trivial
  · intro f hf
    simp [waitsAll, waits, euro, dayTerms] at hf
    subst hf
    decide

end QM.Risk
