import Verif.Risk.RollLemmas
import Verif.Risk.ReportProps

/-!
# Property C47: when a portfolio rolls past its fixings
-/

namespace QM.Risk
open QM.Interp QM.Vol QM.Instruments QM.Market QM.Market.Spec QM.Fixings Spec

variable {instruments : List (ℝ × Instrument)} {md : MarketData} {p : SelfPricer}

/-- C47. A roll that leaves in the past a fixing two options wait for is refused, and leaves the pricer as it was. -/
theorem C47_shared_refused (hp : SelfPricer.new instruments md = .ok p) (b : BumpSpotDate)
    (hx : ∀ f ∈ waitsAll instruments, between md.spotDate b.spotDate f = true → ∃ x, TurnsOut p b f x)
    (hshared : ¬ ((waitsAll instruments).filter (between md.spotDate b.spotDate)).Nodup) :
    p.bumpTime ⟨b⟩ = (.error .err, p) := by
  obtain ⟨l, h1, h2, h3, h4, h5⟩ := roll_map hp b hx
  obtain ⟨e1, e2⟩ := new_self hp
  obtain ⟨_, e4⟩ := new_context e2
  have hno : ¬ ∃ t, fromFixings b.spotDate l = .ok t := by
    rw [(C22_built_iff b.spotDate l).1, h3]
    exact fun h => hshared h.2
  have herr : fromFixings b.spotDate l = .error .err := (C22_built_iff b.spotDate l).2.resolve_left hno
  have hne : l.isEmpty = false := by
    cases l with
    | nil => exact absurd (h3.1 (by simp)) hshared
    | cons e l => rfl
  have hu : updateInstruments b p.instruments p.context.pricingContext p.context.dependencies = .error .err := by
    unfold updateInstruments
    rw [e4, h1, ok_bind, hne, if_neg (by simp), herr]
    rfl
  unfold SelfPricer.bumpTime
  rw [hu]

/-- C47. If no two options wait for the same observation among the fixings that the new date leaves in the past, and nothing is overdue, then the
portfolio is fixed with a table that has what each of these fixings turns out to be, and no others. -/
theorem C47_fixed (hp : SelfPricer.new instruments md = .ok p) (b : BumpSpotDate)
    (hx : ∀ f ∈ waitsAll instruments, between md.spotDate b.spotDate f = true → ∃ x, TurnsOut p b f x)
    (hold : ∀ f ∈ waitsAll instruments, md.spotDate ≤ f.2.date)
    (honce : ((waitsAll instruments).filter (between md.spotDate b.spotDate)).Nodup) :
    ∃ table replacement, (∀ f ∈ waitsAll instruments, f.2.date < b.spotDate → ∀ x, TurnsOut p b f x → table.get f.1 f.2 = .ok (some x)) ∧
      (∀ f ∈ waitsAll instruments, b.spotDate ≤ f.2.date → table.get f.1 f.2 = .ok none) ∧
      fixAll table instruments = .ok replacement ∧
      updateInstruments b p.instruments p.context.pricingContext p.context.dependencies = .ok (replacement.isSome, replacement.getD instruments) := by
  obtain ⟨l, h1, h2, h3, h4, h5⟩ := roll_map hp b hx
  obtain ⟨e1, e2⟩ := new_self hp
  obtain ⟨_, e4⟩ := new_context e2
  obtain ⟨t, ht⟩ := (C22_built_iff b.spotDate l).1.2 ⟨h2, h3.2 honce⟩
  have hin : ∀ f ∈ waitsAll instruments, f.2.date < b.spotDate → ∀ x, TurnsOut p b f x → t.get f.1 f.2 = .ok (some x) := by
    intro f hf hd x hfx
    obtain ⟨fs, g1, g2⟩ := (h4 f.1 f.2 x).2 ⟨hf, by unfold between; exact decide_eq_true ⟨hold f hf, hd⟩, (turnsOut_eq hfx).symm⟩
    exact C22_supplied ht g1 g2
  have hout : ∀ f ∈ waitsAll instruments, b.spotDate ≤ f.2.date → t.get f.1 f.2 = .ok none := by
    intro f hf hd
    refine (C22_not_supplied ht ?_).2 hd
    intro fs v g1 g2
    have := ((h4 f.1 f.2 v).1 ⟨fs, g1, g2⟩).2.1
    unfold between at this
    have := (of_decide_eq_true this).2
    dsimp only at this
    omega
  have hget : ∀ f ∈ waitsAll instruments, ∃ o, t.get f.1 f.2 = .ok o := by
    intro f hf
    by_cases hd : f.2.date < b.spotDate
    · obtain ⟨x, hfx⟩ := hx f hf (by unfold between; exact decide_eq_true ⟨hold f hf, hd⟩)
      exact ⟨_, hin f hf hd x hfx⟩
    · exact ⟨_, hout f hf (by omega)⟩
  obtain ⟨o, ho⟩ := fixAll_ok hget
  refine ⟨t, o, hin, hout, ho, ?_⟩
  unfold updateInstruments
  rw [e4, e1, h1, ok_bind]
  cases hl : l with
  | nil =>
    have hnone : fixAll t instruments = .ok none := by
      refine fixAll_none fun f hf => ?_
      by_cases hd : f.2.date < b.spotDate
      · obtain ⟨x, hfx⟩ := hx f hf (by unfold between; exact decide_eq_true ⟨hold f hf, hd⟩)
        obtain ⟨fs, g1, _⟩ := (h4 f.1 f.2 x).2 ⟨hf, by unfold between; exact decide_eq_true ⟨hold f hf, hd⟩, (turnsOut_eq hfx).symm⟩
        rw [hl] at g1
        cases g1
      · exact hout f hf (by omega)
    rw [hnone] at ho
    cases ho
    rfl
  | cons e rest =>
    rw [← hl, if_neg (by rw [hl]; simp), ht, ok_bind, ho, ok_bind]
    cases o with
    | none => rfl
    | some r => rfl

/-- C47. Suppose nothing is overdue, and that fixing the portfolio with what the fixings turn out to be gives `replacement`, or nothing if there is
nothing to fix. The portfolio rolls to another date exactly when no two options wait for the same observation among the fixings left in the past, and
the moved market data serves both the old instruments and the new ones. -/
theorem C47_rolls_iff (hp : SelfPricer.new instruments md = .ok p) (b : BumpSpotDate) {md' : MarketData} (hb : b.spotDate ≠ md.spotDate)
    (hmd : md.bumpSpotDate b (collect md.spotDate instruments) = (.ok (), md'))
    (hx : ∀ f ∈ waitsAll instruments, between md.spotDate b.spotDate f = true → ∃ x, TurnsOut p b f x)
    (hold : ∀ f ∈ waitsAll instruments, md.spotDate ≤ f.2.date)
    {table : FixingTable ℝ} {replacement : Option (List (ℝ × Instrument))}
    (hin : ∀ f ∈ waitsAll instruments, f.2.date < b.spotDate → ∀ x, TurnsOut p b f x → table.get f.1 f.2 = .ok (some x))
    (hout : ∀ f ∈ waitsAll instruments, b.spotDate ≤ f.2.date → table.get f.1 f.2 = .ok none)
    (hfix : fixAll table instruments = .ok replacement) :
    ((∃ p', p.bumpTime ⟨b⟩ = (.ok (), p')) ↔
      ((waitsAll instruments).filter (between md.spotDate b.spotDate)).Nodup ∧ (∃ q, SelfPricer.new instruments md' = .ok q) ∧
        ∃ q, SelfPricer.new (replacement.getD instruments) md' = .ok q) ∧
    ∀ p', p.bumpTime ⟨b⟩ = (.ok (), p') → p'.instruments = replacement.getD instruments ∧ p'.context.context = md' ∧
      (replacement ≠ none → SelfPricer.new p'.instruments md' = .ok p') := by
  obtain ⟨e1, e2⟩ := new_self hp
  obtain ⟨e3, e4⟩ := new_context e2
  by_cases honce : ((waitsAll instruments).filter (between md.spotDate b.spotDate)).Nodup
  · obtain ⟨t, r, h1, h2, h3, h4⟩ := C47_fixed hp b hx hold honce
    have hsame : fixAll t instruments = fixAll table instruments := by
      unfold fixAll
      rw [fixLoop_congr instruments instruments _ fun f hf => ?_]
      by_cases hd : f.2.date < b.spotDate
      · obtain ⟨x, hfx⟩ := hx f hf (by unfold between; exact decide_eq_true ⟨hold f hf, hd⟩)
        rw [h1 f hf hd x hfx, hin f hf hd x hfx]
      · rw [h2 f hf (by omega), hout f hf (by omega)]
    rw [hsame, hfix] at h3
    cases h3
    have hserve : ∀ c, Prefetch.new md' (collect md.spotDate instruments) = .ok c →
        SelfPricer.new instruments md' = .ok ⟨instruments, { c with dependencies := collect md'.spotDate instruments }⟩ :=
      fun c hc => new_self_of (new_rest (rest_collect _ _ _) hc)
    have hgo : ∀ p', p.bumpTime ⟨b⟩ = (.ok (), p') → (∃ q, SelfPricer.new instruments md' = .ok q) ∧
        p'.instruments = replacement.getD instruments ∧ p'.context.context = md' ∧
        (replacement ≠ none → SelfPricer.new (replacement.getD instruments) md' = .ok p') := by
      intro p' hp'
      obtain ⟨modified, held, context, changed, g1, g2, g3⟩ := bumpTime_ok hp'
      rw [h4] at g1
      cases g1
      obtain ⟨_, ⟨k1, _, _⟩ | ⟨_, _, md'', k2, k3⟩⟩ := bump_date g2
      · rw [e3] at k1
        exact absurd k1 hb
      · have k2' : p.context.context.bumpSpotDate b p.context.dependencies = (.ok (), md'') := k2
        rw [e3, e4, hmd] at k2'
        cases k2'
        rw [e4] at k3
        refine ⟨⟨_, hserve _ k3⟩, ?_⟩
        rcases g3 with ⟨hm, hn⟩ | ⟨hm, rfl⟩
        · rw [(new_context k3).1] at hn
          obtain ⟨n1, n2⟩ := new_self hn
          exact ⟨n1, (new_context n2).1, fun _ => hn⟩
        · refine ⟨rfl, (new_context k3).1, fun hne => ?_⟩
          cases replacement with
          | none => exact absurd rfl hne
          | some r => cases hm
    refine ⟨⟨?_, ?_⟩, ?_⟩
    · rintro ⟨p', hp'⟩
      obtain ⟨g1, _, _, g4⟩ := hgo p' hp'
      refine ⟨honce, g1, ?_⟩
      cases replacement with
      | none => exact g1
      | some r => exact ⟨p', g4 (by simp)⟩
    · rintro ⟨_, ⟨q, hq⟩, q', hq'⟩
      have hc := new_rest (rest_collect md'.spotDate md.spotDate instruments) (new_self hq).2
      have hbump := bump_date_of (p := p.context) (b := b) (by rw [e3]; exact hb) (by rw [e3, e4]; exact hmd) (by rw [e4]; exact hc) none
      unfold SelfPricer.bumpTime
      rw [h4]
      dsimp only
      rw [hbump]
      dsimp only
      cases replacement with
      | none => exact ⟨_, rfl⟩
      | some r =>
        rw [(new_context (new_self hq).2).1]
        rw [Option.getD_some] at hq'
        rw [Option.getD_some, hq']
        exact ⟨_, rfl⟩
    · intro p' hp'
      obtain ⟨_, g2, g3, g4⟩ := hgo p' hp'
      exact ⟨g2, g3, fun hne => by rw [g2]; exact g4 hne⟩
  · have hno : ∀ p', p.bumpTime ⟨b⟩ ≠ (.ok (), p') := by
      intro p' hp'
      rw [C47_shared_refused hp b hx honce] at hp'
      cases hp'
    exact ⟨⟨fun ⟨p', hp'⟩ => absurd hp' (hno p'), fun h => absurd h.1 honce⟩, fun p' hp' => absurd hp' (hno p')⟩

/-! ### Cases -/

/-- The portfolio of `sample_rolled` waits for two fixings, both before day 20 and both turning out to be the spot. -/
theorem sample_waits : waitsAll [(1, optionA 50), (1, .spotStarting earlierTerms equityA 50)] = [("A", sampleTerms.expiry), ("A", earlierTerms.expiry)] ∧
    ((waitsAll [(1, optionA 50), (1, .spotStarting earlierTerms equityA 50)]).filter (between 0 20)) = [("A", sampleTerms.expiry), ("A", earlierTerms.expiry)] ∧
    [("A", sampleTerms.expiry), ("A", earlierTerms.expiry)].Nodup ∧
    ∀ p : SelfPricer, p.context.context = calmMarket 100 → ∀ d, TurnsOut p toDay20.spotDateBump ("A", d) 100 := by
  refine ⟨rfl, rfl, by decide +kernel, ?_⟩
  intro p hp d
  show p.context.context.spots.get "A" = some 100
  rw [hp]
  rfl

/-- The portfolio of `C47_false` waits twice for the same fixing. -/
theorem sample_shared : (waitsAll [(1, optionA 50), (1, optionA 60)]).filter (between 0 20) = [("A", sampleTerms.expiry), ("A", sampleTerms.expiry)] := rfl

end QM.Risk
