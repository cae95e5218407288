import Verif.Market.CoherenceLemmas
import Verif.Instruments.OptionProps

/-!
# Properties of market data and of the prefetching context: C33 (spots), C34, C35, C36 and C37
-/

namespace QM.Market
open QM.Interp QM.Curves QM.Dividends QM.Forward QM.Vol QM.Instruments QM.Instruments.Spec Spec

/-! ## Samples -/

/-- A market of one equity without borrow or dividends. -/
noncomputable def sampleMarket (spot : ℝ) (rates : RateCurve) : MarketData :=
  ⟨0, ⟨[("A", spot)]⟩, ⟨[("C", rates)]⟩, ⟨[("A", .zero 0)]⟩, ⟨[("A", .new [] (.zero 0))]⟩, ⟨[("A", .flat (.val 0.2) .everyDay (0, 0))]⟩⟩

/-- The equity. -/
def equityA : Instrument := .equity "A" "C" id

/-- An option on it that expires on day 10. -/
noncomputable def optionA (strike : ℝ) : Instrument := .spotStarting sampleTerms equityA strike

/-- What one option depends on. -/
noncomputable def oneOption : Collector := [Call.spot (optionA 90)].foldl run (.new 0)

/-- What two options on the same equity depend on. -/
noncomputable def twoOptions : Collector := [Call.spot (optionA 90), .spot (optionA 110)].foldl run (.new 0)

/-- The forward, when the equity pays no dividends. -/
theorem sample_forward {md : MarketData} {S : ℝ} {rates : RateCurve} {divs : DividendStream} {g : Int → ℝ} {t : Int} (hsd : md.spotDate = t)
    (hs : md.spots.get "A" = some S) (hd : md.dividends.get "A" = some divs) (hb : md.borrowCurves.get "A" = some (.zero 0))
    (hy : md.yieldCurves.get "C" = some rates) (hnil : divs.dividends = []) (hz : ∀ d, Accrued divs.divYield d 0)
    (hg : Financing rates (.zero 0) g) (hwm : Int) :
    ∃ f, md.forwardCurve equityA hwm = .ok f ∧ ∀ d ≤ hwm, f.forward d = .ok (.val (S * Real.exp (g d - g t))) := by
  have hboot : bootstrapStream divs rates (.zero 0) (S * Real.exp (- g t - - g t)) t hwm = .ok ⟨t, hwm, []⟩ := by
    unfold bootstrapStream Bootstrap.new
    rw [hnil]
    rfl
  have hnew : md.equityForward equityA hwm = .ok ⟨id, rates, .zero 0, divs.divYield, ⟨t, hwm, []⟩, S * Real.exp (- g t - - g t), - g t⟩ := by
    unfold MarketData.equityForward find
    rw [show equityA.id = "A" from rfl, show equityA.creditId = "C" from rfl, hs, hd, hb, hy, hsd]
    show EquityForward.new t S id rates (.zero 0) divs hwm = _
    unfold EquityForward.new
    rw [logDiscount_eq hg]
    simp only [Bind.bind, Except.bind, discount_eq hg, id]
    rw [hboot]
    rfl
  unfold MarketData.forwardCurve
  rw [hnew]
  refine ⟨_, rfl, ?_⟩
  intro d hd
  have := forward_eq (f := ⟨id, rates, .zero 0, divs.divYield, ⟨t, hwm, []⟩, S * Real.exp (- g t - - g t), - g t⟩) (date := d) (divs := 0)
    (y := 0) hg (by
      unfold Bootstrap.discountedSumFromBase sumFromBase
      rw [if_neg (by dsimp only; omega)]
      rfl) (hz _)
  show ((EquityForward.forward _ d).map Num.val) = _
  rw [this]
  show Except.ok (Num.val _) = _
  congr 2
  simp only [id]
  rw [show - g t - - g t = 0 by ring, Real.exp_zero]
  rw [show - g t + 0 + g d = g d - g t by ring]
  ring

theorem sample_forward_flat (S : ℝ) (hwm : Int) :
    ∃ f, (sampleMarket S (.zero 0)).forwardCurve equityA hwm = .ok f ∧ ∀ d ≤ hwm, f.forward d = .ok (.val S) := by
  obtain ⟨f, h1, h2⟩ := sample_forward (md := sampleMarket S (.zero 0)) (S := S) rfl rfl rfl rfl rfl rfl (zero_rt 0) (financing_zero 0 0) hwm
  exact ⟨f, h1, fun d hd => by rw [h2 d hd]; norm_num⟩

theorem sample_new {md : MarketData} {c : Collector} {f : Fwd} {v : VolSurface} (hc : c.forwardCurves.entries = [("A", equityA, 10)])
    (hv : (c.volSurfaces.get "A").map Prod.snd = some 10)
    (h : md.forwardCurve equityA 10 = .ok f) (h' : md.volSurface equityA 10 (fun _ => .ok f) = .ok v) :
    Prefetch.new md c = .ok ⟨md, c, ⟨[("A", f)]⟩, ⟨[("A", v)]⟩⟩ := by
  unfold Prefetch.new
  rw [hc]
  unfold walkDependencies
  rw [h]
  dsimp only
  rw [show equityA.id = "A" from rfl]
  cases hg : c.volSurfaces.get "A" with
  | none => rw [hg] at hv; cases hv
  | some e =>
    obtain ⟨j, w⟩ := e
    rw [hg] at hv
    cases hv
    dsimp only
    rw [show md.volSurface equityA (Int.ofNat 10) _ = _ from h']
    rfl

/-- The sample context can be built. -/
theorem sample_built (S : ℝ) : ∃ p, Prefetch.new (sampleMarket S (.zero 0)) oneOption = .ok p := by
  obtain ⟨f, hf, _⟩ := sample_forward_flat S 10
  exact ⟨_, sample_new (c := oneOption) rfl rfl hf rfl⟩

/-! ## C33 -/

/-- C33, for spots: the up bump followed by the matching down bump leaves the spot as far below its start as the up bump left
it above. -/
theorem C33_spot (b S : ℝ) (hb : b ≠ -1) :
    (BumpSpot.relative ((1 - b) / (1 + b) - 1)).apply ((BumpSpot.relative b).apply S) = S * (1 - b) ∧
    (BumpSpot.relative b).apply S - S = S - (BumpSpot.relative ((1 - b) / (1 + b) - 1)).apply ((BumpSpot.relative b).apply S) := by
  have h : 1 + b ≠ 0 := fun h => hb (by linarith)
  have h1 : (BumpSpot.relative ((1 - b) / (1 + b) - 1)).apply ((BumpSpot.relative b).apply S) = S * (1 - b) := by
    simp only [BumpSpot.apply]
    field_simp
    ring
  refine ⟨h1, ?_⟩
  rw [h1]
  simp only [BumpSpot.apply]
  ring

/-! ## C34 -/

/-- C34 for market data: if each thing that is bumped is saved when it is bumped first and not afterwards, restoring makes every
answer what it was before. The full property allows any bumps that share a save area; `C34_false` shows that it fails when
something is saved twice. -/
theorem C34_data_partial (md : MarketData) (bumps : List (Bump × Bool)) (h : SavedFirst [] bumps) :
    let r := runData (md, .new) bumps
    (∀ x, data (r.1.restore r.2) x = data md x) ∧ (r.1.restore r.2).spotDate = md.spotDate := by
  intro r
  obtain ⟨h1, h2, h3⟩ := runData_session bumps (md := md) (s := .new) (f₀ := data md) (done := []) distinct_new
    (.start _ _ (fun x => by cases x <;> rfl)) h
  exact ⟨fun x => (data_restore _ h1 x).trans (h3 x), h2⟩

/-- A series of this kind: up, down and up again. -/
example : SavedFirst [] [(.spot "A" (.relative 0.01), true), (.spot "A" (.relative (-0.02)), false), (.vol "A" (.flatAdditive (.val 0.01)), true),
    (.spot "A" (.replace 90), false)] := by
  simp [SavedFirst, target]

/-- C34 violated: the same spot bumped twice, both times with the save area. Restoring brings back the spot between the two bumps. -/
theorem C34_false :
    ∃ (md : MarketData) (b b' : Bump), data md (.spot "A") = some (100 : ℝ) ∧
      let r := runData (md, .new) [(b, true), (b', true)]
      data (r.1.restore r.2) (.spot "A") = some (50 : ℝ) :=
  ⟨sampleMarket 100 (.zero 0), .spot "A" (.replace 50), .spot "A" (.replace 25), rfl, rfl⟩

/-- Prices depend on the answers alone. -/
theorem pricing_congr {p q : Prefetch} (h : ∀ x, answers p x = answers q x) (hs : p.context.spotDate = q.context.spotDate) :
    p.pricingContext = q.pricingContext := by
  have h1 : ∀ id, p.context.yieldCurves.get id = q.context.yieldCurves.get id := fun id => h (.yield id)
  have h2 : ∀ id, p.context.spots.get id = q.context.spots.get id := fun id => h (.spot id)
  have h3 : ∀ id, p.forwardCurves.get id = q.forwardCurves.get id := fun id => h (.forward id)
  have h4 : ∀ id, p.volSurfaces.get id = q.volSurfaces.get id := fun id => h (.surface id)
  unfold Prefetch.pricingContext find
  simp only [h1, h2, h3, h4, hs]

/-- C34 for a prefetching context: after a disciplined series of bumps, some of which may fail, restoring makes every answer
what it was before. The full property allows any bumps that share a save area. -/
theorem C34_prefetch_partial (p : Prefetch) (bumps : List (Bump × Bool)) (h : Disciplined p.dependencies [] bumps) :
    let r := runBumps (p, .new) bumps
    (∀ x, answers (r.1.restore r.2) x = answers p x) ∧ (r.1.restore r.2).context.spotDate = p.context.spotDate ∧
      (r.1.restore r.2).dependencies = p.dependencies := by
  intro r
  obtain ⟨h1, h2, h3, h4⟩ := runBumps_session bumps (p := p) (s := .new) (f₀ := answers p) (done := []) distinctSave_new rfl
    (.start _ _ (fun x => by cases x <;> rfl)) h
  exact ⟨fun x => (answers_restore _ h1 x).trans (h4 x), h2, h3⟩

/-- In particular all prices are as before. -/
theorem C34_prices_partial (p : Prefetch) (bumps : List (Bump × Bool)) (h : Disciplined p.dependencies [] bumps) (i : Instrument)
    (dates : List QM.Fixings.DateTime) (fuel : Nat) :
    let r := runBumps (p, .new) bumps
    i.prices fuel (r.1.restore r.2).pricingContext dates = i.prices fuel p.pricingContext dates := by
  intro r
  obtain ⟨h1, h2, _⟩ := C34_prefetch_partial p bumps h
  rw [pricing_congr h1 h2]

/-- The bumps of a delta and of a vega are disciplined, with one save area for both. -/
example : Disciplined oneOption [] [(.spot "A" (.relative 0.01), true), (.spot "A" (.relative (-0.02)), false),
    (.vol "A" (.flatAdditive (.val 0.01)), true), (.vol "A" (.flatAdditive (.val (-0.02))), false), (.yield "X" (.flatAnnualised 0.01), true)] := by
  have : oneOption.forwardIds.get "X" = none := rfl
  simp [Disciplined, target, touches, this]

theorem refetch_sample {p : Prefetch} {fwd f : Fwd} (hi : p.dependencies.instruments.get "A" = some equityA)
    (hd : p.dependencies.forwardCurves.get "A" = some (equityA, 10)) (hf : p.forwardCurves.get "A" = some fwd)
    (hc : p.context.forwardCurve equityA 10 = .ok f) (s : SavedPrefetch) :
    p.refetch "A" true false (some s) = (.ok true, { p with forwardCurves := p.forwardCurves.insert "A" f },
      some { s with forwardCurves := s.forwardCurves.insert "A" fwd }) := by
  unfold Prefetch.refetch
  rw [if_neg (by simp), hf, hi]
  dsimp only
  rw [if_pos rfl]
  unfold Prefetch.refetchForward
  rw [show equityA.id = "A" from rfl, hd]
  dsimp only
  rw [hc]
  rfl

/-- C34 violated: a spot and then the dividends of the same equity, saved in one save area. Restoring brings back the spot of 100
but a forward of 50, the one between the two bumps. -/
theorem C34_false_prefetch :
    ∃ (p : Prefetch) (b b' : Bump), Prefetch.new (sampleMarket 100 (.zero 0)) oneOption = .ok p ∧ target b ≠ target b' ∧
      let r := runBumps (p, .new) [(b, true), (b', true)]
      data (r.1.restore r.2).context (.spot "A") = some (100 : ℝ) ∧
      (∃ f, p.forwardCurves.get "A" = some f ∧ f.forward 10 = .ok (.val 100)) ∧
      ∃ f, (r.1.restore r.2).forwardCurves.get "A" = some f ∧ f.forward 10 = .ok (.val 50) := by
  obtain ⟨f, hf, hf'⟩ := sample_forward_flat 100 10
  have hnew := sample_new (c := oneOption) rfl rfl hf rfl
  refine ⟨_, .spot "A" (.replace 50), .divs "A" (.bumpAllRelative 1), hnew, by simp [target], ?_⟩
  obtain ⟨f50, h50, h50'⟩ := sample_forward (md := { sampleMarket 100 (.zero 0) with spots := ⟨[("A", 50)]⟩ }) (S := 50)
    rfl rfl rfl rfl rfl rfl (zero_rt 0) (financing_zero 0 0) 10
  obtain ⟨fd, hfd, _⟩ := sample_forward (md := { sampleMarket 100 (.zero 0) with
      spots := ⟨[("A", 50)]⟩, dividends := ⟨[("A", (DividendStream.new [] (.zero 0)).newBumpAll 1)]⟩ }) (S := 50)
    rfl rfl rfl rfl rfl rfl (fun d => by
      have := rt_of_rAndT (c := .relativeBump (.zero 0) 1) (d := d) (r := 0 * 1) (t := 0) rfl
      rwa [mul_zero] at this) (financing_zero 0 0) 10
  set vol : VolSurface := .flat (.val 0.2) .everyDay (0, 0)
  have e1 : (Prefetch.mk (sampleMarket 100 (.zero 0)) oneOption ⟨[("A", f)]⟩ ⟨[("A", vol)]⟩).bump (.spot "A" (.replace 50)) (some .new) =
      (.ok true, ⟨{ sampleMarket 100 (.zero 0) with spots := ⟨[("A", 50)]⟩ }, oneOption, ⟨[("A", f50)]⟩, ⟨[("A", vol)]⟩⟩,
        some ⟨{ SavedData.new with spots := ⟨[("A", 100)]⟩ }, ⟨[("A", f)]⟩, .empty⟩) :=
    refetch_sample (p := ⟨{ sampleMarket 100 (.zero 0) with spots := ⟨[("A", 50)]⟩ }, oneOption, ⟨[("A", f)]⟩, ⟨[("A", vol)]⟩⟩)
      rfl rfl rfl h50 ⟨{ SavedData.new with spots := ⟨[("A", 100)]⟩ }, .empty, .empty⟩
  have e2 : (Prefetch.mk { sampleMarket 100 (.zero 0) with spots := ⟨[("A", 50)]⟩ } oneOption ⟨[("A", f50)]⟩ ⟨[("A", vol)]⟩).bump
      (.divs "A" (.bumpAllRelative 1)) (some ⟨{ SavedData.new with spots := ⟨[("A", 100)]⟩ }, ⟨[("A", f)]⟩, .empty⟩) =
      (.ok true, ⟨{ sampleMarket 100 (.zero 0) with
          spots := ⟨[("A", 50)]⟩, dividends := ⟨[("A", (DividendStream.new [] (.zero 0)).newBumpAll 1)]⟩ },
        oneOption, ⟨[("A", fd)]⟩, ⟨[("A", vol)]⟩⟩,
        some ⟨{ SavedData.new with spots := ⟨[("A", 100)]⟩, dividends := ⟨[("A", .new [] (.zero 0))]⟩ }, ⟨[("A", f50)]⟩, .empty⟩) :=
    refetch_sample (p := ⟨{ sampleMarket 100 (.zero 0) with
        spots := ⟨[("A", 50)]⟩, dividends := ⟨[("A", (DividendStream.new [] (.zero 0)).newBumpAll 1)]⟩ },
        oneOption, ⟨[("A", f50)]⟩, ⟨[("A", vol)]⟩⟩) rfl rfl rfl hfd
      ⟨{ SavedData.new with spots := ⟨[("A", 100)]⟩, dividends := ⟨[("A", .new [] (.zero 0))]⟩ }, ⟨[("A", f)]⟩, .empty⟩
  unfold runBumps
  rw [if_pos rfl, e1]
  dsimp only [Option.getD_some]
  unfold runBumps
  rw [if_pos rfl, e2]
  dsimp only [Option.getD_some]
  unfold runBumps
  refine ⟨rfl, ⟨f, rfl, hf' 10 (by norm_num)⟩, f50, rfl, ?_⟩
  rw [h50' 10 (by norm_num)]
  norm_num

/-- C34 violated: moving the spot date is never undone by restoring, although it is given the save area. -/
theorem C34_false_spot_date {p p' : Prefetch} {s : SavedPrefetch} {save : Option SavedPrefetch} {b : BumpSpotDate}
    (h : p.bump (.spotDate b) (some s) = (.ok true, p', save)) :
    save = some s ∧ ∀ s', (p'.restore s').context.spotDate = b.spotDate ∧ b.spotDate ≠ p.context.spotDate := by
  unfold Prefetch.bump at h
  dsimp only at h
  split at h
  · rename_i hne
    cases hb : p.context.bumpSpotDate b p.dependencies with
    | mk r md =>
      rw [hb] at h
      have hmd : r = .ok () → md.spotDate = b.spotDate := by
        rintro rfl
        unfold MarketData.bumpSpotDate at hb
        split at hb
        · split at hb <;> cases hb
          rfl
        · cases hb
          rfl
      cases r with
      | error e => cases h
      | ok u =>
        dsimp only at h
        unfold Prefetch.refetchAll at h
        dsimp only at h
        generalize walkDependencies _ _ _ _ _ = w at h
        obtain ⟨r, fs, vs⟩ := w
        cases r with
        | error e => cases h
        | ok u =>
          cases h
          exact ⟨rfl, fun s' => ⟨hmd rfl, hne⟩⟩
  · cases h

/-- The spot date of the sample can be moved. -/
theorem sample_moved : ∃ (p p' : Prefetch) (b : BumpSpotDate), Prefetch.new (sampleMarket 100 (.zero 0)) oneOption = .ok p ∧
    p.bump (.spotDate b) (some .new) = (.ok true, p', some .new) := by
  obtain ⟨f, hf, _⟩ := sample_forward_flat 100 10
  have hnew := sample_new (c := oneOption) rfl rfl hf rfl
  obtain ⟨f1, hf1, _⟩ := sample_forward (md := { sampleMarket 100 (.zero 0) with spotDate := 1 }) (S := 100)
    rfl rfl rfl rfl rfl rfl (zero_rt 0) (financing_zero 0 0) 10
  obtain ⟨v, hv⟩ : ∃ v, ({ sampleMarket 100 (.zero 0) with spotDate := 1 } : MarketData).volSurface equityA 10 (fun _ => .ok f1) = .ok v := by
    have hm : ∃ v, VolTimeDynamics.modify .constantExpiry (.flat (.val 0.2) .everyDay (0, 0)) 1 = .ok v := by
      unfold VolTimeDynamics.modify
      rw [if_neg (by show ¬ (1 : Int) = 0; norm_num)]
      have := everyDay_year 1
      norm_num at this
      show ∃ v, (Bind.bind (QM.Calendar.yearFraction .everyDay (0, 0) (1, 0)) _) = Except.ok v
      rw [this]
      simp only [Bind.bind, Except.bind]
      split
      · exact ⟨_, rfl⟩
      · exact ⟨_, rfl⟩
    obtain ⟨v, hv⟩ := hm
    unfold MarketData.volSurface
    refine ⟨v, ?_⟩
    show Bind.bind (VolTimeDynamics.modify .constantExpiry (.flat (.val 0.2) .everyDay (0, 0)) 1) _ = _
    rw [hv]
    rfl
  have hnew1 := sample_new (md := { sampleMarket 100 (.zero 0) with spotDate := 1 }) (c := oneOption) rfl rfl hf1 hv
  refine ⟨_, ⟨{ sampleMarket 100 (.zero 0) with spotDate := 1 }, oneOption, ⟨[("A", f1)]⟩, ⟨[("A", v)]⟩⟩, ⟨1, .stickySpot⟩, hnew, ?_⟩
  unfold Prefetch.bump
  dsimp only
  rw [if_pos (by show (1 : Int) ≠ 0; norm_num)]
  unfold Prefetch.new at hnew1
  unfold MarketData.bumpSpotDate Prefetch.refetchAll
  dsimp only
  generalize walkDependencies _ _ _ _ _ = w at hnew1 ⊢
  obtain ⟨r, fs, vs⟩ := w
  cases r with
  | error e => cases hnew1
  | ok u =>
    cases hnew1
    rfl

/-! ## C35 -/

/-- C35: a bump changes nothing but what it names. -/
theorem C35_frame {md md' : MarketData} {b : Bump} {save save' : Option SavedData} {r : Outcome Bool}
    (h : md.bump b save = (r, md', save')) : (∀ x, target b ≠ some x → data md' x = data md x) ∧ md'.spotDate = md.spotDate := by
  cases ht : target b with
  | none =>
    cases b <;> cases ht
    cases h
    exact ⟨fun _ _ => rfl, rfl⟩
  | some y =>
    rcases data_bump md ht save with ⟨_, h2⟩ | ⟨v, _, h2⟩
    · rw [h2] at h
      cases h
      exact ⟨fun _ _ => rfl, rfl⟩
    · rw [h2] at h
      cases h
      refine ⟨fun x hx => ?_, put_spotDate _ _ _⟩
      rw [data_put _ (target_data ht), Function.update_of_ne (fun e => hx (by rw [e]))]

/-- C35: a bump of something that is not there changes nothing and says so. -/
theorem C35_absent {md : MarketData} {b : Bump} {x : Slot} (ht : target b = some x) (hx : data md x = none) (save : Option SavedData) :
    md.bump b save = (.ok false, md, save) := by
  rcases data_bump md ht save with ⟨_, h2⟩ | ⟨v, h1, _⟩
  · exact h2
  · rw [hx] at h1
    cases h1

/-- C35: a bump of something that is there changes it, says so, and saves what was there. -/
theorem C35_present {md : MarketData} {b : Bump} {x : Slot} {v : x.Val} (ht : target b = some x) (hx : data md x = some v)
    (save : Option SavedData) :
    ∃ md' save', md.bump b save = (.ok true, md', save') ∧ data md' x = some (bumped b x v) ∧ (save = none → save' = none) ∧
      ∀ s, save = some s → ∃ s', save' = some s' ∧ savedData s' x = some v ∧ ∀ y, y ≠ x → savedData s' y = savedData s y := by
  rcases data_bump md ht save with ⟨h1, _⟩ | ⟨w, h1, h2⟩
  · rw [hx] at h1
    cases h1
  · rw [hx] at h1
    cases h1
    refine ⟨_, _, h2, by rw [data_put _ (target_data ht), Function.update_self], by rintro rfl; rfl, ?_⟩
    rintro s rfl
    refine ⟨_, rfl, ?_, ?_⟩
    · rw [savedData_put _ (target_data ht), Function.update_self]
    · intro y hy
      rw [savedData_put _ (target_data ht), Function.update_of_ne hy]

/-- C35 for a prefetching context: only what the bump names and what is prefetched from it. -/
theorem C35_prefetch {p p' : Prefetch} {b : Bump} {save save' : Option SavedPrefetch} {r : Outcome Bool} (hb : (target b).isSome)
    (h : p.bump b save = (r, p', save')) :
    (∀ x, x ∉ touches p.dependencies b → answers p' x = answers p x) ∧ p'.context.spotDate = p.context.spotDate := by
  obtain ⟨saved, s, rfl⟩ : ∃ saved s, save = area saved s := by
    cases save with
    | none => exact ⟨false, .new, rfl⟩
    | some s => exact ⟨true, s, rfl⟩
  obtain ⟨r', p'', s', xs, h1, h2, h3, _⟩ := bump_steps p hb saved s
  rw [h1] at h
  cases h
  exact ⟨fun x hx => (h2.trace.frame x (fun hm => hx (h3.subset hm))).1, h2.spotDate⟩

/-- In the sample, a bump of the spot of another equity is a bump of nothing, and a bump of the spot is one of 100. -/
example : data (sampleMarket 100 (.zero 0)) (.spot "B") = none ∧ data (sampleMarket 100 (.zero 0)) (.spot "A") = some (100 : ℝ) ∧
    target (.spot "A" (.relative 0.01)) = some (.spot "A") := ⟨rfl, rfl, rfl⟩

/-! ## C36 -/

/-- C36, for bumps that succeed and for disciplined series of bumps followed by a restore: the context answers what a fresh
one on the current market data would. It is required that no two instruments share an id. What is missing is bumps that
fail, and save areas used for bumps that interfere; `C36_false` shows that the property fails there. -/
theorem C36_partial {md : MarketData} {sd : Int} {calls : List Call} (hu : Unambiguous (calls.foldl run (.new sd))) {p q : Prefetch}
    (hp : Prefetch.new md (calls.foldl run (.new sd)) = .ok p) (hq : History p q) : Fresh q := by
  have hw : WellFormed (calls.foldl run (.new sd)) := wellFormed_runs (wellFormed_new sd) calls
  obtain ⟨h0, _, hd⟩ := coherent_new hw hp
  have : Coherent q ∧ q.dependencies = calls.foldl run (.new sd) := by
    induction hq with
    | start => exact ⟨h0, hd⟩
    | bump _ hb ih =>
      obtain ⟨h1, h2⟩ := ih
      rw [← h2] at hw hu
      obtain ⟨h3, h4⟩ := h1.bump hw hu hb
      exact ⟨h3, h4.trans h2⟩
    | session _ hs ih =>
      obtain ⟨h1, h2⟩ := ih
      obtain ⟨h3, h4, h5⟩ := C34_prefetch_partial _ _ hs
      exact ⟨h1.congr h5 h4 h3, h5.trans h2⟩
  refine this.1.fresh ?_
  rw [this.2]
  exact hw

/-- In particular prices are those of a fresh context. -/
theorem C36_prices_partial {md : MarketData} {sd : Int} {calls : List Call} (hu : Unambiguous (calls.foldl run (.new sd))) {p q : Prefetch}
    (hp : Prefetch.new md (calls.foldl run (.new sd)) = .ok p) (hq : History p q) :
    ∃ q', Prefetch.new q.context q.dependencies = .ok q' ∧ ∀ (i : Instrument) dates fuel,
      i.prices fuel q.pricingContext dates = i.prices fuel q'.pricingContext dates := by
  obtain ⟨q', h1, h2⟩ := C36_partial hu hp hq
  have h3 : q'.context = q.context := by
    unfold Prefetch.new at h1
    split at h1 <;> cases h1
    rfl
  exact ⟨q', h1, fun i dates fuel => by rw [pricing_congr h2 (by rw [h3])]⟩

/-- The hypotheses are met by the sample with a bump of the spot date in its history. -/
example : Unambiguous oneOption ∧ ∃ p q, Prefetch.new (sampleMarket 100 (.zero 0)) oneOption = .ok p ∧ History p q ∧
    q.context.spotDate ≠ p.context.spotDate := by
  refine ⟨?_, ?_⟩
  · intro id i hwm j h1 h2
    have e1 : oneOption.forwardCurves.entries = [("A", equityA, 10)] := rfl
    have e2 : oneOption.instruments.entries = [("A", equityA)] := rfl
    unfold Map.get at h1 h2
    rw [e1] at h1
    rw [e2] at h2
    by_cases hid : "A" = id
    · subst hid
      simp at h1 h2
      rw [← h1.1, h2]
    · simp [hid] at h1
  · obtain ⟨p, p', b, h1, h2⟩ := sample_moved
    refine ⟨p, p', h1, .bump (.start p) h2, ?_⟩
    obtain ⟨_, h3⟩ := C34_false_spot_date h2
    obtain ⟨h4, h5⟩ := h3 .new
    rw [show (p'.restore .new).context.spotDate = p'.context.spotDate from rfl] at h4
    rw [h4]
    exact h5

/-- A curve that is flat at zero, and the same after a bump of ten percent. -/
theorem sample_rates : ∃ c : RateCurve, Financing c (.zero 0) (fun _ => 0) ∧
    Financing (.continuouslyCompoundedFlatBump c 0.1) (.zero 0) (fun d => if d = 0 then 0 else 0.1 * years 0 d) := by
  obtain ⟨c, hc, _, _, hr⟩ := flat_curve 0 0 0
  have h0 : c.rAndT 0 = .ok (.val 0, 0) := by
    cases hc
    unfold RateCurve.rAndT
    exact if_pos rfl
  have hb : ∀ {d r t}, c.rAndT d = .ok (.val r, t) → (RateCurve.continuouslyCompoundedFlatBump c 0.1).rAndT d = .ok (.val (r + 0.1), t) := by
    intro d r t h
    unfold RateCurve.rAndT
    rw [h]
    rfl
  refine ⟨c, fun d => ?_, fun d => ?_⟩
  · by_cases hd : d = 0
    · subst hd
      exact ⟨_, _, rt_of_rAndT h0, zero_rt 0 0, by norm_num⟩
    · exact ⟨_, _, rt_of_rAndT (hr d hd), zero_rt 0 d, by norm_num⟩
  · by_cases hd : d = 0
    · subst hd
      exact ⟨_, _, rt_of_rAndT (hb h0), zero_rt 0 0, by norm_num⟩
    · exact ⟨_, _, rt_of_rAndT (hb (hr d hd)), zero_rt 0 d, by norm_num [hd]⟩

theorem refetch_twice {p : Prefetch} {fwd f : Fwd} (hi : p.dependencies.instruments.get "A" = some equityA)
    (hd : p.dependencies.forwardCurves.get "A" = some (equityA, 10)) (hf : p.forwardCurves = ⟨[("A", fwd)]⟩)
    (hc : p.context.forwardCurve equityA 10 = .ok f) (s : SavedPrefetch) (hs : s.forwardCurves = .empty) :
    p.refetchAllOf true ["A", "A"] (some s) = (.ok (), { p with forwardCurves := ⟨[("A", f)]⟩ }, some { s with forwardCurves := ⟨[("A", f)]⟩ }) := by
  unfold Prefetch.refetchAllOf
  rw [refetch_sample hi hd (by rw [hf]; rfl) hc]
  dsimp only
  unfold Prefetch.refetchAllOf
  rw [refetch_sample (p := { p with forwardCurves := p.forwardCurves.insert "A" f }) hi hd (Map.get_insert_self _ _ _) hc]
  dsimp only
  unfold Prefetch.refetchAllOf
  rw [hs, hf]
  rfl

/-- C36 violated: two options on the same equity. A bump of the yield curve that is saved makes the forward twice, and the second time saves
the bumped one. Restoring brings back the yield curve, but not the forward. -/
theorem C36_false : ∃ (md : MarketData) (p p' : Prefetch) (s : SavedPrefetch) (b : Bump),
    Prefetch.new md twoOptions = .ok p ∧ Unambiguous twoOptions ∧ p.bump b (some .new) = (.ok true, p', some s) ∧
    (∀ x, data (p'.restore s).context x = data md x) ∧ ¬ Fresh (p'.restore s) := by
  obtain ⟨c, hg, hg'⟩ := sample_rates
  obtain ⟨f, hf, hf'⟩ := sample_forward (md := sampleMarket 100 c) (S := 100) rfl rfl rfl rfl rfl rfl (zero_rt 0) hg 10
  obtain ⟨f1, hf1, hf1'⟩ := sample_forward (md := sampleMarket 100 (.continuouslyCompoundedFlatBump c 0.1)) (S := 100)
    (t := 0) rfl rfl rfl rfl rfl rfl (zero_rt 0) hg' 10
  have hnew := sample_new (c := twoOptions) rfl rfl hf rfl
  set vol : VolSurface := .flat (.val 0.2) .everyDay (0, 0)
  have hr := refetch_twice (p := ⟨sampleMarket 100 (.continuouslyCompoundedFlatBump c 0.1), twoOptions, ⟨[("A", f)]⟩, ⟨[("A", vol)]⟩⟩)
    rfl rfl rfl hf1 ⟨{ SavedData.new with yieldCurves := ⟨[("C", c)]⟩ }, .empty, .empty⟩ rfl
  refine ⟨sampleMarket 100 c, _, ⟨sampleMarket 100 (.continuouslyCompoundedFlatBump c 0.1), twoOptions, ⟨[("A", f1)]⟩, ⟨[("A", vol)]⟩⟩,
    ⟨{ SavedData.new with yieldCurves := ⟨[("C", c)]⟩ }, ⟨[("A", f1)]⟩, .empty⟩, .yield "C" (.flatContinuouslyCompounded 0.1),
    hnew, ?_, ?_, ?_, ?_⟩
  · intro id i hwm j h1 h2
    have e1 : twoOptions.forwardCurves.entries = [("A", equityA, 10)] := rfl
    have e2 : twoOptions.instruments.entries = [("A", equityA)] := rfl
    unfold Map.get at h1 h2
    rw [e1] at h1
    rw [e2] at h2
    by_cases hid : "A" = id
    · subst hid
      simp at h1 h2
      rw [← h1.1, h2]
    · simp [hid] at h1
  · show (match Prefetch.refetchAllOf ⟨sampleMarket 100 (.continuouslyCompoundedFlatBump c 0.1), twoOptions, ⟨[("A", f)]⟩, ⟨[("A", vol)]⟩⟩
      true ["A", "A"] (some ⟨{ SavedData.new with yieldCurves := ⟨[("C", c)]⟩ }, .empty, .empty⟩) with
      | (.error e, p, save) => ((.error e, p, save) : Outcome Bool × Prefetch × Option SavedPrefetch)
      | (.ok (), p, save) => (.ok true, p, save)) = _
    rw [hr]
  · intro x
    cases x <;> rfl
  · rintro ⟨q, hq, ha⟩
    have hq' : Prefetch.new (sampleMarket 100 c) twoOptions = .ok q := hq
    rw [hnew] at hq'
    cases hq'
    have h := ha (.forward "A")
    have h' : (some f1 : Option Fwd) = some f := h
    cases h'
    have e1 := hf' 10 (by norm_num)
    rw [hf1' 10 (by norm_num)] at e1
    simp only [Except.ok.injEq, Num.val.injEq] at e1
    norm_num [years] at e1

/-! ## C37 -/

/-- C37 for market data: a bump that fails changes nothing. -/
theorem C37_data {md md' : MarketData} {b : Bump} {save save' : Option SavedData} {e : Fault} (h : md.bump b save = (.error e, md', save')) :
    md' = md ∧ save' = save := by
  cases ht : target b with
  | none =>
    cases b <;> cases ht
    cases h
    exact ⟨rfl, rfl⟩
  | some x =>
    rcases data_bump md ht save with ⟨_, h2⟩ | ⟨v, _, h2⟩ <;> rw [h2] at h <;> cases h

/-- C37 for a prefetching context, with the help of the save area: a bump that fails is undone by restoring. The full property is about
the context as the bump leaves it; `C37_false` shows that it fails. -/
theorem C37_restored_partial {p p' : Prefetch} {b : Bump} {s : SavedPrefetch} {e : Fault} (hb : (target b).isSome)
    (hn : (touches p.dependencies b).Nodup) (h : p.bump b (some .new) = (.error e, p', some s)) :
    (∀ x, answers (p'.restore s) x = answers p x) ∧ (p'.restore s).context.spotDate = p.context.spotDate := by
  obtain ⟨h1, h2, _⟩ := C34_prefetch_partial p [(b, true)] ⟨hb, hn, by simp, trivial⟩
  unfold runBumps at h1 h2
  rw [if_pos rfl, h] at h1 h2
  exact ⟨h1, h2⟩

/-- C37 for the spot date: if the forwards to the new date cannot be had, nothing is changed. -/
theorem C37_sticky_forward_partial {p : Prefetch} {b : BumpSpotDate} {save : Option SavedPrefetch} {e : Fault}
    (hne : b.spotDate ≠ p.context.spotDate) (hf : b.spotDynamics = .stickyForward)
    (h : stickyLoop p.context b.spotDate p.dependencies p.context.spots.entries .empty = .error e) :
    p.bump (.spotDate b) save = (.error e, p, save) := by
  unfold Prefetch.bump
  dsimp only
  rw [if_pos hne]
  unfold MarketData.bumpSpotDate
  rw [hf]
  dsimp only
  rw [h]

/-- C37 violated: an equity whose forward is not among the dependencies. The bump of its spot fails, but the spot is 50 afterwards. -/
theorem C37_false : ∃ (p p' : Prefetch) (b : Bump), Prefetch.new (sampleMarket 100 (.zero 0)) ([Call.spot equityA].foldl run (.new 0)) = .ok p ∧
    p.bump b none = (.error .err, p', none) ∧ answers p (.spot "A") = some (100 : ℝ) ∧ answers p' (.spot "A") = some (50 : ℝ) :=
  ⟨_, _, .spot "A" (.replace 50), rfl, rfl, rfl, rfl⟩

/-- Such a failure is undone by restoring. -/
example : ∃ (p p' : Prefetch) (b : Bump) (s : SavedPrefetch), (target b).isSome ∧ (touches p.dependencies b).Nodup ∧
    p.bump b (some .new) = (.error .err, p', some s) :=
  ⟨⟨sampleMarket 100 (.zero 0), [Call.spot equityA].foldl run (.new 0), .empty, .empty⟩, _, .spot "A" (.replace 50), _, rfl,
    by simp [touches], rfl⟩

end QM.Market
