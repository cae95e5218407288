import Verif.Risk.TimeLemmas
import Verif.Risk.DeltaProps

/-!
# Properties C46 and C47: reports leave the pricer as they found it
-/

namespace QM.Risk
open QM.Calendar QM.Interp QM.Vol QM.Fixings QM.Instruments QM.Instruments.Spec QM.Market QM.Market.Spec QM.Risk.Spec

variable {fuel : Nat} {instruments : List (ℝ × Instrument)} {md : MarketData} {p p' : SelfPricer} {s' : SavedPrefetch}

/-! ## C46 -/

/-- After a report of any kind has succeeded, the pricer gives the answers it gave before, holds the same instruments, and the save area is empty. -/
theorem C46_restores {g : Generator} {v : Num ℝ} {r : Report} (hp : SpotsOnce p.context.context)
    (h : generate (selfPricer fuel) g p .new v = (.ok r, p', s')) : Same p' p ∧ s' = .new ∧ SpotsOnce p'.context.context := by
  obtain ⟨h1, h2, h3, _⟩ := generate_same g hp h
  exact ⟨h2, h1, h3⟩

/-- In particular it gives the same price. -/
theorem C46_price {g : Generator} {v : Num ℝ} {r : Report} (hp : SpotsOnce p.context.context)
    (h : generate (selfPricer fuel) g p .new v = (.ok r, p', s')) : p'.price fuel = p.price fuel :=
  (C46_restores hp h).1.price fuel

theorem generateAll_each (gs : List Generator) {v : Num ℝ} {rs : List Report} : ∀ {q : SelfPricer}, Same p q → SpotsOnce p.context.context →
    SpotsOnce q.context.context →
    ((generateAll (selfPricer fuel) gs q .new v).1 = .ok rs ↔ List.Forall₂ (fun g r => (generate (selfPricer fuel) g p .new v).1 = .ok r) gs rs) := by
  induction gs generalizing rs with
  | nil =>
    intro q _ _ _
    rw [generateAll]
    constructor
    · intro h; cases h; exact .nil
    · intro h; cases h; rfl
  | cons g gs ih =>
    intro q hpq hp hq
    rw [generateAll]
    constructor
    · intro h
      generalize hg : generate (selfPricer fuel) g q .new v = a at h
      obtain ⟨a, q1, s1⟩ := a
      cases a with
      | error e => cases h
      | ok r =>
        dsimp only at h
        obtain ⟨rfl, h2, h3, h4⟩ := generate_same g hq hg
        generalize hr : generateAll (selfPricer fuel) gs q1 .new v = b at h
        obtain ⟨b, q2, s2⟩ := b
        cases b with
        | error e => cases h
        | ok rs' =>
          cases h
          obtain ⟨p1, s3, k⟩ := h4 p hpq.symm hp
          refine .cons (by rw [k]) ((ih (hpq.trans h2.symm) hp h3).1 (by rw [hr]))
    · intro h
      obtain ⟨r, rs', h1, h2, rfl⟩ := List.forall₂_cons_left_iff.1 h
      generalize hg : generate (selfPricer fuel) g p .new v = a at h1
      obtain ⟨a, p1, s1⟩ := a
      cases h1
      obtain ⟨_, _, _, h4⟩ := generate_same g hp hg
      obtain ⟨q1, s2, k⟩ := h4 q hpq hq
      rw [k]
      obtain ⟨rfl, h5, h6, _⟩ := generate_same g hq k
      have := (ih (hpq.trans h5.symm) hp h6).2 h2
      dsimp only
      generalize generateAll (selfPricer fuel) gs q1 .new v = b at this ⊢
      obtain ⟨b, q2, s2⟩ := b
      cases this
      rfl

theorem calculate_eq {v : Num ℝ} (hv : p.price fuel = .ok v) (gs : List Generator) :
    calculate (selfPricer fuel) (.ok p) gs = (generateAll (selfPricer fuel) gs p .new v).1 := by
  unfold calculate
  rw [ok_bind]
  show (Bind.bind (p.price fuel) _) = _
  rw [hv, ok_bind]
  rfl

/-- A list of reports on one pricer consists of the reports that would be made one at a time. -/
theorem C46_independent (hp : SelfPricer.new instruments md = .ok p) (hs : SpotsOnce md) {v : Num ℝ} (hv : p.price fuel = .ok v)
    (gs : List Generator) (rs : List Report) :
    calculate (selfPricer fuel) (.ok p) gs = .ok rs ↔
      List.Forall₂ (fun g r => calculate (selfPricer fuel) (.ok p) [g] = .ok [r]) gs rs := by
  have hs' : SpotsOnce p.context.context := by
    rw [(new_context (new_self hp).2).1]
    exact hs
  rw [calculate_eq hv, generateAll_each gs (.refl p) hs' hs']
  constructor <;>
  · intro h
    refine h.imp ?_
    intro g r h
    first
    | rw [calculate_eq hv, generateAll_each [g] (.refl p) hs' hs']
      exact .cons h .nil
    | rw [calculate_eq hv, generateAll_each [g] (.refl p) hs' hs'] at h
      exact (List.forall₂_cons.1 h).1

/-- Pairs stay pairs when one side is reordered. -/
theorem forall₂_perm {α β : Type} {R : α → β → Prop} {gs gs' : List α} {rs : List β} (hperm : gs.Perm gs') (h : List.Forall₂ R gs rs) :
    ∃ rs', List.Forall₂ R gs' rs' ∧ (gs.zip rs).Perm (gs'.zip rs') := by
  induction hperm generalizing rs with
  | nil => cases h; exact ⟨[], .nil, .refl _⟩
  | cons g _ ih =>
    cases h with
    | cons h1 h2 =>
      obtain ⟨rs', k1, k2⟩ := ih h2
      exact ⟨_ :: rs', .cons h1 k1, by simpa using k2⟩
  | swap g g' l =>
    cases h with
    | cons h1 h2 =>
      cases h2 with
      | cons h2 h3 => exact ⟨_ :: _ :: _, .cons h2 (.cons h1 h3), by simpa using List.Perm.swap _ _ _⟩
  | trans _ _ ih1 ih2 =>
    obtain ⟨r1, k1, k2⟩ := ih1 h
    obtain ⟨r2, k3, k4⟩ := ih2 k1
    exact ⟨r2, k3, k2.trans k4⟩

/-- The order of the reports does not matter. -/
theorem C46_order (hp : SelfPricer.new instruments md = .ok p) (hs : SpotsOnce md) {v : Num ℝ} (hv : p.price fuel = .ok v)
    {gs gs' : List Generator} {rs : List Report} (hperm : gs.Perm gs') (h : calculate (selfPricer fuel) (.ok p) gs = .ok rs) :
    ∃ rs', calculate (selfPricer fuel) (.ok p) gs' = .ok rs' ∧ (gs.zip rs).Perm (gs'.zip rs') := by
  rw [C46_independent hp hs hv] at h
  obtain ⟨rs', h1, h2⟩ := forall₂_perm hperm h
  exact ⟨rs', (C46_independent hp hs hv gs' rs').2 h1, h2⟩

/-! ### Cases -/

/-- C46: the market of the delta report above enters each spot once. -/
example : SpotsOnce (calmMarket 100) := by
  show (["A"] : List String).Nodup
  decide

/-- C46 says nothing about a report that fails: one on a bare share leaves the spot bumped. -/
example : ∃ p p', SelfPricer.new [(1, equityA)] (sampleMarket 100 (.zero 0)) = .ok p ∧
    (generate (selfPricer fuel) (.deltaGamma 0.01) p .new (.val 100)).1 = .error .err ∧
    (generate (selfPricer fuel) (.deltaGamma 0.01) p .new (.val 100)).2.1 = p' ∧ p.price fuel = .ok (.val 100) ∧ p'.price fuel = .ok (.val 101) := by
  refine ⟨_, _, rfl, ?_, rfl, ?_, ?_⟩
  · rw [generate]
    rfl
  · have : SelfPricer.price fuel ⟨[(1, equityA)], ⟨sampleMarket 100 (.zero 0), collect 0 [(1, equityA)], .empty, .empty⟩⟩ = .ok (.val (0 + 1 * 100)) := rfl
    exact this.trans (by norm_num)
  · rw [generate]
    have : ∀ x, SelfPricer.price fuel ⟨[(1, equityA)], ⟨withSpot (sampleMarket 100 (.zero 0)) "A" x, collect 0 [(1, equityA)], .empty, .empty⟩⟩ =
      .ok (.val (0 + 1 * x)) := fun _ => rfl
    refine (this (100 * (1 + 0.01))).trans (by norm_num)

/-! ## C47 -/

/-- Whatever the pricer and whether or not the report succeeds, a time-bumped report leaves the pricer it is given as it is. -/
theorem C47_unchanged {σ S : Type} (P : Pricer σ S) (b : BumpTime) (gs : List Generator) (p : σ) (s : S) (v : Num ℝ) :
    (generate P (.timeBumped b gs) p s v).2.1 = p := by
  rw [generate]
  split
  · rfl
  · split
    · rfl
    · split <;> rfl

/-- The price in the report is what a fresh pricer says the instruments, fixed up to the new date, are worth on the moved market, and theta is that
price less the unbumped price. -/
theorem C47_theta {s : SavedPrefetch} {b : BumpTime} {gs : List Generator} {v price theta : Num ℝ} {subreports : List Report}
    (hp : SelfPricer.new instruments md = .ok p)
    (h : generate (selfPricer fuel) (.timeBumped b gs) p s v = (.ok (.timeBumped price theta subreports), p', s')) :
    theta = num2 (· - ·) price v ∧ ∃ modified held md',
      updateInstruments b.spotDateBump instruments p.context.pricingContext (collect md.spotDate instruments) = .ok (modified, held) ∧
      (if b.spotDateBump.spotDate = md.spotDate then md' = md
        else md.bumpSpotDate b.spotDateBump (collect md.spotDate instruments) = (.ok (), md')) ∧
      value fuel held md' = .ok price := by
  rw [generate] at h
  generalize hb : (selfPricer fuel).bumpTime b p = r at h
  obtain ⟨r, clone⟩ := r
  cases r with
  | error e => cases h
  | ok u =>
    dsimp only at h
    cases hc : (selfPricer fuel).price clone with
    | error e => rw [hc] at h; cases h
    | ok x =>
      rw [hc] at h
      dsimp only at h
      generalize generateAll (selfPricer fuel) gs clone s x = t at h
      obtain ⟨t, q, s2⟩ := t
      cases t with
      | error e => cases h
      | ok subs =>
        cases h
        obtain ⟨modified, held, md', h1, h2, h3, h4, h5⟩ := moved_price (fuel := fuel) hp hb
        exact ⟨rfl, modified, held, md', h1, h2, h5.symm.trans hc⟩

theorem update_none {b : BumpSpotDate} {ctx : PricingContext} {c : Collector}
    (hn : ∀ id l, c.fixings.get id = some l → ∀ d ∈ l, ¬ (ctx.spotDate ≤ d.date ∧ d.date < b.spotDate)) :
    updateInstruments b instruments ctx c = .ok (false, instruments) := by
  have h0 : ∀ id i, fixingsOf ctx b id i ((c.fixings.get id).getD []) = .ok [] := by
    intro id i
    cases hc : c.fixings.get id with
    | none => rfl
    | some l =>
      have hl := hn id l hc
      dsimp only [Option.getD_some]
      clear hc
      induction l with
      | nil => rfl
      | cons d l ih =>
        rw [fixingsOf, if_neg (hl d (by simp))]
        exact ih (fun e he => hl e (List.mem_cons_of_mem _ he))
  have h1 : ∀ l, fixingMap ctx b c l = .ok [] := by
    intro l
    induction l with
    | nil => rfl
    | cons e l ih =>
      obtain ⟨id, i⟩ := e
      rw [fixingMap, h0, ok_bind, ih, ok_bind]
      rfl
  unfold updateInstruments
  rw [h1, ok_bind]
  rfl

/-- If no fixing is due between the old and the new date, the instruments stay as they are. -/
theorem C47_no_fixings {b : BumpSpotDate} {ctx : PricingContext} {c : Collector} {modified : Bool} {held : List (ℝ × Instrument)}
    (h : updateInstruments b instruments ctx c = .ok (modified, held))
    (hn : ∀ id l, c.fixings.get id = some l → ∀ d ∈ l, ¬ (ctx.spotDate ≤ d.date ∧ d.date < b.spotDate)) : held = instruments := by
  rw [update_none hn] at h
  cases h
  rfl

/-! ### Cases -/

/-- Terms of an option that expires the day before the other one. -/
def earlierTerms : Vanilla := ⟨"P", "C", id, ⟨9, .open⟩, .call, .cash, (9, 0), 9⟩

/-- To day 20, leaving the spot where it is. -/
def toDay20 : BumpTime := ⟨⟨20, .stickySpot⟩⟩

/-- C47: rolling past the expiry of two options on one share that expire on different days succeeds. -/
theorem sample_rolled : ∃ p p', SelfPricer.new [(1, optionA 50), (1, .spotStarting earlierTerms equityA 50)] (calmMarket 100) = .ok p ∧
    p.bumpTime toDay20 = (.ok (), p') ∧ p'.instruments = [(1 * 50, payment sampleTerms), (1 * 50, payment earlierTerms)] := by
  obtain ⟨f, h1, _⟩ := calm_new (md := calmMarket 100) (S := 100) (c := collect 0 [(1, optionA 50), (1, .spotStarting earlierTerms equityA 50)]) rfl rfl
    (fun _ => rfl) rfl
  obtain ⟨g, h2, _⟩ := sample_forward (md := { calmMarket 100 with spotDate := 20 }) (S := 100) rfl rfl rfl rfl rfl rfl (Forward.zero_rt 0)
    (Forward.financing_zero 0 0) 10
  have hv : ({ calmMarket 100 with spotDate := 20 } : MarketData).volSurface equityA 10 (fun _ => .ok g) =
      .ok (.constantExpiry (.flat (.val 0) .everyDay (0, 0)) (20 / 365) (20, 0)) := by
    have hy := everyDay_year 20
    norm_num at hy
    unfold MarketData.volSurface find
    rw [show equityA.id = "A" from rfl, show (calmMarket 100).volSurfaces.get "A" = some (.flat (.val 0) .everyDay (0, 0)) from rfl]
    dsimp only
    rw [ok_bind]
    unfold Instrument.volTimeDynamics VolTimeDynamics.modify
    rw [if_neg (by simp [VolSurface.baseDate])]
    dsimp only
    rw [show yearFraction (VolSurface.flat (.val 0) .everyDay (0, 0)).calendar (VolSurface.flat (.val 0) .everyDay (0, 0)).baseDate ((20, 0) : Point) =
      .ok (4 / 73) from hy, ok_bind, if_neg (by norm_num)]
    norm_num
    rfl
  have hn := sample_new (md := { calmMarket 100 with spotDate := 20 }) (c := collect 0 [(1, optionA 50), (1, .spotStarting earlierTerms equityA 50)])
    rfl rfl h2 hv
  have hu : updateInstruments toDay20.spotDateBump [(1, optionA 50), (1, .spotStarting earlierTerms equityA 50)]
      (Prefetch.pricingContext ⟨calmMarket 100, collect 0 [(1, optionA 50), (1, .spotStarting earlierTerms equityA 50)], ⟨[("A", f)]⟩,
        ⟨[("A", .flat (.val 0) .everyDay (0, 0))]⟩⟩) (collect 0 [(1, optionA 50), (1, .spotStarting earlierTerms equityA 50)]) =
      .ok (true, (decompose sampleTerms equityA 50 100).map (fun p => (1 * p.1, p.2)) ++
        (decompose earlierTerms equityA 50 100).map (fun p => (1 * p.1, p.2))) := rfl
  have hd : ∀ v : Vanilla, v.cashOrPhysical = .cash → v.putOrCall = .call → decompose v equityA 50 100 = [(50, payment v)] := by
    intro v e1 e2
    unfold Instruments.decompose
    rw [e1, e2]
    norm_num [sign]
  rw [hd _ rfl rfl, hd _ rfl rfl] at hu
  refine ⟨_, ⟨[(1 * 50, payment sampleTerms), (1 * 50, payment earlierTerms)], ⟨{ calmMarket 100 with spotDate := 20 },
    collect 20 [(1 * 50, payment sampleTerms), (1 * 50, payment earlierTerms)], .empty, .empty⟩⟩, new_self_of h1, ?_, rfl⟩
  unfold SelfPricer.bumpTime
  dsimp only
  rw [hu]
  dsimp only
  rw [bump_date_of (by show (20 : Int) ≠ 0; decide) rfl hn none]
  rfl

/-- C47 violated: rolling past the expiry of two options on one share with the same expiry is an error, because the fixing that both need is
entered twice. -/
theorem C47_false : ∃ p, SelfPricer.new [(1, optionA 50), (1, optionA 60)] (calmMarket 100) = .ok p ∧
    p.bumpTime toDay20 = (.error .err, p) ∧
    ∀ gs s v, (generate (selfPricer fuel) (.timeBumped toDay20 gs) p s v).1 = .error .err := by
  obtain ⟨f, h1, h2⟩ := calm_new (md := calmMarket 100) (S := 100) (c := collect 0 [(1, optionA 50), (1, optionA 60)]) rfl rfl (fun _ => rfl) rfl
  refine ⟨_, new_self_of h1, rfl, ?_⟩
  intro gs s v
  rw [generate]
  rfl

end QM.Risk
