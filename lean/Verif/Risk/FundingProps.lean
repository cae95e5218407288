import Verif.Risk.FundingLemmas
import Verif.Risk.RhoProps
import Verif.Risk.SumProps

/-!
# Property C113: yields and borrow costs that rise together only discount
-/

namespace QM.Risk
open QM.Interp QM.Curves QM.Curves.Spec QM.Dividends QM.Forward QM.Vol QM.Fixings QM.Instruments QM.Instruments.Spec QM.Market QM.Market.Spec QM.Risk.Spec

variable {a : String → Int → ℝ} {creditOf : String → String} {md md' : MarketData} {fuel : Nat} {instruments : List (ℝ × Instrument)}

/-- C113. If yields rise and borrow costs with them, each position is worth what it was, times what discounting has changed by. -/
theorem C113_price (h : Financed a creditOf md md') (hi : ∀ e ∈ instruments, Financeable creditOf e.2) :
    value fuel instruments md' = value fuel (instruments.map fun e => (e.1 * discountRatio a md.spotDate e.2, e.2)) md := by
  unfold value SelfPricer.new Prefetch.new
  rw [h.spotDate, collect_weights, walk_financed h _ _ (collect_financed md.spotDate hi)]
  generalize walkDependencies md _ _ _ _ = w
  obtain ⟨w, fs, vs⟩ := w
  cases w with
  | error e => rfl
  | ok _ =>
    show SelfPricer.price fuel ⟨instruments, ⟨md', _, fs, vs⟩⟩ = SelfPricer.price fuel ⟨instruments.map _, ⟨md, _, fs, vs⟩⟩
    unfold SelfPricer.price
    dsimp only
    rw [h.spotDate]
    have hh : HigherYields a (Prefetch.pricingContext ⟨md, collect md.spotDate instruments, fs, vs⟩)
        (Prefetch.pricingContext ⟨md', collect md.spotDate instruments, fs, vs⟩) := by
      refine ⟨h.spotDate, ?_, rfl, rfl, fun id hwm => named_find h.yieldCurves id⟩
      funext id
      show find id md'.spots = find id md.spots
      rw [h.spots]
    exact priceLoop_higher hh _ _ _ hi

/-- C113. The same for a pricer whose yield curve and borrow curve are bumped by the same amount, one after the other. -/
theorem C113_bumped {yc bc : RateCurve} {id credit : String} {b : ℝ} {p q : SelfPricer} (ho : OwnNames instruments)
    (hi : ∀ e ∈ instruments, Financeable creditOf e.2) (hcredit : ∀ k, creditOf k = credit ↔ k = id) (hy : md.yieldCurves.get credit = some yc)
    (hb : md.borrowCurves.get id = some bc) (hyi : Interpolated yc) (hbi : Interpolated bc) (hbase : bc.baseDate = yc.baseDate)
    (hp : SelfPricer.new instruments md = .ok p)
    (hq : Applied p [.yield credit (.flatContinuouslyCompounded b), .borrow id (.flatContinuouslyCompounded b)] q) :
    q.price fuel = value fuel (instruments.map fun e => (e.1 * discountRatio (rise credit yc.baseDate b) md.spotDate e.2, e.2)) md := by
  obtain ⟨r, h1, h2, _⟩ := C110_market (fuel := fuel) ho hp (by simp [target]) hq
  rw [h2, ← C113_price (financed_bump b hcredit hy hb hyi hbi hbase) hi]
  unfold value
  rw [h1]
  rfl

/-- C113. If all that is held settles and is paid on the same dates, or is discounted alike for another reason, the value of a portfolio is multiplied by
what discounting changes by. -/
theorem C113_common {k x : ℝ} (h : Financed a creditOf md md') (hi : ∀ e ∈ instruments, Financeable creditOf e.2)
    (hk : ∀ e ∈ instruments, discountRatio a md.spotDate e.2 = k) (hx : value fuel instruments md = .ok (.val x)) :
    value fuel instruments md' = .ok (.val (k * x)) := by
  rw [C113_price h hi, ← value_scaled k hx]
  congr 1
  unfold scaled
  refine List.map_congr_left (fun e he => ?_)
  rw [hk e he, mul_comm]

/-! ## A case -/

theorem option_borrow_at {n b : ℝ} {kind : PutOrCall} {v : Vanilla} {id credit : String} {settle : Int → Int} {K : ℝ} {p p₂ : SelfPricer} {bc : RateCurve}
    {f : Answers} {sd : Int} (hat : At [(n, euro kind v id credit settle K)] sd f p) (hslot : f (.borrow id) = some bc) (hs : md.spotDate = sd)
    (hdata : ∀ z, data md z = Function.update f (.borrow id) (some ((BumpYield.flatContinuouslyCompounded b).apply bc)) z)
    (k1 : SelfPricer.new [(n, euro kind v id credit settle K)] md = .ok p₂) (save : Option SavedPrefetch) :
    ∃ p' save', p.bump (.borrow id (.flatContinuouslyCompounded b)) save = (.ok true, p', save') := by
  have hu := option_unambiguous (v := v) (id := id) (credit := credit) (settle := settle) (K := K) n kind sd
  obtain ⟨c1, _, c3⟩ := collect_option (v := v) (id := id) (credit := credit) (settle := settle) (K := K) n kind sd
  obtain ⟨saved, s, rfl⟩ : ∃ saved s, save = area saved s := by
    cases save with
    | none => exact ⟨false, .new, rfl⟩
    | some s => exact ⟨true, s, rfl⟩
  have hS' : Market.Spec.answers p.context (.borrow id) = some bc := (hat.answers (x := .borrow id) trivial).trans hslot
  obtain ⟨s', _, h2⟩ := bump_present (b := .borrow id (.flatContinuouslyCompounded b)) rfl hS' saved s
  dsimp only at h2
  obtain ⟨c, save', hr⟩ := hat.refetch_put (md := md) (id := id) hu (x := .borrow id) trivial (bumped (.borrow id (.flatContinuouslyCompounded b)) (.borrow id) bc)
    (by rw [c3]; simp [Map.get]) (by rw [c1]; simp [Map.get]) hs hdata k1 (area saved s')
  rw [hr] at h2
  exact ⟨_, _, self_bump_of h2⟩

/-- C113: with rates of 5 percent and a cost of borrow of 1 percent, both are raised by 1 percent. A call that is paid in ten days loses ten days of 1 percent. -/
example : ∃ (md : MarketData) (p q : SelfPricer) (x : ℝ), SelfPricer.new [(1, euro .call (dayTerms 10) "A" "C" _root_.id 110)] md = .ok p ∧
    p.price fuel = .ok (.val x) ∧ 0 < x ∧
    Applied p [.yield "C" (.flatContinuouslyCompounded 0.01), .borrow "A" (.flatContinuouslyCompounded 0.01)] q ∧
    q.price fuel = .ok (.val (Real.exp (-(0.01 * (10 / 365))) * x)) := by
  obtain ⟨yc, bc, r, q, _, hbc, y2, b2, y3, hr, hc, hq⟩ := carry_case (fuel := fuel)
  have b3 : bc.baseDate = 0 := by cases hbc; rfl
  generalize hmd : withVol (withBorrow (sampleMarket 100 yc) "A" bc) "A" (.flat (.val 0.2) .everyDay (0, 0)) = md at hc hq
  have hyc : md.yieldCurves.get "C" = some yc := by rw [← hmd]; rfl
  have hbo : md.borrowCurves.get "A" = some bc := by rw [← hmd]; rfl
  have hsd : md.spotDate = 0 := by rw [← hmd]; rfl
  have h0 := carries_value hc hq (by show (10 : Int) ≤ 10; norm_num) (by norm_num) (by norm_num) (by norm_num) 1 .call
  have hx : 0 < 1 * blackValue .call (100 * Real.exp (q (_root_.id md.spotDate) - q (dayTerms 10).payDate))
      (110 * Real.exp (r (_root_.id md.spotDate) - r (dayTerms 10).payDate)) (Real.sqrt (0.2 ^ 2 * (10 / 365))) := by
    rw [one_mul]
    exact black_pos (mul_pos (by norm_num) (Real.exp_pos _)) (mul_pos (by norm_num) (Real.exp_pos _)) (Real.sqrt_pos.2 (by norm_num))
  have hbq : ∀ d, bc.rt d = .ok (.val (q d)) := by
    obtain ⟨c, h1, h2⟩ := hc.borrow
    rw [hbo] at h1
    cases h1
    exact h2
  have c1 := carries_withYield hc (fun d => bump_rt y2 (hr d) 0.01)
  have q1 := quoted_withYield hq "C" ((BumpYield.flatContinuouslyCompounded 0.01).apply yc)
  have h1 := carries_value c1 q1 (by show (10 : Int) ≤ 10; norm_num) (by norm_num) (by norm_num) (by norm_num) 1 .call
  have h2 := carries_value (carries_withBorrow c1 (fun d => bump_rt b2 (hbq d) 0.01)) (quoted_withBorrow q1 "A" ((BumpYield.flatContinuouslyCompounded 0.01).apply bc))
    (by show (10 : Int) ≤ 10; norm_num) (by norm_num) (by norm_num) (by norm_num) 1 .call
  obtain ⟨p, k1, k2⟩ := value_new h0
  obtain ⟨p₂, j1, _⟩ := value_new h2
  obtain ⟨p', s', e1, _⟩ := option_bump_yield k1 hyc h1 none
  have hu := option_unambiguous (v := dayTerms 10) (id := "A") (credit := "C") (settle := _root_.id) (K := 110) 1 .call md.spotDate
  obtain ⟨_, hat'⟩ := (at_new k1).bump hu (b := .yield "C" (.flatContinuouslyCompounded 0.01)) (x := .yield "C") rfl
    (show data md (.yield "C") = some yc from hyc) e1
  obtain ⟨q', s'', e2⟩ := option_borrow_at (bc := bc) (b := 0.01) (md := withBorrow (withYield md "C" ((BumpYield.flatContinuouslyCompounded 0.01).apply yc)) "A"
      ((BumpYield.flatContinuouslyCompounded 0.01).apply bc)) hat' (by
        rw [Function.update_of_ne (by simp)]
        exact hbo) rfl (fun z => by
        rw [withBorrow_data]
        congr 1
        funext z
        exact withYield_data md "C" _ z) j1 none
  have ha : Applied p [.yield "C" (.flatContinuouslyCompounded 0.01), .borrow "A" (.flatContinuouslyCompounded 0.01)] q' := .next e1 (.next e2 (.none q'))
  have ho : OwnNames [(1, euro .call (dayTerms 10) "A" "C" _root_.id 110)] := by
    intro u hu v hv _
    simp [mentionedAll, mentioned, euro] at hu hv
    rw [hu, hv]
  refine ⟨md, p, q', _, k1, k2, hx, ha, ?_⟩
  have hcredit : ∀ k, (fun k : String => if k = "A" then "C" else "D") k = "C" ↔ k = "A" := by
    intro k
    by_cases hk : k = "A" <;> simp [hk]
  have := C113_bumped (fuel := fuel) (creditOf := fun k => if k = "A" then "C" else "D") ho (by
    intro e he
    rw [List.mem_singleton.1 he]
    exact ⟨"A", _root_.id, rfl⟩) hcredit hyc hbo y2 b2 (b3.trans y3.symm) k1 ha
  rw [this]
  have h3 := value_scaled (Real.exp (-(0.01 * (10 / 365)))) h0
  refine Eq.trans ?_ h3
  congr 1
  unfold scaled
  rw [List.map_cons, List.map_cons, List.map_nil, List.map_nil, mul_comm]
  congr 3
  show Real.exp (rise "C" yc.baseDate 0.01 "C" (_root_.id md.spotDate) - rise "C" yc.baseDate 0.01 "C" 10) = _
  rw [y3, hsd]
  simp [rise, years]

end QM.Risk
