import Verif.Risk.FundingSpec
import Verif.Risk.RatesProps
import Verif.Units.ScaleProps

/-!
# Helper lemmas: yields and borrow costs that rise together
-/

namespace QM.Risk
open QM.Interp QM.Curves QM.Curves.Spec QM.Dividends QM.Forward QM.Vol QM.Fixings QM.Instruments QM.Instruments.Spec QM.Market QM.Market.Spec QM.Risk.Spec

variable {a : String → Int → ℝ} {creditOf : String → String} {md md' : MarketData} {fuel : Nat} {instruments : List (ℝ × Instrument)}

theorem named_find {V : Type} {R : String → V → V → Prop} {m m' : Map String V} (h : Named R m m') (id : String) : Both (R id) (find id m) (find id m') := by
  have := h id
  unfold find
  generalize m.get id = x at this
  generalize m'.get id = x' at this
  cases x <;> cases x' <;> first | exact this.elim | exact rfl | exact this

/-- Yields and borrow raised alike leave the cost of carry as it was. -/
theorem carry_raised {f : Int → ℝ} {r r' b b' : RateCurve} (hr : Raised f r r') (hb : Raised f b b') :
    logDiscountWithBorrow r' b' = logDiscountWithBorrow r b := by
  funext d
  unfold logDiscountWithBorrow
  rw [hr d, hb d]
  rcases r.rt d with e | _ | x
  · rfl
  · rfl
  · rcases b.rt d with e | _ | y
    · rfl
    · rfl
    · show Except.ok (y + f d - (x + f d)) = Except.ok (y - x)
      congr 1
      ring

theorem forward_raised {f : Int → ℝ} {r r' b b' : RateCurve} (hr : Raised f r r') (hb : Raised f b b') (s : DividendStream)
    (base : Int) (spot : ℝ) (settlement : Int → Int) (hwm : Int) :
    Both SameForward (EquityForward.new base spot settlement r b s hwm) (EquityForward.new base spot settlement r' b' s hwm) := by
  have h1 := carry_raised hr hb
  have h2 : discountWithBorrow r' b' = discountWithBorrow r b := by
    funext x d
    unfold discountWithBorrow
    rw [h1]
  have hstream : ∀ x, bootstrapStream s r' b' x base hwm = bootstrapStream s r b x base hwm := by
    intro x
    unfold bootstrapStream bootstrapDiscount
    rw [h1, h2]
  unfold EquityForward.new
  rw [h1, h2]
  refine both_bind (both_self _) ?_
  rintro l _ rfl
  refine both_bind (both_self _) ?_
  rintro df _ rfl
  dsimp only
  rw [hstream]
  refine both_bind (both_self _) ?_
  rintro bs _ rfl
  refine ⟨?_, rfl⟩
  funext d
  unfold EquityForward.forward
  dsimp only
  rw [h1]

theorem forwardCurve_financed (h : Financed a creditOf md md') {i : Instrument} (hi : OwnCredit creditOf i) (hwm : Int) :
    md'.forwardCurve i hwm = md.forwardCurve i hwm := by
  obtain ⟨id, settle, rfl⟩ := hi
  unfold MarketData.forwardCurve
  refine (both_eq (both_bind (R := SameForward) ?_ ?_)).symm
  · unfold MarketData.equityForward
    rw [h.spots, h.spotDate, h.dividends]
    refine both_bind (both_self _) ?_
    rintro spot _ rfl
    refine both_bind (both_self _) ?_
    rintro s _ rfl
    refine both_bind (named_find h.borrowCurves _) (fun b b' hb => ?_)
    refine both_bind (named_find h.yieldCurves _) (fun r r' hr => ?_)
    exact forward_raised hr hb ..
  · rintro f f' ⟨h1, h2⟩
    show asFwd f = asFwd f'
    unfold asFwd
    rw [h1, h2]

theorem walk_financed (h : Financed a creditOf md md') (vols : Map String (Instrument × Int)) (l : List (String × Instrument × Int)) :
    (∀ e ∈ l, OwnCredit creditOf e.2.1) → ∀ (fs : Map String Fwd) (vs : Map String VolSurface),
      walkDependencies md' vols l fs vs = walkDependencies md vols l fs vs := by
  induction l with
  | nil => intro _ fs vs; rfl
  | cons e l ih =>
    intro hl fs vs
    have ih := ih (fun e he => hl e (List.mem_cons_of_mem _ he))
    have he := hl _ (List.mem_cons_self ..)
    obtain ⟨_, i, hwm⟩ := e
    unfold walkDependencies
    rw [forwardCurve_financed h he]
    cases md.forwardCurve i hwm with
    | error e => rfl
    | ok f =>
      dsimp only
      cases vols.get i.id with
      | none => exact ih _ _
      | some v =>
        obtain ⟨_, hv⟩ := v
        dsimp only
        have hs : ∀ g, md'.volSurface i hv g = md.volSurface i hv g := by
          intro g
          unfold MarketData.volSurface
          rw [h.volSurfaces, h.spotDate]
        rw [hs]
        cases md.volSurface i hv _ with
        | error e => rfl
        | ok v => exact ih _ _

/-! ## Instruments -/

theorem setHwm_all {P : Instrument → Prop} {u : Instrument} {hwm : Int} {m : Map String (Instrument × Int)} (hu : P u) (h : ∀ e ∈ m.entries, P e.2.1) :
    ∀ e ∈ (Collector.setHwm u hwm m).entries, P e.2.1 := by
  intro e he
  unfold Collector.setHwm at he
  split at he
  · rcases Units.mem_insert he with rfl | he
    · exact hu
    · exact h e he
  · rename_i key old hg
    split at he
    · rcases Units.mem_insert he with rfl | he
      · exact h (u.id, key, old) (Units.get_entry hg)
      · exact h e he
    · exact h e he

theorem collect_financed (sd : Int) (hi : ∀ e ∈ instruments, Financeable creditOf e.2) :
    ∀ e ∈ (collect sd instruments).forwardCurves.entries, OwnCredit creditOf e.2.1 := by
  unfold collect
  suffices ∀ (l : List (ℝ × Instrument)) (c : Collector), (∀ e ∈ l, Financeable creditOf e.2) → (∀ e ∈ c.forwardCurves.entries, OwnCredit creditOf e.2.1) →
      ∀ e ∈ (l.foldl (fun c e => c.spot e.2) c).forwardCurves.entries, OwnCredit creditOf e.2.1 from
    this _ _ hi (fun e he => by cases he)
  intro l
  induction l with
  | nil => exact fun c _ h => h
  | cons e l ih =>
    intro c hl hc
    refine ih _ (fun e he => hl e (List.mem_cons_of_mem _ he)) ?_
    have he := hl e (List.mem_cons_self ..)
    obtain ⟨w, i⟩ := e
    dsimp only at he ⊢
    cases i with
    | currency => exact hc
    | creditEntity => exact hc
    | equity => exact hc
    | zeroCoupon => exact hc
    | basket => exact he.elim
    | spotStarting v u k =>
      obtain ⟨id, settle, rfl⟩ := he
      exact setHwm_all (P := OwnCredit creditOf) ⟨_, _, rfl⟩ hc
    | forwardStarting v u k d t =>
      obtain ⟨id, settle, rfl⟩ := he
      exact setHwm_all (P := OwnCredit creditOf) ⟨_, _, rfl⟩ hc

/-- Contexts that answer alike, except that yields are higher. -/
structure HigherYields (a : String → Int → ℝ) (c c' : PricingContext) : Prop where
  spotDate : c'.spotDate = c.spotDate
  spot : c'.spot = c.spot
  forwardCurve : c'.forwardCurve = c.forwardCurve
  volSurface : c'.volSurface = c.volSurface
  yieldCurve : ∀ id hwm, Both (Raised (a id)) (c.yieldCurve id hwm) (c'.yieldCurve id hwm)

variable {c c' : PricingContext}

theorem equityPrices_higher (h : HigherYields a c c') (e : Instrument) (dates : List DateTime) : equityPrices c' e dates = equityPrices c e dates := by
  unfold equityPrices
  rw [h.spotDate, h.spot, h.forwardCurve]

theorem callPrice_times (k : ℝ) (d f s w : Num ℝ) : callPrice (num1 (k * ·) d) f s w = num1 (k * ·) (callPrice d f s w) := by
  unfold callPrice
  dsimp only
  generalize num2 (· - ·) _ _ = x
  cases d <;> cases x <;> simp [num1, num2, mul_assoc]

theorem putPrice_times (k : ℝ) (d f s w : Num ℝ) : putPrice (num1 (k * ·) d) f s w = num1 (k * ·) (putPrice d f s w) := by
  unfold putPrice
  dsimp only
  generalize num2 (· - ·) _ _ = x
  cases d <;> cases x <;> simp [num1, num2, mul_assoc]

theorem vanilla_higher (h : HigherYields a c c') (v : Vanilla) (u : Instrument) (p : Point) (sf : Outcome (Num ℝ × Num ℝ)) (d : DateTime) :
    vanillaPrices fuel c' v u p sf [d] =
      (vanillaPrices fuel c v u p sf [d]).map (List.map (num1 (Real.exp (a u.creditId (v.settlement d.date) - a u.creditId v.payDate) * ·))) := by
  refine (both_eq ?_).symm
  unfold vanillaPrices
  dsimp only
  rw [h.volSurface, h.forwardCurve]
  have hy := h.yieldCurve u.creditId v.payDate
  cases hc : c.yieldCurve u.creditId v.payDate with
  | error e =>
    rw [hc] at hy
    cases hc' : c'.yieldCurve u.creditId v.payDate with
    | error e' => rw [hc'] at hy; exact hy
    | ok r' => rw [hc'] at hy; exact hy.elim
  | ok r =>
    rw [hc] at hy
    cases hc' : c'.yieldCurve u.creditId v.payDate with
    | error e' => rw [hc'] at hy; exact hy.elim
    | ok r' =>
      rw [hc'] at hy
      rw [ok_bind, ok_bind]
      cases c.volSurface u v.expiry.date _ with
      | error e => exact rfl
      | ok vol =>
        rw [ok_bind, ok_bind]
        cases sf with
        | error e => exact rfl
        | ok x =>
          obtain ⟨strike, forward⟩ := x
          rw [ok_bind, ok_bind]
          dsimp only
          rw [show r'.rt v.payDate = _ from hy v.payDate]
          cases r.rt v.payDate with
          | error e => exact rfl
          | ok rt =>
            show Both _ ((Except.bind (Except.ok rt) _).map _) (Except.bind (Except.ok _) _)
            dsimp only [Except.bind]
            cases vol.displacement v.expiry.date with
            | error e => exact rfl
            | ok dis =>
              rw [ok_bind, ok_bind]
              split
              · exact rfl
              · unfold each each
                have : vanillaValue fuel v u.timeToDayFraction r' vol (num1 (fun x => Real.exp (-x)) (num1 (· + a u.creditId v.payDate) rt)) strike
                    (num2 (· - ·) forward dis) (num2 (· + ·) strike dis) p d =
                  (vanillaValue fuel v u.timeToDayFraction r vol (num1 (fun x => Real.exp (-x)) rt) strike
                    (num2 (· - ·) forward dis) (num2 (· + ·) strike dis) p d).map
                    (num1 (Real.exp (a u.creditId (v.settlement d.date) - a u.creditId v.payDate) * ·)) := by
                  unfold vanillaValue
                  split
                  · rw [show r'.rt (v.settlement d.date) = _ from hy _]
                    cases r.rt (v.settlement d.date) with
                    | error e => rfl
                    | ok rt' =>
                      show Except.bind (Except.ok _) _ = ((Except.bind (Except.ok rt') _).map _)
                      dsimp only [Except.bind]
                      cases u.timeToDayFraction d with
                      | error e => rfl
                      | ok vd =>
                        rw [ok_bind, ok_bind]
                        cases vol.forwardVariance fuel (later p vd) v.expiryTime strike with
                        | error e => rfl
                        | ok var =>
                          rw [ok_bind, ok_bind]
                          cases optionSqrtVariance var with
                          | error e => rfl
                          | ok sq =>
                            rw [ok_bind, ok_bind]
                            have e1 : num2 (· * ·) (num1 (fun x => Real.exp (-x)) (num1 (· + a u.creditId v.payDate) rt))
                                (num1 Real.exp (num1 (· + a u.creditId (v.settlement d.date)) rt')) =
                              num1 (Real.exp (a u.creditId (v.settlement d.date) - a u.creditId v.payDate) * ·)
                                (num2 (· * ·) (num1 (fun x => Real.exp (-x)) rt) (num1 Real.exp rt')) := by
                              cases rt <;> cases rt' <;> simp only [num1, num2]
                              rw [← Real.exp_add, ← Real.exp_add, ← Real.exp_add]
                              congr 2
                              ring
                            rw [e1]
                            cases v.putOrCall with
                            | put => exact congrArg Except.ok (putPrice_times ..)
                            | call => exact congrArg Except.ok (callPrice_times ..)
                  · show Except.ok (Num.val 0) = Except.ok (Num.val (_ * 0))
                    rw [mul_zero]
                rw [this]
                cases vanillaValue fuel v u.timeToDayFraction r vol (num1 (fun x => Real.exp (-x)) rt) strike
                    (num2 (· - ·) forward dis) (num2 (· + ·) strike dis) p d with
                | error e => exact rfl
                | ok x => exact rfl

theorem df_raised {f : Int → ℝ} {r r' : RateCurve} (h : Raised f r r') (x y : Int) :
    r'.df x y = (r.df x y).map (num1 (Real.exp (f y - f x) * ·)) := by
  unfold RateCurve.df
  split
  · rename_i hxy
    rw [hxy]
    show Except.ok (Num.val 1) = Except.ok (Num.val _)
    simp
  · rw [h x, h y]
    rcases r.rt x with e | _ | u
    · rfl
    · rcases r.rt y with e | _ | v <;> rfl
    · rcases r.rt y with e | _ | v
      · rfl
      · rfl
      · show Except.ok (Num.val (Real.exp (v + f y - (u + f x)))) = Except.ok (Num.val (Real.exp (f y - f x) * Real.exp (v - u)))
        rw [← Real.exp_add]
        congr 3
        ring

theorem price_higher (h : HigherYields a c c') {i : Instrument} (hi : Financeable creditOf i) (d : DateTime) :
    i.price fuel c' d = (i.price fuel c d).map (num1 (discountRatio a d.date i * ·)) := by
  have one : ∀ x : Outcome (List (Num ℝ)), (x >>= only) = (x >>= only).map (num1 ((1 : ℝ) * ·)) := by
    intro x
    rcases x with e | _ | ⟨_ | v, l⟩ <;> try rfl
    show Except.ok (Num.val v) = Except.ok (Num.val (1 * v))
    rw [one_mul]
  have many : ∀ (k : ℝ) (x : Outcome (List (Num ℝ))), (x.map (List.map (num1 (k * ·))) >>= only) = (x >>= only).map (num1 (k * ·)) := by
    intro k x
    rcases x with e | _ | ⟨v, l⟩ <;> rfl
  unfold Instrument.price
  cases i with
  | currency => rw [Instrument.prices, Instrument.prices]; exact one _
  | creditEntity => rw [Instrument.prices, Instrument.prices]; exact one _
  | equity => rw [Instrument.prices, Instrument.prices, equityPrices_higher h]; exact one _
  | basket => exact hi.elim
  | zeroCoupon id credit ex pay settle =>
    rw [Instrument.prices, Instrument.prices]
    refine Eq.trans ?_ (many _ _)
    congr 1
    unfold zeroCouponPrices
    have hy := h.yieldCurve credit pay
    cases hc : c.yieldCurve credit pay with
    | error e =>
      rw [hc] at hy
      cases hc' : c'.yieldCurve credit pay with
      | error e' => rw [hc'] at hy; exact congrArg Except.error hy.symm
      | ok r' => rw [hc'] at hy; exact hy.elim
    | ok r =>
      rw [hc] at hy
      cases hc' : c'.yieldCurve credit pay with
      | error e' => rw [hc'] at hy; exact hy.elim
      | ok r' =>
        rw [hc'] at hy
        rw [ok_bind, ok_bind]
        unfold each each
        split
        · rw [df_raised hy]
          cases r.df pay (settle d.date) <;> rfl
        · show Except.ok [Num.val 0] = Except.ok [Num.val (_ * 0)]
          rw [mul_zero]
  | spotStarting v u k =>
    rw [Instrument.prices, Instrument.prices]
    obtain ⟨id, settle, rfl⟩ := hi
    rw [Instrument.prices, Instrument.prices, equityPrices_higher h, vanilla_higher h]
    exact many _ _
  | forwardStarting v u k sd t =>
    rw [Instrument.prices, Instrument.prices]
    obtain ⟨id, settle, rfl⟩ := hi
    rw [Instrument.prices, Instrument.prices, equityPrices_higher h, h.spotDate]
    split
    · rfl
    · rw [vanilla_higher h]
      exact many _ _

theorem priceLoop_higher (h : HigherYields a c c') (d : DateTime) : ∀ (l : List (ℝ × Instrument)) (total : Num ℝ), (∀ e ∈ l, Financeable creditOf e.2) →
    priceLoop fuel c' d l total = priceLoop fuel c d (l.map fun e => (e.1 * discountRatio a d.date e.2, e.2)) total
  | [], _, _ => rfl
  | (w, i) :: l, total, hl => by
    rw [List.map_cons, priceLoop, priceLoop, price_higher h (hl _ (List.mem_cons_self ..))]
    cases i.price fuel c d with
    | error e => rfl
    | ok x =>
      have : num1 (w * ·) (num1 (discountRatio a d.date i * ·) x) = num1 (w * discountRatio a d.date i * ·) x := by
        cases x <;> simp [num1, mul_assoc]
      show priceLoop fuel c' d l (num2 (· + ·) total (num1 (w * ·) (num1 (discountRatio a d.date i * ·) x))) = _
      rw [this]
      exact priceLoop_higher h d l _ (fun e he => hl e (List.mem_cons_of_mem _ he))

theorem collect_weights (sd : Int) (w : ℝ × Instrument → ℝ) (l : List (ℝ × Instrument)) : collect sd (l.map fun e => (w e, e.2)) = collect sd l := by
  unfold collect
  rw [List.foldl_map]

/-! ## Bumps -/

/-- A bump of a curve that is not the zero curve by a continuously compounded amount. -/
theorem raised_flat {c : RateCurve} (hc : Interpolated c) (b : ℝ) :
    Raised (fun d => b * years c.baseDate d) c ((BumpYield.flatContinuouslyCompounded b).apply c) := by
  intro d
  simp only [BumpYield.apply, RateCurve.newContinuouslyCompoundedFlatBump, RateCurve.rt, RateCurve.rAndT]
  cases h : c.rAndT d with
  | error e => rfl
  | ok x =>
    obtain ⟨r, t⟩ := x
    cases r with
    | nan => rfl
    | val r =>
      rw [← time_eq hc h]
      show Except.ok (Num.val ((r + b) * t)) = Except.ok (Num.val (r * t + b * t))
      rw [add_mul]

theorem raised_none (c : RateCurve) : Raised (fun _ => 0) c c := by
  intro d
  rcases c.rt d with e | _ | x
  · rfl
  · rfl
  · show Except.ok (Num.val x) = Except.ok (Num.val (x + 0))
    rw [add_zero]

theorem named_bump {R : String → RateCurve → RateCurve → Prop} {m : Map String RateCurve} {id : String} {f : RateCurve → RateCurve}
    (h : ∀ c, m.get id = some c → R id c (f c)) (h' : ∀ k ≠ id, ∀ c, R k c c) : Named R m (applyBump id f m none).2.1 := by
  intro k
  unfold applyBump
  by_cases hk : k = id
  · subst hk
    cases hg : m.get k with
    | none => dsimp only; rw [hg]; trivial
    | some c =>
      dsimp only
      rw [Map.get_insert_self]
      exact h c hg
  · have : (applyBump id f m none).2.1.get k = m.get k := by
      unfold applyBump
      cases m.get id with
      | none => rfl
      | some c => exact Map.get_insert_ne _ _ hk
    unfold applyBump at this
    rw [this]
    cases m.get k with
    | none => trivial
    | some c => exact h' k hk c

theorem financed_bump {yc bc : RateCurve} {id credit : String} (b : ℝ) (hcredit : ∀ k, creditOf k = credit ↔ k = id) (hy : md.yieldCurves.get credit = some yc)
    (hb : md.borrowCurves.get id = some bc) (hyi : Interpolated yc) (hbi : Interpolated bc) (hbase : bc.baseDate = yc.baseDate) :
    Financed (rise credit yc.baseDate b) creditOf md
      (changed md [.yield credit (.flatContinuouslyCompounded b), .borrow id (.flatContinuouslyCompounded b)]) := by
  refine ⟨rfl, rfl, rfl, rfl, ?_, ?_⟩
  · refine named_bump (m := md.yieldCurves) (fun c hc => ?_) (fun k hk c => ?_)
    · rw [hy] at hc
      cases hc
      have : rise credit yc.baseDate b credit = fun d => b * years yc.baseDate d := by funext d; simp [rise]
      rw [this]
      exact raised_flat hyi b
    · have : rise credit yc.baseDate b k = fun _ => 0 := by funext d; simp [rise, hk]
      rw [this]
      exact raised_none c
  · refine named_bump (m := md.borrowCurves) (fun c hc => ?_) (fun k hk c => ?_)
    · rw [hb] at hc
      cases hc
      have : rise credit yc.baseDate b (creditOf id) = fun d => b * years bc.baseDate d := by
        funext d
        rw [hbase, (hcredit id).2 rfl]
        simp [rise]
      rw [this]
      exact raised_flat hbi b
    · have hne : creditOf k ≠ credit := fun h => hk ((hcredit k).1 h)
      have : rise credit yc.baseDate b (creditOf k) = fun _ => 0 := by funext d; simp [rise, hne]
      rw [this]
      exact raised_none c

end QM.Risk
