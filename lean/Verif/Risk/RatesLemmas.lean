import Verif.Risk.Lemmas
import Verif.Risk.RatesSpec

/-!
# Helper lemmas: curves with the same rates
-/

namespace QM.Risk
open QM.Interp QM.Curves QM.Dividends QM.Forward QM.Vol QM.Fixings QM.Instruments QM.Instruments.Spec QM.Market QM.Market.Spec QM.Risk.Spec

/-! ## Tables -/

theorem entrywise_refl {V : Type} {R : V → V → Prop} (hR : ∀ x, R x x) (m : Map String V) : Entrywise R m m := by
  intro id
  cases m.get id with
  | none => trivial
  | some x => exact hR x

theorem entrywise_insert {V : Type} {R : V → V → Prop} {m m' : Map String V} (h : Entrywise R m m') {x x' : V} (hx : R x x') (id : String) :
    Entrywise R (m.insert id x) (m'.insert id x') := by
  intro k
  by_cases hk : k = id
  · subst hk
    rw [Map.get_insert_self, Map.get_insert_self]
    exact hx
  · rw [Map.get_insert_ne _ _ hk, Map.get_insert_ne _ _ hk]
    exact h k

theorem entrywise_copy {V : Type} {R : V → V → Prop} (hR : ∀ x, R x x) {m m' : Map String V} (h : Entrywise R m m') (s : Map String V) :
    Entrywise R (copyFromSaved m s) (copyFromSaved m' s) := by
  unfold copyFromSaved
  generalize s.entries = l
  induction l generalizing m m' with
  | nil => exact h
  | cons e l ih => exact ih (entrywise_insert h (hR e.2) e.1)

/-- The same failure, or related results. -/
def Both {α : Type} (R : α → α → Prop) (r r' : Outcome α) : Prop :=
  match r, r' with
  | .error e, .error e' => e = e'
  | .ok x, .ok x' => R x x'
  | _, _ => False

theorem both_find {V : Type} {R : V → V → Prop} {m m' : Map String V} (h : Entrywise R m m') (id : String) : Both R (find id m) (find id m') := by
  have := h id
  unfold find
  generalize m.get id = x at this
  generalize m'.get id = x' at this
  cases x <;> cases x' <;> first | exact this.elim | exact rfl | exact this

theorem both_bind {α β : Type} {R : α → α → Prop} {Q : β → β → Prop} {r r' : Outcome α} {f f' : α → Outcome β} (h : Both R r r')
    (hf : ∀ x x', R x x' → Both Q (f x) (f' x')) : Both Q (r >>= f) (r' >>= f') := by
  cases r <;> cases r' <;> first | exact False.elim h | exact hf _ _ h | skip
  exact h

theorem both_eq {α : Type} {r r' : Outcome α} (h : Both (· = ·) r r') : r = r' := by
  cases r <;> cases r' <;> first | exact False.elim h | exact congrArg _ h

theorem both_self {α : Type} (r : Outcome α) : Both (· = ·) r r := by
  cases r <;> exact rfl

/-! ## Forwards -/

theorem sameRates_refl (c : RateCurve) : SameRates c c := fun _ => rfl

theorem sameStream_refl (s : DividendStream) : SameStream s s := ⟨rfl, rfl, sameRates_refl _, rfl, rfl⟩

theorem logDiscount_same {r r' b b' : RateCurve} (hr : SameRates r r') (hb : SameRates b b') :
    logDiscountWithBorrow r b = logDiscountWithBorrow r' b' := by
  funext d
  unfold logDiscountWithBorrow
  rw [hr d, hb d]

theorem discount_same {r r' b b' : RateCurve} (hr : SameRates r r') (hb : SameRates b b') :
    discountWithBorrow r b = discountWithBorrow r' b' := by
  funext x d
  unfold discountWithBorrow
  rw [logDiscount_same hr hb]

/-- Two forwards that answer alike. -/
def SameForward (f f' : EquityForward) : Prop := f.forward = f'.forward ∧ f.fixedDivsAfter = f'.fixedDivsAfter

theorem forward_new_same {r r' b b' : RateCurve} {s s' : DividendStream} (hr : SameRates r r') (hb : SameRates b b') (hs : SameStream s s')
    (base : Int) (spot : ℝ) (settlement : Int → Int) (hwm : Int) :
    Both SameForward (EquityForward.new base spot settlement r b s hwm) (EquityForward.new base spot settlement r' b' s' hwm) := by
  have hstream : ∀ x, bootstrapStream s r b x base hwm = bootstrapStream s' r' b' x base hwm := by
    intro x
    unfold bootstrapStream bootstrapDiscount
    rw [logDiscount_same hr hb, discount_same hr hb, hs.dividends, hs.lastCash, hs.isZero, hs.baseDate]
  unfold EquityForward.new
  rw [logDiscount_same hr hb, discount_same hr hb]
  refine both_bind (both_self _) ?_
  rintro l _ rfl
  refine both_bind (both_self _) ?_
  rintro df _ rfl
  dsimp only
  rw [hstream]
  refine both_bind (both_self _) ?_
  rintro bs _ rfl
  refine ⟨?_, rfl⟩
  funext d
  unfold EquityForward.forward
  dsimp only
  rw [logDiscount_same hr hb, hs.rates]

theorem equityForward_same {md md' : MarketData} (h : SameMarket md md') (i : Instrument) (hwm : Int) :
    Both SameForward (md.equityForward i hwm) (md'.equityForward i hwm) := by
  unfold MarketData.equityForward
  rw [h.spots, h.spotDate]
  refine both_bind (both_self _) ?_
  rintro spot _ rfl
  refine both_bind (both_find h.dividends _) (fun s s' hs => ?_)
  refine both_bind (both_find h.borrowCurves _) (fun b b' hb => ?_)
  refine both_bind (both_find h.yieldCurves _) (fun r r' hr => ?_)
  exact forward_new_same hr hb hs ..

theorem forwardCurve_same {md md' : MarketData} (h : SameMarket md md') (i : Instrument) (hwm : Int) :
    md.forwardCurve i hwm = md'.forwardCurve i hwm := by
  unfold MarketData.forwardCurve
  refine both_eq (both_bind (equityForward_same h i hwm) ?_)
  rintro f f' ⟨h1, h2⟩
  show asFwd f = asFwd f'
  unfold asFwd
  rw [h1, h2]

theorem volSurface_same {md md' : MarketData} (h : SameMarket md md') (i : Instrument) (hwm : Int) (f : Unit → Outcome Fwd) :
    md.volSurface i hwm f = md'.volSurface i hwm f := by
  unfold MarketData.volSurface
  rw [h.volSurfaces, h.spotDate]

/-! ## Prices -/

/-- Contexts that answer alike, except that curves may be made in different ways. -/
structure SameContext (c c' : PricingContext) : Prop where
  spotDate : c.spotDate = c'.spotDate
  spot : c.spot = c'.spot
  forwardCurve : c.forwardCurve = c'.forwardCurve
  volSurface : c.volSurface = c'.volSurface
  yieldCurve : ∀ id hwm, Both SameRates (c.yieldCurve id hwm) (c'.yieldCurve id hwm)

theorem df_same {c c' : RateCurve} (h : SameRates c c') (a b : Int) : c.df a b = c'.df a b := by
  unfold RateCurve.df
  rw [h a, h b]

variable {fuel : Nat} {c c' : PricingContext}

theorem vanillaPrices_same (h : SameContext c c') (v : Vanilla) (u : Instrument) (p : Point) (sf : Outcome (Num ℝ × Num ℝ)) (dates : List DateTime) :
    vanillaPrices fuel c v u p sf dates = vanillaPrices fuel c' v u p sf dates := by
  unfold vanillaPrices
  cases dates with
  | nil => rfl
  | cons d dates =>
    dsimp only
    rw [h.volSurface, h.forwardCurve]
    refine both_eq (both_bind (h.yieldCurve _ _) (fun r r' hr => ?_))
    refine both_bind (both_self _) ?_
    rintro vol _ rfl
    refine both_bind (both_self _) ?_
    rintro x _ rfl
    rw [hr v.payDate]
    refine both_bind (both_self _) ?_
    rintro rt _ rfl
    refine both_bind (both_self _) ?_
    rintro dd _ rfl
    have : ∀ a b c d, vanillaValue fuel v u.timeToDayFraction r vol a b c d p = vanillaValue fuel v u.timeToDayFraction r' vol a b c d p := by
      intro a b c d
      funext date
      unfold vanillaValue
      rw [hr]
    rw [this]
    exact both_self _

theorem equityPrices_same (h : SameContext c c') (e : Instrument) (dates : List DateTime) : equityPrices c e dates = equityPrices c' e dates := by
  unfold equityPrices
  rw [h.spotDate, h.spot, h.forwardCurve]

theorem zeroCouponPrices_same (h : SameContext c c') (id : String) (ex : DateTime) (pay : Int) (settlement : Int → Int) (dates : List DateTime) :
    zeroCouponPrices c id ex pay settlement dates = zeroCouponPrices c' id ex pay settlement dates := by
  unfold zeroCouponPrices
  refine both_eq (both_bind (h.yieldCurve _ _) (fun r r' hr => ?_))
  simp only [df_same hr]
  exact both_self _

mutual
theorem prices_same (h : SameContext c c') : ∀ (i : Instrument) (dates : List DateTime), i.prices fuel c dates = i.prices fuel c' dates
  | .currency _ _, dates => by rw [Instrument.prices, Instrument.prices]
  | .creditEntity _ _, dates => by rw [Instrument.prices, Instrument.prices]
  | .equity _ _ _, dates => by rw [Instrument.prices, Instrument.prices]; exact equityPrices_same h _ _
  | .zeroCoupon _ _ _ _ _, dates => by rw [Instrument.prices, Instrument.prices]; exact zeroCouponPrices_same h ..
  | .basket _ _ _ parts, dates => by rw [Instrument.prices, Instrument.prices]; exact basketPrices_same h parts dates _
  | .spotStarting v u k, dates => by
    rw [Instrument.prices, Instrument.prices, prices_same h u]
    exact vanillaPrices_same h ..
  | .forwardStarting v u k d t, dates => by
    rw [Instrument.prices, Instrument.prices, prices_same h u, h.spotDate]
    split
    · rfl
    · exact vanillaPrices_same h ..

theorem basketPrices_same (h : SameContext c c') : ∀ (parts : List (ℝ × Instrument)) (dates : List DateTime) (out : List (Num ℝ)),
    basketPrices fuel c parts dates out = basketPrices fuel c' parts dates out
  | [], dates, out => by rw [basketPrices, basketPrices]
  | (w, i) :: rest, dates, out => by
    rw [basketPrices, basketPrices, prices_same h i]
    refine both_eq (both_bind (both_self _) ?_)
    rintro temp _ rfl
    rw [basketPrices_same h rest]
    exact both_self _
end

theorem price_same (h : SameContext c c') (i : Instrument) (d : DateTime) : i.price fuel c d = i.price fuel c' d := by
  unfold Instrument.price
  rw [prices_same h]

theorem priceLoop_same (h : SameContext c c') (d : DateTime) (l : List (ℝ × Instrument)) : ∀ total : Num ℝ,
    priceLoop fuel c d l total = priceLoop fuel c' d l total := by
  induction l with
  | nil => intro total; rfl
  | cons e l ih =>
    intro total
    obtain ⟨w, i⟩ := e
    unfold priceLoop
    rw [price_same h]
    refine both_eq (both_bind (both_self _) ?_)
    rintro x _ rfl
    rw [ih]
    exact both_self _

/-! ## Prefetched contexts -/

/-- Prefetched contexts that hold the same, except that curves may be made in different ways. -/
structure Like (p q : Prefetch) : Prop where
  market : SameMarket p.context q.context
  dependencies : p.dependencies = q.dependencies
  forwardCurves : p.forwardCurves = q.forwardCurves
  volSurfaces : p.volSurfaces = q.volSurfaces

theorem Like.pricing {p q : Prefetch} (h : Like p q) : SameContext p.pricingContext q.pricingContext where
  spotDate := h.market.spotDate
  spot := by
    funext id
    show find id p.context.spots = find id q.context.spots
    rw [h.market.spots]
  forwardCurve := by
    funext i _
    show find i.id p.forwardCurves = find i.id q.forwardCurves
    rw [h.forwardCurves]
  volSurface := by
    funext i _ _
    show find i.id p.volSurfaces = find i.id q.volSurfaces
    rw [h.volSurfaces]
  yieldCurve id _ := both_find h.market.yieldCurves id

theorem walk_same {md md' : MarketData} (h : SameMarket md md') (vols : Map String (Instrument × Int)) (l : List (String × Instrument × Int)) :
    ∀ (fs : Map String Fwd) (vs : Map String VolSurface), walkDependencies md vols l fs vs = walkDependencies md' vols l fs vs := by
  induction l with
  | nil => intro fs vs; rfl
  | cons e l ih =>
    intro fs vs
    obtain ⟨_, i, hwm⟩ := e
    unfold walkDependencies
    rw [forwardCurve_same h]
    cases md'.forwardCurve i hwm with
    | error e => rfl
    | ok f =>
      dsimp only
      cases vols.get i.id with
      | none => exact ih _ _
      | some v =>
        obtain ⟨_, hv⟩ := v
        dsimp only
        rw [volSurface_same h]
        cases md'.volSurface i hv _ with
        | error e => rfl
        | ok v => exact ih _ _

theorem prefetch_new_same {md md' : MarketData} (h : SameMarket md md') (dep : Collector) :
    Both Like (Prefetch.new md dep) (Prefetch.new md' dep) := by
  unfold Prefetch.new
  rw [walk_same h]
  generalize walkDependencies md' dep.volSurfaces dep.forwardCurves.entries .empty .empty = r
  obtain ⟨o, fs, vs⟩ := r
  cases o with
  | error e => exact rfl
  | ok u => exact ⟨h, rfl, rfl, rfl⟩

/-- The same result, contexts that are alike, and the same save area. -/
def Agrees {α : Type} (r r' : Outcome α × Prefetch × Option SavedPrefetch) : Prop := r.1 = r'.1 ∧ Like r.2.1 r'.2.1 ∧ r.2.2 = r'.2.2

theorem refetchForward_like {p q : Prefetch} (h : Like p q) (id : String) (fwd : Fwd) (i : Instrument) (save : Option SavedPrefetch) :
    Agrees (p.refetchForward id fwd i save) (q.refetchForward id fwd i save) := by
  unfold Prefetch.refetchForward
  dsimp only
  rw [h.dependencies]
  cases q.dependencies.forwardCurves.get i.id with
  | none => exact ⟨rfl, h, rfl⟩
  | some e =>
    obtain ⟨j, hwm⟩ := e
    dsimp only
    rw [forwardCurve_same h.market i hwm]
    cases q.context.forwardCurve i hwm with
    | error e => exact ⟨rfl, h, rfl⟩
    | ok f => exact ⟨rfl, ⟨h.market, by first | exact h.dependencies | exact rfl, by dsimp only; rw [h.forwardCurves], h.volSurfaces⟩, rfl⟩

theorem refetchVol_like {p q : Prefetch} (h : Like p q) (id : String) (fwd : Fwd) (i : Instrument) (save : Option SavedPrefetch) :
    Agrees (p.refetchVol id fwd i save) (q.refetchVol id fwd i save) := by
  unfold Prefetch.refetchVol
  rw [h.volSurfaces]
  cases q.volSurfaces.get id with
  | none => exact ⟨rfl, h, rfl⟩
  | some vol =>
    dsimp only
    rw [h.dependencies]
    cases q.dependencies.volSurfaces.get i.id with
    | none => exact ⟨rfl, h, rfl⟩
    | some e =>
      obtain ⟨j, hwm⟩ := e
      dsimp only
      rw [volSurface_same h.market i hwm]
      cases q.context.volSurface i hwm _ with
      | error e => exact ⟨rfl, h, rfl⟩
      | ok v => exact ⟨rfl, ⟨h.market, by first | exact h.dependencies | exact rfl, h.forwardCurves, rfl⟩, rfl⟩

theorem refetch_like {p q : Prefetch} (h : Like p q) (id : String) (bf bv : Bool) (save : Option SavedPrefetch) :
    Agrees (p.refetch id bf bv save) (q.refetch id bf bv save) := by
  unfold Prefetch.refetch
  split
  · exact ⟨rfl, h, rfl⟩
  rw [h.forwardCurves, h.dependencies]
  cases q.forwardCurves.get id with
  | none => exact ⟨rfl, h, rfl⟩
  | some fwd =>
    dsimp only
    cases q.dependencies.instruments.get id with
    | none => exact ⟨rfl, h, rfl⟩
    | some i =>
      dsimp only
      have h1 : Agrees (if bf then p.refetchForward id fwd i save else (.ok (), p, save)) (if bf then q.refetchForward id fwd i save else (.ok (), q, save)) := by
        cases bf
        · exact ⟨rfl, h, rfl⟩
        · exact refetchForward_like h id fwd i save
      generalize (if bf then p.refetchForward id fwd i save else (.ok (), p, save)) = r at h1 ⊢
      generalize (if bf then q.refetchForward id fwd i save else (.ok (), q, save)) = r' at h1 ⊢
      obtain ⟨r1, p1, s1⟩ := r
      obtain ⟨r2, p2, s2⟩ := r'
      obtain ⟨e1, e2, e3⟩ := h1
      dsimp only at e1 e2 e3
      subst e1 e3
      cases r1 with
      | error e => exact ⟨rfl, e2, rfl⟩
      | ok u =>
        dsimp only
        rw [e2.forwardCurves]
        have h2 : Agrees (if bv then p1.refetchVol id ((p2.forwardCurves.get id).getD fwd) i s1 else (.ok (), p1, s1))
            (if bv then p2.refetchVol id ((p2.forwardCurves.get id).getD fwd) i s1 else (.ok (), p2, s1)) := by
          cases bv
          · exact ⟨rfl, e2, rfl⟩
          · exact refetchVol_like e2 id _ i s1
        generalize (if bv then p1.refetchVol id ((p2.forwardCurves.get id).getD fwd) i s1 else (.ok (), p1, s1)) = r at h2 ⊢
        generalize (if bv then p2.refetchVol id ((p2.forwardCurves.get id).getD fwd) i s1 else (.ok (), p2, s1)) = r' at h2 ⊢
        obtain ⟨r1, p3, s3⟩ := r
        obtain ⟨r2, p4, s4⟩ := r'
        obtain ⟨e1, e2, e3⟩ := h2
        dsimp only at e1 e2 e3
        subst e1 e3
        cases r1 <;> exact ⟨rfl, e2, rfl⟩

theorem restore_like {p q : Prefetch} (h : Like p q) (s : SavedPrefetch) : Like (p.restore s) (q.restore s) where
  market :=
    { spotDate := h.market.spotDate
      spots := by
        show copyFromSaved p.context.spots s.savedData.spots = copyFromSaved q.context.spots s.savedData.spots
        rw [h.market.spots]
      volSurfaces := by
        show copyFromSaved p.context.volSurfaces s.savedData.volSurfaces = copyFromSaved q.context.volSurfaces s.savedData.volSurfaces
        rw [h.market.volSurfaces]
      yieldCurves := entrywise_copy sameRates_refl h.market.yieldCurves _
      borrowCurves := entrywise_copy sameRates_refl h.market.borrowCurves _
      dividends := entrywise_copy sameStream_refl h.market.dividends _ }
  dependencies := h.dependencies
  forwardCurves := by
    show copyFromSaved p.forwardCurves s.forwardCurves = copyFromSaved q.forwardCurves s.forwardCurves
    rw [h.forwardCurves]
  volSurfaces := by
    show copyFromSaved p.volSurfaces s.volSurfaces = copyFromSaved q.volSurfaces s.volSurfaces
    rw [h.volSurfaces]

theorem stickyLoop_same {md md' : MarketData} (h : SameMarket md md') (d : Int) (dep : Collector) (l : List (String × ℝ)) :
    ∀ acc : Map String ℝ, stickyLoop md d dep l acc = stickyLoop md' d dep l acc := by
  induction l with
  | nil => intro acc; rfl
  | cons e l ih =>
    intro acc
    obtain ⟨id, s⟩ := e
    unfold stickyLoop
    cases dep.instruments.get id with
    | none => exact ih _
    | some i =>
      dsimp only
      refine both_eq (both_bind (equityForward_same h i d) ?_)
      rintro f f' ⟨h1, _⟩
      rw [h1]
      refine both_bind (both_self _) ?_
      rintro x _ rfl
      rw [ih]
      exact both_self _

theorem bumpSpotDate_same {md md' : MarketData} (h : SameMarket md md') (b : BumpSpotDate) (dep : Collector) :
    (md.bumpSpotDate b dep).1 = (md'.bumpSpotDate b dep).1 ∧ SameMarket (md.bumpSpotDate b dep).2 (md'.bumpSpotDate b dep).2 := by
  unfold MarketData.bumpSpotDate
  cases b.spotDynamics with
  | stickySpot => exact ⟨rfl, ⟨rfl, h.spots, h.volSurfaces, h.yieldCurves, h.borrowCurves, h.dividends⟩⟩
  | stickyForward =>
    dsimp only
    rw [h.spots, stickyLoop_same h]
    cases stickyLoop md' b.spotDate dep md'.spots.entries .empty with
    | error e => exact ⟨rfl, h⟩
    | ok m => exact ⟨rfl, ⟨rfl, rfl, h.volSurfaces, h.yieldCurves, h.borrowCurves, h.dividends⟩⟩

theorem refetchAll_like {p q : Prefetch} (h : Like p q) : p.refetchAll.1 = q.refetchAll.1 ∧ Like p.refetchAll.2 q.refetchAll.2 := by
  unfold Prefetch.refetchAll
  rw [walk_same h.market, h.dependencies]
  exact ⟨rfl, ⟨h.market, by first | exact h.dependencies | exact rfl, rfl, rfl⟩⟩

/-- The kinds of change that reports are made of. -/
def Reported : Bump → Prop
  | .spot _ _ => True
  | .vol _ _ => True
  | .spotDate _ => True
  | _ => False

theorem bump_like {p q : Prefetch} (h : Like p q) {b : Bump} (hb : Reported b) (save : Option SavedPrefetch) :
    Agrees (p.bump b save) (q.bump b save) := by
  have hm := h.market
  cases b with
  | spot id b =>
    unfold Prefetch.bump MarketData.bump
    dsimp only
    rw [hm.spots]
    refine refetch_like (p := { p with context := { p.context with spots := (applyBump id b.apply q.context.spots (Option.map SavedData.spots (Option.map SavedPrefetch.savedData save))).2.1 } })
      (q := { q with context := { q.context with spots := (applyBump id b.apply q.context.spots (Option.map SavedData.spots (Option.map SavedPrefetch.savedData save))).2.1 } })
      ⟨⟨hm.spotDate, rfl, hm.volSurfaces, hm.yieldCurves, hm.borrowCurves, hm.dividends⟩, h.dependencies, h.forwardCurves, h.volSurfaces⟩
      id _ false _
  | vol id b =>
    unfold Prefetch.bump MarketData.bump
    dsimp only
    rw [hm.volSurfaces]
    refine refetch_like (p := { p with context := { p.context with volSurfaces := (applyBump id b.apply q.context.volSurfaces (Option.map SavedData.volSurfaces (Option.map SavedPrefetch.savedData save))).2.1 } })
      (q := { q with context := { q.context with volSurfaces := (applyBump id b.apply q.context.volSurfaces (Option.map SavedData.volSurfaces (Option.map SavedPrefetch.savedData save))).2.1 } })
      ⟨⟨hm.spotDate, hm.spots, rfl, hm.yieldCurves, hm.borrowCurves, hm.dividends⟩, h.dependencies, h.forwardCurves, h.volSurfaces⟩
      id false _ _
  | spotDate b =>
    unfold Prefetch.bump
    dsimp only
    rw [hm.spotDate]
    split
    · obtain ⟨h1, h2⟩ := bumpSpotDate_same hm b p.dependencies
      rw [h.dependencies] at h1 h2 ⊢
      generalize p.context.bumpSpotDate b q.dependencies = r at h1 h2
      generalize q.context.bumpSpotDate b q.dependencies = r' at h1 h2
      obtain ⟨o, m⟩ := r
      obtain ⟨o', m'⟩ := r'
      dsimp only at h1 h2
      subst h1
      cases o with
      | error e => exact ⟨rfl, ⟨h2, by first | exact h.dependencies | exact rfl, h.forwardCurves, h.volSurfaces⟩, rfl⟩
      | ok u =>
        dsimp only
        have hl : Like { p with context := m } { q with context := m' } := ⟨h2, h.dependencies, h.forwardCurves, h.volSurfaces⟩
        obtain ⟨k1, k2⟩ := refetchAll_like hl
        rw [h.dependencies] at k1 k2
        generalize Prefetch.refetchAll _ = r at k1 k2 ⊢
        generalize Prefetch.refetchAll _ = r' at k1 k2 ⊢
        obtain ⟨o, m⟩ := r
        obtain ⟨o', m'⟩ := r'
        dsimp only at k1 k2
        subst k1
        cases o with
        | error e => exact ⟨rfl, k2, rfl⟩
        | ok u => exact ⟨rfl, k2, rfl⟩
    · exact ⟨rfl, h, rfl⟩
  | divs id b => exact hb.elim
  | borrow id b => exact hb.elim
  | yield id b => exact hb.elim

/-! ## Pricers -/

section Pricers
variable {σ S : Type}

/-- Pricers in related states answer alike and stay related. -/
structure Bisimilar (P : Pricer σ S) (R : σ → σ → Prop) : Prop where
  bump : ∀ {p q : σ}, R p q → ∀ {b : Bump}, Reported b → ∀ save,
    (P.bump b p save).1 = (P.bump b q save).1 ∧ R (P.bump b p save).2.1 (P.bump b q save).2.1 ∧ (P.bump b p save).2.2 = (P.bump b q save).2.2
  restore : ∀ {p q : σ}, R p q → ∀ s, R (P.restore p s) (P.restore q s)
  price : ∀ {p q : σ}, R p q → P.price p = P.price q
  ids : ∀ {p q : σ}, R p q → P.ids p = P.ids q
  spot : ∀ {p q : σ}, R p q → ∀ id, P.spot p id = P.spot q id
  bumpTime : ∀ {p q : σ}, R p q → ∀ b, (P.bumpTime b p).1 = (P.bumpTime b q).1 ∧ R (P.bumpTime b p).2 (P.bumpTime b q).2

variable {P : Pricer σ S} {R : σ → σ → Prop}

/-- The same result, related states and the same save area. -/
def Matched {α T : Type} (R : σ → σ → Prop) (r r' : Outcome α × σ × T) : Prop := r.1 = r'.1 ∧ R r.2.1 r'.2.1 ∧ r.2.2 = r'.2.2

theorem bumpedPrice_matched (h : Bisimilar P R) {p q : σ} (hr : R p q) {b : Bump} (hb : Reported b) (save : Option S) (u : Num ℝ) :
    Matched R (bumpedPrice P b p save u) (bumpedPrice P b q save u) := by
  unfold bumpedPrice
  obtain ⟨h1, h2, h3⟩ := h.bump hr hb save
  generalize P.bump b p save = r at h1 h2 h3
  generalize P.bump b q save = r' at h1 h2 h3
  obtain ⟨o, x, s⟩ := r
  obtain ⟨o', x', s'⟩ := r'
  dsimp only at h1 h2 h3
  subst h1 h3
  cases o with
  | error e => exact ⟨rfl, h2, rfl⟩
  | ok t =>
    cases t
    · exact ⟨rfl, h2, rfl⟩
    · exact ⟨h.price h2, h2, rfl⟩

theorem upAndDown_matched (h : Bisimilar P R) {p q : σ} (hr : R p q) {b b' : Bump} (hb : Reported b) (hb' : Reported b') (s : S) (u : Num ℝ) :
    Matched R (upAndDown P b b' p s u) (upAndDown P b b' q s u) := by
  unfold upAndDown
  obtain ⟨h1, h2, h3⟩ := bumpedPrice_matched h hr hb (some s) u
  generalize bumpedPrice P b p (some s) u = r at h1 h2 h3
  generalize bumpedPrice P b q (some s) u = r' at h1 h2 h3
  obtain ⟨o, x, s1⟩ := r
  obtain ⟨o', x', s1'⟩ := r'
  dsimp only at h1 h2 h3
  subst h1 h3
  cases o with
  | error e => exact ⟨rfl, h2, rfl⟩
  | ok up =>
    dsimp only
    obtain ⟨h1, h2, h3⟩ := bumpedPrice_matched h h2 hb' none u
    generalize bumpedPrice P b' x none u = r at h1 h2 h3
    generalize bumpedPrice P b' x' none u = r' at h1 h2 h3
    obtain ⟨o, y, s2⟩ := r
    obtain ⟨o', y', s2'⟩ := r'
    dsimp only at h1 h2 h3
    subst h1 h3
    cases o with
    | error e => exact ⟨rfl, h2, rfl⟩
    | ok down => exact ⟨rfl, h.restore h2 _, rfl⟩

theorem delta_matched (h : Bisimilar P R) (b : ℝ) (u : Num ℝ) (l : List String) : ∀ {p q : σ}, R p q → ∀ (s : S) (m : Map String (Num ℝ × Num ℝ)),
    Matched R (deltaGammaLoop P b u l p s m) (deltaGammaLoop P b u l q s m) := by
  induction l with
  | nil => intro p q hr s m; exact ⟨rfl, hr, rfl⟩
  | cons id l ih =>
    intro p q hr s m
    unfold deltaGammaLoop
    rw [h.spot hr id]
    cases P.spot q id with
    | error e => exact ⟨rfl, hr, rfl⟩
    | ok x =>
      dsimp only
      obtain ⟨h1, h2, h3⟩ := upAndDown_matched h hr (b := .spot id (.relative b))
        (b' := .spot id (.relative ((1 - b) / (1 + b) - 1))) trivial trivial s u
      generalize upAndDown P _ _ p s u = r at h1 h2 h3
      generalize upAndDown P _ _ q s u = r' at h1 h2 h3
      obtain ⟨o, y, s2⟩ := r
      obtain ⟨o', y', s2'⟩ := r'
      dsimp only at h1 h2 h3
      subst h1 h3
      cases o with
      | error e => exact ⟨rfl, h2, rfl⟩
      | ok ud => exact ih h2 _ _

theorem vega_matched (h : Bisimilar P R) (b : BumpVol) (u : Num ℝ) (l : List String) : ∀ {p q : σ}, R p q → ∀ (s : S) (m : Map String (Num ℝ × Num ℝ)),
    Matched R (vegaVolgaLoop P b u l p s m) (vegaVolgaLoop P b u l q s m) := by
  induction l with
  | nil => intro p q hr s m; exact ⟨rfl, hr, rfl⟩
  | cons id l ih =>
    intro p q hr s m
    unfold vegaVolgaLoop
    obtain ⟨h1, h2, h3⟩ := upAndDown_matched h hr (b := .vol id b) (b' := .vol id b.opposite) trivial trivial s u
    generalize upAndDown P _ _ p s u = r at h1 h2 h3
    generalize upAndDown P _ _ q s u = r' at h1 h2 h3
    obtain ⟨o, y, s2⟩ := r
    obtain ⟨o', y', s2'⟩ := r'
    dsimp only at h1 h2 h3
    subst h1 h3
    cases o with
    | error e => exact ⟨rfl, h2, rfl⟩
    | ok ud => exact ih h2 _ _

mutual
theorem generate_matched (h : Bisimilar P R) : ∀ (g : Generator) {p q : σ}, R p q → ∀ (s : S) (u : Num ℝ),
    Matched R (generate P g p s u) (generate P g q s u)
  | .deltaGamma b, p, q, hr, s, u => by
    unfold generate
    rw [h.ids hr]
    obtain ⟨h1, h2, h3⟩ := delta_matched h b u (P.ids q) hr s .empty
    generalize deltaGammaLoop P b u (P.ids q) p s .empty = r at h1 h2 h3
    generalize deltaGammaLoop P b u (P.ids q) q s .empty = r' at h1 h2 h3
    obtain ⟨o, y, s2⟩ := r
    obtain ⟨o', y', s2'⟩ := r'
    dsimp only at h1 h2 h3
    subst h1 h3
    cases o <;> exact ⟨rfl, h2, rfl⟩
  | .vegaVolga b, p, q, hr, s, u => by
    unfold generate
    rw [h.ids hr]
    obtain ⟨h1, h2, h3⟩ := vega_matched h b u (P.ids q) hr s .empty
    generalize vegaVolgaLoop P b u (P.ids q) p s .empty = r at h1 h2 h3
    generalize vegaVolgaLoop P b u (P.ids q) q s .empty = r' at h1 h2 h3
    obtain ⟨o, y, s2⟩ := r
    obtain ⟨o', y', s2'⟩ := r'
    dsimp only at h1 h2 h3
    subst h1 h3
    cases o <;> exact ⟨rfl, h2, rfl⟩
  | .timeBumped b subs, p, q, hr, s, u => by
    unfold generate
    obtain ⟨h1, h2⟩ := h.bumpTime hr b
    generalize P.bumpTime b p = r at h1 h2
    generalize P.bumpTime b q = r' at h1 h2
    obtain ⟨o, y⟩ := r
    obtain ⟨o', y'⟩ := r'
    dsimp only at h1 h2
    subst h1
    cases o with
    | error e => exact ⟨rfl, hr, rfl⟩
    | ok t =>
      dsimp only
      rw [h.price h2]
      cases P.price y' with
      | error e => exact ⟨rfl, hr, rfl⟩
      | ok v =>
        dsimp only
        obtain ⟨h1, h2, h3⟩ := generateAll_matched h subs h2 s v
        generalize generateAll P subs y s v = r at h1 h2 h3
        generalize generateAll P subs y' s v = r' at h1 h2 h3
        obtain ⟨o, z, s2⟩ := r
        obtain ⟨o', z', s2'⟩ := r'
        dsimp only at h1 h2 h3
        subst h1 h3
        cases o <;> exact ⟨rfl, hr, rfl⟩

theorem generateAll_matched (h : Bisimilar P R) : ∀ (l : List Generator) {p q : σ}, R p q → ∀ (s : S) (u : Num ℝ),
    Matched R (generateAll P l p s u) (generateAll P l q s u)
  | [], p, q, hr, s, u => ⟨rfl, hr, rfl⟩
  | g :: rest, p, q, hr, s, u => by
    unfold generateAll
    obtain ⟨h1, h2, h3⟩ := generate_matched h g hr s u
    generalize generate P g p s u = r at h1 h2 h3
    generalize generate P g q s u = r' at h1 h2 h3
    obtain ⟨o, y, s2⟩ := r
    obtain ⟨o', y', s2'⟩ := r'
    dsimp only at h1 h2 h3
    subst h1 h3
    cases o with
    | error e => exact ⟨rfl, h2, rfl⟩
    | ok x =>
      dsimp only
      obtain ⟨h1, h2, h3⟩ := generateAll_matched h rest h2 s2 u
      generalize generateAll P rest y s2 u = r at h1 h2 h3
      generalize generateAll P rest y' s2 u = r' at h1 h2 h3
      obtain ⟨o, z, s2⟩ := r
      obtain ⟨o', z', s2'⟩ := r'
      dsimp only at h1 h2 h3
      subst h1 h3
      cases o <;> exact ⟨rfl, h2, rfl⟩
end

theorem calculate_matched (h : Bisimilar P R) {r r' : Outcome σ} (hr : Both R r r') (gs : List Generator) : calculate P r gs = calculate P r' gs := by
  unfold calculate
  refine both_eq (both_bind hr (fun p q hpq => ?_))
  rw [h.price hpq]
  refine both_bind (both_self _) ?_
  rintro v _ rfl
  rw [(generateAll_matched h gs hpq _ _).1]
  exact both_self _

end Pricers

/-! ## The self pricer -/

theorem fixingsOf_same (h : SameContext c c') (b : BumpSpotDate) (id : String) (i : Instrument) (l : List DateTime) :
    fixingsOf c b id i l = fixingsOf c' b id i l := by
  induction l with
  | nil => rfl
  | cons d l ih =>
    unfold fixingsOf fixingValue
    rw [h.spotDate, h.forwardCurve, h.spot, ih]

theorem fixingMap_same (h : SameContext c c') (b : BumpSpotDate) (col : Collector) (l : List (String × Instrument)) :
    fixingMap c b col l = fixingMap c' b col l := by
  induction l with
  | nil => rfl
  | cons e l ih =>
    obtain ⟨id, i⟩ := e
    unfold fixingMap
    rw [fixingsOf_same h, ih]

theorem updateInstruments_same (h : SameContext c c') (b : BumpSpotDate) (l : List (ℝ × Instrument)) (col : Collector) :
    updateInstruments b l c col = updateInstruments b l c' col := by
  unfold updateInstruments
  rw [fixingMap_same h]

/-- Self pricers that hold the same, except that curves may be made in different ways. -/
def LikeSelf (p q : SelfPricer) : Prop := p.instruments = q.instruments ∧ Like p.context q.context

theorem self_new_same {md md' : MarketData} (h : SameMarket md md') (l : List (ℝ × Instrument)) :
    Both LikeSelf (SelfPricer.new l md) (SelfPricer.new l md') := by
  unfold SelfPricer.new
  rw [h.spotDate]
  exact both_bind (prefetch_new_same h _) (fun p q hpq => ⟨rfl, hpq⟩)

theorem self_price_same {p q : SelfPricer} (h : LikeSelf p q) : p.price fuel = q.price fuel := by
  unfold SelfPricer.price
  rw [h.2.market.spotDate, h.1]
  exact priceLoop_same h.2.pricing _ _ _

theorem self_bisimilar : Bisimilar (selfPricer fuel) LikeSelf where
  bump h b hb save := by
    obtain ⟨h1, h2, h3⟩ := bump_like h.2 hb save
    exact ⟨h1, ⟨h.1, h2⟩, h3⟩
  restore h s := ⟨h.1, restore_like h.2 s⟩
  price h := self_price_same h
  ids {p q} h := by
    show p.context.dependencies.instruments.entries.map Prod.fst = q.context.dependencies.instruments.entries.map Prod.fst
    rw [h.2.dependencies]
  spot {p q} h id := by
    show find id p.context.context.spots = find id q.context.context.spots
    rw [h.2.market.spots]
  bumpTime {p q} h b := by
    show (p.bumpTime b).1 = (q.bumpTime b).1 ∧ LikeSelf (p.bumpTime b).2 (q.bumpTime b).2
    unfold SelfPricer.bumpTime
    rw [updateInstruments_same h.2.pricing, h.1, h.2.dependencies]
    cases updateInstruments b.spotDateBump q.instruments q.context.pricingContext q.context.dependencies with
    | error e => exact ⟨rfl, h⟩
    | ok r =>
      obtain ⟨modified, l⟩ := r
      dsimp only
      obtain ⟨h1, h2, h3⟩ := bump_like h.2 (b := .spotDate b.spotDateBump) trivial none
      generalize p.context.bump (.spotDate b.spotDateBump) none = r at h1 h2 h3
      generalize q.context.bump (.spotDate b.spotDateBump) none = r' at h1 h2 h3
      obtain ⟨o, x, s⟩ := r
      obtain ⟨o', x', s'⟩ := r'
      dsimp only at h1 h2 h3
      subst h1 h3
      cases o with
      | error e => exact ⟨rfl, rfl, h2⟩
      | ok t =>
        dsimp only
        split
        · have hn := self_new_same h2.market l
          generalize SelfPricer.new l x.context = r at hn
          generalize SelfPricer.new l x'.context = r' at hn
          cases r <;> cases r' <;> first | exact False.elim hn | skip
          · cases hn
            exact ⟨rfl, rfl, h2⟩
          · exact ⟨rfl, hn⟩
        · exact ⟨rfl, rfl, h2⟩

end QM.Risk
