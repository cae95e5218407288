import Verif.Risk.RatesProps
import Verif.MonteCarlo.SharedProps

/-!
# Property C111 for Monte-Carlo pricers
-/

namespace QM.MonteCarlo
open QM.Interp QM.Curves QM.Vol QM.Fixings QM.Instruments QM.Market QM.Risk QM.Risk.Spec

variable {fuel : Nat} {c c' : PricingContext}

/-! ## Helper lemmas -/

theorem substepsAll_same (h : SameContext c c') (observations : List Point) (hwm : Int) (x : ℝ) (l : List Instrument) : ∀ s : List Nat,
    substepsAll fuel c observations hwm x l s = substepsAll fuel c' observations hwm x l s := by
  induction l with
  | nil => intro s; rfl
  | cons i l ih =>
    intro s
    unfold substepsAll
    rw [h.forwardCurve, h.volSurface]
    refine both_eq (both_bind (both_self _) ?_)
    rintro f _ rfl
    refine both_bind (both_self _) ?_
    rintro v _ rfl
    refine both_bind (both_self _) ?_
    rintro n _ rfl
    rw [ih]
    exact both_self _

theorem substepping_same (h : SameContext c c') (observations : List Point) (l : List Instrument) (x : ℝ) :
    calculateSubstepping fuel c observations l x = calculateSubstepping fuel c' observations l x := by
  unfold calculateSubstepping
  cases observations.getLast? with
  | none => rfl
  | some last => exact substepsAll_same h ..

theorem fetchPath_same (h : SameContext c c') (i : Instrument) (observations : List Point) (gs : List (List ℝ)) (s : List Nat) :
    fetchPath fuel i c observations gs s = fetchPath fuel i c' observations gs s := by
  unfold fetchPath
  rw [h.forwardCurve, h.volSurface]

theorem fetchPaths_same (h : SameContext c c') (observations : List Point) (gs : List (List (List ℝ))) (l : List Instrument) (s : List Nat) :
    fetchPaths fuel c observations gs l s = fetchPaths fuel c' observations gs l s := by
  unfold fetchPaths
  simp only [fetchPath_same h]

/-- Models that hold the same, except that curves may be made in different ways. -/
structure LikeModel (m n : BlackDiffusion) : Prop where
  context : Like m.context n.context
  rest : { n with context := m.context } = m

theorem LikeModel.of {m n : BlackDiffusion} (h : LikeModel m n) : ∃ q, n = { m with context := q } ∧ Like m.context q := by
  refine ⟨n.context, ?_, h.context⟩
  rw [← h.rest]

theorem model_new_same {p q : Prefetch} (h : Like p q) (f : ModelFactory) (t : Timeline) (draw : Draws) :
    Both LikeModel (BlackDiffusion.new fuel f t p draw) (BlackDiffusion.new fuel f t q draw) := by
  unfold BlackDiffusion.new
  simp only [substepping_same h.pricing, fetchPaths_same h.pricing]
  refine both_bind (both_self _) ?_
  rintro s _ rfl
  refine both_bind (both_self _) ?_
  rintro g _ rfl
  refine both_bind (both_self _) ?_
  rintro paths _ rfl
  exact ⟨h, rfl⟩

theorem flowsLoop_same (h : SameContext c c') (n : Nat) (l : List (Instrument × List ℝ)) : ∀ total : Num ℝ,
    flowsLoop fuel c n l total = flowsLoop fuel c' n l total := by
  induction l with
  | nil => intro total; rfl
  | cons e l ih =>
    intro total
    obtain ⟨i, qs⟩ := e
    unfold flowsLoop
    rw [price_same h, h.spotDate]
    split
    · refine both_eq (both_bind (both_self _) ?_)
      rintro v _ rfl
      rw [ih]
      exact both_self _
    · rfl

theorem evaluateFlows_same {m n : BlackDiffusion} (h : LikeModel m n) (qs : List (List ℝ)) : m.evaluateFlows fuel qs = n.evaluateFlows fuel qs := by
  obtain ⟨q, rfl, hq⟩ := h.of
  unfold BlackDiffusion.evaluateFlows
  dsimp only
  rw [flowsLoop_same hq.pricing]

theorem mcPrice_same {m n : BlackDiffusion} (h : LikeModel m n) (i : Instrument) : mcPrice fuel m i = mcPrice fuel n i := by
  have hf := fun qs => evaluateFlows_same (fuel := fuel) h qs
  obtain ⟨q, rfl, hq⟩ := h.of
  unfold mcPrice
  cases i <;> first | rfl | skip
  · simp only [hf]
    rfl
  · simp only [hf]
    rfl

theorem mcLoop_same {m n : BlackDiffusion} (h : LikeModel m n) (l : List (ℝ × Instrument)) : ∀ total : Num ℝ,
    mcLoop fuel m l total = mcLoop fuel n l total := by
  induction l with
  | nil => intro total; rfl
  | cons e l ih =>
    intro total
    obtain ⟨w, i⟩ := e
    unfold mcLoop
    rw [mcPrice_same h]
    refine both_eq (both_bind (both_self _) ?_)
    rintro v _ rfl
    rw [ih]
    exact both_self _

theorem model_refetch_like {m n : BlackDiffusion} (h : LikeModel m n) (id : String) (bumped : Bool) (save : Option SavedBlackDiffusion) :
    Matched LikeModel (m.refetch fuel id bumped save) (n.refetch fuel id bumped save) := by
  obtain ⟨q, rfl, hq⟩ := h.of
  unfold BlackDiffusion.refetch
  cases bumped
  · exact ⟨rfl, h, rfl⟩
  · dsimp only
    cases m.key.get id with
    | none => exact ⟨rfl, h, rfl⟩
    | some asset =>
      dsimp only
      cases m.instruments[asset]? with
      | none => exact ⟨rfl, h, rfl⟩
      | some i =>
        dsimp only
        rw [fetchPath_same hq.pricing]
        cases fetchPath fuel i q.pricingContext m.observations (m.gaussians.getD asset []) m.substepping with
        | error e => exact ⟨rfl, h, rfl⟩
        | ok path => exact ⟨rfl, ⟨hq, rfl⟩, rfl⟩

theorem model_refetchAll_like {m n : BlackDiffusion} (h : LikeModel m n) :
    (m.refetchAll fuel).1 = (n.refetchAll fuel).1 ∧ LikeModel (m.refetchAll fuel).2 (n.refetchAll fuel).2 := by
  obtain ⟨q, rfl, hq⟩ := h.of
  unfold BlackDiffusion.refetchAll
  dsimp only
  rw [fetchPaths_same hq.pricing]
  cases fetchPaths fuel q.pricingContext m.observations m.gaussians m.instruments m.substepping with
  | error e => exact ⟨rfl, h⟩
  | ok paths => exact ⟨rfl, ⟨hq, rfl⟩⟩

theorem model_bump_like {m n : BlackDiffusion} (h : LikeModel m n) {b : Bump} (hb : Reported b) (save : Option SavedBlackDiffusion) :
    Matched LikeModel (m.bump fuel b save) (n.bump fuel b save) := by
  obtain ⟨q, rfl, hq⟩ := h.of
  unfold BlackDiffusion.bump
  dsimp only
  obtain ⟨h1, h2, h3⟩ := bump_like hq hb (save.map SavedBlackDiffusion.savedData)
  generalize m.context.bump b (save.map SavedBlackDiffusion.savedData) = r at h1 h2 h3
  generalize q.bump b (save.map SavedBlackDiffusion.savedData) = r' at h1 h2 h3
  obtain ⟨o, x, s⟩ := r
  obtain ⟨o', x', s'⟩ := r'
  dsimp only at h1 h2 h3
  subst h1 h3
  cases o with
  | error e => exact ⟨rfl, ⟨h2, rfl⟩, rfl⟩
  | ok t =>
    dsimp only
    have hl : LikeModel { m with context := x } { m with context := x' } := ⟨h2, rfl⟩
    cases b with
    | spot id b => exact model_refetch_like hl id t _
    | vol id b => exact model_refetch_like hl id t _
    | spotDate b =>
      dsimp only
      cases t
      · exact ⟨rfl, hl, rfl⟩
      · rw [if_pos rfl, if_pos rfl]
        obtain ⟨k1, k2⟩ := model_refetchAll_like (fuel := fuel) hl
        generalize BlackDiffusion.refetchAll fuel { m with context := x } = r at k1 k2
        generalize BlackDiffusion.refetchAll fuel { m with context := x' } = r' at k1 k2
        obtain ⟨o, y⟩ := r
        obtain ⟨o', y'⟩ := r'
        dsimp only at k1 k2
        subst k1
        cases o <;> exact ⟨rfl, k2, rfl⟩
    | divs id b => exact hb.elim
    | borrow id b => exact hb.elim
    | yield id b => exact hb.elim

/-- Pricers that hold the same, except that curves may be made in different ways. -/
def LikeMonteCarlo (p q : MonteCarlo) : Prop := p.factory = q.factory ∧ p.instruments = q.instruments ∧ LikeModel p.model q.model

theorem monte_carlo_new_same {md md' : MarketData} (h : SameMarket md md') (f : ModelFactory) (l : List (ℝ × Instrument)) (draw : Draws) :
    Both LikeMonteCarlo (MonteCarlo.new fuel f l md draw) (MonteCarlo.new fuel f l md' draw) := by
  unfold MonteCarlo.new
  rw [h.spotDate]
  refine both_bind (both_self _) ?_
  rintro t _ rfl
  refine both_bind (prefetch_new_same h _) (fun p q hpq => ?_)
  exact both_bind (model_new_same hpq f t draw) (fun m n hmn => ⟨rfl, rfl, hmn⟩)

theorem monte_carlo_bisimilar (draw : Draws) : Bisimilar (monteCarlo fuel draw) LikeMonteCarlo where
  bump h b hb save := by
    obtain ⟨h1, h2, h3⟩ := model_bump_like h.2.2 hb save
    exact ⟨h1, ⟨h.1, h.2.1, h2⟩, h3⟩
  restore {p q} h s := by
    obtain ⟨x, e, hx⟩ := h.2.2.of
    refine ⟨h.1, h.2.1, ?_⟩
    show LikeModel (p.model.restore s) (q.model.restore s)
    rw [e]
    exact ⟨restore_like hx _, rfl⟩
  price {p q} h := by
    show mcLoop fuel p.model p.instruments (.val 0) = mcLoop fuel q.model q.instruments (.val 0)
    rw [h.2.1]
    exact mcLoop_same h.2.2 _ _
  ids {p q} h := by
    show p.model.context.dependencies.instruments.entries.map Prod.fst = q.model.context.dependencies.instruments.entries.map Prod.fst
    rw [h.2.2.context.dependencies]
  spot {p q} h id := by
    show find id p.model.context.context.spots = find id q.model.context.context.spots
    rw [h.2.2.context.market.spots]
  bumpTime {p q} h b := by
    show (p.bumpTime fuel draw b).1 = (q.bumpTime fuel draw b).1 ∧ LikeMonteCarlo (p.bumpTime fuel draw b).2 (q.bumpTime fuel draw b).2
    unfold MonteCarlo.bumpTime
    rw [updateInstruments_same h.2.2.context.pricing, h.2.1, h.2.2.context.dependencies, h.1]
    cases updateInstruments b.spotDateBump q.instruments q.model.context.pricingContext q.model.context.dependencies with
    | error e => exact ⟨rfl, h⟩
    | ok r =>
      obtain ⟨modified, l⟩ := r
      dsimp only
      obtain ⟨h1, h2, h3⟩ := model_bump_like (fuel := fuel) h.2.2 (b := .spotDate b.spotDateBump) trivial none
      generalize p.model.bump fuel (.spotDate b.spotDateBump) none = r at h1 h2 h3
      generalize q.model.bump fuel (.spotDate b.spotDateBump) none = r' at h1 h2 h3
      obtain ⟨o, x, s⟩ := r
      obtain ⟨o', x', s'⟩ := r'
      dsimp only at h1 h2 h3
      subst h1 h3
      cases o with
      | error e => exact ⟨rfl, rfl, rfl, h2⟩
      | ok t =>
        dsimp only
        split
        · have hn := monte_carlo_new_same (fuel := fuel) h2.context.market q.factory l draw
          generalize MonteCarlo.new fuel q.factory l x.context.context draw = r at hn
          generalize MonteCarlo.new fuel q.factory l x'.context.context draw = r' at hn
          cases r <;> cases r' <;> first | exact False.elim hn | skip
          · cases hn
            exact ⟨rfl, rfl, rfl, h2⟩
          · exact ⟨rfl, hn⟩
        · exact ⟨rfl, rfl, rfl, h2⟩

/-! ## The property -/

/-- C111. In markets that differ only in how their curves are made, Monte-Carlo pricers with the same draws make the same reports of any instrument, or
fail in the same way. -/
theorem C111_monte_carlo {md md' : MarketData} (h : SameMarket md md') (f : ModelFactory) (i : Instrument) (table : FixingTable ℝ) (draw draw' : Draws)
    (reports : List Generator) :
    calculate (monteCarlo fuel draw') (monteCarloFactory fuel f i table md draw) reports =
      calculate (monteCarlo fuel draw') (monteCarloFactory fuel f i table md' draw) reports := by
  refine calculate_matched (monte_carlo_bisimilar draw') ?_ reports
  unfold monteCarloFactory
  refine both_bind (both_self _) ?_
  rintro o _ rfl
  cases o with
  | none => exact monte_carlo_new_same h ..
  | some l => exact monte_carlo_new_same h ..

/-- C111. The same for their prices. -/
theorem C111_monte_carlo_price {md md' : MarketData} (h : SameMarket md md') (f : ModelFactory) (l : List (ℝ × Instrument)) (draw : Draws) :
    (MonteCarlo.new fuel f l md draw >>= MonteCarlo.price fuel) = (MonteCarlo.new fuel f l md' draw >>= MonteCarlo.price fuel) := by
  refine both_eq (both_bind (monte_carlo_new_same h f l draw) (fun p q hpq => ?_))
  have := (monte_carlo_bisimilar (fuel := fuel) draw).price hpq
  rw [show p.price fuel = q.price fuel from this]
  exact both_self _

/-- C111: a call that has a Monte-Carlo price in two such markets. -/
example (f : ModelFactory) (draw : Draws) (hh : f.pathSubstep ≠ 0) (hn : f.nPaths ≠ 0) : ∃ md md' x, SameMarket md md' ∧ md ≠ md' ∧
    (MonteCarlo.new fuel f [(1, optionA 90)] md draw >>= MonteCarlo.price fuel) = .ok (.val x) ∧
    (MonteCarlo.new fuel f [(1, optionA 90)] md' draw >>= MonteCarlo.price fuel) = .ok (.val x) := by
  obtain ⟨context, hc, hm, hD⟩ := sample_common (fuel := fuel)
  obtain ⟨p, hp, hx⟩ := price_drawn (f := f) sampleTerms.id .call hc hm hD (by norm_num) hh hn draw 1 90
  obtain ⟨x, h⟩ : ∃ x, (MonteCarlo.new fuel f [(1, optionA 90)] (sampleMarket 100 (.zero 0)) draw >>= MonteCarlo.price fuel) = .ok (.val x) :=
    ⟨_, (congrArg (· >>= MonteCarlo.price fuel) hp).trans hx⟩
  refine ⟨_, _, _, same_markets, ?_, h, (C111_monte_carlo_price same_markets f _ draw).symm.trans h⟩
  intro e
  simp [sampleMarket, BumpYield.apply, RateCurve.newContinuouslyCompoundedFlatBump] at e

end QM.MonteCarlo
