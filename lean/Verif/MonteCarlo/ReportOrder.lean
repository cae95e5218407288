import Verif.MonteCarlo.Reports

/-!
# Property C46 for Monte-Carlo pricers: reports do not disturb one another

The draws of a pricer that is rebuilt when time moves are an argument of the model. The statements hold for any draws, the
same for all reports.
-/

namespace QM.MonteCarlo
open QM.Interp QM.Vol QM.Instruments QM.Market QM.Market.Spec QM.Risk QM.Risk.Spec QM.Fixings Spec

variable {fuel : Nat} {f : ModelFactory} {md : MarketData} {draw : Draws}

/-- The same model with another context. -/
def BlackDiffusion.on (m : BlackDiffusion) (c : Prefetch) : BlackDiffusion := { m with context := c }

/-- The same pricer with another context. -/
def MonteCarlo.on (p : MonteCarlo) (c : Prefetch) : MonteCarlo := { p with model := p.model.on c }

theorem sameModel_on {p q : MonteCarlo} (h : SameModel p q) : Alike p.model.context q.model.context ∧ q = p.on q.model.context := by
  refine ⟨⟨h.dependencies, h.spotDate, h.answers⟩, ?_⟩
  obtain ⟨pf, pi, ⟨p1, p2, p3, p4, p5, p6, p7, p8, p9⟩⟩ := p
  obtain ⟨qf, qi, ⟨q1, q2, q3, q4, q5, q6, q7, q8, q9⟩⟩ := q
  obtain ⟨h1, h2, h3, h4, h5, h6, h7, h8, h9, h10, _, _, _⟩ := h
  dsimp only at h1 h2 h3 h4 h5 h6 h7 h8 h9 h10
  subst h1 h2 h3 h4 h5 h6 h7 h8 h9 h10
  rfl

theorem on_sameModel {p : MonteCarlo} {c : Prefetch} (h : Alike p.model.context c) : SameModel p (p.on c) :=
  ⟨rfl, rfl, rfl, rfl, rfl, rfl, rfl, rfl, rfl, rfl, h.dependencies, h.spotDate, h.answers⟩

theorem Spec.SameModel.symm {p q : MonteCarlo} (h : SameModel p q) : SameModel q p :=
  ⟨h.1.symm, h.2.symm, h.3.symm, h.4.symm, h.5.symm, h.6.symm, h.7.symm, h.8.symm, h.9.symm, h.10.symm, h.11.symm, h.12.symm, fun x => (h.13 x).symm⟩

theorem alike_pricing {c c' : Prefetch} (h : Alike c c') : c.pricingContext = c'.pricingContext := pricing_congr h.answers h.spotDate

/-- Simulating one underlying again depends on what the context answers only. -/
theorem refetch_on {m : BlackDiffusion} {c c' : Prefetch} (h : Alike c c') (id : String) (bumped : Bool) (save : Option SavedBlackDiffusion) :
    ∃ m' : BlackDiffusion, (m.on c).refetch fuel id bumped save = (((m.on c').refetch fuel id bumped save).1, m'.on c, ((m.on c').refetch fuel id bumped save).2.2) ∧
      (m.on c').refetch fuel id bumped save = (((m.on c').refetch fuel id bumped save).1, m'.on c', ((m.on c').refetch fuel id bumped save).2.2) := by
  unfold BlackDiffusion.refetch
  cases bumped with
  | false => exact ⟨m, rfl, rfl⟩
  | true =>
    rw [if_neg (by simp), if_neg (by simp)]
    have e1 : (m.on c).key = m.key := rfl
    have e2 : (m.on c').key = m.key := rfl
    rw [e1, e2]
    cases m.key.get id with
    | none => exact ⟨m, rfl, rfl⟩
    | some asset =>
      have e3 : (m.on c).instruments = m.instruments := rfl
      have e4 : (m.on c').instruments = m.instruments := rfl
      dsimp only
      rw [e3, e4]
      cases m.instruments[asset]? with
      | none => exact ⟨m, rfl, rfl⟩
      | some i =>
        dsimp only
        have e5 : fetchPath fuel i (m.on c).context.pricingContext (m.on c).observations ((m.on c).gaussians.getD asset []) (m.on c).substepping =
            fetchPath fuel i (m.on c').context.pricingContext (m.on c').observations ((m.on c').gaussians.getD asset []) (m.on c').substepping := by
          show fetchPath fuel i c.pricingContext _ _ _ = fetchPath fuel i c'.pricingContext _ _ _
          rw [alike_pricing h]
          rfl
        rw [e5]
        cases fetchPath fuel i (m.on c').context.pricingContext (m.on c').observations ((m.on c').gaussians.getD asset []) (m.on c').substepping with
        | error e => exact ⟨m, rfl, rfl⟩
        | ok path => exact ⟨{ m with paths := m.paths.set asset path }, rfl, rfl⟩

/-- Bumps of spots and vols do the same to pricers that are the same. -/
theorem mc_bump_congr {b : Bump} {id : String} (hid : idOf b = some id) {p q p' : MonteCarlo} {save save' : Option SavedBlackDiffusion} {changed : Bool}
    (hq : SameModel p q) (h : MonteCarlo.bump fuel b p save = (.ok changed, p', save')) :
    ∃ q', MonteCarlo.bump fuel b q save = (.ok changed, q', save') ∧ SameModel p' q' := by
  obtain ⟨ha, hq⟩ := sameModel_on hq
  have hag := bump_congr ha (idOf_simple hid).target (save.map SavedBlackDiffusion.savedData)
  have hqc : q.model.context.bump b (save.map SavedBlackDiffusion.savedData) =
      (q.model.context.bump b (save.map SavedBlackDiffusion.savedData)) := rfl
  unfold MonteCarlo.bump BlackDiffusion.bump at h ⊢
  generalize hr : p.model.context.bump b (save.map SavedBlackDiffusion.savedData) = r at h hag
  generalize hr' : q.model.context.bump b (save.map SavedBlackDiffusion.savedData) = r' at hag ⊢
  obtain ⟨r, c, ps⟩ := r
  obtain ⟨r', c', ps'⟩ := r'
  obtain ⟨g1, g2, g3⟩ := hag
  dsimp only at g1 g2 g3 h ⊢
  subst g1 g3
  cases r with
  | error e => cases h
  | ok bumped =>
    dsimp only at h ⊢
    have hm : ({ q.model with context := c' } : BlackDiffusion) = p.model.on c' := by rw [hq]; rfl
    have hm' : ({ p.model with context := c } : BlackDiffusion) = p.model.on c := rfl
    have hqi : q.instruments = p.instruments := by rw [hq]; rfl
    have hqf : q.factory = p.factory := by rw [hq]; rfl
    obtain ⟨m', k1, k2⟩ := refetch_on (fuel := fuel) (m := p.model) g2 id bumped (save.map fun s => { s with savedData := ps.getD s.savedData })
    have key : ∀ x y : Outcome Bool × BlackDiffusion × Option SavedBlackDiffusion,
        (p.model.on c).refetch fuel id bumped (save.map fun s => { s with savedData := ps.getD s.savedData }) = x →
        (p.model.on c').refetch fuel id bumped (save.map fun s => { s with savedData := ps.getD s.savedData }) = y →
        (x.1, ({ p with model := x.2.1 } : MonteCarlo), x.2.2) = (.ok changed, p', save') →
        ∃ q', (y.1, ({ q with model := y.2.1 } : MonteCarlo), y.2.2) = (.ok changed, q', save') ∧ SameModel p' q' := by
      intro x y hx hy he
      rw [hx, hy] at k1
      rw [hy] at k2
      obtain ⟨y1, y2, y3⟩ := y
      obtain ⟨x1, x2, x3⟩ := x
      dsimp only at k1 k2 he ⊢
      obtain ⟨rfl, a2⟩ := Prod.mk.inj k1
      obtain ⟨rfl, rfl⟩ := Prod.mk.inj a2
      obtain ⟨_, a2⟩ := Prod.mk.inj k2
      obtain ⟨rfl, _⟩ := Prod.mk.inj a2
      obtain ⟨rfl, a2⟩ := Prod.mk.inj he
      obtain ⟨rfl, rfl⟩ := Prod.mk.inj a2
      refine ⟨_, rfl, ?_⟩
      exact ⟨hqf.symm, hqi.symm, rfl, rfl, rfl, rfl, rfl, rfl, rfl, rfl, g2.dependencies, g2.spotDate, g2.answers⟩
    rw [hm]
    rw [hm'] at h
    cases b <;> cases hid <;> exact key _ _ rfl rfl h

theorem mc_bumpedPrice_congr {b : Bump} {id : String} (hid : idOf b = some id) {p q p' : MonteCarlo} {save save' : Option SavedBlackDiffusion}
    {v u : Num ℝ} (hq : SameModel p q) (h : bumpedPrice (monteCarlo fuel draw) b p save v = (.ok u, p', save')) :
    ∃ q', bumpedPrice (monteCarlo fuel draw) b q save v = (.ok u, q', save') ∧ SameModel p' q' := by
  obtain ⟨c, b1, h1, h2⟩ := bumpedPrice_ok h
  obtain ⟨q', g1, g2⟩ := mc_bump_congr hid hq b1
  exact ⟨q', bumpedPrice_of g1 (fun hc => (g2.price fuel).symm.trans (h1 hc)) h2, g2⟩

theorem mc_upAndDown_congr {up down : Bump} {id : String} (hu : idOf up = some id) (hd : idOf down = some id) {p q p' : MonteCarlo}
    {s' : SavedBlackDiffusion} {v u d : Num ℝ} (hq : SameModel p q)
    (h : upAndDown (monteCarlo fuel draw) up down p .new v = (.ok (u, d), p', s')) :
    ∃ q' s'', upAndDown (monteCarlo fuel draw) up down q .new v = (.ok (u, d), q', s'') := by
  obtain ⟨p1, s1, p2, s2, h1, h2, rfl, rfl⟩ := upAndDown_ok h
  obtain ⟨q1, g1, e1⟩ := mc_bumpedPrice_congr hu hq h1
  obtain ⟨q2, g2, _⟩ := mc_bumpedPrice_congr hd e1 h2
  unfold upAndDown
  rw [g1]
  dsimp only
  rw [g2]
  exact ⟨_, _, rfl⟩

theorem mc_spot {p q : MonteCarlo} (h : SameModel p q) (id : String) : (monteCarlo fuel draw).spot p id = (monteCarlo fuel draw).spot q id :=
  find_congr (h.answers (.spot id))

theorem mc_delta_congr {b : ℝ} {v : Num ℝ} {p0 : MonteCarlo} (id : String) (p q : MonteCarlo) (x : Num ℝ × Num ℝ) (p' : MonteCarlo)
    (s' : SavedBlackDiffusion) (hp : SameModel p p0) (hq : SameModel q p0) (h : deltaStep (monteCarlo fuel draw) b v id p .new = (.ok x, p', s')) :
    ∃ q' s'', deltaStep (monteCarlo fuel draw) b v id q .new = (.ok x, q', s'') := by
  obtain ⟨spot, u, d, h1, h2, rfl⟩ := deltaStep_ok h
  have hpq := hp.trans hq.symm
  obtain ⟨q', s'', h3⟩ := mc_upAndDown_congr (id := id) (by rfl) (by rfl) hpq h2
  unfold deltaStep
  rw [← mc_spot hpq, h1]
  dsimp only
  rw [h3]
  exact ⟨_, _, rfl⟩

theorem mc_vega_congr {b : BumpVol} {v : Num ℝ} {p0 : MonteCarlo} (id : String) (p q : MonteCarlo) (x : Num ℝ × Num ℝ) (p' : MonteCarlo)
    (s' : SavedBlackDiffusion) (hp : SameModel p p0) (hq : SameModel q p0) (h : vegaStep (monteCarlo fuel draw) b v id p .new = (.ok x, p', s')) :
    ∃ q' s'', vegaStep (monteCarlo fuel draw) b v id q .new = (.ok x, q', s'') := by
  obtain ⟨u, d, h2, rfl⟩ := vegaStep_ok h
  obtain ⟨q', s'', h3⟩ := mc_upAndDown_congr (id := id) (by rfl) (by rfl) (hp.trans hq.symm) h2
  unfold vegaStep
  rw [h3]
  exact ⟨_, _, rfl⟩

/-! ## Moving the date -/

/-- A pricer built on market data that answer alike is the same. -/
theorem mc_new_congr {l : List (ℝ × Instrument)} {md n : MarketData} {p : MonteCarlo} (hs : md.spotDate = n.spotDate)
    (ha : ∀ x, data md x = data n x) (h : MonteCarlo.new fuel f l md draw = .ok p) :
    ∃ q, MonteCarlo.new fuel f l n draw = .ok q ∧ SameModel p q ∧ q.model.context.context = n ∧ p.model.context.context = md := by
  unfold MonteCarlo.new at h ⊢
  cases ht : timeline l .new with
  | error e => rw [ht] at h; cases h
  | ok t =>
    rw [ht] at h
    simp only [ok_bind] at h ⊢
    cases hc : Prefetch.new md (collect md.spotDate l) with
    | error e => rw [hc] at h; cases h
    | ok c =>
      rw [hc] at h
      simp only [ok_bind] at h
      obtain ⟨c', g1, g2, g3⟩ := new_congr hs ha hc
      rw [hs] at g1
      rw [g1]
      simp only [ok_bind]
      unfold BlackDiffusion.new at h ⊢
      dsimp only at h ⊢
      rw [← alike_pricing g2]
      generalize calculateSubstepping fuel c.pricingContext _ _ _ = r1 at h ⊢
      cases r1 with
      | error e => cases h
      | ok ks =>
        simp only [ok_bind] at h ⊢
        generalize fetchCorrelatedGaussians _ _ _ _ _ = r2 at h ⊢
        cases r2 with
        | error e => cases h
        | ok gs =>
          simp only [ok_bind] at h ⊢
          generalize fetchPaths fuel c.pricingContext _ _ _ _ = r3 at h ⊢
          cases r3 with
          | error e => cases h
          | ok ps =>
            simp only [ok_bind] at h ⊢
            cases h
            refine ⟨_, rfl, ⟨rfl, rfl, rfl, rfl, rfl, rfl, rfl, rfl, rfl, rfl, g2.dependencies, g2.spotDate, g2.answers⟩, g3, (new_context hc).1⟩

/-- Moving the date does the same to pricers that are the same. -/
theorem mc_bumpTime_congr {bump : BumpTime} {p q p' : MonteCarlo} (hpq : SameModel p q) (hd : Distinct p.model.context.context.spots)
    (hd' : Distinct q.model.context.context.spots) (h : p.bumpTime fuel draw bump = (.ok (), p')) :
    ∃ q', q.bumpTime fuel draw bump = (.ok (), q') ∧ SameModel p' q' ∧ Distinct p'.model.context.context.spots ∧
      Distinct q'.model.context.context.spots := by
  obtain ⟨ha, hq⟩ := sameModel_on hpq
  unfold MonteCarlo.bumpTime at h ⊢
  rw [← hpq.instruments, ← alike_pricing ha, ← hpq.dependencies, ← hpq.factory]
  cases hu : updateInstruments bump.spotDateBump p.instruments p.model.context.pricingContext p.model.context.dependencies with
  | error e => rw [hu] at h; cases h
  | ok u =>
    obtain ⟨modified, instruments⟩ := u
    rw [hu] at h
    dsimp only at h ⊢
    -- the bump of the model
    have hb : ∀ {changed : Bool} {m : BlackDiffusion} {s : Option SavedBlackDiffusion},
        p.model.bump fuel (.spotDate bump.spotDateBump) none = (.ok changed, m, s) →
        ∃ c c' paths, Alike c c' ∧ Distinct c.context.spots ∧ Distinct c'.context.spots ∧ m = { p.model with context := c, paths := paths } ∧
          q.model.bump fuel (.spotDate bump.spotDateBump) none = (.ok changed, { p.model with context := c', paths := paths }, s) := by
      intro changed m s hb
      unfold BlackDiffusion.bump at hb ⊢
      simp only [Option.map_none] at hb ⊢
      generalize hr : p.model.context.bump (.spotDate bump.spotDateBump) none = r at hb
      obtain ⟨r, c, ps⟩ := r
      cases r with
      | error e => cases hb
      | ok bumped =>
        obtain ⟨c', g1, g2⟩ := bump_date_congr ha hd hd' hr
        rw [g1]
        dsimp only at hb ⊢
        have e1 := bump_spots hd hr
        have e2 := bump_spots hd' g1
        have hm : ({ q.model with context := c' } : BlackDiffusion) = p.model.on c' := by rw [hq]; rfl
        rw [hm]
        cases bumped with
        | false =>
          cases hb
          exact ⟨c, c', p.model.paths, g2, e1, e2, rfl, rfl⟩
        | true =>
          rw [if_pos rfl] at hb ⊢
          unfold BlackDiffusion.refetchAll at hb ⊢
          have e3 : (p.model.on c').context.pricingContext = c.pricingContext := (alike_pricing g2).symm
          rw [e3]
          have e4 : fetchPaths fuel c.pricingContext (p.model.on c').observations (p.model.on c').gaussians (p.model.on c').instruments (p.model.on c').substepping =
            fetchPaths fuel c.pricingContext p.model.observations p.model.gaussians p.model.instruments p.model.substepping := rfl
          rw [e4]
          dsimp only at hb
          cases hf : fetchPaths fuel c.pricingContext p.model.observations p.model.gaussians p.model.instruments p.model.substepping with
          | error e => rw [hf] at hb; cases hb
          | ok paths =>
            rw [hf] at hb
            cases hb
            exact ⟨c, c', paths, g2, e1, e2, rfl, rfl⟩
    generalize hm : p.model.bump fuel (.spotDate bump.spotDateBump) none = r at h
    obtain ⟨r, m, s⟩ := r
    cases r with
    | error e => cases h
    | ok changed =>
      obtain ⟨c, c', paths, g1, g2, g3, rfl, g4⟩ := hb hm
      rw [g4]
      dsimp only at h ⊢
      cases modified with
      | false =>
        rw [if_neg (by simp)] at h ⊢
        cases h
        exact ⟨_, rfl, ⟨rfl, rfl, rfl, rfl, rfl, rfl, rfl, rfl, rfl, rfl, g1.dependencies, g1.spotDate, g1.answers⟩, g2, g3⟩
      | true =>
        rw [if_pos rfl] at h ⊢
        cases hn : MonteCarlo.new fuel p.factory instruments c.context draw with
        | error e => rw [hn] at h; cases h
        | ok p1 =>
          rw [hn] at h
          cases h
          obtain ⟨q1, k1, k2, k3, k4⟩ := mc_new_congr g1.spotDate g1.data hn
          rw [k1]
          exact ⟨q1, rfl, k2, k4 ▸ g2, k3 ▸ g3⟩

/-! ## Spots stay entered once -/

theorem mc_bump_spots {b : Bump} {id : String} (hid : idOf b = some id) {p p' : MonteCarlo} {save save' : Option SavedBlackDiffusion} {changed : Bool}
    (hd : Distinct p.model.context.context.spots) (h : MonteCarlo.bump fuel b p save = (.ok changed, p', save')) :
    Distinct p'.model.context.context.spots := by
  obtain ⟨c, ps, e, h1, h2⟩ := mc_bump hid h
  cases changed with
  | false => rw [(h1 rfl).1]; exact bump_spots hd e
  | true =>
    obtain ⟨_, _, e', _⟩ := h2 rfl
    rw [e']
    exact bump_spots hd e

theorem mc_upAndDown_spots {up down : Bump} {id : String} (hu : idOf up = some id) (hdn : idOf down = some id) {p p' : MonteCarlo}
    {s' : SavedBlackDiffusion} {v u d : Num ℝ} (hd : Distinct p.model.context.context.spots)
    (h : upAndDown (monteCarlo fuel draw) up down p .new v = (.ok (u, d), p', s')) : Distinct p'.model.context.context.spots := by
  obtain ⟨p1, s1, p2, s2, h1, h2, rfl, rfl⟩ := upAndDown_ok h
  obtain ⟨x1, b1, _⟩ := bumpedPrice_ok h1
  obtain ⟨x2, b2, _⟩ := bumpedPrice_ok h2
  exact copy_distinct _ (mc_bump_spots hdn (mc_bump_spots hu hd b1) b2)

/-- A report leaves each spot entered once. -/
theorem mc_generate_spots (g : Generator) {p p' : MonteCarlo} {s' : SavedBlackDiffusion} {v : Num ℝ} {r : Report}
    (hd : Distinct p.model.context.context.spots) (h : generate (monteCarlo fuel draw) g p .new v = (.ok r, p', s')) :
    Distinct p'.model.context.context.spots := by
  cases g with
  | deltaGamma b =>
    rw [generate] at h
    generalize hr : deltaGammaLoop (monteCarlo fuel draw) b v ((monteCarlo fuel draw).ids p) p .new .empty = l at h
    obtain ⟨l, p1, s1⟩ := l
    cases l with
    | error e => cases h
    | ok m =>
      cases h
      rw [delta_loop] at hr
      refine (figuresLoop_ok (fun q => SameModel q p ∧ Distinct q.model.context.context.spots) (fun _ _ => True) ?_ _ ⟨.refl p, hd⟩ hr).1.2
      intro id q x q' s'' hq hs
      obtain ⟨spot, u, d, _, h2, _⟩ := deltaStep_ok hs
      obtain ⟨g1, g2, _⟩ := mc_delta id q x q' s'' hq.1 hs
      exact ⟨⟨g1, mc_upAndDown_spots (id := id) (by rfl) (by rfl) hq.2 h2⟩, g2, trivial⟩
  | vegaVolga b =>
    rw [generate] at h
    generalize hr : vegaVolgaLoop (monteCarlo fuel draw) b v ((monteCarlo fuel draw).ids p) p .new .empty = l at h
    obtain ⟨l, p1, s1⟩ := l
    cases l with
    | error e => cases h
    | ok m =>
      cases h
      rw [vega_loop] at hr
      refine (figuresLoop_ok (fun q => SameModel q p ∧ Distinct q.model.context.context.spots) (fun _ _ => True) ?_ _ ⟨.refl p, hd⟩ hr).1.2
      intro id q x q' s'' hq hs
      obtain ⟨u, d, h2, _⟩ := vegaStep_ok hs
      obtain ⟨g1, g2, _⟩ := mc_vega id q x q' s'' hq.1 hs
      exact ⟨⟨g1, mc_upAndDown_spots (id := id) (by rfl) (by rfl) hq.2 h2⟩, g2, trivial⟩
  | timeBumped b subgenerators =>
    rw [generate] at h
    generalize hb : (monteCarlo fuel draw).bumpTime b p = t at h
    obtain ⟨t, clone⟩ := t
    cases t with
    | error e => cases h
    | ok u =>
      dsimp only at h
      cases hp : (monteCarlo fuel draw).price clone with
      | error e => rw [hp] at h; cases h
      | ok tb =>
        rw [hp] at h
        dsimp only at h
        generalize hg : generateAll (monteCarlo fuel draw) subgenerators clone .new tb = l at h
        obtain ⟨l, c', s1⟩ := l
        cases l with
        | error e => cases h
        | ok reports => cases h; exact hd

/-! ## Generators -/

mutual
theorem mc_generate_congr : ∀ (g : Generator) {p q p' : MonteCarlo} {s' : SavedBlackDiffusion} {v : Num ℝ} {r : Report},
    Distinct p.model.context.context.spots → Distinct q.model.context.context.spots → SameModel p q →
    generate (monteCarlo fuel draw) g p .new v = (.ok r, p', s') →
    ∃ q' s'', generate (monteCarlo fuel draw) g q .new v = (.ok r, q', s'')
  | .deltaGamma b, p, q, p', s', v, r, _, _, hq, h => by
    rw [generate] at h
    generalize hr : deltaGammaLoop (monteCarlo fuel draw) b v ((monteCarlo fuel draw).ids p) p .new .empty = l at h
    obtain ⟨l, p1, s1⟩ := l
    cases l with
    | error e => cases h
    | ok m =>
      cases h
      rw [delta_loop] at hr
      obtain ⟨q', s'', k⟩ := figuresLoop_congr (fun x => SameModel x p)
        (fun id q x q' s'' hq hs => ⟨(mc_delta id q x q' s'' hq hs).1, (mc_delta id q x q' s'' hq hs).2.1⟩) mc_delta_congr _ (.refl p) hq.symm hr
      have hids : (monteCarlo fuel draw).ids q = (monteCarlo fuel draw).ids p := by
        show q.model.context.dependencies.instruments.entries.map Prod.fst = _
        rw [← hq.dependencies]
        rfl
      rw [generate, hids, delta_loop, k]
      exact ⟨_, _, rfl⟩
  | .vegaVolga b, p, q, p', s', v, r, _, _, hq, h => by
    rw [generate] at h
    generalize hr : vegaVolgaLoop (monteCarlo fuel draw) b v ((monteCarlo fuel draw).ids p) p .new .empty = l at h
    obtain ⟨l, p1, s1⟩ := l
    cases l with
    | error e => cases h
    | ok m =>
      cases h
      rw [vega_loop] at hr
      obtain ⟨q', s'', k⟩ := figuresLoop_congr (fun x => SameModel x p)
        (fun id q x q' s'' hq hs => ⟨(mc_vega id q x q' s'' hq hs).1, (mc_vega id q x q' s'' hq hs).2.1⟩) mc_vega_congr _ (.refl p) hq.symm hr
      have hids : (monteCarlo fuel draw).ids q = (monteCarlo fuel draw).ids p := by
        show q.model.context.dependencies.instruments.entries.map Prod.fst = _
        rw [← hq.dependencies]
        rfl
      rw [generate, hids, vega_loop, k]
      exact ⟨_, _, rfl⟩
  | .timeBumped b subgenerators, p, q, p', s', v, r, hd, hd', hq, h => by
    rw [generate] at h
    generalize hb : (monteCarlo fuel draw).bumpTime b p = t at h
    obtain ⟨t, clone⟩ := t
    cases t with
    | error e => cases h
    | ok u =>
      dsimp only at h
      cases hp : (monteCarlo fuel draw).price clone with
      | error e => rw [hp] at h; cases h
      | ok tb =>
        rw [hp] at h
        dsimp only at h
        generalize hg : generateAll (monteCarlo fuel draw) subgenerators clone .new tb = l at h
        obtain ⟨l, c', s1⟩ := l
        cases l with
        | error e => cases h
        | ok reports =>
          cases h
          obtain ⟨q1, e1, e2, e3, e4⟩ := mc_bumpTime_congr hq hd hd' hb
          obtain ⟨q2, s2, e5⟩ := mc_generateAll_congr subgenerators e3 e4 e2 hg
          rw [generate]
          have e1' : (monteCarlo fuel draw).bumpTime b q = (.ok (), q1) := e1
          have e6 : (monteCarlo fuel draw).price q1 = .ok tb := (e2.price fuel).symm.trans hp
          rw [e1']
          dsimp only
          rw [e6]
          dsimp only
          rw [e5]
          exact ⟨_, _, rfl⟩

theorem mc_generateAll_congr : ∀ (gs : List Generator) {p q p' : MonteCarlo} {s' : SavedBlackDiffusion} {v : Num ℝ} {rs : List Report},
    Distinct p.model.context.context.spots → Distinct q.model.context.context.spots → SameModel p q →
    generateAll (monteCarlo fuel draw) gs p .new v = (.ok rs, p', s') →
    ∃ q' s'', generateAll (monteCarlo fuel draw) gs q .new v = (.ok rs, q', s'')
  | [], p, q, p', s', v, rs, _, _, _, h => by
    rw [generateAll] at h
    cases h
    rw [generateAll]
    exact ⟨_, _, rfl⟩
  | g :: gs, p, q, p', s', v, rs, hd, hd', hq, h => by
    rw [generateAll] at h
    generalize hg : generate (monteCarlo fuel draw) g p .new v = l at h
    obtain ⟨l, p1, s1⟩ := l
    cases l with
    | error e => cases h
    | ok r =>
      obtain ⟨rfl, a2⟩ := C64_restores g hg
      dsimp only at h
      generalize hg' : generateAll (monteCarlo fuel draw) gs p1 .new v = l at h
      obtain ⟨l, p2, s2⟩ := l
      cases l with
      | error e => cases h
      | ok rs =>
        cases h
        obtain ⟨q1, s1, e1⟩ := mc_generate_congr g hd hd' hq hg
        obtain ⟨rfl, f2⟩ := C64_restores g e1
        obtain ⟨q2, s2, e2⟩ := mc_generateAll_congr gs (mc_generate_spots g hd hg) (mc_generate_spots g hd' e1) (a2.trans (hq.trans f2.symm)) hg'
        rw [generateAll, e1]
        dsimp only
        rw [e2]
        exact ⟨_, _, rfl⟩
end

/-! ## C46 -/

theorem mc_generateAll_each (gs : List Generator) {v : Num ℝ} {rs : List Report} {p : MonteCarlo} : ∀ {q : MonteCarlo}, SameModel p q →
    Distinct p.model.context.context.spots → Distinct q.model.context.context.spots →
    ((generateAll (monteCarlo fuel draw) gs q .new v).1 = .ok rs ↔
      List.Forall₂ (fun g r => (generate (monteCarlo fuel draw) g p .new v).1 = .ok r) gs rs) := by
  induction gs generalizing rs with
  | nil =>
    intro q _ _ _
    rw [generateAll]
    constructor
    · intro h; cases h; exact .nil
    · intro h; cases h; rfl
  | cons g gs ih =>
    intro q hpq hp hq
    rw [generateAll]
    constructor
    · intro h
      generalize hg : generate (monteCarlo fuel draw) g q .new v = a at h
      obtain ⟨a, q1, s1⟩ := a
      cases a with
      | error e => cases h
      | ok r =>
        dsimp only at h
        obtain ⟨rfl, h2⟩ := C64_restores g hg
        have hq1 := mc_generate_spots g hq hg
        generalize hg' : generateAll (monteCarlo fuel draw) gs q1 .new v = a at h
        obtain ⟨a, q2, s2⟩ := a
        cases a with
        | error e => cases h
        | ok rs =>
          cases h
          obtain ⟨p', s'', e⟩ := mc_generate_congr g hq hp hpq.symm hg
          refine .cons (by rw [e]) ?_
          rw [← ih (hpq.trans h2.symm) hp hq1, hg']
    · intro h
      cases h with
      | @cons _ r _ rs h1 h2 =>
        generalize hg : generate (monteCarlo fuel draw) g p .new v = a at h1
        obtain ⟨a, p1, s1⟩ := a
        cases a with
        | error e => cases h1
        | ok r' =>
          cases h1
          obtain ⟨q1, s2, e⟩ := mc_generate_congr g hp hq hpq hg
          obtain ⟨rfl, k2⟩ := C64_restores g e
          have hq1 := mc_generate_spots g hq e
          have h3 := (ih (q := q1) (hpq.trans k2.symm) hp hq1).2 h2
          rw [e]
          dsimp only
          generalize generateAll (monteCarlo fuel draw) gs q1 .new v = a at h3
          obtain ⟨a, q2, s3⟩ := a
          cases h3
          rfl

/-- C46 for Monte-Carlo pricers: a list of reports on one pricer consists of the reports that would be made one at a time. -/
theorem C46_mc_independent {l : List (ℝ × Instrument)} {p : MonteCarlo} (hp : MonteCarlo.new fuel f l md draw = .ok p) (hs : SpotsOnce md)
    {draw' : Draws} {v : Num ℝ} (hv : p.price fuel = .ok v) (gs : List Generator) (rs : List Report) :
    calculate (monteCarlo fuel draw') (.ok p) gs = .ok rs ↔
      List.Forall₂ (fun g r => calculate (monteCarlo fuel draw') (.ok p) [g] = .ok [r]) gs rs := by
  have hs' : Distinct p.model.context.context.spots := by
    obtain ⟨_, _, _, _, e⟩ := mc_new_congr rfl (fun _ => rfl) hp
    rw [e]
    exact hs
  have he : ∀ gs, calculate (monteCarlo fuel draw') (.ok p) gs = (generateAll (monteCarlo fuel draw') gs p .new v).1 := by
    intro gs
    unfold calculate
    rw [ok_bind]
    show (Bind.bind (p.price fuel) _) = _
    rw [hv, ok_bind]
    rfl
  simp only [he]
  rw [mc_generateAll_each gs (.refl p) hs' hs']
  constructor <;>
  · intro h
    refine h.imp ?_
    intro g r h
    first
    | rw [mc_generateAll_each [g] (.refl p) hs' hs']
      exact .cons h .nil
    | rw [mc_generateAll_each [g] (.refl p) hs' hs'] at h
      exact (List.forall₂_cons.1 h).1

/-- C46 for Monte-Carlo pricers: the order of the reports does not matter. -/
theorem C46_mc_order {l : List (ℝ × Instrument)} {p : MonteCarlo} (hp : MonteCarlo.new fuel f l md draw = .ok p) (hs : SpotsOnce md)
    {draw' : Draws} {v : Num ℝ} (hv : p.price fuel = .ok v) {gs gs' : List Generator} {rs : List Report} (hperm : gs.Perm gs')
    (h : calculate (monteCarlo fuel draw') (.ok p) gs = .ok rs) :
    ∃ rs', calculate (monteCarlo fuel draw') (.ok p) gs' = .ok rs' ∧ (gs.zip rs).Perm (gs'.zip rs') := by
  rw [C46_mc_independent hp hs hv] at h
  obtain ⟨rs', h1, h2⟩ := forall₂_perm hperm h
  exact ⟨rs', (C46_mc_independent hp hs hv gs' rs').2 h1, h2⟩

/-- C46: the pricer of two options in the sample market has a price, and the market enters each spot once. -/
example (hh : f.pathSubstep ≠ 0) (hn : f.nPaths ≠ 0) : SpotsOnce (sampleMarket 100 (.zero 0)) ∧
    ∃ p v, MonteCarlo.new fuel f [(2, optionA 90)] (sampleMarket 100 (.zero 0)) draw = .ok p ∧ p.price fuel = .ok v := by
  obtain ⟨p, hp, h⟩ := held_new (fuel := fuel) hh hn draw
  obtain ⟨x, hx⟩ := h.priced
  refine ⟨?_, p, _, hp, hx⟩
  show (List.map Prod.fst [("A", (100 : ℝ))]).Nodup
  simp

end QM.MonteCarlo
