import Verif.MonteCarlo.Props
import Verif.Risk.ReportProps

/-!
# Properties C64 and C65: risk reports of Monte-Carlo pricers
-/

namespace QM.MonteCarlo
open QM.Interp QM.Vol QM.Instruments QM.Market QM.Market.Spec QM.Risk QM.Fixings Spec

variable {fuel : Nat} {f : ModelFactory} {md : MarketData} {draw : Draws}

namespace Spec

/-- Two Monte-Carlo pricers hold the same instruments and the same simulated paths, and give the same answers to everything
that can be asked of their market data. -/
structure SameModel (p q : MonteCarlo) : Prop where
  factory : p.factory = q.factory
  instruments : p.instruments = q.instruments
  observations : p.model.observations = q.model.observations
  flows : p.model.flows = q.model.flows
  key : p.model.key = q.model.key
  assets : p.model.instruments = q.model.instruments
  substepping : p.model.substepping = q.model.substepping
  gaussians : p.model.gaussians = q.model.gaussians
  paths : p.model.paths = q.model.paths
  nPaths : p.model.nPaths = q.model.nPaths
  dependencies : p.model.context.dependencies = q.model.context.dependencies
  spotDate : p.model.context.context.spotDate = q.model.context.context.spotDate
  answers : ∀ x, answers p.model.context x = answers q.model.context x

end Spec

theorem Spec.SameModel.refl (p : MonteCarlo) : SameModel p p := ⟨rfl, rfl, rfl, rfl, rfl, rfl, rfl, rfl, rfl, rfl, rfl, rfl, fun _ => rfl⟩

theorem Spec.SameModel.trans {p q r : MonteCarlo} (h : SameModel p q) (h' : SameModel q r) : SameModel p r :=
  ⟨h.1.trans h'.1, h.2.trans h'.2, h.3.trans h'.3, h.4.trans h'.4, h.5.trans h'.5, h.6.trans h'.6, h.7.trans h'.7, h.8.trans h'.8, h.9.trans h'.9,
    h.10.trans h'.10, h.11.trans h'.11, h.12.trans h'.12, fun x => (h.13 x).trans (h'.13 x)⟩

theorem mcPrice_congr {p q : MonteCarlo} (h : SameModel p q) (fuel : Nat) (i : Instrument) : mcPrice fuel p.model i = mcPrice fuel q.model i := by
  have hc : p.model.context.pricingContext = q.model.context.pricingContext := pricing_congr h.answers h.spotDate
  have h1 : ∀ u, p.model.pathsOf u = q.model.pathsOf u := by
    intro u
    unfold BlackDiffusion.pathsOf
    rw [h.key, h.paths]
  have h2 : ∀ l, p.model.evaluateFlows fuel l = q.model.evaluateFlows fuel l := by
    intro l
    unfold BlackDiffusion.evaluateFlows
    rw [h.nPaths, h.flows, hc]
  cases i <;> simp only [mcPrice, h1, h2, h.observations]

theorem Spec.SameModel.price {p q : MonteCarlo} (h : SameModel p q) (fuel : Nat) : p.price fuel = q.price fuel := by
  unfold MonteCarlo.price
  rw [h.instruments]
  generalize q.instruments = l
  generalize (Num.val 0 : Num ℝ) = t
  induction l generalizing t with
  | nil => rfl
  | cons e l ih =>
    obtain ⟨a, i⟩ := e
    rw [mcLoop, mcLoop, mcPrice_congr h]
    simp only [ih]

/-! ## One up and one down bump -/

/-- The underlying of a bump of spots or vols. -/
def idOf : Bump → Option String
  | .spot id _ => some id
  | .vol id _ => some id
  | _ => none

theorem idOf_simple {b : Bump} {id : String} (h : idOf b = some id) : Simple b := by
  cases b <;> first | trivial | cases h

/-- The loop of one underlying. -/
theorem refetch_ok {m m' : BlackDiffusion} {id : String} {bumped changed : Bool} {save save' : Option SavedBlackDiffusion}
    (h : m.refetch fuel id bumped save = (.ok changed, m', save')) : changed = bumped ∧
      (bumped = false → m' = m ∧ save' = save) ∧
      (bumped = true → ∃ asset path, m' = { m with paths := m.paths.set asset path } ∧ m.key.get id = some asset ∧
        (∃ i, m.instruments[asset]? = some i ∧
          fetchPath fuel i m.context.pricingContext m.observations (m.gaussians.getD asset []) m.substepping = .ok path) ∧
        save' = save.map fun s => { s with paths := s.paths.insert asset (m.paths.getD asset []) }) := by
  unfold BlackDiffusion.refetch at h
  cases bumped with
  | false =>
    cases h
    exact ⟨rfl, fun _ => ⟨rfl, rfl⟩, fun e => by cases e⟩
  | true =>
    rw [if_neg (by simp)] at h
    cases hk : m.key.get id with
    | none => rw [hk] at h; cases h
    | some asset =>
      rw [hk] at h
      dsimp only at h
      cases hi : m.instruments[asset]? with
      | none => rw [hi] at h; cases h
      | some i =>
        rw [hi] at h
        dsimp only at h
        cases hf : fetchPath fuel i m.context.pricingContext m.observations (m.gaussians.getD asset []) m.substepping with
        | error e => rw [hf] at h; cases h
        | ok path =>
          rw [hf] at h
          cases h
          exact ⟨rfl, fun e => (by cases e), fun _ => ⟨asset, path, rfl, rfl, ⟨i, hi, hf⟩, rfl⟩⟩

/-- What a bump of spots or vols that succeeds does to the model. -/
theorem mc_bump {b : Bump} {id : String} (hid : idOf b = some id) {p p' : MonteCarlo} {save save' : Option SavedBlackDiffusion} {changed : Bool}
    (h : MonteCarlo.bump fuel b p save = (.ok changed, p', save')) :
    ∃ c ps, p.model.context.bump b (save.map SavedBlackDiffusion.savedData) = (.ok changed, c, ps) ∧
      (changed = false → p' = { p with model := { p.model with context := c } } ∧ save' = save.map fun s => { s with savedData := ps.getD s.savedData }) ∧
      (changed = true → ∃ asset path, p' = { p with model := { p.model with context := c, paths := p.model.paths.set asset path } } ∧
        p.model.key.get id = some asset ∧
        (∃ i, p.model.instruments[asset]? = some i ∧
          fetchPath fuel i c.pricingContext p.model.observations (p.model.gaussians.getD asset []) p.model.substepping = .ok path) ∧
        save' = save.map fun s => ⟨ps.getD s.savedData, s.paths.insert asset (p.model.paths.getD asset [])⟩) := by
  unfold MonteCarlo.bump BlackDiffusion.bump at h
  generalize hb : p.model.context.bump b (save.map SavedBlackDiffusion.savedData) = r at h
  obtain ⟨r, c, ps⟩ := r
  dsimp only at h
  cases r with
  | error e => cases h
  | ok bumped =>
    have key : ∀ x : Outcome Bool × BlackDiffusion × Option SavedBlackDiffusion,
        BlackDiffusion.refetch fuel { p.model with context := c } id bumped (save.map fun s => { s with savedData := ps.getD s.savedData }) = x →
        (x.1, ({ p with model := x.2.1 } : MonteCarlo), x.2.2) = (.ok changed, p', save') →
        ∃ c' ps', (Except.ok bumped, c, ps) = (Except.ok (ε := Fault) changed, c', ps') ∧
          (changed = false → p' = { p with model := { p.model with context := c' } } ∧ save' = save.map fun s => { s with savedData := ps'.getD s.savedData }) ∧
          (changed = true → ∃ asset path, p' = { p with model := { p.model with context := c', paths := p.model.paths.set asset path } } ∧
            p.model.key.get id = some asset ∧
            (∃ i, p.model.instruments[asset]? = some i ∧
              fetchPath fuel i c'.pricingContext p.model.observations (p.model.gaussians.getD asset []) p.model.substepping = .ok path) ∧
            save' = save.map fun s => ⟨ps'.getD s.savedData, s.paths.insert asset (p.model.paths.getD asset [])⟩) := by
      intro x hx he
      obtain ⟨x, m', s'⟩ := x
      cases he
      obtain ⟨e, h1, h2⟩ := refetch_ok hx
      subst e
      refine ⟨c, ps, rfl, fun e => ?_, fun e => ?_⟩
      · obtain ⟨h3, h4⟩ := h1 e
        rw [h3, h4]
        exact ⟨rfl, rfl⟩
      · obtain ⟨asset, path, h3, h4, h5, h6⟩ := h2 e
        refine ⟨asset, path, by rw [h3], h4, h5, ?_⟩
        rw [h6, Option.map_map]
        rfl
    cases b <;> cases hid <;> exact key _ rfl h

/-- Up with the save area, down without: the context answers as before once it is restored. -/
theorem context_same {up down : Bump} (hs : Simple up) (ht : target up = target down) {c c1 c2 : Prefetch} {s1 s2 : Option SavedPrefetch}
    {x1 x2 : Bool} (e1 : c.bump up (some .new) = (.ok x1, c1, s1)) (e2 : c1.bump down none = (.ok x2, c2, s2)) : Alike (c2.restore (s1.getD .new)) c := by
  obtain ⟨a1, a2, a3⟩ := C34_prefetch_partial c [(up, true), (down, false)]
    ⟨hs.target, hs.nodup _, by simp, ht ▸ hs.target, ⟨up, by simp, ht⟩, trivial⟩
  have e : runBumps (c, .new) [(up, true), (down, false)] = (c2, s1.getD .new) := by
    simp only [runBumps, if_true, Bool.false_eq_true, if_false, e1, e2]
    obtain ⟨saved, q, s'', xs, g, _⟩ := bump_steps c1 (b := down) (ht ▸ hs.target) false .new
    rw [show area false .new = none from rfl, e2] at g
    cases g
    rfl
  rw [e] at a1 a2 a3
  exact ⟨a3, a2, a1⟩

/-- If the up bump changes nothing then neither does the down bump. -/
theorem nothing_changed {up down : Bump} (hs : Simple up) (ht : target up = target down) {c c1 c2 : Prefetch} {s s1 s2 : Option SavedPrefetch}
    {x2 : Bool} (e1 : c.bump up s = (.ok false, c1, s1)) (e2 : c1.bump down none = (.ok x2, c2, s2)) : x2 = false := by
  obtain ⟨x, hx⟩ := target_some hs.target
  obtain ⟨_, h1, h2⟩ := bump_effect hx e1
  cases ha : answers c x with
  | some v => exact absurd (h2 v ha).1 (by simp)
  | none =>
    obtain ⟨_, rfl⟩ := h1 ha
    obtain ⟨_, h3, _⟩ := bump_effect (ht ▸ hx) e2
    exact (h3 ha).1

theorem restore_one (asset : Nat) (x : List (List (Num ℝ))) (paths : List (List (List (Num ℝ)))) :
    restorePaths (Map.empty.insert asset x) paths = paths.set asset x := rfl

theorem set_self (paths : List (List (List (Num ℝ)))) (asset : Nat) : paths.set asset (paths.getD asset []) = paths := by
  apply List.ext_getElem?
  intro n
  rw [List.getElem?_set]
  split
  · rename_i h
    subst h
    split
    · rename_i h
      simp [List.getD_eq_getElem?_getD, h]
    · rename_i h
      rw [List.getElem?_eq_none (by omega)]
  · rfl

/-- After an up and a down bump of the same thing the pricer is as before and the save area is empty. -/
theorem mc_upAndDown {up down : Bump} {id : String} (hu : idOf up = some id) (hd : idOf down = some id) (ht : target up = target down)
    {p p' : MonteCarlo} {s' : SavedBlackDiffusion} {v u d : Num ℝ}
    (h : upAndDown (monteCarlo fuel draw) up down p .new v = (.ok (u, d), p', s')) : s' = .new ∧ SameModel p' p := by
  obtain ⟨p1, s1, p2, s2, h1, h2, rfl, rfl⟩ := upAndDown_ok h
  obtain ⟨x1, b1, _⟩ := bumpedPrice_ok h1
  obtain ⟨x2, b2, _⟩ := bumpedPrice_ok h2
  refine ⟨rfl, ?_⟩
  obtain ⟨c1, ps1, e1, f1, t1⟩ := mc_bump hu b1
  obtain ⟨c2, ps2, e2, f2, t2⟩ := mc_bump hd b2
  have hs := idOf_simple hu
  have e1' : p.model.context.bump up (some .new) = (.ok x1, c1, ps1) := e1
  have e2' : p1.model.context.bump down none = (.ok x2, c2, ps2) := e2
  have hp1 : p1.model.context = c1 := by
    cases x1
    · rw [(f1 rfl).1]
    · obtain ⟨_, _, e, _⟩ := t1 rfl
      rw [e]
  rw [hp1] at e2'
  have ha := context_same hs ht e1' e2'
  cases x1 with
  | false =>
    have := nothing_changed hs ht e1' e2'
    subst this
    obtain ⟨rfl, rfl⟩ := f1 rfl
    obtain ⟨rfl, _⟩ := f2 rfl
    exact ⟨rfl, rfl, rfl, rfl, rfl, rfl, rfl, rfl, rfl, rfl, ha.dependencies, ha.spotDate, ha.answers⟩
  | true =>
    obtain ⟨asset, path, rfl, k1, _, rfl⟩ := t1 rfl
    cases x2 with
    | false =>
      obtain ⟨rfl, _⟩ := f2 rfl
      refine ⟨rfl, rfl, rfl, rfl, rfl, rfl, rfl, rfl, ?_, rfl, ha.dependencies, ha.spotDate, ha.answers⟩
      show restorePaths (Map.empty.insert asset _) (p.model.paths.set asset path) = _
      rw [restore_one, List.set_set, set_self]
    | true =>
      obtain ⟨asset', path', rfl, k2, _, _⟩ := t2 rfl
      have : asset' = asset := by
        have := k1.symm.trans k2
        cases this
        rfl
      subst this
      refine ⟨rfl, rfl, rfl, rfl, rfl, rfl, rfl, rfl, ?_, rfl, ha.dependencies, ha.spotDate, ha.answers⟩
      show restorePaths (Map.empty.insert asset' _) ((p.model.paths.set asset' path).set asset' path') = _
      rw [restore_one, List.set_set, List.set_set, set_self]

theorem mc_delta {b : ℝ} {v : Num ℝ} {p0 : MonteCarlo} (id : String) (p : MonteCarlo) (x : Num ℝ × Num ℝ) (p' : MonteCarlo)
    (s' : SavedBlackDiffusion) (hp : SameModel p p0) (h : deltaStep (monteCarlo fuel draw) b v id p .new = (.ok x, p', s')) :
    SameModel p' p0 ∧ s' = .new ∧ True := by
  obtain ⟨spot, u, d, _, h2, _⟩ := deltaStep_ok h
  obtain ⟨g1, g2⟩ := mc_upAndDown (id := id) (by rfl) (by rfl) (by rfl) h2
  exact ⟨g2.trans hp, g1, trivial⟩

theorem mc_vega {b : BumpVol} {v : Num ℝ} {p0 : MonteCarlo} (id : String) (p : MonteCarlo) (x : Num ℝ × Num ℝ) (p' : MonteCarlo)
    (s' : SavedBlackDiffusion) (hp : SameModel p p0) (h : vegaStep (monteCarlo fuel draw) b v id p .new = (.ok x, p', s')) :
    SameModel p' p0 ∧ s' = .new ∧ True := by
  obtain ⟨u, d, h2, _⟩ := vegaStep_ok h
  obtain ⟨g1, g2⟩ := mc_upAndDown (id := id) (by rfl) (by rfl) (by rfl) h2
  exact ⟨g2.trans hp, g1, trivial⟩

/-! ## C64 -/

mutual
/-- C64: a report that succeeds leaves a Monte-Carlo pricer with the paths and the market data it found, and an empty save
area. -/
theorem C64_restores : ∀ (g : Generator) {p p' : MonteCarlo} {s' : SavedBlackDiffusion} {v : Num ℝ} {r : Report},
    generate (monteCarlo fuel draw) g p .new v = (.ok r, p', s') → s' = .new ∧ SameModel p' p
  | .deltaGamma b, p, p', s', v, r, h => by
    rw [generate] at h
    generalize hr : deltaGammaLoop (monteCarlo fuel draw) b v ((monteCarlo fuel draw).ids p) p .new .empty = l at h
    obtain ⟨l, p1, s1⟩ := l
    cases l with
    | error e => cases h
    | ok m =>
      cases h
      rw [delta_loop] at hr
      obtain ⟨g1, g2, _⟩ := figuresLoop_ok (fun q => SameModel q p) (fun _ _ => True) (fun id q x q' s'' => mc_delta id q x q' s'') _ (.refl p) hr
      exact ⟨g2, g1⟩
  | .vegaVolga b, p, p', s', v, r, h => by
    rw [generate] at h
    generalize hr : vegaVolgaLoop (monteCarlo fuel draw) b v ((monteCarlo fuel draw).ids p) p .new .empty = l at h
    obtain ⟨l, p1, s1⟩ := l
    cases l with
    | error e => cases h
    | ok m =>
      cases h
      rw [vega_loop] at hr
      obtain ⟨g1, g2, _⟩ := figuresLoop_ok (fun q => SameModel q p) (fun _ _ => True) (fun id q x q' s'' => mc_vega id q x q' s'') _ (.refl p) hr
      exact ⟨g2, g1⟩
  | .timeBumped b subgenerators, p, p', s', v, r, h => by
    rw [generate] at h
    generalize hb : (monteCarlo fuel draw).bumpTime b p = t at h
    obtain ⟨t, clone⟩ := t
    cases t with
    | error e => cases h
    | ok u =>
      dsimp only at h
      cases hp : (monteCarlo fuel draw).price clone with
      | error e => rw [hp] at h; cases h
      | ok tb =>
        rw [hp] at h
        dsimp only at h
        generalize hg : generateAll (monteCarlo fuel draw) subgenerators clone .new tb = l at h
        obtain ⟨l, c', s1⟩ := l
        cases l with
        | error e => cases h
        | ok reports =>
          cases h
          exact ⟨(C64_restores_all subgenerators hg).1, .refl p⟩

/-- C64: and so do several reports. -/
theorem C64_restores_all : ∀ (gs : List Generator) {p p' : MonteCarlo} {s' : SavedBlackDiffusion} {v : Num ℝ} {rs : List Report},
    generateAll (monteCarlo fuel draw) gs p .new v = (.ok rs, p', s') → s' = .new ∧ SameModel p' p
  | [], p, p', s', v, rs, h => by
    rw [generateAll] at h
    cases h
    exact ⟨rfl, .refl p⟩
  | g :: gs, p, p', s', v, rs, h => by
    rw [generateAll] at h
    generalize hg : generate (monteCarlo fuel draw) g p .new v = l at h
    obtain ⟨l, p1, s1⟩ := l
    cases l with
    | error e => cases h
    | ok r =>
      dsimp only at h
      obtain ⟨rfl, h2⟩ := C64_restores g hg
      generalize hr : generateAll (monteCarlo fuel draw) gs p1 .new v = l at h
      obtain ⟨l, p2, s2⟩ := l
      cases l with
      | error e => cases h
      | ok rs =>
        cases h
        obtain ⟨h3, h4⟩ := C64_restores_all gs hr
        exact ⟨h3, h4.trans h2⟩
end

/-- C64: in particular the price is as before. -/
theorem C64_price {g : Generator} {p p' : MonteCarlo} {s' : SavedBlackDiffusion} {v : Num ℝ} {r : Report}
    (h : generate (monteCarlo fuel draw) g p .new v = (.ok r, p', s')) : p'.price fuel = p.price fuel :=
  (C64_restores g h).2.price fuel

/-- C64: bumped paths use the draws of the unbumped ones. After a bump of the spot or the vol of the asset, its paths are those
that the bumped market specifies, along the old draws, with the number of steps the unbumped market asked for. -/
theorem C64_common_draws {l : List (ℝ × Instrument)} {p p' : MonteCarlo} {save save' : Option SavedBlackDiffusion} {b : Bump} {u : Instrument}
    {F w δ F' w' δ' : Nat → ℝ} (hp : MonteCarlo.new fuel f l md draw = .ok p) (hu : p.model.instruments = [u]) (hb : idOf b = some u.id)
    (hm : Spec.Market fuel p.model.context.pricingContext u p.model.observations F w δ)
    (h : MonteCarlo.bump fuel b p save = (.ok true, p', save'))
    (hm' : Spec.Market fuel p'.model.context.pricingContext u p.model.observations F' w' δ') :
    p'.model.pathsOf u = .ok ((List.range f.nPaths).map fun path => (List.range p.model.observations.length).map fun i =>
      Num.val (pathValue F' w' δ' (steps f.pathSubstep w) (fun k => draw path k 0) i)) := by
  obtain ⟨t, context, ht, hc, hbm, _, _⟩ := new_ok hp
  obtain ⟨k, u', obs, ks, paths, he, hs, hpath, hn, hmod⟩ := model_new_ok hbm
  obtain ⟨c, ps, hc', _, htrue⟩ := mc_bump hb h
  obtain ⟨asset, path, rfl, hk, ⟨i, hi, hf⟩, _⟩ := htrue rfl
  dsimp only at hm'
  rw [hmod] at hu hm hm' hk hi hf ⊢
  cases hu
  dsimp only at hm hm' hk hi hf ⊢
  have ha : asset = 0 := by
    have : Map.get ⟨[(u.id, 0)]⟩ u.id = some asset := hk
    simp [Map.get] at this
    exact this.symm
  subst ha
  cases hi
  have := rows_paths (n := steps f.pathSubstep w) (fun i => by unfold steps; omega) hm' (substepping_val hm hs) hf
  rw [this]
  unfold BlackDiffusion.pathsOf
  simp [Map.get]

/-- C64: so the price after a bump is an average along the same draws. -/
theorem C64_bumped_price {a K D : ℝ} {v : Vanilla} {u : Instrument} {p p' : MonteCarlo} {save save' : Option SavedBlackDiffusion} {b : Bump}
    {F w δ F' w' δ' : Nat → ℝ} (hp : MonteCarlo.new fuel f [(a, .spotStarting v u K)] md draw = .ok p) (hb : idOf b = some u.id)
    (hm : Spec.Market fuel p.model.context.pricingContext u [v.expiryTime] F w δ)
    (h : MonteCarlo.bump fuel b p save = (.ok true, p', save'))
    (hm' : Spec.Market fuel p'.model.context.pricingContext u [v.expiryTime] F' w' δ')
    (hD : (expiryFlow v).price fuel p'.model.context.pricingContext ⟨p'.model.context.context.spotDate, .open⟩ = .ok (.val D)) :
    p'.price fuel = .ok (.val (a * (average f.nPaths (fun path =>
      payoff v.putOrCall (pathValue F' w' δ' (steps f.pathSubstep w) (fun k => draw path k 0) 0) K) * D))) := by
  obtain ⟨t, context, ht, hc, hbm, hf, hi⟩ := new_ok hp
  rw [timeline_spot] at ht
  cases ht
  obtain ⟨k, u', obs, ks, paths, he, hs, hpath, hn, hmod⟩ := model_new_ok hbm
  cases he
  have hcd := C64_common_draws hp (by rw [hmod]) hb (by rw [hmod] at hm ⊢; exact hm) h (by rw [hmod]; exact hm')
  obtain ⟨c, ps, hc', _, htrue⟩ := mc_bump hb h
  obtain ⟨asset, path, rfl, _⟩ := htrue rfl
  have e : f.nPaths = p.model.nPaths := by rw [hmod]
  rw [e]
  refine spot_price hi ?_ (by rw [hmod]) (by rw [hmod]) (by rw [← e]; exact hn) hD
  rw [hcd, e, show p.model.observations = [v.expiryTime] by rw [hmod]]
  rfl

/-! ### A case -/

/-- The sample market with the forward and vol surface of one option. -/
noncomputable def heldContext (S : ℝ) (fw : Fwd) : Prefetch :=
  ⟨sampleMarket S (.zero 0), collect 0 [(2, optionA 90)], ⟨[("A", fw)]⟩, ⟨[("A", .flat (.val 0.2) .everyDay (0, 0))]⟩⟩

theorem held_refetch {p : Prefetch} {fwd f : Fwd} (hi : p.dependencies.instruments.get "A" = some equityA)
    (hd : p.dependencies.forwardCurves.get "A" = some (equityA, 10)) (hf : p.forwardCurves.get "A" = some fwd)
    (hc : p.context.forwardCurve equityA 10 = .ok f) (s : Option SavedPrefetch) :
    p.refetch "A" true false s = (.ok true, { p with forwardCurves := p.forwardCurves.insert "A" f },
      s.map fun s => { s with forwardCurves := s.forwardCurves.insert "A" fwd }) := by
  unfold Prefetch.refetch
  rw [if_neg (by simp), hf, hi]
  dsimp only
  rw [if_pos rfl]
  unfold Prefetch.refetchForward
  rw [show equityA.id = "A" from rfl, hd]
  dsimp only
  rw [hc]
  rfl

theorem held_bump (S : ℝ) (fw : Fwd) (b : BumpSpot) (save : Option SavedPrefetch) :
    ∃ fw' ps, (heldContext S fw).bump (.spot "A" b) save = (.ok true, heldContext (b.apply S) fw', ps) ∧ fw'.forward 10 = .ok (.val (b.apply S)) := by
  obtain ⟨fw', hf, hf'⟩ := sample_forward_flat (b.apply S) 10
  cases save with
  | none =>
    exact ⟨fw', _, held_refetch (p := ⟨sampleMarket (b.apply S) (.zero 0), collect 0 [(2, optionA 90)], ⟨[("A", fw)]⟩,
      ⟨[("A", .flat (.val 0.2) .everyDay (0, 0))]⟩⟩) rfl rfl rfl hf none, hf' 10 le_rfl⟩
  | some s =>
    exact ⟨fw', _, held_refetch (p := ⟨sampleMarket (b.apply S) (.zero 0), collect 0 [(2, optionA 90)], ⟨[("A", fw)]⟩,
      ⟨[("A", .flat (.val 0.2) .everyDay (0, 0))]⟩⟩) rfl rfl rfl hf (some { s with savedData := { s.savedData with spots := s.savedData.spots.insert "A" S } }),
      hf' 10 le_rfl⟩

/-- A pricer that holds two options and has been bumped any number of times. -/
structure Held (fuel : Nat) (f : ModelFactory) (S : ℝ) (p : MonteCarlo) : Prop where
  shape : ∃ fw paths draw, fw.forward 10 = .ok (.val S) ∧ f.nPaths ≠ 0 ∧ p = ⟨f, [(2, optionA 90)], ⟨[(10, 0)], [expiryFlow sampleTerms], heldContext S fw,
    ⟨[("A", 0)]⟩, [equityA], [steps f.pathSubstep (fun _ => 2 / 73 * 0.2 ^ 2) 0],
    [rows f.nPaths (steps f.pathSubstep (fun _ => 2 / 73 * 0.2 ^ 2) 0) draw], [paths], f.nPaths⟩⟩
  priced : ∃ x, p.price fuel = .ok (.val x)

theorem held_new (hh : f.pathSubstep ≠ 0) (hn : f.nPaths ≠ 0) (draw : Draws) :
    ∃ p, MonteCarlo.new fuel f [(2, optionA 90)] (sampleMarket 100 (.zero 0)) draw = .ok p ∧ Held fuel f 100 p := by
  obtain ⟨p, fw, hp, hf, hc, _⟩ := sample_pricer (fuel := fuel) (f := f) [(2, optionA 90)] (timeline_spot 2 90 sampleTerms equityA) rfl (by simp [sampleTerms]) (by simp) rfl rfl
    hh hn draw
  have hm : Spec.Market fuel p.model.context.pricingContext equityA [(10, 0)] (fun _ => 100) (fun _ => 2 / 73 * 0.2 ^ 2) (fun _ => 0) := by
    rw [hc]; exact sample_market _ _ hf (by simp) (by simp)
  obtain ⟨t, context, ht, hc', hb, hfac, hi⟩ := new_ok hp
  obtain ⟨k, u', obs, ks, paths, he, hs, hpath, _, hmod⟩ := model_new_ok hb
  cases ht
  cases he
  have hx : p.model.context = context := by rw [hmod]
  have hks := substepping_val (hx ▸ hm) hs
  refine ⟨p, hp, ⟨fw, paths, draw, hf, hn, ?_⟩, ⟨_, C52_spot_partial hp hm (by rw [hc]; exact sample_discount)⟩⟩
  obtain ⟨pf, pi, pm⟩ := p
  dsimp only at hfac hi hmod hc hx
  subst hfac hi
  rw [hmod, hks, ← hx, hc]
  rfl

theorem held_next {S : ℝ} {p : MonteCarlo} (h : Held fuel f S p) (b : BumpSpot) (save : Option SavedBlackDiffusion) :
    ∃ p' save', MonteCarlo.bump fuel (.spot "A" b) p save = (.ok true, p', save') ∧ Held fuel f (b.apply S) p' := by
  obtain ⟨⟨fw, paths, draw, hf, hn, rfl⟩, _⟩ := h
  obtain ⟨fw', ps, h1, h2⟩ := held_bump S fw b (save.map SavedBlackDiffusion.savedData)
  have hm : Spec.Market fuel (heldContext (b.apply S) fw').pricingContext equityA [(10, 0)] (fun _ => b.apply S) (fun _ => 2 / 73 * 0.2 ^ 2) (fun _ => 0) :=
    sample_market _ _ h2 (by simp) (by simp)
  have hone : ∀ i, (fun i => steps f.pathSubstep (fun _ => 2 / 73 * 0.2 ^ 2) i) i ≠ 0 := fun i => by
    show steps _ _ i ≠ 0
    unfold steps
    omega
  obtain ⟨paths', hp'⟩ := rows_fetch (n := fun i => steps f.pathSubstep (fun _ => 2 / 73 * 0.2 ^ 2) i) hone hm (by
    intro i hi
    have : i = 0 := by simpa using hi
    subst this
    simp only [Spec.before]
    norm_num) (ks := [steps f.pathSubstep (fun _ => 2 / 73 * 0.2 ^ 2) 0]) rfl f.nPaths draw
  have hval := rows_paths hone hm (ks := [steps f.pathSubstep (fun _ => 2 / 73 * 0.2 ^ 2) 0]) rfl hp'
  rw [List.sum_singleton] at hp'
  refine ⟨_, save.map fun s => ⟨ps.getD s.savedData, s.paths.insert 0 paths⟩, ?_, ⟨fw', paths', draw, h2, hn, rfl⟩, ?_⟩
  · unfold MonteCarlo.bump BlackDiffusion.bump
    dsimp only
    rw [h1]
    dsimp only
    unfold BlackDiffusion.refetch
    rw [if_neg (by simp)]
    rw [show Map.get ⟨[("A", 0)]⟩ "A" = some 0 from rfl]
    dsimp only
    rw [show ([equityA] : List Instrument)[0]? = some equityA from rfl]
    dsimp only
    rw [show ([rows f.nPaths (steps f.pathSubstep (fun _ => 2 / 73 * 0.2 ^ 2) 0) draw] : List (List (List ℝ))).getD 0 [] =
      rows f.nPaths (steps f.pathSubstep (fun _ => 2 / 73 * 0.2 ^ 2) 0) draw from rfl, hp']
    cases save <;> rfl
  · refine ⟨_, spot_price (u := equityA) (v := sampleTerms) (K := 90) (a := 2) (D := 1) (x := fun path => pathValue (fun _ => b.apply S)
      (fun _ => 2 / 73 * 0.2 ^ 2) (fun _ => 0) (fun i => steps f.pathSubstep (fun _ => 2 / 73 * 0.2 ^ 2) i) (fun k => draw path k 0) 0) rfl ?_ rfl rfl hn
      sample_discount⟩
    show Except.ok paths' = _
    rw [hval]
    rfl

/-- C64: a delta report on two options in the sample market succeeds. -/
example (hh : f.pathSubstep ≠ 0) (hn : f.nPaths ≠ 0) (v : Num ℝ) :
    ∃ p r p' s', MonteCarlo.new fuel f [(2, optionA 90)] (sampleMarket 100 (.zero 0)) draw = .ok p ∧
      generate (monteCarlo fuel draw) (.deltaGamma 0.01) p .new v = (.ok r, p', s') := by
  obtain ⟨p, hp, h⟩ := held_new (fuel := fuel) hh hn draw
  obtain ⟨p1, s1, e1, h1⟩ := held_next h (.relative 0.01) (some .new)
  obtain ⟨p2, s2, e2, h2⟩ := held_next h1 (.relative ((1 - 0.01) / (1 + 0.01) - 1)) none
  obtain ⟨u, hu⟩ := h1.priced
  obtain ⟨d, hd⟩ := h2.priced
  have b1 : bumpedPrice (monteCarlo fuel draw) (.spot "A" (.relative 0.01)) p (some .new) v = (.ok (.val u), p1, s1) :=
    bumpedPrice_of e1 (fun _ => hu) (fun e => by cases e)
  have b2 : bumpedPrice (monteCarlo fuel draw) (.spot "A" (.relative ((1 - 0.01) / (1 + 0.01) - 1))) p1 none v = (.ok (.val d), p2, s2) :=
    bumpedPrice_of e2 (fun _ => hd) (fun e => by cases e)
  have hids : (monteCarlo fuel draw).ids p = ["A"] := by
    obtain ⟨⟨fw, paths, dr, _, _, rfl⟩, _⟩ := h
    rfl
  have hsp : (monteCarlo fuel draw).spot p "A" = .ok 100 := by
    obtain ⟨⟨fw, paths, dr, _, _, rfl⟩, _⟩ := h
    rfl
  have hud : ∃ p' s', upAndDown (monteCarlo fuel draw) (.spot "A" (.relative 0.01)) (.spot "A" (.relative ((1 - 0.01) / (1 + 0.01) - 1))) p .new v =
      (.ok (.val u, .val d), p', s') := by
    unfold upAndDown
    rw [b1]
    dsimp only
    rw [b2]
    exact ⟨_, _, rfl⟩
  obtain ⟨p', s', hud⟩ := hud
  refine ⟨p, .deltaGamma (.val 0.01) (Map.empty.insert "A" (first (.val u) (.val d) (.val (0.01 * 100)),
    second (.val u) (.val d) v (.val (0.01 * 100)))), p', s', hp, ?_⟩
  rw [generate, hids, deltaGammaLoop, hsp]
  dsimp only
  rw [hud]
  rfl

end QM.MonteCarlo
