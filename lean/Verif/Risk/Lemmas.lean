import Verif.Risk.Spec
import Verif.Market.AlikeLemmas
import Verif.Market.Props

/-!
# Lemmas about pricers and reports
-/

namespace QM.Risk
open QM.Interp QM.Vol QM.Instruments QM.Instruments.Spec QM.Market QM.Market.Spec QM.Risk.Spec

/-! ## Bumps that succeed -/

theorem put_spots {md : MarketData} (hd : Distinct md.spots) (x : Slot) (v : x.Val) : Distinct (md.put x v).spots := by
  cases x
  case spot id => exact distinct_insert hd _ _
  all_goals exact hd

theorem bump_effect {p p' : Prefetch} {b : Bump} {x : Slot} {save save' : Option SavedPrefetch} {changed : Bool} (ht : target b = some x)
    (h : p.bump b save = (.ok changed, p', save')) :
    p'.dependencies = p.dependencies ∧ (answers p x = none → changed = false ∧ p' = p) ∧
      ∀ v, answers p x = some v → changed = true ∧ p'.context = p.context.put x (bumped b x v) := by
  obtain ⟨saved, s, rfl⟩ : ∃ saved s, save = area saved s := by
    cases save with
    | none => exact ⟨false, .new, rfl⟩
    | some s => exact ⟨true, s, rfl⟩
  cases hx : answers p x with
  | none =>
    rw [bump_absent ht hx] at h
    cases h
    exact ⟨rfl, fun _ => ⟨rfl, rfl⟩, fun _ hv => by cases hv⟩
  | some v =>
    obtain ⟨s', h1, h2⟩ := bump_present ht hx saved s
    rw [h2] at h
    have key : p'.dependencies = p.dependencies ∧ changed = true ∧ p'.context = p.context.put x (bumped b x v) := by
      have forwards : ∀ id, Prefetch.refetch { p with context := p.context.put x (bumped b x v) } id true false (area saved s') =
          (.ok changed, p', save') → p'.dependencies = p.dependencies ∧ changed = true ∧ p'.context = p.context.put x (bumped b x v) := by
        intro id hr
        rcases refetch_forward { p with context := p.context.put x (bumped b x v) } id saved s' with
          ⟨s'', xs, g1, _⟩ | ⟨e, s'', g1, _⟩ | ⟨f, i, j, hwm, s'', g1, _⟩
        · rw [g1] at hr; cases hr
        · rw [g1] at hr; cases hr
        · rw [g1] at hr
          cases hr
          exact ⟨rfl, rfl, rfl⟩
      cases b <;> cases ht <;> dsimp only at h
      case spot.refl id b => exact forwards id h
      case divs.refl id b => exact forwards id h
      case borrow.refl id b => exact forwards id h
      case vol.refl id b =>
        rcases refetch_surface { p with context := p.context.put (.vol id) (bumped (.vol id b) (.vol id) v) } id saved s' with
          ⟨e, s'', xs, g1, _⟩ | ⟨g1, _⟩ | ⟨v', fwd, i, j, hwm, s'', g1, _⟩
        · rw [g1] at h; cases h
        · rw [g1] at h
          cases h
          exact ⟨rfl, rfl, rfl⟩
        · rw [g1] at h
          cases h
          exact ⟨rfl, rfl, rfl⟩
      case yield.refl id b =>
        obtain ⟨r, q, s'', xs, g1, g2, g3, _⟩ := refetchAllOf_steps (saved := saved) ((p.dependencies.forwardIds.get id).getD [])
          { p with context := p.context.put (.yield id) (bumped (.yield id b) (.yield id) v) } s'
        rw [g1] at h
        cases r with
        | error e => cases h
        | ok u =>
          cases h
          exact ⟨g2.dependencies, rfl, g3⟩
    refine ⟨key.1, (fun hn => by cases hn), ?_⟩
    intro w hw
    cases hw
    exact key.2

theorem bump_spots {p p' : Prefetch} {b : Bump} {save save' : Option SavedPrefetch} {changed : Bool} (hd : Distinct p.context.spots)
    (h : p.bump b save = (.ok changed, p', save')) : Distinct p'.context.spots := by
  cases ht : target b with
  | none =>
    cases b <;> cases ht
    exact bump_date_distinct hd h
  | some x =>
    obtain ⟨_, h1, h2⟩ := bump_effect ht h
    cases hx : answers p x with
    | none => rw [(h1 hx).2]; exact hd
    | some v => rw [(h2 v hx).2]; exact put_spots hd x _

/-! ## The same answers -/

theorem Spec.Same.alike {p q : SelfPricer} (h : Same p q) : Alike p.context q.context := ⟨h.dependencies, h.spotDate, h.answers⟩

theorem Spec.Same.of {p q : SelfPricer} (h : p.instruments = q.instruments) (h' : Alike p.context q.context) : Same p q :=
  ⟨h, h'.dependencies, h'.spotDate, h'.answers⟩

theorem Spec.Same.refl (p : SelfPricer) : Same p p := ⟨rfl, rfl, rfl, fun _ => rfl⟩

theorem Spec.Same.symm {p q : SelfPricer} (h : Same p q) : Same q p := .of h.instruments.symm h.alike.symm

theorem Spec.Same.trans {p q r : SelfPricer} (h : Same p q) (h' : Same q r) : Same p r := .of (h.instruments.trans h'.instruments) (h.alike.trans h'.alike)

theorem Spec.Same.pricing {p q : SelfPricer} (h : Same p q) : p.context.pricingContext = q.context.pricingContext := pricing_congr h.answers h.spotDate

theorem Spec.Same.price {p q : SelfPricer} (h : Same p q) (fuel : Nat) : p.price fuel = q.price fuel := by
  unfold SelfPricer.price
  rw [h.pricing, h.spotDate, h.instruments]

theorem collect_runs (sd : Int) (instruments : List (ℝ × Instrument)) :
    collect sd instruments = (instruments.map fun e => Call.spot e.2).foldl run (.new sd) := by
  unfold collect
  rw [List.foldl_map]
  rfl

theorem collect_wellFormed (sd : Int) (instruments : List (ℝ × Instrument)) : WellFormed (collect sd instruments) := by
  rw [collect_runs]
  exact wellFormed_runs (wellFormed_new sd) _

theorem new_self {instruments : List (ℝ × Instrument)} {md : MarketData} {p : SelfPricer} (h : SelfPricer.new instruments md = .ok p) :
    p.instruments = instruments ∧ Prefetch.new md (collect md.spotDate instruments) = .ok p.context := by
  unfold SelfPricer.new at h
  cases hn : Prefetch.new md (collect md.spotDate instruments) with
  | error e => rw [hn] at h; cases h
  | ok c => rw [hn] at h; cases h; exact ⟨rfl, rfl⟩

theorem new_self_of {instruments : List (ℝ × Instrument)} {md : MarketData} {c : Prefetch}
    (h : Prefetch.new md (collect md.spotDate instruments) = .ok c) : SelfPricer.new instruments md = .ok ⟨instruments, c⟩ := by
  unfold SelfPricer.new
  rw [h]
  rfl

/-- A pricer whose context is coherent with its market data says what a fresh one says. -/
theorem price_value {fuel : Nat} {p : SelfPricer} {md : MarketData} {v : Num ℝ} (hc : Coherent p.context)
    (hd : p.context.dependencies = collect md.spotDate p.instruments) (hs : p.context.context.spotDate = md.spotDate)
    (hdata : ∀ x, data p.context.context x = data md x) (h : value fuel p.instruments md = .ok v) : p.price fuel = .ok v := by
  unfold value at h
  cases hn : SelfPricer.new p.instruments md with
  | error e => rw [hn] at h; cases h
  | ok q =>
    rw [hn] at h
    obtain ⟨h1, h2⟩ := new_self hn
    obtain ⟨h3, h4, h5⟩ := coherent_new (collect_wellFormed _ _) h2
    have : Same p q := .of h1.symm (hc.unique h3 (hd.trans h5.symm) (hs.trans (by rw [h4])) (fun x => by rw [h4]; exact hdata x))
    rw [this.price]
    exact h

/-! ## One up and one down bump -/

theorem bumpedPrice_ok {σ S : Type} {P : Pricer σ S} {b : Bump} {p p' : σ} {save save' : Option S} {v u : Num ℝ}
    (h : bumpedPrice P b p save v = (.ok u, p', save')) :
    ∃ changed, P.bump b p save = (.ok changed, p', save') ∧ (changed = true → P.price p' = .ok u) ∧ (changed = false → u = v) := by
  unfold bumpedPrice at h
  generalize P.bump b p save = r at h
  obtain ⟨r, q, s⟩ := r
  cases r with
  | error e => cases h
  | ok c =>
    cases c
    · cases h
      exact ⟨false, rfl, by simp, fun _ => rfl⟩
    · dsimp only at h
      generalize hp : P.price q = y at h
      cases h
      exact ⟨true, rfl, fun _ => hp, by simp⟩

theorem bumpedPrice_of {σ S : Type} {P : Pricer σ S} {b : Bump} {p p' : σ} {save save' : Option S} {v u : Num ℝ} {changed : Bool}
    (h : P.bump b p save = (.ok changed, p', save')) (h1 : changed = true → P.price p' = .ok u) (h2 : changed = false → u = v) :
    bumpedPrice P b p save v = (.ok u, p', save') := by
  unfold bumpedPrice
  rw [h]
  cases changed
  · dsimp only; rw [h2 rfl]
  · dsimp only; rw [h1 rfl]

theorem upAndDown_ok {σ S : Type} {P : Pricer σ S} {up down : Bump} {p p' : σ} {s s' : S} {v u d : Num ℝ}
    (h : upAndDown P up down p s v = (.ok (u, d), p', s')) :
    ∃ p1 s1 p2 s2, bumpedPrice P up p (some s) v = (.ok u, p1, s1) ∧ bumpedPrice P down p1 none v = (.ok d, p2, s2) ∧
      p' = P.restore p2 (s1.getD s) ∧ s' = P.newSave := by
  unfold upAndDown at h
  generalize bumpedPrice P up p (some s) v = r at h
  obtain ⟨r, p1, s1⟩ := r
  cases r with
  | error e => cases h
  | ok u =>
    dsimp only at h
    generalize hr : bumpedPrice P down p1 none v = r at h
    obtain ⟨r, p2, s2⟩ := r
    cases r with
    | error e => cases h
    | ok d =>
      cases h
      exact ⟨p1, s1, p2, s2, rfl, hr, rfl, rfl⟩

theorem self_bump {b : Bump} {p p' : SelfPricer} {save save' : Option SavedPrefetch} {r : Outcome Bool} (h : SelfPricer.bump b p save = (r, p', save')) :
    p'.instruments = p.instruments ∧ p.context.bump b save = (r, p'.context, save') := by
  unfold SelfPricer.bump at h
  cases h
  exact ⟨rfl, rfl⟩

theorem self_bump_of {b : Bump} {p : SelfPricer} {c : Prefetch} {save save' : Option SavedPrefetch} {r : Outcome Bool}
    (h : p.context.bump b save = (r, c, save')) : SelfPricer.bump b p save = (r, ⟨p.instruments, c⟩, save') := by
  unfold SelfPricer.bump
  rw [h]

/-- A bump of spots or vols. -/
def Simple : Bump → Prop
  | .spot _ _ => True
  | .vol _ _ => True
  | _ => False

theorem Simple.target {b : Bump} (h : Simple b) : (Market.Spec.target b).isSome := by
  cases b <;> first | rfl | exact h.elim

theorem Simple.nodup {b : Bump} (h : Simple b) (c : Collector) : (touches c b).Nodup := by
  cases b <;> first | exact h.elim | simp [touches]

/-- After an up and a down bump of the same thing the pricer is as before and the save area is empty. -/
theorem upAndDown_same {fuel : Nat} {up down : Bump} (hs : Simple up) (ht : target up = target down) {p p' : SelfPricer} {s' : SavedPrefetch}
    {v u d : Num ℝ} (h : upAndDown (selfPricer fuel) up down p .new v = (.ok (u, d), p', s')) :
    s' = .new ∧ Same p' p ∧ (Distinct p.context.context.spots → Distinct p'.context.context.spots) := by
  obtain ⟨p1, s1, p2, s2, h1, h2, rfl, rfl⟩ := upAndDown_ok h
  obtain ⟨c1, b1, _⟩ := bumpedPrice_ok h1
  obtain ⟨c2, b2, _⟩ := bumpedPrice_ok h2
  obtain ⟨i1, e1⟩ := self_bump b1
  obtain ⟨i2, e2⟩ := self_bump b2
  obtain ⟨a1, a2, a3⟩ := C34_prefetch_partial p.context [(up, true), (down, false)]
    ⟨hs.target, hs.nodup _, by simp, ht ▸ hs.target, ⟨up, by simp, ht⟩, trivial⟩
  have e : runBumps (p.context, .new) [(up, true), (down, false)] = (p2.context, s1.getD .new) := by
    simp only [runBumps, if_true, Bool.false_eq_true, if_false, e1, e2]
    obtain ⟨saved, q, s'', xs, g, _⟩ := bump_steps p1.context (b := down) (ht ▸ hs.target) false .new
    rw [show area false .new = none from rfl, e2] at g
    cases g
    rfl
  rw [e] at a1 a2 a3
  refine ⟨rfl, ⟨i2.trans i1, a3, a2, a1⟩, ?_⟩
  intro hd
  exact copy_distinct _ (bump_spots (bump_spots hd e1) e2)

/-- Pricers that answer alike give the same figures. -/
theorem bumpedPrice_congr {fuel : Nat} {b : Bump} (hs : (target b).isSome) {p q p' : SelfPricer} {save save' : Option SavedPrefetch}
    {v u : Num ℝ} (hq : Same p q) (h : bumpedPrice (selfPricer fuel) b p save v = (.ok u, p', save')) :
    ∃ q', bumpedPrice (selfPricer fuel) b q save v = (.ok u, q', save') ∧ Same p' q' := by
  obtain ⟨c, b1, h1, h2⟩ := bumpedPrice_ok h
  obtain ⟨i1, e1⟩ := self_bump b1
  have := bump_congr hq.alike hs (save := save)
  rw [e1] at this
  generalize hr : q.context.bump b save = r at this
  obtain ⟨r, q1, s1⟩ := r
  obtain ⟨g1, g2, g3⟩ := this
  dsimp only at g1 g2 g3
  subst g1 g3
  have hsame : Same p' ⟨q.instruments, q1⟩ := .of (i1.trans hq.instruments) g2
  exact ⟨⟨q.instruments, q1⟩, bumpedPrice_of (self_bump_of hr) (fun hc => (hsame.price fuel).symm.trans (h1 hc)) h2, hsame⟩

theorem upAndDown_congr {fuel : Nat} {up down : Bump} (hs : Simple up) (ht : target up = target down) {p q p' : SelfPricer} {s' : SavedPrefetch}
    {v u d : Num ℝ} (hq : Same p q) (h : upAndDown (selfPricer fuel) up down p .new v = (.ok (u, d), p', s')) :
    ∃ q' s'', upAndDown (selfPricer fuel) up down q .new v = (.ok (u, d), q', s'') := by
  obtain ⟨p1, s1, p2, s2, h1, h2, rfl, rfl⟩ := upAndDown_ok h
  obtain ⟨q1, g1, e1⟩ := bumpedPrice_congr hs.target hq h1
  obtain ⟨q2, g2, _⟩ := bumpedPrice_congr (ht ▸ hs.target) e1 h2
  unfold upAndDown
  rw [g1]
  dsimp only
  rw [g2]
  exact ⟨_, _, rfl⟩

/-! ## Loops -/

section Loop
variable {σ S : Type}

/-- The common form of the loops of the reports. -/
noncomputable def figuresLoop (step : String → σ → S → Outcome (Num ℝ × Num ℝ) × σ × S) : List String → σ → S →
    Map String (Num ℝ × Num ℝ) → Outcome (Map String (Num ℝ × Num ℝ)) × σ × S
  | [], p, s, results => (.ok results, p, s)
  | id :: rest, p, s, results =>
    match step id p s with
    | (.error e, p, s) => (.error e, p, s)
    | (.ok x, p, s) => figuresLoop step rest p s (results.insert id x)

noncomputable def deltaStep (P : Pricer σ S) (b : ℝ) (v : Num ℝ) (id : String) (p : σ) (s : S) : Outcome (Num ℝ × Num ℝ) × σ × S :=
  match P.spot p id with
  | .error e => (.error e, p, s)
  | .ok spot =>
    match upAndDown P (.spot id (.relative b)) (.spot id (.relative ((1 - b) / (1 + b) - 1))) p s v with
    | (.error e, p, s) => (.error e, p, s)
    | (.ok (up, down), p, s) => (.ok (first up down (.val (b * spot)), second up down v (.val (b * spot))), p, s)

noncomputable def vegaStep (P : Pricer σ S) (b : BumpVol) (v : Num ℝ) (id : String) (p : σ) (s : S) : Outcome (Num ℝ × Num ℝ) × σ × S :=
  match upAndDown P (.vol id b) (.vol id b.opposite) p s v with
  | (.error e, p, s) => (.error e, p, s)
  | (.ok (up, down), p, s) => (.ok (first up down b.bumpsize, second up down v b.bumpsize), p, s)

theorem delta_loop (P : Pricer σ S) (b : ℝ) (v : Num ℝ) (ids : List String) : ∀ p s m,
    deltaGammaLoop P b v ids p s m = figuresLoop (deltaStep P b v) ids p s m := by
  induction ids with
  | nil => exact fun _ _ _ => rfl
  | cons id ids ih =>
    intro p s m
    rw [deltaGammaLoop, figuresLoop]
    unfold deltaStep
    cases P.spot p id with
    | error e => rfl
    | ok spot =>
      dsimp only
      generalize upAndDown P _ _ p s v = r
      obtain ⟨r, p', s'⟩ := r
      cases r with
      | error e => rfl
      | ok x => exact ih _ _ _

theorem vega_loop (P : Pricer σ S) (b : BumpVol) (v : Num ℝ) (ids : List String) : ∀ p s m,
    vegaVolgaLoop P b v ids p s m = figuresLoop (vegaStep P b v) ids p s m := by
  induction ids with
  | nil => exact fun _ _ _ => rfl
  | cons id ids ih =>
    intro p s m
    rw [vegaVolgaLoop, figuresLoop]
    unfold vegaStep
    generalize upAndDown P _ _ p s v = r
    obtain ⟨r, p', s'⟩ := r
    cases r with
    | error e => rfl
    | ok x => exact ih _ _ _

/-- What holds of each figure and of the states between them. -/
theorem figuresLoop_ok {step : String → σ → S → Outcome (Num ℝ × Num ℝ) × σ × S} {new : S} (I : σ → Prop) (Q : String → Num ℝ × Num ℝ → Prop)
    (hstep : ∀ id p x p' s', I p → step id p new = (.ok x, p', s') → I p' ∧ s' = new ∧ Q id x) (ids : List String) : ∀ {p p' s' m m'},
    I p → figuresLoop step ids p new m = (.ok m', p', s') →
    I p' ∧ s' = new ∧ (∀ id ∈ ids, ∃ x, m'.get id = some x ∧ Q id x) ∧ (∀ id, id ∉ ids → m'.get id = m.get id) ∧ (Distinct m → Distinct m') := by
  induction ids with
  | nil =>
    intro p p' s' m m' hI h
    cases h
    exact ⟨hI, rfl, by simp, fun _ _ => rfl, id⟩
  | cons i ids ih =>
    intro p p' s' m m' hI h
    rw [figuresLoop] at h
    generalize hr : step i p new = r at h
    obtain ⟨r, p1, s1⟩ := r
    cases r with
    | error e => cases h
    | ok x =>
      obtain ⟨h1, rfl, h3⟩ := hstep i p x p1 s1 hI hr
      obtain ⟨g1, g2, g3, g4, g5⟩ := ih h1 (show figuresLoop step ids p1 s1 (m.insert i x) = _ from h)
      refine ⟨g1, g2, ?_, ?_, fun hd => g5 (distinct_insert hd _ _)⟩
      · intro id hid
        by_cases hm : id ∈ ids
        · exact g3 id hm
        · rcases List.mem_cons.1 hid with rfl | hid
          · exact ⟨x, by rw [g4 _ hm, Map.get_insert_self], h3⟩
          · exact absurd hid hm
      · intro id hid
        rw [List.mem_cons, not_or] at hid
        rw [g4 id hid.2, Map.get_insert_ne _ _ hid.1]

/-- States that cannot be told apart give the same figures. -/
theorem figuresLoop_congr {step : String → σ → S → Outcome (Num ℝ × Num ℝ) × σ × S} {new : S} (I : σ → Prop)
    (hstep : ∀ id p x p' s', I p → step id p new = (.ok x, p', s') → I p' ∧ s' = new)
    (hcongr : ∀ id p q x p' s', I p → I q → step id p new = (.ok x, p', s') → ∃ q' s'', step id q new = (.ok x, q', s''))
    (ids : List String) : ∀ {p q p' s' m m'}, I p → I q → figuresLoop step ids p new m = (.ok m', p', s') →
    ∃ q' s'', figuresLoop step ids q new m = (.ok m', q', s'') := by
  induction ids with
  | nil =>
    intro p q p' s' m m' _ _ h
    cases h
    exact ⟨q, _, rfl⟩
  | cons i ids ih =>
    intro p q p' s' m m' hp hq h
    rw [figuresLoop] at h ⊢
    generalize hr : step i p new = r at h
    obtain ⟨r, p1, s1⟩ := r
    cases r with
    | error e => cases h
    | ok x =>
      obtain ⟨h1, rfl⟩ := hstep i p x p1 s1 hp hr
      obtain ⟨q1, s2, hq1⟩ := hcongr i p q x p1 s1 hp hq hr
      obtain ⟨h2, rfl⟩ := hstep i q x q1 s2 hq hq1
      rw [hq1]
      exact ih h1 h2 h

end Loop

/-! ## Steps of a report leave the pricer as it was -/

theorem deltaStep_ok {σ S : Type} {P : Pricer σ S} {b : ℝ} {v : Num ℝ} {id : String} {p p' : σ} {s s' : S} {x : Num ℝ × Num ℝ}
    (h : deltaStep P b v id p s = (.ok x, p', s')) : ∃ spot u d, P.spot p id = .ok spot ∧
      upAndDown P (.spot id (.relative b)) (.spot id (.relative ((1 - b) / (1 + b) - 1))) p s v = (.ok (u, d), p', s') ∧
      x = (first u d (.val (b * spot)), second u d v (.val (b * spot))) := by
  unfold deltaStep at h
  cases hs : P.spot p id with
  | error e => rw [hs] at h; cases h
  | ok spot =>
    rw [hs] at h
    dsimp only at h
    generalize hr : upAndDown P _ _ p s v = r at h
    obtain ⟨r, p1, s1⟩ := r
    cases r with
    | error e => cases h
    | ok ud =>
      obtain ⟨u, d⟩ := ud
      cases h
      exact ⟨spot, u, d, rfl, rfl, rfl⟩

theorem vegaStep_ok {σ S : Type} {P : Pricer σ S} {b : BumpVol} {v : Num ℝ} {id : String} {p p' : σ} {s s' : S} {x : Num ℝ × Num ℝ}
    (h : vegaStep P b v id p s = (.ok x, p', s')) : ∃ u d, upAndDown P (.vol id b) (.vol id b.opposite) p s v = (.ok (u, d), p', s') ∧
      x = (first u d b.bumpsize, second u d v b.bumpsize) := by
  unfold vegaStep at h
  generalize hr : upAndDown P _ _ p s v = r at h
  obtain ⟨r, p1, s1⟩ := r
  cases r with
  | error e => cases h
  | ok ud =>
    obtain ⟨u, d⟩ := ud
    cases h
    exact ⟨u, d, rfl, rfl⟩

/-- The states that a report goes through between its figures. -/
def Between (p0 p : SelfPricer) : Prop := Same p p0 ∧ Distinct p.context.context.spots

theorem deltaStep_between {fuel : Nat} {b : ℝ} {v : Num ℝ} {p0 : SelfPricer} (id : String) (p : SelfPricer) (x : Num ℝ × Num ℝ) (p' : SelfPricer)
    (s' : SavedPrefetch) (hp : Between p0 p) (h : deltaStep (selfPricer fuel) b v id p .new = (.ok x, p', s')) : Between p0 p' ∧ s' = .new := by
  obtain ⟨spot, u, d, _, h2, _⟩ := deltaStep_ok h
  obtain ⟨g1, g2, g3⟩ := upAndDown_same (show Simple (.spot id (.relative b)) from trivial) (by rfl) h2
  exact ⟨⟨g2.trans hp.1, g3 hp.2⟩, g1⟩

theorem vegaStep_between {fuel : Nat} {b : BumpVol} {v : Num ℝ} {p0 : SelfPricer} (id : String) (p : SelfPricer) (x : Num ℝ × Num ℝ) (p' : SelfPricer)
    (s' : SavedPrefetch) (hp : Between p0 p) (h : vegaStep (selfPricer fuel) b v id p .new = (.ok x, p', s')) : Between p0 p' ∧ s' = .new := by
  obtain ⟨u, d, h2, _⟩ := vegaStep_ok h
  obtain ⟨g1, g2, g3⟩ := upAndDown_same (show Simple (.vol id b) from trivial) (by rfl) h2
  exact ⟨⟨g2.trans hp.1, g3 hp.2⟩, g1⟩

theorem self_spot {fuel : Nat} {p q : SelfPricer} (h : Same p q) (id : String) : (selfPricer fuel).spot p id = (selfPricer fuel).spot q id :=
  find_congr (h.answers (.spot id))

theorem deltaStep_congr {fuel : Nat} {b : ℝ} {v : Num ℝ} {p0 : SelfPricer} (id : String) (p q : SelfPricer) (x : Num ℝ × Num ℝ) (p' : SelfPricer)
    (s' : SavedPrefetch) (hp : Between p0 p) (hq : Between p0 q) (h : deltaStep (selfPricer fuel) b v id p .new = (.ok x, p', s')) :
    ∃ q' s'', deltaStep (selfPricer fuel) b v id q .new = (.ok x, q', s'') := by
  obtain ⟨spot, u, d, h1, h2, rfl⟩ := deltaStep_ok h
  have hpq := hp.1.trans hq.1.symm
  obtain ⟨q', s'', h3⟩ := upAndDown_congr (show Simple (.spot id (.relative b)) from trivial) (by rfl) hpq h2
  unfold deltaStep
  rw [← self_spot hpq, h1]
  dsimp only
  rw [h3]
  exact ⟨_, _, rfl⟩

theorem vegaStep_congr {fuel : Nat} {b : BumpVol} {v : Num ℝ} {p0 : SelfPricer} (id : String) (p q : SelfPricer) (x : Num ℝ × Num ℝ) (p' : SelfPricer)
    (s' : SavedPrefetch) (hp : Between p0 p) (hq : Between p0 q) (h : vegaStep (selfPricer fuel) b v id p .new = (.ok x, p', s')) :
    ∃ q' s'', vegaStep (selfPricer fuel) b v id q .new = (.ok x, q', s'') := by
  obtain ⟨u, d, h2, rfl⟩ := vegaStep_ok h
  obtain ⟨q', s'', h3⟩ := upAndDown_congr (show Simple (.vol id b) from trivial) (by rfl) (hp.1.trans hq.1.symm) h2
  unfold vegaStep
  rw [h3]
  exact ⟨_, _, rfl⟩

/-! ## Moving the date -/

theorem new_self_congr {instruments : List (ℝ × Instrument)} {md n : MarketData} {p : SelfPricer} (hs : md.spotDate = n.spotDate)
    (ha : ∀ x, data md x = data n x) (h : SelfPricer.new instruments md = .ok p) :
    ∃ q, SelfPricer.new instruments n = .ok q ∧ Same p q ∧ q.context.context = n := by
  obtain ⟨h1, h2⟩ := new_self h
  obtain ⟨c, g1, g2, g3⟩ := new_congr hs ha h2
  rw [hs] at g1
  exact ⟨⟨instruments, c⟩, new_self_of g1, .of h1 g2, g3⟩

/-- What moving the date does. -/
theorem bumpTime_ok {bump : BumpTime} {p p' : SelfPricer} (h : p.bumpTime bump = (.ok (), p')) :
    ∃ modified instruments context changed, updateInstruments bump.spotDateBump p.instruments p.context.pricingContext p.context.dependencies =
        .ok (modified, instruments) ∧
      p.context.bump (.spotDate bump.spotDateBump) none = (.ok changed, context, none) ∧
      ((modified = true ∧ SelfPricer.new instruments context.context = .ok p') ∨ (modified = false ∧ p' = ⟨instruments, context⟩)) := by
  unfold SelfPricer.bumpTime at h
  cases hu : updateInstruments bump.spotDateBump p.instruments p.context.pricingContext p.context.dependencies with
  | error e => rw [hu] at h; cases h
  | ok u =>
    obtain ⟨modified, instruments⟩ := u
    rw [hu] at h
    dsimp only at h
    generalize hr : p.context.bump (.spotDate bump.spotDateBump) none = r at h
    obtain ⟨r, context, save⟩ := r
    cases r with
    | error e => cases h
    | ok changed =>
      obtain ⟨rfl, _⟩ := bump_date hr
      dsimp only at h
      refine ⟨modified, instruments, context, changed, rfl, rfl, ?_⟩
      cases modified with
      | false => cases h; exact .inr ⟨rfl, rfl⟩
      | true =>
        rw [if_pos rfl] at h
        cases hn : SelfPricer.new instruments context.context with
        | error e => rw [hn] at h; cases h
        | ok q => rw [hn] at h; cases h; exact .inl ⟨rfl, rfl⟩

theorem bumpTime_congr {bump : BumpTime} {p q p' : SelfPricer} (hpq : Same p q) (hd : Distinct p.context.context.spots)
    (hd' : Distinct q.context.context.spots) (h : p.bumpTime bump = (.ok (), p')) :
    ∃ q', q.bumpTime bump = (.ok (), q') ∧ Same p' q' ∧ Distinct p'.context.context.spots ∧ Distinct q'.context.context.spots := by
  obtain ⟨modified, instruments, context, changed, h1, h2, h3⟩ := bumpTime_ok h
  obtain ⟨c, g1, g2⟩ := bump_date_congr hpq.alike hd hd' h2
  have e1 := bump_spots hd h2
  have e2 := bump_spots hd' g1
  rw [hpq.instruments, hpq.pricing, hpq.dependencies] at h1
  unfold SelfPricer.bumpTime
  rw [h1]
  dsimp only
  rw [g1]
  dsimp only
  rcases h3 with ⟨rfl, h3⟩ | ⟨rfl, rfl⟩
  · obtain ⟨q', k1, k2, k3⟩ := new_self_congr g2.spotDate g2.data h3
    rw [if_pos rfl, k1]
    refine ⟨q', rfl, k2, ?_, k3 ▸ e2⟩
    rw [(new_context (new_self h3).2).1]
    exact e1
  · rw [if_neg (by simp)]
    exact ⟨_, rfl, .of rfl g2, e1, e2⟩

/-! ## Generators -/

mutual
theorem generate_same {fuel : Nat} : ∀ (g : Generator) {p p' : SelfPricer} {s' : SavedPrefetch} {v : Num ℝ} {r : Report},
    Distinct p.context.context.spots → generate (selfPricer fuel) g p .new v = (.ok r, p', s') →
    s' = .new ∧ Same p' p ∧ Distinct p'.context.context.spots ∧
      ∀ q, Same p q → Distinct q.context.context.spots → ∃ q' s'', generate (selfPricer fuel) g q .new v = (.ok r, q', s'')
  | .deltaGamma b, p, p', s', v, r, hd, h => by
    rw [generate] at h
    generalize hr : deltaGammaLoop (selfPricer fuel) b v ((selfPricer fuel).ids p) p .new .empty = l at h
    obtain ⟨l, p1, s1⟩ := l
    cases l with
    | error e => cases h
    | ok m =>
      cases h
      rw [delta_loop] at hr
      obtain ⟨g1, g2, _⟩ := figuresLoop_ok (Between p) (fun _ _ => True)
        (fun id q x q' s'' hq hs => ⟨(deltaStep_between id q x q' s'' hq hs).1, (deltaStep_between id q x q' s'' hq hs).2, trivial⟩) _ ⟨.refl p, hd⟩ hr
      refine ⟨g2, g1.1, g1.2, ?_⟩
      intro q hq hdq
      obtain ⟨q', s'', k⟩ := figuresLoop_congr (Between p) deltaStep_between deltaStep_congr _ ⟨.refl p, hd⟩ ⟨hq.symm, hdq⟩ hr
      have hids : (selfPricer fuel).ids q = (selfPricer fuel).ids p := by
        show q.context.dependencies.instruments.entries.map Prod.fst = _
        rw [← hq.dependencies]
        rfl
      rw [generate, hids, delta_loop, k]
      exact ⟨_, _, rfl⟩
  | .vegaVolga b, p, p', s', v, r, hd, h => by
    rw [generate] at h
    generalize hr : vegaVolgaLoop (selfPricer fuel) b v ((selfPricer fuel).ids p) p .new .empty = l at h
    obtain ⟨l, p1, s1⟩ := l
    cases l with
    | error e => cases h
    | ok m =>
      cases h
      rw [vega_loop] at hr
      obtain ⟨g1, g2, _⟩ := figuresLoop_ok (Between p) (fun _ _ => True)
        (fun id q x q' s'' hq hs => ⟨(vegaStep_between id q x q' s'' hq hs).1, (vegaStep_between id q x q' s'' hq hs).2, trivial⟩) _ ⟨.refl p, hd⟩ hr
      refine ⟨g2, g1.1, g1.2, ?_⟩
      intro q hq hdq
      obtain ⟨q', s'', k⟩ := figuresLoop_congr (Between p) vegaStep_between vegaStep_congr _ ⟨.refl p, hd⟩ ⟨hq.symm, hdq⟩ hr
      have hids : (selfPricer fuel).ids q = (selfPricer fuel).ids p := by
        show q.context.dependencies.instruments.entries.map Prod.fst = _
        rw [← hq.dependencies]
        rfl
      rw [generate, hids, vega_loop, k]
      exact ⟨_, _, rfl⟩
  | .timeBumped b subgenerators, p, p', s', v, r, hd, h => by
    rw [generate] at h
    generalize hb : (selfPricer fuel).bumpTime b p = t at h
    obtain ⟨t, clone⟩ := t
    cases t with
    | error e => cases h
    | ok u =>
      dsimp only at h
      cases hp : (selfPricer fuel).price clone with
      | error e => rw [hp] at h; cases h
      | ok tb =>
        rw [hp] at h
        dsimp only at h
        generalize hg : generateAll (selfPricer fuel) subgenerators clone .new tb = l at h
        obtain ⟨l, c', s1⟩ := l
        cases l with
        | error e => cases h
        | ok reports =>
          cases h
          obtain ⟨_, hb', _, hdc, _⟩ := bumpTime_congr (.refl p) hd hd hb
          obtain ⟨k1, _, _, k4⟩ := generateAll_same subgenerators hdc hg
          refine ⟨k1, .refl p, hd, ?_⟩
          intro q hq hdq
          obtain ⟨q', e1, e2, _, e4⟩ := bumpTime_congr hq hd hdq hb
          obtain ⟨q'', s'', e5⟩ := k4 q' e2 e4
          rw [generate]
          have e1' : (selfPricer fuel).bumpTime b q = (.ok (), q') := e1
          have e6 : (selfPricer fuel).price q' = .ok tb := (e2.price fuel).symm.trans hp
          rw [e1']
          dsimp only
          rw [e6]
          dsimp only
          rw [e5]
          exact ⟨_, _, rfl⟩

theorem generateAll_same {fuel : Nat} : ∀ (gs : List Generator) {p p' : SelfPricer} {s' : SavedPrefetch} {v : Num ℝ} {rs : List Report},
    Distinct p.context.context.spots → generateAll (selfPricer fuel) gs p .new v = (.ok rs, p', s') →
    s' = .new ∧ Same p' p ∧ Distinct p'.context.context.spots ∧
      ∀ q, Same p q → Distinct q.context.context.spots → ∃ q' s'', generateAll (selfPricer fuel) gs q .new v = (.ok rs, q', s'')
  | [], p, p', s', v, rs, hd, h => by
    rw [generateAll] at h
    cases h
    refine ⟨rfl, .refl p, hd, ?_⟩
    intro q _ _
    rw [generateAll]
    exact ⟨_, _, rfl⟩
  | g :: gs, p, p', s', v, rs, hd, h => by
    rw [generateAll] at h
    generalize hg : generate (selfPricer fuel) g p .new v = l at h
    obtain ⟨l, p1, s1⟩ := l
    cases l with
    | error e => cases h
    | ok r =>
      obtain ⟨rfl, a2, a3, a4⟩ := generate_same g hd hg
      dsimp only at h
      generalize hg' : generateAll (selfPricer fuel) gs p1 .new v = l at h
      obtain ⟨l, p2, s2⟩ := l
      cases l with
      | error e => cases h
      | ok rs =>
        cases h
        obtain ⟨b1, b2, b3, b4⟩ := generateAll_same gs a3 hg'
        refine ⟨b1, b2.trans a2, b3, ?_⟩
        intro q hq hdq
        obtain ⟨q1, s1, e1⟩ := a4 q hq hdq
        obtain ⟨rfl, f2, f3, _⟩ := generate_same g hdq e1
        obtain ⟨q2, s2, e2⟩ := b4 q1 (a2.trans (hq.trans f2.symm)) f3
        rw [generateAll, e1]
        dsimp only
        rw [e2]
        exact ⟨_, _, rfl⟩
end

end QM.Risk
