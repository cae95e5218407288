import Verif.Risk.Lemmas

/-!
# Lemmas about bumped prices of the self pricer
-/

namespace QM.Risk
open QM.Interp QM.Vol QM.Instruments QM.Instruments.Spec QM.Market QM.Market.Spec QM.Risk.Spec

/-- A pricer that holds given instruments, with a context coherent with given answers. -/
structure At (held : List (ℝ × Instrument)) (sd : Int) (f : Answers) (p : SelfPricer) : Prop where
  instruments : p.instruments = held
  coherent : Coherent p.context
  dependencies : p.context.dependencies = collect sd held
  spotDate : p.context.context.spotDate = sd
  data : ∀ x, data p.context.context x = f x

variable {fuel : Nat} {instruments : List (ℝ × Instrument)} {sd : Int} {f : Answers} {p q : SelfPricer}

theorem update_same {f : Answers} {x : Slot} {v : x.Val} (h : f x = some v) : Function.update f x (some v) = f := by
  rw [← h, Function.update_eq_self]

theorem at_new {md : MarketData} (h : SelfPricer.new instruments md = .ok p) : At instruments md.spotDate (data md) p := by
  obtain ⟨h1, h2⟩ := new_self h
  obtain ⟨h3, h4, h5⟩ := coherent_new (collect_wellFormed _ _) h2
  exact ⟨h1, h3, h5, by rw [h4], fun x => by rw [h4]⟩

theorem At.same (h : At instruments sd f p) (hq : Same q p) : At instruments sd f q :=
  ⟨hq.instruments.trans h.instruments, h.coherent.congr hq.dependencies hq.spotDate hq.answers, hq.dependencies.trans h.dependencies,
    hq.spotDate.trans h.spotDate, fun x => (data_of_answers hq.answers x).trans (h.data x)⟩

theorem At.answers (h : At instruments sd f p) {x : Slot} (hx : isData x) : Market.Spec.answers p.context x = f x := by
  rw [← h.data x]
  cases x <;> first | rfl | exact hx.elim

theorem At.bump (h : At instruments sd f p) (hu : Unambiguous (collect sd instruments)) {b : Bump} {x : Slot} (ht : target b = some x) {v : x.Val}
    (hv : f x = some v) {save save' : Option SavedPrefetch} {changed : Bool} {p' : SelfPricer} (hb : SelfPricer.bump b p save = (.ok changed, p', save')) :
    changed = true ∧ At instruments sd (Function.update f x (some (bumped b x v))) p' := by
  obtain ⟨h1, h2⟩ := self_bump hb
  obtain ⟨h3, _, h4⟩ := bump_effect ht h2
  obtain ⟨h5, h6⟩ := h4 v ((h.answers (target_data ht)).trans hv)
  have hw : WellFormed p.context.dependencies := h.dependencies ▸ collect_wellFormed _ _
  obtain ⟨h7, _⟩ := h.coherent.bump hw (h.dependencies ▸ hu) h2
  refine ⟨h5, h1.trans h.instruments, h7, h3.trans h.dependencies, ?_, ?_⟩
  · rw [h6, put_spotDate, h.spotDate]
  · intro y
    rw [h6, data_put _ (target_data ht)]
    congr 1
    funext z
    exact h.data z

theorem At.price (h : At instruments sd f p) {md : MarketData} (hs : md.spotDate = sd) (hd : ∀ x, Market.Spec.data md x = f x) {v : Num ℝ}
    (hv : value fuel instruments md = .ok v) : p.price fuel = .ok v := by
  subst hs
  refine price_value h.coherent (by rw [h.dependencies, h.instruments]) h.spotDate (fun x => (h.data x).trans (hd x).symm) ?_
  rw [h.instruments]
  exact hv

theorem value_new {md : MarketData} {v : Num ℝ} (h : value fuel instruments md = .ok v) :
    ∃ q, SelfPricer.new instruments md = .ok q ∧ q.price fuel = .ok v := by
  unfold value at h
  cases hn : SelfPricer.new instruments md with
  | error e => rw [hn] at h; cases h
  | ok q => rw [hn] at h; exact ⟨q, rfl, h⟩

/-- A spot bump succeeds if the bumped market can be priced and the forward of the underlying is among the dependencies. -/
theorem At.bump_spot (h : At instruments sd f p) (hu : Unambiguous (collect sd instruments)) {id : String} {b : BumpSpot} {S : ℝ}
    (hS : f (.spot id) = some S) (hi : (collect sd instruments).instruments.get id ≠ none)
    (hf : (collect sd instruments).forwardCurves.get id ≠ none) {md : MarketData} (hs : md.spotDate = sd)
    (hd : ∀ x, Market.Spec.data md x = Function.update f (.spot id) (some (b.apply S)) x) (hq : SelfPricer.new instruments md = .ok q)
    (save : Option SavedPrefetch) : ∃ p' save', SelfPricer.bump (.spot id b) p save = (.ok true, p', save') := by
  obtain ⟨saved, s, rfl⟩ : ∃ saved s, save = area saved s := by
    cases save with
    | none => exact ⟨false, .new, rfl⟩
    | some s => exact ⟨true, s, rfl⟩
  obtain ⟨i, hi⟩ := Option.ne_none_iff_exists'.1 hi
  obtain ⟨⟨j, hwm⟩, hj⟩ := Option.ne_none_iff_exists'.1 hf
  have hw := collect_wellFormed sd instruments
  have hij := hu id j hwm i hj hi
  subst hij
  have hid := hw.instrumentKey id i hi
  have hS' : Market.Spec.answers p.context (.spot id) = some S := (h.answers (x := .spot id) trivial).trans hS
  obtain ⟨s', h1, h2⟩ := bump_present (b := .spot id b) rfl hS' saved s
  dsimp only at h2
  have hq' := at_new hq
  rw [hs] at hq'
  obtain ⟨g, _, hg⟩ := hq'.coherent.forward id i hwm (by rw [hq'.dependencies]; exact hj)
  have hg' : (p.context.context.put (.spot id) (bumped (.spot id b) (.spot id) S)).forwardCurve i hwm = .ok g := by
    rw [← hg]
    refine forwardCurve_congr i hwm ?_ ?_
    · rw [put_spotDate, h.spotDate, hq'.spotDate]
    · intro x _
      rw [hq'.data x, hd x, data_put _ (show isData (.spot id) from trivial)]
      congr 1
      funext z
      exact h.data z
  obtain ⟨fwd, hfwd, _⟩ := h.coherent.forward id i hwm (by rw [h.dependencies]; exact hj)
  have hr : ∃ p' save', Prefetch.refetch { p.context with context := p.context.context.put (.spot id) (bumped (.spot id b) (.spot id) S) } id true false
      (area saved s') = (.ok true, p', save') := by
    unfold Prefetch.refetch
    dsimp only
    rw [if_neg (by simp), hfwd]
    dsimp only
    rw [show p.context.dependencies.instruments.get id = some i by rw [h.dependencies]; exact hi]
    dsimp only
    rw [if_pos rfl]
    unfold Prefetch.refetchForward
    dsimp only
    rw [hid, show p.context.dependencies.forwardCurves.get id = some (i, hwm) by rw [h.dependencies]; exact hj]
    dsimp only
    rw [hg']
    exact ⟨_, _, rfl⟩
  obtain ⟨c, save', hr⟩ := hr
  rw [hr] at h2
  exact ⟨_, _, self_bump_of h2⟩

/-- A bump of volatilities succeeds if the bumped market can be priced and forward and surface of the underlying are among the dependencies. -/
theorem At.bump_vol (h : At instruments sd f p) (hu : Unambiguous (collect sd instruments)) {id : String} {b : BumpVol} {S : VolSurface}
    (hS : f (.vol id) = some S) (hi : (collect sd instruments).instruments.get id ≠ none)
    (hf : (collect sd instruments).forwardCurves.get id ≠ none) (hv : (collect sd instruments).volSurfaces.get id ≠ none)
    {md : MarketData} (hs : md.spotDate = sd)
    (hd : ∀ x, Market.Spec.data md x = Function.update f (.vol id) (some (b.apply S)) x) (hq : SelfPricer.new instruments md = .ok q)
    (save : Option SavedPrefetch) : ∃ p' save', SelfPricer.bump (.vol id b) p save = (.ok true, p', save') := by
  obtain ⟨saved, s, rfl⟩ : ∃ saved s, save = area saved s := by
    cases save with
    | none => exact ⟨false, .new, rfl⟩
    | some s => exact ⟨true, s, rfl⟩
  obtain ⟨i, hi⟩ := Option.ne_none_iff_exists'.1 hi
  obtain ⟨⟨j, hwm⟩, hj⟩ := Option.ne_none_iff_exists'.1 hf
  obtain ⟨⟨j', hwm'⟩, hj'⟩ := Option.ne_none_iff_exists'.1 hv
  have hw := collect_wellFormed sd instruments
  have hij := hu id j hwm i hj hi
  subst hij
  have hid := hw.instrumentKey id i hi
  have hS' : Market.Spec.answers p.context (.vol id) = some S := (h.answers (x := .vol id) trivial).trans hS
  obtain ⟨s', h1, h2⟩ := bump_present (b := .vol id b) rfl hS' saved s
  dsimp only at h2
  have hq' := at_new hq
  rw [hs] at hq'
  obtain ⟨fwd, hfwd, _⟩ := h.coherent.forward id i hwm (by rw [h.dependencies]; exact hj)
  obtain ⟨g, _, hg⟩ := hq'.coherent.surface id i hwm j' hwm' (by rw [hq'.dependencies]; exact hj) (by rw [hq'.dependencies]; exact hj')
    (fun _ => .ok fwd)
  have hg' : ∀ k, (p.context.context.put (.vol id) (bumped (.vol id b) (.vol id) S)).volSurface i hwm' k = .ok g := by
    intro k
    rw [← hg]
    refine volSurface_congr i hwm' _ _ ?_ ?_
    · rw [put_spotDate, h.spotDate, hq'.spotDate]
    · rw [hq'.data, hd, data_put _ (show isData (.vol id) from trivial)]
      congr 1
      funext z
      exact h.data z
  obtain ⟨old, hold, _⟩ := h.coherent.surface id i hwm j' hwm' (by rw [h.dependencies]; exact hj) (by rw [h.dependencies]; exact hj')
    (fun _ => .ok fwd)
  have hr : ∃ p' save', Prefetch.refetch { p.context with context := p.context.context.put (.vol id) (bumped (.vol id b) (.vol id) S) } id false true
      (area saved s') = (.ok true, p', save') := by
    unfold Prefetch.refetch
    dsimp only
    rw [if_neg (by simp), hfwd]
    dsimp only
    rw [show p.context.dependencies.instruments.get id = some i by rw [h.dependencies]; exact hi]
    dsimp only
    rw [if_neg (by simp)]
    dsimp only
    rw [if_pos rfl]
    unfold Prefetch.refetchVol
    dsimp only
    rw [hold]
    dsimp only
    rw [hid, show p.context.dependencies.volSurfaces.get id = some (j', hwm') by rw [h.dependencies]; exact hj']
    dsimp only
    rw [hg']
    exact ⟨_, _, rfl⟩
  obtain ⟨c, save', hr⟩ := hr
  rw [hr] at h2
  exact ⟨_, _, self_bump_of h2⟩

/-! ## Figures -/

theorem first_val {u d h : ℝ} (hh : h ≠ 0) : first (.val u) (.val d) (.val h) = .val ((u - d) / (2 * h)) := by
  simp [first, num1, num2, ndiv, hh]

theorem second_val {u d v h : ℝ} (hh : h ≠ 0) : second (.val u) (.val d) (.val v) (.val h) = .val ((u + d - 2 * v) / h ^ 2) := by
  simp [second, num1, num2, ndiv, hh]

theorem keys_get {V : Type} (m : Map String V) (k : String) : k ∈ m.entries.map Prod.fst ↔ m.get k ≠ none := by
  unfold Map.get
  rw [Ne, Option.map_eq_none_iff, List.find?_eq_none, List.mem_map]
  push Not
  constructor
  · rintro ⟨e, h1, rfl⟩
    exact ⟨e, h1, by simp⟩
  · rintro ⟨e, h1, h2⟩
    exact ⟨e, h1, by simpa using h2⟩

theorem withSpot_data (md : MarketData) (id : String) (x : ℝ) (y : Slot) :
    data (withSpot md id x) y = Function.update (data md) (.spot id) (some x) y :=
  congrFun (data_put md (x := .spot id) trivial x) y

theorem withVol_data (md : MarketData) (id : String) (x : VolSurface) (y : Slot) :
    data (withVol md id x) y = Function.update (data md) (.vol id) (some x) y :=
  congrFun (data_put md (x := .vol id) trivial x) y

theorem At.spot (h : At instruments sd f p) {id : String} {S : ℝ} (hS : f (.spot id) = some S) : (selfPricer fuel).spot p id = .ok S := by
  show find id p.context.context.spots = .ok S
  unfold find
  rw [show p.context.context.spots.get id = some S from (h.data (.spot id)).trans hS]

/-- The figures of one underlying in the delta report, in terms of the values after the two bumps. -/
theorem delta_differences {md : MarketData} {b S : ℝ} {id : String} {u d v : Num ℝ} (hp : At instruments md.spotDate (data md) p)
    (hu : Unambiguous (collect md.spotDate instruments)) (hS : md.spots.get id = some S) (hb : b ≠ -1)
    (hup : value fuel instruments (withSpot md id (S * (1 + b))) = .ok u)
    (hdown : value fuel instruments (withSpot md id (S * (1 - b))) = .ok d)
    {x : Num ℝ × Num ℝ} {p' : SelfPricer} {s' : SavedPrefetch} (h : deltaStep (selfPricer fuel) b v id p .new = (.ok x, p', s')) :
    x = (first u d (.val (b * S)), second u d v (.val (b * S))) := by
  obtain ⟨spot, u', d', h1, h2, rfl⟩ := deltaStep_ok h
  have hb1 : 1 + b ≠ 0 := fun e => hb (by linarith)
  have hS' : data md (.spot id) = some S := hS
  rw [hp.spot hS'] at h1
  cases h1
  obtain ⟨p1, s1, p2, s2, k1, k2, _, _⟩ := upAndDown_ok h2
  obtain ⟨c1, b1, d1, _⟩ := bumpedPrice_ok k1
  obtain ⟨c2, b2, d2, _⟩ := bumpedPrice_ok k2
  obtain ⟨t1, a1⟩ := hp.bump hu (x := .spot id) rfl hS' b1
  have hu1 : (Function.update (data md) (.spot id) (some (bumped (.spot id (.relative b)) (.spot id) S))) (.spot id) = some (S * (1 + b)) := by
    rw [Function.update_self]
    rfl
  obtain ⟨t2, a2⟩ := a1.bump hu (x := .spot id) rfl hu1 b2
  have f1 := a1.price (fuel := fuel) (md := withSpot md id (S * (1 + b))) rfl (by
    intro y
    rw [withSpot_data]
    rfl) hup
  have e2 : S * (1 + b) * (1 + ((1 - b) / (1 + b) - 1)) = S * (1 - b) := by field_simp; ring
  have f2 := a2.price (fuel := fuel) (md := withSpot md id (S * (1 - b))) rfl (by
    intro y
    rw [withSpot_data, Function.update_idem]
    rw [← e2]
    rfl) hdown
  have g1 := d1 t1
  have g2 := d2 t2
  change p1.price fuel = _ at g1
  change p2.price fuel = _ at g2
  rw [f1] at g1
  rw [f2] at g2
  cases g1
  cases g2
  rfl

/-- The figures of one underlying in the delta report, for a quadratic. -/
theorem delta_figures {md : MarketData} {b S a m c : ℝ} {id : String} {v : Num ℝ} (hp : At instruments md.spotDate (data md) p)
    (hu : Unambiguous (collect md.spotDate instruments)) (hS : md.spots.get id = some S) (hS0 : S ≠ 0) (hb0 : b ≠ 0) (hb : b ≠ -1)
    (hv : p.price fuel = .ok v)
    (hq : ∀ x, |x - S| ≤ |b * S| → value fuel instruments (withSpot md id x) = .ok (.val (a * x ^ 2 + m * x + c)))
    {x : Num ℝ × Num ℝ} {p' : SelfPricer} {s' : SavedPrefetch} (h : deltaStep (selfPricer fuel) b v id p .new = (.ok x, p', s')) :
    x = (.val (2 * a * S + m), .val (2 * a)) := by
  have hS' : data md (.spot id) = some S := hS
  have e0 : v = .val (a * S ^ 2 + m * S + c) := by
    have := hp.price (fuel := fuel) (md := withSpot md id S) rfl (by
      intro y
      rw [withSpot_data]
      exact congrFun (update_same (x := .spot id) hS') y) (hq S (by rw [sub_self, abs_zero]; exact abs_nonneg _))
    rw [this] at hv
    cases hv
    rfl
  subst e0
  rw [delta_differences hp hu hS hb (hq _ (by rw [show S * (1 + b) - S = b * S by ring]))
    (hq _ (by rw [show S * (1 - b) - S = -(b * S) by ring, abs_neg])) h]
  have hh : b * S ≠ 0 := mul_ne_zero hb0 hS0
  rw [first_val hh, second_val hh]
  congr 2
  · field_simp
    ring
  · field_simp
    ring

theorem delta_succeeds {md : MarketData} {b S : ℝ} {id : String} {u d v : Num ℝ} (hp : At instruments md.spotDate (data md) p)
    (hu : Unambiguous (collect md.spotDate instruments)) (hS : md.spots.get id = some S) (hb : b ≠ -1)
    (hi : (collect md.spotDate instruments).instruments.get id ≠ none)
    (hf : (collect md.spotDate instruments).forwardCurves.get id ≠ none)
    (q1 : value fuel instruments (withSpot md id (S * (1 + b))) = .ok u)
    (q2 : value fuel instruments (withSpot md id (S * (1 - b))) = .ok d) :
    ∃ x p' s', deltaStep (selfPricer fuel) b v id p .new = (.ok x, p', s') := by
  have hb1 : 1 + b ≠ 0 := fun e => hb (by linarith)
  have hS' : data md (.spot id) = some S := hS
  obtain ⟨n1, hn1, _⟩ := value_new q1
  obtain ⟨n2, hn2, _⟩ := value_new q2
  obtain ⟨p1, s1, b1⟩ := hp.bump_spot hu (b := .relative b) hS' hi hf (md := withSpot md id (S * (1 + b))) rfl (by
    intro y; rw [withSpot_data]; rfl) hn1 (some .new)
  obtain ⟨_, a1⟩ := hp.bump hu (x := .spot id) rfl hS' b1
  have hu1 : (Function.update (data md) (.spot id) (some (bumped (.spot id (.relative b)) (.spot id) S))) (.spot id) = some (S * (1 + b)) := by
    rw [Function.update_self]
    rfl
  have e2 : S * (1 + b) * (1 + ((1 - b) / (1 + b) - 1)) = S * (1 - b) := by field_simp; ring
  obtain ⟨p2, s2, b2⟩ := a1.bump_spot hu (b := .relative ((1 - b) / (1 + b) - 1)) hu1 hi hf (md := withSpot md id (S * (1 - b))) rfl (by
    intro y
    rw [withSpot_data, Function.update_idem, ← e2]
    rfl) hn2 none
  obtain ⟨_, a2⟩ := a1.bump hu (x := .spot id) rfl hu1 b2
  have f1 := a1.price (fuel := fuel) (md := withSpot md id (S * (1 + b))) rfl (by
    intro y; rw [withSpot_data]; rfl) q1
  have f2 := a2.price (fuel := fuel) (md := withSpot md id (S * (1 - b))) rfl (by
    intro y
    rw [withSpot_data, Function.update_idem, ← e2]
    rfl) q2
  have g1 : bumpedPrice (selfPricer fuel) (.spot id (.relative b)) p (some .new) v = _ :=
    bumpedPrice_of b1 (fun _ => f1) (fun h => by cases h)
  have g2 : bumpedPrice (selfPricer fuel) (.spot id (.relative ((1 - b) / (1 + b) - 1))) p1 none v = _ :=
    bumpedPrice_of b2 (fun _ => f2) (fun h => by cases h)
  unfold deltaStep upAndDown
  rw [hp.spot hS']
  dsimp only
  rw [g1]
  dsimp only
  rw [g2]
  exact ⟨_, _, _, rfl⟩

theorem figuresLoop_succeeds {σ S : Type} {step : String → σ → S → Outcome (Num ℝ × Num ℝ) × σ × S} {new : S} (I : σ → Prop) (ids : List String) :
    (∀ id ∈ ids, ∀ p, I p → ∃ x p', step id p new = (.ok x, p', new) ∧ I p') → ∀ p m, I p →
    ∃ m' p', figuresLoop step ids p new m = (.ok m', p', new) := by
  induction ids with
  | nil => exact fun _ p m _ => ⟨m, p, rfl⟩
  | cons id ids ih =>
    intro h p m hp
    obtain ⟨x, p', h1, h2⟩ := h id (by simp) p hp
    rw [figuresLoop, h1]
    exact ih (fun id hid => h id (List.mem_cons_of_mem _ hid)) p' _ h2

/-! ## Vega -/

/-- The down bump that follows an additive bump of `b`. -/
theorem opposite_flat {b : ℝ} (hb : b ≠ -1) : (BumpVol.flatAdditive (.val b)).opposite = .flatAdditive (.val (-2 * b / (1 + b))) := by
  have h : 1 + b ≠ 0 := fun e => hb (by linarith)
  simp only [BumpVol.opposite, BumpVol.bumpsize, num1, ndiv, h, if_false]
  congr 2
  field_simp
  ring

/-- What vega and volga of a quadratic come to. -/
theorem vega_algebra {a m c b : ℝ} (hb0 : b ≠ 0) (hb : b ≠ -1) :
    (first (.val (a * b ^ 2 + m * b + c)) (.val (a * (b + -2 * b / (1 + b)) ^ 2 + m * (b + -2 * b / (1 + b)) + c)) (.val b),
      second (.val (a * b ^ 2 + m * b + c)) (.val (a * (b + -2 * b / (1 + b)) ^ 2 + m * (b + -2 * b / (1 + b)) + c)) (.val c) (.val b)) =
    (.val ((m + 2 * a * b ^ 2 / (1 + b)) / (1 + b)), .val (a * (1 + ((1 - b) / (1 + b)) ^ 2) + 2 * m / (1 + b))) := by
  have h : 1 + b ≠ 0 := fun e => hb (by linarith)
  rw [first_val hb0, second_val hb0]
  congr 2
  · field_simp
    ring
  · field_simp
    ring

/-- The figures of one underlying in the vega report: from the values under a surface bumped once and twice. -/
theorem vega_figures {md : MarketData} {b : ℝ} {u d : Num ℝ} {surface : VolSurface} {id : String} {v : Num ℝ} (hp : At instruments md.spotDate (data md) p)
    (hu : Unambiguous (collect md.spotDate instruments)) (hs : md.volSurfaces.get id = some surface) (hb : b ≠ -1)
    (h1 : value fuel instruments (withVol md id (.parallelBump surface (.val b))) = .ok u)
    (h2 : value fuel instruments (withVol md id (.parallelBump (.parallelBump surface (.val b)) (.val (-2 * b / (1 + b))))) = .ok d)
    {x : Num ℝ × Num ℝ} {p' : SelfPricer} {s' : SavedPrefetch}
    (h : vegaStep (selfPricer fuel) (.flatAdditive (.val b)) v id p .new = (.ok x, p', s')) :
    x = (first u d (.val b), second u d v (.val b)) := by
  have hs' : data md (.vol id) = some surface := hs
  obtain ⟨u', d', k, e⟩ := vegaStep_ok h
  obtain ⟨p1, s1, p2, s2, k1, k2, _, _⟩ := upAndDown_ok k
  obtain ⟨c1, b1, d1, _⟩ := bumpedPrice_ok k1
  obtain ⟨c2, b2, d2, _⟩ := bumpedPrice_ok k2
  obtain ⟨t1, a1⟩ := hp.bump hu (x := .vol id) rfl hs' b1
  have hu1 : (Function.update (data md) (.vol id) (some (bumped (.vol id (.flatAdditive (.val b))) (.vol id) surface))) (.vol id) =
      some (.parallelBump surface (.val b)) := by
    rw [Function.update_self]
    rfl
  obtain ⟨t2, a2⟩ := a1.bump hu (x := .vol id) rfl hu1 b2
  rw [opposite_flat hb] at a2
  have f1 := a1.price (fuel := fuel) (md := withVol md id (.parallelBump surface (.val b))) rfl (by
    intro y
    rw [withVol_data]
    rfl) h1
  have f2 := a2.price (fuel := fuel) (md := withVol md id (.parallelBump (.parallelBump surface (.val b)) (.val (-2 * b / (1 + b))))) rfl (by
    intro y
    rw [withVol_data, Function.update_idem]
    rfl) h2
  have g1 := d1 t1
  have g2 := d2 t2
  change p1.price fuel = _ at g1
  change p2.price fuel = _ at g2
  rw [f1] at g1
  rw [f2] at g2
  cases g1
  cases g2
  rw [e]
  rfl

theorem vega_succeeds {md : MarketData} {b : ℝ} {u d : Num ℝ} {surface : VolSurface} {id : String} {v : Num ℝ} (hp : At instruments md.spotDate (data md) p)
    (hu : Unambiguous (collect md.spotDate instruments)) (hs : md.volSurfaces.get id = some surface) (hb : b ≠ -1)
    (hi : (collect md.spotDate instruments).instruments.get id ≠ none)
    (hf : (collect md.spotDate instruments).forwardCurves.get id ≠ none)
    (hv : (collect md.spotDate instruments).volSurfaces.get id ≠ none)
    (h1 : value fuel instruments (withVol md id (.parallelBump surface (.val b))) = .ok u)
    (h2 : value fuel instruments (withVol md id (.parallelBump (.parallelBump surface (.val b)) (.val (-2 * b / (1 + b))))) = .ok d) :
    ∃ x p' s', vegaStep (selfPricer fuel) (.flatAdditive (.val b)) v id p .new = (.ok x, p', s') := by
  have hs' : data md (.vol id) = some surface := hs
  obtain ⟨n1, hn1, _⟩ := value_new h1
  obtain ⟨n2, hn2, _⟩ := value_new h2
  obtain ⟨p1, s1, b1⟩ := hp.bump_vol hu (b := .flatAdditive (.val b)) hs' hi hf hv (md := withVol md id (.parallelBump surface (.val b))) rfl (by
    intro y; rw [withVol_data]; rfl) hn1 (some .new)
  obtain ⟨_, a1⟩ := hp.bump hu (x := .vol id) rfl hs' b1
  have hu1 : (Function.update (data md) (.vol id) (some (bumped (.vol id (.flatAdditive (.val b))) (.vol id) surface))) (.vol id) =
      some (.parallelBump surface (.val b)) := by
    rw [Function.update_self]
    rfl
  obtain ⟨p2, s2, b2⟩ := a1.bump_vol hu (b := .flatAdditive (.val (-2 * b / (1 + b)))) hu1 hi hf hv
    (md := withVol md id (.parallelBump (.parallelBump surface (.val b)) (.val (-2 * b / (1 + b))))) rfl (by
    intro y
    rw [withVol_data, Function.update_idem]
    rfl) hn2 none
  obtain ⟨_, a2⟩ := a1.bump hu (x := .vol id) rfl hu1 b2
  have f1 := a1.price (fuel := fuel) (md := withVol md id (.parallelBump surface (.val b))) rfl (by
    intro y; rw [withVol_data]; rfl) h1
  have f2 := a2.price (fuel := fuel) (md := withVol md id (.parallelBump (.parallelBump surface (.val b)) (.val (-2 * b / (1 + b))))) rfl (by
    intro y
    rw [withVol_data, Function.update_idem]
    rfl) h2
  have g1 : bumpedPrice (selfPricer fuel) (.vol id (.flatAdditive (.val b))) p (some .new) v = _ :=
    bumpedPrice_of b1 (fun _ => f1) (fun h => by cases h)
  have g2 : bumpedPrice (selfPricer fuel) (.vol id (.flatAdditive (.val (-2 * b / (1 + b))))) p1 none v = _ :=
    bumpedPrice_of b2 (fun _ => f2) (fun h => by cases h)
  unfold vegaStep upAndDown
  rw [opposite_flat hb, g1]
  dsimp only
  rw [g2]
  exact ⟨_, _, _, rfl⟩

end QM.Risk
