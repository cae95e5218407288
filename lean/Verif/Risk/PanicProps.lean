import Verif.Instruments.PanicProps
import Verif.Risk.DeltaProps

/-!
# Property C88, continued: market data, pricers and risk reports do not bring the program down
-/

namespace QM.Risk
open QM.Interp QM.Vol QM.Instruments QM.Fixings QM.Calendar QM.Market QM.Dividends QM.Forward
open QM.Curves (RateCurve BumpYield)

variable {fuel : Nat}

/-! ## Forwards -/

theorem number_safe {x : Outcome (Num ℝ)} (h : x ≠ .error .panic) : number x ≠ .error .panic := by
  match x, h with
  | .error e, h => exact fun e' => h (by cases e'; rfl)
  | .ok .nan, _ => simp [number]
  | .ok (.val v), _ => simp [number]

theorem logDiscount_safe {rate borrow : RateCurve} (h1 : Made rate) (h2 : Made borrow) (d : Int) :
    logDiscountWithBorrow rate borrow d ≠ .error .panic :=
  bind_safe (number_safe (C88_curves h1 d 0).1) (fun _ _ => bind_safe (number_safe (C88_curves h2 d 0).1) (fun _ _ => by
    simp [pure, Except.pure]))

theorem discount_safe {rate borrow : RateCurve} (h1 : Made rate) (h2 : Made borrow) (b : ℝ) (d : Int) :
    discountWithBorrow rate borrow b d ≠ .error .panic :=
  bind_safe (logDiscount_safe h1 h2 d) (fun _ _ => by simp [pure, Except.pure])

theorem sum_safe (field : Accumulation ℝ → ℝ) (b : Bootstrap ℝ) (d : Int) : sumFromBase field b d ≠ .error .panic := by
  unfold sumFromBase
  dsimp only
  split
  · simp
  · split
    · simp
    · split <;> simp

theorem cash_safe (b : Bootstrap ℝ) (d : Int) : b.discountedCashDivsAfter d ≠ .error .panic := by
  unfold Bootstrap.discountedCashDivsAfter
  dsimp only
  split
  · simp
  · split
    · simp
    · split <;> simp

theorem addDividend_safe {spot : ℝ} {df : Int → Outcome ℝ} (h : ∀ d, df d ≠ .error .panic) (d : Dividend ℝ) (s : LoopState ℝ) :
    addDividend spot df d s ≠ .error .panic := by
  unfold addDividend
  refine bind_safe (h _) (fun f _ => ?_)
  dsimp only
  split
  · exact bind_safe (h _) (fun g _ => by simp [pure, Except.pure])
  · simp [pure, Except.pure]

theorem loop_safe {baseDate to_ : Int} {spot : ℝ} {df : Int → Outcome ℝ} (h : ∀ d, df d ≠ .error .panic) (l : List (Dividend ℝ))
    (s : LoopState ℝ) : bootstrapLoop baseDate to_ spot df l s ≠ .error .panic := by
  induction l generalizing s with
  | nil => simp [bootstrapLoop]
  | cons d l ih =>
    unfold bootstrapLoop
    split
    · exact ih s
    · split
      · simp
      · split
        · simp
        · exact bind_safe (addDividend_safe h _ _) (fun _ _ => ih _)

theorem stream_safe {divs : DividendStream} {rate borrow : RateCurve} (h1 : Made rate) (h2 : Made borrow) (spot : ℝ) (baseDate hwm : Int) :
    bootstrapStream divs rate borrow spot baseDate hwm ≠ .error .panic := by
  unfold bootstrapStream Bootstrap.new
  split
  · simp
  · split
    · simp
    · refine bind_safe (bind_safe (logDiscount_safe h1 h2 _) (fun _ _ => by simp [pure, Except.pure])) (fun df hdf => ?_)
      obtain ⟨b, _, hdf⟩ := bind_ok hdf
      have := pure_ok hdf
      subst this
      exact bind_safe (loop_safe (discount_safe h1 h2 b) _ _) (fun _ _ => by simp [pure, Except.pure])

/-- C88. Building an equity forward from curves as the constructors make them, and asking it for forwards or for the dividends
after a date, does not panic: not for any dividends, in any order, and not at any date. -/
theorem C88_forwards (baseDate : Int) (spot : ℝ) (settlement : Int → Int) {rate borrow : RateCurve} {divs : DividendStream}
    (h1 : Made rate) (h2 : Made borrow) (h3 : Made divs.divYield) (hwm : Int) :
    EquityForward.new baseDate spot settlement rate borrow divs hwm ≠ .error .panic ∧
      ∀ f, EquityForward.new baseDate spot settlement rate borrow divs hwm = .ok f →
        ∀ d, f.forward d ≠ .error .panic ∧ f.fixedDivsAfter d ≠ .error .panic := by
  constructor
  · exact bind_safe (logDiscount_safe h1 h2 _) (fun _ _ => bind_safe (discount_safe h1 h2 _ _) (fun _ _ =>
      bind_safe (stream_safe h1 h2 _ _ _) (fun _ _ => by simp [pure, Except.pure])))
  · intro f hf d
    obtain ⟨a, _, hf⟩ := bind_ok hf
    obtain ⟨b, _, hf⟩ := bind_ok hf
    obtain ⟨c, _, hf⟩ := bind_ok hf
    have := pure_ok hf
    subst this
    refine ⟨?_, cash_safe _ _⟩
    exact bind_safe (sum_safe _ _ _) (fun _ _ => bind_safe (logDiscount_safe h1 h2 _) (fun _ _ =>
      bind_safe (number_safe (C88_curves h3 _ 0).1) (fun _ _ => by simp [pure, Except.pure])))

/-! ## Surfaces -/

/-- A calendar that counts the time between any two points. -/
def Steady (c : Cal ℝ) : Prop := ∀ a b : Point, yearFraction c a b ≠ .error .panic

theorem steady_everyDay : Steady .everyDay := by
  intro a b
  unfold yearFraction countBusinessDays
  split <;> simp [Bind.bind, Except.bind, pure, Except.pure]

/-- Flat surfaces, bumped and kept at constant expiries any number of times. -/
inductive Plain : VolSurface → Prop where
  | flat (v : Num ℝ) {c : Cal ℝ} (h : Steady c) (base : Point) : Plain (.flat v c base)
  | constantExpiry {s : VolSurface} (h : Plain s) (offset : ℝ) (base : Point) : Plain (.constantExpiry s offset base)
  | parallelBump {s : VolSurface} (h : Plain s) (b : Num ℝ) : Plain (.parallelBump s b)
  | timeScaledBump {s : VolSurface} (h : Plain s) (b : Num ℝ) (floor : ℝ) : Plain (.timeScaledBump s b floor)

theorem plain_facts {s : VolSurface} (h : Plain s) : Steady s.calendar ∧ s.forward = none ∧ (∀ d, s.displacement d = .ok (.val 0)) ∧
    ∀ t ks, s.volatilities fuel t ks ≠ .error .panic ∧ ∀ T vs, s.volatilities fuel t ks = .ok (T, vs) → vs.length = ks.length := by
  induction h with
  | flat v h base =>
    refine ⟨h, rfl, fun _ => rfl, fun t ks => ⟨bind_safe (h _ _) (fun _ _ => by simp [pure, Except.pure]), fun T vs hv => ?_⟩⟩
    obtain ⟨T', _, hv⟩ := bind_ok hv
    have := pure_ok hv
    cases this
    simp
  | constantExpiry _ offset base ih =>
    obtain ⟨i1, i2, i3, i4⟩ := ih
    refine ⟨i1, i2, i3, fun t ks => ⟨bind_safe (i4 t ks).1 (fun _ _ => by simp [pure, Except.pure]), fun T vs hv => ?_⟩⟩
    obtain ⟨⟨T', out⟩, h1, hv⟩ := bind_ok hv
    have := pure_ok hv
    cases this
    exact (i4 t ks).2 _ _ h1
  | parallelBump _ b ih =>
    obtain ⟨i1, i2, i3, i4⟩ := ih
    refine ⟨i1, i2, i3, fun t ks => ⟨bind_safe (i4 t ks).1 (fun _ _ => by simp [pure, Except.pure]), fun T vs hv => ?_⟩⟩
    obtain ⟨⟨T', out⟩, h1, hv⟩ := bind_ok hv
    have := pure_ok hv
    cases this
    simpa using (i4 t ks).2 _ _ h1
  | timeScaledBump _ b floor ih =>
    obtain ⟨i1, i2, i3, i4⟩ := ih
    refine ⟨i1, i2, i3, fun t ks => ⟨bind_safe (i4 t ks).1 (fun _ _ => by simp [pure, Except.pure]), fun T vs hv => ?_⟩⟩
    obtain ⟨⟨T', out⟩, h1, hv⟩ := bind_ok hv
    have := pure_ok hv
    cases this
    simpa using (i4 t ks).2 _ _ h1

theorem plain_variances {s : VolSurface} (h : Plain s) (t : Point) (ks : List (Num ℝ)) : s.variances fuel t ks ≠ .error .panic ∧
    ∀ vs, s.variances fuel t ks = .ok vs → vs.length = ks.length := by
  obtain ⟨_, _, _, h4⟩ := plain_facts (fuel := fuel) h
  refine ⟨(C88_variances fuel s t ks (h4 t ks).1).1, fun vs hv => ?_⟩
  obtain ⟨⟨T, out⟩, h1, hv⟩ := bind_ok hv
  have := pure_ok hv
  subst this
  simpa using (h4 t ks).2 _ _ h1

theorem first_safe {vs : List (Num ℝ)} (h : vs.length = 1) : Vol.first vs ≠ .error .panic := by
  match vs, h with
  | [v], _ => simp [Vol.first]

/-- C88. A flat surface, bumped and moved in time, does not panic when asked for a forward variance. -/
theorem C88_plain {s : VolSurface} (h : Plain s) (a b : Point) (k : Num ℝ) : s.forwardVariance fuel a b k ≠ .error .panic := by
  have hv := plain_variances (fuel := fuel) h
  obtain ⟨_, h2, _, _⟩ := plain_facts (fuel := fuel) h
  unfold VolSurface.forwardVariance VolSurface.forwardVariances
  split
  · exact bind_safe (hv _ _).1 (fun vs hvs => first_safe ((hv _ _).2 vs hvs))
  · rw [h2]
    refine bind_safe (bind_safe (hv _ _).1 (fun _ _ => bind_safe (hv _ _).1 (fun _ _ => each_safe (fun v _ => ?_)))) (fun vs hvs => ?_)
    · unfold nonNegative
      split <;> simp
    · obtain ⟨v1, e1, hvs⟩ := bind_ok hvs
      obtain ⟨v2, e2, hvs⟩ := bind_ok hvs
      have := each_length hvs
      rw [List.length_zipWith, (hv _ _).2 _ e1, (hv _ _).2 _ e2] at this
      exact first_safe this

/-! ## Market data -/

/-- All that a map holds. -/
def All {V : Type} (P : V → Prop) (m : Map String V) : Prop := ∀ e ∈ m.entries, P e.2

theorem all_get {V : Type} {P : V → Prop} {m : Map String V} (h : All P m) {id : String} {x : V} (hx : m.get id = some x) : P x := by
  unfold Map.get at hx
  cases hf : m.entries.find? (fun e => e.1 = id) with
  | none => rw [hf] at hx; cases hx
  | some e =>
    rw [hf] at hx
    cases hx
    exact h e (List.mem_of_find?_eq_some hf)

theorem all_find {V : Type} {P : V → Prop} {m : Map String V} (h : All P m) {id : String} {x : V} (hx : find id m = .ok x) : P x := by
  unfold find at hx
  split at hx
  · cases hx
  · rename_i y hy
    cases hx
    exact all_get h hy

theorem find_safe {V : Type} (id : String) (m : Map String V) : find id m ≠ .error .panic := by
  unfold find
  split <;> simp

theorem all_insert {V : Type} {P : V → Prop} {m : Map String V} (h : All P m) {id : String} {x : V} (hx : P x) : All P (m.insert id x) := by
  intro e he
  rcases List.mem_cons.1 he with rfl | he
  · exact hx
  · exact h e (List.mem_filter.1 he).1

theorem all_empty {V : Type} {P : V → Prop} : All P (.empty : Map String V) := by
  intro e he
  cases he

/-- Market data as they come: curves as the constructors make them, and flat volatilities. -/
structure Sound (md : MarketData) : Prop where
  yields : All Made md.yieldCurves
  borrows : All Made md.borrowCurves
  divs : All (fun d => Made d.divYield) md.dividends
  vols : All Plain md.volSurfaces

/-- Forwards that do not panic. -/
def Answers (f : Fwd) : Prop := ∀ d, f.forward d ≠ .error .panic

theorem equityForward_safe {md : MarketData} (h : Sound md) (i : Instrument) (hwm : Int) :
    md.equityForward i hwm ≠ .error .panic ∧ ∀ f, md.equityForward i hwm = .ok f → ∀ d, f.forward d ≠ .error .panic := by
  constructor
  · exact bind_safe (find_safe _ _) (fun s _ => bind_safe (find_safe _ _) (fun d hd => bind_safe (find_safe _ _) (fun b hb =>
      bind_safe (find_safe _ _) (fun y hy =>
        (C88_forwards _ _ _ (all_find h.yields hy) (all_find h.borrows hb) (all_find (P := fun d => Made d.divYield) h.divs hd) _).1))))
  · intro f hf d
    obtain ⟨s, _, hf⟩ := bind_ok hf
    obtain ⟨dv, hd, hf⟩ := bind_ok hf
    obtain ⟨b, hb, hf⟩ := bind_ok hf
    obtain ⟨y, hy, hf⟩ := bind_ok hf
    exact ((C88_forwards _ _ _ (all_find h.yields hy) (all_find h.borrows hb) (all_find (P := fun d => Made d.divYield) h.divs hd) _).2
      f hf d).1

theorem forwardCurve_safe {md : MarketData} (h : Sound md) (i : Instrument) (hwm : Int) :
    md.forwardCurve i hwm ≠ .error .panic ∧ ∀ f, md.forwardCurve i hwm = .ok f → Answers f := by
  obtain ⟨h1, h2⟩ := equityForward_safe h i hwm
  refine ⟨bind_safe h1 (fun _ _ => by simp [pure, Except.pure]), ?_⟩
  intro f hf d
  obtain ⟨e, he, hf⟩ := bind_ok hf
  have := pure_ok hf
  subst this
  have := h2 e he d
  show (e.forward d).map Num.val ≠ _
  cases hx : e.forward d with
  | error x => rw [hx] at this; simpa [Except.map] using this
  | ok x => simp [Except.map]

theorem volSurface_safe {md : MarketData} (h : Sound md) (i : Instrument) (hwm : Int) (f : Unit → Outcome Fwd) :
    md.volSurface i hwm f ≠ .error .panic ∧ ∀ s, md.volSurface i hwm f = .ok s → Plain s := by
  have key : ∀ v, Plain v → i.volTimeDynamics.modify v md.spotDate ≠ .error .panic ∧
      ∀ s, i.volTimeDynamics.modify v md.spotDate = .ok s → Plain s := by
    intro v hv
    unfold Instrument.volTimeDynamics VolTimeDynamics.modify
    obtain ⟨c, _, _, _⟩ := plain_facts (fuel := 0) hv
    split
    · exact ⟨by simp, fun s hs => by cases hs; exact hv⟩
    · constructor
      · refine bind_safe (c _ _) (fun _ _ => ?_)
        split <;> simp [pure, Except.pure]
      · intro s hs
        obtain ⟨x, _, hs⟩ := bind_ok hs
        split at hs
        · have := pure_ok hs
          subst this
          exact hv
        · have := pure_ok hs
          subst this
          exact .constantExpiry hv _ _
  have hm : ∀ v, i.volForwardDynamics.modify v f = .ok v := by
    intro v
    unfold Instrument.volForwardDynamics VolForwardDynamics.modify
    rw [if_pos rfl]
  constructor
  · exact bind_safe (find_safe _ _) (fun v hv => bind_safe (key v (all_find h.vols hv)).1 (fun w _ => by rw [hm]; simp))
  · intro s hs
    obtain ⟨v, hv, hs⟩ := bind_ok hs
    obtain ⟨w, hw, hs⟩ := bind_ok hs
    rw [hm] at hs
    cases hs
    exact (key v (all_find h.vols hv)).2 _ hw

/-- C88. Market data as they come do not panic, whatever instrument and date they are asked for. -/
theorem C88_market {md : MarketData} (h : Sound md) : Calm fuel md.pricingContext where
  yield _ _ := find_safe _ _
  curve _ _ _ hy := all_find h.yields hy
  spot _ := find_safe _ _
  forwards i d := (forwardCurve_safe h i d).1
  forward i d f hf := (forwardCurve_safe h i d).2 f hf
  surfaces i d f _ := (volSurface_safe h i d f).1
  displacement i d f v hv t := by
    obtain ⟨_, _, h3, _⟩ := plain_facts (fuel := 0) ((volSurface_safe h i d f).2 v hv)
    rw [h3]
    simp
  variance i d f v hv := C88_plain ((volSurface_safe h i d f).2 v hv)

/-! ## The prefetching context -/

/-- A prefetched context over sound market data. -/
structure SoundP (p : Prefetch) : Prop where
  context : Sound p.context
  forwards : All Answers p.forwardCurves
  vols : All Plain p.volSurfaces

theorem walk_safe {md : MarketData} (h : Sound md) (vols : Map String (Instrument × Int)) (l : List (String × Instrument × Int)) :
    ∀ {fs : Map String Fwd} {vs : Map String VolSurface}, All Answers fs → All Plain vs →
    (walkDependencies md vols l fs vs).1 ≠ .error .panic ∧ All Answers (walkDependencies md vols l fs vs).2.1 ∧
      All Plain (walkDependencies md vols l fs vs).2.2 := by
  induction l with
  | nil => intro fs vs h1 h2; exact ⟨by simp [walkDependencies], h1, h2⟩
  | cons e l ih =>
    intro fs vs h1 h2
    obtain ⟨_, i, hwm⟩ := e
    have hf := forwardCurve_safe h i hwm
    unfold walkDependencies
    cases hfc : md.forwardCurve i hwm with
    | error x => rw [hfc] at hf; exact ⟨by simpa using hf.1, h1, h2⟩
    | ok f =>
      have ha := hf.2 f hfc
      simp only
      cases vols.get i.id with
      | none => exact ih (all_insert h1 ha) h2
      | some y =>
        obtain ⟨_, volHwm⟩ := y
        have hv := volSurface_safe h i volHwm (fun _ => .ok f)
        simp only
        cases hvs : md.volSurface i volHwm (fun _ => .ok f) with
        | error x => rw [hvs] at hv; exact ⟨by simpa using hv.1, h1, h2⟩
        | ok v => exact ih (all_insert h1 ha) (all_insert h2 (hv.2 v hvs))

theorem prefetch_safe {md : MarketData} (h : Sound md) (c : Collector) :
    Prefetch.new md c ≠ .error .panic ∧ ∀ p, Prefetch.new md c = .ok p → SoundP p := by
  obtain ⟨h1, h2, h3⟩ := walk_safe h c.volSurfaces c.forwardCurves.entries (fs := .empty) (vs := .empty) all_empty all_empty
  unfold Prefetch.new
  generalize walkDependencies md c.volSurfaces c.forwardCurves.entries .empty .empty = r at h1 h2 h3
  obtain ⟨o, fs, vs⟩ := r
  cases o with
  | error e => exact ⟨by simpa using h1, fun p hp => by cases hp⟩
  | ok u => exact ⟨by simp, fun p hp => by cases hp; exact ⟨h, h2, h3⟩⟩

/-- C88. Nor does the prefetched context. -/
theorem C88_prefetch {p : Prefetch} (h : SoundP p) : Calm fuel p.pricingContext where
  yield _ _ := find_safe _ _
  curve _ _ _ hy := all_find h.context.yields hy
  spot _ := find_safe _ _
  forwards _ _ := find_safe _ _
  forward _ _ f hf := all_find h.forwards hf
  surfaces _ _ _ _ := find_safe _ _
  displacement i d f v hv t := by
    obtain ⟨_, _, h3, _⟩ := plain_facts (fuel := 0) (all_find h.vols hv)
    rw [h3]
    simp
  variance i d f v hv := C88_plain (all_find h.vols hv)

theorem priceLoop_safe {ctx : PricingContext} (h : Calm fuel ctx) (d : DateTime) (l : List (ℝ × Instrument)) (total : Num ℝ) :
    priceLoop fuel ctx d l total ≠ .error .panic := by
  induction l generalizing total with
  | nil => simp [priceLoop]
  | cons e l ih =>
    obtain ⟨w, i⟩ := e
    unfold priceLoop
    exact bind_safe (C88_price h i d) (fun _ _ => ih _)

/-- C88. On market data as they come, making a pricer for any instruments and asking it for the price give a number or an
error. -/
theorem C88_pricer {md : MarketData} (h : Sound md) (l : List (ℝ × Instrument)) :
    SelfPricer.new l md ≠ .error .panic ∧ ∀ p, SelfPricer.new l md = .ok p → p.price fuel ≠ .error .panic := by
  obtain ⟨h1, h2⟩ := prefetch_safe h (collect md.spotDate l)
  refine ⟨bind_safe h1 (fun _ _ => by simp [pure, Except.pure]), fun p hp => ?_⟩
  obtain ⟨c, hc, hp⟩ := bind_ok hp
  have := pure_ok hp
  subst this
  exact priceLoop_safe (C88_prefetch (h2 c hc)) _ _ _

/-! ## Bumps -/

theorem all_copy {V : Type} {P : V → Prop} {saved : Map String V} (h2 : All P saved) : ∀ {m : Map String V}, All P m →
    All P (copyFromSaved m saved) := by
  have : ∀ (l : List (String × V)), (∀ e ∈ l, P e.2) → ∀ m : Map String V, All P m →
      All P (l.foldl (fun m e => m.insert e.1 e.2) m) := by
    intro l
    induction l with
    | nil => intro _ m h; exact h
    | cons e l ih =>
      intro hl m h
      exact ih (fun x hx => hl x (List.mem_cons_of_mem _ hx)) _ (all_insert h (hl e List.mem_cons_self))
  intro m h
  exact this saved.entries h2 m h

/-- All that a save area may hold. -/
def AllO {V : Type} (P : V → Prop) (m : Option (Map String V)) : Prop := ∀ x, m = some x → All P x

theorem apply_keeps {V : Type} {P : V → Prop} {id : String} {b : V → V} (hb : ∀ x, P x → P (b x)) {m : Map String V} (h : All P m)
    {save : Option (Map String V)} (hs : AllO P save) :
    All P (applyBump id b m save).2.1 ∧ AllO P (applyBump id b m save).2.2 := by
  unfold applyBump
  cases hg : m.get id with
  | none => exact ⟨h, hs⟩
  | some e =>
    refine ⟨all_insert h (hb e (all_get h hg)), ?_⟩
    intro x hx
    cases save with
    | none => cases hx
    | some s => cases hx; exact all_insert (hs s rfl) (all_get h hg)

/-- What a save area of market data holds is sound. -/
structure SoundD (s : SavedData) : Prop where
  yields : All Made s.yieldCurves
  borrows : All Made s.borrowCurves
  divs : All (fun d => Made d.divYield) s.dividends
  vols : All Plain s.volSurfaces

theorem plain_bump (b : BumpVol) {s : VolSurface} (h : Plain s) : Plain (b.apply s) := by
  cases b with
  | flatAdditive size => exact .parallelBump h size
  | timeScaled size floor => exact .timeScaledBump h size floor
  | replace vol => exact .flat vol (plain_facts (fuel := 0) h).1 _

theorem divs_bump (b : BumpDivs) (d : DividendStream) (h : Made d.divYield) : Made (b.apply d).divYield := by
  cases b
  exact .relative h _

theorem allO_getD {V : Type} {P : V → Prop} {m : Option (Map String V)} (h : AllO P m) {d : Map String V} (hd : All P d) :
    All P (m.getD d) := by
  cases m with
  | none => exact hd
  | some x => exact h x rfl

theorem data_bump {md : MarketData} (h : Sound md) (b : Bump) (save : Option SavedData) (hs : ∀ s, save = some s → SoundD s) :
    (md.bump b save).1 ≠ .error .panic ∧ Sound (md.bump b save).2.1 ∧ ∀ s, (md.bump b save).2.2 = some s → SoundD s := by
  have lift : ∀ {V : Type} {P : V → Prop} (g : SavedData → Map String V), (∀ s, SoundD s → All P (g s)) → AllO P (save.map g) := by
    intro V P g hg x hx
    cases save with
    | none => cases hx
    | some s => cases hx; exact hg s (hs s rfl)
  cases b with
  | spot id b =>
    refine ⟨by simp [MarketData.bump], ⟨h.yields, h.borrows, h.divs, h.vols⟩, fun s hx => ?_⟩
    cases save with
    | none => cases hx
    | some s' => cases hx; exact ⟨(hs s' rfl).yields, (hs s' rfl).borrows, (hs s' rfl).divs, (hs s' rfl).vols⟩
  | divs id b =>
    have k := apply_keeps (P := fun d : DividendStream => Made d.divYield) (id := id) (divs_bump b) h.divs
      (lift SavedData.dividends (fun s hs => hs.divs))
    refine ⟨by simp [MarketData.bump], ⟨h.yields, h.borrows, k.1, h.vols⟩, fun s hx => ?_⟩
    cases save with
    | none => cases hx
    | some s' => cases hx; exact ⟨(hs s' rfl).yields, (hs s' rfl).borrows, allO_getD k.2 (hs s' rfl).divs, (hs s' rfl).vols⟩
  | borrow id b =>
    have k := apply_keeps (P := Made) (id := id) (fun x hx => .bumped hx b) h.borrows (lift SavedData.borrowCurves (fun s hs => hs.borrows))
    refine ⟨by simp [MarketData.bump], ⟨h.yields, k.1, h.divs, h.vols⟩, fun s hx => ?_⟩
    cases save with
    | none => cases hx
    | some s' => cases hx; exact ⟨(hs s' rfl).yields, allO_getD k.2 (hs s' rfl).borrows, (hs s' rfl).divs, (hs s' rfl).vols⟩
  | vol id b =>
    have k := apply_keeps (P := Plain) (id := id) (fun x hx => plain_bump b hx) h.vols (lift SavedData.volSurfaces (fun s hs => hs.vols))
    refine ⟨by simp [MarketData.bump], ⟨h.yields, h.borrows, h.divs, k.1⟩, fun s hx => ?_⟩
    cases save with
    | none => cases hx
    | some s' => cases hx; exact ⟨(hs s' rfl).yields, (hs s' rfl).borrows, (hs s' rfl).divs, allO_getD k.2 (hs s' rfl).vols⟩
  | yield id b =>
    have k := apply_keeps (P := Made) (id := id) (fun x hx => .bumped hx b) h.yields (lift SavedData.yieldCurves (fun s hs => hs.yields))
    refine ⟨by simp [MarketData.bump], ⟨k.1, h.borrows, h.divs, h.vols⟩, fun s hx => ?_⟩
    cases save with
    | none => cases hx
    | some s' => cases hx; exact ⟨allO_getD k.2 (hs s' rfl).yields, (hs s' rfl).borrows, (hs s' rfl).divs, (hs s' rfl).vols⟩
  | spotDate b => exact ⟨by simp [MarketData.bump], h, hs⟩

theorem sticky_safe {md : MarketData} (h : Sound md) (d : Int) (c : Collector) (l : List (String × ℝ)) (m : Map String ℝ) :
    stickyLoop md d c l m ≠ .error .panic := by
  induction l generalizing m with
  | nil => simp [stickyLoop]
  | cons e l ih =>
    obtain ⟨id, spot⟩ := e
    unfold stickyLoop
    split
    · rename_i i _
      obtain ⟨h1, h2⟩ := equityForward_safe h i d
      exact bind_safe h1 (fun f hf => bind_safe (h2 f hf d) (fun _ _ => ih _))
    · exact ih _

theorem spotDate_safe {md : MarketData} (h : Sound md) (b : BumpSpotDate) (c : Collector) :
    (md.bumpSpotDate b c).1 ≠ .error .panic ∧ Sound (md.bumpSpotDate b c).2 := by
  unfold MarketData.bumpSpotDate
  split
  · have := sticky_safe h b.spotDate c md.spots.entries .empty
    split
    · rename_i e he
      rw [he] at this
      exact ⟨by simpa using this, h⟩
    · exact ⟨by simp, h.yields, h.borrows, h.divs, h.vols⟩
  · exact ⟨by simp, h.yields, h.borrows, h.divs, h.vols⟩

/-- What a save area of a prefetched context holds is sound. -/
structure SoundS (s : SavedPrefetch) : Prop where
  data : SoundD s.savedData
  forwards : All Answers s.forwardCurves
  vols : All Plain s.volSurfaces

theorem soundS_new : SoundS .new := ⟨⟨all_empty, all_empty, all_empty, all_empty⟩, all_empty, all_empty⟩

/-- A step that does not panic and leaves everything sound. -/
def Keeps {α : Type} (r : Outcome α × Prefetch × Option SavedPrefetch) : Prop :=
  r.1 ≠ .error .panic ∧ SoundP r.2.1 ∧ ∀ s, r.2.2 = some s → SoundS s

theorem refetchForward_keeps {p : Prefetch} (h : SoundP p) (id : String) {fwd : Fwd} (hf : Answers fwd) (i : Instrument)
    {save : Option SavedPrefetch} (hs : ∀ s, save = some s → SoundS s) : Keeps (p.refetchForward id fwd i save) := by
  have hs' : ∀ s, (save.map fun s => { s with forwardCurves := s.forwardCurves.insert id fwd }) = some s → SoundS s := by
    intro s hx
    cases save with
    | none => cases hx
    | some s' => cases hx; exact ⟨(hs s' rfl).data, all_insert (hs s' rfl).forwards hf, (hs s' rfl).vols⟩
  unfold Prefetch.refetchForward
  dsimp only
  split
  · rename_i hwm _
    obtain ⟨h1, h2⟩ := forwardCurve_safe h.context i hwm
    split
    · rename_i f hfc
      exact ⟨by simp, ⟨h.context, all_insert h.forwards (h2 f hfc), h.vols⟩, hs'⟩
    · rename_i e he
      rw [he] at h1
      exact ⟨by simpa using h1, h, hs'⟩
  · exact ⟨by simp, h, hs'⟩

theorem refetchVol_keeps {p : Prefetch} (h : SoundP p) (id : String) (fwd : Fwd) (i : Instrument)
    {save : Option SavedPrefetch} (hs : ∀ s, save = some s → SoundS s) : Keeps (p.refetchVol id fwd i save) := by
  unfold Prefetch.refetchVol
  split
  · exact ⟨by simp, h, hs⟩
  · rename_i vol hvol
    have hs' : ∀ s, (save.map fun s => { s with volSurfaces := s.volSurfaces.insert id vol }) = some s → SoundS s := by
      intro s hx
      cases save with
      | none => cases hx
      | some s' => cases hx; exact ⟨(hs s' rfl).data, (hs s' rfl).forwards, all_insert (hs s' rfl).vols (all_get h.vols hvol)⟩
    dsimp only
    split
    · rename_i hwm _
      obtain ⟨h1, h2⟩ := volSurface_safe h.context i hwm (fun _ => .ok fwd)
      split
      · rename_i v hv
        exact ⟨by simp, ⟨h.context, h.forwards, all_insert h.vols (h2 v hv)⟩, hs'⟩
      · rename_i e he
        rw [he] at h1
        exact ⟨by simpa using h1, h, hs'⟩
    · exact ⟨by simp, h, hs'⟩

theorem keeps_error {α β : Type} {e : Fault} {p : Prefetch} {save : Option SavedPrefetch} (h : Keeps ((.error e : Outcome α), p, save)) :
    Keeps ((.error e : Outcome β), p, save) := ⟨fun he => h.1 (by cases he; rfl), h.2⟩

theorem refetch_keeps {p : Prefetch} (h : SoundP p) (id : String) (b1 b2 : Bool) {save : Option SavedPrefetch}
    (hs : ∀ s, save = some s → SoundS s) : Keeps (p.refetch id b1 b2 save) := by
  unfold Prefetch.refetch
  split
  · exact ⟨by simp, h, hs⟩
  · cases hg : p.forwardCurves.get id with
    | none => exact ⟨by simp, h, hs⟩
    | some fwd =>
      cases hi : p.dependencies.instruments.get id with
      | none => exact ⟨by simp, h, hs⟩
      | some i =>
        have k1 : Keeps (if b1 then p.refetchForward id fwd i save else (.ok (), p, save)) := by
          cases b1
          · exact ⟨by simp, h, hs⟩
          · exact refetchForward_keeps h id (all_get h.forwards hg) i hs
        dsimp only
        generalize (if b1 then p.refetchForward id fwd i save else (.ok (), p, save)) = r at k1
        obtain ⟨o, q, sv⟩ := r
        cases o with
        | error e => exact keeps_error k1
        | ok _ =>
          dsimp only
          obtain ⟨_, hp, hsv⟩ := k1
          have k2 : Keeps (if b2 then q.refetchVol id ((q.forwardCurves.get id).getD fwd) i sv else (.ok (), q, sv)) := by
            cases b2
            · exact ⟨by simp, hp, hsv⟩
            · exact refetchVol_keeps hp id _ i hsv
          generalize (if b2 then q.refetchVol id ((q.forwardCurves.get id).getD fwd) i sv else (.ok (), q, sv)) = r at k2
          obtain ⟨o, q, sv⟩ := r
          cases o with
          | error e => exact keeps_error k2
          | ok _ => exact ⟨by simp, k2.2⟩

theorem refetchAllOf_keeps (b : Bool) (l : List String) : ∀ {p : Prefetch}, SoundP p → ∀ {save : Option SavedPrefetch},
    (∀ s, save = some s → SoundS s) → Keeps (p.refetchAllOf b l save) := by
  induction l with
  | nil => intro p h save hs; exact ⟨by simp [Prefetch.refetchAllOf], h, hs⟩
  | cons id l ih =>
    intro p h save hs
    unfold Prefetch.refetchAllOf
    have k := refetch_keeps h id b false hs
    generalize p.refetch id b false save = r at k
    obtain ⟨o, q, sv⟩ := r
    cases o with
    | error e => exact keeps_error k
    | ok _ => exact ih k.2.1 k.2.2

theorem refetchAll_keeps {p : Prefetch} (h : Sound p.context) : p.refetchAll.1 ≠ .error .panic ∧ SoundP p.refetchAll.2 := by
  obtain ⟨h1, h2, h3⟩ := walk_safe h p.dependencies.volSurfaces p.dependencies.forwardCurves.entries (fs := .empty) (vs := .empty)
    all_empty all_empty
  exact ⟨h1, h, h2, h3⟩

/-- C88. Bumping a context of market data as they come, by any bump, does not panic, and leaves market data of the same kind. -/
theorem C88_bump {p : Prefetch} (h : SoundP p) (b : Bump) {save : Option SavedPrefetch} (hs : ∀ s, save = some s → SoundS s) :
    Keeps (p.bump b save) := by
  have other : ∀ (b : Bump) (f : Bool → Prefetch → Option SavedPrefetch → Outcome Bool × Prefetch × Option SavedPrefetch),
      (∀ a p save, SoundP p → (∀ s, save = some s → SoundS s) → Keeps (f a p save)) →
      Keeps (match (p.context.bump b (save.map SavedPrefetch.savedData)).1 with
        | .error e => (.error e, { p with context := (p.context.bump b (save.map SavedPrefetch.savedData)).2.1 },
            save.map fun s => { s with savedData := (p.context.bump b (save.map SavedPrefetch.savedData)).2.2.getD s.savedData })
        | .ok bumped => f bumped { p with context := (p.context.bump b (save.map SavedPrefetch.savedData)).2.1 }
            (save.map fun s => { s with savedData := (p.context.bump b (save.map SavedPrefetch.savedData)).2.2.getD s.savedData })) := by
    intro b f hf
    obtain ⟨h1, h2, h3⟩ := data_bump h.context b (save.map SavedPrefetch.savedData) (by
      intro s hx
      cases save with
      | none => cases hx
      | some s' => cases hx; exact (hs s' rfl).data)
    generalize p.context.bump b (save.map SavedPrefetch.savedData) = r at h1 h2 h3
    obtain ⟨o, md, sv⟩ := r
    have hp : SoundP { p with context := md } := ⟨h2, h.forwards, h.vols⟩
    have hsv : ∀ s, (save.map fun s => { s with savedData := sv.getD s.savedData }) = some s → SoundS s := by
      intro s hx
      cases save with
      | none => cases hx
      | some s' =>
        cases hx
        refine ⟨?_, (hs s' rfl).forwards, (hs s' rfl).vols⟩
        cases sv with
        | none => exact (hs s' rfl).data
        | some x => exact h3 x rfl
    cases o with
    | error e => exact ⟨fun he => h1 (by cases he; rfl), hp, hsv⟩
    | ok bumped => exact hf bumped _ _ hp hsv
  cases b with
  | spot id b => exact other (.spot id b) (fun bumped p save => p.refetch id bumped false save) (fun _ _ _ hp hsv => refetch_keeps hp _ _ _ hsv)
  | divs id b => exact other (.divs id b) (fun bumped p save => p.refetch id bumped false save) (fun _ _ _ hp hsv => refetch_keeps hp _ _ _ hsv)
  | vol id b => exact other (.vol id b) (fun bumped p save => p.refetch id false bumped save) (fun _ _ _ hp hsv => refetch_keeps hp _ _ _ hsv)
  | borrow id b => exact other (.borrow id b) (fun bumped p save => p.refetch id bumped false save) (fun _ _ _ hp hsv => refetch_keeps hp _ _ _ hsv)
  | yield id b =>
    refine other (.yield id b) (fun bumped p save =>
      match p.refetchAllOf bumped ((p.dependencies.forwardIds.get id).getD []) save with
      | (.error e, p, save) => (.error e, p, save)
      | (.ok (), p, save) => (.ok bumped, p, save)) (fun bumped p save hp hsv => ?_)
    have k := refetchAllOf_keeps bumped ((p.dependencies.forwardIds.get id).getD []) hp hsv
    generalize p.refetchAllOf bumped ((p.dependencies.forwardIds.get id).getD []) save = r at k
    obtain ⟨o, q, sv⟩ := r
    cases o with
    | error e => exact keeps_error k
    | ok _ => exact ⟨by simp, k.2⟩
  | spotDate b =>
    unfold Prefetch.bump
    dsimp only
    split
    · obtain ⟨h1, h2⟩ := spotDate_safe h.context b p.dependencies
      generalize p.context.bumpSpotDate b p.dependencies = r at h1 h2
      obtain ⟨o, md⟩ := r
      cases o with
      | error e => exact ⟨fun he => h1 (by cases he; rfl), ⟨h2, h.forwards, h.vols⟩, hs⟩
      | ok u =>
        dsimp only
        obtain ⟨k1, k2⟩ := refetchAll_keeps (p := { p with context := md }) h2
        generalize Prefetch.refetchAll { p with context := md } = r at k1 k2
        obtain ⟨o, q⟩ := r
        cases o with
        | error e => exact ⟨fun he => k1 (by cases he; rfl), k2, hs⟩
        | ok u => exact ⟨by simp, k2, hs⟩
    · exact ⟨by simp, h, hs⟩

theorem restore_sound {p : Prefetch} (h : SoundP p) {s : SavedPrefetch} (hs : SoundS s) : SoundP (p.restore s) :=
  ⟨⟨all_copy hs.data.yields h.context.yields, all_copy hs.data.borrows h.context.borrows, all_copy hs.data.divs h.context.divs,
    all_copy hs.data.vols h.context.vols⟩, all_copy hs.forwards h.forwards, all_copy hs.vols h.vols⟩

/-! ## Moving the date -/

theorem table_get_safe (table : FixingTable ℝ) (id : String) (t : DateTime) : table.get id t ≠ .error .panic := by
  unfold FixingTable.get
  split
  · simp
  · split <;> simp

theorem fixSpot_safe (table : FixingTable ℝ) (v : Vanilla) (u : Instrument) (k : ℝ) : fixSpotStarting table v u k ≠ .error .panic :=
  bind_safe (table_get_safe _ _ _) (fun o _ => by cases o <;> simp [pure, Except.pure])

mutual
/-- C88. Fixing an instrument does not panic. -/
theorem C88_fix (table : FixingTable ℝ) : ∀ i : Instrument, i.fix table ≠ .error .panic
  | .currency _ _ => by simp [Instrument.fix]
  | .creditEntity _ _ => by simp [Instrument.fix]
  | .equity _ _ _ => by simp [Instrument.fix]
  | .zeroCoupon _ _ _ _ _ => by simp [Instrument.fix]
  | .spotStarting v u k => by unfold Instrument.fix; exact fixSpot_safe _ _ _ _
  | .forwardStarting v u k d _ => by
    unfold Instrument.fix
    refine bind_safe (table_get_safe _ _ _) (fun o _ => ?_)
    cases o with
    | none => simp [pure, Except.pure]
    | some f => exact bind_safe (fixSpot_safe _ _ _ _) (fun o _ => by cases o <;> simp [pure, Except.pure])
  | .basket _ _ _ parts => by
    unfold Instrument.fix
    refine bind_safe (fixLoop_safe table parts parts _) (fun s _ => ?_)
    cases s.result <;> simp [pure, Except.pure]

theorem fixLoop_safe (table : FixingTable ℝ) (all : List (ℝ × Instrument)) : ∀ (l : List (ℝ × Instrument)) (s : FixState),
    fixLoop table all l s ≠ .error .panic
  | [], s => by simp [fixLoop]
  | (w, i) :: rest, s => by
    unfold fixLoop
    exact bind_safe (C88_fix table i) (fun _ _ => fixLoop_safe table all rest _)
end

theorem fixingsLoop_safe {V : Type} (l : List (DateTime × V)) (m : Fixings V) : fixingsLoop m l ≠ .error .panic := by
  induction l generalizing m with
  | nil => simp [fixingsLoop]
  | cons e l ih =>
    unfold fixingsLoop
    split
    · simp
    · exact ih _

theorem fromLoop_safe {V : Type} (l : List (String × List (DateTime × V))) (t : FixingTable V) : fromLoop t l ≠ .error .panic := by
  induction l generalizing t with
  | nil => simp [fromLoop]
  | cons e l ih =>
    unfold fromLoop
    refine bind_safe (fixingsLoop_safe _ _) (fun c _ => ?_)
    unfold FixingTable.insert
    cases t.byId.get e.1 with
    | none => exact ih _
    | some _ => simp

theorem fixingsOf_safe {ctx : PricingContext} (h : Calm fuel ctx) (b : BumpSpotDate) (id : String) (i : Instrument) (l : List DateTime) :
    fixingsOf ctx b id i l ≠ .error .panic := by
  induction l with
  | nil => simp [fixingsOf]
  | cons e l ih =>
    unfold fixingsOf
    split
    · refine bind_safe ?_ (fun _ _ => bind_safe ih (fun _ _ => by simp [pure, Except.pure]))
      unfold fixingValue
      split
      · refine bind_safe (h.forwards _ _) (fun f hf => bind_safe (h.forward _ _ f hf _) (fun x _ => ?_))
        cases x <;> simp [pure, Except.pure]
      · exact h.spot _
    · exact ih

theorem fixingMap_safe {ctx : PricingContext} (h : Calm fuel ctx) (b : BumpSpotDate) (c : Collector) (l : List (String × Instrument)) :
    fixingMap ctx b c l ≠ .error .panic := by
  induction l with
  | nil => simp [fixingMap]
  | cons e l ih =>
    obtain ⟨id, i⟩ := e
    unfold fixingMap
    refine bind_safe (fixingsOf_safe h _ _ _ _) (fun _ _ => bind_safe ih (fun _ _ => ?_))
    split <;> simp [pure, Except.pure]

theorem update_safe {ctx : PricingContext} (h : Calm fuel ctx) (b : BumpSpotDate) (l : List (ℝ × Instrument)) (c : Collector) :
    updateInstruments b l ctx c ≠ .error .panic := by
  unfold updateInstruments
  refine bind_safe (fixingMap_safe h _ _ _) (fun f _ => ?_)
  split
  · simp [pure, Except.pure]
  · refine bind_safe (fromLoop_safe _ _) (fun t _ => bind_safe (bind_safe (fixLoop_safe _ _ _ _) (fun _ _ => by simp [pure, Except.pure])) (fun o _ => ?_))
    cases o <;> simp [pure, Except.pure]

theorem bumpTime_safe {p : SelfPricer} (h : SoundP p.context) (b : BumpTime) :
    (p.bumpTime b).1 ≠ .error .panic ∧ SoundP (p.bumpTime b).2.context := by
  have hu := update_safe (C88_prefetch (fuel := 0) h) b.spotDateBump p.instruments p.context.dependencies
  unfold SelfPricer.bumpTime
  generalize updateInstruments b.spotDateBump p.instruments p.context.pricingContext p.context.dependencies = r at hu
  cases r with
  | error e => exact ⟨fun he => hu (by cases he; rfl), h⟩
  | ok x =>
    obtain ⟨modified, instruments⟩ := x
    dsimp only
    obtain ⟨k1, k2, _⟩ := C88_bump h (.spotDate b.spotDateBump) (save := none) (fun s hx => by cases hx)
    generalize p.context.bump (.spotDate b.spotDateBump) none = r at k1 k2
    obtain ⟨o, ctx, sv⟩ := r
    cases o with
    | error e => exact ⟨fun he => k1 (by cases he; rfl), k2⟩
    | ok _ =>
      dsimp only
      split
      · obtain ⟨n1, n2⟩ := prefetch_safe k2.context (collect ctx.context.spotDate instruments)
        cases hn : SelfPricer.new instruments ctx.context with
        | error e =>
          refine ⟨fun he => ?_, k2⟩
          have := (C88_pricer (fuel := 0) k2.context instruments).1
          rw [hn] at this
          exact this (by cases he; rfl)
        | ok q =>
          obtain ⟨c, hc, hq⟩ := bind_ok hn
          have := pure_ok hq
          subst this
          exact ⟨by simp, n2 c hc⟩
      · exact ⟨by simp, k2⟩

/-! ## Reports -/

/-- A pricer that keeps to states in which it does not panic. -/
structure Behaves {σ S : Type} (P : Pricer σ S) (G : σ → Prop) (GS : S → Prop) : Prop where
  bump : ∀ b p save, G p → (∀ s, save = some s → GS s) →
    (P.bump b p save).1 ≠ .error .panic ∧ G (P.bump b p save).2.1 ∧ ∀ s, (P.bump b p save).2.2 = some s → GS s
  restore : ∀ p s, G p → GS s → G (P.restore p s)
  newSave : GS P.newSave
  price : ∀ p, G p → P.price p ≠ .error .panic
  spot : ∀ p id, G p → P.spot p id ≠ .error .panic
  bumpTime : ∀ b p, G p → (P.bumpTime b p).1 ≠ .error .panic ∧ ((P.bumpTime b p).1 = .ok () → G (P.bumpTime b p).2)

section Reports
variable {σ S : Type} {P : Pricer σ S} {G : σ → Prop} {GS : S → Prop}

theorem bumped_behaves (h : Behaves P G GS) (b : Bump) {p : σ} (hp : G p) {save : Option S} (hs : ∀ s, save = some s → GS s) (u : Num ℝ) :
    (bumpedPrice P b p save u).1 ≠ .error .panic ∧ G (bumpedPrice P b p save u).2.1 ∧ ∀ s, (bumpedPrice P b p save u).2.2 = some s → GS s := by
  unfold bumpedPrice
  obtain ⟨h1, h2, h3⟩ := h.bump b p save hp hs
  generalize P.bump b p save = r at h1 h2 h3
  obtain ⟨o, q, sv⟩ := r
  match o, h1 with
  | .error e, h1 => exact ⟨fun he => h1 (by cases he; rfl), h2, h3⟩
  | .ok true, _ => exact ⟨h.price _ h2, h2, h3⟩
  | .ok false, _ => exact ⟨by simp, h2, h3⟩

theorem upDown_behaves (h : Behaves P G GS) (up down : Bump) {p : σ} (hp : G p) {s : S} (hs : GS s) (u : Num ℝ) :
    (upAndDown P up down p s u).1 ≠ .error .panic ∧ G (upAndDown P up down p s u).2.1 ∧ GS (upAndDown P up down p s u).2.2 := by
  unfold upAndDown
  obtain ⟨h1, h2, h3⟩ := bumped_behaves h up hp (save := some s) (fun s' hx => by cases hx; exact hs) u
  generalize bumpedPrice P up p (some s) u = r at h1 h2 h3
  obtain ⟨o, q, sv⟩ := r
  have hg : GS (sv.getD s) := by
    cases sv with
    | none => exact hs
    | some x => exact h3 x rfl
  cases o with
  | error e => exact ⟨fun he => h1 (by cases he; rfl), h2, hg⟩
  | ok x =>
    dsimp only
    obtain ⟨k1, k2, _⟩ := bumped_behaves h down h2 (save := none) (fun s' hx => by cases hx) u
    generalize bumpedPrice P down q none u = r at k1 k2
    obtain ⟨o, q', sv'⟩ := r
    cases o with
    | error e => exact ⟨fun he => k1 (by cases he; rfl), k2, hg⟩
    | ok y => exact ⟨by simp, h.restore _ _ k2 hg, h.newSave⟩

theorem delta_behaves (h : Behaves P G GS) (b : ℝ) (u : Num ℝ) (l : List String) : ∀ {p : σ}, G p → ∀ {s : S}, GS s → ∀ m,
    (deltaGammaLoop P b u l p s m).1 ≠ .error .panic ∧ G (deltaGammaLoop P b u l p s m).2.1 ∧ GS (deltaGammaLoop P b u l p s m).2.2 := by
  induction l with
  | nil => intro p hp s hs m; exact ⟨by simp [deltaGammaLoop], hp, hs⟩
  | cons id l ih =>
    intro p hp s hs m
    unfold deltaGammaLoop
    have hsp := h.spot p id hp
    cases hx : P.spot p id with
    | error e => rw [hx] at hsp; exact ⟨fun he => hsp (by cases he; rfl), hp, hs⟩
    | ok spot =>
      dsimp only
      obtain ⟨h1, h2, h3⟩ := upDown_behaves h (.spot id (.relative b)) (.spot id (.relative ((1 - b) / (1 + b) - 1))) hp hs u
      generalize upAndDown P (.spot id (.relative b)) (.spot id (.relative ((1 - b) / (1 + b) - 1))) p s u = r at h1 h2 h3
      obtain ⟨o, q, sv⟩ := r
      cases o with
      | error e => exact ⟨fun he => h1 (by cases he; rfl), h2, h3⟩
      | ok x => exact ih h2 h3 _

theorem vega_behaves (h : Behaves P G GS) (b : BumpVol) (u : Num ℝ) (l : List String) : ∀ {p : σ}, G p → ∀ {s : S}, GS s → ∀ m,
    (vegaVolgaLoop P b u l p s m).1 ≠ .error .panic ∧ G (vegaVolgaLoop P b u l p s m).2.1 ∧ GS (vegaVolgaLoop P b u l p s m).2.2 := by
  induction l with
  | nil => intro p hp s hs m; exact ⟨by simp [vegaVolgaLoop], hp, hs⟩
  | cons id l ih =>
    intro p hp s hs m
    unfold vegaVolgaLoop
    obtain ⟨h1, h2, h3⟩ := upDown_behaves h (.vol id b) (.vol id b.opposite) hp hs u
    generalize upAndDown P (.vol id b) (.vol id b.opposite) p s u = r at h1 h2 h3
    obtain ⟨o, q, sv⟩ := r
    cases o with
    | error e => exact ⟨fun he => h1 (by cases he; rfl), h2, h3⟩
    | ok x => exact ih h2 h3 _

mutual
theorem generate_behaves (h : Behaves P G GS) : ∀ (g : Generator) {p : σ}, G p → ∀ {s : S}, GS s → ∀ u,
    (generate P g p s u).1 ≠ .error .panic ∧ G (generate P g p s u).2.1 ∧ GS (generate P g p s u).2.2
  | .deltaGamma b, p, hp, s, hs, u => by
    unfold generate
    obtain ⟨h1, h2, h3⟩ := delta_behaves h b u (P.ids p) hp hs .empty
    generalize deltaGammaLoop P b u (P.ids p) p s .empty = r at h1 h2 h3
    obtain ⟨o, q, sv⟩ := r
    cases o with
    | error e => exact ⟨fun he => h1 (by cases he; rfl), h2, h3⟩
    | ok x => exact ⟨by simp, h2, h3⟩
  | .vegaVolga b, p, hp, s, hs, u => by
    unfold generate
    obtain ⟨h1, h2, h3⟩ := vega_behaves h b u (P.ids p) hp hs .empty
    generalize vegaVolgaLoop P b u (P.ids p) p s .empty = r at h1 h2 h3
    obtain ⟨o, q, sv⟩ := r
    cases o with
    | error e => exact ⟨fun he => h1 (by cases he; rfl), h2, h3⟩
    | ok x => exact ⟨by simp, h2, h3⟩
  | .timeBumped b subs, p, hp, s, hs, u => by
    unfold generate
    obtain ⟨h1, h2⟩ := h.bumpTime b p hp
    generalize P.bumpTime b p = r at h1 h2
    obtain ⟨o, q⟩ := r
    cases o with
    | error e => exact ⟨fun he => h1 (by cases he; rfl), hp, hs⟩
    | ok x =>
      replace h2 := h2 rfl
      dsimp only at h2 ⊢
      have hpr := h.price q h2
      cases hx : P.price q with
      | error e => rw [hx] at hpr; exact ⟨fun he => hpr (by cases he; rfl), hp, hs⟩
      | ok v =>
        dsimp only
        obtain ⟨k1, k2, k3⟩ := generateAll_behaves h subs h2 hs v
        generalize generateAll P subs q s v = r at k1 k2 k3
        obtain ⟨o, q', sv⟩ := r
        cases o with
        | error e => exact ⟨fun he => k1 (by cases he; rfl), hp, k3⟩
        | ok y => exact ⟨by simp, hp, k3⟩

theorem generateAll_behaves (h : Behaves P G GS) : ∀ (l : List Generator) {p : σ}, G p → ∀ {s : S}, GS s → ∀ u,
    (generateAll P l p s u).1 ≠ .error .panic ∧ G (generateAll P l p s u).2.1 ∧ GS (generateAll P l p s u).2.2
  | [], p, hp, s, hs, u => ⟨by simp [generateAll], hp, hs⟩
  | g :: rest, p, hp, s, hs, u => by
    unfold generateAll
    obtain ⟨h1, h2, h3⟩ := generate_behaves h g hp hs u
    generalize generate P g p s u = r at h1 h2 h3
    obtain ⟨o, q, sv⟩ := r
    cases o with
    | error e => exact ⟨fun he => h1 (by cases he; rfl), h2, h3⟩
    | ok x =>
      dsimp only
      obtain ⟨k1, k2, k3⟩ := generateAll_behaves h rest h2 h3 u
      generalize generateAll P rest q sv u = r at k1 k2 k3
      obtain ⟨o, q', sv'⟩ := r
      cases o with
      | error e => exact ⟨fun he => k1 (by cases he; rfl), k2, k3⟩
      | ok y => exact ⟨by simp, k2, k3⟩
end

end Reports

theorem selfPricer_behaves : Behaves (selfPricer fuel) (fun p => SoundP p.context) SoundS where
  bump b p save hp hs := C88_bump hp b hs
  restore p s hp hs := restore_sound hp hs
  newSave := soundS_new
  price p hp := priceLoop_safe (C88_prefetch hp) _ _ _
  spot p id _ := find_safe _ _
  bumpTime b p hp := ⟨(bumpTime_safe hp b).1, fun _ => (bumpTime_safe hp b).2⟩

/-- C88. On market data as they come, pricing any instrument with any past fixings and asking for any risk reports, nested to any
depth, gives the reports or an error: it does not panic. -/
theorem C88_reports {md : MarketData} (h : Sound md) (i : Instrument) (table : FixingTable ℝ) (reports : List Generator) :
    calculate (selfPricer fuel) (selfPricerFactory i table md) reports ≠ .error .panic := by
  have hnew : ∀ l, SelfPricer.new l md ≠ .error .panic ∧ ∀ p, SelfPricer.new l md = .ok p → SoundP p.context := by
    intro l
    refine ⟨(C88_pricer (fuel := 0) h l).1, fun p hp => ?_⟩
    obtain ⟨c, hc, hp⟩ := bind_ok hp
    have := pure_ok hp
    subst this
    exact (prefetch_safe h _).2 c hc
  refine bind_safe (bind_safe (C88_fix table i) (fun o _ => ?_)) (fun p hp => ?_)
  · cases o
    · exact (hnew _).1
    · exact (hnew _).1
  · have hs : SoundP p.context := by
      obtain ⟨o, _, hp⟩ := bind_ok hp
      cases o
      · exact (hnew _).2 p hp
      · exact (hnew _).2 p hp
    exact bind_safe (selfPricer_behaves.price p hs) (fun v _ => (generateAll_behaves selfPricer_behaves reports hs soundS_new v).1)

/-- C88: the sample market meets the hypotheses, with a curve of two points. -/
example {c : RateCurve} (h : RateCurve.newAct365 0 [(0, 0.01), (365, 0.02)] .flat .flat = .ok c) : Sound (sampleMarket 100 c) := by
  refine ⟨?_, ?_, ?_, ?_⟩ <;> intro e he <;> obtain rfl := List.mem_singleton.1 he
  · exact .act365 h
  · exact .zero 0
  · exact .zero 0
  · exact .flat _ steady_everyDay _

end QM.Risk
