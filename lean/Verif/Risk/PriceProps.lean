import Verif.Risk.ReportProps
import Verif.Market.ContextProps
import Verif.Fixings.Lemmas
import Verif.Instruments.DependencyProps

/-!
# Properties C77 and C78: what a pricer says a portfolio is worth, and the fixings made when the date moves
-/

namespace QM.Risk
open QM.Interp QM.Vol QM.Fixings QM.Instruments QM.Instruments.Spec QM.Market QM.Market.Spec QM.Risk.Spec

variable {fuel : Nat} {instruments : List (ℝ × Instrument)} {md : MarketData} {p p' : SelfPricer}

/-! ## C77 -/

theorem add_weighted (w : ℝ) (a v t : Num ℝ) :
    num2 (· + ·) (num2 (· + ·) a (num1 (w * ·) v)) t = num2 (· + ·) a (match v with | .nan => .nan | .val v => num1 (fun s => w * v + s) t) := by
  cases a <;> cases v <;> cases t <;> simp [num1, num2, add_assoc]

theorem weightedSum_cons (w : ℝ) (v : Num ℝ) (rest : List (ℝ × Num ℝ)) :
    weightedSum ((w, v) :: rest) = (match v with | .nan => .nan | .val v => num1 (fun s => w * v + s) (weightedSum rest)) := by
  cases v <;> rfl

theorem priceLoop_iff {ctx : PricingContext} {date : DateTime} {x : Num ℝ} : ∀ {total : Num ℝ},
    priceLoop fuel ctx date instruments total = .ok x ↔
      ∃ vs, List.Forall₂ (fun e v => e.2.price fuel ctx date = .ok v) instruments vs ∧
        x = num2 (· + ·) total (weightedSum (List.zipWith (fun e v => (e.1, v)) instruments vs)) := by
  induction instruments with
  | nil =>
    intro total
    rw [priceLoop]
    constructor
    · intro h
      refine ⟨[], .nil, ?_⟩
      rw [← Except.ok.inj h]
      cases total <;> simp [weightedSum, num2]
    · rintro ⟨vs, h1, h2⟩
      cases h1
      rw [h2]
      cases total <;> simp [weightedSum, num2]
  | cons e rest ih =>
    obtain ⟨w, i⟩ := e
    intro total
    rw [priceLoop]
    constructor
    · intro h
      obtain ⟨v, h1, h2⟩ := bind_ok h
      obtain ⟨vs, h3, h4⟩ := ih.1 h2
      refine ⟨v :: vs, .cons h1 h3, ?_⟩
      rw [h4, List.zipWith_cons_cons, weightedSum_cons, add_weighted]
    · rintro ⟨vs, h1, h2⟩
      cases h1 with
      | cons h3 h4 =>
        rw [h3, ok_bind, ih]
        refine ⟨_, h4, ?_⟩
        rw [h2, List.zipWith_cons_cons, weightedSum_cons, add_weighted]

theorem num_zero_add (x : Num ℝ) : num2 (· + ·) (.val 0) x = x := by
  cases x <;> simp [num2]

/-- C77. A pricer says that its portfolio is worth the sum of what the instruments are worth at the open of the spot date, times their
weights, and fails if one of them cannot be valued. -/
theorem C77_weighted {x : Num ℝ} : p.price fuel = .ok x ↔
    ∃ vs, List.Forall₂ (fun e v => e.2.price fuel p.context.pricingContext ⟨p.context.context.spotDate, .open⟩ = .ok v) p.instruments vs ∧
      x = weightedSum (List.zipWith (fun e v => (e.1, v)) p.instruments vs) := by
  unfold SelfPricer.price
  rw [priceLoop_iff]
  simp only [num_zero_add]

theorem forall2_congr {α β : Type} {R S : α → β → Prop} {xs : List α} {ys : List β} (h : ∀ x ∈ xs, ∀ y, R x y ↔ S x y) :
    List.Forall₂ R xs ys ↔ List.Forall₂ S xs ys :=
  ⟨fun k => forall2_map k (fun x hx y hr => (h x hx y).1 hr), fun k => forall2_map k (fun x hx y hr => (h x hx y).2 hr)⟩

/-- C77 in the market, partial: a pricer values its portfolio at the sum of what the instruments are worth in the market data it was made
from, times their weights. What is missing is equities inside options other than as their underlying, options that start after they expire, and
underlyings that share their id with another. -/
theorem C77_market_partial (hp : SelfPricer.new instruments md = .ok p) (ho : Orderly md)
    (hk : ∀ e ∈ instruments, Covered md.spotDate e.2 [⟨md.spotDate, .open⟩])
    (hu : ∀ e ∈ instruments, ∀ u ∈ underlyings e.2, ∀ j hwm,
      (collect md.spotDate instruments).forwardCurves.get u.id = some (j, hwm) → j = u) {x : Num ℝ} :
    p.price fuel = .ok x ↔ ∃ vs, List.Forall₂ (fun e v => e.2.price fuel md.pricingContext ⟨md.spotDate, .open⟩ = .ok v) instruments vs ∧
      x = weightedSum (List.zipWith (fun e v => (e.1, v)) instruments vs) := by
  obtain ⟨rfl, h2⟩ := new_self hp
  have hc := (new_context h2).1
  rw [C77_weighted]
  refine exists_congr fun vs => and_congr_left fun _ => forall2_congr fun e he v => ?_
  rw [collect_runs] at h2 hu
  rw [hc, Instrument.price, Instrument.price,
    C76_prices_partial ho h2 (List.mem_map.2 ⟨e, he, rfl⟩) (hk e he) (hu e he) fuel]

/-- C77. What the factory makes is a pricer on the market data it was given. It is for the instrument alone, held once, if the past fixings
change nothing about it, and otherwise for what they turn it into. -/
theorem C77_factory {i : Instrument} {table : FixingTable ℝ} (h : selfPricerFactory i table md = .ok p) :
    p.context.context = md ∧ ((i.fix table = .ok none ∧ p.instruments = [(1, i)]) ∨ i.fix table = .ok (some p.instruments)) := by
  unfold selfPricerFactory at h
  obtain ⟨o, h1, h2⟩ := bind_ok h
  cases o with
  | none =>
    obtain ⟨h3, h4⟩ := new_self h2
    exact ⟨(new_context h4).1, .inl ⟨h1, h3⟩⟩
  | some parts =>
    obtain ⟨h3, h4⟩ := new_self h2
    exact ⟨(new_context h4).1, .inr (by rw [h3]; exact h1)⟩

/-- C77 for one instrument, partial: if the past fixings change nothing about it, the pricer that the factory makes gives its value in the
market data. -/
theorem C77_single_partial {i : Instrument} {table : FixingTable ℝ} (h : selfPricerFactory i table md = .ok p) (hf : i.fix table = .ok none)
    (ho : Orderly md) (hk : Covered md.spotDate i [⟨md.spotDate, .open⟩])
    (hu : ∀ u ∈ underlyings i, ∀ j hwm, (collect md.spotDate [(1, i)]).forwardCurves.get u.id = some (j, hwm) → j = u) {x : Num ℝ} :
    p.price fuel = .ok x ↔ i.price fuel md.pricingContext ⟨md.spotDate, .open⟩ = .ok x := by
  have hp : SelfPricer.new [(1, i)] md = .ok p := by
    unfold selfPricerFactory at h
    rw [hf] at h
    exact h
  rw [C77_market_partial hp ho (by simpa using hk) (by simpa using hu)]
  constructor
  · rintro ⟨vs, h1, h2⟩
    cases h1 with
    | cons h3 h4 =>
      cases h4
      rw [h3, h2]
      rename_i v
      cases v <;> simp [weightedSum, num1]
  · intro h
    refine ⟨[x], .cons h .nil, ?_⟩
    cases x <;> simp [weightedSum, num1]

/-- C77: an option in the sample market meets the conditions. -/
example : ∃ p, selfPricerFactory (optionA 90) (.new 0) (sampleMarket 100 (.zero 0)) = .ok p ∧ (optionA 90).fix (.new 0) = .ok none ∧
    Orderly (sampleMarket 100 (.zero 0)) ∧ Covered 0 (optionA 90) [⟨0, .open⟩] ∧
    ∀ u ∈ underlyings (optionA 90), ∀ j hwm, (collect 0 [(1, optionA 90)]).forwardCurves.get u.id = some (j, hwm) → j = u := by
  have hf : (optionA 90).fix (.new 0) = .ok none := rfl
  obtain ⟨c, hc⟩ := sample_built 100
  refine ⟨⟨[(1, optionA 90)], c⟩, ?_, hf, sample_orderly 100, ?_, ?_⟩
  · unfold selfPricerFactory
    rw [hf]
    exact new_self_of (md := sampleMarket 100 (.zero 0)) (instruments := [(1, optionA 90)]) hc
  · unfold optionA
    rw [Covered]
    exact .inl trivial
  · intro u hu j hwm h
    have e : u = equityA := by
      unfold optionA at hu
      rw [underlyings, show underlyings equityA = [] by unfold equityA; rw [underlyings]] at hu
      exact List.mem_singleton.1 hu
    subst e
    have h' : some (equityA, (10 : Int)) = some (j, hwm) := h
    cases h'
    rfl

/-! ## C78 -/

/-- Collecting dependencies makes known the instruments whose fixings are declared. -/
structure Grows (c c' : Collector) : Prop where
  known : ∀ id, c.instruments.get id ≠ none → c'.instruments.get id ≠ none
  fixings : ∀ id, ∀ dt ∈ (c'.fixings.get id).getD [], dt ∈ (c.fixings.get id).getD [] ∨ c'.instruments.get id ≠ none
  distinct : Distinct c.instruments → Distinct c'.instruments

theorem Grows.refl (c : Collector) : Grows c c := ⟨fun _ h => h, fun _ _ h => .inl h, fun h => h⟩

theorem Grows.trans {a b c : Collector} (h : Grows a b) (h' : Grows b c) : Grows a c :=
  ⟨fun id k => h'.known id (h.known id k), fun id dt k => by
    rcases h'.fixings id dt k with k | k
    · rcases h.fixings id dt k with k | k
      · exact .inl k
      · exact .inr (h'.known id k)
    · exact .inr k, fun k => h'.distinct (h.distinct k)⟩

theorem insert_known {c : Collector} (i : Instrument) (id : String) (h : c.instruments.get id ≠ none ∨ id = i.id) :
    (c.instruments.insert i.id i).get id ≠ none := by
  rw [Map.get_insert]
  split
  · simp
  · rename_i hne
    rcases h with h | h
    · exact h
    · exact absurd h (by simpa [eq_comm] using hne)

theorem grows_addInstrument (c : Collector) (i : Instrument) : Grows c (c.addInstrument i) :=
  ⟨fun id k => insert_known i id (.inl k), fun _ _ k => .inl k, fun k => distinct_insert k _ _⟩

theorem grows_noteSpot (c : Collector) (i : Instrument) (r : SpotRequirement) : Grows c (c.noteSpot i r) := by
  unfold Collector.noteSpot
  split
  · exact ⟨fun id k => insert_known (c := c) i id (.inl k), fun _ _ k => .inl k, fun k => distinct_insert k _ _⟩
  · exact .refl c

theorem grows_yieldCurve (c : Collector) (id : String) (d : Int) : Grows c (c.yieldCurve id d) := ⟨fun _ k => k, fun _ _ k => .inl k, fun k => k⟩

theorem mem_fixing {c : Collector} {id' id : String} {d dt : DateTime} (h : dt ∈ ((c.fixing id' d).fixings.get id).getD []) :
    dt ∈ (c.fixings.get id).getD [] ∨ id = id' := by
  unfold Collector.fixing at h
  dsimp only at h
  rw [Map.get_insert] at h
  split at h
  · rename_i e
    exact .inr (by simpa [eq_comm] using e)
  · exact .inl h

theorem grows_finish {c c0 c1 : Collector} {v : Vanilla} {u : Instrument} {r : SpotRequirement} (h : Grows c0 c1)
    (hi : c0.instruments = c.instruments) (hf : ∀ id, ∀ dt ∈ (c0.fixings.get id).getD [], dt ∈ (c.fixings.get id).getD [] ∨ id = u.id) :
    Grows c (finishVanilla v u (c1, r)).1 := by
  unfold finishVanilla
  dsimp only
  unfold Collector.volSurface
  have h1 := h.trans (grows_noteSpot c1 u r)
  refine ⟨?_, ?_, ?_⟩
  · intro id k
    refine insert_known u id (.inl ?_)
    exact h1.known id (by rw [hi]; exact k)
  · intro id dt k
    have k' : dt ∈ ((c1.noteSpot u r).fixings.get id).getD [] := k
    rcases h1.fixings id dt k' with k | k
    · rcases hf id dt k with k | k
      · exact .inl k
      · exact .inr (insert_known u id (.inr k))
    · exact .inr (insert_known u id (.inl k))
  · intro k
    rw [← hi] at k
    exact distinct_insert (h1.distinct k) _ _

mutual
theorem grows_dependencies : ∀ (i : Instrument) (c : Collector), Grows c (i.dependencies c).1
  | .currency _ _, c => by rw [Instrument.dependencies]; exact grows_yieldCurve c _ _
  | .creditEntity _ _, c => by rw [Instrument.dependencies]; exact grows_yieldCurve c _ _
  | .equity _ _ _, c => by rw [Instrument.dependencies]; exact grows_yieldCurve c _ _
  | .zeroCoupon _ _ _ _ _, c => by rw [Instrument.dependencies]; exact grows_yieldCurve c _ _
  | .basket _ _ _ parts, c => by rw [Instrument.dependencies]; exact grows_basket parts c
  | .spotStarting v u _, c => by
    rw [Instrument.dependencies]
    exact grows_finish (grows_dependencies u _) rfl (fun id dt k => mem_fixing (c := c) k)
  | .forwardStarting v u _ d _, c => by
    rw [Instrument.dependencies]
    refine grows_finish (grows_dependencies u _) rfl (fun id dt k => ?_)
    rcases mem_fixing (c := c.fixing u.id d) k with k | k
    · exact mem_fixing k
    · exact .inr k

theorem grows_basket : ∀ (parts : List (ℝ × Instrument)) (c : Collector), Grows c (basketDependencies parts c)
  | [], c => by rw [basketDependencies]; exact .refl c
  | (_, u) :: parts, c => by
    rw [basketDependencies]
    refine Grows.trans ?_ (grows_basket parts _)
    dsimp only
    split
    · exact grows_dependencies u c
    · exact ((grows_dependencies u c).trans (grows_dependencies u _)).trans (grows_noteSpot _ u _)
end

theorem grows_collect (sd : Int) (l : List (ℝ × Instrument)) : Grows (.new sd) (collect sd l) := by
  unfold collect
  have : ∀ c, Grows c (l.foldl (fun c e => c.spot e.2) c) := by
    induction l with
    | nil => exact fun c => .refl c
    | cons e l ih => exact fun c => ((grows_dependencies e.2 c).trans (grows_noteSpot _ e.2 _)).trans (ih _)
  exact this _

/-- The value that a fixing on the way is given: the spot, or with sticky forwards the forward on the date of the fixing. -/
def FixedAt (ctx : PricingContext) (b : BumpSpotDate) (id : String) (i : Instrument) (date : Int) (v : ℝ) : Prop :=
  (b.spotDynamics = .stickySpot ∧ ctx.spot id = .ok v) ∨
  (b.spotDynamics = .stickyForward ∧ ∃ f, ctx.forwardCurve i b.spotDate = .ok f ∧ f.forward date = .ok (.val v))

theorem fixingValue_ok {ctx : PricingContext} {b : BumpSpotDate} {id : String} {i : Instrument} {date : Int} {v : ℝ} :
    fixingValue ctx b id i date = .ok v ↔ FixedAt ctx b id i date v := by
  unfold fixingValue FixedAt
  cases b.spotDynamics with
  | stickySpot => simp
  | stickyForward =>
    simp only [reduceCtorEq, false_and, true_and, false_or]
    constructor
    · intro h
      obtain ⟨f, h1, h2⟩ := bind_ok h
      obtain ⟨x, h3, h4⟩ := bind_ok h2
      cases x with
      | nan => cases h4
      | val y => cases h4; exact ⟨f, h1, h3⟩
    · rintro ⟨f, h1, h2⟩
      rw [h1]
      simp only [ok_bind]
      rw [h2]
      rfl

theorem fixingsOf_mem {ctx : PricingContext} {b : BumpSpotDate} {id : String} {i : Instrument} {l : List DateTime} : ∀ {fs : List (DateTime × ℝ)},
    fixingsOf ctx b id i l = .ok fs → ∀ dt v, (dt, v) ∈ fs ↔
      dt ∈ l ∧ ctx.spotDate ≤ dt.date ∧ dt.date < b.spotDate ∧ FixedAt ctx b id i dt.date v := by
  induction l with
  | nil => intro fs h; cases h; simp
  | cons d rest ih =>
    intro fs h dt v
    rw [fixingsOf] at h
    split at h
    · rename_i hd
      obtain ⟨x, h1, h⟩ := bind_ok h
      obtain ⟨xs, h2, h⟩ := bind_ok h
      have e := pure_ok h
      subst e
      have h1' := h1
      rw [fixingValue_ok] at h1'
      simp only [List.mem_cons, Prod.mk.injEq, ih h2]
      constructor
      · rintro (⟨rfl, rfl⟩ | ⟨k1, k2⟩)
        · exact ⟨.inl rfl, hd.1, hd.2, h1'⟩
        · exact ⟨.inr k1, k2⟩
      · rintro ⟨rfl | k1, k2, k3, k4⟩
        · rw [← fixingValue_ok, h1] at k4
          exact .inl ⟨rfl, (Except.ok.inj k4).symm⟩
        · exact .inr ⟨k1, k2, k3, k4⟩
    · rename_i hd
      rw [ih h]
      simp only [List.mem_cons]
      constructor
      · rintro ⟨k1, k2⟩
        exact ⟨.inr k1, k2⟩
      · rintro ⟨rfl | k1, k2, k3, k4⟩
        · exact absurd ⟨k2, k3⟩ hd
        · exact ⟨k1, k2, k3, k4⟩

theorem fixingMap_mem {ctx : PricingContext} {b : BumpSpotDate} {c : Collector} {l : List (String × Instrument)} : ∀ {m : List (String × List (DateTime × ℝ))},
    fixingMap ctx b c l = .ok m → ∀ id dt v, (∃ fs, (id, fs) ∈ m ∧ (dt, v) ∈ fs) ↔
      ∃ i, (id, i) ∈ l ∧ dt ∈ (c.fixings.get id).getD [] ∧ ctx.spotDate ≤ dt.date ∧ dt.date < b.spotDate ∧ FixedAt ctx b id i dt.date v := by
  induction l with
  | nil => intro m h; cases h; simp
  | cons e rest ih =>
    obtain ⟨k, i⟩ := e
    intro m h id dt v
    rw [fixingMap] at h
    obtain ⟨fs, h1, h⟩ := bind_ok h
    obtain ⟨others, h2, h⟩ := bind_ok h
    have hm : (∃ fs', (id, fs') ∈ m ∧ (dt, v) ∈ fs') ↔ (id = k ∧ (dt, v) ∈ fs) ∨ ∃ fs', (id, fs') ∈ others ∧ (dt, v) ∈ fs' := by
      split at h
      · rename_i he
        have e := pure_ok h
        subst e
        have : fs = [] := by simpa using he
        subst this
        simp
      · have e := pure_ok h
        subst e
        simp only [List.mem_cons, Prod.mk.injEq]
        constructor
        · rintro ⟨fs', ⟨rfl, rfl⟩ | k1, k2⟩
          · exact .inl ⟨rfl, k2⟩
          · exact .inr ⟨fs', k1, k2⟩
        · rintro (⟨rfl, k2⟩ | ⟨fs', k1, k2⟩)
          · exact ⟨fs, .inl ⟨rfl, rfl⟩, k2⟩
          · exact ⟨fs', .inr k1, k2⟩
    rw [hm, ih h2, fixingsOf_mem h1]
    simp only [List.mem_cons, Prod.mk.injEq]
    constructor
    · rintro (⟨rfl, k⟩ | ⟨j, k1, k2⟩)
      · exact ⟨i, .inl ⟨rfl, rfl⟩, k⟩
      · exact ⟨j, .inr k1, k2⟩
    · rintro ⟨j, ⟨rfl, rfl⟩ | k1, k2⟩
      · exact .inl ⟨rfl, k2⟩
      · exact .inr ⟨j, k1, k2⟩

/-- What rolling does to instruments: a table with the fixings on the way, and the instruments fixed with it. -/
theorem update_table {b : BumpSpotDate} {ctx : PricingContext} {c : Collector} {modified : Bool} {held : List (ℝ × Instrument)}
    (h : updateInstruments b instruments ctx c = .ok (modified, held)) :
    ∃ t : FixingTable ℝ, t.knownUntil = b.spotDate ∧
      (∀ id dt v, t.getOptional id dt = some v ↔ ∃ i, (id, i) ∈ c.instruments.entries ∧ dt ∈ (c.fixings.get id).getD [] ∧
        ctx.spotDate ≤ dt.date ∧ dt.date < b.spotDate ∧ FixedAt ctx b id i dt.date v) ∧
      ((modified = true ∧ fixAll t instruments = .ok (some held)) ∨
        (modified = false ∧ held = instruments ∧ (fixAll t instruments = .ok none ∨ ∀ id dt, t.getOptional id dt = none))) := by
  unfold updateInstruments at h
  obtain ⟨m, h1, h⟩ := bind_ok h
  have hm := fixingMap_mem h1
  split at h
  · rename_i he
    have : m = [] := by simpa using he
    subst this
    have e := pure_ok h
    cases e
    refine ⟨.new b.spotDate, rfl, ?_, .inr ⟨rfl, rfl, .inr fun _ _ => rfl⟩⟩
    intro id dt v
    rw [← hm]
    simp [FixingTable.getOptional, FixingTable.getFixings, FixingTable.new]
  · obtain ⟨t, h2, h⟩ := bind_ok h
    obtain ⟨o, h3, h⟩ := bind_ok h
    refine ⟨t, fromLoop_known h2, ?_, ?_⟩
    · intro id dt v
      rw [fromLoop_get h2, ← hm]
      simp [FixingTable.getOptional, FixingTable.getFixings, FixingTable.new]
    · cases o with
      | none =>
        have e := pure_ok h
        cases e
        exact .inr ⟨rfl, rfl, .inl h3⟩
      | some r =>
        have e := pure_ok h
        cases e
        exact .inl ⟨rfl, h3⟩

/-- C78. When the date of a pricer is moved, every fixing that its instruments declare from the old date up to the day before the new date
is given a value, and no other fixing is: the spot with sticky spots, and the forward on the date of the fixing with sticky forwards. The
instruments are then what these fixings, known until the new date, turn them into. -/
theorem C78_rolled {b : BumpTime} (hp : SelfPricer.new instruments md = .ok p) (h : p.bumpTime b = (.ok (), p')) :
    p'.context.context.spotDate = b.spotDateBump.spotDate ∧ ∃ t : FixingTable ℝ, t.knownUntil = b.spotDateBump.spotDate ∧
      (∀ id dt, (t.getOptional id dt).isSome ↔ (∃ e ∈ instruments, asks md.spotDate e.2 (.fixing id dt)) ∧
        md.spotDate ≤ dt.date ∧ dt.date < b.spotDateBump.spotDate) ∧
      (∀ id dt v, t.getOptional id dt = some v →
        (b.spotDateBump.spotDynamics = .stickySpot ∧ data md (.spot id) = some v) ∨
        (b.spotDateBump.spotDynamics = .stickyForward ∧ ∃ f, p.context.forwardCurves.get id = some f ∧ f.forward dt.date = .ok (.val v))) ∧
      (fixAll t instruments = .ok (some p'.instruments) ∨ p'.instruments = instruments ∧
        (fixAll t instruments = .ok none ∨ ∀ id dt, t.getOptional id dt = none)) := by
  obtain ⟨modified, held, md', h1, h2, h3, h4, _⟩ := moved_price (fuel := 0) hp h
  obtain ⟨_, hn⟩ := new_self hp
  have hctx := (new_context hn).1
  have hw := collect_wellFormed md.spotDate instruments
  have hg := grows_collect md.spotDate instruments
  have hdis : Distinct (collect md.spotDate instruments).instruments := hg.distinct distinct_empty
  obtain ⟨t, k1, k2, k3⟩ := update_table h1
  have hsd : p.context.pricingContext.spotDate = md.spotDate := by
    show p.context.context.spotDate = _
    rw [hctx]
  have hasks : ∀ id dt, dt ∈ ((collect md.spotDate instruments).fixings.get id).getD [] ↔
      ∃ e ∈ instruments, asks md.spotDate e.2 (.fixing id dt) := by
    intro id dt
    rw [collect_runs, (C38_held md.spotDate _ id).2 dt]
    constructor
    · rintro ⟨call, hc, ha⟩
      obtain ⟨e, he, rfl⟩ := List.mem_map.1 hc
      rcases ha with ha | ⟨_, ha⟩
      · exact ⟨e, he, ha⟩
      · cases ha
    · rintro ⟨e, he, ha⟩
      exact ⟨_, List.mem_map.2 ⟨e, he, rfl⟩, .inl ha⟩
  refine ⟨?_, t, k1, ?_, ?_, ?_⟩
  · rw [h4]
    split at h2
    · rename_i e
      rw [h2, e]
    · unfold MarketData.bumpSpotDate at h2
      cases hdyn : b.spotDateBump.spotDynamics with
      | stickySpot => rw [hdyn] at h2; cases h2; rfl
      | stickyForward =>
        rw [hdyn] at h2
        dsimp only at h2
        split at h2 <;> cases h2
        rfl
  · intro id dt
    rw [Option.isSome_iff_exists]
    constructor
    · rintro ⟨v, hv⟩
      obtain ⟨i, _, q2, q3, q4, _⟩ := (k2 id dt v).1 hv
      rw [hsd] at q3
      exact ⟨(hasks id dt).1 q2, q3, q4⟩
    · rintro ⟨q1, q2, q3⟩
      have q1' := (hasks id dt).2 q1
      have hi : (collect md.spotDate instruments).instruments.get id ≠ none := by
        rcases hg.fixings id dt q1' with k | k
        · cases k
        · exact k
      obtain ⟨i, hi⟩ := Option.ne_none_iff_exists'.1 hi
      have hmem := (get_mem hdis _ _).1 hi
      obtain ⟨v, hv⟩ : ∃ v, FixedAt p.context.pricingContext b.spotDateBump id i dt.date v := by
        have hm := h1
        unfold updateInstruments at hm
        obtain ⟨m, hm, _⟩ := bind_ok hm
        have hsome : ∀ (l : List (String × Instrument)) m, fixingMap p.context.pricingContext b.spotDateBump (collect md.spotDate instruments) l = .ok m →
            (id, i) ∈ l → ∃ v, FixedAt p.context.pricingContext b.spotDateBump id i dt.date v := by
          intro l
          induction l with
          | nil => intro m _ h; cases h
          | cons e l ih =>
            obtain ⟨k, j⟩ := e
            intro m hm hin
            rw [fixingMap] at hm
            obtain ⟨fs, g1, hm⟩ := bind_ok hm
            obtain ⟨others, g2, _⟩ := bind_ok hm
            rcases List.mem_cons.1 hin with e | e
            · cases e
              have hone : ∀ (l : List DateTime) fs, fixingsOf p.context.pricingContext b.spotDateBump id i l = .ok fs → dt ∈ l →
                  ∃ v, FixedAt p.context.pricingContext b.spotDateBump id i dt.date v := by
                intro l
                induction l with
                | nil => intro _ _ h; cases h
                | cons d l ih =>
                  intro fs hf hd
                  rw [fixingsOf] at hf
                  split at hf
                  · obtain ⟨x, g3, hf⟩ := bind_ok hf
                    obtain ⟨xs, g4, _⟩ := bind_ok hf
                    rcases List.mem_cons.1 hd with rfl | hd
                    · exact ⟨x, fixingValue_ok.1 g3⟩
                    · exact ih _ g4 hd
                  · rename_i hc
                    rcases List.mem_cons.1 hd with rfl | hd
                    · exact absurd ⟨by rw [hsd]; exact q2, q3⟩ hc
                    · exact ih _ hf hd
              exact hone _ _ g1 q1'
            · exact ih _ g2 e
        exact hsome _ _ hm hmem
      exact ⟨v, (k2 id dt v).2 ⟨i, hmem, q1', by rw [hsd]; exact q2, q3, hv⟩⟩
  · intro id dt v hv
    obtain ⟨i, q1, _, _, _, q5⟩ := (k2 id dt v).1 hv
    have hid : i.id = id := hw.instrumentKey id i ((get_mem hdis _ _).2 q1)
    rcases q5 with ⟨e, q⟩ | ⟨e, f, q, q'⟩
    · refine .inl ⟨e, ?_⟩
      have q' : find id p.context.context.spots = .ok v := q
      rw [hctx] at q'
      exact find_ok q'
    · refine .inr ⟨e, f, ?_, q'⟩
      have q'' : find i.id p.context.forwardCurves = .ok f := q
      rw [hid] at q''
      exact find_ok q''
  · rw [h3]
    rcases k3 with ⟨_, k⟩ | ⟨_, k, k'⟩
    · exact .inl k
    · exact .inr ⟨k, k'⟩

/-- C78: two options can be rolled past their expiries. -/
example : ∃ p p', SelfPricer.new [(1, optionA 50), (1, .spotStarting earlierTerms equityA 50)] (calmMarket 100) = .ok p ∧
    p.bumpTime toDay20 = (.ok (), p') ∧ ∃ e ∈ [((1 : ℝ), optionA 50), (1, .spotStarting earlierTerms equityA 50)],
      asks 0 e.2 (.fixing "A" ⟨9, .open⟩) := by
  obtain ⟨p, p', h1, h2, _⟩ := sample_rolled
  refine ⟨p, p', h1, h2, (1, .spotStarting earlierTerms equityA 50), by simp, ?_⟩
  dsimp only
  rw [asks]
  exact .inl rfl

end QM.Risk
