import Verif.Risk.PriceProps
import Verif.Risk.VegaProps

/-!
# Property C92: a position is worth the same in any portfolio
-/

namespace QM.Risk.Spec
open QM.Instruments QM.Market.Spec

/-- No two underlyings of the options in a portfolio go by the same id. -/
def OwnIds (instruments : List (ℝ × Instrument)) : Prop :=
  ∀ u ∈ underlyingsAll instruments, ∀ v ∈ underlyingsAll instruments, u.id = v.id → u = v

open Classical in
/-- How much of an instrument a portfolio holds in all. -/
noncomputable def held (instruments : List (ℝ × Instrument)) (i : Instrument) : ℝ := ((instruments.filter (fun e => e.2 = i)).map Prod.fst).sum

/-- Two portfolios hold the same instruments, in whatever order and amounts. -/
def SameInstruments (l l' : List (ℝ × Instrument)) : Prop := ∀ i, i ∈ l.map Prod.snd ↔ i ∈ l'.map Prod.snd

end QM.Risk.Spec

namespace QM.Risk
open QM.Interp QM.Curves QM.Vol QM.Fixings QM.Instruments QM.Instruments.Spec QM.Market QM.Market.Spec QM.Risk.Spec

variable {fuel : Nat} {l l' : List (ℝ × Instrument)} {md : MarketData} {p p' q : SelfPricer}

/-! ## Where forwards come from -/

theorem setHwm_source {u j : Instrument} {d h : Int} {m : Map String (Instrument × Int)} {k : String}
    (hk : (Collector.setHwm u d m).get k = some (j, h)) : (∃ h', m.get k = some (j, h')) ∨ j = u := by
  unfold Collector.setHwm at hk
  cases hm : m.get u.id with
  | none =>
    rw [hm] at hk
    dsimp only at hk
    rw [Map.get_insert] at hk
    split at hk
    · cases hk; exact .inr rfl
    · exact .inl ⟨_, hk⟩
  | some e =>
    obtain ⟨key, old⟩ := e
    rw [hm] at hk
    dsimp only at hk
    split at hk
    · rw [Map.get_insert] at hk
      split at hk
      · cases hk
        subst_vars
        exact .inl ⟨_, hm⟩
      · exact .inl ⟨_, hk⟩
    · exact .inl ⟨_, hk⟩

theorem noteSpot_forwards (c : Collector) (i : Instrument) (r : SpotRequirement) : (c.noteSpot i r).forwardCurves = c.forwardCurves := by
  unfold Collector.noteSpot
  split <;> rfl

mutual
theorem forward_source : ∀ (i : Instrument) (c : Collector) {k : String} {j : Instrument} {h : Int},
    (i.dependencies c).1.forwardCurves.get k = some (j, h) → (∃ h', c.forwardCurves.get k = some (j, h')) ∨ j ∈ underlyings i
  | .currency _ _, c, k, j, h, hk => by rw [Instrument.dependencies] at hk; exact .inl ⟨_, hk⟩
  | .creditEntity _ _, c, k, j, h, hk => by rw [Instrument.dependencies] at hk; exact .inl ⟨_, hk⟩
  | .equity _ _ _, c, k, j, h, hk => by rw [Instrument.dependencies] at hk; exact .inl ⟨_, hk⟩
  | .zeroCoupon _ _ _ _ _, c, k, j, h, hk => by rw [Instrument.dependencies] at hk; exact .inl ⟨_, hk⟩
  | .basket _ _ _ parts, c, k, j, h, hk => by
    rw [Instrument.dependencies] at hk
    rw [underlyings]
    exact forward_source_all parts c hk
  | .spotStarting v u _, c, k, j, h, hk => by
    rw [Instrument.dependencies] at hk
    rw [underlyings]
    have hk' : ((u.dependencies (startVanilla v u c)).1.noteSpot u (u.dependencies (startVanilla v u c)).2).forwardCurves.get k = some (j, h) := hk
    rw [noteSpot_forwards] at hk'
    rcases forward_source u _ hk' with ⟨h', hk⟩ | hk
    · rcases setHwm_source (show (Collector.setHwm u v.expiry.date c.forwardCurves).get k = some (j, h') from hk) with hk | rfl
      · exact .inl hk
      · exact .inr (by simp)
    · exact .inr (by simp [hk])
  | .forwardStarting v u _ d _, c, k, j, h, hk => by
    rw [Instrument.dependencies] at hk
    rw [underlyings]
    have hk' : ((u.dependencies (startVanilla v u (c.fixing u.id d))).1.noteSpot u
      (u.dependencies (startVanilla v u (c.fixing u.id d))).2).forwardCurves.get k = some (j, h) := hk
    rw [noteSpot_forwards] at hk'
    rcases forward_source u _ hk' with ⟨h', hk⟩ | hk
    · rcases setHwm_source (show (Collector.setHwm u v.expiry.date c.forwardCurves).get k = some (j, h') from hk) with hk | rfl
      · exact .inl hk
      · exact .inr (by simp)
    · exact .inr (by simp [hk])

theorem forward_source_all : ∀ (parts : List (ℝ × Instrument)) (c : Collector) {k : String} {j : Instrument} {h : Int},
    (basketDependencies parts c).forwardCurves.get k = some (j, h) → (∃ h', c.forwardCurves.get k = some (j, h')) ∨ j ∈ underlyingsAll parts
  | [], c, k, j, h, hk => by rw [basketDependencies] at hk; exact .inl ⟨_, hk⟩
  | (_, u) :: parts, c, k, j, h, hk => by
    rw [basketDependencies] at hk
    rw [underlyingsAll, List.mem_append]
    rcases forward_source_all parts _ hk with ⟨h', hk⟩ | hk
    · dsimp only at hk
      split at hk
      · rcases forward_source u _ hk with hk | hk
        · exact .inl hk
        · exact .inr (.inl hk)
      · rw [noteSpot_forwards] at hk
        rcases forward_source u _ hk with ⟨_, hk⟩ | hk
        · rcases forward_source u _ hk with hk | hk
          · exact .inl hk
          · exact .inr (.inl hk)
        · exact .inr (.inl hk)
    · exact .inr (.inr hk)
end

theorem collect_source (sd : Int) {k : String} {j : Instrument} {h : Int} (hk : (collect sd l).forwardCurves.get k = some (j, h)) :
    j ∈ underlyingsAll l := by
  unfold collect at hk
  have : ∀ (l : List (ℝ × Instrument)) (c : Collector) {h : Int}, (l.foldl (fun c e => c.spot e.2) c).forwardCurves.get k = some (j, h) →
      (∃ h', c.forwardCurves.get k = some (j, h')) ∨ j ∈ underlyingsAll l := by
    intro l
    induction l with
    | nil => exact fun c h hk => .inl ⟨_, hk⟩
    | cons e l ih =>
      intro c h hk
      rw [underlyingsAll, List.mem_append]
      rcases ih _ hk with ⟨h', hk⟩ | hk
      · unfold Collector.spot at hk
        dsimp only at hk
        rw [noteSpot_forwards] at hk
        rcases forward_source e.2 c hk with hk | hk
        · exact .inl hk
        · exact .inr (.inl hk)
      · exact .inr (.inr hk)
  rcases this l _ hk with ⟨_, hk⟩ | hk
  · cases hk
  · exact hk

theorem mem_underlyingsAll {u : Instrument} : ∀ {l : List (ℝ × Instrument)}, u ∈ underlyingsAll l ↔ ∃ i ∈ l.map Prod.snd, u ∈ underlyings i
  | [] => by simp [underlyingsAll]
  | (w, i) :: l => by
    rw [underlyingsAll, List.mem_append, mem_underlyingsAll (l := l)]
    simp

theorem SameInstruments.ownIds (h : SameInstruments l l') (ho : OwnIds l) : OwnIds l' := by
  intro u hu v hv
  rw [mem_underlyingsAll] at hu hv
  simp only [← h _] at hu hv
  exact ho u (mem_underlyingsAll.2 hu) v (mem_underlyingsAll.2 hv)

/-- Portfolios of the same instruments have the same dependencies. -/
theorem same_collect (sd : Int) (h : SameInstruments l l') (ho : OwnIds l) (k : String) :
    (collect sd l).forwardCurves.get k = (collect sd l').forwardCurves.get k ∧
    ((collect sd l).volSurfaces.get k).map Prod.snd = ((collect sd l').volSurfaces.get k).map Prod.snd := by
  have hc : ∀ call, call ∈ l.map (fun e => Call.spot e.2) ↔ call ∈ l'.map (fun e => Call.spot e.2) := by
    intro call
    have := h
    simp only [SameInstruments, List.mem_map] at this ⊢
    constructor
    · rintro ⟨e, he, rfl⟩
      obtain ⟨e', he', h'⟩ := (this e.2).1 ⟨e, he, rfl⟩
      exact ⟨e', he', by rw [h']⟩
    · rintro ⟨e, he, rfl⟩
      obtain ⟨e', he', h'⟩ := (this e.2).2 ⟨e, he, rfl⟩
      exact ⟨e', he', by rw [h']⟩
  obtain ⟨_, h1, h2, _⟩ := C38_order sd hc k
  rw [← collect_runs, ← collect_runs] at h1 h2
  refine ⟨?_, h2⟩
  have key : ∀ {c : List (ℝ × Instrument)} {i : Instrument} {d : Int}, (collect sd c).forwardCurves.get k = some (i, d) → i.id = k :=
    fun hk => (collect_wellFormed sd _).forwardKey _ _ _ hk
  cases hg : (collect sd l).forwardCurves.get k with
  | none =>
    rw [hg] at h1
    cases hg' : (collect sd l').forwardCurves.get k with
    | none => rfl
    | some e => rw [hg'] at h1; cases h1
  | some e =>
    obtain ⟨i, d⟩ := e
    rw [hg] at h1
    cases hg' : (collect sd l').forwardCurves.get k with
    | none => rw [hg'] at h1; cases h1
    | some e' =>
      obtain ⟨i', d'⟩ := e'
      rw [hg'] at h1
      have e1 : d = d' := Option.some.inj h1
      have e2 : i = i' := by
        refine ho i (collect_source sd hg) i' ?_ ((key hg).trans (key hg').symm)
        have := collect_source sd hg'
        rw [mem_underlyingsAll] at this ⊢
        simpa only [h _] using this
      rw [e1, e2]

/-- A context can be built if every forward and surface can. -/
theorem built_of {c : Collector} (hw : WellFormed c) (h1 : ∀ id i hwm, c.forwardCurves.get id = some (i, hwm) → ∃ f, md.forwardCurve i hwm = .ok f)
    (h2 : ∀ id i hwm j h, c.forwardCurves.get id = some (i, hwm) → c.volSurfaces.get id = some (j, h) → ∀ f, ∃ v, md.volSurface i h f = .ok v) :
    ∃ p, Prefetch.new md c = .ok p := by
  obtain ⟨fs, vs, heq⟩ := walk_succeeds (md := md) (vols := c.volSurfaces) c.forwardCurves.entries .empty .empty (by
      rintro ⟨k, i, hwm⟩ he
      exact h1 k i hwm ((get_mem hw.distinct _ _).2 he)) (by
      rintro ⟨k, i, hwm⟩ he j h hv f
      have hg := (get_mem hw.distinct _ _).2 he
      have hk := hw.forwardKey k i hwm hg
      dsimp only at hv
      rw [hk] at hv
      exact h2 k i hwm j h hg hv f)
  unfold Prefetch.new
  rw [heq]
  exact ⟨_, rfl⟩

/-- Portfolios of the same instruments are priced in the same context. -/
theorem same_context (h : SameInstruments l l') (ho : OwnIds l) (hp : SelfPricer.new l md = .ok p) :
    ∃ p', SelfPricer.new l' md = .ok p' ∧ p'.context.pricingContext = p.context.pricingContext ∧ p'.context.context = md := by
  obtain ⟨_, h2⟩ := new_self hp
  obtain ⟨hc, e1, e2⟩ := coherent_new (collect_wellFormed _ _) h2
  have hs := same_collect md.spotDate h ho
  have hc1 := hc.forward
  have hc2 := hc.surface
  rw [e1, e2] at hc1 hc2
  obtain ⟨q, hq⟩ := built_of (md := md) (collect_wellFormed md.spotDate l') (by
    intro id i hwm hg
    rw [← (hs id).1] at hg
    obtain ⟨f, _, hf⟩ := hc1 _ _ _ hg
    exact ⟨f, hf⟩) (by
    intro id i hwm j d hg hv f
    rw [← (hs id).1] at hg
    have h3 := (hs id).2
    rw [hv] at h3
    obtain ⟨⟨j', d'⟩, hv', rfl⟩ := Option.map_eq_some_iff.1 h3
    obtain ⟨v, _, hv⟩ := hc2 _ _ _ _ _ hg hv' f
    exact ⟨v, hv⟩)
  refine ⟨⟨l', q⟩, new_self_of hq, ?_, (new_context hq).1⟩
  obtain ⟨hd, f1, f2⟩ := coherent_new (collect_wellFormed _ _) hq
  have hd1 := hd.forward
  have hd2 := hd.surface
  have hn1 := hd.noForward
  have hn2 := hd.noSurface
  have hm1 := hc.noForward
  have hm2 := hc.noSurface
  rw [f1, f2] at hd1 hd2
  rw [f2] at hn1 hn2
  rw [e2] at hm1 hm2
  have ef : ∀ id, q.forwardCurves.get id = p.context.forwardCurves.get id := by
    intro id
    cases hg : (collect md.spotDate l).forwardCurves.get id with
    | none => rw [hm1 id hg, hn1 id ((hs id).1 ▸ hg)]
    | some e =>
      obtain ⟨i, d⟩ := e
      obtain ⟨f, g1, g2⟩ := hc1 _ _ _ hg
      obtain ⟨f', g3, g4⟩ := hd1 _ _ _ ((hs id).1 ▸ hg)
      rw [g2] at g4
      cases g4
      rw [g1, g3]
  have ev : ∀ id, q.volSurfaces.get id = p.context.volSurfaces.get id := by
    intro id
    have h3 := (hs id).2
    cases hg : (collect md.spotDate l).forwardCurves.get id with
    | none => rw [hm2 id (.inl hg), hn2 id (.inl ((hs id).1 ▸ hg))]
    | some e =>
      obtain ⟨i, d⟩ := e
      cases hv : (collect md.spotDate l).volSurfaces.get id with
      | none =>
        rw [hv] at h3
        rw [hm2 id (.inr hv), hn2 id (.inr (Option.map_eq_none_iff.1 h3.symm))]
      | some e =>
        obtain ⟨j, hwm⟩ := e
        rw [hv] at h3
        obtain ⟨⟨j', d'⟩, hv', e'⟩ := Option.map_eq_some_iff.1 h3.symm
        have e'' : d' = hwm := e'
        subst e''
        obtain ⟨v, g1, g2⟩ := hc2 _ _ _ _ _ hg hv (fun _ => .error .err)
        obtain ⟨v', g3, g4⟩ := hd2 _ _ _ _ _ ((hs id).1 ▸ hg) hv' (fun _ => .error .err)
        rw [g2] at g4
        cases g4
        rw [g1, g3]
  unfold Prefetch.pricingContext
  simp only [f1, e1, find_congr (ef _), find_congr (ev _)]

/-! ## Sums -/

/-- The value of an instrument, or NaN if it has none. -/
noncomputable def valueOf (fuel : Nat) (c : PricingContext) (date : DateTime) (i : Instrument) : Num ℝ :=
  match i.price fuel c date with
  | .ok v => v
  | .error _ => .nan

/-- What the instruments of a portfolio come to. -/
theorem price_total {c : PricingContext} {date : DateTime} {x : Num ℝ} : priceLoop fuel c date l (.val 0) = .ok x ↔
    (∀ e ∈ l, ∃ v, e.2.price fuel c date = .ok v) ∧ x = weightedSum (l.map fun e => (e.1, valueOf fuel c date e.2)) := by
  rw [priceLoop_iff]
  have key : ∀ vs, List.Forall₂ (fun e v => e.2.price fuel c date = .ok v) l vs ↔
      (∀ e ∈ l, ∃ v, e.2.price fuel c date = .ok v) ∧ vs = l.map fun e => valueOf fuel c date e.2 := by
    induction l with
    | nil =>
      intro vs
      constructor
      · intro h; cases h; simp
      · rintro ⟨_, rfl⟩; exact .nil
    | cons e l ih =>
      intro vs
      constructor
      · intro h
        cases h with
        | cons h1 h2 =>
          obtain ⟨h3, rfl⟩ := (ih _).1 h2
          refine ⟨?_, ?_⟩
          · intro e' he
            rcases List.mem_cons.1 he with rfl | he
            · exact ⟨_, h1⟩
            · exact h3 e' he
          · unfold valueOf
            rw [List.map_cons, h1]
      · rintro ⟨h1, rfl⟩
        obtain ⟨v, hv⟩ := h1 e List.mem_cons_self
        refine .cons ?_ ((ih _).2 ⟨fun e' he => h1 e' (List.mem_cons_of_mem _ he), rfl⟩)
        show e.2.price fuel c date = .ok (valueOf fuel c date e.2)
        unfold valueOf
        rw [hv]
  simp only [key, num_zero_add]
  constructor
  · rintro ⟨vs, ⟨h1, rfl⟩, h2⟩
    refine ⟨h1, ?_⟩
    rw [h2, List.zipWith_map_right, List.zipWith_self]
  · rintro ⟨h1, h2⟩
    refine ⟨_, ⟨h1, rfl⟩, ?_⟩
    rw [h2, List.zipWith_map_right, List.zipWith_self]

theorem weightedSum_nan {value : Instrument → Num ℝ} (h : ∃ e ∈ l, value e.2 = .nan) : weightedSum (l.map fun e => (e.1, value e.2)) = .nan := by
  induction l with
  | nil => simp at h
  | cons e l ih =>
    rw [List.map_cons, weightedSum_cons]
    obtain ⟨e', he, hv⟩ := h
    rcases List.mem_cons.1 he with rfl | he
    · rw [hv]
    · rw [ih ⟨e', he, hv⟩]
      cases value e.2 <;> rfl

theorem weightedSum_val {value : Instrument → Num ℝ} {v : Instrument → ℝ} (h : ∀ e ∈ l, value e.2 = .val (v e.2)) :
    weightedSum (l.map fun e => (e.1, value e.2)) = .val (l.map fun e => e.1 * v e.2).sum := by
  induction l with
  | nil => rfl
  | cons e l ih =>
    rw [List.map_cons, weightedSum_cons, ih (fun e he => h e (List.mem_cons_of_mem _ he)), h e List.mem_cons_self]
    simp [num1]

open Classical in
theorem sum_held (v : Instrument → ℝ) (s : Finset Instrument) (h : ∀ e ∈ l, e.2 ∈ s) :
    (l.map fun e => e.1 * v e.2).sum = ∑ i ∈ s, held l i * v i := by
  induction l with
  | nil => simp [held]
  | cons e l ih =>
    rw [List.map_cons, List.sum_cons, ih (fun e he => h e (List.mem_cons_of_mem _ he))]
    have hh : ∀ i, held (e :: l) i = (if i = e.2 then e.1 else 0) + held l i := by
      intro i
      unfold held
      rw [List.filter_cons]
      by_cases hi : e.2 = i
      · simp [hi]
      · simp [hi, Ne.symm hi]
    simp only [hh, add_mul, Finset.sum_add_distrib, ite_mul, zero_mul]
    rw [Finset.sum_ite_eq' s e.2, if_pos (h e List.mem_cons_self)]

theorem total_congr {value : Instrument → Num ℝ} (h : SameInstruments l l') (hh : ∀ i, held l i = held l' i) :
    weightedSum (l.map fun e => (e.1, value e.2)) = weightedSum (l'.map fun e => (e.1, value e.2)) := by
  classical
  have hm : ∀ P : Instrument → Prop, (∃ e ∈ l, P e.2) ↔ ∃ e ∈ l', P e.2 := by
    intro P
    have := h
    simp only [SameInstruments, List.mem_map] at this
    constructor
    · rintro ⟨e, he, hp⟩
      obtain ⟨e', he', h'⟩ := (this e.2).1 ⟨e, he, rfl⟩
      exact ⟨e', he', by rw [h']; exact hp⟩
    · rintro ⟨e, he, hp⟩
      obtain ⟨e', he', h'⟩ := (this e.2).2 ⟨e, he, rfl⟩
      exact ⟨e', he', by rw [h']; exact hp⟩
  by_cases hn : ∃ e ∈ l, value e.2 = .nan
  · rw [weightedSum_nan hn, weightedSum_nan ((hm (fun i => value i = .nan)).1 hn)]
  · have hn' : ¬ ∃ e ∈ l', value e.2 = .nan := fun k => hn ((hm (fun i => value i = .nan)).2 k)
    obtain ⟨v, hv⟩ : ∃ v : Instrument → ℝ, ∀ m : List (ℝ × Instrument), (¬ ∃ e ∈ m, value e.2 = .nan) → ∀ e ∈ m, value e.2 = .val (v e.2) := by
      refine ⟨fun i => match value i with | .val x => x | .nan => 0, fun m hm e he => ?_⟩
      cases hx : value e.2 with
      | nan => exact absurd ⟨e, he, hx⟩ hm
      | val x => dsimp only; rw [hx]
    rw [weightedSum_val (hv l hn), weightedSum_val (hv l' hn')]
    have hs : ∀ i, i ∈ (l.map Prod.snd).toFinset ↔ i ∈ (l'.map Prod.snd).toFinset := fun i => by
      rw [List.mem_toFinset, List.mem_toFinset]; exact h i
    rw [sum_held _ (l.map Prod.snd).toFinset (fun e he => List.mem_toFinset.2 (List.mem_map.2 ⟨e, he, rfl⟩)),
      sum_held _ (l'.map Prod.snd).toFinset (fun e he => List.mem_toFinset.2 (List.mem_map.2 ⟨e, he, rfl⟩)), Finset.ext hs]
    simp only [hh]

/-! ## C92 -/

/-- C92. What counts is how much of each instrument is held: a portfolio of the same instruments, in another order and with positions split or
put together, can be priced if the other can, and at the same price. The ids of the underlyings are their own, which `C92_false` shows is
needed. -/
theorem C92_held_partial (h : SameInstruments l l') (hh : ∀ i, held l i = held l' i) (ho : OwnIds l) (hp : SelfPricer.new l md = .ok p) :
    ∃ p', SelfPricer.new l' md = .ok p' ∧ ∀ x, p'.price fuel = .ok x ↔ p.price fuel = .ok x := by
  obtain ⟨p', h1, h2, h3⟩ := same_context h ho hp
  refine ⟨p', h1, fun x => ?_⟩
  obtain ⟨e1, h4⟩ := new_self hp
  obtain ⟨e2, _⟩ := new_self h1
  have e3 := (new_context h4).1
  unfold SelfPricer.price
  rw [price_total, price_total, e1, e2, e3, h2, h3, total_congr h hh]
  refine and_congr_left fun _ => ?_
  have hm : ∀ {a b : List (ℝ × Instrument)} {P : Instrument → Prop}, SameInstruments a b → (∀ e ∈ a, P e.2) → ∀ e ∈ b, P e.2 := by
    intro a b P hab ha e he
    obtain ⟨e', he', h'⟩ := List.mem_map.1 ((hab e.2).2 (List.mem_map.2 ⟨e, he, rfl⟩))
    rw [← h']
    exact ha e' he'
  exact ⟨hm (P := fun i => ∃ v, i.price fuel p.context.pricingContext ⟨md.spotDate, .open⟩ = .ok v) (fun i => (h i).symm), hm (P := fun i => ∃ v, i.price fuel p.context.pricingContext ⟨md.spotDate, .open⟩ = .ok v) h⟩

theorem held_perm (h : l.Perm l') (i : Instrument) : held l i = held l' i := by
  unfold held
  exact ((h.filter _).map _).sum_eq

/-- C92. The order of the positions does not matter. -/
theorem C92_order_partial (h : l.Perm l') (ho : OwnIds l) (hp : SelfPricer.new l md = .ok p) :
    ∃ p', SelfPricer.new l' md = .ok p' ∧ ∀ x, p'.price fuel = .ok x ↔ p.price fuel = .ok x :=
  C92_held_partial (fun i => (h.map Prod.snd).mem_iff) (held_perm h) ho hp

/-- C92. A position can be split in two. -/
theorem C92_split_partial {a b : ℝ} {i : Instrument} (ho : OwnIds ((a + b, i) :: l)) (hp : SelfPricer.new ((a + b, i) :: l) md = .ok p) :
    ∃ p', SelfPricer.new ((a, i) :: (b, i) :: l) md = .ok p' ∧ ∀ x, p'.price fuel = .ok x ↔ p.price fuel = .ok x := by
  refine C92_held_partial (fun j => by simp) (fun j => ?_) ho hp
  unfold held
  by_cases hj : i = j <;> simp [hj, add_assoc]

/-! ## Portfolios put together -/

mutual
theorem asks_vol : ∀ (i : Instrument) {sd : Int} {id : String} {d : Int}, asks sd i (.vol id d) → asks sd i (.forward id d)
  | .currency _ _, sd, id, d, h => by simp [asks] at h
  | .creditEntity _ _, sd, id, d, h => by simp [asks] at h
  | .equity _ _ _, sd, id, d, h => by simp [asks] at h
  | .zeroCoupon _ _ _ _ _, sd, id, d, h => by simp [asks] at h
  | .basket _ _ _ parts, sd, id, d, h => by
    rw [asks] at h ⊢
    exact asksAll_vol parts h
  | .spotStarting v u _, sd, id, d, h => by
    simp only [asks, reduceCtorEq, false_or, or_false, and_false, Ask.vol.injEq, Ask.forward.injEq] at h ⊢
    rcases h with h | h
    · exact .inl h
    · exact .inr (asks_vol u h)
  | .forwardStarting v u _ _ _, sd, id, d, h => by
    simp only [asks, reduceCtorEq, false_or, or_false, and_false, Ask.vol.injEq, Ask.forward.injEq] at h ⊢
    rcases h with h | h
    · exact .inl h
    · exact .inr (asks_vol u h)

theorem asksAll_vol : ∀ (parts : List (ℝ × Instrument)) {sd : Int} {id : String} {d : Int}, asksAll sd parts (.vol id d) →
    asksAll sd parts (.forward id d)
  | [], sd, id, d, h => by simp [asksAll] at h
  | (_, i) :: parts, sd, id, d, h => by
    simp only [asksAll, reduceCtorEq, false_or, and_false] at h ⊢
    rcases h with h | h
    · exact .inl (asks_vol i h)
    · exact .inr (asksAll_vol parts h)
end

/-- What is known of a portfolio about the latest dates. -/
theorem collect_latest (sd : Int) (l : List (ℝ × Instrument)) (id : String) :
    Latest (fun d => ∃ e ∈ l, asks sd e.2 (.forward id d)) (((collect sd l).forwardCurves.get id).map Prod.snd) ∧
    Latest (fun d => ∃ e ∈ l, asks sd e.2 (.vol id d)) (((collect sd l).volSurfaces.get id).map Prod.snd) := by
  obtain ⟨_, h1, h2⟩ := C38_latest sd (l.map fun e => Call.spot e.2) id
  rw [← collect_runs] at h1 h2
  refine ⟨latest_congr h1 fun d => ?_, latest_congr h2 fun d => ?_⟩ <;> simp [callAsks]

theorem underlyingsAll_append (a b : List (ℝ × Instrument)) (u : Instrument) : u ∈ underlyingsAll (a ++ b) ↔ u ∈ underlyingsAll a ∨ u ∈ underlyingsAll b := by
  simp only [mem_underlyingsAll, List.map_append, List.mem_append]
  constructor
  · rintro ⟨i, h | h, hu⟩
    · exact .inl ⟨i, h, hu⟩
    · exact .inr ⟨i, h, hu⟩
  · rintro (⟨i, h, hu⟩ | ⟨i, h, hu⟩)
    · exact ⟨i, .inl h, hu⟩
    · exact ⟨i, .inr h, hu⟩

/-- What a part of a portfolio can do the whole can do as far as that part goes. -/
theorem part_built (hor : Orderly md) {m : List (ℝ × Instrument)} (ho : OwnIds l) (hsub : ∀ e ∈ m, e ∈ l) (hp : SelfPricer.new m md = .ok q)
    {id : String} {i : Instrument} {hwm : Int} (hg : (collect md.spotDate l).forwardCurves.get id = some (i, hwm))
    (hm : ∃ e ∈ m, ∃ d, asks md.spotDate e.2 (.forward id d)) :
    (∃ f, md.forwardCurve i hwm = .ok f) ∧ ((∃ e ∈ m, ∃ d, asks md.spotDate e.2 (.vol id d)) → ∀ h f, ∃ v, md.volSurface i h f = .ok v) := by
  obtain ⟨_, h2⟩ := new_self hp
  obtain ⟨hc, e1, e2⟩ := coherent_new (collect_wellFormed _ _) h2
  have hc1 := hc.forward
  have hc2 := hc.surface
  rw [e1, e2] at hc1 hc2
  obtain ⟨e, he, d, ha⟩ := hm
  obtain ⟨h', g1, _⟩ := latest_reach (collect_latest md.spotDate m id).1 ⟨e, he, ha⟩
  obtain ⟨⟨j, _⟩, g2, rfl⟩ := Option.map_eq_some_iff.1 g1
  have hji : j = i := by
    refine ho j ?_ i (collect_source _ hg) ?_
    · have := collect_source _ g2
      rw [mem_underlyingsAll] at this ⊢
      obtain ⟨k, hk, hu⟩ := this
      obtain ⟨e', he', rfl⟩ := List.mem_map.1 hk
      exact ⟨e'.2, List.mem_map.2 ⟨e', hsub e' he', rfl⟩, hu⟩
    · rw [(collect_wellFormed _ _).forwardKey _ _ _ g2, (collect_wellFormed _ _).forwardKey _ _ _ hg]
  subst hji
  obtain ⟨f, _, hf⟩ := hc1 _ _ _ g2
  obtain ⟨f', hf', _⟩ := forwardCurve_horizon hor hf hwm
  refine ⟨⟨f', hf'⟩, ?_⟩
  rintro ⟨e, he, d, ha⟩ h f
  obtain ⟨h'', g3, _⟩ := latest_reach (collect_latest md.spotDate m id).2 ⟨e, he, ha⟩
  obtain ⟨⟨k, _⟩, g4, rfl⟩ := Option.map_eq_some_iff.1 g3
  obtain ⟨v, _, hv⟩ := hc2 _ _ _ _ _ g2 g4 f
  exact ⟨v, hv⟩

/-- C92. Two portfolios that can each be priced can be priced together. -/
theorem C92_together_partial (hor : Orderly md) (ho : OwnIds (l ++ l')) (h : SelfPricer.new l md = .ok p) (h' : SelfPricer.new l' md = .ok p') :
    ∃ q, SelfPricer.new (l ++ l') md = .ok q := by
  obtain ⟨c, hc⟩ := built_of (md := md) (collect_wellFormed md.spotDate (l ++ l')) (by
    intro id i hwm hg
    have hl := (collect_latest md.spotDate (l ++ l') id).1
    rw [hg] at hl
    obtain ⟨⟨e, he, ha⟩, _⟩ := hl
    rcases List.mem_append.1 he with he | he
    · exact (part_built hor ho (fun e he => List.mem_append_left _ he) h hg ⟨e, he, _, ha⟩).1
    · exact (part_built hor ho (fun e he => List.mem_append_right _ he) h' hg ⟨e, he, _, ha⟩).1) (by
    intro id i hwm j d hg hv f
    have hl := (collect_latest md.spotDate (l ++ l') id).2
    rw [hv] at hl
    obtain ⟨⟨e, he, ha⟩, _⟩ := hl
    rcases List.mem_append.1 he with he | he
    · exact (part_built hor ho (fun e he => List.mem_append_left _ he) h hg ⟨e, he, _, asks_vol _ ha⟩).2 ⟨e, he, _, ha⟩ d f
    · exact (part_built hor ho (fun e he => List.mem_append_right _ he) h' hg ⟨e, he, _, asks_vol _ ha⟩).2 ⟨e, he, _, ha⟩ d f)
  exact ⟨_, new_self_of hc⟩

/-- The instruments of a portfolio have the prices of the market. -/
theorem own_market (hor : Orderly md) {m : List (ℝ × Instrument)} (ho : OwnIds m) (hk : ∀ e ∈ m, Covered md.spotDate e.2 [⟨md.spotDate, .open⟩])
    (hp : SelfPricer.new m md = .ok q) {x : Num ℝ} : q.price fuel = .ok x ↔
      (∀ e ∈ m, ∃ v, e.2.price fuel md.pricingContext ⟨md.spotDate, .open⟩ = .ok v) ∧
        x = weightedSum (m.map fun e => (e.1, valueOf fuel md.pricingContext ⟨md.spotDate, .open⟩ e.2)) := by
  rw [C77_market_partial hp hor hk (fun e he u hu j hwm hg => by
    refine ho j (collect_source _ hg) u (mem_underlyingsAll.2 ⟨e.2, List.mem_map.2 ⟨e, he, rfl⟩, hu⟩)
      ((collect_wellFormed _ _).forwardKey _ _ _ hg)), ← price_total, priceLoop_iff]
  simp only [num_zero_add]

theorem weightedSum_append (a b : List (ℝ × Num ℝ)) : weightedSum (a ++ b) = num2 (· + ·) (weightedSum a) (weightedSum b) := by
  induction a with
  | nil => rw [List.nil_append, weightedSum, num_zero_add]
  | cons e a ih =>
    obtain ⟨w, v⟩ := e
    rw [List.cons_append, weightedSum_cons, weightedSum_cons, ih]
    cases v with
    | nan => rfl
    | val v => cases weightedSum a <;> cases weightedSum b <;> simp [num1, num2, add_assoc]

/-- C92. The value of two portfolios together is the sum of their values, and there is one exactly if each of them has one: what a position is
worth does not depend on the others. -/
theorem C92_sum_partial (hor : Orderly md) (ho : OwnIds (l ++ l')) (hk : ∀ e ∈ l ++ l', Covered md.spotDate e.2 [⟨md.spotDate, .open⟩])
    (h : SelfPricer.new l md = .ok p) (h' : SelfPricer.new l' md = .ok p') (hq : SelfPricer.new (l ++ l') md = .ok q) {z : Num ℝ} :
    q.price fuel = .ok z ↔ ∃ x y, p.price fuel = .ok x ∧ p'.price fuel = .ok y ∧ z = num2 (· + ·) x y := by
  have ho1 : OwnIds l := fun u hu v hv => ho u ((underlyingsAll_append _ _ _).2 (.inl hu)) v ((underlyingsAll_append _ _ _).2 (.inl hv))
  have ho2 : OwnIds l' := fun u hu v hv => ho u ((underlyingsAll_append _ _ _).2 (.inr hu)) v ((underlyingsAll_append _ _ _).2 (.inr hv))
  simp only [own_market hor ho hk hq, own_market hor ho1 (fun e he => hk e (List.mem_append_left _ he)) h,
    own_market hor ho2 (fun e he => hk e (List.mem_append_right _ he)) h', List.map_append, weightedSum_append]
  constructor
  · rintro ⟨h1, rfl⟩
    exact ⟨_, _, ⟨fun e he => h1 e (List.mem_append_left _ he), rfl⟩, ⟨fun e he => h1 e (List.mem_append_right _ he), rfl⟩, rfl⟩
  · rintro ⟨x, y, ⟨h1, rfl⟩, ⟨h2, rfl⟩, rfl⟩
    refine ⟨fun e he => ?_, rfl⟩
    rcases List.mem_append.1 he with he | he
    · exact h1 e he
    · exact h2 e he

/-! ## Cases -/

theorem sample_ownIds (w w' : ℝ) : OwnIds [(w, optionA 90), (w', optionA 110)] := by
  have e : ∀ u ∈ underlyingsAll [(w, optionA 90), (w', optionA 110)], u = equityA := by
    intro u hu
    simpa [underlyingsAll, optionA, underlyings, equityA] using hu
  intro u hu v hv _
  rw [e u hu, e v hv]

/-- C92: two options on the same equity in the sample market meet the conditions, apart and together. -/
example : ∃ p p' q, SelfPricer.new [(2, optionA 90)] (sampleMarket 100 (.zero 0)) = .ok p ∧
    SelfPricer.new [(-1, optionA 110)] (sampleMarket 100 (.zero 0)) = .ok p' ∧
    SelfPricer.new [(2, optionA 90), (-1, optionA 110)] (sampleMarket 100 (.zero 0)) = .ok q ∧
    Orderly (sampleMarket 100 (.zero 0)) ∧ OwnIds [(2, optionA 90), (-1, optionA 110)] ∧
    ∀ e ∈ [((2 : ℝ), optionA 90), (-1, optionA 110)], Covered 0 e.2 [⟨0, .open⟩] := by
  obtain ⟨f, hf, _⟩ := sample_forward_flat 100 10
  refine ⟨_, _, _, new_self_of (sample_new (c := collect 0 [(2, optionA 90)]) rfl rfl hf rfl),
    new_self_of (sample_new (c := collect 0 [(-1, optionA 110)]) rfl rfl hf rfl),
    new_self_of (sample_new (c := collect 0 [(2, optionA 90), (-1, optionA 110)]) rfl rfl hf rfl), sample_orderly 100, sample_ownIds _ _, ?_⟩
  intro e he
  simp only [List.mem_cons, List.not_mem_nil, or_false] at he
  rcases he with rfl | rfl <;>
  · unfold optionA
    dsimp only
    rw [Covered]
    exact .inl trivial

/-- An equity that goes by the same id as the sample one, with a credit of its own. -/
def equityD : Instrument := .equity "A" "D" id

/-- A market without volatility, with a curve for each of the credits. -/
noncomputable def twoCredits (c d : RateCurve) : MarketData := { calmMarket 100 with yieldCurves := ⟨[("C", c), ("D", d)]⟩ }

theorem credit_new {md : MarketData} {c : Collector} {f : Fwd} {v : VolSurface} {credit : String}
    (hc : c.forwardCurves.entries = [("A", .equity "A" credit id, 10)]) (hv : (c.volSurfaces.get "A").map Prod.snd = some 10)
    (h : md.forwardCurve (.equity "A" credit id) 10 = .ok f) (h' : md.volSurface (.equity "A" credit id) 10 (fun _ => .ok f) = .ok v) :
    Prefetch.new md c = .ok ⟨md, c, ⟨[("A", f)]⟩, ⟨[("A", v)]⟩⟩ := by
  unfold Prefetch.new
  rw [hc]
  unfold walkDependencies
  rw [h]
  dsimp only
  rw [show (Instrument.equity "A" credit id).id = "A" from rfl]
  cases hg : c.volSurfaces.get "A" with
  | none => rw [hg] at hv; cases hv
  | some e =>
    obtain ⟨j, w⟩ := e
    rw [hg] at hv
    cases hv
    dsimp only
    rw [show md.volSurface (.equity "A" credit id) (Int.ofNat 10) _ = _ from h']
    rfl

theorem credit_price {ctx : PricingContext} {F x : ℝ} {f : Fwd} {yc : RateCurve} {credit : String} (hsd : ctx.spotDate = 0) (hF : 50 < F)
    (hy : ∀ d, ctx.yieldCurve credit d = .ok yc) (h0 : yc.rt 0 = .ok (.val 0)) (h10 : yc.rt 10 = .ok (.val x))
    (hf : ∀ d, ctx.forwardCurve (.equity "A" credit id) d = .ok f) (hf' : f.forward 10 = .ok (.val F))
    (hv : ∀ d g, ctx.volSurface (.equity "A" credit id) d g = .ok (.flat (.val 0) .everyDay (0, 0))) :
    (Instrument.spotStarting sampleTerms (.equity "A" credit id) 50).price fuel ctx ⟨0, .open⟩ = .ok (.val (Real.exp (-x) * (F - 50))) := by
  have h := C59_partial (fuel := fuel) (ctx := ctx) (v := sampleTerms) (u := .equity "A" credit id) (K := 50) (F := F) (D := Real.exp (-x))
    (yc := yc) (vol := .flat (.val 0) .everyDay (0, 0)) (valDate := (0, 0)) (d := ⟨0, .open⟩) (hy _) (hv _ _) ⟨x, h10⟩ ⟨0, h0⟩
    (by
      rw [show sampleTerms.payDate = 10 from rfl, show sampleTerms.settlement 0 = 0 from rfl]
      rw [df_eq h10 h0, zero_sub])
    (by
      rw [price_iff, show sampleTerms.expiry = ⟨10, .open⟩ from rfl]
      rw [Instrument.prices]
      unfold equityPrices
      dsimp only
      rw [if_neg (by rw [hsd]; decide)]
      rw [hf 10]
      simp only [ok_bind, each, hf']
      rfl)
    rfl (by unfold notAfter rank; simp [sampleTerms]) rfl (by
      rw [later_self_zero _ (by unfold before; simp)]
      rw [flat_forward]
      left
      have hy := everyDay_year 10
      norm_num at hy
      exact ⟨before_irrefl _, 2 / 73, hy, by norm_num⟩) (by linarith) (by norm_num) (by linarith)
  rw [h, show sampleTerms.putOrCall = .call from rfl]
  simp only [payoff]
  rw [max_eq_left (by linarith)]

/-- C92 violated: two equities that go by the same id but do not have the same credit. The forward of the one whose option comes first is used
for both, `dependencies.rs:185-194`, and the portfolio is worth more one way round than the other. -/
theorem C92_false : ∃ (md : MarketData) (i j : Instrument) (p q : SelfPricer) (x y : ℝ),
    SelfPricer.new [(1, i), (1, j)] md = .ok p ∧ SelfPricer.new [(1, j), (1, i)] md = .ok q ∧
    p.price fuel = .ok (.val x) ∧ q.price fuel = .ok (.val y) ∧ x < y := by
  obtain ⟨c, _, hg⟩ := sample_rates
  set d : RateCurve := .continuouslyCompoundedFlatBump c 0.1
  obtain ⟨f, hf, hf'⟩ := sample_forward (md := twoCredits (.zero 0) d) (S := 100) rfl rfl rfl rfl rfl rfl (Forward.zero_rt 0)
    (Forward.financing_zero 0 0) 10
  obtain ⟨f', hfd, hfd'⟩ := sample_forward (md := twoCredits d (.zero 0)) (S := 100) rfl rfl rfl rfl rfl rfl (Forward.zero_rt 0) hg 10
  have hfd : (twoCredits (.zero 0) d).forwardCurve equityD 10 = .ok f' := hfd
  have hF := hf' 10 le_rfl
  have hF' := hfd' 10 le_rfl
  obtain ⟨r0, q0, e1, e2, e3⟩ := hg 0
  obtain ⟨r, q, e4, e5, e6⟩ := hg 10
  have hz : ∀ {t : Int} {z : ℝ}, (RateCurve.zero 0).rt t = .ok (.val z) → z = 0 := by
    intro t z h
    rw [Forward.zero_rt 0 t] at h
    cases h
    rfl
  rw [hz e2] at e3
  rw [hz e5] at e6
  dsimp only at e3 e6
  rw [if_pos rfl] at e3
  rw [if_neg (by norm_num)] at e6
  have hr0 : r0 = 0 := by linarith
  rw [hr0] at e1
  have hr : 0 < r := by
    have : (0 : ℝ) < 0.1 * Curves.Spec.years 0 10 := by unfold Curves.Spec.years; norm_num
    linarith
  have hF : f.forward 10 = .ok (.val 100) := by rw [hF]; norm_num
  have hF' : f'.forward 10 = .ok (.val (100 * Real.exp r)) := by
    rw [hF']
    rw [if_neg (by norm_num), if_pos (by rfl)]
    congr 4
    linarith
  have hx : 1 < Real.exp r := Real.one_lt_exp_iff.2 hr
  have hx' : Real.exp (-r) < 1 := Real.exp_lt_one_iff.2 (by linarith)
  refine ⟨twoCredits (.zero 0) d, optionA 50, .spotStarting sampleTerms equityD 50, _, _,
    Real.exp (-0) * (100 - 50) + Real.exp (-r) * (100 - 50),
    Real.exp (-r) * (100 * Real.exp r - 50) + Real.exp (-0) * (100 * Real.exp r - 50),
    new_self_of (credit_new (credit := "C") (c := collect 0 [(1, optionA 50), (1, .spotStarting sampleTerms equityD 50)]) rfl rfl hf rfl),
    new_self_of (credit_new (credit := "D") (c := collect 0 [(1, .spotStarting sampleTerms equityD 50), (1, optionA 50)]) rfl rfl hfd rfl),
    ?_, ?_, ?_⟩
  · unfold SelfPricer.price
    dsimp only
    rw [priceLoop]
    have h1 := credit_price (fuel := fuel) (credit := "C") (ctx := Prefetch.pricingContext ⟨twoCredits (.zero 0) d,
      collect 0 [(1, optionA 50), (1, .spotStarting sampleTerms equityD 50)], ⟨[("A", f)]⟩, ⟨[("A", .flat (.val 0) .everyDay (0, 0))]⟩⟩)
      (F := 100) (x := 0) (f := f) (yc := .zero 0) rfl (by norm_num) (fun _ => rfl) (Forward.zero_rt 0 0) (Forward.zero_rt 0 10)
      (fun _ => rfl) hF (fun _ _ => rfl)
    have h2 := credit_price (fuel := fuel) (credit := "D") (ctx := Prefetch.pricingContext ⟨twoCredits (.zero 0) d,
      collect 0 [(1, optionA 50), (1, .spotStarting sampleTerms equityD 50)], ⟨[("A", f)]⟩, ⟨[("A", .flat (.val 0) .everyDay (0, 0))]⟩⟩)
      (F := 100) (x := r) (f := f) (yc := d) rfl (by norm_num) (fun _ => rfl) e1 e4 (fun _ => rfl) hF (fun _ _ => rfl)
    unfold optionA equityA equityD at h1 h2 ⊢
    rw [show (twoCredits (.zero 0) d).spotDate = 0 from rfl, h1, ok_bind, priceLoop, h2, ok_bind, priceLoop]
    simp [num1, num2]
  · unfold SelfPricer.price
    dsimp only
    rw [priceLoop]
    have h1 := credit_price (fuel := fuel) (credit := "C") (ctx := Prefetch.pricingContext ⟨twoCredits (.zero 0) d,
      collect 0 [(1, .spotStarting sampleTerms equityD 50), (1, optionA 50)], ⟨[("A", f')]⟩, ⟨[("A", .flat (.val 0) .everyDay (0, 0))]⟩⟩)
      (F := 100 * Real.exp r) (x := 0) (f := f') (yc := .zero 0) rfl (by linarith) (fun _ => rfl) (Forward.zero_rt 0 0) (Forward.zero_rt 0 10)
      (fun _ => rfl) hF' (fun _ _ => rfl)
    have h2 := credit_price (fuel := fuel) (credit := "D") (ctx := Prefetch.pricingContext ⟨twoCredits (.zero 0) d,
      collect 0 [(1, .spotStarting sampleTerms equityD 50), (1, optionA 50)], ⟨[("A", f')]⟩, ⟨[("A", .flat (.val 0) .everyDay (0, 0))]⟩⟩)
      (F := 100 * Real.exp r) (x := r) (f := f') (yc := d) rfl (by linarith) (fun _ => rfl) e1 e4 (fun _ => rfl) hF' (fun _ _ => rfl)
    unfold optionA equityA equityD at h1 h2 ⊢
    rw [show (twoCredits (.zero 0) d).spotDate = 0 from rfl, h2, ok_bind, priceLoop, h1, ok_bind, priceLoop]
    simp [num1, num2]
  · have : Real.exp (-r) * Real.exp r = 1 := by rw [← Real.exp_add]; simp
    rw [neg_zero, Real.exp_zero]
    nlinarith

end QM.Risk
