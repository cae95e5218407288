import Verif.Risk.TextbookProps

/-!
# Property C105: the risks of a book are the sums of the risks of its parts
-/

namespace QM.Risk.Spec
open QM.Interp QM.Vol QM.Instruments QM.Market QM.Market.Spec

mutual
/-- The equities in an instrument and the underlyings of the options in it. -/
def mentioned : Instrument → List Instrument
  | .equity id c s => [.equity id c s]
  | .basket _ _ _ parts => mentionedAll parts
  | .spotStarting _ u _ => u :: mentioned u
  | .forwardStarting _ u _ _ _ => u :: mentioned u
  | .currency _ _ => []
  | .creditEntity _ _ => []
  | .zeroCoupon _ _ _ _ _ => []

/-- The same for a list. -/
def mentionedAll : List (ℝ × Instrument) → List Instrument
  | [] => []
  | (_, i) :: rest => mentioned i ++ mentionedAll rest
end

/-- No two equities or underlyings share an id. -/
def OwnNames (l : List (ℝ × Instrument)) : Prop := ∀ u ∈ mentionedAll l, ∀ v ∈ mentionedAll l, u.id = v.id → u = v

/-- A book that has a value now and after bumps of each spot by a fraction `b` up and down. Each of its equities is the underlying of an option,
without which the report fails, `C44_false`. -/
structure Smooth (fuel : Nat) (b : ℝ) (md : MarketData) (l : List (ℝ × Instrument)) : Prop where
  now : ∃ x, value fuel l md = .ok (.val x)
  bumped : ∀ u ∈ mentionedAll l, (∃ w ∈ underlyingsAll l, w.id = u.id) ∧ ∃ S y z, md.spots.get u.id = some S ∧ S ≠ 0 ∧
    value fuel l (withSpot md u.id (S * (1 + b))) = .ok (.val y) ∧ value fuel l (withSpot md u.id (S * (1 - b))) = .ok (.val z)

/-- The same for shifts of the volatilities by `b`, up and then down. -/
structure SmoothVols (fuel : Nat) (b : ℝ) (md : MarketData) (l : List (ℝ × Instrument)) : Prop where
  now : ∃ x, value fuel l md = .ok (.val x)
  bumped : ∀ u ∈ mentionedAll l, (∃ w ∈ underlyingsAll l, w.id = u.id) ∧ ∃ vol y z, md.volSurfaces.get u.id = some vol ∧
    value fuel l (withVol md u.id (.parallelBump vol (.val b))) = .ok (.val y) ∧
    value fuel l (withVol md u.id (.parallelBump (.parallelBump vol (.val b)) (.val (-2 * b / (1 + b))))) = .ok (.val z)

/-- Two entries of reports put together: if only one has figures they are kept, if both have then they are added. -/
noncomputable def both : Option (Num ℝ × Num ℝ) → Option (Num ℝ × Num ℝ) → Option (Num ℝ × Num ℝ)
  | none, y => y
  | some x, none => some x
  | some x, some y => some (num2 (· + ·) x.1 y.1, num2 (· + ·) x.2 y.2)

/-- The same instruments in other quantities. -/
def scaled (c : ℝ) (l : List (ℝ × Instrument)) : List (ℝ × Instrument) := l.map fun e => (c * e.1, e.2)

end QM.Risk.Spec

namespace QM.Risk
open QM.Interp QM.Curves QM.Vol QM.Fixings QM.Instruments QM.Instruments.Spec QM.Market QM.Market.Spec QM.Risk.Spec

variable {fuel : Nat} {md md' : MarketData} {l l' : List (ℝ × Instrument)} {id : String}

/-! ## What is declared -/

theorem mentionedAll_append (a b : List (ℝ × Instrument)) : mentionedAll (a ++ b) = mentionedAll a ++ mentionedAll b := by
  induction a with
  | nil => rw [List.nil_append, mentionedAll, List.nil_append]
  | cons e a ih =>
    obtain ⟨w, i⟩ := e
    rw [List.cons_append, mentionedAll, mentionedAll, ih, List.append_assoc]

mutual
theorem underlyings_mentioned : ∀ (i : Instrument) {u : Instrument}, u ∈ underlyings i → u ∈ mentioned i
  | .currency _ _, u, h => by rw [underlyings] at h; cases h
  | .creditEntity _ _, u, h => by rw [underlyings] at h; cases h
  | .equity _ _ _, u, h => by rw [underlyings] at h; cases h
  | .zeroCoupon _ _ _ _ _, u, h => by rw [underlyings] at h; cases h
  | .basket _ _ _ parts, u, h => by
    rw [underlyings] at h
    rw [mentioned]
    exact underlyingsAll_mentioned parts h
  | .spotStarting _ w _, u, h => by
    rw [underlyings] at h
    rw [mentioned]
    rcases List.mem_cons.1 h with rfl | h
    · exact List.mem_cons_self
    · exact List.mem_cons_of_mem _ (underlyings_mentioned w h)
  | .forwardStarting _ w _ _ _, u, h => by
    rw [underlyings] at h
    rw [mentioned]
    rcases List.mem_cons.1 h with rfl | h
    · exact List.mem_cons_self
    · exact List.mem_cons_of_mem _ (underlyings_mentioned w h)

theorem underlyingsAll_mentioned : ∀ (l : List (ℝ × Instrument)) {u : Instrument}, u ∈ underlyingsAll l → u ∈ mentionedAll l
  | [], u, h => by rw [underlyingsAll] at h; cases h
  | (_, i) :: l, u, h => by
    rw [underlyingsAll] at h
    rw [mentionedAll]
    rcases List.mem_append.1 h with h | h
    · exact List.mem_append_left _ (underlyings_mentioned i h)
    · exact List.mem_append_right _ (underlyingsAll_mentioned l h)
end

theorem Spec.OwnNames.ownIds (h : OwnNames l) : OwnIds l := fun u hu v hv => h u (underlyingsAll_mentioned l hu) v (underlyingsAll_mentioned l hv)

theorem required_mentioned : ∀ (i : Instrument) (c : Collector), (i.dependencies c).2 ≠ .notRequired → i ∈ mentioned i
  | .currency _ _, c, h => by rw [Instrument.dependencies] at h; exact absurd rfl h
  | .creditEntity _ _, c, h => by rw [Instrument.dependencies] at h; exact absurd rfl h
  | .equity _ _ _, c, h => by rw [mentioned]; exact List.mem_cons_self
  | .zeroCoupon _ _ _ _ _, c, h => by rw [Instrument.dependencies] at h; exact absurd rfl h
  | .basket _ _ _ _, c, h => by rw [Instrument.dependencies] at h; exact absurd rfl h
  | .spotStarting _ _ _, c, h => by rw [Instrument.dependencies] at h; exact absurd rfl h
  | .forwardStarting _ _ _ _ _, c, h => by rw [Instrument.dependencies] at h; exact absurd rfl h

theorem add_source {c : Collector} {i j : Instrument} (h : (c.instruments.insert i.id i).get id = some j) :
    c.instruments.get id = some j ∨ (j = i ∧ j.id = id) := by
  rw [Map.get_insert] at h
  split at h
  · rename_i e
    cases h
    exact .inr ⟨rfl, by simpa [eq_comm] using e⟩
  · exact .inl h

theorem noteSpot_source {c : Collector} {i j : Instrument} {r : SpotRequirement} (h : (c.noteSpot i r).instruments.get id = some j) :
    c.instruments.get id = some j ∨ (r ≠ .notRequired ∧ j = i ∧ j.id = id) := by
  unfold Collector.noteSpot at h
  split at h
  · rename_i hr
    rcases add_source (c := c) h with h | h
    · exact .inl h
    · exact .inr ⟨hr, h⟩
  · exact .inl h

theorem finish_source {c : Collector} {v : Vanilla} {u j : Instrument} {r : SpotRequirement}
    (h : (finishVanilla v u (c, r)).1.instruments.get id = some j) : c.instruments.get id = some j ∨ (j = u ∧ j.id = id) := by
  unfold finishVanilla at h
  dsimp only at h
  unfold Collector.volSurface at h
  rcases add_source (c := c.noteSpot u r) h with h | h
  · rcases noteSpot_source h with h | h
    · exact .inl h
    · exact .inr h.2
  · exact .inr h

mutual
theorem dependencies_source : ∀ (i : Instrument) (c : Collector) {id : String} {j : Instrument}, (i.dependencies c).1.instruments.get id = some j →
    c.instruments.get id = some j ∨ (j ∈ mentioned i ∧ j.id = id)
  | .currency _ _, c, id, j, h => by rw [Instrument.dependencies] at h; exact .inl h
  | .creditEntity _ _, c, id, j, h => by rw [Instrument.dependencies] at h; exact .inl h
  | .equity _ _ _, c, id, j, h => by rw [Instrument.dependencies] at h; exact .inl h
  | .zeroCoupon _ _ _ _ _, c, id, j, h => by rw [Instrument.dependencies] at h; exact .inl h
  | .basket _ _ _ parts, c, id, j, h => by
    rw [Instrument.dependencies] at h
    rw [mentioned]
    exact basket_source parts c h
  | .spotStarting v u _, c, id, j, h => by
    rw [Instrument.dependencies] at h
    rw [mentioned]
    rcases finish_source h with h | ⟨rfl, h'⟩
    · rcases dependencies_source u _ h with h | h
      · exact .inl h
      · exact .inr ⟨List.mem_cons_of_mem _ h.1, h.2⟩
    · exact .inr ⟨List.mem_cons_self, h'⟩
  | .forwardStarting v u _ d _, c, id, j, h => by
    rw [Instrument.dependencies] at h
    rw [mentioned]
    rcases finish_source h with h | ⟨rfl, h'⟩
    · rcases dependencies_source u _ h with h | h
      · exact .inl h
      · exact .inr ⟨List.mem_cons_of_mem _ h.1, h.2⟩
    · exact .inr ⟨List.mem_cons_self, h'⟩

theorem basket_source : ∀ (parts : List (ℝ × Instrument)) (c : Collector) {id : String} {j : Instrument},
    (basketDependencies parts c).instruments.get id = some j → c.instruments.get id = some j ∨ (j ∈ mentionedAll parts ∧ j.id = id)
  | [], c, id, j, h => by rw [basketDependencies] at h; exact .inl h
  | (_, u) :: parts, c, id, j, h => by
    rw [basketDependencies] at h
    dsimp only at h
    rw [mentionedAll]
    rcases basket_source parts _ h with h | h
    · split at h
      · rcases dependencies_source u c h with h | h
        · exact .inl h
        · exact .inr ⟨List.mem_append_left _ h.1, h.2⟩
      · rcases noteSpot_source h with h | ⟨h0, rfl, h'⟩
        · rcases dependencies_source u _ h with h | h
          · rcases dependencies_source u c h with h | h
            · exact .inl h
            · exact .inr ⟨List.mem_append_left _ h.1, h.2⟩
          · exact .inr ⟨List.mem_append_left _ h.1, h.2⟩
        · exact .inr ⟨List.mem_append_left _ (required_mentioned j _ h0), h'⟩
    · exact .inr ⟨List.mem_append_right _ h.1, h.2⟩
end

theorem collect_mentioned (sd : Int) {j : Instrument} (h : (collect sd l).instruments.get id = some j) : j ∈ mentionedAll l ∧ j.id = id := by
  have : ∀ (l : List (ℝ × Instrument)) (c : Collector), (l.foldl (fun c e => c.spot e.2) c).instruments.get id = some j →
      c.instruments.get id = some j ∨ (j ∈ mentionedAll l ∧ j.id = id) := by
    intro l
    induction l with
    | nil => exact fun c h => .inl h
    | cons e l ih =>
      intro c h
      obtain ⟨w, i⟩ := e
      rw [mentionedAll]
      rcases ih _ h with h | h
      · unfold Collector.spot at h
        rcases noteSpot_source h with h | ⟨h0, rfl, h'⟩
        · rcases dependencies_source i c h with h | h
          · exact .inl h
          · exact .inr ⟨List.mem_append_left _ h.1, h.2⟩
        · exact .inr ⟨List.mem_append_left _ (required_mentioned j _ h0), h'⟩
      · exact .inr ⟨List.mem_append_right _ h.1, h.2⟩
  rcases this l _ h with h | h
  · simp [Collector.new, Map.get, Map.empty] at h
  · exact h

theorem noteSpot_known (c : Collector) (i : Instrument) {r : SpotRequirement} (h : r ≠ .notRequired) :
    (c.noteSpot i r).instruments.get i.id ≠ none := by
  unfold Collector.noteSpot
  rw [if_pos h]
  exact insert_known (c := c) i i.id (.inr rfl)

theorem finish_known {c : Collector} (v : Vanilla) (u : Instrument) (r : SpotRequirement)
    (h : c.instruments.get id ≠ none ∨ id = u.id) : (finishVanilla v u (c, r)).1.instruments.get id ≠ none := by
  unfold finishVanilla
  dsimp only
  unfold Collector.volSurface
  refine insert_known u id ?_
  rcases h with h | h
  · exact .inl ((grows_noteSpot c u r).known id h)
  · exact .inr h

mutual
/-- All that is mentioned is known in the end, except an equity itself. -/
theorem dependencies_known : ∀ (i : Instrument) (c : Collector) {j : Instrument}, j ∈ mentioned i →
    (i.dependencies c).1.instruments.get j.id ≠ none ∨ (j = i ∧ (i.dependencies c).2 ≠ .notRequired)
  | .currency _ _, c, j, h => by rw [mentioned] at h; cases h
  | .creditEntity _ _, c, j, h => by rw [mentioned] at h; cases h
  | .zeroCoupon _ _ _ _ _, c, j, h => by rw [mentioned] at h; cases h
  | .equity id cr s, c, j, h => by
    rw [mentioned] at h
    rw [Instrument.dependencies]
    exact .inr ⟨List.mem_singleton.1 h, by simp⟩
  | .basket _ _ _ parts, c, j, h => by
    rw [mentioned] at h
    rw [Instrument.dependencies]
    exact .inl (basket_known parts c h)
  | .spotStarting v u _, c, j, h => by
    rw [mentioned] at h
    rw [Instrument.dependencies]
    refine .inl (finish_known v u _ ?_)
    rcases List.mem_cons.1 h with rfl | h
    · exact .inr rfl
    · rcases dependencies_known u (startVanilla v u c) h with h | ⟨rfl, _⟩
      · exact .inl h
      · exact .inr rfl
  | .forwardStarting v u _ d _, c, j, h => by
    rw [mentioned] at h
    rw [Instrument.dependencies]
    refine .inl (finish_known v u _ ?_)
    rcases List.mem_cons.1 h with rfl | h
    · exact .inr rfl
    · rcases dependencies_known u (startVanilla v u (c.fixing u.id d)) h with h | ⟨rfl, _⟩
      · exact .inl h
      · exact .inr rfl

theorem basket_known : ∀ (parts : List (ℝ × Instrument)) (c : Collector) {j : Instrument}, j ∈ mentionedAll parts →
    (basketDependencies parts c).instruments.get j.id ≠ none
  | [], c, j, h => by rw [mentionedAll] at h; cases h
  | (_, u) :: parts, c, j, h => by
    rw [mentionedAll] at h
    rw [basketDependencies]
    dsimp only
    rcases List.mem_append.1 h with h | h
    · refine (grows_basket parts _).known _ ?_
      split
      · rename_i hr
        rcases dependencies_known u c h with h | ⟨_, h⟩
        · exact h
        · exact absurd hr h
      · rename_i hr
        rcases dependencies_known u (u.dependencies c).1 h with h | ⟨rfl, h⟩
        · exact (grows_noteSpot _ _ _).known _ h
        · exact noteSpot_known _ _ h
    · exact basket_known parts _ h
end

theorem mentioned_collect (sd : Int) {j : Instrument} (h : j ∈ mentionedAll l) : (collect sd l).instruments.get j.id ≠ none := by
  have : ∀ (l : List (ℝ × Instrument)) (c : Collector), (j ∈ mentionedAll l ∨ c.instruments.get j.id ≠ none) →
      (l.foldl (fun c e => c.spot e.2) c).instruments.get j.id ≠ none := by
    intro l
    induction l with
    | nil =>
      rintro c (h | h)
      · rw [mentionedAll] at h; cases h
      · exact h
    | cons e l ih =>
      intro c h
      obtain ⟨w, i⟩ := e
      rw [mentionedAll, List.mem_append] at h
      refine ih _ ?_
      rcases h with (h | h) | h
      · right
        show ((i.dependencies c).1.noteSpot i _).instruments.get j.id ≠ none
        rcases dependencies_known i c h with h | ⟨rfl, h⟩
        · exact (grows_noteSpot _ _ _).known _ h
        · exact noteSpot_known _ _ h
      · exact .inl h
      · right
        exact (grows_noteSpot _ _ _).known _ ((grows_dependencies i c).known _ h)
  exact this l _ (.inl h)

theorem known_iff (sd : Int) : (collect sd l).instruments.get id ≠ none ↔ ∃ u ∈ mentionedAll l, u.id = id := by
  constructor
  · intro h
    obtain ⟨j, hj⟩ := Option.ne_none_iff_exists'.1 h
    exact ⟨j, collect_mentioned sd hj⟩
  · rintro ⟨u, h, rfl⟩
    exact mentioned_collect sd h

theorem Spec.OwnNames.unambiguous (h : OwnNames l) (sd : Int) : Unambiguous (collect sd l) := by
  intro k i hwm j h1 h2
  obtain ⟨g1, g2⟩ := collect_mentioned sd h2
  exact h j g1 i (underlyingsAll_mentioned l (collect_source sd h1)) (by rw [g2, (collect_wellFormed _ _).forwardKey _ _ _ h1])

mutual
theorem underlyings_asked (sd : Int) : ∀ (i : Instrument) {u : Instrument}, u ∈ underlyings i →
    (∃ d, asks sd i (.forward u.id d)) ∧ ∃ d, asks sd i (.vol u.id d)
  | .currency _ _, u, h => by rw [underlyings] at h; cases h
  | .creditEntity _ _, u, h => by rw [underlyings] at h; cases h
  | .equity _ _ _, u, h => by rw [underlyings] at h; cases h
  | .zeroCoupon _ _ _ _ _, u, h => by rw [underlyings] at h; cases h
  | .basket _ _ _ parts, u, h => by
    rw [underlyings] at h
    simp only [asks]
    exact underlyingsAll_asked sd parts h
  | .spotStarting v w _, u, h => by
    rw [underlyings] at h
    simp only [asks]
    rcases List.mem_cons.1 h with rfl | h
    · exact ⟨⟨v.expiry.date, by simp⟩, ⟨v.expiry.date, by simp⟩⟩
    · obtain ⟨⟨d, h1⟩, ⟨d', h2⟩⟩ := underlyings_asked sd w h
      exact ⟨⟨d, by simp [h1]⟩, ⟨d', by simp [h2]⟩⟩
  | .forwardStarting v w _ _ _, u, h => by
    rw [underlyings] at h
    simp only [asks]
    rcases List.mem_cons.1 h with rfl | h
    · exact ⟨⟨v.expiry.date, by simp⟩, ⟨v.expiry.date, by simp⟩⟩
    · obtain ⟨⟨d, h1⟩, ⟨d', h2⟩⟩ := underlyings_asked sd w h
      exact ⟨⟨d, by simp [h1]⟩, ⟨d', by simp [h2]⟩⟩

theorem underlyingsAll_asked (sd : Int) : ∀ (l : List (ℝ × Instrument)) {u : Instrument}, u ∈ underlyingsAll l →
    (∃ d, asksAll sd l (.forward u.id d)) ∧ ∃ d, asksAll sd l (.vol u.id d)
  | [], u, h => by rw [underlyingsAll] at h; cases h
  | (_, i) :: l, u, h => by
    rw [underlyingsAll] at h
    simp only [asksAll]
    rcases List.mem_append.1 h with h | h
    · obtain ⟨⟨d, h1⟩, ⟨d', h2⟩⟩ := underlyings_asked sd i h
      exact ⟨⟨d, .inl h1⟩, ⟨d', .inl h2⟩⟩
    · obtain ⟨⟨d, h1⟩, ⟨d', h2⟩⟩ := underlyingsAll_asked sd l h
      exact ⟨⟨d, .inr (.inr h1)⟩, ⟨d', .inr (.inr h2)⟩⟩
end

theorem underlying_declared (sd : Int) (h : ∃ w ∈ underlyingsAll l, w.id = id) :
    (collect sd l).forwardCurves.get id ≠ none ∧ (collect sd l).volSurfaces.get id ≠ none := by
  obtain ⟨w, hw, rfl⟩ := h
  rw [mem_underlyingsAll] at hw
  obtain ⟨i, hi, hu⟩ := hw
  obtain ⟨e, he, rfl⟩ := List.mem_map.1 hi
  obtain ⟨⟨d, h1⟩, ⟨d', h2⟩⟩ := underlyings_asked sd e.2 hu
  obtain ⟨g1, g2⟩ := collect_latest sd l w.id
  obtain ⟨x, k1, _⟩ := latest_reach g1 ⟨e, he, h1⟩
  obtain ⟨y, k2, _⟩ := latest_reach g2 ⟨e, he, h2⟩
  constructor
  · intro h
    rw [h] at k1
    cases k1
  · intro h
    rw [h] at k2
    cases k2

/-! ## What does not matter to a book -/

/-- Two markets that differ in nothing but the spot and the vol surface under one id. -/
structure ElsewhereAlike (id : String) (md md' : MarketData) : Prop where
  date : md.spotDate = md'.spotDate
  data : ∀ x, x ≠ .spot id → x ≠ .vol id → data md x = data md' x

theorem ElsewhereAlike.forward (h : ElsewhereAlike id md md') {u : Instrument} (hu : u.id ≠ id) (d : Int) : md.forwardCurve u d = md'.forwardCurve u d := by
  refine forwardCurve_congr u d h.date ?_
  intro x hx
  refine h.data x ?_ ?_ <;> rintro rfl <;> simp at hx
  exact hu hx.symm

theorem ElsewhereAlike.vol (h : ElsewhereAlike id md md') {u : Instrument} (hu : u.id ≠ id) (d : Int) (f f' : Unit → Outcome Fwd) :
    md.volSurface u d f = md'.volSurface u d f' :=
  volSurface_congr u d f f' h.date (h.data _ (by simp) (by simpa using hu))

theorem ElsewhereAlike.yield (h : ElsewhereAlike id md md') (c : String) (d : Int) :
    md.pricingContext.yieldCurve c d = md'.pricingContext.yieldCurve c d := by
  show find c md.yieldCurves = find c md'.yieldCurves
  exact find_congr (h.data (.yield c) (by simp) (by simp))

theorem ElsewhereAlike.spot (h : ElsewhereAlike id md md') {k : String} (hk : k ≠ id) :
    md.pricingContext.spot k = md'.pricingContext.spot k := by
  show find k md.spots = find k md'.spots
  exact find_congr (h.data (.spot k) (by simpa using hk) (by simp))

mutual
theorem prices_elsewhere (h : ElsewhereAlike id md md') : ∀ (i : Instrument) (dates : List DateTime), (∀ u ∈ mentioned i, u.id ≠ id) →
    i.prices fuel md.pricingContext dates = i.prices fuel md'.pricingContext dates
  | .currency _ _, dates, _ => by rw [Instrument.prices, Instrument.prices]
  | .creditEntity _ _, dates, _ => by rw [Instrument.prices, Instrument.prices]
  | .equity k cr s, dates, hm => by
    rw [mentioned] at hm
    have hk : (Instrument.equity k cr s).id ≠ id := hm _ List.mem_cons_self
    have hf : ∀ d, md.pricingContext.forwardCurve (.equity k cr s) d = md'.pricingContext.forwardCurve (.equity k cr s) d := fun d => h.forward hk d
    rw [Instrument.prices, Instrument.prices]
    unfold equityPrices
    simp only [hf, h.spot hk, show md.pricingContext.spotDate = md'.pricingContext.spotDate from h.date]
  | .zeroCoupon _ _ _ _ _, dates, _ => by
    rw [Instrument.prices, Instrument.prices]
    unfold zeroCouponPrices
    rw [h.yield]
  | .basket _ _ _ parts, dates, hm => by
    rw [mentioned] at hm
    rw [Instrument.prices, Instrument.prices]
    exact basket_elsewhere h parts dates _ hm
  | .spotStarting v u k, dates, hm => by
    rw [mentioned] at hm
    rw [Instrument.prices, Instrument.prices, prices_elsewhere h u [v.expiry] (fun w hw => hm w (List.mem_cons_of_mem _ hw))]
    unfold vanillaPrices
    rw [h.yield, show md.pricingContext.volSurface u v.expiry.date _ = md'.pricingContext.volSurface u v.expiry.date _ from
      h.vol (hm u List.mem_cons_self) v.expiry.date _ (fun _ => md'.pricingContext.forwardCurve u v.expiry.date)]
  | .forwardStarting v u k d t, dates, hm => by
    rw [mentioned] at hm
    rw [Instrument.prices, Instrument.prices, prices_elsewhere h u [d, v.expiry] (fun w hw => hm w (List.mem_cons_of_mem _ hw))]
    rw [show md.pricingContext.spotDate = md'.pricingContext.spotDate from h.date]
    split
    · rfl
    unfold vanillaPrices
    rw [h.yield, show md.pricingContext.volSurface u v.expiry.date _ = md'.pricingContext.volSurface u v.expiry.date _ from
      h.vol (hm u List.mem_cons_self) v.expiry.date _ (fun _ => md'.pricingContext.forwardCurve u v.expiry.date)]

theorem basket_elsewhere (h : ElsewhereAlike id md md') : ∀ (parts : List (ℝ × Instrument)) (dates : List DateTime) (out : List (Num ℝ)),
    (∀ u ∈ mentionedAll parts, u.id ≠ id) → basketPrices fuel md.pricingContext parts dates out = basketPrices fuel md'.pricingContext parts dates out
  | [], dates, out, _ => by rw [basketPrices, basketPrices]
  | (w, i) :: parts, dates, out, hm => by
    rw [mentionedAll] at hm
    rw [basketPrices, basketPrices, prices_elsewhere h i dates (fun u hu => hm u (List.mem_append_left _ hu))]
    refine bind_congr fun temp => ?_
    exact basket_elsewhere h parts dates _ (fun u hu => hm u (List.mem_append_right _ hu))
end

/-- What a book does not mention does not change its value. -/
theorem value_elsewhere (h : ElsewhereAlike id md md') (hor : Orderly md) (hor' : Orderly md') (ho : OwnIds l)
    (hk : ∀ e ∈ l, Covered md.spotDate e.2 [⟨md.spotDate, .open⟩]) (hm : ∀ u ∈ mentionedAll l, u.id ≠ id) {x : Num ℝ}
    (hv : value fuel l md = .ok x) : value fuel l md' = .ok x := by
  obtain ⟨p, hp, hx⟩ := value_new hv
  have h2 := (new_self hp).2
  obtain ⟨hc, e1, e2⟩ := coherent_new (collect_wellFormed _ _) h2
  have hc1 := hc.forward
  have hc2 := hc.surface
  rw [e1, e2] at hc1 hc2
  have hne : ∀ {k i hwm}, (collect md.spotDate l).forwardCurves.get k = some (i, hwm) → i.id ≠ id :=
    fun hg => hm _ (underlyingsAll_mentioned l (collect_source _ hg))
  obtain ⟨c, hc⟩ := built_of (md := md') (collect_wellFormed md'.spotDate l) (by
    intro k i hwm hg
    rw [← h.date] at hg
    obtain ⟨f, _, hf⟩ := hc1 _ _ _ hg
    exact ⟨f, (h.forward (hne hg) hwm).symm.trans hf⟩) (by
    intro k i hwm j d hg hg' f
    rw [← h.date] at hg hg'
    obtain ⟨v, _, hv⟩ := hc2 _ _ _ _ _ hg hg' f
    exact ⟨v, (h.vol (hne hg) d f f).symm.trans hv⟩)
  have hp' := new_self_of hc
  unfold value
  rw [hp']
  rw [own_market hor ho hk hp] at hx
  refine (own_market hor' ho (h.date ▸ hk) hp').2 ?_
  have hprice : ∀ e ∈ l, e.2.price fuel md'.pricingContext ⟨md'.spotDate, .open⟩ = e.2.price fuel md.pricingContext ⟨md.spotDate, .open⟩ := by
    intro e he
    rw [← h.date]
    unfold Instrument.price
    rw [prices_elsewhere h e.2 _ (fun u hu => hm u ?_)]
    clear hx hv hk ho hm hp hp' h2 hc1 hc2 hne hc e1 e2
    induction l with
    | nil => cases he
    | cons e' l ih =>
      obtain ⟨w, i⟩ := e'
      rw [mentionedAll]
      rcases List.mem_cons.1 he with rfl | he
      · exact List.mem_append_left _ hu
      · exact List.mem_append_right _ (ih he)
  refine ⟨fun e he => hprice e he ▸ hx.1 e he, hx.2.trans ?_⟩
  congr 1
  refine List.map_congr_left fun e he => ?_
  unfold valueOf
  rw [hprice e he]

theorem value_sum (hor : Orderly md) (ho : OwnIds (l ++ l')) (hk : ∀ e ∈ l ++ l', Covered md.spotDate e.2 [⟨md.spotDate, .open⟩]) {x y : ℝ}
    (hx : value fuel l md = .ok (.val x)) (hy : value fuel l' md = .ok (.val y)) : value fuel (l ++ l') md = .ok (.val (x + y)) := by
  obtain ⟨p, hp, hx⟩ := value_new hx
  obtain ⟨p', hp', hy⟩ := value_new hy
  obtain ⟨q, hq⟩ := C92_together_partial hor ho hp hp'
  unfold value
  rw [hq]
  exact (C92_sum_partial hor ho hk hp hp' hq).2 ⟨_, _, hx, hy, rfl⟩

theorem collect_scaled (sd : Int) (c : ℝ) (l : List (ℝ × Instrument)) : collect sd (scaled c l) = collect sd l := by
  unfold collect scaled
  rw [List.foldl_map]

theorem mentionedAll_scaled (c : ℝ) (l : List (ℝ × Instrument)) : mentionedAll (scaled c l) = mentionedAll l := by
  induction l with
  | nil => rfl
  | cons e l ih =>
    obtain ⟨w, i⟩ := e
    rw [show scaled c ((w, i) :: l) = (c * w, i) :: scaled c l from rfl, mentionedAll, mentionedAll, ih]

theorem underlyingsAll_scaled (c : ℝ) (l : List (ℝ × Instrument)) : underlyingsAll (scaled c l) = underlyingsAll l := by
  induction l with
  | nil => rfl
  | cons e l ih =>
    obtain ⟨w, i⟩ := e
    rw [show scaled c ((w, i) :: l) = (c * w, i) :: scaled c l from rfl, underlyingsAll, underlyingsAll, ih]

theorem value_scaled (c : ℝ) {x : ℝ} (h : value fuel l md = .ok (.val x)) : value fuel (scaled c l) md = .ok (.val (c * x)) := by
  obtain ⟨p, hp, hx⟩ := value_new h
  obtain ⟨e, h2⟩ := new_self hp
  rw [← collect_scaled md.spotDate c l] at h2
  unfold value
  rw [new_self_of h2]
  show SelfPricer.price fuel ⟨scaled c l, p.context⟩ = _
  unfold SelfPricer.price at hx ⊢
  rw [e] at hx
  rw [price_total] at hx ⊢
  refine ⟨?_, ?_⟩
  · intro e' he'
    obtain ⟨e'', he'', rfl⟩ := List.mem_map.1 he'
    exact hx.1 e'' he''
  · have : ∀ m : List (ℝ × Num ℝ), ∀ x, weightedSum m = .val x → weightedSum (m.map fun e => (c * e.1, e.2)) = .val (c * x) := by
      intro m
      induction m with
      | nil => intro x hx; cases hx; simp [weightedSum]
      | cons e m ih =>
        intro x hx
        obtain ⟨w, v⟩ := e
        rw [List.map_cons, weightedSum_cons]
        rw [weightedSum_cons] at hx
        cases v with
        | nan => cases hx
        | val v =>
          dsimp only at hx ⊢
          cases hs : weightedSum m with
          | nan => rw [hs] at hx; cases hx
          | val s =>
            rw [hs] at hx
            rw [ih s hs]
            cases hx
            simp only [num1]
            congr 1
            ring
    have := this _ x hx.2.symm
    rw [← this, scaled, List.map_map, List.map_map]
    rfl

/-! ## Reports -/

/-- The value of a book, if it is a number. -/
noncomputable def worth (fuel : Nat) (l : List (ℝ × Instrument)) (md : MarketData) : ℝ :=
  match value fuel l md with
  | .ok (.val x) => x
  | _ => 0

theorem worth_eq {x : ℝ} (h : value fuel l md = .ok (.val x)) : worth fuel l md = x := by
  unfold worth
  rw [h]

theorem value_worth (h : ∃ x, value fuel l md = .ok (.val x)) : value fuel l md = .ok (.val (worth fuel l md)) := by
  obtain ⟨x, h⟩ := h
  rw [worth_eq h, h]

/-- The figures of a report with values `x` now, `u` and `d` when bumped, and sizes `s`. -/
noncomputable def figures (s u d : String → ℝ) (x : ℝ) (id : String) : Num ℝ × Num ℝ :=
  (.val ((u id - d id) / (2 * s id)), .val ((u id + d id - 2 * x) / s id ^ 2))

/-- The results of a book when the markets are bumped to `up` and `down`. -/
def Figures (fuel : Nat) (md : MarketData) (up down : String → MarketData) (s : String → ℝ) (l : List (ℝ × Instrument))
    (r : Map String (Num ℝ × Num ℝ)) : Prop :=
  ∀ id, ((∃ u ∈ mentionedAll l, u.id = id) → r.get id = some (figures s (fun id => worth fuel l (up id)) (fun id => worth fuel l (down id)) (worth fuel l md) id)) ∧
    ((¬∃ u ∈ mentionedAll l, u.id = id) → r.get id = none)

noncomputable def spotUp (b : ℝ) (md : MarketData) (id : String) : MarketData := withSpot md id ((md.spots.get id).getD 0 * (1 + b))

noncomputable def spotDown (b : ℝ) (md : MarketData) (id : String) : MarketData := withSpot md id ((md.spots.get id).getD 0 * (1 - b))

noncomputable def volUp (b : ℝ) (md : MarketData) (id : String) : MarketData :=
  withVol md id (.parallelBump ((md.volSurfaces.get id).getD (.flat .nan .everyDay (0, 0))) (.val b))

noncomputable def volDown (b : ℝ) (md : MarketData) (id : String) : MarketData :=
  withVol md id (.parallelBump (.parallelBump ((md.volSurfaces.get id).getD (.flat .nan .everyDay (0, 0))) (.val b)) (.val (-2 * b / (1 + b))))

/-- A book with a value now and in each of the bumped markets. -/
def Valued (fuel : Nat) (md : MarketData) (up down : String → MarketData) (l : List (ℝ × Instrument)) : Prop :=
  (∃ x, value fuel l md = .ok (.val x)) ∧ ∀ u ∈ mentionedAll l, (∃ w ∈ underlyingsAll l, w.id = u.id) ∧
    (∃ x, value fuel l (up u.id) = .ok (.val x)) ∧ ∃ x, value fuel l (down u.id) = .ok (.val x)

theorem Spec.Smooth.valued {b : ℝ} (h : Smooth fuel b md l) : Valued fuel md (spotUp b md) (spotDown b md) l := by
  refine ⟨h.now, fun u hu => ?_⟩
  obtain ⟨h1, S, y, z, h2, _, h4, h5⟩ := h.bumped u hu
  refine ⟨h1, ⟨y, ?_⟩, ⟨z, ?_⟩⟩
  · unfold spotUp; rw [h2]; exact h4
  · unfold spotDown; rw [h2]; exact h5

theorem Spec.SmoothVols.valued {b : ℝ} (h : SmoothVols fuel b md l) : Valued fuel md (volUp b md) (volDown b md) l := by
  refine ⟨h.now, fun u hu => ?_⟩
  obtain ⟨h1, S, y, z, h2, h4, h5⟩ := h.bumped u hu
  refine ⟨h1, ⟨y, ?_⟩, ⟨z, ?_⟩⟩
  · unfold volUp; rw [h2]; exact h4
  · unfold volDown; rw [h2]; exact h5

theorem delta_book {b : ℝ} (hv : Valued fuel md (spotUp b md) (spotDown b md) l) (hS : ∀ u ∈ mentionedAll l, ∃ S, md.spots.get u.id = some S ∧ S ≠ 0)
    (ho : OwnNames l) (hb0 : b ≠ 0) (hb : b ≠ -1) : ∃ p r p', SelfPricer.new l md = .ok p ∧ p.price fuel = .ok (.val (worth fuel l md)) ∧
      generate (selfPricer fuel) (.deltaGamma b) p .new (.val (worth fuel l md)) = (.ok (.deltaGamma (.val b) r), p', .new) ∧
      Figures fuel md (spotUp b md) (spotDown b md) (fun id => b * (md.spots.get id).getD 0) l r := by
  obtain ⟨p, hp, hx⟩ := value_new (value_worth hv.1)
  have hd := (at_new hp).dependencies
  obtain ⟨r, p', g1, g2⟩ := C44_differences_partial (fuel := fuel) (b := b) (v := worth fuel l md) (S := fun id => (md.spots.get id).getD 0)
    (u := fun id => worth fuel l (spotUp b md id)) (d := fun id => worth fuel l (spotDown b md id)) hp (ho.unambiguous _) hb0 hb (by
      intro id hid
      rw [hd, known_iff] at hid
      obtain ⟨u, hu, rfl⟩ := hid
      obtain ⟨h1, h2, h3⟩ := hv.2 u hu
      obtain ⟨S, k1, k2⟩ := hS u hu
      rw [hd]
      refine ⟨(underlying_declared _ h1).1, by rw [k1]; rfl, by rw [k1]; exact k2, value_worth h2, value_worth h3⟩)
  refine ⟨p, r, p', hp, hx, g1, fun id => ?_⟩
  have := g2 id
  rw [hd, known_iff] at this
  exact ⟨this.1, fun h => this.2 (not_not.1 fun hn => h ((known_iff _).1 hn))⟩

theorem vega_book {b : ℝ} (hv : Valued fuel md (volUp b md) (volDown b md) l) (hS : ∀ u ∈ mentionedAll l, ∃ vol, md.volSurfaces.get u.id = some vol)
    (ho : OwnNames l) (hb0 : b ≠ 0) (hb : b ≠ -1) : ∃ p r p', SelfPricer.new l md = .ok p ∧ p.price fuel = .ok (.val (worth fuel l md)) ∧
      generate (selfPricer fuel) (.vegaVolga (.flatAdditive (.val b))) p .new (.val (worth fuel l md)) = (.ok (.vegaVolga (.val b) r), p', .new) ∧
      Figures fuel md (volUp b md) (volDown b md) (fun _ => b) l r := by
  obtain ⟨p, hp, hx⟩ := value_new (value_worth hv.1)
  have hd := (at_new hp).dependencies
  obtain ⟨r, p', g1, g2⟩ := C45_differences_partial (fuel := fuel) (b := b) (v := worth fuel l md)
    (surface := fun id => (md.volSurfaces.get id).getD (.flat .nan .everyDay (0, 0)))
    (u := fun id => worth fuel l (volUp b md id)) (d := fun id => worth fuel l (volDown b md id)) hp (ho.unambiguous _) hb0 hb (by
      intro id hid
      rw [hd, known_iff] at hid
      obtain ⟨u, hu, rfl⟩ := hid
      obtain ⟨h1, h2, h3⟩ := hv.2 u hu
      obtain ⟨S, k1⟩ := hS u hu
      rw [hd]
      refine ⟨(underlying_declared _ h1).1, (underlying_declared _ h1).2, by rw [k1]; rfl, value_worth h2, value_worth h3⟩)
  refine ⟨p, r, p', hp, hx, g1, fun id => ?_⟩
  have := g2 id
  rw [hd, known_iff] at this
  exact ⟨this.1, fun h => this.2 (not_not.1 fun hn => h ((known_iff _).1 hn))⟩

/-- Bumped markets that are like the one they come from elsewhere, and as orderly. -/
structure Bumps (md : MarketData) (bumped : String → MarketData) : Prop where
  alike : ∀ id, ElsewhereAlike id md (bumped id)
  orderly : ∀ id, Orderly (bumped id)

theorem spot_bumps (hor : Orderly md) (f : String → ℝ) : Bumps md fun id => withSpot md id (f id) := by
  refine ⟨fun id => ⟨rfl, fun x h1 _ => ?_⟩, fun id => ⟨hor.financing, hor.dividends⟩⟩
  rw [withSpot_data, Function.update_of_ne h1]

theorem vol_bumps (hor : Orderly md) (f : String → VolSurface) : Bumps md fun id => withVol md id (f id) := by
  refine ⟨fun id => ⟨rfl, fun x _ h2 => ?_⟩, fun id => ⟨hor.financing, hor.dividends⟩⟩
  rw [withVol_data, Function.update_of_ne h2]

section Sum
variable {up down : String → MarketData}

theorem Spec.OwnNames.left (h : OwnNames (l ++ l')) : OwnNames l := by
  intro u hu v hv
  rw [OwnNames, mentionedAll_append] at h
  exact h u (List.mem_append_left _ hu) v (List.mem_append_left _ hv)

theorem Spec.OwnNames.right (h : OwnNames (l ++ l')) : OwnNames l' := by
  intro u hu v hv
  rw [OwnNames, mentionedAll_append] at h
  exact h u (List.mem_append_right _ hu) v (List.mem_append_right _ hv)

/-- In a bumped market a book has a value, the present one if the bump is elsewhere. -/
theorem bumped_value (hor : Orderly md) {bumped : String → MarketData} (hb : Bumps md bumped) (ho : OwnNames l)
    (hk : ∀ e ∈ l, Covered md.spotDate e.2 [⟨md.spotDate, .open⟩]) (hnow : ∃ x, value fuel l md = .ok (.val x))
    (hv : ∀ u ∈ mentionedAll l, ∃ x, value fuel l (bumped u.id) = .ok (.val x)) (id : String) :
    value fuel l (bumped id) = .ok (.val (worth fuel l (bumped id))) ∧
      ((¬∃ u ∈ mentionedAll l, u.id = id) → worth fuel l (bumped id) = worth fuel l md) := by
  by_cases h : ∃ u ∈ mentionedAll l, u.id = id
  · obtain ⟨u, hu, rfl⟩ := h
    exact ⟨value_worth (hv u hu), fun h => absurd ⟨u, hu, rfl⟩ h⟩
  · have := value_elsewhere (hb.alike id) hor (hb.orderly id) ho.ownIds hk (fun u hu e => h ⟨u, hu, e⟩) (value_worth hnow)
    exact ⟨value_worth ⟨_, this⟩, fun _ => worth_eq this⟩

theorem bumped_sum (hor : Orderly md) {bumped : String → MarketData} (hb : Bumps md bumped) (ho : OwnNames (l ++ l'))
    (hk : ∀ e ∈ l ++ l', Covered md.spotDate e.2 [⟨md.spotDate, .open⟩]) (hnow : ∃ x, value fuel l md = .ok (.val x))
    (hv : ∀ u ∈ mentionedAll l, ∃ x, value fuel l (bumped u.id) = .ok (.val x)) (hnow' : ∃ x, value fuel l' md = .ok (.val x))
    (hv' : ∀ u ∈ mentionedAll l', ∃ x, value fuel l' (bumped u.id) = .ok (.val x)) (id : String) :
    value fuel (l ++ l') (bumped id) = .ok (.val (worth fuel l (bumped id) + worth fuel l' (bumped id))) := by
  have h1 := (bumped_value hor hb ho.left (fun e he => hk e (List.mem_append_left _ he)) hnow hv id).1
  have h2 := (bumped_value hor hb ho.right (fun e he => hk e (List.mem_append_right _ he)) hnow' hv' id).1
  have hd := (hb.alike id).date
  exact value_sum (hb.orderly id) ho.ownIds (hd ▸ hk) h1 h2

theorem Valued.sum (hor : Orderly md) (hu : Bumps md up) (hd : Bumps md down) (ho : OwnNames (l ++ l'))
    (hk : ∀ e ∈ l ++ l', Covered md.spotDate e.2 [⟨md.spotDate, .open⟩]) (h : Valued fuel md up down l) (h' : Valued fuel md up down l') :
    Valued fuel md up down (l ++ l') := by
  refine ⟨⟨_, value_sum hor ho.ownIds hk (value_worth h.1) (value_worth h'.1)⟩, fun u hm => ⟨?_, ?_, ?_⟩⟩
  · rw [mentionedAll_append] at hm
    rcases List.mem_append.1 hm with hm | hm
    · obtain ⟨w, hw, e⟩ := (h.2 u hm).1
      exact ⟨w, (underlyingsAll_append _ _ _).2 (.inl hw), e⟩
    · obtain ⟨w, hw, e⟩ := (h'.2 u hm).1
      exact ⟨w, (underlyingsAll_append _ _ _).2 (.inr hw), e⟩
  · exact ⟨_, bumped_sum hor hu ho hk h.1 (fun u hu => (h.2 u hu).2.1) h'.1 (fun u hu => (h'.2 u hu).2.1) _⟩
  · exact ⟨_, bumped_sum hor hd ho hk h.1 (fun u hu => (h.2 u hu).2.2) h'.1 (fun u hu => (h'.2 u hu).2.2) _⟩

theorem figures_sum (hor : Orderly md) (hu : Bumps md up) (hd : Bumps md down) (ho : OwnNames (l ++ l'))
    (hk : ∀ e ∈ l ++ l', Covered md.spotDate e.2 [⟨md.spotDate, .open⟩]) (h : Valued fuel md up down l) (h' : Valued fuel md up down l')
    {s : String → ℝ} {r r' t : Map String (Num ℝ × Num ℝ)} (hr : Figures fuel md up down s l r) (hr' : Figures fuel md up down s l' r')
    (ht : Figures fuel md up down s (l ++ l') t) : worth fuel (l ++ l') md = worth fuel l md + worth fuel l' md ∧
      ∀ id, t.get id = both (r.get id) (r'.get id) := by
  have hx : worth fuel (l ++ l') md = worth fuel l md + worth fuel l' md := worth_eq (value_sum hor ho.ownIds hk (value_worth h.1) (value_worth h'.1))
  refine ⟨hx, fun id => ?_⟩
  have e1 : worth fuel (l ++ l') (up id) = _ :=
    worth_eq (bumped_sum hor hu ho hk h.1 (fun u hu => (h.2 u hu).2.1) h'.1 (fun u hu => (h'.2 u hu).2.1) id)
  have e2 : worth fuel (l ++ l') (down id) = _ :=
    worth_eq (bumped_sum hor hd ho hk h.1 (fun u hu => (h.2 u hu).2.2) h'.1 (fun u hu => (h'.2 u hu).2.2) id)
  have k1 := (bumped_value hor hu ho.left (fun e he => hk e (List.mem_append_left _ he)) h.1 (fun u hu => (h.2 u hu).2.1) id).2
  have k2 := (bumped_value hor hd ho.left (fun e he => hk e (List.mem_append_left _ he)) h.1 (fun u hu => (h.2 u hu).2.2) id).2
  have k3 := (bumped_value hor hu ho.right (fun e he => hk e (List.mem_append_right _ he)) h'.1 (fun u hu => (h'.2 u hu).2.1) id).2
  have k4 := (bumped_value hor hd ho.right (fun e he => hk e (List.mem_append_right _ he)) h'.1 (fun u hu => (h'.2 u hu).2.2) id).2
  have hm : (∃ u ∈ mentionedAll (l ++ l'), u.id = id) ↔ (∃ u ∈ mentionedAll l, u.id = id) ∨ ∃ u ∈ mentionedAll l', u.id = id := by
    rw [mentionedAll_append]
    simp only [List.mem_append, or_and_right, exists_or]
  by_cases hl : ∃ u ∈ mentionedAll l, u.id = id <;> by_cases hl' : ∃ u ∈ mentionedAll l', u.id = id
  · rw [(hr id).1 hl, (hr' id).1 hl', (ht id).1 (hm.2 (.inl hl))]
    simp only [both, figures, e1, e2, hx, num2]
    rw [← add_div, ← add_div]
    congr 4 <;> ring
  · rw [(hr id).1 hl, (hr' id).2 hl', (ht id).1 (hm.2 (.inl hl))]
    simp only [both, figures, e1, e2, hx, k3 hl', k4 hl']
    congr 4 <;> ring
  · rw [(hr id).2 hl, (hr' id).1 hl', (ht id).1 (hm.2 (.inr hl'))]
    simp only [both, figures, e1, e2, hx, k1 hl, k2 hl]
    congr 4 <;> ring
  · rw [(hr id).2 hl, (hr' id).2 hl', (ht id).2 (fun h => (hm.1 h).elim hl hl')]
    rfl

end Sum

/-- C105, delta and gamma: put two books together. If each has a report then so does the whole, and under each id its figures are the sums of
those of the parts, where a part with no equity of that id counts for nothing. -/
theorem C105_delta_partial {b : ℝ} (hor : Orderly md) (ho : OwnNames (l ++ l')) (hk : ∀ e ∈ l ++ l', Covered md.spotDate e.2 [⟨md.spotDate, .open⟩])
    (hb0 : b ≠ 0) (hb : b ≠ -1) (h : Smooth fuel b md l) (h' : Smooth fuel b md l') :
    ∃ p p' q x y r r' t p₁ p₁' q₁, SelfPricer.new l md = .ok p ∧ SelfPricer.new l' md = .ok p' ∧ SelfPricer.new (l ++ l') md = .ok q ∧
      p.price fuel = .ok (.val x) ∧ p'.price fuel = .ok (.val y) ∧ q.price fuel = .ok (.val (x + y)) ∧
      generate (selfPricer fuel) (.deltaGamma b) p .new (.val x) = (.ok (.deltaGamma (.val b) r), p₁, .new) ∧
      generate (selfPricer fuel) (.deltaGamma b) p' .new (.val y) = (.ok (.deltaGamma (.val b) r'), p₁', .new) ∧
      generate (selfPricer fuel) (.deltaGamma b) q .new (.val (x + y)) = (.ok (.deltaGamma (.val b) t), q₁, .new) ∧
      ∀ id, t.get id = both (r.get id) (r'.get id) := by
  have hS : ∀ u ∈ mentionedAll l, ∃ S, md.spots.get u.id = some S ∧ S ≠ 0 := by
    intro u hu
    obtain ⟨_, S, _, _, k1, k2, _⟩ := h.bumped u hu
    exact ⟨S, k1, k2⟩
  have hS' : ∀ u ∈ mentionedAll l', ∃ S, md.spots.get u.id = some S ∧ S ≠ 0 := by
    intro u hu
    obtain ⟨_, S, _, _, k1, k2, _⟩ := h'.bumped u hu
    exact ⟨S, k1, k2⟩
  have hup : Bumps md (spotUp b md) := spot_bumps hor _
  have hdown : Bumps md (spotDown b md) := spot_bumps hor _
  have hv := Valued.sum hor hup hdown ho hk h.valued h'.valued
  obtain ⟨p, r, p₁, a1, a2, a3, a4⟩ := delta_book h.valued hS ho.left hb0 hb
  obtain ⟨p', r', p₁', b1, b2, b3, b4⟩ := delta_book h'.valued hS' ho.right hb0 hb
  obtain ⟨q, t, q₁, c1, c2, c3, c4⟩ := delta_book hv (by
    intro u hu
    rw [mentionedAll_append] at hu
    exact (List.mem_append.1 hu).elim (hS u) (hS' u)) ho hb0 hb
  obtain ⟨hx, hs⟩ := figures_sum hor hup hdown ho hk h.valued h'.valued a4 b4 c4
  rw [hx] at c2 c3
  exact ⟨p, p', q, _, _, r, r', t, p₁, p₁', q₁, a1, b1, c1, a2, b2, c2, a3, b3, c3, hs⟩

/-- C105, vega and volga: likewise. -/
theorem C105_vega_partial {b : ℝ} (hor : Orderly md) (ho : OwnNames (l ++ l')) (hk : ∀ e ∈ l ++ l', Covered md.spotDate e.2 [⟨md.spotDate, .open⟩])
    (hb0 : b ≠ 0) (hb : b ≠ -1) (h : SmoothVols fuel b md l) (h' : SmoothVols fuel b md l') :
    ∃ p p' q x y r r' t p₁ p₁' q₁, SelfPricer.new l md = .ok p ∧ SelfPricer.new l' md = .ok p' ∧ SelfPricer.new (l ++ l') md = .ok q ∧
      p.price fuel = .ok (.val x) ∧ p'.price fuel = .ok (.val y) ∧ q.price fuel = .ok (.val (x + y)) ∧
      generate (selfPricer fuel) (.vegaVolga (.flatAdditive (.val b))) p .new (.val x) = (.ok (.vegaVolga (.val b) r), p₁, .new) ∧
      generate (selfPricer fuel) (.vegaVolga (.flatAdditive (.val b))) p' .new (.val y) = (.ok (.vegaVolga (.val b) r'), p₁', .new) ∧
      generate (selfPricer fuel) (.vegaVolga (.flatAdditive (.val b))) q .new (.val (x + y)) = (.ok (.vegaVolga (.val b) t), q₁, .new) ∧
      ∀ id, t.get id = both (r.get id) (r'.get id) := by
  have hS : ∀ u ∈ mentionedAll l, ∃ vol, md.volSurfaces.get u.id = some vol := by
    intro u hu
    obtain ⟨_, S, _, _, k1, _⟩ := h.bumped u hu
    exact ⟨S, k1⟩
  have hS' : ∀ u ∈ mentionedAll l', ∃ vol, md.volSurfaces.get u.id = some vol := by
    intro u hu
    obtain ⟨_, S, _, _, k1, _⟩ := h'.bumped u hu
    exact ⟨S, k1⟩
  have hup : Bumps md (volUp b md) := vol_bumps hor _
  have hdown : Bumps md (volDown b md) := vol_bumps hor _
  have hv := Valued.sum hor hup hdown ho hk h.valued h'.valued
  obtain ⟨p, r, p₁, a1, a2, a3, a4⟩ := vega_book h.valued hS ho.left hb0 hb
  obtain ⟨p', r', p₁', b1, b2, b3, b4⟩ := vega_book h'.valued hS' ho.right hb0 hb
  obtain ⟨q, t, q₁, c1, c2, c3, c4⟩ := vega_book hv (by
    intro u hu
    rw [mentionedAll_append] at hu
    exact (List.mem_append.1 hu).elim (hS u) (hS' u)) ho hb0 hb
  obtain ⟨hx, hs⟩ := figures_sum hor hup hdown ho hk h.valued h'.valued a4 b4 c4
  rw [hx] at c2 c3
  exact ⟨p, p', q, _, _, r, r', t, p₁, p₁', q₁, a1, b1, c1, a2, b2, c2, a3, b3, c3, hs⟩

/-! ## Multiples -/

section Scale
variable {up down : String → MarketData}

theorem Spec.OwnNames.scaled (h : OwnNames l) (c : ℝ) : OwnNames (QM.Risk.Spec.scaled c l) := by
  unfold OwnNames
  rw [mentionedAll_scaled]
  exact h

theorem Valued.scaled (h : Valued fuel md up down l) (c : ℝ) : Valued fuel md up down (QM.Risk.Spec.scaled c l) := by
  obtain ⟨⟨x, hx⟩, h2⟩ := h
  refine ⟨⟨_, value_scaled c hx⟩, fun u hu => ?_⟩
  rw [mentionedAll_scaled] at hu
  obtain ⟨k1, ⟨y, k2⟩, ⟨z, k3⟩⟩ := h2 u hu
  rw [underlyingsAll_scaled]
  exact ⟨k1, ⟨_, value_scaled c k2⟩, ⟨_, value_scaled c k3⟩⟩

theorem figures_scaled (c : ℝ) (h : Valued fuel md up down l) {s : String → ℝ} {r t : Map String (Num ℝ × Num ℝ)} (hr : Figures fuel md up down s l r)
    (ht : Figures fuel md up down s (scaled c l) t) : worth fuel (scaled c l) md = c * worth fuel l md ∧
      ∀ id, t.get id = (r.get id).map fun x => (num1 (c * ·) x.1, num1 (c * ·) x.2) := by
  have hx : worth fuel (scaled c l) md = c * worth fuel l md := worth_eq (value_scaled c (value_worth h.1))
  refine ⟨hx, fun id => ?_⟩
  have ht' := ht id
  rw [mentionedAll_scaled] at ht'
  by_cases hl : ∃ u ∈ mentionedAll l, u.id = id
  · rw [(hr id).1 hl, ht'.1 hl]
    obtain ⟨u, hu, rfl⟩ := hl
    obtain ⟨_, k2, k3⟩ := h.2 u hu
    have e1 : worth fuel (scaled c l) (up u.id) = _ := worth_eq (value_scaled c (value_worth k2))
    have e2 : worth fuel (scaled c l) (down u.id) = _ := worth_eq (value_scaled c (value_worth k3))
    simp only [figures, e1, e2, hx, Option.map_some, num1]
    rw [← mul_div_assoc, ← mul_div_assoc]
    congr 4 <;> ring
  · rw [(hr id).2 hl, ht'.2 hl]
    rfl

end Scale

/-- C105, delta and gamma: a book held `c` times has `c` times the figures. -/
theorem C105_delta_scaled_partial {b : ℝ} (c : ℝ) (ho : OwnNames l) (hb0 : b ≠ 0) (hb : b ≠ -1) (h : Smooth fuel b md l) :
    ∃ p q x r t p₁ q₁, SelfPricer.new l md = .ok p ∧ SelfPricer.new (scaled c l) md = .ok q ∧
      p.price fuel = .ok (.val x) ∧ q.price fuel = .ok (.val (c * x)) ∧
      generate (selfPricer fuel) (.deltaGamma b) p .new (.val x) = (.ok (.deltaGamma (.val b) r), p₁, .new) ∧
      generate (selfPricer fuel) (.deltaGamma b) q .new (.val (c * x)) = (.ok (.deltaGamma (.val b) t), q₁, .new) ∧
      ∀ id, t.get id = (r.get id).map fun x => (num1 (c * ·) x.1, num1 (c * ·) x.2) := by
  have hS : ∀ u ∈ mentionedAll l, ∃ S, md.spots.get u.id = some S ∧ S ≠ 0 := by
    intro u hu
    obtain ⟨_, S, _, _, k1, k2, _⟩ := h.bumped u hu
    exact ⟨S, k1, k2⟩
  obtain ⟨p, r, p₁, a1, a2, a3, a4⟩ := delta_book h.valued hS ho hb0 hb
  obtain ⟨q, t, q₁, c1, c2, c3, c4⟩ := delta_book (h.valued.scaled c) (by rw [mentionedAll_scaled]; exact hS) (ho.scaled c) hb0 hb
  obtain ⟨hx, hs⟩ := figures_scaled c h.valued a4 c4
  rw [hx] at c2 c3
  exact ⟨p, q, _, r, t, p₁, q₁, a1, c1, a2, c2, a3, c3, hs⟩

/-- C105, vega and volga: likewise. -/
theorem C105_vega_scaled_partial {b : ℝ} (c : ℝ) (ho : OwnNames l) (hb0 : b ≠ 0) (hb : b ≠ -1) (h : SmoothVols fuel b md l) :
    ∃ p q x r t p₁ q₁, SelfPricer.new l md = .ok p ∧ SelfPricer.new (scaled c l) md = .ok q ∧
      p.price fuel = .ok (.val x) ∧ q.price fuel = .ok (.val (c * x)) ∧
      generate (selfPricer fuel) (.vegaVolga (.flatAdditive (.val b))) p .new (.val x) = (.ok (.vegaVolga (.val b) r), p₁, .new) ∧
      generate (selfPricer fuel) (.vegaVolga (.flatAdditive (.val b))) q .new (.val (c * x)) = (.ok (.vegaVolga (.val b) t), q₁, .new) ∧
      ∀ id, t.get id = (r.get id).map fun x => (num1 (c * ·) x.1, num1 (c * ·) x.2) := by
  have hS : ∀ u ∈ mentionedAll l, ∃ vol, md.volSurfaces.get u.id = some vol := by
    intro u hu
    obtain ⟨_, S, _, _, k1, _⟩ := h.bumped u hu
    exact ⟨S, k1⟩
  obtain ⟨p, r, p₁, a1, a2, a3, a4⟩ := vega_book h.valued hS ho hb0 hb
  obtain ⟨q, t, q₁, c1, c2, c3, c4⟩ := vega_book (h.valued.scaled c) (by rw [mentionedAll_scaled]; exact hS) (ho.scaled c) hb0 hb
  obtain ⟨hx, hs⟩ := figures_scaled c h.valued a4 c4
  rw [hx] at c2 c3
  exact ⟨p, q, _, r, t, p₁, q₁, a1, c1, a2, c2, a3, c3, hs⟩

/-! ## Cases -/

theorem mentioned_euro (n : ℝ) (kind : PutOrCall) (v : Vanilla) (credit : String) (settle : Int → Int) (K : ℝ) :
    (∀ u ∈ mentionedAll [(n, euro kind v id credit settle K)], u = .equity id credit settle) ∧
      ∃ w ∈ underlyingsAll [(n, euro kind v id credit settle K)], w.id = id := by
  constructor
  · intro u hu
    simpa [mentionedAll, euro, mentioned] using hu
  · exact ⟨.equity id credit settle, by simp [underlyingsAll, euro, underlyings], rfl⟩

/-- The sample market with a volatility. -/
noncomputable def smileless : MarketData := withVol (sampleMarket 100 (.zero 0)) "A" (.flat (.val 0.2) .everyDay (0, 0))

theorem smooth_sample (n : ℝ) (kind : PutOrCall) (K : ℝ) (hK : 0 < K) :
    Smooth fuel 0.01 smileless [(n, euro kind sampleTerms "A" "C" _root_.id K)] := by
  have h := sample_setting (fuel := fuel) 0.2 100 K
  obtain ⟨m1, m2⟩ := mentioned_euro (id := "A") n kind sampleTerms "C" _root_.id K
  refine ⟨?_, ?_⟩
  · obtain ⟨p, h1, h2⟩ := setting_new h n kind (by norm_num) (by linarith) (by norm_num)
    obtain ⟨x, h2⟩ : ∃ x, p.price fuel = .ok (.val x) := ⟨_, h2⟩
    refine ⟨x, ?_⟩
    unfold value
    rw [smileless, h1]
    exact h2
  · intro u hu
    rw [m1 u hu]
    exact ⟨m2, 100, _, _, rfl, by norm_num, setting_value h n kind (by norm_num) (by linarith) (by norm_num),
      setting_value h n kind (by norm_num) (by linarith) (by norm_num)⟩

theorem sample_names (n m : ℝ) (kind kind' : PutOrCall) (K K' : ℝ) :
    OwnNames ([(n, euro kind sampleTerms "A" "C" _root_.id K)] ++ [(m, euro kind' sampleTerms "A" "C" _root_.id K')]) := by
  have : ∀ u ∈ mentionedAll ([(n, euro kind sampleTerms "A" "C" _root_.id K)] ++ [(m, euro kind' sampleTerms "A" "C" _root_.id K')]),
      u = .equity "A" "C" _root_.id := by
    rw [mentionedAll_append]
    intro u hu
    rcases List.mem_append.1 hu with hu | hu
    · exact (mentioned_euro n kind sampleTerms "C" _root_.id K).1 u hu
    · exact (mentioned_euro m kind' sampleTerms "C" _root_.id K').1 u hu
  intro u hu v hv _
  rw [this u hu, this v hv]

/-- C105: two puts held and a call sold, apart and together. -/
example : Orderly smileless ∧ OwnNames ([(2, euro .put sampleTerms "A" "C" _root_.id 50)] ++ [(-1, euro .call sampleTerms "A" "C" _root_.id 90)]) ∧
    (∀ e ∈ [((2 : ℝ), euro .put sampleTerms "A" "C" _root_.id 50)] ++ [(-1, euro .call sampleTerms "A" "C" _root_.id 90)],
      Covered smileless.spotDate e.2 [⟨smileless.spotDate, .open⟩]) ∧
    Smooth fuel 0.01 smileless [(2, euro .put sampleTerms "A" "C" _root_.id 50)] ∧
    Smooth fuel 0.01 smileless [(-1, euro .call sampleTerms "A" "C" _root_.id 90)] := by
  refine ⟨⟨(sample_orderly 100).financing, (sample_orderly 100).dividends⟩, sample_names _ _ _ _ _ _, ?_, smooth_sample _ _ _ (by norm_num),
    smooth_sample _ _ _ (by norm_num)⟩
  intro e he
  simp only [List.cons_append, List.nil_append, List.mem_cons, List.not_mem_nil, or_false] at he
  rcases he with rfl | rfl <;>
  · unfold euro
    dsimp only
    rw [Covered]
    exact .inl trivial

end QM.Risk
