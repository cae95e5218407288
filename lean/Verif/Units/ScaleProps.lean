import Verif.Units.Props
import Verif.Risk.DeltaProps

/-!
# Property C98: options whose strike is not set yet are worth a number of shares

A forward-starting option is struck at a fraction of what the share will be worth. Until then its value is proportional to the spot, as long as
nothing else in the market is an amount of money: no cash dividends, and volatilities that do not depend on the strike.
-/

namespace QM.Units
open QM.Interp QM.Curves QM.Dividends QM.Vol QM.Fixings QM.Instruments QM.Instruments.Spec QM.Market QM.Market.Spec QM.Risk QM.Risk.Spec

namespace Spec

/-- A share, or an option on it whose strike is not set yet. -/
def ShareLike (u i : Instrument) : Prop := i = u ∨ ∃ v fraction strikeDate strikeTime, i = .forwardStarting v u fraction strikeDate strikeTime

/-- A surface on which volatilities do not depend on the strike: a flat one, rolled and bumped in any way that keeps it so. -/
def Level : VolSurface → Prop
  | .flat _ _ _ => True
  | .byProbability _ _ => False
  | .constantExpiry s _ _ => Level s
  | .rollingExpiry s _ _ => Level s
  | .parallelBump s _ => Level s
  | .timeScaledBump s _ _ => Level s
  | .stickyDeltaBump _ _ => False

/-- The market of a share that pays no cash, with a level surface. -/
structure Proportional (md : MarketData) (id : String) : Prop where
  noCash : ∀ s, md.dividends.get id = some s → ∀ x ∈ s.dividends, x.cash = 0
  level : ∀ s, md.volSurfaces.get id = some s → Level s

end Spec
open Spec

variable {id credit : String} {settle : Int → Int} {md md' : MarketData} {fuel : Nat} {instruments : List (ℝ × Instrument)}

/-- The share. -/
local notation "share" => Instrument.equity id credit settle

/-! ## Only the data of the share matter -/

/-- Two markets that agree about a share. -/
structure Alike (md md' : MarketData) (id : String) : Prop where
  date : md.spotDate = md'.spotDate
  spot : md.spots.get id = md'.spots.get id
  yield : md.yieldCurves = md'.yieldCurves
  borrow : md.borrowCurves.get id = md'.borrowCurves.get id
  divs : md.dividends.get id = md'.dividends.get id
  vols : md.volSurfaces.get id = md'.volSurfaces.get id

theorem alike_forward (h : Alike md md' id) (hwm : Int) : md.forwardCurve share hwm = md'.forwardCurve share hwm := by
  unfold MarketData.forwardCurve MarketData.equityForward find
  rw [show (share).id = id from rfl, h.spot, h.divs, h.borrow, h.yield, h.date]

theorem alike_vol (h : Alike md md' id) (hwm : Int) (f : Unit → Outcome Fwd) : md.volSurface share hwm f = md'.volSurface share hwm f := by
  unfold MarketData.volSurface find
  rw [show (share).id = id from rfl, h.vols, h.date]

theorem alike_walk (h : Alike md md' id) (vols : Map String (Instrument × Int)) : ∀ (l : List (String × Instrument × Int)),
    (∀ e ∈ l, e.2.1 = share) → ∀ fs vs, walkDependencies md vols l fs vs = walkDependencies md' vols l fs vs
  | [], _, _, _ => rfl
  | (k, i, hwm) :: rest, hl, fs, vs => by
    obtain rfl : i = share := hl _ (List.mem_cons_self ..)
    have ih := alike_walk h vols rest (fun e he => hl e (List.mem_cons_of_mem _ he))
    simp only [walkDependencies, alike_forward h, alike_vol h, ih]

/-- What is collected for share-like instruments is about the share. -/
structure About (u : Instrument) (c : Collector) : Prop where
  forwards : ∀ e ∈ c.forwardCurves.entries, e.2.1 = u
  instruments : ∀ k, c.instruments.get k = none ∨ (k = u.id ∧ c.instruments.get k = some u)

theorem mem_insert {V : Type} {m : Map String V} {k : String} {v : V} {e : String × V} (h : e ∈ (m.insert k v).entries) :
    e = (k, v) ∨ e ∈ m.entries := by
  unfold Map.insert at h
  rcases List.mem_cons.1 h with h | h
  · exact Or.inl h
  · exact Or.inr (List.mem_filter.1 h).1

theorem get_entry {V : Type} {m : Map String V} {k : String} {v : V} (h : m.get k = some v) : (k, v) ∈ m.entries := by
  unfold Map.get at h
  obtain ⟨e, he, rfl⟩ := Option.map_eq_some_iff.1 h
  have h1 := List.mem_of_find?_eq_some he
  have h2 := List.find?_some he
  have h3 : e.1 = k := by simpa using h2
  rw [← h3]
  exact h1

theorem setHwm_about {u : Instrument} {hwm : Int} {m : Map String (Instrument × Int)} (h : ∀ e ∈ m.entries, e.2.1 = u) :
    ∀ e ∈ (Collector.setHwm u hwm m).entries, e.2.1 = u := by
  intro e he
  unfold Collector.setHwm at he
  split at he
  · rcases mem_insert he with rfl | he
    · rfl
    · exact h e he
  · rename_i key old hg
    split at he
    · rcases mem_insert he with rfl | he
      · exact h (u.id, key, old) (get_entry hg)
      · exact h e he
    · exact h e he

theorem setHwm_some {u : Instrument} {hwm : Int} {m : Map String (Instrument × Int)} (k : String) :
    (k = u.id ∨ m.get k ≠ none) → (Collector.setHwm u hwm m).get k ≠ none := by
  intro h
  unfold Collector.setHwm
  split
  · rename_i hn
    rw [Map.get_insert]
    split
    · simp
    · rcases h with rfl | h
      · simp_all
      · exact h
  · rename_i key old hg
    have hm : (k = u.id ∨ m.get k ≠ none) → m.get k ≠ none := by
      rintro (rfl | h)
      · rw [hg]; simp
      · exact h
    split
    · rw [Map.get_insert]
      split
      · simp
      · exact hm h
    · exact hm h

theorem spot_share (c : Collector) : (c.spot share).forwardCurves = c.forwardCurves ∧ (c.spot share).instruments = c.instruments.insert id share :=
  ⟨rfl, rfl⟩

theorem spot_option (c : Collector) (v : Vanilla) (a : ℝ) (d : DateTime) (t : Point) :
    (c.spot (.forwardStarting v share a d t)).forwardCurves = Collector.setHwm share v.expiry.date c.forwardCurves ∧
      (c.spot (.forwardStarting v share a d t)).instruments = (c.instruments.insert id share).insert id share :=
  ⟨rfl, rfl⟩

theorem about_insert {m : Map String Instrument} (h : ∀ k, m.get k = none ∨ (k = id ∧ m.get k = some share)) (k : String) :
    (m.insert id share).get k = none ∨ (k = id ∧ (m.insert id share).get k = some share) := by
  rw [Map.get_insert]
  split
  · rename_i hk; exact Or.inr ⟨hk, rfl⟩
  · exact h k

theorem about_collect (sd : Int) (hi : ∀ e ∈ instruments, ShareLike share e.2) : About share (collect sd instruments) := by
  unfold collect
  suffices ∀ (l : List (ℝ × Instrument)) (c : Collector), (∀ e ∈ l, ShareLike share e.2) → About share c →
      About share (l.foldl (fun c e => c.spot e.2) c) from
    this _ _ hi ⟨fun e he => (by cases he), fun k => Or.inl rfl⟩
  intro l
  induction l with
  | nil => exact fun c _ h => h
  | cons e l ih =>
    intro c hl hc
    refine ih _ (fun e he => hl e (List.mem_cons_of_mem _ he)) ?_
    dsimp only
    rcases hl e (List.mem_cons_self ..) with h | ⟨v, a, d, t, h⟩ <;> rw [h]
    · exact ⟨hc.forwards, about_insert hc.instruments⟩
    · exact ⟨setHwm_about hc.forwards, about_insert (about_insert hc.instruments)⟩

theorem share_collected (sd : Int) (hi : ∀ e ∈ instruments, ShareLike share e.2) (ho : ∃ e ∈ instruments, e.2 ≠ share) :
    (collect sd instruments).forwardCurves.get id ≠ none ∧ (collect sd instruments).instruments.get id ≠ none := by
  unfold collect
  suffices ∀ (l : List (ℝ × Instrument)) (c : Collector), (∀ e ∈ l, ShareLike share e.2) →
      ((∃ e ∈ l, e.2 ≠ share) ∨ (c.forwardCurves.get id ≠ none ∧ c.instruments.get id ≠ none)) →
      (l.foldl (fun c e => c.spot e.2) c).forwardCurves.get id ≠ none ∧ (l.foldl (fun c e => c.spot e.2) c).instruments.get id ≠ none from
    this _ _ hi (Or.inl ho)
  intro l
  induction l with
  | nil =>
    rintro c _ (⟨e, he, _⟩ | h)
    · cases he
    · exact h
  | cons e l ih =>
    intro c hl h
    refine ih _ (fun e he => hl e (List.mem_cons_of_mem _ he)) ?_
    dsimp only
    rcases hl e (List.mem_cons_self ..) with h' | ⟨v, a, d, t, h'⟩
    · rcases h with ⟨e', he', hne⟩ | h
      · rcases List.mem_cons.1 he' with rfl | he'
        · exact absurd h' hne
        · exact Or.inl ⟨e', he', hne⟩
      · right
        rw [h', (spot_share c).1, (spot_share c).2, Map.get_insert_self]
        exact ⟨h.1, by simp⟩
    · right
      rw [h', (spot_option c v a d t).1, (spot_option c v a d t).2, Map.get_insert_self]
      exact ⟨setHwm_some _ (Or.inl rfl), by simp⟩

theorem unambiguous_collect (sd : Int) (hi : ∀ e ∈ instruments, ShareLike share e.2) : Unambiguous (collect sd instruments) := by
  intro k i hwm j h1 h2
  have h := about_collect sd hi
  have h3 := h.forwards _ (get_entry h1)
  rcases h.instruments k with h4 | ⟨_, h4⟩
  · rw [h4] at h2; cases h2
  · rw [h4] at h2
    cases h2
    exact h3.symm

/-- A share-like instrument looks only at the data of the share. -/
theorem alike_prices {ctx ctx' : PricingContext} (hd : ctx.spotDate = ctx'.spotDate) (hs : ctx.spot id = ctx'.spot id)
    (hy : ctx.yieldCurve = ctx'.yieldCurve) (hf : ctx.forwardCurve = ctx'.forwardCurve) (hv : ctx.volSurface = ctx'.volSurface)
    {i : Instrument} (hi : ShareLike share i) (dates : List DateTime) : i.prices fuel ctx dates = i.prices fuel ctx' dates := by
  have hu : ∀ dates, (share).prices fuel ctx dates = (share).prices fuel ctx' dates := by
    intro dates
    simp only [Instrument.prices]
    rcases dates with _ | ⟨d, _ | ⟨d', rest⟩⟩
    · rfl
    · simp only [equityPrices, hd, hf, show (share).id = id from rfl, hs]
    · simp only [equityPrices, hf]
  rcases hi with rfl | ⟨v, a, d, t, rfl⟩
  · exact hu dates
  · simp only [Instrument.prices] at hu ⊢
    simp only [hu, hd, vanillaPrices, hy, hf, hv]

theorem alike_value (h : Alike md md' id) (hi : ∀ e ∈ instruments, ShareLike share e.2) :
    value fuel instruments md = value fuel instruments md' := by
  unfold value SelfPricer.new Prefetch.new
  rw [← h.date, alike_walk h _ _ (about_collect md.spotDate hi).forwards]
  generalize walkDependencies md' _ _ _ _ = w
  obtain ⟨w, fs, vs⟩ := w
  cases w with
  | error e => rfl
  | ok _ =>
    show SelfPricer.price fuel ⟨instruments, ⟨md, _, fs, vs⟩⟩ = SelfPricer.price fuel ⟨instruments, ⟨md', _, fs, vs⟩⟩
    unfold SelfPricer.price
    dsimp only
    rw [← h.date]
    generalize (Num.val 0 : Num ℝ) = total
    generalize hc : collect md.spotDate instruments = c
    clear hc
    induction instruments generalizing total with
    | nil => rfl
    | cons e l ih =>
      obtain ⟨n, i⟩ := e
      have hp : ∀ dates, i.prices fuel (Prefetch.pricingContext ⟨md, c, fs, vs⟩) dates = i.prices fuel (Prefetch.pricingContext ⟨md', c, fs, vs⟩) dates := by
        intro dates
        refine alike_prices (ctx := Prefetch.pricingContext ⟨md, c, fs, vs⟩) (ctx' := Prefetch.pricingContext ⟨md', c, fs, vs⟩) h.date ?_ ?_ rfl rfl (hi _ (List.mem_cons_self ..)) dates
        · show find id md.spots = find id md'.spots
          unfold find
          rw [h.spot]
        · show (fun creditId _ => find creditId md.yieldCurves) = fun creditId _ => find creditId md'.yieldCurves
          rw [h.yield]
      simp only [priceLoop, Instrument.price, hp, ih (fun e he => hi e (List.mem_cons_of_mem _ he))]

theorem priceLoop_append (ctx : PricingContext) (date : DateTime) (e : ℝ × Instrument) : ∀ (l : List (ℝ × Instrument)) (t : Num ℝ),
    priceLoop fuel ctx date (l ++ [e]) t = (do
      let t ← priceLoop fuel ctx date l t
      priceLoop fuel ctx date [e] t)
  | [], t => rfl
  | (w, i) :: l, t => by
    rw [List.cons_append, priceLoop, priceLoop]
    cases i.price fuel ctx date with
    | error _ => rfl
    | ok x => exact priceLoop_append ctx date e l _

/-- A further share is worth its spot. -/
theorem value_append {S V n : ℝ} (hv : value fuel instruments md = .ok (.val V)) (hS : md.spots.get id = some S) :
    value fuel (instruments ++ [(n, share)]) md = .ok (.val (V + n * S)) := by
  unfold value SelfPricer.new Prefetch.new at hv ⊢
  have hc : collect md.spotDate (instruments ++ [(n, share)]) = (collect md.spotDate instruments).spot share := by
    unfold collect
    rw [List.foldl_append]
    rfl
  rw [hc, show ((collect md.spotDate instruments).spot share).forwardCurves = (collect md.spotDate instruments).forwardCurves from rfl,
    show ((collect md.spotDate instruments).spot share).volSurfaces = (collect md.spotDate instruments).volSurfaces from rfl]
  generalize walkDependencies md _ _ _ _ = w at hv ⊢
  obtain ⟨w, fs, vs⟩ := w
  cases w with
  | error e => cases hv
  | ok _ =>
    have h1 : SelfPricer.price fuel ⟨instruments, ⟨md, collect md.spotDate instruments, fs, vs⟩⟩ = .ok (.val V) := hv
    show SelfPricer.price fuel ⟨instruments ++ [(n, share)], ⟨md, (collect md.spotDate instruments).spot share, fs, vs⟩⟩ = _
    unfold SelfPricer.price at h1 ⊢
    dsimp only at h1 ⊢
    have h2 : Prefetch.pricingContext ⟨md, (collect md.spotDate instruments).spot share, fs, vs⟩ =
      Prefetch.pricingContext ⟨md, collect md.spotDate instruments, fs, vs⟩ := rfl
    rw [h2, priceLoop_append, h1]
    have h3 : (share).price fuel (Prefetch.pricingContext ⟨md, collect md.spotDate instruments, fs, vs⟩) ⟨md.spotDate, .open⟩ = .ok (.val S) := by
      have : find id md.spots = .ok S := by
        unfold find
        rw [hS]
      unfold Instrument.price
      rw [Instrument.prices, equityPrices]
      rw [if_pos (by rfl)]
      show (do
        let values ← (do
          let s ← find id md.spots
          pure [Num.val s] : Outcome (List (Num ℝ)))
        only values) = _
      rw [this]
      rfl
    show priceLoop fuel _ _ [(n, share)] (.val V) = _
    rw [priceLoop, h3]
    rfl

/-! ## Nothing but the spot is an amount -/

theorem level_surface {s : VolSurface} (h : Level s) (c : ℝ) : surface c s = s := by
  induction s with
  | flat => rfl
  | byProbability => cases h
  | constantExpiry s o b ih => rw [surface, ih h]
  | rollingExpiry s o b ih => rw [surface, ih h]
  | parallelBump s b ih => rw [surface, ih h]
  | timeScaledBump s b f ih => rw [surface, ih h]
  | stickyDeltaBump => cases h

theorem noCash_dividends {s : DividendStream} (h : ∀ x ∈ s.dividends, x.cash = 0) (c : ℝ) : dividends c s = s := by
  unfold dividends
  have : s.dividends.map (fun x => { x with cash := c * x.cash }) = s.dividends := by
    refine (List.map_congr_left fun x hx => ?_).trans (List.map_id _)
    obtain ⟨⟩ := x
    have := h _ hx
    simp_all
  rw [this]

theorem share_positions (hi : ∀ e ∈ instruments, ShareLike share e.2) (c : ℝ) : positions c instruments = instruments ∧ QuotableAll instruments := by
  induction instruments with
  | nil => exact ⟨rfl, trivial⟩
  | cons e l ih =>
    obtain ⟨n, i⟩ := e
    obtain ⟨h1, h2⟩ := ih (fun e he => hi e (List.mem_cons_of_mem _ he))
    rcases hi _ (List.mem_cons_self ..) with h | ⟨v, a, d, t, h⟩ <;> dsimp only at h <;> subst h
    · exact ⟨by rw [positions, h1]; rfl, trivial, h2⟩
    · exact ⟨by rw [positions, h1]; rfl, ⟨rfl, trivial⟩, h2⟩

/-- To set the spot is to change the unit, as far as a share is concerned that pays no cash and has a level surface. -/
theorem spot_alike {S x : ℝ} (hm : Proportional md id) (hS : md.spots.get id = some S) (hS0 : 0 < S) : Alike (withSpot md id x) (market (x / S) md) id := by
  refine ⟨rfl, ?_, rfl, rfl, ?_, ?_⟩
  · show (md.spots.insert id x).get id = (onValues (x / S * ·) md.spots).get id
    rw [Map.get_insert, if_pos rfl, get_onValues, hS]
    show some x = some (x / S * S)
    rw [div_mul_cancel₀ _ hS0.ne']
  · show md.dividends.get id = (onValues (dividends (x / S)) md.dividends).get id
    rw [get_onValues]
    cases hd : md.dividends.get id with
    | none => rfl
    | some s => exact congrArg some (noCash_dividends (hm.noCash s hd) _).symm
  · show md.volSurfaces.get id = (onValues (surface (x / S)) md.volSurfaces).get id
    rw [get_onValues]
    cases hd : md.volSurfaces.get id with
    | none => rfl
    | some s => exact congrArg some (level_surface (hm.level s hd) _).symm

/-! ## C98 -/

/-- C98. Shares and options on them that are not struck yet: whatever the spot is changed to, the value changes by the same factor. -/
theorem C98_proportional {S x : ℝ} {v : Num ℝ} (hi : ∀ e ∈ instruments, ShareLike share e.2) (hm : Proportional md id)
    (hS : md.spots.get id = some S) (hS0 : 0 < S) (hx : 0 < x) (hv : value fuel instruments md = .ok v) :
    value fuel instruments (withSpot md id x) = .ok (num1 (x / S * ·) v) := by
  obtain ⟨h1, h2⟩ := share_positions hi (x / S)
  have h := C95_portfolio (div_pos hx hS0) fuel md instruments h2
  rw [h1] at h
  have ha : Alike (withSpot md id x) (market (x / S) md) id := spot_alike hm hS hS0
  rw [alike_value ha hi]
  refine h.trans ?_
  have hv' : (do let p ← SelfPricer.new instruments md; p.price fuel) = .ok v := hv
  rw [hv']
  rfl

/-- C98, the report: as soon as one option is among them, the report succeeds, the delta is the value in shares and there is no gamma. -/
theorem C98_delta {b S V : ℝ} {p : SelfPricer} (hi : ∀ e ∈ instruments, ShareLike share e.2) (ho : ∃ e ∈ instruments, e.2 ≠ share)
    (hm : Proportional md id) (hS : md.spots.get id = some S) (hS0 : 0 < S) (hb0 : b ≠ 0) (hb : |b| < 1)
    (hp : SelfPricer.new instruments md = .ok p) (hv : p.price fuel = .ok (.val V)) :
    ∃ results p', generate (selfPricer fuel) (.deltaGamma b) p .new (.val V) = (.ok (.deltaGamma (.val b) results), p', .new) ∧
      results.get id = some (.val (V / S), .val 0) ∧ ∀ k ≠ id, results.get k = none := by
  have hvalue : value fuel instruments md = .ok (.val V) := by
    unfold value
    rw [hp]
    exact hv
  have hdep : p.context.dependencies = collect md.spotDate instruments := (at_new hp).dependencies
  have hab := about_collect (id := id) (credit := credit) (settle := settle) md.spotDate hi
  obtain ⟨results, p', h1, h2⟩ := C44_partial (b := b) (S := fun _ => S) (a := fun _ => 0) (m := fun _ => V / S) (c := fun _ => 0) hp
    (unambiguous_collect md.spotDate hi) hb0 (fun h => by rw [h] at hb; norm_num at hb) (fun k hk => by
      rw [hdep] at hk ⊢
      rcases hab.instruments k with h | ⟨hk', _⟩
      · exact absurd h hk
      · rw [show k = id from hk']
        refine ⟨(share_collected md.spotDate hi ho).1, hS, hS0.ne', fun x hx => ?_⟩
        have hx0 : 0 < x := by
          rw [abs_mul, abs_of_pos hS0] at hx
          have h1 := (abs_le.1 hx).1
          nlinarith
        rw [C98_proportional hi hm hS hS0 hx0 hvalue]
        show Except.ok (Num.val (x / S * V)) = _
        congr 2
        ring) hv
  refine ⟨results, p', h1, ?_, ?_⟩
  · have hne : p.context.dependencies.instruments.get id ≠ none := by
      rw [hdep]
      exact (share_collected md.spotDate hi ho).2
    rw [(h2 id).1 hne]
    norm_num
  · intro k hk
    refine (h2 k).2 ?_
    rw [hdep]
    rcases hab.instruments k with h | ⟨h, _⟩
    · exact h
    · exact absurd h hk

/-- C98, the hedge: shares and options on them that are not struck yet, against as many shares as they are worth, are worth nothing wherever the
spot goes. -/
theorem C98_hedged {S x V : ℝ} (hi : ∀ e ∈ instruments, ShareLike share e.2) (hm : Proportional md id)
    (hS : md.spots.get id = some S) (hS0 : 0 < S) (hx : 0 < x) (hv : value fuel instruments md = .ok (.val V)) :
    value fuel (instruments ++ [(-(V / S), share)]) (withSpot md id x) = .ok (.val 0) := by
  have hi' : ∀ e ∈ instruments ++ [(-(V / S), share)], ShareLike share e.2 := by
    intro e he
    rcases List.mem_append.1 he with he | he
    · exact hi e he
    · rw [List.mem_singleton.1 he]
      exact Or.inl rfl
  have h0 : value fuel (instruments ++ [(-(V / S), share)]) md = .ok (.val 0) := by
    rw [value_append hv hS]
    congr 2
    field_simp
    ring
  rw [C98_proportional hi' hm hS hS0 hx h0]
  show Except.ok (Num.val (x / S * 0)) = _
  rw [mul_zero]

theorem sample_struck {ctx : PricingContext} {f : Fwd} (hsd : ctx.spotDate = 0) (hy : ∀ d, ctx.yieldCurve "C" d = .ok (.zero 0))
    (hf : ∀ d, ctx.forwardCurve equityA d = .ok f) (hf' : ∀ d ≤ 10, f.forward d = .ok (.val 100))
    (hv : ∀ d g, ctx.volSurface equityA d g = .ok (.flat (.val 0.2) .everyDay (0, 0))) :
    ∃ V, (Instrument.forwardStarting sampleTerms equityA (1 / 2) ⟨5, .open⟩ (5, 0)).price fuel ctx ⟨0, .open⟩ = .ok (.val V) := by
  have hu : equityA.prices fuel ctx [⟨5, .open⟩, ⟨10, .open⟩] = .ok [.val 100, .val 100] := by
    unfold equityA at hf ⊢
    rw [Instrument.prices]
    simp only [equityPrices, hf, ok_bind, each, hf' 5 (by norm_num), hf' 10 (by norm_num)]
    rfl
  have hl : LaterOf (5, 0) ((0 : Int), gone ⟨0, .open⟩) (5, 0) := by
    refine ⟨.inl rfl, ?_⟩
    rintro y (rfl | rfl)
    · exact .inr ⟨rfl, le_refl _⟩
    · exact .inl (by norm_num)
  have hw : (VolSurface.flat (.val 0.2) .everyDay (0, 0)).forwardVariance fuel (5, 0) (10, 0) (.val (100 * (1 / 2))) =
      .ok (.val (0.2 ^ 2 * (2 / 73 - 1 / 73))) := by
    rw [flat_forward]
    right
    refine ⟨by left; norm_num, 1 / 73, 2 / 73, ?_, ?_, by norm_num, by norm_num⟩
    · have := everyDay_year 5; norm_num at this; exact this
    · have := everyDay_year 10; norm_num at this; exact this
  exact ⟨_, C72_option_forward (v := sampleTerms) (strikeTime := (5, 0)) (yc := .zero 0) (δ := 0) (.inl ⟨_, _, _, rfl⟩) (.inl (by simp [sampleTerms]))
    (by rw [hsd]; norm_num) (hy _) (hv _ _) hu rfl (Forward.zero_rt _ _) (Forward.zero_rt _ _) hl hw (by norm_num) (by norm_num) (by norm_num)⟩

theorem sample_struck_value : ∃ V, value fuel [(1, .forwardStarting sampleTerms equityA (1 / 2) ⟨5, .open⟩ (5, 0))] (sampleMarket 100 (.zero 0)) = .ok (.val V) := by
  obtain ⟨f, hf, hf'⟩ := sample_forward_flat 100 10
  generalize ho : (Instrument.forwardStarting sampleTerms equityA (1 / 2) ⟨5, .open⟩ (5, 0)) = o
  have hn := sample_new (md := sampleMarket 100 (.zero 0)) (v := .flat (.val 0.2) .everyDay (0, 0)) (c := collect 0 [(1, o)])
    (by rw [← ho]; rfl) (by rw [← ho]; rfl) hf rfl
  obtain ⟨V, hV⟩ := sample_struck (fuel := fuel) (ctx := Prefetch.pricingContext ⟨sampleMarket 100 (.zero 0), collect 0 [(1, o)], ⟨[("A", f)]⟩,
    ⟨[("A", .flat (.val 0.2) .everyDay (0, 0))]⟩⟩) rfl (fun _ => rfl) (fun _ => rfl) hf' (fun _ _ => rfl)
  rw [ho] at hV
  unfold value SelfPricer.new
  rw [show (sampleMarket 100 (.zero 0)).spotDate = 0 from rfl, hn]
  refine ⟨0 + 1 * V, ?_⟩
  show priceLoop fuel (Prefetch.pricingContext ⟨sampleMarket 100 (.zero 0), collect 0 [(1, o)], ⟨[("A", f)]⟩,
    ⟨[("A", .flat (.val 0.2) .everyDay (0, 0))]⟩⟩) ⟨0, .open⟩ [(1, o)] (.val 0) = _
  rw [priceLoop, hV]
  rfl

/-- C98: a call struck on day 5 at half of what the share is worth then, held with three shares sold. It has a value, the report says so in shares,
and with the hedge nothing is left. -/
example : ∃ (p : SelfPricer) (V : ℝ), SelfPricer.new [(1, .forwardStarting sampleTerms equityA (1 / 2) ⟨5, .open⟩ (5, 0)), (-3, equityA)]
      (sampleMarket 100 (.zero 0)) = .ok p ∧ p.price fuel = .ok (.val V) ∧
    (∃ results p', generate (selfPricer fuel) (.deltaGamma 0.01) p .new (.val V) = (.ok (.deltaGamma (.val 0.01) results), p', .new) ∧
      results.get "A" = some (.val (V / 100), .val 0)) ∧
    value fuel [(1, .forwardStarting sampleTerms equityA (1 / 2) ⟨5, .open⟩ (5, 0)), (-3, equityA), (-(V / 100), equityA)]
      (withSpot (sampleMarket 100 (.zero 0)) "A" 150) = .ok (.val 0) := by
  obtain ⟨W, hW⟩ := sample_struck_value (fuel := fuel)
  have hS : (sampleMarket 100 (.zero 0)).spots.get "A" = some 100 := rfl
  have hm : Proportional (sampleMarket 100 (.zero 0)) "A" := by
    constructor
    · intro s hs
      cases hs
      intro x hx
      cases hx
    · intro s hs
      cases hs
      trivial
  have hl : ShareLike equityA (.forwardStarting sampleTerms equityA (1 / 2) ⟨5, .open⟩ (5, 0)) := Or.inr ⟨_, _, _, _, rfl⟩
  have hne : (.forwardStarting sampleTerms equityA (1 / 2) ⟨5, .open⟩ (5, 0) : Instrument) ≠ equityA := by simp [equityA]
  generalize (.forwardStarting sampleTerms equityA (1 / 2) ⟨5, .open⟩ (5, 0) : Instrument) = o at hW hl hne ⊢
  generalize sampleMarket 100 (.zero 0) = md at hW hS hm ⊢
  have h2 : value fuel [(1, o), (-3, equityA)] md = .ok (.val (W + -3 * 100)) := value_append hW hS
  have h3 : ∀ e ∈ [((1 : ℝ), o), (-3, equityA)], ShareLike equityA e.2 := by
    intro e he
    simp only [List.mem_cons, List.not_mem_nil, or_false] at he
    rcases he with rfl | rfl
    · exact hl
    · exact Or.inl rfl
  obtain ⟨p, hp, hp'⟩ := bind_ok h2
  obtain ⟨results, p', g1, g2, _⟩ := C98_delta (b := 0.01) h3 ⟨_, List.mem_cons_self .., hne⟩ hm hS (by norm_num) (by norm_num)
    (by rw [abs_lt]; norm_num) hp hp'
  have h5 := C98_hedged (x := 150) h3 hm hS (by norm_num) (by norm_num) h2
  rw [List.cons_append, List.cons_append, List.nil_append] at h5
  exact ⟨p, W + -3 * 100, hp, hp', ⟨results, p', g1, g2⟩, h5⟩

end QM.Units
