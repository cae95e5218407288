import Verif.Instruments.DependencySpec
import Verif.Instruments.OptionLemmas

/-!
# Helper lemmas for dependencies
-/

namespace QM.Instruments
open QM.Interp QM.Vol QM.Fixings Spec

/-- The collector holds exactly the latest of what has been asked for. -/
structure Recorded (S : Ask → Prop) (c : Collector) : Prop where
  yields : ∀ id, Latest (fun d => S (.yieldCurve id d)) (c.yieldCurves.get id)
  forwards : ∀ id, Latest (fun d => S (.forward id d)) ((c.forwardCurves.get id).map Prod.snd)
  vols : ∀ id, Latest (fun d => S (.vol id d)) ((c.volSurfaces.get id).map Prod.snd)
  spots : ∀ id, (c.spots.get id).isSome ↔ S (.spot id)
  fixings : ∀ id dt, dt ∈ (c.fixings.get id).getD [] ↔ S (.fixing id dt)

theorem Recorded.congr {S S' : Ask → Prop} {c : Collector} (h : Recorded S c) (e : ∀ a, S a ↔ S' a) : Recorded S' c := by
  have : S = S' := funext fun a => propext (e a)
  exact this ▸ h

theorem latest_congr {P Q : Int → Prop} {o : Option Int} (h : Latest P o) (e : ∀ d, P d ↔ Q d) : Latest Q o := by
  have : P = Q := funext fun a => propext (e a)
  exact this ▸ h

theorem latest_some {P : Int → Prop} {x old : Int} (h : Latest P (some old)) :
    Latest (fun d => P d ∨ d = x) (if x > old then some x else some old) := by
  obtain ⟨h1, h2⟩ := h
  split
  · refine ⟨.inr rfl, ?_⟩
    rintro d (hd | rfl)
    · have := h2 d hd; omega
    · exact le_refl _
  · refine ⟨.inl h1, ?_⟩
    rintro d (hd | rfl)
    · exact h2 d hd
    · omega

theorem latest_none {P : Int → Prop} {x : Int} (h : Latest P none) : Latest (fun d => P d ∨ d = x) (some x) := by
  refine ⟨.inr rfl, ?_⟩
  rintro d (hd | rfl)
  · exact absurd hd (h d)
  · exact le_refl _

theorem setHwmByStr_get (id id' : String) (x : Int) (m : Map String Int) {P : Int → Prop} (h : Latest P (m.get id')) :
    Latest (fun d => P d ∨ (id' = id ∧ d = x)) ((Collector.setHwmByStr id x m).get id') := by
  unfold Collector.setHwmByStr
  by_cases e : id' = id
  · subst e
    simp only [true_and]
    cases hm : m.get id' with
    | none =>
      rw [hm] at h
      simp only [Map.get_insert_self]
      exact latest_none h
    | some old =>
      rw [hm] at h
      have := latest_some (x := x) h
      dsimp only
      split
      · rename_i hg
        rw [if_pos hg] at this
        rw [Map.get_insert_self]
        exact this
      · rename_i hg
        rw [if_neg hg] at this
        rw [hm]
        exact this
  · simp only [e, false_and, or_false]
    cases hm : m.get id with
    | none => simpa only [Map.get_insert_ne _ _ e] using h
    | some old =>
      dsimp only
      split
      · rw [Map.get_insert_ne _ _ e]; exact h
      · exact h

theorem setHwm_get (i : Instrument) (id' : String) (x : Int) (m : Map String (Instrument × Int)) {P : Int → Prop}
    (h : Latest P ((m.get id').map Prod.snd)) :
    Latest (fun d => P d ∨ (id' = i.id ∧ d = x)) (((Collector.setHwm i x m).get id').map Prod.snd) := by
  unfold Collector.setHwm
  by_cases e : id' = i.id
  · subst e
    simp only [true_and]
    cases hm : m.get i.id with
    | none =>
      rw [hm] at h
      simp only [Map.get_insert_self]
      exact latest_none h
    | some p =>
      obtain ⟨key, old⟩ := p
      rw [hm] at h
      have := latest_some (x := x) h
      dsimp only
      split
      · rename_i hg
        rw [if_pos hg] at this
        rw [Map.get_insert_self]
        exact this
      · rename_i hg
        rw [if_neg hg] at this
        rw [hm]
        exact this
  · simp only [e, false_and, or_false]
    cases hm : m.get i.id with
    | none => simpa only [Map.get_insert_ne _ _ e] using h
    | some p =>
      dsimp only
      split
      · rw [Map.get_insert_ne _ _ e]; exact h
      · exact h

variable {S : Ask → Prop} {c : Collector}

theorem recorded_new (sd : Int) : Recorded (fun _ => False) (Collector.new sd) := by
  constructor <;> intro id <;> simp [Collector.new, Latest]

theorem recorded_yield (h : Recorded S c) (id : String) (x : Int) :
    Recorded (fun a => S a ∨ a = .yieldCurve id x) (c.yieldCurve id x) := by
  constructor
  · intro id'
    exact latest_congr (setHwmByStr_get id id' x c.yieldCurves (h.yields id')) (by simp)
  · intro id'
    exact latest_congr (h.forwards id') (by simp)
  · intro id'
    exact latest_congr (h.vols id') (by simp)
  · intro id'
    exact (h.spots id').trans (by simp)
  · intro id' dt
    exact (h.fixings id' dt).trans (by simp)

theorem recorded_vol (h : Recorded S c) (i : Instrument) (x : Int) :
    Recorded (fun a => S a ∨ a = .vol i.id x) (c.volSurface i x) := by
  constructor
  · intro id'
    exact latest_congr (h.yields id') (by simp)
  · intro id'
    exact latest_congr (h.forwards id') (by simp)
  · intro id'
    exact latest_congr (setHwm_get i id' x c.volSurfaces (h.vols id')) (by simp)
  · intro id'
    exact (h.spots id').trans (by simp)
  · intro id' dt
    exact (h.fixings id' dt).trans (by simp)

theorem recorded_fixing (h : Recorded S c) (id : String) (x : DateTime) :
    Recorded (fun a => S a ∨ a = .fixing id x) (c.fixing id x) := by
  constructor
  · intro id'
    exact latest_congr (h.yields id') (by simp)
  · intro id'
    exact latest_congr (h.forwards id') (by simp)
  · intro id'
    exact latest_congr (h.vols id') (by simp)
  · intro id'
    exact (h.spots id').trans (by simp)
  · intro id' dt
    have := h.fixings id' dt
    unfold Collector.fixing
    dsimp only
    rw [Map.get_insert]
    by_cases e : id' = id
    · subst e
      simp [this]
    · rw [if_neg e]
      simp [this, e]

theorem recorded_forward (h : Recorded S c) (i : Instrument) (x : Int) :
    Recorded (fun a => S a ∨ a = .forward i.id x ∨ a = .yieldCurve i.creditId x) (c.noteForward i x) := by
  constructor
  · intro id'
    exact latest_congr (setHwmByStr_get i.creditId id' x c.yieldCurves (h.yields id')) (by simp)
  · intro id'
    exact latest_congr (setHwm_get i id' x c.forwardCurves (h.forwards id')) (by simp)
  · intro id'
    exact latest_congr (h.vols id') (by simp)
  · intro id'
    exact (h.spots id').trans (by simp)
  · intro id' dt
    exact (h.fixings id' dt).trans (by simp)

theorem recorded_spot (h : Recorded S c) (i : Instrument) (r : SpotRequirement) :
    Recorded (fun a => S a ∨ (r ≠ .notRequired ∧ a = .spot i.id)) (c.noteSpot i r) := by
  unfold Collector.noteSpot
  split
  · rename_i hr
    constructor
    · intro id'
      exact latest_congr (h.yields id') (by simp)
    · intro id'
      exact latest_congr (h.forwards id') (by simp)
    · intro id'
      exact latest_congr (h.vols id') (by simp)
    · intro id'
      have := h.spots id'
      show (Map.get (match c.spots.get i.id with | none => _ | some _ => _) id').isSome ↔ _
      cases hs : c.spots.get i.id with
      | none =>
        dsimp only
        rw [Map.get_insert]
        by_cases e : id' = i.id
        · subst e
          simp [hr]
        · rw [if_neg e]
          simp [this, e]
      | some _ =>
        dsimp only
        rw [this]
        constructor
        · exact .inl
        · rintro (h' | ⟨_, e⟩)
          · exact h'
          · cases e
            rw [← this, hs]
            rfl
    · intro id' dt
      exact (h.fixings id' dt).trans (by simp)
  · rename_i hr
    exact h.congr (by simp [not_not.1 hr])

/-! ## Instruments -/

theorem spotDate_noteSpot (c : Collector) (i : Instrument) (r : SpotRequirement) : (c.noteSpot i r).spotDate = c.spotDate := by
  unfold Collector.noteSpot
  split <;> rfl

mutual
theorem dependencies_spotDate : ∀ (i : Instrument) (c : Collector), (i.dependencies c).1.spotDate = c.spotDate
  | .currency id s, c => rfl
  | .creditEntity id s, c => rfl
  | .equity id cr s, c => rfl
  | .zeroCoupon id cr e p s, c => rfl
  | .basket id cr s parts, c => by
    rw [Instrument.dependencies]
    exact basketDependencies_spotDate parts c
  | .spotStarting v u k, c => by
    rw [Instrument.dependencies]
    show ((_ : Collector).noteSpot u _).spotDate = _
    rw [spotDate_noteSpot, dependencies_spotDate u]
    rfl
  | .forwardStarting v u k d t, c => by
    rw [Instrument.dependencies]
    show ((_ : Collector).noteSpot u _).spotDate = _
    rw [spotDate_noteSpot, dependencies_spotDate u]
    rfl

theorem basketDependencies_spotDate : ∀ (parts : List (ℝ × Instrument)) (c : Collector), (basketDependencies parts c).spotDate = c.spotDate
  | [], c => rfl
  | (w, i) :: rest, c => by
    rw [basketDependencies]
    dsimp only
    rw [basketDependencies_spotDate rest]
    split
    · exact dependencies_spotDate i c
    · rw [spotDate_noteSpot, dependencies_spotDate i, dependencies_spotDate i]
end

theorem requirement (i : Instrument) (c : Collector) : (i.dependencies c).2 ≠ .notRequired ↔ needsSpot i := by
  cases i <;> simp [Instrument.dependencies, needsSpot, finishVanilla]

mutual
theorem recorded_dependencies : ∀ (i : Instrument) {S : Ask → Prop} {c : Collector}, Recorded S c →
    Recorded (fun a => S a ∨ asks c.spotDate i a) (i.dependencies c).1
  | .currency id s, S, c, h => (recorded_yield h id (s c.spotDate)).congr (by simp [asks])
  | .creditEntity id s, S, c, h => (recorded_yield h id (s c.spotDate)).congr (by simp [asks])
  | .equity id cr s, S, c, h => (recorded_yield h cr (s c.spotDate)).congr (by simp [asks])
  | .zeroCoupon id cr e p s, S, c, h => (recorded_yield h cr p).congr (by simp [asks])
  | .basket id cr s parts, S, c, h => by
    rw [Instrument.dependencies]
    exact (recorded_basket parts h).congr (by simp [asks])
  | .spotStarting v u k, S, c, h => by
    rw [Instrument.dependencies]
    have h1 := recorded_forward (recorded_yield (recorded_fixing h u.id v.expiry) v.creditId v.payDate) u v.expiry.date
    have h2 := recorded_dependencies u (show Recorded _ (startVanilla v u c) from h1)
    have h3 := recorded_vol (recorded_spot h2 u ((u.dependencies (startVanilla v u c)).2)) u v.expiry.date
    refine Recorded.congr (show Recorded _ (finishVanilla v u (u.dependencies (startVanilla v u c))).1 from h3) ?_
    intro a
    rw [requirement]
    have e : (startVanilla v u c).spotDate = c.spotDate := rfl
    rw [e]
    simp only [asks]
    tauto
  | .forwardStarting v u k d t, S, c, h => by
    rw [Instrument.dependencies]
    have h1 := recorded_forward (recorded_yield (recorded_fixing (recorded_fixing h u.id d) u.id v.expiry) v.creditId v.payDate)
      u v.expiry.date
    have h2 := recorded_dependencies u (show Recorded _ (startVanilla v u (c.fixing u.id d)) from h1)
    have h3 := recorded_vol (recorded_spot h2 u ((u.dependencies (startVanilla v u (c.fixing u.id d))).2)) u v.expiry.date
    refine Recorded.congr (show Recorded _ (finishVanilla v u (u.dependencies (startVanilla v u (c.fixing u.id d)))).1 from h3) ?_
    intro a
    rw [requirement]
    have e : (startVanilla v u (c.fixing u.id d)).spotDate = c.spotDate := rfl
    rw [e]
    simp only [asks]
    tauto

theorem recorded_basket : ∀ (parts : List (ℝ × Instrument)) {S : Ask → Prop} {c : Collector}, Recorded S c →
    Recorded (fun a => S a ∨ asksAll c.spotDate parts a) (basketDependencies parts c)
  | [], S, c, h => h.congr (by simp [asksAll])
  | (w, i) :: rest, S, c, h => by
    rw [basketDependencies]
    dsimp only
    have h1 := recorded_dependencies i h
    have e1 := dependencies_spotDate i c
    have hreq := requirement i c
    cases hr : (i.dependencies c).2 with
    | notRequired =>
      dsimp only
      have h2 := recorded_basket rest h1
      rw [e1] at h2
      refine h2.congr ?_
      intro a
      rw [hr] at hreq
      simp only [asksAll]
      have : ¬ needsSpot i := fun hn => (hreq.2 hn) rfl
      tauto
    | required =>
      dsimp only
      have h1' := recorded_dependencies i h1
      have h2 := recorded_spot h1' i ((i.dependencies (i.dependencies c).1).2)
      have h3 := recorded_basket rest h2
      simp only [spotDate_noteSpot, dependencies_spotDate] at h3
      refine h3.congr ?_
      intro a
      rw [requirement]
      simp only [asksAll]
      tauto
    | requiredOnlyForValuation =>
      dsimp only
      have h1' := recorded_dependencies i h1
      have h2 := recorded_spot h1' i ((i.dependencies (i.dependencies c).1).2)
      have h3 := recorded_basket rest h2
      simp only [spotDate_noteSpot, dependencies_spotDate] at h3
      refine h3.congr ?_
      intro a
      rw [requirement]
      simp only [asksAll]
      tauto
end

theorem recorded_held (i : Instrument) (h : Recorded S c) :
    Recorded (fun a => S a ∨ asks c.spotDate i a ∨ (needsSpot i ∧ a = .spot i.id)) (c.spot i) := by
  unfold Collector.spot
  refine (recorded_spot (recorded_dependencies i h) i (i.dependencies c).2).congr ?_
  intro a
  rw [requirement]
  tauto

theorem recorded_run (h : Recorded S c) (call : Call) : Recorded (fun a => S a ∨ callAsks c.spotDate call a) (run c call) ∧
    (run c call).spotDate = c.spotDate := by
  cases call with
  | yieldCurve id d => exact ⟨recorded_yield h id d, rfl⟩
  | spot i =>
    refine ⟨recorded_held i h, ?_⟩
    show ((i.dependencies c).1.noteSpot i _).spotDate = _
    rw [spotDate_noteSpot, dependencies_spotDate]
  | forwardCurve i d =>
    refine ⟨?_, ?_⟩
    · refine (recorded_held i (recorded_forward h i d)).congr ?_
      intro a
      rw [show (c.noteForward i d).spotDate = c.spotDate from rfl]
      simp only [callAsks]
      tauto
    · show ((i.dependencies (c.noteForward i d)).1.noteSpot i _).spotDate = _
      rw [spotDate_noteSpot, dependencies_spotDate]
      rfl
  | volSurface i d => exact ⟨recorded_vol h i d, rfl⟩
  | fixing id d => exact ⟨recorded_fixing h id d, rfl⟩

theorem recorded_runs (h : Recorded S c) (calls : List Call) :
    Recorded (fun a => S a ∨ ∃ call ∈ calls, callAsks c.spotDate call a) (calls.foldl run c) := by
  induction calls generalizing S c with
  | nil => exact h.congr (by simp)
  | cons x calls ih =>
    obtain ⟨h1, h2⟩ := recorded_run h x
    have h3 := ih h1
    rw [h2] at h3
    refine h3.congr ?_
    intro a
    simp only [List.mem_cons, exists_eq_or_imp]
    tauto

theorem latest_unique {P : Int → Prop} {a b : Option Int} (ha : Latest P a) (hb : Latest P b) : a = b := by
  cases a with
  | none =>
    cases b with
    | none => rfl
    | some y => exact absurd hb.1 (ha y)
  | some x =>
    cases b with
    | none => exact absurd ha.1 (hb x)
    | some y =>
      have h1 := ha.2 y hb.1
      have h2 := hb.2 x ha.1
      rw [show x = y by omega]

/-! ## Requests -/

variable {fuel : Nat} {ctx : PricingContext}

theorem latest_reach {P : Int → Prop} {o : Option Int} (h : Latest P o) {d : Int} (hd : P d) : ∃ hwm, o = some hwm ∧ d ≤ hwm := by
  cases o with
  | none => exact absurd hd (h d)
  | some x => exact ⟨x, rfl, h.2 d hd⟩

theorem restrict_yield (h : Recorded S c) {id : String} {d : Int} (hS : ∃ d', S (.yieldCurve id d') ∧ d ≤ d') :
    (restrict ctx c).yieldCurve id d = ctx.yieldCurve id d := by
  obtain ⟨d', h1, h2⟩ := hS
  obtain ⟨w, h3, h4⟩ := latest_reach (h.yields id) h1
  exact if_pos ⟨w, h3, h2.trans h4⟩

theorem restrict_spot (h : Recorded S c) {id : String} (hS : S (.spot id)) : (restrict ctx c).spot id = ctx.spot id :=
  if_pos ((h.spots id).2 hS)

theorem restrict_forward (h : Recorded S c) {i : Instrument} {d : Int} (hS : S (.forward i.id d)) :
    (restrict ctx c).forwardCurve i d = ctx.forwardCurve i d :=
  if_pos (latest_reach (h.forwards i.id) hS)

theorem restrict_vol (h : Recorded S c) {i : Instrument} {d : Int} (hS : S (.vol i.id d)) (f : Unit → Outcome Fwd) :
    (restrict ctx c).volSurface i d f = ctx.volSurface i d f :=
  if_pos (latest_reach (h.vols i.id) hS)

theorem restrict_vanilla (h : Recorded S c) {v : Vanilla} {u : Instrument} {volFrom : Point} {x y : Outcome (Num ℝ × Num ℝ)}
    {dates : List DateTime} (hc : u.creditId = v.creditId ∨ v.payDate ≤ v.expiry.date)
    (h1 : S (.yieldCurve v.creditId v.payDate)) (h2 : S (.forward u.id v.expiry.date)) (h3 : S (.yieldCurve u.creditId v.expiry.date))
    (h4 : S (.vol u.id v.expiry.date)) (hxy : x = y) :
    vanillaPrices fuel (restrict ctx c) v u volFrom x dates = vanillaPrices fuel ctx v u volFrom y dates := by
  subst hxy
  unfold vanillaPrices
  rw [restrict_yield h, restrict_forward h h2]
  · simp only [restrict_vol h h4]
  · rcases hc with e | e
    · rw [e]; exact ⟨_, h1, le_refl _⟩
    · exact ⟨_, h3, e⟩

/-- The underlying of an option, when it is an equity. -/
theorem restrict_equity (h : Recorded S c) {u : Instrument} (hu : needsSpot u) {date : DateTime} {dates : List DateTime}
    (hd : dates = [date] ∨ ∃ d, dates = [d, date]) (h2 : S (.forward u.id date.date)) (h5 : S (.spot u.id)) :
    u.prices fuel (restrict ctx c) dates = u.prices fuel ctx dates := by
  obtain ⟨id, cr, s, rfl⟩ : ∃ id cr s, u = .equity id cr s := by
    cases u <;> simp_all [needsSpot]
  rw [Instrument.prices, Instrument.prices]
  rcases hd with rfl | ⟨d, rfl⟩
  · unfold equityPrices
    dsimp only
    rw [restrict_forward h h2, restrict_spot h h5]
    rfl
  · unfold equityPrices
    dsimp only
    rw [show (([date] : List DateTime).getLast (by simp)) = date from rfl, restrict_forward h h2]

mutual
theorem restrict_prices (h : Recorded S c) (sd : Int) : ∀ (i : Instrument) (dates : List DateTime), (∀ a, asks sd i a → S a) →
    (needsSpot i → S (.spot i.id)) → Kept ctx.spotDate i dates → i.prices fuel (restrict ctx c) dates = i.prices fuel ctx dates
  | .currency id s, dates, _, _, _ => by rw [Instrument.prices, Instrument.prices]
  | .creditEntity id s, dates, _, _, _ => by rw [Instrument.prices, Instrument.prices]
  | .equity id cr s, dates, ha, hs, hk => by
    rw [Instrument.prices, Instrument.prices]
    rw [Kept] at hk
    rcases hk with rfl | ⟨d, rfl, e⟩
    · rfl
    · unfold equityPrices
      dsimp only
      rw [if_pos e, if_pos (show d.date = (restrict ctx c).spotDate from e), restrict_spot h (hs trivial)]
  | .zeroCoupon id cr e p s, dates, ha, _, _ => by
    rw [Instrument.prices, Instrument.prices]
    unfold zeroCouponPrices
    rw [restrict_yield h ⟨p, ha _ (by simp [asks]), le_refl _⟩]
  | .basket id cr s parts, dates, ha, _, hk => by
    rw [Instrument.prices, Instrument.prices]
    exact restrict_basket h sd parts dates _ (fun a h' => ha a (by rw [asks]; exact h')) (by rw [Kept] at hk; exact hk)
  | .spotStarting v u k, dates, ha, _, hk => by
    rw [Instrument.prices, Instrument.prices]
    rw [Kept] at hk
    simp only [asks] at ha
    have hu : u.prices fuel (restrict ctx c) [v.expiry] = u.prices fuel ctx [v.expiry] := by
      by_cases hn : needsSpot u
      · exact restrict_equity h hn (date := v.expiry) (.inl rfl) (ha _ (by simp)) (ha _ (by simp [hn]))
      · exact restrict_prices h sd u [v.expiry] (fun a h' => ha a (by simp [h'])) (fun h' => absurd h' hn) (hk.2.resolve_left hn)
    exact restrict_vanilla h hk.1 (ha _ (by simp)) (ha _ (by simp)) (ha _ (by simp)) (ha _ (by simp)) (by rw [hu])
  | .forwardStarting v u k d t, dates, ha, _, hk => by
    rw [Instrument.prices, Instrument.prices]
    rw [Kept] at hk
    simp only [asks] at ha
    have hu : u.prices fuel (restrict ctx c) [d, v.expiry] = u.prices fuel ctx [d, v.expiry] := by
      by_cases hn : needsSpot u
      · exact restrict_equity h hn (date := v.expiry) (.inr ⟨_, rfl⟩) (ha _ (by simp)) (ha _ (by simp [hn]))
      · exact restrict_prices h sd u [d, v.expiry] (fun a h' => ha a (by simp [h'])) (fun h' => absurd h' hn) (hk.2.resolve_left hn)
    rw [show (restrict ctx c).spotDate = ctx.spotDate from rfl]
    split
    · rfl
    · exact restrict_vanilla h hk.1 (ha _ (by simp)) (ha _ (by simp)) (ha _ (by simp)) (ha _ (by simp)) (by rw [hu])

theorem restrict_basket (h : Recorded S c) (sd : Int) : ∀ (parts : List (ℝ × Instrument)) (dates : List DateTime) (out : List (Num ℝ)),
    (∀ a, asksAll sd parts a → S a) → KeptAll ctx.spotDate parts dates →
    basketPrices fuel (restrict ctx c) parts dates out = basketPrices fuel ctx parts dates out
  | [], dates, out, _, _ => by rw [basketPrices, basketPrices]
  | (w, i) :: rest, dates, out, ha, hk => by
    rw [basketPrices, basketPrices]
    simp only [asksAll] at ha
    rw [KeptAll] at hk
    rw [restrict_prices h sd i dates (fun a h' => ha a (.inl h')) (fun h' => ha _ (.inr (.inl ⟨h', rfl⟩))) hk.1]
    refine bind_congr fun temp => ?_
    exact restrict_basket h sd rest dates _ (fun a h' => ha a (.inr (.inr h'))) hk.2
end

/-! ## Fixings -/

theorem get_agree {t t' : FixingTable ℝ} (hk : t.knownUntil = t'.knownUntil) {id : String} {dt : DateTime}
    (h : t.getOptional id dt = t'.getOptional id dt) : t.get id dt = t'.get id dt := by
  unfold FixingTable.get
  rw [h, hk]

theorem fixSpot_agree {t t' : FixingTable ℝ} (hk : t.knownUntil = t'.knownUntil) {v : Vanilla} {u : Instrument}
    (h : t.getOptional u.id v.expiry = t'.getOptional u.id v.expiry) (k : ℝ) :
    fixSpotStarting t v u k = fixSpotStarting t' v u k := by
  unfold fixSpotStarting
  rw [get_agree hk h]

mutual
theorem fix_agree {t t' : FixingTable ℝ} (hk : t.knownUntil = t'.knownUntil) (sd : Int) : ∀ (i : Instrument),
    (∀ id dt, asks sd i (.fixing id dt) → t.getOptional id dt = t'.getOptional id dt) → i.fix t = i.fix t'
  | .currency id s, _ => by rw [Instrument.fix, Instrument.fix]
  | .creditEntity id s, _ => by rw [Instrument.fix, Instrument.fix]
  | .equity id cr s, _ => by rw [Instrument.fix, Instrument.fix]
  | .zeroCoupon id cr e p s, _ => by rw [Instrument.fix, Instrument.fix]
  | .basket id cr s parts, h => by
    rw [Instrument.fix, Instrument.fix]
    rw [fixLoop_agree hk sd parts parts _ (fun id dt h' => h id dt (by rw [asks]; exact h'))]
  | .spotStarting v u k, h => by
    rw [Instrument.fix, Instrument.fix]
    exact fixSpot_agree hk (h _ _ (by simp [asks])) k
  | .forwardStarting v u k d s, h => by
    rw [Instrument.fix, Instrument.fix]
    unfold fixForwardStarting
    rw [get_agree hk (h _ _ (by simp [asks]))]
    refine bind_congr fun o => ?_
    cases o with
    | none => rfl
    | some f =>
      dsimp only
      rw [fixSpot_agree hk (h _ _ (by simp [asks]))]

theorem fixLoop_agree {t t' : FixingTable ℝ} (hk : t.knownUntil = t'.knownUntil) (sd : Int) (all : List (ℝ × Instrument)) :
    ∀ (parts : List (ℝ × Instrument)) (s : FixState),
    (∀ id dt, asksAll sd parts (.fixing id dt) → t.getOptional id dt = t'.getOptional id dt) → fixLoop t all parts s = fixLoop t' all parts s
  | [], s, _ => by rw [fixLoop, fixLoop]
  | (w, i) :: rest, s, h => by
    rw [fixLoop, fixLoop]
    rw [fix_agree hk sd i (fun id dt h' => h id dt (by simp [asksAll, h']))]
    refine bind_congr fun d => ?_
    exact fixLoop_agree hk sd all rest _ (fun id dt h' => h id dt (by simp [asksAll, h']))
end

end QM.Instruments
