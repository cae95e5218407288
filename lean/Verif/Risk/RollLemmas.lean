import Verif.Risk.RollSpec
import Verif.Risk.TimeLemmas
import Verif.Fixings.Props

/-!
# Helper lemmas for rolling a portfolio past its fixings
-/

namespace QM.Risk
open QM.Interp QM.Vol QM.Instruments QM.Market QM.Market.Spec QM.Fixings Spec

/-! ## What the collector holds -/

/-- The fixings held for an id. -/
def heldFixings (c : Collector) (id : String) : List DateTime := (c.fixings.get id).getD []

/-- The fixings of one id. -/
def only (id : String) (l : List (String × DateTime)) : List DateTime := (l.filter fun f => decide (f.1 = id)).map Prod.snd

theorem only_append (id : String) (l l' : List (String × DateTime)) : only id (l ++ l') = only id l ++ only id l' := by simp [only]

theorem held_fixing (c : Collector) (id k : String) (d : DateTime) : heldFixings (c.fixing k d) id = heldFixings c id ++ only id [(k, d)] := by
  unfold heldFixings Collector.fixing
  dsimp only
  rw [Map.get_insert]
  by_cases h : id = k
  · subst h; simp [only]
  · rw [if_neg h]; simp [only, Ne.symm h]

theorem held_noteSpot (c : Collector) (i : Instrument) (r : SpotRequirement) (id : String) : heldFixings (c.noteSpot i r) id = heldFixings c id := by
  unfold Collector.noteSpot
  split <;> rfl

mutual
theorem held_dependencies (id : String) : ∀ (i : Instrument) (c : Collector),
    heldFixings (i.dependencies c).1 id = heldFixings c id ++ only id (waits i) ∧ ((i.dependencies c).2 ≠ .notRequired → waits i = [])
  | .currency _ s, c => by simp [waits, only, Instrument.dependencies]; rfl
  | .creditEntity _ s, c => by simp [waits, only, Instrument.dependencies]; rfl
  | .equity _ cr s, c => by simp [waits, only, Instrument.dependencies]; rfl
  | .zeroCoupon _ cr e p s, c => by simp [waits, only, Instrument.dependencies]; rfl
  | .basket _ cr s parts, c => by
    rw [Instrument.dependencies, waits]
    exact ⟨held_basket id parts c, fun h => absurd rfl h⟩
  | .spotStarting v u k, c => by
    rw [Instrument.dependencies, waits]
    refine ⟨?_, fun h => absurd rfl h⟩
    show heldFixings (Collector.noteSpot _ _ _) id = _
    rw [held_noteSpot, (held_dependencies id u _).1]
    show heldFixings (c.fixing _ _) id ++ _ = _
    rw [held_fixing, List.append_assoc, ← only_append]
    rfl
  | .forwardStarting v u k d t, c => by
    rw [Instrument.dependencies, waits]
    refine ⟨?_, fun h => absurd rfl h⟩
    show heldFixings (Collector.noteSpot _ _ _) id = _
    rw [held_noteSpot, (held_dependencies id u _).1]
    show heldFixings ((c.fixing _ _).fixing _ _) id ++ _ = _
    rw [held_fixing, held_fixing, List.append_assoc, List.append_assoc, ← only_append, ← only_append]
    rfl

theorem held_basket (id : String) : ∀ (parts : List (ℝ × Instrument)) (c : Collector),
    heldFixings (basketDependencies parts c) id = heldFixings c id ++ only id (waitsAll parts)
  | [], c => by simp [basketDependencies, waitsAll, only]
  | (w, i) :: rest, c => by
    rw [basketDependencies, waitsAll, only_append, ← List.append_assoc]
    dsimp only
    rw [held_basket id rest]
    congr 1
    obtain ⟨h1, h2⟩ := held_dependencies id i c
    split
    · exact h1
    · rename_i hr
      rw [held_noteSpot, (held_dependencies id i _).1, h1, h2 (by intro h; exact hr h)]
      simp [only]
end

theorem held_collect (sd : Int) (instruments : List (ℝ × Instrument)) (id : String) :
    heldFixings (collect sd instruments) id = only id (waitsAll instruments) := by
  have : ∀ c, heldFixings (instruments.foldl (fun c e => c.spot e.2) c) id = heldFixings c id ++ only id (waitsAll instruments) := by
    induction instruments with
    | nil => intro c; simp [waitsAll, only]
    | cons e rest ih =>
      obtain ⟨w, i⟩ := e
      intro c
      rw [List.foldl_cons, ih, waitsAll, only_append, ← List.append_assoc]
      congr 1
      unfold Collector.spot
      dsimp only
      rw [held_noteSpot, (held_dependencies id i c).1]
  exact this _

/-! ## The instruments the collector holds -/

/-- Instruments are entered once, and everything a fixing or an earlier collector needs is there. -/
structure KeepsFor (l : List (String × DateTime)) (c c' : Collector) : Prop where
  distinct : Distinct c.instruments → Distinct c'.instruments
  kept : ∀ id, c.instruments.get id ≠ none → c'.instruments.get id ≠ none
  there : ∀ f ∈ l, c'.instruments.get f.1 ≠ none

theorem KeepsFor.refl (c : Collector) : KeepsFor [] c c := ⟨id, fun _ h => h, by simp⟩

theorem KeepsFor.trans {l l' : List (String × DateTime)} {c c' c'' : Collector} (h : KeepsFor l c c') (h' : KeepsFor l' c' c'') : KeepsFor (l ++ l') c c'' := by
  refine ⟨fun h0 => h'.distinct (h.distinct h0), fun id h0 => h'.kept id (h.kept id h0), ?_⟩
  intro f hf
  rcases List.mem_append.1 hf with hf | hf
  · exact h'.kept _ (h.there f hf)
  · exact h'.there f hf

theorem keeps_addInstrument (c : Collector) (i : Instrument) (l : List (String × DateTime)) (hl : ∀ f ∈ l, f.1 = i.id) : KeepsFor l c (c.addInstrument i) := by
  refine ⟨fun h => distinct_insert h _ _, ?_, ?_⟩
  · intro id h
    show (c.instruments.insert i.id i).get id ≠ none
    rw [Map.get_insert]
    split
    · simp
    · exact h
  · intro f hf
    show (c.instruments.insert i.id i).get f.1 ≠ none
    rw [hl f hf, Map.get_insert_self]
    simp

theorem keeps_noteSpot (c : Collector) (i : Instrument) (r : SpotRequirement) : KeepsFor [] c (c.noteSpot i r) := by
  unfold Collector.noteSpot
  split
  · have h := keeps_addInstrument { c with spots := match c.spots.get i.id with
        | none => c.spots.insert i.id i
        | some _ => c.spots } i [] (by simp)
    exact ⟨h.distinct, h.kept, by simp⟩
  · exact .refl c

theorem KeepsFor.of {l l' : List (String × DateTime)} {c c' : Collector} (h : KeepsFor l c c') (hl : ∀ f ∈ l', f ∈ l) : KeepsFor l' c c' :=
  ⟨h.distinct, h.kept, fun f hf => h.there f (hl f hf)⟩

mutual
theorem keeps_dependencies : ∀ (i : Instrument) (c : Collector), KeepsFor (waits i) c (i.dependencies c).1
  | .currency _ s, c => by rw [waits]; exact ⟨id, fun _ h => h, by simp⟩
  | .creditEntity _ s, c => by rw [waits]; exact ⟨id, fun _ h => h, by simp⟩
  | .equity _ cr s, c => by rw [waits]; exact ⟨id, fun _ h => h, by simp⟩
  | .zeroCoupon _ cr e p s, c => by rw [waits]; exact ⟨id, fun _ h => h, by simp⟩
  | .basket _ cr s parts, c => by
    rw [Instrument.dependencies, waits]
    exact keeps_basket parts c
  | .spotStarting v u k, c => by
    rw [Instrument.dependencies, waits]
    have h1 := keeps_dependencies u (startVanilla v u c)
    have h2 := keeps_noteSpot (u.dependencies (startVanilla v u c)).1 u (u.dependencies (startVanilla v u c)).2
    have h3 := keeps_addInstrument { (u.dependencies (startVanilla v u c)).1.noteSpot u (u.dependencies (startVanilla v u c)).2 with
      volSurfaces := Collector.setHwm u v.expiry.date ((u.dependencies (startVanilla v u c)).1.noteSpot u (u.dependencies (startVanilla v u c)).2).volSurfaces }
      u [(u.id, v.expiry)] (by simp)
    have h4 := (h1.trans h2).trans ⟨h3.distinct, h3.kept, h3.there⟩
    refine KeepsFor.of ⟨h4.distinct, h4.kept, h4.there⟩ ?_
    intro f hf
    simp only [List.mem_cons, List.mem_append, List.append_nil] at hf ⊢
    tauto
  | .forwardStarting v u k d t, c => by
    rw [Instrument.dependencies, waits]
    generalize hc : startVanilla v u (c.fixing u.id d) = c0
    have h1 := keeps_dependencies u c0
    have h2 := keeps_noteSpot (u.dependencies c0).1 u (u.dependencies c0).2
    have h3 := keeps_addInstrument { (u.dependencies c0).1.noteSpot u (u.dependencies c0).2 with
      volSurfaces := Collector.setHwm u v.expiry.date ((u.dependencies c0).1.noteSpot u (u.dependencies c0).2).volSurfaces }
      u [(u.id, d), (u.id, v.expiry)] (by simp)
    have h4 := (h1.trans h2).trans ⟨h3.distinct, h3.kept, h3.there⟩
    have h0 : c0.instruments = c.instruments := by rw [← hc]; rfl
    refine KeepsFor.of ⟨fun h => h4.distinct (by rw [h0]; exact h), fun id h => h4.kept id (by rw [h0]; exact h), h4.there⟩ ?_
    intro f hf
    simp only [List.mem_cons, List.mem_append, List.append_nil] at hf ⊢
    tauto

theorem keeps_basket : ∀ (parts : List (ℝ × Instrument)) (c : Collector), KeepsFor (waitsAll parts) c (basketDependencies parts c)
  | [], c => by rw [waitsAll]; exact .refl c
  | (w, i) :: rest, c => by
    rw [basketDependencies, waitsAll]
    dsimp only
    refine KeepsFor.trans ?_ (keeps_basket rest _)
    have h1 := keeps_dependencies i c
    split
    · exact h1
    · have h2 := (h1.trans (keeps_dependencies i (i.dependencies c).1)).trans (keeps_noteSpot _ i ((i.dependencies (i.dependencies c).1).2))
      exact h2.of (fun f hf => by simp [hf])
end

theorem keeps_collect (sd : Int) (instruments : List (ℝ × Instrument)) : KeepsFor (waitsAll instruments) (.new sd) (collect sd instruments) := by
  have : ∀ c, KeepsFor (waitsAll instruments) c (instruments.foldl (fun c e => c.spot e.2) c) := by
    induction instruments with
    | nil => intro c; rw [waitsAll]; exact .refl c
    | cons e rest ih =>
      obtain ⟨w, i⟩ := e
      intro c
      rw [List.foldl_cons, waitsAll]
      refine KeepsFor.trans ?_ (ih _)
      exact ((keeps_dependencies i c).trans (keeps_noteSpot _ i _)).of (by simp)
  exact this _

theorem collect_distinct (sd : Int) (instruments : List (ℝ × Instrument)) : Distinct (collect sd instruments).instruments :=
  (keeps_collect sd instruments).distinct distinct_empty

/-! ## Making the table -/

/-- A fixing that the new date leaves in the past. -/
def isDue (ctx : PricingContext) (b : BumpSpotDate) (d : DateTime) : Bool := decide (ctx.spotDate ≤ d.date ∧ d.date < b.spotDate)

theorem fixingsOf_ok {ctx : PricingContext} {b : BumpSpotDate} {id : String} {i : Instrument} {val : DateTime → ℝ} : ∀ (l : List DateTime),
    (∀ d ∈ l, isDue ctx b d = true → fixingValue ctx b id i d.date = .ok (val d)) →
    fixingsOf ctx b id i l = .ok ((l.filter (isDue ctx b)).map fun d => (d, val d))
  | [], _ => rfl
  | d :: l, h => by
    rw [fixingsOf, List.filter_cons]
    have ih := fixingsOf_ok l (fun d' h' => h d' (List.mem_cons_of_mem _ h'))
    by_cases hd : ctx.spotDate ≤ d.date ∧ d.date < b.spotDate
    · have hd' : isDue ctx b d = true := by simpa [isDue] using hd
      rw [if_pos hd, h d List.mem_cons_self hd', ih, if_pos hd']
      rfl
    · have hd' : ¬ isDue ctx b d = true := by simpa [isDue] using hd
      rw [if_neg hd, if_neg hd', ih]

/-- The entry of the table for an id. -/
def dueEntry (ctx : PricingContext) (b : BumpSpotDate) (c : Collector) (val : String → DateTime → ℝ) (e : String × Instrument) :
    Option (String × List (DateTime × ℝ)) :=
  if ((heldFixings c e.1).filter (isDue ctx b)).isEmpty then none
  else some (e.1, ((heldFixings c e.1).filter (isDue ctx b)).map fun d => (d, val e.1 d))

theorem fixingMap_ok {ctx : PricingContext} {b : BumpSpotDate} {c : Collector} {val : String → DateTime → ℝ} : ∀ (l : List (String × Instrument)),
    (∀ e ∈ l, ∀ d ∈ heldFixings c e.1, isDue ctx b d = true → fixingValue ctx b e.1 e.2 d.date = .ok (val e.1 d)) →
    fixingMap ctx b c l = .ok (l.filterMap (dueEntry ctx b c val))
  | [], _ => rfl
  | (id, i) :: l, h => by
    rw [fixingMap, List.filterMap_cons]
    have ih := fixingMap_ok l (fun e h' => h e (List.mem_cons_of_mem _ h'))
    have h0 := fixingsOf_ok (heldFixings c id) (h (id, i) List.mem_cons_self)
    unfold heldFixings at h0
    dsimp only at h0
    rw [h0, ok_bind, ih, ok_bind]
    unfold dueEntry heldFixings
    dsimp only
    cases hl : List.filter (isDue ctx b) ((c.fixings.get id).getD []) with
    | nil => rfl
    | cons d rest => rfl

theorem mem_due {ctx : PricingContext} {b : BumpSpotDate} {c : Collector} {val : String → DateTime → ℝ} {l : List (String × Instrument)}
    {id : String} {fs : List (DateTime × ℝ)} :
    (id, fs) ∈ l.filterMap (dueEntry ctx b c val) ↔ id ∈ l.map Prod.fst ∧ (heldFixings c id).filter (isDue ctx b) ≠ [] ∧
      fs = ((heldFixings c id).filter (isDue ctx b)).map fun d => (d, val id d) := by
  rw [List.mem_filterMap]
  constructor
  · rintro ⟨⟨k, i⟩, h1, h2⟩
    unfold dueEntry at h2
    split at h2
    · cases h2
    · rename_i hn
      cases h2
      exact ⟨List.mem_map.2 ⟨_, h1, rfl⟩, by simpa using hn, rfl⟩
  · rintro ⟨h1, h2, rfl⟩
    obtain ⟨⟨k, i⟩, h3, e⟩ := List.mem_map.1 h1
    cases e
    refine ⟨_, h3, ?_⟩
    unfold dueEntry
    rw [if_neg (by simpa using h2)]

theorem due_keys {ctx : PricingContext} {b : BumpSpotDate} {c : Collector} {val : String → DateTime → ℝ} : ∀ {l : List (String × Instrument)},
    (l.map Prod.fst).Nodup → ((l.filterMap (dueEntry ctx b c val)).map Prod.fst).Nodup
  | [], _ => List.nodup_nil
  | (id, i) :: l, h => by
    rw [List.map_cons, List.nodup_cons] at h
    have ih := due_keys (ctx := ctx) (b := b) (c := c) (val := val) h.2
    rw [List.filterMap_cons]
    cases hd : dueEntry ctx b c val (id, i) with
    | none => exact ih
    | some e =>
      dsimp only
      rw [List.map_cons, List.nodup_cons]
      refine ⟨?_, ih⟩
      have he : e.1 = id := by
        unfold dueEntry at hd
        split at hd
        · cases hd
        · cases hd; rfl
      rw [he]
      intro hm
      obtain ⟨⟨k, fs⟩, h1, h2⟩ := List.mem_map.1 hm
      cases h2
      exact h.1 (mem_due.1 h1).1

theorem only_nodup {l : List (String × DateTime)} : l.Nodup ↔ ∀ id, (only id l).Nodup := by
  induction l with
  | nil => simp [only]
  | cons f l ih =>
    obtain ⟨k, d⟩ := f
    have hc : ∀ id, only id ((k, d) :: l) = if k = id then d :: only id l else only id l := by
      intro id
      unfold only
      by_cases h : k = id <;> simp [h]
    rw [List.nodup_cons, ih]
    have hm : (k, d) ∈ l ↔ d ∈ only k l := by
      unfold only
      simp
    constructor
    · rintro ⟨h1, h2⟩ id
      rw [hc]
      split
      · subst_vars
        rw [List.nodup_cons]
        exact ⟨fun h => h1 (hm.2 h), h2 _⟩
      · exact h2 _
    · intro h
      refine ⟨?_, fun id => ?_⟩
      · have := h k
        rw [hc, if_pos rfl, List.nodup_cons] at this
        exact fun h => this.1 (hm.1 h)
      · have := h id
        rw [hc] at this
        split at this
        · exact (List.nodup_cons.1 this).2
        · exact this

theorem only_filter (p : DateTime → Bool) (id : String) (l : List (String × DateTime)) :
    only id (l.filter fun f => p f.2) = (only id l).filter p := by
  unfold only
  rw [List.filter_map, List.filter_filter, List.filter_filter]
  congr 1
  apply List.filter_congr
  intro f _
  simp [Bool.and_comm]

theorem mem_only {id : String} {d : DateTime} {l : List (String × DateTime)} : d ∈ only id l ↔ (id, d) ∈ l := by
  unfold only
  simp

/-! ## Fixing succeeds -/

mutual
theorem fix_ok {t : FixingTable ℝ} : ∀ (i : Instrument), (∀ f ∈ waits i, ∃ o, t.get f.1 f.2 = .ok o) → ∃ o, i.fix t = .ok o
  | .currency id s, _ => ⟨_, by rw [Instrument.fix]⟩
  | .creditEntity id s, _ => ⟨_, by rw [Instrument.fix]⟩
  | .equity id cr s, _ => ⟨_, by rw [Instrument.fix]⟩
  | .zeroCoupon id cr e p s, _ => ⟨_, by rw [Instrument.fix]⟩
  | .basket id cr s parts, h => by
    obtain ⟨r, hr⟩ := fixLoop_ok' parts parts ⟨[], 0, false⟩ (by rw [waits] at h; exact h)
    rw [Instrument.fix, hr, ok_bind]
    cases r.result with
    | none => exact ⟨_, rfl⟩
    | some l => exact ⟨_, rfl⟩
  | .spotStarting v u k, h => by
    obtain ⟨o, ho⟩ := h (u.id, v.expiry) (by simp [waits])
    rw [Instrument.fix]
    unfold fixSpotStarting
    rw [ho, ok_bind]
    cases o with
    | none => exact ⟨_, rfl⟩
    | some l => exact ⟨_, rfl⟩
  | .forwardStarting v u k d s, h => by
    obtain ⟨o, ho⟩ := h (u.id, d) (by simp [waits])
    obtain ⟨o', ho'⟩ := h (u.id, v.expiry) (by simp [waits])
    rw [Instrument.fix]
    unfold fixForwardStarting fixSpotStarting
    rw [ho, ok_bind]
    cases o with
    | none => exact ⟨_, rfl⟩
    | some x =>
      dsimp only
      rw [ho', ok_bind]
      cases o' with
      | none => exact ⟨_, rfl⟩
      | some y => exact ⟨_, rfl⟩

theorem fixLoop_ok' {t : FixingTable ℝ} (all : List (ℝ × Instrument)) : ∀ (parts : List (ℝ × Instrument)) (s : FixState),
    (∀ f ∈ waitsAll parts, ∃ o, t.get f.1 f.2 = .ok o) → ∃ r, fixLoop t all parts s = .ok r
  | [], s, _ => ⟨s, by rw [fixLoop]⟩
  | (w, i) :: rest, s, h => by
    obtain ⟨o, ho⟩ := fix_ok i (fun f hf => h f (by rw [waitsAll]; exact List.mem_append_left _ hf))
    rw [fixLoop, ho, ok_bind]
    exact fixLoop_ok' all rest _ (fun f hf => h f (by rw [waitsAll]; exact List.mem_append_right _ hf))
end

theorem fixAll_ok {t : FixingTable ℝ} {l : List (ℝ × Instrument)} (h : ∀ f ∈ waitsAll l, ∃ o, t.get f.1 f.2 = .ok o) : ∃ o, fixAll t l = .ok o := by
  obtain ⟨r, hr⟩ := fixLoop_ok' l l ⟨[], 0, false⟩ h
  unfold fixAll
  rw [hr]
  exact ⟨_, rfl⟩

mutual
theorem fix_none {t : FixingTable ℝ} : ∀ (i : Instrument), (∀ f ∈ waits i, t.get f.1 f.2 = .ok none) → i.fix t = .ok none
  | .currency id s, _ => by rw [Instrument.fix]
  | .creditEntity id s, _ => by rw [Instrument.fix]
  | .equity id cr s, _ => by rw [Instrument.fix]
  | .zeroCoupon id cr e p s, _ => by rw [Instrument.fix]
  | .basket id cr s parts, h => by
    obtain ⟨r, hr, hm⟩ := fixLoop_none parts parts ⟨[], 0, false⟩ rfl (by rw [waits] at h; exact h)
    rw [Instrument.fix, hr, ok_bind]
    unfold FixState.result
    rw [hm]
    rfl
  | .spotStarting v u k, h => by
    rw [Instrument.fix]
    unfold fixSpotStarting
    rw [h (u.id, v.expiry) (by simp [waits])]
    rfl
  | .forwardStarting v u k d s, h => by
    rw [Instrument.fix]
    unfold fixForwardStarting
    rw [h (u.id, d) (by simp [waits])]
    rfl

theorem fixLoop_none {t : FixingTable ℝ} (all : List (ℝ × Instrument)) : ∀ (parts : List (ℝ × Instrument)) (s : FixState), s.modified = false →
    (∀ f ∈ waitsAll parts, t.get f.1 f.2 = .ok none) → ∃ r, fixLoop t all parts s = .ok r ∧ r.modified = false
  | [], s, hs, _ => ⟨s, by rw [fixLoop], hs⟩
  | (w, i) :: rest, s, hs, h => by
    rw [fixLoop, fix_none i (fun f hf => h f (by rw [waitsAll]; exact List.mem_append_left _ hf)), ok_bind]
    refine fixLoop_none all rest _ ?_ (fun f hf => h f (by rw [waitsAll]; exact List.mem_append_right _ hf))
    unfold fixStep
    dsimp only
    rw [if_neg (by simp [hs])]
    exact hs
end

theorem fixAll_none {t : FixingTable ℝ} {l : List (ℝ × Instrument)} (h : ∀ f ∈ waitsAll l, t.get f.1 f.2 = .ok none) : fixAll t l = .ok none := by
  obtain ⟨r, hr, hm⟩ := fixLoop_none l l ⟨[], 0, false⟩ rfl h
  unfold fixAll
  rw [hr, ok_bind]
  unfold FixState.result
  rw [hm]
  rfl

mutual
theorem fix_congr {t t' : FixingTable ℝ} : ∀ (i : Instrument), (∀ f ∈ waits i, t.get f.1 f.2 = t'.get f.1 f.2) → i.fix t = i.fix t'
  | .currency id s, _ => by rw [Instrument.fix, Instrument.fix]
  | .creditEntity id s, _ => by rw [Instrument.fix, Instrument.fix]
  | .equity id cr s, _ => by rw [Instrument.fix, Instrument.fix]
  | .zeroCoupon id cr e p s, _ => by rw [Instrument.fix, Instrument.fix]
  | .basket id cr s parts, h => by
    rw [Instrument.fix, Instrument.fix, fixLoop_congr parts parts _ (by rw [waits] at h; exact h)]
  | .spotStarting v u k, h => by
    rw [Instrument.fix, Instrument.fix]
    unfold fixSpotStarting
    rw [h (u.id, v.expiry) (by simp [waits])]
  | .forwardStarting v u k d s, h => by
    rw [Instrument.fix, Instrument.fix]
    unfold fixForwardStarting fixSpotStarting
    rw [h (u.id, d) (by simp [waits]), h (u.id, v.expiry) (by simp [waits])]

theorem fixLoop_congr {t t' : FixingTable ℝ} (all : List (ℝ × Instrument)) : ∀ (parts : List (ℝ × Instrument)) (s : FixState),
    (∀ f ∈ waitsAll parts, t.get f.1 f.2 = t'.get f.1 f.2) → fixLoop t all parts s = fixLoop t' all parts s
  | [], s, _ => by rw [fixLoop, fixLoop]
  | (w, i) :: rest, s, h => by
    rw [fixLoop, fixLoop, fix_congr i (fun f hf => h f (by rw [waitsAll]; exact List.mem_append_left _ hf))]
    refine bind_congr fun d => ?_
    exact fixLoop_congr all rest _ (fun f hf => h f (by rw [waitsAll]; exact List.mem_append_right _ hf))
end

/-! ## The fixings of a pricer -/

variable {instruments : List (ℝ × Instrument)} {md : MarketData} {p : SelfPricer}

open Classical in
/-- The value given to a fixing. -/
noncomputable def turnsOut (p : SelfPricer) (b : BumpSpotDate) (f : String × DateTime) : ℝ := if h : ∃ x, TurnsOut p b f x then h.choose else 0

theorem turnsOut_unique {b : BumpSpotDate} {f : String × DateTime} {x y : ℝ} (hx : TurnsOut p b f x) (hy : TurnsOut p b f y) : x = y := by
  unfold TurnsOut at hx hy
  cases hd : b.spotDynamics with
  | stickySpot =>
    rw [hd] at hx hy
    dsimp only at hx hy
    rw [hx] at hy
    cases hy; rfl
  | stickyForward =>
    rw [hd] at hx hy
    dsimp only at hx hy
    obtain ⟨c, h1, h2⟩ := hx
    obtain ⟨c', h3, h4⟩ := hy
    rw [h1] at h3
    cases h3
    rw [h2] at h4
    cases h4; rfl

theorem turnsOut_eq {b : BumpSpotDate} {f : String × DateTime} {x : ℝ} (hx : TurnsOut p b f x) : turnsOut p b f = x := by
  unfold turnsOut
  rw [dif_pos ⟨x, hx⟩]
  exact turnsOut_unique (Exists.choose_spec _) hx

theorem fixingValue_of {b : BumpSpotDate} {id : String} {i : Instrument} {d : DateTime} {x : ℝ} (hi : i.id = id) (h : TurnsOut p b (id, d) x) :
    fixingValue p.context.pricingContext b id i d.date = .ok x := by
  unfold TurnsOut at h
  unfold fixingValue
  cases hd : b.spotDynamics with
  | stickySpot =>
    rw [hd] at h
    dsimp only at h ⊢
    show find id p.context.context.spots = .ok x
    unfold find
    rw [h]
  | stickyForward =>
    rw [hd] at h
    dsimp only at h ⊢
    obtain ⟨c, h1, h2⟩ := h
    have hf : p.context.pricingContext.forwardCurve i b.spotDate = .ok c := by
      show find i.id p.context.forwardCurves = .ok c
      unfold find
      rw [hi, h1]
    rw [hf, ok_bind, h2, ok_bind]
    rfl

/-- The fixings made, with the condition for the table to be accepted. -/
theorem roll_map (hp : SelfPricer.new instruments md = .ok p) (b : BumpSpotDate)
    (hx : ∀ f ∈ waitsAll instruments, between md.spotDate b.spotDate f = true → ∃ x, TurnsOut p b f x) :
    ∃ l, fixingMap p.context.pricingContext b (collect md.spotDate instruments) (collect md.spotDate instruments).instruments.entries = .ok l ∧
      (l.map Prod.fst).Nodup ∧
      ((∀ e ∈ l, (e.2.map Prod.fst).Nodup) ↔ ((waitsAll instruments).filter (between md.spotDate b.spotDate)).Nodup) ∧
      (∀ id d x, (∃ fs, (id, fs) ∈ l ∧ (d, x) ∈ fs) ↔
        ((id, d) ∈ waitsAll instruments ∧ between md.spotDate b.spotDate (id, d) = true ∧ x = turnsOut p b (id, d))) ∧
      (∀ e ∈ l, e.2 ≠ []) := by
  obtain ⟨_, e2⟩ := new_self hp
  obtain ⟨e3, _⟩ := new_context e2
  have hw := collect_wellFormed md.spotDate instruments
  have hdis := collect_distinct md.spotDate instruments
  have hsd : p.context.pricingContext.spotDate = md.spotDate := by show p.context.context.spotDate = _; rw [e3]
  have hdue : ∀ id, (fun d => between md.spotDate b.spotDate (id, d)) = isDue p.context.pricingContext b := by
    intro id; funext d; unfold between isDue; rw [hsd]
  have hdue' : between md.spotDate b.spotDate = fun f => isDue p.context.pricingContext b f.2 := by
    funext f; unfold between isDue; rw [hsd]
  have hall : ∀ id, (heldFixings (collect md.spotDate instruments) id).filter (isDue p.context.pricingContext b) =
      only id ((waitsAll instruments).filter (between md.spotDate b.spotDate)) := by
    intro id
    rw [held_collect, hdue', only_filter]
  have hmap := fixingMap_ok (ctx := p.context.pricingContext) (b := b) (c := collect md.spotDate instruments) (val := fun id d => turnsOut p b (id, d))
    (collect md.spotDate instruments).instruments.entries (by
      rintro ⟨id, i⟩ he d hd hdu
      rw [held_collect, mem_only] at hd
      have hb : between md.spotDate b.spotDate (id, d) = true := by rw [hdue']; exact hdu
      obtain ⟨x, hx'⟩ := hx _ hd hb
      rw [turnsOut_eq hx']
      exact fixingValue_of (hw.instrumentKey id i ((get_mem hdis _ _).2 he)) hx')
  have hthere : ∀ id d, (id, d) ∈ waitsAll instruments → id ∈ (collect md.spotDate instruments).instruments.entries.map Prod.fst :=
    fun id d h => (mem_keys hdis id).2 ((keeps_collect md.spotDate instruments).there _ h)
  refine ⟨_, hmap, due_keys hdis, ?_, ?_, ?_⟩
  · rw [only_nodup]
    constructor
    · intro h id
      by_cases hn : only id ((waitsAll instruments).filter (between md.spotDate b.spotDate)) = []
      · rw [hn]; exact List.nodup_nil
      · obtain ⟨d, hd⟩ := List.exists_mem_of_ne_nil _ hn
        rw [mem_only, List.mem_filter] at hd
        have := h (id, _) (mem_due.2 ⟨hthere id d hd.1, by rw [hall]; exact hn, rfl⟩)
        rw [hall, List.map_map] at this
        exact List.Nodup.of_map _ this
    · rintro h ⟨id, fs⟩ he
      obtain ⟨_, _, rfl⟩ := mem_due.1 he
      dsimp only
      rw [hall, List.map_map]
      have := h id
      rwa [show (Prod.fst ∘ fun d => (d, turnsOut p b (id, d))) = _root_.id from rfl, List.map_id]
  · intro id d x
    constructor
    · rintro ⟨fs, h1, h2⟩
      obtain ⟨_, _, rfl⟩ := mem_due.1 h1
      rw [hall] at h2
      obtain ⟨d', h3, h4⟩ := List.mem_map.1 h2
      cases h4
      rw [mem_only, List.mem_filter] at h3
      exact ⟨h3.1, h3.2, rfl⟩
    · rintro ⟨h1, h2, rfl⟩
      have hm : d ∈ only id ((waitsAll instruments).filter (between md.spotDate b.spotDate)) := by
        rw [mem_only, List.mem_filter]; exact ⟨h1, h2⟩
      refine ⟨_, mem_due.2 ⟨hthere id d h1, ?_, rfl⟩, ?_⟩
      · rw [hall]; exact List.ne_nil_of_mem hm
      · rw [hall]; exact List.mem_map.2 ⟨d, hm, rfl⟩
  · rintro ⟨id, fs⟩ he
    obtain ⟨_, h, rfl⟩ := mem_due.1 he
    simpa using h

end QM.Risk
