import Verif.Risk.DeltaLemmas

/-!
# Moving the date of a self pricer
-/

namespace QM.Risk
open QM.Interp QM.Vol QM.Fixings QM.Instruments QM.Instruments.Spec QM.Market QM.Market.Spec QM.Risk.Spec

/-! ## What the date has to do with the dependencies -/

/-- The dependencies without what depends on the spot date. -/
def rest (c : Collector) : Collector := { c with spotDate := 0, yieldCurves := .empty }

theorem rest_addInstrument (c : Collector) (i : Instrument) : rest (c.addInstrument i) = (rest c).addInstrument i := rfl
theorem rest_yieldCurve (c : Collector) (id : String) (d : Int) : rest (c.yieldCurve id d) = rest c := rfl
theorem rest_noteSpot (c : Collector) (i : Instrument) (r : SpotRequirement) : rest (c.noteSpot i r) = (rest c).noteSpot i r := by
  unfold Collector.noteSpot
  split <;> rfl
theorem rest_noteForward (c : Collector) (i : Instrument) (d : Int) : rest (c.noteForward i d) = rest ((rest c).noteForward i d) := rfl
theorem rest_volSurface (c : Collector) (i : Instrument) (d : Int) : rest (c.volSurface i d) = (rest c).volSurface i d := rfl
theorem rest_fixing (c : Collector) (id : String) (d : DateTime) : rest (c.fixing id d) = (rest c).fixing id d := rfl

theorem rest_start {c c' : Collector} (h : rest c = rest c') (v : Vanilla) (u : Instrument) :
    rest (startVanilla v u c) = rest (startVanilla v u c') := by
  unfold startVanilla
  rw [rest_noteForward, rest_yieldCurve, rest_fixing, h]
  rfl

theorem rest_finish {r r' : Collector × SpotRequirement} (h : rest r.1 = rest r'.1) (h' : r.2 = r'.2) (v : Vanilla) (u : Instrument) :
    rest (finishVanilla v u r).1 = rest (finishVanilla v u r').1 := by
  unfold finishVanilla
  dsimp only
  rw [rest_volSurface, rest_noteSpot, h, h', ← rest_noteSpot, ← rest_volSurface]

mutual
theorem rest_dependencies : ∀ (i : Instrument) {c c' : Collector}, rest c = rest c' →
    rest (i.dependencies c).1 = rest (i.dependencies c').1 ∧ (i.dependencies c).2 = (i.dependencies c').2
  | .currency _ _, c, c', h => by rw [Instrument.dependencies, Instrument.dependencies]; exact ⟨h, rfl⟩
  | .creditEntity _ _, c, c', h => by rw [Instrument.dependencies, Instrument.dependencies]; exact ⟨h, rfl⟩
  | .equity _ _ _, c, c', h => by rw [Instrument.dependencies, Instrument.dependencies]; exact ⟨h, rfl⟩
  | .zeroCoupon _ _ _ _ _, c, c', h => by rw [Instrument.dependencies, Instrument.dependencies]; exact ⟨h, rfl⟩
  | .basket _ _ _ parts, c, c', h => by
    rw [Instrument.dependencies, Instrument.dependencies]
    exact ⟨rest_basket parts h, rfl⟩
  | .spotStarting v u _, c, c', h => by
    rw [Instrument.dependencies, Instrument.dependencies]
    obtain ⟨h1, h2⟩ := rest_dependencies u (rest_start h v u)
    exact ⟨rest_finish h1 h2 v u, rfl⟩
  | .forwardStarting v u _ d _, c, c', h => by
    rw [Instrument.dependencies, Instrument.dependencies]
    obtain ⟨h1, h2⟩ := rest_dependencies u (rest_start (c := c.fixing u.id d) (c' := c'.fixing u.id d) (by rw [rest_fixing, h, ← rest_fixing]) v u)
    exact ⟨rest_finish h1 h2 v u, rfl⟩

theorem rest_basket : ∀ (parts : List (ℝ × Instrument)) {c c' : Collector}, rest c = rest c' →
    rest (basketDependencies parts c) = rest (basketDependencies parts c')
  | [], c, c', h => by rw [basketDependencies, basketDependencies]; exact h
  | (_, u) :: parts, c, c', h => by
    rw [basketDependencies, basketDependencies]
    obtain ⟨h1, h2⟩ := rest_dependencies u h
    refine rest_basket parts ?_
    rw [h2]
    split
    · exact h1
    · obtain ⟨h3, h4⟩ := rest_dependencies u h1
      rw [rest_noteSpot, h3, h4, ← rest_noteSpot]
end

theorem rest_spot (i : Instrument) {c c' : Collector} (h : rest c = rest c') : rest (c.spot i) = rest (c'.spot i) := by
  unfold Collector.spot
  obtain ⟨h1, h2⟩ := rest_dependencies i h
  dsimp only
  rw [rest_noteSpot, h1, h2, ← rest_noteSpot]

theorem rest_collect (sd sd' : Int) (l : List (ℝ × Instrument)) : rest (collect sd l) = rest (collect sd' l) := by
  unfold collect
  have : ∀ (c c' : Collector), rest c = rest c' →
      rest (l.foldl (fun c e => c.spot e.2) c) = rest (l.foldl (fun c e => c.spot e.2) c') := by
    induction l with
    | nil => exact fun _ _ h => h
    | cons e l ih => exact fun c c' h => ih _ _ (rest_spot e.2 h)
  exact this _ _ rfl

/-! ## Prices after the move -/

theorem new_rest {md : MarketData} {c c' : Collector} {q : Prefetch} (h : rest c = rest c') (hn : Prefetch.new md c = .ok q) :
    Prefetch.new md c' = .ok { q with dependencies := c' } := by
  have h1 : c.forwardCurves = c'.forwardCurves := show (rest c).forwardCurves = (rest c').forwardCurves by rw [h]
  have h2 : c.volSurfaces = c'.volSurfaces := show (rest c).volSurfaces = (rest c').volSurfaces by rw [h]
  unfold Prefetch.new at hn ⊢
  rw [← h1, ← h2]
  generalize walkDependencies md c.volSurfaces c.forwardCurves.entries .empty .empty = r at hn ⊢
  obtain ⟨r, fs, vs⟩ := r
  cases r with
  | error e => cases hn
  | ok u => cases hn; rfl

/-- A pricer whose date has been moved says what a fresh one says on the moved market. -/
theorem moved_price {fuel : Nat} {instruments : List (ℝ × Instrument)} {md : MarketData} {p p' : SelfPricer} {b : BumpTime}
    (hp : SelfPricer.new instruments md = .ok p) (h : p.bumpTime b = (.ok (), p')) :
    ∃ modified held md', updateInstruments b.spotDateBump instruments p.context.pricingContext (collect md.spotDate instruments) = .ok (modified, held) ∧
      (if b.spotDateBump.spotDate = md.spotDate then md' = md
        else md.bumpSpotDate b.spotDateBump (collect md.spotDate instruments) = (.ok (), md')) ∧
      p'.instruments = held ∧ p'.context.context = md' ∧ p'.price fuel = value fuel held md' := by
  obtain ⟨modified, held, context, changed, h1, h2, h3⟩ := bumpTime_ok h
  obtain ⟨e1, e2⟩ := new_self hp
  obtain ⟨e3, e4⟩ := new_context e2
  rw [e1, e4] at h1
  refine ⟨modified, held, context.context, h1, ?_, ?_⟩
  · obtain ⟨_, ⟨k1, _, rfl⟩ | ⟨k1, _, md', k2, k3⟩⟩ := bump_date h2
    · rw [e3] at k1 ⊢
      rw [if_pos k1]
    · rw [e3] at k1
      rw [if_neg k1]
      rw [e3, e4] at k2
      rw [k2, (new_context k3).1]
  · rcases h3 with ⟨_, h3⟩ | ⟨rfl, rfl⟩
    · obtain ⟨g1, g2⟩ := new_self h3
      refine ⟨g1, (new_context g2).1, ?_⟩
      unfold value
      rw [h3]
      rfl
    · refine ⟨rfl, rfl, ?_⟩
      have hh : held = instruments := by
        unfold updateInstruments at h1
        cases hf : fixingMap p.context.pricingContext b.spotDateBump (collect md.spotDate instruments) (collect md.spotDate instruments).instruments.entries with
        | error e => rw [hf] at h1; cases h1
        | ok l =>
          rw [hf] at h1
          rw [ok_bind] at h1
          split at h1
          · cases h1; rfl
          · obtain ⟨t, _, h1⟩ := bind_ok h1
            obtain ⟨o, _, h1⟩ := bind_ok h1
            cases o with
            | none => cases h1; rfl
            | some r => cases h1
      subst hh
      have hn : Prefetch.new context.context (collect md.spotDate held) = .ok context := by
        obtain ⟨_, ⟨k1, _, rfl⟩ | ⟨k1, _, md', k2, k3⟩⟩ := bump_date h2
        · rw [e3]
          exact e2
        · rw [(new_context k3).1, ← e4]
          exact k3
      have hn' := new_rest (rest_collect _ context.context.spotDate held) hn
      unfold value
      rw [new_self_of hn']
      rfl

end QM.Risk
