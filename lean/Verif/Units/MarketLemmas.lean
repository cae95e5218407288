import Verif.Units.VolLemmas

/-!
# Helper lemmas: forward curves and markets in another unit
-/

namespace QM.Units
open QM.Interp QM.Curves QM.Dividends QM.Forward QM.Vol QM.Fixings QM.Instruments QM.Market QM.Risk

variable {c : ℝ}

/-! ## Dividends -/

/-- An entry of the sums of dividends. -/
noncomputable def accumulation (c : ℝ) (a : Accumulation ℝ) : Accumulation ℝ :=
  ⟨a.exDate, c * a.undiscountedSum, c * a.discountedSum, c * a.discountedCash, amount c a.discountedCashRemaining⟩

noncomputable def loopState (c : ℝ) (s : LoopState ℝ) : LoopState ℝ :=
  ⟨s.prevExDate, c * s.undiscountedSum, c * s.discountedSum, c * s.discountedCash, c * s.prevDiscountedSum, s.accumulation.map (accumulation c)⟩

noncomputable def bootstrap (c : ℝ) (b : Bootstrap ℝ) : Bootstrap ℝ := { b with accumulation := b.accumulation.map (accumulation c) }

noncomputable def equityForward (c : ℝ) (f : EquityForward) : EquityForward :=
  { f with bootstrap := bootstrap c f.bootstrap, referenceSpot := c * f.referenceSpot }

theorem pushed_units (s : LoopState ℝ) : (loopState c s).pushed = s.pushed.map (accumulation c) := by
  simp [LoopState.pushed, loopState, accumulation]

theorem addDividend_units (spot : ℝ) (df : Int → Outcome ℝ) (d : Dividend ℝ) (s : LoopState ℝ) :
    addDividend (c * spot) df { d with cash := c * d.cash } (loopState c s) = (addDividend spot df d s).map (loopState c) := by
  unfold addDividend
  dsimp only
  cases df d.payDate with
  | error e => rfl
  | ok f =>
    simp only [ok_to]
    split
    · cases df d.exDate with
      | error e => rfl
      | ok g =>
        simp only [ok_to, pure_is, map_ok, loopState]
        congr 2 <;> ring
    · simp only [pure_is, map_ok, loopState]
      congr 2 <;> ring

theorem bootstrapLoop_units (base to_ : Int) (spot : ℝ) (df : Int → Outcome ℝ) (ds : List (Dividend ℝ)) : ∀ s,
    bootstrapLoop base to_ (c * spot) df (ds.map fun x => { x with cash := c * x.cash }) (loopState c s) =
      (bootstrapLoop base to_ spot df ds s).map (loopState c) := by
  induction ds with
  | nil => exact fun _ => rfl
  | cons d ds ih =>
    intro s
    simp only [List.map_cons, bootstrapLoop]
    split
    · exact ih s
    have e : (loopState c s).prevExDate = s.prevExDate := rfl
    rw [e]
    split
    · rfl
    split
    · rfl
    have h : (if d.exDate > s.prevExDate then
          { loopState c s with accumulation := (loopState c s).pushed, prevExDate := d.exDate, prevDiscountedSum := (loopState c s).discountedSum }
        else loopState c s) = loopState c (if d.exDate > s.prevExDate then
          { s with accumulation := s.pushed, prevExDate := d.exDate, prevDiscountedSum := s.discountedSum }
        else s) := by
      split
      · rw [pushed_units]
        rfl
      · rfl
    rw [h, addDividend_units]
    cases addDividend spot df d (if d.exDate > s.prevExDate then
          { s with accumulation := s.pushed, prevExDate := d.exDate, prevDiscountedSum := s.discountedSum }
        else s) with
    | error e => rfl
    | ok s' => exact ih s'

theorem fillRemaining_units (l : List (Accumulation ℝ)) :
    fillRemaining (l.map (accumulation c)) = (fillRemaining l).map (accumulation c) := by
  unfold fillRemaining
  rw [List.getLast?_map]
  cases l.getLast? with
  | none => rfl
  | some a =>
    simp only [Option.map_some, List.map_map]
    congr 1
    funext b
    obtain ⟨_, _, _, _, r⟩ := b
    cases r with
    | nan => rfl
    | val x =>
      simp only [Function.comp_def, accumulation, amount_val, Accumulation.mk.injEq, Num.val.injEq, true_and]
      ring

theorem bootstrapStream_units (divs : DividendStream) (rate borrow : RateCurve) (spot : ℝ) (base hwm : Int) :
    bootstrapStream (dividends c divs) rate borrow (c * spot) base hwm = (bootstrapStream divs rate borrow spot base hwm).map (bootstrap c) := by
  unfold bootstrapStream Bootstrap.new dividends
  simp only [List.getLast?_map]
  cases divs.dividends.getLast? with
  | none => rfl
  | some l =>
    simp only [Option.map_some]
    split
    · rfl
    · cases bootstrapDiscount rate borrow base with
      | error e => rfl
      | ok df =>
        simp only [ok_to]
        have h := bootstrapLoop_units (c := c) base (max hwm divs.lastCash) spot df divs.dividends ⟨base, 0, 0, 0, 0, []⟩
        have e : loopState c ⟨base, 0, 0, 0, 0, []⟩ = ⟨base, 0, 0, 0, 0, []⟩ := by simp [loopState]
        rw [e] at h
        rw [h]
        cases bootstrapLoop base (max hwm divs.lastCash) spot df divs.dividends ⟨base, 0, 0, 0, 0, []⟩ with
        | error e => rfl
        | ok s =>
          simp only [map_ok, ok_to, pure_is, bootstrap]
          have : (if (loopState c s).prevExDate > base then (loopState c s).pushed else (loopState c s).accumulation) =
              (if s.prevExDate > base then s.pushed else s.accumulation).map (accumulation c) := by
            show (if s.prevExDate > base then (loopState c s).pushed else s.accumulation.map (accumulation c)) = _
            split
            · rw [pushed_units]
            · rfl
          rw [this, fillRemaining_units]

theorem equityForward_new (base : Int) (spot : ℝ) (st : Int → Int) (rate borrow : RateCurve) (divs : DividendStream) (hwm : Int) :
    EquityForward.new base (c * spot) st rate borrow (dividends c divs) hwm = (EquityForward.new base spot st rate borrow divs hwm).map (equityForward c) := by
  unfold EquityForward.new
  cases logDiscountWithBorrow rate borrow base with
  | error e => rfl
  | ok x =>
    simp only [ok_to]
    cases discountWithBorrow rate borrow x (st base) with
    | error e => rfl
    | ok y =>
      simp only [ok_to, mul_assoc, bootstrapStream_units]
      cases bootstrapStream divs rate borrow (spot * y) base hwm with
      | error e => rfl
      | ok b => rfl

theorem searchAcc_units (l : List (Accumulation ℝ)) (d : Int) : searchAcc (l.map (accumulation c)) d = searchAcc l d := by
  unfold searchAcc
  have : (l.map (accumulation c)).takeWhile (fun a => decide (a.exDate < d)) = (l.takeWhile (fun a => decide (a.exDate < d))).map (accumulation c) := by
    rw [List.takeWhile_map]
    rfl
  simp only [this, List.length_map, List.getElem?_map, Option.map_map, Function.comp_def, accumulation]

theorem discountedSum_units (b : Bootstrap ℝ) (d : Int) : (bootstrap c b).discountedSumFromBase d = (b.discountedSumFromBase d).map (c * ·) := by
  unfold Bootstrap.discountedSumFromBase sumFromBase bootstrap
  simp only [searchAcc_units, List.getElem?_map]
  split
  · rfl
  split
  · cases b.accumulation[(searchAcc b.accumulation d).1]? <;> simp [accumulation]
  split
  · simp
  · cases b.accumulation[(searchAcc b.accumulation d).1 - 1]? <;> simp [accumulation]

theorem cashDivsAfter_units (b : Bootstrap ℝ) (d : Int) : (bootstrap c b).discountedCashDivsAfter d = (b.discountedCashDivsAfter d).map (amount c) := by
  unfold Bootstrap.discountedCashDivsAfter bootstrap
  simp only [searchAcc_units, List.getElem?_map, List.length_map]
  split
  · rfl
  split
  · cases b.accumulation[(searchAcc b.accumulation d).1]? <;> simp [accumulation]
  split
  · simp
  · cases b.accumulation[(searchAcc b.accumulation d).1]? <;> simp [accumulation]

theorem equityForward_forward (f : EquityForward) (d : Int) : (equityForward c f).forward d = (f.forward d).map (c * ·) := by
  unfold EquityForward.forward equityForward
  simp only [discountedSum_units]
  cases f.bootstrap.discountedSumFromBase d with
  | error e => rfl
  | ok x =>
    simp only [map_ok, ok_to]
    cases logDiscountWithBorrow f.rate f.borrow (f.settlement d) with
    | error e => rfl
    | ok y =>
      simp only [ok_to]
      cases number (f.divYield.rt (f.settlement d)) with
      | error e => rfl
      | ok z =>
        simp only [ok_to, pure_is, map_ok]
        congr 1
        ring

theorem asFwd_units (f : EquityForward) : asFwd (equityForward c f) = forward c (asFwd f) := by
  unfold asFwd forward
  simp only [equityForward_forward]
  congr 1
  · funext d
    cases f.forward d <;> rfl
  · funext d
    exact cashDivsAfter_units _ _

theorem newBumpAll_units (divs : DividendStream) (b : BumpDivs) : b.apply (dividends c divs) = dividends c (b.apply divs) := by
  cases b with
  | bumpAllRelative size =>
    simp only [BumpDivs.apply, DividendStream.newBumpAll, dividends, List.map_map]
    congr 2
    funext d
    simp [Dividend.bumpAllRelative, mul_assoc]

/-! ## Maps -/

section Maps
variable {κ V W : Type} [DecidableEq κ] (f : V → W)

theorem get_onValues (m : Map κ V) (k : κ) : (onValues f m).get k = (m.get k).map f := by
  obtain ⟨l⟩ := m
  unfold onValues Map.get
  induction l with
  | nil => rfl
  | cons e l ih =>
    by_cases h : e.1 = k
    · simp [h]
    · simp only [List.map_cons, List.find?_cons, h, decide_false]
      exact ih

theorem insert_onValues (m : Map κ V) (k : κ) (v : V) : (onValues f m).insert k (f v) = onValues f (m.insert k v) := by
  obtain ⟨l⟩ := m
  unfold onValues Map.insert
  simp only [List.map_cons, List.filter_map]
  rfl

theorem find_onValues (m : Map String V) (k : String) : find k (onValues f m) = (find k m).map f := by
  unfold find
  rw [get_onValues]
  cases m.get k <;> rfl

theorem copyFromSaved_onValues (m s : Map String V) : copyFromSaved (onValues f m) (onValues f s) = onValues f (copyFromSaved m s) := by
  obtain ⟨l⟩ := s
  unfold copyFromSaved
  show (l.map fun e => (e.1, f e.2)).foldl (fun m e => m.insert e.1 e.2) (onValues f m) = _
  dsimp only
  induction l generalizing m with
  | nil => rfl
  | cons e l ih =>
    rw [List.map_cons, List.foldl_cons, List.foldl_cons, insert_onValues]
    exact ih _

theorem applyBump_onValues (id : String) (b : V → V) (b' : W → W) (hb : ∀ v, b' (f v) = f (b v)) (m : Map String V) (s : Option (Map String V)) :
    applyBump id b' (onValues f m) (s.map (onValues f)) =
      ((applyBump id b m s).1, onValues f (applyBump id b m s).2.1, (applyBump id b m s).2.2.map (onValues f)) := by
  unfold applyBump
  rw [get_onValues]
  cases m.get id with
  | none => rfl
  | some v =>
    simp only [Option.map_some, hb, insert_onValues, Option.map_map, Function.comp_def]

end Maps

/-! ## Instruments -/

@[simp] theorem instrument_id (i : Instrument) : (instrument c i).id = i.id := by cases i <;> simp [instrument, Instrument.id]
@[simp] theorem instrument_creditId (i : Instrument) : (instrument c i).creditId = i.creditId := by
  cases i <;> simp [instrument, Instrument.creditId]
@[simp] theorem instrument_settlement (i : Instrument) : (instrument c i).settlement = i.settlement := by
  cases i <;> simp [instrument, Instrument.settlement]
@[simp] theorem instrument_isMoney (i : Instrument) : isMoney (instrument c i) = isMoney i := by cases i <;> simp [instrument, isMoney]
theorem instrument_timeToDayFraction (i : Instrument) : (instrument c i).timeToDayFraction = i.timeToDayFraction := by
  funext t
  cases i <;> simp [instrument, Instrument.timeToDayFraction]

/-! ## Markets -/

theorem market_equityForward (md : MarketData) (i : Instrument) (hwm : Int) :
    (market c md).equityForward (instrument c i) hwm = (md.equityForward i hwm).map (equityForward c) := by
  unfold MarketData.equityForward market
  simp only [find_onValues, instrument_id, instrument_creditId, instrument_settlement]
  cases find i.id md.spots with
  | error e => rfl
  | ok s =>
    cases find i.id md.dividends with
    | error e => rfl
    | ok d =>
      simp only [map_ok, ok_to, equityForward_new]
      cases find i.id md.borrowCurves with
      | error e => rfl
      | ok b =>
        simp only [ok_to]
        cases find i.creditId md.yieldCurves with
        | error e => rfl
        | ok y => rfl

theorem market_forwardCurve (md : MarketData) (i : Instrument) (hwm : Int) :
    (market c md).forwardCurve (instrument c i) hwm = (md.forwardCurve i hwm).map (forward c) := by
  unfold MarketData.forwardCurve
  rw [market_equityForward]
  cases md.equityForward i hwm with
  | error e => rfl
  | ok f => simp only [map_ok, ok_to, pure_is, asFwd_units]

theorem market_volSurface (hc : 0 < c) (md : MarketData) (i : Instrument) (hwm : Int) (g g' : Unit → Outcome Fwd) (hg : g' () = (g ()).map (forward c)) :
    (market c md).volSurface (instrument c i) hwm g' = (md.volSurface i hwm g).map (surface c) := by
  unfold MarketData.volSurface
  rw [instrument_id]
  show (find i.id (onValues (surface c) md.volSurfaces) >>= _) = _
  rw [find_onValues]
  cases find i.id md.volSurfaces with
  | error e => rfl
  | ok s =>
    simp only [map_ok, ok_to, Instrument.volTimeDynamics, Instrument.volForwardDynamics]
    show (VolTimeDynamics.constantExpiry.modify (surface c s) md.spotDate >>= _) = _
    rw [volTimeDynamics_units]
    cases VolTimeDynamics.constantExpiry.modify s md.spotDate with
    | error e => rfl
    | ok s' =>
      simp only [map_ok, ok_to]
      exact volForwardDynamics_units hc _ _ _ _ hg

/-- What one context answers, in the other unit, is what the other one answers. -/
structure Requoted (c : ℝ) (ctx ctx' : PricingContext) : Prop where
  spotDate : ctx'.spotDate = ctx.spotDate
  yieldCurve : ctx'.yieldCurve = ctx.yieldCurve
  spot : ∀ id, ctx'.spot id = (ctx.spot id).map (c * ·)
  forwardCurve : ∀ i hwm, ctx'.forwardCurve (instrument c i) hwm = (ctx.forwardCurve i hwm).map (forward c)
  volSurface : ∀ i hwm g g', g' () = (g ()).map (forward c) → ctx'.volSurface (instrument c i) hwm g' = (ctx.volSurface i hwm g).map (surface c)

theorem market_requoted (hc : 0 < c) (md : MarketData) : Requoted c md.pricingContext (market c md).pricingContext where
  spotDate := rfl
  yieldCurve := rfl
  spot id := find_onValues _ _ _
  forwardCurve i hwm := market_forwardCurve md i hwm
  volSurface i hwm g g' hg := market_volSurface hc md i hwm g g' hg

/-! ## Bumps and saves -/

noncomputable def savedData (c : ℝ) (s : SavedData) : SavedData :=
  { s with spots := onValues (c * ·) s.spots, dividends := onValues (dividends c) s.dividends, volSurfaces := onValues (surface c) s.volSurfaces }

theorem bumpSpot_units (b : BumpSpot) (s : ℝ) : (bumpSpot c b).apply (c * s) = c * b.apply s := by
  cases b with
  | relative x => simp only [bumpSpot, BumpSpot.apply]; ring
  | replace x => rfl

theorem market_bump (md : MarketData) (b : Bump) (save : Option SavedData) :
    (market c md).bump (bump c b) (save.map (savedData c)) =
      ((md.bump b save).1, market c (md.bump b save).2.1, (md.bump b save).2.2.map (savedData c)) := by
  cases b with
  | spot id b =>
    simp only [bump, MarketData.bump]
    have h := applyBump_onValues (c * ·) id b.apply (bumpSpot c b).apply
      (bumpSpot_units b) md.spots (save.map SavedData.spots)
    have e : (save.map (savedData c)).map SavedData.spots = (save.map SavedData.spots).map (onValues (c * ·)) := by cases save <;> rfl
    rw [e]
    show (Except.ok (applyBump id _ (onValues (c * ·) md.spots) _).1, _) = _
    simp only [market, h]
    refine congrArg₂ Prod.mk rfl (congrArg₂ Prod.mk rfl ?_)
    cases save with
    | none => rfl
    | some s =>
      simp only [Option.map_some, savedData]
      cases (applyBump id b.apply md.spots (some s.spots)).2.2 <;> rfl
  | divs id b =>
    simp only [bump, MarketData.bump]
    have h := applyBump_onValues (dividends c) id b.apply b.apply (fun v => newBumpAll_units v b) md.dividends (save.map SavedData.dividends)
    have e : (save.map (savedData c)).map SavedData.dividends = (save.map SavedData.dividends).map (onValues (dividends c)) := by cases save <;> rfl
    rw [e]
    simp only [market, h]
    refine congrArg₂ Prod.mk rfl (congrArg₂ Prod.mk rfl ?_)
    cases save with
    | none => rfl
    | some s =>
      simp only [Option.map_some, savedData]
      cases (applyBump id b.apply md.dividends (some s.dividends)).2.2 <;> rfl
  | vol id b =>
    simp only [bump, MarketData.bump]
    have h := applyBump_onValues (surface c) id b.apply b.apply (fun v => bumpVol_units b v) md.volSurfaces (save.map SavedData.volSurfaces)
    have e : (save.map (savedData c)).map SavedData.volSurfaces = (save.map SavedData.volSurfaces).map (onValues (surface c)) := by cases save <;> rfl
    rw [e]
    simp only [market, h]
    refine congrArg₂ Prod.mk rfl (congrArg₂ Prod.mk rfl ?_)
    cases save with
    | none => rfl
    | some s =>
      simp only [Option.map_some, savedData]
      cases (applyBump id b.apply md.volSurfaces (some s.volSurfaces)).2.2 <;> rfl
  | borrow id b =>
    cases save <;> rfl
  | yield id b =>
    cases save <;> rfl
  | spotDate b => rfl

theorem market_restore (md : MarketData) (s : SavedData) : (market c md).restore (savedData c s) = market c (md.restore s) := by
  simp only [MarketData.restore, market, savedData, copyFromSaved_onValues]

end QM.Units
