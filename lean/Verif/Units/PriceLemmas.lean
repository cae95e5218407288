import Verif.Units.MarketLemmas
import Verif.Vol.Lemmas

/-!
# Helper lemmas: prices, dependencies and fixings in another unit
-/

namespace QM.Units
open QM.Interp QM.Curves QM.Dividends QM.Forward QM.Vol QM.Fixings QM.Instruments QM.Market QM.Risk

variable {c : ℝ}

/-! ## Prices -/

theorem each_amount {α : Type} (k : ℝ) (f f' : α → Outcome (Num ℝ)) (h : ∀ a, f' a = (f a).map (amount k)) (l : List α) :
    each f' l = (each f l).map (List.map (amount k)) := by
  induction l with
  | nil => rfl
  | cons a l ih =>
    simp only [each, h, ih]
    cases f a with
    | error e => rfl
    | ok x =>
      simp only [map_ok, ok_to]
      cases each f l <;> rfl

theorem amount_one (x : Num ℝ) : amount 1 x = x := by cases x <;> simp

theorem map_amount_one (l : List (Num ℝ)) : l.map (amount 1) = l := by
  conv_rhs => rw [← List.map_id l]
  congr 1
  funext x
  exact amount_one x

theorem logMoneyness_amounts (hc : 0 < c) (f k : Num ℝ) : logMoneyness (amount c f) (amount c k) = logMoneyness f k := by
  cases f <;> cases k <;> simp only [amount_nan, amount_val, logMoneyness]
  simp only [mul_eq_zero, hc.ne', false_or, mul_pos_iff_of_pos_left hc, mul_div_mul_left _ _ hc.ne']

theorem callPrice_units (hc : 0 < c) (df f k s : Num ℝ) : callPrice df (amount c f) (amount c k) s = amount c (callPrice df f k s) := by
  unfold callPrice
  dsimp only
  rw [logMoneyness_amounts hc]
  generalize cdf (dPlusMinus (logMoneyness f k) s).1 = x
  generalize cdf (dPlusMinus (logMoneyness f k) s).2 = y
  cases df <;> cases f <;> cases k <;> cases x <;> cases y <;> simp [num2]
  ring

theorem putPrice_units (hc : 0 < c) (df f k s : Num ℝ) : putPrice df (amount c f) (amount c k) s = amount c (putPrice df f k s) := by
  unfold putPrice
  dsimp only
  rw [logMoneyness_amounts hc]
  generalize cdf (dPlusMinus (logMoneyness f k) s).1.neg = x
  generalize cdf (dPlusMinus (logMoneyness f k) s).2.neg = y
  cases df <;> cases f <;> cases k <;> cases x <;> cases y <;> simp [num2]
  ring

theorem vanillaValue_units (hc : 0 < c) (fuel : Nat) (v : Vanilla) (timeOf : DateTime → Outcome Point) (yc : RateCurve) (s : VolSurface)
    (df strike f k : Num ℝ) (from_ : Point) (d : DateTime) :
    vanillaValue fuel v timeOf yc (surface c s) df (amount c strike) (amount c f) (amount c k) from_ d =
      (vanillaValue fuel v timeOf yc s df strike f k from_ d).map (amount c) := by
  unfold vanillaValue
  split
  · cases yc.rt (v.settlement d.date) with
    | error e => rfl
    | ok rt =>
      simp only [ok_to]
      cases timeOf d with
      | error e => rfl
      | ok t =>
        simp only [ok_to, surface_forwardVariance hc]
        cases s.forwardVariance fuel (later from_ t) v.expiryTime strike with
        | error e => rfl
        | ok w =>
          simp only [ok_to]
          cases optionSqrtVariance w with
          | error e => rfl
          | ok q =>
            simp only [ok_to]
            cases v.putOrCall with
            | put => simp only [pure_is, map_ok, putPrice_units hc]
            | call => simp only [pure_is, map_ok, callPrice_units hc]
  · simp

theorem vanillaPrices_units (hc : 0 < c) (fuel : Nat) {ctx ctx' : PricingContext} (h : Requoted c ctx ctx') (v : Vanilla) (u : Instrument) (from_ : Point)
    (kf kf' : Outcome (Num ℝ × Num ℝ)) (hk : kf' = kf.map fun p => (amount c p.1, amount c p.2)) (dates : List DateTime) :
    vanillaPrices fuel ctx' v (instrument c u) from_ kf' dates = (vanillaPrices fuel ctx v u from_ kf dates).map (List.map (amount c)) := by
  unfold vanillaPrices
  cases dates with
  | nil => rfl
  | cons d ds =>
    simp only [instrument_creditId, h.yieldCurve, instrument_timeToDayFraction]
    cases ctx.yieldCurve u.creditId v.payDate with
    | error e => rfl
    | ok yc =>
      simp only [ok_to]
      rw [h.volSurface u v.expiry.date (fun _ => ctx.forwardCurve u v.expiry.date) (fun _ => ctx'.forwardCurve (instrument c u) v.expiry.date)
        (h.forwardCurve u _)]
      cases ctx.volSurface u v.expiry.date (fun _ => ctx.forwardCurve u v.expiry.date) with
      | error e => rfl
      | ok s =>
        subst hk
        simp only [map_ok, ok_to]
        cases kf with
        | error e => rfl
        | ok p =>
          obtain ⟨strike, f⟩ := p
          simp only [map_ok, ok_to]
          cases yc.rt v.payDate with
          | error e => rfl
          | ok rt =>
            simp only [ok_to, surface_displacement]
            cases s.displacement v.expiry.date with
            | error e => rfl
            | ok dis =>
              simp only [map_ok, ok_to]
              have e1 : num2 (· + ·) (amount c strike) (amount c dis) = amount c (num2 (· + ·) strike dis) := by
                cases strike <;> cases dis <;> simp [num2, mul_add]
              have e2 : num2 (· - ·) (amount c f) (amount c dis) = amount c (num2 (· - ·) f dis) := by
                cases f <;> cases dis <;> simp [num2, mul_sub]
              rw [e1, e2]
              have e3 : nlt (amount c (num2 (· - ·) f dis)) (.val 0) ↔ nlt (num2 (· - ·) f dis) (.val 0) := by
                cases num2 (· - ·) f dis with
                | nan => exact Iff.rfl
                | val x => simp only [amount_val, nlt]; constructor <;> intro hx <;> nlinarith
              by_cases hn : nlt (num2 (· - ·) f dis) (.val 0)
              · rw [if_pos hn, if_pos (e3.2 hn)]
                rfl
              · rw [if_neg hn, if_neg (fun h => hn (e3.1 h))]
                exact each_amount c _ _ (fun a => vanillaValue_units hc ..) _

theorem equityPrices_units {ctx ctx' : PricingContext} (h : Requoted c ctx ctx') (i : Instrument) (dates : List DateTime) :
    equityPrices ctx' (instrument c i) dates = (equityPrices ctx i dates).map (List.map (amount c)) := by
  unfold equityPrices
  split
  · rfl
  · simp only [h.spotDate, h.spot, h.forwardCurve, instrument_id]
    split
    · cases ctx.spot i.id <;> rfl
    · rename_i d _
      cases ctx.forwardCurve i d.date with
      | error e => rfl
      | ok f =>
        simp only [map_ok, ok_to]
        exact each_amount c _ _ (fun a => rfl) _
  · rename_i d d' rest
    simp only [h.forwardCurve]
    cases ctx.forwardCurve i ((d' :: rest).getLast (by simp)).date with
    | error e => rfl
    | ok f =>
      simp only [map_ok, ok_to]
      exact each_amount c _ _ (fun a => rfl) _

/-- By how much the price of one of an instrument is multiplied. -/
noncomputable def unit (c : ℝ) (i : Instrument) : ℝ := if isMoney i then 1 else c

theorem held_unit (i : Instrument) (w x : ℝ) : unit c i * x * held c i w = c * (x * w) := by
  unfold unit held
  split <;> ring

theorem accumulate_units (i : Instrument) (w : ℝ) (temp out : List (Num ℝ)) :
    accumulate (held c i w) (temp.map (amount (unit c i))) (out.map (amount c)) = (accumulate w temp out).map (amount c) := by
  unfold accumulate
  induction temp generalizing out with
  | nil => rfl
  | cons t temp ih =>
    cases out with
    | nil => rfl
    | cons o out =>
      simp only [List.map_cons, List.zipWith_cons_cons, ih, List.cons.injEq, and_true]
      cases t <;> cases o <;> simp [num2, held_unit, mul_add]

mutual
theorem prices_units (hc : 0 < c) (fuel : Nat) {ctx ctx' : PricingContext} (h : Requoted c ctx ctx') : ∀ (i : Instrument) (dates : List DateTime), Quotable i →
    (instrument c i).prices fuel ctx' dates = (i.prices fuel ctx dates).map (List.map (amount (unit c i)))
  | .currency _ _, dates, _ => by
    rw [instrument, Instrument.prices, Instrument.prices, unit, if_pos (by rfl)]
    simp [amount_one]
  | .creditEntity _ _, dates, _ => by
    rw [instrument, Instrument.prices, Instrument.prices, unit, if_pos (by rfl)]
    simp [amount_one]
  | .equity id cr st, dates, _ => by
    have e := equityPrices_units h (.equity id cr st) dates
    rw [instrument] at e ⊢
    rw [Instrument.prices, Instrument.prices, e]
    rfl
  | .zeroCoupon _ _ _ _ _, dates, _ => by
    rw [instrument, Instrument.prices, Instrument.prices, unit, if_pos (by rfl)]
    simp only [zeroCouponPrices, h.yieldCurve]
    generalize (ctx.yieldCurve _ _ >>= _) = o
    cases o with
    | error e => rfl
    | ok l => rw [map_ok, map_amount_one]
  | .basket _ _ _ parts, dates, hq => by
    rw [Quotable] at hq
    rw [instrument, Instrument.prices, Instrument.prices, unit, if_neg (by simp [isMoney])]
    have := basket_units hc fuel h parts dates (dates.map (fun _ => .val 0)) hq
    rw [← this]
    simp [Function.comp_def]
  | .spotStarting v u k, dates, hq => by
    rw [Quotable] at hq
    rw [instrument, Instrument.prices, Instrument.prices, unit, if_neg (by simp [isMoney])]
    apply vanillaPrices_units hc fuel h
    rw [prices_units hc fuel h u [v.expiry] hq.2]
    have e : unit c u = c := by rw [unit, hq.1]; rfl
    rw [e]
    cases u.prices fuel ctx [v.expiry] with
    | error e => rfl
    | ok l => cases l <;> rfl
  | .forwardStarting v u k d t, dates, hq => by
    rw [Quotable] at hq
    rw [instrument, Instrument.prices, Instrument.prices, h.spotDate]
    have eu : unit c (.forwardStarting v u k d t) = c := rfl
    rw [eu]
    split
    · rfl
    apply vanillaPrices_units hc fuel h
    rw [prices_units hc fuel h u [d, v.expiry] hq.2]
    have e : unit c u = c := by rw [unit, hq.1]; rfl
    rw [e]
    cases u.prices fuel ctx [d, v.expiry] with
    | error e => rfl
    | ok l =>
      cases l with
      | nil => rfl
      | cons x l =>
        cases l with
        | nil => rfl
        | cons y l => cases x <;> simp [pair, num2, mul_assoc]

theorem basket_units (hc : 0 < c) (fuel : Nat) {ctx ctx' : PricingContext} (h : Requoted c ctx ctx') : ∀ (ps : List (ℝ × Instrument)) (dates : List DateTime)
    (out : List (Num ℝ)), QuotableAll ps →
    basketPrices fuel ctx' (positions c ps) dates (out.map (amount c)) = (basketPrices fuel ctx ps dates out).map (List.map (amount c))
  | [], dates, out, _ => by rw [positions, basketPrices, basketPrices]; rfl
  | (w, u) :: rest, dates, out, hq => by
    rw [QuotableAll] at hq
    rw [positions, basketPrices, basketPrices, prices_units hc fuel h u dates hq.1]
    cases u.prices fuel ctx dates with
    | error e => rfl
    | ok l =>
      simp only [map_ok, ok_to, accumulate_units]
      exact basket_units hc fuel h rest dates _ hq.2
end

theorem price_units (hc : 0 < c) (fuel : Nat) {ctx ctx' : PricingContext} (h : Requoted c ctx ctx') (i : Instrument) (d : DateTime) (hq : Quotable i) :
    (instrument c i).price fuel ctx' d = (i.price fuel ctx d).map (amount (unit c i)) := by
  unfold Instrument.price
  rw [prices_units hc fuel h i [d] hq]
  cases i.prices fuel ctx [d] with
  | error e => rfl
  | ok l => cases l <;> rfl

theorem priceLoop_units (hc : 0 < c) (fuel : Nat) {ctx ctx' : PricingContext} (h : Requoted c ctx ctx') (d : DateTime) (ps : List (ℝ × Instrument)) :
    ∀ total, QuotableAll ps → priceLoop fuel ctx' d (positions c ps) (amount c total) = (priceLoop fuel ctx d ps total).map (amount c) := by
  induction ps with
  | nil => intro total _; rw [positions]; rfl
  | cons p ps ih =>
    obtain ⟨w, i⟩ := p
    intro total hq
    rw [QuotableAll] at hq
    simp only [positions, priceLoop, price_units hc fuel h i d hq.1]
    cases i.price fuel ctx d with
    | error e => rfl
    | ok x =>
      simp only [map_ok, ok_to]
      have : num2 (· + ·) (amount c total) (num1 (held c i w * ·) (amount (unit c i) x)) = amount c (num2 (· + ·) total (num1 (w * ·) x)) := by
        cases total <;> cases x <;> simp [num1, num2]
        have := held_unit (c := c) i w
        rename_i t x
        linarith [this x]
      rw [this]
      exact ih _ hq.2

/-! ## Dependencies -/

/-- What is collected. -/
noncomputable def collector (c : ℝ) (x : Collector) : Collector :=
  { x with
    spots := onValues (instrument c) x.spots
    forwardCurves := onValues (fun p => (instrument c p.1, p.2)) x.forwardCurves
    volSurfaces := onValues (fun p => (instrument c p.1, p.2)) x.volSurfaces
    instruments := onValues (instrument c) x.instruments }

theorem setHwm_units (i : Instrument) (hwm : Int) (m : Map String (Instrument × Int)) :
    Collector.setHwm (instrument c i) hwm (onValues (fun p => (instrument c p.1, p.2)) m) = onValues (fun p => (instrument c p.1, p.2)) (Collector.setHwm i hwm m) := by
  unfold Collector.setHwm
  rw [get_onValues, instrument_id]
  cases m.get i.id with
  | none => exact insert_onValues _ m i.id (i, hwm)
  | some p =>
    simp only [Option.map_some]
    split
    · exact insert_onValues _ m i.id (p.1, hwm)
    · rfl

theorem addInstrument_units (x : Collector) (i : Instrument) : (collector c x).addInstrument (instrument c i) = collector c (x.addInstrument i) := by
  simp only [Collector.addInstrument, collector, instrument_id, insert_onValues]

theorem yieldCurve_units (x : Collector) (id : String) (hwm : Int) : (collector c x).yieldCurve id hwm = collector c (x.yieldCurve id hwm) := rfl

theorem fixing_units (x : Collector) (id : String) (d : DateTime) : (collector c x).fixing id d = collector c (x.fixing id d) := rfl

theorem noteSpot_units (x : Collector) (i : Instrument) (r : SpotRequirement) : (collector c x).noteSpot (instrument c i) r = collector c (x.noteSpot i r) := by
  unfold Collector.noteSpot
  split
  · rw [← addInstrument_units]
    congr 1
    simp only [collector, get_onValues, instrument_id]
    cases x.spots.get i.id with
    | none => simp only [Option.map_none, insert_onValues]
    | some j => rfl
  · rfl

theorem noteForward_units (x : Collector) (i : Instrument) (hwm : Int) : (collector c x).noteForward (instrument c i) hwm = collector c (x.noteForward i hwm) := by
  simp only [Collector.noteForward, collector, setHwm_units, instrument_creditId, instrument_id]

theorem volSurface_units (x : Collector) (i : Instrument) (hwm : Int) : (collector c x).volSurface (instrument c i) hwm = collector c (x.volSurface i hwm) := by
  unfold Collector.volSurface
  rw [← addInstrument_units]
  simp only [collector, setHwm_units]

theorem startVanilla_units (v : Vanilla) (u : Instrument) (x : Collector) : startVanilla v (instrument c u) (collector c x) = collector c (startVanilla v u x) := by
  simp only [startVanilla, instrument_id, fixing_units, yieldCurve_units, noteForward_units]

theorem finishVanilla_units (v : Vanilla) (u : Instrument) (r : Collector × SpotRequirement) :
    finishVanilla v (instrument c u) (collector c r.1, r.2) = (collector c (finishVanilla v u r).1, (finishVanilla v u r).2) := by
  simp only [finishVanilla, noteSpot_units, volSurface_units]

mutual
theorem dependencies_units : ∀ (i : Instrument) (x : Collector),
    (instrument c i).dependencies (collector c x) = (collector c (i.dependencies x).1, (i.dependencies x).2)
  | .currency _ _, x => by rw [instrument, Instrument.dependencies, Instrument.dependencies]; rfl
  | .creditEntity _ _, x => by rw [instrument, Instrument.dependencies, Instrument.dependencies]; rfl
  | .equity _ _ _, x => by rw [instrument, Instrument.dependencies, Instrument.dependencies]; rfl
  | .zeroCoupon _ _ _ _ _, x => by rw [instrument, Instrument.dependencies, Instrument.dependencies]; rfl
  | .basket _ _ _ parts, x => by
    rw [instrument, Instrument.dependencies, Instrument.dependencies, basketDependencies_units parts x]
  | .spotStarting v u _, x => by
    rw [instrument, Instrument.dependencies, Instrument.dependencies, startVanilla_units, dependencies_units u, finishVanilla_units]
  | .forwardStarting v u _ _ _, x => by
    rw [instrument, Instrument.dependencies, Instrument.dependencies, instrument_id, fixing_units, startVanilla_units, dependencies_units u, finishVanilla_units]

theorem basketDependencies_units : ∀ (ps : List (ℝ × Instrument)) (x : Collector),
    basketDependencies (positions c ps) (collector c x) = collector c (basketDependencies ps x)
  | [], x => by rw [positions, basketDependencies, basketDependencies]
  | (w, u) :: rest, x => by
    rw [positions, basketDependencies, basketDependencies]
    dsimp only
    rw [dependencies_units u x]
    dsimp only
    rw [dependencies_units u (u.dependencies x).1]
    dsimp only
    cases (u.dependencies x).2 with
    | notRequired => exact basketDependencies_units rest _
    | required =>
      dsimp only
      rw [noteSpot_units]
      exact basketDependencies_units rest _
    | requiredOnlyForValuation =>
      dsimp only
      rw [noteSpot_units]
      exact basketDependencies_units rest _
end

theorem spot_units (x : Collector) (i : Instrument) : (collector c x).spot (instrument c i) = collector c (x.spot i) := by
  unfold Collector.spot
  dsimp only
  rw [dependencies_units]
  exact noteSpot_units _ _ _

theorem collect_units (d : Int) (ps : List (ℝ × Instrument)) : collect d (positions c ps) = collector c (collect d ps) := by
  unfold collect
  have h : ∀ x : Collector, (positions c ps).foldl (fun x e => x.spot e.2) (collector c x) = collector c (ps.foldl (fun x e => x.spot e.2) x) := by
    induction ps with
    | nil => intro x; rw [positions]; rfl
    | cons p ps ih =>
      intro x
      obtain ⟨w, i⟩ := p
      rw [positions, List.foldl_cons, List.foldl_cons, spot_units]
      exact ih _
  exact h (.new d)

/-! ## Fixings -/

theorem fixingsLoop_units (l : List (DateTime × ℝ)) : ∀ m : Fixings.Fixings ℝ,
    fixingsLoop (onValues (c * ·) m) (l.map fun f => (f.1, c * f.2)) = (fixingsLoop m l).map (onValues (c * ·)) := by
  induction l with
  | nil => exact fun _ => rfl
  | cons f l ih =>
    intro m
    simp only [List.map_cons, fixingsLoop, get_onValues, Option.isSome_map]
    split
    · rfl
    · rw [insert_onValues (c * ·) m f.1 f.2]
      exact ih _

theorem fromLoop_units (l : List (String × List (DateTime × ℝ))) : ∀ t : FixingTable ℝ,
    fromLoop (table c t) (l.map fun f => (f.1, f.2.map fun f => (f.1, c * f.2))) = (fromLoop t l).map (table c) := by
  induction l with
  | nil => exact fun _ => rfl
  | cons f l ih =>
    intro t
    simp only [List.map_cons, fromLoop, newFixings]
    have h := fixingsLoop_units (c := c) f.2 Map.empty
    have e : onValues (c * ·) (Map.empty : Fixings.Fixings ℝ) = Map.empty := rfl
    rw [e] at h
    rw [h]
    cases fixingsLoop Map.empty f.2 with
    | error e => rfl
    | ok m =>
      simp only [map_ok, ok_to, FixingTable.insert]
      simp only [table, get_onValues, Option.isSome_map]
      cases (t.byId.get f.1).isSome with
      | true => rfl
      | false =>
        simp only [Bool.false_eq_true, if_false]
        rw [insert_onValues (onValues (c * ·)) t.byId f.1 m]
        exact ih { t with byId := t.byId.insert f.1 m }

theorem fromFixings_units (d : Int) (l : List (String × List (DateTime × ℝ))) :
    fromFixings d (l.map fun f => (f.1, f.2.map fun f => (f.1, c * f.2))) = (fromFixings d l).map (table c) := fromLoop_units l (FixingTable.new d)

theorem table_get (t : FixingTable ℝ) (id : String) (d : DateTime) : (table c t).get id d = (t.get id d).map (Option.map (c * ·)) := by
  have h : (table c t).getOptional id d = (t.getOptional id d).map (c * ·) := by
    simp only [FixingTable.getOptional, FixingTable.getFixings, table, get_onValues]
    cases t.byId.get id with
    | none => rfl
    | some f => exact get_onValues _ f d
  simp only [FixingTable.get, h]
  cases t.getOptional id d with
  | some x => rfl
  | none =>
    have e : (table c t).knownUntil = t.knownUntil := rfl
    rw [Option.map_none, e]
    dsimp only
    split <;> rfl

theorem positions_eq (ps : List (ℝ × Instrument)) : positions c ps = ps.map fun p => (held c p.2 p.1, instrument c p.2) := by
  induction ps with
  | nil => rw [positions]; rfl
  | cons p ps ih => obtain ⟨w, i⟩ := p; rw [positions, ih]; rfl

theorem payment_units (v : Vanilla) : instrument c (payment v) = payment v := by rw [payment, instrument]

theorem decompose_units (hc : 0 < c) (v : Vanilla) (u : Instrument) (k s : ℝ) (hu : isMoney u = false) :
    Instruments.decompose v (instrument c u) (c * k) (c * s) = positions c (Instruments.decompose v u k s) := by
  have e : sign v.putOrCall * (c * s - c * k) = c * (sign v.putOrCall * (s - k)) := by ring
  have hm : held c (payment v) = fun w => c * w := by funext w; simp [held, payment, isMoney]
  have hh : held c u = fun w => w := by funext w; simp [held, hu]
  unfold Instruments.decompose
  rw [e]
  cases v.cashOrPhysical with
  | cash =>
    dsimp only
    by_cases h : sign v.putOrCall * (s - k) > 0
    · rw [if_pos h, if_pos (mul_pos hc h), positions_eq]
      simp [hm, payment_units]
    · rw [if_neg h, if_neg (fun h' => h ((mul_pos_iff_of_pos_left hc).1 h')), positions_eq]
      rfl
  | physical =>
    dsimp only
    by_cases h : sign v.putOrCall * (s - k) > 0
    · rw [if_pos h, if_pos (mul_pos hc h), positions_eq]
      simp [hm, hh, payment_units, mul_assoc]
    · rw [if_neg h, if_neg (fun h' => h ((mul_pos_iff_of_pos_left hc).1 h')), positions_eq]
      rfl

theorem fixSpotStarting_units (hc : 0 < c) (t : FixingTable ℝ) (v : Vanilla) (u : Instrument) (k : ℝ) (hu : isMoney u = false) :
    fixSpotStarting (table c t) v (instrument c u) (c * k) = (fixSpotStarting t v u k).map (Option.map (positions c)) := by
  unfold fixSpotStarting
  rw [instrument_id, table_get]
  cases t.get u.id v.expiry with
  | error e => rfl
  | ok o =>
    cases o with
    | none => rfl
    | some s => simp only [map_ok, ok_to, Option.map_some, pure_is, decompose_units hc v u k s hu]

theorem fixForwardStarting_units (hc : 0 < c) (t : FixingTable ℝ) (v : Vanilla) (u : Instrument) (k : ℝ) (d : DateTime) (hu : isMoney u = false) :
    fixForwardStarting (table c t) v (instrument c u) k d = (fixForwardStarting t v u k d).map (Option.map (positions c)) := by
  unfold fixForwardStarting
  rw [instrument_id, table_get]
  cases t.get u.id d with
  | error e => rfl
  | ok o =>
    cases o with
    | none => rfl
    | some s =>
      simp only [map_ok, ok_to, Option.map_some, mul_assoc, fixSpotStarting_units hc t v u _ hu]
      cases fixSpotStarting t v u (s * k) with
      | error e => rfl
      | ok o =>
        cases o with
        | some l => rfl
        | none => simp [positions, held, isMoney, instrument]

noncomputable def fixState (c : ℝ) (s : FixState) : FixState := { s with basket := positions c s.basket }

theorem held_of_fixed (t : FixingTable ℝ) (i : Instrument) (l : List (ℝ × Instrument)) (h : i.fix t = .ok (some l)) : isMoney i = false := by
  cases i <;> first | rfl | (rw [Instrument.fix] at h; cases h)

theorem fixStep_units (all : List (ℝ × Instrument)) (w : ℝ) (i : Instrument) (o : Option (List (ℝ × Instrument))) (s : FixState)
    (hi : ∀ l, o = some l → isMoney i = false) :
    fixStep (positions c all) (held c i w) (instrument c i) (o.map (positions c)) (fixState c s) = fixState c (fixStep all w i o s) := by
  have e : (fixState c s).modified = s.modified := rfl
  have e' : (fixState c s).uncopied = s.uncopied := rfl
  cases o with
  | none =>
    simp only [Option.map_none, fixStep, e, e']
    split
    · simp only [fixState, positions_eq, List.map_append]
      rfl
    · rfl
  | some l =>
    have hw : held c i w = w := by rw [held, hi l rfl]; rfl
    have hl : (positions c l).map (fun p => (w * p.1, p.2)) = positions c (l.map fun p => (w * p.1, p.2)) := by
      simp only [positions_eq, List.map_map]
      congr 1
      funext p
      simp only [Function.comp_def, held]
      split
      · rw [mul_left_comm]
      · rfl
    simp only [Option.map_some, fixStep, e, e', hw, hl]
    cases s.modified with
    | true => simp [fixState, positions_eq]
    | false => simp [fixState, positions_eq, List.map_take]

theorem result_units (s : FixState) : (fixState c s).result = s.result.map (positions c) := by
  unfold FixState.result fixState
  dsimp only
  split <;> rfl

mutual
theorem fix_units (hc : 0 < c) (t : FixingTable ℝ) : ∀ i, Quotable i → (instrument c i).fix (table c t) = (i.fix t).map (Option.map (positions c))
  | .currency _ _, _ => by rw [instrument, Instrument.fix, Instrument.fix]; rfl
  | .creditEntity _ _, _ => by rw [instrument, Instrument.fix, Instrument.fix]; rfl
  | .equity _ _ _, _ => by rw [instrument, Instrument.fix, Instrument.fix]; rfl
  | .zeroCoupon _ _ _ _ _, _ => by rw [instrument, Instrument.fix, Instrument.fix]; rfl
  | .basket _ _ _ parts, hq => by
    rw [Quotable] at hq
    rw [instrument, Instrument.fix, Instrument.fix]
    have h := fixLoop_units hc t parts parts ⟨[], 0, false⟩ hq
    have e : fixState c ⟨[], 0, false⟩ = ⟨[], 0, false⟩ := by simp [fixState, positions_eq]
    rw [e] at h
    rw [h]
    cases fixLoop t parts parts ⟨[], 0, false⟩ with
    | error e => rfl
    | ok s =>
      simp only [map_ok, ok_to, result_units]
      cases s.result with
      | none => rfl
      | some b => simp [positions, held, isMoney, instrument]
  | .spotStarting v u k, hq => by
    rw [Quotable] at hq
    rw [instrument, Instrument.fix, Instrument.fix]
    exact fixSpotStarting_units hc t v u k hq.1
  | .forwardStarting v u k d _, hq => by
    rw [Quotable] at hq
    rw [instrument, Instrument.fix, Instrument.fix]
    exact fixForwardStarting_units hc t v u k d hq.1

theorem fixLoop_units (hc : 0 < c) (t : FixingTable ℝ) (all : List (ℝ × Instrument)) : ∀ (ps : List (ℝ × Instrument)) (s : FixState), QuotableAll ps →
    fixLoop (table c t) (positions c all) (positions c ps) (fixState c s) = (fixLoop t all ps s).map (fixState c)
  | [], s, _ => by rw [positions, fixLoop, fixLoop]; rfl
  | (w, i) :: rest, s, hq => by
    rw [QuotableAll] at hq
    rw [positions, fixLoop, fixLoop, fix_units hc t i hq.1]
    cases h : i.fix t with
    | error e => rfl
    | ok o =>
      simp only [map_ok, ok_to]
      rw [fixStep_units all w i o s (fun l hl => held_of_fixed t i l (hl ▸ h))]
      exact fixLoop_units hc t all rest _ hq.2
end

theorem fixAll_units (hc : 0 < c) (t : FixingTable ℝ) (ps : List (ℝ × Instrument)) (hq : QuotableAll ps) :
    fixAll (table c t) (positions c ps) = (fixAll t ps).map (Option.map (positions c)) := by
  unfold fixAll
  have h := fixLoop_units hc t ps ps ⟨[], 0, false⟩ hq
  have e : fixState c ⟨[], 0, false⟩ = ⟨[], 0, false⟩ := by simp [fixState, positions_eq]
  rw [e] at h
  rw [h]
  cases fixLoop t ps ps ⟨[], 0, false⟩ with
  | error e => rfl
  | ok s => simp only [map_ok, ok_to, pure_is, result_units]

/-! ## Fixed instruments stay quotable -/

theorem quotableAll_iff (ps : List (ℝ × Instrument)) : QuotableAll ps ↔ ∀ p ∈ ps, Quotable p.2 := by
  induction ps with
  | nil => simp [QuotableAll]
  | cons p ps ih => obtain ⟨w, i⟩ := p; simp [QuotableAll, ih]

theorem payment_quotable (v : Vanilla) : Quotable (payment v) := by simp [payment, Quotable]

theorem decompose_quotable (v : Vanilla) (u : Instrument) (k s : ℝ) (hu : Quotable u) : QuotableAll (Instruments.decompose v u k s) := by
  rw [quotableAll_iff]
  intro p hp
  unfold Instruments.decompose at hp
  split at hp <;> (try dsimp only at hp) <;> split at hp
  · rw [List.mem_singleton] at hp
    rw [hp]
    exact payment_quotable v
  · cases hp
  · rcases List.mem_cons.1 hp with hp | hp
    · rw [hp]
      exact payment_quotable v
    · rw [List.mem_singleton] at hp
      rw [hp]
      exact hu
  · cases hp

theorem fixSpotStarting_quotable {t : FixingTable ℝ} {v : Vanilla} {u : Instrument} {k : ℝ} {l : List (ℝ × Instrument)} (hu : Quotable u)
    (h : fixSpotStarting t v u k = .ok (some l)) : QuotableAll l := by
  unfold fixSpotStarting at h
  obtain ⟨o, _, h⟩ := bind_ok h
  cases o with
  | none => cases h
  | some s => cases h; exact decompose_quotable v u k s hu

theorem fixForwardStarting_quotable {t : FixingTable ℝ} {v : Vanilla} {u : Instrument} {k : ℝ} {d : DateTime} {l : List (ℝ × Instrument)} (hm : isMoney u = false)
    (hu : Quotable u) (h : fixForwardStarting t v u k d = .ok (some l)) : QuotableAll l := by
  unfold fixForwardStarting at h
  obtain ⟨o, _, h⟩ := bind_ok h
  cases o with
  | none => cases h
  | some s =>
    obtain ⟨o, ho, h⟩ := bind_ok h
    cases o with
    | some l' => cases h; exact fixSpotStarting_quotable hu ho
    | none =>
      cases h
      rw [quotableAll_iff]
      intro p hp
      rw [List.mem_singleton] at hp
      rw [hp, Quotable]
      exact ⟨hm, hu⟩

theorem fixStep_quotable {all : List (ℝ × Instrument)} {w : ℝ} {i : Instrument} {o : Option (List (ℝ × Instrument))} {s : FixState} (ha : QuotableAll all)
    (hi : Quotable i) (ho : ∀ l, o = some l → QuotableAll l) (hs : QuotableAll s.basket) : QuotableAll (fixStep all w i o s).basket := by
  rw [quotableAll_iff] at ha hs ⊢
  intro p hp
  cases o with
  | none =>
    simp only [fixStep] at hp
    split at hp
    · rcases List.mem_append.1 hp with hp | hp
      · exact hs p hp
      · rw [List.mem_singleton] at hp
        rw [hp]
        exact hi
    · exact hs p hp
  | some l =>
    have hl := (quotableAll_iff l).1 (ho l rfl)
    have hm : ∀ p ∈ l.map (fun p => (w * p.1, p.2)), Quotable p.2 := by
      intro p hp
      obtain ⟨q, hq, rfl⟩ := List.mem_map.1 hp
      exact hl q hq
    simp only [fixStep] at hp
    rcases List.mem_append.1 hp with hp | hp
    · split at hp
      · rcases List.mem_append.1 hp with hp | hp
        · exact hs p hp
        · exact ha p (List.mem_of_mem_take hp)
      · exact hs p hp
    · exact hm p hp

mutual
theorem fix_quotable (t : FixingTable ℝ) : ∀ i {l}, Quotable i → i.fix t = .ok (some l) → QuotableAll l
  | .currency _ _, _, _, h => by rw [Instrument.fix] at h; cases h
  | .creditEntity _ _, _, _, h => by rw [Instrument.fix] at h; cases h
  | .equity _ _ _, _, _, h => by rw [Instrument.fix] at h; cases h
  | .zeroCoupon _ _ _ _ _, _, _, h => by rw [Instrument.fix] at h; cases h
  | .basket _ _ _ parts, l, hq, h => by
    rw [Quotable] at hq
    rw [Instrument.fix] at h
    obtain ⟨s, hs, h⟩ := bind_ok h
    have := fixLoop_quotable t parts hq parts hq (by rw [QuotableAll]; trivial) hs
    cases hr : s.result with
    | none => rw [hr] at h; cases h
    | some b =>
      rw [hr] at h
      cases h
      unfold FixState.result at hr
      split at hr
      · cases hr
        rw [QuotableAll, Quotable, QuotableAll]
        exact ⟨this, trivial⟩
      · cases hr
  | .spotStarting v u k, l, hq, h => by
    rw [Quotable] at hq
    rw [Instrument.fix] at h
    exact fixSpotStarting_quotable hq.2 h
  | .forwardStarting v u k d _, l, hq, h => by
    rw [Quotable] at hq
    rw [Instrument.fix] at h
    exact fixForwardStarting_quotable hq.1 hq.2 h

theorem fixLoop_quotable (t : FixingTable ℝ) (all : List (ℝ × Instrument)) (ha : QuotableAll all) : ∀ (ps : List (ℝ × Instrument)) {s s' : FixState},
    QuotableAll ps → QuotableAll s.basket → fixLoop t all ps s = .ok s' → QuotableAll s'.basket
  | [], s, s', _, hs, h => by rw [fixLoop] at h; cases h; exact hs
  | (w, i) :: rest, s, s', hq, hs, h => by
    rw [QuotableAll] at hq
    rw [fixLoop] at h
    obtain ⟨o, ho, h⟩ := bind_ok h
    exact fixLoop_quotable t all ha rest hq.2 (fixStep_quotable ha hq.1 (fun l hl => fix_quotable t i hq.1 (hl ▸ ho)) hs) h
end

theorem fixAll_quotable {t : FixingTable ℝ} {ps l : List (ℝ × Instrument)} (hq : QuotableAll ps) (h : fixAll t ps = .ok (some l)) : QuotableAll l := by
  unfold fixAll at h
  obtain ⟨s, hs, h⟩ := bind_ok h
  have := fixLoop_quotable t ps hq ps hq (by rw [QuotableAll]; trivial) hs
  have hr : s.result = some l := Except.ok.inj h
  unfold FixState.result at hr
  split at hr
  · cases hr
    exact this
  · cases hr

end QM.Units
