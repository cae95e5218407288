import Verif.Load.Lemmas
import Verif.Fixings.Props
import Verif.Interp.Props
import Verif.Instruments.ValueProps
import Verif.Rounded.Props

/-!
# Property C82: what is loaded is what was saved, and was checked

An object that a constructor made comes back from its text as it was. The other half, that a text which no constructor would
accept is refused, fails for every type here.
-/

namespace QM.Load
open QM.Fixings (DateTime Fixings FixingTable fromFixings newFixings)
open QM.Interp (Num Extrap CubicSpline)
open QM.Interp.Spec (plain)
open QM.Instruments (Instrument Vanilla)
open QM.Dividends (Dividend DividendStream)
open QM.Curves (RateCurve)
open QM.Vol (Point)
open QM.Rounded (Rounding f64)

/-! ## Fixings -/

/-- C82, fixings. Whatever order the hash maps are written in, a table that was built, written and loaded gives the same answer,
the same absence or the same error, for every instrument and time. -/
theorem C82_fixings {V : Type} {knownUntil k : Int} {supplied curves : List (String × List (DateTime × V))} {t : FixingTable V}
    (h : fromFixings knownUntil supplied = .ok t) (hw : TableWritten t k curves) (id : String) (dt : DateTime) :
    (fixingTable k curves).get id dt = t.get id dt := by
  have hp : Proper t := fromLoop_proper (t := FixingTable.new knownUntil) ⟨List.nodup_nil, fun e he => by cases he⟩ h
  have hk : (fixingTable k curves).knownUntil = t.knownUntil := hw.1
  unfold FixingTable.get FixingTable.getOptional
  rcases loaded_table hp hw id with ⟨h1, h2⟩ | ⟨f, g, h1, h2, h3⟩
  · rw [h1, h2, hk]
  · rw [h1, h2, hk]
    unfold QM.Fixings.getOptional
    dsimp only
    rw [h3]

/-- C82, fixings. In a text that gives a time twice the later value counts. -/
theorem C82_last_wins {V : Type} (before after : List (DateTime × V)) (dt : DateTime) (v : V) (h : ∀ p ∈ after, p.1 ≠ dt) :
    (fixings (before ++ (dt, v) :: after)).get dt = some v := by
  unfold fixings
  rw [foldl_get Prod.fst Prod.snd]
  have e : (before ++ (dt, v) :: after).reverse = after.reverse ++ ((dt, v) :: before.reverse) := by simp
  have hn : after.reverse.find? (fun x => decide (x.1 = dt)) = none := by
    rw [List.find?_eq_none]
    intro x hx
    simpa using h x (by simpa using hx)
  rw [e, List.find?_append, hn]
  simp

/-- C82 fails for fixings: a table with two values for the same time, which cannot be built, is loaded from a text. -/
theorem C82_fixings_false : ∃ (curves : List (String × List (DateTime × Nat))) (t : FixingTable Nat) (dt : DateTime),
    fromFixings 10 curves = .error .err ∧ fixingTable 10 curves = t ∧ t.get "A" dt = .ok (some 2) := by
  refine ⟨[("A", [(⟨9, .close⟩, 1), (⟨9, .close⟩, 2)])], _, ⟨9, .close⟩, ?_, rfl, ?_⟩ <;> decide

/-- C82: two orders in which the same table may be written. -/
example : ∃ t : FixingTable Nat, fromFixings 10 [("A", [(⟨9, .close⟩, 1), (⟨9, .open⟩, 2)]), ("B", [(⟨8, .edsp⟩, 3)])] = .ok t
    ∧ TableWritten t 10 [("B", [(⟨8, .edsp⟩, 3)]), ("A", [(⟨9, .open⟩, 2), (⟨9, .close⟩, 1)])]
    ∧ TableWritten t 10 [("A", [(⟨9, .close⟩, 1), (⟨9, .open⟩, 2)]), ("B", [(⟨8, .edsp⟩, 3)])] := by
  refine ⟨⟨10, ⟨[("B", ⟨[(⟨8, .edsp⟩, 3)]⟩), ("A", ⟨[(⟨9, .open⟩, 2), (⟨9, .close⟩, 1)]⟩)]⟩⟩, by decide, ⟨rfl, _, .refl _, ?_⟩,
    ⟨rfl, _, List.Perm.swap _ _ _, ?_⟩⟩
  · exact .cons ⟨rfl, .refl _⟩ (.cons ⟨rfl, .refl _⟩ .nil)
  · exact .cons ⟨rfl, List.Perm.swap _ _ _⟩ (.cons ⟨rfl, .refl _⟩ .nil)

/-! ## Interpolators -/

section
variable {K : Type} [Field K] [LinearOrder K] [IsStrictOrderedRing K]

/-- C82, interpolators, in part: a text with the points of a curve that the constructor accepts loads as that curve. The full
property also refuses the other texts; `C82_linear_false` shows that they load. -/
theorem C82_linear_partial {r : Rounding K} {points : List (Int × K)} {left right : Extrap} {L : Rounded.Linear K}
    (h : Rounded.Linear.new r points left right = .ok L) : linear points left right = .ok L := by
  rw [(Rounded.new_iff ..).1 h |>.1]
  rfl

omit [IsStrictOrderedRing K] in
/-- C82, splines, in part: a text with the points of a spline that the constructor accepts loads as that spline, with the same second
derivatives. The full property also refuses the other texts; `C82_spline_false` shows that they load or panic. -/
theorem C82_spline_partial {ps : List (K × K)} {left right : Extrap} {s : CubicSpline K}
    (h : CubicSpline.new (plain ps) left right = .ok s) : spline ps left right = .ok s := by
  unfold CubicSpline.new at h
  cases hv : QM.Interp.validateAbscissae (plain ps) with
  | error e => rw [hv] at h; cases h
  | ok u =>
    rw [hv] at h
    simp only [Bind.bind, Except.bind] at h
    have hm : (plain ps).map (fun p => (p.1.get, p.2)) = ps := by
      unfold plain
      rw [List.map_map]
      exact (List.map_congr_left (fun p _ => rfl)).trans (List.map_id ps)
    have hl : (plain ps).length = ps.length := by unfold plain; simp
    rw [hm, hl] at h
    unfold spline
    by_cases hn : ps.length > 1
    · rw [if_pos hn] at h ⊢
      exact h
    · rw [if_neg hn] at h; cases h

end

/-- C82 fails for curves: a curve whose dates fall, which the constructor refuses, is loaded. It does not even answer its own
value on the date of its first point. -/
theorem C82_linear_false : ∃ L : Rounded.Linear ℚ,
    Rounded.Linear.new f64 [(10, 1), (5, 2), (0, 3)] .flat .flat = .error .err ∧
    linear [(10, 1), (5, 2), (0, 3)] .flat .flat = .ok L ∧ L.interpolate f64 10 = .ok (.val 3) := by
  refine ⟨_, ?_, rfl, ?_⟩
  · have hv : Rounded.validateAbscissae f64 [((10 : Int), (1 : ℚ)), (5, 2), (0, 3)] = .error .err := by
      change Rounded.validateFrom f64 10 [((5 : Int), (2 : ℚ)), (0, 3)] = .error .err
      unfold Rounded.validateFrom
      rw [if_neg]
      rw [Rounded.apart_iff]; norm_num
    unfold Rounded.Linear.new
    rw [hv]
    rfl
  · unfold Rounded.Linear.interpolate Rounded.linearInterpolateExtrapolate
    have hb : QM.Interp.binarySearch [((10 : Int), (1 : ℚ)), (5, 2), (0, 3)] 10 = (3, false) := by
      simp [QM.Interp.binarySearch, QM.Interp.chop]
    simp only [hb]
    simp [Extrap.isNatural, Extrap.extrapolate]

/-- C82 fails for splines: points that fall are loaded although the constructor refuses them, and a text with no points, which the
constructor refuses with an error, makes loading panic, as does a text with one point. -/
theorem C82_spline_false :
    (CubicSpline.new (plain [((1 : ℚ), (1 : ℚ)), (0, 2)]) .flat .flat = .error .err
      ∧ ∃ s, spline [((1 : ℚ), (1 : ℚ)), (0, 2)] .flat .flat = .ok s)
    ∧ (CubicSpline.new (plain ([] : List (ℚ × ℚ))) .flat .flat = .error .err
      ∧ spline ([] : List (ℚ × ℚ)) .flat .flat = .error .panic)
    ∧ ∀ p : ℚ × ℚ, spline [p] .flat .flat = .error .panic := by
  refine ⟨⟨?_, _, rfl⟩, ⟨rfl, rfl⟩, fun p => rfl⟩
  have : QM.Interp.validateAbscissae (plain [((1 : ℚ), (1 : ℚ)), (0, 2)]) = .error .err := by
    norm_num [QM.Interp.validateAbscissae, QM.Interp.validateFrom, plain, QM.Interp.apart]
  unfold CubicSpline.new
  rw [this]
  rfl

/-! ## Options -/

/-- The terms of an option that expires on day 10 and settles two days later, except that the date of payment and the expiry
time are as given. -/
noncomputable def terms (expiryTime : Point) (payDate : Int) : Vanilla :=
  ⟨"O", "C", (· + 2), ⟨10, .open⟩, .call, .cash, expiryTime, payDate⟩

/-- C82 fails for options: a text may give an option a negative strike, a payment that is not when its settlement rule says, or a
time of expiry on another date than its expiry. All load, and no constructor makes any of them. -/
theorem C82_option_false (u : Instrument) (f : ℝ) : ∀ o ∈ [Instrument.spotStarting (terms (10, f) 12) u (-1),
      .spotStarting (terms (10, f) 500) u 1, .spotStarting (terms (90, f) 12) u 1],
    (∃ v x, spotStarting v u x = .ok o) ∧
    ∀ id c u s expiry x kind how, Instrument.newSpotStarting id c u s expiry x kind how ≠ .ok o := by
  intro o ho
  simp only [List.mem_cons, List.not_mem_nil, or_false] at ho
  rcases ho with rfl | rfl | rfl
  · refine ⟨⟨_, _, rfl⟩, ?_⟩
    intro id c u s expiry x kind how h
    obtain ⟨h0, _, h1⟩ := QM.Instruments.C73_spot.1 h
    have : x = -1 := by injection h1 with _ _ h2; exact h2.symm
    rw [this] at h0
    norm_num at h0
  · refine ⟨⟨_, _, rfl⟩, ?_⟩
    intro id c u s expiry x kind how h
    obtain ⟨h0, _, h1⟩ := QM.Instruments.C73_spot.1 h
    injection h1 with h2
    unfold terms at h2
    injection h2 with _ _ hs he _ _ _ hp
    rw [← hs, ← he] at hp
    norm_num at hp
  · refine ⟨⟨_, _, rfl⟩, ?_⟩
    intro id c u s expiry x kind how h
    obtain ⟨h0, _, h1⟩ := QM.Instruments.C73_spot.1 h
    injection h1 with h2
    unfold terms at h2
    injection h2 with _ _ hs he _ _ ht hp
    rw [← he] at ht
    have := congrArg Prod.fst ht
    norm_num at this

/-- C82 fails for dividends: a text may say that the last cash dividend is long gone when one is still to come. -/
theorem C82_dividends_false (y : RateCurve) : ∃ s, dividendStream [⟨1, 0, 100, 102⟩] y 5 = .ok s ∧
    ∀ ds y', DividendStream.new ds y' ≠ s := by
  refine ⟨_, rfl, ?_⟩
  intro ds y' h
  unfold DividendStream.new at h
  injection h with h1 _ h2
  rw [h1] at h2
  simp [QM.Dividends.lastCashExDate] at h2

/-- C82: the constructors accept some of these. -/
example : (∃ L, Rounded.Linear.new f64 [(0, 3), (5, 2), (10, 1)] .flat .flat = .ok L)
    ∧ ∃ o, Instrument.newSpotStarting "O" "C" QM.Instruments.sampleEquity (· + 2) ⟨10, .open⟩ 1 .call .cash = .ok o :=
  ⟨⟨_, (Rounded.new_iff ..).2 ⟨rfl, by simp, by simp⟩⟩,
    ⟨_, QM.Instruments.C73_spot.2 ⟨by norm_num, .inl ⟨_, _, _, rfl⟩, rfl⟩⟩⟩

end QM.Load
