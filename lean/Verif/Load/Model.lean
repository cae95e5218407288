import Verif.Fixings.Model
import Verif.Interp.Model
import Verif.Rounded.Model
import Verif.Instruments.Model
import Verif.Dividends.Model

/-!
# Model of loading, type by type

How the fields found in a text become an object. The derived `Deserialize` of serde fills the fields and checks nothing but
their types; that, and `HashMap`'s (which inserts the entries in the order of the text), is trusted. How texts are read as
fields, tags and parts is modelled in `Verif.Serial`. Loading a `VolByProbability` calls its constructor
(`volsurface.rs:800-806`, `853-859`), so it needs no definition here.
-/

namespace QM.Load
open QM.Fixings (DateTime Fixings FixingTable)
open QM.Interp (Num Extrap CubicSpline secondDeriv)
open QM.Instruments (Instrument Vanilla)
open QM.Dividends (Dividend DividendStream)
open QM.Curves (RateCurve)
open QM.Vol (Point)

section
variable {V : Type}

/-- `map_as_pairs::deserialize`, `fixings.rs:183-213`: every pair is inserted, whether the key is there or not. -/
def fixings (pairs : List (DateTime × V)) : Fixings V := pairs.foldl (fun m p => m.insert p.1 p.2) Map.empty

/-- The derived `Deserialize` of `FixingTable`, `fixings.rs:10-14`. -/
def fixingTable (knownUntil : Int) (curves : List (String × List (DateTime × V))) : FixingTable V :=
  ⟨knownUntil, curves.foldl (fun m c => m.insert c.1 (fixings c.2)) Map.empty⟩

/-- What the serialisers of `Fixings` (`map_as_pairs::serialize`, `fixings.rs:176-181`) and `FixingTable` (derived) may
write: the entries of the hash maps, in any order. -/
def FixingsWritten (f : Fixings V) (pairs : List (DateTime × V)) : Prop := pairs.Perm f.entries

/-- See `FixingsWritten`. -/
def TableWritten (t : FixingTable V) (knownUntil : Int) (curves : List (String × List (DateTime × V))) : Prop :=
  knownUntil = t.knownUntil ∧ ∃ entries, entries.Perm t.byId.entries ∧
    List.Forall₂ (fun e c => c.1 = e.1 ∧ FixingsWritten e.2 c.2) entries curves

end

variable {K : Type} [Field K] [LinearOrder K]

/-- The derived `Deserialize` of `Linear<Date>`, `interpolation.rs:223-230`. -/
def linear (points : List (Int × K)) (left right : Extrap) : Outcome (Rounded.Linear K) := .ok ⟨left, right, points⟩

/-- `Deserialize` for `CubicSpline`, `interpolation.rs:343-357`: the second derivatives are worked out again, by `nr_spline`,
which asserts that there are two points (line 371). The abscissae are not validated. -/
def spline (points : List (K × K)) (left right : Extrap) : Outcome (CubicSpline K) :=
  if points.length > 1 then
    .ok ⟨left, right, points, (List.range points.length).map
      (secondDeriv (fun i => points.getD i (0, 0)) left.isNatural right.isNatural points.length)⟩
  else .error .panic

/-- The derived `Deserialize` of `SpotStartingEuropean`, `options.rs:179-184`, and `VanillaOption`, `44-57`: the fields worked
out by the constructor are read like the others. -/
def spotStarting (v : Vanilla) (underlying : Instrument) (strike : ℝ) : Outcome Instrument :=
  .ok (.spotStarting v underlying strike)

/-- The derived `Deserialize` of `ForwardStartingEuropean`, `options.rs:202-214`. -/
def forwardStarting (v : Vanilla) (underlying : Instrument) (strikeFraction : ℝ) (strikeDate : DateTime) (strikeTime : Point) :
    Outcome Instrument := .ok (.forwardStarting v underlying strikeFraction strikeDate strikeTime)

/-- The derived `Deserialize` of `DividendStream`, `divstream.rs:79-84`: so is the last cash ex-date. -/
def dividendStream (dividends : List (Dividend ℝ)) (divYield : RateCurve) (lastCash : Int) : Outcome DividendStream :=
  .ok ⟨dividends, divYield, lastCash⟩

end QM.Load
