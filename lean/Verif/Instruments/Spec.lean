import Verif.Instruments.Model

/-!
# Specification vocabulary for instruments
-/

namespace QM.Instruments.Spec
open QM.Interp QM.Vol QM.Instruments

/-- A sum of values times weights, which is NaN if one of the values is. -/
noncomputable def weightedSum : List (ℝ × Num ℝ) → Num ℝ
  | [] => .val 0
  | (_, .nan) :: _ => .nan
  | (w, .val v) :: rest => num1 (fun s => w * v + s) (weightedSum rest)

mutual
/-- The instruments that are not baskets inside an instrument held with weight `w`, with their total weights. -/
noncomputable def leaves (w : ℝ) : Instrument → List (ℝ × Instrument)
  | .basket _ _ _ parts => leavesAll w parts
  | .currency id s => [(w, .currency id s)]
  | .creditEntity id s => [(w, .creditEntity id s)]
  | .equity id c s => [(w, .equity id c s)]
  | .zeroCoupon id c e p s => [(w, .zeroCoupon id c e p s)]
  | .spotStarting v u k => [(w, .spotStarting v u k)]
  | .forwardStarting v u k d t => [(w, .forwardStarting v u k d t)]

/-- The same for a list of weighted instruments. -/
noncomputable def leavesAll (w : ℝ) : List (ℝ × Instrument) → List (ℝ × Instrument)
  | [] => []
  | (v, i) :: rest => leaves (w * v) i ++ leavesAll w rest
end

/-- The payoff of an option on an underlying that ends at `s`. -/
noncomputable def payoff : PutOrCall → ℝ → ℝ → ℝ
  | .call, s, k => max (s - k) 0
  | .put, s, k => max (k - s) 0

/-- What a portfolio becomes when each instrument in it is replaced by its decomposition, if it has one. -/
noncomputable def replaced : List (ℝ × Instrument) → List (Option (List (ℝ × Instrument))) → List (ℝ × Instrument)
  | (w, _) :: rest, some d :: ds => d.map (fun p => (w * p.1, p.2)) ++ replaced rest ds
  | (w, i) :: rest, none :: ds => (w, i) :: replaced rest ds
  | _, _ => []

/-- The value of a portfolio, given the values of instruments. -/
noncomputable def worth (value : Instrument → ℝ) (portfolio : List (ℝ × Instrument)) : ℝ :=
  (portfolio.map (fun p => p.1 * value p.2)).sum

/-- A moment is no later than another: an earlier day, or the same day and either the same time of day, the open of the
first or the close of the second. -/
def NotLater (a b : Fixings.DateTime) : Prop :=
  a.date < b.date ∨ a.date = b.date ∧ (a.timeOfDay = b.timeOfDay ∨ a.timeOfDay = .open ∨ b.timeOfDay = .close)

/-- The part of a day that has gone by at a time of day: nothing at the open and at the delivery settlement, four fifths
at the close. -/
noncomputable def gone (t : Fixings.DateTime) : ℝ := if t.timeOfDay = .close then 4 / 5 else 0

/-- The instruments that options can be written on. -/
def Optionable (i : Instrument) : Prop :=
  (∃ id c s, i = .equity id c s) ∨ ∃ id c s parts, i = .basket id c s parts

/-- The later of two points in time. -/
def LaterOf (a b c : Point) : Prop :=
  (c = a ∨ c = b) ∧ ∀ x, x = a ∨ x = b → x.1 < c.1 ∨ x.1 = c.1 ∧ x.2 ≤ c.2

/-- A context whose forwards do not depend on how far ahead they were asked for, and start at the spot. -/
structure Steady (ctx : PricingContext) : Prop where
  horizon : ∀ {i : Instrument} {a b : Int} {f g : Fwd} {x y : Num ℝ}, ctx.forwardCurve i a = .ok f → ctx.forwardCurve i b = .ok g →
    a ≤ b → f.forward a = .ok x → g.forward a = .ok y → x = y
  spot : ∀ {i : Instrument} {b : Int} {g : Fwd} {s : ℝ} {y : Num ℝ}, ctx.forwardCurve i b = .ok g → ctx.spotDate ≤ b →
    ctx.spot i.id = .ok s → g.forward ctx.spotDate = .ok y → y = .val s

end QM.Instruments.Spec
