import Verif.Map

/-!
# Model of `src/data/fixings.rs` and of the keys from `src/dates/datetime.rs`

Dates are day numbers. Fixing values are of any type. Serialisation of fixings is modelled in `Verif.Load`.
-/

namespace QM.Fixings

/-- `TimeOfDay`, `datetime.rs:14-21`. -/
inductive TimeOfDay where
  | open | edsp | close
deriving DecidableEq, Repr

/-- `DateTime`, `datetime.rs`: a date and a time of day, compared as a pair. -/
structure DateTime where
  date : Int
  timeOfDay : TimeOfDay
deriving DecidableEq, Repr

variable {V : Type}

/-- `Fixings`, `fixings.rs:150-153`. -/
abbrev Fixings (V : Type) := Map DateTime V

/-- `FixingTable`, `fixings.rs:11-14`. -/
structure FixingTable (V : Type) where
  knownUntil : Int
  byId : Map String (Fixings V)
deriving DecidableEq

/-- The loop of `Fixings::new`, `fixings.rs:220-225`. -/
def fixingsLoop (m : Fixings V) : List (DateTime × V) → Outcome (Fixings V)
  | [] => .ok m
  | f :: rest => if (m.get f.1).isSome then .error .err else fixingsLoop (m.insert f.1 f.2) rest

/-- `Fixings::new`, `fixings.rs:217-227`. -/
def newFixings (fixings : List (DateTime × V)) : Outcome (Fixings V) := fixingsLoop Map.empty fixings

/-- `Fixings::get_optional`, `fixings.rs:231-237`. -/
def getOptional (f : Fixings V) (dt : DateTime) : Option V := f.get dt

/-- `FixingTable::new`, `fixings.rs:50-53`. -/
def FixingTable.new (knownUntil : Int) : FixingTable V := ⟨knownUntil, Map.empty⟩

/-- `FixingTable::insert`, `fixings.rs:56-62`. The table is modified before the duplicate is reported. -/
def FixingTable.insert (t : FixingTable V) (id : String) (f : Fixings V) : Outcome Unit × FixingTable V :=
  let t' := { t with byId := t.byId.insert id f }
  if (t.byId.get id).isSome then (.error .err, t') else (.ok (), t')

/-- The loop of `from_fixings`, `fixings.rs:25-28` (and of `from_iter_known_until`, lines 41-44). -/
def fromLoop (t : FixingTable V) : List (String × List (DateTime × V)) → Outcome (FixingTable V)
  | [] => .ok t
  | f :: rest => do
    let curve ← newFixings f.2
    match t.insert f.1 curve with
    | (.error e, _) => .error e
    | (.ok _, t) => fromLoop t rest

/-- `FixingTable::from_fixings`, `fixings.rs:20-30`; `from_iter_known_until`, `fixings.rs:34-46`, does the
same. -/
def fromFixings (knownUntil : Int) (fixings : List (String × List (DateTime × V))) : Outcome (FixingTable V) :=
  fromLoop (FixingTable.new knownUntil) fixings

/-- `FixingTable::get_fixings`, `fixings.rs:89-91`. -/
def FixingTable.getFixings (t : FixingTable V) (id : String) : Option (Fixings V) := t.byId.get id

/-- `FixingTable::get_optional`, `fixings.rs:80-85`. -/
def FixingTable.getOptional (t : FixingTable V) (id : String) (dt : DateTime) : Option V :=
  match t.getFixings id with
  | some f => Fixings.getOptional f dt
  | none => none

/-- `FixingTable::get`, `fixings.rs:66-76`. -/
def FixingTable.get (t : FixingTable V) (id : String) (dt : DateTime) : Outcome (Option V) :=
  match t.getOptional id dt with
  | some f => .ok (some f)
  | none => if dt.date < t.knownUntil then .error .err else .ok none

end QM.Fixings
