import Verif.Serial.DedupModel

/-!
# Model of `Dedup::with`, `src/core/dedup.rs:40-59`

A thread has one variable per kind of shared part (`DEDUP_CURRENCY`, `assets.rs:148-151`;
`DEDUP_INSTRUMENT`, `instruments/mod.rs:242-245`). A computation reads and changes these variables and ends
with a value, an error or a panic. The two kinds of part are given one type here, since nothing below looks
inside a part.
-/

namespace QM.Serial

/-- A `Dedup`, `dedup.rs:19-27`. -/
structure Session (α : Type) where
  control : Control
  known : Known α

/-- The thread-local variables. -/
inductive Key where
  | currency | instrument
deriving DecidableEq, Repr

/-- The values of the thread-local variables of one thread. -/
abbrev Store (α : Type) := Key → Session α

/-- A computation on one thread. -/
abbrev Comp (α β : Type) := Store α → Outcome β × Store α

variable {α β : Type}

/-- `std::mem::swap` of a thread-local variable and `self`. -/
def swapIn (key : Key) (self : Session α) (store : Store α) : Session α × Store α :=
  (store key, fun k => if k = key then self else store k)

/-- `Dedup::with`, `dedup.rs:40-59`: the outcome, what `self` holds afterwards, and the thread. A panic in
the closure unwinds past the second swap. -/
def withSession (self : Session α) (key : Key) (f : Comp α β) (store : Store α) :
    (Outcome β × Session α) × Store α :=
  let (self, store) := swapIn key self store
  match f store with
  | (.error .panic, store) => ((.error .panic, self), store)
  | (result, store) =>
    let (self, store) := swapIn key self store
    ((result, self), store)

/-- The computation that runs another inside a session and drops the session, as in
`facade/mod.rs:46-50`. -/
def inSession (self : Session α) (key : Key) (f : Comp α β) : Comp α β := fun store =>
  let r := withSession self key f store
  (r.1.1, r.2)

/-- Sessions inside sessions, the first outermost. -/
def nest : List (Key × Session α) → Comp α β → Comp α β
  | [], f => f
  | (key, session) :: rest, f => inSession session key (nest rest f)

/-- Writing a part in the session that is active, as `Serialize for RcInstrument` does,
`instruments/mod.rs:253-261`. -/
def writePart (key : Key) (node : Node α) : Comp α (Text α) := fun store =>
  let session := store key
  let (result, known) := serialize session.control node session.known
  (result, fun k => if k = key then ⟨session.control, known⟩ else store k)

/-- Reading a part in the session that is active, `instruments/mod.rs:308-316`. -/
def readPart (key : Key) (text : Text α) : Comp α (Node α) := fun store =>
  let session := store key
  let (result, known) := deserialize session.control text session.known
  (result, fun k => if k = key then ⟨session.control, known⟩ else store k)

end QM.Serial
