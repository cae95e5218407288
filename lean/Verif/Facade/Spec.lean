import Verif.Facade.Model

/-!
# Specification for the C interface

What the documentation of the interface asks of its user: handles are used between the call that returns them and the call that frees them, and are
freed once; so are strings.
-/

namespace QM.Facade.Spec
open QM.Facade

variable {W : World}

/-- The handles that a call works on, freed by it or not. -/
def Uses : Call W → List Nat
  | .instrument _ _ currencies _ instruments => currencies ++ instruments
  | .calculate pricerFactory instrument fixingTable marketData generators => pricerFactory :: instrument :: fixingTable :: marketData :: generators
  | .compare reports expected _ => [reports, expected]
  | .reportsAsJson h => [h]
  | .isError h => [h]
  | .errorString h => [h]
  | .clone h => [h]
  | .freeHandle h => [h]
  | _ => []

/-- The handles that are freed by a call, according to its documentation. -/
def Frees : Call W → List Nat
  | .compare reports expected _ => [reports, expected]
  | .freeHandle h => [h]
  | _ => []

/-- The strings that are freed by a call. -/
def FreesStrings : Call W → List Nat
  | .freeString p => [p]
  | _ => []

/-- The handles that a user holds after a series of calls with their replies, latest first: those that have been returned to the user and not been
freed since. -/
def held : List (Call W × Reply) → List Nat
  | [] => []
  | (c, r) :: before =>
    (match r with | .handle a => [a] | _ => []) ++ (held before).filter fun a => a ∉ Frees c

/-- The strings that a user holds. -/
def heldStrings : List (Call W × Reply) → List Nat
  | [] => []
  | (c, r) :: before =>
    (match r with | .string p => [p] | _ => []) ++ (heldStrings before).filter fun p => p ∉ FreesStrings c

/-- A call that the documentation allows: it is made with handles and strings that the user holds, and does not free one twice. -/
structure Allowed (before : List (Call W × Reply)) (c : Call W) : Prop where
  held : ∀ a ∈ Uses c, a ∈ held before
  strings : ∀ p ∈ FreesStrings c, p ∈ heldStrings before
  once : (Frees c).Nodup

/-- Series of allowed calls, latest first, from the start of the program, with the memory afterwards. -/
inductive Session (A : Allocator) : List (Call W × Reply) → State W → Prop
  | start : Session A [] ⟨.empty, .empty⟩
  | call {before : List (Call W × Reply)} {s s' : State W} {c : Call W} {r : Reply} :
      Session A before s → Allowed before c → step A s c = some (s', r) → Session A ((c, r) :: before) s'

/-- The kinds of handles. -/
inductive Kind where
  | empty
  | instrument
  | currency
  | marketData
  | fixingTable
  | pricerFactory
  | reportGenerator
  | reports
  | error
deriving DecidableEq

/-- Their names. -/
def Kind.name : Kind → String
  | .empty => "Empty"
  | .instrument => "Instrument"
  | .currency => "Currency"
  | .marketData => "MarketData"
  | .fixingTable => "FixingTable"
  | .pricerFactory => "PricerFactory"
  | .reportGenerator => "ReportGenerator"
  | .reports => "Reports"
  | .error => "Error"

/-- The kind of a handle. -/
def kind : Handle W → Kind
  | .empty => .empty
  | .instrument _ => .instrument
  | .currency _ => .currency
  | .marketData _ => .marketData
  | .fixingTable _ => .fixingTable
  | .pricerFactory _ => .pricerFactory
  | .reportGenerator _ => .reportGenerator
  | .reports _ => .reports
  | .err _ => .error

/-- What a call should find wrong with an argument that ought to be of some kind: nothing if it is of that kind, the error in it if it is an error,
and otherwise its kind. -/
def complaint (required : Kind) (h : Handle W) : Option String :=
  match h with
  | .err e => some e
  | h => if kind h = required then none else some ("Wrong handle type: " ++ required.name ++ " required but " ++ (kind h).name ++ " supplied")

/-- The first complaint about arguments. -/
def complaints : List (Kind × Handle W) → Option String
  | [] => none
  | (required, h) :: rest => (complaint required h).or (complaints rest)

end QM.Facade.Spec
