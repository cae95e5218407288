import Verif.Serial.DedupModel

/-!
# What deduplicated serialisation should do

Written without reference to the serialiser: which parts a graph has, what a text spells out and what it
only names.
-/

namespace QM.Serial.Spec
open QM.Serial

variable {α : Type}

/-- `p` is the graph itself or somewhere inside it. -/
inductive Inside : Node α → Node α → Prop
  | here (n : Node α) : Inside n n
  | part {id : String} {data : α} {parts : List (Node α)} {q p : Node α} :
      q ∈ parts → Inside p q → Inside p (.mk id data parts)

/-- Identifiers identify: parts of the graph, and parts supplied beforehand, with the same identifier are
equal, and the supplied map files every part under its own identifier. -/
structure Identified (known : Known α) (n : Node α) : Prop where
  graph : ∀ p q, Inside p n → Inside q n → p.id = q.id → p = q
  known : ∀ p q, Inside p n → known.get p.id = some q → q = p

mutual
/-- The identifiers spelled out in full in a text, in order, with repetitions. -/
def written : Text α → List String
  | .ref _ => []
  | .full id _ parts => id :: writtenAll parts
def writtenAll : List (Text α) → List String
  | [] => []
  | t :: ts => written t ++ writtenAll ts
end

mutual
/-- The identifiers that a text only names. -/
def named : Text α → List String
  | .ref id => [id]
  | .full _ _ parts => namedAll parts
def namedAll : List (Text α) → List String
  | [] => []
  | t :: ts => named t ++ namedAll ts
end

mutual
/-- A text can be read by someone who knows `K`: everything it names is known, or was spelled out before if what is read is remembered. -/
def Readable (remembers : Bool) (K : String → Prop) : Text α → Prop
  | .ref id => K id
  | .full _ _ parts => ReadableAll remembers K parts
def ReadableAll (remembers : Bool) (K : String → Prop) : List (Text α) → Prop
  | [] => True
  | t :: ts => Readable remembers K t ∧ ReadableAll remembers (fun id => K id ∨ (remembers = true ∧ id ∈ written t)) ts
end

/-- Every part is filed under its own identifier. -/
def Filed (known : Known α) : Prop := ∀ id n, known.get id = some n → n.id = id

end QM.Serial.Spec
