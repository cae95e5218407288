import Verif.Serial.TaggedModel

/-!
# What tagged serialisation should do
-/

namespace QM.Serial.Spec
open QM.Serial

variable {α : Type}

/-- A field accepts a value of a type. -/
def Accepts : Slot → Kind → Prop
  | .tagged tr, kind => kind.trait = tr
  | .plain k, kind => kind = k

/-- How many fields a value of a type has: those declared, and any number more if it has a collection. -/
def Complete (kind : Kind) (n : Nat) : Prop :=
  match kind.fields.2 with
  | none => n = kind.fields.1.length
  | some _ => kind.fields.1.length ≤ n

mutual
/-- The values that exist in Rust: every field holds a value it accepts, with a content of its type. -/
def Fits (valid : Kind → α → Bool) : Slot → Obj α → Prop
  | slot, .mk kind content inner => Accepts slot kind ∧ valid kind content = true ∧ FitsAll valid kind 0 inner
def FitsAll (valid : Kind → α → Bool) (kind : Kind) : Nat → List (Obj α) → Prop
  | i, [] => Complete kind i
  | i, o :: os => (∃ slot, kind.slot i = some slot ∧ Fits valid slot o) ∧ FitsAll valid kind (i + 1) os
end

/-- `o` sits in a field `s` of the value, at any depth, or is the value itself. -/
inductive Held (s : Slot) (o : Obj α) : Slot → Obj α → Prop
  | here : Held s o s o
  | inner {slot : Slot} {kind : Kind} {content : α} {os : List (Obj α)} {i : Nat} {q : Obj α} {s' : Slot} :
      os[i]? = some q → kind.slot i = some s' → Held s o s' q → Held s o slot (.mk kind content os)

/-- A value of this type in this field comes back as a value of this type: if it is behind a trait, its tag
is registered for the trait, and for the type itself. -/
def Faithful (registry : Trait → Registry) : Slot → Kind → Prop
  | .tagged tr, kind => ∃ tag, kind.typeId = .ok tag ∧ (registry tr).get tag = some kind
  | .plain _, _ => True

/-- What is registered for a trait implements it. -/
def Implements (registry : Trait → Registry) : Prop := ∀ tr tag k, (registry tr).get tag = some k → k.trait = tr

mutual
/-- The tags in a text. -/
def tags : Json α → List String
  | .tagged tag body => tag :: tags body
  | .record _ fields => tagsAll fields
def tagsAll : List (Json α) → List String
  | [] => []
  | j :: js => tags j ++ tagsAll js
end

end QM.Serial.Spec
