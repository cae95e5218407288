import Verif.Map

/-!
# Model of `src/core/dedup.rs`

A shared part is a node with an identifier, its own data and its parts in the order its `Serialize`
implementation writes them. Reference counting is not modelled: two pointers to the same part are two equal
nodes. The written form keeps only what matters here: either a string with an identifier or a structure. The
code that serde derives for the fields of a structure is trusted to read back what it wrote.
-/

namespace QM.Serial

/-- A part of a graph, as held by a `Drc`, `dedup.rs:113-117`. -/
inductive Node (α : Type) where
  | mk (id : String) (data : α) (parts : List (Node α))

/-- `InstanceId::id`, `dedup.rs:96-98`. -/
def Node.id {α : Type} : Node α → String
  | .mk id _ _ => id

/-- What is written for a part: a string, or a structure. -/
inductive Text (α : Type) where
  | ref (id : String)
  | full (id : String) (data : α) (parts : List (Text α))

/-- `DedupControl`, `dedup.rs:85-93`. -/
inductive Control where
  | errorIfMissing | inline | writeOnce
deriving DecidableEq, Repr

variable {α : Type}

/-- The parts known to a session, `Dedup::map`, `dedup.rs:26`. -/
abbrev Known (α : Type) := Map String (Node α)

mutual
/-- `serialize_with_dedup`, `dedup.rs:132-167`, with the map of the session before and after. -/
def serialize (control : Control) : Node α → Known α → Outcome (Text α) × Known α
  | .mk id data parts, known =>
    match control with
    | .inline =>
      match serializeAll control parts known with
      | (.ok texts, known) => (.ok (.full id data texts), known)
      | (.error e, known) => (.error e, known)
    | .errorIfMissing =>
      match known.get id with
      | none => (.error .err, known)
      | some _ => (.ok (.ref id), known)
    | .writeOnce =>
      match known.get id with
      | none =>
        match serializeAll control parts (known.insert id (.mk id data parts)) with
        | (.ok texts, known) => (.ok (.full id data texts), known)
        | (.error e, known) => (.error e, known)
      | some _ => (.ok (.ref id), known.insert id (.mk id data parts))
/-- The fields of a structure that hold parts, one after the other. -/
def serializeAll (control : Control) : List (Node α) → Known α → Outcome (List (Text α)) × Known α
  | [], known => (.ok [], known)
  | node :: nodes, known =>
    match serialize control node known with
    | (.error e, known) => (.error e, known)
    | (.ok text, known) =>
      match serializeAll control nodes known with
      | (.error e, known) => (.error e, known)
      | (.ok texts, known) => (.ok (text :: texts), known)
end

/-- Writing a structure that is not itself shared, such as `e` in `dedup.rs:464-473`. -/
def serializeOwner (control : Control) : Node α → Known α → Outcome (Text α) × Known α
  | .mk id data parts, known =>
    match serializeAll control parts known with
    | (.ok texts, known) => (.ok (.full id data texts), known)
    | (.error e, known) => (.error e, known)

/-- What `deserialize_with_dedup` does with a part that was read, `dedup.rs:176-196`. -/
def remember (control : Control) (node : Node α) (known : Known α) : Known α :=
  match control with
  | .inline => known
  | .errorIfMissing => known
  | .writeOnce => known.insert node.id node

mutual
/-- `deserialize_with_dedup`, `dedup.rs:169-198`, around `string_or_struct`, `dedup.rs:242-295`. -/
def deserialize (control : Control) : Text α → Known α → Outcome (Node α) × Known α
  | .ref id, known =>
    match known.get id with
    | none => (.error .err, known)
    | some node => (.ok node, remember control node known)
  | .full id data texts, known =>
    match deserializeAll control texts known with
    | (.error e, known) => (.error e, known)
    | (.ok parts, known) => (.ok (.mk id data parts), remember control (.mk id data parts) known)
/-- The fields of a structure that hold parts, one after the other. -/
def deserializeAll (control : Control) : List (Text α) → Known α → Outcome (List (Node α)) × Known α
  | [], known => (.ok [], known)
  | text :: texts, known =>
    match deserialize control text known with
    | (.error e, known) => (.error e, known)
    | (.ok node, known) =>
      match deserializeAll control texts known with
      | (.error e, known) => (.error e, known)
      | (.ok nodes, known) => (.ok (node :: nodes), known)
end

/-- `dedup_map_from_slice`, `dedup.rs:301-313`. -/
def mapFromSlice (slice : List (Node α)) : Known α :=
  slice.foldl (fun known node => known.insert node.id node) Map.empty

end QM.Serial
