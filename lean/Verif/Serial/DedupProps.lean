import Verif.Serial.DedupLemmas
import Mathlib.Data.List.Nodup

/-!
# C49: deduplicated serialisation

The claim as first written holds for graphs whose identifiers identify their parts. `C49_clash_false` and
`C49_stale_false` show what happens otherwise: the text is written without complaint and reads back as
something else.
-/

namespace QM.Serial
open Spec

variable {α : Type}

/-- Write-once mode: a graph whose identifiers identify its parts, written in a session with any parts
supplied beforehand, reads back as itself in a session with the same supplied parts. No part is spelled out
twice, no supplied part is spelled out, and the text speaks of nothing but parts of the graph. -/
theorem C49_writeOnce_partial (known : Known α) (n : Node α) (h : Identified known n) :
    ∃ t known' known'', serialize .writeOnce n known = (.ok t, known') ∧
      deserialize .writeOnce t known = (.ok n, known'') ∧
      (written t).Nodup ∧
      (∀ id ∈ written t, known.get id = none ∧ ∃ p, Inside p n ∧ p.id = id) ∧
      (∀ id ∈ named t, ∃ p, Inside p n ∧ p.id = id) ∧
      (∀ id, known''.get id = known'.get id) := by
  obtain ⟨t, W, R, h1, h2, st⟩ := writeOnce_step (fun p => Inside p n)
    (fun id data parts hp q hq => Inside.trans (.part hq (.here q)) hp)
    (fun p q hp hq he => h.graph p q hp hq he) n (fun _ => False) known known (.here n)
    ⟨fun _ _ => rfl, fun p q hp _ hq => h.known p q hp hq⟩ (fun _ _ hf => hf)
  exact ⟨t, W, R, h1, h2, st.nodup, st.fresh, st.refs, fun id => (st.inv.agree id (fun hf => hf)).symm⟩

/-- Write-once mode from an empty session: every part of the graph is spelled out exactly once. -/
theorem C49_exactly_once_partial (n : Node α) (h : ∀ p q, Inside p n → Inside q n → p.id = q.id → p = q) :
    ∃ t known', serialize .writeOnce n Map.empty = (.ok t, known') ∧
      (∀ p, Inside p n → (written t).count p.id = 1) ∧
      (∀ p, Inside p n → known'.get p.id = some p) := by
  obtain ⟨t, W, R, h1, _, st⟩ := writeOnce_step (fun p => Inside p n)
    (fun id data parts hp q hq => Inside.trans (.part hq (.here q)) hp)
    (fun p q hp hq he => h p q hp hq he) n (fun _ => False) Map.empty Map.empty (.here n)
    ⟨fun _ _ => rfl, fun p q _ _ hq => by cases hq⟩ (fun _ _ hf => hf)
  have hc := (st.closed (fun p q _ _ hs _ => by cases hs)).2
  refine ⟨t, W, h1, fun p hp => ?_, fun p hp => ?_⟩
  · have h2 := (st.mem p.id).mp (hc p hp)
    have h3 : p.id ∈ written t := h2.resolve_left (by simp)
    exact (List.nodup_iff_count_eq_one.mp st.nodup) _ h3
  · have h2 := hc p hp
    cases hg : W.get p.id with
    | none => rw [hg] at h2; cases h2
    | some q => rw [st.inv.known p q hp (fun hf => hf) hg]

/-- Inline mode: any graph can be written, in any session; the text names nothing that it does not spell
out, and reads back as the graph in a session of any mode with any parts known. -/
theorem C49_inline (n : Node α) (known : Known α) :
    ∃ t, serialize .inline n known = (.ok t, known) ∧ named t = [] ∧
      ∀ control known', (deserialize control t known').1 = .ok n := by
  obtain ⟨t, _, h1, h2, _⟩ := inline_all .inline n known known
  refine ⟨t, h1, h2, fun control known' => ?_⟩
  obtain ⟨t', R', h3, _, h4⟩ := inline_all control n known known'
  rw [h1] at h3
  cases h3
  rw [h4]

/-- Error-if-missing mode: an owner can be written exactly when each of its parts was supplied, and then the
text holds nothing of the parts but their identifiers. -/
theorem C49_missing (id : String) (data : α) (parts : List (Node α)) (known : Known α) (t : Text α) :
    (serializeOwner .errorIfMissing (.mk id data parts) known).1 = .ok t ↔
      (∀ p ∈ parts, (known.get p.id).isSome) ∧ t = .full id data (parts.map (fun p => .ref p.id)) := by
  have h := missing_all parts known
  unfold serializeOwner
  dsimp only
  generalize serializeAll .errorIfMissing parts known = r at h ⊢
  obtain ⟨o, W⟩ := r
  cases o with
  | error e =>
    dsimp only
    constructor
    · intro h'; cases h'
    · rintro ⟨h1, _⟩; have := (h _).mpr ⟨h1, rfl⟩; cases this
  | ok ts =>
    obtain ⟨h1, h2⟩ := (h ts).mp rfl
    constructor
    · intro h'; cases h'; exact ⟨h1, by rw [h2]⟩
    · rintro ⟨_, rfl⟩; rw [h2]

/-- Error-if-missing mode: what was written reads back as itself where the supplied parts are the parts of
the graph. -/
theorem C49_missing_read_partial (id : String) (data : α) (parts : List (Node α)) (known : Known α)
    (h : ∀ p ∈ parts, known.get p.id = some p) :
    ∃ t, serializeOwner .errorIfMissing (.mk id data parts) known = (.ok t, known) ∧
      deserialize .errorIfMissing t known = (.ok (.mk id data parts), known) := by
  have h1 := (C49_missing id data parts known _).mpr ⟨fun p hp => by rw [h p hp]; rfl, rfl⟩
  refine ⟨_, Prod.ext h1 ?_, ?_⟩
  · have : ∀ (ns : List (Node α)), (serializeAll .errorIfMissing ns known).2 = known := by
      intro ns
      induction ns with
      | nil => unfold serializeAll; rfl
      | cons n ns ih =>
        obtain ⟨i, d, ps⟩ := n
        unfold serializeAll serialize
        dsimp only
        cases known.get i with
        | none => rfl
        | some v =>
          dsimp only
          generalize serializeAll .errorIfMissing ns known = r at ih ⊢
          obtain ⟨o, W⟩ := r
          cases o <;> exact ih
    have h2 := this parts
    unfold serializeOwner
    dsimp only
    generalize serializeAll .errorIfMissing parts known = r at h2 ⊢
    obtain ⟨o, W⟩ := r
    cases o <;> exact h2
  · unfold deserialize
    rw [missing_read parts known h]
    rfl

/-- In a session that was supplied nothing, a text that names a part is refused whatever the mode; this is
what happens to a write-once text whose definitions were cut off. -/
theorem C49_unknown (control : Control) (id : String) :
    (deserialize control (.ref id : Text α) Map.empty).1 = .error .err := by
  unfold deserialize; rfl

/-- The parts supplied as a list are filed under their identifiers; of two with the same identifier the
later is kept. -/
theorem C49_supplied (slice : List (Node α)) (id : String) :
    (mapFromSlice slice).get id = slice.reverse.find? (fun n => n.id = id) := mapFromSlice_get slice id

/-- The graph of the unit test: `a` and `b` are shared by `c` and `d`. -/
def sampleGraph : Node Nat :=
  .mk "e" 4 [.mk "c" 2 [.mk "a" 0 [], .mk "b" 1 []], .mk "d" 3 [.mk "a" 0 [], .mk "b" 1 []]]

/-- The sample meets the hypotheses, with one of its parts supplied beforehand. -/
theorem sampleGraph_identified : Identified (mapFromSlice [.mk "a" 0 []]) sampleGraph := by
  have hall : ∀ p, Inside p sampleGraph → p = sampleGraph ∨ p = .mk "c" 2 [.mk "a" 0 [], .mk "b" 1 []] ∨
      p = .mk "d" 3 [.mk "a" 0 [], .mk "b" 1 []] ∨ p = .mk "a" 0 [] ∨ p = .mk "b" 1 [] := by
    intro p hp
    simp only [sampleGraph, inside_mk, List.mem_cons, List.not_mem_nil, or_false, exists_eq_or_imp,
      exists_eq_left, false_and, exists_false] at hp ⊢
    tauto
  constructor
  · intro p q hp hq he
    rcases hall p hp with rfl | rfl | rfl | rfl | rfl <;> rcases hall q hq with rfl | rfl | rfl | rfl | rfl <;>
      first
      | rfl
      | (exfalso; revert he; simp [sampleGraph, Node.id])
  · intro p q hp hq
    rcases hall p hp with rfl | rfl | rfl | rfl | rfl <;>
      simp [mapFromSlice, sampleGraph, Node.id, Map.insert, Map.get, Map.empty] at hq
    exact hq.symm

example : ∃ t known' known'', serialize .writeOnce sampleGraph (mapFromSlice [.mk "a" 0 []]) = (.ok t, known') ∧
    deserialize .writeOnce t (mapFromSlice [.mk "a" 0 []]) = (.ok sampleGraph, known'') := by
  obtain ⟨t, a, b, h1, h2, _⟩ := C49_writeOnce_partial _ _ sampleGraph_identified
  exact ⟨t, a, b, h1, h2⟩

/-- The text of the unit test of write-once mode. -/
example : (serialize .writeOnce sampleGraph Map.empty).1 =
    .ok (.full "e" 4 [.full "c" 2 [.full "a" 0 [], .full "b" 1 []], .full "d" 3 [.ref "a", .ref "b"]]) := rfl

/-- **Violation.** Two different parts with the same identifier: the second is written as a reference to the
first, without complaint, and the graph reads back with the first in both places. -/
theorem C49_clash_false :
    (deserialize .writeOnce (.full "e" 4 [.full "a" 0 [], .ref "a"] : Text Nat) Map.empty).1 =
      .ok (.mk "e" 4 [.mk "a" 0 [], .mk "a" 0 []]) ∧
    (serialize .writeOnce (.mk "e" 4 [.mk "a" 0 [], .mk "a" 1 []] : Node Nat) Map.empty).1 =
      .ok (.full "e" 4 [.full "a" 0 [], .ref "a"]) ∧
    (.mk "e" 4 [.mk "a" 0 [], .mk "a" 1 []] : Node Nat) ≠ .mk "e" 4 [.mk "a" 0 [], .mk "a" 0 []] := by
  refine ⟨rfl, rfl, ?_⟩
  intro h
  simp at h

/-- **Violation.** Error-if-missing mode looks only at identifiers: an owner of a part that differs from the
supplied part of the same name is written without complaint and reads back with the supplied one. -/
theorem C49_stale_false :
    (serializeOwner .errorIfMissing (.mk "e" 4 [.mk "a" 1 []] : Node Nat) (mapFromSlice [.mk "a" 0 []])).1 =
      .ok (.full "e" 4 [.ref "a"]) ∧
    (deserialize .errorIfMissing (.full "e" 4 [.ref "a"] : Text Nat) (mapFromSlice [.mk "a" 0 []])).1 =
      .ok (.mk "e" 4 [.mk "a" 0 []]) ∧
    (.mk "e" 4 [.mk "a" 1 []] : Node Nat) ≠ .mk "e" 4 [.mk "a" 0 []] := by
  refine ⟨rfl, rfl, ?_⟩
  intro h
  simp at h

end QM.Serial
