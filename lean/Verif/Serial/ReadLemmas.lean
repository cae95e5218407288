import Verif.Serial.DedupLemmas
import Verif.Serial.SessionModel
import Verif.Serial.TaggedLemmas

/-!
# Lemmas about what can be read
-/

namespace QM.Serial
open Spec

variable {α β : Type}

/-! ## Deduplicated texts -/

mutual
theorem write_state {control : Control} (hc : control ≠ .writeOnce) : ∀ (n : Node α) (known : Known α), (serialize control n known).2 = known
  | .mk id data parts, known => by
    unfold serialize
    cases control with
    | writeOnce => exact absurd rfl hc
    | errorIfMissing => dsimp only; cases known.get id <;> rfl
    | inline =>
      dsimp only
      have ih := write_states hc parts known
      generalize serializeAll .inline parts known = r at ih ⊢
      obtain ⟨r, k⟩ := r
      cases r <;> exact ih
theorem write_states {control : Control} (hc : control ≠ .writeOnce) : ∀ (ns : List (Node α)) (known : Known α),
    (serializeAll control ns known).2 = known
  | [], known => by unfold serializeAll; rfl
  | n :: ns, known => by
    unfold serializeAll
    have ih := write_state hc n known
    generalize serialize control n known = r at ih ⊢
    obtain ⟨r, k⟩ := r
    dsimp only at ih
    subst ih
    cases r with
    | error e => rfl
    | ok t =>
      dsimp only
      have ih := write_states hc ns k
      generalize serializeAll control ns k = r at ih ⊢
      obtain ⟨r, k'⟩ := r
      cases r <;> exact ih
end

theorem remember_other {control : Control} (hc : control ≠ .writeOnce) (n : Node α) (known : Known α) : remember control n known = known := by
  cases control with
  | writeOnce => exact absurd rfl hc
  | errorIfMissing => rfl
  | inline => rfl

mutual
theorem read_state {control : Control} (hc : control ≠ .writeOnce) : ∀ (t : Text α) (known : Known α), (deserialize control t known).2 = known
  | .ref id, known => by
    unfold deserialize
    cases known.get id with
    | none => rfl
    | some n => exact remember_other hc n known
  | .full id data ts, known => by
    unfold deserialize
    have ih := read_states hc ts known
    generalize deserializeAll control ts known = r at ih ⊢
    obtain ⟨r, k⟩ := r
    cases r with
    | error e => exact ih
    | ok ns => dsimp only at ih ⊢; rw [remember_other hc, ih]
theorem read_states {control : Control} (hc : control ≠ .writeOnce) : ∀ (ts : List (Text α)) (known : Known α),
    (deserializeAll control ts known).2 = known
  | [], known => by unfold deserializeAll; rfl
  | t :: ts, known => by
    unfold deserializeAll
    have ih := read_state hc t known
    generalize deserialize control t known = r at ih ⊢
    obtain ⟨r, k⟩ := r
    dsimp only at ih
    subst ih
    cases r with
    | error e => rfl
    | ok n =>
      dsimp only
      have ih := read_states hc ts k
      generalize deserializeAll control ts k = r at ih ⊢
      obtain ⟨r, k'⟩ := r
      cases r <;> exact ih
end

/-- What reading does: success is being readable, and what is known grows by what is spelled out. -/
def Reads {γ : Type} (control : Control) (readable : Prop) (ids : List String) (known : Known α) (r : Outcome γ × Known α) : Prop :=
  (readable ∧ (∃ x, r.1 = .ok x) ∧ Filed r.2 ∧ ∀ id, (r.2.get id).isSome ↔ (known.get id).isSome ∨ (decide (control = .writeOnce) = true ∧ id ∈ ids)) ∨
  (¬ readable ∧ r.1 = .error .err)

theorem remember_reads {control : Control} {known : Known α} (n : Node α) (h : Filed known) :
    Filed (remember control n known) ∧ ∀ id, ((remember control n known).get id).isSome ↔
      (known.get id).isSome ∨ (decide (control = .writeOnce) = true ∧ id = n.id) := by
  cases control with
  | writeOnce =>
    refine ⟨?_, ?_⟩
    · intro id m hm
      unfold remember at hm
      dsimp only at hm
      rw [Map.get_insert] at hm
      split at hm
      · rename_i e
        cases hm
        exact e.symm
      · exact h id m hm
    · intro id
      unfold remember
      dsimp only
      rw [Map.get_insert]
      split
      · rename_i e; simp [e]
      · rename_i e; simp [e]
  | errorIfMissing => exact ⟨h, fun id => by simp [remember]⟩
  | inline => exact ⟨h, fun id => by simp [remember]⟩

mutual
theorem read_iff (control : Control) : ∀ (t : Text α) (known : Known α) (K : String → Prop), Filed known → (∀ id, K id ↔ (known.get id).isSome) →
    Reads control (Readable (decide (control = .writeOnce)) K t) (written t) known (deserialize control t known)
  | .ref id, known, K, hf, hK => by
    unfold deserialize Readable
    cases hg : known.get id with
    | none => exact .inr ⟨by rw [hK, hg]; simp, rfl⟩
    | some n =>
      refine .inl ⟨by rw [hK, hg]; rfl, ⟨n, rfl⟩, (remember_reads n hf).1, fun i => ?_⟩
      refine ((remember_reads n hf).2 i).trans ?_
      constructor
      · rintro (h | ⟨_, rfl⟩)
        · exact .inl h
        · rw [hf _ _ hg, hg]
          exact .inl rfl
      · rintro (h | ⟨_, h⟩)
        · exact .inl h
        · simp [written] at h
  | .full id data ts, known, K, hf, hK => by
    unfold deserialize Readable
    have ih := reads_iff control ts known K hf hK
    generalize deserializeAll control ts known = r at ih ⊢
    obtain ⟨r, k⟩ := r
    rcases ih with ⟨h1, ⟨x, h2⟩, h3, h4⟩ | ⟨h1, h2⟩
    · dsimp only at h2 h3 h4
      subst h2
      refine .inl ⟨h1, ⟨_, rfl⟩, (remember_reads _ h3).1, fun i => ?_⟩
      refine ((remember_reads _ h3).2 i).trans ?_
      rw [h4, written, List.mem_cons, Node.id]
      tauto
    · dsimp only at h2
      subst h2
      exact .inr ⟨h1, rfl⟩
theorem reads_iff (control : Control) : ∀ (ts : List (Text α)) (known : Known α) (K : String → Prop), Filed known →
    (∀ id, K id ↔ (known.get id).isSome) →
    Reads control (ReadableAll (decide (control = .writeOnce)) K ts) (writtenAll ts) known (deserializeAll control ts known)
  | [], known, K, hf, hK => by
    unfold deserializeAll ReadableAll
    exact .inl ⟨trivial, ⟨[], rfl⟩, hf, fun id => by simp [writtenAll]⟩
  | t :: ts, known, K, hf, hK => by
    unfold deserializeAll ReadableAll
    have ih := read_iff control t known K hf hK
    generalize deserialize control t known = r at ih ⊢
    obtain ⟨r, k⟩ := r
    rcases ih with ⟨h1, ⟨x, h2⟩, h3, h4⟩ | ⟨h1, h2⟩
    · dsimp only at h2 h3 h4
      subst h2
      dsimp only
      have ih := reads_iff control ts k (fun id => K id ∨ (decide (control = .writeOnce) = true ∧ id ∈ written t)) h3
        (fun id => by rw [h4, hK])
      generalize deserializeAll control ts k = r at ih ⊢
      obtain ⟨r, k'⟩ := r
      rcases ih with ⟨g1, ⟨x', g2⟩, g3, g4⟩ | ⟨g1, g2⟩
      · dsimp only at g2 g3 g4
        subst g2
        refine .inl ⟨⟨h1, g1⟩, ⟨_, rfl⟩, g3, fun id => ?_⟩
        dsimp only
        rw [g4, h4, writtenAll, List.mem_append]
        tauto
      · dsimp only at g2
        subst g2
        exact .inr ⟨fun h => g1 h.2, rfl⟩
    · dsimp only at h2
      subst h2
      exact .inr ⟨fun h => h1 h.1, rfl⟩
end

/-! ## Several computations in one session -/

/-- Doing one thing after the other, until one fails. -/
def inTurn : List (Comp α β) → Comp α (List β)
  | [], store => (.ok [], store)
  | f :: fs, store =>
    match f store with
    | (.error e, store) => (.error e, store)
    | (.ok x, store) =>
      match inTurn fs store with
      | (.error e, store) => (.error e, store)
      | (.ok xs, store) => (.ok (x :: xs), store)

theorem inTurn_write (key : Key) (c : Control) (store : Store α) (ns : List (Node α)) : ∀ (known : Known α),
    inTurn (ns.map (writePart key)) (fun k => if k = key then ⟨c, known⟩ else store k) =
      ((serializeAll c ns known).1, fun k => if k = key then ⟨c, (serializeAll c ns known).2⟩ else store k) := by
  induction ns with
  | nil => intro known; unfold serializeAll; rfl
  | cons n ns ih =>
    intro known
    rw [List.map_cons, inTurn]
    unfold writePart serializeAll
    simp only [if_true]
    generalize serialize c n known = r
    obtain ⟨r, k1⟩ := r
    have e : (fun k => if k = key then (⟨c, k1⟩ : Session α) else if k = key then ⟨c, known⟩ else store k) =
        fun k => if k = key then ⟨c, k1⟩ else store k := by
      funext k
      split <;> rfl
    cases r with
    | error e' => dsimp only; rw [e]
    | ok t =>
      dsimp only
      rw [e]
      have ih := ih k1
      rw [show ns.map (writePart key) = ns.map (fun n => writePart key n) from rfl] at ih
      unfold writePart at ih
      rw [ih]
      generalize serializeAll c ns k1 = r
      obtain ⟨r, k2⟩ := r
      cases r <;> rfl

theorem inTurn_read (key : Key) (c : Control) (store : Store α) (ts : List (Text α)) : ∀ (known : Known α),
    inTurn (ts.map (readPart key)) (fun k => if k = key then ⟨c, known⟩ else store k) =
      ((deserializeAll c ts known).1, fun k => if k = key then ⟨c, (deserializeAll c ts known).2⟩ else store k) := by
  induction ts with
  | nil => intro known; unfold deserializeAll; rfl
  | cons n ns ih =>
    intro known
    rw [List.map_cons, inTurn]
    unfold readPart deserializeAll
    simp only [if_true]
    generalize deserialize c n known = r
    obtain ⟨r, k1⟩ := r
    have e : (fun k => if k = key then (⟨c, k1⟩ : Session α) else if k = key then ⟨c, known⟩ else store k) =
        fun k => if k = key then ⟨c, k1⟩ else store k := by
      funext k
      split <;> rfl
    cases r with
    | error e' => dsimp only; rw [e]
    | ok t =>
      dsimp only
      rw [e]
      have ih := ih k1
      rw [show ns.map (readPart key) = ns.map (fun n => readPart key n) from rfl] at ih
      unfold readPart at ih
      rw [ih]
      generalize deserializeAll c ns k1 = r
      obtain ⟨r, k2⟩ := r
      cases r <;> rfl

/-! ## Tagged texts -/

mutual
theorem load_fits {registry : Trait → Registry} (hi : Implements registry) (valid : Kind → α → Bool) : ∀ (j : Json α) (slot : Slot) (v : Obj α),
    load registry valid slot j = .ok v → Fits valid slot v
  | .tagged tag (.record content fields), .tagged tr, v, h => by
    unfold load at h
    cases hg : (registry tr).get tag with
    | none => rw [hg] at h; cases h
    | some k =>
      rw [hg] at h
      dsimp only at h
      split at h
      · rename_i hv
        have ih := load_fitsAll hi valid k fields 0
        generalize loadAll registry valid k 0 fields = r at h ih
        cases r with
        | error e' => cases h
        | ok os =>
          cases h
          unfold Fits
          exact ⟨hi tr tag k hg, hv, ih os rfl⟩
      · cases h
  | .record content fields, .plain k, v, h => by
    unfold load at h
    split at h
    · rename_i hv
      have ih := load_fitsAll hi valid k fields 0
      generalize loadAll registry valid k 0 fields = r at h ih
      cases r with
      | error e' => cases h
      | ok os =>
        cases h
        unfold Fits
        exact ⟨rfl, hv, ih os rfl⟩
    · cases h
  | .tagged _ (.tagged _ _), .tagged _, v, h => by unfold load at h; cases h
  | .record _ _, .tagged _, v, h => by unfold load at h; cases h
  | .tagged _ (.record _ _), .plain _, v, h => by unfold load at h; cases h
  | .tagged _ (.tagged _ _), .plain _, v, h => by unfold load at h; cases h
theorem load_fitsAll {registry : Trait → Registry} (hi : Implements registry) (valid : Kind → α → Bool) (kind : Kind) :
    ∀ (js : List (Json α)) (i : Nat) (os : List (Obj α)), loadAll registry valid kind i js = .ok os → FitsAll valid kind i os
  | [], i, os, h => by
    unfold loadAll at h
    split at h
    · rename_i hc
      cases h
      unfold FitsAll
      exact (complete_iff _ _).1 hc
    · cases h
  | j :: js, i, os, h => by
    unfold loadAll at h
    cases hs : kind.slot i with
    | none => rw [hs] at h; cases h
    | some slot =>
      rw [hs] at h
      dsimp only at h
      have ih := load_fits hi valid j slot
      generalize load registry valid slot j = r at h ih
      cases r with
      | error e' => cases h
      | ok o =>
        dsimp only at h
        have ih2 := load_fitsAll hi valid kind js (i + 1)
        generalize loadAll registry valid kind (i + 1) js = r at h ih2
        cases r with
        | error e' => cases h
        | ok os =>
          cases h
          unfold FitsAll
          exact ⟨⟨slot, hs, ih o rfl⟩, ih2 os rfl⟩
end

mutual
theorem save_load {registry : Trait → Registry} (valid : Kind → α → Bool) : ∀ (j : Json α) (slot : Slot) (v : Obj α),
    load registry valid slot j = .ok v → (∀ tr o tag, Held (.tagged tr) o slot v → (registry tr).get tag = some o.kind → o.kind.typeId = .ok tag) →
    save slot v = .ok j
  | .tagged tag (.record content fields), .tagged tr, v, h, ht => by
    unfold load at h
    cases hg : (registry tr).get tag with
    | none => rw [hg] at h; cases h
    | some k =>
      rw [hg] at h
      dsimp only at h
      split at h
      · have ih := save_loadAll (registry := registry) valid k fields 0
        generalize loadAll registry valid k 0 fields = r at h ih
        cases r with
        | error e' => cases h
        | ok os =>
          cases h
          unfold save
          rw [show k.typeId = .ok tag from ht tr _ tag .here hg]
          dsimp only
          rw [ih os rfl (fun m q s' hq hs tr o tag' hh => ht tr o tag' (.inner hq (by rw [Nat.zero_add] at hs; exact hs) hh))]
      · cases h
  | .record content fields, .plain k, v, h, ht => by
    unfold load at h
    split at h
    · have ih := save_loadAll (registry := registry) valid k fields 0
      generalize loadAll registry valid k 0 fields = r at h ih
      cases r with
      | error e' => cases h
      | ok os =>
        cases h
        unfold save
        rw [ih os rfl (fun m q s' hq hs tr o tag' hh => ht tr o tag' (.inner hq (by rw [Nat.zero_add] at hs; exact hs) hh))]
    · cases h
  | .tagged _ (.tagged _ _), .tagged _, v, h, _ => by unfold load at h; cases h
  | .record _ _, .tagged _, v, h, _ => by unfold load at h; cases h
  | .tagged _ (.record _ _), .plain _, v, h, _ => by unfold load at h; cases h
  | .tagged _ (.tagged _ _), .plain _, v, h, _ => by unfold load at h; cases h
theorem save_loadAll {registry : Trait → Registry} (valid : Kind → α → Bool) (kind : Kind) :
    ∀ (js : List (Json α)) (i : Nat) (os : List (Obj α)), loadAll registry valid kind i js = .ok os →
    (∀ (m : Nat) q s', os[m]? = some q → kind.slot (i + m) = some s' → ∀ tr o tag, Held (.tagged tr) o s' q →
      (registry tr).get tag = some o.kind → o.kind.typeId = .ok tag) → saveAll kind i os = .ok js
  | [], i, os, h, _ => by
    unfold loadAll at h
    split at h
    · rename_i hc
      cases h
      unfold saveAll
      rw [if_pos hc]
    · cases h
  | j :: js, i, os, h, ht => by
    unfold loadAll at h
    cases hs : kind.slot i with
    | none => rw [hs] at h; cases h
    | some slot =>
      rw [hs] at h
      dsimp only at h
      have ih := save_load (registry := registry) valid j slot
      generalize load registry valid slot j = r at h ih
      cases r with
      | error e' => cases h
      | ok o =>
        dsimp only at h
        have ih2 := save_loadAll (registry := registry) valid kind js (i + 1)
        generalize loadAll registry valid kind (i + 1) js = r at h ih2
        cases r with
        | error e' => cases h
        | ok os =>
          cases h
          unfold saveAll
          rw [hs]
          dsimp only
          rw [ih o rfl (fun tr p tag hp => ht 0 o slot rfl hs tr p tag hp)]
          dsimp only
          rw [ih2 os rfl (fun m q s' hq hs' => ht (m + 1) q s' hq (by rw [← hs']; congr 1; omega))]
end

end QM.Serial
