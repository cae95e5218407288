import Verif.Serial.DedupSpec
import Mathlib.Data.List.Induction

/-!
# Lemmas about deduplicated serialisation
-/

namespace QM.Serial
open Spec

variable {α : Type}

theorem Inside.size {p n : Node α} (h : Inside p n) : sizeOf p ≤ sizeOf n := by
  induction h with
  | here n => exact Nat.le_refl _
  | @part id data parts q p hq _ ih =>
    have := List.sizeOf_lt_of_mem hq
    simp only [Node.mk.sizeOf_spec]
    omega

theorem Inside.trans {p q n : Node α} (h : Inside p q) (h' : Inside q n) : Inside p n := by
  induction h' with
  | here n => exact h
  | part hq _ ih => exact .part hq (ih h)

theorem inside_mk {id : String} {data : α} {parts : List (Node α)} {p : Node α} :
    Inside p (.mk id data parts) ↔ p = .mk id data parts ∨ ∃ q ∈ parts, Inside p q := by
  constructor
  · intro h
    cases h with
    | here => exact Or.inl rfl
    | part hq hp => exact Or.inr ⟨_, hq, hp⟩
  · rintro (rfl | ⟨q, hq, hp⟩)
    · exact .here _
    · exact .part hq hp

/-- The state of a writer and of the reader that follows it: `A` are the parts begun and not finished. -/
structure Inv (P : Node α → Prop) (A : String → Prop) (W R : Known α) : Prop where
  agree : ∀ i, ¬ A i → W.get i = R.get i
  known : ∀ p q, P p → ¬ A p.id → W.get p.id = some q → q = p

/-- Everything inside a finished part is known. -/
def Closed (P : Node α → Prop) (A : String → Prop) (W : Known α) : Prop :=
  ∀ p q, P p → ¬ A p.id → (W.get p.id).isSome → Inside q p → (W.get q.id).isSome

/-- What writing and reading some nodes does. -/
structure Step (P : Node α → Prop) (A : String → Prop) (S : Node α → Prop) (W W' R' : Known α)
    (ids : List String) (refs : List String) : Prop where
  inv : Inv P A W' R'
  open_ : ∀ i, A i → W'.get i = W.get i
  mem : ∀ i, (W'.get i).isSome ↔ (W.get i).isSome ∨ i ∈ ids
  nodup : ids.Nodup
  fresh : ∀ i ∈ ids, W.get i = none ∧ ∃ p, S p ∧ p.id = i
  refs : ∀ i ∈ refs, ∃ p, S p ∧ p.id = i
  closed : Closed P A W → Closed P A W' ∧ ∀ p, S p → (W'.get p.id).isSome

mutual
theorem writeOnce_step (P : Node α → Prop)
    (hclosed : ∀ id data parts, P (.mk id data parts) → ∀ q ∈ parts, P q)
    (hinj : ∀ p q, P p → P q → p.id = q.id → p = q) :
    ∀ (n : Node α) (A : String → Prop) (W R : Known α), P n → Inv P A W R → (∀ p, Inside p n → ¬ A p.id) →
    ∃ t W' R', serialize .writeOnce n W = (.ok t, W') ∧ deserialize .writeOnce t R = (.ok n, R') ∧
      Step P A (fun p => Inside p n) W W' R' (written t) (named t)
  | .mk id data parts, A, W, R, hn, hinv, hA => by
    have hPin : ∀ p q, P q → Inside p q → P p := by
      intro p q hq hp
      induction hp with
      | here => exact hq
      | part hm _ ih => exact ih (hclosed _ _ _ hq _ hm)
    cases hW : W.get id with
    | some q =>
      have hq : q = .mk id data parts := hinv.known (.mk id data parts) q hn (hA _ (.here _)) hW
      subst hq
      have hAid : ¬ A id := hA _ (.here _)
      have hR : R.get id = some (.mk id data parts) := by rw [← hinv.agree id hAid, hW]
      have hget : ∀ i, (W.insert id (.mk id data parts)).get i = W.get i := by
        intro i; rw [Map.get_insert]; split
        · rename_i h; rw [h, hW]
        · rfl
      have hgetR : ∀ i, (R.insert id (.mk id data parts)).get i = R.get i := by
        intro i; rw [Map.get_insert]; split
        · rename_i h; rw [h, hR]
        · rfl
      refine ⟨.ref id, W.insert id (.mk id data parts), R.insert id (.mk id data parts), ?_, ?_, ?_⟩
      · unfold serialize; dsimp only; rw [hW]
      · unfold deserialize; rw [hR]; rfl
      · refine ⟨⟨fun i hi => ?_, fun p q hp hpA hq => ?_⟩, fun i _ => hget i, fun i => ?_, ?_, ?_, ?_, ?_⟩
        · rw [hget, hgetR]; exact hinv.agree i hi
        · rw [hget] at hq; exact hinv.known p q hp hpA hq
        · rw [hget]; simp [written]
        · simp [written]
        · intro i hi; simp [written] at hi
        · intro i hi; simp [named] at hi; exact ⟨_, .here _, hi.symm⟩
        · intro hc
          refine ⟨?_, ?_⟩
          · intro p q hp hpA hs hin; rw [hget] at hs ⊢; exact hc p q hp hpA hs hin
          · intro p hp; rw [hget]
            refine hc _ p hn hAid ?_ hp
            show (W.get id).isSome
            rw [hW]; rfl
    | none =>
      have hAid : ¬ A id := hA _ (.here _)
      have hbelow : ∀ p, ∀ q ∈ parts, Inside p q → p.id ≠ id := by
        intro p q hq hp he
        have h1 : p = .mk id data parts :=
          hinj p _ (hPin p q (hclosed _ _ _ hn q hq) hp) hn he
        have h2 := Inside.size hp
        have h3 := List.sizeOf_lt_of_mem hq
        rw [h1] at h2
        simp only [Node.mk.sizeOf_spec] at h2
        omega
      have hget : ∀ i, i ≠ id → (W.insert id (.mk id data parts)).get i = W.get i :=
        fun i hi => Map.get_insert_ne _ _ hi
      obtain ⟨ts, W', R', hs, hd, st⟩ := writeOnce_steps P hclosed hinj parts (fun i => A i ∨ i = id)
        (W.insert id (.mk id data parts)) R (fun q hq => hclosed _ _ _ hn q hq)
        ⟨fun i hi => by
            rw [hget i (fun e => hi (Or.inr e))]; exact hinv.agree i (fun h => hi (Or.inl h)),
          fun p q hp hpA hq => by
            rw [hget _ (fun e => hpA (Or.inr e))] at hq
            exact hinv.known p q hp (fun h => hpA (Or.inl h)) hq⟩
        (fun q hq p hp h => h.elim (hA p (.part hq hp)) (hbelow p q hq hp))
      have hWid : W'.get id = some (.mk id data parts) := by
        rw [st.open_ id (Or.inr rfl)]; exact Map.get_insert_self _ _ _
      have hidts : id ∉ writtenAll ts := by
        intro h
        have := (st.fresh id h).1
        rw [Map.get_insert_self] at this
        cases this
      refine ⟨.full id data ts, W', R'.insert id (.mk id data parts), ?_, ?_, ?_⟩
      · unfold serialize; dsimp only; rw [hW]; dsimp only; rw [hs]
      · unfold deserialize; rw [hd]; rfl
      · refine ⟨⟨fun i hi => ?_, fun p q hp hpA hq => ?_⟩, fun i hi => ?_, fun i => ?_, ?_, ?_, ?_, ?_⟩
        · rw [Map.get_insert]; split
          · rename_i h; rw [h, hWid]
          · rename_i h; exact st.inv.agree i (fun h' => h'.elim hi h)
        · by_cases h : p.id = id
          · rw [h, hWid] at hq
            have h2 : p = .mk id data parts := hinj p _ hp hn h
            rw [h2]; exact (Option.some.inj hq).symm
          · exact st.inv.known p q hp (fun h' => h'.elim hpA h) hq
        · rw [st.open_ i (Or.inl hi), hget i (fun e => hAid (e ▸ hi))]
        · rw [st.mem i]
          simp only [written, List.mem_cons]
          by_cases h : i = id
          · subst h; simp
          · rw [hget i h]; simp [h]
        · simp only [written]
          exact List.nodup_cons.mpr ⟨hidts, st.nodup⟩
        · intro i hi
          simp only [written, List.mem_cons] at hi
          rcases hi with rfl | hi
          · exact ⟨hW, _, .here _, rfl⟩
          · obtain ⟨h1, p, ⟨q, hq, hp⟩, h2⟩ := st.fresh i hi
            have hne : i ≠ id := fun e => hidts (e ▸ hi)
            rw [hget i hne] at h1
            exact ⟨h1, p, .part hq hp, h2⟩
        · intro i hi
          simp only [named] at hi
          obtain ⟨p, ⟨q, hq, hp⟩, h2⟩ := st.refs i hi
          exact ⟨p, .part hq hp, h2⟩
        · intro hc
          have hc1 : Closed P (fun i => A i ∨ i = id) (W.insert id (.mk id data parts)) := by
            intro p q hp hpA hsome hin
            have hpne : p.id ≠ id := fun e => hpA (Or.inr e)
            rw [hget _ hpne] at hsome
            have := hc p q hp (fun h => hpA (Or.inl h)) hsome hin
            rw [Map.get_insert]; split
            · rfl
            · exact this
          obtain ⟨hc2, hall⟩ := st.closed hc1
          have hself : ∀ p, Inside p (.mk id data parts) → (W'.get p.id).isSome := by
            intro p hp
            rcases inside_mk.mp hp with rfl | ⟨q, hq, hp'⟩
            · show (W'.get id).isSome
              rw [hWid]; rfl
            · exact hall p ⟨q, hq, hp'⟩
          refine ⟨?_, hself⟩
          intro p q hp hpA hsome hin
          by_cases h : p.id = id
          · have h2 : p = .mk id data parts := hinj p _ hp hn h
            subst h2
            exact hself q hin
          · exact hc2 p q hp (fun h' => h'.elim hpA h) hsome hin
theorem writeOnce_steps (P : Node α → Prop)
    (hclosed : ∀ id data parts, P (.mk id data parts) → ∀ q ∈ parts, P q)
    (hinj : ∀ p q, P p → P q → p.id = q.id → p = q) :
    ∀ (ns : List (Node α)) (A : String → Prop) (W R : Known α), (∀ n ∈ ns, P n) → Inv P A W R →
    (∀ n ∈ ns, ∀ p, Inside p n → ¬ A p.id) →
    ∃ ts W' R', serializeAll .writeOnce ns W = (.ok ts, W') ∧ deserializeAll .writeOnce ts R = (.ok ns, R') ∧
      Step P A (fun p => ∃ q ∈ ns, Inside p q) W W' R' (writtenAll ts) (namedAll ts)
  | [], A, W, R, _, hinv, _ => by
    refine ⟨[], W, R, ?_, ?_, hinv, fun _ _ => rfl, ?_, ?_, ?_, ?_, ?_⟩
    · unfold serializeAll; rfl
    · unfold deserializeAll; rfl
    · intro i; simp [writtenAll]
    · simp [writtenAll]
    · intro i hi; simp [writtenAll] at hi
    · intro i hi; simp [namedAll] at hi
    · intro hc; refine ⟨hc, ?_⟩; rintro p ⟨q, hq, _⟩; simp at hq
  | n :: ns, A, W, R, hP, hinv, hA => by
    obtain ⟨t, W1, R1, hs, hd, st⟩ := writeOnce_step P hclosed hinj n A W R (hP n (by simp)) hinv (hA n (by simp))
    obtain ⟨ts, W2, R2, hs2, hd2, st2⟩ := writeOnce_steps P hclosed hinj ns A W1 R1
      (fun q hq => hP q (by simp [hq])) st.inv (fun q hq => hA q (by simp [hq]))
    refine ⟨t :: ts, W2, R2, ?_, ?_, st2.inv, ?_, ?_, ?_, ?_, ?_, ?_⟩
    · unfold serializeAll; rw [hs]; dsimp only; rw [hs2]
    · unfold deserializeAll; rw [hd]; dsimp only; rw [hd2]
    · intro i hi; rw [st2.open_ i hi, st.open_ i hi]
    · intro i; rw [st2.mem, st.mem]; simp [writtenAll, or_assoc]
    · simp only [writtenAll]
      rw [List.nodup_append]
      refine ⟨st.nodup, st2.nodup, ?_⟩
      intro a ha b hb hab
      subst hab
      have h1 := (st2.fresh a hb).1
      have h2 := (st.mem a).mpr (Or.inr ha)
      rw [h1] at h2
      cases h2
    · intro i hi
      simp only [writtenAll, List.mem_append] at hi
      rcases hi with hi | hi
      · obtain ⟨h1, p, hp, h2⟩ := st.fresh i hi
        exact ⟨h1, p, ⟨n, by simp, hp⟩, h2⟩
      · obtain ⟨h1, p, ⟨q, hq, hp⟩, h2⟩ := st2.fresh i hi
        refine ⟨?_, p, ⟨q, by simp [hq], hp⟩, h2⟩
        cases h : W.get i with
        | none => rfl
        | some v =>
          have := (st.mem i).mpr (Or.inl (by rw [h]; rfl))
          rw [h1] at this
          cases this
    · intro i hi
      simp only [namedAll, List.mem_append] at hi
      rcases hi with hi | hi
      · obtain ⟨p, hp, h2⟩ := st.refs i hi
        exact ⟨p, ⟨n, by simp, hp⟩, h2⟩
      · obtain ⟨p, ⟨q, hq, hp⟩, h2⟩ := st2.refs i hi
        exact ⟨p, ⟨q, by simp [hq], hp⟩, h2⟩
    · intro hc
      obtain ⟨hc1, h1⟩ := st.closed hc
      obtain ⟨hc2, h2⟩ := st2.closed hc1
      refine ⟨hc2, ?_⟩
      rintro p ⟨q, hq, hp⟩
      rcases List.mem_cons.mp hq with rfl | hq
      · exact (st2.mem p.id).mpr (Or.inl (h1 p hp))
      · exact h2 p ⟨q, hq, hp⟩
end

mutual
theorem inline_all (c : Control) : ∀ (n : Node α) (W R : Known α), ∃ t R', serialize .inline n W = (.ok t, W) ∧
    named t = [] ∧ deserialize c t R = (.ok n, R')
  | .mk id data parts, W, R => by
    obtain ⟨ts, R', h1, h2, h3⟩ := inline_alls c parts W R
    refine ⟨.full id data ts, remember c (.mk id data parts) R', ?_, ?_, ?_⟩
    · unfold serialize; dsimp only; rw [h1]
    · simp only [named]; exact h2
    · unfold deserialize; rw [h3]
theorem inline_alls (c : Control) : ∀ (ns : List (Node α)) (W R : Known α), ∃ ts R',
    serializeAll .inline ns W = (.ok ts, W) ∧ namedAll ts = [] ∧ deserializeAll c ts R = (.ok ns, R')
  | [], W, R => ⟨[], R, by unfold serializeAll; rfl, by simp [namedAll], by unfold deserializeAll; rfl⟩
  | n :: ns, W, R => by
    obtain ⟨t, R1, h1, h2, h3⟩ := inline_all c n W R
    obtain ⟨ts, R2, h4, h5, h6⟩ := inline_alls c ns W R1
    refine ⟨t :: ts, R2, ?_, ?_, ?_⟩
    · unfold serializeAll; rw [h1]; dsimp only; rw [h4]
    · simp only [namedAll, h2, h5, List.append_nil]
    · unfold deserializeAll; rw [h3]; dsimp only; rw [h6]
end

theorem missing_all : ∀ (ns : List (Node α)) (W : Known α) (ts : List (Text α)),
    (serializeAll .errorIfMissing ns W).1 = .ok ts ↔
      (∀ n ∈ ns, (W.get n.id).isSome) ∧ ts = ns.map (fun n => .ref n.id)
  | [], W, ts => by
    unfold serializeAll
    constructor
    · intro h; cases h; exact ⟨by simp, rfl⟩
    · rintro ⟨_, rfl⟩; rfl
  | .mk id data parts :: ns, W, ts => by
    unfold serializeAll serialize
    dsimp only
    cases h : W.get id with
    | none =>
      dsimp only
      constructor
      · intro h'; cases h'
      · rintro ⟨h', _⟩
        have := h' (.mk id data parts) (by simp)
        simp [Node.id, h] at this
    | some v =>
      dsimp only
      have ih := missing_all ns W
      generalize hr : serializeAll .errorIfMissing ns W = r at ih
      obtain ⟨o, W'⟩ := r
      cases o with
      | error e =>
        dsimp only
        constructor
        · intro h'; cases h'
        · rintro ⟨h', _⟩
          have := (ih (ns.map (fun n => .ref n.id))).mpr ⟨fun n hn => h' n (by simp [hn]), rfl⟩
          cases this
      | ok us =>
        dsimp only
        obtain ⟨h1, h2⟩ := (ih us).mp rfl
        constructor
        · intro h'
          cases h'
          refine ⟨?_, by rw [h2]; rfl⟩
          intro n hn
          rcases List.mem_cons.mp hn with rfl | hn
          · simp [Node.id, h]
          · exact h1 n hn
        · rintro ⟨_, rfl⟩
          rw [h2]; rfl

theorem missing_read : ∀ (ns : List (Node α)) (R : Known α), (∀ n ∈ ns, R.get n.id = some n) →
    deserializeAll .errorIfMissing (ns.map (fun n => (.ref n.id : Text α))) R = (.ok ns, R)
  | [], R, _ => by unfold deserializeAll; rfl
  | n :: ns, R, h => by
    have ih := missing_read ns R (fun q hq => h q (by simp [hq]))
    have h0 := h n (by simp)
    simp only [List.map_cons]
    unfold deserializeAll deserialize
    rw [h0]
    dsimp only [remember]
    rw [ih]

theorem mapFromSlice_get (slice : List (Node α)) (id : String) :
    (mapFromSlice slice).get id = slice.reverse.find? (fun n => n.id = id) := by
  unfold mapFromSlice
  induction slice using List.reverseRecOn with
  | nil => rfl
  | append_singleton l n ih =>
    rw [List.foldl_append, List.reverse_append]
    simp only [List.foldl_cons, List.foldl_nil, List.reverse_cons, List.reverse_nil, List.nil_append,
      List.singleton_append, List.find?_cons]
    rw [Map.get_insert]
    by_cases h : n.id = id
    · simp [h]
    · have h' : ¬ id = n.id := fun e => h e.symm
      simp [h, h', ih]

end QM.Serial
