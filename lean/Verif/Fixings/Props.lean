import Verif.Fixings.Lemmas

/-!
# Properties C22 and C23: fixings
-/

namespace QM.Fixings
variable {V : Type}

/-- C22. A table can be built exactly when no instrument is supplied twice and no instrument has the same
date-time twice; otherwise the attempt is refused with an error. -/
theorem C22_built_iff (knownUntil : Int) (supplied : List (String × List (DateTime × V))) :
    ((∃ t, fromFixings knownUntil supplied = .ok t) ↔
      (supplied.map Prod.fst).Nodup ∧ ∀ f ∈ supplied, (f.2.map Prod.fst).Nodup) ∧
    ((∃ t, fromFixings knownUntil supplied = .ok t) ∨ fromFixings knownUntil supplied = .error .err) := by
  constructor
  · rw [fromFixings, fromLoop_iff]
    simp [FixingTable.new]
  · cases h : fromFixings knownUntil supplied with
    | ok t => exact Or.inl ⟨t, rfl⟩
    | error e => rw [fromLoop_error _ _ h]; exact Or.inr rfl

/-- C22. A fixing that was supplied is returned unchanged. -/
theorem C22_supplied {knownUntil : Int} {supplied : List (String × List (DateTime × V))} {t : FixingTable V}
    (h : fromFixings knownUntil supplied = .ok t) {id : String} {fs : List (DateTime × V)} {dt : DateTime} {v : V}
    (h1 : (id, fs) ∈ supplied) (h2 : (dt, v) ∈ fs) : t.get id dt = .ok (some v) := by
  unfold FixingTable.get
  rw [(fromLoop_get h id dt v).2 (Or.inr ⟨fs, h1, h2⟩)]

/-- C22. A fixing that was not supplied is an error before the known-until date and absent from then on. -/
theorem C22_not_supplied {knownUntil : Int} {supplied : List (String × List (DateTime × V))} {t : FixingTable V}
    (h : fromFixings knownUntil supplied = .ok t) {id : String} {dt : DateTime}
    (hno : ∀ fs v, (id, fs) ∈ supplied → (dt, v) ∉ fs) :
    (dt.date < knownUntil → t.get id dt = .error .err) ∧ (knownUntil ≤ dt.date → t.get id dt = .ok none) := by
  have hnone : t.getOptional id dt = none := by
    cases hg : t.getOptional id dt with
    | none => rfl
    | some v =>
      rcases (fromLoop_get h id dt v).1 hg with h1 | ⟨fs, h1, h2⟩
      · simp [FixingTable.getOptional, FixingTable.getFixings, FixingTable.new] at h1
      · exact absurd h2 (hno fs v h1)
  have hk : t.knownUntil = knownUntil := fromLoop_known h
  unfold FixingTable.get
  rw [hnone, hk]
  constructor
  · intro hd; simp only; rw [if_pos hd]
  · intro hd; simp only; rw [if_neg (by omega)]

/-- C22: a concrete table. -/
example : (fromFixings 10 [("A", [(⟨9, .close⟩, 1), (⟨9, .open⟩, 2)]), ("B", [(⟨9, .close⟩, (3 : Nat))])]).isOk = true := by
  decide

/-- C23. A refused insert leaves the answers for every other instrument unchanged. The full property also
covers the instrument itself; `C23_refused_insert_false` shows that its fixings are replaced. -/
theorem C23_other_ids_partial (t : FixingTable V) (id : String) (f : Fixings V) {id' : String} (h : id' ≠ id) (dt : DateTime) :
    (t.insert id f).2.get id' dt = t.get id' dt := by
  have : (t.insert id f).2 = { t with byId := t.byId.insert id f } := by
    unfold FixingTable.insert; simp only; split <;> rfl
  rw [this]
  simp [FixingTable.get, FixingTable.getOptional, FixingTable.getFixings, Map.get_insert_ne _ _ h]

/-- C23. An insert is refused exactly when the instrument is already there, and an accepted one answers from
the inserted curve. -/
theorem C23_insert (t : FixingTable V) (id : String) (f : Fixings V) :
    ((t.insert id f).1 = .error .err ↔ (t.getFixings id).isSome) ∧
    ((t.insert id f).1 = .ok () ↔ t.getFixings id = none) ∧
    (t.insert id f).2.getFixings id = some f := by
  unfold FixingTable.insert FixingTable.getFixings
  cases h : t.byId.get id <;> simp

/-- C23, violated: a refused insert replaces the fixings already in the table. -/
theorem C23_refused_insert_false :
    ∃ t : FixingTable Nat, ∃ f : Fixings Nat, ∃ dt : DateTime,
      fromFixings 10 [("A", [(dt, 1)])] = .ok t ∧ newFixings [(dt, 2)] = .ok f ∧ (t.insert "A" f).1 = .error .err ∧
      t.get "A" dt = .ok (some 1) ∧ (t.insert "A" f).2.get "A" dt = .ok (some 2) := by
  refine ⟨⟨10, ⟨[("A", ⟨[(⟨9, .close⟩, 1)]⟩)]⟩⟩, ⟨[(⟨9, .close⟩, 2)]⟩, ⟨9, .close⟩, ?_⟩
  decide

end QM.Fixings
