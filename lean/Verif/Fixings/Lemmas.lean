import Verif.Fixings.Model

/-!
# Helper lemmas for fixings
-/

namespace QM.Fixings
variable {V : Type}

theorem fixingsLoop_iff (m : Fixings V) (fs : List (DateTime × V)) :
    (∃ c, fixingsLoop m fs = .ok c) ↔ (fs.map Prod.fst).Nodup ∧ ∀ f ∈ fs, m.get f.1 = none := by
  induction fs generalizing m with
  | nil => simp [fixingsLoop]
  | cons f fs ih =>
    unfold fixingsLoop
    cases hf : m.get f.1 with
    | some v => simp [hf]
    | none =>
      simp only [Option.isSome_none, Bool.false_eq_true, if_false]
      rw [ih]
      simp only [List.map_cons, List.nodup_cons, List.mem_cons, forall_eq_or_imp, hf, true_and]
      constructor
      · rintro ⟨h1, h2⟩
        refine ⟨⟨?_, h1⟩, ?_⟩
        · intro hm
          rw [List.mem_map] at hm
          obtain ⟨g, hg, e⟩ := hm
          have := h2 g hg
          rw [e, Map.get_insert_self] at this
          cases this
        · intro g hg
          have := h2 g hg
          rw [Map.get_insert] at this
          split at this
          · cases this
          · exact this
      · rintro ⟨⟨h1, h2⟩, h3⟩
        refine ⟨h2, ?_⟩
        intro g hg
        rw [Map.get_insert, if_neg]
        · exact h3 g hg
        · intro e
          exact h1 (List.mem_map.2 ⟨g, hg, e⟩)

theorem fixingsLoop_error (m : Fixings V) (fs : List (DateTime × V)) {e : Fault} (h : fixingsLoop m fs = .error e) : e = .err := by
  induction fs generalizing m with
  | nil => cases h
  | cons f fs ih =>
    unfold fixingsLoop at h
    split at h
    · cases h; rfl
    · exact ih _ h

theorem fixingsLoop_get {m c : Fixings V} {fs : List (DateTime × V)} (h : fixingsLoop m fs = .ok c) (dt : DateTime) (v : V) :
    c.get dt = some v ↔ m.get dt = some v ∨ (dt, v) ∈ fs := by
  induction fs generalizing m with
  | nil => cases h; simp
  | cons f fs ih =>
    have hex := (fixingsLoop_iff m (f :: fs)).1 ⟨c, h⟩
    unfold fixingsLoop at h
    split at h
    · cases h
    · rename_i hn
      rw [ih h, Map.get_insert, List.mem_cons]
      have hm : m.get f.1 = none := by simpa using hn
      by_cases hd : dt = f.1
      · rw [if_pos hd]
        subst hd
        rw [hm]
        constructor
        · rintro (h1 | h1)
          · right; left; cases h1; rfl
          · right; right; exact h1
        · rintro (h1 | h1 | h1)
          · cases h1
          · left; rw [← h1]
          · right; exact h1
      · rw [if_neg hd]
        constructor
        · rintro (h1 | h1)
          · exact Or.inl h1
          · exact Or.inr (Or.inr h1)
        · rintro (h1 | h1 | h1)
          · exact Or.inl h1
          · exact absurd (by rw [← h1]) hd
          · exact Or.inr h1

theorem newFixings_get {c : Fixings V} {fs : List (DateTime × V)} (h : newFixings fs = .ok c) (dt : DateTime) (v : V) :
    c.get dt = some v ↔ (dt, v) ∈ fs := by
  have := fixingsLoop_get h dt v
  simpa using this

theorem fromLoop_iff (t : FixingTable V) (l : List (String × List (DateTime × V))) :
    (∃ c, fromLoop t l = .ok c) ↔ (l.map Prod.fst).Nodup ∧ (∀ f ∈ l, t.byId.get f.1 = none) ∧ ∀ f ∈ l, (f.2.map Prod.fst).Nodup := by
  induction l generalizing t with
  | nil => simp [fromLoop]
  | cons f l ih =>
    have hnew : (∃ c, newFixings f.2 = .ok c) ↔ (f.2.map Prod.fst).Nodup := by
      rw [newFixings, fixingsLoop_iff]; simp
    unfold fromLoop
    cases hc : newFixings f.2 with
    | error e =>
      have : ¬ (f.2.map Prod.fst).Nodup := by
        rw [← hnew, hc]; rintro ⟨c, h⟩; cases h
      constructor
      · rintro ⟨c, h⟩; cases h
      · rintro ⟨_, _, h⟩
        exact absurd (h f (by simp)) this
    | ok c =>
      have hnd : (f.2.map Prod.fst).Nodup := hnew.1 ⟨c, hc⟩
      simp only [Bind.bind, Except.bind, FixingTable.insert]
      cases hg : t.byId.get f.1 with
      | some v =>
        simp only [Option.isSome_some, if_true]
        constructor
        · rintro ⟨c, h⟩; cases h
        · rintro ⟨_, h, _⟩
          have := h f (by simp)
          rw [hg] at this; cases this
      | none =>
        simp only [Option.isSome_none, Bool.false_eq_true, if_false]
        rw [ih]
        simp only [List.map_cons, List.nodup_cons, List.mem_cons, forall_eq_or_imp, hg, true_and, hnd]
        constructor
        · rintro ⟨h1, h2, h3⟩
          refine ⟨⟨?_, h1⟩, ?_, h3⟩
          · intro hm
            rw [List.mem_map] at hm
            obtain ⟨g, hg', e⟩ := hm
            have := h2 g hg'
            rw [e, Map.get_insert_self] at this
            cases this
          · intro g hg'
            have := h2 g hg'
            rw [Map.get_insert] at this
            split at this
            · cases this
            · exact this
        · rintro ⟨⟨h1, h2⟩, h3, h4⟩
          refine ⟨h2, ?_, h4⟩
          intro g hg'
          rw [Map.get_insert, if_neg]
          · exact h3 g hg'
          · intro e
            exact h1 (List.mem_map.2 ⟨g, hg', e⟩)

theorem fromLoop_error (t : FixingTable V) (l : List (String × List (DateTime × V))) {e : Fault} (h : fromLoop t l = .error e) :
    e = .err := by
  induction l generalizing t with
  | nil => cases h
  | cons f l ih =>
    unfold fromLoop at h
    cases hc : newFixings f.2 with
    | error e' =>
      rw [hc] at h
      cases h
      exact fixingsLoop_error _ _ hc
    | ok c =>
      rw [hc] at h
      simp only [Bind.bind, Except.bind, FixingTable.insert] at h
      split at h
      · rename_i heq
        split at heq <;> cases heq
        cases h; rfl
      · rename_i heq
        exact ih _ h

theorem fromLoop_known {t c : FixingTable V} {l : List (String × List (DateTime × V))} (h : fromLoop t l = .ok c) :
    c.knownUntil = t.knownUntil := by
  induction l generalizing t with
  | nil => cases h; rfl
  | cons f l ih =>
    unfold fromLoop at h
    cases hc : newFixings f.2 with
    | error e' => rw [hc] at h; cases h
    | ok c' =>
      rw [hc] at h
      simp only [Bind.bind, Except.bind, FixingTable.insert] at h
      split at h
      · cases h
      · rename_i heq
        split at heq <;> cases heq
        have := ih h
        exact this

theorem fromLoop_get {t c : FixingTable V} {l : List (String × List (DateTime × V))} (h : fromLoop t l = .ok c) (id : String) (dt : DateTime) (v : V) :
    c.getOptional id dt = some v ↔ t.getOptional id dt = some v ∨ ∃ fs, (id, fs) ∈ l ∧ (dt, v) ∈ fs := by
  induction l generalizing t with
  | nil => cases h; simp
  | cons f l ih =>
    have hex := (fromLoop_iff t (f :: l)).1 ⟨c, h⟩
    unfold fromLoop at h
    cases hc : newFixings f.2 with
    | error e' => rw [hc] at h; cases h
    | ok c' =>
      rw [hc] at h
      simp only [Bind.bind, Except.bind, FixingTable.insert] at h
      split at h
      · cases h
      · rename_i heq
        split at heq <;> cases heq
        rw [ih h]
        have hnone : t.byId.get f.1 = none := hex.2.1 f (by simp)
        simp only [FixingTable.getOptional, FixingTable.getFixings, Map.get_insert]
        by_cases hid : id = f.1
        · subst hid
          simp only [if_true, hnone, getOptional, newFixings_get hc]
          constructor
          · rintro (h1 | ⟨fs, h1, h2⟩)
            · exact Or.inr ⟨f.2, by simp, h1⟩
            · exact Or.inr ⟨fs, by simp [h1], h2⟩
          · rintro (h1 | ⟨fs, h1, h2⟩)
            · cases h1
            · rw [List.mem_cons] at h1
              rcases h1 with h1 | h1
              · left; rw [← h1]; exact h2
              · exact Or.inr ⟨fs, h1, h2⟩
        · simp only [if_neg hid]
          constructor
          · rintro (h1 | ⟨fs, h1, h2⟩)
            · exact Or.inl h1
            · exact Or.inr ⟨fs, by simp [h1], h2⟩
          · rintro (h1 | ⟨fs, h1, h2⟩)
            · exact Or.inl h1
            · rw [List.mem_cons] at h1
              rcases h1 with h1 | h1
              · exact absurd (by rw [← h1]) hid
              · exact Or.inr ⟨fs, h1, h2⟩

end QM.Fixings
