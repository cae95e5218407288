import Verif.Load.Model

/-!
# Lemmas for loading fixings
-/

namespace QM.Load
open QM.Fixings (DateTime Fixings FixingTable fromFixings newFixings fixingsLoop fromLoop)

theorem foldl_get {κ ν α : Type} [DecidableEq κ] (key : α → κ) (val : α → ν) (xs : List α) (m : Map κ ν) (k : κ) :
    (xs.foldl (fun m x => m.insert (key x) (val x)) m).get k =
      match (xs.reverse.find? (fun x => key x = k)) with
      | some x => some (val x)
      | none => m.get k := by
  induction xs generalizing m with
  | nil => rfl
  | cons x xs ih =>
    rw [List.foldl_cons, ih, List.reverse_cons, List.find?_append]
    cases h : xs.reverse.find? (fun x => decide (key x = k)) with
    | some y => rfl
    | none =>
      rw [Map.get_insert]
      by_cases hk : k = key x
      · subst hk; simp
      · rw [if_neg hk]
        have hk' : ¬ key x = k := fun h => hk h.symm
        simp [hk']

theorem insert_nodup {κ ν : Type} [DecidableEq κ] {m : Map κ ν} (h : (m.entries.map Prod.fst).Nodup) (k : κ) (v : ν) :
    ((m.insert k v).entries.map Prod.fst).Nodup := by
  unfold Map.insert
  rw [List.map_cons, List.nodup_cons]
  constructor
  · intro hm
    rw [List.mem_map] at hm
    obtain ⟨e, he, hk⟩ := hm
    rw [List.mem_filter] at he
    simp at he
    exact he.2 hk
  · exact h.sublist ((List.filter_sublist (l := m.entries)).map Prod.fst)

theorem foldl_nodup {κ ν α : Type} [DecidableEq κ] (key : α → κ) (val : α → ν) (xs : List α) (m : Map κ ν)
    (h : (m.entries.map Prod.fst).Nodup) :
    ((xs.foldl (fun m x => m.insert (key x) (val x)) m).entries.map Prod.fst).Nodup := by
  induction xs generalizing m with
  | nil => exact h
  | cons x xs ih => rw [List.foldl_cons]; exact ih _ (insert_nodup h _ _)

theorem get_iff {κ ν : Type} [DecidableEq κ] {m : Map κ ν} (h : (m.entries.map Prod.fst).Nodup) (k : κ) (v : ν) :
    m.get k = some v ↔ (k, v) ∈ m.entries := by
  unfold Map.get
  constructor
  · intro hg
    cases hf : m.entries.find? (fun e => decide (e.1 = k)) with
    | none => rw [hf] at hg; simp at hg
    | some e =>
      rw [hf] at hg
      have h1 : e.1 = k := by simpa using List.find?_some hf
      have h2 : e.2 = v := by simpa using hg
      rw [← h1, ← h2]
      exact List.mem_of_find?_eq_some hf
  · intro hm
    cases hf : m.entries.find? (fun e => decide (e.1 = k)) with
    | none =>
      rw [List.find?_eq_none] at hf
      simpa using hf _ hm
    | some e =>
      have h1 : e.1 = k := by simpa using List.find?_some hf
      have he := List.mem_of_find?_eq_some hf
      have : e = (k, v) := by
        have := List.inj_on_of_nodup_map h he hm h1
        exact this
      rw [this]; rfl

/-- What is found after inserting entries with different keys. -/
theorem foldl_mem {κ ν α : Type} [DecidableEq κ] (key : α → κ) (val : α → ν) {xs : List α} (h : (xs.map key).Nodup) (k : κ) (v : ν) :
    (xs.foldl (fun m x => m.insert (key x) (val x)) Map.empty).get k = some v ↔ ∃ x ∈ xs, key x = k ∧ val x = v := by
  rw [foldl_get]
  cases hf : xs.reverse.find? (fun x => decide (key x = k)) with
  | none =>
    rw [List.find?_eq_none] at hf
    simp only [Map.get_empty, reduceCtorEq, false_iff]
    rintro ⟨x, hx, hk, _⟩
    simpa using hf x (by simpa using hx) (by simpa using hk)
  | some y =>
    have hy : key y = k := by simpa using List.find?_some hf
    have hm : y ∈ xs := by simpa using List.mem_of_find?_eq_some hf
    simp only [Option.some.injEq]
    constructor
    · intro e; exact ⟨y, hm, hy, e⟩
    · rintro ⟨x, hx, hk, e⟩
      rw [List.inj_on_of_nodup_map h hm hx (hy.trans hk.symm)]
      exact e

section
variable {V : Type}

theorem fixingsLoop_nodup {m f : Fixings V} {fs : List (DateTime × V)} (hm : (m.entries.map Prod.fst).Nodup)
    (h : fixingsLoop m fs = .ok f) : (f.entries.map Prod.fst).Nodup := by
  induction fs generalizing m with
  | nil => cases h; exact hm
  | cons x fs ih =>
    unfold fixingsLoop at h
    split at h
    · cases h
    · exact ih (insert_nodup hm _ _) h

/-- The hash maps of a table have every key once. -/
def Proper (t : FixingTable V) : Prop :=
  (t.byId.entries.map Prod.fst).Nodup ∧ ∀ e ∈ t.byId.entries, (e.2.entries.map Prod.fst).Nodup

theorem fromLoop_proper {t t' : FixingTable V} {fs : List (String × List (DateTime × V))} (ht : Proper t)
    (h : fromLoop t fs = .ok t') : Proper t' := by
  induction fs generalizing t with
  | nil => cases h; exact ht
  | cons x fs ih =>
    unfold fromLoop at h
    cases hn : newFixings x.2 with
    | error e => rw [hn] at h; cases h
    | ok c =>
      rw [hn] at h
      have hc : (c.entries.map Prod.fst).Nodup := fixingsLoop_nodup (m := Map.empty) List.nodup_nil hn
      simp only [Bind.bind, Except.bind, FixingTable.insert] at h
      by_cases hi : (t.byId.get x.1).isSome
      · rw [if_pos hi] at h; cases h
      · rw [if_neg hi] at h
        refine ih ⟨insert_nodup ht.1 _ _, ?_⟩ h
        intro e he
        dsimp only [Map.insert] at he
        rcases List.mem_cons.1 he with rfl | he
        · exact hc
        · exact ht.2 e (List.mem_filter.1 he).1

theorem loaded_fixings {f : Fixings V} (hf : (f.entries.map Prod.fst).Nodup) {pairs : List (DateTime × V)}
    (h : FixingsWritten f pairs) (dt : DateTime) : (fixings pairs).get dt = f.get dt := by
  have hn : (pairs.map Prod.fst).Nodup := (h.map Prod.fst).nodup_iff.2 hf
  apply Option.ext
  intro v
  unfold fixings
  rw [foldl_mem Prod.fst Prod.snd hn, get_iff hf, ← h.mem_iff]
  constructor
  · rintro ⟨x, hx, rfl, rfl⟩; exact hx
  · intro hx; exact ⟨_, hx, rfl, rfl⟩

theorem forall₂_fst {entries : List (String × Fixings V)} {curves : List (String × List (DateTime × V))}
    (h : List.Forall₂ (fun e c => c.1 = e.1 ∧ FixingsWritten e.2 c.2) entries curves) :
    curves.map Prod.fst = entries.map Prod.fst := by
  induction h with
  | nil => rfl
  | cons h1 _ ih => rw [List.map_cons, List.map_cons, ih, h1.1]

theorem forall₂_mem {entries : List (String × Fixings V)} {curves : List (String × List (DateTime × V))}
    (h : List.Forall₂ (fun e c => c.1 = e.1 ∧ FixingsWritten e.2 c.2) entries curves) :
    (∀ c ∈ curves, ∃ e ∈ entries, c.1 = e.1 ∧ FixingsWritten e.2 c.2) ∧
    (∀ e ∈ entries, ∃ c ∈ curves, c.1 = e.1 ∧ FixingsWritten e.2 c.2) := by
  induction h with
  | nil => simp
  | @cons a b l m h1 _ ih =>
    constructor
    · intro c hc
      rcases List.mem_cons.1 hc with rfl | hc
      · exact ⟨a, by simp, h1⟩
      · obtain ⟨e, he, h2⟩ := ih.1 c hc
        exact ⟨e, by simp [he], h2⟩
    · intro e he
      rcases List.mem_cons.1 he with rfl | he
      · exact ⟨b, by simp, h1⟩
      · obtain ⟨c, hc, h2⟩ := ih.2 e he
        exact ⟨c, by simp [hc], h2⟩

/-- A loaded table finds the same fixings. -/
theorem loaded_table {t : FixingTable V} (ht : Proper t) {k : Int} {curves : List (String × List (DateTime × V))}
    (h : TableWritten t k curves) (id : String) :
    ((fixingTable k curves).getFixings id = none ∧ t.getFixings id = none) ∨
    ∃ f g, (fixingTable k curves).getFixings id = some f ∧ t.getFixings id = some g ∧ ∀ dt, f.get dt = g.get dt := by
  obtain ⟨_, entries, hp, h2⟩ := h
  have hn : (curves.map Prod.fst).Nodup := by
    rw [forall₂_fst h2]; exact (hp.map Prod.fst).nodup_iff.2 ht.1
  have hl : ∀ v, (fixingTable k curves).getFixings id = some v ↔ ∃ c ∈ curves, c.1 = id ∧ fixings c.2 = v := by
    intro v
    exact foldl_mem Prod.fst (fun c : String × List (DateTime × V) => fixings c.2) hn id v
  have hr : ∀ v, t.getFixings id = some v ↔ (id, v) ∈ t.byId.entries := fun v => get_iff ht.1 id v
  cases hg : t.getFixings id with
  | none =>
    left
    refine ⟨?_, rfl⟩
    cases hg' : (fixingTable k curves).getFixings id with
    | none => rfl
    | some f =>
      obtain ⟨c, hc, hid, _⟩ := (hl f).1 hg'
      obtain ⟨e, he, h3, _⟩ := (forall₂_mem h2).1 c hc
      have := (hr e.2).2 (by rw [← hid, h3]; exact hp.mem_iff.1 he)
      rw [hg] at this; cases this
  | some g =>
    right
    have hm := hp.mem_iff.2 ((hr g).1 hg)
    obtain ⟨c, hc, h3, h4⟩ := (forall₂_mem h2).2 _ hm
    exact ⟨_, g, (hl _).2 ⟨c, hc, h3, rfl⟩, rfl, loaded_fixings (ht.2 _ (hp.mem_iff.1 hm)) h4⟩

end

end QM.Load
