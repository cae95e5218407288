import Verif.Serial.TaggedSpec

/-!
# Lemmas about tagged serialisation
-/

namespace QM.Serial
open Spec

variable {α : Type}

theorem complete_iff (kind : Kind) (n : Nat) : kind.complete n = true ↔ Complete kind n := by
  unfold Kind.complete Complete
  cases kind.fields.2 with
  | none => simp
  | some s =>
    simp only [Option.isSome_some, Bool.true_and, Bool.or_eq_true, beq_iff_eq, decide_eq_true_eq]
    omega

mutual
theorem load_save (registry : Trait → Registry) (valid : Kind → α → Bool) : ∀ (v : Obj α) (slot : Slot),
    Fits valid slot v → (∀ s o, Held s o slot v → Faithful registry s o.kind) →
    ∃ j, save slot v = .ok j ∧ load registry valid slot j = .ok v
  | .mk kind content inner, slot, hf, hh => by
    unfold Fits at hf
    obtain ⟨ha, hv, hi⟩ := hf
    obtain ⟨js, h1, h2⟩ := load_saveAll registry valid kind inner 0 hi
      (fun m q s' hq hs s o ho => hh s o (.inner hq (by rw [Nat.zero_add] at hs; exact hs) ho))
    cases slot with
    | tagged tr =>
      obtain ⟨tag, ht, hr⟩ := hh _ _ .here
      change kind.typeId = _ at ht
      change _ = some kind at hr
      refine ⟨.tagged tag (.record content js), ?_, ?_⟩
      · unfold save; rw [ht]; dsimp only; rw [h1]
      · unfold load; rw [hr]; dsimp only; rw [if_pos hv, h2]
    | plain k =>
      change kind = k at ha
      subst ha
      refine ⟨.record content js, ?_, ?_⟩
      · unfold save; rw [h1]
      · unfold load; rw [if_pos hv, h2]
theorem load_saveAll (registry : Trait → Registry) (valid : Kind → α → Bool) (kind : Kind) :
    ∀ (os : List (Obj α)) (i : Nat), FitsAll valid kind i os →
    (∀ m q s', os[m]? = some q → kind.slot (i + m) = some s' → ∀ s o, Held s o s' q → Faithful registry s o.kind) →
    ∃ js, saveAll kind i os = .ok js ∧ loadAll registry valid kind i js = .ok os
  | [], i, hf, _ => by
    unfold FitsAll at hf
    rw [← complete_iff] at hf
    refine ⟨[], ?_, ?_⟩
    · unfold saveAll; rw [if_pos hf]
    · unfold loadAll; rw [if_pos hf]
  | o :: os, i, hf, hh => by
    unfold FitsAll at hf
    obtain ⟨⟨slot, hs, ho⟩, hr⟩ := hf
    obtain ⟨j, h1, h2⟩ := load_save registry valid o slot ho (fun s p hp => hh 0 o slot rfl hs s p hp)
    obtain ⟨js, h3, h4⟩ := load_saveAll registry valid kind os (i + 1) hr
      (fun m q s' hq hs' => hh (m + 1) q s' hq (by rw [← hs']; congr 1; omega))
    refine ⟨j :: js, ?_, ?_⟩
    · unfold saveAll; rw [hs]; dsimp only; rw [h1]; dsimp only; rw [h3]
    · unfold loadAll; rw [hs]; dsimp only; rw [h2]; dsimp only; rw [h4]
end

mutual
theorem faithful_of_load (registry : Trait → Registry) (valid : Kind → α → Bool) : ∀ (v : Obj α) (slot : Slot)
    (j : Json α), save slot v = .ok j → load registry valid slot j = .ok v →
    ∀ s o, Held s o slot v → Faithful registry s o.kind
  | .mk kind content inner, slot, j, hs, hl => by
    have hin : ∃ js, saveAll kind 0 inner = .ok js ∧ loadAll registry valid kind 0 js = .ok inner ∧
        Faithful registry slot kind := by
      cases slot with
      | tagged tr =>
        unfold save at hs
        cases ht : kind.typeId with
        | error e => rw [ht] at hs; cases hs
        | ok tag =>
          rw [ht] at hs
          dsimp only at hs
          cases hj : saveAll kind 0 inner with
          | error e => rw [hj] at hs; cases hs
          | ok js =>
            rw [hj] at hs
            cases hs
            unfold load at hl
            cases hg : (registry tr).get tag with
            | none => rw [hg] at hl; cases hl
            | some k =>
              rw [hg] at hl
              dsimp only at hl
              split at hl
              · cases hi : loadAll registry valid k 0 js with
                | error e => rw [hi] at hl; cases hl
                | ok os =>
                  rw [hi] at hl
                  cases hl
                  exact ⟨js, rfl, hi, tag, ht, hg⟩
              · cases hl
      | plain k =>
        unfold save at hs
        cases hj : saveAll kind 0 inner with
        | error e => rw [hj] at hs; cases hs
        | ok js =>
          rw [hj] at hs
          cases hs
          unfold load at hl
          split at hl
          · cases hi : loadAll registry valid k 0 js with
            | error e => rw [hi] at hl; cases hl
            | ok os =>
              rw [hi] at hl
              cases hl
              exact ⟨js, rfl, hi, trivial⟩
          · cases hl
    obtain ⟨js, h1, h2, h3⟩ := hin
    have h4 := faithful_of_loadAll registry valid kind inner 0 js h1 h2
    intro s o ho
    cases ho with
    | here => exact h3
    | inner hq hsl hr => exact h4 _ _ _ hq (by rw [Nat.zero_add]; exact hsl) s o hr
theorem faithful_of_loadAll (registry : Trait → Registry) (valid : Kind → α → Bool) (kind : Kind) :
    ∀ (os : List (Obj α)) (i : Nat) (js : List (Json α)), saveAll kind i os = .ok js →
    loadAll registry valid kind i js = .ok os →
    ∀ m q s', os[m]? = some q → kind.slot (i + m) = some s' → ∀ s o, Held s o s' q → Faithful registry s o.kind
  | [], i, js, _, _ => by intro m q s' hq; simp at hq
  | o :: os, i, js, hs, hl => by
    unfold saveAll at hs
    cases hsl : kind.slot i with
    | none => rw [hsl] at hs; cases hs
    | some slot =>
      rw [hsl] at hs
      dsimp only at hs
      cases h1 : save slot o with
      | error e => rw [h1] at hs; cases hs
      | ok j =>
        rw [h1] at hs
        dsimp only at hs
        cases h2 : saveAll kind (i + 1) os with
        | error e => rw [h2] at hs; cases hs
        | ok js' =>
          rw [h2] at hs
          cases hs
          unfold loadAll at hl
          rw [hsl] at hl
          dsimp only at hl
          cases h3 : load registry valid slot j with
          | error e => rw [h3] at hl; cases hl
          | ok p =>
            rw [h3] at hl
            dsimp only at hl
            cases h4 : loadAll registry valid kind (i + 1) js' with
            | error e => rw [h4] at hl; cases hl
            | ok ps =>
              rw [h4] at hl
              cases hl
              have ih1 := faithful_of_load registry valid o slot j h1 h3
              have ih2 := faithful_of_loadAll registry valid kind os (i + 1) js' h2 h4
              intro m q s' hq hs' s p hp
              cases m with
              | zero =>
                cases hq
                rw [Nat.add_zero, hsl] at hs'
                cases hs'
                exact ih1 s p hp
              | succ m =>
                exact ih2 m q s' hq (by rw [← hs']; congr 1; omega) s p hp
end

mutual
theorem load_fault (registry : Trait → Registry) (valid : Kind → α → Bool) : ∀ (j : Json α) (slot : Slot) (e : Fault),
    load registry valid slot j = .error e → e = .err
  | .tagged tag (.record content fields), .tagged tr, e, h => by
    unfold load at h
    cases hg : (registry tr).get tag with
    | none => rw [hg] at h; cases h; rfl
    | some k =>
      rw [hg] at h
      dsimp only at h
      split at h
      · have ih := load_faultAll registry valid k fields 0
        generalize loadAll registry valid k 0 fields = r at h ih
        cases r with
        | error e' => cases h; exact ih _ rfl
        | ok os => cases h
      · cases h; rfl
  | .record content fields, .plain k, e, h => by
    unfold load at h
    split at h
    · have ih := load_faultAll registry valid k fields 0
      generalize loadAll registry valid k 0 fields = r at h ih
      cases r with
      | error e' => cases h; exact ih _ rfl
      | ok os => cases h
    · cases h; rfl
  | .tagged _ (.tagged _ _), .tagged _, e, h => by unfold load at h; cases h; rfl
  | .record _ _, .tagged _, e, h => by unfold load at h; cases h; rfl
  | .tagged _ (.record _ _), .plain _, e, h => by unfold load at h; cases h; rfl
  | .tagged _ (.tagged _ _), .plain _, e, h => by unfold load at h; cases h; rfl
theorem load_faultAll (registry : Trait → Registry) (valid : Kind → α → Bool) (kind : Kind) :
    ∀ (js : List (Json α)) (i : Nat) (e : Fault), loadAll registry valid kind i js = .error e → e = .err
  | [], i, e, h => by
    unfold loadAll at h
    split at h
    · cases h
    · cases h; rfl
  | j :: js, i, e, h => by
    unfold loadAll at h
    cases hs : kind.slot i with
    | none => rw [hs] at h; cases h; rfl
    | some slot =>
      rw [hs] at h
      dsimp only at h
      have ih := load_fault registry valid j slot
      generalize load registry valid slot j = r at h ih
      cases r with
      | error e' => cases h; exact ih _ rfl
      | ok o =>
        dsimp only at h
        have ih2 := load_faultAll registry valid kind js (i + 1)
        generalize loadAll registry valid kind (i + 1) js = r at h ih2
        cases r with
        | error e' => cases h; exact ih2 _ rfl
        | ok os => cases h
end

mutual
theorem load_tags (registry : Trait → Registry) (valid : Kind → α → Bool) : ∀ (j : Json α) (slot : Slot) (v : Obj α),
    load registry valid slot j = .ok v → ∀ t ∈ tags j, ∃ tr, ((registry tr).get t).isSome
  | .tagged tag (.record content fields), .tagged tr, v, h => by
    unfold load at h
    cases hg : (registry tr).get tag with
    | none => rw [hg] at h; cases h
    | some k =>
      rw [hg] at h
      dsimp only at h
      split at h
      · have ih := load_tagsAll registry valid k fields 0
        generalize loadAll registry valid k 0 fields = r at h ih
        cases r with
        | error e' => cases h
        | ok os =>
          intro t ht
          simp only [tags, List.mem_cons] at ht
          rcases ht with rfl | ht
          · exact ⟨tr, by rw [hg]; rfl⟩
          · exact ih os rfl t ht
      · cases h
  | .record content fields, .plain k, v, h => by
    unfold load at h
    split at h
    · have ih := load_tagsAll registry valid k fields 0
      generalize loadAll registry valid k 0 fields = r at h ih
      cases r with
      | error e' => cases h
      | ok os =>
        intro t ht
        simp only [tags] at ht
        exact ih os rfl t ht
    · cases h
  | .tagged _ (.tagged _ _), .tagged _, v, h => by unfold load at h; cases h
  | .record _ _, .tagged _, v, h => by unfold load at h; cases h
  | .tagged _ (.record _ _), .plain _, v, h => by unfold load at h; cases h
  | .tagged _ (.tagged _ _), .plain _, v, h => by unfold load at h; cases h
theorem load_tagsAll (registry : Trait → Registry) (valid : Kind → α → Bool) (kind : Kind) :
    ∀ (js : List (Json α)) (i : Nat) (os : List (Obj α)), loadAll registry valid kind i js = .ok os →
    ∀ t ∈ tagsAll js, ∃ tr, ((registry tr).get t).isSome
  | [], i, os, _ => by intro t ht; simp [tagsAll] at ht
  | j :: js, i, os, h => by
    unfold loadAll at h
    cases hs : kind.slot i with
    | none => rw [hs] at h; cases h
    | some slot =>
      rw [hs] at h
      dsimp only at h
      have ih := load_tags registry valid j slot
      generalize load registry valid slot j = r at h ih
      cases r with
      | error e' => cases h
      | ok o =>
        dsimp only at h
        have ih2 := load_tagsAll registry valid kind js (i + 1)
        generalize loadAll registry valid kind (i + 1) js = r at h ih2
        cases r with
        | error e' => cases h
        | ok os =>
          intro t ht
          simp only [tagsAll, List.mem_append] at ht
          rcases ht with ht | ht
          · exact ih o rfl t ht
          · exact ih2 os rfl t ht
end

end QM.Serial
