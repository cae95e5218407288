import Verif.Serial.TaggedLemmas
import Mathlib.Data.List.Forall2

/-!
# C51: tagged values load as the type they were saved as
-/

namespace QM.Serial
open Spec

variable {α : Type}

/-- For every registry and every value that can exist, of any depth: saving the value and loading it back
gives the value exactly when every value inside it, behind a trait, has a tag that is registered for its own
type. -/
theorem C51_round_trip_iff (registry : Trait → Registry) (valid : Kind → α → Bool) (slot : Slot) (v : Obj α)
    (h : Fits valid slot v) :
    (∃ j, save slot v = .ok j ∧ load registry valid slot j = .ok v) ↔
      ∀ s o, Held s o slot v → Faithful registry s o.kind :=
  ⟨fun ⟨j, h1, h2⟩ => faithful_of_load registry valid v slot j h1 h2, load_save registry valid v slot h⟩

/-- The registries of the crate are right for every type but five. -/
theorem C51_crate (k : Kind) : Faithful crateRegistry (.tagged k.trait) k ↔
    k ≠ .volByProbabilityFlatSmile ∧ k ≠ .volByProbabilityCubicSplineSmile ∧
    k ≠ .volByProbabilityOfFlatSmile ∧ k ≠ .volByProbabilityOfCubicSplineSmile ∧ k ≠ .stickyDeltaBumpVol := by
  have h : ∀ k : Kind, Faithful crateRegistry (.tagged k.trait) k ↔
      (match k.typeId with | .ok tag => (crateRegistry k.trait).get tag | .error _ => none) = some k := by
    intro k
    show (∃ tag, k.typeId = .ok tag ∧ (crateRegistry k.trait).get tag = some k) ↔ _
    generalize k.typeId = r
    cases r with
    | error e =>
      constructor
      · rintro ⟨t, ht, _⟩; cases ht
      · intro h; cases h
    | ok tag =>
      constructor
      · rintro ⟨t, ht, h⟩; cases ht; exact h
      · intro h; exact ⟨tag, rfl, h⟩
  rw [h]
  cases k <;> decide +kernel

/-- With the registries of the crate, any value that contains none of the five types, at any depth, loads
back as what was saved. -/
theorem C51_partial (valid : Kind → α → Bool) (slot : Slot) (v : Obj α) (h : Fits valid slot v)
    (hk : ∀ s o, Held s o slot v →
      o.kind ≠ .volByProbabilityFlatSmile ∧ o.kind ≠ .volByProbabilityCubicSplineSmile ∧
      o.kind ≠ .volByProbabilityOfFlatSmile ∧ o.kind ≠ .volByProbabilityOfCubicSplineSmile ∧
      o.kind ≠ .stickyDeltaBumpVol) :
    ∃ j, save slot v = .ok j ∧ load crateRegistry valid slot j = .ok v := by
  refine (C51_round_trip_iff crateRegistry valid slot v h).mpr ?_
  have hacc : ∀ s o slot v, Held s o slot v → Fits valid slot v → Accepts s o.kind := by
    intro s o slot v hh
    induction hh with
    | @here =>
      intro hf
      obtain ⟨k, c, i⟩ := o
      unfold Fits at hf
      exact hf.1
    | @inner slot kind content os i q s' hq hs _ ih =>
      intro hf
      apply ih
      unfold Fits at hf
      have key : ∀ (os : List (Obj α)) (n i : Nat), FitsAll valid kind n os → os[i]? = some q →
          kind.slot (n + i) = some s' → Fits valid s' q := by
        intro os
        induction os with
        | nil => intro n i _ hq; simp at hq
        | cons p os ihos =>
          intro n i hf hq hs
          unfold FitsAll at hf
          obtain ⟨⟨sl, h1, h2⟩, h3⟩ := hf
          cases i with
          | zero =>
            simp at hq
            subst hq
            rw [Nat.add_zero, h1] at hs
            cases hs
            exact h2
          | succ i => exact ihos (n + 1) i h3 hq (by rw [← hs]; congr 1; omega)
      exact key os 0 i hf.2.2 hq (by rw [Nat.zero_add]; exact hs)
  intro s o ho
  have ha := hacc s o slot v ho h
  cases s with
  | plain k => trivial
  | tagged tr =>
    change o.kind.trait = tr at ha
    subst ha
    exact (C51_crate o.kind).mpr (hk _ o ho)

/-- A tag that is registered nowhere, at any depth of the text, makes the load fail with an error. -/
theorem C51_unknown (registry : Trait → Registry) (valid : Kind → α → Bool) (slot : Slot) (j : Json α)
    (tag : String) (h : tag ∈ tags j) (hn : ∀ tr, (registry tr).get tag = none) :
    load registry valid slot j = .error .err := by
  cases hl : load registry valid slot j with
  | error e => rw [load_fault registry valid j slot e hl]
  | ok v =>
    obtain ⟨tr, ht⟩ := load_tags registry valid j slot v hl tag h
    rw [hn tr] at ht
    cases ht

/-- Loading never panics, whatever the text. -/
theorem C51_no_panic (registry : Trait → Registry) (valid : Kind → α → Bool) (slot : Slot) (j : Json α) :
    load registry valid slot j ≠ .error .panic := by
  intro h
  cases load_fault registry valid j slot _ h

/-- A curve with two bumps; a basket with an option on an equity. -/
def sampleCurve : Obj String :=
  .mk .relativeBump "1.01" [.mk .annualisedFlatBump "0.02" [.mk .rateCurveAct365 "..." []]]

def sampleCurrency : Obj String := .mk .currency "GBP" [.mk .businessDays "2" [.mk .weekdayCalendar "" []]]

def sampleBasket : Obj String :=
  .mk .basket "B" [sampleCurrency, .mk .nullRule "" [],
    .mk .spotStartingEuropean "O" [.mk .equity "E" [sampleCurrency, .mk .nullRule "" []], .mk .nullRule "" []]]

theorem sampleBasket_fits : Fits (fun _ _ => true) (.tagged .instrument) sampleBasket := by
  simp [sampleBasket, sampleCurrency, Fits, FitsAll, Accepts, Kind.trait, Kind.slot, Kind.fields, Complete]

theorem sampleCurve_fits : Fits (fun _ _ => true) (.tagged .rateCurve) sampleCurve := by
  simp [sampleCurve, Fits, FitsAll, Accepts, Kind.trait, Kind.slot, Kind.fields, Complete]

example : ∃ j, save (.tagged .rateCurve) sampleCurve = .ok j ∧
    load crateRegistry (fun _ _ => true) (.tagged .rateCurve) j = .ok sampleCurve := ⟨_, rfl, rfl⟩

example : ∃ j, save (.tagged .instrument) sampleBasket = .ok j ∧
    load crateRegistry (fun _ _ => true) (.tagged .instrument) j = .ok sampleBasket := ⟨_, rfl, rfl⟩

/-- The samples meet the hypothesis of `C51_partial`. -/
example : ∀ s o, Held s o (.tagged .rateCurve) sampleCurve →
      o.kind ≠ .volByProbabilityFlatSmile ∧ o.kind ≠ .volByProbabilityCubicSplineSmile ∧
      o.kind ≠ .volByProbabilityOfFlatSmile ∧ o.kind ≠ .volByProbabilityOfCubicSplineSmile ∧
      o.kind ≠ .stickyDeltaBumpVol := by
  intro s o ho
  have := (C51_round_trip_iff crateRegistry (fun _ _ => true) _ _ sampleCurve_fits).mp ⟨_, rfl, rfl⟩ s o ho
  have hall : o.kind = .relativeBump ∨ o.kind = .annualisedFlatBump ∨ o.kind = .rateCurveAct365 := by
    unfold sampleCurve at ho
    cases ho with
    | here => exact Or.inl rfl
    | @inner _ _ _ _ i q s' hq hs hr =>
      match i, hq with
      | 0, hq =>
        cases hq
        cases hr with
        | here => exact Or.inr (Or.inl rfl)
        | @inner _ _ _ _ i q s' hq hs hr =>
          match i, hq with
          | 0, hq =>
            cases hq
            cases hr with
            | here => exact Or.inr (Or.inr rfl)
            | @inner _ _ _ _ i q s' hq hs hr => simp at hq
  rcases hall with h | h | h <;> rw [h] <;> decide

/-- **Violation.** A surface of cubic spline smiles is saved and loads as a value of another type; saving
what was loaded panics. -/
theorem C51_spline_false (valid : Kind → α → Bool) (c c' : α)
    (hv : valid .volByProbabilityOfCubicSplineSmile c = true) (hc : valid .everyDayCalendar c' = true) :
    ∃ j, save (.tagged .volSurface) (.mk .volByProbabilityCubicSplineSmile c [.mk .everyDayCalendar c' []]) = .ok j ∧
      load crateRegistry valid (.tagged .volSurface) j =
        .ok (.mk .volByProbabilityOfCubicSplineSmile c [.mk .everyDayCalendar c' []]) ∧
      save (.tagged .volSurface) (.mk .volByProbabilityOfCubicSplineSmile c [.mk .everyDayCalendar c' []]) =
        .error .panic := by
  have h1 : (crateRegistry .volSurface).get "VolByProbabilityCubicSplineSmile" =
      some .volByProbabilityOfCubicSplineSmile := by decide +kernel
  have h2 : (crateRegistry .calendar).get "EveryDayCalendar" = some .everyDayCalendar := by decide +kernel
  have hcal : load crateRegistry valid (.tagged .calendar) (.tagged "EveryDayCalendar" (.record c' [])) =
      .ok (.mk .everyDayCalendar c' []) := by
    unfold load
    rw [h2]
    dsimp only
    rw [if_pos hc]
    rfl
  refine ⟨_, rfl, ?_, rfl⟩
  unfold load
  rw [h1]
  dsimp only
  rw [if_pos hv]
  have hall : loadAll crateRegistry valid .volByProbabilityOfCubicSplineSmile 0
      [.tagged "EveryDayCalendar" (.record c' [])] = .ok [.mk .everyDayCalendar c' []] := by
    unfold loadAll
    simp only [Kind.slot, Kind.fields, List.getElem?_cons_zero]
    rw [hcal]
    rfl
  rw [hall]

/-- **Violation.** A surface of flat smiles, and a sticky-delta bump, can be saved, and what is saved cannot
be loaded. -/
theorem C51_unregistered_false (valid : Kind → α → Bool) (c c' : α) (inner : Json α) :
    (∃ j, save (.tagged .volSurface) (.mk .volByProbabilityFlatSmile c [.mk .everyDayCalendar c' []]) = .ok j ∧
      load crateRegistry valid (.tagged .volSurface) j = .error .err) ∧
    load crateRegistry valid (.tagged .volSurface) (.tagged "StickyDeltaBumpVol" inner) = .error .err := by
  have h1 : ∀ tr, (crateRegistry tr).get "VolByProbabilityFlatSmile" = none := by
    intro tr; cases tr <;> decide +kernel
  have h2 : ∀ tr, (crateRegistry tr).get "StickyDeltaBumpVol" = none := by
    intro tr; cases tr <;> decide +kernel
  refine ⟨⟨_, rfl, C51_unknown _ _ _ _ "VolByProbabilityFlatSmile" ?_ h1⟩,
    C51_unknown _ _ _ _ "StickyDeltaBumpVol" ?_ h2⟩
  · simp [tags]
  · simp [tags]

/-- C51, collections. A value that holds a collection of any length, such as a basket, loads back if its type is not one of the five, and every part loads back by itself. -/
theorem C51_collection (valid : Kind → α → Bool) {kind : Kind} {fixed : List Slot} {each : Slot} (hk : kind.fields = (fixed, some each)) {content : α}
    (hv : valid kind content = true) {parts more : List (Obj α)} (hp : List.Forall₂ (fun s o => Fits valid s o ∧ ∃ j, save s o = .ok j ∧ load crateRegistry valid s j = .ok o) fixed parts)
    (hm : ∀ o ∈ more, Fits valid each o ∧ ∃ j, save each o = .ok j ∧ load crateRegistry valid each j = .ok o) :
    ∃ j, save (.tagged kind.trait) (.mk kind content (parts ++ more)) = .ok j ∧ load crateRegistry valid (.tagged kind.trait) j = .ok (.mk kind content (parts ++ more)) := by
  have hslot : ∀ i q s, (parts ++ more)[i]? = some q → kind.slot i = some s → Fits valid s q ∧ ∃ j, save s q = .ok j ∧ load crateRegistry valid s j = .ok q := by
    intro i q s hq hs
    have hl := hp.length_eq
    unfold Kind.slot at hs
    rw [hk] at hs
    dsimp only at hs
    by_cases hi : i < parts.length
    · rw [List.getElem?_append_left hi] at hq
      rw [List.getElem?_eq_getElem (by omega)] at hs
      rw [List.getElem?_eq_getElem hi] at hq
      cases hs
      cases hq
      exact List.forall₂_iff_get.1 hp |>.2 i (by omega) hi
    · rw [List.getElem?_append_right (by omega)] at hq
      rw [List.getElem?_eq_none (by omega)] at hs
      cases hs
      exact hm _ (List.mem_of_getElem? hq)
  have hsome : ∀ i, ∃ s, kind.slot i = some s := by
    intro i
    unfold Kind.slot
    rw [hk]
    dsimp only
    split
    · exact ⟨_, rfl⟩
    · exact ⟨_, rfl⟩
  have fits : ∀ (os : List (Obj α)) (n : Nat), (∀ i q s, os[i]? = some q → kind.slot (n + i) = some s → Fits valid s q) → fixed.length ≤ n + os.length →
      FitsAll valid kind n os := by
    intro os
    induction os with
    | nil =>
      intro n _ hn
      unfold FitsAll Complete
      rw [hk]
      simpa using hn
    | cons o os ih =>
      intro n h hn
      unfold FitsAll
      obtain ⟨s, hs⟩ := hsome n
      refine ⟨⟨s, hs, h 0 o s rfl (by simpa using hs)⟩, ih (n + 1) (fun i q s hq hs => h (i + 1) q s (by simpa using hq) (by rw [← hs]; congr 1; omega)) ?_⟩
      simp only [List.length_cons] at hn
      omega
  have hfit : Fits valid (.tagged kind.trait) (.mk kind content (parts ++ more)) := by
    unfold Fits
    refine ⟨rfl, hv, fits _ 0 (fun i q s hq hs => (hslot i q s hq (by rw [← hs]; congr 1; omega)).1) ?_⟩
    rw [List.length_append, hp.length_eq]
    omega
  refine (C51_round_trip_iff crateRegistry valid _ _ hfit).2 ?_
  intro s o h
  cases h with
  | here =>
    refine (C51_crate kind).2 ?_
    refine ⟨?_, ?_, ?_, ?_, ?_⟩ <;>
    · rintro rfl
      simp [Kind.fields] at hk
  | inner hq hs h =>
    obtain ⟨f, r⟩ := hslot _ _ _ hq hs
    exact (C51_round_trip_iff crateRegistry valid _ _ f).1 r _ _ h

/-- Baskets of options: the parts of the sample basket load back by themselves. -/
example : (Kind.fields .basket = ([.plain .currency, .tagged .dateRule], some (.tagged .instrument))) ∧ sampleBasket.kind = .basket ∧
    Fits (fun _ _ => true) (.tagged .instrument) sampleBasket ∧ (∃ j, save (.plain .currency) sampleCurrency = .ok j ∧ load crateRegistry (fun _ _ => true) (.plain .currency) j = .ok sampleCurrency) ∧
    ∃ j, save (.tagged .instrument) sampleBasket = .ok j ∧ load crateRegistry (fun _ _ => true) (.tagged .instrument) j = .ok sampleBasket :=
  ⟨rfl, rfl, sampleBasket_fits, ⟨_, rfl, rfl⟩, ⟨_, rfl, rfl⟩⟩

end QM.Serial
