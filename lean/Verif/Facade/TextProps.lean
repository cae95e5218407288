import Verif.Facade.Props

/-!
# Property C54: files, and the texts that are handed out
-/

namespace QM.Facade
open Spec

variable {W : World} {A : Allocator} {s : State W}

namespace Spec

/-- What a call that loads an object should leave behind its handle, given what opening the source and reading it do. -/
def loaded {α β : Type} (make : α → Handle W) (read : β → Res α) : Res β → Handle W
  | .err e => .err e
  | .panic => .err "Caught panic when creating handle"
  | .ok b =>
    match read b with
    | .ok x => make x
    | .err e => .err e
    | .panic => .err "Caught panic when creating handle"

/-- The text that may be handed out: one without zero bytes. -/
def readable (text : String) : Prop := '\x00' ∉ text.toList

end Spec

private theorem load_any {α : Type} {make : α → Handle W} {read : W.Bytes → Res α} {source : Source} {b : Res W.Bytes} (hb : source.open = b)
    {r : Option (State W × Reply)} (hr : r = (withSource source fun b => some (fromResult make (read b))).map (returnHandle A s)) :
    ∃ s' a, r = some (s', .handle a) ∧ s'.handles.get a = some (loaded make read b) := by
  subst hr
  unfold withSource
  rw [hb]
  cases b with
  | err e => exact ⟨_, _, rfl, by rw [Map.get_insert_self]; rfl⟩
  | panic => exact ⟨_, _, rfl, by rw [Map.get_insert_self]; rfl⟩
  | ok b =>
    unfold loaded
    dsimp only
    generalize read b = x
    cases x <;> exact ⟨_, _, rfl, by rw [Map.get_insert_self]⟩

/-- C54, files: the object in a file is behind the handle, or an error if the file cannot be opened or read. -/
theorem C54_file (s : State W) (name : String) :
    (∃ s' a, step A s (.currency (.file name)) = some (s', .handle a) ∧
      s'.handles.get a = some (loaded .currency W.currencyFromJson (W.openFile name))) ∧
    (∃ s' a, step A s (.pricerFactory (.file name)) = some (s', .handle a) ∧
      s'.handles.get a = some (loaded .pricerFactory W.pricerFactoryFromJson (W.openFile name))) ∧
    (∃ s' a, step A s (.fixingTable (.file name)) = some (s', .handle a) ∧
      s'.handles.get a = some (loaded .fixingTable W.fixingTableFromJson (W.openFile name))) ∧
    (∃ s' a, step A s (.marketData (.file name)) = some (s', .handle a) ∧
      s'.handles.get a = some (loaded .marketData W.marketDataFromJson (W.openFile name))) ∧
    (∃ s' a, step A s (.reportGenerator (.file name)) = some (s', .handle a) ∧
      s'.handles.get a = some (loaded .reportGenerator W.reportGeneratorFromJson (W.openFile name))) ∧
    (∃ s' a, step A s (.reports (.file name)) = some (s', .handle a) ∧
      s'.handles.get a = some (loaded .reports W.reportsFromJson (W.openFile name))) ∧
    (∃ s' a, step A s (.instrument (.file name) .inline [] .inline []) = some (s', .handle a) ∧
      s'.handles.get a = some (loaded .instrument (fun b => W.instrumentFromJson b .inline [] .inline []) (W.openFile name))) :=
  ⟨load_any rfl rfl, load_any rfl rfl, load_any rfl rfl, load_any rfl rfl, load_any rfl rfl, load_any rfl rfl, load_any rfl rfl⟩

/-- C54, messages: the string for a handle that is not an error says which kind it is. -/
theorem C54_message {a : Nat} {x : Handle W} (hx : s.handles.get a = some x) (hk : kind x ≠ .error) :
    ∃ s' p, step A s (.errorString a) = some (s', .string p) ∧ s'.handles = s.handles ∧
      s'.strings.get p = some ("Wrong handle type: Error required but " ++ (kind x).name ++ " supplied") := by
  refine ⟨⟨s.handles, s.strings.insert (A.choose (used s.strings)) (cString "Caught panic when converting error string" (.ok x.asError))⟩,
    A.choose (used s.strings), by unfold step; dsimp only; rw [hx]; rfl, rfl, ?_⟩
  dsimp only
  rw [Map.get_insert_self]
  have e1 : x.asError = "Wrong handle type: " ++ "Error" ++ " required but " ++ (kind x).name ++ " supplied" := by
    cases x <;> first | exact absurd rfl hk | rfl
  rw [e1]
  generalize kind x = k
  unfold cString
  dsimp only
  have e2 : ¬ '\x00' ∈ ("Wrong handle type: " ++ "Error" ++ " required but " ++ k.name ++ " supplied").toList := by
    cases k <;> decide +kernel
  rw [if_neg e2]
  congr 1

/-- C54, results: the string for reports is their text, for an error its message, and otherwise says that there are no reports; provided
that it has no zero byte in it. Reports that cannot be written give a string that says so. The reports stay where they are. -/
theorem C54_written {a : Nat} {x : Handle W} (hx : s.handles.get a = some x) :
    ∃ s' p, step A s (.reportsAsJson a) = some (s', .string p) ∧ s'.handles = s.handles ∧
      (∀ r text, x = .reports r → W.write r = .ok text → readable text → s'.strings.get p = some text) ∧
      (∀ r, x = .reports r → (∀ text, W.write r ≠ .ok text) → s'.strings.get p = some "Caught panic when converting result string") ∧
      (∀ e, x = .err e → readable e → s'.strings.get p = some e) ∧
      (kind x ≠ .reports → kind x ≠ .error → s'.strings.get p = some "reports_as_string: not a report handle") := by
  refine ⟨⟨s.handles, s.strings.insert (A.choose (used s.strings)) (cString "Caught panic when converting result string" (reportsAsString x))⟩,
    A.choose (used s.strings), by unfold step; dsimp only; rw [hx]; rfl, rfl, ?_⟩
  dsimp only
  rw [Map.get_insert_self]
  refine ⟨?_, ?_, ?_, ?_⟩
  · rintro r text rfl hw h0
    unfold cString reportsAsString
    dsimp only
    rw [hw]
    dsimp only
    rw [if_neg h0]
  · rintro r rfl hw
    unfold cString reportsAsString
    dsimp only
    cases h : W.write r with
    | ok text => exact absurd h (hw text)
    | err e => rfl
    | panic => rfl
  · rintro e rfl h0
    unfold cString reportsAsString
    dsimp only
    rw [if_neg h0]
  · intro h1 h2
    cases x <;> first | exact absurd rfl h1 | exact absurd rfl h2 | rfl

/-- C54: in the world of the examples, reports are loaded and written. -/
example : ∃ s p, Session (W := tinyWorld) reusing [(.reportsAsJson 0, .string p), (.reports (.text "[...]"), .handle 0)] s ∧
    s.strings.get p = some "[]" :=
  ⟨_, 0, .call (.call .start ⟨by decide, by decide, by decide⟩ rfl) ⟨by decide, by decide, by decide⟩ rfl, rfl⟩

end QM.Facade
