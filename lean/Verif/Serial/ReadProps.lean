import Verif.Serial.ReadLemmas
import Verif.Serial.SessionProps
import Verif.Serial.TaggedProps

/-!
# Properties C49, C50 and C51: what can be read
-/

namespace QM.Serial
open Spec

variable {α : Type}

/-! ## C49 -/

/-- C49. A text can be read exactly when everything it names was supplied or, in write-once mode, spelled out before; otherwise it is
refused with an error, never a panic. -/
theorem C49_readable (control : Control) (t : Text α) (known : Known α) (h : Filed known) :
    ((∃ n, (deserialize control t known).1 = .ok n) ↔
      Readable (decide (control = .writeOnce)) (fun id => (known.get id).isSome) t) ∧
    ∀ e, (deserialize control t known).1 = .error e → e = .err := by
  rcases read_iff control t known _ h (fun id => Iff.rfl) with ⟨h1, ⟨n, h2⟩, _⟩ | ⟨h1, h2⟩
  · exact ⟨⟨fun _ => h1, fun _ => ⟨n, h2⟩⟩, fun e he => by rw [h2] at he; cases he⟩
  · refine ⟨⟨fun ⟨n, hn⟩ => ?_, fun h => absurd h h1⟩, fun e he => ?_⟩
    · rw [h2] at hn; cases hn
    · rw [h2] at he; cases he; rfl

/-- C49. In the modes that do not write once, neither writing nor reading changes what the session knows, whether it succeeds or not. -/
theorem C49_state {control : Control} (hc : control ≠ .writeOnce) (n : Node α) (t : Text α) (known : Known α) :
    (serialize control n known).2 = known ∧ (deserialize control t known).2 = known :=
  ⟨write_state hc n known, read_state hc t known⟩

/-- C49. In write-once mode, what was spelled out in a text that was read is known afterwards, and nothing else is that was not before. -/
theorem C49_learned {t : Text α} {known known' : Known α} {n : Node α} (h : Filed known)
    (hr : deserialize .writeOnce t known = (.ok n, known')) (id : String) :
    (known'.get id).isSome ↔ (known.get id).isSome ∨ id ∈ written t := by
  rcases read_iff .writeOnce t known _ h (fun id => Iff.rfl) with ⟨_, _, _, h4⟩ | ⟨_, h2⟩
  · rw [hr] at h4
    simpa using h4 id
  · rw [hr] at h2; cases h2

/-- Maps made from lists of parts file every part under its own identifier. -/
theorem C49_filed (slice : List (Node α)) : Filed (mapFromSlice slice) := by
  intro id n h
  rw [mapFromSlice_get] at h
  simpa using List.find?_some h

/-- C49: a text that names a part before spelling it out is refused, and one that names it after is not. -/
example : ¬ Readable true (fun _ => False) (.full "e" 4 [.ref "a", .full "a" 0 []] : Text Nat) ∧
    Readable true (fun _ => False) (.full "e" 4 [.full "a" 0 [], .ref "a"] : Text Nat) ∧
    ¬ Readable false (fun _ => False) (.full "e" 4 [.full "a" 0 [], .ref "a"] : Text Nat) := by
  simp [Readable, ReadableAll, written, writtenAll]

/-! ## C50 -/

/-- C50. Parts written one after the other in one write-once session are spelled out once among them all, and come back as themselves when
read one after the other in another session. -/
theorem C50_shared (known : Known α) (ns : List (Node α)) (hg : ∀ p q, (∃ n ∈ ns, Inside p n) → (∃ n ∈ ns, Inside q n) → p.id = q.id → p = q)
    (hk : ∀ p q, (∃ n ∈ ns, Inside p n) → known.get p.id = some q → q = p) (key : Key) (store : Store α) :
    ∃ ts, inSession ⟨.writeOnce, known⟩ key (inTurn (ns.map (writePart key))) store = (.ok ts, store) ∧
      inSession ⟨.writeOnce, known⟩ key (inTurn (ts.map (readPart key))) store = (.ok ns, store) ∧ (writtenAll ts).Nodup := by
  obtain ⟨ts, W, R, h1, h2, st⟩ := writeOnce_steps (fun p => ∃ n ∈ ns, Inside p n)
    (fun id data parts ⟨n, hn, hp⟩ q hq => ⟨n, hn, Inside.trans (.part hq (.here q)) hp⟩) hg ns (fun _ => False) known known
    (fun n hn => ⟨n, hn, .here n⟩) ⟨fun _ _ => rfl, fun p q hp _ hq => hk p q hp hq⟩ (fun _ _ _ _ hf => hf)
  refine ⟨ts, ?_, ?_, st.nodup⟩
  · unfold inSession withSession swapIn
    dsimp only
    rw [inTurn_write key .writeOnce store ns known, h1]
    dsimp only
    congr 1
    funext k
    by_cases e : k = key <;> simp [e]
  · unfold inSession withSession swapIn
    dsimp only
    rw [inTurn_read key .writeOnce store ts known, h2]
    dsimp only
    congr 1
    funext k
    by_cases e : k = key <;> simp [e]

/-- C50: a part written twice is spelled out and then named. -/
example : (inSession ⟨.writeOnce, Map.empty⟩ .currency (inTurn [writePart .currency (.mk "a" 0 []), writePart .currency (.mk "a" 0 [])])
    (fun _ => (⟨.inline, Map.empty⟩ : Session Nat))).1 = .ok [.full "a" 0 [], .ref "a"] := by
  simp [inSession, withSession, swapIn, inTurn, writePart, serialize, serializeAll, Map.get, Map.empty, Map.insert]

/-! ## C51 -/

/-- C51. Whatever the text, what is loaded from it is a value that exists: every field at any depth holds a value of its trait, with
contents that its type accepts. -/
theorem C51_loaded {valid : Kind → α → Bool} {slot : Slot} {j : Json α} {v : Obj α} (h : load crateRegistry valid slot j = .ok v) :
    Fits valid slot v := by
  refine load_fits ?_ valid j slot v h
  have key : ∀ tr, ∀ e ∈ (crateRegistry tr).entries, e.2.trait = tr := by
    intro tr
    cases tr <;> decide +kernel
  intro tr tag k hk
  unfold Map.get at hk
  obtain ⟨e, he, rfl⟩ := Option.map_eq_some_iff.1 hk
  exact key tr e (List.mem_of_find?_eq_some he)

/-- C51, the other way round: what is loaded is saved as the text it was loaded from, so two texts never load as the same value. What is
missing is the type that cannot be saved. -/
theorem C51_saved_partial {valid : Kind → α → Bool} {slot : Slot} {j : Json α} {v : Obj α} (h : load crateRegistry valid slot j = .ok v)
    (hk : ∀ s o, Held s o slot v → o.kind ≠ .volByProbabilityOfCubicSplineSmile) : save slot v = .ok j := by
  refine save_load valid j slot v h ?_
  have key : ∀ tr, ∀ e ∈ (crateRegistry tr).entries, e.2 = .volByProbabilityOfCubicSplineSmile ∨ e.2.typeId = .ok e.1 := by
    intro tr
    cases tr <;> decide +kernel
  intro tr o tag ho hg
  unfold Map.get at hg
  obtain ⟨e, he, heq⟩ := Option.map_eq_some_iff.1 hg
  have h1 := List.find?_some he
  rcases key tr e (List.mem_of_find?_eq_some he) with h2 | h2
  · exact absurd (heq ▸ h2) (hk _ o ho)
  · rw [← heq, h2]
    congr 1
    simpa using h1

/-- C51: a curve can be loaded from its text. -/
example : ∃ j, load crateRegistry (fun _ _ => true) (.tagged .rateCurve) j = .ok sampleCurve := by
  refine ⟨.tagged "RelativeBump" (.record "1.01" [.tagged "AnnualisedFlatBump" (.record "0.02" [.tagged "RateCurveAct365" (.record "..." [])])]), ?_⟩
  have h1 : (crateRegistry .rateCurve).get "RelativeBump" = some .relativeBump := by decide +kernel
  have h2 : (crateRegistry .rateCurve).get "AnnualisedFlatBump" = some .annualisedFlatBump := by decide +kernel
  have h3 : (crateRegistry .rateCurve).get "RateCurveAct365" = some .rateCurveAct365 := by decide +kernel
  simp [load, loadAll, h1, h2, h3, sampleCurve, Kind.slot, Kind.fields, Kind.complete]

end QM.Serial
