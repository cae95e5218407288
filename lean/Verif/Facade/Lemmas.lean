import Mathlib.Data.List.Forall2
import Verif.Facade.Spec

/-!
# Lemmas on the C interface
-/

namespace QM.Facade
open Spec

variable {W : World} {A : Allocator} {s s' : State W} {c : Call W} {r : Reply}

/-- What a call does to memory, whatever it returns. -/
inductive Effect (A : Allocator) (s : State W) (c : Call W) : State W → Reply → Prop
  | handle (h : Handle W) (m : Map Nat (Handle W)) (hm : ∀ a, m.get a = if a ∈ Frees c then none else s.handles.get a) (hs : FreesStrings c = []) :
      Effect A s c ⟨m.insert (A.choose (used m)) h, s.strings⟩ (.handle (A.choose (used m)))
  | string (p : String) (hf : Frees c = []) (hs : FreesStrings c = []) :
      Effect A s c ⟨s.handles, s.strings.insert (A.choose (used s.strings)) p⟩ (.string (A.choose (used s.strings)))
  | flag (b : Bool) (hf : Frees c = []) (hs : FreesStrings c = []) : Effect A s c s (.flag b)
  | nothing (m : Map Nat (Handle W)) (n : Map Nat String) (hm : ∀ a, m.get a = if a ∈ Frees c then none else s.handles.get a)
      (hn : ∀ a, n.get a = if a ∈ FreesStrings c then none else s.strings.get a) : Effect A s c ⟨m, n⟩ .nothing

theorem effect_return {x : Res (Handle W)} (hf : Frees c = []) (hs : FreesStrings c = []) (h : returnHandle A s x = (s', r)) : Effect A s c s' r := by
  cases x <;> cases h <;> exact .handle _ s.handles (by simp [hf]) hs

theorem effect_map {x : Option (Res (Handle W))} (hf : Frees c = []) (hs : FreesStrings c = []) (h : x.map (returnHandle A s) = some (s', r)) :
    Effect A s c s' r := by
  cases x with
  | none => cases h
  | some x => exact effect_return hf hs (Option.some.inj h)

theorem effect_step (h : step A s c = some (s', r)) : Effect A s c s' r := by
  cases c with
  | instrument => exact effect_map rfl rfl h
  | currency => exact effect_map rfl rfl h
  | pricerFactory => exact effect_map rfl rfl h
  | fixingTable => exact effect_map rfl rfl h
  | marketData => exact effect_map rfl rfl h
  | reportGenerator => exact effect_map rfl rfl h
  | reports => exact effect_map rfl rfl h
  | calculate => exact effect_map rfl rfl h
  | reportsAsJson a =>
    unfold step at h
    dsimp only at h
    cases ha : s.handles.get a with
    | none => rw [ha] at h; cases h
    | some x => rw [ha] at h; cases h; exact .string _ rfl rfl
  | errorString a =>
    unfold step at h
    dsimp only at h
    cases ha : s.handles.get a with
    | none => rw [ha] at h; cases h
    | some x => rw [ha] at h; cases h; exact .string _ rfl rfl
  | isError a =>
    unfold step at h
    dsimp only at h
    cases ha : s.handles.get a with
    | none => rw [ha] at h; cases h
    | some x => rw [ha] at h; cases h; exact .flag _ rfl rfl
  | freeString p =>
    unfold step at h
    dsimp only at h
    cases hp : s.strings.get p with
    | none => rw [hp] at h; cases h
    | some x =>
      rw [hp] at h
      cases h
      exact .nothing s.handles _ (by simp [Frees]) (by intro a; rw [Map.get_remove]; simp [FreesStrings])
  | freeHandle a =>
    unfold step at h
    dsimp only at h
    cases ha : s.handles.get a with
    | none => rw [ha] at h; cases h
    | some x =>
      rw [ha] at h
      cases h
      exact .nothing _ s.strings (by intro a; rw [Map.get_remove]; simp [Frees]) (by simp [FreesStrings])
  | clone a =>
    unfold step at h
    dsimp only at h
    split at h
    · cases h
      exact .handle _ s.handles (by simp [Frees]) rfl
    · cases ha : s.handles.get a with
      | none => rw [ha] at h; cases h
      | some x => rw [ha] at h; cases h; exact .handle _ s.handles (by simp [Frees]) rfl
  | compare a b t =>
    unfold step at h
    dsimp only at h
    cases ha : s.handles.get a with
    | none => rw [ha] at h; cases h
    | some x =>
      rw [ha] at h
      dsimp only at h
      cases hb : (s.handles.remove a).get b with
      | none => rw [hb] at h; cases h
      | some y =>
        rw [hb] at h
        dsimp only at h
        have hm : ∀ i, ((s.handles.remove a).remove b).get i = if i ∈ Frees (W := W) (.compare a b t) then none else s.handles.get i := by
          intro i
          rw [Map.get_remove, Map.get_remove]
          unfold Frees
          by_cases h1 : i = b
          · simp [h1]
          · by_cases h2 : i = a <;> simp [h1, h2]
        generalize compareBody x.asReports y.asReports t = z at h
        cases z <;> cases h <;> exact .handle _ _ hm rfl

theorem used_get {V : Type} (m : Map Nat V) (a : Nat) : a ∈ used m ↔ m.get a ≠ none := by
  unfold used Map.get
  rw [Ne, Option.map_eq_none_iff, List.find?_eq_none, List.mem_map]
  constructor
  · rintro ⟨e, h1, rfl⟩ h
    exact h e h1 (by simp)
  · intro h
    refine Classical.byContradiction fun hn => ?_
    exact h fun e he => by
      simp only [decide_eq_true_eq]
      intro h2
      exact hn ⟨e, he, h2⟩

theorem choose_free {V : Type} (m : Map Nat V) : m.get (A.choose (used m)) = none := by
  refine Classical.byContradiction fun h => ?_
  exact A.fresh _ ((used_get m _).2 h)

/-- What is alive is what is held. -/
theorem session_live {t : List (Call W × Reply)} (h : Session A t s) :
    (∀ a, s.handles.get a ≠ none ↔ a ∈ held t) ∧ (∀ p, s.strings.get p ≠ none ↔ p ∈ heldStrings t) := by
  induction h with
  | start => exact ⟨fun a => by simp [held], fun p => by simp [heldStrings]⟩
  | @call before s s' c r _ hall hstep ih =>
    obtain ⟨h1, h2⟩ := ih
    have he := effect_step hstep
    cases he with
    | handle h m hm hs =>
      constructor
      · intro a
        rw [Map.get_insert]
        unfold held
        by_cases ha : a = A.choose (used m)
        · simp [ha]
        · rw [if_neg ha, hm, List.mem_append, List.mem_filter, ← h1]
          by_cases hf : a ∈ Frees c <;> simp [ha, hf]
      · intro p
        unfold heldStrings
        rw [hs]
        simp [h2]
    | string p hf hs =>
      constructor
      · intro a
        unfold held
        rw [hf]
        simp [h1]
      · intro q
        rw [Map.get_insert]
        unfold heldStrings
        by_cases hq : q = A.choose (used s.strings)
        · simp [hq]
        · rw [if_neg hq, hs, h2]
          simp [hq]
    | flag b hf hs =>
      constructor
      · intro a
        unfold held
        rw [hf]
        simp [h1]
      · intro p
        unfold heldStrings
        rw [hs]
        simp [h2]
    | nothing m n hm hn =>
      constructor
      · intro a
        unfold held
        rw [hm, List.nil_append, List.mem_filter, ← h1]
        by_cases hf : a ∈ Frees c <;> simp [hf]
      · intro p
        unfold heldStrings
        rw [hn, List.nil_append, List.mem_filter, ← h2]
        by_cases hf : p ∈ FreesStrings c <;> simp [hf]

theorem readAs_live {α : Type} {as : Handle W → Except String α} {a : Nat} (h : s.handles.get a ≠ none) : readAs as s a ≠ none := by
  unfold readAs
  rwa [Ne, Option.map_eq_none_iff]

theorem readAll_live {α : Type} {as : Handle W → Except String α} : ∀ {l : List Nat}, (∀ a ∈ l, s.handles.get a ≠ none) → readAll as s l ≠ none
  | [], _ => by simp [readAll]
  | a :: l, h => by
    unfold readAll
    have h1 := readAs_live (as := as) (h a List.mem_cons_self)
    have h2 := readAll_live (as := as) fun b hb => h b (List.mem_cons_of_mem a hb)
    cases h3 : readAs as s a with
    | none => exact absurd h3 h1
    | some x =>
      cases x with
      | error e => simp
      | ok x =>
        cases h4 : readAll as s l with
        | none => exact absurd h4 h2
        | some y => cases y <;> simp

theorem andThen_live {α : Type} {x : Option (Except String α)} {f : α → Option (Res (Handle W))} (h : x ≠ none) (hf : ∀ y, f y ≠ none) :
    andThen x f ≠ none := by
  unfold andThen
  rcases x with _ | _ | y
  · exact absurd rfl h
  · simp
  · exact hf y

theorem withSource_live {source : Source} {f : W.Bytes → Option (Res (Handle W))} (hf : ∀ y, f y ≠ none) : withSource source f ≠ none := by
  unfold withSource
  cases source.open (W := W) with
  | ok b => exact hf b
  | err e => simp
  | panic => simp

/-- A call on what is alive is defined. -/
theorem step_live (h : ∀ a ∈ Uses c, s.handles.get a ≠ none) (hs : ∀ p ∈ FreesStrings c, s.strings.get p ≠ none) (ho : (Frees c).Nodup) :
    step A s c ≠ none := by
  have hmap {α β : Type} {x : Option α} {f : α → β} (h : x ≠ none) : x.map f ≠ none := by rwa [Ne, Option.map_eq_none_iff]
  cases c with
  | instrument source d1 l1 d2 l2 =>
    refine hmap (withSource_live fun b => andThen_live (readAll_live fun a ha => h a (List.mem_append_left _ ha)) fun x =>
      andThen_live (readAll_live fun a ha => h a (List.mem_append_right _ ha)) fun y => by simp)
  | currency => exact hmap (withSource_live fun b => by simp)
  | pricerFactory => exact hmap (withSource_live fun b => by simp)
  | fixingTable => exact hmap (withSource_live fun b => by simp)
  | marketData => exact hmap (withSource_live fun b => by simp)
  | reportGenerator => exact hmap (withSource_live fun b => by simp)
  | reports => exact hmap (withSource_live fun b => by simp)
  | calculate pf i f m l =>
    refine hmap (andThen_live (readAs_live (h _ (by simp [Uses]))) fun _ => andThen_live (readAs_live (h _ (by simp [Uses]))) fun _ =>
      andThen_live (readAs_live (h _ (by simp [Uses]))) fun _ => andThen_live (readAs_live (h _ (by simp [Uses]))) fun _ =>
      andThen_live (readAll_live fun a ha => h a (by simp [Uses, ha])) fun _ => by simp)
  | reportsAsJson a => exact hmap (h a (by simp [Uses]))
  | errorString a => exact hmap (h a (by simp [Uses]))
  | isError a => exact hmap (h a (by simp [Uses]))
  | freeString p => exact hmap (hs p (by simp [FreesStrings]))
  | freeHandle a => exact hmap (h a (by simp [Uses]))
  | clone a =>
    unfold step
    dsimp only
    split
    · simp
    · exact hmap (h a (by simp [Uses]))
  | compare a b t =>
    have ha := h a (by simp [Uses])
    have hb := h b (by simp [Uses])
    have hab : a ≠ b := by simpa [Frees] using ho
    obtain ⟨x, hx⟩ := Option.ne_none_iff_exists'.1 ha
    have hb' : (s.handles.remove a).get b ≠ none := by rwa [Map.get_remove, if_neg (Ne.symm hab)]
    obtain ⟨y, hy⟩ := Option.ne_none_iff_exists'.1 hb'
    unfold step
    dsimp only
    rw [hx]
    dsimp only
    rw [hy]
    simp

/-- What `return_handle` puts behind the handle. -/
def returned : Res (Handle W) → Handle W
  | .ok h => h
  | .err e => .err e
  | .panic => .err "Caught panic when creating handle"

theorem newHandle_read (s : State W) (h : Handle W) {a : Nat} (e : s.newHandle A h = (s', .handle a)) : s'.handles.get a = some h := by
  cases e
  exact Map.get_insert_self _ _ _

/-- What a conversion finds wrong. -/
def fault {α : Type} : Except String α → Option String
  | .error e => some e
  | .ok _ => none

theorem complaint_pf (h : Handle W) : fault h.asPricerFactory = complaint .pricerFactory h := by
  cases h <;> rfl

theorem complaint_instrument (h : Handle W) : fault h.asInstrument = complaint .instrument h := by
  cases h <;> rfl

theorem complaint_currency (h : Handle W) : fault h.asCurrency = complaint .currency h := by
  cases h <;> rfl

theorem complaint_fixing (h : Handle W) : fault h.asFixingTable = complaint .fixingTable h := by
  cases h <;> rfl

theorem complaint_market (h : Handle W) : fault h.asMarketData = complaint .marketData h := by
  cases h <;> rfl

theorem complaint_generator (h : Handle W) : fault h.asReportGenerator = complaint .reportGenerator h := by
  cases h <;> rfl

theorem complaint_reports (h : Handle W) : fault h.asReports = complaint .reports h := by
  cases h <;> rfl

/-- The first complaint of a closure on one argument and what follows. -/
theorem andThen_fault {α : Type} {as : Handle W → Except String α} {a : Nat} {x : Handle W} {required : Kind}
    (hc : ∀ h : Handle W, fault (as h) = complaint required h) (hx : s.handles.get a = some x) (f : α → Option (Res (Handle W))) :
    (∀ e, complaint required x = some e → andThen (readAs as s a) f = some (.err e)) ∧
    (complaint required x = none → ∃ y, as x = .ok y ∧ andThen (readAs as s a) f = f y) := by
  have h := hc x
  unfold readAs
  rw [hx]
  rw [← h]
  simp only [Option.map_some]
  cases as x with
  | error e =>
    constructor
    · intro e' he
      cases he
      rfl
    · intro h
      cases h
  | ok y =>
    constructor
    · intro e' he
      cases he
    · intro _
      exact ⟨y, rfl, rfl⟩

theorem readAll_fault {α : Type} {as : Handle W → Except String α} {required : Kind} (hc : ∀ h : Handle W, fault (as h) = complaint required h) :
    ∀ {l : List Nat} {xs : List (Handle W)}, List.Forall₂ (fun a x => s.handles.get a = some x) l xs →
      (∀ e, complaints (xs.map fun x => (required, x)) = some e → readAll as s l = some (.error e)) ∧
      (complaints (xs.map fun x => (required, x)) = none → ∃ ys, List.Forall₂ (fun x y => as x = .ok y) xs ys ∧ readAll as s l = some (.ok ys))
  | _, _, .nil => by
    constructor
    · intro e he
      cases he
    · intro _
      exact ⟨[], .nil, rfl⟩
  | _, _, .cons (a := a) (b := x) (l₁ := l) (l₂ := xs) hx hl => by
    obtain ⟨h1, h2⟩ := readAll_fault hc hl
    have h := hc x
    unfold readAll readAs
    rw [hx, List.map_cons, complaints, ← h]
    simp only [Option.map_some]
    cases hax : as x with
    | error e =>
      constructor
      · intro e' he
        cases he
        rfl
      · intro h
        cases h
    | ok y =>
      constructor
      · intro e he
        have := h1 e he
        simp only [this]
      · intro hn
        obtain ⟨ys, h3, h4⟩ := h2 hn
        exact ⟨y :: ys, .cons hax h3, by simp only [h4]⟩

end QM.Facade
