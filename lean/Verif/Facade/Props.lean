import Mathlib.Data.List.Perm.Subperm
import Verif.Facade.Lemmas

/-!
# Property C54: handles
-/

namespace QM.Facade
open Spec

variable {W : World} {A : Allocator} {s s' : State W} {c : Call W} {r : Reply} {t : List (Call W × Reply)}

/-- C54, memory. After any series of allowed calls, whatever the library did in them, and wherever new handles went: the handles and strings that are
alive are those that the user holds, so nothing leaks that the user cannot free and nothing that the user holds has been freed; and another allowed
call is defined, so it neither reads nor frees anything that is not alive. What is missing is that the documentation does not say that the two
handles of a comparison have to be different: `C54_false`. -/
theorem C54_partial (h : Session A t s) :
    (∀ a, s.handles.get a ≠ none ↔ a ∈ held t) ∧ (∀ p, s.strings.get p ≠ none ↔ p ∈ heldStrings t) ∧
      ∀ c, Allowed t c → step A s c ≠ none := by
  obtain ⟨h1, h2⟩ := session_live h
  refine ⟨h1, h2, fun c hc => ?_⟩
  exact step_live (fun a ha => (h1 a).2 (hc.held a ha)) (fun p hp => (h2 p).2 (hc.strings p hp)) hc.once

/-- C54: once all handles and strings that were returned have been freed, nothing is alive. -/
theorem C54_no_leak (h : Session A t s) (h1 : held t = []) (h2 : heldStrings t = []) : s.handles.entries = [] ∧ s.strings.entries = [] := by
  obtain ⟨g1, g2, _⟩ := C54_partial h
  rw [h1] at g1
  rw [h2] at g2
  constructor
  · cases he : s.handles.entries with
    | nil => rfl
    | cons e l =>
      have : e.1 ∈ used s.handles := by
        unfold used
        rw [he]
        simp
      exact absurd ((g1 e.1).1 ((used_get _ _).1 this)) (by simp)
  · cases he : s.strings.entries with
    | nil => rfl
    | cons e l =>
      have : e.1 ∈ used s.strings := by
        unfold used
        rw [he]
        simp
      exact absurd ((g2 e.1).1 ((used_get _ _).1 this)) (by simp)

/-- C54: a call does not change what is behind any other handle, and a handle that it returns is not one that the user still holds. -/
theorem C54_others (h : Session A t s) (hs : step A s c = some (s', r)) :
    (∀ a ∈ held t, a ∉ Frees c → s'.handles.get a = s.handles.get a) ∧ ∀ a, r = .handle a → a ∈ held t → a ∈ Frees c := by
  obtain ⟨h1, _⟩ := session_live h
  have he := effect_step hs
  cases he with
  | handle x m hm hs =>
    constructor
    · intro a ha hf
      have h2 := (h1 a).2 ha
      rw [Map.get_insert, if_neg, hm, if_neg hf]
      intro e
      have := choose_free (A := A) m
      rw [← e, hm, if_neg hf] at this
      exact h2 this
    · intro a e ha
      refine Classical.byContradiction fun hf => ?_
      have h2 := (h1 a).2 ha
      have := choose_free (A := A) m
      rw [Reply.handle.inj e, hm, if_neg hf] at this
      exact h2 this
  | string p hf hs => exact ⟨fun _ _ _ => rfl, fun _ e => nomatch e⟩
  | flag b hf hs => exact ⟨fun _ _ _ => rfl, fun _ e => nomatch e⟩
  | nothing m n hm hn => exact ⟨fun a _ hf => by rw [hm, if_neg hf], fun _ e => nomatch e⟩

/-- C54, arguments of a calculation. If an argument is an error, or not of the required kind, the result is a handle with the complaint about the first
such argument. Otherwise the arguments are objects of their kinds, and the result has the reports, the error of the calculation, or a message that
there was a panic. -/
theorem C54_calculate {pf instr fix mkt : Nat} {gens : List Nat} {x y z w : Handle W} {vs : List (Handle W)} (hx : s.handles.get pf = some x)
    (hy : s.handles.get instr = some y) (hz : s.handles.get fix = some z) (hw : s.handles.get mkt = some w)
    (hv : List.Forall₂ (fun a v => s.handles.get a = some v) gens vs) :
    ∃ s' a h, step A s (.calculate pf instr fix mkt gens) = some (s', .handle a) ∧ s'.handles.get a = some h ∧
      match complaints ([(.pricerFactory, x), (.instrument, y), (.fixingTable, z), (.marketData, w)] ++ vs.map fun v => (.reportGenerator, v)) with
      | some e => h = .err e
      | none => ∃ x' y' z' w' vs', x = .pricerFactory x' ∧ y = .instrument y' ∧ z = .fixingTable z' ∧ w = .marketData w' ∧
          vs = vs'.map .reportGenerator ∧ h =
          match W.calculate x' y' z' w' vs' with
          | .ok reports => .reports reports
          | .err e => .err e
          | .panic => .err "Caught panic when creating handle" := by
  have finish (b : Res (Handle W)) (hb : calculateBody s pf instr fix mkt gens = some b) :
      ∃ s' a, step A s (.calculate pf instr fix mkt gens) = some (s', .handle a) ∧ s'.handles.get a =
        some (returned b) := by
    have : step A s (.calculate pf instr fix mkt gens) = some (returnHandle A s b) := by
      show (calculateBody s pf instr fix mkt gens).map _ = _
      rw [hb]
      rfl
    rw [this]
    cases b <;> exact ⟨_, _, rfl, newHandle_read s _ rfl⟩
  simp only [List.cons_append, List.nil_append, complaints]
  have h1 := andThen_fault (s := s) complaint_pf hx
  have h2 := andThen_fault (s := s) complaint_instrument hy
  have h3 := andThen_fault (s := s) complaint_fixing hz
  have h4 := andThen_fault (s := s) complaint_market hw
  have h5 := readAll_fault (s := s) complaint_generator hv
  unfold calculateBody at finish
  cases c1 : complaint .pricerFactory x with
  | some e =>
    obtain ⟨s', a, g1, g2⟩ := finish (.err e) ((h1 _).1 e c1)
    exact ⟨s', a, _, g1, g2, rfl⟩
  | none =>
    obtain ⟨x', ex, _⟩ := (h1 (fun _ => none)).2 c1
    rw [Option.none_or]
    have e1 (f : W.PricerFactory → Option (Res (Handle W))) : andThen (readAs Handle.asPricerFactory s pf) f = f x' := by
      obtain ⟨x'', ex', h⟩ := (h1 f).2 c1
      rw [ex] at ex'
      cases ex'
      exact h
    rw [e1] at finish
    cases c2 : complaint .instrument y with
    | some e =>
      obtain ⟨s', a, g1, g2⟩ := finish (.err e) ((h2 _).1 e c2)
      exact ⟨s', a, _, g1, g2, rfl⟩
    | none =>
      obtain ⟨y', ey, _⟩ := (h2 (fun _ => none)).2 c2
      rw [Option.none_or]
      have e2 (f : W.Instrument → Option (Res (Handle W))) : andThen (readAs Handle.asInstrument s instr) f = f y' := by
        obtain ⟨y'', ey', h⟩ := (h2 f).2 c2
        rw [ey] at ey'
        cases ey'
        exact h
      rw [e2] at finish
      cases c3 : complaint .fixingTable z with
      | some e =>
        obtain ⟨s', a, g1, g2⟩ := finish (.err e) ((h3 _).1 e c3)
        exact ⟨s', a, _, g1, g2, rfl⟩
      | none =>
        obtain ⟨z', ez, _⟩ := (h3 (fun _ => none)).2 c3
        rw [Option.none_or]
        have e3 (f : W.FixingTable → Option (Res (Handle W))) : andThen (readAs Handle.asFixingTable s fix) f = f z' := by
          obtain ⟨z'', ez', h⟩ := (h3 f).2 c3
          rw [ez] at ez'
          cases ez'
          exact h
        rw [e3] at finish
        cases c4 : complaint .marketData w with
        | some e =>
          obtain ⟨s', a, g1, g2⟩ := finish (.err e) ((h4 _).1 e c4)
          exact ⟨s', a, _, g1, g2, rfl⟩
        | none =>
          obtain ⟨w', ew, _⟩ := (h4 (fun _ => none)).2 c4
          rw [Option.none_or]
          have e4 (f : W.MarketData → Option (Res (Handle W))) : andThen (readAs Handle.asMarketData s mkt) f = f w' := by
            obtain ⟨w'', ew', h⟩ := (h4 f).2 c4
            rw [ew] at ew'
            cases ew'
            exact h
          rw [e4] at finish
          cases c5 : complaints (vs.map fun v => (.reportGenerator, v)) with
          | some e =>
            obtain ⟨s', a, g1, g2⟩ := finish (.err e) (by rw [h5.1 e c5]; rfl)
            exact ⟨s', a, _, g1, g2, rfl⟩
          | none =>
            obtain ⟨vs', ev, h6⟩ := h5.2 c5
            obtain ⟨s', a, g1, g2⟩ := finish _ (by rw [h6]; rfl)
            refine ⟨s', a, _, g1, g2, x', y', z', w', vs', ?_, ?_, ?_, ?_, ?_, ?_⟩
            · cases x <;> first | (cases ex; rfl) | cases ex
            · cases y <;> first | (cases ey; rfl) | cases ey
            · cases z <;> first | (cases ez; rfl) | cases ez
            · cases w <;> first | (cases ew; rfl) | cases ew
            · clear h5 h6 c5 hv finish g1 g2
              induction ev with
              | nil => rfl
              | @cons v v' _ _ h _ ih =>
                rw [List.map_cons, ← ih]
                congr 1
                cases v <;> first | (cases h; rfl) | cases h
            · cases W.calculate x' y' z' w' vs' <;> rfl

/-- C54, arguments of an instrument, likewise: first its currencies and then its components. The file comes before them. -/
theorem C54_instrument {source : Source} {d d' : Dedup} {ccys instrs : List Nat} {xs ys : List (Handle W)}
    (hx : List.Forall₂ (fun a v => s.handles.get a = some v) ccys xs) (hy : List.Forall₂ (fun a v => s.handles.get a = some v) instrs ys) :
    ∃ s' a h, step A s (.instrument source d ccys d' instrs) = some (s', .handle a) ∧ s'.handles.get a = some h ∧
      match source.open (W := W) with
      | .err e => h = .err e
      | .panic => h = .err "Caught panic when creating handle"
      | .ok b =>
        match complaints ((xs.map fun x => (.currency, x)) ++ ys.map fun y => (.instrument, y)) with
        | some e => h = .err e
        | none => ∃ xs' ys', xs = xs'.map .currency ∧ ys = ys'.map .instrument ∧ h =
            match W.instrumentFromJson b d xs' d' ys' with
            | .ok x => .instrument x
            | .err e => .err e
            | .panic => .err "Caught panic when creating handle" := by
  have finish (b : Res (Handle W)) (hb : instrumentBody s source d ccys d' instrs = some b) :
      ∃ s' a, step A s (.instrument source d ccys d' instrs) = some (s', .handle a) ∧ s'.handles.get a = some (returned b) := by
    have : step A s (.instrument source d ccys d' instrs) = some (returnHandle A s b) := by
      show (instrumentBody s source d ccys d' instrs).map _ = _
      rw [hb]
      rfl
    rw [this]
    cases b <;> exact ⟨_, _, rfl, newHandle_read s _ rfl⟩
  have happ (l l' : List (Kind × Handle W)) : complaints (l ++ l') = (complaints l).or (complaints l') := by
    induction l with
    | nil => rfl
    | cons e l ih => rw [List.cons_append, complaints, complaints, ih, Option.or_assoc]
  have h1 := readAll_fault (s := s) complaint_currency hx
  have h2 := readAll_fault (s := s) complaint_instrument hy
  unfold instrumentBody withSource at finish
  cases ho : source.open (W := W) with
  | err e =>
    obtain ⟨s', a, g1, g2⟩ := finish (.err e) (by rw [ho])
    exact ⟨s', a, _, g1, g2, rfl⟩
  | panic =>
    obtain ⟨s', a, g1, g2⟩ := finish .panic (by rw [ho])
    exact ⟨s', a, _, g1, g2, rfl⟩
  | ok b =>
    rw [ho] at finish
    dsimp only at finish ⊢
    rw [happ]
    cases c1 : complaints (xs.map fun x => (Kind.currency, x)) with
    | some e =>
      obtain ⟨s', a, g1, g2⟩ := finish (.err e) (by rw [h1.1 e c1]; rfl)
      exact ⟨s', a, _, g1, g2, rfl⟩
    | none =>
      obtain ⟨xs', ex, h3⟩ := h1.2 c1
      rw [h3] at finish
      rw [Option.none_or]
      cases c2 : complaints (ys.map fun y => (Kind.instrument, y)) with
      | some e =>
        obtain ⟨s', a, g1, g2⟩ := finish (.err e) (by rw [h2.1 e c2]; rfl)
        exact ⟨s', a, _, g1, g2, rfl⟩
      | none =>
        obtain ⟨ys', ey, h4⟩ := h2.2 c2
        obtain ⟨s', a, g1, g2⟩ := finish (fromResult .instrument (W.instrumentFromJson b d xs' d' ys')) (by rw [h4]; rfl)
        refine ⟨s', a, _, g1, g2, xs', ys', ?_, ?_, ?_⟩
        · clear h1 h3 c1 hx finish g1 g2
          induction ex with
          | nil => rfl
          | @cons v v' _ _ h _ ih =>
            rw [List.map_cons, ← ih]
            congr 1
            cases v <;> first | (cases h; rfl) | cases h
        · clear h2 h4 c2 hy finish g1 g2
          induction ey with
          | nil => rfl
          | @cons v v' _ _ h _ ih =>
            rw [List.map_cons, ← ih]
            congr 1
            cases v <;> first | (cases h; rfl) | cases h
        · cases W.instrumentFromJson b d xs' d' ys' <;> rfl

/-- C54, loading. The result of loading a currency from a text is the currency, the error, or a message that there was a panic, and so on for
the other kinds. -/
theorem C54_load (s : State W) (text : String) :
    (∃ s' a, step A s (.currency (.text text)) = some (s', .handle a) ∧ s'.handles.get a =
      some (match W.currencyFromJson (W.bytes text) with | .ok x => .currency x | .err e => .err e | .panic => .err "Caught panic when creating handle")) ∧
    (∃ s' a, step A s (.pricerFactory (.text text)) = some (s', .handle a) ∧ s'.handles.get a =
      some (match W.pricerFactoryFromJson (W.bytes text) with | .ok x => .pricerFactory x | .err e => .err e | .panic => .err "Caught panic when creating handle")) ∧
    (∃ s' a, step A s (.fixingTable (.text text)) = some (s', .handle a) ∧ s'.handles.get a =
      some (match W.fixingTableFromJson (W.bytes text) with | .ok x => .fixingTable x | .err e => .err e | .panic => .err "Caught panic when creating handle")) ∧
    (∃ s' a, step A s (.marketData (.text text)) = some (s', .handle a) ∧ s'.handles.get a =
      some (match W.marketDataFromJson (W.bytes text) with | .ok x => .marketData x | .err e => .err e | .panic => .err "Caught panic when creating handle")) ∧
    (∃ s' a, step A s (.reportGenerator (.text text)) = some (s', .handle a) ∧ s'.handles.get a =
      some (match W.reportGeneratorFromJson (W.bytes text) with | .ok x => .reportGenerator x | .err e => .err e | .panic => .err "Caught panic when creating handle")) ∧
    (∃ s' a, step A s (.reports (.text text)) = some (s', .handle a) ∧ s'.handles.get a =
      some (match W.reportsFromJson (W.bytes text) with | .ok x => .reports x | .err e => .err e | .panic => .err "Caught panic when creating handle")) := by
  refine ⟨?_, ?_, ?_, ?_, ?_, ?_⟩ <;> unfold step withSource Source.open <;> dsimp only [Option.map]
  · cases W.currencyFromJson (W.bytes text) <;> exact ⟨_, _, rfl, newHandle_read s _ rfl⟩
  · cases W.pricerFactoryFromJson (W.bytes text) <;> exact ⟨_, _, rfl, newHandle_read s _ rfl⟩
  · cases W.fixingTableFromJson (W.bytes text) <;> exact ⟨_, _, rfl, newHandle_read s _ rfl⟩
  · cases W.marketDataFromJson (W.bytes text) <;> exact ⟨_, _, rfl, newHandle_read s _ rfl⟩
  · cases W.reportGeneratorFromJson (W.bytes text) <;> exact ⟨_, _, rfl, newHandle_read s _ rfl⟩
  · cases W.reportsFromJson (W.bytes text) <;> exact ⟨_, _, rfl, newHandle_read s _ rfl⟩

/-- C54, comparison of reports. Both handles are freed in any case; the result is the complaint about the first argument that is not reports, or
else that of the comparison, or the empty handle. -/
theorem C54_compare {a b : Nat} {x y : Handle W} (tol : W.Tolerances) (hx : s.handles.get a = some x) (hy : s.handles.get b = some y) (hab : a ≠ b) :
    ∃ s' i h, step A s (.compare a b tol) = some (s', .handle i) ∧ s'.handles.get i = some h ∧
      (∀ j, j = a ∨ j = b → j ≠ i → s'.handles.get j = none) ∧
      match complaints [(.reports, x), (.reports, y)] with
      | some e => h = .err e
      | none => ∃ x' y', x = .reports x' ∧ y = .reports y' ∧ h =
        match W.compare x' y' tol with
        | .ok _ => .empty
        | .err e => .err e
        | .panic => .err "Caught panic when creating handle" := by
  have hstep : step A s (.compare a b tol) =
      some (returnHandle A ⟨(s.handles.remove a).remove b, s.strings⟩ (compareBody x.asReports y.asReports tol)) := by
    unfold step
    dsimp only
    rw [hx]
    dsimp only
    rw [Map.get_remove, if_neg (Ne.symm hab), hy]
  have finish (z : Res (Handle W)) (hz : compareBody x.asReports y.asReports tol = z) :
      ∃ s' i, step A s (.compare a b tol) = some (s', .handle i) ∧ s'.handles.get i =
        some (returned z) ∧
        (∀ j, j = a ∨ j = b → j ≠ i → s'.handles.get j = none) := by
    rw [hstep, hz]
    have hn (h : Handle W) (j : Nat) (hj : j = a ∨ j = b)
        (hji : j ≠ A.choose (used ((s.handles.remove a).remove b))) :
        (((s.handles.remove a).remove b).insert (A.choose (used ((s.handles.remove a).remove b))) h).get j = none := by
      rw [Map.get_insert_ne _ _ hji, Map.get_remove, Map.get_remove]
      rcases hj with rfl | rfl <;> simp
    cases z <;> exact ⟨_, _, rfl, newHandle_read (A := A) ⟨(s.handles.remove a).remove b, s.strings⟩ _ rfl, hn _⟩
  have hcx := complaint_reports x
  have hcy := complaint_reports y
  simp only [complaints, Option.or_none]
  cases c1 : complaint .reports x with
  | some e =>
    rw [c1] at hcx
    have hax : x.asReports = .error e := by
      cases h : x.asReports with
      | error e' => rw [h] at hcx; cases hcx; rfl
      | ok _ => rw [h] at hcx; cases hcx
    obtain ⟨s', i, g1, g2, g3⟩ := finish (.err e) (by rw [hax]; rfl)
    exact ⟨s', i, _, g1, g2, g3, rfl⟩
  | none =>
    rw [c1] at hcx
    obtain ⟨x', hax⟩ : ∃ x', x.asReports = .ok x' := by
      cases h : x.asReports with
      | error e' => rw [h] at hcx; cases hcx
      | ok x' => exact ⟨x', rfl⟩
    rw [Option.none_or]
    cases c2 : complaint .reports y with
    | some e =>
      rw [c2] at hcy
      have hay : y.asReports = .error e := by
        cases h : y.asReports with
        | error e' => rw [h] at hcy; cases hcy; rfl
        | ok _ => rw [h] at hcy; cases hcy
      obtain ⟨s', i, g1, g2, g3⟩ := finish (.err e) (by rw [hax, hay]; rfl)
      exact ⟨s', i, _, g1, g2, g3, rfl⟩
    | none =>
      rw [c2] at hcy
      obtain ⟨y', hay⟩ : ∃ y', y.asReports = .ok y' := by
        cases h : y.asReports with
        | error e' => rw [h] at hcy; cases hcy
        | ok y' => exact ⟨y', rfl⟩
      obtain ⟨s', i, g1, g2, g3⟩ := finish (fromResult (fun _ => .empty) (W.compare x' y' tol)) (by rw [hax, hay]; rfl)
      refine ⟨s', i, _, g1, g2, g3, x', y', ?_, ?_, ?_⟩
      · cases x <;> first | (cases hax; rfl) | cases hax
      · cases y <;> first | (cases hay; rfl) | cases hay
      · cases W.compare x' y' tol <;> rfl

/-- C54, errors. `qm_is_error` tells whether a handle is an error, and `qm_error_string` returns its message, if that has no zero byte in it; for other
handles it returns a message about their kind. -/
theorem C54_error {a : Nat} {x : Handle W} (hx : s.handles.get a = some x) :
    step A s (.isError a) = some (s, .flag (decide (kind x = .error))) ∧
    ∃ s' p, step A s (.errorString a) = some (s', .string p) ∧ s'.handles = s.handles ∧
      ∀ e, x = .err e → '\x00' ∉ e.toList → s'.strings.get p = some e := by
  constructor
  · unfold step
    dsimp only
    rw [hx]
    cases x <;> rfl
  · refine ⟨⟨s.handles, s.strings.insert (A.choose (used s.strings)) (cString "Caught panic when converting error string" (.ok x.asError))⟩,
      A.choose (used s.strings), ?_, ?_, ?_⟩
    · unfold step
      dsimp only
      rw [hx]
      rfl
    · rfl
    · rintro e rfl h0
      rw [Map.get_insert_self]
      unfold cString Handle.asError
      dsimp only
      rw [if_neg h0]

/-- C54, clones. A clone is another handle to the same object, except that one of reports is an error. -/
theorem C54_clone {a : Nat} {x : Handle W} (hx : s.handles.get a = some x) (hp : W.printPanics = false) :
    ∃ s' b, step A s (.clone a) = some (s', .handle b) ∧ a ≠ b ∧ s'.handles.get a = some x ∧
      (kind x ≠ .reports → s'.handles.get b = some x) ∧
      (kind x = .reports → s'.handles.get b = some (.err "Reports cannot be cloned")) := by
  have hab : a ≠ A.choose (used s.handles) := by
    intro e
    have := choose_free (A := A) s.handles
    rw [← e, hx] at this
    cases this
  refine ⟨⟨s.handles.insert (A.choose (used s.handles)) x.clone, s.strings⟩, A.choose (used s.handles), ?_, hab, ?_, ?_, ?_⟩
  · unfold step
    dsimp only
    rw [if_neg (by simp [hp]), hx]
    rfl
  · rw [Map.get_insert_ne _ _ hab, hx]
  · intro h
    rw [Map.get_insert_self]
    cases x <;> first | rfl | exact absurd rfl h
  · intro h
    rw [Map.get_insert_self]
    cases x <;> first | rfl | cases h

/-! ### Cases -/

/-- An allocator that takes the smallest address that is free. -/
def smallest (used : List Nat) : Nat := ((List.range (used.length + 1)).find? fun a => a ∉ used).getD 0

theorem smallest_fresh (l : List Nat) : smallest l ∉ l := by
  unfold smallest
  cases h : (List.range (l.length + 1)).find? fun a => a ∉ l with
  | some a => simpa using List.find?_some h
  | none =>
    rw [List.find?_eq_none] at h
    have hsub : List.range (l.length + 1) ⊆ l := by
      intro a ha
      simpa using h a ha
    have := (List.subperm_of_subset List.nodup_range hsub).length_le
    simp at this
    omega

/-- An allocator that reuses addresses. -/
def reusing : Allocator := ⟨smallest, smallest_fresh⟩

/-- A world in which there is one object of each kind, a text is read as reports, generators and so on unless it is "bad", a calculation gives one report, and
reports are equal. -/
def tinyWorld : World where
  Instrument := Unit
  Currency := Unit
  MarketData := Unit
  FixingTable := Unit
  PricerFactory := Unit
  ReportGenerator := Unit
  Report := Unit
  Bytes := Bool
  Tolerances := Unit
  openFile _ := .err "No such file"
  bytes text := text.length ≠ 3
  instrumentFromJson b _ _ _ _ := if b then .ok () else .err "not an instrument"
  currencyFromJson b := if b then .ok () else .err "not a currency"
  pricerFactoryFromJson b := if b then .ok () else .panic
  fixingTableFromJson b := if b then .ok () else .err "\x00"
  marketDataFromJson b := if b then .ok () else .err "not market data"
  reportGeneratorFromJson b := if b then .ok () else .err "not a report generator"
  reportsFromJson b := if b then .ok [()] else .err "not reports"
  calculate _ _ _ _ _ := .ok [()]
  compare _ _ _ := .ok ()
  write _ := .ok "[]"
  printPanics := false

/-- C54: a session in which a currency is loaded, used to load an instrument, and freed; another is loaded, which gets the same address; the handles
left are at 0 and 1. -/
example : ∃ s, Session (W := tinyWorld) reusing
    [(.currency (.text "GBP..."), .handle 0), (.freeHandle 0, .nothing), (.instrument (.text "{...}") .inline [0] .inline [], .handle 1),
      (.isError 0, .flag false), (.currency (.text "USD..."), .handle 0)] s ∧
    held [((.currency (.text "GBP...") : Call tinyWorld), Reply.handle 0), (.freeHandle 0, .nothing), (.instrument (.text "{...}") .inline [0] .inline [], .handle 1),
      (.isError 0, .flag false), (.currency (.text "USD..."), .handle 0)] = [0, 1] := by
  refine ⟨_, .call (.call (.call (.call (.call .start ⟨?_, ?_, ?_⟩ rfl) ⟨?_, ?_, ?_⟩ rfl) ⟨?_, ?_, ?_⟩ rfl) ⟨?_, ?_, ?_⟩ rfl) ⟨?_, ?_, ?_⟩ rfl, by decide⟩ <;>
    decide

/-- C54 violated: nothing in the documentation of the comparison says that its two handles must be different, but a user who compares reports with
themselves frees them twice. -/
theorem C54_false (s : State W) (a : Nat) (tol : W.Tolerances) : step A s (.compare a a tol) = none := by
  unfold step
  dsimp only
  cases s.handles.get a with
  | none => rfl
  | some x =>
    dsimp only
    rw [Map.get_remove, if_pos rfl]

/-- C54 violated: that handle may be one that the user holds and that contains reports. -/
theorem C54_same_false : ∃ s, Session (W := tinyWorld) reusing [(.reports (.text "[...]"), .handle 0)] s ∧ 0 ∈ held [((.reports (.text "[...]") : Call tinyWorld), Reply.handle 0)] ∧
    s.handles.get 0 = some (.reports [()]) ∧ step reusing s (.compare 0 0 ()) = none :=
  ⟨_, .call .start ⟨by decide, by decide, by decide⟩ rfl, by decide, rfl, C54_false _ _ _⟩

/-- C54 violated: an error whose message has a zero byte in it, as one that quotes a name from a JSON text can, is not passed on. -/
theorem C54_message_false : ∃ s s' a p, Session (W := tinyWorld) reusing [(.fixingTable (.text "bad"), .handle a)] s ∧
    s.handles.get a = some (.err "\x00") ∧ step reusing s (.errorString a) = some (s', .string p) ∧
    s'.strings.get p = some "Caught panic when converting error string" :=
  ⟨_, _, 0, 0, .call .start ⟨by decide, by decide, by decide⟩ rfl, rfl, rfl, rfl⟩

end QM.Facade
