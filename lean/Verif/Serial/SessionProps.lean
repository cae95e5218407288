import Verif.Serial.SessionModel
import Verif.Serial.DedupProps

/-!
# C50: dedup sessions nest without leaking
-/

namespace QM.Serial
open Spec

variable {α β : Type}

/-- Any computation that ends with a value or an error, run inside a session, leaves the thread-local
variable as it was. -/
theorem C50_restored (self : Session α) (key : Key) (f : Comp α β) (store : Store α)
    (h : (inSession self key f store).1 ≠ .error .panic) : (inSession self key f store).2 key = store key := by
  unfold inSession withSession swapIn at *
  dsimp only at *
  generalize f (fun k => if k = key then self else store k) = r at h ⊢
  obtain ⟨o, s⟩ := r
  match o with
  | .ok v => simp
  | .error .err => simp
  | .error .panic => exact absurd rfl h

/-- What the computation did to the other variables of the thread stays done. -/
theorem C50_others (self : Session α) (key : Key) (f : Comp α β) (store : Store α) (k : Key) (hk : k ≠ key) :
    (inSession self key f store).2 k = (f (fun k => if k = key then self else store k)).2 k := by
  unfold inSession withSession swapIn
  dsimp only
  generalize f (fun k => if k = key then self else store k) = r
  obtain ⟨o, s⟩ := r
  match o with
  | .ok v => simp [hk]
  | .error .err => simp [hk]
  | .error .panic => rfl

/-- The computation runs with its session active, its result is passed on, and the session ends up holding
what the computation left in the variable. -/
theorem C50_session (self : Session α) (key : Key) (f : Comp α β) (store : Store α) :
    (withSession self key f store).1.1 = (f (fun k => if k = key then self else store k)).1 ∧
    ((f (fun k => if k = key then self else store k)).1 ≠ .error .panic →
      (withSession self key f store).1.2 = (f (fun k => if k = key then self else store k)).2 key) := by
  unfold withSession swapIn
  dsimp only
  generalize f (fun k => if k = key then self else store k) = r
  obtain ⟨o, s⟩ := r
  match o with
  | .ok v => simp
  | .error .err => simp
  | .error .panic => simp

/-- At any depth of sessions inside sessions, in any order, on any of the variables: whatever the innermost
computation does, if it does not panic each variable that has a session comes back as it was before the
outermost session. -/
theorem C50_nested : ∀ (levels : List (Key × Session α)) (f : Comp α β) (store : Store α) (key : Key),
    key ∈ levels.map Prod.fst → (nest levels f store).1 ≠ .error .panic →
    (nest levels f store).2 key = store key
  | [], _, _, _, hk, _ => by simp at hk
  | (k, session) :: rest, f, store, key, hk, h => by
    by_cases he : key = k
    · subst he
      exact C50_restored session key (nest rest f) store h
    · have hk' : key ∈ rest.map Prod.fst := by
        rcases List.mem_cons.mp hk with h' | h'
        · exact absurd h' he
        · exact h'
      have h1 : (nest rest f (fun j => if j = k then session else store j)).1 ≠ .error .panic := by
        have h2 : (nest ((k, session) :: rest) f store).1 =
            (nest rest f (fun j => if j = k then session else store j)).1 :=
          (C50_session session k (nest rest f) store).1
        rw [← h2]; exact h
      show (inSession session k (nest rest f) store).2 key = store key
      rw [C50_others session k (nest rest f) store key he, C50_nested rest f _ key hk' h1, if_neg he]

/-- The innermost computation sees, for each variable, the innermost session on it. -/
theorem C50_innermost (levels : List (Key × Session α)) (f : Comp α β) (store : Store α) (key : Key)
    (session : Session α) : (nest (levels ++ [(key, session)]) f store).1 =
      (nest levels (fun s => (f (fun k => if k = key then session else s k))) store).1 := by
  induction levels generalizing store with
  | nil => exact (C50_session session key f store).1
  | cons l levels ih =>
    obtain ⟨k, s⟩ := l
    have h1 := (C50_session s k (nest (levels ++ [(key, session)]) f) store).1
    have h2 := (C50_session s k (nest levels (fun s => (f (fun k => if k = key then session else s k)))) store).1
    show (withSession s k (nest (levels ++ [(key, session)]) f) store).1.1 =
      (withSession s k (nest levels _) store).1.1
    rw [h1, h2]
    exact ih _

/-- Put together with C49: a graph whose identifiers identify its parts, written inside a new write-once
session and read back inside another, wherever the thread is, comes back as itself and leaves the thread as
it was. -/
theorem C50_round_trip (known : Known α) (n : Node α) (h : Identified known n) (key : Key) (store : Store α) :
    ∃ t, inSession ⟨.writeOnce, known⟩ key (writePart key n) store = (.ok t, store) ∧
      inSession ⟨.writeOnce, known⟩ key (readPart key t) store = (.ok n, store) := by
  obtain ⟨t, k1, k2, h1, h2, _⟩ := C49_writeOnce_partial known n h
  refine ⟨t, ?_, ?_⟩
  · unfold inSession withSession swapIn writePart
    simp only [if_true, h1]
    congr 1
    funext k
    by_cases hk : k = key
    · simp [hk]
    · simp [hk]
  · unfold inSession withSession swapIn readPart
    simp only [if_true, h2]
    congr 1
    funext k
    by_cases hk : k = key
    · simp [hk]
    · simp [hk]

/-- **Limit of the claim.** A panic inside a session is not covered: the session stays active on the thread,
so that later uses of the thread see it. -/
theorem C50_panic_false (self : Session α) (key : Key) (store : Store α) :
    (inSession self key (fun s => (.error .panic, s)) store : Outcome β × Store α) =
      (.error .panic, fun k => if k = key then self else store k) := rfl

/-- A session on instruments inside a session on currencies, as in `instrument_from_json`; the text names a
part that is not known, so that the result is an error; both variables come back. -/
example : (nest [(.currency, ⟨.inline, Map.empty⟩), (.instrument, ⟨.errorIfMissing, Map.empty⟩)]
      (readPart .instrument (.ref "a")) (fun _ => (⟨.inline, Map.empty⟩ : Session Nat))).1 = .error .err ∧
    ∀ key, (nest [(.currency, ⟨.inline, Map.empty⟩), (.instrument, ⟨.errorIfMissing, Map.empty⟩)]
      (readPart .instrument (.ref "a")) (fun _ => (⟨.inline, Map.empty⟩ : Session Nat))).2 key =
        ⟨.inline, Map.empty⟩ := by
  refine ⟨rfl, fun key => C50_nested _ _ _ key ?_ ?_⟩
  · cases key <;> simp
  · intro h; cases h

end QM.Serial
