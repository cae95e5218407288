import Verif.Basic

/-!
# Finite maps

`std::collections::HashMap` as an association list. `insert` replaces any earlier entry and reports it, as
the Rust method does. The order of the list stands for the unspecified iteration order.
-/

namespace QM

/-- A finite map. -/
structure Map (κ ν : Type) where
  entries : List (κ × ν)
deriving DecidableEq, Repr

namespace Map
variable {κ ν : Type} [DecidableEq κ]

/-- `HashMap::new`. -/
def empty : Map κ ν := ⟨[]⟩

/-- `HashMap::get`. -/
def get (m : Map κ ν) (k : κ) : Option ν := (m.entries.find? (fun e => e.1 = k)).map Prod.snd

/-- `HashMap::insert`, without the returned old value (which is `get` before the insertion). -/
def insert (m : Map κ ν) (k : κ) (v : ν) : Map κ ν := ⟨(k, v) :: m.entries.filter (fun e => ¬ e.1 = k)⟩

/-- `HashMap::remove`. -/
def remove (m : Map κ ν) (k : κ) : Map κ ν := ⟨m.entries.filter (fun e => ¬ e.1 = k)⟩

@[simp] theorem get_empty (k : κ) : (empty : Map κ ν).get k = none := rfl

theorem find_filter_ne (l : List (κ × ν)) {k k' : κ} (h : k' ≠ k) :
    (l.filter (fun e => ¬ e.1 = k)).find? (fun e => e.1 = k') = l.find? (fun e => e.1 = k') := by
  induction l with
  | nil => rfl
  | cons e l ih =>
    by_cases he : e.1 = k
    · rw [List.filter_cons, if_neg (by simpa using he), ih, List.find?_cons]
      have : ¬ e.1 = k' := fun h' => h (h'.symm.trans he)
      simp [this]
    · rw [List.filter_cons, if_pos (by simpa using he), List.find?_cons, List.find?_cons, ih]

theorem find_filter_eq (l : List (κ × ν)) (k : κ) :
    (l.filter (fun e => ¬ e.1 = k)).find? (fun e => e.1 = k) = none := by
  rw [List.find?_eq_none]
  intro e he
  rw [List.mem_filter] at he
  simpa using he.2

theorem get_insert (m : Map κ ν) (k k' : κ) (v : ν) :
    (m.insert k v).get k' = if k' = k then some v else m.get k' := by
  unfold insert get
  by_cases h : k' = k
  · subst h; simp
  · have h' : ¬ k = k' := fun e => h e.symm
    simp only [List.find?_cons, h', decide_false, if_neg h]
    rw [find_filter_ne _ h]

@[simp] theorem get_insert_self (m : Map κ ν) (k : κ) (v : ν) : (m.insert k v).get k = some v := by
  rw [get_insert, if_pos rfl]

theorem get_insert_ne (m : Map κ ν) {k k' : κ} (v : ν) (h : k' ≠ k) : (m.insert k v).get k' = m.get k' := by
  rw [get_insert, if_neg h]

theorem get_remove (m : Map κ ν) (k k' : κ) : (m.remove k).get k' = if k' = k then none else m.get k' := by
  unfold remove get
  by_cases h : k' = k
  · subst h; rw [find_filter_eq, if_pos rfl]; rfl
  · rw [find_filter_ne _ h, if_neg h]

end Map
end QM
