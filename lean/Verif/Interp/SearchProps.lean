import Verif.Interp.Search

/-!
# Property C15: the search
-/

namespace QM.Interp

/-- C15, the search. On increasing abscissae the standard library's binary chop finds the position that the model of the
interpolators assumes: the first pillar that is not before `x`, and whether it is `x`. -/
theorem C15_search {K : Type} [Field K] [LinearOrder K] {points : List (K × K)} (x : K)
    (hs : points.Pairwise (fun p q => p.1 < q.1)) : binarySearch points x = search points x := by
  have hsplit := List.takeWhile_append_dropWhile (p := fun p : K × K => decide (p.1 < x)) (l := points)
  have hl : ∀ p ∈ points.takeWhile (fun p => decide (p.1 < x)), p.1 < x := by
    intro p hp
    have h := List.all_takeWhile (p := fun p : K × K => decide (p.1 < x)) (l := points)
    rw [List.all_eq_true] at h
    simpa using h p hp
  have hr : ∀ p ∈ (points.dropWhile (fun p => decide (p.1 < x))).head?, x ≤ p.1 := by
    intro p hp
    cases hd : points.dropWhile (fun p => decide (p.1 < x)) with
    | nil => rw [hd] at hp; simp at hp
    | cons q rest =>
      have hne : points.dropWhile (fun p => decide (p.1 < x)) ≠ [] := by rw [hd]; simp
      have h := List.head_dropWhile_not (fun p : K × K => decide (p.1 < x)) hne
      rw [hd] at hp
      simp only [hd, List.head_cons, decide_eq_false_iff_not, not_lt] at h
      simp at hp
      rw [← hp]; exact h
  rw [← hsplit] at hs ⊢
  rw [binarySearch_append hs hl hr, search_append _ _ hl hr]

/-- A chop through five pillars, and past both ends. -/
example : binarySearch [((1 : Int), 'a'), (3, 'b'), (4, 'c'), (8, 'd'), (9, 'e')] 8 = (3, true)
    ∧ binarySearch [((1 : Int), 'a'), (3, 'b'), (4, 'c'), (8, 'd'), (9, 'e')] 7 = (3, false)
    ∧ binarySearch [((1 : Int), 'a'), (3, 'b'), (4, 'c'), (8, 'd'), (9, 'e')] 0 = (0, false)
    ∧ binarySearch [((1 : Int), 'a'), (3, 'b'), (4, 'c'), (8, 'd'), (9, 'e')] 10 = (5, false) := by
  refine ⟨?_, ?_, ?_, ?_⟩ <;> simp [binarySearch, chop]

end QM.Interp
