import Verif.Interp.Lemmas

/-!
# The binary chop of the standard library

`linear_interpolate_extrapolate` (`interpolation.rs:136`) and `CubicSpline::interpolate` (`interpolation.rs:287`) call
`[T]::binary_search_by`, which is not part of the repository. `Interp.search` is its documented contract. Here is the loop
itself, as in the standard library of the time (Rust 1.25 to 1.51), and the proof that the two agree on increasing
abscissae.
-/

namespace QM.Interp

/-- The loop of `binary_search_by`: `notAfter i` says that element `i` does not compare greater than what is sought. -/
def chop (notAfter : Nat → Bool) (base size : Nat) : Nat :=
  if h : 1 < size then
    chop notAfter (if notAfter (base + size / 2) then base + size / 2 else base) (size - size / 2)
  else base
termination_by size
decreasing_by omega

variable {K A : Type} [LinearOrder A]

/-- `binary_search_by`: `(i, true)` for `Ok(i)` and `(i, false)` for `Err(i)`. -/
def binarySearch (points : List (A × K)) (x : A) : Nat × Bool :=
  match points with
  | [] => (0, false)
  | p :: rest =>
    let at_ (i : Nat) : A := ((p :: rest).getD i p).1
    let b := chop (fun i => decide (at_ i ≤ x)) 0 (p :: rest).length
    if at_ b = x then (b, true) else if at_ b < x then (b + 1, false) else (b, false)

omit [LinearOrder A] in
theorem chop_spec (notAfter : Nat → Bool) (n : Nat) (hmono : ∀ i, i + 1 < n → notAfter (i + 1) = true → notAfter i = true) :
    ∀ size base, 0 < size → base + size ≤ n →
    (base = 0 ∨ notAfter base = true) → (base + size = n ∨ notAfter (base + size) = false) →
    chop notAfter base size < n ∧ (chop notAfter base size = 0 ∨ notAfter (chop notAfter base size) = true) ∧
      (chop notAfter base size + 1 = n ∨ notAfter (chop notAfter base size + 1) = false) := by
  intro size
  induction size using Nat.strong_induction_on with
  | _ size ih =>
    intro base h0 hn hl hr
    rw [chop]
    by_cases h : 1 < size
    · rw [dif_pos h]
      by_cases hm : notAfter (base + size / 2) = true
      · rw [if_pos hm]
        refine ih _ (by omega) _ (by omega) (by omega) (.inr hm) ?_
        rwa [show base + size / 2 + (size - size / 2) = base + size by omega]
      · rw [if_neg hm]
        have hm' : notAfter (base + size / 2) = false := by simpa using hm
        refine ih _ (by omega) _ (by omega) (by omega) hl ?_
        by_cases he : size - size / 2 = size / 2
        · rw [he]; exact .inr hm'
        · have he' : size - size / 2 = size / 2 + 1 := by omega
          rw [he', ← Nat.add_assoc]
          by_cases hc : base + size / 2 + 1 = n
          · exact .inl hc
          · refine .inr ?_
            by_contra hf
            exact hm (hmono _ (by omega) (by simpa using hf))
    · rw [dif_neg h]
      have : size = 1 := by omega
      subst this
      exact ⟨by omega, hl, hr⟩

omit [LinearOrder A] in
theorem getD_lt {xs : List (A × K)} (d : A × K) {i : Nat} (h : i < xs.length) : xs.getD i d = xs[i] := by
  simp [List.getD_eq_getElem?_getD, List.getElem?_eq_getElem h]

/-- What the search finds in a list with increasing keys. -/
theorem binarySearch_append {l r : List (A × K)} {x : A} (hs : (l ++ r).Pairwise (fun p q => p.1 < q.1))
    (hl : ∀ p ∈ l, p.1 < x) (hr : ∀ p ∈ r.head?, x ≤ p.1) :
    binarySearch (l ++ r) x = (l.length, (r.head?.map Prod.fst) == some x) := by
  cases hlr : l ++ r with
  | nil =>
    rw [List.append_eq_nil_iff] at hlr
    rw [hlr.1, hlr.2]; rfl
  | cons p0 rest =>
    rw [← hlr]
    have hne : 0 < (l ++ r).length := by rw [hlr]; simp
    -- keys by position
    have key : ∀ i, i < (l ++ r).length → ((decide (((l ++ r).getD i p0).1 ≤ x)) = true ↔
        (i < l.length ∨ (i = l.length ∧ (r.head?.map Prod.fst) = some x))) := by
      intro i hi
      rw [decide_eq_true_iff, getD_lt _ hi]
      by_cases h1 : i < l.length
      · rw [List.getElem_append_left h1]
        exact ⟨fun _ => .inl h1, fun _ => (hl _ (List.getElem_mem h1)).le⟩
      · rw [List.getElem_append_right (by omega)]
        cases r with
        | nil => simp at hi; omega
        | cons q r =>
          have hq : x ≤ q.1 := hr q (by simp)
          by_cases h2 : i = l.length
          · subst h2
            simp only [Nat.sub_self, List.getElem_cons_zero, List.head?_cons, Option.map_some, Option.some.injEq,
              lt_irrefl, false_or, true_and]
            exact ⟨fun h => le_antisymm h hq, fun h => h.le⟩
          · constructor
            · intro hle
              exfalso
              rw [List.pairwise_append] at hs
              obtain ⟨k, hk⟩ : ∃ k, i - l.length = k + 1 := ⟨i - l.length - 1, by omega⟩
              have := (List.pairwise_cons.1 hs.2.1).1 ((q :: r)[i - l.length]'(by simp at hi ⊢; omega)) (by
                simp only [hk, List.getElem_cons_succ]
                exact List.getElem_mem _)
              exact absurd (this.trans_le hle) (not_lt.2 hq)
            · rintro (h | h)
              · exact absurd h h1
              · exact absurd h.1 h2
    have hc := chop_spec (fun i => decide (((l ++ r).getD i p0).1 ≤ x)) (l ++ r).length (by
      intro i hi h
      rw [key _ (by omega)]
      rw [key _ hi] at h
      rcases h with h | h <;> left <;> omega) (l ++ r).length 0 hne (by omega) (.inl rfl) (.inl (by omega))
    have no : ∀ i, i < (l ++ r).length → decide (((l ++ r).getD i p0).1 ≤ x) = false →
        ¬ (i < l.length ∨ (i = l.length ∧ (r.head?.map Prod.fst) = some x)) := by
      intro i hi h h'
      rw [(key i hi).2 h'] at h
      exact absurd h (by simp)
    unfold binarySearch
    rw [hlr]
    dsimp only
    rw [← hlr]
    generalize chop (fun i => decide (((l ++ r).getD i p0).1 ≤ x)) 0 (l ++ r).length = b at hc ⊢
    obtain ⟨hb, hb0, hb1⟩ := hc
    by_cases hfound : (r.head?.map Prod.fst) = some x
    · have hlen : l.length < (l ++ r).length := by
        cases r with
        | nil => simp at hfound
        | cons q r => simp
      have hbl : b = l.length := by
        have k1 := key b hb
        have k2 := key l.length hlen
        rcases hb0 with h | h
        · by_contra hne'
          rcases hb1 with h1 | h1
          · omega
          · have k3 := no (b + 1) (by omega) h1
            rw [not_or] at k3
            have k4 : b + 1 ≠ l.length := fun h => k3.2 ⟨h, hfound⟩
            have k5 := k3.1
            omega
        · rcases k1.1 h with h2 | h2
          · rcases hb1 with h1 | h1
            · omega
            · have k3 := no (b + 1) (by omega) h1
              rw [not_or] at k3
              have k4 : b + 1 ≠ l.length := fun h => k3.2 ⟨h, hfound⟩
              have k5 := k3.1
              omega
          · exact h2.1
      have hx : ((l ++ r).getD b p0).1 = x := by
        rw [hbl, getD_lt _ hlen, List.getElem_append_right (by omega)]
        cases r with
        | nil => simp at hfound
        | cons q r => simpa using hfound
      rw [if_pos hx, hbl, hfound]
      simp
    · have hf : ((r.head?.map Prod.fst) == some x) = false := by simpa using hfound
      have hx : ((l ++ r).getD b p0).1 ≠ x := by
        intro h
        have hmem : b < l.length := by
          rcases (key b hb).1 (by rw [decide_eq_true_iff]; exact h.le) with h2 | h2
          · exact h2
          · exact absurd h2.2 hfound
        rw [getD_lt _ hb, List.getElem_append_left hmem] at h
        exact absurd h (hl _ (List.getElem_mem hmem)).ne
      rw [if_neg hx, hf]
      by_cases hlt : ((l ++ r).getD b p0).1 < x
      · rw [if_pos hlt]
        have hmem : b < l.length := by
          rcases (key b hb).1 (by rw [decide_eq_true_iff]; exact hlt.le) with h2 | h2
          · exact h2
          · exact absurd h2.2 hfound
        have : b + 1 = l.length := by
          rcases hb1 with h1 | h1
          · have : l.length ≤ (l ++ r).length := by simp
            omega
          · by_contra hne'
            have hb' : b + 1 < (l ++ r).length := by
              have : l.length ≤ (l ++ r).length := by simp
              omega
            have k3 := no (b + 1) hb' h1
            rw [not_or] at k3
            omega
        rw [this]
      · rw [if_neg hlt]
        have hnot : ¬ b < l.length := by
          intro h
          rw [getD_lt _ hb, List.getElem_append_left h] at hlt
          exact hlt (hl _ (List.getElem_mem h))
        have hb0' : b = 0 := by
          rcases hb0 with h | h
          · exact h
          · rcases (key b hb).1 h with h2 | h2
            · exact absurd h2 hnot
            · exact absurd h2.2 hfound
        have : l.length = 0 := by omega
        rw [hb0', this]

/-- The search by a key, as the index of the first element whose key is not before `x`. -/
theorem binarySearch_key {B : Type} (key : B → A) {xs : List B} {x : A} (hs : xs.Pairwise (fun a b => key a < key b)) :
    binarySearch (xs.map (fun b => (key b, b))) x = ((xs.takeWhile (fun b => decide (key b < x))).length,
      (xs[(xs.takeWhile (fun b => decide (key b < x))).length]?.map key) == some x) := by
  have hsplit := List.takeWhile_append_dropWhile (p := fun b : B => decide (key b < x)) (l := xs)
  have hl : ∀ b ∈ xs.takeWhile (fun b => decide (key b < x)), key b < x := by
    intro p hp
    have h := List.all_takeWhile (p := fun b : B => decide (key b < x)) (l := xs)
    rw [List.all_eq_true] at h
    simpa using h p hp
  have hr : ∀ p ∈ (xs.dropWhile (fun b => decide (key b < x))).head?, x ≤ key p := by
    intro p hp
    cases hd : xs.dropWhile (fun b => decide (key b < x)) with
    | nil => rw [hd] at hp; simp at hp
    | cons q rest =>
      have hne : xs.dropWhile (fun b => decide (key b < x)) ≠ [] := by rw [hd]; simp
      have h := List.head_dropWhile_not (fun b : B => decide (key b < x)) hne
      rw [hd] at hp
      simp only [hd, List.head_cons, decide_eq_false_iff_not, not_lt] at h
      simp at hp
      rw [← hp]; exact h
  have e : xs[(xs.takeWhile (fun b => decide (key b < x))).length]? = (xs.dropWhile (fun b => decide (key b < x))).head? := by
    generalize hL : xs.takeWhile (fun b => decide (key b < x)) = L at *
    conv_lhs => rw [← hsplit]
    rw [List.getElem?_append_right (le_refl _), List.head?_eq_getElem?, Nat.sub_self]
  rw [e]
  conv_lhs => rw [← hsplit, List.map_append]
  rw [binarySearch_append]
  · simp only [List.length_map, List.head?_map, Option.map_map]
    rfl
  · rw [← List.map_append, hsplit, List.pairwise_map]; exact hs
  · intro p hp
    obtain ⟨h, hh, rfl⟩ := List.mem_map.1 hp
    exact hl h hh
  · intro p hp
    rw [List.head?_map] at hp
    obtain ⟨q, hq, rfl⟩ := Option.mem_map.1 hp
    exact hr q hq

end QM.Interp
