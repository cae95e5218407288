import Verif.Interp.PropLemmas

/-!
# Helper lemmas for C112: dropping a point from a table
-/

namespace QM.Interp
open QM.Interp.Spec

section
variable {K : Type} [Field K] [LinearOrder K]

theorem line_left {a m b : K × K} (hm : m.2 = line a b m.1) (h1 : a.1 < m.1) (h2 : m.1 < b.1) (x : K) : line a m x = line a b x := by
  have h3 : m.1 - a.1 ≠ 0 := sub_ne_zero.2 h1.ne'
  have h4 : b.1 - a.1 ≠ 0 := sub_ne_zero.2 (h1.trans h2).ne'
  unfold line at hm ⊢
  rw [hm]
  field_simp
  ring

theorem line_right {a m b : K × K} (hm : m.2 = line a b m.1) (h1 : a.1 < m.1) (h2 : m.1 < b.1) (x : K) : line m b x = line a b x := by
  have h3 : b.1 - m.1 ≠ 0 := sub_ne_zero.2 h2.ne'
  have h4 : b.1 - a.1 ≠ 0 := sub_ne_zero.2 (h1.trans h2).ne'
  unfold line at hm ⊢
  rw [hm]
  field_simp
  ring

theorem takeWhile_stop {K : Type} [LinearOrder K] {l r : List (K × K)} {a : K × K} {x : K} (h : x ≤ a.1) :
    (l ++ a :: r).takeWhile (fun p => decide (p.1 < x)) = l.takeWhile (fun p => decide (p.1 < x)) := by
  induction l with
  | nil => simp [not_lt.2 h]
  | cons p l ih => simp only [List.cons_append, List.takeWhile_cons, ih]

theorem takeWhile_pass {K : Type} [LinearOrder K] {l r : List (K × K)} {x : K} (h : ∀ p ∈ l, p.1 < x) :
    (l ++ r).takeWhile (fun p => decide (p.1 < x)) = l ++ r.takeWhile (fun p => decide (p.1 < x)) := by
  induction l with
  | nil => rfl
  | cons p l ih =>
    have := h p (by simp)
    simp only [List.cons_append, List.takeWhile_cons, this, decide_true, if_true]
    rw [ih (fun q hq => h q (by simp [hq]))]

/-- What is answered once the search has found the place `i` in a table of `n` points. -/
def pick (p : Nat → K × K) (n i : Nat) (found : Bool) (left right : Extrap) (x : K) : Outcome (Num K) :=
  if found then .ok (.val (p i).2)
  else if i = 0 then
    if left.isNatural ∧ n > 1 then linearInterpolate (p 0) (p 1) x
    else left.extrapolate (p 0).2
  else if i ≥ n then
    if left.isNatural ∧ n > 1 then linearInterpolate (p (n - 2)) (p (n - 1)) x
    else right.extrapolate (p (n - 1)).2
  else linearInterpolate (p (i - 1)) (p i) x

theorem numbers_pick {points : List (K × K)} (h : points.length ≠ 0) (left right : Extrap) (x : K) :
    interpolateNumbers x points left right =
      pick (fun i => points.getD i (0, 0)) points.length (points.takeWhile (fun p => decide (p.1 < x))).length
        ((points[(points.takeWhile (fun p => decide (p.1 < x))).length]?.map Prod.fst) == some x) left right x := by
  unfold interpolateNumbers pick search
  simp only [if_neg h]

theorem pick_congr {p p' : Nat → K × K} {n n' i i' : Nat} {found : Bool} {left right : Extrap} {x : K} (h1 : 1 < n) (h1' : 1 < n')
    (hf : found = true → p i = p' i') (h0 : found = false → (i = 0 ↔ i' = 0)) (hn : found = false → (n ≤ i ↔ n' ≤ i'))
    (first : found = false → i = 0 → p 0 = p' 0 ∧ linearInterpolate (p 0) (p 1) x = linearInterpolate (p' 0) (p' 1) x)
    (last : found = false → n ≤ i → p (n - 1) = p' (n' - 1) ∧
      linearInterpolate (p (n - 2)) (p (n - 1)) x = linearInterpolate (p' (n' - 2)) (p' (n' - 1)) x)
    (mid : found = false → i ≠ 0 → i < n → linearInterpolate (p (i - 1)) (p i) x = linearInterpolate (p' (i' - 1)) (p' i') x) :
    pick p n i found left right x = pick p' n' i' found left right x := by
  unfold pick
  cases found with
  | true => simp [hf rfl]
  | false =>
    specialize h0 rfl; specialize hn rfl; specialize first rfl; specialize last rfl; specialize mid rfl
    by_cases hi : i = 0
    · have := first hi
      rw [if_neg Bool.false_ne_true, if_neg Bool.false_ne_true, if_pos hi, if_pos (h0.1 hi), this.2, this.1]
      simp only [h1, h1', gt_iff_lt]
    · rw [if_neg Bool.false_ne_true, if_neg Bool.false_ne_true, if_neg hi, if_neg (fun h => hi (h0.2 h))]
      by_cases hn' : n ≤ i
      · have := last hn'
        rw [if_pos hn', if_pos (hn.1 hn'), this.2, this.1]
        simp only [h1, h1', gt_iff_lt]
      · rw [if_neg hn', if_neg (fun h => hn' (hn.2 h)), mid hi (not_le.1 hn')]

end

variable {K : Type} [Field K] [LinearOrder K] [IsStrictOrderedRing K]

theorem numbers_redundant {l r : List (K × K)} {a m b : K × K} (hs : Sorted (l ++ a :: m :: b :: r)) (hm : m.2 = line a b m.1)
    (left right : Extrap) (x : K) :
    interpolateNumbers x (l ++ a :: m :: b :: r) left right = interpolateNumbers x (l ++ a :: b :: r) left right := by
  have hlt := sorted_lt hs
  have hs' : Sorted (l ++ a :: b :: r) := by
    unfold Sorted at hs ⊢
    refine hs.sublist ?_
    exact List.Sublist.append (List.Sublist.refl _) (List.Sublist.cons_cons _ (List.sublist_cons_self _ _))
  rw [List.pairwise_append, List.pairwise_cons, List.pairwise_cons] at hlt
  have ham : a.1 < m.1 := hlt.2.1.1 m (by simp)
  have hmb : m.1 < b.1 := hlt.2.1.2.1 b (by simp)
  have apart_am := between_apart hs
  have apart_mb := between_apart (l := l ++ [a]) (p := m) (q := b) (r := r) (by simpa using hs)
  have apart_ab := between_apart hs'
  rcases le_or_gt x a.1 with hxa | hax
  · -- at or before `a`
    have hk : (l.takeWhile (fun p => decide (p.1 < x))).length ≤ l.length := (List.takeWhile_prefix _).length_le
    rw [numbers_pick (by simp), numbers_pick (by simp), takeWhile_stop hxa, takeWhile_stop hxa]
    generalize (l.takeWhile (fun p => decide (p.1 < x))).length = k at hk ⊢
    have h1 : (l ++ a :: m :: b :: r)[k]? = (l ++ a :: b :: r)[k]? := by
      rcases hk.lt_or_eq with h | h
      · rw [List.getElem?_append_left h, List.getElem?_append_left h]
      · subst h; simp
    have h2 : ∀ j, j ≤ k → (l ++ a :: m :: b :: r).getD j (0, 0) = (l ++ a :: b :: r).getD j (0, 0) := by
      intro j hj
      rcases (hj.trans hk).lt_or_eq with h | h
      · rw [List.getD_eq_getElem?_getD, List.getD_eq_getElem?_getD, List.getElem?_append_left h, List.getElem?_append_left h]
      · subst h; simp
    have h3 : k < (l ++ a :: m :: b :: r).length := by simp; omega
    have h4 : k < (l ++ a :: b :: r).length := by simp; omega
    rw [h1]
    refine pick_congr (by simp; omega) (by simp; omega) (fun _ => h2 k le_rfl) (fun _ => Iff.rfl)
      (fun _ => iff_of_false (not_le.2 h3) (not_le.2 h4)) (fun _ _ => ⟨h2 0 (Nat.zero_le _), ?_⟩) (fun _ h => absurd h (not_le.2 h3))
      (fun _ _ _ => ?_)
    · rw [h2 0 (Nat.zero_le _)]
      cases l with
      | nil =>
        simp only [List.nil_append, List.getD_cons_zero, List.getD_cons_succ]
        rw [linear_line apart_am, linear_line apart_ab, line_left hm ham hmb]
      | cons p l => cases l <;> simp
    · rw [h2 k le_rfl, h2 (k - 1) (Nat.sub_le _ _)]
  rcases lt_or_ge x b.1 with hxb | hbx
  · -- between `a` and `b`
    rw [numbers_between hs' hax hxb]
    rcases lt_trichotomy x m.1 with h | h | h
    · rw [numbers_between hs hax h, line_left hm ham hmb]
    · have := numbers_pillar (l := l ++ [a]) (x := m.1) (y := m.2) (r := b :: r) (by simpa using hs) left right
      rw [h]
      rw [hm] at this
      simpa [hm.symm] using this
    · have := numbers_between (l := l ++ [a]) (p := m) (q := b) (r := r) (by simpa using hs) h hxb left right
      rw [line_right hm ham hmb] at this
      simpa using this
  · -- at or after `b`
    have hl : ∀ p ∈ l ++ [a], p.1 < x := by
      intro p hp
      rcases List.mem_append.1 hp with h | h
      · exact (hlt.2.2 p h a (by simp)).trans hax
      · rw [List.mem_singleton.1 h]; exact hax
    have hmx : m.1 < x := hmb.trans_le hbx
    have e1 : l ++ a :: m :: b :: r = (l ++ [a]) ++ m :: b :: r := by simp
    have e2 : l ++ a :: b :: r = (l ++ [a]) ++ b :: r := by simp
    have hlm : ∀ p ∈ l ++ [a, m], p.1 < x := by
      intro p hp
      simp at hp
      rcases hp with h | rfl | rfl
      · exact hl p (by simp [h])
      · exact hax
      · exact hmx
    have t1 : (l ++ a :: m :: b :: r).takeWhile (fun p => decide (p.1 < x)) = (l ++ [a, m]) ++ (b :: r).takeWhile (fun p => decide (p.1 < x)) := by
      rw [← takeWhile_pass hlm]; simp
    have t2 : (l ++ a :: b :: r).takeWhile (fun p => decide (p.1 < x)) = (l ++ [a]) ++ (b :: r).takeWhile (fun p => decide (p.1 < x)) := by
      rw [← takeWhile_pass hl]; simp
    have hk : ((b :: r).takeWhile (fun p => decide (p.1 < x))).length ≤ r.length + 1 := (List.takeWhile_prefix _).length_le
    have hk0 : ((b :: r).takeWhile (fun p => decide (p.1 < x))).length = 0 → b.1 = x := by
      intro h
      rcases hbx.lt_or_eq with h' | h'
      · simp [h'] at h
      · exact h'
    have g1 : ∀ j, (l ++ a :: m :: b :: r)[l.length + 2 + j]? = (b :: r)[j]? := by
      intro j
      rw [show l ++ a :: m :: b :: r = (l ++ [a, m]) ++ b :: r by simp, List.getElem?_append_right (by simp)]
      congr 1; simp
    have g2 : ∀ j, (l ++ a :: b :: r)[l.length + 1 + j]? = (b :: r)[j]? := by
      intro j
      rw [e2, List.getElem?_append_right (by simp)]
      congr 1; simp
    have d1 : ∀ j, (l ++ a :: m :: b :: r).getD (l.length + 2 + j) (0, 0) = (b :: r).getD j (0, 0) := by
      intro j; rw [List.getD_eq_getElem?_getD, g1, List.getD_eq_getElem?_getD]
    have d2 : ∀ j, (l ++ a :: b :: r).getD (l.length + 1 + j) (0, 0) = (b :: r).getD j (0, 0) := by
      intro j; rw [List.getD_eq_getElem?_getD, g2, List.getD_eq_getElem?_getD]
    rw [numbers_pick (by simp), numbers_pick (by simp), t1, t2, List.length_append (as := l ++ [a, m]), List.length_append (as := l ++ [a])]
    generalize ((b :: r).takeWhile (fun p => decide (p.1 < x))).length = k at hk hk0 ⊢
    rw [show (l ++ [a, m]).length + k = l.length + 2 + k by simp, show (l ++ [a]).length + k = l.length + 1 + k by simp, g1, g2]
    have n1 : (l ++ a :: m :: b :: r).length = l.length + 3 + r.length := by simp; omega
    have n2 : (l ++ a :: b :: r).length = l.length + 2 + r.length := by simp; omega
    have found : ((b :: r)[k]?.map Prod.fst == some x) = false → k ≠ 0 := by
      rintro h rfl
      simp [hk0 rfl] at h
    rw [n1, n2]
    refine pick_congr (by omega) (by omega) (fun _ => (d1 k).trans (d2 k).symm) (fun _ => by omega) (fun _ => by omega)
      (fun _ h => by omega) (fun _ h => ?_) (fun hf _ _ => ?_)
    · rw [show l.length + 3 + r.length - 1 = l.length + 2 + r.length by omega, show l.length + 2 + r.length - 1 = l.length + 1 + r.length by omega, d1, d2]
      refine ⟨rfl, ?_⟩
      cases r with
      | nil =>
        have : (l ++ a :: m :: [b]).getD (l.length + 1) (0, 0) = m := getD_mid' _ _ _ _ _
        simp only [List.length_nil, Nat.add_zero, List.getD_cons_zero]
        rw [show l.length + 3 - 2 = l.length + 1 by omega, show l.length + 2 - 2 = l.length by omega, this, getD_mid,
          linear_line apart_mb, linear_line apart_ab, line_right hm ham hmb]
      | cons c r =>
        rw [show l.length + 3 + (c :: r).length - 2 = l.length + 2 + r.length by simp; omega,
          show l.length + 2 + (c :: r).length - 2 = l.length + 1 + r.length by simp; omega, d1, d2]
    · have := found hf
      obtain ⟨j, rfl⟩ := Nat.exists_eq_succ_of_ne_zero this
      rw [show l.length + 2 + j.succ - 1 = l.length + 2 + j by omega, show l.length + 1 + j.succ - 1 = l.length + 1 + j by omega, d1, d2, d1, d2]

/-- Dropping a point keeps the others in order. -/
theorem accepted_without {l r : List (K × K)} {a m b : K × K} {left right left' right' : Extrap} {L : Linear K}
    (h : Linear.new (plain (l ++ a :: m :: b :: r)) left right = .ok L) :
    Linear.new (plain (l ++ a :: b :: r)) left' right' = .ok ⟨left', right', plain (l ++ a :: b :: r)⟩ := by
  obtain ⟨_, hs⟩ := sorted_of_new h
  refine new_of_valid ((validate_iff _).2 (Or.inr ⟨by simp [plain], _, rfl, ?_⟩))
  have hs' : Sorted (l ++ a :: b :: r) := by
    unfold Sorted at hs ⊢
    exact hs.sublist (List.Sublist.append (List.Sublist.refl _) (List.Sublist.cons_cons _ (List.sublist_cons_self _ _)))
  unfold Sorted at hs'
  exact (List.pairwise_map.2 hs').isChain

theorem interp_nan {ps : List (K × K)} (hne : ps ≠ []) (left right : Extrap) :
    (Linear.mk left right (plain ps)).interpolate .nan = .error .panic := by
  unfold Linear.interpolate linearInterpolateExtrapolate
  cases hp : plain ps with
  | nil => exact absurd (List.map_eq_nil_iff.1 hp) hne
  | cons p ps => rfl

end QM.Interp
