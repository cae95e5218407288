import Verif.Interp.Model
import Mathlib.Tactic.Linarith
import Mathlib.Tactic.Ring
import Mathlib.Tactic.FieldSimp
import Mathlib.Tactic.Positivity
import Mathlib.Tactic.LinearCombination
import Mathlib.Data.List.Chain
import Mathlib.Algebra.Order.Ring.Abs

/-!
# Helper lemmas for interpolation
-/

namespace QM.Interp

variable {K : Type} [Field K] [LinearOrder K] [IsStrictOrderedRing K]

/-- Points with ordinary numbers as abscissae. -/
def lift (ps : List (K × K)) : List (Num K × K) := ps.map (fun p => (.val p.1, p.2))

omit [IsStrictOrderedRing K] in
theorem numbers_lift (ps : List (K × K)) : numbers (lift ps) = some ps := by
  induction ps with
  | nil => rfl
  | cons p ps ih =>
    have : lift (p :: ps) = (.val p.1, p.2) :: lift ps := rfl
    rw [this, numbers, ih]; rfl

/-- Neighbouring abscissae more than the tolerance apart. -/
def Apart (p q : K × K) : Prop := q.1 - p.1 > 1 / 10 ^ 12

omit [IsStrictOrderedRing K] in
theorem validateFrom_iff (a : K) (points : List (Num K × K)) :
    validateFrom (.val a) points = .ok () ↔
      ∃ ps, points = lift ps ∧ List.IsChain (fun s t => t - s > 1 / 10 ^ 12) (a :: ps.map Prod.fst) := by
  induction points generalizing a with
  | nil =>
    simp only [validateFrom, true_iff]
    exact ⟨[], rfl, by simp⟩
  | cons p rest ih =>
    obtain ⟨x, y⟩ := p
    cases x with
    | nan =>
      simp only [validateFrom, apart, Bool.false_eq_true, if_false, reduceCtorEq, false_iff]
      rintro ⟨ps, h, _⟩
      cases ps with
      | nil => cases h
      | cons q qs => simp [lift] at h
    | val b =>
      simp only [validateFrom, apart, decide_eq_true_eq]
      by_cases hb : b - a > 1 / 10 ^ 12
      · rw [if_pos hb, ih]
        constructor
        · rintro ⟨ps, rfl, h⟩
          exact ⟨(b, y) :: ps, rfl, by simp only [List.map_cons, List.isChain_cons_cons]; exact ⟨hb, h⟩⟩
        · rintro ⟨ps, h, hc⟩
          cases ps with
          | nil => cases h
          | cons q qs =>
            simp only [lift, List.map_cons, List.cons.injEq, Prod.mk.injEq, Num.val.injEq] at h
            obtain ⟨⟨h1, h2⟩, h3⟩ := h
            simp only [List.map_cons, List.isChain_cons_cons] at hc
            rw [← h1] at hc
            exact ⟨qs, h3, hc.2⟩
      · rw [if_neg hb]
        simp only [reduceCtorEq, false_iff]
        rintro ⟨ps, h, hc⟩
        cases ps with
        | nil => cases h
        | cons q qs =>
          simp only [lift, List.map_cons, List.cons.injEq, Prod.mk.injEq, Num.val.injEq] at h
          simp only [List.map_cons, List.isChain_cons_cons] at hc
          rw [← h.1.1] at hc
          exact hb hc.1

omit [IsStrictOrderedRing K] in
theorem validate_iff (points : List (Num K × K)) :
    validateAbscissae points = .ok () ↔
      (∃ y, points = [(.nan, y)]) ∨
      (points ≠ [] ∧ ∃ ps, points = lift ps ∧
        List.IsChain (fun s t => t - s > 1 / 10 ^ 12) (ps.map Prod.fst)) := by
  cases points with
  | nil => simp [validateAbscissae]
  | cons p rest =>
    obtain ⟨x, y⟩ := p
    cases x with
    | nan =>
      rw [validateAbscissae]
      cases rest with
      | nil => simp [validateFrom]
      | cons q qs =>
        simp only [validateFrom, apart, Bool.false_eq_true, if_false, reduceCtorEq, false_iff]
        rintro (⟨y', h⟩ | ⟨_, ps, h, _⟩)
        · simp at h
        · cases ps with
          | nil => cases h
          | cons q qs => simp [lift] at h
    | val a =>
      rw [validateAbscissae, validateFrom_iff]
      constructor
      · rintro ⟨ps, rfl, h⟩
        exact Or.inr ⟨by simp, (a, y) :: ps, rfl, h⟩
      · rintro (⟨y', h⟩ | ⟨_, ps, h, hc⟩)
        · simp at h
        · cases ps with
          | nil => cases h
          | cons q qs =>
            simp only [lift, List.map_cons, List.cons.injEq, Prod.mk.injEq, Num.val.injEq] at h
            refine ⟨qs, h.2, ?_⟩
            rw [h.1.1]; exact hc

/-- Increasing by more than the tolerance. -/
def Sorted (ps : List (K × K)) : Prop := ps.Pairwise (fun p q => q.1 - p.1 > 1 / 10 ^ 12)

theorem sorted_of_chain {ps : List (K × K)}
    (h : List.IsChain (fun s t : K => t - s > 1 / 10 ^ 12) (ps.map Prod.fst)) : Sorted ps := by
  have htr : ∀ a b c : K, b - a > 1 / 10 ^ 12 → c - b > 1 / 10 ^ 12 → c - a > 1 / 10 ^ 12 := by
    intro a b c h1 h2
    have : (0 : K) < 1 / 10 ^ 12 := by positivity
    linarith
  haveI : IsTrans K (fun s t : K => t - s > 1 / 10 ^ 12) := ⟨htr⟩
  have := List.isChain_iff_pairwise.1 h
  rw [List.pairwise_map] at this
  exact this

theorem sorted_lt {ps : List (K × K)} (h : Sorted ps) : ps.Pairwise (fun p q => p.1 < q.1) := by
  refine h.imp ?_
  intro a b hab
  have : (0 : K) < 1 / 10 ^ 12 := by positivity
  linarith

omit [IsStrictOrderedRing K] [Field K] in
theorem search_append {x : K} (l r : List (K × K)) (hl : ∀ p ∈ l, p.1 < x)
    (hr : ∀ p ∈ r.head?, x ≤ p.1) :
    search (l ++ r) x = (l.length, (r.head?.map Prod.fst) == some x) := by
  unfold search
  have h1 : (l ++ r).takeWhile (fun p => decide (p.1 < x)) = l := by
    rw [List.takeWhile_append_of_pos (by simpa using hl)]
    cases r with
    | nil => simp
    | cons q qs =>
      have := hr q (by simp)
      rw [List.takeWhile_cons, if_neg (by simpa using this)]
      simp
  simp only [h1]
  congr 2
  rw [List.getElem?_append_right (le_refl _)]
  simp [List.head?_eq_getElem?]

theorem search_pillar {l r : List (K × K)} {x y : K} (h : Sorted (l ++ (x, y) :: r)) :
    search (l ++ (x, y) :: r) x = (l.length, true) := by
  have hp := sorted_lt h
  rw [List.pairwise_append] at hp
  rw [search_append l _ (fun p hp' => hp.2.2 p hp' (x, y) (by simp)) (by simp)]
  simp

theorem search_between {l r : List (K × K)} {a b : K × K} {x : K} (h : Sorted (l ++ a :: b :: r))
    (h1 : a.1 < x) (h2 : x < b.1) : search (l ++ a :: b :: r) x = (l.length + 1, false) := by
  have hp := sorted_lt h
  rw [List.pairwise_append] at hp
  have e : l ++ a :: b :: r = (l ++ [a]) ++ b :: r := by simp
  rw [e, search_append (l ++ [a]) _ ?_ ?_]
  · simp; exact ne_of_gt h2
  · intro p hp'
    rw [List.mem_append] at hp'
    rcases hp' with hp' | hp'
    · exact lt_trans (hp.2.2 p hp' a (by simp)) h1
    · simp at hp'; rw [hp']; exact h1
  · intro p hp'
    simp at hp'; rw [← hp']; exact h2.le

theorem search_left {ps : List (K × K)} {p0 : K × K} {x : K} (h1 : x < p0.1) :
    search (p0 :: ps) x = (0, false) := by
  have := search_append (x := x) [] (p0 :: ps) (by simp) (by simp; exact h1.le)
  rw [List.nil_append] at this
  rw [this]
  simp; exact ne_of_gt h1

theorem search_right {ps : List (K × K)} {x : K} (h1 : ∀ p ∈ ps, p.1 < x) :
    search ps x = (ps.length, false) := by
  have := search_append (x := x) ps [] h1 (by simp)
  rw [List.append_nil] at this
  rw [this]
  simp

/-- Any abscissa in range is a pillar or lies between two neighbours. -/
theorem locate {ps : List (K × K)} {x : K}
    (h1 : ∃ p ∈ ps, p.1 ≤ x) (h2 : ∃ p ∈ ps, x ≤ p.1) (hs : Sorted ps) :
    (∃ l y r, ps = l ++ (x, y) :: r) ∨
    ∃ l a b r, ps = l ++ a :: b :: r ∧ a.1 < x ∧ x < b.1 := by
  have hs' := sorted_lt hs
  clear hs
  induction ps with
  | nil => simp at h1
  | cons p ps ih =>
    rw [List.pairwise_cons] at hs'
    obtain ⟨hp, hps⟩ := hs'
    have hpx : p.1 ≤ x := by
      obtain ⟨q, hq, hqx⟩ := h1
      simp at hq
      rcases hq with rfl | hq
      · exact hqx
      · exact le_trans (hp q hq).le hqx
    rcases eq_or_lt_of_le hpx with he | hlt
    · left
      exact ⟨[], p.2, ps, by rw [← he]; simp⟩
    · obtain ⟨q, hq, hxq⟩ := h2
      have hq' : q ∈ ps := by
        simp at hq
        rcases hq with rfl | hq
        · exact absurd hxq (not_le.2 hlt)
        · exact hq
      cases ps with
      | nil => simp at hq'
      | cons c cs =>
        rcases lt_trichotomy x c.1 with hc | hc | hc
        · right
          exact ⟨[], p, c, cs, rfl, hlt, hc⟩
        · left
          exact ⟨[p], c.2, cs, by rw [hc]; simp⟩
        · rcases ih ⟨c, by simp, hc.le⟩ ⟨q, hq', hxq⟩ hps with ⟨l, y, r, h⟩ | ⟨l, a, b, r, h, h3, h4⟩
          · left; exact ⟨p :: l, y, r, by rw [h]; simp⟩
          · right; exact ⟨p :: l, a, b, r, by rw [h]; simp, h3, h4⟩

theorem getD_mid {α : Type} (l r : List α) (a d : α) : (l ++ a :: r).getD l.length d = a := by
  simp [List.getD]

theorem getD_mid' {α : Type} (l r : List α) (a b d : α) : (l ++ a :: b :: r).getD (l.length + 1) d = b := by
  have : l ++ a :: b :: r = (l ++ [a]) ++ b :: r := by simp
  rw [this]
  have := getD_mid (l ++ [a]) r b d
  simpa using this

theorem lerp_between {a b t : K} (h0 : 0 ≤ t) (h1 : t ≤ 1) : min a b ≤ lerp a b t ∧ lerp a b t ≤ max a b := by
  unfold lerp
  constructor
  · have e1 := min_le_left a b
    have e2 := min_le_right a b
    nlinarith
  · have e1 := le_max_left a b
    have e2 := le_max_right a b
    nlinarith

/-! ## Spline equations -/

section Spline
variable {xy : Nat → K × K} {n : Nat}

theorem decompose_range (hx : ∀ i, i + 1 < n → (xy i).1 < (xy (i + 1)).1) (nat0 : Bool) :
    ∀ i, i + 1 < n → -1 < (decompose xy nat0 i).1 ∧ (decompose xy nat0 i).1 ≤ 0 := by
  intro i
  induction i with
  | zero =>
    intro _
    unfold decompose
    cases nat0 <;> norm_num
  | succ i ih =>
    intro hi
    obtain ⟨h1, h2⟩ := ih (by omega)
    have hx1 := hx i (by omega)
    have hx2 := hx (i + 1) hi
    have e2 : (xy (i + 1 + 1)).1 = (xy (i + 2)).1 := rfl
    rw [e2] at hx2
    unfold decompose
    simp only
    set prev := decompose xy nat0 i
    set sig := ((xy (i + 1)).1 - (xy i).1) / ((xy (i + 2)).1 - (xy i).1) with hsig
    have hs0 : 0 < sig := div_pos (by linarith) (by linarith)
    have hs1 : sig < 1 := by rw [hsig, div_lt_one (by linarith)]; linarith
    have hp : 1 < sig * prev.1 + 2 := by nlinarith
    constructor
    · rw [lt_div_iff₀ (by linarith)]; linarith
    · exact div_nonpos_of_nonpos_of_nonneg (by linarith) (by linarith)

/-- The three-term equation solved by `nr_spline` at an interior pillar, when the previous entry obeys
the decomposition. -/
theorem spline_equation (hx : ∀ i, i + 1 < n → (xy i).1 < (xy (i + 1)).1) (nat0 : Bool) (i : Nat)
    (hi : i + 2 < n) (z0 z1 z2 : K) (h0 : z0 = (decompose xy nat0 i).1 * z1 + (decompose xy nat0 i).2)
    (h1 : z1 = (decompose xy nat0 (i + 1)).1 * z2 + (decompose xy nat0 (i + 1)).2) :
    ((xy (i + 1)).2 - (xy i).2) / ((xy (i + 1)).1 - (xy i).1)
        + ((xy (i + 1)).1 - (xy i).1) / 6 * (z0 + 2 * z1)
      = ((xy (i + 2)).2 - (xy (i + 1)).2) / ((xy (i + 2)).1 - (xy (i + 1)).1)
        - ((xy (i + 2)).1 - (xy (i + 1)).1) / 6 * (2 * z1 + z2) := by
  obtain ⟨r1, r2⟩ := decompose_range hx nat0 i (by omega)
  have hx1 := hx i (by omega)
  have hx2 := hx (i + 1) (by omega)
  have e2 : (xy (i + 1 + 1)).1 = (xy (i + 2)).1 := rfl
  rw [e2] at hx2
  have hdec : decompose xy nat0 (i + 1) =
    (let prev := decompose xy nat0 i
    let sig := ((xy (i + 1)).1 - (xy i).1) / ((xy (i + 2)).1 - (xy i).1)
    let p := sig * prev.1 + 2
    let tmp := ((xy (i + 2)).2 - (xy (i + 1)).2) / ((xy (i + 2)).1 - (xy (i + 1)).1)
      - ((xy (i + 1)).2 - (xy i).2) / ((xy (i + 1)).1 - (xy i).1)
    ((sig - 1) / p, (6 * tmp / ((xy (i + 2)).1 - (xy i).1) - sig * prev.2) / p)) := rfl
  rw [hdec] at h1
  simp only at h1
  generalize (decompose xy nat0 i).1 = c at *
  generalize (decompose xy nat0 i).2 = u at *
  generalize hA : ((xy (i + 2)).2 - (xy (i + 1)).2) / ((xy (i + 2)).1 - (xy (i + 1)).1) = A at *
  generalize hB : ((xy (i + 1)).2 - (xy i).2) / ((xy (i + 1)).1 - (xy i).1) = B at *
  generalize hL : (xy (i + 1)).1 - (xy i).1 = L at *
  have hR' : (xy (i + 2)).1 - (xy i).1 = L + ((xy (i + 2)).1 - (xy (i + 1)).1) := by rw [← hL]; ring
  rw [hR'] at h1
  generalize hR : (xy (i + 2)).1 - (xy (i + 1)).1 = R at *
  have hLpos : 0 < L := by rw [← hL]; linarith
  have hRpos : 0 < R := by rw [← hR]; linarith
  have hsig : 0 < L / (L + R) := div_pos hLpos (by linarith)
  have hsig1 : L / (L + R) < 1 := by rw [div_lt_one (by linarith)]; linarith
  have hp : 0 < L / (L + R) * c + 2 := by nlinarith
  have h2 : z1 * (L / (L + R) * c + 2) = (L / (L + R) - 1) * z2 + (6 * (A - B) / (L + R) - L / (L + R) * u) := by
    have gen : ∀ P S Y : K, P ≠ 0 → z1 = S / P * z2 + Y / P → z1 * P = S * z2 + Y := by
      intro P S Y hP h
      rw [h]; field_simp
    exact gen _ _ _ (ne_of_gt hp) h1
  have hLR : L + R ≠ 0 := by positivity
  have e1 : L / (L + R) = L * (1 / (L + R)) := by ring
  have e3 : 6 * (A - B) / (L + R) = 6 * (A - B) * (1 / (L + R)) := by ring
  have e4 : (L + R) * (1 / (L + R)) = 1 := by field_simp
  rw [e1, e3] at h2
  generalize 1 / (L + R) = w at *
  have key : z1 * (L * c + 2 * (L + R)) = -R * z2 + (6 * (A - B) - L * u) := by
    linear_combination (L + R) * h2 + (-L * c * z1 + L * z2 + 6 * (A - B) - L * u) * e4
  rw [h0]
  linear_combination key / 6

theorem second_rec (nat0 natN : Bool) {i : Nat} (hi : i + 1 < n) (h : i ≠ 0 ∨ nat0 = true) :
    secondDeriv xy nat0 natN n i
      = (decompose xy nat0 i).1 * secondDeriv xy nat0 natN n (i + 1) + (decompose xy nat0 i).2 := by
  unfold secondDeriv
  rw [if_neg (by omega : ¬ i + 1 = 0)]
  by_cases h0 : i = 0
  · subst h0
    have : nat0 = true := by simpa using h
    subst this
    rw [if_pos rfl]
    simp [decompose]
  · rw [if_neg h0]
    have e : n - 1 - i = (n - 1 - (i + 1)) + 1 := by omega
    rw [e, backSub]
    have e2 : n - 1 - (n - 1 - (i + 1) + 1) = i := by omega
    rw [e2]

theorem second_last_natural (nat0 : Bool) (hn : 1 < n) : secondDeriv xy nat0 true n (n - 1) = 0 := by
  unfold secondDeriv
  rw [if_neg (by omega)]
  have : n - 1 - (n - 1) = 0 := by omega
  rw [this, backSub]
  simp [lastSecond]

theorem second_last_clamped (hx : ∀ i, i + 1 < n → (xy i).1 < (xy (i + 1)).1) (nat0 : Bool) (hn : 1 < n)
    (h : n ≠ 2 ∨ nat0 = true) :
    ((xy (n - 1)).2 - (xy (n - 2)).2) / ((xy (n - 1)).1 - (xy (n - 2)).1)
      + ((xy (n - 1)).1 - (xy (n - 2)).1) / 6
        * (secondDeriv xy nat0 false n (n - 2) + 2 * secondDeriv xy nat0 false n (n - 1)) = 0 := by
  have hr := second_rec (xy := xy) (n := n) nat0 false (i := n - 2) (by omega) (by
    rcases h with h | h
    · left; omega
    · exact Or.inr h)
  have e1 : n - 2 + 1 = n - 1 := by omega
  rw [e1] at hr
  obtain ⟨r1, r2⟩ := decompose_range hx nat0 (n - 2) (by omega)
  have hl : secondDeriv xy nat0 false n (n - 1) = lastSecond xy nat0 false n := by
    unfold secondDeriv
    rw [if_neg (by omega)]
    have : n - 1 - (n - 1) = 0 := by omega
    rw [this, backSub]
  have hx1 := hx (n - 2) (by omega)
  rw [e1] at hx1
  rw [hr, hl]
  unfold lastSecond
  simp only [Bool.false_eq_true, if_false]
  generalize (decompose xy nat0 (n - 2)).1 = c at *
  generalize (decompose xy nat0 (n - 2)).2 = u at *
  have hh : (xy (n - 1)).1 - (xy (n - 2)).1 ≠ 0 := by
    have : 0 < (xy (n - 1)).1 - (xy (n - 2)).1 := by linarith
    exact ne_of_gt this
  generalize (xy (n - 1)).1 - (xy (n - 2)).1 = h at *
  generalize (xy (n - 1)).2 - (xy (n - 2)).2 = y at *
  have hc : (1 : K) / 2 * c + 1 ≠ 0 := by
    have : 0 < (1 : K) / 2 * c + 1 := by linarith
    exact ne_of_gt this
  have hc2 : c + 2 ≠ 0 := by
    have : 0 < c + 2 := by linarith
    exact ne_of_gt this
  field_simp
  ring

end Spline

end QM.Interp
