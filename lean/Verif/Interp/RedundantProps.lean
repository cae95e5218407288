import Verif.Interp.RedundantLemmas
import Verif.Interp.Props

/-!
# Property C112: points that lie on the line add nothing
-/

namespace QM.Interp
open QM.Interp.Spec

variable {K : Type} [Field K] [LinearOrder K] [IsStrictOrderedRing K]

/-- C112. A point of a linear interpolator can be left out without any effect exactly when it lies on the straight line between its neighbours. The
other points are accepted, and every query is answered in the same way or fails in the same way, whichever way the ends are extrapolated. -/
theorem C112_linear {l r : List (K × K)} {a m b : K × K} {left right : Extrap} {L : Linear K}
    (h : Linear.new (plain (l ++ a :: m :: b :: r)) left right = .ok L) :
    ∃ L', Linear.new (plain (l ++ a :: b :: r)) left right = .ok L' ∧
      ((∀ x, L.interpolate x = L'.interpolate x) ↔ m.2 = line a b m.1) := by
  obtain ⟨hne, hs⟩ := sorted_of_new h
  refine ⟨_, accepted_without h, ?_⟩
  rw [(new_ok h).1]
  constructor
  · intro hx
    have hlt := sorted_lt hs
    rw [List.pairwise_append, List.pairwise_cons, List.pairwise_cons] at hlt
    have h2 := C15_pillar h (x := m.1) (y := m.2) (by simp [plain])
    have h3 := sorted_of_new (accepted_without (left' := left) (right' := right) h)
    have := hx (.val m.1)
    rw [(new_ok h).1] at h2
    rw [h2, interp_plain (by simp), numbers_between h3.2 (hlt.2.1.1 m (by simp)) (hlt.2.1.2.1 b (by simp))] at this
    simpa using this
  · intro hm x
    cases x with
    | nan => rw [interp_nan (by simp), interp_nan (by simp)]
    | val x => rw [interp_plain (by simp), interp_plain (by simp), numbers_redundant hs hm]

/-- C112. Points of equal height with flat ends answer that height everywhere, however many there are. -/
theorem C112_constant {ps : List (K × K)} {c : K} {L : Linear K} (h : Linear.new (plain ps) .flat .flat = .ok L) (hc : ∀ p ∈ ps, p.2 = c) (x : K) :
    L.interpolate (.val x) = .ok (.val c) := by
  obtain ⟨hne, hs⟩ := sorted_of_new h
  rw [(new_ok h).1, interp_plain hne]
  by_cases h1 : ∃ p ∈ ps, p.1 ≤ x
  · by_cases h2 : ∃ p ∈ ps, x ≤ p.1
    · rcases locate h1 h2 hs with ⟨l, y, r, rfl⟩ | ⟨l, a, b, r, rfl, h3, h4⟩
      · rw [numbers_pillar hs, show y = c from hc (x, y) (by simp)]
      · rw [numbers_between hs h3 h4]
        unfold line
        rw [hc a (by simp), hc b (by simp)]
        simp
    · push Not at h2
      obtain ⟨l, q, rfl⟩ : ∃ l q, ps = l ++ [q] := ⟨ps.dropLast, ps.getLast hne, (List.dropLast_append_getLast hne).symm⟩
      unfold interpolateNumbers
      rw [search_right h2]
      simp [Extrap.isNatural, Extrap.extrapolate, hc q (by simp)]
  · push Not at h1
    cases ps with
    | nil => exact absurd rfl hne
    | cons p ps =>
      unfold interpolateNumbers
      rw [search_left (h1 p (by simp))]
      simp [Extrap.isNatural, Extrap.extrapolate, hc p (by simp)]

/-- C112: three points on a line between two others, natural at the left and flat at the right. -/
example : ∃ L, Linear.new (plain ([(0, 1)] ++ (1, 5) :: (2, 7) :: (4, 11) :: [((5 : ℚ), 3)])) .natural .flat = .ok L ∧ (7 : ℚ) = line (1, 5) (4, 11) 2 :=
  ⟨_, new_of_valid (by decide +kernel), by norm_num [line]⟩

end QM.Interp
