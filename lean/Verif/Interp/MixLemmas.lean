import Verif.Interp.PropLemmas
import Verif.Interp.MixSpec

/-!
# Helper lemmas on interpolators whose ordinates are mixtures
-/

namespace QM.Interp
open Spec

variable {K : Type} [Field K] [LinearOrder K] [IsStrictOrderedRing K]

/-- The points of a table with ordinates computed from its rows. -/
def tab (rows : List (K × K × K)) (f : K × K × K → K) : List (K × K) := rows.map (fun r => (r.1, f r))

omit [IsStrictOrderedRing K] in
theorem validateFrom_tab (f g : K × K × K → K) : ∀ (rows : List (K × K × K)) (a : Num K),
    validateFrom a (plain (tab rows f)) = validateFrom a (plain (tab rows g))
  | [], _ => rfl
  | r :: rows, a => by
    have h (f : K × K × K → K) : plain (tab (r :: rows) f) = (.val r.1, f r) :: plain (tab rows f) := rfl
    rw [h, h, validateFrom, validateFrom, validateFrom_tab f g rows]

omit [IsStrictOrderedRing K] in
theorem validate_tab (f g : K × K × K → K) (rows : List (K × K × K)) :
    validateAbscissae (plain (tab rows f)) = validateAbscissae (plain (tab rows g)) := by
  cases rows with
  | nil => rfl
  | cons r rows => exact validateFrom_tab f g rows (.val r.1)

omit [Field K] [IsStrictOrderedRing K] in
theorem search_tab (f : K × K × K → K) (rows : List (K × K × K)) (x : K) :
    search (tab rows f) x = ((rows.takeWhile (fun r => decide (r.1 < x))).length,
      (rows[(rows.takeWhile (fun r => decide (r.1 < x))).length]?.map Prod.fst) == some x) := by
  unfold search tab
  simp only [List.takeWhile_map, List.length_map, List.getElem?_map, Option.map_map]
  rfl

omit [Field K] [IsStrictOrderedRing K] in
theorem search_lt {rows : List (K × K × K)} {f : K × K × K → K} {x : K} (h : (search (tab rows f) x).2 = true) :
    (search (tab rows f) x).1 < rows.length := by
  rw [search_tab] at h ⊢
  by_contra hc
  simp only [not_lt] at hc
  simp [List.getElem?_eq_none hc] at h

omit [LinearOrder K] [IsStrictOrderedRing K] in
theorem getD_tab (f : K × K × K → K) (rows : List (K × K × K)) {i : Nat} (hi : i < rows.length) :
    (tab rows f).getD i (0, 0) = (rows[i].1, f rows[i]) := by
  simp [tab, List.getD, hi]

omit [LinearOrder K] [IsStrictOrderedRing K] in
theorem blend_of_eq {c d e u v w : K} (h : w = c * u + d * v + e) : Blend c d e (.ok (.val u)) (.ok (.val v)) (.ok (.val w)) := by
  subst h
  exact .value u v

omit [LinearOrder K] [IsStrictOrderedRing K] in
theorem blend_extrapolate {c d e u v w : K} (h : w = c * u + d * v + e) (s : Extrap) (hs : s = .zero → e = 0) :
    Blend c d e (s.extrapolate u) (s.extrapolate v) (s.extrapolate w) := by
  cases s with
  | flat => exact blend_of_eq h
  | natural => exact .error _
  | notANumber => exact .nan
  | zero => exact blend_of_eq (by rw [hs rfl]; ring)
  | throw => exact .error _

omit [IsStrictOrderedRing K] in
theorem blend_line {c d e x0 x1 u0 u1 v0 v1 w0 w1 : K} (h0 : w0 = c * u0 + d * v0 + e) (h1 : w1 = c * u1 + d * v1 + e) (x : K) :
    Blend c d e (linearInterpolate (x0, u0) (x1, u1) x) (linearInterpolate (x0, v0) (x1, v1) x) (linearInterpolate (x0, w0) (x1, w1) x) := by
  unfold linearInterpolate
  simp only
  split_ifs
  · exact .error _
  · refine blend_of_eq ?_
    rw [h0, h1]
    unfold lerp
    ring

omit [IsStrictOrderedRing K] in
theorem blend_numbers (c d e : K) (rows : List (K × K × K)) (left right : Extrap) (hz : left = .zero ∨ right = .zero → e = 0) (x : K) :
    Blend c d e (interpolateNumbers x (tab rows (fun r => r.2.1)) left right) (interpolateNumbers x (tab rows (fun r => r.2.2)) left right)
      (interpolateNumbers x (tab rows (fun r => c * r.2.1 + d * r.2.2 + e)) left right) := by
  have hlt (f : K × K × K → K) := search_lt (rows := rows) (f := f) (x := x)
  unfold interpolateNumbers
  have hlen (f : K × K × K → K) : (tab rows f).length = rows.length := by simp [tab]
  simp only [hlen]
  simp only [search_tab] at hlt ⊢
  generalize (rows.takeWhile (fun r => decide (r.1 < x))).length = i at *
  generalize (rows[i]?.map Prod.fst == some x) = b at *
  have hb := hlt (fun _ => 0)
  by_cases hn : rows.length = 0
  · simp only [hn, if_true]
    exact .error _
  · rw [if_neg hn, if_neg hn, if_neg hn]
    by_cases h : b = true
    · have := hb h
      simp only [h, if_true, getD_tab _ _ this]
      exact blend_of_eq rfl
    · simp only [h, if_false, Bool.false_eq_true]
      by_cases hi : i = 0
      · simp only [hi, if_true]
        have h0 : 0 < rows.length := by omega
        by_cases hl : left.isNatural = true ∧ rows.length > 1
        · simp only [hl, and_self, if_true, getD_tab _ _ h0, getD_tab _ _ hl.2]
          exact blend_line rfl rfl x
        · simp only [hl, if_false, getD_tab _ _ h0]
          exact blend_extrapolate rfl _ fun h => hz (.inl h)
      · simp only [hi, if_false]
        by_cases hr : i ≥ rows.length
        · have h0 : rows.length - 1 < rows.length := by omega
          simp only [hr, if_true]
          by_cases hl : left.isNatural = true ∧ rows.length > 1
          · have h1 : rows.length - 2 < rows.length := by omega
            simp only [hl, and_self, if_true, getD_tab _ _ h0, getD_tab _ _ h1]
            exact blend_line rfl rfl x
          · simp only [hl, if_false, getD_tab _ _ h0]
            exact blend_extrapolate rfl _ fun h => hz (.inr h)
        · have h0 : i < rows.length := by omega
          have h1 : i - 1 < rows.length := by omega
          simp only [hr, if_false, getD_tab _ _ h0, getD_tab _ _ h1]
          exact blend_line rfl rfl x

/-! ## Splines -/

section Curvature
variable {p q m : Nat → K × K} {c d e : K} {n : Nat}

omit [LinearOrder K] [IsStrictOrderedRing K] in
theorem decompose_fst (hx : ∀ i, i < n → (m i).1 = (p i).1) (nat0 : Bool) : ∀ i, i + 1 < n →
    (decompose m nat0 i).1 = (decompose p nat0 i).1
  | 0, _ => by
    unfold decompose
    split <;> rfl
  | i + 1, hi => by
    have ih := decompose_fst hx nat0 i (by omega)
    rw [decompose, decompose]
    simp only [ih, hx i (by omega), hx (i + 1) (by omega), hx (i + 2) (by omega)]

omit [LinearOrder K] [IsStrictOrderedRing K] in
theorem decompose_snd (hp : ∀ i, i < n → (m i).1 = (p i).1) (hq : ∀ i, i < n → (m i).1 = (q i).1)
    (hm : ∀ i, i < n → (m i).2 = c * (p i).2 + d * (q i).2 + e) (nat0 : Bool) : ∀ i, i + 1 < n →
    (decompose m nat0 i).2 = c * (decompose p nat0 i).2 + d * (decompose q nat0 i).2
  | 0, hi => by
    unfold decompose
    split
    · simp
    · simp only [← hp 0 (by omega), ← hp 1 hi, ← hq 0 (by omega), ← hq 1 hi, hm 0 (by omega), hm 1 hi]
      ring
  | i + 1, hi => by
    have ih := decompose_snd hp hq hm nat0 i (by omega)
    have e1 := decompose_fst hp nat0 i (by omega)
    have e2 := decompose_fst hq nat0 i (by omega)
    rw [decompose, decompose, decompose]
    simp only [← e1, ← e2, ih, ← hp i (by omega), ← hp (i + 1) (by omega), ← hp (i + 2) (by omega), ← hq i (by omega), ← hq (i + 1) (by omega),
      ← hq (i + 2) (by omega), hm i (by omega), hm (i + 1) (by omega), hm (i + 2) (by omega)]
    ring

omit [LinearOrder K] [IsStrictOrderedRing K] in
theorem backSub_mix (hn : 2 ≤ n) (hp : ∀ i, i < n → (m i).1 = (p i).1) (hq : ∀ i, i < n → (m i).1 = (q i).1)
    (hm : ∀ i, i < n → (m i).2 = c * (p i).2 + d * (q i).2 + e) (nat0 natN : Bool) : ∀ k,
    backSub m nat0 natN n k = c * backSub p nat0 natN n k + d * backSub q nat0 natN n k
  | 0 => by
    have h0 := decompose_snd hp hq hm nat0 (n - 2) (by omega)
    have e1 := decompose_fst hp nat0 (n - 2) (by omega)
    have e2 := decompose_fst hq nat0 (n - 2) (by omega)
    rw [backSub, backSub, backSub, lastSecond, lastSecond, lastSecond]
    simp only [← e1, ← e2, h0]
    split
    · ring
    · simp only [← hp (n - 1) (by omega), ← hp (n - 2) (by omega), ← hq (n - 1) (by omega), ← hq (n - 2) (by omega), hm (n - 1) (by omega),
        hm (n - 2) (by omega)]
      ring
  | k + 1 => by
    have ih := backSub_mix hn hp hq hm nat0 natN k
    have h0 := decompose_snd hp hq hm nat0 (n - 1 - (k + 1)) (by omega)
    have e1 := decompose_fst hp nat0 (n - 1 - (k + 1)) (by omega)
    have e2 := decompose_fst hq nat0 (n - 1 - (k + 1)) (by omega)
    rw [backSub, backSub, backSub]
    simp only [← e1, ← e2, h0, ih]
    ring

omit [LinearOrder K] [IsStrictOrderedRing K] in
theorem secondDeriv_mix (hn : 2 ≤ n) (hp : ∀ i, i < n → (m i).1 = (p i).1) (hq : ∀ i, i < n → (m i).1 = (q i).1)
    (hm : ∀ i, i < n → (m i).2 = c * (p i).2 + d * (q i).2 + e) {nat0 : Bool} (natN : Bool) (h : nat0 = true ∨ c + d = 1) (i : Nat) :
    secondDeriv m nat0 natN n i = c * secondDeriv p nat0 natN n i + d * secondDeriv q nat0 natN n i := by
  unfold secondDeriv
  split_ifs
  · rcases h with rfl | h
    · simp [decompose]
    · unfold decompose
      split
      · simp
      · simp only
        rw [← add_mul, h, one_mul]
  · exact backSub_mix hn hp hq hm nat0 natN _

end Curvature

omit [IsStrictOrderedRing K] in
theorem blend_splint {c d e x0 x1 u0 u1 v0 v1 w0 w1 zu0 zu1 zv0 zv1 zw0 zw1 : K} (h0 : w0 = c * u0 + d * v0 + e)
    (h1 : w1 = c * u1 + d * v1 + e) (z0 : zw0 = c * zu0 + d * zv0) (z1 : zw1 = c * zu1 + d * zv1) (x : K) :
    Blend c d e (splint (x0, u0) (x1, u1) zu0 zu1 x) (splint (x0, v0) (x1, v1) zv0 zv1 x) (splint (x0, w0) (x1, w1) zw0 zw1 x) := by
  unfold splint
  simp only
  split_ifs with h
  · exact .error _
  · refine blend_of_eq ?_
    have ha : (x1 - x) / (x1 - x0) = 1 - (x - x0) / (x1 - x0) := by
      field_simp
      ring
    rw [h0, h1, z0, z1, ha]
    ring

/-- The spline with the points of a table. -/
def splineOf (rows : List (K × K × K)) (f : K × K × K → K) (left right : Extrap) : CubicSpline K :=
  ⟨left, right, tab rows f, (List.range (tab rows f).length).map
    (secondDeriv (fun i => (tab rows f).getD i (0, 0)) left.isNatural right.isNatural (tab rows f).length)⟩

omit [IsStrictOrderedRing K] in
theorem spline_tab (rows : List (K × K × K)) (f : K × K × K → K) (left right : Extrap) (s : CubicSpline K) :
    CubicSpline.new (plain (tab rows f)) left right = .ok s ↔
      validateAbscissae (plain (tab rows (fun _ => 0))) = .ok () ∧ 1 < rows.length ∧ s = splineOf rows f left right := by
  have hlen : (plain (tab rows f)).length = rows.length := by simp [plain, tab]
  have hmap : (plain (tab rows f)).map (fun p => (p.1.get, p.2)) = tab rows f := by
    unfold plain
    rw [List.map_map]
    exact List.map_id _
  unfold CubicSpline.new
  rw [validate_tab f (fun _ => 0), hlen, hmap]
  cases hv : validateAbscissae (plain (tab rows (fun _ => (0 : K)))) with
  | error e => simp [Bind.bind, Except.bind]
  | ok u =>
    simp only [Bind.bind, Except.bind, true_and]
    by_cases hn : rows.length > 1
    · rw [if_pos hn]
      constructor
      · intro h
        cases h
        exact ⟨hn, rfl⟩
      · rintro ⟨_, rfl⟩
        rfl
    · rw [if_neg hn]
      constructor
      · intro h
        cases h
      · rintro ⟨h, _⟩
        exact absurd h hn

omit [IsStrictOrderedRing K] in
theorem blend_spline (c d e : K) {rows : List (K × K × K)} (h1 : 1 < rows.length) (left right : Extrap)
    (hz : left = .zero ∨ right = .zero → e = 0) (hc : left = .natural ∨ c + d = 1) (x : Num K) :
    Blend c d e ((splineOf rows (fun r => r.2.1) left right).interpolate x) ((splineOf rows (fun r => r.2.2) left right).interpolate x)
      ((splineOf rows (fun r => c * r.2.1 + d * r.2.2 + e) left right).interpolate x) := by
  have hlen (f : K × K × K → K) : (tab rows f).length = rows.length := by simp [tab]
  have hz' : ∀ i, i < rows.length → ∀ f : K × K × K → K, (splineOf rows f left right).second.getD i 0 =
      secondDeriv (fun i => (tab rows f).getD i (0, 0)) left.isNatural right.isNatural rows.length i := by
    intro i hi f
    simp [splineOf, List.getD, hi, hlen]
  have hsec : ∀ i, i < rows.length → (splineOf rows (fun r => c * r.2.1 + d * r.2.2 + e) left right).second.getD i 0 =
      c * (splineOf rows (fun r => r.2.1) left right).second.getD i 0 + d * (splineOf rows (fun r => r.2.2) left right).second.getD i 0 := by
    intro i hi
    rw [hz' i hi, hz' i hi, hz' i hi]
    refine secondDeriv_mix (e := e) (by omega) ?_ ?_ ?_ _ ?_ i
    · intro j hj
      simp only [getD_tab _ _ hj]
    · intro j hj
      simp only [getD_tab _ _ hj]
    · intro j hj
      simp only [getD_tab _ _ hj]
    · rcases hc with rfl | hc
      · exact .inl rfl
      · exact .inr hc
  cases x with
  | nan =>
    unfold CubicSpline.interpolate
    simp only [splineOf, hlen]
    simp only [show ¬ rows.length = 0 by omega, if_false]
    exact .error _
  | val x =>
    have hlt (f : K × K × K → K) := search_lt (rows := rows) (f := f) (x := x)
    unfold CubicSpline.interpolate
    have hpts (f : K × K × K → K) : (splineOf rows f left right).points = tab rows f := rfl
    have hl (f : K × K × K → K) : (splineOf rows f left right).left = left := rfl
    have hr (f : K × K × K → K) : (splineOf rows f left right).right = right := rfl
    simp only [hpts, hl, hr, hlen]
    generalize hA : (splineOf rows (fun r => r.2.1) left right).second = A at *
    generalize hB : (splineOf rows (fun r => r.2.2) left right).second = B at *
    generalize hM : (splineOf rows (fun r => c * r.2.1 + d * r.2.2 + e) left right).second = M at *
    simp only [search_tab] at hlt ⊢
    generalize (rows.takeWhile (fun r => decide (r.1 < x))).length = i at *
    generalize (rows[i]?.map Prod.fst == some x) = b at *
    have hb := hlt (fun _ => 0)
    simp only [show ¬ rows.length = 0 by omega, if_false]
    by_cases h : b = true
    · have := hb h
      simp only [h, if_true, getD_tab _ _ this]
      exact blend_of_eq rfl
    · simp only [h, if_false, Bool.false_eq_true]
      by_cases hi : i = 0
      · simp only [hi, if_true]
        have h0 : 0 < rows.length := by omega
        by_cases hl : left.isNatural = true ∧ rows.length > 1
        · simp only [hl, and_self, if_true, getD_tab _ _ h0, getD_tab _ _ hl.2]
          exact blend_splint rfl rfl (hsec _ h0) (hsec _ hl.2) x
        · simp only [hl, if_false, getD_tab _ _ h0]
          exact blend_extrapolate rfl _ fun h => hz (.inl h)
      · simp only [hi, if_false]
        by_cases hr : i ≥ rows.length
        · have h0 : rows.length - 1 < rows.length := by omega
          simp only [hr, if_true]
          by_cases hl : left.isNatural = true ∧ rows.length > 1
          · have h1 : rows.length - 2 < rows.length := by omega
            simp only [hl, and_self, if_true, getD_tab _ _ h0, getD_tab _ _ h1]
            exact blend_splint rfl rfl (hsec _ h1) (hsec _ h0) x
          · simp only [hl, if_false, getD_tab _ _ h0]
            exact blend_extrapolate rfl _ fun h => hz (.inr h)
        · have h0 : i < rows.length := by omega
          have h1 : i - 1 < rows.length := by omega
          simp only [hr, if_false, getD_tab _ _ h0, getD_tab _ _ h1]
          exact blend_splint rfl rfl (hsec _ h1) (hsec _ h0) x

end QM.Interp
