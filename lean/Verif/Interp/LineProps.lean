import Verif.Interp.Props

/-!
# Property C18: splines through points on a straight line
-/

namespace QM.Interp
open Spec

theorem decompose_line {xy : Nat → ℝ × ℝ} {n : Nat} {m : ℝ} (hx : ∀ i, i + 1 < n → (xy i).1 < (xy (i + 1)).1)
    (hm : ∀ i, i + 1 < n → (xy (i + 1)).2 - (xy i).2 = m * ((xy (i + 1)).1 - (xy i).1)) {nat0 : Bool} (h0 : nat0 = true ∨ m = 0) :
    ∀ i, i + 1 < n → (decompose xy nat0 i).2 = 0
  | 0, hi => by
    unfold decompose
    split
    · rfl
    · rename_i h
      rcases h0 with h0 | rfl
      · exact absurd h0 h
      · have := hm 0 hi
        simp only [zero_add, zero_mul] at this
        simp only [this]
        ring
  | i + 1, hi => by
    have ih := decompose_line hx hm h0 i (by omega)
    have e1 := hm i (by omega)
    have e2 := hm (i + 1) hi
    have p1 := sub_pos.2 (hx i (by omega))
    have p2 := sub_pos.2 (hx (i + 1) hi)
    have h : ((xy (i + 2)).2 - (xy (i + 1)).2) / ((xy (i + 2)).1 - (xy (i + 1)).1) -
        ((xy (i + 1)).2 - (xy i).2) / ((xy (i + 1)).1 - (xy i).1) = 0 := by
      rw [e1, e2, mul_div_cancel_right₀ _ p1.ne', mul_div_cancel_right₀ _ p2.ne', sub_self]
    rw [decompose]
    simp only [ih, h]
    ring

theorem backSub_line {xy : Nat → ℝ × ℝ} {n : Nat} {m : ℝ} (hn : 2 ≤ n) (hx : ∀ i, i + 1 < n → (xy i).1 < (xy (i + 1)).1)
    (hm : ∀ i, i + 1 < n → (xy (i + 1)).2 - (xy i).2 = m * ((xy (i + 1)).1 - (xy i).1)) {nat0 natN : Bool} (h0 : nat0 = true ∨ m = 0)
    (h1 : natN = true ∨ m = 0) : ∀ k, backSub xy nat0 natN n k = 0
  | 0 => by
    have hd := decompose_line hx hm h0 (n - 2) (by omega)
    rw [backSub, lastSecond]
    simp only [hd]
    split
    · simp
    · rename_i h
      rcases h1 with h1 | rfl
      · exact absurd h1 h
      · have := hm (n - 2) (by omega)
        rw [zero_mul, show n - 2 + 1 = n - 1 by omega] at this
        simp [this]
  | k + 1 => by
    have hd := decompose_line hx hm h0 (n - 1 - (k + 1)) (by omega)
    have ih := backSub_line hn hx hm h0 h1 k
    rw [backSub]
    simp only [hd, ih]
    ring

theorem slopes {ps : List (ℝ × ℝ)} {m c : ℝ} (hl : ∀ p ∈ ps, p.2 = m * p.1 + c) (i : Nat) (hi : i + 1 < ps.length) :
    (ps.getD (i + 1) (0, 0)).2 - (ps.getD i (0, 0)).2 = m * ((ps.getD (i + 1) (0, 0)).1 - (ps.getD i (0, 0)).1) := by
  have e1 := hl _ (List.getElem_mem hi)
  have e2 := hl _ (List.getElem_mem (show i < ps.length by omega))
  simp only [List.getD_eq_getElem?_getD, List.getElem?_eq_getElem hi, List.getElem?_eq_getElem (show i < ps.length by omega), Option.getD_some,
    e1, e2]
  ring

/-- All curvatures but the first. -/
theorem zAt_line {ps : List (ℝ × ℝ)} {m c : ℝ} {left right : Extrap} (hs : Sorted ps) (hn : 1 < ps.length) (hl : ∀ p ∈ ps, p.2 = m * p.1 + c)
    (h0 : left = .natural ∨ m = 0) (h1 : right = .natural ∨ m = 0) (i : Nat) (hi : i ≠ 0) : zAt ps left right i = 0 := by
  unfold zAt secondDeriv
  rw [if_neg hi]
  refine backSub_line hn (pillar_mono hs) (slopes hl) ?_ ?_ _
  · rcases h0 with rfl | h0
    · exact .inl rfl
    · exact .inr h0
  · rcases h1 with rfl | h1
    · exact .inl rfl
    · exact .inr h1

theorem seg_line {a b : ℝ × ℝ} {m c : ℝ} (h : a.1 < b.1) (ha : a.2 = m * a.1 + c) (hb : b.2 = m * b.1 + c) (zl x : ℝ) :
    seg a b zl 0 x = m * x + c +
      (((b.1 - x) / (b.1 - a.1)) ^ 3 - (b.1 - x) / (b.1 - a.1)) * zl * (b.1 - a.1) ^ 2 / 6 := by
  have hne : b.1 - a.1 ≠ 0 := (sub_pos.2 h).ne'
  unfold seg
  rw [ha, hb]
  field_simp
  ring

/-- C18. A spline that is Natural at the left, through points that lie on a straight line, is that line between its first and last
pillar, if the right end is Natural too or the line is level. -/
theorem C18_line {ps : List (ℝ × ℝ)} {m c x : ℝ} {right : Extrap} {s : CubicSpline ℝ}
    (h : CubicSpline.new (plain ps) .natural right = .ok s) (hl : ∀ p ∈ ps, p.2 = m * p.1 + c) (hr : right = .natural ∨ m = 0)
    (h1 : ∃ p ∈ ps, p.1 ≤ x) (h2 : ∃ p ∈ ps, x ≤ p.1) : s.interpolate (.val x) = .ok (.val (m * x + c)) := by
  obtain ⟨hs, hn, rfl⟩ := spline_new h
  have hz : ∀ i, zAt ps .natural right i = 0 := by
    intro i
    by_cases hi : i = 0
    · subst hi
      simp [zAt, secondDeriv, decompose, Extrap.isNatural]
    · exact zAt_line hs hn hl (.inl rfl) hr i hi
  rcases locate h1 h2 hs with ⟨l, y, r, rfl⟩ | ⟨l, a, b, r, rfl, h3, h4⟩
  · rw [curve_pillar hs, show y = m * x + c from hl (x, y) (by simp)]
  · rw [interp_between hs h3 h4, getD_second _ _ _ (by simp), getD_second _ _ _ (by simp), hz, hz,
      seg_line (h3.trans h4) (hl a (by simp)) (hl b (by simp))]
    simp

/-- C18. Natural at both ends, the line goes on outside the pillars. -/
theorem C18_line_outside {ps : List (ℝ × ℝ)} {m c x : ℝ} {s : CubicSpline ℝ}
    (h : CubicSpline.new (plain ps) .natural .natural = .ok s) (hl : ∀ p ∈ ps, p.2 = m * p.1 + c)
    (hx : (∀ p ∈ ps, x < p.1) ∨ ∀ p ∈ ps, p.1 < x) : s.interpolate (.val x) = .ok (.val (m * x + c)) := by
  obtain ⟨hs, hn, e⟩ := spline_new h
  have hz : ∀ i, zAt ps .natural .natural i = 0 := by
    intro i
    by_cases hi : i = 0
    · subst hi
      simp [zAt, secondDeriv, decompose, Extrap.isNatural]
    · exact zAt_line hs hn hl (.inl rfl) (.inl rfl) i hi
  have hz' : ∀ i, ((List.range ps.length).map (secondDeriv (fun i => ps.getD i (0, 0)) Extrap.natural.isNatural Extrap.natural.isNatural
      ps.length)).getD i 0 = 0 := by
    intro i
    by_cases hi : i < ps.length
    · rw [getD_second _ _ _ hi, hz]
    · simp [hi]
  have key : ∀ i, i + 1 < ps.length → splint (ps.getD i (0, 0)) (ps.getD (i + 1) (0, 0)) (0 : ℝ) 0 x = .ok (.val (m * x + c)) := by
    intro i hi
    have hlt := pillar_mono hs i hi
    have e1 : (ps.getD (i + 1) (0, 0)).2 = m * (ps.getD (i + 1) (0, 0)).1 + c := by
      rw [List.getD_eq_getElem?_getD, List.getElem?_eq_getElem hi, Option.getD_some]
      exact hl _ (List.getElem_mem hi)
    have e2 : (ps.getD i (0, 0)).2 = m * (ps.getD i (0, 0)).1 + c := by
      rw [List.getD_eq_getElem?_getD, List.getElem?_eq_getElem (show i < ps.length by omega), Option.getD_some]
      exact hl _ (List.getElem_mem _)
    unfold splint
    simp only
    rw [if_neg (sub_pos.2 hlt).ne']
    have := seg_line hlt e2 e1 0 x
    unfold seg at this
    rw [this]
    simp
  have hne : ps ≠ [] := by rintro rfl; simp at hn
  subst e
  unfold CubicSpline.interpolate
  simp only [hz']
  rw [if_neg (by simpa using hne)]
  rcases hx with hx | hx
  · have hse : search ps x = (0, false) := by
      cases ps with
      | nil => exact absurd rfl hne
      | cons p r =>
        have := hx p (by simp)
        simp [search, List.takeWhile, not_lt.2 this.le, this.ne']
    rw [hse]
    simp only [Bool.false_eq_true, if_false, if_true]
    rw [if_pos ⟨rfl, hn⟩]
    exact key 0 hn
  · have hse : search ps x = (ps.length, false) := by
      have : ps.takeWhile (fun p => decide (p.1 < x)) = ps := by
        have : ∀ l : List (ℝ × ℝ), (∀ p ∈ l, p.1 < x) → l.takeWhile (fun p => decide (p.1 < x)) = l := by
          intro l
          induction l with
          | nil => simp
          | cons p l ih =>
            intro h
            rw [List.takeWhile_cons_of_pos (by simpa using h p (by simp)), ih fun q hq => h q (by simp [hq])]
        exact this ps hx
      simp [search, this]
    rw [hse]
    simp only [Bool.false_eq_true, if_false]
    rw [if_neg (by omega), if_pos le_rfl, if_pos ⟨rfl, hn⟩]
    have := key (ps.length - 2) (by omega)
    rwa [show ps.length - 2 + 1 = ps.length - 1 by omega] at this

/-- C18 violated: any spline that is not Natural at the left bulges above equal values, between its first two pillars: the first curvature
is always minus one half. -/
theorem C18_constant_false {a b : ℝ × ℝ} {r : List (ℝ × ℝ)} {c x : ℝ} {left right : Extrap} {s : CubicSpline ℝ}
    (h : CubicSpline.new (plain (a :: b :: r)) left right = .ok s) (hl : ∀ p ∈ a :: b :: r, p.2 = c) (hleft : left ≠ .natural)
    (h1 : a.1 < x) (h2 : x < b.1) :
    ∃ y, s.interpolate (.val x) = .ok (.val y) ∧ c < y ∧ y = c + (b.1 - x) * (x - a.1) * (2 * b.1 - a.1 - x) / (12 * (b.1 - a.1)) := by
  obtain ⟨hs, hn, rfl⟩ := spline_new h
  have hab := h1.trans h2
  have hl' : ∀ p ∈ a :: b :: r, p.2 = 0 * p.1 + c := fun p hp => by rw [hl p hp]; ring
  have hz0 : zAt (a :: b :: r) left right 0 = -(1 / 2) := by
    have : left.isNatural = false := by cases left <;> simp_all [Extrap.isNatural]
    simp [zAt, secondDeriv, decompose, this]
  have hz1 := zAt_line (left := left) (right := right) hs hn hl' (.inr rfl) (.inr rfl) 1 one_ne_zero
  have hi := interp_between (left := left) (right := right) (l := []) (r := r) hs h1 h2 ((List.range (a :: b :: r).length).map
      (secondDeriv (fun i => (a :: b :: r).getD i (0, 0)) left.isNatural right.isNatural (a :: b :: r).length))
  simp only [List.nil_append, List.length_nil, zero_add] at hi
  rw [getD_second _ _ _ (by simp), getD_second _ _ _ (by simp), hz0, hz1, seg_line hab (hl' a (by simp)) (hl' b (by simp))] at hi
  have p1 := sub_pos.2 h1
  have p2 := sub_pos.2 h2
  have p3 := sub_pos.2 hab
  have e : 0 * x + c + (((b.1 - x) / (b.1 - a.1)) ^ 3 - (b.1 - x) / (b.1 - a.1)) * -(1 / 2) * (b.1 - a.1) ^ 2 / 6 =
      c + (b.1 - x) * (x - a.1) * (2 * b.1 - a.1 - x) / (12 * (b.1 - a.1)) := by
    field_simp
    ring
  refine ⟨_, hi, ?_, e⟩
  rw [e]
  have : 0 < 2 * b.1 - a.1 - x := by linarith
  have : 0 < (b.1 - x) * (x - a.1) * (2 * b.1 - a.1 - x) / (12 * (b.1 - a.1)) := by positivity
  linarith

/-- C18: cases. -/
example : ∃ s, CubicSpline.new (plain [((0 : ℝ), (1 : ℝ)), (1, 3), (3, 7)]) .natural .natural = .ok s ∧
    s.interpolate (.val 2) = .ok (.val 5) ∧ s.interpolate (.val 10) = .ok (.val 21) := by
  obtain ⟨s, h⟩ := C18_construction_partial [((0 : ℝ), (1 : ℝ)), (1, 3), (3, 7)] .natural .natural (by simp) (by
    rw [increasing_iff_chain]; norm_num)
  have hl : ∀ p ∈ [((0 : ℝ), (1 : ℝ)), (1, 3), (3, 7)], p.2 = 2 * p.1 + 1 := by
    intro p hp
    simp only [List.mem_cons, List.not_mem_nil, or_false] at hp
    rcases hp with rfl | rfl | rfl <;> norm_num
  refine ⟨s, h, ?_, ?_⟩
  · rw [C18_line h hl (.inl rfl) ⟨(0, 1), by simp, by norm_num⟩ ⟨(3, 7), by simp, by norm_num⟩]
    norm_num
  · rw [C18_line_outside h hl (.inr (by
      intro p hp
      simp only [List.mem_cons, List.not_mem_nil, or_false] at hp
      rcases hp with rfl | rfl | rfl <;> norm_num))]
    norm_num

/-- C18 violated: halfway between equal values of 5 that are 12 apart, a flat spline answers 9.5. -/
example : ∃ s, CubicSpline.new (plain [((0 : ℝ), (5 : ℝ)), (12, 5), (20, 5)]) .flat .flat = .ok s ∧ s.interpolate (.val 6) = .ok (.val 9.5) := by
  obtain ⟨s, h⟩ := C18_construction_partial [((0 : ℝ), (5 : ℝ)), (12, 5), (20, 5)] .flat .flat (by simp) (by
    rw [increasing_iff_chain]; norm_num)
  obtain ⟨y, hy, _, e⟩ := C18_constant_false (x := 6) (c := 5) h (by simp) (by simp) (by norm_num) (by norm_num)
  refine ⟨s, h, ?_⟩
  rw [hy, e]
  norm_num

end QM.Interp
