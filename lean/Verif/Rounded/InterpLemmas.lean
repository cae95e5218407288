import Verif.Rounded.Lemmas
import Verif.Rounded.Model

/-!
# Lemmas for interpolation in rounded arithmetic
-/

namespace QM.Rounded
open QM.Interp (Num Extrap binarySearch binarySearch_append)

variable {K : Type} [Field K] [LinearOrder K] [IsStrictOrderedRing K]

theorem tolerance_lt (r : Rounding K) : r.rnd (1 / 10 ^ 12) < 1 := by
  have h := r.close (1 / 10 ^ 12)
  have hu := r.small
  rw [abs_of_pos (by positivity : (0 : K) < 1 / 10 ^ 12), abs_le] at h
  have : r.unit * (1 / 10 ^ 12) ≤ 1 * (1 / 10 ^ 12) := by gcongr
  have h2 := h.2
  have : r.rnd (1 / 10 ^ 12) ≤ 2 * (1 / 10 ^ 12) := by linarith
  exact this.trans_lt (by norm_num)

theorem tolerance_nonneg (r : Rounding K) : 0 ≤ r.rnd (1 / 10 ^ 12) := r.nonneg (by positivity)

theorem dateDiff_pos (r : Rounding K) {d e : Int} (h : d < e) : 1 ≤ dateDiff r d e := by
  have := r.mono 1 ((e - d : Int) : K) (by exact_mod_cast (by omega : (1 : Int) ≤ e - d))
  rwa [r.one] at this

theorem dateDiff_nonpos (r : Rounding K) {d e : Int} (h : e ≤ d) : dateDiff r d e ≤ 0 :=
  r.nonpos (by exact_mod_cast (by omega : e - d ≤ (0 : Int)))

theorem apart_iff (r : Rounding K) (d e : Int) : dateDiff r d e > r.rnd (1 / 10 ^ 12) ↔ d < e := by
  constructor
  · intro h
    by_contra hc
    have := dateDiff_nonpos r (not_lt.1 hc)
    have := tolerance_nonneg r
    linarith
  · intro h
    exact (tolerance_lt r).trans_le (dateDiff_pos r h)

theorem validateFrom_iff (r : Rounding K) (prev : Int) (ps : List (Int × K)) :
    validateFrom r prev ps = .ok () ↔ (∀ p ∈ ps, prev < p.1) ∧ ps.Pairwise (fun p q => p.1 < q.1) := by
  induction ps generalizing prev with
  | nil => simp [validateFrom]
  | cons p ps ih =>
    unfold validateFrom
    by_cases h : dateDiff r prev p.1 > r.rnd (1 / 10 ^ 12)
    · rw [if_pos h, ih]
      have h' := (apart_iff r _ _).1 h
      rw [List.pairwise_cons, List.forall_mem_cons]
      exact ⟨fun ⟨a, b⟩ => ⟨⟨h', fun q hq => h'.trans (a q hq)⟩, a, b⟩, fun ⟨⟨_, _⟩, a, b⟩ => ⟨a, b⟩⟩
    · rw [if_neg h]
      have h' := mt (apart_iff r _ _).2 h
      simp only [reduceCtorEq, List.forall_mem_cons, false_iff]
      rintro ⟨⟨a, _⟩, _⟩
      exact h' a

theorem validate_iff (r : Rounding K) (ps : List (Int × K)) :
    validateAbscissae r ps = .ok () ↔ ps ≠ [] ∧ ps.Pairwise (fun p q => p.1 < q.1) := by
  cases ps with
  | nil => simp [validateAbscissae]
  | cons p ps =>
    rw [validateAbscissae, validateFrom_iff, List.pairwise_cons]
    simp

theorem validateFrom_refused (r : Rounding K) : ∀ (ps : List (Int × K)) (prev : Int),
    validateFrom r prev ps = .ok () ∨ validateFrom r prev ps = .error .err
  | [], _ => .inl rfl
  | p :: ps, prev => by
    unfold validateFrom
    split
    · exact validateFrom_refused r ps p.1
    · exact .inr rfl

theorem validate_refused (r : Rounding K) (ps : List (Int × K)) : validateAbscissae r ps = .ok () ∨ validateAbscissae r ps = .error .err := by
  cases ps with
  | nil => exact .inr rfl
  | cons p ps => exact validateFrom_refused r ps p.1

theorem new_iff (r : Rounding K) (ps : List (Int × K)) (left right : Extrap) (L : Linear K) :
    Linear.new r ps left right = .ok L ↔
      L = ⟨left, right, ps⟩ ∧ ps ≠ [] ∧ ps.Pairwise (fun p q => p.1 < q.1) := by
  rw [← validate_iff r]
  unfold Linear.new
  cases h : validateAbscissae r ps with
  | error e => simp [Bind.bind, Except.bind]
  | ok u => simp [Bind.bind, Except.bind, pure, Except.pure, eq_comm]

theorem getD_at {α : Type} (l : List α) (a : α) (m : List α) (d : α) : (l ++ a :: m).getD l.length d = a := by
  simp [List.getD_eq_getElem?_getD]

theorem interpolate_pillar (r : Rounding K) {l m : List (Int × K)} {d : Int} {y : K} (left right : Extrap)
    (hs : (l ++ (d, y) :: m).Pairwise (fun p q => p.1 < q.1)) :
    linearInterpolateExtrapolate r d (l ++ (d, y) :: m) left right = .ok (.val y) := by
  unfold linearInterpolateExtrapolate
  have hb := binarySearch_append (x := d) hs
    (fun p hp => (List.pairwise_append.1 hs).2.2 p hp (d, y) (by simp)) (by simp)
  rw [hb]
  simp

theorem interpolate_between (r : Rounding K) {l m : List (Int × K)} {p q : Int × K} {x : Int} (left right : Extrap)
    (hs : (l ++ p :: q :: m).Pairwise (fun p q => p.1 < q.1)) (h1 : p.1 < x) (h2 : x < q.1) :
    linearInterpolateExtrapolate r x (l ++ p :: q :: m) left right = linearInterpolate r p q x := by
  unfold linearInterpolateExtrapolate
  have e : l ++ p :: q :: m = (l ++ [p]) ++ q :: m := by simp
  have hb := binarySearch_append (x := x) (e ▸ hs) (by
    intro a ha
    rw [List.mem_append, List.mem_singleton] at ha
    rcases ha with ha | rfl
    · exact ((List.pairwise_append.1 hs).2.2 a ha p (by simp)).trans h1
    · exact h1) (by simp; exact h2.le)
  rw [← e] at hb
  rw [hb]
  have hne : ¬ q.1 = x := fun h => by omega
  simp [hne]

/-- The fraction of the way between two dates, as the code works it out. -/
def fraction (r : Rounding K) (d0 d1 x : Int) : K := r.rnd (dateDiff r d0 x / dateDiff r d0 d1)

theorem fraction_mono (r : Rounding K) {d0 d1 x x' : Int} (h01 : d0 < d1) (h : x ≤ x') :
    fraction r d0 d1 x ≤ fraction r d0 d1 x' := by
  have hd := dateDiff_pos r h01
  apply r.mono
  have : dateDiff r d0 x ≤ dateDiff r d0 x' := r.mono _ _ (by exact_mod_cast (by omega))
  have h0 : 0 < dateDiff r d0 d1 := by linarith
  gcongr

theorem fraction_start (r : Rounding K) (d0 d1 : Int) : fraction r d0 d1 d0 = 0 := by
  unfold fraction dateDiff
  rw [sub_self, Int.cast_zero, r.zero, zero_div, r.zero]

theorem fraction_end (r : Rounding K) {d0 d1 : Int} (h01 : d0 < d1) : fraction r d0 d1 d1 = 1 := by
  have hd := dateDiff_pos r h01
  unfold fraction
  rw [div_self (by linarith), r.one]

theorem linearInterpolate_eq (r : Rounding K) {p q : Int × K} (h : p.1 < q.1) (x : Int) :
    linearInterpolate r p q x = .ok (.val (lerp r p.2 q.2 (fraction r p.1 q.1 x))) := by
  unfold linearInterpolate
  have hd := dateDiff_pos r h
  have ht := tolerance_lt r
  simp only
  rw [if_neg]
  · rfl
  · rw [abs_of_nonneg (by linarith)]; linarith

theorem lerp_zero (r : Rounding K) {y0 : K} (h : r.IsFloat y0) (y1 : K) : lerp r y0 y1 0 = y0 := by
  unfold lerp
  rw [sub_zero, r.one, mul_one, mul_zero, r.zero, add_zero, h, h]

theorem lerp_one (r : Rounding K) (y0 : K) {y1 : K} (h : r.IsFloat y1) : lerp r y0 y1 1 = y1 := by
  unfold lerp
  rw [sub_self, r.zero, mul_one, mul_zero, r.zero, zero_add, h, h]

theorem lerp_mono (r : Rounding K) {y0 y1 t t' : K} (h0 : y0 ≤ 0) (h1 : 0 ≤ y1) (h : t ≤ t') :
    lerp r y0 y1 t ≤ lerp r y0 y1 t' := by
  unfold lerp
  apply r.mono
  apply add_le_add
  · apply r.mono
    exact mul_le_mul_of_nonpos_left (r.mono _ _ (by linarith)) h0
  · apply r.mono
    exact mul_le_mul_of_nonneg_left h h1

theorem lerp_anti (r : Rounding K) {y0 y1 t t' : K} (h0 : 0 ≤ y0) (h1 : y1 ≤ 0) (h : t ≤ t') :
    lerp r y0 y1 t' ≤ lerp r y0 y1 t := by
  unfold lerp
  apply r.mono
  apply add_le_add
  · apply r.mono
    exact mul_le_mul_of_nonneg_left (r.mono _ _ (by linarith)) h0
  · apply r.mono
    exact mul_le_mul_of_nonpos_left h h1

theorem lerp_pos (r : Rounding K) {y0 y1 t : K} (h0 : 0 < y0) (h1 : 0 < y1) (ht0 : 0 ≤ t) (ht1 : t ≤ 1) :
    0 < lerp r y0 y1 t := by
  unfold lerp
  apply r.pos
  rcases lt_or_eq_of_le ht0 with h | h
  · have a : 0 ≤ r.rnd (y0 * r.rnd (1 - t)) := r.nonneg (mul_nonneg h0.le (r.nonneg (by linarith)))
    have b : 0 < r.rnd (y1 * t) := r.pos (mul_pos h1 h)
    linarith
  · have a : 0 < r.rnd (y0 * r.rnd (1 - t)) := r.pos (mul_pos h0 (r.pos (by linarith)))
    have b : 0 ≤ r.rnd (y1 * t) := r.nonneg (mul_nonneg h1.le ht0)
    linarith

/-- Error of one rounding, seen from an upper bound on the exact value. -/
theorem rnd_err (r : Rounding K) {x c e b : K} (hx : |x - c| ≤ e) (hc : |c| ≤ b) (he : 0 ≤ e) :
    |r.rnd x - c| ≤ e + r.unit * (b + e) := by
  have h := r.close x
  have h1 : |x| ≤ b + e := by
    calc |x| = |(x - c) + c| := by ring_nf
      _ ≤ |x - c| + |c| := abs_add_le _ _
      _ ≤ b + e := by linarith
  have hu := r.unit_nonneg
  calc |r.rnd x - c| = |(r.rnd x - x) + (x - c)| := by ring_nf
    _ ≤ |r.rnd x - x| + |x - c| := abs_add_le _ _
    _ ≤ r.unit * |x| + e := by linarith
    _ ≤ r.unit * (b + e) + e := by gcongr
    _ = _ := by ring

/-- The value worked out for a fraction that is within `e` of the exact one. -/
theorem lerp_err (r : Rounding K) (hu : r.unit ≤ 1 / 100) {y0 y1 b t s : K} (h0 : |y0| ≤ b) (h1 : |y1| ≤ b)
    (hs0 : 0 ≤ s) (hs1 : s ≤ 1) (ht : |t - s| ≤ r.unit * s) :
    |lerp r y0 y1 t - (y0 * (1 - s) + y1 * s)| ≤ 6 * r.unit * b := by
  have hu0 := r.unit_nonneg
  set u := r.unit with hud
  have hb : 0 ≤ b := (abs_nonneg _).trans h0
  -- 1 - t
  have e1 : |r.rnd (1 - t) - (1 - s)| ≤ u * s + u * ((1 - s) + u * s) :=
    rnd_err r (by rw [show 1 - t - (1 - s) = -(t - s) by ring, abs_neg]; exact ht)
      (by rw [abs_of_nonneg (by linarith)]) (by positivity)
  have e1' : |r.rnd (1 - t) - (1 - s)| ≤ u * (1 + u) := by
    refine e1.trans ?_
    nlinarith [mul_nonneg hu0 hu0]
  -- y0 * (1 - t)
  have e2 : |r.rnd (y0 * r.rnd (1 - t)) - y0 * (1 - s)| ≤ b * (u * (1 + u)) + u * (b * (1 - s) + b * (u * (1 + u))) :=
    rnd_err r (by
        rw [← mul_sub, abs_mul]
        gcongr) (by
        rw [abs_mul, abs_of_nonneg (by linarith : 0 ≤ 1 - s)]
        have : 0 ≤ 1 - s := by linarith
        gcongr) (by positivity)
  have e3 : |r.rnd (y1 * t) - y1 * s| ≤ b * (u * s) + u * (b * s + b * (u * s)) :=
    rnd_err r (by
        rw [← mul_sub, abs_mul]
        gcongr) (by
        rw [abs_mul, abs_of_nonneg hs0]
        gcongr) (by positivity)
  have e4 : |r.rnd (y0 * r.rnd (1 - t)) + r.rnd (y1 * t) - (y0 * (1 - s) + y1 * s)| ≤
      (b * (u * (1 + u)) + u * (b * (1 - s) + b * (u * (1 + u)))) + (b * (u * s) + u * (b * s + b * (u * s))) := by
    calc _ = |(r.rnd (y0 * r.rnd (1 - t)) - y0 * (1 - s)) + (r.rnd (y1 * t) - y1 * s)| := by ring_nf
      _ ≤ _ := (abs_add_le _ _).trans (add_le_add e2 e3)
  have e5 : (b * (u * (1 + u)) + u * (b * (1 - s) + b * (u * (1 + u)))) + (b * (u * s) + u * (b * s + b * (u * s)))
      ≤ b * (u * (4 : K)) := by
    have : (u * (1 + u)) + u * ((1 - s) + (u * (1 + u))) + ((u * s) + u * (s + (u * s))) ≤ u * 4 := by
      have a1 : u * u ≤ u * (1 / 100) := by gcongr
      have a2 : u * (u * (1 + u)) ≤ u * (2 / 100) := by
        have : u * (1 + u) ≤ 2 / 100 := by nlinarith
        gcongr
      have a3 : u * s ≤ u * 1 := by gcongr
      have a4 : u * (u * s) ≤ u * (1 / 100) := by
        have : u * s ≤ 1 / 100 := by nlinarith
        gcongr
      nlinarith
    have h := mul_le_mul_of_nonneg_left this hb
    linarith
  have e6 : |y0 * (1 - s) + y1 * s| ≤ b := by
    calc _ ≤ |y0 * (1 - s)| + |y1 * s| := abs_add_le _ _
      _ = |y0| * (1 - s) + |y1| * s := by
          rw [abs_mul, abs_mul, abs_of_nonneg hs0, abs_of_nonneg (by linarith : 0 ≤ 1 - s)]
      _ ≤ b * (1 - s) + b * s := by
          have : 0 ≤ 1 - s := by linarith
          gcongr
      _ = b := by ring
  have e7 := rnd_err r (e4.trans e5) e6 (by positivity)
  refine e7.trans ?_
  have : u * (b * (u * 4)) ≤ u * (b * (4 / 100)) := by
    have : u * 4 ≤ 4 / 100 := by linarith
    gcongr
  nlinarith [mul_nonneg hu0 hb]

/-- The value worked out for a fraction anywhere on the line. -/
theorem lerp_err_far (r : Rounding K) (hu : r.unit ≤ 1 / 100) {y0 y1 b t s : K} (h0 : |y0| ≤ b) (h1 : |y1| ≤ b)
    (ht : |t - s| ≤ r.unit * |s|) :
    |lerp r y0 y1 t - (y0 * (1 - s) + y1 * s)| ≤ 8 * r.unit * b * (1 + |s|) := by
  have hu0 := r.unit_nonneg
  set u := r.unit with hud
  have hb : 0 ≤ b := (abs_nonneg _).trans h0
  have hS := abs_nonneg s
  set B := 1 + |s| with hB
  have hB0 : 0 ≤ B := by linarith
  have hs1 : |1 - s| ≤ B := by
    have := abs_sub (1 : K) s
    rw [abs_one] at this
    exact this
  have hsB : |s| ≤ B := by linarith
  clear_value B
  have ht' : |t - s| ≤ u * B := ht.trans (mul_le_mul_of_nonneg_left hsB hu0)
  have huB : 0 ≤ u * B := mul_nonneg hu0 hB0
  have hbB : 0 ≤ b * B := mul_nonneg hb hB0
  have hubB : 0 ≤ u * (b * B) := mul_nonneg hu0 hbB
  -- products with one more factor of the unit are small
  have sm : ∀ x : K, 0 ≤ x → u * x ≤ 1 / 100 * x := fun x hx => mul_le_mul_of_nonneg_right hu hx
  have e1 : |r.rnd (1 - t) - (1 - s)| ≤ 201 / 100 * (u * B) := by
    have := rnd_err r (x := 1 - t) (c := 1 - s) (by rw [show 1 - t - (1 - s) = -(t - s) by ring, abs_neg]; exact ht') hs1 huB
    have := sm (u * B) huB
    rw [← hud, mul_add] at *
    linarith
  have e2 : |y0 * r.rnd (1 - t) - y0 * (1 - s)| ≤ 201 / 100 * (u * (b * B)) := by
    rw [← mul_sub, abs_mul]
    have := mul_le_mul h0 e1 (abs_nonneg _) hb
    linarith
  have e3 : |r.rnd (y0 * r.rnd (1 - t)) - y0 * (1 - s)| ≤ 304 / 100 * (u * (b * B)) := by
    have h := rnd_err r e2 (b := b * B) (by rw [abs_mul]; exact mul_le_mul h0 hs1 (abs_nonneg _) hb) (by linarith)
    have := sm (u * (b * B)) hubB
    rw [← hud, mul_add, mul_left_comm u (201 / 100)] at h
    linarith
  have e4 : |y1 * t - y1 * s| ≤ u * (b * B) := by
    rw [← mul_sub, abs_mul]
    have := mul_le_mul h1 ht' (abs_nonneg _) hb
    linarith
  have e5 : |r.rnd (y1 * t) - y1 * s| ≤ 201 / 100 * (u * (b * B)) := by
    have h := rnd_err r e4 (b := b * B) (by rw [abs_mul]; exact mul_le_mul h1 hsB (abs_nonneg _) hb) hubB
    have := sm (u * (b * B)) hubB
    rw [← hud, mul_add] at h
    linarith
  have e6 : |r.rnd (y0 * r.rnd (1 - t)) + r.rnd (y1 * t) - (y0 * (1 - s) + y1 * s)| ≤ 505 / 100 * (u * (b * B)) := by
    rw [add_sub_add_comm]
    refine (abs_add_le _ _).trans ?_
    linarith
  have e7 : |y0 * (1 - s) + y1 * s| ≤ 2 * (b * B) := by
    refine (abs_add_le _ _).trans ?_
    rw [abs_mul, abs_mul]
    have := mul_le_mul h0 hs1 (abs_nonneg _) hb
    have := mul_le_mul h1 hsB (abs_nonneg _) hb
    linarith
  have h := rnd_err r e6 e7 (by linarith)
  have := sm (u * (b * B)) hubB
  rw [← hud, mul_add, mul_left_comm u 2, mul_left_comm u (505 / 100)] at h
  unfold lerp
  linarith

end QM.Rounded
