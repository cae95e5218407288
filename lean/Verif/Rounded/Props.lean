import Verif.Rounded.InterpLemmas
import Verif.Interp.Spec
import Mathlib.Data.Rat.Floor

/-!
# Property C83: interpolation in floating-point arithmetic

The properties C15 to C18 are about exact numbers. These theorems are about the same code when every operation rounds its
result. `r` is any rounding that keeps the promises of IEEE 754, without overflow and underflow.
-/

namespace QM.Rounded
open QM.Interp (Num Extrap binarySearch_append)
open QM.Interp.Spec (extrapolated)

variable {K : Type} [Field K] [LinearOrder K] [IsStrictOrderedRing K]

/-- C83, construction. However the arithmetic rounds, a curve of dates is accepted exactly when it has a point and its
dates increase, and refused with an error otherwise. -/
theorem C83_accepted (r : Rounding K) (points : List (Int × K)) (left right : Extrap) :
    ((∃ L, Linear.new r points left right = .ok L) ↔ points ≠ [] ∧ points.Pairwise (fun p q => p.1 < q.1)) ∧
    (¬ (points ≠ [] ∧ points.Pairwise (fun p q => p.1 < q.1)) → Linear.new r points left right = .error .err) := by
  have h : (∃ L, Linear.new r points left right = .ok L) ↔ points ≠ [] ∧ points.Pairwise (fun p q => p.1 < q.1) := by
    simp only [new_iff]
    exact ⟨fun ⟨_, h⟩ => h.2, fun h => ⟨_, rfl, h⟩⟩
  refine ⟨h, fun hn => ?_⟩
  rw [← h] at hn
  unfold Linear.new at hn ⊢
  rcases validate_refused r points with e | e <;> rw [e] at hn ⊢
  · exact absurd ⟨_, rfl⟩ hn
  · rfl

/-- C83, pillars. On the date of a pillar the curve answers that pillar's value, without any error. -/
theorem C83_pillar {r : Rounding K} {points : List (Int × K)} {left right : Extrap} {L : Linear K} {d : Int} {y : K}
    (h : Linear.new r points left right = .ok L) (hm : (d, y) ∈ points) : L.interpolate r d = .ok (.val y) := by
  obtain ⟨rfl, _, hs⟩ := (new_iff ..).1 h
  obtain ⟨l, m, rfl⟩ := List.append_of_mem hm
  exact interpolate_pillar r left right hs

/-- C83, outside. If neither side is natural, the curve answers before its first and after its last date what was chosen for
that side, without any error: the value of the end pillar if the choice is flat. -/
theorem C83_outside {r : Rounding K} {points : List (Int × K)} {left right : Extrap} {L : Linear K} {first last : Int × K}
    (h : Linear.new r points left right = .ok L) (hf : points.head? = some first) (hl : points.getLast? = some last)
    (hleft : left ≠ .natural) (hright : right ≠ .natural) (x : Int) :
    (x < first.1 → L.interpolate r x = match extrapolated left first.2 0 with
      | some v => .ok v
      | none => .error .err) ∧
    (last.1 < x → L.interpolate r x = match extrapolated right last.2 0 with
      | some v => .ok v
      | none => .error .err) := by
  obtain ⟨rfl, hne, hs⟩ := (new_iff ..).1 h
  constructor
  · intro hx
    obtain ⟨m, rfl⟩ : ∃ m, points = first :: m := by
      cases points with
      | nil => simp at hf
      | cons p m => exact ⟨m, by simpa using hf⟩
    have hb := binarySearch_append (l := []) (r := first :: m) (x := x) hs (by simp) (by simpa using hx.le)
    have hne' : ((some first.1 : Option Int) == some x) = false := by simpa using hx.ne'
    simp only [List.nil_append, List.length_nil, List.head?_cons, Option.map_some, hne'] at hb
    simp only [Linear.interpolate, linearInterpolateExtrapolate, hb]
    cases left <;> simp [Extrap.isNatural, Extrap.extrapolate, extrapolated] at hleft ⊢
  · intro hx
    obtain ⟨l, rfl⟩ : ∃ l, points = l ++ [last] := by
      rw [List.getLast?_eq_some_iff] at hl
      exact hl
    have hlt : ∀ p ∈ l ++ [last], p.1 < x := by
      intro p hp
      rcases List.mem_append.1 hp with hp | hp
      · exact ((List.pairwise_append.1 hs).2.2 p hp last (by simp)).trans hx
      · rw [List.mem_singleton.1 hp]; exact hx
    have hb := binarySearch_append (l := l ++ [last]) (r := []) (x := x) (by simpa using hs) hlt (by simp)
    simp only [List.append_nil, List.head?_nil, Option.map_none] at hb
    have hn : ((none : Option Int) == some x) = false := rfl
    rw [hn] at hb
    simp only [Linear.interpolate, linearInterpolateExtrapolate, hb]
    cases left <;> cases right <;> simp [Extrap.isNatural, Extrap.extrapolate, extrapolated] at hleft hright ⊢

/-- C83, `lerp`. As its comment promises, the end points are met exactly. -/
theorem C83_ends (r : Rounding K) {y0 y1 : K} (h0 : r.IsFloat y0) (h1 : r.IsFloat y1) :
    lerp r y0 y1 0 = y0 ∧ lerp r y0 y1 1 = y1 := ⟨lerp_zero r h0 y1, lerp_one r y0 h1⟩

/-- C83, sign. Between two pillars with positive values the interpolated value is positive: rounding does not take it to
zero. -/
theorem C83_positive {r : Rounding K} {before after : List (Int × K)} {left right : Extrap} {L : Linear K}
    {d0 d1 x : Int} {y0 y1 : K} (h : Linear.new r (before ++ (d0, y0) :: (d1, y1) :: after) left right = .ok L)
    (hx0 : d0 < x) (hx1 : x < d1) (h0 : 0 < y0) (h1 : 0 < y1) :
    ∃ v, L.interpolate r x = .ok (.val v) ∧ 0 < v := by
  obtain ⟨rfl, _, hs⟩ := (new_iff ..).1 h
  refine ⟨_, (interpolate_between r left right hs hx0 hx1).trans
    (linearInterpolate_eq r (p := (d0, y0)) (q := (d1, y1)) (hx0.trans hx1) x), ?_⟩
  have hd : d0 < d1 := hx0.trans hx1
  refine lerp_pos r h0 h1 ?_ ?_
  · rw [← fraction_start r d0 d1]; exact fraction_mono r hd hx0.le
  · rw [← fraction_end r hd]; exact fraction_mono r hd hx1.le

/-- C83, range, in part: an interpolated value lies between the values of the neighbouring pillars if these are not both
positive and not both negative. The full property drops `hsign`; `C83_flat_false` shows that it fails. -/
theorem C83_between_partial {r : Rounding K} {before after : List (Int × K)} {left right : Extrap} {L : Linear K}
    {d0 d1 x : Int} {y0 y1 : K} (h : Linear.new r (before ++ (d0, y0) :: (d1, y1) :: after) left right = .ok L)
    (hx0 : d0 < x) (hx1 : x < d1) (h0 : r.IsFloat y0) (h1 : r.IsFloat y1)
    (hsign : (y0 ≤ 0 ∧ 0 ≤ y1) ∨ (y1 ≤ 0 ∧ 0 ≤ y0)) :
    ∃ v, L.interpolate r x = .ok (.val v) ∧ min y0 y1 ≤ v ∧ v ≤ max y0 y1 := by
  obtain ⟨rfl, _, hs⟩ := (new_iff ..).1 h
  refine ⟨_, (interpolate_between r left right hs hx0 hx1).trans
    (linearInterpolate_eq r (p := (d0, y0)) (q := (d1, y1)) (hx0.trans hx1) x), ?_⟩
  have hd : d0 < d1 := hx0.trans hx1
  have ht0 : 0 ≤ fraction r d0 d1 x := by rw [← fraction_start r d0 d1]; exact fraction_mono r hd hx0.le
  have ht1 : fraction r d0 d1 x ≤ 1 := by rw [← fraction_end r hd]; exact fraction_mono r hd hx1.le
  dsimp only
  rcases hsign with ⟨ha, hb⟩ | ⟨ha, hb⟩
  · have a := lerp_mono r ha hb ht0
    have b := lerp_mono r ha hb ht1
    rw [lerp_zero r h0] at a
    rw [lerp_one r _ h1] at b
    exact ⟨(min_le_left _ _).trans a, b.trans (le_max_right _ _)⟩
  · have a := lerp_anti r hb ha ht0
    have b := lerp_anti r hb ha ht1
    rw [lerp_zero r h0] at a
    rw [lerp_one r _ h1] at b
    exact ⟨(min_le_right _ _).trans b, a.trans (le_max_left _ _)⟩

/-- C83, monotonicity, in part: between a pillar that is not positive and one that is not negative, a later date never has a
smaller value. Without these signs it can fail (`C83_flat_false`). -/
theorem C83_monotone_partial {r : Rounding K} {before after : List (Int × K)} {left right : Extrap} {L : Linear K}
    {d0 d1 x x' : Int} {y0 y1 : K} (h : Linear.new r (before ++ (d0, y0) :: (d1, y1) :: after) left right = .ok L)
    (hx0 : d0 ≤ x) (hxx : x ≤ x') (hx1 : x' ≤ d1) (h0 : r.IsFloat y0) (h1 : r.IsFloat y1) (ha : y0 ≤ 0) (hb : 0 ≤ y1) :
    ∃ v v', L.interpolate r x = .ok (.val v) ∧ L.interpolate r x' = .ok (.val v') ∧ v ≤ v' := by
  obtain ⟨rfl, _, hs⟩ := (new_iff ..).1 h
  have hd : d0 < d1 := by
    have := (List.pairwise_append.1 hs).2.1
    exact (List.pairwise_cons.1 this).1 (d1, y1) (by simp)
  have key : ∀ z, d0 ≤ z → z ≤ d1 → Linear.interpolate r ⟨left, right, before ++ (d0, y0) :: (d1, y1) :: after⟩ z
      = .ok (.val (lerp r y0 y1 (fraction r d0 d1 z))) := by
    intro z hz0 hz1
    rcases eq_or_lt_of_le hz0 with rfl | hz0
    · rw [fraction_start, lerp_zero r h0]
      exact interpolate_pillar r left right hs
    rcases eq_or_lt_of_le hz1 with rfl | hz1
    · rw [fraction_end r hd, lerp_one r _ h1]
      have e : before ++ (d0, y0) :: (z, y1) :: after = (before ++ [(d0, y0)]) ++ (z, y1) :: after := by simp
      rw [e] at hs ⊢
      exact interpolate_pillar r left right hs
    · exact (interpolate_between r left right hs hz0 hz1).trans
        (linearInterpolate_eq r (p := (d0, y0)) (q := (d1, y1)) hd z)
  exact ⟨_, _, key x hx0 (hxx.trans hx1), key x' (hx0.trans hxx) hx1, lerp_mono r ha hb (fraction_mono r hd hxx)⟩

/-- C83, accuracy. Between two pillars the value is the one on the straight line, up to six units of rounding of the larger
of the two pillar values. The dates may be any whose difference is an `i32`. -/
theorem C83_close {r : Rounding K} {before after : List (Int × K)} {left right : Extrap} {L : Linear K}
    {d0 d1 x : Int} {y0 y1 : K} (hu : r.unit ≤ 1 / 100)
    (h : Linear.new r (before ++ (d0, y0) :: (d1, y1) :: after) left right = .ok L)
    (hx0 : d0 < x) (hx1 : x < d1) (hd : d1 - d0 < 2 ^ 31) :
    ∃ v, L.interpolate r x = .ok (.val v) ∧
      |v - (y0 + (y1 - y0) * ((x - d0 : Int) / (d1 - d0 : Int) : K))| ≤ 6 * r.unit * max |y0| |y1| := by
  obtain ⟨rfl, _, hs⟩ := (new_iff ..).1 h
  refine ⟨_, (interpolate_between r left right hs hx0 hx1).trans
    (linearInterpolate_eq r (p := (d0, y0)) (q := (d1, y1)) (hx0.trans hx1) x), ?_⟩
  dsimp only
  have i1 : ∀ z : Int, d0 ≤ z → z ≤ d1 → dateDiff r d0 z = ((z - d0 : Int) : K) := by
    intro z hz0 hz1
    unfold dateDiff
    apply r.int
    rw [abs_of_nonneg (by omega)]
    norm_num at hd ⊢
    omega
  have p0 : (0 : K) < ((d1 - d0 : Int) : K) := by exact_mod_cast (by omega : (0 : Int) < d1 - d0)
  have p1 : (0 : K) < ((x - d0 : Int) : K) := by exact_mod_cast (by omega : (0 : Int) < x - d0)
  have p2 : ((x - d0 : Int) : K) ≤ ((d1 - d0 : Int) : K) := by exact_mod_cast (by omega : x - d0 ≤ d1 - d0)
  have hs0 : 0 ≤ ((x - d0 : Int) : K) / ((d1 - d0 : Int) : K) := by positivity
  have hs1 : ((x - d0 : Int) : K) / ((d1 - d0 : Int) : K) ≤ 1 := (div_le_one p0).2 p2
  have he := lerp_err r hu (y0 := y0) (y1 := y1) (le_max_left _ _) (le_max_right _ _) hs0 hs1
    (t := fraction r d0 d1 x) (by
      unfold fraction
      rw [i1 x hx0.le hx1.le, i1 d1 (by omega) le_rfl]
      have := r.close (((x - d0 : Int) : K) / ((d1 - d0 : Int) : K))
      rwa [abs_of_nonneg hs0] at this)
  rw [show y0 + (y1 - y0) * (((x - d0 : Int) : K) / ((d1 - d0 : Int) : K))
    = y0 * (1 - ((x - d0 : Int) : K) / ((d1 - d0 : Int) : K)) + y1 * (((x - d0 : Int) : K) / ((d1 - d0 : Int) : K)) by ring]
  exact he

theorem natural_left (r : Rounding K) {p q : Int × K} {m : List (Int × K)} {x : Int} (right : Extrap)
    (hs : (p :: q :: m).Pairwise (fun p q => p.1 < q.1)) (hx : x < p.1) :
    linearInterpolateExtrapolate r x (p :: q :: m) .natural right = linearInterpolate r p q x := by
  have hb := binarySearch_append (l := []) (r := p :: q :: m) (x := x) hs (by simp) (by simpa using hx.le)
  have hne' : ((some p.1 : Option Int) == some x) = false := by simpa using hx.ne'
  simp only [List.nil_append, List.length_nil, List.head?_cons, Option.map_some, hne'] at hb
  simp [linearInterpolateExtrapolate, hb, Extrap.isNatural]

theorem natural_right (r : Rounding K) {p q : Int × K} {l : List (Int × K)} {x : Int} (right : Extrap)
    (hs : (l ++ [p, q]).Pairwise (fun p q => p.1 < q.1)) (hx : q.1 < x) :
    linearInterpolateExtrapolate r x (l ++ [p, q]) .natural right = linearInterpolate r p q x := by
  have hlt : ∀ a ∈ l ++ [p, q], a.1 < x := by
    intro a ha
    have e : l ++ [p, q] = (l ++ [p]) ++ [q] := by simp
    rw [e] at ha hs
    rcases List.mem_append.1 ha with ha | ha
    · exact ((List.pairwise_append.1 hs).2.2 a ha q (by simp)).trans hx
    · rw [List.mem_singleton.1 ha]; exact hx
  have hb := binarySearch_append (l := l ++ [p, q]) (r := []) (x := x) (by simpa using hs) hlt (by simp)
  simp only [List.append_nil, List.head?_nil, Option.map_none] at hb
  have hn : ((none : Option Int) == some x) = false := rfl
  rw [hn] at hb
  simp [linearInterpolateExtrapolate, hb, Extrap.isNatural]

theorem line_close {r : Rounding K} (hu : r.unit ≤ 1 / 100) {p q : Int × K} (hpq : p.1 < q.1) {x : Int} (hd : |q.1 - p.1| ≤ 2 ^ 32) (hd' : |x - p.1| ≤ 2 ^ 32) :
    ∃ v, linearInterpolate r p q x = .ok (.val v) ∧
      |v - (p.2 + (q.2 - p.2) * ((x - p.1 : Int) / (q.1 - p.1 : Int) : K))|
        ≤ 8 * r.unit * max |p.2| |q.2| * (1 + |((x - p.1 : Int) : K) / ((q.1 - p.1 : Int) : K)|) := by
  refine ⟨_, linearInterpolate_eq r hpq x, ?_⟩
  have he := lerp_err_far r hu (y0 := p.2) (y1 := q.2) (le_max_left _ _) (le_max_right _ _)
    (t := fraction r p.1 q.1 x) (s := ((x - p.1 : Int) : K) / ((q.1 - p.1 : Int) : K)) (by
      unfold fraction dateDiff
      rw [r.int _ hd, r.int _ hd']
      exact r.close _)
  rw [show p.2 + (q.2 - p.2) * (((x - p.1 : Int) : K) / ((q.1 - p.1 : Int) : K))
    = p.2 * (1 - ((x - p.1 : Int) : K) / ((q.1 - p.1 : Int) : K)) + q.2 * (((x - p.1 : Int) : K) / ((q.1 - p.1 : Int) : K)) by ring]
  exact he

/-- C83, natural extrapolation. Before the first date the value is the one on the straight line through the first two pillars, up to
eight units of rounding of the larger of the two values for every length of their distance. The same holds after the last date with the
last two pillars. (The code asks the left choice on both sides: see `C17_right_false`.) -/
theorem C83_natural {r : Rounding K} {p q : Int × K} {m : List (Int × K)} {right : Extrap} {L : Linear K} {x : Int} (hu : r.unit ≤ 1 / 100)
    (hd : |q.1 - p.1| ≤ 2 ^ 32) (hd' : |x - p.1| ≤ 2 ^ 32) :
    (Linear.new r (p :: q :: m) .natural right = .ok L → x < p.1 → ∃ v, L.interpolate r x = .ok (.val v) ∧
      |v - (p.2 + (q.2 - p.2) * ((x - p.1 : Int) / (q.1 - p.1 : Int) : K))|
        ≤ 8 * r.unit * max |p.2| |q.2| * (1 + |((x - p.1 : Int) : K) / ((q.1 - p.1 : Int) : K)|)) ∧
    (Linear.new r (m ++ [p, q]) .natural right = .ok L → q.1 < x → ∃ v, L.interpolate r x = .ok (.val v) ∧
      |v - (p.2 + (q.2 - p.2) * ((x - p.1 : Int) / (q.1 - p.1 : Int) : K))|
        ≤ 8 * r.unit * max |p.2| |q.2| * (1 + |((x - p.1 : Int) : K) / ((q.1 - p.1 : Int) : K)|)) := by
  constructor
  · intro h hx
    obtain ⟨rfl, _, hs⟩ := (new_iff ..).1 h
    unfold Linear.interpolate
    rw [natural_left r right hs hx]
    exact line_close hu ((List.pairwise_cons.1 hs).1 q (by simp)) hd hd'
  · intro h hx
    obtain ⟨rfl, _, hs⟩ := (new_iff ..).1 h
    unfold Linear.interpolate
    rw [natural_right r right hs hx]
    exact line_close hu ((List.pairwise_cons.1 (List.pairwise_append.1 hs).2.1).1 q (by simp)) hd hd'

/-- C83: a single pillar cannot be extrapolated naturally, which is an error; after its date the right choice is asked. -/
theorem C83_single {r : Rounding K} {p : Int × K} {right : Extrap} {L : Linear K} {x : Int} (h : Linear.new r [p] .natural right = .ok L) :
    (x < p.1 → L.interpolate r x = .error .err) ∧
    (p.1 < x → L.interpolate r x = match extrapolated right p.2 0 with
      | some v => if right = .natural then .error .err else .ok v
      | none => .error .err) := by
  obtain ⟨rfl, _, hs⟩ := (new_iff ..).1 h
  constructor
  · intro hx
    have hb := binarySearch_append (l := []) (r := [p]) (x := x) hs (by simp) (by simpa using hx.le)
    have hne' : ((some p.1 : Option Int) == some x) = false := by simpa using hx.ne'
    simp only [List.nil_append, List.length_nil, List.head?_cons, Option.map_some, hne'] at hb
    simp [Linear.interpolate, linearInterpolateExtrapolate, hb, Extrap.isNatural, Extrap.extrapolate]
  · intro hx
    have hb := binarySearch_append (l := [p]) (r := []) (x := x) hs (by simpa using hx) (by simp)
    simp only [List.append_nil, List.head?_nil, Option.map_none] at hb
    have hn : ((none : Option Int) == some x) = false := rfl
    rw [hn] at hb
    cases right <;> simp [Linear.interpolate, linearInterpolateExtrapolate, hb, Extrap.isNatural, Extrap.extrapolate, extrapolated]

/-! ## `f64` -/

/-- The arithmetic of `f64`, without overflow and underflow, on rational numbers. -/
def f64 : Rounding ℚ := Rounding.binary ℚ 53 (by norm_num)

/-- How to work out a nearest integer. -/
theorem nearest_eq {x : ℚ} {n : ℤ} (h : |x - n| ≤ 1 / 2) (he : |x - n| = 1 / 2 → 2 ∣ n) : nearest x = n := by
  rw [abs_le] at h
  rcases le_or_gt (n : ℚ) x with hx | hx
  · rw [abs_of_nonneg (by linarith)] at he
    have hf : ⌊x⌋ = n := by rw [Int.floor_eq_iff]; constructor <;> linarith [h.2]
    unfold nearest
    rw [hf]
    split_ifs with a b c
    · rfl
    · linarith [h.2]
    · rfl
    · exact absurd (he (by linarith [h.2])) c
  · rw [abs_of_neg (by linarith)] at he
    have hf : ⌊x⌋ = n - 1 := by rw [Int.floor_eq_iff]; push_cast; constructor <;> linarith [h.1]
    unfold nearest
    rw [hf]
    push_cast
    split_ifs with a b c
    · linarith [h.1]
    · omega
    · have := he (by linarith [h.1])
      omega
    · omega

/-- How to work out a rounded value: the nearest multiple `n` of the last bit. -/
theorem toBits_eq {p : ℕ} {x : ℚ} {n e : ℤ} (h1 : (2 : ℚ) ^ e ≤ x) (h2 : x < 2 ^ (e + 1))
    (h3 : |x / 2 ^ (e - (p - 1)) - n| ≤ 1 / 2) (h4 : 2 ∣ n ∨ |x / 2 ^ (e - (p - 1)) - n| < 1 / 2) :
    toBits p x = n * 2 ^ (e - (p - 1)) := by
  have hx : 0 < x := (zpow_pos (by norm_num) e).trans_le h1
  have hl : Int.log 2 |x| = e := by
    rw [abs_of_pos hx]
    apply le_antisymm
    · have := (Int.lt_zpow_iff_log_lt (b := 2) (R := ℚ) (by norm_num) (x := e + 1) hx).1 (by simpa using h2)
      omega
    · exact (Int.zpow_le_iff_le_log (b := 2) (R := ℚ) (by norm_num) hx).1 (by simpa using h1)
  have hb : lastBit p x = 2 ^ (e - (p - 1)) := by unfold lastBit; rw [hl]
  unfold toBits
  rw [hb, nearest_eq h3 (fun he => h4.resolve_right (by rw [he]; exact lt_irrefl _))]

/-- The `f64` nearest to 0.05. -/
def five : ℚ := 7205759403792794 / 2 ^ 57

/-- C83 fails for a flat curve: a curve that is 5% on two dates five days apart is more than 5% on the day after the first
of them. So an interpolated value need not lie between the values of its neighbours, nor a curve of equal values be flat,
nor a curve that never falls be monotone. -/
theorem C83_flat_false : ∃ L v, f64.IsFloat five ∧ Linear.new f64 [(0, five), (5, five)] .flat .flat = .ok L
    ∧ L.interpolate f64 1 = .ok (.val v) ∧ five < v
    ∧ L.interpolate f64 0 = .ok (.val five) ∧ L.interpolate f64 5 = .ok (.val five) := by
  have hs : ([(0, five), (5, five)] : List (Int × ℚ)).Pairwise (fun p q => p.1 < q.1) := by simp
  have hn : Linear.new f64 [(0, five), (5, five)] .flat .flat = .ok ⟨.flat, .flat, [(0, five), (5, five)]⟩ :=
    (new_iff ..).2 ⟨rfl, by simp, hs⟩
  have hfl : f64.IsFloat five := by
    have := toBits_exact (K := ℚ) (p := 53) (by norm_num) 7205759403792794 (-57) (by norm_num)
    have e : five = ((7205759403792794 : ℤ) : ℚ) * 2 ^ (-57 : ℤ) := by unfold five; norm_num
    unfold Rounding.IsFloat
    rw [e]
    exact this
  have d1 : dateDiff f64 0 1 = 1 := by
    unfold dateDiff; simpa using f64.int 1 (by norm_num)
  have d5 : dateDiff f64 0 5 = 5 := by
    unfold dateDiff; simpa using f64.int 5 (by norm_num)
  have s1 : f64.rnd (1 / 5) = 7205759403792794 / 2 ^ 55 := by
    refine (toBits_eq (p := 53) (n := 7205759403792794) (e := -3) (by norm_num) (by norm_num)
      (by rw [abs_le]; constructor <;> norm_num) (.inl (by norm_num))).trans ?_
    norm_num
  have s2 : f64.rnd (1 - 7205759403792794 / 2 ^ 55) = 7205759403792794 / 2 ^ 53 := by
    refine (toBits_eq (p := 53) (n := 7205759403792794) (e := -1) (by norm_num) (by norm_num)
      (by rw [abs_le]; constructor <;> norm_num) (.inl (by norm_num))).trans ?_
    norm_num
  have s3 : f64.rnd (five * (7205759403792794 / 2 ^ 53)) = 5764607523034236 / 2 ^ 57 := by
    refine (toBits_eq (p := 53) (n := 5764607523034236) (e := -5) (by unfold five; norm_num) (by unfold five; norm_num)
      (by unfold five; rw [abs_le]; constructor <;> norm_num) (.inl (by norm_num))).trans ?_
    norm_num
  have s4 : f64.rnd (five * (7205759403792794 / 2 ^ 55)) = 5764607523034236 / 2 ^ 59 := by
    refine (toBits_eq (p := 53) (n := 5764607523034236) (e := -7) (by unfold five; norm_num) (by unfold five; norm_num)
      (by unfold five; rw [abs_le]; constructor <;> norm_num) (.inl (by norm_num))).trans ?_
    norm_num
  have s5 : f64.rnd (5764607523034236 / 2 ^ 57 + 5764607523034236 / 2 ^ 59) = 7205759403792795 / 2 ^ 57 := by
    refine (toBits_eq (p := 53) (n := 7205759403792795) (e := -5) (by norm_num) (by norm_num)
      (by rw [abs_le]; constructor <;> norm_num) (.inr (by rw [abs_lt]; constructor <;> norm_num))).trans ?_
    norm_num
  refine ⟨_, 7205759403792795 / 2 ^ 57, hfl, hn, ?_, by unfold five; norm_num,
    interpolate_pillar f64 (l := []) (m := [(5, five)]) _ _ hs, interpolate_pillar f64 (l := [(0, five)]) (m := []) _ _ hs⟩
  refine (interpolate_between f64 (l := []) (m := []) (x := 1) (p := (0, five)) (q := (5, five)) _ _ hs
    (by norm_num) (by norm_num)).trans ?_
  rw [linearInterpolate_eq f64 (by norm_num)]
  unfold lerp fraction
  dsimp only
  rw [d1, d5, s1, s2, s3, s4, s5]

/-- The hypotheses of the theorems above are met by `f64` and an ordinary curve that crosses zero. -/
example : f64.unit ≤ 1 / 100 ∧ (∃ L, Linear.new f64 ([(0, -1)] ++ (10, -2) :: (40, 3) :: [(100, 5)]) .flat .natural = .ok L)
    ∧ f64.IsFloat (-2) ∧ f64.IsFloat 3 := by
  refine ⟨?_, ⟨_, (new_iff ..).2 ⟨rfl, by simp, by simp⟩⟩, ?_, ?_⟩
  · change ((1 : ℚ) / 2) ^ 53 ≤ 1 / 100
    norm_num
  · have := f64.int (-2) (by norm_num)
    simpa [Rounding.IsFloat] using this
  · have := f64.int 3 (by norm_num)
    simpa [Rounding.IsFloat] using this

end QM.Rounded
