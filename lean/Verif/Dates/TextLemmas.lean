import Verif.Dates.TextModel
import Verif.Dates.Lemmas

/-!
# Helper lemmas for date text and 32-bit arithmetic
-/

namespace QM.Dates
open QM.Dates.Spec

theorem i32_ok {b : Build} {x : Int} (h : InI32 x) : i32 b x = .ok x := by
  simp [i32, h]

theorem tdiv_bounds_pos (x k : Int) (hk : 0 < k) : -(x.natAbs : Int) ≤ x.tdiv k ∧ x.tdiv k ≤ x.natAbs := by
  have h1 : (x.tdiv k).natAbs ≤ x.natAbs := by
    rw [Int.natAbs_tdiv]; exact Nat.div_le_self _ _
  omega

/-- No operation of `truncated_julian_from_ymd` overflows for arguments up to a million. -/
theorem tj32_ok (b : Build) (y m d : Int)
    (hy : -1000000 ≤ y ∧ y ≤ 1000000) (hm : -1000000 ≤ m ∧ m ≤ 1000000)
    (hd : -1000000 ≤ d ∧ d ≤ 1000000) :
    truncatedJulianFromYmd32 b y m d = .ok (truncatedJulianFromYmd y m d) := by
  unfold truncatedJulianFromYmd32 truncatedJulianFromYmd
  obtain ⟨ym, hym⟩ : ∃ ym, ym = (m - 14).tdiv 12 := ⟨_, rfl⟩
  have bym : -100000 ≤ ym ∧ ym ≤ 100000 := by
    rcases Int.le_total 0 (m - 14) with h | h
    · rw [Int.tdiv_eq_ediv_of_nonneg h] at hym; omega
    · have : (m - 14) = -(-(m-14)) := by omega
      rw [this, Int.neg_tdiv, Int.tdiv_eq_ediv_of_nonneg (by omega)] at hym; omega
  obtain ⟨a, ha⟩ : ∃ a, a = (1461 * (y + 4800 + ym)).tdiv 4 := ⟨_, rfl⟩
  have ba : -420000000 ≤ a ∧ a ≤ 420000000 := by
    rcases Int.le_total 0 (1461 * (y + 4800 + ym)) with h | h
    · rw [Int.tdiv_eq_ediv_of_nonneg h] at ha; omega
    · have : (1461 * (y + 4800 + ym)) = -(-(1461 * (y + 4800 + ym))) := by omega
      rw [this, Int.neg_tdiv, Int.tdiv_eq_ediv_of_nonneg (by omega)] at ha; omega
  obtain ⟨k, hk⟩ : ∃ k, k = m - 2 - ym * 12 := ⟨_, rfl⟩
  have bk : -30 ≤ k ∧ k ≤ 30 := by
    rcases Int.le_total 0 (m - 14) with h | h
    · rw [Int.tdiv_eq_ediv_of_nonneg h] at hym; omega
    · have : (m - 14) = -(-(m-14)) := by omega
      rw [this, Int.neg_tdiv, Int.tdiv_eq_ediv_of_nonneg (by omega)] at hym; omega
  obtain ⟨g, hg⟩ : ∃ g, g = (367 * k).tdiv 12 := ⟨_, rfl⟩
  have bg := tdiv_bounds_pos (367 * k) 12 (by omega)
  obtain ⟨c, hc⟩ : ∃ c, c = (y + 4900 + ym).tdiv 100 := ⟨_, rfl⟩
  have bc := tdiv_bounds_pos (y + 4900 + ym) 100 (by omega)
  obtain ⟨c', hc'⟩ : ∃ c', c' = (3 * c).tdiv 4 := ⟨_, rfl⟩
  have bc' := tdiv_bounds_pos (3 * c) 4 (by omega)
  rw [← hg] at bg
  rw [← hc] at bc
  rw [← hc'] at bc'
  simp only [← hym, ← ha, ← hk, ← hg, ← hc, ← hc', bind, Except.bind]
  rw [i32_ok (x := m - 14) (by unfold InI32; omega)]; dsimp only
  rw [i32_ok (x := d - 32075) (by unfold InI32; omega)]; dsimp only
  rw [i32_ok (x := y + 4800) (by unfold InI32; omega)]; dsimp only
  rw [← hym, i32_ok (x := y + 4800 + ym) (by unfold InI32; omega)]; dsimp only
  rw [i32_ok (x := 1461 * (y + 4800 + ym)) (by unfold InI32; omega)]; dsimp only
  rw [← ha, i32_ok (x := d - 32075 + a) (by unfold InI32; omega)]; dsimp only
  rw [i32_ok (x := m - 2) (by unfold InI32; omega)]; dsimp only
  rw [i32_ok (x := ym * 12) (by unfold InI32; omega)]; dsimp only
  rw [← hk, i32_ok (x := k) (by unfold InI32; omega)]; dsimp only
  rw [i32_ok (x := 367 * k) (by unfold InI32; omega)]; dsimp only
  rw [← hg, i32_ok (x := d - 32075 + a + g) (by unfold InI32; omega)]; dsimp only
  rw [i32_ok (x := y + 4900) (by unfold InI32; omega)]; dsimp only
  rw [i32_ok (x := y + 4900 + ym) (by unfold InI32; omega)]; dsimp only
  rw [← hc, i32_ok (x := 3 * c) (by unfold InI32; omega)]; dsimp only
  rw [← hc', i32_ok (x := d - 32075 + a + g - c') (by unfold InI32; omega)]; dsimp only
  rw [i32_ok (by unfold InI32; omega)]

/-- No operation of `ymd_from_truncated_julian` overflows. -/
theorem ymd32_ok (b : Build) (j : Int) (h : -2508569 < j) (h' : j < 534000000) :
    ymdFromTruncatedJulian32 b j = .ok (ymdFromTruncatedJulian j) := by
  unfold ymdFromTruncatedJulian32 ymdFromTruncatedJulian
  obtain ⟨l1, hl1⟩ : ∃ l1, l1 = j + 2440000 + 68569 := ⟨_, rfl⟩
  have t1 : (4 * l1).tdiv 146097 = 4 * l1 / 146097 := Int.tdiv_eq_ediv_of_nonneg (by omega)
  obtain ⟨n, hn⟩ : ∃ n, n = 4 * l1 / 146097 := ⟨_, rfl⟩
  have hn0 : 0 ≤ n := by omega
  have t2 : (146097 * n + 3).tdiv 4 = (146097 * n + 3) / 4 := Int.tdiv_eq_ediv_of_nonneg (by omega)
  obtain ⟨l2, hl2⟩ : ∃ l2, l2 = l1 - (146097 * n + 3) / 4 := ⟨_, rfl⟩
  have b2 : 0 ≤ l2 ∧ l2 ≤ 36524 := by
    obtain ⟨q, r, h0, h3, rfl⟩ : ∃ q r, 0 ≤ r ∧ r < 4 ∧ n = 4 * q + r := ⟨n / 4, n % 4, by omega, by omega, by omega⟩
    rcases (by omega : r = 0 ∨ r = 1 ∨ r = 2 ∨ r = 3) with h | h | h | h <;> subst h <;> omega
  have t3 : (4000 * (l2 + 1)).tdiv 1461001 = 4000 * (l2 + 1) / 1461001 := Int.tdiv_eq_ediv_of_nonneg (by omega)
  obtain ⟨i1, hi1⟩ : ∃ i1, i1 = 4000 * (l2 + 1) / 1461001 := ⟨_, rfl⟩
  have b3 : 0 ≤ i1 ∧ i1 ≤ 99 := by omega
  have t4 : (1461 * i1).tdiv 4 = 1461 * i1 / 4 := Int.tdiv_eq_ediv_of_nonneg (by omega)
  obtain ⟨l3, hl3⟩ : ∃ l3, l3 = l2 - (1461 * i1) / 4 + 31 := ⟨_, rfl⟩
  have b4 : 31 ≤ l3 ∧ l3 ≤ 396 := by
    obtain ⟨q, r, h0, h3, rfl⟩ : ∃ q r, 0 ≤ r ∧ r < 4 ∧ i1 = 4 * q + r := ⟨i1 / 4, i1 % 4, by omega, by omega, by omega⟩
    rcases (by omega : r = 0 ∨ r = 1 ∨ r = 2 ∨ r = 3) with h | h | h | h <;> subst h <;> omega
  have t5 : (80 * l3).tdiv 2447 = 80 * l3 / 2447 := Int.tdiv_eq_ediv_of_nonneg (by omega)
  obtain ⟨j1, hj1⟩ : ∃ j1, j1 = 80 * l3 / 2447 := ⟨_, rfl⟩
  have t6 : (2447 * j1).tdiv 80 = 2447 * j1 / 80 := Int.tdiv_eq_ediv_of_nonneg (by omega)
  have t7 : j1.tdiv 11 = j1 / 11 := Int.tdiv_eq_ediv_of_nonneg (by omega)
  have ok : ∀ x : Int, InI32 x → i32 b x = .ok x := fun x hx => i32_ok hx
  simp only [bind, Except.bind, pure, Except.pure]
  rw [ok (j + 2440000) (by unfold InI32; omega)]; dsimp only
  rw [← hl1, ok l1 (by unfold InI32; omega)]; dsimp only
  rw [ok (4 * l1) (by unfold InI32; omega)]; dsimp only
  rw [t1, ← hn, ok (146097 * n) (by unfold InI32; omega)]; dsimp only
  rw [ok (146097 * n + 3) (by unfold InI32; omega)]; dsimp only
  rw [t2, ← hl2, ok l2 (by unfold InI32; omega)]; dsimp only
  rw [ok (l2 + 1) (by unfold InI32; omega)]; dsimp only
  rw [ok (4000 * (l2 + 1)) (by unfold InI32; omega)]; dsimp only
  rw [t3, ← hi1, ok (1461 * i1) (by unfold InI32; omega)]; dsimp only
  rw [t4, ok (l2 - 1461 * i1 / 4) (by unfold InI32; omega)]; dsimp only
  rw [← hl3, ok l3 (by unfold InI32; omega)]; dsimp only
  rw [ok (80 * l3) (by unfold InI32; omega)]; dsimp only
  rw [t5, ← hj1, ok (2447 * j1) (by unfold InI32; omega)]; dsimp only
  rw [t6, ok (l3 - 2447 * j1 / 80) (by unfold InI32; omega)]; dsimp only
  rw [ok (j1 + 2) (by unfold InI32; omega)]; dsimp only
  rw [t7, ok (12 * (j1 / 11)) (by unfold InI32; omega)]; dsimp only
  rw [ok (j1 + 2 - 12 * (j1 / 11)) (by unfold InI32; omega)]; dsimp only
  rw [ok (n - 49) (by unfold InI32; omega)]; dsimp only
  rw [ok (100 * (n - 49)) (by unfold InI32; omega)]; dsimp only
  rw [ok (100 * (n - 49) + i1) (by unfold InI32; omega)]; dsimp only
  rw [ok (100 * (n - 49) + i1 + j1 / 11) (by unfold InI32; omega)]

/-! ## Decimal text -/

theorem digit_cases (n : Nat) (h : n < 10) :
    digitVal (digitChar n) = some (n : Int) ∧ digitChar n ≠ '-' ∧ digitChar n ≠ '+' := by
  have : ∀ n : Fin 10, digitVal (digitChar n.1) = some (n.1 : Int) ∧ digitChar n.1 ≠ '-' ∧ digitChar n.1 ≠ '+' := by
    decide
  exact this ⟨n, h⟩

theorem parseDigits_append (xs ys : List Char) (acc : Int) :
    parseDigits acc (xs ++ ys) = (parseDigits acc xs).bind (fun a => parseDigits a ys) := by
  induction xs generalizing acc with
  | nil => simp [parseDigits]
  | cons c cs ih =>
    simp only [List.cons_append, parseDigits]
    cases digitVal c with
    | none => simp
    | some v => simp [ih]

theorem parseDigits_natDigits (n : Nat) : ∀ acc : Int,
    parseDigits acc (natDigits n) = some (acc * 10 ^ (natDigits n).length + n) := by
  induction n using natDigits.induct with
  | case1 n h =>
    intro acc
    rw [natDigits, if_pos h]
    simp [parseDigits, (digit_cases n h).1]
  | case2 n h ih =>
    intro acc
    rw [natDigits, if_neg h, parseDigits_append, ih]
    have := (digit_cases (n % 10) (by omega)).1
    simp [parseDigits, this]
    rw [Int.pow_succ, Int.add_mul, Int.mul_assoc]
    omega

theorem parseDigits_zeros (k : Nat) (ds : List Char) :
    parseDigits 0 (List.replicate k '0' ++ ds) = parseDigits 0 ds := by
  induction k with
  | zero => simp
  | succ k ih =>
    have h0 : digitVal '0' = some 0 := by decide
    simp [List.replicate_succ, parseDigits, h0, ih]

theorem natDigits_ne_nil (n : Nat) : natDigits n ≠ [] := by
  rw [natDigits]; split <;> simp

theorem natDigits_clean (n : Nat) : ∀ c ∈ natDigits n, c ≠ '-' ∧ c ≠ '+' := by
  induction n using natDigits.induct with
  | case1 n h =>
    rw [natDigits, if_pos h]
    intro c hc
    simp at hc; subst hc
    exact (digit_cases n h).2
  | case2 n h ih =>
    rw [natDigits, if_neg h]
    intro c hc
    simp only [List.mem_append, List.mem_singleton] at hc
    rcases hc with hc | hc
    · exact ih c hc
    · subst hc; exact (digit_cases _ (by omega)).2

theorem fmtPad_nonneg (w : Nat) (x : Int) (hx : 0 ≤ x) :
    fmtPad w x = List.replicate (w - (natDigits x.natAbs).length) '0' ++ natDigits x.natAbs := by
  unfold fmtPad; rw [if_neg (by omega)]

theorem fmtPad_clean (w : Nat) (x : Int) (hx : 0 ≤ x) : ∀ c ∈ fmtPad w x, c ≠ '-' ∧ c ≠ '+' := by
  rw [fmtPad_nonneg w x hx]
  intro c hc
  simp only [List.mem_append, List.mem_replicate] at hc
  rcases hc with hc | hc
  · rw [hc.2]; decide
  · exact natDigits_clean _ c hc

theorem parseI32_fmtPad (w : Nat) (x : Int) (hx : 0 ≤ x) (hx' : x ≤ 2147483647) :
    parseI32 (fmtPad w x) = some x := by
  have hclean := fmtPad_clean w x hx
  have hne : fmtPad w x ≠ [] := by
    rw [fmtPad_nonneg w x hx]
    intro h
    exact natDigits_ne_nil _ (List.append_eq_nil_iff.mp h).2
  have hp : parseDigits 0 (fmtPad w x) = some x := by
    rw [fmtPad_nonneg w x hx, parseDigits_zeros, parseDigits_natDigits]
    simp; omega
  unfold parseI32
  cases hf : fmtPad w x with
  | nil => exact absurd hf hne
  | cons c cs =>
    rw [hf] at hp hclean
    have hc := hclean c (by simp)
    have hI : InI32 x := by unfold InI32; omega
    have e : parseSigned (c :: cs) = some x := by
      unfold parseSigned
      split
      · rename_i h; simp at h; exact absurd h.1 hc.2
      · rename_i h; simp at h; exact absurd h.1 hc.1
      · rename_i h; simp at h; rw [← h.1, ← h.2]; exact hp
      · rename_i h; simp at h
    simp only [e, hI, if_true]

theorem splitDash_ne_nil (s : List Char) : splitDash s ≠ [] := by
  cases s with
  | nil => simp [splitDash]
  | cons c cs =>
    unfold splitDash
    split
    · simp
    · split <;> simp

theorem splitDash_clean (a : List Char) (ha : ∀ c ∈ a, c ≠ '-') : splitDash a = [a] := by
  induction a with
  | nil => simp [splitDash]
  | cons c cs ih =>
    have hc := ha c (by simp)
    rw [splitDash, if_neg hc, ih (fun d hd => ha d (by simp [hd]))]

theorem splitDash_append (a b : List Char) (ha : ∀ c ∈ a, c ≠ '-') :
    splitDash (a ++ '-' :: b) = a :: splitDash b := by
  induction a with
  | nil => simp [splitDash]
  | cons c cs ih =>
    have hc := ha c (by simp)
    rw [List.cons_append, splitDash, if_neg hc, ih (fun d hd => ha d (by simp [hd]))]

theorem splitDash_iso (t : Ymd) (hy : 0 ≤ t.1) (hm : 0 ≤ t.2.1) (hd : 0 ≤ t.2.2) :
    splitDash (isoText t) = [fmtPad 4 t.1, fmtPad 2 t.2.1, fmtPad 2 t.2.2] := by
  unfold isoText
  rw [splitDash_append _ _ (fun c hc => (fmtPad_clean 4 _ hy c hc).1),
    splitDash_append _ _ (fun c hc => (fmtPad_clean 2 _ hm c hc).1),
    splitDash_clean _ (fun c hc => (fmtPad_clean 2 _ hd c hc).1)]

/-- Reading ISO text of a real day: the day itself if it is in the supported range, else an error. -/
theorem fromStr_iso (b : Build) (t : Ymd) (h : IsDay t) (hy : 0 ≤ t.1) (hy' : t.1 ≤ 1000000) :
    fromStr b (isoText t) = if isValid (dayNo t) then .ok (dayNo t) else .error .err := by
  have hdim := daysInMonth_le t.1 t.2.1
  obtain ⟨h1, h2, h3, h4⟩ := h
  unfold fromStr
  rw [splitDash_iso t hy (by omega) (by omega)]
  simp only [parsePart, bind, Except.bind, List.getElem?_cons_zero, List.getElem?_cons_succ]
  rw [parseI32_fmtPad _ _ hy (by omega)]; dsimp only
  rw [parseI32_fmtPad _ _ (by omega) (by omega)]; dsimp only
  rw [parseI32_fmtPad _ _ (by omega) (by omega)]; dsimp only
  rw [tj32_ok b _ _ _ (by omega) (by omega) (by omega)]; dsimp only
  rfl

/-! ### Numbers as text -/

theorem digits_get {n : Nat} {c : Char} (h : Spec.digits[n]? = some c) : digitVal c = some (n : Int) := by
  have hn : n < 10 := by
    have := (List.getElem?_eq_some_iff.1 h).1
    exact this
  have : ∀ n : Fin 10, ∀ c, Spec.digits[n.1]? = some c → digitVal c = some (n.1 : Int) := by
    intro n
    match n with
    | 0 | 1 | 2 | 3 | 4 | 5 | 6 | 7 | 8 | 9 => intro c hc; cases hc; decide
  exact this ⟨n, hn⟩ c h

theorem digits_of_val {c : Char} {v : Int} (h : digitVal c = some v) : ∃ n : Nat, v = n ∧ Spec.digits[n]? = some c := by
  unfold digitVal at h
  split at h
  · rename_i hc
    have h1 : 48 ≤ c.toNat := UInt32.le_iff_toNat_le.1 hc.1
    have h2 : c.toNat ≤ 57 := UInt32.le_iff_toNat_le.1 hc.2
    refine ⟨c.toNat - 48, (Option.some.inj h).symm, ?_⟩
    obtain ⟨k, hk⟩ : ∃ k, k = c.toNat := ⟨_, rfl⟩
    have hc' : c = Char.ofNat k := by rw [hk]; exact (Char.ofNat_toNat c).symm
    rw [← hk] at h1 h2 ⊢
    rw [hc']
    have : ∀ k : Fin 10, Spec.digits[k.1]? = some (Char.ofNat (k.1 + 48)) := by decide
    have := this ⟨k - 48, by omega⟩
    rw [this]
    congr 2
    dsimp only
    omega
  · cases h

theorem parseDigits_iff (ds : List Char) (acc w : Int) :
    parseDigits acc ds = some w ↔ ∃ n, Spec.Digits ds n ∧ w = acc * 10 ^ ds.length + n := by
  induction hl : ds.length generalizing ds w with
  | zero =>
    have : ds = [] := List.eq_nil_of_length_eq_zero hl
    subst this
    constructor
    · intro h
      cases h
      exact ⟨0, .nil, by simp⟩
    · rintro ⟨n, hd, rfl⟩
      generalize he : ([] : List Char) = e at hd
      cases hd with
      | nil => simp [parseDigits]
      | snoc n c h1 h2 => simp at he
  | succ k ih =>
    obtain ⟨ds', c, rfl⟩ : ∃ ds' c, ds = ds' ++ [c] := ⟨ds.dropLast, ds.getLast (by rintro rfl; cases hl), (List.dropLast_concat_getLast _).symm⟩
    have hl' : ds'.length = k := by simpa using hl
    rw [parseDigits_append]
    constructor
    · intro h
      cases h1 : parseDigits acc ds' with
      | none => rw [h1] at h; cases h
      | some a =>
        rw [h1] at h
        obtain ⟨n, hn, rfl⟩ := (ih ds' a hl').1 h1
        simp only [Option.bind_some, parseDigits] at h
        cases h2 : digitVal c with
        | none => rw [h2] at h; cases h
        | some v =>
          rw [h2] at h
          obtain ⟨m, rfl, hm⟩ := digits_of_val h2
          refine ⟨10 * n + m, .snoc m c hn hm, ?_⟩
          rw [← Option.some.inj h, Int.pow_succ, Int.add_mul]
          push_cast
          rw [Int.mul_assoc]
          omega
    · rintro ⟨n, hd, rfl⟩
      generalize he : ds' ++ [c] = e at hd
      cases hd with
      | nil => simp at he
      | @snoc ds'' v m c' h1 h2 =>
        obtain ⟨rfl, hcc⟩ := List.append_inj he (by
          have := congrArg List.length he
          simpa using this)
        cases hcc
        rw [(ih ds' (acc * 10 ^ k + v) hl').2 ⟨v, h1, rfl⟩]
        simp only [Option.bind_some, parseDigits, digits_get h2]
        rw [Int.pow_succ, Int.add_mul, Int.mul_assoc]
        congr 1
        push_cast
        omega

theorem digits_head {c : Char} {cs : List Char} {n : Nat} (h : Spec.Digits (c :: cs) n) : c ≠ '+' ∧ c ≠ '-' := by
  have h1 := (parseDigits_iff (c :: cs) 0 _).2 ⟨n, h, rfl⟩
  have e : digitVal '+' = none ∧ digitVal '-' = none := by decide
  constructor
  · rintro rfl
    rw [parseDigits, e.1] at h1
    cases h1
  · rintro rfl
    rw [parseDigits, e.2] at h1
    cases h1

/-- The parser accepts exactly the numerals of the specification. -/
theorem parseI32_iff (p : List Char) (v : Int) : parseI32 p = some v ↔ Spec.Numeral p v := by
  have key : parseSigned p = some v ↔ ∃ ds n, Spec.Digits ds n ∧ ds ≠ [] ∧
      ((p = ds ∧ v = n) ∨ (p = '+' :: ds ∧ v = n) ∨ (p = '-' :: ds ∧ v = -n)) := by
    unfold parseSigned
    split
    · rename_i c cs
      rw [parseDigits_iff]
      constructor
      · rintro ⟨n, h1, rfl⟩
        exact ⟨_, n, h1, by simp, .inr (.inl ⟨rfl, by simp⟩)⟩
      · rintro ⟨ds, n, h1, h2, ⟨rfl, rfl⟩ | ⟨h3, rfl⟩ | ⟨h3, rfl⟩⟩
        · exact absurd rfl (digits_head h1).1
        · cases h3
          exact ⟨n, h1, by simp⟩
        · cases h3
    · rename_i c cs
      constructor
      · intro h
        cases h1 : parseDigits 0 (c :: cs) with
        | none => rw [h1] at h; cases h
        | some w =>
          rw [h1] at h
          obtain ⟨n, h2, h3⟩ := (parseDigits_iff _ _ _).1 h1
          have h4 : -w = v := Option.some.inj h
          exact ⟨_, n, h2, by simp, .inr (.inr ⟨rfl, by simp at h3; omega⟩)⟩
      · rintro ⟨ds, n, h1, h2, ⟨rfl, rfl⟩ | ⟨h3, rfl⟩ | ⟨h3, rfl⟩⟩
        · exact absurd rfl (digits_head h1).2
        · cases h3
        · cases h3
          rw [(parseDigits_iff _ 0 _).2 ⟨n, h1, rfl⟩]
          simp
    · rename_i c cs hp hm
      rw [parseDigits_iff]
      constructor
      · rintro ⟨n, h1, rfl⟩
        exact ⟨_, n, h1, by simp, .inl ⟨rfl, by simp⟩⟩
      · rintro ⟨ds, n, h1, h2, ⟨rfl, rfl⟩ | ⟨h3, rfl⟩ | ⟨h3, rfl⟩⟩
        · exact ⟨n, h1, by simp⟩
        · cases h3
          cases cs with
          | nil => exact absurd rfl h2
          | cons d ds => exact (hp d ds rfl rfl).elim
        · cases h3
          cases cs with
          | nil => exact absurd rfl h2
          | cons d ds => exact (hm d ds rfl rfl).elim
    · constructor
      · intro h; cases h
      · rintro ⟨ds, n, h1, h2, ⟨rfl, rfl⟩ | ⟨h3, rfl⟩ | ⟨h3, rfl⟩⟩
        · exact absurd rfl h2
        · cases h3
        · cases h3
  unfold Spec.Numeral
  rw [← key]
  unfold parseI32
  cases parseSigned p with
  | none => simp
  | some w =>
    dsimp only
    by_cases h : InI32 w
    · rw [if_pos h]
      unfold InI32 at h
      constructor
      · intro e; cases e; exact ⟨rfl, by omega⟩
      · intro e; exact e.1
    · rw [if_neg h]
      unfold InI32 at h
      constructor
      · intro e; cases e
      · rintro ⟨e, e1⟩; cases e; omega

theorem splitDash_three (p0 p1 p2 rest : List Char) (h0 : '-' ∉ p0) (h1 : '-' ∉ p1) (h2 : '-' ∉ p2)
    (hr : rest = [] ∨ ∃ r, rest = '-' :: r) :
    ∃ more, splitDash (p0 ++ '-' :: (p1 ++ '-' :: (p2 ++ rest))) = p0 :: p1 :: p2 :: more := by
  have clean {p : List Char} (h : '-' ∉ p) : ∀ c ∈ p, c ≠ '-' := fun c hc e => h (e ▸ hc)
  rw [splitDash_append _ _ (clean h0), splitDash_append _ _ (clean h1)]
  rcases hr with rfl | ⟨r, rfl⟩
  · rw [List.append_nil, splitDash_clean _ (clean h2)]
    exact ⟨[], rfl⟩
  · rw [splitDash_append _ _ (clean h2)]
    exact ⟨_, rfl⟩

/-! ### The shape of the text of a date -/

theorem natDigits_length (w : Nat) : ∀ n : Nat, n < 10 ^ (w + 1) → (natDigits n).length ≤ w + 1 := by
  induction w with
  | zero =>
    intro n h
    rw [natDigits, if_pos (by simpa using h)]
    simp
  | succ w ih =>
    intro n h
    rw [natDigits]
    split
    · simp
    · have := ih (n / 10) (by rw [Nat.pow_succ] at h; omega)
      simp only [List.length_append, List.length_singleton]
      omega

theorem fmtPad_digits (w : Nat) (x : Int) (h0 : 0 ≤ x) (h1 : x < 10 ^ (w + 1)) :
    (fmtPad (w + 1) x).length = w + 1 ∧ ∃ n : Nat, Spec.Digits (fmtPad (w + 1) x) n ∧ (n : Int) = x := by
  have e : ((x.natAbs : Nat) : Int) = x := by omega
  have hn : x.natAbs < 10 ^ (w + 1) := by
    rw [← e] at h1
    exact_mod_cast h1
  have hl := natDigits_length w x.natAbs hn
  constructor
  · rw [fmtPad_nonneg _ _ h0]
    simp only [List.length_append, List.length_replicate]
    omega
  · have hp : parseDigits 0 (fmtPad (w + 1) x) = some x := by
      rw [fmtPad_nonneg _ x h0, parseDigits_zeros, parseDigits_natDigits]
      simp; omega
    obtain ⟨n, h2, h3⟩ := (parseDigits_iff _ _ _).1 hp
    exact ⟨n, h2, by rw [h3]; simp⟩

end QM.Dates
