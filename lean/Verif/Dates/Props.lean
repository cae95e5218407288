import Verif.Dates.TextLemmas

/-!
# Properties C01-C06: dates
-/

namespace QM.Dates
open QM.Dates.Spec

/-! ## C01 round trip -/

/-- C01. Every valid date is recovered from its year, month and day. -/
theorem C01_date_roundtrip (d : Int) (h : isValid d = true) :
    fromYmd (ymd d).1 (ymd d).2.1 (ymd d).2.2 = d := by
  rw [isValid_iff] at h
  exact (ymd_spec d (by omega)).2.1

example : isValid 18249 = true := by decide

/-- C01. Every real Gregorian day from the year -4600 on is recovered from its date. -/
theorem C01_ymd_roundtrip (y m d : Int) (hy : -4600 ≤ y) (h : IsDay (y, m, d)) :
    ymd (fromYmd y m d) = (y, m, d) :=
  ymd_dayNo (t := (y, m, d)) h hy

example : IsDay (2000, 2, 29) ∧ ¬ IsDay (2100, 2, 29) := by decide

/-! ## C02 successor -/

/-- C02. The triple reported for a valid date is a real Gregorian day. -/
theorem C02_ymd_is_day (d : Int) (h : isValid d = true) : IsDay (ymd d) := by
  rw [isValid_iff] at h
  exact (ymd_spec d (by omega)).1

/-- C02. Adding one day gives the Gregorian successor. -/
theorem C02_next_day (d : Int) (h : isValid d = true) : ymd (d + 1) = next (ymd d) := by
  rw [isValid_iff] at h
  exact ymd_succ d (by omega)

/-- C02. Adding `k` days gives the day reached by `k` Gregorian successors. -/
theorem C02_add_days (d : Int) (h : isValid d = true) (k : Nat) : ymd (d + k) = later k (ymd d) := by
  rw [isValid_iff] at h
  exact ymd_later d (by omega) k

/-- The rule is anchored to the real calendar: day number 18120 is 1 January 2018. -/
theorem C02_anchor : ymd 18120 = (2018, 1, 1) ∧ isValid 18120 = true := by decide

/-! ## C03 order -/

/-- C03. Date order is calendar order. -/
theorem C03_order (a b : Int) (ha : isValid a = true) (hb : isValid b = true) :
    a < b ↔ Before (ymd a) (ymd b) := by
  rw [isValid_iff] at ha hb
  exact ymd_lt_iff a b (by omega) (by omega)

/-- C03. The difference of two dates is the number of calendar days between them: it is the number
of Gregorian successor steps from the first to the second, and no other number of steps works. -/
theorem C03_difference (a b : Int) (ha : isValid a = true) (hb : isValid b = true) (k : Nat) :
    b - a = k ↔ later k (ymd a) = ymd b := by
  rw [isValid_iff] at ha hb
  rw [← ymd_later a (by omega) k]
  constructor
  · intro h
    have : a + k = b := by omega
    rw [this]
  · intro h
    have h1 := (ymd_spec (a + k) (by omega)).2.1
    have h2 := (ymd_spec b (by omega)).2.1
    rw [h] at h1
    omega

example : isValid 100 = true ∧ isValid 465 = true ∧ (465 : Int) - 100 = (365 : Nat) := by decide

/-! ## C04 weekdays -/

/-- C04. `day_of_week` panics exactly on invalid dates. -/
theorem C04_panics_iff_invalid (d : Int) : dayOfWeek d = .error .panic ↔ isValid d = false := by
  unfold dayOfWeek
  cases isValid d <;> simp

/-- C04. On a valid date the answer is between 0 (Monday) and 6 (Sunday). -/
theorem C04_range (d : Int) (h : isValid d = true) :
    ∃ w, dayOfWeek d = .ok w ∧ 0 ≤ w ∧ w ≤ 6 := by
  refine ⟨(d + 3).tmod 7, by simp [dayOfWeek, h], ?_⟩
  rw [isValid_iff] at h
  rw [Int.tmod_eq_emod_of_nonneg (by omega)]; omega

/-- C04. Moving `k` days (either way) moves the weekday by `k` modulo 7. -/
theorem C04_cycle (d k w v : Int) (h : dayOfWeek d = .ok w) (h' : dayOfWeek (d + k) = .ok v) :
    v = (w + k) % 7 := by
  unfold dayOfWeek at h h'
  split at h
  · split at h'
    · rename_i h1 h2
      rw [isValid_iff] at h1 h2
      rw [Int.tmod_eq_emod_of_nonneg (by omega)] at h h'
      simp only [Except.ok.injEq] at h h'
      omega
    · simp at h'
  · simp at h

/-- C04. The answer is the weekday of the real calendar: 1 January 2018 was a Monday, and a day
`k` Gregorian days later than it falls `k` modulo 7 days into the week. -/
theorem C04_calendar_weekday_after (d w : Int) (h : dayOfWeek d = .ok w) (k : Nat)
    (hk : later k (2018, 1, 1) = ymd d) : w = (k : Int) % 7 := by
  have hv : isValid d = true := by
    unfold dayOfWeek at h; split at h
    · assumption
    · simp at h
  have := (C03_difference 18120 d (by decide) hv k).2 (by rw [C02_anchor.1]; exact hk)
  have h0 : dayOfWeek 18120 = .ok 0 := by decide
  have e : (18120 : Int) + (d - 18120) = d := by omega
  have := C04_cycle 18120 (d - 18120) 0 w h0 (by rw [e]; exact h)
  omega

/-- C04. The same for days before that Monday. -/
theorem C04_calendar_weekday_before (d w : Int) (h : dayOfWeek d = .ok w) (k : Nat)
    (hk : later k (ymd d) = (2018, 1, 1)) : (w + (k : Int)) % 7 = 0 := by
  have hv : isValid d = true := by
    unfold dayOfWeek at h; split at h
    · assumption
    · simp at h
  have := (C03_difference d 18120 hv (by decide) k).2 (by rw [C02_anchor.1]; exact hk)
  have h0 : dayOfWeek 18120 = .ok 0 := by decide
  have e : (18120 : Int) + (d - 18120) = d := by omega
  have := C04_cycle 18120 (d - 18120) 0 w h0 (by rw [e]; exact h)
  omega

example : dayOfWeek 18129 = .ok 2 ∧ later 9 (2018, 1, 1) = ymd 18129 := by decide

/-- C04. The dates that are valid, and so have a weekday, are the days from 24 May 1968 to 3 April 2168. -/
theorem C04_valid_days (t : Ymd) (ht : IsDay t) (hy : -4600 ≤ t.1) :
    isValid (fromYmd t.1 t.2.1 t.2.2) = true ↔ ¬ Before t (1968, 5, 24) ∧ ¬ Before (2168, 4, 3) t := by
  rw [isValid_iff]
  show 0 < dayNo t ∧ dayNo t < 73000 ↔ _
  have hb := dayNo_bound ht hy
  have h1 := ymd_lt_iff (dayNo t) 1 hb (by omega)
  have h2 := ymd_lt_iff 72999 (dayNo t) (by omega) hb
  rw [ymd_dayNo ht hy] at h1 h2
  have e1 : ymd 1 = (1968, 5, 24) := by decide
  have e2 : ymd 72999 = (2168, 4, 3) := by decide
  rw [e1] at h1
  rw [e2] at h2
  rw [← h1, ← h2]
  omega

/-! ## C05 text -/

/-- C05. Reading back the text of a valid date gives that date, in debug and release builds. -/
theorem C05_parse_display (b : Build) (d : Int) (h : isValid d = true) :
    fromStr b (display d) = .ok d := by
  have hv := h
  rw [isValid_iff] at h
  obtain ⟨h1, h2, h3⟩ := ymd_spec d (by omega)
  have lo := (ymd_lt_iff 0 d (by omega) (by omega)).1 (by omega)
  have hi := (ymd_lt_iff d 73000 (by omega) (by omega)).1 (by omega)
  have e0 : ymd 0 = (1968, 5, 23) := by decide
  have e1 : ymd 73000 = (2168, 4, 4) := by decide
  rw [e0] at lo
  rw [e1] at hi
  simp only [Before] at lo hi
  unfold display
  rw [fromStr_iso b _ h1 (by omega) (by omega), h2, if_pos hv]

/-- C05. The text of a valid date is its year in four digits, its month in two and its day in two, with dashes between. -/
theorem C05_format (d : Int) (h : isValid d = true) :
    ∃ ys ms ds, display d = ys ++ '-' :: (ms ++ '-' :: ds) ∧ ys.length = 4 ∧ ms.length = 2 ∧ ds.length = 2 ∧
      (∃ n : Nat, Digits ys n ∧ (n : Int) = (ymd d).1) ∧ (∃ n : Nat, Digits ms n ∧ (n : Int) = (ymd d).2.1) ∧
      (∃ n : Nat, Digits ds n ∧ (n : Int) = (ymd d).2.2) := by
  rw [isValid_iff] at h
  obtain ⟨⟨m1, m2, d1, d2⟩, -, -⟩ := ymd_spec d (by omega)
  have hdim := daysInMonth_le (ymd d).1 (ymd d).2.1
  have lo := (ymd_lt_iff 0 d (by omega) (by omega)).1 (by omega)
  have hi := (ymd_lt_iff d 73000 (by omega) (by omega)).1 (by omega)
  have e0 : ymd 0 = (1968, 5, 23) := by decide
  have e1 : ymd 73000 = (2168, 4, 4) := by decide
  rw [e0] at lo
  rw [e1] at hi
  simp only [Before] at lo hi
  have hy := fmtPad_digits 3 (ymd d).1 (by omega) (by omega)
  have hm := fmtPad_digits 1 (ymd d).2.1 (by omega) (by omega)
  have hd := fmtPad_digits 1 (ymd d).2.2 (by omega) (by omega)
  exact ⟨_, _, _, rfl, hy.1, hm.1, hd.1, hy.2, hm.2, hd.2⟩

example : isValid 18248 = true ∧ display 18248 = "2018-05-09".toList ∧ isoText (-44, 3, 15) = "-044-03-15".toList := by
  decide +kernel

/-- C05. Printing a date for debugging gives the day of the week and the same text. -/
theorem C05_debug (d w : Int) (h : dayOfWeek d = .ok w) :
    ∃ name, ["Mon", "Tue", "Wed", "Thu", "Fri", "Sat", "Sun"][w.toNat]? = some name ∧
      debugText d = .ok (name.toList ++ ' ' :: display d) := by
  have hv : isValid d = true := by
    unfold dayOfWeek at h; split at h
    · assumption
    · simp at h
  obtain ⟨v, hv1, h0, h6⟩ := C04_range d hv
  rw [h] at hv1
  cases hv1
  have : w = 0 ∨ w = 1 ∨ w = 2 ∨ w = 3 ∨ w = 4 ∨ w = 5 ∨ w = 6 := by omega
  unfold debugText
  rw [h]
  rcases this with rfl | rfl | rfl | rfl | rfl | rfl | rfl <;> exact ⟨_, rfl, rfl⟩

/-- C05, violated: printing a date that is not valid, such as the nil date, for debugging panics, while displaying it does not. -/
theorem C05_debug_false (d : Int) (h : isValid d = false) : debugText d = .error .panic := by
  unfold debugText
  rw [(C04_panics_iff_invalid d).2 h]
  rfl

example : debugText fromNil = .error .panic ∧ display fromNil = "1968-05-23".toList := by decide +kernel

/-- C05. The text of a day of a year before the year zero is refused. -/
theorem C05_negative_years (b : Build) (y m d : Int) (hy : y < 0) :
    fromStr b (isoText (y, m, d)) = .error .err := by
  have h : ∃ s, isoText (y, m, d) = '-' :: s := by
    unfold isoText fmtPad
    rw [if_pos hy]
    exact ⟨_, rfl⟩
  obtain ⟨s, h⟩ := h
  rw [h]
  unfold fromStr
  rw [splitDash, if_pos rfl]
  rfl

/-- C05. Different valid dates have different texts. -/
theorem C05_display_injective (d e : Int) (hd : isValid d = true) (he : isValid e = true)
    (h : display d = display e) : d = e := by
  have h1 := C05_parse_display .debug d hd
  rw [h, C05_parse_display .debug e he] at h1
  simp only [Except.ok.injEq] at h1
  exact h1.symm

/-- C05. Whatever the text, a date that is returned is valid. -/
theorem C05_only_valid (b : Build) (s : List Char) (d : Int) (h : fromStr b s = .ok d) :
    isValid d = true := by
  unfold fromStr at h
  simp only [bind, Except.bind] at h
  repeat' (split at h)
  all_goals simp_all

/-- C05. The ISO text of any real day of the years 0 to 1000000 is read as that day if the day is
within the supported range, and refused otherwise. -/
theorem C05_iso_text (b : Build) (y m d : Int) (h : IsDay (y, m, d)) (h0 : 0 ≤ y) (h1 : y ≤ 1000000) :
    fromStr b (isoText (y, m, d)) =
      if isValid (fromYmd y m d) then .ok (fromYmd y m d) else .error .err :=
  fromStr_iso b (y, m, d) h h0 h1

example : isoText (2018, 5, 9) = "2018-05-09".toList ∧ IsDay (2018, 5, 9) := by decide +kernel

/-- C05 is violated: text with fewer than three parts makes parsing panic, in every build. -/
theorem C05_no_panic_false (b : Build) : fromStr b "2018-05".toList = .error .panic := by
  cases b <;> decide

/-- C05 is violated: a year too large for the 32-bit formula panics in a debug build, and in a
release build is silently read as 27 September 1968. Half that year also panics in a debug build; a release build refuses it. -/
theorem C05_overflow_false :
    fromStr .debug "2941774-01-01".toList = .error .panic ∧
    fromStr .release "2941774-01-01".toList = .ok 127 ∧ ymd 127 = (1968, 9, 27) ∧
    fromStr .debug "1471890-01-01".toList = .error .panic ∧
    fromStr .release "1471890-01-01".toList = .error .err := by decide

/-- C05, what is true: text with at least three parts, each of whose first three either is not a
number or is a number of at most a million, never panics.
Missing for the full claim: fewer than three parts, and larger numbers (see the two witnesses). -/
theorem C05_no_panic_partial (b : Build) (s : List Char) (hp : 3 ≤ (splitDash s).length)
    (hn : ∀ p ∈ (splitDash s).take 3, ∀ v, parseI32 p = some v → -1000000 ≤ v ∧ v ≤ 1000000) :
    fromStr b s ≠ .error .panic := by
  unfold fromStr
  match hs : splitDash s, hp with
  | p :: q :: r :: rest, _ =>
    rw [hs] at hn
    simp only [List.take_succ_cons, List.take_zero, List.mem_cons, List.not_mem_nil, or_false] at hn
    simp only [parsePart, bind, Except.bind, List.getElem?_cons_zero, List.getElem?_cons_succ]
    cases h1 : parseI32 p with
    | none => simp
    | some y =>
      cases h2 : parseI32 q with
      | none => simp
      | some m =>
        cases h3 : parseI32 r with
        | none => simp
        | some d =>
          dsimp only
          rw [tj32_ok b y m d (hn p (by simp) y h1) (hn q (by simp) m h2) (hn r (by simp) d h3)]
          dsimp only
          split <;> simp

example : 3 ≤ (splitDash "2018-13-45".toList).length ∧
    (∀ p ∈ (splitDash "2018-13-45".toList).take 3, ∀ v, parseI32 p = some v → -1000000 ≤ v ∧ v ≤ 1000000) := by
  refine ⟨by decide, ?_⟩
  have e : (splitDash "2018-13-45".toList).take 3 = ["2018".toList, "13".toList, "45".toList] := by decide
  have e1 : parseI32 "2018".toList = some 2018 := by decide
  have e2 : parseI32 "13".toList = some 13 := by decide
  have e3 : parseI32 "45".toList = some 45 := by decide
  rw [e]
  intro p hp v hv
  simp only [List.mem_cons, List.not_mem_nil, or_false] at hp
  rcases hp with rfl | rfl | rfl
  · rw [e1] at hv; cases hv; omega
  · rw [e2] at hv; cases hv; omega
  · rw [e3] at hv; cases hv; omega

/-- C05. Text is an error if one of its first three parts between dashes is not a number. -/
theorem C05_not_numbers (b : Build) (p0 p1 p2 rest : List Char) (h0 : '-' ∉ p0) (h1 : '-' ∉ p1) (h2 : '-' ∉ p2)
    (hr : rest = [] ∨ ∃ r, rest = '-' :: r)
    (h : (∀ v, ¬ Numeral p0 v) ∨ (∀ v, ¬ Numeral p1 v) ∨ (∀ v, ¬ Numeral p2 v)) :
    fromStr b (p0 ++ '-' :: (p1 ++ '-' :: (p2 ++ rest))) = .error .err := by
  obtain ⟨more, hs⟩ := splitDash_three p0 p1 p2 rest h0 h1 h2 hr
  have none {p : List Char} (h : ∀ v, ¬ Numeral p v) : parseI32 p = none := by
    cases hp : parseI32 p with
    | none => rfl
    | some v => exact absurd ((parseI32_iff p v).1 hp) (h v)
  unfold fromStr
  rw [hs]
  simp only [parsePart, bind, Except.bind, List.getElem?_cons_zero, List.getElem?_cons_succ]
  rcases h with h | h | h
  · rw [none h]
  · rw [none h]
    cases parseI32 p0 <;> rfl
  · rw [none h]
    cases parseI32 p0
    · rfl
    · cases parseI32 p1 <;> rfl

example : ∀ v, ¬ Numeral "1x".toList v := fun v h => by
  have h1 := (parseI32_iff _ v).2 h
  have h2 : parseI32 "1x".toList = none := by decide
  rw [h2] at h1
  cases h1

/-- C05. Text whose first three parts are numbers of at most a million is read as the day they name,
and refused if that is outside the supported range. -/
theorem C05_numbers (b : Build) (p0 p1 p2 rest : List Char) (h0 : '-' ∉ p0) (h1 : '-' ∉ p1) (h2 : '-' ∉ p2)
    (hr : rest = [] ∨ ∃ r, rest = '-' :: r) {y m d : Int}
    (hy : Numeral p0 y) (hm : Numeral p1 m) (hd : Numeral p2 d)
    (by' : y.natAbs ≤ 1000000) (bm : m.natAbs ≤ 1000000) (bd : d.natAbs ≤ 1000000) :
    fromStr b (p0 ++ '-' :: (p1 ++ '-' :: (p2 ++ rest))) =
      if isValid (fromYmd y m d) then .ok (fromYmd y m d) else .error .err := by
  obtain ⟨more, hs⟩ := splitDash_three p0 p1 p2 rest h0 h1 h2 hr
  unfold fromStr
  rw [hs]
  simp only [parsePart, bind, Except.bind, List.getElem?_cons_zero, List.getElem?_cons_succ,
    (parseI32_iff _ _).2 hy, (parseI32_iff _ _).2 hm, (parseI32_iff _ _).2 hd]
  rw [tj32_ok b y m d (by omega) (by omega) (by omega)]
  rfl

example : Numeral "007".toList 7 ∧ Numeral "+12".toList 12 :=
  ⟨(parseI32_iff _ _).1 (by decide), (parseI32_iff _ _).1 (by decide)⟩

/-! ## C06 overflow -/

/-- C06. Converting a valid date to year, month, day never overflows: done operation by operation in
`i32`, in either build, the result is the mathematical one. -/
theorem C06_ymd_no_overflow (b : Build) (d : Int) (h : isValid d = true) :
    ymdFromTruncatedJulian32 b d = .ok (ymd d) := by
  rw [isValid_iff] at h
  exact ymd32_ok b d (by omega) (by omega)

/-- C06. Converting a real day whose year is within a million to a date never overflows. -/
theorem C06_from_ymd_no_overflow (b : Build) (y m d : Int) (h : IsDay (y, m, d))
    (h0 : -1000000 ≤ y) (h1 : y ≤ 1000000) :
    truncatedJulianFromYmd32 b y m d = .ok (fromYmd y m d) := by
  have hdim := daysInMonth_le y m
  obtain ⟨a1, a2, a3, a4⟩ := h
  simp only at a1 a2 a3 a4
  exact tj32_ok b y m d ⟨h0, h1⟩ (by omega) (by omega)

/-! ## C66 rolling over -/

/-- C66. A day past the end, or before the beginning, of its month is that many days away. -/
theorem C66_days (y m d k : Int) : fromYmd y m (d + k) = fromYmd y m d + k := by
  unfold fromYmd truncatedJulianFromYmd
  dsimp only
  omega

/-- C66. So the 30th of February 2001 is the 2nd of March (the example in the documentation, whose year is misprinted). -/
theorem C66_example : ymd (fromYmd 2001 2 30) = (2001, 3, 2) := by decide

/-- C66, months. Twelve months are a year, as long as the month is at most the fourteenth. Missing: later months. -/
theorem C66_months_partial (y m d : Int) (hm : m ≤ 14) : fromYmd (y - 1) m d = fromYmd y (m - 12) d := by
  unfold fromYmd truncatedJulianFromYmd
  obtain ⟨a, ha⟩ : ∃ a, a = 14 - m := ⟨_, rfl⟩
  have h1 : (m - 14).tdiv 12 = -(a / 12) := by
    rw [show m - 14 = -a by omega, Int.neg_tdiv, Int.tdiv_eq_ediv_of_nonneg (by omega)]
  have h2 : (m - 12 - 14).tdiv 12 = -(a / 12) - 1 := by
    rw [show m - 12 - 14 = -(a + 12) by omega, Int.neg_tdiv, Int.tdiv_eq_ediv_of_nonneg (by omega)]
    omega
  rw [h1, h2]
  dsimp only
  have e1 : y - 1 + 4800 + -(a / 12) = y + 4800 + (-(a / 12) - 1) := by omega
  have e2 : m - 2 - -(a / 12) * 12 = m - 12 - 2 - (-(a / 12) - 1) * 12 := by omega
  have e3 : y - 1 + 4900 + -(a / 12) = y + 4900 + (-(a / 12) - 1) := by omega
  rw [e1, e2, e3]

example : ymd (fromYmd 2018 14 1) = (2019, 2, 1) ∧ ymd (fromYmd 2018 0 1) = (2017, 12, 1) := by decide

/-- C66, violated: the fifteenth month of 2018 begins two days after March 2019 does. -/
theorem C66_months_false : ymd (fromYmd 2018 15 1) = (2019, 3, 3) ∧ ymd (fromYmd 2019 3 1) = (2019, 3, 1) := by decide

end QM.Dates
