import Verif.Dividends.Lemmas
import Verif.Curves.Lemmas
import Mathlib.Data.Rat.Floor

/-!
# Properties C24, C25, C28 and C55: dividends
-/

namespace QM.Dividends
open Spec QM.Curves QM.Curves.Spec
open QM.Interp (Num)

variable {K : Type} [Field K] [LinearOrder K]

/-- C24. In a stream in ex-date order with no dividend on the base date, the totals from the base date up to
any date within the horizon are the sums of the projected amounts, and of their present values, over the
dividends that go ex after the base date and on or before that date. The full property has no
hypothesis about the base date; `C24_base_date_false` shows that it fails there. -/
theorem C24_from_base_partial {dividends : List (Dividend K)} {lastCash : Int} {yieldIsZero : Bool} {yieldBase : Int}
    {discount : Outcome (Int → Outcome K)} {df : Int → K} {spot : K} {base hwm : Int} {b : Bootstrap K}
    (hd : Discounts discount df) (ho : InOrder dividends) (hb : ∀ d ∈ dividends, d.exDate ≠ base)
    (h : Bootstrap.new dividends lastCash yieldIsZero yieldBase discount spot base hwm = .ok b)
    {to_ : Int} (ht : to_ ≤ b.highWaterMark) :
    b.undiscountedSumFromBase to_ = .ok (total (·.amount) (· ≤ to_) (project spot df base dividends)) ∧
    b.discountedSumFromBase to_ = .ok (total (·.pv) (· ≤ to_) (project spot df base dividends)) := by
  have hy : yieldIsZero = true ∨ ∀ d ∈ dividends.getLast?, d.exDate ≤ yieldBase := by
    by_cases hz : yieldIsZero = true
    · exact Or.inl hz
    · right
      intro d hdl
      by_contra hlt
      unfold Bootstrap.new at h
      rw [Option.mem_def.1 hdl] at h
      simp only at h
      rw [if_pos ⟨by simpa using hz, by omega⟩] at h
      cases h
  obtain ⟨b', hb', _, _, hs, _, _, _, hl⟩ := bootstrap_ok (lastCash := lastCash) (spot := spot) (hwm := hwm) hd ho hb hy
  rw [hb'] at h
  cases h
  unfold Bootstrap.undiscountedSumFromBase Bootstrap.discountedSumFromBase
  rw [sumFromBase_lookup _ _ hs ht, sumFromBase_lookup _ _ hs ht, (hl to_ ht).1, (hl to_ ht).2]
  exact ⟨rfl, rfl⟩

/-- C24. Under the same conditions the totals between two dates are the sums over the dividends that go ex
after the first date and on or before the second. -/
theorem C24_between_partial {dividends : List (Dividend K)} {lastCash : Int} {yieldIsZero : Bool} {yieldBase : Int}
    {discount : Outcome (Int → Outcome K)} {df : Int → K} {spot : K} {base hwm : Int} {b : Bootstrap K}
    (hd : Discounts discount df) (ho : InOrder dividends) (hb : ∀ d ∈ dividends, d.exDate ≠ base)
    (h : Bootstrap.new dividends lastCash yieldIsZero yieldBase discount spot base hwm = .ok b)
    {from_ to_ : Int} (hft : from_ ≤ to_) (ht : to_ ≤ b.highWaterMark) :
    b.undiscountedSum from_ to_
      = .ok (total (·.amount) (fun x => from_ < x ∧ x ≤ to_) (project spot df base dividends)) ∧
    b.discountedSum from_ to_
      = .ok (total (·.pv) (fun x => from_ < x ∧ x ≤ to_) (project spot df base dividends)) := by
  obtain ⟨u1, d1⟩ := C24_from_base_partial hd ho hb h (to_ := from_) (by omega)
  obtain ⟨u2, d2⟩ := C24_from_base_partial hd ho hb h ht
  have key : ∀ (f : Projected K → K) (l : List (Projected K)),
      total f (· ≤ to_) l - total f (· ≤ from_) l = total f (fun x => from_ < x ∧ x ≤ to_) l := by
    intro f l
    induction l with
    | nil => simp [total]
    | cons e l ih =>
      rw [← List.singleton_append, total_append, total_append, total_append, total_single, total_single, total_single, ← ih]
      by_cases h1 : e.exDate ≤ from_
      · have h2 : e.exDate ≤ to_ := by omega
        have h3 : ¬ from_ < e.exDate := by omega
        simp [h1, h2, h3]
      · by_cases h2 : e.exDate ≤ to_
        · have h3 : from_ < e.exDate := by omega
          simp [h1, h2, h3]
          ring
        · simp [h1, h2]
  unfold Bootstrap.undiscountedSum Bootstrap.discountedSum
  rw [u1, u2, d1, d2]
  exact ⟨congrArg Except.ok (key _ _), congrArg Except.ok (key _ _)⟩

/-- C24. Totals over adjacent intervals add up, for every bootstrapped stream. -/
theorem C24_adjacent {b : Bootstrap K} {x y z : Int} {u v w : K}
    (h1 : b.undiscountedSum x y = .ok u) (h2 : b.undiscountedSum y z = .ok v) (h3 : b.undiscountedSum x z = .ok w) :
    u + v = w := by
  unfold Bootstrap.undiscountedSum at h1 h2 h3
  cases hx : b.undiscountedSumFromBase x with
  | error e => rw [hx] at h1; cases h1
  | ok sx =>
    cases hy : b.undiscountedSumFromBase y with
    | error e => rw [hx, hy] at h1; cases h1
    | ok sy =>
      cases hz : b.undiscountedSumFromBase z with
      | error e => rw [hy, hz] at h2; cases h2
      | ok sz =>
        rw [hx, hy] at h1
        rw [hy, hz] at h2
        rw [hx, hz] at h3
        cases h1; cases h2; cases h3
        ring

/-- C24. The same for discounted totals. -/
theorem C24_adjacent_discounted {b : Bootstrap K} {x y z : Int} {u v w : K}
    (h1 : b.discountedSum x y = .ok u) (h2 : b.discountedSum y z = .ok v) (h3 : b.discountedSum x z = .ok w) :
    u + v = w := by
  unfold Bootstrap.discountedSum at h1 h2 h3
  cases hx : b.discountedSumFromBase x with
  | error e => rw [hx] at h1; cases h1
  | ok sx =>
    cases hy : b.discountedSumFromBase y with
    | error e => rw [hx, hy] at h1; cases h1
    | ok sy =>
      cases hz : b.discountedSumFromBase z with
      | error e => rw [hy, hz] at h2; cases h2
      | ok sz =>
        rw [hx, hy] at h1
        rw [hy, hz] at h2
        rw [hx, hz] at h3
        cases h1; cases h2; cases h3
        ring

/-- Three dividends, cash, mixed and relative, for the examples below. -/
def sample : List (Dividend ℚ) := [⟨5, 0, 10, 12⟩, ⟨1, 1/10, 20, 22⟩, ⟨0, 1/2, 30, 31⟩]

/-- C24: the hypotheses are met by the sample stream, and the total between day 10 and day 20 is the cash of
one plus a tenth of the forward of 95. -/
example : InOrder sample ∧ (∀ d ∈ sample, d.exDate ≠ 0) ∧
    Discounts (.ok (fun _ => .ok 1)) (fun _ => (1 : ℚ)) ∧
    ∃ b, Bootstrap.new sample (lastCashExDate sample) true 0 (.ok (fun _ => .ok 1)) 100 0 40 = .ok b ∧
      b.highWaterMark = 40 ∧ b.undiscountedSum 10 20 = .ok (21/2) :=
  ⟨by unfold InOrder; decide +kernel, by decide +kernel, ⟨_, rfl, fun _ => rfl⟩, ⟨0, 40, [⟨0, 0, 0, 0, .nan⟩, ⟨10, 5, 5, 5, .nan⟩, ⟨20, 31/2, 31/2, 6, .nan⟩,
    ⟨30, 31/2 + 169/4, 31/2 + 169/4, 6, .nan⟩]⟩, by decide +kernel, rfl, by decide +kernel⟩

/-- C24, violated: a dividend on the base date is counted, although only when a later dividend exists. -/
theorem C24_base_date_false :
    (∃ b, Bootstrap.new ([⟨5, 0, 0, 0⟩, ⟨1, 0, 10, 10⟩] : List (Dividend ℚ)) 10 true 0 (.ok (fun _ => .ok 1)) 100 0 40 = .ok b ∧
      b.undiscountedSumFromBase 10 = .ok 6 ∧ b.undiscountedSumFromBase 0 = .ok 5) ∧
    ∃ b, Bootstrap.new ([⟨5, 0, 0, 0⟩] : List (Dividend ℚ)) 10 true 0 (.ok (fun _ => .ok 1)) 100 0 40 = .ok b ∧
      b.undiscountedSumFromBase 10 = .ok 0 :=
  ⟨⟨⟨0, 40, [⟨0, 5, 5, 5, .nan⟩, ⟨10, 6, 6, 6, .nan⟩]⟩, by decide +kernel, by decide +kernel, by decide +kernel⟩,
    ⟨⟨0, 40, []⟩, by decide +kernel, by decide +kernel⟩⟩

/-- C25. When no dividend within the horizon goes ex on or after the date, the remaining cash is zero. The
full property gives the remaining cash for all dates; `C25_nan` shows that it fails on all others. -/
theorem C25_none_left_partial {dividends : List (Dividend K)} {lastCash : Int} {yieldIsZero : Bool} {yieldBase : Int}
    {discount : Outcome (Int → Outcome K)} {df : Int → K} {spot : K} {base hwm : Int} {b : Bootstrap K}
    (hd : Discounts discount df) (ho : InOrder dividends) (hb : ∀ d ∈ dividends, d.exDate ≠ base)
    (hy : yieldIsZero = true ∨ ∀ d ∈ dividends.getLast?, d.exDate ≤ yieldBase)
    (h : Bootstrap.new dividends lastCash yieldIsZero yieldBase discount spot base hwm = .ok b)
    {from_ : Int} (hf : from_ ≤ b.highWaterMark)
    (hnone : ∀ d ∈ dividends, base < d.exDate → d.exDate ≤ b.highWaterMark → d.exDate < from_) :
    b.discountedCashDivsAfter from_ = .ok (.val 0) := by
  obtain ⟨b', hb', _, _, _, _, _, hm, _⟩ := bootstrap_ok (lastCash := lastCash) (spot := spot) (hwm := hwm) hd ho hb hy
  rw [hb'] at h
  cases h
  have hall : ∀ a ∈ b.accumulation, a.exDate < from_ := by
    intro a ha
    obtain ⟨d, hd', h1, h2, h3⟩ := hm a ha
    have := hnone d hd' h1 h2
    omega
  unfold Bootstrap.discountedCashDivsAfter searchAcc
  rw [if_neg (by omega)]
  have htw : b.accumulation.takeWhile (fun a => decide (a.exDate < from_)) = b.accumulation := by
    rw [List.takeWhile_eq_self_iff]
    intro a ha
    simpa using hall a ha
  simp [htw]

/-- C25, violated: whenever a dividend remains, the answer is NaN. -/
theorem C25_nan {dividends : List (Dividend K)} {lastCash : Int} {yieldIsZero : Bool} {yieldBase : Int}
    {discount : Outcome (Int → Outcome K)} {df : Int → K} {spot : K} {base hwm : Int} {b : Bootstrap K}
    (hd : Discounts discount df) (ho : InOrder dividends) (hb : ∀ d ∈ dividends, d.exDate ≠ base)
    (hy : yieldIsZero = true ∨ ∀ d ∈ dividends.getLast?, d.exDate ≤ yieldBase)
    (h : Bootstrap.new dividends lastCash yieldIsZero yieldBase discount spot base hwm = .ok b)
    {from_ : Int} {d : Dividend K} (hdm : d ∈ dividends) (h1 : base < d.exDate) (h2 : d.exDate ≤ b.highWaterMark)
    (h3 : from_ ≤ d.exDate) : b.discountedCashDivsAfter from_ = .ok .nan := by
  obtain ⟨b', hb', _, _, _, hn, hm, _, _⟩ := bootstrap_ok (lastCash := lastCash) (spot := spot) (hwm := hwm) hd ho hb hy
  rw [hb'] at h
  cases h
  obtain ⟨a, ha, hda⟩ := hm d hdm h1 h2
  obtain ⟨c, hc, hget, hne⟩ := searchAcc_some (t := from_) ⟨a, ha, by omega⟩
  unfold Bootstrap.discountedCashDivsAfter
  rw [if_neg (by omega)]
  simp only [hget, Option.map_some, Option.getD_some, hn c hc, if_neg hne]
  split <;> rfl

/-- C25, violated: with one cash dividend of five on day 10 the cash remaining after the base date is NaN. -/
theorem C25_remaining_false :
    ∃ b, Bootstrap.new ([⟨5, 0, 10, 10⟩] : List (Dividend ℚ)) 10 true 0 (.ok (fun _ => .ok 1)) 100 0 40 = .ok b ∧
      b.discountedCashDivsAfter 0 = .ok .nan ∧ b.discountedCashDivsAfter 11 = .ok (.val 0) :=
  ⟨⟨0, 40, [⟨0, 0, 0, 0, .nan⟩, ⟨10, 5, 5, 5, .nan⟩]⟩, by decide +kernel, by decide +kernel, by decide +kernel⟩

/-- C55. A nonzero dividend yield that starts before the last explicit dividend is refused. -/
theorem C55_overlap_refused {dividends : List (Dividend K)} {lastCash yieldBase base hwm : Int} {spot : K}
    {discount : Outcome (Int → Outcome K)} {last : Dividend K} (hl : dividends.getLast? = some last)
    (hlt : yieldBase < last.exDate) :
    Bootstrap.new dividends lastCash false yieldBase discount spot base hwm = .error .err := by
  unfold Bootstrap.new
  rw [hl]
  simp only
  rw [if_pos ⟨rfl, by omega⟩]

/-- C55. If the bootstrap succeeds, then the dividends from the base date on, up to the first one past the
horizon, are in ex-date order. The full property covers the whole list; `C55_order_false` shows that
a disorder behind a dividend past the horizon is not noticed. -/
theorem C55_order_partial {dividends : List (Dividend K)} {lastCash : Int} {yieldIsZero : Bool} {yieldBase : Int}
    {discount : Outcome (Int → Outcome K)} {spot : K} {base hwm : Int} {b : Bootstrap K}
    (h : Bootstrap.new dividends lastCash yieldIsZero yieldBase discount spot base hwm = .ok b) :
    InOrder ((dividends.filter (fun d => decide (base ≤ d.exDate))).takeWhile
      (fun d => decide (d.exDate ≤ max hwm lastCash))) := by
  unfold Bootstrap.new at h
  cases hl : dividends.getLast? with
  | none =>
    have : dividends = [] := by simpa using hl
    subst this
    unfold InOrder
    simp
  | some last =>
    rw [hl] at h
    simp only at h
    split at h
    · cases h
    · cases discount with
      | error e => cases h
      | ok g =>
        simp only [Bind.bind, Except.bind] at h
        cases hs : bootstrapLoop base (max hwm lastCash) spot g dividends ⟨base, 0, 0, 0, 0, []⟩ with
        | error e => rw [hs] at h; cases h
        | ok s => exact (loop_order dividends ⟨base, 0, 0, 0, 0, []⟩ s (le_refl base) hs).1

/-- C55. In particular, two neighbouring dividends out of order within the horizon are refused. -/
theorem C55_disorder_refused {pre post : List (Dividend K)} {d e : Dividend K} {lastCash : Int} {yieldIsZero : Bool} {yieldBase : Int}
    {discount : Outcome (Int → Outcome K)} {spot : K} {base hwm : Int}
    (hpre : ∀ x ∈ pre, x.exDate ≤ max hwm lastCash) (hd : d.exDate ≤ max hwm lastCash) (he : base ≤ e.exDate) (hlt : e.exDate < d.exDate) :
    ∃ f, Bootstrap.new (pre ++ d :: e :: post) lastCash yieldIsZero yieldBase discount spot base hwm = .error f := by
  cases h : Bootstrap.new (pre ++ d :: e :: post) lastCash yieldIsZero yieldBase discount spot base hwm with
  | error f => exact ⟨f, rfl⟩
  | ok b =>
    exfalso
    have ho := C55_order_partial h
    have hd' : decide (base ≤ d.exDate) = true := by simp; omega
    have he' : decide (base ≤ e.exDate) = true := by simpa using he
    have ht1 : decide (d.exDate ≤ max hwm lastCash) = true := by simpa using hd
    have ht2 : decide (e.exDate ≤ max hwm lastCash) = true := by simp; omega
    rw [List.filter_append, List.filter_cons, if_pos hd', List.filter_cons, if_pos he',
      List.takeWhile_append_of_pos (by
        intro x hx
        have := hpre x (List.mem_of_mem_filter hx)
        simpa using this),
      List.takeWhile_cons, if_pos ht1, List.takeWhile_cons, if_pos ht2] at ho
    unfold InOrder at ho
    rw [List.pairwise_append, List.pairwise_cons] at ho
    have := ho.2.1.1 e (by simp)
    omega

/-- C55, violated: a relative dividend on day 50 listed behind one on day 100 is accepted with a horizon of
60, and then missing from the totals. -/
theorem C55_order_false :
    ∃ b, Bootstrap.new ([⟨0, 1/10, 100, 100⟩, ⟨0, 1/10, 50, 50⟩] : List (Dividend ℚ))
        (lastCashExDate ([⟨0, 1/10, 100, 100⟩, ⟨0, 1/10, 50, 50⟩] : List (Dividend ℚ))) true 0 (.ok (fun _ => .ok 1)) 100 0 60 = .ok b ∧
      b.undiscountedSumFromBase 60 = .ok 0 :=
  ⟨⟨0, 60, []⟩, by decide +kernel, by decide +kernel⟩

/-- C55. After a successful bootstrap every query up to the high water mark succeeds, and so does every query
up to the last cash dividend; every query past both fails. -/
theorem C55_queries {dividends : List (Dividend K)} {lastCash : Int} {yieldIsZero : Bool} {yieldBase : Int}
    {discount : Outcome (Int → Outcome K)} {spot : K} {base hwm : Int} {b : Bootstrap K}
    (h : Bootstrap.new dividends lastCash yieldIsZero yieldBase discount spot base hwm = .ok b) (to_ : Int) :
    (to_ ≤ hwm ∨ (dividends ≠ [] ∧ to_ ≤ lastCash) →
      (∃ u, b.undiscountedSumFromBase to_ = .ok u) ∧ (∃ v, b.discountedSumFromBase to_ = .ok v) ∧
      ∃ r, b.discountedCashDivsAfter to_ = .ok r) ∧
    (hwm < to_ → lastCash < to_ →
      b.undiscountedSumFromBase to_ = .error .err ∧ b.discountedSumFromBase to_ = .error .err ∧
      b.discountedCashDivsAfter to_ = .error .err) := by
  have hmark : b.highWaterMark = if dividends = [] then hwm else max hwm lastCash := by
    unfold Bootstrap.new at h
    cases hl : dividends.getLast? with
    | none =>
      have : dividends = [] := by simpa using hl
      rw [hl] at h
      cases h
      rw [if_pos this]
    | some last =>
      have hne : dividends ≠ [] := by rintro rfl; cases hl
      rw [if_neg hne]
      rw [hl] at h
      simp only at h
      split at h
      · cases h
      · cases discount with
        | error e => cases h
        | ok g =>
          simp only [Bind.bind, Except.bind] at h
          cases hs : bootstrapLoop base (max hwm lastCash) spot g dividends ⟨base, 0, 0, 0, 0, []⟩ with
          | error e => rw [hs] at h; cases h
          | ok s => rw [hs] at h; cases h; rfl
  unfold Bootstrap.undiscountedSumFromBase Bootstrap.discountedSumFromBase Bootstrap.discountedCashDivsAfter sumFromBase
  constructor
  · intro hle
    have hm : ¬ to_ > b.highWaterMark := by
      rw [hmark]
      split
      · rename_i h0
        rcases hle with hle | hle
        · omega
        · exact absurd h0 hle.1
      · omega
    simp only [if_neg hm]
    refine ⟨?_, ?_, ?_⟩
    · split
      · exact ⟨_, rfl⟩
      · split <;> exact ⟨_, rfl⟩
    · split
      · exact ⟨_, rfl⟩
      · split <;> exact ⟨_, rfl⟩
    · split
      · exact ⟨_, rfl⟩
      · split <;> exact ⟨_, rfl⟩
  · intro h1 h2
    have hm : to_ > b.highWaterMark := by
      rw [hmark]
      split <;> omega
    simp only [if_pos hm]
    exact ⟨trivial, trivial, trivial⟩

/-- C55. Every explicit cash dividend is included, even past the requested horizon: the total up to its ex-date
is available and covers all dividends up to it. -/
theorem C55_cash_included {dividends : List (Dividend K)} {yieldIsZero : Bool} {yieldBase : Int}
    {discount : Outcome (Int → Outcome K)} {df : Int → K} {spot : K} {base hwm : Int} {b : Bootstrap K}
    (hd : Discounts discount df) (ho : InOrder dividends) (hb : ∀ d ∈ dividends, d.exDate ≠ base)
    (h : Bootstrap.new dividends (lastCashExDate dividends) yieldIsZero yieldBase discount spot base hwm = .ok b)
    {d : Dividend K} (hdm : d ∈ dividends) (hc : d.cash ≠ 0) :
    b.undiscountedSumFromBase d.exDate = .ok (total (·.amount) (· ≤ d.exDate) (project spot df base dividends)) := by
  have hle := lastCash_ge dividends ho hdm hc
  refine (C24_from_base_partial hd ho hb h ?_).1
  obtain ⟨u, hu⟩ := ((C55_queries h d.exDate).1 (Or.inr ⟨List.ne_nil_of_mem hdm, hle⟩)).1
  by_contra hgt
  unfold Bootstrap.undiscountedSumFromBase sumFromBase at hu
  rw [if_pos (by omega)] at hu
  cases hu

/-- C55: the hypotheses are met by the sample stream with a horizon before its second cash dividend. -/
example : ∃ b, Bootstrap.new sample (lastCashExDate sample) true 0 (.ok (fun _ => .ok 1)) 100 0 15 = .ok b ∧
    b.undiscountedSumFromBase 20 = .ok (31/2) ∧ b.undiscountedSumFromBase 21 = .error .err :=
  ⟨⟨0, 20, [⟨0, 0, 0, 0, .nan⟩, ⟨10, 5, 5, 5, .nan⟩, ⟨20, 31/2, 31/2, 6, .nan⟩]⟩, by decide +kernel, by decide +kernel, by decide +kernel⟩

/-- C28. A bump of size `b` multiplies the cash and the relative part of every explicit dividend by `1 + b` and
keeps its dates. -/
theorem C28_explicit (s : DividendStream) (b : ℝ) :
    ((BumpDivs.bumpAllRelative b).apply s).dividends
      = s.dividends.map (fun d => ⟨d.cash * (1 + b), d.relative * (1 + b), d.exDate, d.payDate⟩) := by
  unfold BumpDivs.apply DividendStream.newBumpAll
  simp only [Dividend.bumpAllRelative, add_comm b 1]

/-- C28. A bump of zero leaves the explicit dividends and the last cash ex-date as they are. -/
theorem C28_zero_explicit (s : DividendStream) :
    ((BumpDivs.bumpAllRelative 0).apply s).dividends = s.dividends ∧
    ((BumpDivs.bumpAllRelative 0).apply s).lastCash = s.lastCash := by
  refine ⟨?_, rfl⟩
  rw [C28_explicit]
  simp

/-- C28. Bumping by `1 + b ≠ 0` commutes with construction: the last cash ex-date is the one of the bumped list. -/
theorem C28_last_cash (l : List (Dividend ℝ)) (y : RateCurve) {b : ℝ} (hb : b ≠ -1) :
    ((BumpDivs.bumpAllRelative b).apply (.new l y)).lastCash
      = lastCashExDate ((BumpDivs.bumpAllRelative b).apply (.new l y)).dividends := by
  unfold BumpDivs.apply DividendStream.newBumpAll DividendStream.new
  simp only
  rw [foldl_lastCash_bump]
  intro h
  exact hb (by linarith)

/-- C28. For a stream of cash dividends the totals of the bumped stream are `1 + b` times the original totals. -/
theorem C28_totals {l : List (Dividend K)} (hcash : ∀ d ∈ l, d.relative = 0) (b : K) {lastCash : Int} {yieldBase : Int}
    {discount : Outcome (Int → Outcome K)} {df : Int → K} {spot : K} {base hwm : Int} {s s' : Bootstrap K}
    (hd : Discounts discount df) (ho : InOrder l) (hb : ∀ d ∈ l, d.exDate ≠ base)
    (h : Bootstrap.new l lastCash true yieldBase discount spot base hwm = .ok s)
    (h' : Bootstrap.new (l.map (fun d => d.bumpAllRelative (1 + b))) lastCash true yieldBase discount spot base hwm = .ok s')
    {to_ : Int} (ht : to_ ≤ s.highWaterMark) (ht' : to_ ≤ s'.highWaterMark) :
    ∃ u v, s.undiscountedSumFromBase to_ = .ok u ∧ s'.undiscountedSumFromBase to_ = .ok (u * (1 + b)) ∧
      s.discountedSumFromBase to_ = .ok v ∧ s'.discountedSumFromBase to_ = .ok (v * (1 + b)) := by
  obtain ⟨u1, d1⟩ := C24_from_base_partial hd ho hb h ht
  have ho' : InOrder (l.map (fun d => d.bumpAllRelative (1 + b))) := by
    unfold InOrder at ho ⊢
    rw [List.pairwise_map]
    exact ho
  have hb' : ∀ d ∈ l.map (fun d => d.bumpAllRelative (1 + b)), d.exDate ≠ base := by
    intro d hdm
    rw [List.mem_map] at hdm
    obtain ⟨e, he, rfl⟩ := hdm
    exact hb e he
  obtain ⟨u2, d2⟩ := C24_from_base_partial hd ho' hb' h' ht'
  have hp : project spot df base (l.map (fun d => d.bumpAllRelative (1 + b)))
      = (project spot df base l).map (fun e => ⟨e.exDate, e.amount * (1 + b), e.pv * (1 + b)⟩) := by
    unfold project
    rw [List.filter_map]
    exact projectFrom_scaled spot df (1 + b) _ (fun d hdm => hcash d (List.mem_of_mem_filter hdm)) []
  rw [hp] at u2 d2
  rw [total_scaled (·.amount) (1 + b) (fun e => ⟨e.exDate, e.amount * (1 + b), e.pv * (1 + b)⟩) (fun _ => rfl) (fun _ => rfl)] at u2
  rw [total_scaled (·.pv) (1 + b) (fun e => ⟨e.exDate, e.amount * (1 + b), e.pv * (1 + b)⟩) (fun _ => rfl) (fun _ => rfl)] at d2
  exact ⟨_, _, u1, u2, d1, d2⟩

/-- C28, partial: the dividend yield is multiplied by the bump. The full property asks for one plus the bump;
`C28_yield_false` shows the difference. -/
theorem C28_yield_partial (s : DividendStream) (b : ℝ) {d : Int} {r : ℝ} (h : RateIs s.divYield d r) :
    RateIs ((BumpDivs.bumpAllRelative b).apply s).divYield d (r * b) := by
  obtain ⟨t, ht⟩ := h
  refine ⟨t, ?_⟩
  unfold BumpDivs.apply DividendStream.newBumpAll RateCurve.newRelativeBump
  simp only
  rw [RateCurve.rAndT, ht]
  rfl

/-- C28, violated: a dividend bump of zero turns a yield of two percent into zero. -/
theorem C28_yield_false :
    ∃ c, RateCurve.newAct365 0 [(0, 0.02)] .flat .flat = .ok c ∧ RateIs (DividendStream.new [] c).divYield 365 0.02 ∧
      RateIs ((BumpDivs.bumpAllRelative 0).apply (DividendStream.new [] c)).divYield 365 0 := by
  obtain ⟨c, hc, _, _, hr⟩ := flat_curve 0 0 0.02
  have h1 : RateIs (DividendStream.new [] c).divYield 365 0.02 := ⟨_, hr 365 (by norm_num)⟩
  refine ⟨c, hc, h1, ?_⟩
  have := C28_yield_partial (DividendStream.new [] c) 0 h1
  rwa [mul_zero] at this

/-- C28: a concrete cash stream meets the hypotheses of the totals theorem. -/
example : (∀ d ∈ ([⟨5, 0, 10, 12⟩, ⟨1, 0, 20, 22⟩] : List (Dividend ℚ)), d.relative = 0) ∧
    (∃ b, Bootstrap.new ([⟨5, 0, 10, 12⟩, ⟨1, 0, 20, 22⟩] : List (Dividend ℚ)) 20 true 0 (.ok (fun _ => .ok 1)) 100 0 15 = .ok b ∧
      b.undiscountedSumFromBase 20 = .ok 6) ∧
    ∃ b, Bootstrap.new (([⟨5, 0, 10, 12⟩, ⟨1, 0, 20, 22⟩] : List (Dividend ℚ)).map (fun d => d.bumpAllRelative (1 + 1/2))) 20 true 0
        (.ok (fun _ => .ok 1)) 100 0 15 = .ok b ∧ b.undiscountedSumFromBase 20 = .ok 9 :=
  ⟨by decide +kernel, ⟨⟨0, 20, [⟨0, 0, 0, 0, .nan⟩, ⟨10, 5, 5, 5, .nan⟩, ⟨20, 6, 6, 6, .nan⟩]⟩, by decide +kernel, by decide +kernel⟩,
   ⟨⟨0, 20, [⟨0, 0, 0, 0, .nan⟩, ⟨10, 15/2, 15/2, 15/2, .nan⟩, ⟨20, 9, 9, 9, .nan⟩]⟩, by decide +kernel, by decide +kernel⟩⟩

end QM.Dividends
