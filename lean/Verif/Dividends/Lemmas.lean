import Verif.Dividends.Spec
import Mathlib.Tactic.Linarith
import Mathlib.Tactic.Ring
import Mathlib.Tactic.FieldSimp
import Mathlib.Data.List.TakeWhile

/-!
# Helper lemmas for dividends
-/

namespace QM.Dividends
open Spec
open QM.Interp (Num)

variable {K : Type} [Field K] [LinearOrder K]

/-- The entry in force at a date: the last one not after it. -/
def lookup (field : Accumulation K → K) (acc : List (Accumulation K)) (t : Int) : K :=
  ((acc.filter (fun a => decide (a.exDate ≤ t))).getLast?.map field).getD 0

/-- Entries strictly increasing in ex-date. -/
def AccSorted (acc : List (Accumulation K)) : Prop := acc.Pairwise (fun a b => a.exDate < b.exDate)

theorem lookup_push (field : Accumulation K → K) (acc : List (Accumulation K)) (n : Accumulation K) (t : Int) :
    lookup field (acc ++ [n]) t = if n.exDate ≤ t then field n else lookup field acc t := by
  unfold lookup
  rw [List.filter_append]
  by_cases h : n.exDate ≤ t
  · simp [h]
  · simp [h]

/-- A query on increasing entries returns the entry in force. -/
theorem sumFromBase_lookup (field : Accumulation K → K) (b : Bootstrap K) (hs : AccSorted b.accumulation) {t : Int}
    (ht : t ≤ b.highWaterMark) : sumFromBase field b t = .ok (lookup field b.accumulation t) := by
  unfold sumFromBase
  rw [if_neg (by omega)]
  generalize b.accumulation = acc at hs
  have hsplit := List.takeWhile_append_dropWhile (p := fun a : Accumulation K => decide (a.exDate < t)) (l := acc)
  set L := acc.takeWhile (fun a => decide (a.exDate < t)) with hL
  set R := acc.dropWhile (fun a => decide (a.exDate < t)) with hR
  have hLlt : ∀ a ∈ L, a.exDate < t := by
    intro a ha
    have := List.mem_takeWhile_imp ha
    simpa using this
  have hfL : L.filter (fun a => decide (a.exDate ≤ t)) = L := by
    rw [List.filter_eq_self]
    intro a ha
    have := hLlt a ha
    simp; omega
  unfold searchAcc
  simp only
  rw [← hL]
  have hget : acc[L.length]? = R[0]? := by
    rw [← hsplit, List.getElem?_append_right (le_refl _)]
    simp
  have hlast : L.length ≠ 0 → acc[L.length - 1]? = L.getLast? := by
    intro hne
    rw [← hsplit, List.getElem?_append_left (by omega), List.getLast?_eq_getElem?]
  rw [hget]
  cases hRc : R with
  | nil =>
    simp only [List.getElem?_nil, Option.map_none]
    have hacc : acc = L := by rw [← hsplit, hRc, List.append_nil]
    have hlk : lookup field acc t = (L.getLast?.map field).getD 0 := by
      unfold lookup; rw [hacc, hfL]
    rw [hlk]
    rw [if_neg (by simp)]
    by_cases hz : L.length = 0
    · rw [if_pos hz]
      have : L = [] := List.length_eq_zero_iff.1 hz
      rw [this]; rfl
    · rw [if_neg hz, hlast hz]
  | cons a R' =>
    have ha : ¬ a.exDate < t := by
      have := List.head_dropWhile_not (p := fun a : Accumulation K => decide (a.exDate < t)) (l := acc) (w := by rw [← hR, hRc]; simp)
      simp only [← hR, hRc, List.head_cons, decide_eq_false_iff_not] at this
      exact this
    have hR' : ∀ c ∈ R', a.exDate < c.exDate := by
      have : AccSorted (L ++ a :: R') := by rw [← hRc, hsplit]; exact hs
      unfold AccSorted at this
      rw [List.pairwise_append, List.pairwise_cons] at this
      exact this.2.1.1
    have hfR : R'.filter (fun a => decide (a.exDate ≤ t)) = [] := by
      rw [List.filter_eq_nil_iff]
      intro c hc
      have := hR' c hc
      simp; omega
    have hlk : lookup field acc t = ((L ++ (a :: R').filter (fun a => decide (a.exDate ≤ t))).getLast?.map field).getD 0 := by
      unfold lookup
      rw [← hsplit, hRc, List.filter_append, hfL]
    rw [hlk]
    simp only [List.getElem?_cons_zero, Option.map_some]
    by_cases he : a.exDate = t
    · rw [if_pos (by simpa using he), List.filter_cons, if_pos (by simp; omega), hfR]
      simp
    · have hc : ¬ decide (a.exDate ≤ t) = true := by simp; omega
      rw [if_neg (by simpa using he), List.filter_cons, if_neg hc, hfR, List.append_nil]
      by_cases hz : L.length = 0
      · rw [if_pos hz]
        have : L = [] := List.length_eq_zero_iff.1 hz
        rw [this]; rfl
      · rw [if_neg hz, hlast hz]

theorem total_append (f : Projected K → K) (p : Int → Bool) (l m : List (Projected K)) :
    total f p (l ++ m) = total f p l + total f p m := by
  unfold total; simp

theorem total_single (f : Projected K → K) (p : Int → Bool) (e : Projected K) :
    total f p [e] = if p e.exDate then f e else 0 := by
  unfold total
  by_cases h : p e.exDate = true
  · simp [h]
  · simp [h]

theorem total_congr (f : Projected K → K) {p q : Int → Bool} {l : List (Projected K)} (h : ∀ e ∈ l, p e.exDate = q e.exDate) :
    total f p l = total f q l := by
  unfold total
  rw [List.filter_congr h]

theorem total_none (f : Projected K → K) {p : Int → Bool} {l : List (Projected K)} (h : ∀ e ∈ l, p e.exDate = false) :
    total f p l = 0 := by
  unfold total
  rw [List.filter_eq_nil_iff.2 (by simpa using h)]
  rfl

theorem projectFrom_append (spot : K) (df : Int → K) (E : List (Projected K)) (A B : List (Dividend K)) :
    projectFrom spot df E (A ++ B) = projectFrom spot df (projectFrom spot df E A) B := by
  induction A generalizing E with
  | nil => rfl
  | cons d A ih => simp only [List.cons_append, projectFrom, ih]

/-- The projected list is the given one followed by one entry per dividend. -/
theorem projectFrom_dates (spot : K) (df : Int → K) (E : List (Projected K)) (A : List (Dividend K)) :
    ∃ F, projectFrom spot df E A = E ++ F ∧ F.map (·.exDate) = A.map (·.exDate) := by
  induction A generalizing E with
  | nil => exact ⟨[], by simp [projectFrom], rfl⟩
  | cons d A ih =>
    simp only [projectFrom]
    obtain ⟨F, h1, h2⟩ := ih (E ++ [⟨d.exDate, amount spot df E d, amount spot df E d * df d.payDate⟩])
    refine ⟨⟨d.exDate, amount spot df E d, amount spot df E d * df d.payDate⟩ :: F, ?_, ?_⟩
    · rw [h1, List.append_assoc]; rfl
    · simp [h2]

theorem total_projectFrom_none (f : Projected K → K) {p : Int → Bool} (spot : K) (df : Int → K) (E : List (Projected K))
    {B : List (Dividend K)} (h : ∀ d ∈ B, p d.exDate = false) : total f p (projectFrom spot df E B) = total f p E := by
  obtain ⟨F, h1, h2⟩ := projectFrom_dates spot df E B
  rw [h1, total_append, total_none f (l := F), add_zero]
  intro e he
  have : e.exDate ∈ F.map (·.exDate) := List.mem_map.2 ⟨e, he, rfl⟩
  rw [h2, List.mem_map] at this
  obtain ⟨d, hd, hde⟩ := this
  rw [← hde]; exact h d hd

/-- What holds in the bootstrap loop after the projected dividends `E`. -/
structure Inv (base : Int) (s : LoopState K) (E : List (Projected K)) : Prop where
  prev : base ≤ s.prevExDate
  dates : ∀ e ∈ E, base ≤ e.exDate ∧ e.exDate ≤ s.prevExDate
  hit : s.prevExDate = base ∨ ∃ e ∈ E, e.exDate = s.prevExDate
  und : s.undiscountedSum = total (·.amount) (fun _ => true) E
  dis : s.discountedSum = total (·.pv) (fun _ => true) E
  before : s.prevDiscountedSum = total (·.pv) (· < s.prevExDate) E
  sorted : AccSorted s.accumulation
  accDates : ∀ a ∈ s.accumulation, a.exDate < s.prevExDate
  lookU : ∀ t, t < s.prevExDate → lookup (·.undiscountedSum) s.accumulation t = total (·.amount) (· ≤ t) E
  lookD : ∀ t, t < s.prevExDate → lookup (·.discountedSum) s.accumulation t = total (·.pv) (· ≤ t) E
  empty : s.prevExDate = base → s.accumulation = []
  nans : ∀ a ∈ s.accumulation, a.discountedCashRemaining = .nan

theorem total_all_le (f : Projected K → K) {E : List (Projected K)} {prev t : Int} (h : ∀ e ∈ E, e.exDate ≤ prev) (ht : prev ≤ t) :
    total f (· ≤ t) E = total f (fun _ => true) E := by
  refine total_congr f ?_
  intro e he
  have := h e he
  simp; omega

theorem pushed_sorted {base : Int} {s : LoopState K} {E : List (Projected K)} (h : Inv base s E) : AccSorted s.pushed := by
  unfold AccSorted LoopState.pushed
  rw [List.pairwise_append]
  refine ⟨h.sorted, by simp, ?_⟩
  intro a ha b hb
  rw [List.mem_singleton] at hb
  rw [hb]
  exact h.accDates a ha

theorem pushed_look {base : Int} {s : LoopState K} {E : List (Projected K)} (h : Inv base s E) (t : Int) :
    lookup (·.undiscountedSum) s.pushed t = total (·.amount) (· ≤ t) E ∧
    lookup (·.discountedSum) s.pushed t = total (·.pv) (· ≤ t) E := by
  unfold LoopState.pushed
  rw [lookup_push, lookup_push]
  by_cases ht : s.prevExDate ≤ t
  · rw [if_pos ht, if_pos ht]
    simp only
    rw [total_all_le _ (fun e he => (h.dates e he).2) ht, total_all_le _ (fun e he => (h.dates e he).2) ht]
    exact ⟨h.und, h.dis⟩
  · rw [if_neg ht, if_neg ht]
    exact ⟨h.lookU t (by omega), h.lookD t (by omega)⟩

/-- State just before adding a dividend with ex-date `x`. -/
structure Pre (base x : Int) (s : LoopState K) (E : List (Projected K)) : Prop where
  prev : s.prevExDate = x
  baseLe : base ≤ x
  dates : ∀ e ∈ E, base ≤ e.exDate ∧ e.exDate ≤ x
  und : s.undiscountedSum = total (·.amount) (fun _ => true) E
  dis : s.discountedSum = total (·.pv) (fun _ => true) E
  before : s.prevDiscountedSum = total (·.pv) (· < x) E
  sorted : AccSorted s.accumulation
  accDates : ∀ a ∈ s.accumulation, a.exDate < x
  lookU : ∀ t, t < x → lookup (·.undiscountedSum) s.accumulation t = total (·.amount) (· ≤ t) E
  lookD : ∀ t, t < x → lookup (·.discountedSum) s.accumulation t = total (·.pv) (· ≤ t) E
  empty : x = base → s.accumulation = []
  nans : ∀ a ∈ s.accumulation, a.discountedCashRemaining = .nan

theorem pre_of_inv {base x : Int} {s : LoopState K} {E : List (Projected K)} (h : Inv base s E) (hx : s.prevExDate ≤ x) :
    Pre base x (if x > s.prevExDate then
          { s with accumulation := s.pushed, prevExDate := x, prevDiscountedSum := s.discountedSum }
        else s) E := by
  by_cases hlt : x > s.prevExDate
  · rw [if_pos hlt]
    refine ⟨rfl, ?_, ?_, h.und, h.dis, ?_, pushed_sorted h, ?_, ?_, ?_, ?_, ?_⟩
    · have := h.prev; omega
    · intro e he
      have := h.dates e he
      omega
    · simp only
      rw [h.dis]
      refine total_congr _ ?_
      intro e he
      have := h.dates e he
      simp; omega
    · intro a ha
      simp only [LoopState.pushed, List.mem_append, List.mem_singleton] at ha
      rcases ha with ha | ha
      · have := h.accDates a ha; omega
      · rw [ha]; exact hlt
    · intro t _; exact (pushed_look h t).1
    · intro t _; exact (pushed_look h t).2
    · intro hb
      have := h.prev
      omega
    · intro a ha
      simp only [LoopState.pushed, List.mem_append, List.mem_singleton] at ha
      rcases ha with ha | ha
      · exact h.nans a ha
      · rw [ha]
  · rw [if_neg hlt]
    have he : s.prevExDate = x := by omega
    subst he
    exact ⟨rfl, h.prev, h.dates, h.und, h.dis, h.before, h.sorted, h.accDates, h.lookU, h.lookD, h.empty, h.nans⟩

theorem add_step {base : Int} {s : LoopState K} {E : List (Projected K)} {d : Dividend K} {spot : K} {g : Int → Outcome K} {df : Int → K}
    (hg : ∀ t, g t = .ok (df t)) (h : Pre base d.exDate s E) :
    ∃ s', addDividend spot g d s = .ok s' ∧ s'.prevExDate = d.exDate ∧
      Inv base s' (E ++ [⟨d.exDate, amount spot df E d, amount spot df E d * df d.payDate⟩]) := by
  have hfin : ∀ s' : LoopState K, s'.prevExDate = s.prevExDate → s'.prevDiscountedSum = s.prevDiscountedSum →
      s'.accumulation = s.accumulation → s'.undiscountedSum = s.undiscountedSum + amount spot df E d →
      s'.discountedSum = s.discountedSum + amount spot df E d * df d.payDate →
      Inv base s' (E ++ [⟨d.exDate, amount spot df E d, amount spot df E d * df d.payDate⟩]) := by
    intro s' h1 h2 h3 h4 h5
    have hp : s'.prevExDate = d.exDate := by rw [h1, h.prev]
    refine ⟨by rw [hp]; exact h.baseLe, ?_, ?_, ?_, ?_, ?_, by rw [h3]; exact h.sorted, ?_, ?_, ?_, ?_, ?_⟩
    · intro e he
      rw [List.mem_append, List.mem_singleton] at he
      rw [hp]
      rcases he with he | he
      · exact h.dates e he
      · rw [he]; exact ⟨h.baseLe, le_refl _⟩
    · right
      exact ⟨_, List.mem_append_right _ (List.mem_singleton.2 rfl), hp.symm⟩
    · rw [h4, h.und, total_append, total_single]; simp
    · rw [h5, h.dis, total_append, total_single]; simp
    · rw [h2, h.before, hp, total_append, total_single]; simp
    · intro a ha; rw [h3] at ha; rw [hp]; exact h.accDates a ha
    · intro t ht
      rw [hp] at ht
      rw [h3, h.lookU t ht, total_append, total_single, if_neg (by simp; omega), add_zero]
    · intro t ht
      rw [hp] at ht
      rw [h3, h.lookD t ht, total_append, total_single, if_neg (by simp; omega), add_zero]
    · intro hb; rw [h3]; exact h.empty (by rw [← hp]; exact hb)
    · intro a ha; rw [h3] at ha; exact h.nans a ha
  unfold addDividend
  simp only [hg, Bind.bind, Except.bind, pure, Except.pure]
  by_cases hr : d.relative ≠ 0
  · rw [if_pos hr]
    refine ⟨_, rfl, h.prev, hfin _ rfl rfl rfl ?_ ?_⟩
    · simp only [amount, h.before]; ring
    · simp only [amount, h.before]; ring
  · rw [if_neg hr]
    have hr : d.relative = 0 := by simpa using hr
    refine ⟨_, rfl, h.prev, hfin _ rfl rfl rfl ?_ ?_⟩
    · simp [amount, hr]
    · simp [amount, hr]

/-- The loop on dividends in order. -/
theorem loop_ok {base boot : Int} {spot : K} {g : Int → Outcome K} {df : Int → K} (hg : ∀ t, g t = .ok (df t)) :
    ∀ (ds : List (Dividend K)) (s : LoopState K) (E : List (Projected K)), InOrder ds → Inv base s E →
      (∀ d ∈ ds, d.exDate < base ∨ s.prevExDate ≤ d.exDate) →
      ∃ s', bootstrapLoop base boot spot g ds s = .ok s' ∧
        Inv base s' (projectFrom spot df E (ds.filter (fun d => decide (base ≤ d.exDate ∧ d.exDate ≤ boot)))) := by
  intro ds
  induction ds with
  | nil => intro s E _ hi _; exact ⟨s, rfl, hi⟩
  | cons d ds ih =>
    intro s E ho hi hd
    unfold InOrder at ho
    rw [List.pairwise_cons] at ho
    unfold bootstrapLoop
    by_cases h1 : d.exDate < base
    · rw [if_pos h1, List.filter_cons, if_neg (by simp; omega)]
      exact ih s E ho.2 hi (fun e he => hd e (by simp [he]))
    · rw [if_neg h1]
      have hp : s.prevExDate ≤ d.exDate := (hd d (by simp)).resolve_left h1
      rw [if_neg (by omega)]
      by_cases h2 : d.exDate > boot
      · rw [if_pos h2]
        refine ⟨s, rfl, ?_⟩
        have : (d :: ds).filter (fun d => decide (base ≤ d.exDate ∧ d.exDate ≤ boot)) = [] := by
          rw [List.filter_eq_nil_iff]
          intro e he
          rw [List.mem_cons] at he
          have : d.exDate ≤ e.exDate := by
            rcases he with he | he
            · rw [he]
            · exact ho.1 e he
          simp; omega
        rw [this]; exact hi
      · rw [if_neg h2, List.filter_cons]
        have hc : decide (base ≤ d.exDate ∧ d.exDate ≤ boot) = true := by simp; omega
        rw [if_pos hc]
        have hpre := pre_of_inv hi hp
        obtain ⟨s', hs', hp', hi'⟩ := add_step (spot := spot) hg hpre
        simp only [Bind.bind, Except.bind]
        rw [hs']
        simp only [projectFrom]
        refine ih s' _ ho.2 hi' ?_
        intro e he
        right
        rw [hp']
        exact ho.1 e he

theorem inv_start (base : Int) : Inv base (⟨base, 0, 0, 0, 0, []⟩ : LoopState K) [] := by
  refine ⟨le_refl _, by simp, Or.inl rfl, by simp [total], by simp [total], by simp [total], by simp [AccSorted], by simp, ?_, ?_, by simp, by simp⟩
  · intro t _; simp [lookup, total]
  · intro t _; simp [lookup, total]

theorem fillRemaining_sorted {acc : List (Accumulation K)} (h : AccSorted acc) : AccSorted (fillRemaining acc) := by
  unfold fillRemaining
  split
  · exact h
  · unfold AccSorted
    rw [List.pairwise_map]
    exact h

theorem fillRemaining_lookup (field : Accumulation K → K)
    (hf : ∀ a r, field { a with discountedCashRemaining := r } = field a) (acc : List (Accumulation K)) (t : Int) :
    lookup field (fillRemaining acc) t = lookup field acc t := by
  unfold fillRemaining
  split
  · rfl
  · unfold lookup
    rw [List.filter_map, List.getLast?_map, Option.map_map]
    congr 2
    funext a
    exact hf a _

theorem fillRemaining_nan {acc : List (Accumulation K)} (h : ∀ a ∈ acc, a.discountedCashRemaining = .nan) :
    ∀ a ∈ fillRemaining acc, a.discountedCashRemaining = .nan := by
  intro a ha
  unfold fillRemaining at ha
  split at ha
  · exact h a ha
  · rw [List.mem_map] at ha
    obtain ⟨b, hb, rfl⟩ := ha
    simp only [h b hb]

theorem fillRemaining_dates (acc : List (Accumulation K)) (x : Int) :
    (∃ a ∈ fillRemaining acc, a.exDate = x) ↔ ∃ a ∈ acc, a.exDate = x := by
  unfold fillRemaining
  split
  · exact Iff.rfl
  · simp [List.mem_map]

theorem filter_split {base boot : Int} {ds : List (Dividend K)} (ho : InOrder ds) (hb : ∀ d ∈ ds, d.exDate ≠ base) :
    ∃ B : List (Dividend K), ds.filter (fun d => decide (base < d.exDate))
      = ds.filter (fun d => decide (base ≤ d.exDate ∧ d.exDate ≤ boot)) ++ B ∧ ∀ d ∈ B, boot < d.exDate := by
  induction ds with
  | nil => exact ⟨[], rfl, by simp⟩
  | cons d ds ih =>
    unfold InOrder at ho
    rw [List.pairwise_cons] at ho
    obtain ⟨B, h1, h2⟩ := ih ho.2 (fun e he => hb e (by simp [he]))
    have hd := hb d (by simp)
    by_cases hlt : d.exDate < base
    · refine ⟨B, ?_, h2⟩
      rw [List.filter_cons, if_neg (by simp; omega), List.filter_cons, if_neg (by simp; omega)]
      exact h1
    · by_cases hbt : d.exDate ≤ boot
      · refine ⟨B, ?_, h2⟩
        rw [List.filter_cons, if_pos (by simp; omega), List.filter_cons, if_pos (by simp; omega), h1]
        rfl
      · refine ⟨d :: ds.filter (fun d => decide (base < d.exDate)), ?_, ?_⟩
        · rw [List.filter_cons, if_pos (by simp; omega), List.filter_cons, if_neg (by simp; omega)]
          have : ds.filter (fun d => decide (base ≤ d.exDate ∧ d.exDate ≤ boot)) = [] := by
            rw [List.filter_eq_nil_iff]
            intro e he
            have := ho.1 e he
            simp; omega
          rw [this]; rfl
        · intro e he
          rw [List.mem_cons] at he
          rcases he with rfl | he
          · omega
          · have := ho.1 e (List.mem_of_mem_filter he)
            omega

/-- The bootstrap of a stream in order, not touching the base date, without overlapping yield. -/
theorem bootstrap_ok {dividends : List (Dividend K)} {lastCash : Int} {yieldIsZero : Bool} {yieldBase : Int}
    {discount : Outcome (Int → Outcome K)} {df : Int → K} {spot : K} {base hwm : Int}
    (hd : Discounts discount df) (ho : InOrder dividends) (hb : ∀ d ∈ dividends, d.exDate ≠ base)
    (hy : yieldIsZero = true ∨ ∀ d ∈ dividends.getLast?, d.exDate ≤ yieldBase) :
    ∃ b, Bootstrap.new dividends lastCash yieldIsZero yieldBase discount spot base hwm = .ok b ∧
      b.baseDate = base ∧ b.highWaterMark = (if dividends = [] then hwm else max hwm lastCash) ∧
      AccSorted b.accumulation ∧ (∀ a ∈ b.accumulation, a.discountedCashRemaining = .nan) ∧
      (∀ d ∈ dividends, base < d.exDate → d.exDate ≤ b.highWaterMark → ∃ a ∈ b.accumulation, d.exDate ≤ a.exDate) ∧
      (∀ a ∈ b.accumulation, ∃ d ∈ dividends, base < d.exDate ∧ d.exDate ≤ b.highWaterMark ∧ a.exDate ≤ d.exDate) ∧
      ∀ t, t ≤ b.highWaterMark →
        lookup (·.undiscountedSum) b.accumulation t = total (·.amount) (· ≤ t) (project spot df base dividends) ∧
        lookup (·.discountedSum) b.accumulation t = total (·.pv) (· ≤ t) (project spot df base dividends) := by
  obtain ⟨g, rfl, hg⟩ := hd
  unfold Bootstrap.new
  cases hl : dividends.getLast? with
  | none =>
    have : dividends = [] := by simpa using hl
    subst this
    refine ⟨_, rfl, rfl, by simp, by simp [AccSorted], by simp, by simp, by simp, ?_⟩
    intro t _
    simp [lookup, project, projectFrom, total]
  | some last =>
    have hne : dividends ≠ [] := by rintro rfl; cases hl
    simp only
    rw [if_neg (by
      rintro ⟨h1, h2⟩
      rcases hy with hy | hy
      · rw [hy] at h1; cases h1
      · have := hy last (by rw [hl]; rfl)
        omega)]
    obtain ⟨s', hs', hi⟩ := loop_ok (base := base) (boot := max hwm lastCash) (spot := spot) hg dividends
      ⟨base, 0, 0, 0, 0, []⟩ [] ho (inv_start base) (by intro d _; simp only; omega)
    simp only [Bind.bind, Except.bind, hs', pure, Except.pure]
    obtain ⟨B, hB1, hB2⟩ := filter_split (boot := max hwm lastCash) ho hb
    have hproj : project spot df base dividends = projectFrom spot df (projectFrom spot df []
        (dividends.filter (fun d => decide (base ≤ d.exDate ∧ d.exDate ≤ max hwm lastCash)))) B := by
      unfold project
      rw [hB1, projectFrom_append]
    set E := projectFrom spot df [] (dividends.filter (fun d => decide (base ≤ d.exDate ∧ d.exDate ≤ max hwm lastCash))) with hE
    have htot : ∀ (f : Projected K → K) t, t ≤ max hwm lastCash → total f (· ≤ t) (project spot df base dividends) = total f (· ≤ t) E := by
      intro f t ht
      rw [hproj]
      refine total_projectFrom_none f spot df E ?_
      intro d hdB
      have := hB2 d hdB
      simp; omega
    have hEmem : ∀ d ∈ dividends, base ≤ d.exDate → d.exDate ≤ max hwm lastCash → ∃ e ∈ E, e.exDate = d.exDate := by
      intro d hd h1 h2
      obtain ⟨F, hF1, hF2⟩ := projectFrom_dates spot df [] (dividends.filter (fun d => decide (base ≤ d.exDate ∧ d.exDate ≤ max hwm lastCash)))
      rw [← hE, List.nil_append] at hF1
      have hm : d.exDate ∈ F.map (·.exDate) := by
        rw [hF2]
        exact List.mem_map.2 ⟨d, List.mem_filter.2 ⟨hd, by simpa using ⟨h1, by omega⟩⟩, rfl⟩
      rw [← hF1, List.mem_map] at hm
      exact hm
    have hmemE : ∀ e ∈ E, ∃ d ∈ dividends, d.exDate = e.exDate ∧ base ≤ d.exDate ∧ d.exDate ≤ max hwm lastCash := by
      intro e he
      obtain ⟨F, hF1, hF2⟩ := projectFrom_dates spot df [] (dividends.filter (fun d => decide (base ≤ d.exDate ∧ d.exDate ≤ max hwm lastCash)))
      rw [← hE, List.nil_append] at hF1
      have hm : e.exDate ∈ E.map (·.exDate) := List.mem_map.2 ⟨e, he, rfl⟩
      rw [hF1, hF2, List.mem_map] at hm
      obtain ⟨d, hd, hde⟩ := hm
      rw [List.mem_filter] at hd
      exact ⟨d, hd.1, hde, by simpa using hd.2⟩
    refine ⟨_, rfl, rfl, by rw [if_neg hne], ?_, ?_, ?_, ?_, ?_⟩
    · refine fillRemaining_sorted ?_
      split
      · exact pushed_sorted hi
      · exact hi.sorted
    · refine fillRemaining_nan ?_
      split
      · intro a ha
        simp only [LoopState.pushed, List.mem_append, List.mem_singleton] at ha
        rcases ha with ha | ha
        · exact hi.nans a ha
        · rw [ha]
      · exact hi.nans
    · intro d hd h1 h2
      obtain ⟨e, he, hed⟩ := hEmem d hd (by omega) h2
      have hle := (hi.dates e he).2
      have hgt : s'.prevExDate > base := by omega
      simp only [if_pos hgt]
      refine (fillRemaining_dates s'.pushed s'.prevExDate).2 ?_ |>.imp fun a ha => ⟨ha.1, by omega⟩
      exact ⟨_, List.mem_append_right _ (List.mem_singleton.2 rfl), rfl⟩
    · intro a ha
      simp only at ha ⊢
      obtain ⟨a', ha', haa⟩ := (fillRemaining_dates _ a.exDate).1 ⟨a, ha, rfl⟩
      by_cases hgt : s'.prevExDate > base
      · rw [if_pos hgt] at ha'
        obtain ⟨e, he, hes⟩ := hi.hit.resolve_left (by omega)
        obtain ⟨d, hd, hde, h1, h2⟩ := hmemE e he
        refine ⟨d, hd, by omega, h2, ?_⟩
        simp only [LoopState.pushed, List.mem_append, List.mem_singleton] at ha'
        rcases ha' with ha' | ha'
        · have := hi.accDates a' ha'; omega
        · rw [ha'] at haa; simp only at haa; omega
      · rw [if_neg hgt, hi.empty (by have := hi.prev; omega)] at ha'
        cases ha'
    · intro t ht
      simp only at ht ⊢
      rw [htot _ t ht, htot _ t ht, fillRemaining_lookup _ (fun _ _ => rfl), fillRemaining_lookup _ (fun _ _ => rfl)]
      by_cases hgt : s'.prevExDate > base
      · rw [if_pos hgt]
        exact pushed_look hi t
      · rw [if_neg hgt]
        have hp : s'.prevExDate = base := by have := hi.prev; omega
        rw [hi.empty hp]
        have hEe : E = [] := by
          cases hE' : E with
          | nil => rfl
          | cons e E' =>
            exfalso
            obtain ⟨F, h1, h2⟩ := projectFrom_dates spot df [] (dividends.filter (fun d => decide (base ≤ d.exDate ∧ d.exDate ≤ max hwm lastCash)))
            have he := hi.dates e (by rw [hE']; simp)
            have hmem : e.exDate ∈ F.map (·.exDate) := by
              rw [← hE, List.nil_append] at h1
              rw [← h1, hE']; simp
            rw [h2, List.mem_map] at hmem
            obtain ⟨d, hdm, hde⟩ := hmem
            have := hb d (List.mem_of_mem_filter hdm)
            omega
        rw [hEe]
        simp [lookup, total]

/-- If the loop succeeds, the dividends it looked at were in order. -/
theorem loop_order {base boot : Int} {spot : K} {g : Int → Outcome K} :
    ∀ (ds : List (Dividend K)) (s s' : LoopState K), base ≤ s.prevExDate → bootstrapLoop base boot spot g ds s = .ok s' →
      ((ds.filter (fun d => decide (base ≤ d.exDate))).takeWhile (fun d => decide (d.exDate ≤ boot))).Pairwise
        (fun a b => a.exDate ≤ b.exDate) ∧
      ∀ d ∈ (ds.filter (fun d => decide (base ≤ d.exDate))).takeWhile (fun d => decide (d.exDate ≤ boot)), s.prevExDate ≤ d.exDate := by
  intro ds
  induction ds with
  | nil => intro s s' _ _; simp
  | cons d ds ih =>
    intro s s' hb h
    unfold bootstrapLoop at h
    by_cases h1 : d.exDate < base
    · rw [if_pos h1] at h
      rw [List.filter_cons, if_neg (by simp; omega)]
      exact ih s s' hb h
    · rw [if_neg h1] at h
      rw [List.filter_cons, if_pos (by simp; omega)]
      by_cases h2 : d.exDate < s.prevExDate
      · rw [if_pos h2] at h; cases h
      · rw [if_neg h2] at h
        by_cases h3 : d.exDate > boot
        · rw [List.takeWhile_cons, if_neg (by simp; omega)]
          simp
        · rw [if_neg h3] at h
          rw [List.takeWhile_cons, if_pos (by simp; omega)]
          simp only [Bind.bind, Except.bind] at h
          have hprev : ∀ t t' : LoopState K, addDividend spot g d t = .ok t' → t'.prevExDate = t.prevExDate := by
            intro t t' ht
            unfold addDividend at ht
            cases hg : g d.payDate with
            | error e => rw [hg] at ht; cases ht
            | ok f =>
              rw [hg] at ht
              simp only [Bind.bind, Except.bind, pure, Except.pure] at ht
              split at ht
              · cases hg' : g d.exDate with
                | error e => rw [hg'] at ht; cases ht
                | ok f' => rw [hg'] at ht; cases ht; rfl
              · cases ht; rfl
          have hs1 : (if d.exDate > s.prevExDate then
              { s with accumulation := s.pushed, prevExDate := d.exDate, prevDiscountedSum := s.discountedSum } else s).prevExDate = d.exDate := by
            split
            · rfl
            · omega
          cases ha : addDividend spot g d (if d.exDate > s.prevExDate then
              { s with accumulation := s.pushed, prevExDate := d.exDate, prevDiscountedSum := s.discountedSum } else s) with
          | error e => rw [ha] at h; cases h
          | ok t' =>
            rw [ha] at h
            have hpt := hprev _ _ ha
            rw [hs1] at hpt
            obtain ⟨k1, k2⟩ := ih t' s' (by omega) h
            rw [hpt] at k2
            refine ⟨List.pairwise_cons.2 ⟨k2, k1⟩, ?_⟩
            intro e he
            rw [List.mem_cons] at he
            rcases he with rfl | he
            · omega
            · have := k2 e he; omega

theorem searchAcc_some {acc : List (Accumulation K)} {t : Int} (h : ∃ a ∈ acc, t ≤ a.exDate) :
    ∃ a ∈ acc, acc[(searchAcc acc t).1]? = some a ∧ (searchAcc acc t).1 ≠ acc.length := by
  have hlt : (searchAcc acc t).1 < acc.length := by
    unfold searchAcc
    simp only
    by_contra hge
    have hsub : acc.takeWhile (fun a => decide (a.exDate < t)) = acc := by
      have := List.takeWhile_prefix (l := acc) (fun a => decide (a.exDate < t))
      exact this.eq_of_length_le (by omega)
    obtain ⟨a, ha, hat⟩ := h
    rw [← hsub] at ha
    have := List.mem_takeWhile_imp ha
    simp at this
    omega
  exact ⟨acc[(searchAcc acc t).1], List.getElem_mem _, List.getElem?_eq_getElem hlt, by omega⟩

theorem lastCash_ge (ds : List (Dividend K)) (ho : InOrder ds) {d : Dividend K} (hd : d ∈ ds) (hc : d.cash ≠ 0) :
    d.exDate ≤ lastCashExDate ds := by
  unfold lastCashExDate
  suffices h : ∀ (ds : List (Dividend K)) (l : Int), InOrder ds →
      (∀ d ∈ ds, d.cash ≠ 0 → d.exDate ≤ ds.foldl (fun last d => if d.cash ≠ 0 then d.exDate else last) l) ∧
      ∀ m, m ≤ l → (∀ d ∈ ds, m ≤ d.exDate) → m ≤ ds.foldl (fun last d => if d.cash ≠ 0 then d.exDate else last) l from
    (h ds 0 ho).1 d hd hc
  intro ds
  induction ds with
  | nil => intro l _; simp
  | cons e ds ih =>
    intro l ho
    unfold InOrder at ho
    rw [List.pairwise_cons] at ho
    obtain ⟨i1, i2⟩ := ih (if e.cash ≠ 0 then e.exDate else l) ho.2
    constructor
    · intro d hd hc
      rw [List.mem_cons] at hd
      rw [List.foldl_cons]
      rcases hd with rfl | hd
      · exact i2 d.exDate (by rw [if_pos hc]) ho.1
      · exact i1 d hd hc
    · intro m hm hall
      rw [List.foldl_cons]
      refine i2 m ?_ (fun d hd => hall d (by simp [hd]))
      split
      · exact hall e (by simp)
      · exact hm

theorem foldl_lastCash_bump (f : K) (hf : f ≠ 0) (ds : List (Dividend K)) :
    lastCashExDate (ds.map (fun d => d.bumpAllRelative f)) = lastCashExDate ds := by
  unfold lastCashExDate
  rw [List.foldl_map]
  congr 1
  funext l d
  simp [Dividend.bumpAllRelative, hf]

theorem projectFrom_scaled (spot : K) (df : Int → K) (f : K) (ds : List (Dividend K)) (hcash : ∀ d ∈ ds, d.relative = 0)
    (E : List (Projected K)) :
    projectFrom spot df (E.map (fun e => ⟨e.exDate, e.amount * f, e.pv * f⟩)) (ds.map (fun d => d.bumpAllRelative f))
      = (projectFrom spot df E ds).map (fun e => ⟨e.exDate, e.amount * f, e.pv * f⟩) := by
  induction ds generalizing E with
  | nil => rfl
  | cons d ds ih =>
    have hd := hcash d (by simp)
    simp only [List.map_cons, projectFrom]
    rw [← ih (fun d hd => hcash d (by simp [hd]))]
    congr 1
    simp only [List.map_append, List.map_cons, List.map_nil, amount, Dividend.bumpAllRelative, hd]
    congr 2
    simp only [zero_mul, add_zero]
    congr 1
    ring

theorem total_scaled (f : Projected K → K) (c : K) (g : Projected K → Projected K) (hg : ∀ e, (g e).exDate = e.exDate)
    (hf : ∀ e, f (g e) = f e * c) (p : Int → Bool) (l : List (Projected K)) :
    total f p (l.map g) = total f p l * c := by
  induction l with
  | nil => simp [total]
  | cons e l ih =>
    rw [List.map_cons, ← List.singleton_append, total_append, total_single, ih, ← List.singleton_append (l := l), total_append,
      total_single, hg, hf]
    split <;> ring

end QM.Dividends
