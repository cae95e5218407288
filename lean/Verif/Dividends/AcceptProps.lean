import Verif.Dividends.Props

/-!
# Property C55: exactly which dividend streams are accepted
-/

namespace QM.Dividends
open QM.Interp (Num)
open Spec

variable {K : Type} [Field K] [LinearOrder K] [IsStrictOrderedRing K]

omit [IsStrictOrderedRing K] in
/-- Dividends in order, from the base date on and up to the first one past the horizon, go through the loop. -/
theorem loop_accepts {base top : Int} {spot : K} {df : Int → Outcome K} (hdf : ∀ d, ∃ x, df d = .ok x) (l : List (Dividend K)) :
    ∀ s : LoopState K, (s.prevExDate ≤ top ∨ s.prevExDate = base) →
      InOrder ((l.filter (fun d => decide (base ≤ d.exDate))).takeWhile (fun d => decide (d.exDate ≤ top))) →
      (∀ d ∈ (l.filter (fun d => decide (base ≤ d.exDate))).takeWhile (fun d => decide (d.exDate ≤ top)), s.prevExDate ≤ d.exDate) →
      ∃ s', bootstrapLoop base top spot df l s = .ok s' := by
  induction l with
  | nil => exact fun s _ _ _ => ⟨s, rfl⟩
  | cons d l ih =>
    intro s hs ho hp
    rw [bootstrapLoop]
    by_cases h1 : d.exDate < base
    · rw [if_pos h1]
      have e : (d :: l).filter (fun d => decide (base ≤ d.exDate)) = l.filter (fun d => decide (base ≤ d.exDate)) := by
        rw [List.filter_cons, if_neg (by simp; omega)]
      rw [e] at ho hp
      exact ih s hs ho hp
    rw [if_neg h1]
    have e : (d :: l).filter (fun d => decide (base ≤ d.exDate)) = d :: l.filter (fun d => decide (base ≤ d.exDate)) := by
      rw [List.filter_cons, if_pos (by simp; omega)]
    rw [e] at ho hp
    by_cases h2 : d.exDate ≤ top
    · rw [List.takeWhile_cons, if_pos (by simpa using h2)] at ho hp
      have h3 := hp d (by simp)
      rw [if_neg (by omega), if_neg (by omega)]
      obtain ⟨x, hx⟩ := hdf d.payDate
      obtain ⟨y, hy⟩ := hdf d.exDate
      have hadd : ∀ t : LoopState K, ∃ t', addDividend spot df d t = .ok t' ∧ t'.prevExDate = t.prevExDate := by
        intro t
        unfold addDividend
        rw [hx]
        simp only [Bind.bind, Except.bind]
        by_cases hr : d.relative ≠ 0
        · rw [if_pos hr, hy]
          exact ⟨_, rfl, rfl⟩
        · rw [if_neg hr]
          exact ⟨_, rfl, rfl⟩
      obtain ⟨t', h4, h5⟩ := hadd (if d.exDate > s.prevExDate then
          { s with accumulation := s.pushed, prevExDate := d.exDate, prevDiscountedSum := s.discountedSum } else s)
      dsimp only
      rw [h4]
      have h6 : t'.prevExDate = d.exDate := by
        rw [h5]
        split
        · rfl
        · omega
      unfold InOrder at ho
      rw [List.pairwise_cons] at ho
      exact ih t' (.inl (by omega)) ho.2 (fun e he => by rw [h6]; exact ho.1 e he)
    · rw [if_neg (by omega), if_pos (by omega)]
      exact ⟨s, rfl⟩

/-- C55. Where the curves give a discount factor for every date, a stream is accepted exactly if it is empty, or no dividend yield overlaps with its
last dividend and the dividends from the base date on, up to the first one past the horizon, are in ex-date order. -/
theorem C55_iff {dividends : List (Dividend K)} {lastCash : Int} {yieldIsZero : Bool} {yieldBase : Int}
    {discount : Outcome (Int → Outcome K)} {df : Int → K} (hd : Discounts discount df) {spot : K} {base hwm : Int} :
    (∃ b, Bootstrap.new dividends lastCash yieldIsZero yieldBase discount spot base hwm = .ok b) ↔
      (∀ last, dividends.getLast? = some last → yieldIsZero = true ∨ last.exDate ≤ yieldBase) ∧
      InOrder ((dividends.filter (fun d => decide (base ≤ d.exDate))).takeWhile (fun d => decide (d.exDate ≤ max hwm lastCash))) := by
  constructor
  · rintro ⟨b, hb⟩
    refine ⟨?_, C55_order_partial hb⟩
    intro last hl
    cases hz : yieldIsZero
    · right
      by_contra hlt
      subst hz
      rw [C55_overlap_refused hl (by omega)] at hb
      cases hb
    · exact .inl rfl
  · rintro ⟨h1, h2⟩
    unfold Bootstrap.new
    cases hl : dividends.getLast? with
    | none => exact ⟨_, rfl⟩
    | some last =>
      obtain ⟨g, rfl, hg⟩ := hd
      dsimp only
      rw [if_neg (by
        rintro ⟨q1, q2⟩
        rcases h1 last hl with h | h
        · rw [h] at q1
          simp at q1
        · omega)]
      obtain ⟨s, hs⟩ := loop_accepts (spot := spot) (fun d => ⟨_, hg d⟩) dividends ⟨base, 0, 0, 0, 0, []⟩ (.inr rfl) h2 (by
        intro d hd
        have := List.mem_of_mem_filter (List.takeWhile_subset _ hd)
        have := List.of_mem_filter (List.takeWhile_subset _ hd)
        simpa using this)
      simp only [Bind.bind, Except.bind, hs]
      exact ⟨_, rfl⟩

/-- C55: a stream in order with a dividend behind the horizon is accepted. -/
example : ∃ b, Bootstrap.new ([⟨1, 0, 5, 6⟩, ⟨0, 1 / 10, 50, 50⟩] : List (Dividend ℚ)) 5 true 0 (.ok (fun _ => .ok 1)) 100 0 20 = .ok b :=
  (C55_iff (df := fun _ => 1) ⟨_, rfl, fun _ => rfl⟩).2 ⟨fun _ _ => .inl rfl, by unfold InOrder; decide⟩

end QM.Dividends
