import Verif.Dividends.Lemmas
import Verif.Interp.Search

/-!
# Properties C24 and C25: finding an ex-date

The three queries of a bootstrap call the standard library's `binary_search_by` (`divstream.rs:334`, `373`, `400`). `searchAcc` is
the contract of that call; `Interp.binarySearch` is its loop.
-/

namespace QM.Dividends
open QM.Interp (Num binarySearch binarySearch_key)
variable {K : Type} [Field K] [LinearOrder K]

/-- Between two turns of the loop the finished entries are in order and before the open one. -/
def LoopState.Ordered (s : LoopState K) : Prop :=
  AccSorted s.accumulation ∧ ∀ a ∈ s.accumulation, a.exDate < s.prevExDate

theorem LoopState.Ordered.pushed {s : LoopState K} (h : s.Ordered) : AccSorted s.pushed := by
  unfold AccSorted LoopState.pushed
  rw [List.pairwise_append]
  refine ⟨h.1, List.pairwise_singleton _ _, fun a ha b hb => ?_⟩
  rw [List.mem_singleton] at hb
  subst hb
  exact h.2 a ha

theorem addDividend_keeps {spot : K} {df : Int → Outcome K} {d : Dividend K} {s s' : LoopState K}
    (h : addDividend spot df d s = .ok s') : s'.accumulation = s.accumulation ∧ s'.prevExDate = s.prevExDate := by
  unfold addDividend at h
  cases hf : df d.payDate with
  | error e => rw [hf] at h; cases h
  | ok f =>
    rw [hf] at h
    simp only [bind, Except.bind] at h
    split at h
    · cases hg : df d.exDate with
      | error e => rw [hg] at h; cases h
      | ok g =>
        rw [hg] at h
        have := Except.ok.inj h
        subst this
        exact ⟨rfl, rfl⟩
    · have := Except.ok.inj h
      subst this
      exact ⟨rfl, rfl⟩

theorem bootstrapLoop_ordered {base boot : Int} {spot : K} {df : Int → Outcome K} (ds : List (Dividend K)) :
    ∀ {s s' : LoopState K}, s.Ordered → bootstrapLoop base boot spot df ds s = .ok s' → s'.Ordered := by
  induction ds with
  | nil =>
    intro s s' hs h
    have := Except.ok.inj h
    subst this; exact hs
  | cons d rest ih =>
    intro s s' hs h
    rw [bootstrapLoop] at h
    by_cases h1 : d.exDate < base
    · rw [if_pos h1] at h; exact ih hs h
    · rw [if_neg h1] at h
      by_cases h2 : d.exDate < s.prevExDate
      · rw [if_pos h2] at h; cases h
      · rw [if_neg h2] at h
        by_cases h3 : d.exDate > boot
        · rw [if_pos h3] at h
          have := Except.ok.inj h
          subst this; exact hs
        · rw [if_neg h3] at h
          by_cases h4 : d.exDate > s.prevExDate
          · simp only [if_pos h4] at h
            have ho : (LoopState.mk d.exDate s.undiscountedSum s.discountedSum s.discountedCash s.discountedSum s.pushed).Ordered := by
              refine ⟨hs.pushed, fun a ha => ?_⟩
              unfold LoopState.pushed at ha
              rcases List.mem_append.1 ha with ha | ha
              · exact (hs.2 a ha).trans h4
              · rw [List.mem_singleton] at ha
                subst ha
                exact h4
            cases ha : addDividend spot df d (LoopState.mk d.exDate s.undiscountedSum s.discountedSum s.discountedCash s.discountedSum s.pushed) with
            | error e => rw [ha] at h; cases h
            | ok s1 =>
              rw [ha] at h
              have hk := addDividend_keeps ha
              refine ih ⟨?_, ?_⟩ h
              · rw [hk.1]; exact ho.1
              · rw [hk.1, hk.2]; exact ho.2
          · simp only [if_neg h4] at h
            cases ha : addDividend spot df d s with
            | error e => rw [ha] at h; cases h
            | ok s1 =>
              rw [ha] at h
              have hk := addDividend_keeps ha
              refine ih ⟨?_, ?_⟩ h
              · rw [hk.1]; exact hs.1
              · rw [hk.1, hk.2]; exact hs.2

theorem bootstrap_sorted {dividends : List (Dividend K)} {lastCash : Int} {yieldIsZero : Bool} {yieldBase : Int}
    {discount : Outcome (Int → Outcome K)} {spot : K} {base hwm : Int} {b : Bootstrap K}
    (h : Bootstrap.new dividends lastCash yieldIsZero yieldBase discount spot base hwm = .ok b) : AccSorted b.accumulation := by
  unfold Bootstrap.new at h
  cases hl : dividends.getLast? with
  | none =>
    rw [hl] at h
    have := Except.ok.inj h
    subst this
    exact List.Pairwise.nil
  | some last =>
    rw [hl] at h
    simp only at h
    split at h
    · cases h
    · cases discount with
      | error e => cases h
      | ok df =>
        simp only [bind, Except.bind] at h
        cases hs : bootstrapLoop base (max hwm lastCash) spot df dividends ⟨base, 0, 0, 0, 0, []⟩ with
        | error e => rw [hs] at h; cases h
        | ok s =>
          rw [hs] at h
          have := Except.ok.inj h
          subst this
          have ho := bootstrapLoop_ordered dividends (s := ⟨base, 0, 0, 0, 0, []⟩) ⟨List.Pairwise.nil, fun a ha => by cases ha⟩ hs
          refine fillRemaining_sorted ?_
          split
          · exact ho.pushed
          · exact ho.1

/-- C24 and C25, the search. Whatever the dividends, the entries of a bootstrap that succeeds are in order of ex-date without
duplicates, and there the binary chop of the three queries finds what their model assumes. -/
theorem C24_search {dividends : List (Dividend K)} {lastCash : Int} {yieldIsZero : Bool} {yieldBase : Int}
    {discount : Outcome (Int → Outcome K)} {spot : K} {base hwm : Int} {b : Bootstrap K}
    (h : Bootstrap.new dividends lastCash yieldIsZero yieldBase discount spot base hwm = .ok b) (t : Int) :
    b.accumulation.Pairwise (fun p q => p.exDate < q.exDate) ∧
    binarySearch (b.accumulation.map (fun a => (a.exDate, a))) t = searchAcc b.accumulation t := by
  have hs := bootstrap_sorted h
  refine ⟨hs, ?_⟩
  rw [binarySearch_key (fun a : Accumulation K => a.exDate) hs]
  rfl

/-- A stream with two dividends on one ex-date, and one before the base date. -/
example : ∃ b, Bootstrap.new ([⟨1, 0, -5, -5⟩, ⟨5, 0, 10, 12⟩, ⟨1, 1/10, 10, 22⟩, ⟨0, 1/2, 30, 31⟩] : List (Dividend ℚ)) 10 true 0
    (.ok (fun _ => .ok 1)) 100 0 40 = .ok b ∧ b.accumulation.map (·.exDate) = [0, 10, 30] :=
  ⟨⟨0, 40, [⟨0, 0, 0, 0, .nan⟩, ⟨10, 16, 16, 6, .nan⟩, ⟨30, 58, 58, 6, .nan⟩]⟩, by decide +kernel, by decide +kernel⟩

end QM.Dividends
