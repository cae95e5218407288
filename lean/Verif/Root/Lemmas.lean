import Verif.Root.Spec
import Mathlib.Tactic.Linarith
import Mathlib.Tactic.Ring
import Mathlib.Tactic.Positivity

/-!
# Helper lemmas for the root finder
-/

namespace QM.Root
open Spec

variable {K : Type} [Field K] [LinearOrder K]

/-- What holds at the top of the loop. -/
structure Inv (f : K → Outcome K) (v : Vars K) : Prop where
  ha : f v.a = .ok v.fa
  hb : f v.b = .ok v.fb
  hc : f v.c = .ok v.fc
  bracket : sameSign v.fb v.fc = true → sameSign v.fa v.fb = false

theorem inv_rename {f : K → Outcome K} {v : Vars K} (h : Inv f v) :
    f (rename v).a = .ok (rename v).fa ∧ f (rename v).b = .ok (rename v).fb ∧ f (rename v).c = .ok (rename v).fc ∧
    sameSign (rename v).fb (rename v).fc = false := by
  unfold rename
  split
  · rename_i hs
    refine ⟨h.ha, h.hb, h.ha, ?_⟩
    have := h.bracket hs
    simp only [sameSign, decide_eq_false_iff_not] at this ⊢
    tauto
  · rename_i hs
    exact ⟨h.ha, h.hb, h.hc, by simpa using hs⟩

theorem inv_swap {f : K → Outcome K} {v : Vars K}
    (h : f v.a = .ok v.fa ∧ f v.b = .ok v.fb ∧ f v.c = .ok v.fc ∧ sameSign v.fb v.fc = false) :
    f (swapBest v).b = .ok (swapBest v).fb ∧ f (swapBest v).c = .ok (swapBest v).fc ∧
    sameSign (swapBest v).fb (swapBest v).fc = false ∧ |(swapBest v).fb| ≤ |(swapBest v).fc| := by
  obtain ⟨h1, h2, h3, h4⟩ := h
  unfold swapBest
  split
  · rename_i hs
    refine ⟨h3, h2, ?_, hs.le⟩
    simp only [sameSign, decide_eq_false_iff_not] at h4 ⊢
    tauto
  · rename_i hs
    exact ⟨h2, h3, h4, not_lt.1 hs⟩

/-- The loop's result, when it has one, is a root or next to a sign change. -/
theorem loop_result [IsStrictOrderedRing K] {σ : Type} {func : K → σ → Outcome K × σ} {f : K → Outcome K} (hf : Answers func f) (tol : K) :
    ∀ n v st x, Inv f v → (loop func tol n v st).1 = .ok x →
      f x = .ok 0 ∨ ∃ y fx fy, f x = .ok fx ∧ f y = .ok fy ∧ ((fx < 0 ∧ 0 < fy) ∨ (0 < fx ∧ fy < 0)) ∧
        |y - x| ≤ tol + 4 * epsilon * |x| := by
  intro n
  induction n with
  | zero => intro v st x _ h; cases h
  | succ n ih =>
    intro v st x hinv h
    unfold loop at h
    obtain ⟨h1, h2, h3, h4⟩ := inv_swap (inv_rename hinv)
    simp only at h
    set w := swapBest (rename v)
    by_cases hz : w.fb = 0
    · rw [if_pos (Or.inr hz)] at h
      cases h
      left; rw [h1, hz]
    · have hfc : w.fc ≠ 0 := by
        intro h0
        rw [h0, abs_zero] at h4
        exact hz (abs_eq_zero.1 (le_antisymm h4 (abs_nonneg _)))
      have hopp : (w.fb < 0 ∧ 0 < w.fc) ∨ (0 < w.fb ∧ w.fc < 0) := by
        simp only [sameSign, decide_eq_false_iff_not, not_or, not_and, not_lt, gt_iff_lt] at h3
        rcases lt_or_gt_of_ne hz with hb | hb
        · left; exact ⟨hb, lt_of_le_of_ne (h3.2 hb) (Ne.symm hfc)⟩
        · right; exact ⟨hb, lt_of_le_of_ne (h3.1 hb) hfc⟩
      split at h
      · rename_i hx
        have hx := hx.resolve_right hz
        cases h
        right
        refine ⟨w.c, w.fb, w.fc, h1, h2, hopp, ?_⟩
        have e : w.c - w.b = 2 * xm w := by unfold xm; ring
        rw [e, abs_mul, abs_of_pos (by norm_num : (0 : K) < 2)]
        unfold tol1 at hx
        linarith
      · generalize hr : func (newTrial w tol (newStep w tol).1) st = res at h
        obtain ⟨o, st'⟩ := res
        cases o with
        | error e => cases h
        | ok fb =>
          have hfb : f (newTrial w tol (newStep w tol).1) = .ok fb := by rw [← hf _ st, hr]
          simp only at h
          refine ih _ _ _ ?_ h
          refine ⟨h1, hfb, h2, ?_⟩
          simp only [sameSign, decide_eq_true_eq, decide_eq_false_iff_not]
          intro hs
          rcases hopp with ⟨p1, p2⟩ | ⟨p1, p2⟩ <;> rcases hs with ⟨q1, q2⟩ | ⟨q1, q2⟩
          · rintro (⟨r1, r2⟩ | ⟨r1, r2⟩)
            · exact lt_asymm p1 r1
            · exact lt_asymm q1 r2
          · exact absurd p2 (lt_asymm q2)
          · exact absurd p2 (lt_asymm q2)
          · rintro (⟨r1, r2⟩ | ⟨r1, r2⟩)
            · exact lt_asymm q1 r2
            · exact lt_asymm p1 r1

theorem loop_count {σ : Type} (func : K → σ → Outcome K × σ) (tol : K) :
    ∀ n v st, (loop (counted func) tol n v st).2.1 ≤ st.1 + n := by
  intro n
  induction n with
  | zero => intro v st; exact le_refl _
  | succ n ih =>
    intro v st
    unfold loop
    simp only
    split
    · simp
    · generalize hr : counted func _ st = res
      obtain ⟨o, st'⟩ := res
      have hst : st'.1 = st.1 + 1 := by
        have := congrArg (fun r => r.2.1) hr
        simp only [counted] at this
        exact this.symm
      cases o with
      | error e => simp only; omega
      | ok fb => simp only; exact le_trans (ih _ _) (by omega)

theorem loop_error {σ : Type} (func : K → σ → Outcome K × σ) (tol : K) (e : Fault) :
    ∀ n v st, st.1 = none → (loop (remembered func) tol n v st).2.1 = some e →
      (loop (remembered func) tol n v st).1 = .error e := by
  intro n
  induction n with
  | zero => intro v st h0 h; unfold loop at h; rw [h0] at h; cases h
  | succ n ih =>
    intro v st h0 h
    unfold loop at h ⊢
    simp only at h ⊢
    split at h
    · rw [h0] at h; cases h
    · rename_i hc
      rw [if_neg hc]
      generalize hr : remembered func _ st = res at h
      obtain ⟨o, st'⟩ := res
      have e1 := congrArg (fun r => r.1) hr
      have e2 := congrArg (fun r => r.2.1) hr
      simp only [remembered] at e1 e2
      cases o with
      | error x =>
        rw [e1] at e2
        simp only at h e2 ⊢
        rw [← e2] at h
        exact congrArg _ (Option.some.inj h)
      | ok fb =>
        rw [e1] at e2
        simp only at h e2 ⊢
        exact ih _ _ (by rw [← e2, h0]) h

end QM.Root
