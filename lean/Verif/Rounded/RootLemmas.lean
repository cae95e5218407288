import Verif.Rounded.RootModel
import Verif.Rounded.Lemmas
import Verif.Root.Sufficient

/-!
# Helper lemmas for the root finder in rounded arithmetic
-/

namespace QM.Rounded
open QM.Root (Vars sameSign swapBest signum epsilon Inv inv_swap epsilon_pos step_within step_length)
open QM.Root.Spec

variable {K : Type} [Field K] [LinearOrder K]

theorem inv_rename (r : Rounding K) {f : K → Outcome K} {v : Vars K} (h : Inv f v) :
    f (rename r v).a = .ok (rename r v).fa ∧ f (rename r v).b = .ok (rename r v).fb ∧ f (rename r v).c = .ok (rename r v).fc ∧
    sameSign (rename r v).fb (rename r v).fc = false := by
  unfold rename
  split
  · rename_i hs
    refine ⟨h.ha, h.hb, h.ha, ?_⟩
    have := h.bracket hs
    simp only [sameSign, decide_eq_false_iff_not] at this ⊢
    tauto
  · rename_i hs
    exact ⟨h.ha, h.hb, h.hc, by simpa using hs⟩

/-- The loop's result, when it has one, is a root or an end of a bracket that is small enough to stop. -/
theorem loop_bracket (r : Rounding K) [IsStrictOrderedRing K] {σ : Type} {func : K → σ → Outcome K × σ} {f : K → Outcome K}
    (hf : Answers func f) (tol : K) :
    ∀ n v st x, Inv f v → (searchLoop r func tol n v st).1 = .ok x →
      f x = .ok 0 ∨ ∃ w : Vars K, w.b = x ∧ f w.b = .ok w.fb ∧ f w.c = .ok w.fc ∧ ((w.fb < 0 ∧ 0 < w.fc) ∨ (0 < w.fb ∧ w.fc < 0)) ∧
        |xm r w| ≤ tol1 r w tol := by
  intro n
  induction n with
  | zero => intro v st x _ h; cases h
  | succ n ih =>
    intro v st x hinv h
    unfold searchLoop at h
    obtain ⟨h1, h2, h3, h4⟩ := inv_swap (inv_rename r hinv)
    simp only at h
    set w := swapBest (rename r v)
    by_cases hz : w.fb = 0
    · rw [if_pos (Or.inr hz)] at h
      cases h
      left; rw [h1, hz]
    · have hfc : w.fc ≠ 0 := by
        intro h0
        rw [h0, abs_zero] at h4
        exact hz (abs_eq_zero.1 (le_antisymm h4 (abs_nonneg _)))
      have hopp : (w.fb < 0 ∧ 0 < w.fc) ∨ (0 < w.fb ∧ w.fc < 0) := by
        simp only [sameSign, decide_eq_false_iff_not, not_or, not_and, not_lt, gt_iff_lt] at h3
        rcases lt_or_gt_of_ne hz with hb | hb
        · left; exact ⟨hb, lt_of_le_of_ne (h3.2 hb) (Ne.symm hfc)⟩
        · right; exact ⟨hb, lt_of_le_of_ne (h3.1 hb) hfc⟩
      split at h
      · rename_i hx
        have hx := hx.resolve_right hz
        right
        exact ⟨w, Except.ok.inj h, h1, h2, hopp, hx⟩
      · generalize hr : func (newTrial r w tol (newStep r w tol).1) st = res at h
        obtain ⟨o, st'⟩ := res
        cases o with
        | error e => cases h
        | ok fb =>
          have hfb : f (newTrial r w tol (newStep r w tol).1) = .ok fb := by rw [← hf _ st, hr]
          simp only at h
          refine ih _ _ _ ?_ h
          refine ⟨h1, hfb, h2, ?_⟩
          simp only [sameSign, decide_eq_true_eq, decide_eq_false_iff_not]
          intro hs
          rcases hopp with ⟨p1, p2⟩ | ⟨p1, p2⟩ <;> rcases hs with ⟨q1, q2⟩ | ⟨q1, q2⟩
          · rintro (⟨r1, r2⟩ | ⟨r1, r2⟩)
            · exact lt_asymm p1 r1
            · exact lt_asymm q1 r2
          · exact absurd p2 (lt_asymm q2)
          · exact absurd p2 (lt_asymm q2)
          · rintro (⟨r1, r2⟩ | ⟨r1, r2⟩)
            · exact lt_asymm q1 r2
            · exact lt_asymm p1 r1

theorem loop_count (r : Rounding K) {σ : Type} (func : K → σ → Outcome K × σ) (tol : K) :
    ∀ n v st, (searchLoop r (counted func) tol n v st).2.1 ≤ st.1 + n := by
  intro n
  induction n with
  | zero => intro v st; exact le_refl _
  | succ n ih =>
    intro v st
    unfold searchLoop
    simp only
    split
    · simp
    · generalize hr : counted func _ st = res
      obtain ⟨o, st'⟩ := res
      have hst : st'.1 = st.1 + 1 := by
        have := congrArg (fun r => r.2.1) hr
        simp only [counted] at this
        exact this.symm
      cases o with
      | error e => simp only; omega
      | ok fb => simp only; exact le_trans (ih _ _) (by omega)

theorem loop_error (r : Rounding K) {σ : Type} (func : K → σ → Outcome K × σ) (tol : K) (e : Fault) :
    ∀ n v st, st.1 = none → (searchLoop r (remembered func) tol n v st).2.1 = some e →
      (searchLoop r (remembered func) tol n v st).1 = .error e := by
  intro n
  induction n with
  | zero => intro v st h0 h; unfold searchLoop at h; rw [h0] at h; cases h
  | succ n ih =>
    intro v st h0 h
    unfold searchLoop at h ⊢
    simp only at h ⊢
    split at h
    · rw [h0] at h; cases h
    · rename_i hc
      rw [if_neg hc]
      generalize hr : remembered func _ st = res at h
      obtain ⟨o, st'⟩ := res
      have e1 := congrArg (fun r => r.1) hr
      have e2 := congrArg (fun r => r.2.1) hr
      simp only [remembered] at e1 e2
      cases o with
      | error x =>
        rw [e1] at e2
        simp only at h e2 ⊢
        rw [← e2] at h
        exact congrArg _ (Option.some.inj h)
      | ok fb =>
        rw [e1] at e2
        simp only at h e2 ⊢
        exact ih _ _ (by rw [← e2, h0]) h

section exact
variable {r : Rounding K} (hr : ∀ x, r.rnd x = x)
include hr

theorem rename_exact (v : Vars K) : rename r v = Root.rename v := by
  unfold rename Root.rename
  simp only [hr]

theorem tol1_exact (v : Vars K) (tol : K) : tol1 r v tol = Root.tol1 v tol := by
  unfold tol1 Root.tol1
  simp only [hr]

theorem xm_exact (v : Vars K) : xm r v = Root.xm v := by
  unfold xm Root.xm
  simp only [hr]

theorem newStep_exact (v : Vars K) (tol : K) : newStep r v tol = Root.newStep v tol := by
  unfold newStep Root.newStep quadratic Root.quadratic
  simp only [hr, tol1_exact hr, xm_exact hr]

theorem newTrial_exact (v : Vars K) (tol d : K) : newTrial r v tol d = Root.newTrial v tol d := by
  unfold newTrial Root.newTrial
  simp only [hr, tol1_exact hr, xm_exact hr]

theorem loop_exact {σ : Type} (func : K → σ → Outcome K × σ) (tol : K) : ∀ n v st, searchLoop r func tol n v st = Root.loop func tol n v st := by
  intro n
  induction n with
  | zero => intro v st; rfl
  | succ n ih =>
    intro v st
    unfold searchLoop Root.loop
    simp only [rename_exact hr, tol1_exact hr, xm_exact hr, newStep_exact hr, newTrial_exact hr, ih]
    rfl

end exact

variable [IsStrictOrderedRing K]

theorem abs_rnd_le (r : Rounding K) (x : K) : |r.rnd x| ≤ (1 + r.unit) * |x| := by
  have h := r.close x
  have := abs_sub_abs_le_abs_sub (r.rnd x) x
  linarith

theorem le_abs_rnd (r : Rounding K) (x : K) : (1 - r.unit) * |x| ≤ |r.rnd x| := by
  have h := r.close x
  have := abs_sub_abs_le_abs_sub x (r.rnd x)
  rw [abs_sub_comm] at this
  linarith

theorem rnd_le_of_nonneg (r : Rounding K) {x : K} (hx : 0 ≤ x) : r.rnd x ≤ (1 + r.unit) * x := by
  have h := abs_rnd_le r x
  rw [abs_of_nonneg hx] at h
  exact (le_abs_self _).trans h

theorem le_rnd_of_nonneg (r : Rounding K) {x : K} (hx : 0 ≤ x) : (1 - r.unit) * x ≤ r.rnd x := by
  have h := le_abs_rnd r x
  rwa [abs_of_nonneg hx, abs_of_nonneg (r.nonneg hx)] at h

/-- The tolerance worked out is at most three relative errors above the exact one. -/
theorem tol1_le (r : Rounding K) (v : Vars K) {tol : K} (ht : 0 ≤ tol) :
    tol1 r v tol ≤ (1 + r.unit) ^ 3 * (2 * epsilon * |v.b| + 1 / 2 * tol) := by
  have hu := r.unit_nonneg
  have he := epsilon_pos (K := K)
  have hb := abs_nonneg v.b
  have a1 := rnd_le_of_nonneg r (x := 2 * epsilon) (by linarith)
  have a0 := r.nonneg (x := 2 * epsilon) (by linarith)
  have a2 := rnd_le_of_nonneg r (x := r.rnd (2 * epsilon) * |v.b|) (mul_nonneg a0 hb)
  have a3 := rnd_le_of_nonneg r (x := 1 / 2 * tol) (by linarith)
  have a4 := r.nonneg (x := r.rnd (2 * epsilon) * |v.b|) (mul_nonneg a0 hb)
  have a5 := r.nonneg (x := 1 / 2 * tol) (by linarith)
  have a6 := rnd_le_of_nonneg r (add_nonneg a4 a5)
  have b1 : r.rnd (r.rnd (2 * epsilon) * |v.b|) ≤ (1 + r.unit) * ((1 + r.unit) * (2 * epsilon) * |v.b|) := by
    refine a2.trans ?_
    gcongr
  have b2 : r.rnd (1 / 2 * tol) ≤ (1 + r.unit) * ((1 + r.unit) * (1 / 2 * tol)) := by
    refine a3.trans (mul_le_mul_of_nonneg_left ?_ (by linarith))
    have : 0 ≤ r.unit * (1 / 2 * tol) := mul_nonneg hu (by linarith)
    linarith
  unfold tol1
  calc _ ≤ _ := a6
    _ ≤ (1 + r.unit) * ((1 + r.unit) * ((1 + r.unit) * (2 * epsilon) * |v.b|) + (1 + r.unit) * ((1 + r.unit) * (1 / 2 * tol))) := by
      gcongr
    _ = _ := by ring

theorem le_tol1 (r : Rounding K) (v : Vars K) {tol : K} (ht : 0 ≤ tol) :
    (1 - r.unit) ^ 3 * (2 * epsilon * |v.b| + 1 / 2 * tol) ≤ tol1 r v tol := by
  have hu := r.unit_nonneg
  have hs := r.small
  have he := epsilon_pos (K := K)
  have hb := abs_nonneg v.b
  have a1 := le_rnd_of_nonneg r (x := 2 * epsilon) (by linarith)
  have a0 := r.nonneg (x := 2 * epsilon) (by linarith)
  have a2 := le_rnd_of_nonneg r (x := r.rnd (2 * epsilon) * |v.b|) (mul_nonneg a0 hb)
  have a3 := le_rnd_of_nonneg r (x := 1 / 2 * tol) (by linarith)
  have a4 := r.nonneg (x := r.rnd (2 * epsilon) * |v.b|) (mul_nonneg a0 hb)
  have a5 := r.nonneg (x := 1 / 2 * tol) (by linarith)
  have a6 := le_rnd_of_nonneg r (add_nonneg a4 a5)
  have h1 : 0 ≤ 1 - r.unit := by linarith
  have b1 : (1 - r.unit) * ((1 - r.unit) * (2 * epsilon) * |v.b|) ≤ r.rnd (r.rnd (2 * epsilon) * |v.b|) := by
    refine le_trans ?_ a2
    gcongr
  have b2 : (1 - r.unit) * ((1 - r.unit) * (1 / 2 * tol)) ≤ r.rnd (1 / 2 * tol) := by
    refine le_trans (mul_le_mul_of_nonneg_left ?_ h1) a3
    have : 0 ≤ r.unit * (1 / 2 * tol) := mul_nonneg hu (by linarith)
    linarith
  unfold tol1
  calc _ = (1 - r.unit) * ((1 - r.unit) * ((1 - r.unit) * (2 * epsilon) * |v.b|) + (1 - r.unit) * ((1 - r.unit) * (1 / 2 * tol))) := by ring
    _ ≤ _ := mul_le_mul_of_nonneg_left (add_le_add b1 b2) h1
    _ ≤ _ := a6

/-- Half the bracket, worked out, is at least this much. -/
theorem le_xm (r : Rounding K) (v : Vars K) : (1 - r.unit) ^ 2 * (1 / 2 * |v.c - v.b|) ≤ |xm r v| := by
  have h1 : 0 ≤ 1 - r.unit := by linarith [r.small]
  have a := le_abs_rnd r (v.c - v.b)
  have b := le_abs_rnd r (1 / 2 * r.rnd (v.c - v.b))
  rw [abs_mul, abs_of_pos (by norm_num : (0 : K) < 1 / 2)] at b
  unfold xm
  calc _ = (1 - r.unit) * (1 / 2 * ((1 - r.unit) * |v.c - v.b|)) := by ring
    _ ≤ (1 - r.unit) * (1 / 2 * |r.rnd (v.c - v.b)|) := by gcongr
    _ ≤ _ := b

theorem xm_le (r : Rounding K) (v : Vars K) : |xm r v| ≤ (1 + r.unit) ^ 2 * (1 / 2 * |v.c - v.b|) := by
  have h1 : 0 ≤ 1 + r.unit := by linarith [r.unit_nonneg]
  have a := abs_rnd_le r (v.c - v.b)
  have b := abs_rnd_le r (1 / 2 * r.rnd (v.c - v.b))
  rw [abs_mul, abs_of_pos (by norm_num : (0 : K) < 1 / 2)] at b
  unfold xm
  calc _ ≤ _ := b
    _ ≤ (1 + r.unit) * (1 / 2 * ((1 + r.unit) * |v.c - v.b|)) := by gcongr
    _ = _ := by ring

end QM.Rounded
