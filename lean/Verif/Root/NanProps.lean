import Verif.Root.NanModel
import Verif.Root.Props

/-!
# Property C19 for functions that may answer NaN
-/

namespace QM.Root
open QM.Interp Spec N

variable {K : Type} [Field K] [LinearOrder K]

namespace Spec

/-- A function that answers with numbers, seen as one that might answer NaN. -/
def asNum {σ : Type} (func : K → σ → Outcome K × σ) : K → σ → Outcome (Num K) × σ :=
  fun x st => ((func x st).1.map Num.val, (func x st).2)

/-- The function answers as `f` does, as long as its state is one that is expected after its last evaluation, and leaves an expected
state. -/
def AnswersAfter {σ : Type} (I : Option K → σ → Prop) (func : K → σ → Outcome (Num K) × σ) (f : K → Outcome (Num K)) : Prop :=
  ∀ x last st, I last st → (func x st).1 = f x ∧ I (some x) (func x st).2

/-- A function without a state, as one that remembers where it was evaluated last. -/
def remembering {R : Type} (f : K → Outcome R) : K → Option K → Outcome R × Option K := fun x _ => (f x, some x)

end Spec

/-- The same variables, one set with NaN allowed. -/
structure Rel (v : Vars K) (w : VarsN K) : Prop where
  a : w.a = v.a
  b : w.b = v.b
  c : w.c = v.c
  fa : w.fa = .val v.fa
  fb : w.fb = .val v.fb
  fc : w.fc = .val v.fc

theorem sameSign_val (x y : K) : sameSignN (.val x) (.val y) = sameSign x y := by
  simp [sameSignN, sameSign, lt, Bool.decide_or, Bool.decide_and]

theorem rel_rename {v : Vars K} {w : VarsN K} (h : Rel v w) (hde : (w.d = .val v.d ∧ w.e = .val v.e) ∨ sameSign v.fb v.fc = true) :
    Rel (rename v) (renameN w) ∧ (renameN w).d = .val (rename v).d ∧ (renameN w).e = .val (rename v).e := by
  unfold rename renameN
  rw [h.fb, h.fc, sameSign_val]
  split
  · exact ⟨⟨h.a, h.b, h.a, h.fa, rfl, h.fa⟩, by simp [h.a, h.b], by simp [h.a, h.b]⟩
  · rename_i hs
    rcases hde with hde | hde
    · exact ⟨h, hde.1, hde.2⟩
    · exact absurd hde hs

theorem rel_swap {v : Vars K} {w : VarsN K} (h : Rel v w) (hd : w.d = .val v.d) (he : w.e = .val v.e) :
    Rel (swapBest v) (swapBestN w) ∧ (swapBestN w).d = .val (swapBest v).d ∧ (swapBestN w).e = .val (swapBest v).e := by
  unfold swapBest swapBestN
  rw [h.fb, h.fc]
  by_cases hs : |v.fc| < |v.fb|
  · rw [if_pos hs, if_pos (by simp [lt, N.abs, hs])]
    exact ⟨⟨h.b, h.c, h.b, rfl, rfl, rfl⟩, hd, he⟩
  · rw [if_neg hs, if_neg (by simp [lt, N.abs]; exact not_lt.1 hs)]
    exact ⟨h, hd, he⟩

theorem rel_xm {v : Vars K} {w : VarsN K} (h : Rel v w) : xmN w = xm v := by unfold xmN xm; rw [h.b, h.c]

theorem rel_tol1 {v : Vars K} {w : VarsN K} (h : Rel v w) (tol : K) : tol1N w tol = tol1 v tol := by unfold tol1N tol1; rw [h.b]

variable [IsStrictOrderedRing K]

theorem div_val {x y : K} (h : y ≠ 0) : N.div (.val x) (.val y) = .val (x / y) := by simp [N.div, h]

theorem rel_step {v : Vars K} {w : VarsN K} (h : Rel v w) (hd : w.d = .val v.d) (he : w.e = .val v.e) (hfc : v.fc ≠ 0) (tol : K) :
    newStepN w tol = (.val (newStep v tol).1, .val (newStep v tol).2) := by
  unfold newStepN newStep
  rw [h.fa, h.fb, he, rel_tol1 h, rel_xm h, hd]
  by_cases hc : |v.e| ≥ tol1 v tol ∧ |v.fa| > |v.fb|
  · rw [if_pos hc, if_pos (by simp [le, lt, N.abs]; exact hc)]
    have hfa : v.fa ≠ 0 := by
      intro h0
      have := hc.2
      rw [h0, abs_zero] at this
      exact absurd this (not_lt.2 (abs_nonneg _))
    have hq : quadraticN w = (.val (quadratic v).1, .val (quadratic v).2) := by
      unfold quadraticN quadratic
      rw [h.fa, h.fb, h.fc, h.a, h.b, h.c, rel_xm h, div_val hfa, div_val hfc, div_val hfc]
      split <;> simp [lift]
    rw [hq]
    dsimp only
    have hsign : (if lt (.val 0) (Num.val (quadratic v).1) = true then neg (.val (quadratic v).2) else .val (quadratic v).2) =
        Num.val (if (quadratic v).1 > 0 then -(quadratic v).2 else (quadratic v).2) := by
      by_cases hp : (quadratic v).1 > 0
      · rw [if_pos hp, if_pos (by simpa [lt] using hp)]
        rfl
      · rw [if_neg hp, if_neg (by simpa [lt] using hp)]
    rw [hsign]
    generalize (if (quadratic v).1 > 0 then -(quadratic v).2 else (quadratic v).2) = q
    simp only [lift, N.abs, N.min, lt, decide_eq_true_eq]
    by_cases hlt : 2 * |(quadratic v).1| < Min.min (3 * xm v * q * |tol1 v tol - q|) |v.e * q|
    · rw [if_pos hlt, if_pos hlt]
      have hq0 : q ≠ 0 := by
        rintro rfl
        simp at hlt
        exact absurd hlt (not_lt.2 (mul_nonneg zero_le_two (abs_nonneg _)))
      rw [div_val hq0]
    · rw [if_neg hlt, if_neg hlt]
  · rw [if_neg hc, if_neg (by simp [le, lt, N.abs]; simpa using hc)]

theorem rel_loop {σ : Type} (func : K → σ → Outcome K × σ) (tol : K) : ∀ (n : Nat) (v : Vars K) (w : VarsN K) (st : σ), Rel v w →
    ((w.d = .val v.d ∧ w.e = .val v.e) ∨ (v.fb = v.fc ∧ v.b = v.c)) →
    (sameSign v.fb v.fc = true → sameSign v.fa v.fb = false) → loopN (asNum func) tol n w st = loop func tol n v st
  | 0, _, _, _, _, _, _ => rfl
  | n + 1, v, w, st, h, hde, hbr => by
    unfold loopN loop
    dsimp only
    by_cases hz : v.fb = 0 ∧ v.fb = v.fc
    · have h1 : rename v = v := by
        unfold rename
        rw [if_neg (by rw [← hz.2, hz.1]; simp [sameSign])]
      have h2 : swapBest v = v := by
        unfold swapBest
        rw [if_neg (by rw [← hz.2]; simp)]
      have h3 : renameN w = w := by
        unfold renameN
        rw [if_neg (by rw [h.fb, h.fc, sameSign_val, ← hz.2, hz.1]; simp [sameSign])]
      have h4 : swapBestN w = w := by
        unfold swapBestN
        rw [if_neg (by rw [h.fb, h.fc, ← hz.2]; simp [lt, N.abs])]
      rw [h1, h2, h3, h4, if_pos (Or.inr (by rw [h.fb, hz.1])), if_pos (Or.inr hz.1), h.b]
    · have hset : (w.d = .val v.d ∧ w.e = .val v.e) ∨ sameSign v.fb v.fc = true := by
        rcases hde with hde | ⟨hde, _⟩
        · exact .inl hde
        · right
          have : v.fb ≠ 0 := fun h0 => hz ⟨h0, hde⟩
          rw [← hde]
          simp only [sameSign, decide_eq_true_eq, gt_iff_lt, and_self]
          exact (lt_or_gt_of_ne this).symm
      obtain ⟨r1, r2, r3⟩ := rel_rename h hset
      obtain ⟨r4, r5, r6⟩ := rel_swap r1 r2 r3
      have hns : sameSign (rename v).fb (rename v).fc = false := by
        unfold rename
        split
        · rename_i hs
          have := hbr hs
          simp only [sameSign, decide_eq_false_iff_not] at this ⊢
          tauto
        · rename_i hs
          simpa using hs
      have hns' : sameSign (swapBest (rename v)).fb (swapBest (rename v)).fc = false ∧ |(swapBest (rename v)).fb| ≤ |(swapBest (rename v)).fc| := by
        unfold swapBest
        split
        · rename_i hs
          refine ⟨?_, hs.le⟩
          simp only [sameSign, decide_eq_false_iff_not] at hns ⊢
          tauto
        · rename_i hs
          exact ⟨hns, not_lt.1 hs⟩
      generalize swapBest (rename v) = v' at *
      generalize swapBestN (renameN w) = w' at *
      rw [rel_xm r4, rel_tol1 r4, r4.fb, r4.b]
      by_cases hret : |xm v'| ≤ tol1 v' tol ∨ v'.fb = 0
      · rw [if_pos hret, if_pos (hret.imp_right (fun h => by rw [h]))]
      · rw [if_neg hret, if_neg (fun h => hret (h.imp_right Num.val.inj))]
        rw [not_or] at hret
        have hfc : v'.fc ≠ 0 := by
          intro h0
          have := hns'.2
          rw [h0, abs_zero] at this
          exact hret.2 (abs_eq_zero.1 (le_antisymm this (abs_nonneg _)))
        rw [rel_step r4 r5 r6 hfc]
        have ht : newTrialN w' tol (.val (newStep v' tol).1) = newTrial v' tol (newStep v' tol).1 := by
          unfold newTrialN newTrial
          rw [rel_xm r4, rel_tol1 r4, r4.b]
        rw [ht]
        unfold asNum
        generalize func (newTrial v' tol (newStep v' tol).1) st = r
        obtain ⟨r, st'⟩ := r
        cases r with
        | error e => rfl
        | ok fb =>
          refine rel_loop func tol n _ _ st' ⟨rfl, rfl, r4.c, rfl, rfl, r4.fc⟩ (.inl ⟨rfl, rfl⟩) ?_
          dsimp only
          intro hs
          have hopp := hns'.1
          simp only [sameSign, decide_eq_true_eq, decide_eq_false_iff_not, gt_iff_lt, not_or, not_and, not_lt] at hs hopp ⊢
          rcases lt_or_gt_of_ne hret.2 with hb | hb
          · have hc := lt_of_le_of_ne (hopp.2 hb) (Ne.symm hfc)
            rcases hs with ⟨p, q⟩ | ⟨p, q⟩
            · exact ⟨fun h => absurd h (lt_asymm hb), fun _ => p.le⟩
            · exact absurd hc (lt_asymm q)
          · have hc := lt_of_le_of_ne (hopp.1 hb) hfc
            rcases hs with ⟨p, q⟩ | ⟨p, q⟩
            · exact absurd hc (lt_asymm q)
            · exact ⟨fun _ => p.le, fun h => absurd h (lt_asymm hb)⟩

/-- C19: on a function that answers with numbers, the search that allows for NaN is the search without. In particular the first
values of `d` and `e`, NaN, do not matter. -/
theorem C19_numbers {σ : Type} (func : K → σ → Outcome K × σ) (x1 x2 tol : K) (maxIter : Nat) (st : σ) :
    zbrentN x1 x2 tol maxIter (asNum func) st = zbrent x1 x2 tol maxIter func st := by
  unfold zbrentN zbrent
  rw [show asNum func x1 st = ((func x1 st).1.map Num.val, (func x1 st).2) from rfl]
  generalize func x1 st = r
  obtain ⟨r, st1⟩ := r
  cases r with
  | error e => rfl
  | ok fa =>
    dsimp only [Except.map]
    rw [show asNum func x2 st1 = ((func x2 st1).1.map Num.val, (func x2 st1).2) from rfl]
    generalize func x2 st1 = r
    obtain ⟨r, st2⟩ := r
    cases r with
    | error e => rfl
    | ok fb =>
      show (if sameSignN (.val fa) (.val fb) then _ else _) = _
      rw [sameSign_val]
      dsimp only
      split
      · rfl
      · rename_i hs
        exact rel_loop func tol maxIter _ _ st2 ⟨rfl, rfl, rfl, rfl, rfl, rfl⟩ (.inr ⟨rfl, rfl⟩) (fun _ => by simpa using hs)

/-! ## The state that is left behind -/

omit [IsStrictOrderedRing K] in
theorem after_loop {σ : Type} {I : Option K → σ → Prop} {func : K → σ → Outcome (Num K) × σ} {f : K → Outcome (Num K)}
    (hf : AnswersAfter I func f) (tol : K) : ∀ (n : Nat) (v : VarsN K) (st : σ) (last : Option K), I last st →
      (loopN func tol n v st).1 = (loopN (remembering f) tol n v last).1 ∧ I (loopN (remembering f) tol n v last).2 (loopN func tol n v st).2
  | 0, _, _, _, h => ⟨rfl, h⟩
  | n + 1, v, st, last, h => by
    unfold loopN
    dsimp only
    split
    · exact ⟨rfl, h⟩
    · generalize newTrialN (swapBestN (renameN v)) tol (newStepN (swapBestN (renameN v)) tol).1 = b
      obtain ⟨h1, h2⟩ := hf b last st h
      rw [show remembering f b last = (f b, some b) from rfl]
      generalize hr : func b st = r at h1 h2
      obtain ⟨r, st'⟩ := r
      dsimp only at h1 h2
      rw [← h1]
      cases r with
      | error e => exact ⟨rfl, h2⟩
      | ok fb => exact after_loop hf tol n _ st' (some b) h2

omit [IsStrictOrderedRing K] in
/-- A search on a function with a state finds what a search on the function without the state finds, and leaves the state that belongs to the last
evaluation. -/
theorem after_zbrent {σ : Type} {I : Option K → σ → Prop} {func : K → σ → Outcome (Num K) × σ} {f : K → Outcome (Num K)}
    (hf : AnswersAfter I func f) (x1 x2 tol : K) (n : Nat) (st : σ) (h : I none st) :
    (zbrentN x1 x2 tol n func st).1 = (zbrentN x1 x2 tol n (remembering f) none).1 ∧
      I (zbrentN x1 x2 tol n (remembering f) none).2 (zbrentN x1 x2 tol n func st).2 := by
  unfold zbrentN
  obtain ⟨h1, h2⟩ := hf x1 none st h
  rw [show remembering f x1 none = (f x1, some x1) from rfl]
  generalize func x1 st = r at h1 h2
  obtain ⟨r, st1⟩ := r
  dsimp only at h1 h2
  rw [← h1]
  cases r with
  | error e => exact ⟨rfl, h2⟩
  | ok fa =>
    dsimp only
    obtain ⟨h3, h4⟩ := hf x2 _ st1 h2
    rw [show remembering f x2 (some x1) = (f x2, some x2) from rfl]
    generalize func x2 st1 = r at h3 h4
    obtain ⟨r, st2⟩ := r
    dsimp only at h3 h4
    rw [← h3]
    cases r with
    | error e => exact ⟨rfl, h4⟩
    | ok fb =>
      dsimp only
      split
      · exact ⟨rfl, h4⟩
      · exact after_loop hf tol n _ st2 _ h4

theorem last_loop {f : K → Outcome K} (tol : K) : ∀ (n : Nat) (v : Vars K) (x : K) (last : Option K), Inv f v →
    loop (remembering f) tol n v (some v.b) = (.ok x, last) →
      ∃ l, last = some l ∧ (l = x ∨ |l - x| ≤ tol + 4 * epsilon * |x| ∨ f x = .ok 0)
  | 0, _, _, _, _, h => by cases h
  | n + 1, v, x, last, hinv, h => by
    unfold loop at h
    obtain ⟨h1, h2, h3, h4⟩ := inv_swap (inv_rename hinv)
    have hlast : v.b = (swapBest (rename v)).b ∨ v.b = (swapBest (rename v)).c := by
      have hb : (rename v).b = v.b := by unfold rename; split <;> rfl
      rw [← hb]
      unfold swapBest
      split
      · exact .inr rfl
      · exact .inl rfl
    dsimp only at h
    by_cases hz : (swapBest (rename v)).fb = 0
    · rw [if_pos (Or.inr hz)] at h
      cases h
      exact ⟨_, rfl, .inr (.inr (by rw [h1, hz]))⟩
    · by_cases hx : |xm (swapBest (rename v))| ≤ tol1 (swapBest (rename v)) tol
      · rw [if_pos (Or.inl hx)] at h
        cases h
        refine ⟨_, rfl, ?_⟩
        rcases hlast with hl | hl
        · exact .inl hl
        · refine .inr (.inl ?_)
          rw [hl]
          generalize swapBest (rename v) = w at *
          have e : w.c - w.b = 2 * xm w := by unfold xm; ring
          rw [e, abs_mul, abs_of_pos (by norm_num : (0 : K) < 2)]
          unfold tol1 at hx
          linarith
      · rw [if_neg (not_or.2 ⟨hx, hz⟩)] at h
        set w := swapBest (rename v)
        rw [show remembering f (newTrial w tol (newStep w tol).1) (some v.b) =
          (f (newTrial w tol (newStep w tol).1), some (newTrial w tol (newStep w tol).1)) from rfl] at h
        cases hfb : f (newTrial w tol (newStep w tol).1) with
        | error e => rw [hfb] at h; cases h
        | ok fb =>
          rw [hfb] at h
          dsimp only at h
          have hfc : w.fc ≠ 0 := by
            intro h0
            rw [h0, abs_zero] at h4
            exact hz (abs_eq_zero.1 (le_antisymm h4 (abs_nonneg _)))
          have hopp : (w.fb < 0 ∧ 0 < w.fc) ∨ (0 < w.fb ∧ w.fc < 0) := by
            simp only [sameSign, decide_eq_false_iff_not, not_or, not_and, not_lt, gt_iff_lt] at h3
            rcases lt_or_gt_of_ne hz with hb | hb
            · left; exact ⟨hb, lt_of_le_of_ne (h3.2 hb) (Ne.symm hfc)⟩
            · right; exact ⟨hb, lt_of_le_of_ne (h3.1 hb) hfc⟩
          refine last_loop tol n { w with a := w.b, fa := w.fb, d := (newStep w tol).1, e := (newStep w tol).2, b := newTrial w tol (newStep w tol).1, fb := fb }
            x last ⟨h1, hfb, h2, ?_⟩ h
          simp only [sameSign, decide_eq_true_eq, decide_eq_false_iff_not]
          intro hs
          rcases hopp with ⟨p1, p2⟩ | ⟨p1, p2⟩ <;> rcases hs with ⟨q1, q2⟩ | ⟨q1, q2⟩
          · rintro (⟨r1, r2⟩ | ⟨r1, r2⟩)
            · exact lt_asymm p1 r1
            · exact lt_asymm q1 r2
          · exact absurd p2 (lt_asymm q2)
          · exact absurd p2 (lt_asymm q2)
          · rintro (⟨r1, r2⟩ | ⟨r1, r2⟩)
            · exact lt_asymm q1 r2
            · exact lt_asymm p1 r1

/-- C19: the last point evaluated before success is the result, or within the tolerance of it, unless the result is an exact zero. -/
theorem C19_last {f : K → Outcome K} {x1 x2 tol x : K} {n : Nat} {last : Option K}
    (h : zbrent x1 x2 tol n (remembering f) none = (.ok x, last)) :
    ∃ l, last = some l ∧ (l = x ∨ |l - x| ≤ tol + 4 * (1 / 2 ^ 52) * |x| ∨ f x = .ok 0) := by
  unfold zbrent at h
  rw [show remembering f x1 none = (f x1, some x1) from rfl] at h
  cases h1 : f x1 with
  | error e => rw [h1] at h; cases h
  | ok fa =>
    rw [h1] at h
    dsimp only at h
    rw [show remembering f x2 (some x1) = (f x2, some x2) from rfl] at h
    cases h2 : f x2 with
    | error e => rw [h2] at h; cases h
    | ok fb =>
      rw [h2] at h
      dsimp only at h
      split at h
      · cases h
      · rename_i hs
        exact last_loop tol n ⟨x1, x2, x2, 0, 0, fa, fb, fb⟩ x last ⟨h1, h2, h2, fun _ => by simpa using hs⟩ h

/-- C19: the exception is real. Where the function is zero at the lower end only, the last point evaluated is the upper end. -/
example : zbrent (0 : ℚ) 1 (1 / 1000) 10 (remembering fun x => .ok x) none = (.ok 0, some 1) := by decide +kernel

/-- A function without a number at 0, whose only change of sign is at 19/10. -/
def holed (x : ℚ) : Num ℚ := if x = 0 then .nan else .val (x - 19 / 10)

/-- C19 violated: where the function answers NaN at the lower end, the search makes for that end and returns a point that is nowhere near the
change of sign, here less than a thousandth instead of 19/10. -/
theorem C19_nan_false :
    ∃ x, (zbrentN (0 : ℚ) 2 (1 / 1000) 50 (fun x (st : Unit) => (.ok (holed x), st)) ()).1 = .ok x ∧ x < 1 / 1000 := by
  refine ⟨((zbrentN (0 : ℚ) 2 (1 / 1000) 50 (fun x (st : Unit) => (.ok (holed x), st)) ()).1).toOption.getD 0, ?_, ?_⟩ <;>
    decide +kernel

/-! ## What is found -/

/-- What the variables remember of the function. -/
structure InvN (f : K → Outcome (Num K)) (v : VarsN K) : Prop where
  a : f v.a = .ok v.fa
  b : f v.b = .ok v.fb
  c : f v.c = .ok v.fc
  sign : sameSignN v.fb v.fc = true → sameSignN v.fb v.fa = false

omit [IsStrictOrderedRing K] in
theorem sameSignN_comm (x y : Num K) : sameSignN x y = sameSignN y x := by
  unfold sameSignN
  rw [Bool.and_comm (lt (.val 0) x), Bool.and_comm (lt x (.val 0))]

omit [IsStrictOrderedRing K] in
theorem sameSignN_third {x y z : Num K} (h : sameSignN x y = true) (h' : sameSignN y z = false) : sameSignN x z = false := by
  cases x with
  | nan => simp [sameSignN, N.lt] at h
  | val x =>
    cases y with
    | nan => simp [sameSignN, N.lt] at h
    | val y =>
      cases z with
      | nan => simp [sameSignN, N.lt]
      | val z =>
        simp [sameSignN, N.lt] at h h' ⊢
        rcases h with ⟨h1, h2⟩ | ⟨h1, h2⟩
        · exact ⟨fun _ => h'.1 h2, fun h3 => absurd h1 (not_lt.2 h3.le)⟩
        · exact ⟨fun h3 => absurd h1 (not_lt.2 h3.le), fun _ => h'.2 h2⟩

omit [IsStrictOrderedRing K] in
theorem rename_bracket {f : K → Outcome (Num K)} {v : VarsN K} (h : InvN f v) :
    f (renameN v).a = .ok (renameN v).fa ∧ f (renameN v).b = .ok (renameN v).fb ∧ f (renameN v).c = .ok (renameN v).fc ∧
      sameSignN (renameN v).fb (renameN v).fc = false := by
  unfold renameN
  split
  · rename_i hs
    exact ⟨h.a, h.b, h.a, h.sign hs⟩
  · rename_i hs
    exact ⟨h.a, h.b, h.c, by simpa using hs⟩

omit [IsStrictOrderedRing K] in
theorem swap_bracket {f : K → Outcome (Num K)} {v : VarsN K} (ha : f v.a = .ok v.fa) (hb : f v.b = .ok v.fb) (hc : f v.c = .ok v.fc)
    (hs : sameSignN v.fb v.fc = false) : f (swapBestN v).a = .ok (swapBestN v).fa ∧ f (swapBestN v).b = .ok (swapBestN v).fb ∧
      f (swapBestN v).c = .ok (swapBestN v).fc ∧ sameSignN (swapBestN v).fb (swapBestN v).fc = false ∧
      lt (N.abs (swapBestN v).fc) (N.abs (swapBestN v).fb) = false := by
  unfold swapBestN
  split
  · rename_i h
    refine ⟨hb, hc, hb, by rw [sameSignN_comm]; exact hs, ?_⟩
    dsimp only
    match hfb : v.fb, hfc : v.fc with
    | .nan, _ => rfl
    | .val x, .nan => rfl
    | .val x, .val y =>
      rw [hfb, hfc] at h
      simp only [N.abs, N.lt, decide_eq_true_eq, decide_eq_false_iff_not, not_lt] at h ⊢
      exact h.le
  · rename_i h
    exact ⟨ha, hb, hc, hs, by simpa using h⟩

theorem found_loop {f : K → Outcome (Num K)} (tol : K) : ∀ (n : Nat) (v : VarsN K) (x : K), InvN f v →
    (loopN (fun x (st : Unit) => (f x, st)) tol n v ()).1 = .ok x →
    f x = .ok (.val 0) ∨ ∃ y fx fy, f x = .ok fx ∧ f y = .ok fy ∧ |y - x| ≤ tol + 4 * epsilon * |x| ∧
      (fx = .nan ∨ fy = .nan ∨ ∃ p q, fx = .val p ∧ fy = .val q ∧ ((p < 0 ∧ 0 < q) ∨ (0 < p ∧ q < 0)))
  | 0, v, x, _, h => by unfold loopN at h; cases h
  | n + 1, v, x, hv, h => by
    unfold loopN at h
    obtain ⟨r1, r2, r3, r4⟩ := rename_bracket hv
    obtain ⟨s1, s2, s3, s4, s5⟩ := swap_bracket r1 r2 r3 r4
    generalize swapBestN (renameN v) = w at s1 s2 s3 s4 s5 h
    dsimp only at h
    split at h
    · rename_i hd
      have hx := Except.ok.inj h
      rw [← hx]
      by_cases h0 : w.fb = .val 0
      · left; rw [s2, h0]
      · right
        have hd : |xmN w| ≤ tol1N w tol := hd.resolve_right h0
        refine ⟨w.c, w.fb, w.fc, s2, s3, ?_, ?_⟩
        · unfold xmN tol1N at hd
          rw [abs_mul, abs_of_pos (by norm_num : (0 : K) < 1 / 2)] at hd
          linarith
        · match hb : w.fb, hc : w.fc with
          | .nan, _ => exact .inl rfl
          | .val p, .nan => exact .inr (.inl rfl)
          | .val p, .val q =>
            refine .inr (.inr ⟨p, q, rfl, rfl, ?_⟩)
            rw [hb, hc] at s4 s5
            rw [hb] at h0
            have hp : p ≠ 0 := fun e => h0 (by rw [e])
            have hpq : |p| ≤ |q| := by simpa [N.abs, N.lt] using s5
            have hq : q ≠ 0 := by
              intro e
              rw [e, abs_zero] at hpq
              exact hp (abs_eq_zero.1 (le_antisymm hpq (abs_nonneg _)))
            simp only [sameSignN, N.lt, Bool.or_eq_false_iff, Bool.and_eq_false_iff, decide_eq_false_iff_not, not_lt] at s4
            rcases lt_or_gt_of_ne hp with h1 | h1
            · left
              exact ⟨h1, lt_of_le_of_ne (s4.2.resolve_left (not_le.2 h1)) (Ne.symm hq)⟩
            · right
              exact ⟨h1, lt_of_le_of_ne (s4.1.resolve_left (not_le.2 h1)) hq⟩
    · generalize newTrialN w tol (newStepN w tol).1 = b at h
      cases hfb : f b with
      | error e => rw [hfb] at h; cases h
      | ok fb =>
        rw [hfb] at h
        dsimp only at h
        refine found_loop tol n ⟨w.b, b, w.c, (newStepN w tol).1, (newStepN w tol).2, w.fb, fb, w.fc⟩ x ⟨s2, hfb, s3, ?_⟩ h
        intro hs
        exact sameSignN_third hs (by rw [sameSignN_comm]; exact s4)

/-- C19. Whatever the function answers, a result is a root, or lies within the tolerance of a point where the function has the
other sign, or one of the two is a point where it answers NaN. -/
theorem C19_nan_partial {f : K → Outcome (Num K)} {x1 x2 tol x : K} {maxIter : Nat}
    (h : (zbrentN x1 x2 tol maxIter (fun x (st : Unit) => (f x, st)) ()).1 = .ok x) :
    f x = .ok (.val 0) ∨ ∃ y fx fy, f x = .ok fx ∧ f y = .ok fy ∧ |y - x| ≤ tol + 4 * (1 / 2 ^ 52) * |x| ∧
      (fx = .nan ∨ fy = .nan ∨ ∃ p q, fx = .val p ∧ fy = .val q ∧ ((p < 0 ∧ 0 < q) ∨ (0 < p ∧ q < 0))) := by
  unfold zbrentN at h
  dsimp only at h
  cases h1 : f x1 with
  | error e => rw [h1] at h; cases h
  | ok fa =>
    rw [h1] at h
    dsimp only at h
    cases h2 : f x2 with
    | error e => rw [h2] at h; cases h
    | ok fb =>
      rw [h2] at h
      dsimp only at h
      split at h
      · cases h
      · rename_i hs
        exact found_loop tol maxIter _ x ⟨h1, h2, h2, fun _ => by rw [sameSignN_comm]; simpa using hs⟩ h

/-- C19: the search on the function above meets the hypothesis, and its result is near a NaN. -/
example : (zbrentN (0 : ℚ) 2 (1 / 1000) 50 (fun x (st : Unit) => (.ok (holed x), st)) ()).1.toOption.isSome := by decide +kernel

end QM.Root
