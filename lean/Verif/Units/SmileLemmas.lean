import Verif.Units.RiskLemmas

/-!
# Helper lemmas: making smiles and options in another unit
-/

namespace QM.Units
open QM.Interp QM.Curves QM.Vol QM.Fixings QM.Instruments

variable {c : ℝ}

theorem decompose_strikes (hc : 0 < c) (xy : Nat → ℝ × ℝ) (i : Nat) :
    Interp.decompose (fun i => (c * (xy i).1, (xy i).2)) true i = ((Interp.decompose xy true i).1, (Interp.decompose xy true i).2 / (c * c)) := by
  have hc' := hc.ne'
  induction i with
  | zero => simp [Interp.decompose]
  | succ i ih =>
    simp only [Interp.decompose, ih, ← mul_sub, mul_div_mul_left _ _ hc']
    refine Prod.ext rfl ?_
    simp only
    have e : ∀ a b : ℝ, a / (c * b) = a / b / c := fun a b => by rw [mul_comm c b, div_div]
    simp only [e]
    generalize (xy (i + 2)).1 - (xy (i + 1)).1 = a
    generalize (xy (i + 2)).1 - (xy i).1 = b
    generalize (xy (i + 1)).1 - (xy i).1 = d
    generalize d / b * (Interp.decompose xy true i).1 + 2 = g
    ring

theorem backSub_strikes (hc : 0 < c) (xy : Nat → ℝ × ℝ) (n k : Nat) :
    backSub (fun i => (c * (xy i).1, (xy i).2)) true true n k = backSub xy true true n k / (c * c) := by
  induction k with
  | zero =>
    simp only [backSub, lastSecond, decompose_strikes hc]
    simp
  | succ k ih =>
    simp only [backSub, decompose_strikes hc, ih]
    ring

theorem secondDeriv_strikes (hc : 0 < c) (xy : Nat → ℝ × ℝ) (n i : Nat) :
    secondDeriv (fun i => (c * (xy i).1, (xy i).2)) true true n i = secondDeriv xy true true n i / (c * c) := by
  unfold secondDeriv
  split
  · simp [Interp.decompose]
  · exact backSub_strikes hc xy n _

theorem newCubicSpline_strikes (hc : 0 < c) (ps : List (Num ℝ × ℝ)) (s : Smile) (h : Smile.newCubicSpline ps = .ok s)
    (hv : validateAbscissae (ps.map fun p => (amount c p.1, p.2)) = .ok ()) :
    Smile.newCubicSpline (ps.map fun p => (amount c p.1, p.2)) = .ok (smile c s) := by
  unfold Smile.newCubicSpline CubicSpline.new at h ⊢
  obtain ⟨t, ht, h⟩ := bind_ok h
  obtain ⟨u, hu, ht⟩ := bind_ok ht
  cases h
  rw [hv]
  simp only [ok_to, List.length_map]
  split at ht
  · rename_i hl
    cases ht
    rw [if_pos hl]
    simp only [pure_is, ok_to, smile, Except.ok.injEq, Smile.cubicSpline.injEq, CubicSpline.mk.injEq, List.map_map, true_and, Extrap.isNatural]
    have e : ∀ p : Num ℝ × ℝ, ((amount c p.1).get, p.2) = (c * p.1.get, p.2) := by
      intro p
      obtain ⟨x, y⟩ := p
      cases x <;> simp [Num.get]
    constructor
    · congr 1
      funext p
      exact e p
    · simp only [List.length_map]
      congr 1
      funext i
      simp only [Function.comp_def]
      rw [← secondDeriv_strikes hc]
      congr 1
      funext j
      simp only [List.getD_eq_getElem?_getD, List.getElem?_map]
      cases ps[j]? with
      | none => simp
      | some p => exact e p
  · cases ht

theorem validate_larger (h1 : 1 ≤ c) (ps : List (Num ℝ × ℝ)) (h : validateAbscissae ps = .ok ()) :
    validateAbscissae (ps.map fun p => (amount c p.1, p.2)) = .ok () := by
  have hf : ∀ (ps : List (Num ℝ × ℝ)) (x : Num ℝ), validateFrom x ps = .ok () → validateFrom (amount c x) (ps.map fun p => (amount c p.1, p.2)) = .ok () := by
    intro ps
    induction ps with
    | nil => exact fun _ _ => rfl
    | cons p ps ih =>
      intro x hx
      rw [validateFrom] at hx
      rw [List.map_cons, validateFrom]
      split at hx
      · rename_i ha
        rw [if_pos]
        · exact ih _ hx
        · cases x with
          | nan => cases ha
          | val x =>
            obtain ⟨y, v⟩ := p
            cases y with
            | nan => cases ha
            | val y =>
              simp only [apart, gt_iff_lt, decide_eq_true_eq, amount_val] at ha ⊢
              nlinarith [show (0:ℝ) < 1 / 10 ^ 12 by positivity]
      · cases hx
  cases ps with
  | nil => cases h
  | cons p ps => exact hf ps p.1 h

end QM.Units
