import Verif.Instruments.Spec
import Verif.Vol.Lemmas

/-!
# Lemmas about instruments
-/

namespace QM.Instruments
open QM.Interp QM.Vol QM.Fixings Spec
open QM.Curves (RateCurve)

/-! ## Numbers and NaN -/

theorem num2_add_assoc (a b c : Num ℝ) : num2 (· + ·) (num2 (· + ·) a b) c = num2 (· + ·) a (num2 (· + ·) b c) := by
  cases a <;> cases b <;> cases c <;> simp [num2, add_assoc]

theorem num2_add_zero (a : Num ℝ) : num2 (· + ·) a (.val 0) = a := by
  cases a <;> simp [num2]

theorem weightedSum_cons (w : ℝ) (v : Num ℝ) (rest : List (ℝ × Num ℝ)) :
    weightedSum ((w, v) :: rest) = num2 (· + ·) (num2 (· * ·) v (.val w)) (weightedSum rest) := by
  cases v with
  | nan => simp [weightedSum, num2]
  | val x =>
    rw [weightedSum]
    cases weightedSum rest <;> simp [num1, num2, mul_comm]

theorem weightedSum_append (xs ys : List (ℝ × Num ℝ)) :
    weightedSum (xs ++ ys) = num2 (· + ·) (weightedSum xs) (weightedSum ys) := by
  induction xs with
  | nil => cases h : weightedSum ys <;> simp [weightedSum, num2, h]
  | cons x xs ih => rw [List.cons_append, weightedSum_cons, weightedSum_cons, ih, num2_add_assoc]

theorem weightedSum_scale (w : ℝ) (xs : List (ℝ × Num ℝ)) :
    weightedSum (xs.map (fun p => (w * p.1, p.2))) = num2 (· * ·) (weightedSum xs) (.val w) := by
  induction xs with
  | nil => simp [weightedSum, num2]
  | cons x xs ih =>
    obtain ⟨a, v⟩ := x
    rw [List.map_cons, weightedSum_cons, weightedSum_cons, ih]
    cases v <;> cases weightedSum xs <;> simp [num2]
    ring

/-- A weighted sum of numbers is the sum. -/
theorem weightedSum_val (xs : List (ℝ × ℝ)) :
    weightedSum (xs.map (fun p => (p.1, .val p.2))) = .val (xs.map (fun p => p.1 * p.2)).sum := by
  induction xs with
  | nil => rfl
  | cons x xs ih =>
    rw [List.map_cons, weightedSum, ih]
    simp [num1]

/-! ## Lengths -/

theorem each_length {α β : Type} {f : α → Outcome β} {xs : List α} {ys : List β} (h : each f xs = .ok ys) :
    ys.length = xs.length := (each_iff.1 h).length_eq.symm

theorem vanilla_length {fuel : Nat} {ctx : PricingContext} {v : Vanilla} {u : Instrument} {vf : Point}
    {sf : Outcome (Num ℝ × Num ℝ)} {dates : List DateTime} {out : List (Num ℝ)}
    (h : vanillaPrices fuel ctx v u vf sf dates = .ok out) : out.length = dates.length := by
  cases dates with
  | nil => cases h; rfl
  | cons d ds =>
    unfold vanillaPrices at h
    obtain ⟨yc, _, h⟩ := bind_ok h
    obtain ⟨vol, _, h⟩ := bind_ok h
    obtain ⟨⟨s, f⟩, _, h⟩ := bind_ok h
    obtain ⟨rt, _, h⟩ := bind_ok h
    obtain ⟨disp, _, h⟩ := bind_ok h
    dsimp only at h
    split at h
    · cases h
    · exact each_length h

theorem equity_length {ctx : PricingContext} {i : Instrument} {dates : List DateTime} {out : List (Num ℝ)}
    (h : equityPrices ctx i dates = .ok out) : out.length = dates.length := by
  unfold equityPrices at h
  split at h
  · cases h; rfl
  · split at h
    · obtain ⟨s, _, h⟩ := bind_ok h
      have := pure_ok h
      subst this
      rfl
    · obtain ⟨s, _, h⟩ := bind_ok h
      exact each_length h
  · obtain ⟨s, _, h⟩ := bind_ok h
    exact each_length h

theorem accumulate_length (w : ℝ) {temp out : List (Num ℝ)} (h : temp.length = out.length) :
    (accumulate w temp out).length = out.length := by
  unfold accumulate
  rw [List.length_zipWith, h, Nat.min_self]

mutual
theorem prices_length {fuel : Nat} {ctx : PricingContext} : ∀ (i : Instrument) {dates : List DateTime} {out : List (Num ℝ)},
    i.prices fuel ctx dates = .ok out → out.length = dates.length
  | .currency _ _, dates, out, h => by rw [Instrument.prices] at h; cases h; simp
  | .creditEntity _ _, dates, out, h => by rw [Instrument.prices] at h; cases h; simp
  | .equity _ _ _, dates, out, h => by rw [Instrument.prices] at h; exact equity_length h
  | .zeroCoupon _ _ _ _ _, dates, out, h => by
    rw [Instrument.prices] at h
    obtain ⟨yc, _, h⟩ := bind_ok h
    exact each_length h
  | .basket _ _ _ parts, dates, out, h => by
    rw [Instrument.prices] at h
    exact basket_length parts (by simp) h
  | .spotStarting v u k, dates, out, h => by
    rw [Instrument.prices] at h
    exact vanilla_length h
  | .forwardStarting v u k d t, dates, out, h => by
    rw [Instrument.prices] at h
    split at h
    · cases h
    · exact vanilla_length h

theorem basket_length {fuel : Nat} {ctx : PricingContext} : ∀ (parts : List (ℝ × Instrument)) {dates : List DateTime}
    {acc out : List (Num ℝ)}, acc.length = dates.length → basketPrices fuel ctx parts dates acc = .ok out → out.length = dates.length
  | [], dates, acc, out, ha, h => by rw [basketPrices] at h; cases h; exact ha
  | (w, u) :: rest, dates, acc, out, ha, h => by
    rw [basketPrices] at h
    obtain ⟨temp, h1, h⟩ := bind_ok h
    have := prices_length u h1
    exact basket_length rest ((accumulate_length w (by omega)).trans ha) h
end

/-! ## Baskets -/

/-- The `j`-th of the values of each of several instruments. -/
noncomputable def column (j : Nat) (parts : List (ℝ × Instrument)) (values : List (List (Num ℝ))) : List (ℝ × Num ℝ) :=
  List.zipWith (fun p v => (p.1, v.getD j .nan)) parts values

theorem accumulate_get (w : ℝ) {temp out : List (Num ℝ)} (h : temp.length = out.length) (j : Nat) (hj : j < out.length) :
    (accumulate w temp out).getD j .nan = num2 (· + ·) (out.getD j .nan) (num2 (· * ·) (temp.getD j .nan) (.val w)) := by
  unfold accumulate
  simp [List.getElem?_zipWith, hj, h]

theorem basketPrices_iff {fuel : Nat} {ctx : PricingContext} (parts : List (ℝ × Instrument)) {dates : List DateTime}
    {acc out : List (Num ℝ)} (ha : acc.length = dates.length) :
    basketPrices fuel ctx parts dates acc = .ok out ↔
      ∃ values, List.Forall₂ (fun p v => p.2.prices fuel ctx dates = .ok v) parts values ∧ out.length = dates.length ∧
        ∀ j < dates.length, out.getD j .nan = num2 (· + ·) (acc.getD j .nan) (weightedSum (column j parts values)) := by
  induction parts generalizing acc with
  | nil =>
    rw [basketPrices]
    constructor
    · intro h
      cases h
      exact ⟨[], .nil, ha, fun j _ => by simp [column, weightedSum, num2_add_zero]⟩
    · rintro ⟨values, hv, hl, hj⟩
      cases hv
      congr 1
      refine List.ext_getElem (by omega) ?_
      intro j h1 h2
      have := hj j (by omega)
      simp [column, weightedSum, num2_add_zero, h1, h2] at this
      exact this.symm
  | cons p rest ih =>
    obtain ⟨w, u⟩ := p
    rw [basketPrices]
    constructor
    · intro h
      obtain ⟨temp, h1, h⟩ := bind_ok h
      have hl := prices_length u h1
      have hla := accumulate_length w (temp := temp) (out := acc) (by omega)
      obtain ⟨values, hv, hlen, hj⟩ := (ih (hla.trans ha)).1 h
      refine ⟨temp :: values, .cons h1 hv, hlen, ?_⟩
      intro j hjl
      rw [hj j hjl, accumulate_get w (by omega) j (by omega), num2_add_assoc]
      unfold column
      rw [List.zipWith_cons_cons, weightedSum_cons]
    · rintro ⟨values, hv, hlen, hj⟩
      cases hv with
      | @cons _ temp _ values h1 hv =>
        have hl := prices_length u h1
        have hla := accumulate_length w (temp := temp) (out := acc) (by omega)
        show u.prices fuel ctx dates >>= _ = _
        rw [h1]
        refine (ih (hla.trans ha)).2 ⟨values, hv, hlen, ?_⟩
        intro j hjl
        rw [hj j hjl, accumulate_get w (by omega) j (by omega), num2_add_assoc]
        unfold column
        rw [List.zipWith_cons_cons, weightedSum_cons]

theorem basketPrices_error {fuel : Nat} {ctx : PricingContext} (parts : List (ℝ × Instrument)) {dates : List DateTime}
    {acc : List (Num ℝ)} {e : Fault} :
    basketPrices fuel ctx parts dates acc = .error e ↔
      ∃ pre w u post, parts = pre ++ (w, u) :: post ∧ (∀ p ∈ pre, ∃ v, p.2.prices fuel ctx dates = .ok v) ∧
        u.prices fuel ctx dates = .error e := by
  induction parts generalizing acc with
  | nil =>
    rw [basketPrices]
    constructor
    · intro h; cases h
    · rintro ⟨pre, w, u, post, h, _⟩; simp at h
  | cons p rest ih =>
    obtain ⟨w, u⟩ := p
    rw [basketPrices]
    cases hu : u.prices fuel ctx dates with
    | error e' =>
      constructor
      · intro h
        cases h
        exact ⟨[], w, u, rest, rfl, by simp, hu⟩
      · rintro ⟨pre, w', u', post, h, hp, he⟩
        cases pre with
        | nil =>
          simp at h
          obtain ⟨⟨_, rfl⟩, _⟩ := h
          rw [hu] at he
          cases he
          rfl
        | cons q pre =>
          simp at h
          obtain ⟨rfl, _⟩ := h
          obtain ⟨v, hv⟩ := hp (w, u) (by simp)
          rw [hu] at hv
          cases hv
    | ok v =>
      show basketPrices fuel ctx rest dates _ = _ ↔ _
      rw [ih]
      constructor
      · rintro ⟨pre, w', u', post, h, hp, he⟩
        refine ⟨(w, u) :: pre, w', u', post, by simp [h], ?_, he⟩
        intro p hpm
        rcases List.mem_cons.1 hpm with rfl | hpm
        · exact ⟨v, hu⟩
        · exact hp p hpm
      · rintro ⟨pre, w', u', post, h, hp, he⟩
        cases pre with
        | nil =>
          simp at h
          obtain ⟨⟨_, rfl⟩, _⟩ := h
          rw [hu] at he
          cases he
        | cons q pre =>
          simp at h
          obtain ⟨_, h⟩ := h
          exact ⟨pre, w', u', post, h, fun p hp' => hp p (List.mem_cons_of_mem _ hp'), he⟩

theorem price_iff {fuel : Nat} {ctx : PricingContext} {i : Instrument} {d : DateTime} {v : Num ℝ} :
    i.price fuel ctx d = .ok v ↔ i.prices fuel ctx [d] = .ok [v] := by
  unfold Instrument.price
  constructor
  · intro h
    obtain ⟨vs, h1, h⟩ := bind_ok h
    have hl := prices_length i h1
    match vs, hl with
    | [x], _ =>
      cases h
      exact h1
  · intro h
    rw [h]
    rfl

/-! ## The normal distribution -/

theorem Phi_neg (x : ℝ) : Phi (-x) = 1 - Phi x := by
  unfold Phi
  have hμ : (ProbabilityTheory.gaussianReal 0 1).map (fun y => -y) = ProbabilityTheory.gaussianReal 0 1 := by
    have := ProbabilityTheory.gaussianReal_map_neg (μ := 0) (v := 1)
    simpa using this
  rw [ProbabilityTheory.cdf_eq_real, ProbabilityTheory.cdf_eq_real]
  have h1 : (ProbabilityTheory.gaussianReal 0 1).real (Set.Iic (-x)) = (ProbabilityTheory.gaussianReal 0 1).real (Set.Ici x) := by
    conv_lhs => rw [← hμ]
    rw [MeasureTheory.map_measureReal_apply (by fun_prop) measurableSet_Iic]
    congr 1
    ext y
    simp
  have h2 : (ProbabilityTheory.gaussianReal 0 1).real (Set.Ici x) = (ProbabilityTheory.gaussianReal 0 1).real (Set.Ioi x) := by
    haveI := ProbabilityTheory.noAtoms_gaussianReal (μ := 0) (v := 1) one_ne_zero
    exact MeasureTheory.measureReal_congr MeasureTheory.Ioi_ae_eq_Ici.symm
  have h3 := MeasureTheory.probReal_compl_eq_one_sub (μ := ProbabilityTheory.gaussianReal 0 1) (measurableSet_Iic (a := x))
  rw [Set.compl_Iic] at h3
  rw [h1, h2, h3]

/-- The difference of the call and the put formula, and their both being NaN. -/
theorem call_put (df f k s : Num ℝ) :
    (callPrice df f k s = .nan ∧ putPrice df f k s = .nan) ∨
      ∃ D F K c p, df = .val D ∧ f = .val F ∧ k = .val K ∧ callPrice df f k s = .val c ∧ putPrice df f k s = .val p ∧
        c - p = D * (F - K) := by
  unfold callPrice putPrice
  cases s with
  | nan => left; simp [dPlusMinus, cdf, Ext.neg, num2]
  | val s =>
    cases df with
    | nan => left; simp [num2]
    | val D =>
      cases f with
      | nan => left; simp [dPlusMinus, logMoneyness, Ext.div, Ext.add, cdf, num2, Ext.neg]
      | val F =>
        cases k with
        | nan => left; simp [dPlusMinus, logMoneyness, Ext.div, Ext.add, cdf, num2, Ext.neg]
        | val K =>
          simp only [dPlusMinus]
          cases h : (logMoneyness (Num.val F) (Num.val K)).div s with
          | nan => left; simp [Ext.add, cdf, num2, Ext.neg]
          | ninf =>
            right
            refine ⟨D, F, K, D * (0 * F - 0 * K), D * (1 * K - 1 * F), rfl, rfl, rfl, ?_, ?_, by ring⟩ <;>
              simp [Ext.add, cdf, num2, Ext.neg]
          | pinf =>
            right
            refine ⟨D, F, K, D * (1 * F - 1 * K), D * (0 * K - 0 * F), rfl, rfl, rfl, ?_, ?_, by ring⟩ <;>
              simp [Ext.add, cdf, num2, Ext.neg]
          | val x =>
            right
            refine ⟨D, F, K, D * (Phi (x + 0.5 * s) * F - Phi (x + 0.5 * s + -s) * K),
              D * (Phi (-(x + 0.5 * s + -s)) * K - Phi (-(x + 0.5 * s)) * F), rfl, rfl, rfl, ?_, ?_, ?_⟩
            · simp [Ext.add, cdf, num2]
            · simp only [Ext.add, cdf, num2, Ext.neg]
            · rw [Phi_neg, Phi_neg]; ring

end QM.Instruments
