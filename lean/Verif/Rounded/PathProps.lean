import Verif.Rounded.PathModel
import Verif.Rounded.AverageProps

/-!
# C118: what rounding can do to simulated options
-/

namespace QM.Rounded

variable {K : Type} [Field K] [LinearOrder K] [IsStrictOrderedRing K] {n : Nat} {r : Rounding K} {v : K}

/-! ### Helper lemmas -/

omit [IsStrictOrderedRing K] in
theorem payoff_call (r : Rounding K) (S k : K) : payoff r .call S k = max (r.rnd (S - k)) 0 := by
  unfold payoff
  simp only [one_mul, r.idem]

omit [IsStrictOrderedRing K] in
theorem payoff_put (r : Rounding K) (S k : K) : payoff r .put S k = max (r.rnd (k - S)) 0 := by
  unfold payoff
  simp only [neg_one_mul, r.neg, r.idem]
  rw [← r.neg, neg_sub]

theorem walk_nonneg {sigma : K} {gs : List K} (h : ∀ g ∈ gs, -1 ≤ r.rnd (g * sigma)) {p : K} (hp : 0 ≤ p) : 0 ≤ walk r sigma gs p := by
  unfold walk
  induction gs generalizing p with
  | nil => exact hp
  | cons g gs ih =>
    refine ih (fun x hx => h x (List.mem_cons_of_mem _ hx)) (r.nonneg (mul_nonneg hp (r.nonneg ?_)))
    linarith [h g (List.mem_cons_self ..)]

theorem price_mono (hn : 0 < n) (how : Adding n) {x y : Fin n → K} (hv : 0 ≤ v) (h : ∀ i, x i ≤ y i) : evaluateFlows r how [(x, v)] ≤ evaluateFlows r how [(y, v)] :=
  C116_order r hn how (.cons ⟨h, hv, rfl⟩ .nil)

/-! ## C118 -/

/-- C118, parity on each path. The payoff of a call less that of a put is the rounded difference of spot and strike, exactly, and one of the two is nought. -/
theorem C118_parity (r : Rounding K) (S k : K) : payoff r .call S k - payoff r .put S k = r.rnd (S - k) ∧ min (payoff r .call S k) (payoff r .put S k) = 0 := by
  have e : r.rnd (k - S) = -r.rnd (S - k) := by rw [← r.neg, neg_sub]
  rw [payoff_call, payoff_put, e]
  rcases le_total 0 (r.rnd (S - k)) with h | h
  · rw [max_eq_left h, max_eq_right (neg_nonpos.2 h), sub_zero, min_eq_right h]
    exact ⟨rfl, rfl⟩
  · rw [max_eq_right h, max_eq_left (neg_nonneg.2 h), zero_sub, neg_neg, min_eq_left (neg_nonneg.2 h)]
    exact ⟨rfl, rfl⟩

/-- C118, strikes. On the same paths, and in whatever order they are added, a call with a higher strike never costs more and a put with a higher strike never costs less. Nothing is lost to rounding. -/
theorem C118_strikes (hn : 0 < n) (how : Adding n) (spots : Fin n → K) (hv : 0 ≤ v) {k k' : K} (h : k ≤ k') :
    simulatedPrice r how .call spots k' v ≤ simulatedPrice r how .call spots k v ∧ simulatedPrice r how .put spots k v ≤ simulatedPrice r how .put spots k' v := by
  constructor
  · refine price_mono hn how hv fun i => ?_
    rw [payoff_call, payoff_call]
    exact max_le_max (r.mono _ _ (by linarith)) le_rfl
  · refine price_mono hn how hv fun i => ?_
    rw [payoff_put, payoff_put]
    exact max_le_max (r.mono _ _ (by linarith)) le_rfl

/-- C118, never negative. -/
theorem C118_nonneg (hn : 0 < n) (how : Adding n) (kind : QM.Instruments.PutOrCall) (spots : Fin n → K) (k : K) (hv : 0 ≤ v) : 0 ≤ simulatedPrice r how kind spots k v := by
  refine C116_nonneg r hn how ?_
  intro f hf
  rw [List.mem_singleton] at hf
  subst hf
  exact ⟨fun i => le_max_right _ _, hv⟩

/-- C118, forwards. With the same draws, none of which takes away more than everything in one step, and in whatever order the paths are added: a higher forward never makes a call cheaper or a put
dearer. Nothing is lost to rounding. -/
theorem C118_forward_partial (hn : 0 < n) (how : Adding n) {displacement sigma : K} {draws : Fin n → List K} (hg : ∀ i, ∀ g ∈ draws i, -1 ≤ r.rnd (g * sigma)) (hv : 0 ≤ v) (k : K)
    {f f' : K} (h : f ≤ f') :
    simulatedPrice r how .call (fun i => pathSpot r f displacement sigma (draws i)) k v ≤ simulatedPrice r how .call (fun i => pathSpot r f' displacement sigma (draws i)) k v ∧
      simulatedPrice r how .put (fun i => pathSpot r f' displacement sigma (draws i)) k v ≤ simulatedPrice r how .put (fun i => pathSpot r f displacement sigma (draws i)) k v := by
  have hS : ∀ i, pathSpot r f displacement sigma (draws i) ≤ pathSpot r f' displacement sigma (draws i) := by
    intro i
    unfold pathSpot
    refine r.mono _ _ (add_le_add (r.mono _ _ ?_) le_rfl)
    exact mul_le_mul_of_nonneg_left (r.mono _ _ (by linarith)) (walk_nonneg (hg i) zero_le_one)
  constructor
  · refine price_mono hn how hv fun i => ?_
    rw [payoff_call, payoff_call]
    exact max_le_max (r.mono _ _ (by linarith [hS i])) le_rfl
  · refine price_mono hn how hv fun i => ?_
    rw [payoff_put, payoff_put]
    exact max_le_max (r.mono _ _ (by linarith [hS i])) le_rfl

/-- C118, violated when a draw takes away more than everything: the path is then negative, and a put on a higher forward costs more. One path, with a draw of minus two and a volatility of one. -/
theorem C118_forward_false : simulatedPrice f64 (n := 1) (.term 0) .put (fun _ => pathSpot f64 1 0 1 [-2]) 0 1 = 1 ∧
    simulatedPrice f64 (n := 1) (.term 0) .put (fun _ => pathSpot f64 2 0 1 [-2]) 0 1 = 2 := by
  constructor <;> decide +kernel

/-- C118, bounds. A call costs no more than the paths themselves, and a put no more than its strike on every path, if spots and strikes are not negative. The strike is a number of the machine, as
are all spots. -/
theorem C118_bounds (hn : 0 < n) (how : Adding n) {spots : Fin n → K} (hS : ∀ i, 0 ≤ spots i) (hF : ∀ i, r.IsFloat (spots i)) {k : K} (hk : 0 ≤ k) (hkF : r.IsFloat k) (hv : 0 ≤ v) :
    simulatedPrice r how .call spots k v ≤ evaluateFlows r how [(spots, v)] ∧ simulatedPrice r how .put spots k v ≤ evaluateFlows r how [(fun _ => k, v)] := by
  constructor
  · refine price_mono hn how hv fun i => ?_
    rw [payoff_call]
    exact max_le ((r.mono _ _ (by linarith)).trans (hF i).le) (hS i)
  · refine price_mono hn how hv fun i => ?_
    rw [payoff_put]
    exact max_le ((r.mono _ _ (by linarith [hS i])).trans hkF.le) hk

omit [IsStrictOrderedRing K] in
/-- Spots of the model are numbers of the machine. -/
theorem pathSpot_float (r : Rounding K) (f d sigma : K) (gs : List K) : r.IsFloat (pathSpot r f d sigma gs) := r.idem _

/-- C118, without volatility every path ends on the forward, if that and the displacement are numbers of the machine and their difference is one. -/
theorem C118_still {f d : K} (hf : r.IsFloat f) (hd : r.IsFloat (f - d)) (gs : List K) : pathSpot r f d 0 gs = f := by
  have hw : walk r 0 gs 1 = 1 := by
    unfold walk
    induction gs with
    | nil => rfl
    | cons g gs ih =>
      rw [List.foldl_cons, mul_zero, r.zero, add_zero, r.one, one_mul, r.one]
      exact ih
  unfold pathSpot
  rw [hw, one_mul, r.idem, show r.rnd (f - d) = f - d from hd, sub_add_cancel]
  exact hf

/-- C118: two paths with draws of a half up and down, a forward of a hundred and a volatility of a quarter. The hypotheses of `C118_forward_partial` hold, and the call has a price. -/
example : (∀ i, ∀ g ∈ (![[1 / 2], [-1 / 2]] : Fin 2 → List ℚ) i, -1 ≤ f64.rnd (g * (1 / 4))) ∧
    simulatedPrice f64 (.plus (.term 0) (.term 1)) .call (fun i => pathSpot f64 100 0 (1 / 4) ((![[1 / 2], [-1 / 2]] : Fin 2 → List ℚ) i)) 100 (1 / 2) = 25 / 8 := by
  constructor
  · decide +kernel
  · decide +kernel

end QM.Rounded
