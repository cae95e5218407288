import Verif.Vol.Spec
import Verif.Calendar.Props
import Verif.Curves.Lemmas

/-!
# Lemmas about vol surfaces
-/

namespace QM.Vol
open QM.Interp QM.Calendar Spec QM.Calendar.Spec

theorem bind_ok {α β : Type} {x : Outcome α} {f : α → Outcome β} {b : β} (h : x >>= f = .ok b) :
    ∃ a, x = .ok a ∧ f a = .ok b := by
  cases x with
  | error e => cases h
  | ok a => exact ⟨a, rfl, h⟩

theorem pure_ok {α : Type} {a b : α} (h : (pure a : Outcome α) = .ok b) : a = b := by cases h; rfl

theorem each_iff {α β : Type} {f : α → Outcome β} {xs : List α} {ys : List β} :
    each f xs = .ok ys ↔ List.Forall₂ (fun x y => f x = .ok y) xs ys := by
  induction xs generalizing ys with
  | nil =>
    constructor
    · intro h; cases h; exact .nil
    · intro h; cases h; rfl
  | cons x xs ih =>
    constructor
    · intro h
      obtain ⟨b, h1, h⟩ := bind_ok h
      obtain ⟨bs, h2, h⟩ := bind_ok h
      have := pure_ok h
      subst this
      exact .cons h1 (ih.1 h2)
    · intro h
      cases h with
      | cons h1 h2 =>
        unfold each
        rw [h1, ih.2 h2]
        rfl

theorem forall2_get {α β : Type} {R : α → β → Prop} {xs : List α} {ys : List β} (h : List.Forall₂ R xs ys)
    {i : Nat} {x : α} (hx : xs[i]? = some x) : ∃ y, ys[i]? = some y ∧ R x y := by
  induction h generalizing i with
  | nil => simp at hx
  | cons h1 h2 ih =>
    cases i with
    | zero => simp at hx; subst hx; exact ⟨_, rfl, h1⟩
    | succ i => simp at hx; simpa using ih hx

/-! ## Time -/

theorem basis_pos {c : Cal ℝ} (hw : GoodWeights c) : 0 < standardBasis c := by
  induction c with
  | everyDay => unfold standardBasis; norm_num
  | weekday => unfold standardBasis; norm_num
  | weekdayAndHoliday hs => unfold standardBasis; norm_num
  | volatility c w ih =>
    obtain ⟨h0, h1, h2⟩ := hw
    have := ih h2
    unfold standardBasis
    rcases eq_or_lt_of_le h0 with h | h
    · rw [← h]; linarith
    · have := mul_nonneg (le_of_lt this) (sub_nonneg.2 h1)
      linarith

theorem yf_ok {c : Cal ℝ} {a b : Point} {T : ℝ} (h : yearFraction c a b = .ok T) :
    ∃ d, countBusinessDays c a.1 a.2 b.1 b.2 = .ok d ∧ T = d / standardBasis c := by
  obtain ⟨d, h1, h2⟩ := bind_ok h
  exact ⟨d, h1, (pure_ok h2).symm⟩

theorem before_trans {a b c : Point} (h1 : before a b) (h2 : before b c) : before a c := by
  unfold before at *
  rcases h1 with h1 | ⟨h1, h1'⟩ <;> rcases h2 with h2 | ⟨h2, h2'⟩
  · exact .inl (by omega)
  · exact .inl (by omega)
  · exact .inl (by omega)
  · exact .inr ⟨by omega, by linarith⟩

theorem before_irrefl (a : Point) : ¬ before a a := by
  unfold before
  rintro (h | ⟨_, h⟩)
  · exact lt_irrefl _ h
  · exact lt_irrefl _ h

theorem before_total (a b : Point) : before a b ∨ a = b ∨ before b a := by
  unfold before
  rcases lt_trichotomy a.1 b.1 with h | h | h
  · exact .inl (.inl h)
  · rcases lt_trichotomy a.2 b.2 with h' | h' | h'
    · exact .inl (.inr ⟨h, h'⟩)
    · exact .inr (.inl (Prod.ext h h'))
    · exact .inr (.inr (.inr ⟨h.symm, h'⟩))
  · exact .inr (.inr (.inl h))

theorem not_before {a b : Point} (h : ¬ before a b) : b.1 < a.1 ∨ (b.1 = a.1 ∧ b.2 ≤ a.2) := by
  rcases before_total a b with h' | h' | h'
  · exact absurd h' h
  · subst h'; exact .inr ⟨rfl, le_refl _⟩
  · rcases h' with h' | ⟨h', h''⟩
    · exact .inl h'
    · exact .inr ⟨h', le_of_lt h''⟩

theorem yf_self {c : Cal ℝ} (hg : Good c) {a : Point} {T : ℝ} (h : yearFraction c a a = .ok T) : T = 0 := by
  obtain ⟨d, h1, h2⟩ := yf_ok h
  have := count_ok hg h1
  rw [if_pos (le_refl _)] at this
  have hd : d = 0 := by
    rw [this]
    unfold manualCount
    rw [Finset.Icc_self, Finset.sum_singleton]
    ring
  rw [h2, hd, zero_div]

theorem yf_nonneg {c : Cal ℝ} (hg : Good c) (hw : GoodWeights c) {a b : Point} {T : ℝ} (ha : a.2 ≤ 1) (hb : 0 ≤ b.2)
    (hab : ¬ before b a) (h : yearFraction c a b = .ok T) : 0 ≤ T := by
  obtain ⟨d, h1, h2⟩ := yf_ok h
  have := C14_nonneg c hg hw a.1 b.1 a.2 b.2 d ha hb (not_before hab) h1
  rw [h2]
  exact div_nonneg this (le_of_lt (basis_pos hw))

theorem yf_mono {c : Cal ℝ} (hg : Good c) (hw : GoodWeights c) {x a b : Point} {T T' : ℝ} (hx : x.1 ≤ a.1) (ha : a.2 ≤ 1)
    (hb : 0 ≤ b.2) (hab : ¬ before b a) (h : yearFraction c x a = .ok T) (h' : yearFraction c x b = .ok T') : T ≤ T' := by
  obtain ⟨d, h1, h2⟩ := yf_ok h
  obtain ⟨d', h1', h2'⟩ := yf_ok h'
  have := C14_monotone c hg hw x.1 a.1 b.1 x.2 a.2 b.2 d d' hx ha hb (not_before hab) h1 h1'
  rw [h2, h2']
  exact div_le_div_of_nonneg_right this (le_of_lt (basis_pos hw))

/-! ## Flat surfaces -/

theorem flat_variances {fuel : Nat} {v : ℝ} {c : Cal ℝ} {base t : Point} {ks : List (Num ℝ)} {out : List (Num ℝ)} :
    (VolSurface.flat (.val v) c base).variances fuel t ks = .ok out ↔
      ∃ T, yearFraction c base t = .ok T ∧ out = ks.map (fun _ => .val (v ^ 2 * T)) := by
  unfold VolSurface.variances VolSurface.volatilities
  cases hT : yearFraction c base t with
  | error e =>
    constructor
    · intro h; cases h
    · rintro ⟨T, h, _⟩; cases h
  | ok T =>
    simp only [Bind.bind, Except.bind, pure, Except.pure, num2, List.map_map]
    constructor
    · intro h
      cases h
      refine ⟨T, rfl, ?_⟩
      apply List.map_congr_left
      intro k _
      simp only [Function.comp]
      congr 1
      ring
    · rintro ⟨T', h, h'⟩
      cases h
      rw [h']
      congr 1
      apply List.map_congr_left
      intro k _
      simp only [Function.comp]
      congr 1
      ring

theorem flat_forward {fuel : Nat} {v : ℝ} {c : Cal ℝ} {base a b : Point} {k : Num ℝ} {out : Num ℝ} :
    (VolSurface.flat (.val v) c base).forwardVariance fuel a b k = .ok out ↔
      (¬ before base a ∧ ∃ T, yearFraction c base b = .ok T ∧ out = .val (v ^ 2 * T)) ∨
      (before base a ∧ ∃ Ta Tb, yearFraction c base a = .ok Ta ∧ yearFraction c base b = .ok Tb ∧
        0 ≤ v ^ 2 * Tb - v ^ 2 * Ta ∧ out = .val (v ^ 2 * Tb - v ^ 2 * Ta)) := by
  unfold VolSurface.forwardVariance VolSurface.forwardVariances
  rw [show (VolSurface.flat (.val v) c base).baseDate = base from rfl, show (VolSurface.flat (.val v) c base).forward = none from rfl]
  by_cases hb : before base a
  · simp only [hb, not_true_eq_false, if_false, false_and, false_or, true_and]
    constructor
    · intro h
      obtain ⟨l, h, h'⟩ := bind_ok h
      obtain ⟨l1, h1, h⟩ := bind_ok h
      obtain ⟨l2, h2, h⟩ := bind_ok h
      obtain ⟨Ta, hTa, e1⟩ := flat_variances.1 h1
      obtain ⟨Tb, hTb, e2⟩ := flat_variances.1 h2
      subst e1 e2
      simp only [List.map_cons, List.map_nil, List.zipWith_cons_cons, List.zipWith_nil_left, num2] at h
      obtain ⟨w, h3, h⟩ := bind_ok h
      obtain ⟨ws, h4, h⟩ := bind_ok h
      have := pure_ok h
      subst this
      unfold first at h'
      cases h'
      unfold nonNegative nlt at h3
      by_cases hn : v ^ 2 * Tb - v ^ 2 * Ta < 0
      · rw [if_pos hn] at h3; cases h3
      · rw [if_neg hn] at h3
        cases h3
        exact ⟨Ta, Tb, hTa, hTb, by linarith, rfl⟩
    · rintro ⟨Ta, Tb, hTa, hTb, hn, rfl⟩
      have e1 := flat_variances (fuel := fuel) (v := v) (c := c) (base := base) (t := a) (ks := [k]).2 ⟨Ta, hTa, rfl⟩
      have e2 := flat_variances (fuel := fuel) (v := v) (c := c) (base := base) (t := b) (ks := [k]).2 ⟨Tb, hTb, rfl⟩
      simp only [e1, e2, Bind.bind, Except.bind, List.map_cons, List.map_nil, List.zipWith_cons_cons, List.zipWith_nil_left,
        num2, each, pure, Except.pure]
      have e3 : nonNegative (.val (v ^ 2 * Tb - v ^ 2 * Ta)) = .ok (.val (v ^ 2 * Tb - v ^ 2 * Ta)) := by
        unfold nonNegative
        exact if_neg (by simp only [nlt]; linarith)
      rw [e3]
      rfl
  · simp only [hb, not_false_eq_true, if_true, false_and, or_false, true_and]
    constructor
    · intro h
      obtain ⟨l, h, h'⟩ := bind_ok h
      obtain ⟨T, hT, e⟩ := flat_variances.1 h
      subst e
      cases h'
      exact ⟨T, hT, rfl⟩
    · rintro ⟨T, hT, rfl⟩
      have e1 := flat_variances (fuel := fuel) (v := v) (c := c) (base := base) (t := b) (ks := [k]).2 ⟨T, hT, rfl⟩
      simp only [e1, Bind.bind, Except.bind]
      rfl

/-! ## Single-strike variances -/

theorem variance_ok {fuel : Nat} {s : VolSurface} {t : Point} {k w : Num ℝ} (h : s.variance fuel t k = .ok w) :
    ∃ T v vs, s.volatilities fuel t [k] = .ok (T, v :: vs) ∧ w = num2 (· * ·) (num2 (· * ·) (.val T) v) v := by
  obtain ⟨l, h1, h2⟩ := bind_ok h
  obtain ⟨⟨T, vs⟩, h3, h4⟩ := bind_ok h1
  have := pure_ok h4
  subst this
  cases vs with
  | nil => cases h2
  | cons v vs =>
    cases h2
    exact ⟨T, v, vs, h3, rfl⟩

theorem variances_ok {fuel : Nat} {s : VolSurface} {t : Point} {ks ws : List (Num ℝ)} (h : s.variances fuel t ks = .ok ws) :
    ∃ T vs, s.volatilities fuel t ks = .ok (T, vs) ∧ ws = vs.map (fun v => num2 (· * ·) (num2 (· * ·) (.val T) v) v) := by
  obtain ⟨⟨T, vs⟩, h3, h4⟩ := bind_ok h
  exact ⟨T, vs, h3, (pure_ok h4).symm⟩

theorem skewless_variance {fuel : Nat} {s : VolSurface} (hs : Skewless fuel s) {t : Point} {k w : Num ℝ} {ks ws : List (Num ℝ)}
    (h : s.variance fuel t k = .ok w) (h' : s.variances fuel t ks = .ok ws) : ∀ x ∈ ws, x = w := by
  obtain ⟨T, v, vs, h1, rfl⟩ := variance_ok h
  obtain ⟨T', vs', h2, rfl⟩ := variances_ok h'
  intro x hx
  obtain ⟨v', hv', rfl⟩ := List.mem_map.1 hx
  obtain ⟨e1, e2⟩ := hs _ _ _ _ _ _ _ h2 h1
  rw [e1, e2 v' hv' v (by simp)]

/-! ## Pillars -/

theorem buildPillars_ok {input : Input} {prev : Num ℝ} {smiles : List (Point × Smile)} {ps : List Pillar}
    (h : buildPillars input prev smiles = .ok ps) :
    List.Forall₂ (fun sm p => ∃ vol, atDate input.forward sm.1.1 = .ok p.forward ∧ sm.2.volatility p.forward = .ok vol ∧
      yearFraction input.calendar input.baseDate sm.1 = .ok p.volTime ∧
      p.sqrtVariance = nsqrt (num2 (· * ·) (num2 (· * ·) (.val p.volTime) vol) vol)) smiles ps := by
  induction smiles generalizing prev ps with
  | nil => cases h; exact .nil
  | cons sm rest ih =>
    obtain ⟨date, smile⟩ := sm
    unfold buildPillars at h
    obtain ⟨f, h1, h⟩ := bind_ok h
    obtain ⟨vol, h2, h⟩ := bind_ok h
    obtain ⟨time, h3, h⟩ := bind_ok h
    by_cases hn : nlt (num2 (· * ·) (num2 (· * ·) (.val time) vol) vol) prev
    · simp only [hn, if_true] at h; cases h
    · simp only [hn, if_false] at h
      obtain ⟨ps', h4, h⟩ := bind_ok h
      have := pure_ok h
      subst this
      exact .cons ⟨vol, h1, h2, h3, rfl⟩ (ih h4)

theorem new_ok {input : Input} {s : VolSurface} (h : VolSurface.newByProbability input = .ok s) :
    ∃ ps, buildPillars input (.val 0) input.smiles = .ok ps ∧ s = .byProbability input ps := by
  unfold VolSurface.newByProbability at h
  cases hs : input.smiles with
  | nil => rw [hs] at h; cases h
  | cons a b =>
    rw [hs] at h
    simp only at h
    obtain ⟨ps, h1, h2⟩ := bind_ok h
    exact ⟨ps, h1, (pure_ok h2).symm⟩

theorem searchSmile_eq {l r : List (Point × Smile)} {p : Point × Smile} {t : Point} (hl : ∀ q ∈ l, before q.1 t)
    (hp : ¬ before p.1 t) : searchSmile (l ++ p :: r) t = (l.length, decide (p.1 = t)) := by
  classical
  unfold searchSmile
  have h1 : (l ++ p :: r).takeWhile (fun q => decide (before q.1 t)) = l := by
    rw [List.takeWhile_append_of_pos (by simpa using hl), List.takeWhile_cons_of_neg (by simpa using hp), List.append_nil]
  simp only [h1]
  have : (l ++ p :: r)[l.length]? = some p := by simp
  simp [this]

theorem searchSmile_end {l : List (Point × Smile)} {t : Point} (hl : ∀ q ∈ l, before q.1 t) :
    searchSmile l t = (l.length, false) := by
  classical
  unfold searchSmile
  have h1 : l.takeWhile (fun q => decide (before q.1 t)) = l := by
    have := List.takeWhile_append_of_pos (p := fun q : Point × Smile => decide (before q.1 t)) (l₁ := l) (l₂ := []) (by simpa using hl)
    simpa using this
  simp [h1]

theorem ascending_left {l r : List (Point × Smile)} {p : Point × Smile} (h : Ascending (l ++ p :: r)) :
    ∀ q ∈ l, before q.1 p.1 := by
  intro q hq
  unfold Ascending at h
  rw [List.pairwise_append] at h
  exact h.2.2 q hq p (by simp)

theorem getpillar {input : Input} {ps : List Pillar} (h : buildPillars input (.val 0) input.smiles = .ok ps) {i : Nat}
    {sm : Point × Smile} (hi : input.smiles[i]? = some sm) {F T A : ℝ} (hA : AtPillar input sm F T A) (h0 : 0 ≤ A) :
    ps[i]? = some ⟨.val F, .val (Real.sqrt A), T⟩ := by
  obtain ⟨p, hp, vol, h1, h2, h3, h4⟩ := forall2_get (buildPillars_ok h) hi
  obtain ⟨g1, g2, v, g3, g4⟩ := hA
  obtain ⟨pf, psv, pt⟩ := p
  simp only at h1 h2 h3 h4
  rw [g1] at h1
  cases h1
  rw [g2] at h3
  cases h3
  rw [g3] at h2
  cases h2
  rw [hp, h4]
  simp only [num2, nsqrt]
  rw [if_neg (by rw [g4] at h0; nlinarith), g4]
  have : T * v ^ 2 = T * v * v := by ring
  rw [this]

theorem getpillar_exists {input : Input} {ps : List Pillar} (h : buildPillars input (.val 0) input.smiles = .ok ps) {i : Nat}
    {sm : Point × Smile} (hi : input.smiles[i]? = some sm) :
    ∃ p, ps[i]? = some p ∧ yearFraction input.calendar input.baseDate sm.1 = .ok p.volTime ∧
      atDate input.forward sm.1.1 = .ok p.forward := by
  obtain ⟨p, hp, vol, h1, h2, h3, h4⟩ := forall2_get (buildPillars_ok h) hi
  exact ⟨p, hp, h3, h1⟩

theorem combine_get {f : Num ℝ} {T : ℝ} {ls rs out : List (Num ℝ)} (h : combine f T ls rs = .ok out) {i : Nat} {l r : Num ℝ}
    (hl : ls[i]? = some l) (hr : rs[i]? = some r) :
    ¬ nlt r l ∧ out[i]? = some (nsqrt (ndiv (nlerp l r f) (.val T))) := by
  induction ls generalizing rs out i with
  | nil => simp at hl
  | cons a ls ih =>
    cases rs with
    | nil => simp at hr
    | cons b rs =>
      unfold combine at h
      by_cases hn : nlt b a
      · rw [if_pos hn] at h; cases h
      · rw [if_neg hn] at h
        obtain ⟨rest, h1, h⟩ := bind_ok h
        have := pure_ok h
        subst this
        cases i with
        | zero => simp at hl hr; subst hl hr; exact ⟨hn, rfl⟩
        | succ i => simp at hl hr; simpa using ih h1 hl hr

theorem pillarVariances_get {sm : Smile} {T : ℝ} {ks out : List (Num ℝ)} (h : pillarVariances sm T ks = .ok out) {i : Nat}
    {k : Num ℝ} (hk : ks[i]? = some k) :
    ∃ v, sm.volatility k = .ok v ∧ out[i]? = some (num2 (· * ·) (num2 (· * ·) v v) (.val T)) := by
  obtain ⟨vs, h1, h2⟩ := bind_ok h
  have := pure_ok h2
  subst this
  obtain ⟨v, hv, hv'⟩ := forall2_get (each_iff.1 h1) hk
  exact ⟨v, hv', by simp [hv]⟩

theorem line_lerp (Tl Tr l r T : ℝ) : lerp l r ((T - Tl) / (Tr - Tl)) = straight Tl Tr l r T := by
  unfold lerp straight
  ring

/-- A forward curve with a single pillar and flat extrapolation. -/
theorem constant_forward (pillar d : Int) (F : ℝ) : atDate ⟨.flat, .flat, [(.val (pillar : ℝ), F)]⟩ d = .ok (.val F) := by
  obtain ⟨c, hc, _, _, hd⟩ := QM.Curves.flat_curve (d + 1) pillar F
  cases hc
  have := hd d (by omega)
  unfold QM.Curves.RateCurve.rAndT at this
  rw [if_neg (by omega)] at this
  obtain ⟨r, h1, h2⟩ := bind_ok this
  have := pure_ok h2
  cases this
  exact h1

end QM.Vol
