import Verif.Vol.Lemmas

/-!
# Properties of vol surfaces: C29 to C33
-/

namespace QM.Vol
open QM.Interp QM.Calendar Spec QM.Calendar.Spec

/-! ## C29 flat surfaces -/

/-- C29. The variance to a date is the square of the volatility times the year fraction, at every strike. -/
theorem C29_variance (fuel : Nat) (v : ℝ) (c : Cal ℝ) (base t : Point) (T : ℝ) (h : yearFraction c base t = .ok T)
    (ks : List (Num ℝ)) :
    (VolSurface.flat (.val v) c base).variances fuel t ks = .ok (ks.map (fun _ => .val (v ^ 2 * T))) :=
  flat_variances.2 ⟨T, h, rfl⟩

/-- C29. Forward variances over adjacent intervals add up, whatever the three strikes. -/
theorem C29_adjacent (fuel : Nat) (v : ℝ) (c : Cal ℝ) (hg : Good c) (base t0 t1 t2 : Point) (h1 : ¬ before t1 base)
    (k k' k'' : Num ℝ) (x y z : Num ℝ) (hx : (VolSurface.flat (.val v) c base).forwardVariance fuel t0 t1 k = .ok x)
    (hy : (VolSurface.flat (.val v) c base).forwardVariance fuel t1 t2 k' = .ok y)
    (hz : (VolSurface.flat (.val v) c base).forwardVariance fuel t0 t2 k'' = .ok z) :
    ∃ a b, x = .val a ∧ y = .val b ∧ z = .val (a + b) := by
  have hy' := flat_forward.1 hy
  have hx' := flat_forward.1 hx
  have hz' := flat_forward.1 hz
  rcases hx' with ⟨c1, T1, e1, rfl⟩ | ⟨c1, T0, T1, e0, e1, _, rfl⟩ <;> rcases hz' with ⟨c2, T2, e2, rfl⟩ | ⟨c2, T0', T2, e0', e2, _, rfl⟩
  · rcases hy' with ⟨c3, T2', e2', rfl⟩ | ⟨c3, T1', T2', e1', e2', _, rfl⟩
    · rcases before_total t1 base with h | h | h
      · exact absurd h h1
      · subst h
        have := yf_self hg e1
        rw [e2] at e2'
        cases e2'
        refine ⟨_, _, rfl, rfl, ?_⟩
        rw [this]
        congr 1
        ring
      · exact absurd h c3
    · rw [e1] at e1'
      rw [e2] at e2'
      cases e1'
      cases e2'
      refine ⟨_, _, rfl, rfl, ?_⟩
      congr 1
      ring
  · exact absurd c2 c1
  · exact absurd c1 c2
  · rw [e0] at e0'
    cases e0'
    rcases hy' with ⟨c3, T2', e2', rfl⟩ | ⟨c3, T1', T2', e1', e2', _, rfl⟩
    · rcases before_total t1 base with h | h | h
      · exact absurd h h1
      · subst h
        have := yf_self hg e1
        rw [e2] at e2'
        cases e2'
        -- the first interval ends at the base date and starts after it: it has the negative of a variance
        refine ⟨_, _, rfl, rfl, ?_⟩
        rw [this]
        congr 1
        ring
      · exact absurd h c3
    · rw [e1] at e1'
      rw [e2] at e2'
      cases e1'
      cases e2'
      refine ⟨_, _, rfl, rfl, ?_⟩
      congr 1
      ring

/-- C29. A forward variance to a point not before the base date is a number and not negative. -/
theorem C29_nonneg (fuel : Nat) (v : ℝ) (c : Cal ℝ) (hg : Good c) (hw : GoodWeights c) (base from_ to_ : Point)
    (hb : TimeOfDay base) (ht : TimeOfDay to_) (hto : ¬ before to_ base) (k x : Num ℝ)
    (h : (VolSurface.flat (.val v) c base).forwardVariance fuel from_ to_ k = .ok x) : ∃ a, x = .val a ∧ 0 ≤ a := by
  rcases flat_forward.1 h with ⟨_, T, e, rfl⟩ | ⟨_, T0, T1, _, _, hn, rfl⟩
  · exact ⟨_, rfl, mul_nonneg (sq_nonneg v) (yf_nonneg hg hw hb.2 ht.1 hto e)⟩
  · exact ⟨_, rfl, hn⟩

/-- C29. A forward variance between two points in order, not before the base date, is never refused as
negative: it fails only if a year fraction does. -/
theorem C29_never_refused (fuel : Nat) (v : ℝ) (c : Cal ℝ) (hg : Good c) (hw : GoodWeights c) (base from_ to_ : Point)
    (hf : TimeOfDay from_) (ht : TimeOfDay to_) (hto : ¬ before to_ from_) (k : Num ℝ) (T0 T1 : ℝ)
    (h0 : yearFraction c base from_ = .ok T0) (h1 : yearFraction c base to_ = .ok T1) :
    ∃ a, (VolSurface.flat (.val v) c base).forwardVariance fuel from_ to_ k = .ok (.val a) := by
  by_cases hb : before base from_
  · refine ⟨_, flat_forward.2 (.inr ⟨hb, T0, T1, h0, h1, ?_, rfl⟩)⟩
    have : base.1 ≤ from_.1 := by
      rcases hb with h | h
      · exact le_of_lt h
      · exact le_of_eq h.1
    have := yf_mono hg hw this hf.2 ht.1 hto h0 h1
    nlinarith [sq_nonneg v]
  · exact ⟨_, flat_forward.2 (.inl ⟨hb, T1, h1, rfl⟩)⟩

/-- C29. A forward variance from on or before the base date is the spot variance, on every surface. -/
theorem C29_spot (fuel : Nat) (s : VolSurface) (from_ to_ : Point) (h : ¬ before s.baseDate from_) (k : Num ℝ) :
    s.forwardVariance fuel from_ to_ k = s.variance fuel to_ k := by
  unfold VolSurface.forwardVariance VolSurface.forwardVariances VolSurface.variance
  simp only [h, not_false_eq_true, if_true]

/-- C29: the hypotheses are met on the every-day calendar: 10 and 20 days from the base date. -/
example : (VolSurface.flat (.val 0.2) .everyDay (0, 0)).forwardVariance 0 (10, 0) (20, 0) (.val 100)
      = .ok (.val (0.2 ^ 2 * (20 / 365) - 0.2 ^ 2 * (10 / 365))) ∧
    (VolSurface.flat (.val 0.2) .everyDay (0, 0)).forwardVariance 0 (0, 0) (10, 0) (.val 90)
      = .ok (.val (0.2 ^ 2 * (10 / 365))) ∧
    ¬ before ((10, 0) : Point) (0, 0) ∧ Good (.everyDay : Cal ℝ) ∧ GoodWeights (.everyDay : Cal ℝ) ∧ TimeOfDay (10, 0) := by
  have y (d : Nat) : yearFraction (.everyDay : Cal ℝ) ((0, 0) : Point) ((d : Int), 0) = .ok ((d : ℝ) / 365) := by
    unfold yearFraction countBusinessDays standardBasis
    rw [if_neg (by omega)]
    simp [Bind.bind, Except.bind, pure, Except.pure]
  have y10 := y 10
  have y20 := y 20
  norm_num at y10 y20
  refine ⟨flat_forward.2 (.inr ⟨.inl (by norm_num), 10 / 365, 20 / 365, ?_, ?_, by norm_num, rfl⟩),
    flat_forward.2 (.inl ⟨before_irrefl _, 10 / 365, ?_, rfl⟩), ?_, trivial, trivial, ?_⟩
  · convert y10 using 2; norm_num
  · convert y20 using 2; norm_num
  · convert y10 using 2; norm_num
  · rintro (h | h)
    · norm_num at h
    · norm_num at h
  · constructor <;> norm_num

/-! ## C30 forward variance of skewless surfaces -/

/-- C30. Without a forward curve the forward variance is the difference of the variances, even with skew.
Missing: surfaces with a forward curve, where the claim is false (`C30_forward_false`). -/
theorem C30_difference_partial (fuel : Nat) (s : VolSurface) (hf : s.forward = none) (from_ to_ : Point)
    (hb : before s.baseDate from_) (k : Num ℝ) (x : ℝ) (h : s.forwardVariance fuel from_ to_ k = .ok (.val x)) :
    ∃ a b, s.variance fuel from_ k = .ok (.val a) ∧ s.variance fuel to_ k = .ok (.val b) ∧ x = b - a := by
  unfold VolSurface.forwardVariance VolSurface.forwardVariances at h
  rw [hf] at h
  simp only [hb, not_true_eq_false, if_false] at h
  obtain ⟨l, h, h'⟩ := bind_ok h
  obtain ⟨l1, h1, h⟩ := bind_ok h
  obtain ⟨l2, h2, h⟩ := bind_ok h
  unfold VolSurface.variance
  rw [h1, h2]
  cases l1 with
  | nil => cases l2 <;> (simp [each] at h; subst h; cases h')
  | cons a l1 =>
    cases l2 with
    | nil => simp [each] at h; subst h; cases h'
    | cons b l2 =>
      simp only [List.zipWith_cons_cons] at h
      obtain ⟨w, h3, h⟩ := bind_ok h
      obtain ⟨ws, h4, h⟩ := bind_ok h
      have := pure_ok h
      subst this
      unfold first at h'
      cases h'
      unfold nonNegative at h3
      split at h3
      · cases h3
      · have h3 := pure_ok h3
        cases a with
        | nan => cases b <;> cases h3
        | val a =>
          cases b with
          | nan => cases h3
          | val b =>
            cases h3
            exact ⟨a, b, rfl, rfl, rfl⟩

/-- C30. With a forward curve every forward variance of a skewless surface is zero or not a number,
whatever the variances: both at-the-money variances are taken at the from date. -/
theorem C30_forward_zero (fuel : Nat) (s : VolSurface) (hs : Skewless fuel s) (hf : s.forward ≠ none) (from_ to_ : Point)
    (hb : before s.baseDate from_) (k : Num ℝ) (x : ℝ) (h : s.forwardVariance fuel from_ to_ k = .ok (.val x)) : x = 0 := by
  obtain ⟨fwd, hf⟩ := Option.ne_none_iff_exists'.1 hf
  unfold VolSurface.forwardVariance VolSurface.forwardVariances at h
  rw [hf] at h
  simp only [hb, not_true_eq_false, if_false] at h
  obtain ⟨l, h, h'⟩ := bind_ok h
  obtain ⟨f1, _, h⟩ := bind_ok h
  obtain ⟨f2, _, h⟩ := bind_ok h
  obtain ⟨v1, h1, h⟩ := bind_ok h
  obtain ⟨v2, h2, h⟩ := bind_ok h
  split at h
  · cases h
  obtain ⟨d, _, h⟩ := bind_ok h
  obtain ⟨f3, _, h⟩ := bind_ok h
  obtain ⟨v3, h3, h⟩ := bind_ok h
  obtain ⟨ws, h4, h⟩ := bind_ok h
  have hw := skewless_variance hs h3 h4
  have h12 : v2 = v1 := by
    obtain ⟨ws', hv, hf'⟩ := bind_ok h2
    cases ws' with
    | nil => cases hf'
    | cons w ws' =>
      cases hf'
      exact skewless_variance hs h1 hv _ (by simp)
  cases ws with
  | nil => cases h; cases h'
  | cons w ws =>
    obtain ⟨y, h5, h⟩ := bind_ok h
    obtain ⟨ys, _, h⟩ := bind_ok h
    have := pure_ok h
    subst this
    unfold first at h'
    cases h'
    simp only [nonNegative] at h5
    split at h5
    · cases h5
    · have h5 := pure_ok h5
      rw [hw w (by simp), h12] at h5
      cases v1 with
      | nan => cases v3 <;> cases h5
      | val a =>
        cases v3 with
        | nan => cases h5
        | val b =>
          simp only [num2] at h5
          cases h5
          ring

/-- A surface with one pillar, a flat smile and a forward curve. -/
noncomputable def onePillar : Input :=
  ⟨[((0, 0), .flat (.val 0.2))], .everyDay, (0, 0), ⟨.flat, .flat, [(.val ((0 : Int) : ℝ), 100)]⟩,
    ⟨.flat, .flat, [(.val ((0 : Int) : ℝ), 0)]⟩, .noCashDivs⟩

theorem everyDay_year (d : Nat) : yearFraction (.everyDay : Cal ℝ) ((0, 0) : Point) ((d : Int), 0) = .ok ((d : ℝ) / 365) := by
  unfold yearFraction countBusinessDays standardBasis
  rw [if_neg (by omega)]
  simp [Bind.bind, Except.bind, pure, Except.pure]

theorem onePillar_new : ∃ p, VolSurface.newByProbability onePillar = .ok (.byProbability onePillar [p]) := by
  have y := everyDay_year 0
  norm_num at y
  refine ⟨⟨.val 100, nsqrt (num2 (· * ·) (num2 (· * ·) (.val 0) (.val 0.2)) (.val 0.2)), 0⟩, ?_⟩
  unfold VolSurface.newByProbability
  simp only [onePillar, buildPillars, constant_forward, Smile.volatility, Bind.bind, Except.bind, y]
  have : ¬ nlt (num2 (· * ·) (num2 (· * ·) (.val 0) (.val 0.2)) (.val 0.2)) (.val 0) := by
    simp [num2, nlt]
  simp only [this, if_false]
  rfl

theorem onePillar_vols (fuel : Nat) (p : Pillar) (d : Nat) (hd : 0 < d) (k : Num ℝ) :
    (VolSurface.byProbability onePillar [p]).volatilities fuel ((d : Int), 0) [k] = .ok ((d : ℝ) / 365, [.val 0.2]) := by
  unfold VolSurface.volatilities byProbabilityVolatilities
  have : searchSmile onePillar.smiles ((d : Int), (0 : ℝ)) = (1, false) :=
    searchSmile_end (by
      intro q hq
      simp only [onePillar, List.mem_singleton] at hq
      subst hq
      left
      simpa using hd)
  simp only [this]
  simp only [onePillar, List.length_cons, List.length_nil, extrapolate, everyDay_year, constant_forward,
    Bind.bind, Except.bind, each, Smile.volatility, List.map_cons, List.map_nil, pure, Except.pure]
  norm_num

/-- C30 violated: a skewless surface, one flat smile of 20%, has a variance that grows from day 10 to
day 20, but no forward variance between them. -/
theorem C30_forward_false (fuel : Nat) : ∃ s, VolSurface.newByProbability onePillar = .ok s ∧
    s.variance fuel (10, 0) (.val 100) = .ok (.val (0.04 * (10 / 365))) ∧
    s.variance fuel (20, 0) (.val 100) = .ok (.val (0.04 * (20 / 365))) ∧
    s.forwardVariance fuel (10, 0) (20, 0) (.val 100) = .ok (.val 0) := by
  obtain ⟨p, hp⟩ := onePillar_new
  have v (d : Nat) (hd : 0 < d) (k : Num ℝ) :
      (VolSurface.byProbability onePillar [p]).variances fuel ((d : Int), 0) [k] = .ok [.val (0.04 * (d / 365))] := by
    unfold VolSurface.variances
    rw [onePillar_vols fuel p d hd k]
    simp only [Bind.bind, Except.bind, num2, List.map_cons, List.map_nil, pure, Except.pure]
    congr 3
    ring
  have v10 (k : Num ℝ) := v 10 (by norm_num) k
  have v20 (k : Num ℝ) := v 20 (by norm_num) k
  norm_num at v10 v20
  refine ⟨_, hp, ?_, ?_, ?_⟩
  · unfold VolSurface.variance
    rw [v10]
    norm_num [Bind.bind, Except.bind, first]
  · unfold VolSurface.variance
    rw [v20]
    norm_num [Bind.bind, Except.bind, first]
  · unfold VolSurface.forwardVariance VolSurface.forwardVariances
    have hb : before (VolSurface.byProbability onePillar [p]).baseDate (10, 0) := by
      left
      show (0 : Int) < 10
      norm_num
    have hfw : (VolSurface.byProbability onePillar [p]).forward = some (fun _ => .ok (.val 100)) := by
      show some (atDate onePillar.forward) = _
      congr 1
      funext d
      exact constant_forward 0 d 100
    have hsd : (VolSurface.byProbability onePillar [p]).findSmileDate fuel (10, 0) (20, 0) = .ok (10, 0) := by
      unfold VolSurface.findSmileDate
      rw [show (VolSurface.byProbability onePillar [p]).calendar = .everyDay from rfl,
        show (VolSurface.byProbability onePillar [p]).baseDate = (0, 0) from rfl]
      have hc : countBusinessDays (.everyDay : Cal ℝ) 10 0 20 0 = .ok 10 := by
        unfold countBusinessDays
        rw [if_neg (by norm_num)]
        norm_num
      have hr : stepPartial fuel (.everyDay : Cal ℝ) 0 10 true = some (.ok 10) := by
        unfold stepPartial
        rw [show (10 : ℝ) = ((10 : Int) : ℝ) by norm_num, round_int]
        rfl
      simp only [hc, hr, Bind.bind, Except.bind, finished]
      rfl
    rw [hfw]
    have e (x : ℝ) : num2 (· - ·) (.val x) (.val x) = .val 0 := by simp [num2]
    have e' : num2 (· + ·) (.val 0) (.val 0) = .val 0 := by simp [num2]
    have hn : ¬ nlt (.val (0 : ℝ)) (.val 0) := by simp [nlt]
    have hn' : nonNegative (.val 0) = .ok (.val 0) := if_neg hn
    simp only [hb, not_true_eq_false, if_false, VolSurface.variance, v10, Bind.bind, Except.bind, first]
    rw [e, if_neg hn]
    simp only [hsd, v10, each, Bind.bind, Except.bind]
    rw [e, e', hn']
    rfl

theorem each_flat (w : Num ℝ) {ks vs : List (Num ℝ)} (h : each (Smile.flat w).volatility ks = .ok vs) : ∀ v ∈ vs, v = w := by
  have := each_iff.1 h
  clear h
  induction this with
  | nil => simp
  | cons h1 h2 ih =>
    cases h1
    simpa using ih

theorem extrapolate_flat {input : Input} {w : Num ℝ} {p : Pillar} {t : Point} {ks vs : List (Num ℝ)} {T : ℝ}
    (h : extrapolate input (.flat w) p t ks = .ok (T, vs)) :
    yearFraction input.calendar input.baseDate t = .ok T ∧ ∀ v ∈ vs, v = w := by
  obtain ⟨T', h1, h⟩ := bind_ok h
  cases ks with
  | nil => have := pure_ok h; cases this; exact ⟨h1, by simp⟩
  | cons k ks =>
    obtain ⟨f, _, h⟩ := bind_ok h
    obtain ⟨out, h2, h⟩ := bind_ok h
    have := pure_ok h
    cases this
    exact ⟨h1, each_flat w h2⟩

/-- C30: the surface of the counterexample is skewless, so it meets the hypotheses of `C30_forward_zero`. -/
theorem C30_onePillar_skewless (fuel : Nat) : ∃ s, VolSurface.newByProbability onePillar = .ok s ∧ Skewless fuel s ∧
    s.forward ≠ none := by
  obtain ⟨p, hp⟩ := onePillar_new
  refine ⟨_, hp, ?_, by rw [VolSurface.forward]; exact Option.some_ne_none _⟩
  have key : ∀ t ks T vs, (VolSurface.byProbability onePillar [p]).volatilities fuel t ks = .ok (T, vs) →
      (t = (0, 0) → T = p.volTime) ∧ (t ≠ (0, 0) → yearFraction onePillar.calendar onePillar.baseDate t = .ok T) ∧
        ∀ v ∈ vs, v = .val 0.2 := by
    intro t ks T vs h
    unfold VolSurface.volatilities byProbabilityVolatilities at h
    rcases before_total (0, 0) t with ht | ht | ht
    · have hse : searchSmile onePillar.smiles t = (1, false) :=
        searchSmile_end (by
          intro q hq
          simp only [onePillar, List.mem_singleton] at hq
          subst hq
          exact ht)
      simp only [hse] at h
      have h := extrapolate_flat (input := onePillar) (w := .val 0.2) (p := p) h
      exact ⟨fun e => absurd ht (by rw [e]; exact before_irrefl _), fun _ => h.1, h.2⟩
    · subst ht
      have hse : searchSmile onePillar.smiles (0, 0) = (0, true) := by
        have := searchSmile_eq (l := []) (r := []) (p := (((0, 0) : Point), Smile.flat (.val 0.2))) (t := (0, 0)) (by simp)
          (before_irrefl _)
        simpa [onePillar] using this
      simp only [hse, if_true] at h
      obtain ⟨⟨sm, q⟩, hq, h⟩ := bind_ok h
      cases hq
      obtain ⟨out, h2, h⟩ := bind_ok h
      have := pure_ok h
      cases this
      exact ⟨fun _ => rfl, fun e => absurd rfl e, each_flat (.val 0.2) h2⟩
    · have hne : t ≠ (0, 0) := by
        intro e
        rw [e] at ht
        exact before_irrefl _ ht
      have hse : searchSmile onePillar.smiles t = (0, false) := by
        have := searchSmile_eq (l := []) (r := []) (p := (((0, 0) : Point), Smile.flat (.val 0.2))) (t := t) (by simp)
          (fun h => before_irrefl _ (before_trans h ht))
        have e : decide (((0, 0) : Point) = t) = false := by simpa using fun e => hne e.symm
        simp only [List.nil_append, List.length_nil] at this
        unfold onePillar
        simp only [this]
        rw [e]
      simp only [hse] at h
      have h := extrapolate_flat (input := onePillar) (w := .val 0.2) (p := p) h
      exact ⟨fun e => absurd e hne, fun _ => h.1, h.2⟩
  intro t ks ks' T T' vs vs' h1 h2
  obtain ⟨a1, b1, c1⟩ := key _ _ _ _ h1
  obtain ⟨a2, b2, c2⟩ := key _ _ _ _ h2
  refine ⟨?_, fun v hv v' hv' => by rw [c1 v hv, c2 v' hv']⟩
  by_cases ht : t = (0, 0)
  · rw [a1 ht, a2 ht]
  · have e1 := b1 ht
    rw [b2 ht] at e1
    cases e1
    rfl

/-! ## C31 interpolated surfaces -/

/-- C31. On a pillar date the surface gives exactly the volatilities of the pillar's smile and the time
of the pillar. -/
theorem C31_pillar (fuel : Nat) (input : Input) (s : VolSurface) (h : VolSurface.newByProbability input = .ok s)
    (ha : Ascending input.smiles) (t : Point) (smile : Smile) (hm : (t, smile) ∈ input.smiles) (ks vs : List (Num ℝ)) (T : ℝ) :
    s.volatilities fuel t ks = .ok (T, vs) ↔
      yearFraction input.calendar input.baseDate t = .ok T ∧ List.Forall₂ (fun k v => smile.volatility k = .ok v) ks vs := by
  obtain ⟨ps, hps, rfl⟩ := new_ok h
  obtain ⟨l, r, hlr⟩ := List.append_of_mem hm
  have hse : searchSmile input.smiles t = (l.length, true) := by
    rw [hlr] at ha ⊢
    rw [searchSmile_eq (ascending_left ha) (before_irrefl _)]
    simp
  have hi : input.smiles[l.length]? = some (t, smile) := by rw [hlr]; simp
  obtain ⟨p, hp, ht, _⟩ := getpillar_exists hps hi
  unfold VolSurface.volatilities byProbabilityVolatilities
  simp only [hse, if_true, hi, hp, Bind.bind, Except.bind, pure, Except.pure, ht]
  rw [← each_iff]
  cases he : each smile.volatility ks with
  | error e => simp
  | ok out =>
    simp only [Except.ok.injEq, Prod.mk.injEq]

/-- The pillars used between two adjacent ones. -/
theorem between_ok {fuel : Nat} {input : Input} {s : VolSurface} (h : VolSurface.newByProbability input = .ok s)
    (ha : Ascending input.smiles) {l r : List (Point × Smile)} {pl pr : Point × Smile}
    (hlr : input.smiles = l ++ pl :: pr :: r) {t : Point} (hl : before pl.1 t) (hr : before t pr.1) {ks vs : List (Num ℝ)} {T : ℝ}
    (hv : s.volatilities fuel t ks = .ok (T, vs)) :
    ∃ ql qr ps, buildPillars input (.val 0) input.smiles = .ok ps ∧ ps[l.length]? = some ql ∧ ps[l.length + 1]? = some qr ∧
      interpolate input pl.2 pr.2 ql qr t ks = .ok (T, vs) := by
  obtain ⟨ps, hps, rfl⟩ := new_ok h
  have e : input.smiles = (l ++ [pl]) ++ pr :: r := by simp [hlr]
  have hse : searchSmile input.smiles t = (l.length + 1, false) := by
    rw [e, searchSmile_eq]
    · simp only [List.length_append, List.length_cons, List.length_nil, Prod.mk.injEq]
      refine ⟨by simp, ?_⟩
      simp only [decide_eq_false_iff_not]
      intro e
      rw [e] at hr
      exact before_irrefl _ hr
    · rw [hlr] at ha
      intro q hq
      rcases List.mem_append.1 hq with hq | hq
      · exact before_trans (ascending_left ha q hq) hl
      · simp at hq; subst hq; exact hl
    · exact fun h => before_irrefl _ (before_trans h hr)
  have hi : input.smiles[l.length]? = some pl := by rw [hlr]; simp
  have hi' : input.smiles[l.length + 1]? = some pr := by rw [hlr]; simp
  obtain ⟨ql, hql, _⟩ := getpillar_exists hps hi
  obtain ⟨qr, hqr, _⟩ := getpillar_exists hps hi'
  have hlen : input.smiles.length = l.length + 2 + r.length := by rw [hlr]; simp; omega
  unfold VolSurface.volatilities byProbabilityVolatilities at hv
  simp only [hse] at hv
  rw [if_neg (by simp), if_neg (by omega), if_neg (by omega)] at hv
  simp only [Nat.add_sub_cancel, hi, hi', hql, hqr, Bind.bind, Except.bind] at hv
  exact ⟨ql, qr, ps, hps, hql, hqr, hv⟩

/-- C31. Between two pillars, if the surface gives a number, the variance lies on the straight line in time
between the variances of the two smiles at the same normalised strike, and the left one is not larger than
the right one. -/
theorem C31_between (fuel : Nat) (input : Input) (s : VolSurface) (h : VolSurface.newByProbability input = .ok s)
    (ha : Ascending input.smiles) (l r : List (Point × Smile)) (pl pr : Point × Smile)
    (hlr : input.smiles = l ++ pl :: pr :: r) (t : Point) (hl : before pl.1 t) (hr : before t pr.1)
    (Fl Tl Al Fr Tr Ar : ℝ) (hpl : AtPillar input pl Fl Tl Al) (hpr : AtPillar input pr Fr Tr Ar) (hAl : 0 ≤ Al) (hAr : 0 ≤ Ar)
    (F : ℝ) (hF : atDate input.forward t.1 = .ok (.val F)) (ks vs : List (Num ℝ)) (T : ℝ)
    (hA : 0 < straight Tl Tr Al Ar T)
    (hv : s.volatilities fuel t ks = .ok (T, vs)) (i : Nat) (K w : ℝ) (hK : 0 < K) (hF0 : 0 < F)
    (hk : ks[i]? = some (.val K)) (hw : vs[i]? = some (.val w)) :
    yearFraction input.calendar input.baseDate t = .ok T ∧
    ∃ vl vr, pl.2.volatility (.val (strikeAt (normalised K F (straight Tl Tr Al Ar T)) Fl Al)) = .ok (.val vl) ∧
      pr.2.volatility (.val (strikeAt (normalised K F (straight Tl Tr Al Ar T)) Fr Ar)) = .ok (.val vr) ∧
      Tl * vl ^ 2 ≤ Tr * vr ^ 2 ∧ T * w ^ 2 = straight Tl Tr (Tl * vl ^ 2) (Tr * vr ^ 2) T := by
  obtain ⟨ql, qr, ps, hps, hql, hqr, hi⟩ := between_ok h ha hlr hl hr hv
  have e1 := getpillar hps (i := l.length) (sm := pl) (by rw [hlr]; simp) hpl hAl
  have e2 := getpillar hps (i := l.length + 1) (sm := pr) (by rw [hlr]; simp) hpr hAr
  rw [hql] at e1
  rw [hqr] at e2
  cases e1
  cases e2
  obtain ⟨T', hT, hi⟩ := bind_ok hi
  cases ks with
  | nil => simp at hk
  | cons k ks =>
    simp only [hF, Bind.bind, Except.bind] at hi
    obtain ⟨lv, hlv, hi⟩ := bind_ok hi
    obtain ⟨rv, hrv, hi⟩ := bind_ok hi
    obtain ⟨out, hout, hi⟩ := bind_ok hi
    have := pure_ok hi
    cases this
    refine ⟨hT, ?_⟩
    have hTT : Tr - Tl ≠ 0 := by
      intro e
      have hf : ndiv (.val (T - Tl)) (.val (Tr - Tl)) = .nan := by
        exact if_pos e
      rw [hf] at hlv hrv hout
      obtain ⟨vl, _, hlv'⟩ := pillarVariances_get hlv (i := i) (k := _) (by
        rw [List.getElem?_map, List.getElem?_map, hk]; rfl)
      obtain ⟨vr, _, hrv'⟩ := pillarVariances_get hrv (i := i) (k := _) (by
        rw [List.getElem?_map, List.getElem?_map, hk]; rfl)
      obtain ⟨_, ho⟩ := combine_get hout hlv' hrv'
      rw [hw] at ho
      cases vl <;> cases vr <;> simp [nlerp, num2, ndiv, nsqrt] at ho
    have hf : ndiv (.val (T - Tl)) (.val (Tr - Tl)) = .val ((T - Tl) / (Tr - Tl)) := by
      exact if_neg hTT
    have hatm : nsqrt (nlerp (num2 (· * ·) (.val (Real.sqrt Al)) (.val (Real.sqrt Al)))
        (num2 (· * ·) (.val (Real.sqrt Ar)) (.val (Real.sqrt Ar))) (.val ((T - Tl) / (Tr - Tl))))
        = .val (Real.sqrt (straight Tl Tr Al Ar T)) := by
      simp only [num2, nlerp, Real.mul_self_sqrt hAl, Real.mul_self_sqrt hAr, line_lerp, nsqrt]
      rw [if_neg (by linarith)]
    have hn : toNormalised (.val F) (.val (Real.sqrt (straight Tl Tr Al Ar T))) (.val K)
        = .val (normalised K F (straight Tl Tr Al Ar T)) := by
      unfold toNormalised
      simp only [ndiv]
      rw [if_neg hF0.ne']
      simp only [nln, QM.Curves.ln]
      rw [if_pos (by positivity)]
      simp only
      rw [if_neg (Real.sqrt_ne_zero'.2 hA)]
      rfl
    rw [hf] at hlv hrv hout
    rw [hatm] at hlv hrv
    obtain ⟨vl, hvl, hlv'⟩ := pillarVariances_get hlv (i := i) (k := .val (strikeAt (normalised K F (straight Tl Tr Al Ar T)) Fl Al)) (by
      rw [List.getElem?_map, List.getElem?_map, hk]
      simp only [Option.map_some, hn]
      rfl)
    obtain ⟨vr, hvr, hrv'⟩ := pillarVariances_get hrv (i := i) (k := .val (strikeAt (normalised K F (straight Tl Tr Al Ar T)) Fr Ar)) (by
      rw [List.getElem?_map, List.getElem?_map, hk]
      simp only [Option.map_some, hn]
      rfl)
    obtain ⟨hnl, ho⟩ := combine_get hout hlv' hrv'
    rw [hw] at ho
    cases vl with
    | nan => simp [nlerp, num2, ndiv, nsqrt] at ho
    | val vl =>
      cases vr with
      | nan => simp [nlerp, num2, ndiv, nsqrt] at ho
      | val vr =>
        refine ⟨vl, vr, hvl, hvr, ?_, ?_⟩
        · simp only [num2, nlt] at hnl
          nlinarith
        · simp only [num2, nlerp, line_lerp, ndiv] at ho
          by_cases hT0 : T = 0
          · simp [hT0, nsqrt] at ho
          · rw [if_neg hT0] at ho
            unfold nsqrt at ho
            simp only at ho
            by_cases hneg : straight Tl Tr (vl * vl * Tl) (vr * vr * Tr) T / T < 0
            · rw [if_pos hneg] at ho; cases ho
            · rw [if_neg hneg] at ho
              simp only [Option.some.injEq, Num.val.injEq] at ho
              rw [ho, Real.sq_sqrt (by linarith), mul_div_cancel₀ _ hT0]
              congr 1 <;> ring

theorem straight_between {Tl Tr l r T : ℝ} (h1 : Tl ≤ T) (h2 : T ≤ Tr) (h : l ≤ r) :
    l ≤ straight Tl Tr l r T ∧ straight Tl Tr l r T ≤ r := by
  unfold straight
  have hf0 : 0 ≤ (T - Tl) / (Tr - Tl) := div_nonneg (by linarith) (by linarith)
  have hf1 : (T - Tl) / (Tr - Tl) ≤ 1 := div_le_one_of_le₀ (by linarith) (by linarith)
  constructor <;> nlinarith

/-- C31. Between two pillars the variance lies between the variances of the two smiles at the same
normalised strike. -/
theorem C31_within (fuel : Nat) (input : Input) (s : VolSurface) (h : VolSurface.newByProbability input = .ok s)
    (ha : Ascending input.smiles) (hg : Good input.calendar) (hgw : GoodWeights input.calendar)
    (l r : List (Point × Smile)) (pl pr : Point × Smile)
    (hlr : input.smiles = l ++ pl :: pr :: r) (t : Point) (hl : before pl.1 t) (hr : before t pr.1)
    (hbase : input.baseDate.1 ≤ pl.1.1) (hdl : TimeOfDay pl.1) (hdt : TimeOfDay t) (hdr : TimeOfDay pr.1)
    (Fl Tl Al Fr Tr Ar : ℝ) (hpl : AtPillar input pl Fl Tl Al) (hpr : AtPillar input pr Fr Tr Ar) (hAl : 0 ≤ Al) (hAr : 0 ≤ Ar)
    (F : ℝ) (hF : atDate input.forward t.1 = .ok (.val F)) (ks vs : List (Num ℝ)) (T : ℝ)
    (hA : 0 < straight Tl Tr Al Ar T)
    (hv : s.volatilities fuel t ks = .ok (T, vs)) (i : Nat) (K w : ℝ) (hK : 0 < K) (hF0 : 0 < F)
    (hk : ks[i]? = some (.val K)) (hw : vs[i]? = some (.val w)) :
    ∃ vl vr, pl.2.volatility (.val (strikeAt (normalised K F (straight Tl Tr Al Ar T)) Fl Al)) = .ok (.val vl) ∧
      pr.2.volatility (.val (strikeAt (normalised K F (straight Tl Tr Al Ar T)) Fr Ar)) = .ok (.val vr) ∧
      Tl * vl ^ 2 ≤ T * w ^ 2 ∧ T * w ^ 2 ≤ Tr * vr ^ 2 := by
  obtain ⟨hT, vl, vr, h1, h2, h3, h4⟩ := C31_between fuel input s h ha l r pl pr hlr t hl hr Fl Tl Al Fr Tr Ar hpl hpr hAl hAr F hF
    ks vs T hA hv i K w hK hF0 hk hw
  have n1 : ¬ before t pl.1 := fun e => before_irrefl _ (before_trans e hl)
  have n2 : ¬ before pr.1 t := fun e => before_irrefl _ (before_trans e hr)
  have hb2 : input.baseDate.1 ≤ t.1 := by
    rcases hl with e | e
    · omega
    · omega
  have := yf_mono hg hgw hbase hdl.2 hdt.1 n1 hpl.2.1 hT
  have := yf_mono hg hgw hb2 hdt.2 hdr.1 n2 hT hpr.2.1
  refine ⟨vl, vr, h1, h2, ?_⟩
  rw [h4]
  exact straight_between (by assumption) (by assumption) h3

/-- C31. At a fixed normalised strike the variance does not fall from one date to a later one between the
same two pillars. -/
theorem C31_calendar (fuel : Nat) (input : Input) (s : VolSurface) (h : VolSurface.newByProbability input = .ok s)
    (ha : Ascending input.smiles) (hg : Good input.calendar) (hgw : GoodWeights input.calendar)
    (l r : List (Point × Smile)) (pl pr : Point × Smile) (hlr : input.smiles = l ++ pl :: pr :: r)
    (hbase : input.baseDate.1 ≤ pl.1.1) (hdl : TimeOfDay pl.1) (hdr : TimeOfDay pr.1)
    (Fl Tl Al Fr Tr Ar : ℝ) (hpl : AtPillar input pl Fl Tl Al) (hpr : AtPillar input pr Fr Tr Ar) (hAl : 0 ≤ Al) (hAr : 0 ≤ Ar)
    (t t' : Point) (hl : before pl.1 t) (htt : before t t') (hr : before t' pr.1) (hdt : TimeOfDay t) (hdt' : TimeOfDay t')
    (F F' : ℝ) (hF : atDate input.forward t.1 = .ok (.val F)) (hF' : atDate input.forward t'.1 = .ok (.val F'))
    (hF0 : 0 < F) (hF0' : 0 < F') (T T' K K' w w' : ℝ) (hK : 0 < K) (hK' : 0 < K')
    (hA : 0 < straight Tl Tr Al Ar T) (hA' : 0 < straight Tl Tr Al Ar T')
    (hv : s.volatilities fuel t [.val K] = .ok (T, [.val w])) (hv' : s.volatilities fuel t' [.val K'] = .ok (T', [.val w']))
    (hz : normalised K F (straight Tl Tr Al Ar T) = normalised K' F' (straight Tl Tr Al Ar T')) :
    T * w ^ 2 ≤ T' * w' ^ 2 := by
  obtain ⟨hT, vl, vr, h1, h2, h3, h4⟩ := C31_between fuel input s h ha l r pl pr hlr t hl (before_trans htt hr) Fl Tl Al Fr Tr Ar
    hpl hpr hAl hAr F hF _ _ T hA hv 0 K w hK hF0 rfl rfl
  obtain ⟨hT', vl', vr', h1', h2', h3', h4'⟩ := C31_between fuel input s h ha l r pl pr hlr t' (before_trans hl htt) hr Fl Tl Al Fr Tr Ar
    hpl hpr hAl hAr F' hF' _ _ T' hA' hv' 0 K' w' hK' hF0' rfl rfl
  rw [← hz, h1] at h1'
  rw [← hz, h2] at h2'
  cases h1'
  cases h2'
  have hb2 : input.baseDate.1 ≤ t.1 := by
    rcases hl with e | e
    · omega
    · omega
  have m1 := yf_mono hg hgw hb2 hdt.2 hdt'.1 (fun e => before_irrefl _ (before_trans e htt)) hT hT'
  have m2 := yf_mono hg hgw hbase hdl.2 hdt.1 (fun e => before_irrefl _ (before_trans e hl)) hpl.2.1 hT
  have m3 := yf_mono hg hgw (by rcases htt with e | e <;> omega) hdt'.2 hdr.1 (fun e => before_irrefl _ (before_trans e hr)) hT' hpr.2.1
  rw [h4, h4']
  unfold straight
  have : (T - Tl) / (Tr - Tl) ≤ (T' - Tl) / (Tr - Tl) := div_le_div_of_nonneg_right (by linarith) (by linarith)
  nlinarith

/-- C31. Outside the pillars the surface gives the volatility of the end smile at the strike the same
number of square roots of time away from the forward. -/
theorem C31_outside (fuel : Nat) (input : Input) (s : VolSurface) (h : VolSurface.newByProbability input = .ok s)
    (p : Point × Smile) (t : Point)
    (hend : (∃ r, input.smiles = p :: r ∧ before t p.1) ∨
      (∃ l, input.smiles = l ++ [p] ∧ before p.1 t ∧ Ascending input.smiles))
    (F Fp T Tp K : ℝ) (hF : atDate input.forward t.1 = .ok (.val F)) (hFp : atDate input.forward p.1.1 = .ok (.val Fp))
    (hT : yearFraction input.calendar input.baseDate t = .ok T) (hTp : yearFraction input.calendar input.baseDate p.1 = .ok Tp)
    (hK : 0 < K) (hF0 : 0 < F) (hT0 : 0 < T) (hTp0 : 0 ≤ Tp) :
    s.volatilities fuel t [.val K] =
      (p.2.volatility (.val (strikeAt (normalised K F T) Fp Tp))).map (fun v => (T, [v])) := by
  obtain ⟨ps, hps, rfl⟩ := new_ok h
  have key : ∀ q : Pillar, q.forward = .val Fp → q.volTime = Tp → extrapolate input p.2 q t [.val K] =
      (p.2.volatility (.val (strikeAt (normalised K F T) Fp Tp))).map (fun v => (T, [v])) := by
    intro q hq1 hq2
    have s1 : nsqrt (.val T) = .val (Real.sqrt T) := if_neg (by linarith)
    have s2 : nsqrt (.val Tp) = .val (Real.sqrt Tp) := if_neg (by linarith)
    have hn : toNormalised (.val F) (.val (Real.sqrt T)) (.val K) = .val (normalised K F T) := by
      unfold toNormalised
      simp only [ndiv]
      rw [if_neg hF0.ne']
      simp only [nln, QM.Curves.ln]
      rw [if_pos (by positivity)]
      simp only
      rw [if_neg (Real.sqrt_ne_zero'.2 hT0)]
      rfl
    unfold extrapolate
    simp only [hT, hF, hq1, hq2, s1, s2, List.map_cons, List.map_nil, hn, Bind.bind, Except.bind, each]
    have : toStrike (.val Fp) (.val (Real.sqrt Tp)) (.val (normalised K F T)) = .val (strikeAt (normalised K F T) Fp Tp) := rfl
    rw [this]
    cases p.2.volatility (.val (strikeAt (normalised K F T) Fp Tp)) <;> rfl
  unfold VolSurface.volatilities byProbabilityVolatilities
  rcases hend with ⟨r, hr, hb⟩ | ⟨l, hl, hb, ha⟩
  · have hse : searchSmile input.smiles t = (0, false) := by
      have := searchSmile_eq (l := []) (r := r) (p := p) (t := t) (by simp) (fun e => before_irrefl _ (before_trans e hb))
      rw [hr]
      simp only [List.nil_append] at this
      rw [this]
      simp only [List.length_nil, Prod.mk.injEq, true_and, decide_eq_false_iff_not]
      intro e
      rw [e] at hb
      exact before_irrefl _ hb
    have hi : input.smiles[0]? = some p := by rw [hr]; rfl
    obtain ⟨q, hq, h1, h2⟩ := getpillar_exists hps hi
    rw [hTp] at h1
    rw [hFp] at h2
    cases h1
    simp only [Except.ok.injEq] at h2
    simp only [hse, hi, hq, Bind.bind, Except.bind]
    simpa using key q h2.symm rfl
  · have hse : searchSmile input.smiles t = (input.smiles.length, false) := by
      apply searchSmile_end
      rw [hl] at ha ⊢
      intro q hq
      rcases List.mem_append.1 hq with hq | hq
      · exact before_trans (ascending_left ha q hq) hb
      · simp at hq; subst hq; exact hb
    have hlen : input.smiles.length = l.length + 1 := by rw [hl]; simp
    have hi : input.smiles[l.length]? = some p := by rw [hl]; simp
    obtain ⟨q, hq, h1, h2⟩ := getpillar_exists hps hi
    rw [hTp] at h1
    rw [hFp] at h2
    cases h1
    simp only [Except.ok.injEq] at h2
    simp only [hse, hlen, Nat.add_sub_cancel, hi, hq, Bind.bind, Except.bind]
    simpa using key q h2.symm rfl

/-- A surface with two flat smiles and a constant forward of 100. -/
noncomputable def twoFlat (c : Cal ℝ) (base tl tr : Point) (vl vr : ℝ) : Input :=
  ⟨[(tl, .flat (.val vl)), (tr, .flat (.val vr))], c, base, ⟨.flat, .flat, [(.val ((0 : Int) : ℝ), 100)]⟩,
    ⟨.flat, .flat, [(.val ((0 : Int) : ℝ), 0)]⟩, .noCashDivs⟩

theorem twoFlat_vols (fuel : Nat) (c : Cal ℝ) (base tl tr t : Point) (vl vr Tl Tr T : ℝ) (h1 : before tl t) (h2 : before t tr)
    (hl : yearFraction c base tl = .ok Tl) (hr : yearFraction c base tr = .ok Tr) (ht : yearFraction c base t = .ok T)
    (h0 : 0 ≤ Tl * vl * vl) (h01 : Tl * vl * vl ≤ Tr * vr * vr) (k : Num ℝ) :
    ∃ s, VolSurface.newByProbability (twoFlat c base tl tr vl vr) = .ok s ∧
      s.volatilities fuel t [k] = .ok (T, [nsqrt (ndiv (nlerp (.val (vl * vl * Tl)) (.val (vr * vr * Tr))
        (ndiv (.val (T - Tl)) (.val (Tr - Tl)))) (.val T))]) := by
  have hn : VolSurface.newByProbability (twoFlat c base tl tr vl vr) = .ok (.byProbability (twoFlat c base tl tr vl vr)
      [⟨.val 100, nsqrt (.val (Tl * vl * vl)), Tl⟩, ⟨.val 100, nsqrt (.val (Tr * vr * vr)), Tr⟩]) := by
    unfold VolSurface.newByProbability
    have n1 : ¬ nlt (.val (Tl * vl * vl)) (.val 0) := by simp only [nlt]; linarith
    have n2 : ¬ nlt (.val (Tr * vr * vr)) (.val (Tl * vl * vl)) := by simp only [nlt]; linarith
    simp only [twoFlat, buildPillars, constant_forward, Smile.volatility, Bind.bind, Except.bind, hl, hr]
    rw [show num2 (· * ·) (num2 (· * ·) (.val Tl) (.val vl)) (.val vl) = .val (Tl * vl * vl) from rfl,
      show num2 (· * ·) (num2 (· * ·) (.val Tr) (.val vr)) (.val vr) = .val (Tr * vr * vr) from rfl, if_neg n1, if_neg n2]
    rfl
  refine ⟨_, hn, ?_⟩
  have hse : searchSmile (twoFlat c base tl tr vl vr).smiles t = (1, false) := by
    have := searchSmile_eq (l := [(tl, Smile.flat (.val vl))]) (r := []) (p := (tr, Smile.flat (.val vr))) (t := t)
      (by simpa using h1) (fun e => before_irrefl _ (before_trans e h2))
    simp only [List.singleton_append, List.length_singleton] at this
    unfold twoFlat
    simp only [this, Prod.mk.injEq, true_and, decide_eq_false_iff_not]
    intro e
    rw [e] at h2
    exact before_irrefl _ h2
  unfold VolSurface.volatilities byProbabilityVolatilities
  simp only [hse]
  simp only [twoFlat, List.length_cons, List.length_nil]
  norm_num
  simp only [Bind.bind, Except.bind, interpolate, ht, constant_forward, pillarVariances, each, Smile.volatility, List.map_cons,
    List.map_nil, pure, Except.pure, combine]
  have n3 : ¬ nlt (num2 (· * ·) (num2 (· * ·) (.val vr) (.val vr)) (.val Tr)) (num2 (· * ·) (num2 (· * ·) (.val vl) (.val vl)) (.val Tl)) := by
    simp only [num2, nlt]
    linarith
  have cf := constant_forward 0 t.1 100
  norm_num at cf
  simp only [n3, if_false, cf]
  rfl

/-- C31: the hypotheses of `C31_between` and `C31_within` are met by two flat smiles, 20% at day 100 and 30%
at day 200, queried at day 150. -/
example : ∃ s, VolSurface.newByProbability (twoFlat .everyDay (0, 0) (100, 0) (200, 0) 0.2 0.3) = .ok s ∧
    Ascending (twoFlat .everyDay (0, 0) (100, 0) (200, 0) 0.2 0.3).smiles ∧
    AtPillar (twoFlat .everyDay (0, 0) (100, 0) (200, 0) 0.2 0.3) ((100, 0), .flat (.val 0.2)) 100 (100 / 365) (100 / 365 * 0.2 ^ 2) ∧
    AtPillar (twoFlat .everyDay (0, 0) (100, 0) (200, 0) 0.2 0.3) ((200, 0), .flat (.val 0.3)) 100 (200 / 365) (200 / 365 * 0.3 ^ 2) ∧
    0 < straight (100 / 365) (200 / 365) (100 / 365 * 0.2 ^ 2) (200 / 365 * 0.3 ^ 2) (150 / 365) ∧
    ∃ w, s.volatilities 0 (150, 0) [.val 100] = .ok (150 / 365, [.val w]) := by
  have y1 := everyDay_year 100
  have y2 := everyDay_year 200
  have y3 := everyDay_year 150
  push_cast at y1 y2 y3
  obtain ⟨s, hs, hv⟩ := twoFlat_vols 0 .everyDay (0, 0) (100, 0) (200, 0) (150, 0) 0.2 0.3 _ _ _
    (.inl (by norm_num)) (.inl (by norm_num)) y1 y2 y3 (by norm_num) (by norm_num) (.val 100)
  refine ⟨s, hs, ?_, ?_, ?_, ?_, ?_⟩
  · unfold Ascending twoFlat
    simp [before]
  · exact ⟨constant_forward _ _ _, y1, 0.2, rfl, rfl⟩
  · exact ⟨constant_forward _ _ _, y2, 0.3, rfl, rfl⟩
  · unfold straight
    norm_num
  · rw [hv]
    have e1 : ndiv (.val (150 / 365 - 100 / 365)) (.val (200 / 365 - 100 / 365)) = .val ((150 / 365 - 100 / 365) / (200 / 365 - 100 / 365)) :=
      if_neg (by norm_num)
    rw [e1]
    simp only [nlerp]
    have e2 : ∀ x : ℝ, ndiv (.val x) (.val (150 / 365)) = .val (x / (150 / 365)) := fun x => if_neg (by norm_num)
    rw [e2]
    refine ⟨_, congrArg _ (congrArg _ (congrArg (· :: []) (if_neg ?_)))⟩
    unfold lerp
    norm_num

/-- C31: `C31_calendar` at days 150 and 160: the forward is a normalised strike of zero on both. -/
example : ∃ s, VolSurface.newByProbability (twoFlat .everyDay (0, 0) (100, 0) (200, 0) 0.2 0.3) = .ok s ∧
    (∃ w, s.volatilities 0 (160, 0) [.val 100] = .ok (160 / 365, [.val w])) ∧
    ∀ A A' : ℝ, normalised 100 100 A = normalised 100 100 A' := by
  have y1 := everyDay_year 100
  have y2 := everyDay_year 200
  have y3 := everyDay_year 160
  push_cast at y1 y2 y3
  obtain ⟨s, hs, hv⟩ := twoFlat_vols 0 .everyDay (0, 0) (100, 0) (200, 0) (160, 0) 0.2 0.3 _ _ _
    (.inl (by norm_num)) (.inl (by norm_num)) y1 y2 y3 (by norm_num) (by norm_num) (.val 100)
  refine ⟨s, hs, ?_, fun A A' => by simp [normalised]⟩
  rw [hv]
  have e1 : ndiv (.val (160 / 365 - 100 / 365)) (.val (200 / 365 - 100 / 365)) = .val ((160 / 365 - 100 / 365) / (200 / 365 - 100 / 365)) :=
    if_neg (by norm_num)
  rw [e1]
  simp only [nlerp]
  have e2 : ∀ x : ℝ, ndiv (.val x) (.val (160 / 365)) = .val (x / (160 / 365)) := fun x => if_neg (by norm_num)
  rw [e2]
  refine ⟨_, congrArg _ (congrArg _ (congrArg (· :: []) (if_neg ?_)))⟩
  unfold lerp
  norm_num

/-- C31: the hypotheses of `C31_outside` are met ten days after the only pillar. -/
example : ∃ s, VolSurface.newByProbability onePillar = .ok s ∧
    s.volatilities 0 (10, 0) [.val 90] = .ok (10 / 365, [.val 0.2]) := by
  obtain ⟨p, hp⟩ := onePillar_new
  refine ⟨_, hp, ?_⟩
  have y0 := everyDay_year 0
  have y1 := everyDay_year 10
  norm_num at y0
  push_cast at y1
  have := C31_outside 0 onePillar _ hp ((0, 0), .flat (.val 0.2)) (10, 0)
    (.inr ⟨[], rfl, .inl (by norm_num), by simp [Ascending, onePillar]⟩) 100 100 (10 / 365) 0 90 (constant_forward _ _ _) (constant_forward _ _ _)
    y1 y0 (by norm_num) (by norm_num) (by norm_num) (by norm_num)
  exact this

/-- C31 violated: on a weekday calendar, pillars on a Saturday and on the Sunday after it have the same
volatility time, and on the Saturday evening between them the surface gives NaN, neither a variance nor
an error. Day 18120 is a Monday. -/
theorem C31_same_time_false (fuel : Nat) :
    ∃ s, VolSurface.newByProbability (twoFlat .weekday (18120, 0) (18125, 0) (18126, 0) 0.2 0.2) = .ok s ∧
      ∃ T, s.volatilities fuel (18125, 1 / 2) [.val 100] = .ok (T, [.nan]) := by
  have y (d : Int) (f : ℝ) (hd : d = 18125 ∨ d = 18126) :
      yearFraction (.weekday : Cal ℝ) (18120, 0) (d, f) = .ok (5 / 252) := by
    have s1 : slipToNextWeekday 18120 true = .ok 18120 := by decide +kernel
    have s2 : slipToNextWeekday 18125 false = .ok 18124 := by decide +kernel
    have s3 : slipToNextWeekday 18126 false = .ok 18124 := by decide +kernel
    have w1 : Dates.dayOfWeek 18120 = .ok 0 := by decide +kernel
    have w2 : Dates.dayOfWeek 18124 = .ok 4 := by decide +kernel
    have w3 : Dates.dayOfWeek 18125 = .ok 5 := by decide +kernel
    have w4 : Dates.dayOfWeek 18126 = .ok 6 := by decide +kernel
    unfold yearFraction countBusinessDays standardBasis countWeekday
    rcases hd with rfl | rfl
    · simp only [s1, s2, w1, w2, w3, Bind.bind, Except.bind, pure, Except.pure]
      norm_num
      rw [show Int.tdiv 4 7 = 0 from rfl]
      norm_num
    · simp only [s1, s3, w1, w2, w4, Bind.bind, Except.bind, pure, Except.pure]
      norm_num
      rw [show Int.tdiv 4 7 = 0 from rfl]
      norm_num
  obtain ⟨s, hs, hv⟩ := twoFlat_vols fuel .weekday (18120, 0) (18125, 0) (18126, 0) (18125, 1 / 2) 0.2 0.2 _ _ _
    (.inr ⟨rfl, by norm_num⟩) (.inl (by norm_num)) (y 18125 0 (.inl rfl)) (y 18126 0 (.inr rfl)) (y 18125 (1 / 2) (.inl rfl))
    (by norm_num) (by norm_num) (.val 100)
  refine ⟨s, hs, 5 / 252, ?_⟩
  rw [hv]
  have e1 : ndiv (.val ((5 : ℝ) / 252 - 5 / 252)) (.val (5 / 252 - 5 / 252)) = .nan := if_pos (by norm_num)
  rw [e1]
  rfl

/-! ## C32 bumped surfaces -/

/-- C32. Every volatility of a bumped surface is a number and not negative, however deep the bumps are
nested and whatever time evolution or sticky delta shift is applied on top. -/
theorem C32_nonneg (fuel : Nat) (s : VolSurface) (hs : Bumped s) (t : Point) (ks vs : List (Num ℝ)) (T : ℝ)
    (h : s.volatilities fuel t ks = .ok (T, vs)) : ∀ v ∈ vs, ∃ x, v = .val x ∧ 0 ≤ x := by
  induction s generalizing t ks T with
  | flat _ _ _ => cases hs
  | byProbability _ _ => cases hs
  | parallelBump s b ih =>
    obtain ⟨⟨T', out⟩, h1, h2⟩ := bind_ok h
    have := pure_ok h2
    cases this
    intro v hv
    obtain ⟨x, _, rfl⟩ := List.mem_map.1 hv
    refine ⟨_, rfl, ?_⟩
    cases num2 (· + ·) x b with
    | nan => exact le_refl _
    | val y => exact le_max_right _ _
  | timeScaledBump s b f ih =>
    obtain ⟨⟨T', out⟩, h1, h2⟩ := bind_ok h
    have := pure_ok h2
    cases this
    intro v hv
    obtain ⟨x, _, rfl⟩ := List.mem_map.1 hv
    refine ⟨_, rfl, ?_⟩
    cases num2 (· + ·) x (ndiv b (nsqrt (.val (max T f)))) with
    | nan => exact le_refl _
    | val y => exact le_max_right _ _
  | constantExpiry s o b ih =>
    obtain ⟨⟨T', out⟩, h1, h2⟩ := bind_ok h
    have := pure_ok h2
    cases this
    exact ih hs _ _ _ h1
  | rollingExpiry s o b ih =>
    obtain ⟨d, _, h⟩ := bind_ok h
    obtain ⟨⟨T', out⟩, h1, h2⟩ := bind_ok h
    have := pure_ok h2
    cases this
    exact ih hs _ _ _ h1
  | stickyDeltaBump s f ih =>
    unfold VolSurface.volatilities at h
    cases ks with
    | nil => exact ih hs _ _ _ h
    | cons k ks =>
      simp only at h
      cases hf : s.forward with
      | none => rw [hf] at h; exact ih hs _ _ _ h
      | some fwd =>
        rw [hf] at h
        simp only at h
        obtain ⟨_, _, h⟩ := bind_ok h
        obtain ⟨_, _, h⟩ := bind_ok h
        exact ih hs _ _ _ h

/-- C32. A parallel bump of zero leaves a volatility that is not negative, and the time, unchanged. -/
theorem C32_zero_parallel (fuel : Nat) (s : VolSurface) (t : Point) (ks vs : List (Num ℝ)) (T : ℝ)
    (h : s.volatilities fuel t ks = .ok (T, vs)) (hv : ∀ v ∈ vs, ∃ x, v = .val x ∧ 0 ≤ x) :
    ((BumpVol.flatAdditive (.val 0)).apply s).volatilities fuel t ks = .ok (T, vs) := by
  unfold BumpVol.apply VolSurface.volatilities
  rw [h]
  simp only [Bind.bind, Except.bind, pure, Except.pure, Except.ok.injEq, Prod.mk.injEq, true_and]
  conv_rhs => rw [← List.map_id vs]
  apply List.map_congr_left
  intro v hm
  obtain ⟨x, rfl, hx⟩ := hv v hm
  simp [num2, nmax, hx]

/-- C32. So does a time-scaled bump of zero, if the time or the floor is positive. -/
theorem C32_zero_time_partial (fuel : Nat) (s : VolSurface) (floor : ℝ) (t : Point) (ks vs : List (Num ℝ)) (T : ℝ)
    (h : s.volatilities fuel t ks = .ok (T, vs)) (hv : ∀ v ∈ vs, ∃ x, v = .val x ∧ 0 ≤ x) (hT : 0 < max T floor) :
    ((BumpVol.timeScaled (.val 0) floor).apply s).volatilities fuel t ks = .ok (T, vs) := by
  unfold BumpVol.apply VolSurface.volatilities
  rw [h]
  simp only [Bind.bind, Except.bind, pure, Except.pure, Except.ok.injEq, Prod.mk.injEq, true_and]
  have s1 : nsqrt (.val (max T floor)) = .val (Real.sqrt (max T floor)) := if_neg (by linarith)
  have s2 : ndiv (.val 0) (.val (Real.sqrt (max T floor))) = .val (0 / Real.sqrt (max T floor)) :=
    if_neg (Real.sqrt_ne_zero'.2 hT)
  rw [s1, s2]
  conv_rhs => rw [← List.map_id vs]
  apply List.map_congr_left
  intro v hm
  obtain ⟨x, rfl, hx⟩ := hv v hm
  simp [num2, nmax, hx]

/-- C32 violated: a time-scaled bump of zero with a floor of zero makes the volatility on the base date
zero instead of leaving it at 20%, because zero divided by zero is NaN and `f64::max` drops it. -/
theorem C32_zero_time_false (fuel : Nat) :
    (VolSurface.flat (.val 0.2) .everyDay (0, 0)).volatilities fuel (0, 0) [.val 100] = .ok (0, [.val 0.2]) ∧
    ((BumpVol.timeScaled (.val 0) 0).apply (.flat (.val 0.2) .everyDay (0, 0))).volatilities fuel (0, 0) [.val 100]
      = .ok (0, [.val 0]) := by
  have y := everyDay_year 0
  norm_num at y
  have h1 : (VolSurface.flat (.val 0.2) .everyDay (0, 0)).volatilities fuel (0, 0) [.val 100] = .ok (0, [.val 0.2]) := by
    unfold VolSurface.volatilities
    simp only [y]
    rfl
  refine ⟨h1, ?_⟩
  unfold BumpVol.apply VolSurface.volatilities
  rw [h1]
  have s1 : nsqrt (.val (max 0 0)) = .val 0 := by
    rw [max_self]
    unfold nsqrt
    simp
  have s2 : ndiv (.val 0) (.val 0) = .nan := if_pos rfl
  simp only [Bind.bind, Except.bind, s1, s2]
  rfl

/-- C32. A replacement bump gives exactly the new volatility, at every strike, with the same calendar
and base date. -/
theorem C32_replace (fuel : Nat) (s : VolSurface) (v : Num ℝ) (t : Point) (T : ℝ)
    (h : yearFraction s.calendar s.baseDate t = .ok T) (ks : List (Num ℝ)) :
    ((BumpVol.replace v).apply s).volatilities fuel t ks = .ok (T, ks.map (fun _ => v)) ∧
      ((BumpVol.replace v).apply s).calendar = s.calendar ∧ ((BumpVol.replace v).apply s).baseDate = s.baseDate := by
  unfold BumpVol.apply
  refine ⟨?_, rfl, rfl⟩
  unfold VolSurface.volatilities
  rw [h]
  rfl

/-- C32. A parallel bump moves every volatility by the size of the bump, floored at zero. -/
theorem C32_size (fuel : Nat) (s : VolSurface) (b : ℝ) (t : Point) (ks : List (Num ℝ)) (vs : List ℝ) (T : ℝ)
    (h : s.volatilities fuel t ks = .ok (T, vs.map .val)) :
    ((BumpVol.flatAdditive (.val b)).apply s).volatilities fuel t ks
      = .ok (T, vs.map (fun v => .val (if 0 ≤ v + b then v + b else 0))) := by
  unfold BumpVol.apply VolSurface.volatilities
  rw [h]
  simp only [Bind.bind, Except.bind, pure, Except.pure, Except.ok.injEq, Prod.mk.injEq, true_and, List.map_map]
  apply List.map_congr_left
  intro v _
  simp only [Function.comp, num2, nmax, max_def]
  congr 1
  split <;> split <;> linarith

/-- C32. A time-scaled bump moves every volatility by its size over the square root of the time to expiry, or of the
floor if the time is shorter, and floors the result at zero. -/
theorem C32_size_time (fuel : Nat) (s : VolSurface) (b floor : ℝ) (t : Point) (ks : List (Num ℝ)) (vs : List ℝ) (T : ℝ)
    (h : s.volatilities fuel t ks = .ok (T, vs.map .val)) (hT : 0 < T ∨ 0 < floor) :
    ((BumpVol.timeScaled (.val b) floor).apply s).volatilities fuel t ks = .ok (T, vs.map (fun v =>
      let moved := v + b / Real.sqrt (if T < floor then floor else T)
      .val (if 0 ≤ moved then moved else 0))) := by
  unfold BumpVol.apply VolSurface.volatilities
  rw [h]
  have hmax : max T floor = if T < floor then floor else T := by
    rw [max_def]; split <;> split <;> linarith
  have hpos : 0 < max T floor := lt_max_iff.2 hT
  have s1 : nsqrt (.val (max T floor)) = .val (Real.sqrt (max T floor)) := if_neg (by linarith)
  have s2 : ndiv (.val b) (.val (Real.sqrt (max T floor))) = .val (b / Real.sqrt (max T floor)) :=
    if_neg (Real.sqrt_ne_zero'.2 hpos)
  simp only [Bind.bind, Except.bind, pure, Except.pure, Except.ok.injEq, Prod.mk.injEq, true_and, List.map_map, s1, s2]
  apply List.map_congr_left
  intro v _
  simp only [Function.comp, num2, nmax]
  rw [hmax]
  congr 1
  generalize v + b / Real.sqrt (if T < floor then floor else T) = z
  rw [max_def]
  split <;> split <;> linarith

/-- C32: a bump of 1% scaled by the square root of a quarter of a year moves 20% to 22%. -/
example : (0.2 : ℝ) + 0.01 / Real.sqrt (if (0.25 : ℝ) < 0.1 then 0.1 else 0.25) = 0.22 := by
  have h : Real.sqrt 0.25 = 0.5 := by
    rw [show (0.25 : ℝ) = 0.5 ^ 2 by norm_num]
    exact Real.sqrt_sq (by norm_num)
  rw [if_neg (by norm_num), h]
  norm_num

/-! ## C33 the opposite volatility bump -/

/-- C33. An additive bump followed by its opposite takes a volatility from `v` to `v - b + 2 b² / (1 + b)`,
as long as no volatility is floored. Missing: `v - b`, which holds for `b = 0` only (`C33_vol_iff`). -/
theorem C33_vol_partial (fuel : Nat) (s : VolSurface) (b v : ℝ) (t : Point) (k : Num ℝ) (T : ℝ)
    (h : s.volatilities fuel t [k] = .ok (T, [.val v])) (hb : 1 + b ≠ 0) (h1 : 0 ≤ v + b)
    (h2 : 0 ≤ v - b + 2 * b ^ 2 / (1 + b)) :
    ((BumpVol.flatAdditive (.val b)).opposite.apply ((BumpVol.flatAdditive (.val b)).apply s)).volatilities fuel t [k]
      = .ok (T, [.val (v - b + 2 * b ^ 2 / (1 + b))]) := by
  have e1 := C32_size fuel s b t [k] [v] T h
  simp only [List.map_cons, List.map_nil, if_pos h1] at e1
  have ho : (BumpVol.flatAdditive (.val b)).opposite = .flatAdditive (.val ((1 - b) / (1 + b) - 1)) := by
    unfold BumpVol.opposite BumpVol.bumpsize
    simp only [num1]
    have : ndiv (.val (1 - b)) (.val (1 + b)) = .val ((1 - b) / (1 + b)) := if_neg hb
    rw [this]
  have e2 := C32_size fuel _ ((1 - b) / (1 + b) - 1) t [k] [v + b] T e1
  have e3 : v + b + ((1 - b) / (1 + b) - 1) = v - b + 2 * b ^ 2 / (1 + b) := by
    field_simp
    ring
  simp only [List.map_cons, List.map_nil, e3, if_pos h2] at e2
  rw [ho]
  exact e2

/-- C33. The down value is the mirror image of the up value only for a bump of zero. -/
theorem C33_vol_iff (b v : ℝ) (hb : 1 + b ≠ 0) : v - b + 2 * b ^ 2 / (1 + b) = v - b ↔ b = 0 := by
  constructor
  · intro h
    have h : 2 * b ^ 2 / (1 + b) = 0 := by linarith
    rw [div_eq_zero_iff] at h
    rcases h with h | h
    · nlinarith [sq_nonneg b, pow_eq_zero_iff (two_ne_zero) |>.1 (by linarith : b ^ 2 = 0)]
    · exact absurd h hb
  · rintro rfl
    simp

/-- C33 violated for volatilities: from 20% an additive bump of 10 points gives 30% and its opposite gives
about 11.8%, not 10%. -/
theorem C33_vol_false (fuel : Nat) :
    ((BumpVol.flatAdditive (.val 0.1)).apply (.flat (.val 0.2) .everyDay (0, 0))).volatilities fuel (0, 0) [.val 100]
      = .ok (0, [.val 0.3]) ∧
    ((BumpVol.flatAdditive (.val 0.1)).opposite.apply ((BumpVol.flatAdditive (.val 0.1)).apply
      (.flat (.val 0.2) .everyDay (0, 0)))).volatilities fuel (0, 0) [.val 100] = .ok (0, [.val (13 / 110)]) ∧
    (13 / 110 : ℝ) ≠ 0.2 - 0.1 := by
  have h1 := (C32_zero_time_false fuel).1
  refine ⟨?_, ?_, by norm_num⟩
  · have := C32_size fuel _ 0.1 (0, 0) [.val 100] [0.2] 0 h1
    norm_num at this ⊢
    exact this
  · have := C33_vol_partial fuel _ 0.1 0.2 (0, 0) (.val 100) 0 h1 (by norm_num) (by norm_num) (by norm_num)
    norm_num at this ⊢
    exact this

end QM.Vol
