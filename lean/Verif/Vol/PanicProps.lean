import Verif.Vol.SurfaceProps

/-!
# Property C88: asking a surface for volatilities does not bring the program down
-/

namespace QM.Vol
open QM.Interp QM.Calendar Spec QM.Calendar.Spec

/-! ## Smiles -/

theorem ok_then {α β : Type} (a : α) (f : α → Outcome β) : ((Except.ok a : Outcome α) >>= f) = f a := rfl

/-- A smile asked at a number does not panic. -/
theorem smile_safe (sm : Smile) (k : ℝ) : sm.volatility (.val k) ≠ .error .panic := by
  cases sm with
  | flat v => simp [Smile.volatility]
  | cubicSpline c =>
    have hs : ∀ lo hi a b x, splint (K := ℝ) lo hi a b x ≠ .error .panic := by
      intro lo hi a b x
      unfold splint
      dsimp only
      split <;> simp
    have he : ∀ (e : Extrap) (v : ℝ), e.extrapolate v ≠ .error .panic := by
      intro e v
      cases e <;> simp [Extrap.extrapolate]
    simp only [Smile.volatility, CubicSpline.interpolate]
    split
    · simp
    · split
      · simp
      · split
        · split
          · exact hs _ _ _ _ _
          · exact he _ _
        · split
          · split
            · exact hs _ _ _ _ _
            · exact he _ _
          · exact hs _ _ _ _ _

theorem each_safe {α β : Type} {f : α → Outcome β} {l : List α} (h : ∀ a ∈ l, f a ≠ .error .panic) :
    each f l ≠ .error .panic := by
  induction l with
  | nil => simp [each]
  | cons a l ih =>
    have h1 := h a (by simp)
    have h2 := ih (fun b hb => h b (by simp [hb]))
    unfold each
    cases hf : f a with
    | error e => rw [hf] at h1; simpa [Bind.bind, Except.bind] using h1
    | ok b =>
      cases hr : each f l with
      | error e => rw [hr] at h2; simpa [Bind.bind, Except.bind] using h2
      | ok bs => simp [Bind.bind, Except.bind, pure, Except.pure]

theorem bind_safe {α β : Type} {x : Outcome α} {f : α → Outcome β} (h : x ≠ .error .panic)
    (hf : ∀ a, x = .ok a → f a ≠ .error .panic) : (x >>= f) ≠ .error .panic := by
  cases x with
  | error e => simpa [Bind.bind, Except.bind] using h
  | ok a => exact hf a rfl

theorem pillarVariances_safe {sm : Smile} {T : ℝ} {ks : List (Num ℝ)} (h : ∀ k ∈ ks, sm.volatility k ≠ .error .panic) :
    pillarVariances sm T ks ≠ .error .panic :=
  bind_safe (each_safe h) (fun _ _ => by simp [pure, Except.pure])

theorem combine_safe (f : Num ℝ) (T : ℝ) (ls rs : List (Num ℝ)) : combine f T ls rs ≠ .error .panic := by
  induction ls generalizing rs with
  | nil => simp [combine]
  | cons a ls ih =>
    cases rs with
    | nil => simp [combine]
    | cons b rs =>
      unfold combine
      split
      · simp
      · exact bind_safe (ih rs) (fun _ _ => by simp [pure, Except.pure])

/-! ## Strikes -/

theorem toNormalised_val {K F A : ℝ} (hK : 0 < K) (hF : 0 < F) (hA : 0 < A) :
    toNormalised (.val F) (nsqrt (.val A)) (.val K) = .val (normalised K F A) := by
  have s1 : nsqrt (.val A) = .val (Real.sqrt A) := if_neg (by linarith)
  unfold toNormalised
  rw [s1]
  simp only [ndiv]
  rw [if_neg hF.ne']
  simp only [nln, QM.Curves.ln]
  rw [if_pos (by positivity)]
  simp only
  rw [if_neg (Real.sqrt_ne_zero'.2 hA)]
  rfl

/-! ## C88 -/

/-- The shape of a search: on a smile, before the first, after the last, or between two. -/
theorem search_cases {smiles : List (Point × Smile)} (hne : smiles ≠ []) (t : Point) :
    (∃ i p, searchSmile smiles t = (i, true) ∧ smiles[i]? = some p ∧ p.1 = t) ∨
    (∃ p, searchSmile smiles t = (0, false) ∧ smiles[0]? = some p) ∨
    (∃ p, searchSmile smiles t = (smiles.length, false) ∧ smiles[smiles.length - 1]? = some p) ∨
    (∃ l r pl pr, smiles = l ++ pl :: pr :: r ∧ searchSmile smiles t = (l.length + 1, false) ∧ before pl.1 t ∧ before t pr.1) := by
  classical
  have hsplit := List.takeWhile_append_dropWhile (p := fun q : Point × Smile => decide (before q.1 t)) (l := smiles)
  set l := smiles.takeWhile (fun q => decide (before q.1 t)) with hl
  set r := smiles.dropWhile (fun q => decide (before q.1 t)) with hr
  have hlt : ∀ q ∈ l, before q.1 t := by
    intro q hq
    have := List.all_takeWhile (l := smiles) (p := fun q : Point × Smile => decide (before q.1 t))
    rw [← hl, List.all_eq_true] at this
    simpa using this q hq
  clear_value l
  cases hrr : r with
  | nil =>
    rw [hrr, List.append_nil] at hsplit
    subst hsplit
    right; right; left
    have hlen : l.length - 1 < l.length := by
      have := List.length_pos_of_ne_nil hne
      omega
    exact ⟨l[l.length - 1], searchSmile_end hlt, List.getElem?_eq_getElem hlen⟩
  | cons p r' =>
    have hp : ¬ before p.1 t := by
      have := List.head?_dropWhile_not (fun q : Point × Smile => decide (before q.1 t)) smiles
      rw [← hr, hrr] at this
      simpa using this
    rw [hrr] at hsplit
    clear hrr hr
    have hs : searchSmile smiles t = (l.length, decide (p.1 = t)) := by
      rw [← hsplit]
      exact searchSmile_eq hlt hp
    by_cases he : p.1 = t
    · left
      refine ⟨l.length, p, ?_, by rw [← hsplit]; simp, he⟩
      rw [hs]
      simp [he]
    · have he' : decide (p.1 = t) = false := by simpa using he
      rw [he'] at hs
      rcases List.eq_nil_or_concat l with h | ⟨l', pl, h⟩
      · right; left
        subst h
        exact ⟨p, hs, by rw [← hsplit]; simp⟩
      · right; right; right
        subst h
        refine ⟨l', r', pl, p, by rw [← hsplit]; simp, by rw [hs]; simp, hlt pl (by simp), ?_⟩
        rcases before_total p.1 t with h | h | h
        · exact absurd h hp
        · exact absurd h he
        · exact h

/-- C88. A surface of flat smiles does not panic at any strikes, NaN and negative ones included, at a date at which the calendar
and the forward do not. -/
theorem C88_flat_smiles (fuel : Nat) (input : Input) (s : VolSurface) (h : VolSurface.newByProbability input = .ok s)
    (hflat : ∀ p ∈ input.smiles, ∃ v, p.2 = .flat v) (t : Point)
    (hT : yearFraction input.calendar input.baseDate t ≠ .error .panic)
    (hF : atDate input.forward t.1 ≠ .error .panic) (ks : List (Num ℝ)) :
    s.volatilities fuel t ks ≠ .error .panic := by
  obtain ⟨ps, hps, rfl⟩ := new_ok h
  have hne : input.smiles ≠ [] := by
    intro e
    unfold VolSurface.newByProbability at h
    rw [e] at h
    cases h
  have hv : ∀ (i : Nat) (p : Point × Smile), input.smiles[i]? = some p → ∀ k, p.2.volatility k ≠ .error .panic := by
    intro i p hi k
    obtain ⟨v, hv⟩ := hflat p (List.mem_of_getElem? hi)
    rw [hv]
    simp [Smile.volatility]
  have hex : ∀ (i : Nat) (p : Point × Smile) (q : Pillar), input.smiles[i]? = some p → extrapolate input p.2 q t ks ≠ .error .panic := by
    intro i p q hi
    unfold extrapolate
    refine bind_safe hT (fun T _ => ?_)
    cases ks with
    | nil => simp [pure, Except.pure]
    | cons k ks =>
      exact bind_safe hF (fun F _ => bind_safe (each_safe (fun k _ => hv i p hi k)) (fun _ _ => by simp [pure, Except.pure]))
  unfold VolSurface.volatilities byProbabilityVolatilities
  rcases search_cases hne t with ⟨i, p, hs, hi, _⟩ | ⟨p, hs, hi⟩ | ⟨p, hs, hi⟩ | ⟨l, r, pl, pr, hlr, hs, _, _⟩
  · obtain ⟨q, hq, _⟩ := getpillar_exists hps hi
    simp only [hs, hi, hq, if_true, ok_then]
    exact bind_safe (each_safe (fun k _ => hv i p hi k)) (fun _ _ => by simp [pure, Except.pure])
  · obtain ⟨q, hq, _⟩ := getpillar_exists hps hi
    simp only [hs, hi, hq, ok_then]
    simpa using hex 0 p q hi
  · obtain ⟨q, hq, _⟩ := getpillar_exists hps hi
    have hpos := List.length_pos_of_ne_nil hne
    simp only [hs, hi, hq, ok_then]
    rw [if_neg (by simp), if_neg (by omega), if_pos (le_refl _)]
    exact hex _ p q hi
  · have hi : input.smiles[l.length]? = some pl := by rw [hlr]; simp
    have hi' : input.smiles[l.length + 1]? = some pr := by rw [hlr]; simp
    obtain ⟨ql, hql, _⟩ := getpillar_exists hps hi
    obtain ⟨qr, hqr, _⟩ := getpillar_exists hps hi'
    have hlen : input.smiles.length = l.length + 2 + r.length := by rw [hlr]; simp; omega
    simp only [hs]
    rw [if_neg (by simp), if_neg (by omega), if_neg (by omega)]
    simp only [Nat.add_sub_cancel, hi, hi', hql, hqr, ok_then]
    unfold interpolate
    refine bind_safe hT (fun T _ => ?_)
    cases ks with
    | nil => simp [pure, Except.pure]
    | cons k ks =>
      exact bind_safe hF (fun F _ => bind_safe (pillarVariances_safe (fun k _ => hv _ pl hi k)) (fun _ _ =>
        bind_safe (pillarVariances_safe (fun k _ => hv _ pr hi' k)) (fun _ _ =>
          bind_safe (combine_safe _ _ _ _) (fun _ _ => by simp [pure, Except.pure]))))

/-- C88 for a surface of any smiles, asked at positive strikes at a date after its base date in business time: if its forwards are
positive, and if its pillars follow one another in business time and each has some variance at its forward, the surface gives
volatilities or an error and does not panic. What is missing, asking at a date no business time away, is false: `C88_base_false`. -/
theorem C88_partial (fuel : Nat) (input : Input) (s : VolSurface) (h : VolSurface.newByProbability input = .ok s)
    (ha : Ascending input.smiles) (hg : Good input.calendar) (hgw : GoodWeights input.calendar)
    (hday : ∀ p ∈ input.smiles, input.baseDate.1 ≤ p.1.1 ∧ TimeOfDay p.1)
    (hpillar : ∀ p ∈ input.smiles, ∃ F T A, AtPillar input p F T A ∧ 0 < A)
    (hapart : ∀ p ∈ input.smiles, ∀ q ∈ input.smiles, before p.1 q.1 → ∀ Tp Tq,
      yearFraction input.calendar input.baseDate p.1 = .ok Tp → yearFraction input.calendar input.baseDate q.1 = .ok Tq → Tp < Tq)
    (t : Point) (hdt : TimeOfDay t) (T : ℝ) (hT : yearFraction input.calendar input.baseDate t = .ok T) (hT0 : 0 < T)
    (F : ℝ) (hF : atDate input.forward t.1 = .ok (.val F)) (hF0 : 0 < F)
    (ks : List (Num ℝ)) (hks : ∀ k ∈ ks, ∃ K : ℝ, 0 < K ∧ k = .val K) :
    s.volatilities fuel t ks ≠ .error .panic := by
  obtain ⟨ps, hps, rfl⟩ := new_ok h
  have hne : input.smiles ≠ [] := by
    intro e
    unfold VolSurface.newByProbability at h
    rw [e] at h
    cases h
  -- a pillar after the base date, and so at a time that is not negative
  have hcon : ∀ (i : Nat) (p : Point × Smile), input.smiles[i]? = some p → ∃ F T A, AtPillar input p F T A ∧ 0 < A ∧ 0 < T ∧
      ps[i]? = some ⟨.val F, .val (Real.sqrt A), T⟩ := by
    intro i p hi
    obtain ⟨F, T, A, hA, hA0⟩ := hpillar p (List.mem_of_getElem? hi)
    refine ⟨F, T, A, hA, hA0, ?_, getpillar hps hi hA hA0.le⟩
    obtain ⟨_, _, v, _, e⟩ := hA
    by_contra hn
    nlinarith [sq_nonneg v]
  have hex : ∀ (sm : Smile) (Fp Ap Tp : ℝ), 0 < Tp →
      extrapolate input sm ⟨.val Fp, .val (Real.sqrt Ap), Tp⟩ t ks ≠ .error .panic := by
    intro sm Fp Ap Tp hTp
    unfold extrapolate
    simp only [hT, hF, ok_then]
    cases ks with
    | nil => simp [pure, Except.pure]
    | cons k ks' =>
      refine bind_safe (each_safe ?_) (fun _ _ => by simp [pure, Except.pure])
      intro a hm
      obtain ⟨b, hb, rfl⟩ := List.mem_map.1 hm
      obtain ⟨c, hc, rfl⟩ := List.mem_map.1 hb
      obtain ⟨K, hK, rfl⟩ := hks c hc
      rw [toNormalised_val hK hF0 hT0]
      have s2 : nsqrt (.val Tp) = .val (Real.sqrt Tp) := if_neg (by linarith)
      rw [s2]
      exact smile_safe _ _
  unfold VolSurface.volatilities byProbabilityVolatilities
  rcases search_cases hne t with ⟨i, p, hs, hi, _⟩ | ⟨p, hs, hi⟩ | ⟨p, hs, hi⟩ | ⟨l, r, pl, pr, hlr, hs, hbl, hbr⟩
  · obtain ⟨_, _, _, _, _, _, hq⟩ := hcon i p hi
    simp only [hs, hi, hq, if_true, ok_then]
    refine bind_safe (each_safe ?_) (fun _ _ => by simp [pure, Except.pure])
    intro k hk
    obtain ⟨K, _, rfl⟩ := hks k hk
    exact smile_safe _ _
  · obtain ⟨_, _, _, _, _, h0, hq⟩ := hcon 0 p hi
    simp only [hs, hi, hq, ok_then]
    simpa using hex p.2 _ _ _ h0
  · obtain ⟨_, _, _, _, _, h0, hq⟩ := hcon _ p hi
    have hpos := List.length_pos_of_ne_nil hne
    simp only [hs, hi, hq, ok_then]
    rw [if_neg (by simp), if_neg (by omega), if_pos (le_refl _)]
    exact hex p.2 _ _ _ h0
  · have hi : input.smiles[l.length]? = some pl := by rw [hlr]; simp
    have hi' : input.smiles[l.length + 1]? = some pr := by rw [hlr]; simp
    have ml := List.mem_of_getElem? hi
    have mr := List.mem_of_getElem? hi'
    obtain ⟨Fl, Tl, Al, hpl, hAl, hTl, hql⟩ := hcon _ pl hi
    obtain ⟨Fr, Tr, Ar, hpr, hAr, hTr, hqr⟩ := hcon _ pr hi'
    have hlt := hapart pl ml pr mr (before_trans hbl hbr) Tl Tr hpl.2.1 hpr.2.1
    have hb2 : input.baseDate.1 ≤ t.1 := by
      have := (hday pl ml).1
      rcases hbl with e | e
      · omega
      · omega
    have n1 := yf_mono hg hgw (hday pl ml).1 (hday pl ml).2.2 hdt.1 (fun e => before_irrefl _ (before_trans e hbl)) hpl.2.1 hT
    have n2 := yf_mono hg hgw hb2 hdt.2 (hday pr mr).2.1 (fun e => before_irrefl _ (before_trans e hbr)) hT hpr.2.1
    have hlen : input.smiles.length = l.length + 2 + r.length := by rw [hlr]; simp; omega
    simp only [hs]
    rw [if_neg (by simp), if_neg (by omega), if_neg (by omega)]
    simp only [Nat.add_sub_cancel, hi, hi', hql, hqr, ok_then]
    unfold interpolate
    simp only [hT, hF, ok_then]
    cases ks with
    | nil => simp [pure, Except.pure]
    | cons k ks' =>
      have hfr : ndiv (.val (T - Tl)) (.val (Tr - Tl)) = .val ((T - Tl) / (Tr - Tl)) := if_neg (by linarith)
      have hatm : nlerp (num2 (· * ·) (.val (Real.sqrt Al)) (.val (Real.sqrt Al)))
          (num2 (· * ·) (.val (Real.sqrt Ar)) (.val (Real.sqrt Ar))) (.val ((T - Tl) / (Tr - Tl))) =
          .val (straight Tl Tr Al Ar T) := by
        simp only [num2, nlerp]
        rw [Real.mul_self_sqrt hAl.le, Real.mul_self_sqrt hAr.le, line_lerp]
      have hpos : 0 < straight Tl Tr Al Ar T := by
        have f0 : 0 ≤ (T - Tl) / (Tr - Tl) := div_nonneg (by linarith) (by linarith)
        have f1 : (T - Tl) / (Tr - Tl) ≤ 1 := div_le_one_of_le₀ (by linarith) (by linarith)
        unfold straight
        rcases eq_or_lt_of_le f1 with e | e
        · rw [e]; linarith
        · nlinarith [mul_nonneg f0 hAr.le, mul_pos (sub_pos.2 e) hAl]
      simp only [hfr, hatm]
      have hstr : ∀ (sm : Smile) (Fp Ap : ℝ), ∀ a ∈ ((k :: ks').map (toNormalised (.val F) (nsqrt (.val (straight Tl Tr Al Ar T))))).map
          (toStrike (.val Fp) (.val Ap)), sm.volatility a ≠ .error .panic := by
        intro sm Fp Ap a hm
        obtain ⟨b, hb, rfl⟩ := List.mem_map.1 hm
        obtain ⟨c, hc, rfl⟩ := List.mem_map.1 hb
        obtain ⟨K, hK, rfl⟩ := hks c hc
        rw [toNormalised_val hK hF0 hpos]
        exact smile_safe _ _
      exact bind_safe (pillarVariances_safe (hstr _ _ _)) (fun _ _ =>
        bind_safe (pillarVariances_safe (hstr _ _ _)) (fun _ _ =>
          bind_safe (combine_safe _ _ _ _) (fun _ _ => by simp [pure, Except.pure])))

/-- C88. Where the variance falls from one pillar to the next, the surface gives an error between them. -/
theorem C88_falling (fuel : Nat) (input : Input) (s : VolSurface) (h : VolSurface.newByProbability input = .ok s)
    (ha : Ascending input.smiles) (l r : List (Point × Smile)) (pl pr : Point × Smile)
    (hlr : input.smiles = l ++ pl :: pr :: r) (t : Point) (hl : before pl.1 t) (hr : before t pr.1)
    (Fl Tl Al Fr Tr Ar : ℝ) (hpl : AtPillar input pl Fl Tl Al) (hpr : AtPillar input pr Fr Tr Ar) (hAl : 0 ≤ Al) (hAr : 0 ≤ Ar)
    (T : ℝ) (hT : yearFraction input.calendar input.baseDate t = .ok T) (hTlr : Tl < Tr)
    (F : ℝ) (hF : atDate input.forward t.1 = .ok (.val F)) (hF0 : 0 < F) (K : ℝ) (hK : 0 < K)
    (hA : 0 < straight Tl Tr Al Ar T) (vl vr : ℝ)
    (h1 : pl.2.volatility (.val (strikeAt (normalised K F (straight Tl Tr Al Ar T)) Fl Al)) = .ok (.val vl))
    (h2 : pr.2.volatility (.val (strikeAt (normalised K F (straight Tl Tr Al Ar T)) Fr Ar)) = .ok (.val vr))
    (hfall : Tr * vr ^ 2 < Tl * vl ^ 2) :
    s.volatilities fuel t [.val K] = .error .err := by
  obtain ⟨ps, hps, rfl⟩ := new_ok h
  have e : input.smiles = (l ++ [pl]) ++ pr :: r := by simp [hlr]
  have hse : searchSmile input.smiles t = (l.length + 1, false) := by
    rw [e, searchSmile_eq]
    · simp only [List.length_append, List.length_cons, List.length_nil, Prod.mk.injEq]
      refine ⟨by simp, ?_⟩
      simp only [decide_eq_false_iff_not]
      intro e
      rw [e] at hr
      exact before_irrefl _ hr
    · rw [hlr] at ha
      intro q hq
      rcases List.mem_append.1 hq with hq | hq
      · exact before_trans (ascending_left ha q hq) hl
      · simp at hq; subst hq; exact hl
    · exact fun h => before_irrefl _ (before_trans h hr)
  have hi : input.smiles[l.length]? = some pl := by rw [hlr]; simp
  have hi' : input.smiles[l.length + 1]? = some pr := by rw [hlr]; simp
  have hql := getpillar hps hi hpl hAl
  have hqr := getpillar hps hi' hpr hAr
  have hlen : input.smiles.length = l.length + 2 + r.length := by rw [hlr]; simp; omega
  unfold VolSurface.volatilities byProbabilityVolatilities
  simp only [hse]
  rw [if_neg (by simp), if_neg (by omega), if_neg (by omega)]
  simp only [Nat.add_sub_cancel, hi, hi', hql, hqr, ok_then]
  unfold interpolate
  have hfr : ndiv (.val (T - Tl)) (.val (Tr - Tl)) = .val ((T - Tl) / (Tr - Tl)) := if_neg (by linarith)
  have hatm : nlerp (num2 (· * ·) (.val (Real.sqrt Al)) (.val (Real.sqrt Al)))
      (num2 (· * ·) (.val (Real.sqrt Ar)) (.val (Real.sqrt Ar))) (.val ((T - Tl) / (Tr - Tl))) =
      .val (straight Tl Tr Al Ar T) := by
    simp only [num2, nlerp]
    rw [Real.mul_self_sqrt hAl, Real.mul_self_sqrt hAr, line_lerp]
  simp only [hT, hF, ok_then, hfr, hatm, List.map_cons, List.map_nil, toNormalised_val hK hF0 hA]
  rw [show toStrike (.val Fl) (.val (Real.sqrt Al)) (.val (normalised K F (straight Tl Tr Al Ar T))) =
      .val (strikeAt (normalised K F (straight Tl Tr Al Ar T)) Fl Al) from rfl,
    show toStrike (.val Fr) (.val (Real.sqrt Ar)) (.val (normalised K F (straight Tl Tr Al Ar T))) =
      .val (strikeAt (normalised K F (straight Tl Tr Al Ar T)) Fr Ar) from rfl]
  simp only [pillarVariances, each, h1, h2, ok_then, pure, Except.pure, List.map_cons, List.map_nil, combine]
  rw [if_pos (show nlt _ _ by simp only [num2, nlt]; nlinarith)]
  rfl

/-- C88. Variances and forward variances from the base date or before it do not panic if the volatilities do not. -/
theorem C88_variances (fuel : Nat) (s : VolSurface) (t : Point) (ks : List (Num ℝ))
    (h : s.volatilities fuel t ks ≠ .error .panic) :
    s.variances fuel t ks ≠ .error .panic ∧
      ∀ from_, ¬ before s.baseDate from_ → s.forwardVariances fuel from_ t ks ≠ .error .panic := by
  have hv : s.variances fuel t ks ≠ .error .panic := bind_safe h (fun _ _ => by simp [pure, Except.pure])
  refine ⟨hv, fun from_ hb => ?_⟩
  unfold VolSurface.forwardVariances
  rw [if_pos hb]
  exact hv

/-- C88. Bumping volatilities does not make a surface panic where it did not, nor stop it from panicking. -/
theorem C88_bumps (fuel : Nat) (s : VolSurface) (b : Num ℝ) (floor : ℝ) (t : Point) (ks : List (Num ℝ)) :
    ((VolSurface.parallelBump s b).volatilities fuel t ks = .error .panic ↔ s.volatilities fuel t ks = .error .panic) ∧
      ((VolSurface.timeScaledBump s b floor).volatilities fuel t ks = .error .panic ↔ s.volatilities fuel t ks = .error .panic) := by
  constructor
  · simp only [VolSurface.volatilities]
    cases s.volatilities fuel t ks <;> simp [Bind.bind, Except.bind, pure, Except.pure]
  · simp only [VolSurface.volatilities]
    cases s.volatilities fuel t ks <;> simp [Bind.bind, Except.bind, pure, Except.pure]

/-- A surface with a cubic spline smile of 20% between the strikes of 80 and 120, ten days after its base date, and a forward
of 100. -/
noncomputable def oneSpline (smile : Smile) : Input :=
  ⟨[((10, 0), smile)], .everyDay, (0, 0), ⟨.flat, .flat, [(.val ((0 : Int) : ℝ), 100)]⟩,
    ⟨.flat, .flat, [(.val ((0 : Int) : ℝ), 0)]⟩, .noCashDivs⟩

theorem spline_smile : ∃ c : CubicSpline ℝ, Smile.newCubicSpline [(.val 80, 0.2), (.val 120, 0.2)] = .ok (.cubicSpline c) ∧
    c.points = [(80, 0.2), (120, 0.2)] ∧ c.second = [0, 0] := by
  have hv : validateAbscissae [((.val 80 : Num ℝ), (0.2 : ℝ)), (.val 120, 0.2)] = .ok () := by
    simp only [validateAbscissae, validateFrom, apart]
    norm_num
  refine ⟨⟨.natural, .natural, [(80, 0.2), (120, 0.2)], [0, 0]⟩, ?_, rfl, rfl⟩
  unfold Smile.newCubicSpline CubicSpline.new
  rw [hv]
  simp only [ok_then, List.length_cons, List.length_nil]
  norm_num [Num.get, List.range_succ, secondDeriv, backSub, lastSecond, decompose, Extrap.isNatural, pure, Except.pure, Bind.bind,
    Except.bind]

theorem spline_at {c : CubicSpline ℝ} (h1 : c.points = [(80, 0.2), (120, 0.2)]) (h2 : c.second = [0, 0]) :
    c.interpolate (.val 100) = .ok (.val 0.2) := by
  unfold CubicSpline.interpolate search
  rw [h1, h2]
  norm_num [splint, List.takeWhile]

theorem oneSpline_new {c : CubicSpline ℝ} (h1 : c.points = [(80, 0.2), (120, 0.2)]) (h2 : c.second = [0, 0]) :
    ∃ q, VolSurface.newByProbability (oneSpline (.cubicSpline c)) = .ok (.byProbability (oneSpline (.cubicSpline c)) [q]) := by
  have y := everyDay_year 10
  push_cast at y
  have n1 : ¬ nlt (.val ((10 : ℝ) / 365 * 0.2 * 0.2)) (.val 0) := by simp only [nlt]; norm_num
  refine ⟨⟨.val 100, nsqrt (.val (10 / 365 * 0.2 * 0.2)), 10 / 365⟩, ?_⟩
  unfold VolSurface.newByProbability
  simp only [oneSpline, buildPillars, constant_forward, Smile.volatility, ok_then, spline_at h1 h2, y]
  rw [show num2 (· * ·) (num2 (· * ·) (.val ((10 : ℝ) / 365)) (.val 0.2)) (.val 0.2) = .val (10 / 365 * 0.2 * 0.2) from rfl, if_neg n1]
  rfl

/-- C88 violated: a surface with a cubic spline smile that was built without complaint panics when it is asked, at its base
date, for the volatility of the strike that equals the forward: the distance of the strike from the forward is nought divided
by nought. -/
theorem C88_base_false (fuel : Nat) : ∃ smile s, Smile.newCubicSpline [(.val 80, 0.2), (.val 120, 0.2)] = .ok smile ∧
    VolSurface.newByProbability (oneSpline smile) = .ok s ∧ s.volatilities fuel (0, 0) [.val 100] = .error .panic := by
  obtain ⟨c, hc, h1, h2⟩ := spline_smile
  obtain ⟨q, hq⟩ := oneSpline_new h1 h2
  refine ⟨_, _, hc, hq, ?_⟩
  have hse : searchSmile (oneSpline (.cubicSpline c)).smiles (0, 0) = (0, false) := by
    have := searchSmile_eq (l := []) (r := []) (p := (((10, 0) : Point), Smile.cubicSpline c)) (t := (0, 0)) (by simp)
      (by unfold before; norm_num)
    simpa [oneSpline] using this
  have y := everyDay_year 0
  push_cast at y
  unfold VolSurface.volatilities byProbabilityVolatilities
  simp only [hse]
  simp only [oneSpline, List.getElem?_cons_zero, ok_then]
  norm_num
  unfold extrapolate
  norm_num at y
  have hF := constant_forward 0 0 100
  norm_num at hF
  simp only [y, hF, ok_then, List.map_cons, List.map_nil]
  have hn : toNormalised (.val 100) (nsqrt (.val 0)) (.val 100) = .nan := by
    unfold toNormalised
    simp [ndiv, nln, QM.Curves.ln, nsqrt]
  rw [hn]
  have hs : toStrike q.forward (nsqrt (.val q.volTime)) .nan = .nan := by
    unfold toStrike
    rfl
  rw [hs]
  simp only [each, Smile.volatility]
  unfold CubicSpline.interpolate
  rw [h1]
  simp [Bind.bind, Except.bind]

/-- C88: five days after its base date the same surface meets the hypotheses, and does not panic. -/
example (fuel : Nat) : ∃ smile s, Smile.newCubicSpline [(.val 80, 0.2), (.val 120, 0.2)] = .ok smile ∧
    VolSurface.newByProbability (oneSpline smile) = .ok s ∧ s.volatilities fuel (5, 0) [.val 100, .val 90] ≠ .error .panic := by
  obtain ⟨c, hc, h1, h2⟩ := spline_smile
  obtain ⟨q, hq⟩ := oneSpline_new h1 h2
  refine ⟨_, _, hc, hq, ?_⟩
  have y5 := everyDay_year 5
  have y10 := everyDay_year 10
  push_cast at y5 y10
  refine C88_partial fuel (oneSpline (.cubicSpline c)) _ hq (by simp [Ascending, oneSpline]) trivial trivial ?_ ?_ ?_ (5, 0) ?_ (5 / 365) y5
    (by norm_num) 100 (constant_forward _ _ _) (by norm_num) _ ?_
  · intro p hp
    simp only [oneSpline, List.mem_singleton] at hp
    subst hp
    exact ⟨by simp [oneSpline], by constructor <;> norm_num⟩
  · intro p hp
    simp only [oneSpline, List.mem_singleton] at hp
    subst hp
    exact ⟨100, 10 / 365, _, ⟨constant_forward _ _ _, y10, 0.2, spline_at h1 h2, rfl⟩, by norm_num⟩
  · intro p hp q hq hb
    simp only [oneSpline, List.mem_singleton] at hp hq
    subst hp hq
    exact absurd hb (before_irrefl _)
  · constructor <;> norm_num
  · intro k hk
    simp only [List.mem_cons, List.not_mem_nil, or_false] at hk
    rcases hk with rfl | rfl
    · exact ⟨100, by norm_num, rfl⟩
    · exact ⟨90, by norm_num, rfl⟩

end QM.Vol
