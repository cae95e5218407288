import Verif.Risk.DeltaProps

/-!
# Property C48: comparing reports
-/

namespace QM.Risk
open QM.Interp QM.Vol QM.Instruments QM.Instruments.Spec QM.Market QM.Market.Spec QM.Risk.Spec

theorem differs_nil {x y : Num ℝ} {t : ℝ} : differs x y (.val t) = [] ↔ Within t x y := by
  unfold differs Within
  cases x with
  | nan => simp [napprox]
  | val a =>
    cases y with
    | nan => simp [napprox]
    | val b =>
      by_cases h : |a - b| < t
      · simp [napprox, h]
      · simp [napprox, h]

theorem compareResults_nil {t1 t2 : ℝ} {other : Map String (Num ℝ × Num ℝ)} (l : List (String × Num ℝ × Num ℝ)) :
    compareResults (.val t1) (.val t2) other l = [] ↔
      ∀ e ∈ l, ∃ x' y', other.get e.1 = some (x', y') ∧ Within t1 e.2.1 x' ∧ Within t2 e.2.2 y' := by
  induction l with
  | nil => simp [compareResults]
  | cons e l ih =>
    obtain ⟨id, x, y⟩ := e
    rw [compareResults, List.append_eq_nil_iff, ih, List.forall_mem_cons]
    refine and_congr ?_ Iff.rfl
    cases ho : other.get id with
    | none => simp
    | some z =>
      obtain ⟨x', y'⟩ := z
      dsimp only
      rw [List.append_eq_nil_iff, differs_nil, differs_nil]
      constructor
      · rintro ⟨h1, h2⟩
        exact ⟨x', y', rfl, h1, h2⟩
      · rintro ⟨x', y', h, h1, h2⟩
        cases h
        exact ⟨h1, h2⟩

/-- The comparison of two tables finds nothing exactly if they cover the same underlyings and their figures agree within the scaled tolerances. -/
theorem C48_figures {tol size : ℝ} (hs : size ≠ 0) {m m' : Map String (Num ℝ × Num ℝ)} (hm : Once m) (hm' : Once m') :
    compareMaps tol (.val size) m m' = [] ↔ SameFigures (tol / size) (tol / size ^ 2) m m' := by
  unfold compareMaps
  have e1 : ndiv (.val tol) (.val size) = .val (tol / size) := by simp [ndiv, hs]
  have e2 : ndiv (.val (tol / size)) (.val size) = .val (tol / size ^ 2) := by
    simp only [ndiv, hs, if_false]
    congr 1
    rw [div_div, sq]
  rw [e1, e2, List.append_eq_nil_iff, compareResults_nil]
  have hlen : ((if m.entries.length ≠ m'.entries.length then [()] else []) = []) ↔ m.entries.length = m'.entries.length := by
    split
    · rename_i h; simpa using h
    · rename_i h; simpa using h
  rw [hlen]
  constructor
  · rintro ⟨h1, h2⟩ id
    cases hg : m.get id with
    | some z =>
      obtain ⟨x, y⟩ := z
      obtain ⟨x', y', h3, h4, h5⟩ := h2 _ ((get_mem hm id _).1 hg)
      rw [h3]
      exact ⟨h4, h5⟩
    | none =>
      cases hg' : m'.get id with
      | none => trivial
      | some z =>
        exfalso
        have hsub : m.entries.map Prod.fst ⊆ m'.entries.map Prod.fst := by
          intro k hk
          obtain ⟨⟨k', v⟩, h3, h4⟩ := List.mem_map.1 hk
          cases h4
          obtain ⟨x', y', h5, _⟩ := h2 _ h3
          exact (keys_get m' k').2 (by rw [h5]; simp)
        have hp := (List.subperm_of_subset hm hsub).perm_of_length_le (by rw [List.length_map, List.length_map, h1])
        have : id ∈ m.entries.map Prod.fst := hp.mem_iff.2 ((keys_get m' id).2 (by rw [hg']; simp))
        exact (keys_get m id).1 this hg
  · intro h
    constructor
    · have hp : (m.entries.map Prod.fst).Perm (m'.entries.map Prod.fst) := by
        rw [List.perm_ext_iff_of_nodup hm hm']
        intro k
        rw [keys_get, keys_get]
        have := h k
        cases hk : m.get k <;> cases hk' : m'.get k <;> simp_all
      have := hp.length_eq
      simpa using this
    · rintro ⟨id, x, y⟩ he
      have hg := (get_mem hm id (x, y)).2 he
      have := h id
      rw [hg] at this
      cases hk : m'.get id with
      | none => rw [hk] at this; exact this.elim
      | some z =>
        rw [hk] at this
        exact ⟨z.1, z.2, rfl, this⟩

theorem length_nil {a b : Nat} : ((if a ≠ b then [()] else []) = []) ↔ a = b := by
  split
  · rename_i h; simpa using h
  · rename_i h; simpa using h

theorem matchesAll_length {tol : Tolerances} : ∀ {rs rs' : List Report}, MatchesAll tol rs rs' → rs.length = rs'.length
  | [], [], _ => rfl
  | _ :: _, _ :: _, h => by
    rw [MatchesAll] at h
    simp [matchesAll_length h.2]
  | [], _ :: _, h => by simp [MatchesAll] at h
  | _ :: _, [], h => by simp [MatchesAll] at h

mutual
theorem validate_nil (tol : Tolerances) : ∀ {r r' : Report}, Proper r → Proper r' → (validate tol r r' = [] ↔ Matches tol r r')
  | .deltaGamma b m, .deltaGamma b' m', h, h' => by
    rw [Proper] at h h'
    obtain ⟨⟨size, hs, rfl⟩, hm⟩ := h
    rw [validate, Matches, C48_figures hs hm h'.2]
    exact ⟨fun h s e => by cases e; exact h, fun h => h size rfl⟩
  | .vegaVolga b m, .vegaVolga b' m', h, h' => by
    rw [Proper] at h h'
    obtain ⟨⟨size, hs, rfl⟩, hm⟩ := h
    rw [validate, Matches, C48_figures hs hm h'.2]
    exact ⟨fun h s e => by cases e; exact h, fun h => h size rfl⟩
  | .timeBumped price theta subs, .timeBumped price' theta' subs', h, h' => by
    rw [Proper] at h h'
    rw [validate, Matches, List.append_eq_nil_iff, List.append_eq_nil_iff, List.append_eq_nil_iff, differs_nil, differs_nil, length_nil]
    constructor
    · rintro ⟨⟨⟨h1, h2⟩, h3⟩, h4⟩
      exact ⟨h1, h2, (zip_nil tol h h' h3).1 h4⟩
    · rintro ⟨h1, h2, h3⟩
      exact ⟨⟨⟨h1, h2⟩, matchesAll_length h3⟩, (zip_nil tol h h' (matchesAll_length h3)).2 h3⟩
  | .deltaGamma _ _, .vegaVolga _ _, _, _ => by simp [validate, Matches]
  | .deltaGamma _ _, .timeBumped _ _ _, _, _ => by simp [validate, Matches]
  | .vegaVolga _ _, .deltaGamma _ _, _, _ => by simp [validate, Matches]
  | .vegaVolga _ _, .timeBumped _ _ _, _, _ => by simp [validate, Matches]
  | .timeBumped _ _ _, .deltaGamma _ _, _, _ => by simp [validate, Matches]
  | .timeBumped _ _ _, .vegaVolga _ _, _, _ => by simp [validate, Matches]

theorem zip_nil (tol : Tolerances) : ∀ {rs rs' : List Report}, ProperAll rs → ProperAll rs' → rs.length = rs'.length →
    (validateZip tol rs rs' = [] ↔ MatchesAll tol rs rs')
  | [], [], _, _, _ => by simp [validateZip, MatchesAll]
  | r :: rs, r' :: rs', h, h', hl => by
    rw [ProperAll] at h h'
    rw [validateZip, MatchesAll, List.append_eq_nil_iff, validate_nil tol h.1 h'.1, zip_nil tol h.2 h'.2 (by simpa using hl)]
  | [], _ :: _, _, _, hl => by simp at hl
  | _ :: _, [], _, _, hl => by simp at hl
end

/-- Comparing one report with another finds nothing exactly if they match. -/
theorem C48_report (tol : Tolerances) {r r' : Report} (h : Proper r) (h' : Proper r') : validate tol r r' = [] ↔ Matches tol r r' :=
  validate_nil tol h h'

/-- The assertion on lists of reports succeeds exactly if the lists have the same length and the reports match one by one. -/
theorem C48_assert (tol : Tolerances) {rs rs' : List Report} (h : ProperAll rs) (h' : ProperAll rs') :
    assertApproxEqReports tol rs rs' = .ok () ↔ MatchesAll tol rs rs' := by
  unfold assertApproxEqReports validateAll
  have : ((if rs.length ≠ rs'.length then [()] else []) ++ validateZip tol rs rs' = []) ↔ MatchesAll tol rs rs' := by
    rw [List.append_eq_nil_iff, length_nil]
    constructor
    · rintro ⟨h1, h2⟩
      exact (zip_nil tol h h' h1).1 h2
    · intro h1
      exact ⟨matchesAll_length h1, (zip_nil tol h h' (matchesAll_length h1)).2 h1⟩
  rw [← this, ← List.isEmpty_iff]
  split
  · rename_i h; simp [h]
  · rename_i h; simp [h]

/-! ## A report against itself -/

theorem within_self {t : ℝ} (ht : 0 < t) {x : Num ℝ} (hx : x ≠ .nan) : Within t x x := by
  cases x with
  | nan => exact absurd rfl hx
  | val a => exact ⟨a, a, rfl, rfl, by simpa using ht⟩

theorem sameFigures_self {t1 t2 : ℝ} (h1 : 0 < t1) (h2 : 0 < t2) {m : Map String (Num ℝ × Num ℝ)} (hm : Numbers m) : SameFigures t1 t2 m m := by
  intro id
  cases hg : m.get id with
  | none => trivial
  | some z =>
    obtain ⟨n1, n2⟩ := hm id z hg
    exact ⟨within_self h1 n1, within_self h2 n2⟩

mutual
theorem matches_self {tol : Tolerances} (hp : 0 < tol.price) (hc : 0 < tol.currencyRisk) (hu : 0 < tol.unitRisk) :
    ∀ {r : Report}, Sound r → Matches tol r r
  | .deltaGamma b m, h => by
    rw [Sound] at h
    obtain ⟨⟨size, hs, rfl⟩, hm⟩ := h
    rw [Matches]
    rintro s e
    cases e
    exact sameFigures_self (by positivity) (by positivity) hm
  | .vegaVolga b m, h => by
    rw [Sound] at h
    obtain ⟨⟨size, hs, rfl⟩, hm⟩ := h
    rw [Matches]
    rintro s e
    cases e
    exact sameFigures_self (by positivity) (by positivity) hm
  | .timeBumped price theta subs, h => by
    rw [Sound] at h
    rw [Matches]
    exact ⟨within_self hp h.1, within_self hp h.2.1, matchesAll_self hp hc hu h.2.2⟩

theorem matchesAll_self {tol : Tolerances} (hp : 0 < tol.price) (hc : 0 < tol.currencyRisk) (hu : 0 < tol.unitRisk) :
    ∀ {rs : List Report}, SoundAll rs → MatchesAll tol rs rs
  | [], _ => by simp [MatchesAll]
  | r :: rs, h => by
    rw [SoundAll] at h
    rw [MatchesAll]
    exact ⟨matches_self hp hc hu h.1, matchesAll_self hp hc hu h.2⟩
end

/-- A list of reports matches itself for positive tolerances, if the bumps are positive and all figures are numbers. That it need not otherwise is
`C48_self_false`. -/
theorem C48_self_partial {tol : Tolerances} (hp : 0 < tol.price) (hc : 0 < tol.currencyRisk) (hu : 0 < tol.unitRisk) {rs : List Report}
    (h : ProperAll rs) (hs : SoundAll rs) : assertApproxEqReports tol rs rs = .ok () :=
  (C48_assert tol h h).2 (matchesAll_self hp hc hu hs)

/-! ## Reports that are made enter each underlying once -/

theorem figuresLoop_once {σ S : Type} {step : String → σ → S → Outcome (Num ℝ × Num ℝ) × σ × S} : ∀ (ids : List String) (p : σ) (s : S)
    (m m' : Map String (Num ℝ × Num ℝ)) (p' : σ) (s' : S), Once m → figuresLoop step ids p s m = (.ok m', p', s') → Once m'
  | [], p, s, m, m', p', s', hm, h => by
    rw [figuresLoop] at h
    cases h
    exact hm
  | id :: ids, p, s, m, m', p', s', hm, h => by
    rw [figuresLoop] at h
    generalize step id p s = r at h
    obtain ⟨r, p1, s1⟩ := r
    cases r with
    | error e => cases h
    | ok x => exact figuresLoop_once ids p1 s1 _ m' p' s' (distinct_insert hm _ _) h

mutual
/-- The sizes of the bumps of a generator are numbers other than zero. -/
def Sized : Generator → Prop
  | .deltaGamma b => b ≠ 0
  | .vegaVolga b => ∃ size : ℝ, size ≠ 0 ∧ b.bumpsize = .val size
  | .timeBumped _ gs => SizedAll gs

def SizedAll : List Generator → Prop
  | [] => True
  | g :: gs => Sized g ∧ SizedAll gs
end

mutual
/-- Reports made by any pricer with bumps of a proper size can be compared as in `C48_report`. -/
theorem C48_generated {σ S : Type} {P : Pricer σ S} : ∀ {g : Generator} {p p' : σ} {s s' : S} {v : Num ℝ} {r : Report}, Sized g →
    generate P g p s v = (.ok r, p', s') → Proper r
  | .deltaGamma b, p, p', s, s', v, r, hg, h => by
    rw [Sized] at hg
    rw [generate, delta_loop] at h
    generalize hr : figuresLoop _ _ _ _ _ = l at h
    obtain ⟨l, p1, s1⟩ := l
    cases l with
    | error e => cases h
    | ok m =>
      cases h
      rw [Proper]
      exact ⟨⟨b, hg, rfl⟩, figuresLoop_once _ _ _ _ _ _ _ (show Once .empty from List.nodup_nil) hr⟩
  | .vegaVolga b, p, p', s, s', v, r, hg, h => by
    rw [Sized] at hg
    rw [generate, vega_loop] at h
    generalize hr : figuresLoop _ _ _ _ _ = l at h
    obtain ⟨l, p1, s1⟩ := l
    cases l with
    | error e => cases h
    | ok m =>
      cases h
      rw [Proper]
      exact ⟨hg, figuresLoop_once _ _ _ _ _ _ _ (show Once .empty from List.nodup_nil) hr⟩
  | .timeBumped b gs, p, p', s, s', v, r, hg, h => by
    rw [Sized] at hg
    rw [generate] at h
    generalize P.bumpTime b p = a at h
    obtain ⟨a, clone⟩ := a
    cases a with
    | error e => cases h
    | ok u =>
      dsimp only at h
      cases hc : P.price clone with
      | error e => rw [hc] at h; cases h
      | ok x =>
        rw [hc] at h
        dsimp only at h
        generalize ht : generateAll P gs clone s x = t at h
        obtain ⟨t, q, s2⟩ := t
        cases t with
        | error e => cases h
        | ok subs =>
          cases h
          rw [Proper]
          exact C48_generatedAll hg ht

theorem C48_generatedAll {σ S : Type} {P : Pricer σ S} : ∀ {gs : List Generator} {p p' : σ} {s s' : S} {v : Num ℝ} {rs : List Report}, SizedAll gs →
    generateAll P gs p s v = (.ok rs, p', s') → ProperAll rs
  | [], p, p', s, s', v, rs, _, h => by
    rw [generateAll] at h
    cases h
    rw [ProperAll]
    trivial
  | g :: gs, p, p', s, s', v, rs, hg, h => by
    rw [SizedAll] at hg
    rw [generateAll] at h
    generalize h1 : generate P g p s v = a at h
    obtain ⟨a, p1, s1⟩ := a
    cases a with
    | error e => cases h
    | ok r =>
      dsimp only at h
      generalize h2 : generateAll P gs p1 s1 v = b at h
      obtain ⟨b, p2, s2⟩ := b
      cases b with
      | error e => cases h
      | ok rs' =>
        cases h
        rw [ProperAll]
        exact ⟨C48_generated hg.1 h1, C48_generatedAll hg.2 h2⟩
end

/-! ## Cases -/

/-- A table of two underlyings. -/
noncomputable def twoFigures (x : ℝ) : Map String (Num ℝ × Num ℝ) := ⟨[("A", .val x, .val 0.1), ("B", .val 3, .val 0)]⟩

/-- C48: two reports whose deltas differ by half the scaled tolerance. -/
example : ProperAll [.deltaGamma (.val 0.01) (twoFigures 50), .timeBumped (.val 1) (.val 2) [.vegaVolga (.val 0.5) (twoFigures 7)]] ∧
    ProperAll [.deltaGamma (.val 0.01) (twoFigures 50.05), .timeBumped (.val 1) (.val 2) [.vegaVolga (.val 0.5) (twoFigures 7)]] ∧
    SoundAll [.deltaGamma (.val 0.01) (twoFigures 50), .timeBumped (.val 1) (.val 2) [.vegaVolga (.val 0.5) (twoFigures 7)]] ∧
    assertApproxEqReports ⟨0.001, 0.001, 0.001⟩ [.deltaGamma (.val 0.01) (twoFigures 50)] [.deltaGamma (.val 0.01) (twoFigures 50.05)] = .ok () ∧
    assertApproxEqReports ⟨0.001, 0.001, 0.001⟩ [.deltaGamma (.val 0.01) (twoFigures 50)] [.deltaGamma (.val 0.01) (twoFigures 50.2)] = .error .err := by
  have hn : ∀ x, Once (twoFigures x) := by
    intro x
    show (["A", "B"] : List String).Nodup
    decide
  have hnum : ∀ x, Numbers (twoFigures x) := by
    intro x id z hz
    rw [get_mem (hn x)] at hz
    simp only [twoFigures, List.mem_cons, List.not_mem_nil, or_false, Prod.mk.injEq] at hz
    rcases hz with ⟨_, rfl⟩ | ⟨_, rfl⟩ <;> simp
  refine ⟨?_, ?_, ?_, ?_, ?_⟩
  · simp [ProperAll, Proper, hn] <;> norm_num
  · simp [ProperAll, Proper, hn] <;> norm_num
  · simp [SoundAll, Sound, hnum] <;> norm_num
  · rw [C48_assert _ (by simp [ProperAll, Proper, hn] <;> norm_num) (by simp [ProperAll, Proper, hn] <;> norm_num)]
    simp only [MatchesAll, Matches, and_true]
    rintro s e id
    cases e
    by_cases h1 : id = "A"
    · subst h1
      show Within _ (.val 50) (.val 50.05) ∧ Within _ (.val 0.1) (.val 0.1)
      exact ⟨⟨_, _, rfl, rfl, by rw [abs_of_nonpos (by norm_num)]; norm_num⟩, ⟨_, _, rfl, rfl, by norm_num⟩⟩
    · by_cases h2 : id = "B"
      · subst h2
        show Within _ (.val 3) (.val 3) ∧ Within _ (.val 0) (.val 0)
        exact ⟨⟨_, _, rfl, rfl, by norm_num⟩, ⟨_, _, rfl, rfl, by norm_num⟩⟩
      · have : ∀ x, (twoFigures x).get id = none := by
          intro x
          simp [twoFigures, Map.get, Ne.symm h1, Ne.symm h2]
        rw [this, this]
        trivial
  · have : assertApproxEqReports ⟨0.001, 0.001, 0.001⟩ [.deltaGamma (.val 0.01) (twoFigures 50)] [.deltaGamma (.val 0.01) (twoFigures 50.2)] ≠ .ok () := by
      rw [Ne, C48_assert _ (by simp [ProperAll, Proper, hn] <;> norm_num) (by simp [ProperAll, Proper, hn] <;> norm_num)]
      simp only [MatchesAll, Matches, and_true]
      intro h
      have h := h 0.01 rfl "A"
      obtain ⟨⟨a, b, h1, h2, h3⟩, _⟩ : Within _ (.val 50) (.val 50.2) ∧ _ := h
      cases h1
      cases h2
      rw [abs_of_nonpos (by norm_num)] at h3
      norm_num at h3
    unfold assertApproxEqReports at this ⊢
    split
    · rename_i h; rw [if_pos h] at this; exact absurd rfl this
    · rfl

/-- C48 violated: three reports that do not match themselves, whatever the tolerance. One has a figure that is not a number, as an underlying
with a spot of zero has (`C44_zero_spot`); one was made with a negative bump; and one replaced the volatility, which has no bump
size. -/
theorem C48_self_false (tol : Tolerances) (ht : 0 < tol.unitRisk) :
    assertApproxEqReports tol [.deltaGamma (.val 0.01) ⟨[("A", .nan, .nan)]⟩] [.deltaGamma (.val 0.01) ⟨[("A", .nan, .nan)]⟩] = .error .err ∧
    assertApproxEqReports tol [.deltaGamma (.val (-0.01)) ⟨[("A", .val 1, .val 0)]⟩] [.deltaGamma (.val (-0.01)) ⟨[("A", .val 1, .val 0)]⟩] =
      .error .err ∧
    assertApproxEqReports tol [.vegaVolga (BumpVol.replace (.val 0.2)).bumpsize ⟨[("A", .val 1, .val 0)]⟩]
      [.vegaVolga (BumpVol.replace (.val 0.2)).bumpsize ⟨[("A", .val 1, .val 0)]⟩] = .error .err := by
  have hl : ∀ r : Report, validate tol r r ≠ [] → assertApproxEqReports tol [r] [r] = .error .err := by
    intro r h
    unfold assertApproxEqReports validateAll
    rw [if_neg]
    rw [validateZip, validateZip]
    simp [List.isEmpty_iff, h]
    intro _ _; simp
  refine ⟨hl _ ?_, hl _ ?_, hl _ ?_⟩
  · rw [validate]
    intro h
    rw [C48_figures (by norm_num) (by show (["A"] : List String).Nodup; decide) (by show (["A"] : List String).Nodup; decide)] at h
    obtain ⟨⟨a, b, h1, _⟩, _⟩ : Within _ (.nan) (.nan) ∧ _ := h "A"
    cases h1
  · rw [validate]
    intro h
    rw [C48_figures (by norm_num) (by show (["A"] : List String).Nodup; decide) (by show (["A"] : List String).Nodup; decide)] at h
    obtain ⟨⟨a, b, h1, h2, h3⟩, _⟩ : Within _ (.val 1) (.val 1) ∧ _ := h "A"
    cases h1
    cases h2
    rw [sub_self, abs_zero] at h3
    have : tol.unitRisk / -0.01 < 0 := div_neg_of_pos_of_neg ht (by norm_num)
    linarith
  · intro h
    rw [validate] at h
    unfold compareMaps at h
    have := (List.append_eq_nil_iff.1 h).2
    rw [compareResults] at this
    simp [BumpVol.bumpsize, ndiv, Map.get, differs, napprox] at this

end QM.Risk
