import Verif.Root.NanProps
import Verif.Root.Props
import Verif.Risk.VegaProps
import Verif.Solvers.Model
import Verif.Solvers.Spec

/-!
# Lemmas on the implied volatility solver
-/

namespace QM.Solvers
open QM.Interp QM.Vol QM.Instruments QM.Instruments.Spec QM.Market QM.Market.Spec QM.Risk QM.Risk.Spec QM.Root QM.Root.Spec QM.Solvers.Spec QM.Calendar

variable {fuel : Nat} {instruments : List (ℝ × Instrument)} {md : MarketData} {p p' : SelfPricer} {id : String} {surface : VolSurface}

theorem withFlat_spotDate (o : Option ℝ) : (withFlat md id surface o).spotDate = md.spotDate := by
  cases o <;> rfl

theorem withFlat_again (o : Option ℝ) (vol : ℝ) (x : Slot) :
    data (withFlat md id surface (some vol)) x =
      Function.update (data (withFlat md id surface o)) (.vol id) (some (.flat (.val vol) surface.calendar surface.baseDate)) x := by
  cases o with
  | none => exact withVol_data _ _ _ _
  | some v =>
    show data (withVol md id _) x = Function.update (data (withVol md id _)) _ _ x
    rw [withVol_data]
    by_cases h : x = .vol id
    · subst h
      rw [Function.update_self, Function.update_self]
    · rw [Function.update_of_ne h, Function.update_of_ne h, withVol_data, Function.update_of_ne h]

theorem withFlat_surface (hs : md.volSurfaces.get id = some surface) (o : Option ℝ) :
    ∃ s, data (withFlat md id surface o) (.vol id) = some s ∧ s.calendar = surface.calendar ∧ s.baseDate = surface.baseDate := by
  cases o with
  | none => exact ⟨surface, hs, rfl, rfl⟩
  | some v =>
    refine ⟨.flat (.val v) surface.calendar surface.baseDate, ?_, rfl, rfl⟩
    show data (withVol md id _) _ = _
    rw [withVol_data, Function.update_self]

/-- Each trial prices the market with the flat volatility of that trial, whatever the trials before it. -/
theorem objective_after {g : ℝ → Num ℝ} (h : ValuedBy fuel instruments md id surface g) (target : ℝ) :
    AnswersAfter (fun o p => At instruments md.spotDate (data (withFlat md id surface o)) p) (objective (selfPricer fuel) id target)
      (fun vol => .ok (num1 (· - target) (g vol))) := by
  intro vol o p hp
  obtain ⟨s, hs, hc, hb⟩ := withFlat_surface h.present o
  obtain ⟨q, hq, _⟩ := value_new (h.valued vol)
  have he : (BumpVol.replace (.val vol)).apply s = .flat (.val vol) surface.calendar surface.baseDate := by
    rw [← hc, ← hb]
    rfl
  have hv : (collect md.spotDate instruments).volSurfaces.get id ≠ none := by
    rw [← keys_get, h.single]
    exact List.mem_singleton.2 rfl
  obtain ⟨p', save', hbump⟩ := hp.bump_vol h.unambiguous (b := .replace (.val vol)) hs h.instrument h.forward hv
    (md := withFlat md id surface (some vol)) (withFlat_spotDate (some vol)) (by
      intro x
      rw [he]
      exact withFlat_again o vol x) hq none
  obtain ⟨_, hat⟩ := hp.bump h.unambiguous (b := .vol id (.replace (.val vol))) (x := .vol id) rfl hs hbump
  have hat' : At instruments md.spotDate (data (withFlat md id surface (some vol))) p' := by
    have e : Function.update (data (withFlat md id surface o)) (.vol id) (some (bumped (.vol id (.replace (.val vol))) (.vol id) s)) =
        data (withFlat md id surface (some vol)) := by
      funext x
      rw [withFlat_again o vol x, ← he]
      rfl
    rwa [e] at hat
  have hprice := hat'.price (withFlat_spotDate (some vol)) (fun _ => rfl) (h.valued vol)
  have hg : priceGivenVol (selfPricer fuel) id vol p = (.ok (g vol), p') := by
    unfold priceGivenVol
    rw [show (selfPricer fuel).bump (.vol id (.replace (.val vol))) p none = (.ok true, p', save') from hbump]
    exact congrArg (·, p') hprice
  unfold objective
  rw [hg]
  exact ⟨rfl, hat'⟩

/-- The solver finds what the search on the function of the volatility finds, and leaves the market of the last trial. -/
theorem solve_after {g : ℝ → Num ℝ} (s : ImpliedVol) (hp : SelfPricer.new instruments md = .ok p) (h : ValuedBy fuel instruments md id surface g)
    {target lo hi : ℝ} {r : Outcome ℝ} {o : Option ℝ}
    (hr : zbrentN lo hi s.tolerance s.maxIter (remembering fun vol => .ok (num1 (· - target) (g vol))) none = (r, o)) :
    ∃ p', s.solve (selfPricer fuel) selfVols p target lo hi = (r, p') ∧ At instruments md.spotDate (data (withFlat md id surface o)) p' := by
  have ha := at_new hp
  obtain ⟨h1, h2⟩ := after_zbrent (objective_after h target) lo hi s.tolerance s.maxIter p ha
  rw [hr] at h1 h2
  refine ⟨_, Prod.ext ?_ ?_, h2⟩ <;>
  · unfold ImpliedVol.solve selfVols
    rw [ha.dependencies, h.single, show singleVolId [id] = .ok id from rfl]
    try exact h1

/-- The flat variance over ten days. -/
theorem flat_variance (v : ℝ) (K : Num ℝ) :
    (VolSurface.flat (.val v) .everyDay (0, 0)).forwardVariance fuel (0, 0) (10, 0) K = .ok (.val (2 / 73 * v ^ 2)) := by
  have hy := everyDay_year 10
  norm_num at hy
  rw [flat_forward]
  left
  exact ⟨before_irrefl _, 2 / 73, hy, by ring_nf⟩

/-- The call of the examples, which expires in ten days, in a market with a spot of 100 and no interest, as a function of the volatility. -/
noncomputable def callAt (K v : ℝ) : Num ℝ := callPrice (.val 1) (.val 100) (.val K) (.val (Real.sqrt (2 / 73 * v ^ 2)))

theorem sample_valued (vol K : ℝ) : ValuedBy fuel [(1, optionA K)] (withVol (sampleMarket 100 (.zero 0)) "A" (.flat (.val vol) .everyDay (0, 0))) "A"
    (.flat (.val vol) .everyDay (0, 0)) (callAt K) where
  single := rfl
  instrument := by
    rw [show (collect _ [(1, optionA K)]).instruments.get "A" = some equityA from rfl]
    simp
  forward := by
    rw [show (collect _ [(1, optionA K)]).forwardCurves.get "A" = some (equityA, 10) from rfl]
    simp
  unambiguous := by
    intro id i hwm j h1 h2
    have e1 : (collect (withVol (sampleMarket 100 (.zero 0)) "A" (.flat (.val vol) .everyDay (0, 0))).spotDate [(1, optionA K)]).forwardCurves =
      ⟨[("A", equityA, 10)]⟩ := rfl
    have e2 : (collect (withVol (sampleMarket 100 (.zero 0)) "A" (.flat (.val vol) .everyDay (0, 0))).spotDate [(1, optionA K)]).instruments =
      ⟨[("A", equityA)]⟩ := rfl
    rw [e1] at h1
    rw [e2] at h2
    by_cases e : id = "A"
    · subst e
      have h1' : some (equityA, (10 : Int)) = some (i, hwm) := h1
      have h2' : some equityA = some j := h2
      cases h1'
      cases h2'
      rfl
    · rw [show Map.get ⟨[("A", equityA, (10 : Int))]⟩ id = none by simp [Map.get, Ne.symm e]] at h1
      cases h1
  present := rfl
  valued := by
    intro v
    refine priced_value (S := 100) (K := K) (by norm_num) rfl rfl rfl (flat_variance v _) (by positivity) ?_ rfl
    intro x
    show data (withVol (withVol _ "A" _) "A" _) x = _
    rw [withVol_data, withVol_data]
    by_cases h : x = .vol "A"
    · subst h
      rw [Function.update_self, Function.update_self]
      rfl
    · rw [Function.update_of_ne h, Function.update_of_ne h, withVol_data, Function.update_of_ne h]

theorem callAt_black {K v : ℝ} (hK : 0 < K) (hv : v ≠ 0) : callAt K v = .val (black 100 K (Real.sqrt (2 / 73 * v ^ 2))) := by
  unfold callAt
  rw [call_black (by norm_num) hK (Real.sqrt_pos.2 (by positivity)), one_mul]

/-- A search on a function that is NaN at the lower end. -/
theorem nan_search {f : ℝ → Num ℝ} {x y z : ℝ} (h0 : f 0 = .nan) (h2 : f 2 = .val x) (h1 : f 1 = .val y) (hh : f (1 / 2) = .val z) (hx : 0 < x)
    (hy : y < 0) (hz : z < 0) (n : Nat) :
    zbrentN 0 2 (1 / 2) (n + 3) (remembering fun v => .ok (f v)) none = (.ok (1 / 2), some (1 / 2)) := by
  have e0 : (epsilon : ℝ) ≤ 1 / 100 := by unfold epsilon; norm_num
  have e1 : (0 : ℝ) < epsilon := by unfold epsilon; norm_num
  unfold zbrentN
  simp only [remembering, h0, h2]
  rw [if_neg (by simp [sameSignN, N.lt])]
  unfold loopN
  have hn1 : swapBestN (renameN (⟨0, 2, 2, .nan, .nan, .nan, .val x, .val x⟩ : VarsN ℝ)) = ⟨0, 2, 0, .val 2, .val 2, .nan, .val x, .nan⟩ := by
    unfold renameN
    rw [if_pos (by simp [sameSignN, N.lt, hx])]
    simp [swapBestN, N.lt, N.abs]
  rw [hn1]
  dsimp only
  have hs1 : newStepN (⟨0, 2, 0, .val 2, .val 2, .nan, .val x, .nan⟩ : VarsN ℝ) (1 / 2) = (.val (-1), .val (-1)) := by
    unfold newStepN
    rw [if_neg (by simp [N.lt, N.abs])]
    norm_num [xmN]
  rw [hs1]
  have ht1 : newTrialN (⟨0, 2, 0, .val 2, .val 2, .nan, .val x, .nan⟩ : VarsN ℝ) (1 / 2) (.val (-1)) = 1 := by
    unfold newTrialN tol1N
    dsimp only
    rw [if_pos (by norm_num; linarith)]
    norm_num
  rw [if_neg (by
    push Not
    constructor
    · unfold xmN tol1N
      norm_num
      linarith
    · intro h
      exact absurd (Num.val.inj h) (ne_of_gt hx)), ht1,
    show remembering (fun v => Except.ok (f v)) 1 (some 2) = (.ok (.val y), some 1) by rw [← h1]; rfl]
  dsimp only
  unfold loopN
  have hn2 : swapBestN (renameN (⟨2, 1, 0, .val (-1), .val (-1), .val x, .val y, .nan⟩ : VarsN ℝ)) = ⟨2, 1, 0, .val (-1), .val (-1), .val x, .val y, .nan⟩ := by
    unfold renameN
    rw [if_neg (by simp [sameSignN, N.lt])]
    simp [swapBestN, N.lt, N.abs]
  rw [hn2]
  dsimp only
  have hs2 : newStepN (⟨2, 1, 0, .val (-1), .val (-1), .val x, .val y, .nan⟩ : VarsN ℝ) (1 / 2) = (.val (-1 / 2), .val (-1 / 2)) := by
    have hq : quadraticN (⟨2, 1, 0, .val (-1), .val (-1), .val x, .val y, .nan⟩ : VarsN ℝ) = (.nan, .nan) := by
      unfold quadraticN
      dsimp only
      rw [if_neg (by norm_num)]
      simp [N.div, N.lift]
    unfold newStepN
    rw [hq]
    split
    · simp [N.lt, N.lift, N.abs, xmN]
      norm_num
    · norm_num [xmN]
  rw [hs2]
  have ht2 : newTrialN (⟨2, 1, 0, .val (-1), .val (-1), .val x, .val y, .nan⟩ : VarsN ℝ) (1 / 2) (.val (-1 / 2)) = 1 / 2 := by
    unfold newTrialN tol1N
    dsimp only
    rw [if_pos (by norm_num [abs_div]; linarith)]
    norm_num
  rw [if_neg (by
    push Not
    constructor
    · unfold xmN tol1N
      norm_num [abs_div]
      linarith
    · intro h
      exact absurd (Num.val.inj h) (ne_of_lt hy)), ht2,
    show remembering (fun v => Except.ok (f v)) (1 / 2) (some 1) = (.ok (.val z), some (1 / 2)) by rw [← hh]; rfl]
  dsimp only
  unfold loopN
  have hn3 : swapBestN (renameN (⟨1, 1 / 2, 0, .val (-1 / 2), .val (-1 / 2), .val y, .val z, .nan⟩ : VarsN ℝ)) =
      ⟨1, 1 / 2, 0, .val (-1 / 2), .val (-1 / 2), .val y, .val z, .nan⟩ := by
    unfold renameN
    rw [if_neg (by simp [sameSignN, N.lt])]
    simp [swapBestN, N.lt, N.abs]
  rw [hn3]
  dsimp only
  rw [if_pos]
  left
  unfold xmN tol1N
  norm_num [abs_div]
  linarith

/-- A search on a function that is zero at the lower end and positive at the upper. -/
theorem zero_search {f : ℝ → Num ℝ} {x : ℝ} (h0 : f 0 = .val 0) (h1 : f 1 = .val x) (hx : 0 < x) (tol : ℝ) (n : Nat) :
    zbrentN 0 1 tol (n + 1) (remembering fun v => .ok (f v)) none = (.ok 0, some 1) := by
  unfold zbrentN
  simp only [remembering, h0, h1]
  rw [if_neg (by simp [sameSignN, N.lt])]
  unfold loopN
  have hn : swapBestN (renameN (⟨0, 1, 1, .nan, .nan, .val 0, .val x, .val x⟩ : VarsN ℝ)) = ⟨1, 0, 1, .val 1, .val 1, .val x, .val 0, .val x⟩ := by
    unfold renameN
    rw [if_pos (by simp [sameSignN, N.lt, hx])]
    unfold swapBestN
    rw [if_pos (by simp [N.lt, N.abs, hx.ne'])]
    simp
  rw [hn]
  simp

end QM.Solvers
