import Verif.MonteCarlo.ScaleProps
import Verif.Risk.FundingReports

/-!
# Property C113 for Monte-Carlo pricers: yields and borrow costs that rise together only discount
-/

namespace QM.MonteCarlo
open QM.Interp QM.Curves QM.Curves.Spec QM.Vol QM.Fixings QM.Instruments QM.Market QM.Market.Spec QM.Risk QM.Risk.Spec

variable {a : String → Int → ℝ} {creditOf : String → String} {md md' : MarketData} {fuel : Nat} {f : ModelFactory} {l : List (ℝ × Instrument)} {draw : Draws} {k : ℝ}

/-- The terms of an option. -/
def Spec.terms : Instrument → Option Vanilla
  | .spotStarting v _ _ => some v
  | .forwardStarting v _ _ _ _ => some v
  | _ => none

theorem higher_flows {c c' : PricingContext} (h : HigherYields a c c') (n : Nat) (q : List (Instrument × List ℝ))
    (hq : ∀ e ∈ q, Financeable creditOf e.1 ∧ discountRatio a c.spotDate e.1 = k) :
    ∀ total, flowsLoop fuel c' n q (num1 (k * ·) total) = (flowsLoop fuel c n q total).map (num1 (k * ·)) := by
  induction q with
  | nil => exact fun _ => rfl
  | cons e q ih =>
    obtain ⟨i, q'⟩ := e
    intro total
    obtain ⟨h1, h2⟩ := hq _ (List.mem_cons_self ..)
    simp only [flowsLoop]
    split
    · rw [h.spotDate, price_higher h h1]
      cases i.price fuel c ⟨c.spotDate, .open⟩ with
      | error e => rfl
      | ok x =>
        have e : num2 (· + ·) (num1 (k * ·) total) (num2 (· * ·) (ndiv (.val q'.sum) (.val n)) (num1 (discountRatio a c.spotDate i * ·) x)) =
            num1 (k * ·) (num2 (· + ·) total (num2 (· * ·) (ndiv (.val q'.sum) (.val n)) x)) := by
          dsimp only at h2
          rw [h2]
          generalize ndiv _ _ = y
          cases total <;> cases x <;> cases y <;> simp [num1, num2]
          ring
        show flowsLoop fuel c' n q (num2 (· + ·) (num1 (k * ·) total) (num2 (· * ·) (ndiv (.val q'.sum) (.val n)) (num1 (discountRatio a c.spotDate i * ·) x))) = _
        rw [e]
        exact ih (fun e he => hq e (List.mem_cons_of_mem _ he)) _
    · rfl

theorem higher_mcPrice {m : BlackDiffusion} (h : HigherYields a m.context.pricingContext (inMarket md' m).context.pricingContext)
    (hq : ∀ i ∈ m.flows, Financeable creditOf i ∧ discountRatio a m.context.pricingContext.spotDate i = k) (i : Instrument) :
    mcPrice fuel (inMarket md' m) i = (mcPrice fuel m i).map (num1 (k * ·)) := by
  have e : ∀ qs, (inMarket md' m).evaluateFlows fuel qs = (m.evaluateFlows fuel qs).map (num1 (k * ·)) := by
    intro qs
    unfold BlackDiffusion.evaluateFlows
    split
    · rw [if_pos (by assumption)]
      rfl
    · rw [if_neg (by assumption)]
      have := higher_flows (fuel := fuel) h m.nPaths (m.flows.zip qs) (fun e he => hq e.1 (List.of_mem_zip he).1) (.val 0)
      rw [show num1 (k * ·) (.val 0) = .val 0 by simp [num1]] at this
      exact this
  have hp : ∀ u, (inMarket md' m).pathsOf u = m.pathsOf u := fun _ => rfl
  have ho : (inMarket md' m).observations = m.observations := rfl
  cases i with
  | spotStarting v u s =>
    simp only [mcPrice, e, hp, ho]
    cases m.pathsOf u with
    | error e => rfl
    | ok x =>
      rw [ok_bind, ok_bind]
      split <;> rfl
  | forwardStarting v u s d t =>
    simp only [mcPrice, e, hp, ho]
    cases m.pathsOf u with
    | error e => rfl
    | ok x =>
      rw [ok_bind, ok_bind]
      split <;> rfl
  | _ =>
    show Except.ok (Num.val 0) = Except.ok (Num.val (k * 0))
    rw [mul_zero]

theorem higher_mcLoop {m : BlackDiffusion} (h : HigherYields a m.context.pricingContext (inMarket md' m).context.pricingContext)
    (hq : ∀ i ∈ m.flows, Financeable creditOf i ∧ discountRatio a m.context.pricingContext.spotDate i = k) (l : List (ℝ × Instrument)) :
    ∀ total, mcLoop fuel (inMarket md' m) l (num1 (k * ·) total) = (mcLoop fuel m l total).map (num1 (k * ·)) := by
  induction l with
  | nil => exact fun _ => rfl
  | cons e l ih =>
    obtain ⟨w, i⟩ := e
    intro total
    simp only [mcLoop, higher_mcPrice h hq]
    cases mcPrice fuel m i with
    | error e => rfl
    | ok x =>
      have e : num2 (· + ·) (num1 (k * ·) total) (num1 (w * ·) (num1 (k * ·) x)) = num1 (k * ·) (num2 (· + ·) total (num1 (w * ·) x)) := by
        cases total <;> cases x <;> simp [num1, num2]
        ring
      show mcLoop fuel (inMarket md' m) l (num2 (· + ·) (num1 (k * ·) total) (num1 (w * ·) (num1 (k * ·) x))) = _
      rw [e]
      exact ih _

theorem timeline_flows_of {P : Instrument → Prop} (hl : ∀ e ∈ l, ∀ v, Spec.terms e.2 = some v → P (expiryFlow v)) :
    ∀ {t t' : Timeline}, timeline l t = .ok t' → (∀ i ∈ t.flows, P i) → ∀ i ∈ t'.flows, P i := by
  induction l with
  | nil =>
    intro t t' h ht
    injection h with h
    rw [← h]
    exact ht
  | cons e l ih =>
    obtain ⟨w, i⟩ := e
    intro t t' h ht
    rw [timeline] at h
    obtain ⟨t1, h1, h⟩ := bind_ok h
    refine ih (fun e he => hl e (List.mem_cons_of_mem _ he)) h ?_
    have hf : ∀ (t : Timeline) u x, (t.observation u x).flows = t.flows := by
      intro t u x
      unfold Timeline.observation
      split <;> rfl
    have hv := hl _ (List.mem_cons_self ..)
    cases i with
    | spotStarting v u s =>
      injection h1 with h1
      rw [← h1]
      intro j hj
      rcases List.mem_append.1 hj with hj | hj
      · rw [hf] at hj
        exact ht j hj
      · rw [List.mem_singleton.1 hj]
        exact hv v rfl
    | forwardStarting v u s d x =>
      injection h1 with h1
      rw [← h1]
      intro j hj
      rcases List.mem_append.1 hj with hj | hj
      · rw [hf, hf] at hj
        exact ht j hj
      · rw [List.mem_singleton.1 hj]
        exact hv v rfl
    | _ => cases h1

/-- C113 by Monte-Carlo, whatever was drawn. If yields rise and borrow costs with them, the same paths are walked, and the price is multiplied by what the discounting
of the payments changes by. Payments of options are discounted at the credits of the options. -/
theorem C113_simulated {p : MonteCarlo} (h : Financed a creditOf md md') (hi : ∀ e ∈ l, Financeable creditOf e.2)
    (hk : ∀ e ∈ l, ∀ v, Spec.terms e.2 = some v → Real.exp (a v.creditId (v.settlement md.spotDate) - a v.creditId v.payDate) = k)
    (hp : MonteCarlo.new fuel f l md draw = .ok p) :
    ∃ p', MonteCarlo.new fuel f l md' draw = .ok p' ∧ p'.model.paths = p.model.paths ∧ p'.price fuel = (p.price fuel).map (num1 (k * ·)) := by
  unfold MonteCarlo.new Prefetch.new at hp ⊢
  rw [h.spotDate, walk_financed h _ _ (collect_financed md.spotDate hi)]
  obtain ⟨t, ht, hp⟩ := bind_ok hp
  rw [ht, ok_bind]
  obtain ⟨ctx, hctx, hp'⟩ := bind_ok hp
  obtain ⟨m, hm, hend⟩ := bind_ok hp'
  generalize walkDependencies md _ _ _ _ = w at hctx ⊢
  obtain ⟨w, fs, vs⟩ := w
  cases w with
  | error e => cases hctx
  | ok u =>
    cases u
    injection hctx with hctx
    subst hctx
    have hp : (⟨f, l, m⟩ : MonteCarlo) = p := Except.ok.inj hend
    subst hp
    have hm' : BlackDiffusion.new fuel f t ⟨md, collect md.spotDate l, fs, vs⟩ draw = .ok m := hm
    have hc : m.context = ⟨md, collect md.spotDate l, fs, vs⟩ := by
      obtain ⟨_, _, _, _, _, _, _, _, _, hmod⟩ := model_new_ok hm'
      rw [hmod]
    have hflows : m.flows = t.flows := by
      obtain ⟨_, _, _, _, _, _, _, _, _, hmod⟩ := model_new_ok hm'
      rw [hmod]
    refine ⟨⟨f, l, inMarket md' m⟩, ?_, rfl, ?_⟩
    · show (BlackDiffusion.new fuel f t ⟨md', collect md.spotDate l, fs, vs⟩ draw >>= _) = _
      rw [model_inMarket (md' := md), hm']
      rfl
    · have hh : HigherYields a m.context.pricingContext (inMarket md' m).context.pricingContext := by
        unfold inMarket
        rw [hc]
        refine ⟨h.spotDate, ?_, rfl, rfl, fun id hwm => named_find h.yieldCurves id⟩
        funext id
        show find id md'.spots = find id md.spots
        rw [h.spots]
      have := higher_mcLoop (fuel := fuel) (creditOf := creditOf) (k := k) hh (by
        rw [hflows, hc]
        exact timeline_flows_of (fun e he v hv => ⟨trivial, hk e he v hv⟩) ht (fun i hi => by cases hi)) l (.val 0)
      rw [show num1 (k * ·) (.val 0) = .val 0 by simp [num1]] at this
      exact this

/-- C113: in the sample market without rates, 1000 paths of a call that is paid on day 10. With rates and a cost of borrow of 5 percent the paths are the same, and the price is
discounted. -/
example (draw' : Draws) : ∃ (yc bc : RateCurve) (p p' : MonteCarlo) (x : ℝ),
    MonteCarlo.new fuel ⟨0.001, 1000⟩ [(2, euro .call sampleTerms "A" "C" _root_.id 90)] (withVol (sampleMarket 100 (.zero 0)) "A" (.flat (.val 0.2) .everyDay (0, 0))) draw = .ok p ∧
    p.price fuel = .ok (.val x) ∧ RateCurve.newAct365 0 [(0, 0.05)] .flat .flat = .ok yc ∧
    MonteCarlo.new fuel ⟨0.001, 1000⟩ [(2, euro .call sampleTerms "A" "C" _root_.id 90)]
      (withBorrow (withVol (sampleMarket 100 yc) "A" (.flat (.val 0.2) .everyDay (0, 0))) "A" bc) draw = .ok p' ∧
    p'.model.paths = p.model.paths ∧ p'.price fuel = .ok (.val (Real.exp (-(0.05 * (10 / 365))) * x)) := by
  obtain ⟨p, x, r, _, Δ, Γ, g1, g2, _⟩ := C109_simulated_partial (fuel := fuel) (f := ⟨0.001, 1000⟩) (n := 2) (b := 0.01) (sample_setting 0.2 100 90) rfl rfl
    (fun s _ => sample_variance _ _) (by norm_num) (by norm_num) (by norm_num) (by norm_num) (by norm_num) (by norm_num) (by norm_num) draw draw' .call
  obtain ⟨yc, y1, hf⟩ := sample_financed
  obtain ⟨p', h1, h2, h3⟩ := C113_simulated (k := Real.exp (-(0.05 * (10 / 365)))) hf (by
    intro e he
    rw [List.mem_singleton.1 he]
    exact ⟨"A", _root_.id, rfl⟩) (by
    intro e he v hv
    rw [List.mem_singleton.1 he] at hv
    injection hv with hv
    rw [← hv]
    congr 1
    show 0.05 * years 0 0 - 0.05 * years 0 10 = _
    simp [years]) g1
  rw [g2] at h3
  exact ⟨yc, yc, p, p', x, g1, g2, y1, h1, h2, h3⟩

end QM.MonteCarlo
