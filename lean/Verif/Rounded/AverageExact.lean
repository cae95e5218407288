import Verif.Rounded.AverageProps
import Verif.MonteCarlo.Props

/-!
# C116: the rounded simulation and the exact one
-/

namespace QM.Rounded
open QM.Interp QM.Instruments QM.MonteCarlo Spec

theorem flows_exact {fuel n : Nat} {ctx : PricingContext} (hn : 0 < n) {flows : List Instrument} {fs : List ((Fin n → ℝ) × ℝ)}
    (h : List.Forall₂ (fun i f => isPureRates i = true ∧ i.price fuel ctx ⟨ctx.spotDate, .open⟩ = .ok (.val f.2)) flows fs) (a : ℝ) :
    flowsLoop fuel ctx n (flows.zip (fs.map fun f => List.ofFn f.1)) (.val a) = .ok (.val (a + (fs.map fun f => mean f.1 * f.2).sum)) := by
  induction h generalizing a with
  | nil => simp [flowsLoop]
  | @cons i f is fs h1 _ ih =>
    have hN : (n : ℝ) ≠ 0 := Nat.cast_ne_zero.2 hn.ne'
    have e : QM.Vol.ndiv (.val (List.ofFn f.1).sum) (.val (n : ℝ)) = .val (mean f.1) := by
      simp [QM.Vol.ndiv, hN, mean, List.sum_ofFn]
    simp only [List.map_cons, List.zip_cons_cons, flowsLoop, h1.1, if_true, h1.2, e]
    refine (ih (a + mean f.1 * f.2)).trans ?_
    rw [List.sum_cons, add_assoc]

/-- C116, the simulation. Whenever the flows of a model are pure rates flows with values, the simulation in exact arithmetic has a price, and the rounded one is as near to it as `C116_close` says. -/
theorem C116_simulated (r : Rounding ℝ) {fuel n : Nat} {m : BlackDiffusion} (hm : m.nPaths = n) (hn : 0 < n) (hmax : n ≤ 2 ^ 32) {how : Adding n} (hf : Fair how) {fs : List ((Fin n → ℝ) × ℝ)}
    (h : List.Forall₂ (fun i f => isPureRates i = true ∧ i.price fuel m.context.pricingContext ⟨m.context.pricingContext.spotDate, .open⟩ = .ok (.val f.2)) m.flows fs) :
    ∃ v, m.evaluateFlows fuel (fs.map fun f => List.ofFn f.1) = .ok (.val v) ∧
      |evaluateFlows r how fs - v| ≤ ((1 + r.unit) ^ (depth how + fs.length + 2) - 1) * (fs.map fun f => (mean fun i => |f.1 i|) * |f.2|).sum := by
  refine ⟨(fs.map fun f => mean f.1 * f.2).sum, ?_, C116_close r hn hmax hf fs⟩
  unfold BlackDiffusion.evaluateFlows
  rw [if_neg, hm, flows_exact hn h 0, zero_add]
  push Not
  refine ⟨?_, ?_⟩
  · simp only [List.mem_map]
    rintro q ⟨f, _, rfl⟩
    rw [List.length_ofFn, hm]
  · rw [List.length_map, h.length_eq]

/-- A model with two paths and the flow of an option. -/
noncomputable def twoPaths (c : Collector) : BlackDiffusion :=
  ⟨[], [QM.MonteCarlo.expiryFlow sampleTerms], ⟨QM.Market.sampleMarket 100 (.zero 0), c, .empty, .empty⟩, .empty, [], [], [], [], 2⟩

/-- C116: it pays three on one path and four on the other. -/
example (c : Collector) : ∃ v, (twoPaths c).evaluateFlows 1 [[3, 4]] = .ok (.val v) ∧ |evaluateFlows reals (running (List.finRange 2)) [(![3, 4], 1)] - v| ≤ ((1 + reals.unit) ^ 5 - 1) * (7 / 2) := by
  obtain ⟨v, h1, h2⟩ := C116_simulated reals (fuel := 1) (m := twoPaths c) (n := 2) (how := running (List.finRange 2)) (fs := [(![3, 4], 1)]) rfl (by norm_num) (by norm_num) (running_fair 2).1
    (.cons ⟨rfl, sample_discount⟩ .nil)
  refine ⟨v, by simpa using h1, h2.trans_eq ?_⟩
  rw [(running_fair 2).2]
  norm_num [mean, Fin.sum_univ_two]

end QM.Rounded
