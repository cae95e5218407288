import Verif.Instruments.Lemmas
import Verif.Curves.Lemmas

/-!
# Helper lemmas for options
-/

namespace QM.Instruments
open QM.Interp QM.Vol QM.Fixings Spec
open QM.Curves (RateCurve)

variable {fuel : Nat} {ctx : PricingContext} {dates : List DateTime}

theorem ok_bind {α β : Type} (a : α) (f : α → Outcome β) : ((.ok a : Outcome α) >>= f) = f a := rfl

theorem error_bind {α β : Type} (e : Fault) (f : α → Outcome β) : ((.error e : Outcome α) >>= f) = .error e := rfl

theorem vanillaPrices_nil {v : Vanilla} {u : Instrument} {volFrom : Point} {sf : Outcome (Num ℝ × Num ℝ)} :
    vanillaPrices fuel ctx v u volFrom sf [] = .ok [] := rfl

theorem vanillaPrices_cons {v : Vanilla} {u : Instrument} {volFrom : Point} {sf : Outcome (Num ℝ × Num ℝ)} {d : DateTime}
    {ds : List DateTime} {out : List (Num ℝ)} :
    vanillaPrices fuel ctx v u volFrom sf (d :: ds) = .ok out ↔ ∃ yc vol strike forward rt δ,
      ctx.yieldCurve u.creditId v.payDate = .ok yc ∧
      ctx.volSurface u v.expiry.date (fun _ => ctx.forwardCurve u v.expiry.date) = .ok vol ∧
      sf = .ok (strike, forward) ∧ yc.rt v.payDate = .ok rt ∧ vol.displacement v.expiry.date = .ok δ ∧
      ¬ nlt (num2 (· - ·) forward δ) (.val 0) ∧
      List.Forall₂ (fun d x => vanillaValue fuel v u.timeToDayFraction yc vol (num1 (fun x => Real.exp (-x)) rt) strike
        (num2 (· - ·) forward δ) (num2 (· + ·) strike δ) volFrom d = .ok x) (d :: ds) out := by
  unfold vanillaPrices
  constructor
  · intro h
    obtain ⟨yc, h1, h⟩ := bind_ok h
    obtain ⟨vol, h2, h⟩ := bind_ok h
    obtain ⟨⟨strike, forward⟩, h3, h⟩ := bind_ok h
    obtain ⟨rt, h4, h⟩ := bind_ok h
    obtain ⟨δ, h5, h⟩ := bind_ok h
    dsimp only at h
    split at h
    · cases h
    · rename_i h6
      exact ⟨yc, vol, strike, forward, rt, δ, h1, h2, h3, h4, h5, h6, each_iff.1 h⟩
  · rintro ⟨yc, vol, strike, forward, rt, δ, h1, h2, h3, h4, h5, h6, h7⟩
    simp only [h1, h2, h3, h4, h5, ok_bind, if_neg h6]
    exact each_iff.2 h7

/-- The formula of an option kind. -/
noncomputable def formula : PutOrCall → Num ℝ → Num ℝ → Num ℝ → Num ℝ → Num ℝ
  | .put => putPrice
  | .call => callPrice

theorem vanillaValue_ok {v : Vanilla} {timeOf : DateTime → Outcome Point} {yc : RateCurve} {vol : VolSurface}
    {dfFromBase strike f k : Num ℝ} {volFrom : Point} {d : DateTime} (hd : notAfter d v.expiry) {x : Num ℝ} :
    vanillaValue fuel v timeOf yc vol dfFromBase strike f k volFrom d = .ok x ↔ ∃ rt valDate variance sqrtVar,
      yc.rt (v.settlement d.date) = .ok rt ∧ timeOf d = .ok valDate ∧
      vol.forwardVariance fuel (later volFrom valDate) v.expiryTime strike = .ok variance ∧
      optionSqrtVariance variance = .ok sqrtVar ∧
      x = formula v.putOrCall (num2 (· * ·) dfFromBase (num1 Real.exp rt)) f k sqrtVar := by
  unfold vanillaValue
  rw [if_pos hd]
  constructor
  · intro h
    obtain ⟨rt, h1, h⟩ := bind_ok h
    obtain ⟨valDate, h2, h⟩ := bind_ok h
    obtain ⟨variance, h3, h⟩ := bind_ok h
    obtain ⟨sqrtVar, h4, h⟩ := bind_ok h
    refine ⟨rt, valDate, variance, sqrtVar, h1, h2, h3, h4, ?_⟩
    cases hpc : v.putOrCall <;> rw [hpc] at h <;> exact (pure_ok h).symm
  · rintro ⟨rt, valDate, variance, sqrtVar, h1, h2, h3, h4, rfl⟩
    simp only [h1, h2, h3, h4, ok_bind]
    cases v.putOrCall <;> rfl

theorem vanillaValue_after {v : Vanilla} {timeOf : DateTime → Outcome Point} {yc : RateCurve} {vol : VolSurface}
    {dfFromBase strike f k : Num ℝ} {volFrom : Point} {d : DateTime} (hd : ¬ notAfter d v.expiry) :
    vanillaValue fuel v timeOf yc vol dfFromBase strike f k volFrom d = .ok (.val 0) := by
  unfold vanillaValue
  rw [if_neg hd]
  rfl

/-- Whether an option can be valued does not depend on its kind. -/
theorem vanillaValue_kind {v w : Vanilla} (h : { w with putOrCall := v.putOrCall } = v) {timeOf : DateTime → Outcome Point}
    {yc : RateCurve} {vol : VolSurface} {dfFromBase strike f k : Num ℝ} {volFrom : Point} {d : DateTime} {e : Fault}
    (he : vanillaValue fuel v timeOf yc vol dfFromBase strike f k volFrom d = .error e) :
    vanillaValue fuel w timeOf yc vol dfFromBase strike f k volFrom d = .error e := by
  have h1 : v.expiry = w.expiry := by rw [← h]
  have h2 : v.settlement = w.settlement := by rw [← h]
  have h3 : v.expiryTime = w.expiryTime := by rw [← h]
  unfold vanillaValue at he ⊢
  rw [h1, h2, h3] at he
  by_cases hd : notAfter d w.expiry
  · rw [if_pos hd] at he ⊢
    cases e1 : yc.rt (w.settlement d.date) with
    | error e' => rw [e1] at he; exact he
    | ok rt =>
      rw [e1] at he
      simp only [ok_bind] at he ⊢
      cases e2 : timeOf d with
      | error e' => rw [e2] at he; exact he
      | ok vd =>
        rw [e2] at he
        simp only [ok_bind] at he ⊢
        cases e3 : vol.forwardVariance fuel (later volFrom vd) w.expiryTime strike with
        | error e' => rw [e3] at he; exact he
        | ok va =>
          rw [e3] at he
          simp only [ok_bind] at he ⊢
          cases e4 : optionSqrtVariance va with
          | error e' => rw [e4] at he; exact he
          | ok sv =>
            rw [e4] at he
            simp only [ok_bind] at he
            cases hpc : v.putOrCall <;> rw [hpc] at he <;> cases he
  · rw [if_neg hd] at he
    cases he

theorem each_error {α β : Type} {f g : α → Outcome β} (h : ∀ x e, f x = .error e → g x = .error e)
    (h' : ∀ x e, g x = .error e → f x = .error e) {xs : List α}
    {e : Fault} (he : each f xs = .error e) : each g xs = .error e := by
  induction xs with
  | nil => cases he
  | cons x xs ih =>
    unfold each at he ⊢
    cases h1 : f x with
    | error e' =>
      rw [h1] at he
      cases he
      rw [h x e h1]
      rfl
    | ok y =>
      rw [h1] at he
      cases h2 : g x with
      | error e' =>
        have := h' x e' h2
        rw [h1] at this
        cases this
      | ok z =>
        simp only [ok_bind] at he ⊢
        cases h3 : each f xs with
        | error e' =>
          rw [h3] at he ih
          cases he
          rw [ih rfl]
          rfl
        | ok ys => rw [h3] at he; cases he

theorem vanillaPrices_kind {v w : Vanilla} (h : { w with putOrCall := v.putOrCall } = v) {u : Instrument} {volFrom : Point}
    {sf : Outcome (Num ℝ × Num ℝ)} {e : Fault} (he : vanillaPrices fuel ctx v u volFrom sf dates = .error e) :
    vanillaPrices fuel ctx w u volFrom sf dates = .error e := by
  have h' : { v with putOrCall := w.putOrCall } = w := by rw [← h]
  have h1 : v.expiry = w.expiry := by rw [← h]
  have h2 : v.payDate = w.payDate := by rw [← h]
  cases dates with
  | nil => cases he
  | cons d ds =>
    unfold vanillaPrices at he ⊢
    dsimp only at he ⊢
    rw [h1, h2] at he
    cases e1 : ctx.yieldCurve u.creditId w.payDate with
    | error e' => rw [e1] at he; exact he
    | ok yc =>
      rw [e1] at he
      simp only [ok_bind] at he ⊢
      cases e2 : ctx.volSurface u w.expiry.date (fun _ => ctx.forwardCurve u w.expiry.date) with
      | error e' => rw [e2] at he; exact he
      | ok vol =>
        rw [e2] at he
        simp only [ok_bind] at he ⊢
        cases e3 : sf with
        | error e' => rw [e3] at he; exact he
        | ok p =>
          obtain ⟨strike, forward⟩ := p
          rw [e3] at he
          simp only [ok_bind] at he ⊢
          cases e4 : yc.rt w.payDate with
          | error e' => rw [e4] at he; exact he
          | ok rt =>
            rw [e4] at he
            simp only [ok_bind] at he ⊢
            cases e5 : vol.displacement w.expiry.date with
            | error e' => rw [e5] at he; exact he
            | ok δ =>
              rw [e5] at he
              simp only [ok_bind] at he ⊢
              by_cases hn : nlt (num2 (· - ·) forward δ) (.val 0)
              · rw [if_pos hn] at he ⊢
                exact he
              · rw [if_neg hn] at he ⊢
                exact each_error (fun _ _ => vanillaValue_kind h) (fun _ _ => vanillaValue_kind h') he

theorem nonNegative_ok {x y : Num ℝ} (h : nonNegative x = .ok y) : x = y ∧ ∀ v, x = .val v → 0 ≤ v := by
  unfold nonNegative at h
  split at h
  · cases h
  · rename_i hn
    cases h
    refine ⟨rfl, ?_⟩
    rintro v rfl
    simp only [nlt] at hn
    linarith

theorem forall2_getElem {α β : Type} {R : α → β → Prop} {xs : List α} {ys : List β} (h : List.Forall₂ R xs ys) {j : Nat} {x : α}
    {y : β} (hx : xs[j]? = some x) (hy : ys[j]? = some y) : R x y := by
  induction h generalizing j with
  | nil => simp at hx
  | cons h1 _ ih =>
    cases j with
    | zero =>
      simp at hx hy
      subst hx hy
      exact h1
    | succ j => exact ih (by simpa using hx) (by simpa using hy)

theorem df_product {yc : RateCurve} {a b : Int} {x y : Num ℝ} {D : ℝ} (ha : yc.rt a = .ok x) (hb : yc.rt b = .ok y)
    (hD : num2 (· * ·) (num1 (fun x => Real.exp (-x)) x) (num1 Real.exp y) = .val D) : yc.df a b = .ok (.val D) := by
  cases x with
  | nan => simp [num1, num2] at hD
  | val x =>
    cases y with
    | nan => simp [num1, num2] at hD
    | val y =>
      simp only [num1, num2, Num.val.injEq] at hD
      rw [Curves.df_eq ha hb, ← hD, ← Real.exp_add]
      congr 3
      ring

/-- What the prices of a call and a put on the same terms have to do with each other on one date. -/
theorem vanilla_parity {v : Vanilla} {u : Instrument} {volFrom : Point} {sf : Outcome (Num ℝ × Num ℝ)}
    {cs ps : List (Num ℝ)} (hc : vanillaPrices fuel ctx { v with putOrCall := .call } u volFrom sf dates = .ok cs)
    (hp : vanillaPrices fuel ctx { v with putOrCall := .put } u volFrom sf dates = .ok ps) {j : Nat} {d : DateTime} {x y : Num ℝ}
    (hd : dates[j]? = some d) (hx : cs[j]? = some x) (hy : ps[j]? = some y) (hex : notAfter d v.expiry) :
    (x = .nan ∧ y = .nan) ∨ ∃ c p yc vol K F δ D,
      x = .val c ∧ y = .val p ∧ ctx.yieldCurve u.creditId v.payDate = .ok yc ∧
      ctx.volSurface u v.expiry.date (fun _ => ctx.forwardCurve u v.expiry.date) = .ok vol ∧
      vol.displacement v.expiry.date = .ok (.val δ) ∧
      sf = .ok (.val K, .val F) ∧ yc.df v.payDate (v.settlement d.date) = .ok (.val D) ∧
      c - p = D * ((F - δ) - (K + δ)) := by
  cases dates with
  | nil => simp at hd
  | cons d0 ds =>
    obtain ⟨yc, vol, K, F, rt, δ, h1, h2, h3, h4, h5, _, h7⟩ := vanillaPrices_cons.1 hc
    obtain ⟨yc', vol', K', F', rt', δ', g1, g2, g3, g4, g5, _, g7⟩ := vanillaPrices_cons.1 hp
    dsimp only at h1 h2 h3 h4 h5 g1 g2 g3 g4 g5
    rw [h1] at g1; cases g1
    rw [h2] at g2; cases g2
    rw [h3] at g3; cases g3
    rw [h4] at g4; cases g4
    rw [h5] at g5; cases g5
    have hv := forall2_getElem h7 hd hx
    have gv := forall2_getElem g7 hd hy
    obtain ⟨rs, vd, va, sv, a1, a2, a3, a4, rfl⟩ := (vanillaValue_ok (v := { v with putOrCall := .call }) hex).1 hv
    obtain ⟨rs', vd', va', sv', b1, b2, b3, b4, rfl⟩ := (vanillaValue_ok (v := { v with putOrCall := .put }) hex).1 gv
    dsimp only at a1 a2 a3 b1 b2 b3
    rw [a1] at b1; cases b1
    rw [a2] at b2; cases b2
    rw [a3] at b3; cases b3
    rw [a4] at b4; cases b4
    simp only [formula]
    rcases call_put (num2 (· * ·) (num1 (fun x => Real.exp (-x)) rt) (num1 Real.exp rs)) (num2 (· - ·) F δ)
      (num2 (· + ·) K δ) sv with h | ⟨D, F', K', c, p, eD, eF, eK, ec, ep, e⟩
    · exact .inl h
    · right
      cases F with
      | nan => simp [num2] at eF
      | val F =>
        cases δ with
        | nan => simp [num2] at eF
        | val δ =>
          cases K with
          | nan => simp [num2] at eK
          | val K =>
            simp only [num2, Num.val.injEq] at eF eK
            subst eF eK
            exact ⟨c, p, yc, vol, K, F, δ, D, ec, ep, h1, h2, h5, h3, df_product h4 a1 eD, e⟩

end QM.Instruments
