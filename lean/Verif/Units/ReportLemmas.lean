import Verif.Units.RiskLemmas

/-!
# Helper lemmas: reports of any pricer in another unit
-/

namespace QM.Units.Any
open QM.Interp QM.Vol QM.Instruments QM.Market QM.Risk QM.Units

variable {c : ℝ} {σ S : Type}

/-- What the report generators ask of a pricer, in the two units. -/
structure Commutes (c : ℝ) (P : Pricer σ S) (φ : σ → σ) (ψ : S → S) (good : σ → Prop) : Prop where
  bump : ∀ b p s, P.bump (Units.bump c b) (φ p) (s.map ψ) = ((P.bump b p s).1, φ (P.bump b p s).2.1, (P.bump b p s).2.2.map ψ)
  bump_good : ∀ b p s, good p → good (P.bump b p s).2.1
  restore : ∀ p s, P.restore (φ p) (ψ s) = φ (P.restore p s)
  restore_good : ∀ p s, good p → good (P.restore p s)
  newSave : ψ P.newSave = P.newSave
  price : ∀ p, good p → P.price (φ p) = (P.price p).map (amount c)
  ids : ∀ p, P.ids (φ p) = P.ids p
  spot : ∀ p id, P.spot (φ p) id = (P.spot p id).map (c * ·)
  bumpTime : ∀ b p, good p → P.bumpTime b (φ p) = ((P.bumpTime b p).1, φ (P.bumpTime b p).2)
  bumpTime_good : ∀ b p, good p → good (P.bumpTime b p).2

variable {P : Pricer σ S} {φ : σ → σ} {ψ : S → S} {good : σ → Prop}

theorem bumpedPrice_units (C : Commutes c P φ ψ good) (b : Bump) (p : σ) (s : Option S) (v : Num ℝ) (hq : good p) :
    bumpedPrice P (Units.bump c b) (φ p) (s.map ψ) (amount c v) =
      ((bumpedPrice P b p s v).1.map (amount c), φ (bumpedPrice P b p s v).2.1, (bumpedPrice P b p s v).2.2.map ψ) ∧
    good (bumpedPrice P b p s v).2.1 := by
  unfold bumpedPrice
  rw [C.bump]
  have hi := C.bump_good b p s hq
  generalize P.bump b p s = r at hi
  obtain ⟨o, q, s'⟩ := r
  cases o with
  | error e => exact ⟨rfl, hi⟩
  | ok u =>
    cases u with
    | false => exact ⟨rfl, hi⟩
    | true =>
      refine ⟨?_, hi⟩
      show (P.price (φ q), _, _) = ((P.price q).map _, _, _)
      rw [C.price q hi]

theorem upAndDown_units (C : Commutes c P φ ψ good) (up down : Bump) (p : σ) (s : S) (v : Num ℝ) (hq : good p) :
    upAndDown P (Units.bump c up) (Units.bump c down) (φ p) (ψ s) (amount c v) =
      ((upAndDown P up down p s v).1.map fun r => (amount c r.1, amount c r.2), φ (upAndDown P up down p s v).2.1,
        ψ (upAndDown P up down p s v).2.2) ∧
    good (upAndDown P up down p s v).2.1 := by
  unfold upAndDown
  obtain ⟨h1, i1⟩ := bumpedPrice_units C up p (some s) v hq
  rw [Option.map_some] at h1
  rw [h1]
  generalize bumpedPrice P up p (some s) v = r at i1
  obtain ⟨o, q, s1⟩ := r
  have hs : (s1.map ψ).getD (ψ s) = ψ (s1.getD s) := by cases s1 <;> rfl
  cases o with
  | error e =>
    refine ⟨?_, i1⟩
    simp only [map_error, hs]
  | ok x =>
    obtain ⟨h2, i2⟩ := bumpedPrice_units C down q none v i1
    rw [Option.map_none] at h2
    simp only [map_ok, h2, hs]
    generalize bumpedPrice P down q none v = r at i2
    obtain ⟨o, q2, s2⟩ := r
    cases o with
    | error e => exact ⟨rfl, i2⟩
    | ok y =>
      refine ⟨?_, C.restore_good _ _ i2⟩
      simp only [map_ok, C.newSave, C.restore]

theorem deltaLoop_units (hc : 0 < c) (C : Commutes c P φ ψ good) (b : ℝ) (v : Num ℝ) (ids : List String) : ∀ (p : σ) (s : S) (m : Map String (Num ℝ × Num ℝ)),
    good p →
    deltaGammaLoop P b (amount c v) ids (φ p) (ψ s) (onValues (fun r => (r.1, perAmount c r.2)) m) =
      ((deltaGammaLoop P b v ids p s m).1.map (onValues (fun r => (r.1, perAmount c r.2))),
        φ (deltaGammaLoop P b v ids p s m).2.1, ψ (deltaGammaLoop P b v ids p s m).2.2) ∧
    good (deltaGammaLoop P b v ids p s m).2.1 := by
  induction ids with
  | nil => exact fun _ _ _ hq => ⟨rfl, hq⟩
  | cons id ids ih =>
    intro p s m hq
    have e : P.spot (φ p) id = (P.spot p id).map (c * ·) := C.spot p id
    simp only [deltaGammaLoop, e]
    cases P.spot p id with
    | error e => exact ⟨rfl, hq⟩
    | ok x =>
      simp only [map_ok]
      have h := upAndDown_units C (.spot id (.relative b)) (.spot id (.relative ((1 - b) / (1 + b) - 1))) p s v hq
      obtain ⟨h, hi⟩ := h
      simp only [Units.bump, bumpSpot] at h
      rw [h]
      generalize upAndDown P (.spot id (.relative b)) (.spot id (.relative ((1 - b) / (1 + b) - 1))) p s v = r at hi
      obtain ⟨o, q, s'⟩ := r
      cases o with
      | error e => exact ⟨rfl, hi⟩
      | ok r =>
        obtain ⟨up, down⟩ := r
        have hq' : good q := hi
        have k := ih q s' (m.insert id (Risk.first up down (.val (b * x)), Risk.second up down v (.val (b * x)))) hq'
        rw [← insert_onValues] at k
        dsimp only at k
        simp only [map_ok, mul_left_comm b c x, first_amounts hc, second_amounts hc]
        exact k

theorem vegaLoop_units (C : Commutes c P φ ψ good) (b : BumpVol) (v : Num ℝ) (ids : List String) : ∀ (p : σ) (s : S) (m : Map String (Num ℝ × Num ℝ)),
    good p →
    vegaVolgaLoop P b (amount c v) ids (φ p) (ψ s) (onValues (fun r => (amount c r.1, amount c r.2)) m) =
      ((vegaVolgaLoop P b v ids p s m).1.map (onValues (fun r => (amount c r.1, amount c r.2))),
        φ (vegaVolgaLoop P b v ids p s m).2.1, ψ (vegaVolgaLoop P b v ids p s m).2.2) ∧
    good (vegaVolgaLoop P b v ids p s m).2.1 := by
  induction ids with
  | nil => exact fun _ _ _ hq => ⟨rfl, hq⟩
  | cons id ids ih =>
    intro p s m hq
    simp only [vegaVolgaLoop]
    have h := upAndDown_units C (.vol id b) (.vol id b.opposite) p s v hq
    obtain ⟨h, hi⟩ := h
    simp only [Units.bump] at h
    rw [h]
    generalize upAndDown P (.vol id b) (.vol id b.opposite) p s v = r at hi
    obtain ⟨o, q, s'⟩ := r
    cases o with
    | error e => exact ⟨rfl, hi⟩
    | ok r =>
      obtain ⟨up, down⟩ := r
      have hq' : good q := hi
      have k := ih q s' (m.insert id (Risk.first up down b.bumpsize, Risk.second up down v b.bumpsize)) hq'
      rw [← insert_onValues] at k
      dsimp only at k
      rw [← first_flat, ← second_flat] at k
      exact k

mutual
theorem generate_units (hc : 0 < c) (C : Commutes c P φ ψ good) : ∀ (g : Generator) (p : σ) (s : S) (v : Num ℝ), good p →
    generate P g (φ p) (ψ s) (amount c v) =
      ((generate P g p s v).1.map (report c), φ (generate P g p s v).2.1,
        ψ (generate P g p s v).2.2) ∧
    good (generate P g p s v).2.1
  | .deltaGamma b, p, s, v, hq => by
    have e : P.ids (φ p) = P.ids p := C.ids p
    obtain ⟨h, hi⟩ := deltaLoop_units hc C b v (P.ids p) p s .empty hq
    have e' : onValues (fun r : Num ℝ × Num ℝ => (r.1, perAmount c r.2)) (.empty : Map String _) = .empty := rfl
    rw [e'] at h
    simp only [generate, e]
    rw [h]
    generalize deltaGammaLoop P b v (P.ids p) p s .empty = r at hi
    obtain ⟨o, q, s'⟩ := r
    cases o with
    | error e => exact ⟨rfl, hi⟩
    | ok m => exact ⟨by simp only [map_ok, report], hi⟩
  | .vegaVolga b, p, s, v, hq => by
    have e : P.ids (φ p) = P.ids p := C.ids p
    obtain ⟨h, hi⟩ := vegaLoop_units C b v (P.ids p) p s .empty hq
    have e' : onValues (fun r : Num ℝ × Num ℝ => (amount c r.1, amount c r.2)) (.empty : Map String _) = .empty := rfl
    rw [e'] at h
    simp only [generate, e]
    rw [h]
    generalize vegaVolgaLoop P b v (P.ids p) p s .empty = r at hi
    obtain ⟨o, q, s'⟩ := r
    cases o with
    | error e => exact ⟨rfl, hi⟩
    | ok m => exact ⟨by simp only [map_ok, report], hi⟩
  | .timeBumped b gs, p, s, v, hq => by
    have hq' := C.bumpTime_good b p hq
    simp only [generate, C.bumpTime b p hq]
    generalize P.bumpTime b p = r at hq'
    obtain ⟨o, q⟩ := r
    cases o with
    | error e => exact ⟨rfl, hq⟩
    | ok u =>
      simp only [C.price q hq']
      cases P.price q with
      | error e => exact ⟨rfl, hq⟩
      | ok x =>
        obtain ⟨h, _⟩ := generateAll_units hc C gs q s x hq'
        simp only [map_ok, h]
        obtain ⟨o, q', s'⟩ := generateAll P gs q s x
        cases o with
        | error e => exact ⟨rfl, hq⟩
        | ok rs =>
          refine ⟨?_, hq⟩
          simp only [map_ok, report]
          have : num2 (· - ·) (amount c x) (amount c v) = amount c (num2 (· - ·) x v) := by
            cases x <;> cases v <;> simp [num2, mul_sub]
          rw [this]

theorem generateAll_units (hc : 0 < c) (C : Commutes c P φ ψ good) : ∀ (gs : List Generator) (p : σ) (s : S) (v : Num ℝ), good p →
    generateAll P gs (φ p) (ψ s) (amount c v) =
      ((generateAll P gs p s v).1.map (reports c), φ (generateAll P gs p s v).2.1,
        ψ (generateAll P gs p s v).2.2) ∧
    good (generateAll P gs p s v).2.1
  | [], p, s, v, hq => by
    exact ⟨by simp only [generateAll, map_ok, reports], hq⟩
  | g :: gs, p, s, v, hq => by
    obtain ⟨h, hi⟩ := generate_units hc C g p s v hq
    simp only [generateAll, h]
    generalize generate P g p s v = r at hi
    obtain ⟨o, q, s'⟩ := r
    cases o with
    | error e => exact ⟨rfl, hi⟩
    | ok x =>
      have hq' : good q := hi
      obtain ⟨h, hi'⟩ := generateAll_units hc C gs q s' v hq'
      simp only [map_ok, h]
      generalize generateAll P gs q s' v = r at hi'
      obtain ⟨o, q', s''⟩ := r
      cases o with
      | error e => exact ⟨rfl, hi'⟩
      | ok xs => exact ⟨by simp only [map_ok, reports], hi'⟩
end

theorem calculate_units (hc : 0 < c) (C : Commutes c P φ ψ good) (m m' : Outcome σ) (hm : m' = m.map φ) (hq : ∀ p, m = .ok p → good p) (gs : List Generator) :
    calculate P m' gs = (calculate P m gs).map (reports c) := by
  subst hm
  unfold calculate
  cases m with
  | error e => rfl
  | ok p =>
    have hq := hq p rfl
    simp only [map_ok, ok_to, C.price p hq]
    cases P.price p with
    | error e => rfl
    | ok x =>
      have h := (generateAll_units hc C gs p P.newSave x hq).1
      rw [C.newSave] at h
      simp only [map_ok, ok_to, h]

end QM.Units.Any
