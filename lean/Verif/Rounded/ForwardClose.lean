import Verif.Rounded.ForwardProps
import Verif.Interp.Props

/-!
# C114: how far rounding can take a forward with cash dividends
-/

namespace QM.Rounded
open QM.Interp (Num)
open QM.Dividends (Dividend Accumulation Bootstrap LoopState)

variable {r : Rounding ℝ} {lib : Library} {rate borrow : RateCurve} {base hwm : Int} {settle : Int → Int} {divs : DividendStream} {spot : ℝ}

/-- `x` is `y`, which is not negative, up to a factor of at most `exp τ` either way. -/
structure Near (τ x y : ℝ) : Prop where
  nonneg : 0 ≤ y
  low : Real.exp (-τ) * y ≤ x
  high : x ≤ Real.exp τ * y

theorem Near.zero (τ : ℝ) : Near τ 0 0 := ⟨le_rfl, by simp, by simp⟩

theorem Near.mono {τ τ' x y : ℝ} (h : Near τ x y) (ht : τ ≤ τ') : Near τ' x y :=
  ⟨h.nonneg, (mul_le_mul_of_nonneg_right (Real.exp_le_exp.2 (neg_le_neg ht)) h.nonneg).trans h.low,
    h.high.trans (mul_le_mul_of_nonneg_right (Real.exp_le_exp.2 ht) h.nonneg)⟩

theorem Near.add {τ x y x' y' : ℝ} (h : Near τ x y) (h' : Near τ x' y') : Near τ (x + x') (y + y') :=
  ⟨add_nonneg h.nonneg h'.nonneg, by rw [mul_add]; exact add_le_add h.low h'.low, by rw [mul_add]; exact add_le_add h.high h'.high⟩

theorem Near.pos {τ x y : ℝ} (h : Near τ x y) : 0 ≤ x := (mul_nonneg (Real.exp_pos _).le h.nonneg).trans h.low

theorem Near.mul {τ τ' x y x' y' : ℝ} (h : Near τ x y) (h' : Near τ' x' y') : Near (τ + τ') (x * x') (y * y') := by
  refine ⟨mul_nonneg h.nonneg h'.nonneg, ?_, ?_⟩
  · rw [neg_add, Real.exp_add, mul_mul_mul_comm]
    exact mul_le_mul h.low h'.low (mul_nonneg (Real.exp_pos _).le h'.nonneg) h.pos
  · rw [Real.exp_add, mul_mul_mul_comm]
    exact mul_le_mul h.high h'.high h'.pos (mul_nonneg (Real.exp_pos _).le h.nonneg)

theorem Near.refl {y : ℝ} (h : 0 ≤ y) : Near 0 y y := ⟨h, by simp, by simp⟩

theorem Near.one {e x : ℝ} (hx : |x| ≤ e) (he : e ≤ 1 / 2) : Near (2 * e) (1 + x) 1 := by
  obtain ⟨h1, h2⟩ := one_add_exp hx he
  exact ⟨zero_le_one, by rwa [mul_one], by rwa [mul_one]⟩

theorem Near.rnd (hu : r.unit ≤ 1 / 2) {τ x y : ℝ} (h : Near τ x y) : Near (τ + 2 * r.unit) (r.rnd x) y := by
  obtain ⟨e, he, hx⟩ := factor r x
  rw [hx]
  simpa using h.mul (Near.one he hu)

theorem Near.exp {x y η : ℝ} (h : |x - y| ≤ η) : Near (η + 2 * lib.error) (lib.exp x) (Real.exp y) := by
  obtain ⟨e, he, hx⟩ := lib_factor (lib := lib) x
  rw [hx]
  obtain ⟨h1, h2⟩ := abs_le.1 h
  have : Near η (Real.exp x) (Real.exp y) := by
    refine ⟨(Real.exp_pos _).le, ?_, ?_⟩
    · rw [← Real.exp_add]
      exact Real.exp_le_exp.2 (by linarith)
    · rw [← Real.exp_add]
      exact Real.exp_le_exp.2 (by linarith)
  simpa using this.mul (Near.one he lib.small)

/-- Entries with the same date whose discounted sums are near. -/
structure NearEntry (τ : ℝ) (a a' : Accumulation ℝ) : Prop where
  ex : a.exDate = a'.exDate
  sum : Near τ a.discountedSum a'.discountedSum

/-- States of the two loops that are near. -/
structure NearState (τ T : ℝ) (s s' : LoopState ℝ) : Prop where
  ex : s.prevExDate = s'.prevExDate
  sum : Near τ s.discountedSum s'.discountedSum
  acc : List.Forall₂ (NearEntry T) s.accumulation s'.accumulation

theorem NearState.pushed {τ T : ℝ} {s s' : LoopState ℝ} (h : NearState τ T s s') (ht : τ ≤ T) : List.Forall₂ (NearEntry T) s.pushed s'.pushed :=
  List.rel_append h.acc (.cons ⟨h.ex, h.sum.mono ht⟩ .nil)

theorem loop_near (hu : r.unit ≤ 1 / 2) {df df₀ : Int → Outcome ℝ} {η T : ℝ} {to_ : Int} {X X₀ : ℝ} :
    ∀ {l : List (Dividend ℝ)} {τ : ℝ} {s s' t t' : LoopState ℝ}, (∀ d ∈ l, 0 ≤ d.cash ∧ d.relative = 0) → (∀ d ∈ l, ∀ D D₀, df d.payDate = .ok D → df₀ d.payDate = .ok D₀ → Near η D D₀) → NearState τ T s s' → η + 2 * r.unit ≤ τ →
      τ + 2 * r.unit * l.length ≤ T → bootstrapLoop r base to_ X df l s = .ok t → QM.Dividends.bootstrapLoop base to_ X₀ df₀ l s' = .ok t' → NearState T T t t'
  | [], τ, s, s', t, t', _, _, h, _, hT, ht, ht' => by
    cases ht
    cases ht'
    simp only [List.length_nil, Nat.cast_zero, mul_zero, add_zero] at hT
    exact ⟨h.ex, h.sum.mono hT, h.acc⟩
  | d :: l, τ, s, s', t, t', hl, hdf, h, hη, hT, ht, ht' => by
    have hdf' : ∀ e ∈ l, ∀ D D₀, df e.payDate = .ok D → df₀ e.payDate = .ok D₀ → Near η D D₀ := fun e he => hdf e (List.mem_cons_of_mem _ he)
    have hl' : ∀ e ∈ l, 0 ≤ e.cash ∧ e.relative = 0 := fun e he => hl e (List.mem_cons_of_mem _ he)
    obtain ⟨hc, hz⟩ := hl d List.mem_cons_self
    have hu0 := r.unit_nonneg
    rw [List.length_cons] at hT
    push_cast at hT
    have hlen : (0 : ℝ) ≤ 2 * r.unit * l.length := by positivity
    have hτT : τ ≤ T := by linarith
    rw [bootstrapLoop] at ht
    rw [QM.Dividends.bootstrapLoop, ← h.ex] at ht'
    split at ht
    · rename_i c
      rw [if_pos c] at ht'
      exact loop_near hu hl' hdf' h hη (by linarith) ht ht'
    · rename_i c
      rw [if_neg c] at ht'
      split at ht
      · cases ht
      · rename_i c
        rw [if_neg c] at ht'
        split at ht
        · rename_i c
          rw [if_pos c] at ht'
          cases ht
          cases ht'
          exact ⟨h.ex, h.sum.mono hτT, h.acc⟩
        · rename_i c
          rw [if_neg c] at ht'
          dsimp only at ht ht'
          obtain ⟨v, hv, ht⟩ := bind_inv ht
          obtain ⟨v', hv', ht'⟩ := bind_inv ht'
          refine loop_near hu (τ := τ + 2 * r.unit) hl' hdf' ?_ (by linarith) (by linarith) ht ht'
          have step : ∀ {s s' v v' : LoopState ℝ}, NearState τ T s s' → addDividend r X df d s = .ok v → QM.Dividends.addDividend X₀ df₀ d s' = .ok v' → NearState (τ + 2 * r.unit) T v v' := by
            intro s s' v v' h hv hv'
            unfold addDividend at hv
            unfold QM.Dividends.addDividend at hv'
            obtain ⟨f, hf, hv⟩ := bind_inv hv
            obtain ⟨f', hf', hv'⟩ := bind_inv hv'
            dsimp only at hv hv'
            rw [if_neg (by simp [hz])] at hv hv'
            cases hv
            cases hv'
            refine ⟨h.ex, ?_, h.acc⟩
            have := ((Near.refl hc).mul (hdf d List.mem_cons_self _ _ hf hf')).rnd hu
            exact (h.sum.add (this.mono (by linarith))).rnd hu
          refine step ?_ hv hv'
          split
          · exact ⟨rfl, h.sum, h.pushed hτT⟩
          · exact h

theorem search_dates {a a' : List (Accumulation ℝ)} (h : a.map (·.exDate) = a'.map (·.exDate)) (d : Int) : QM.Dividends.searchAcc a d = QM.Dividends.searchAcc a' d := by
  have h1 : ∀ l : List (Accumulation ℝ), (l.takeWhile fun x => decide (x.exDate < d)).length = ((l.map (·.exDate)).takeWhile fun x => decide (x < d)).length := by
    intro l
    rw [List.takeWhile_map, List.length_map]
    rfl
  unfold QM.Dividends.searchAcc
  dsimp only
  rw [h1, h1, ← List.getElem?_map, ← List.getElem?_map, h]

theorem near_dates {T : ℝ} {a a' : List (Accumulation ℝ)} (h : List.Forall₂ (NearEntry T) a a') : a.map (·.exDate) = a'.map (·.exDate) := by
  induction h with
  | nil => rfl
  | cons h _ ih => rw [List.map_cons, List.map_cons, h.ex, ih]

theorem near_field {T : ℝ} {a a' : List (Accumulation ℝ)} (h : List.Forall₂ (NearEntry T) a a') : ∀ i : Nat,
    Near T ((a[i]?.map (·.discountedSum)).getD 0) ((a'[i]?.map (·.discountedSum)).getD 0) := by
  induction h with
  | nil => intro i; simpa using Near.zero T
  | cons h _ ih =>
    intro i
    cases i with
    | zero => simpa using h.sum
    | succ i => simpa using ih i

theorem near_fill {T : ℝ} {a a' : List (Accumulation ℝ)} (h : List.Forall₂ (NearEntry T) a a') :
    List.Forall₂ (NearEntry T) (QM.Dividends.fillRemaining a) (QM.Dividends.fillRemaining a') := by
  have key : ∀ {a a' : List (Accumulation ℝ)}, List.Forall₂ (NearEntry T) a a' → ∀ (g g' : Accumulation ℝ → Num ℝ),
      List.Forall₂ (NearEntry T) (a.map (fun x => { x with discountedCashRemaining := g x })) (a'.map (fun x => { x with discountedCashRemaining := g' x })) := by
    intro a a' h g g'
    induction h with
    | nil => exact .nil
    | cons h _ ih => exact .cons ⟨h.ex, h.sum⟩ ih
  have half : ∀ a : List (Accumulation ℝ), ∃ g : Accumulation ℝ → Num ℝ, QM.Dividends.fillRemaining a = a.map (fun x => { x with discountedCashRemaining := g x }) := by
    intro a
    unfold QM.Dividends.fillRemaining
    split
    · exact ⟨fun x => x.discountedCashRemaining, by simp⟩
    · exact ⟨fun x => _, rfl⟩
  obtain ⟨g, hg⟩ := half a
  obtain ⟨g', hg'⟩ := half a'
  rw [hg, hg']
  exact key h g g'

theorem near_sum {T : ℝ} {b b' : Bootstrap ℝ} (hm : b.highWaterMark = b'.highWaterMark) (h : List.Forall₂ (NearEntry T) b.accumulation b'.accumulation) {d : Int} {x x' : ℝ}
    (hx : b.discountedSumFromBase d = .ok x) (hx' : b'.discountedSumFromBase d = .ok x') : Near T x x' := by
  unfold Bootstrap.discountedSumFromBase QM.Dividends.sumFromBase at hx hx'
  rw [← hm, ← search_dates (near_dates h)] at hx'
  dsimp only at hx hx'
  split at hx
  · cases hx
  · rename_i c
    rw [if_neg c] at hx'
    split at hx
    · rename_i c
      rw [if_pos c] at hx'
      cases hx
      cases hx'
      exact near_field h _
    · rename_i c
      rw [if_neg c] at hx'
      split at hx
      · rename_i c
        rw [if_pos c] at hx'
        cases hx
        cases hx'
        exact Near.zero T
      · rename_i c
        rw [if_neg c] at hx'
        cases hx
        cases hx'
        exact near_field h _

/-! ### The exact forward, in parts -/

theorem exact_parts {divs : QM.Dividends.DividendStream} {rate borrow : QM.Curves.RateCurve} {f : QM.Forward.EquityForward}
    (h : QM.Forward.EquityForward.new base spot settle rate borrow divs hwm = .ok f) :
    ∃ L S, QM.Forward.logDiscountWithBorrow rate borrow base = .ok L ∧ QM.Forward.logDiscountWithBorrow rate borrow (settle base) = .ok S ∧
      f.referenceSpot = spot * Real.exp (S - L) ∧ f.baseLogDiscount = L ∧ f.settlement = settle ∧ f.rate = rate ∧ f.borrow = borrow ∧
      f.divYield = divs.divYield ∧ QM.Forward.bootstrapStream divs rate borrow f.referenceSpot base hwm = .ok f.bootstrap := by
  unfold QM.Forward.EquityForward.new at h
  obtain ⟨L, hL, h⟩ := bind_inv h
  dsimp only at h
  obtain ⟨D, hD, h⟩ := bind_inv h
  obtain ⟨b, hb, h⟩ := bind_inv h
  unfold QM.Forward.discountWithBorrow at hD
  obtain ⟨S, hS, hD⟩ := bind_inv hD
  cases hD
  cases h
  exact ⟨L, S, hL, hS, rfl, rfl, rfl, rfl, rfl, rfl, hb⟩

theorem exact_value {f : QM.Forward.EquityForward} {d : Int} {x : ℝ} (h : f.forward d = .ok x) :
    ∃ total L y, f.bootstrap.discountedSumFromBase d = .ok total ∧ QM.Forward.logDiscountWithBorrow f.rate f.borrow (f.settlement d) = .ok L ∧
      QM.Forward.number (f.divYield.rt (f.settlement d)) = .ok y ∧ x = (f.referenceSpot - total) * Real.exp (f.baseLogDiscount + y - L) := by
  unfold QM.Forward.EquityForward.forward at h
  obtain ⟨t, ht, h⟩ := bind_inv h
  dsimp only at h
  obtain ⟨L, hL, h⟩ := bind_inv h
  obtain ⟨y, hy, h⟩ := bind_inv h
  cases h
  exact ⟨t, L, y, ht, hL, hy, rfl⟩

/-- The dates on which a forward to `d` asks for rates: today, when the spot settles, when the forward settles, and when dividends are paid. -/
def Asked (base : Int) (settle : Int → Int) (divs : DividendStream) (d e : Int) : Prop :=
  e = base ∨ e = settle base ∨ e = settle d ∨ ∃ v ∈ divs.dividends, e = v.payDate

theorem log_rounds {rate₀ borrow₀ : QM.Curves.RateCurve} {δ : ℝ} {d : Int} (h1 : ∀ x x₀, rate.rt r lib d = .ok (.val x) → rate₀.rt d = .ok (.val x₀) → |x - x₀| ≤ δ)
    (h2 : ∀ x x₀, borrow.rt r lib d = .ok (.val x) → borrow₀.rt d = .ok (.val x₀) → |x - x₀| ≤ δ) {L L₀ : ℝ}
    (h : logDiscountWithBorrow r lib rate borrow d = .ok L) (h₀ : QM.Forward.logDiscountWithBorrow rate₀ borrow₀ d = .ok L₀) : ∃ A, L = r.rnd A ∧ |A - L₀| ≤ 2 * δ := by
  have val : ∀ {o : Outcome (Num ℝ)} {x : ℝ}, number o = .ok x → o = .ok (.val x) := by
    intro o x h
    rcases o with e | (_ | z)
    · cases h
    · cases h
    · cases h
      rfl
  unfold logDiscountWithBorrow at h
  unfold QM.Forward.logDiscountWithBorrow at h₀
  rw [← number_same, ← number_same] at h₀
  obtain ⟨x, hx, h⟩ := bind_inv h
  obtain ⟨y, hy, h⟩ := bind_inv h
  obtain ⟨x₀, hx₀, h₀⟩ := bind_inv h₀
  obtain ⟨y₀, hy₀, h₀⟩ := bind_inv h₀
  cases h
  cases h₀
  refine ⟨_, rfl, ?_⟩
  obtain ⟨a1, a2⟩ := abs_le.1 (h1 _ _ (val hx) (val hx₀))
  obtain ⟨a3, a4⟩ := abs_le.1 (h2 _ _ (val hy) (val hy₀))
  rw [abs_le]
  constructor <;> linarith

/-- C114, accuracy with cash dividends. If the rates times times that the forward asks for are within `δ` of those of exact curves, the forward of a share that pays cash is that of exact
arithmetic, up to a few roundings and one more for each dividend, measured by the forward of the share if it paid nothing, and by what it pays. -/
theorem C114_cash {rate₀ borrow₀ yield₀ : QM.Curves.RateCurve} {M δ τ : ℝ} {d : Int}
    (h1 : ∀ e x x₀, Asked base settle divs d e → rate.rt r lib e = .ok (.val x) → rate₀.rt e = .ok (.val x₀) → |x - x₀| ≤ δ)
    (h2 : ∀ e x x₀, Asked base settle divs d e → borrow.rt r lib e = .ok (.val x) → borrow₀.rt e = .ok (.val x₀) → |x - x₀| ≤ δ)
    (h3 : ∀ x x₀, divs.divYield.rt r lib (settle d) = .ok (.val x) → yield₀.rt (settle d) = .ok (.val x₀) → |x - x₀| ≤ δ)
    (hl : ∀ v ∈ divs.dividends, 0 ≤ v.cash ∧ v.relative = 0) (hs : 0 ≤ spot) (hu : r.unit ≤ 1 / 2)
    (hM : ∀ e L, Asked base settle divs d e → QM.Forward.logDiscountWithBorrow rate₀ borrow₀ e = .ok L → |L| ≤ M) (hY : ∀ y, yield₀.rt (settle d) = .ok (.val y) → |y| ≤ M)
    (hδ : 0 ≤ δ) (hτ : τ = 15 * r.unit * M + 23 * δ + 4 * lib.error + 2 * r.unit * (divs.dividends.length + 4)) (hsmall : τ ≤ 1)
    {f : EquityForward} {f₀ f₁ : QM.Forward.EquityForward} {c hwm' : Int} {x x₀ F : ℝ}
    (h : EquityForward.new r lib base spot settle rate borrow divs hwm = .ok f)
    (h₀ : QM.Forward.EquityForward.new base spot settle rate₀ borrow₀ ⟨divs.dividends, yield₀, divs.lastCash⟩ hwm = .ok f₀)
    (h₁ : QM.Forward.EquityForward.new base spot settle rate₀ borrow₀ ⟨[], yield₀, c⟩ hwm' = .ok f₁)
    (hx : f.forward r lib d = .ok x) (hx₀ : f₀.forward d = .ok x₀) (hx₁ : f₁.forward d = .ok F) : |x - x₀| ≤ 2 * τ * (2 * F - x₀) := by
  have hu0 := r.unit_nonneg
  have he0 := error_nonneg (lib := lib)
  obtain ⟨L, S, a1, a2, a3, a4, a5, a6, a7, a8, a9⟩ := forward_parts h
  obtain ⟨L₀, S₀, b1, b2, b3, b4, b5, b6, b7, b8, b9⟩ := exact_parts h₀
  obtain ⟨L₁, S₁, c1, c2, c3, c4, c5, c6, c7, c8, c9⟩ := exact_parts h₁
  rw [b1] at c1
  cases c1
  rw [b2] at c2
  cases c2
  obtain ⟨t, N, y, k1, k2, k3, rfl⟩ := forward_value hx
  obtain ⟨t₀, N₀, y₀, m1, m2, m3, rfl⟩ := exact_value hx₀
  obtain ⟨t₁, N₁, y₁, n1, n2, n3, rfl⟩ := exact_value hx₁
  rw [a6, a7, a5] at k2
  rw [b6, b7, b5] at m2
  rw [c6, c7, c5, m2] at n2
  cases n2
  rw [a8, a5] at k3
  rw [b8, b5] at m3
  rw [c8, c5, m3] at n3
  cases n3
  have val : ∀ {o : Outcome (Num ℝ)} {x : ℝ}, number o = .ok x → o = .ok (.val x) := by
    intro o x h
    rcases o with e | (_ | z)
    · cases h
    · cases h
    · cases h
      rfl
  have ab : Asked base settle divs d base := .inl rfl
  have as : Asked base settle divs d (settle base) := .inr (.inl rfl)
  have ad : Asked base settle divs d (settle d) := .inr (.inr (.inl rfl))
  rw [← number_same] at m3
  have ey := abs_le.1 (h3 _ _ (val k3) (val m3))
  have hy := abs_le.1 (hY _ (val m3))
  have rounds : ∀ {e : Int} {A A₀ : ℝ}, Asked base settle divs d e → logDiscountWithBorrow r lib rate borrow e = .ok A → QM.Forward.logDiscountWithBorrow rate₀ borrow₀ e = .ok A₀ →
      ∃ A', A = r.rnd A' ∧ |A' - A₀| ≤ 2 * δ := fun ha h h₀ => log_rounds (fun x x₀ => h1 _ x x₀ ha) (fun x x₀ => h2 _ x x₀ ha) h h₀
  have eL := rounds ab a1 b1
  have eS := rounds as a2 b2
  have eN := rounds ad k2 m2
  have hM0 : 0 ≤ M := (abs_nonneg _).trans (hM _ _ ab b1)
  have huM : r.unit * M ≤ 1 / 2 * M := mul_le_mul_of_nonneg_right hu hM0
  have huM0 : 0 ≤ r.unit * M := mul_nonneg hu0 hM0
  have hud : r.unit * δ ≤ 1 / 2 * δ := mul_le_mul_of_nonneg_right hu hδ
  set ε := 3 * δ + r.unit * M with hε
  have hε0 : 0 ≤ ε := by positivity
  have hue : r.unit * ε ≤ 1 / 2 * ε := mul_le_mul_of_nonneg_right hu hε0
  have gap : ∀ {x x₀ : ℝ}, (∃ A, x = r.rnd A ∧ |A - x₀| ≤ 2 * δ) → |x₀| ≤ M → -ε ≤ x - x₀ ∧ x - x₀ ≤ ε := by
    rintro x x₀ ⟨A, rfl, hA⟩ hx
    obtain ⟨g1, g2⟩ := abs_le.1 hA
    obtain ⟨g3, g4⟩ := abs_le.1 hx
    obtain ⟨g5, g6⟩ := abs_le.1 ((r.close A).trans (mul_le_mul_of_nonneg_left (show |A| ≤ M + 2 * δ by rw [abs_le]; constructor <;> linarith) hu0))
    constructor <;> linarith
  have factor_near : ∀ {A A₀ : ℝ}, (∃ A', A = r.rnd A' ∧ |A' - A₀| ≤ 2 * δ) → |A₀| ≤ M → Near (9 * δ + 5 * r.unit * M + 2 * lib.error) (lib.exp (r.rnd (A - L))) (Real.exp (A₀ - L₀)) := by
    intro A A₀ hA hAM
    obtain ⟨g1, g2⟩ := gap hA hAM
    obtain ⟨g3, g4⟩ := gap eL (hM _ _ ab b1)
    obtain ⟨g5, g6⟩ := abs_le.1 hAM
    obtain ⟨g7, g8⟩ := abs_le.1 (hM _ _ ab b1)
    have := (r.close (A - L)).trans (mul_le_mul_of_nonneg_left (show |A - L| ≤ 2 * M + 2 * ε by rw [abs_le]; constructor <;> linarith) hu0)
    obtain ⟨g9, g10⟩ := abs_le.1 this
    exact Near.exp (abs_le.2 ⟨by linarith, by linarith⟩)
  have ref : Near (9 * δ + 5 * r.unit * M + 2 * lib.error + 2 * r.unit) f.referenceSpot f₀.referenceSpot := by
    rw [a3, b3]
    have := ((Near.refl hs).mul (factor_near eS (hM _ _ as b2))).rnd hu
    rwa [zero_add] at this
  have growth : Near (14 * δ + 10 * r.unit * M + 2 * lib.error) (lib.exp (r.rnd (r.rnd (f.baseLogDiscount + y) - N))) (Real.exp (f₀.baseLogDiscount + y₀ - N₀)) := by
    rw [a4, b4]
    obtain ⟨g1, g2⟩ := gap eN (hM _ _ ad m2)
    obtain ⟨g3, g4⟩ := gap eL (hM _ _ ab b1)
    obtain ⟨g5, g6⟩ := abs_le.1 (hM _ _ ad m2)
    obtain ⟨g7, g8⟩ := abs_le.1 (hM _ _ ab b1)
    obtain ⟨g9, g10⟩ := hy
    obtain ⟨g11, g12⟩ := ey
    have i := (r.close (L + y)).trans (mul_le_mul_of_nonneg_left (show |L + y| ≤ 2 * M + ε + δ by rw [abs_le]; constructor <;> linarith) hu0)
    obtain ⟨i1, i2⟩ := abs_le.1 i
    have j := (r.close (r.rnd (L + y) - N)).trans (mul_le_mul_of_nonneg_left (show |r.rnd (L + y) - N| ≤ 4 * M + 5 / 2 * ε + 3 / 2 * δ by rw [abs_le]; constructor <;> linarith) hu0)
    obtain ⟨j1, j2⟩ := abs_le.1 j
    exact Near.exp (abs_le.2 ⟨by linarith, by linarith⟩)
  have total : Near (9 * δ + 5 * r.unit * M + 2 * lib.error + 2 * r.unit + 2 * r.unit * divs.dividends.length) t t₀ := by
    set T := 9 * δ + 5 * r.unit * M + 2 * lib.error + 2 * r.unit + 2 * r.unit * divs.dividends.length with hT
    unfold bootstrapStream at a9
    unfold QM.Forward.bootstrapStream QM.Dividends.Bootstrap.new QM.Forward.bootstrapDiscount at b9
    dsimp only at b9
    cases hq : divs.dividends.getLast? with
    | none =>
      rw [hq] at a9 b9
      have e : f.bootstrap = f₀.bootstrap := by
        cases hf : f.bootstrap
        cases hf₀ : f₀.bootstrap
        rw [hf] at a9
        rw [hf₀] at b9
        cases a9
        cases b9
        rfl
      have ha : f.bootstrap.accumulation = [] := by
        cases hf : f.bootstrap
        rw [hf] at a9
        cases a9
        rfl
      refine near_sum (by rw [e]) ?_ k1 m1
      rw [← e, ha]
      exact .nil
    | some last =>
      rw [hq] at a9 b9
      dsimp only at a9 b9
      split at a9
      · cases a9
      split at b9
      · cases b9
      rw [bind_val a1] at a9
      rw [b1] at b9
      obtain ⟨s, hs', a9⟩ := bind_inv a9
      obtain ⟨df₀, hd₀, b9⟩ := bind_inv b9
      cases hd₀
      obtain ⟨s₀, hs₀, b9⟩ := bind_inv b9
      have hdf : ∀ v ∈ divs.dividends, ∀ D D₀, discountWithBorrow r lib rate borrow L v.payDate = .ok D → QM.Forward.discountWithBorrow rate₀ borrow₀ L₀ v.payDate = .ok D₀ → Near (9 * δ + 5 * r.unit * M + 2 * lib.error) D D₀ := by
        intro v hv D D₀ hD hD₀
        have av : Asked base settle divs d v.payDate := .inr (.inr (.inr ⟨v, hv, rfl⟩))
        unfold discountWithBorrow at hD
        unfold QM.Forward.discountWithBorrow at hD₀
        obtain ⟨A, hA, hD⟩ := bind_inv hD
        obtain ⟨A₀, hA₀, hD₀⟩ := bind_inv hD₀
        cases hD
        cases hD₀
        exact factor_near (rounds av hA hA₀) (hM _ _ av hA₀)
      have near := loop_near (T := T) hu hl hdf (τ := 9 * δ + 5 * r.unit * M + 2 * lib.error + 2 * r.unit) ⟨rfl, Near.zero _, .nil⟩ le_rfl hT.ge hs' hs₀
      have hm : f.bootstrap.highWaterMark = f₀.bootstrap.highWaterMark ∧ List.Forall₂ (NearEntry T) f.bootstrap.accumulation f₀.bootstrap.accumulation := by
        generalize f.bootstrap = B at a9 ⊢
        generalize f₀.bootstrap = B₀ at b9 ⊢
        cases a9
        cases b9
        refine ⟨rfl, near_fill ?_⟩
        rw [← near.ex]
        split
        · exact near.pushed le_rfl
        · exact near.acc
      exact near_sum hm.1 hm.2 k1 m1
  have nothing : t₁ = 0 := by
    unfold QM.Forward.bootstrapStream QM.Dividends.Bootstrap.new at c9
    dsimp only [List.getLast?] at c9
    generalize f₁.bootstrap = B at c9 n1
    cases c9
    unfold Bootstrap.discountedSumFromBase QM.Dividends.sumFromBase QM.Dividends.searchAcc at n1
    split at n1
    · cases n1
    · simp at n1
      exact n1.symm
  subst nothing
  have hsame : f₁.referenceSpot = f₀.referenceSpot := by rw [b3, c3]
  rw [hsame, c4, b4]
  rw [b4] at growth
  obtain ⟨q1, g1, e1⟩ := factor r (f.referenceSpot - t)
  obtain ⟨q2, g2, e2⟩ := factor r (r.rnd (f.referenceSpot - t) * lib.exp (r.rnd (r.rnd (f.baseLogDiscount + y) - N)))
  set G := Real.exp (L₀ + y₀ - N₀) with hG
  set g := lib.exp (r.rnd (r.rnd (f.baseLogDiscount + y) - N)) with hg
  have last : Near (14 * δ + 10 * r.unit * M + 2 * lib.error + 2 * r.unit + 2 * r.unit) (g * (1 + q1) * (1 + q2)) G := by
    have := (growth.mul (Near.one g1 hu)).mul (Near.one g2 hu)
    simpa using this
  have A := (ref.mul last).mono (τ' := τ) (by
    rw [hτ]
    have : (0 : ℝ) ≤ 2 * r.unit * divs.dividends.length := by positivity
    linarith)
  have B := (total.mul last).mono (τ' := τ) (by
    rw [hτ]
    linarith)
  have hτ0 : 0 ≤ τ := by
    rw [hτ]
    positivity
  have close : ∀ {x y : ℝ}, Near τ x y → |x - y| ≤ 2 * τ * y := by
    intro x y h
    rcases h.nonneg.eq_or_lt with h0 | h0
    · have l1 := h.low
      have l2 := h.high
      rw [← h0] at l1 l2 ⊢
      simp only [mul_zero] at l1 l2 ⊢
      rw [le_antisymm l2 l1]
      simp
    · have := exp_near (x := x / y) ((le_div_iff₀ h0).2 h.low) ((div_le_iff₀ h0).2 h.high) hτ0 hsmall
      rw [show x - y = (x / y - 1) * y by field_simp, abs_mul, abs_of_pos h0]
      exact mul_le_mul_of_nonneg_right this h0.le
  have e : r.rnd (r.rnd (f.referenceSpot - t) * g) = f.referenceSpot * (g * (1 + q1) * (1 + q2)) - t * (g * (1 + q1) * (1 + q2)) := by
    rw [e2, e1]
    ring
  rw [e]
  obtain ⟨u1, u2⟩ := abs_le.1 (close A)
  obtain ⟨u3, u4⟩ := abs_le.1 (close B)
  rw [abs_le]
  constructor <;> linarith

/-! ### An example -/

/-- A yield of five percent, rounded and exact. -/
noncomputable def fivePercent : RateCurve := .act365 0 ⟨.flat, .flat, [(365, (1 / 20 : ℝ))]⟩

noncomputable def fivePercentExact : QM.Curves.RateCurve := .act365 0 ⟨.flat, .flat, [(.val 365, (1 / 20 : ℝ))]⟩

/-- A dividend of two, paid in a year. -/
noncomputable def yearly : DividendStream := ⟨[⟨2, 0, 365, 365⟩], .zero 0, 365⟩

/-- The rates that the forward to the end of the year asks for are within a rounding of the exact ones, and the bound on the error is small. -/
example : (∀ e x x₀, Asked 0 (fun d => d) yearly 365 e → fivePercent.rt reals correct e = .ok (.val x) → fivePercentExact.rt e = .ok (.val x₀) → |x - x₀| ≤ reals.unit * (1 / 20)) ∧
    fivePercent.rt reals correct 365 = .ok (.val (reals.rnd (1 / 20))) ∧ fivePercentExact.rt 365 = .ok (.val (1 / 20)) ∧
    15 * reals.unit * (1 / 20) + 23 * (reals.unit * (1 / 20)) + 4 * correct.error + 2 * reals.unit * (yearly.dividends.length + 4) ≤ 1 := by
  have hk : correct.error = (1 / 2) ^ 53 := rfl
  have i1 : reals.rnd ((365 - 0 : Int) : ℝ) = 365 := (reals.int _ (by norm_num)).trans (by norm_num)
  have a1 : act365 reals 0 365 = 1 := by
    unfold act365
    rw [i1, div_self (by norm_num), reals.one]
  have r0 : fivePercent.rt reals correct 0 = .ok (.val 0) := by
    unfold fivePercent
    rw [rt_of (x := 0) (t := 0), mul_zero, reals.zero]
    rw [RateCurve.rAndT, if_pos (by norm_num)]
  have r1 : fivePercent.rt reals correct 365 = .ok (.val (reals.rnd (1 / 20))) := by
    unfold fivePercent
    rw [rt_of (x := 1 / 20) (t := 1), mul_one]
    rw [RateCurve.rAndT, if_neg (by norm_num), bind_val (one_point ..), a1]
    rfl
  have e0 : fivePercentExact.rt 0 = .ok (.val 0) := by
    norm_num [fivePercentExact, QM.Curves.RateCurve.rt, QM.Curves.RateCurve.rAndT, QM.Curves.onNum, bind, Except.bind, pure, Except.pure]
  have e1 : fivePercentExact.rt 365 = .ok (.val (1 / 20)) := by
    have h := QM.Interp.C15_pillar (K := ℝ) (points := [(.val 365, 1 / 20)]) (left := .flat) (right := .flat) (x := 365) (y := 1 / 20) rfl (by simp)
    norm_num [fivePercentExact, QM.Curves.RateCurve.rt, QM.Curves.RateCurve.rAndT, QM.Curves.onNum, bind, Except.bind, pure, Except.pure, h]
  refine ⟨?_, r1, e1, ?_⟩
  · intro e x x₀ he hx hx₀
    have : e = 0 ∨ e = 365 := by
      rcases he with h | h | h | ⟨v, hv, h⟩
      · exact .inl h
      · exact .inl h
      · exact .inr h
      · simp only [yearly, List.mem_singleton] at hv
        subst hv
        exact .inr h
    rcases this with rfl | rfl
    · rw [r0] at hx
      rw [e0] at hx₀
      cases hx
      cases hx₀
      rw [sub_self, abs_zero]
      exact mul_nonneg reals.unit_nonneg (by norm_num)
    · rw [r1] at hx
      rw [e1] at hx₀
      cases hx
      cases hx₀
      have := reals.close (1 / 20)
      rwa [abs_of_pos (by norm_num : (0 : ℝ) < 1 / 20)] at this
  · rw [reals_unit, hk]
    norm_num [yearly]

end QM.Rounded

